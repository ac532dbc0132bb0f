import Verif.Lemmas.RepDftPure

/-!
# The chain functionals in empty regions

Where the density vanishes the shell average may be exactly zero, and its absolute value has no derivative
there.  The functional has one, because the density multiplies it.
-/

open Filter Topology

namespace PcSaft
open Props
variable {F D X : Type} [F64 F] [DualNum F D] [TopologicalSpace X] {n : ℕ}

section weak
variable {x0 : X} {emb : ℝ → F → Prop} {ρ : Rep x0 emb D} {t0 : ℝ}

/-- value represented, and some defined number in place of the derivative -/
def WeakR (ρ : Rep x0 emb D) (t0 : ℝ) (f : X × ℝ → ℝ) (d : Dual D) : Prop :=
  ContinuousAt f (x0, t0) ∧ ρ.R (fun x => f (x, t0)) d.re ∧ ∃ f' : X → ℝ, ρ.R f' d.eps

theorem DualR.weak {f : X × ℝ → ℝ} {d : Dual D} (h : DualR ρ t0 f d) : WeakR ρ t0 f d :=
  ⟨h.1, h.2.1, h.2.2.choose, h.2.2.choose_spec.2⟩

theorem WeakR.mul {f g : X × ℝ → ℝ} {a b : Dual D} (hf : WeakR ρ t0 f a) (hg : WeakR ρ t0 g b) :
    WeakR ρ t0 (fun x => f x * g x) (a * b) := by
  obtain ⟨hc, hre, f', heps⟩ := hf
  obtain ⟨hc2, hre2, g', heps2⟩ := hg
  exact ⟨hc.mul hc2, ρ.mul hre hre2, _, ρ.add (ρ.mul heps hre2) (ρ.mul heps2 hre)⟩

theorem WeakR.sub {f g : X × ℝ → ℝ} {a b : Dual D} (hf : WeakR ρ t0 f a) (hg : WeakR ρ t0 g b) :
    WeakR ρ t0 (fun x => f x - g x) (a - b) := by
  obtain ⟨hc, hre, f', heps⟩ := hf
  obtain ⟨hc2, hre2, g', heps2⟩ := hg
  exact ⟨hc.sub hc2, ρ.sub hre hre2, _, ρ.sub heps heps2⟩

theorem WeakR.add {f g : X × ℝ → ℝ} {a b : Dual D} (hf : WeakR ρ t0 f a) (hg : WeakR ρ t0 g b) :
    WeakR ρ t0 (fun x => f x + g x) (a + b) := by
  obtain ⟨hc, hre, f', heps⟩ := hf
  obtain ⟨hc2, hre2, g', heps2⟩ := hg
  exact ⟨hc.add hc2, ρ.add hre hre2, _, ρ.add heps heps2⟩

theorem WeakR.neg {f : X × ℝ → ℝ} {a : Dual D} (hf : WeakR ρ t0 f a) : WeakR ρ t0 (fun x => -f x) (-a) := by
  obtain ⟨hc, hre, f', heps⟩ := hf
  exact ⟨hc.neg, ρ.neg hre, _, ρ.neg heps⟩

theorem WeakR.ln {f : X × ℝ → ℝ} {a : Dual D} (hf : WeakR ρ t0 f a) (hp : 0 < f (x0, t0)) :
    WeakR ρ t0 (fun x => Real.log (f x)) (DualNum.ln a) := by
  obtain ⟨hc, hre, f', heps⟩ := hf
  exact ⟨hc.log hp.ne', ρ.ln hre hp, _, ρ.mul heps (ρ.recip hre hp.ne')⟩

/-- a factor that vanishes at the point needs no differentiable partner -/
theorem DualR.mul_weak (hiso : 𝓝 x0 = pure x0) {f g : X × ℝ → ℝ} {a b : Dual D} (hf : DualR ρ t0 f a)
    (hg : WeakR ρ t0 g b) (h0 : f (x0, t0) = 0) : DualR ρ t0 (fun x => g x * f x) (b * a) := by
  obtain ⟨hc, hre, f', hf', heps⟩ := hf
  obtain ⟨hc2, hre2, g', heps2⟩ := hg
  refine ⟨hc2.mul hc, ρ.mul hre2 hre, fun x => g' x * f (x, t0) + f' x * g (x, t0), ?_,
    ρ.add (ρ.mul heps2 hre) (ρ.mul heps hre2)⟩
  rw [hiso] at hf' ⊢
  have hd : HasDerivAt (fun t => f (x0, t)) (f' x0) t0 := hf'
  change HasDerivAt (fun t => g (x0, t) * f (x0, t)) (g' x0 * f (x0, t0) + f' x0 * g (x0, t0)) t0
  rw [h0, mul_zero, zero_add]
  have hcg : ContinuousAt (fun t => g (x0, t)) t0 :=
    ContinuousAt.comp (f := fun t => (x0, t)) hc2 (Continuous.prodMk_right x0).continuousAt
  rw [hasDerivAt_iff_tendsto_slope] at hd ⊢
  have e : slope (fun t => g (x0, t) * f (x0, t)) t0 = fun t => slope (fun t => f (x0, t)) t0 t * g (x0, t) := by
    funext t
    simp only [slope, vsub_eq_sub, smul_eq_mul, h0]
    ring
  rw [e]
  exact hd.mul (hcg.tendsto.mono_left nhdsWithin_le_nhds)

end weak

section model
variable {x0 : X} {emb : ℝ → F → Prop} {ρ : Rep x0 emb D} (le : LawfulEmb emb) {t0 : ℝ}
include le

theorem weak_chainLambda {l : X × ℝ → ℝ} {ld : Dual D} (h : DualR ρ t0 l ld) (hiso : 𝓝 x0 = pure x0) :
    WeakR ρ t0 (fun x => chainLambda (l x)) (chainLambda ld) := by
  have e0 : (0.0 : ℝ) = 0 := by norm_num
  have habs : ∀ x, chainLambda (l x) = |l x| + f64EPSILON := by
    intro x
    simp only [chainLambda, lt_real, re_real, e0, c, ofF_real, decide_eq_true_eq]
    congr 1
    split_ifs with h
    · exact (abs_of_neg h).symm
    · exact (abs_of_nonneg (not_lt.mp h)).symm
  have hs : (repDual le ρ t0).R (fun _ => (f64EPSILON : ℝ)) (c (f64EPSILON : F)) :=
    (repDual le ρ t0).constOf (CR.sci le _ _ _)
  have hbr : WeakR ρ t0 (fun x => |l x|) (if F64.lt (DualNum.re ld) (0.0 : F) then -ld else ld) := by
    have hre := (repDual le ρ t0).re h
    have hlt : F64.lt (DualNum.re ld) (0.0 : F) = decide (l (x0, t0) < 0) := by
      have h0 := le.sci 0 true 1
      rw [show (OfScientific.ofScientific 0 true 1 : ℝ) = 0 from e0] at h0
      exact ρ.sharp hiso hre h0
    rw [hlt]
    by_cases hneg : l (x0, t0) < 0
    · simp only [hneg, decide_true, if_true]
      refine ⟨h.1.abs, ?_, h.weak.neg.2.2⟩
      refine ρ.congr (ρ.neg h.2.1) ?_
      rw [hiso]
      exact (abs_of_neg hneg).symm
    · simp only [hneg, decide_false, Bool.false_eq_true, if_false]
      refine ⟨h.1.abs, ?_, h.weak.2.2⟩
      refine ρ.congr h.2.1 ?_
      rw [hiso]
      exact (abs_of_nonneg (not_lt.mp hneg)).symm
  have := hbr.add (DualR.weak hs)
  simp only [habs]
  exact this

theorem rep_chainTerm_empty (hiso : 𝓝 x0 = pure x0) {d rho l z2 z3 : X × ℝ → ℝ} {dd rhod ld z2d z3d : Dual D} {m : ℝ}
    {m' : F} (hm : CR emb m m') (hd : DualR ρ t0 d dd) (hrho : DualR ρ t0 rho rhod) (hl : DualR ρ t0 l ld)
    (h2 : DualR ρ t0 z2 z2d) (h3 : DualR ρ t0 z3 z3d) (hd0 : 0 < d (x0, t0)) (h0 : rho (x0, t0) = 0)
    (h20 : 0 ≤ z2 (x0, t0)) (h30 : z3 (x0, t0) < 1) :
    DualR ρ t0 (fun x => chainTerm (d x) m (rho x) (chainLambda (l x)) (z2 x) (DualNum.recip (-z3 x + (c 1.0 : ℝ))))
      (chainTerm dd m' rhod (chainLambda ld) z2d (DualNum.recip (-z3d + c 1.0))) := by
  set r := repDual le ρ t0 with hr
  have hd : r.R d dd := hd
  have h2 : r.R z2 z2d := h2
  have e1 : (1.0 : ℝ) = 1 := by norm_num
  have hu : 0 < -z3 (x0, t0) + 1 := by linarith
  have hr := r.recip' (r.add (r.neg h3) (r.constOf (CR.sci le 10 true 1))) (by
    simp only [c, ofF_real, e1]; exact hu.ne')
  have hlam := weak_chainLambda le hl hiso
  have hz := r.mul h2 hd
  have hy : r.R (fun x => z2 x * d x * DualNum.recip (-z3 x + (c 1.0 : ℝ)) * DualNum.recip (-z3 x + (c 1.0 : ℝ))
        * (z2 x * d x * DualNum.recip (-z3 x + (c 1.0 : ℝ)) * c 0.5 + c 1.5) + DualNum.recip (-z3 x + (c 1.0 : ℝ)))
      (z2d * dd * DualNum.recip (-z3d + c 1.0) * DualNum.recip (-z3d + c 1.0)
        * (z2d * dd * DualNum.recip (-z3d + c 1.0) * c 0.5 + c 1.5) + DualNum.recip (-z3d + c 1.0)) := by
    rep
  have hln := ((DualR.weak hy).mul hlam).ln (by
    refine mul_pos ?_ (chainLambda_pos _)
    simp only [c, ofF_real, recip_real, e1]
    norm_num
    have : 0 < (-z3 (x0, t0) + 1)⁻¹ := inv_pos.mpr hu
    have : 0 ≤ z2 (x0, t0) * d (x0, t0) * (-z3 (x0, t0) + 1)⁻¹ * (-z3 (x0, t0) + 1)⁻¹
        * (z2 (x0, t0) * d (x0, t0) * (-z3 (x0, t0) + 1)⁻¹ * (1 / 2) + 3 / 2) := by positivity
    norm_num at this
    linarith)
  have hw := hln.sub (DualR.weak (r.constOf (CR.sci le 10 true 1)))
  exact r.mul (DualR.mul_weak hiso hrho hw h0) (r.constOf (CR.sub le hm (CR.sci le _ _ _)))

variable {p : PcSaftParameters n ℝ} {q : PcSaftParameters n F} (hp : ParamRel emb p q)
include hp

theorem rep_chainFunctional_empty (hiso : 𝓝 x0 = pure x0) {T : X × ℝ → ℝ} {Td : Dual D} (hT : DualR ρ t0 T Td)
    (hT0 : T (x0, t0) ≠ 0) {rho lambda : Fin n → X × ℝ → ℝ} {rhod lambdad : Fin n → Dual D} {z2 z3 : X × ℝ → ℝ}
    {z2d z3d : Dual D} (hrho : ∀ i, DualR ρ t0 (rho i) (rhod i)) (hl : ∀ i, DualR ρ t0 (lambda i) (lambdad i))
    (h2 : DualR ρ t0 z2 z2d) (h3 : DualR ρ t0 z3 z3d) (hd0 : ∀ i, 0 < hsDiameter p (T (x0, t0)) i)
    (hl0 : ∀ i, lambda i (x0, t0) ≠ 0 ∨ rho i (x0, t0) = 0) (h20 : 0 ≤ z2 (x0, t0)) (h30 : z3 (x0, t0) < 1) :
    ∃ (A : X × ℝ → ℝ) (d : Dual D), (∀ x, chainFunctional p (T x)
        (chainRows (fun i => rho i x) (fun i => lambda i x) (z2 x) (z3 x)) = .ok (A x))
      ∧ chainFunctional q Td (chainRows rhod lambdad z2d z3d) = .ok d ∧ DualR ρ t0 A d := by
  refine ⟨_, _, fun x => chainFunctional_chainRows p _ _ _ _ _, chainFunctional_chainRows q _ _ _ _ _, ?_⟩
  refine fold_rel (DualR ρ t0) _ _ ?_ _ _ ((repDual le ρ t0).constOf (CR.sci le _ _ _))
  intro i f d hfd
  refine (repDual le ρ t0).sub hfd ?_
  have hdi : (repDual le ρ t0).R _ _ := rep_hsDiameter le hp (ρ := repDual le ρ t0) hT hT0 i
  rcases hl0 i with h | h
  · exact rep_chainTerm le (ρ := repDual le ρ t0) (hp.m i) hdi (hrho i) (hl i) h2 h3 (hd0 i) (Or.inl h) h20 h30
  · exact rep_chainTerm_empty le hiso (hp.m i) hdi (hrho i) (hl i) h2 h3 (hd0 i) h h20 h30

end model

section pure
variable {x0 : X} {emb : ℝ → F → Prop} {ρ : Rep x0 emb D} (le : LawfulEmb emb) {t0 : ℝ}
include le
variable {p : PcSaftParameters 1 ℝ} {q : PcSaftParameters 1 F} (hp : ParamRel emb p q)
include hp

theorem rep_pureChainFunctional_empty (hiso : 𝓝 x0 = pure x0) {rho l eta : X × ℝ → ℝ} {rhod ld etad : Dual D}
    (hrho : DualR ρ t0 rho rhod) (hl : DualR ρ t0 l ld) (heta : DualR ρ t0 eta etad)
    (hl0 : l (x0, t0) ≠ 0 ∨ rho (x0, t0) = 0) (heta1 : eta (x0, t0) < 1) :
    ∃ (A : X × ℝ → ℝ) (d : Dual D), (∀ x, pureChainFunctional p [rho x, l x, eta x] = .ok (A x))
      ∧ pureChainFunctional q [rhod, ld, etad] = .ok d ∧ DualR ρ t0 A d := by
  rcases hl0 with h | h0
  · exact rep_pureChainFunctional le (ρ := repDual le ρ t0) hp hrho hl heta (Or.inl h) heta1
  set r := repDual le ρ t0 with hr
  have heta : r.R eta etad := heta
  refine ⟨_, _, fun x => rfl, rfl, ?_⟩
  have e1 : (1.0 : ℝ) = 1 := by norm_num
  have hnum : r.R (fun x => eta x * c 0.5 - c 1.0) (etad * c 0.5 - c 1.0) := by rep
  have hden : r.R (fun x => DualNum.powi (eta x - c 1.0) 3) (DualNum.powi (etad - c 1.0) 3) := by rep
  have hneg : (eta (x0, t0) - 1) ^ 3 < 0 := Odd.pow_neg (by decide) (by linarith)
  have hy := r.div hnum hden (by simp only [c, ofF_real, dpowi_real, e1]; exact hneg.ne)
  have hln := ((DualR.weak hy).mul (weak_chainLambda le hl hiso)).ln (by
    refine mul_pos ?_ (chainLambda_pos _)
    refine div_pos_of_neg_of_neg ?_ (by simp only [c, ofF_real, dpowi_real, e1]; exact hneg)
    simp only [c, ofF_real]
    norm_num
    linarith)
  have hw := ((hln.sub (DualR.weak (r.constOf (CR.sci le 10 true 1)))).mul
    (DualR.weak (r.constOf (CR.sub le (hp.m 0) (CR.sci le 10 true 1))))).neg
  exact DualR.mul_weak hiso hrho hw h0

end pure

end PcSaft
