import Verif.Props.PolarAttraction
import Verif.Props.DftDerivatives

/-!
# The edge of the composition range

Where all molecules of a polar contribution are absent, its Padé quotient is 0/0 and the code takes another
branch. The lemmas compare the derivatives on both sides.
-/

open Filter Topology

namespace PcSaft
/-- temperature, volume and amounts -/
abbrev Spec.StatePoint (n : ℕ) := ℝ × ℝ × (Fin n → ℝ)
end PcSaft

namespace PcSaft.Props
open Spec
variable {n : ℕ}

/-- derivative of `a ^ 2 / (a - b) * v` from the values and derivatives of `a`, `b` and `v` -/
noncomputable def padeSlope (a a' b b' v v' : ℝ) : ℝ :=
  (2 * a * a' / (a - b) - a ^ 2 * (a' - b') / (a - b) ^ 2) * v + a ^ 2 / (a - b) * v'

theorem hasDerivAt_pade {a b v : ℝ → ℝ} {a' b' v' t : ℝ} (ha : HasDerivAt a a' t) (hb : HasDerivAt b b' t)
    (hv : HasDerivAt v v' t) (hne : a t ≠ b t) :
    HasDerivAt (fun s => a s * a s / (a s - b s) * v s) (padeSlope (a t) a' (b t) b' (v t) v') t := by
  have h := ((ha.mul ha).div (ha.sub hb) (sub_ne_zero.mpr hne)).mul hv
  refine h.congr_deriv ?_
  simp only [Pi.div_apply, Pi.mul_apply, Pi.sub_apply, padeSlope]
  have := sub_ne_zero.mpr hne
  generalize a t = x at *
  generalize b t = y at *
  field_simp
  ring

theorem abs_padeSlope_le {a a' b b' v v' : ℝ} (ha : a ≠ 0) (hb : |b| ≤ |a| / 2) :
    |padeSlope a a' b b' v v'| ≤ (8 * |a'| + 4 * |b'|) * |v| + 2 * |a| * |v'| := by
  have h0 : 0 < |a| := abs_pos.mpr ha
  have hd : |a| / 2 ≤ |a - b| := by
    have := abs_sub_abs_le_abs_sub a b
    linarith
  have hd0 : 0 < |a - b| := by linarith
  have e1 : |2 * a * a' / (a - b)| ≤ 4 * |a'| := by
    rw [abs_div, abs_mul, abs_mul, abs_two, div_le_iff₀ hd0]
    nlinarith [abs_nonneg a']
  have hsq : |a| ^ 2 ≤ 4 * |a - b| ^ 2 := by nlinarith
  have e2 : |a ^ 2 * (a' - b') / (a - b) ^ 2| ≤ 4 * (|a'| + |b'|) := by
    rw [abs_div, abs_mul, abs_pow, abs_pow, div_le_iff₀ (by positivity)]
    have h1 : |a' - b'| ≤ |a'| + |b'| := abs_sub _ _
    calc |a| ^ 2 * |a' - b'| ≤ (4 * |a - b| ^ 2) * (|a'| + |b'|) :=
          mul_le_mul hsq h1 (abs_nonneg _) (by positivity)
      _ = _ := by ring
  have e3 : |a ^ 2 / (a - b)| ≤ 2 * |a| := by
    rw [abs_div, abs_pow, div_le_iff₀ hd0]
    nlinarith
  unfold padeSlope
  refine (abs_add_le _ _).trans ?_
  rw [abs_mul, abs_mul]
  have e4 : |2 * a * a' / (a - b) - a ^ 2 * (a' - b') / (a - b) ^ 2| ≤ 8 * |a'| + 4 * |b'| := by
    refine (abs_sub _ _).trans ?_
    linarith
  exact add_le_add (mul_le_mul_of_nonneg_right e4 (abs_nonneg _)) (mul_le_mul_of_nonneg_right e3 (abs_nonneg _))

/-- a product of two functions that vanish at a point, one differentiable and one continuous, has slope zero -/
theorem hasDerivAt_mul_zero {f g : ℝ → ℝ} {f' t : ℝ} (hf : HasDerivAt f f' t) (hg : ContinuousAt g t) (hf0 : f t = 0)
    (hg0 : g t = 0) : HasDerivAt (fun s => f s * g s) 0 t := by
  rw [hasDerivAt_iff_isLittleO]
  have h1 : (fun s => f s) =O[𝓝 t] fun s => s - t := by
    simpa [hf0] using hf.isBigO_sub
  have h2 : (fun s => g s) =o[𝓝 t] fun _ => (1 : ℝ) := by
    rw [Asymptotics.isLittleO_one_iff]
    simpa [hg0] using hg.tendsto
  simpa [hf0] using h1.mul_isLittleO h2

/-! ### The pair term dominates the triplet term near the edge -/

section sums
variable {E : Type} [TopologicalSpace E] {x0 : E} {S : Set E} {rho : Fin n → E → ℝ} {K2 : E → Fin n → Fin n → ℝ}
  {K3 : E → Fin n → Fin n → Fin n → ℝ} {P : Fin n → Fin n → Prop}

theorem triplet_le_pair (hrho : ∀ i, ContinuousAt (rho i) x0) (hnn : ∀ y ∈ S, ∀ i, 0 ≤ rho i y)
    (h2 : ∀ i j, ContinuousAt (fun y => K2 y i j) x0) (h3 : ∀ i j k, ContinuousAt (fun y => K3 y i j k) x0)
    (hp : ∀ i j, P i j → 0 < K2 x0 i j) (hz2 : ∀ y i j, ¬ P i j → K2 y i j = 0)
    (hz3 : ∀ y i j k, ¬ P i j → K3 y i j k = 0) (hz : ∀ i j k, P i j → K3 x0 i j k = 0 ∨ rho k x0 = 0)
    {c2 : ℝ} (c3 : ℝ) (hc : 0 < c2) :
    ∀ᶠ y in 𝓝[S] x0, |c3 * ∑ i, ∑ j, ∑ k, rho i y * rho j y * rho k y * K3 y i j k|
      ≤ |c2 * ∑ i, ∑ j, rho i y * rho j y * K2 y i j| / 2 := by
  have key : ∀ i j, ∀ᶠ y in 𝓝 x0, |c3 * ∑ k, rho k y * K3 y i j k| ≤ c2 * K2 y i j / 2 := by
    intro i j
    by_cases h : P i j
    · have hl : ContinuousAt (fun y => |c3 * ∑ k, rho k y * K3 y i j k|) x0 :=
        (continuousAt_const.mul (tendsto_finsetSum _ fun k _ => (hrho k).mul (h3 i j k))).abs
      have hr : ContinuousAt (fun y => c2 * K2 y i j / 2) x0 := (continuousAt_const.mul (h2 i j)).div_const 2
      have e : |c3 * ∑ k, rho k x0 * K3 x0 i j k| < c2 * K2 x0 i j / 2 := by
        have : ∑ k, rho k x0 * K3 x0 i j k = 0 := by
          refine Finset.sum_eq_zero fun k _ => ?_
          rcases hz i j k h with h | h <;> rw [h] <;> ring
        rw [this, mul_zero, abs_zero]
        have := mul_pos hc (hp i j h)
        linarith
      exact (hl.eventually_lt hr e).mono fun y hy => hy.le
    · refine .of_forall fun y => ?_
      rw [hz2 y i j h, Finset.sum_eq_zero fun k _ => by rw [hz3 y i j k h, mul_zero]]
      simp
  have key' := eventually_all.mpr fun i => eventually_all.mpr (key i)
  filter_upwards [self_mem_nhdsWithin, nhdsWithin_le_nhds key'] with y hy hk
  have e2 : c2 * ∑ i, ∑ j, rho i y * rho j y * K2 y i j = ∑ i, ∑ j, rho i y * rho j y * (c2 * K2 y i j) := by
    simp only [Finset.mul_sum]
    exact Finset.sum_congr rfl fun i _ => Finset.sum_congr rfl fun j _ => by ring
  have e3 : c3 * ∑ i, ∑ j, ∑ k, rho i y * rho j y * rho k y * K3 y i j k
      = ∑ i, ∑ j, rho i y * rho j y * (c3 * ∑ k, rho k y * K3 y i j k) := by
    simp only [Finset.mul_sum]
    exact Finset.sum_congr rfl fun i _ => Finset.sum_congr rfl fun j _ => Finset.sum_congr rfl fun k _ => by ring
  have hle : |c3 * ∑ i, ∑ j, ∑ k, rho i y * rho j y * rho k y * K3 y i j k|
      ≤ (c2 * ∑ i, ∑ j, rho i y * rho j y * K2 y i j) / 2 := by
    rw [e2, e3]
    refine (Finset.abs_sum_le_sum_abs _ _).trans ?_
    rw [Finset.sum_div]
    refine Finset.sum_le_sum fun i _ => ?_
    refine (Finset.abs_sum_le_sum_abs _ _).trans ?_
    rw [Finset.sum_div]
    refine Finset.sum_le_sum fun j _ => ?_
    have hij := mul_nonneg (hnn y hy i) (hnn y hy j)
    rw [abs_mul, abs_of_nonneg hij, mul_div_assoc]
    exact mul_le_mul_of_nonneg_left (hk i j) hij
  refine hle.trans ?_
  have := le_abs_self (c2 * ∑ i, ∑ j, rho i y * rho j y * K2 y i j)
  linarith

end sums

section slopes
variable {rho : Fin n → ℝ → ℝ} {rho' : Fin n → ℝ} {P : Fin n → Fin n → Prop}

/-- a quadratic form in densities that vanish has slope zero -/
theorem pair_slope {K2 : ℝ → Fin n → Fin n → ℝ} (hrho : ∀ i, HasDerivAt (rho i) (rho' i) 0)
    (h2 : ∀ i j, ContinuousAt (fun s => K2 s i j) 0) (hz2 : ∀ s i j, ¬ P i j → K2 s i j = 0)
    (hP : ∀ i j, P i j → rho i 0 = 0 ∧ rho j 0 = 0) :
    HasDerivAt (fun s => ∑ i, ∑ j, rho i s * rho j s * K2 s i j) 0 0 := by
  have : ∀ i ∈ Finset.univ, HasDerivAt (fun s => ∑ j, rho i s * rho j s * K2 s i j) 0 0 := by
    intro i _
    have : ∀ j ∈ Finset.univ, HasDerivAt (fun s => rho i s * rho j s * K2 s i j) 0 0 := by
      intro j _
      by_cases h : P i j
      · simp only [mul_assoc]
        exact hasDerivAt_mul_zero (hrho i) ((hrho j).continuousAt.mul (h2 i j)) (hP i j h).1 (by rw [(hP i j h).2, zero_mul])
      · simp only [fun s => hz2 s i j h, mul_zero]
        exact hasDerivAt_const _ _
    simpa using HasDerivAt.fun_sum this
  simpa using HasDerivAt.fun_sum this

/-- a cubic form in densities that vanish has slope zero -/
theorem triplet_slope {K3 : ℝ → Fin n → Fin n → Fin n → ℝ} (hrho : ∀ i, HasDerivAt (rho i) (rho' i) 0)
    (h3 : ∀ i j k, ContinuousAt (fun s => K3 s i j k) 0) (hz3 : ∀ s i j k, ¬ P i j → K3 s i j k = 0)
    (hP : ∀ i j, P i j → rho i 0 = 0 ∧ rho j 0 = 0) :
    HasDerivAt (fun s => ∑ i, ∑ j, ∑ k, rho i s * rho j s * rho k s * K3 s i j k) 0 0 := by
  have e : ∀ s, ∑ i, ∑ j, ∑ k, rho i s * rho j s * rho k s * K3 s i j k
      = ∑ i, ∑ j, rho i s * rho j s * ∑ k, rho k s * K3 s i j k := by
    intro s
    simp only [Finset.mul_sum]
    exact Finset.sum_congr rfl fun i _ => Finset.sum_congr rfl fun j _ => Finset.sum_congr rfl fun k _ => by ring
  simp only [e]
  refine pair_slope (P := P) hrho (K2 := fun s i j => ∑ k, rho k s * K3 s i j k)
    (fun i j => tendsto_finsetSum _ fun k _ => (hrho k).continuousAt.mul (h3 i j k)) ?_ hP
  intro s i j h
  exact Finset.sum_eq_zero fun k _ => by rw [hz3 s i j k h, mul_zero]

end slopes

/-! ### Kernels of the polar terms are continuous -/

section kernels
variable {Y : Type} [TopologicalSpace Y] {y0 : Y} {t e : Y → ℝ}

theorem continuousAt_etas (he : ContinuousAt e y0) (i : Fin 5) : ContinuousAt (fun y => (etas (F := ℝ) (e y) i : ℝ)) y0 := by
  simp only [etas_real]
  exact he.pow _

theorem continuousAt_pairI {q : ℕ} (hq : q ≤ 5) (a b : Fin q → Fin 3 → ℝ) (p : PcSaftParameters n ℝ)
    (ht : ContinuousAt t y0) (h0 : t y0 ≠ 0) (he : ContinuousAt e y0) (i j : Fin n) :
    ContinuousAt (fun y => pairI hq a b p (t y) (e y) i j) y0 := by
  unfold pairI pairIntegral
  simp only [c, ofF_real, sumFin_real]
  refine tendsto_finsetSum _ fun k _ => (continuousAt_etas he _).mul ?_
  have := ht.inv₀ h0
  fun_prop

theorem continuousAt_tripI (cc : Fin 4 → Fin 3 → ℝ) (p : PcSaftParameters n ℝ) (he : ContinuousAt e y0) (i j k : Fin n) :
    ContinuousAt (fun y => tripI cc p (e y) i j k) y0 := by
  unfold tripI tripletIntegral
  simp only [c, ofF_real, sumFin_real]
  exact tendsto_finsetSum _ fun k _ => (continuousAt_etas he _).mul continuousAt_const

theorem continuousAt_dqI3 (p : PcSaftParameters n ℝ) (he : ContinuousAt e y0) (i j k : Fin n) :
    ContinuousAt (fun y => dqI3 p (e y) i j k) y0 := by
  unfold dqI3 tripletIntegralDQ
  simp only [c, ofF_real, sumFin_real]
  exact tendsto_finsetSum _ fun k _ => (continuousAt_etas he _).mul continuousAt_const

variable (p : PcSaftParameters n ℝ) (ht : ContinuousAt t y0) (h0 : t y0 ≠ 0) (he : ContinuousAt e y0)
include ht h0

theorem continuousAt_dipoleTerm (i : Fin n) : ContinuousAt (fun y => dipoleTerm p (t y)⁻¹ i) y0 := by
  have := ht.inv₀ h0
  unfold dipoleTerm
  simp only [c, ofF_real]
  fun_prop

theorem continuousAt_quadrupoleTerm (i : Fin n) : ContinuousAt (fun y => quadrupoleTerm p (t y)⁻¹ i) y0 := by
  have := ht.inv₀ h0
  unfold quadrupoleTerm
  simp only [c, ofF_real]
  fun_prop

theorem continuousAt_dqTerm (f : Fin n → ℝ) (i : Fin n) : ContinuousAt (fun y => dqTerm p f (t y)⁻¹ i) y0 := by
  have := ht.inv₀ h0
  unfold dqTerm
  simp only [c, ofF_real]
  fun_prop

include he
theorem continuousAt_dipK2 (i j : Fin n) : ContinuousAt (fun y => dipK2 p (t y) (e y) i j) y0 :=
  (((continuousAt_dipoleTerm p ht h0 i).mul (continuousAt_dipoleTerm p ht h0 j)).mul
    (continuousAt_pairI _ AD BD p ht h0 he i j)).div_const _

theorem continuousAt_dipK3 (i j k : Fin n) : ContinuousAt (fun y => dipK3 p (t y) (e y) i j k) y0 :=
  ((((continuousAt_dipoleTerm p ht h0 i).mul (continuousAt_dipoleTerm p ht h0 j)).mul
    (continuousAt_dipoleTerm p ht h0 k)).mul (continuousAt_tripI CD p he i j k)).div_const _

theorem continuousAt_quadK2 (i j : Fin n) : ContinuousAt (fun y => quadK2 p (t y) (e y) i j) y0 :=
  (((continuousAt_quadrupoleTerm p ht h0 i).mul (continuousAt_quadrupoleTerm p ht h0 j)).mul
    (continuousAt_pairI _ AQ BQ p ht h0 he i j)).div_const _

theorem continuousAt_quadK3 (i j k : Fin n) : ContinuousAt (fun y => quadK3 p (t y) (e y) i j k) y0 :=
  ((((continuousAt_quadrupoleTerm p ht h0 i).mul (continuousAt_quadrupoleTerm p ht h0 j)).mul
    (continuousAt_quadrupoleTerm p ht h0 k)).mul (continuousAt_tripI CQ p he i j k)).div_const _

theorem continuousAt_dqK2 (v : DQVariants) (i j : Fin n) : ContinuousAt (fun y => dqK2 v p (t y) (e y) i j) y0 := by
  have h1 := continuousAt_dqTerm p ht h0 p.mu2 i
  have h2 := continuousAt_dqTerm p ht h0 p.q2 j
  have h3 := continuousAt_pairI (by decide) ADQ BDQ p ht h0 he i j
  unfold dqK2
  refine ContinuousAt.mul (ContinuousAt.div_const ?_ _) h3
  cases v
  · simp only [muQTerm, c, ofF_real]
    exact ((h1.div_const _).mul h2).mul continuousAt_const
  · exact h1.mul h2

theorem continuousAt_dqK3d (i j k : Fin n) : ContinuousAt (fun y => dqK3d p (t y) (e y) i j k) y0 :=
  ((((continuousAt_dqTerm p ht h0 p.mu2 i).mul (continuousAt_dqTerm p ht h0 p.q2 j)).mul
    (continuousAt_dqTerm p ht h0 p.mu2 k)).div_const _).mul (continuousAt_dqI3 p he i j k)

theorem continuousAt_dqK3q (i j k : Fin n) : ContinuousAt (fun y => dqK3q p (t y) (e y) i j k) y0 :=
  (((((continuousAt_dqTerm p ht h0 p.mu2 i).mul (continuousAt_dqTerm p ht h0 p.q2 j)).mul
    (continuousAt_dqTerm p ht h0 p.q2 k)).div_const _).mul continuousAt_const).mul (continuousAt_dqI3 p he i j k)

end kernels

/-! ### The polar terms in one form -/

section polar
variable {F D X : Type} [F64 F] [DualNum F D] [TopologicalSpace X]

/-- the polar contributions -/
def IsPolar {G : Type} : Contribution G → Prop
  | .dipole => True
  | .quadrupole => True
  | .dipoleQuadrupole _ => True
  | _ => False

/-- pair term and triplet term of a polar contribution -/
def polarPhis {G : Type} (p : PcSaftParameters n F) (s : StateHD n D) : Contribution G → D × D
  | .dipole =>
    (dipolePhi2 p s.temperature s.partial_density
        (packingFraction p.m s.partial_density fun i => hsDiameter p s.temperature i * c 0.5) * c F64.pi,
      dipolePhi3 p s.temperature s.partial_density
        (packingFraction p.m s.partial_density fun i => hsDiameter p s.temperature i * c 0.5) * c PI_SQ_43)
  | .quadrupole =>
    (quadrupolePhi2 p s.temperature s.partial_density
        (packingFraction p.m s.partial_density fun i => hsDiameter p s.temperature i * c 0.5) * c (F64.pi * 0.5625),
      quadrupolePhi3 p s.temperature s.partial_density
        (packingFraction p.m s.partial_density fun i => hsDiameter p s.temperature i * c 0.5) * c (F64.pi * F64.pi * 0.5625))
  | .dipoleQuadrupole v =>
    (dipoleQuadrupolePhi2 v p s.temperature s.partial_density
        (packingFraction p.m s.partial_density fun i => hsDiameter p s.temperature i * c 0.5) * c (F64.pi * 2.25),
      dipoleQuadrupolePhi3 p s.temperature s.partial_density
        (packingFraction p.m s.partial_density fun i => hsDiameter p s.temperature i * c 0.5) * c (F64.pi * F64.pi))
  | _ => (c (0.0 : F), c (0.0 : F))

theorem polar_energy (la : LinAlg F D) (p : PcSaftParameters n F) (s : StateHD n D) {ct : Contribution F} (h : IsPolar ct) :
    ct.helmholtzEnergy la p s = .ok (padeVolume (polarPhis p s ct).1 (polarPhis p s ct).2 s.volume) := by
  cases ct <;> first | exact h.elim | rfl

theorem isPolar_map {G H : Type} (g : G → H) (ct : Contribution G) : IsPolar (ct.map g) ↔ IsPolar ct := by
  cases ct <;> rfl

theorem polarPhis_map {G H : Type} (g : G → H) (p : PcSaftParameters n F) (s : StateHD n D) (ct : Contribution G) :
    polarPhis p s (ct.map g) = polarPhis p s ct := by
  cases ct <;> rfl

theorem regular_polar (p : PcSaftParameters n ℝ) (T V : ℝ) (N : Fin n → ℝ) {ct : Contribution ℝ} (h : IsPolar ct) :
    Regular p T V N ct ↔ (polarPhis p (StateHD.new T V N) ct).1 ≠ (polarPhis p (StateHD.new T V N) ct).2 := by
  cases ct <;> first | exact h.elim | exact Iff.rfl

theorem rep_polarPhis {x0 : X} {emb : ℝ → F → Prop} {ρ : Rep x0 emb D} (le : LawfulEmb emb) {p : PcSaftParameters n ℝ}
    {q : PcSaftParameters n F} (hp : ParamRel emb p q) (hm : ∀ i, 0 < p.m i) (hs : ∀ i j, p.sigma_ij i j ≠ 0)
    (hs1 : ∀ i, p.sigma i ≠ 0) {sf : X → StateHD n ℝ} {sd : StateHD n D} (hst : StateRel ρ sf sd)
    (hT : (sf x0).temperature ≠ 0) (ct : Contribution ℝ) :
    ρ.R (fun x => (polarPhis p (sf x) ct).1) (polarPhis q sd ct).1
    ∧ ρ.R (fun x => (polarPhis p (sf x) ct).2) (polarPhis q sd ct).2 := by
  have heta := rep_eta le hp hst hT
  cases ct with
  | dipole =>
    exact ⟨ρ.mul (rep_dipolePhi2 le hp hm hs hst.temperature hT heta hst.partial_density) (ρ.constOf (CR.pi le)),
      ρ.mul (rep_dipolePhi3 le hp hm hs hst.temperature hT heta hst.partial_density) (ρ.constOf (CR.piSq le))⟩
  | quadrupole =>
    exact ⟨ρ.mul (rep_quadrupolePhi2 le hp hm hs hst.temperature hT heta hst.partial_density)
        (ρ.constOf (CR.mul le (CR.pi le) (CR.sci le _ _ _))),
      ρ.mul (rep_quadrupolePhi3 le hp hm hs hst.temperature hT heta hst.partial_density)
        (ρ.constOf (CR.mul le (CR.mul le (CR.pi le) (CR.pi le)) (CR.sci le _ _ _)))⟩
  | dipoleQuadrupole v =>
    exact ⟨ρ.mul (rep_dipoleQuadrupolePhi2 le hp v hm hs hs1 hst.temperature hT heta hst.partial_density)
        (ρ.constOf (CR.mul le (CR.pi le) (CR.sci le _ _ _))),
      ρ.mul (rep_dipoleQuadrupolePhi3 le hp hm hs hst.temperature hT heta hst.partial_density)
        (ρ.constOf (CR.mul le (CR.pi le) (CR.pi le)))⟩
  | hardSphere => exact ⟨ρ.constOf (CR.sci le _ _ _), ρ.constOf (CR.sci le _ _ _)⟩
  | hardChain => exact ⟨ρ.constOf (CR.sci le _ _ _), ρ.constOf (CR.sci le _ _ _)⟩
  | dispersion => exact ⟨ρ.constOf (CR.sci le _ _ _), ρ.constOf (CR.sci le _ _ _)⟩
  | association => exact ⟨ρ.constOf (CR.sci le _ _ _), ρ.constOf (CR.sci le _ _ _)⟩
  | crossAssociation _ _ => exact ⟨ρ.constOf (CR.sci le _ _ _), ρ.constOf (CR.sci le _ _ _)⟩

/-- pairs of components that interact in a polar contribution -/
def bothPolar {G : Type} (p : PcSaftParameters n ℝ) : Contribution G → Fin n → Fin n → Prop
  | .dipole => fun i j => i ∈ p.dipole_comp ∧ j ∈ p.dipole_comp
  | .quadrupole => fun i j => i ∈ p.quadpole_comp ∧ j ∈ p.quadpole_comp
  | .dipoleQuadrupole _ => fun i j => i ∈ p.dipole_comp ∧ j ∈ p.quadpole_comp
  | _ => fun _ _ => False

/-- pair kernel -/
noncomputable def polarK2 {G : Type} (p : PcSaftParameters n ℝ) (T eta : ℝ) : Contribution G → Fin n → Fin n → ℝ
  | .dipole => dipK2 p T eta
  | .quadrupole => quadK2 p T eta
  | .dipoleQuadrupole v => dqK2 v p T eta
  | _ => fun _ _ => 0

/-- triplet kernel -/
noncomputable def polarK3 {G : Type} (p : PcSaftParameters n ℝ) (T eta : ℝ) : Contribution G → Fin n → Fin n → Fin n → ℝ
  | .dipole => dipK3 p T eta
  | .quadrupole => quadK3 p T eta
  | .dipoleQuadrupole _ => fun i j k => dqK3d p T eta i j k + dqK3q p T eta i j k
  | _ => fun _ _ _ => 0

/-- prefactor of the pair term -/
noncomputable def polarC2 {G : Type} : Contribution G → ℝ
  | .dipole => Real.pi
  | .quadrupole => Real.pi * 0.5625
  | .dipoleQuadrupole _ => Real.pi * 2.25
  | _ => 1

/-- prefactor of the triplet term -/
noncomputable def polarC3 {G : Type} : Contribution G → ℝ
  | .dipole => -PI_SQ_43
  | .quadrupole => Real.pi * Real.pi * 0.5625
  | .dipoleQuadrupole _ => Real.pi * Real.pi
  | _ => 1

theorem polarC2_pos {G : Type} (ct : Contribution G) : 0 < polarC2 ct := by
  have := Real.pi_pos
  cases ct <;> simp only [polarC2] <;> positivity

theorem polarPhis_real {G : Type} {p : PcSaftParameters n ℝ} (h : PolarOk p) (s : StateHD n ℝ) (ct : Contribution G) :
    (polarPhis p s ct).1 = -(polarC2 ct * ∑ i, ∑ j, s.partial_density i * s.partial_density j
      * polarK2 p s.temperature (stateEta p s) ct i j)
    ∧ (polarPhis p s ct).2 = polarC3 ct * ∑ i, ∑ j, ∑ k, s.partial_density i * s.partial_density j * s.partial_density k
      * polarK3 p s.temperature (stateEta p s) ct i j k := by
  cases ct with
  | dipole =>
    refine ⟨(congrArg (· * c F64.pi) (dipolePhi2_real h _ _ _)).trans ?_,
      (congrArg (· * c PI_SQ_43) (dipolePhi3_real h _ _ _)).trans ?_⟩
    · simp only [c, ofF_real, polarC2, pi_real, polarK2, stateEta]
      ring
    · simp only [c, ofF_real, polarC3, polarK3, stateEta]
      ring
  | quadrupole =>
    refine ⟨(congrArg (· * c (F64.pi * 0.5625)) (quadrupolePhi2_real h _ _ _)).trans ?_,
      (congrArg (· * c (F64.pi * F64.pi * 0.5625)) (quadrupolePhi3_real h _ _ _)).trans ?_⟩
    · simp only [c, ofF_real, polarC2, pi_real, polarK2, stateEta]
      ring
    · simp only [c, ofF_real, polarC3, pi_real, polarK3, stateEta]
      ring
  | dipoleQuadrupole v =>
    refine ⟨(congrArg (· * c (F64.pi * 2.25)) (dipoleQuadrupolePhi2_real h v _ _ _)).trans ?_,
      (congrArg (· * c (F64.pi * F64.pi)) (dipoleQuadrupolePhi3_real h _ _ _)).trans ?_⟩
    · simp only [c, ofF_real, polarC2, pi_real, polarK2, stateEta]
      ring
    · simp only [c, ofF_real, polarC3, pi_real, polarK3, stateEta]
      ring
  | hardSphere => simp [polarPhis, polarK2, polarK3, c]; norm_num
  | hardChain => simp [polarPhis, polarK2, polarK3, c]; norm_num
  | dispersion => simp [polarPhis, polarK2, polarK3, c]; norm_num
  | association => simp [polarPhis, polarK2, polarK3, c]; norm_num
  | crossAssociation _ _ => simp [polarPhis, polarK2, polarK3, c]; norm_num

theorem polarK2_zero {G : Type} {p : PcSaftParameters n ℝ} (h : PolarOk p) (T eta : ℝ) (ct : Contribution G) {i j : Fin n}
    (hij : ¬ bothPolar p ct i j) : polarK2 p T eta ct i j = 0 := by
  cases ct with
  | dipole =>
    simp only [bothPolar, not_and_or] at hij
    rcases hij with hh | hh <;> simp [polarK2, dipK2, dipoleTerm_zero h _ hh]
  | quadrupole =>
    simp only [bothPolar, not_and_or] at hij
    rcases hij with hh | hh <;> simp [polarK2, quadK2, quadrupoleTerm_zero h _ hh]
  | dipoleQuadrupole v =>
    simp only [bothPolar, not_and_or] at hij
    rcases hij with hh | hh
    · simp [polarK2, dqK2, muQTerm_zero_left h v _ hh]
    · simp [polarK2, dqK2, muQTerm_zero_right h v _ hh]
  | _ => rfl

theorem polarK3_zero {G : Type} {p : PcSaftParameters n ℝ} (h : PolarOk p) (T eta : ℝ) (ct : Contribution G) {i j : Fin n} (k : Fin n)
    (hij : ¬ bothPolar p ct i j) : polarK3 p T eta ct i j k = 0 := by
  cases ct with
  | dipole =>
    simp only [bothPolar, not_and_or] at hij
    rcases hij with hh | hh <;> simp [polarK3, dipK3, dipoleTerm_zero h _ hh]
  | quadrupole =>
    simp only [bothPolar, not_and_or] at hij
    rcases hij with hh | hh <;> simp [polarK3, quadK3, quadrupoleTerm_zero h _ hh]
  | dipoleQuadrupole v =>
    simp only [bothPolar, not_and_or] at hij
    rcases hij with hh | hh
    · simp [polarK3, dqK3d, dqK3q, muTerm_zero h _ hh]
    · simp [polarK3, dqK3d, dqK3q, qTerm_zero h _ hh]
  | _ => rfl

theorem continuousAt_polarK {Y G : Type} [TopologicalSpace Y] {y0 : Y} {t e : Y → ℝ} (p : PcSaftParameters n ℝ)
    (ht : ContinuousAt t y0) (h0 : t y0 ≠ 0) (he : ContinuousAt e y0) (ct : Contribution G) :
    (∀ i j, ContinuousAt (fun y => polarK2 p (t y) (e y) ct i j) y0)
    ∧ ∀ i j k, ContinuousAt (fun y => polarK3 p (t y) (e y) ct i j k) y0 := by
  cases ct with
  | dipole => exact ⟨continuousAt_dipK2 p ht h0 he, continuousAt_dipK3 p ht h0 he⟩
  | quadrupole => exact ⟨continuousAt_quadK2 p ht h0 he, continuousAt_quadK3 p ht h0 he⟩
  | dipoleQuadrupole v =>
    exact ⟨continuousAt_dqK2 p ht h0 he v, fun i j k => (continuousAt_dqK3d p ht h0 he i j k).add (continuousAt_dqK3q p ht h0 he i j k)⟩
  | hardSphere => exact ⟨fun _ _ => continuousAt_const, fun _ _ _ => continuousAt_const⟩
  | hardChain => exact ⟨fun _ _ => continuousAt_const, fun _ _ _ => continuousAt_const⟩
  | dispersion => exact ⟨fun _ _ => continuousAt_const, fun _ _ _ => continuousAt_const⟩
  | association => exact ⟨fun _ _ => continuousAt_const, fun _ _ _ => continuousAt_const⟩
  | crossAssociation _ _ => exact ⟨fun _ _ => continuousAt_const, fun _ _ _ => continuousAt_const⟩

end polar

/-! ### States near a given one, and the evaluation with dual numbers there -/

section lines
variable (T' V' : ℝ) (N' : Fin n → ℝ)

/-- the state at a point, moved in a direction -/
noncomputable def lineState (x : StatePoint n × ℝ) : StateHD n ℝ :=
  StateHD.new (x.1.1 + x.2 * T') (x.1.2.1 + x.2 * V') (fun i => x.1.2.2 i + x.2 * N' i)

/-- the state at a point with the direction as derivative part -/
noncomputable def pointX (y : StatePoint n) : StateHD n (Dual XReal) :=
  StateHD.new ⟨XReal.fin y.1, XReal.fin T'⟩ ⟨XReal.fin y.2.1, XReal.fin V'⟩ fun i => ⟨XReal.fin (y.2.2 i), XReal.fin (N' i)⟩

/-- functions of the state, continuous with their slope in a direction -/
noncomputable abbrev rhoE (x0 : StatePoint n) : Rep (x0, (0 : ℝ)) Same (Dual ℝ) := repDual lawfulEmb_id (repReal x0) 0

theorem seedE {x0 : StatePoint n} {f : StatePoint n → ℝ} (hf : ContinuousAt f x0) (u : ℝ) :
    (rhoE x0).R (fun x => f x.1 + x.2 * u) ⟨f x0, u⟩ :=
  dualR_seed (repReal x0) ⟨hf, rfl⟩ ⟨continuousAt_const, rfl⟩

theorem seedX (a b : ℝ) : (repDual XReal.lawfulEmb rhoX 0).R (fun x => a + x.2 * b) ⟨XReal.fin a, XReal.fin b⟩ :=
  dualR_seed rhoX (rhoX_const a) (rhoX_const b)

theorem ofX {A : Unit × ℝ → ℝ} {d : Dual XReal} (h : (repDual XReal.lawfulEmb rhoX 0).R A d) {b : ℝ}
    (hb : HasDerivAt (fun s => A ((), s)) b 0) : d = ⟨XReal.fin (A ((), 0)), XReal.fin b⟩ := by
  obtain ⟨_, h1, A', h2, h3⟩ := h
  have : A' () = b := h2.self_of_nhds.unique hb
  exact Dual.ext h1.2 (by rw [h3.2, this])

end lines

end PcSaft.Props
