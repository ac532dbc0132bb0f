import Verif.Lemmas.DftRegular
import Verif.Lemmas.RepDftEmpty
import Verif.Props.Finite

/-!
# C76, C78: derivatives and finiteness of the density functional in inhomogeneous fluids

The contributions of the functional are evaluated at arbitrary weighted densities: nothing is assumed about
their origin but the inequalities which weighted densities satisfy.
-/

open Filter Topology

namespace PcSaft.Props
open Spec
variable {n : ℕ}

/-! ## Helpers -/

theorem nhds_unit (x : Unit) : 𝓝 x = pure x := nhds_discrete Unit ▸ rfl

theorem apart_unit (a b : ℝ) : Apart () a b := Or.inr (nhds_unit ())

theorem rhoX1_curve {f : ℝ → ℝ} {f' t0 : ℝ} (hf : HasDerivAt f f' t0) :
    (repDual XReal.lawfulEmb rhoX t0).R (fun x => f x.2) ⟨XReal.fin (f t0), XReal.fin f'⟩ :=
  ⟨ContinuousAt.comp (f := Prod.snd) (x := ((), t0)) hf.continuousAt continuousAt_snd, rhoX_const _, fun _ => f',
    .of_forall fun _ => hf, rhoX_const _⟩

theorem rhoX1_seed (a b : ℝ) :
    (repDual XReal.lawfulEmb rhoX 0).R (fun x => a + x.2 * b) ⟨XReal.fin a, XReal.fin b⟩ :=
  dualR_seed rhoX (rhoX_const a) (rhoX_const b)

theorem curveX_of {A : Unit × ℝ → ℝ} {t0 : ℝ} {d : Dual XReal} (h : (repDual XReal.lawfulEmb rhoX t0).R A d) :
    ∃ A' : ℝ, d = ⟨XReal.fin (A ((), t0)), XReal.fin A'⟩ ∧ HasDerivAt (fun s => A ((), s)) A' t0 := by
  obtain ⟨_, h1, A', h2, h3⟩ := h
  exact ⟨A' (), Dual.ext h1.2 h3.2, h2.self_of_nhds⟩

theorem curve_of' {A : Unit × ℝ → ℝ} {t0 : ℝ} {d : Dual ℝ} (h : (repDual lawfulEmb_id rho0 t0).R A d) :
    ∃ A' : ℝ, d = ⟨A ((), t0), A'⟩ ∧ HasDerivAt (fun s => A ((), s)) A' t0 := by
  obtain ⟨_, h1, A', h2, h3⟩ := h
  exact ⟨A' (), Dual.ext h1.2 h3.2, h2.self_of_nhds⟩

theorem isolated_unit : 𝓝 (() : Unit) = pure () := nhds_unit ()

/-- The quotient 0/0 of the Padé approximation is NaN, which the code replaces by the second-order term. -/
theorem dftPade_rule : PadeRule rhoX (fun a b => a ≠ b ∨ a = 0 ∧ b = 0) := by
  intro phi2 phi3 p2 p3 h2 h3 hc
  rcases hc with hne | ⟨e2, e3⟩
  · exact rep_dftPade XReal.lawfulEmb h2 h3 hne
  obtain ⟨_, rfl⟩ := h2
  obtain ⟨_, rfl⟩ := h3
  have e1 : XReal.fin 0 * XReal.fin 0 / (XReal.fin 0 - XReal.fin 0) = XReal.nan := by
    have h1 : XReal.fin 0 - XReal.fin 0 = XReal.fin 0 := by rw [← XReal.equations.sub, sub_zero]
    have h2 : XReal.fin 0 * XReal.fin 0 = XReal.fin 0 := by rw [← XReal.equations.mul, zero_mul]
    rw [h1, h2]
    change (if (0 : ℝ) = 0 then XReal.infSign 0 else _) = _
    simp [XReal.infSign]
  have e4 : dftPade (XReal.fin 0) (XReal.fin 0) = XReal.fin 0 := by
    unfold dftPade
    dsimp only
    rw [e1]
    rfl
  have e5 : dftPade (0 : ℝ) 0 = 0 := by simp [dftPade]
  have e6 : (fun x => dftPade (phi2 x) (phi3 x)) = fun _ => (0 : ℝ) := by
    funext x
    cases x
    rw [e2, e3, e5]
  rw [e2, e3, e4, e6]
  exact rhoX_const 0

theorem sigma_ij_ne {pr : Fin n → PureRecord ℝ} {k : Fin n → Fin n → ℝ} (h : Molecules (fromRecords pr k))
    (i j : Fin n) : (fromRecords pr k).sigma_ij i j ≠ 0 := by
  have : (fromRecords pr k).sigma_ij i j = 0.5 * ((fromRecords pr k).sigma i + (fromRecords pr k).sigma j) := rfl
  rw [this]
  have h1 := h.sigma_pos i
  have h2 := h.sigma_pos j
  norm_num
  linarith

theorem dftEta_packing (p : PcSaftParameters n ℝ) (T : ℝ) (rho : Fin n → ℝ) :
    dftEta p T rho = Spec.packingFraction p T 1 rho := by
  have e3 : (3.0 : ℝ) = 3 := by norm_num
  have e4 : (4.0 : ℝ) = 4 := by norm_num
  have e5 : (0.5 : ℝ) = 1 / 2 := by norm_num
  simp only [dftEta, sumFin_real, Spec.packingFraction, c, ofF_real, pi_real, hsDiameter_eq_spec, e3, e4, e5]
  refine Finset.sum_congr rfl fun i _ => ?_
  ring

theorem pureEta_packing (p : PcSaftParameters 1 ℝ) (T rho : ℝ) :
    pureEta p T rho = Spec.packingFraction p T 1 (fun _ => rho) := by
  have e6 : (6.0 : ℝ) = 6 := by norm_num
  simp only [pureEta, Spec.packingFraction, c, ofF_real, dpowi_real, pi_real, hsDiameter_eq_spec, e6, Fin.sum_univ_one]
  ring

theorem packing_nonneg {p : PcSaftParameters n ℝ} (h : Molecules p) {T : ℝ} (hT : 0 < T) {rho : Fin n → ℝ}
    (h0 : ∀ i, 0 ≤ rho i) : 0 ≤ Spec.packingFraction p T 1 rho := by
  have hpi := Real.pi_pos
  refine Finset.sum_nonneg fun i _ => ?_
  have := h.m_pos i
  have := h.diameter_pos hT i
  rw [hsDiameter_eq_spec] at this
  have := h0 i
  positivity

theorem n2Regular_of {X : Type} [TopologicalSpace X] {x0 : X} {version : FMTVersion} {n2 : ℝ} {vs : List ℝ}
    (hk : version ≠ .KierlikRosinberg)
    (h0 : version = .AntiSymWhiteBear → n2 ≠ 0 ∧ Apart x0 ((vs.map (fun v => v ^ 2)).sum / n2 ^ 2) 1) :
    N2Regular x0 version n2 vs := by
  cases version with
  | WhiteBear => trivial
  | KierlikRosinberg => exact absurd rfl hk
  | AntiSymWhiteBear =>
    have := h0 rfl
    rw [← sumSq_real] at this
    exact this

theorem quotient_ne {n2 : ℝ} {vs : List ℝ} (h : (vs.map (fun v => v ^ 2)).sum < n2 ^ 2) :
    n2 ≠ 0 ∧ (vs.map (fun v => v ^ 2)).sum / n2 ^ 2 ≠ 1 := by
  have hp : 0 < n2 ^ 2 := lt_of_le_of_lt (sum_sq_nonneg (fun v => v) vs) h
  refine ⟨fun h0 => by simp [h0] at hp, fun h1 => ?_⟩
  rw [div_eq_one_iff_eq hp.ne'] at h1
  exact h.ne h1


/-! ## C76: first derivatives along curves of temperatures and weighted densities -/

section curve
variable {T : ℝ → ℝ} {T' t0 : ℝ} (hT : HasDerivAt T T' t0) (hT0 : 0 < T t0)
include hT hT0

/-- C76, chain functional, at any grid point: dual numbers give the value and the derivative along any curve, also
in an empty region, where the shell average vanishes together with the density. -/
theorem C76_chain {p : PcSaftParameters n ℝ} (hp : Molecules p) {rho lambda : Fin n → ℝ → ℝ} {rho' lambda' : Fin n → ℝ}
    {zeta2 zeta3 : ℝ → ℝ} {zeta2' zeta3' : ℝ} (hrho : ∀ i, HasDerivAt (rho i) (rho' i) t0)
    (hl : ∀ i, HasDerivAt (lambda i) (lambda' i) t0) (h2 : HasDerivAt zeta2 zeta2' t0)
    (h3 : HasDerivAt zeta3 zeta3' t0) (hl0 : ∀ i, lambda i t0 ≠ 0 ∨ rho i t0 = 0) (h20 : 0 ≤ zeta2 t0)
    (h30 : zeta3 t0 < 1) :
    ∃ (A : ℝ → ℝ) (A' : ℝ),
      (∀ t, chainFunctional p (T t) (chainRows (fun i => rho i t) (fun i => lambda i t) (zeta2 t) (zeta3 t))
        = .ok (A t))
      ∧ chainFunctional p (⟨T t0, T'⟩ : Dual ℝ) (chainRows (fun i => ⟨rho i t0, rho' i⟩)
          (fun i => ⟨lambda i t0, lambda' i⟩) ⟨zeta2 t0, zeta2'⟩ ⟨zeta3 t0, zeta3'⟩) = .ok ⟨A t0, A'⟩
      ∧ HasDerivAt A A' t0 := by
  obtain ⟨A, d, h1, hd, hA⟩ := rep_chainFunctional_empty lawfulEmb_id (ParamRel.refl p) isolated_unit (rho1_curve hT)
    hT0.ne' (fun i => rho1_curve (hrho i)) (fun i => rho1_curve (hl i)) (rho1_curve h2) (rho1_curve h3)
    (hp.diameter_pos hT0) hl0 h20 h30
  obtain ⟨A', rfl, hA'⟩ := curve_of' hA
  exact ⟨_, A', fun t => h1 ((), t), hd, hA'⟩

/-- C76, attractive functional (dispersion and polar terms). -/
theorem C76_attractive {pr : Fin n → PureRecord ℝ} {k : Fin n → Fin n → ℝ} (hp : Molecules (fromRecords pr k))
    {rho : Fin n → ℝ → ℝ} {rho' : Fin n → ℝ} (hrho : ∀ i, HasDerivAt (rho i) (rho' i) t0) (h0 : ∀ i, 0 ≤ rho i t0)
    (heta : Spec.packingFraction (fromRecords pr k) (T t0) 1 (fun i => rho i t0) < 1)
    (hne : ∑ i, rho i t0 ≠ f64EPSILON)
    (hreg : DftPolarRegular (· ≠ ·) (fromRecords pr k) (T t0) (fun i => rho i t0)) :
    ∃ (A : ℝ → ℝ) (A' : ℝ),
      (∀ t, attractiveFunctional (fromRecords pr k) (T t) (List.ofFn (fun i => rho i t)) = .ok (A t))
      ∧ attractiveFunctional (fromRecords pr k) (⟨T t0, T'⟩ : Dual ℝ) (List.ofFn (fun i => ⟨rho i t0, rho' i⟩))
          = .ok ⟨A t0, A'⟩
      ∧ HasDerivAt A A' t0 := by
  obtain ⟨A, d, h1, hd, hA⟩ := rep_attractiveFunctional lawfulEmb_id (ParamRel.refl (fromRecords pr k))
    (rho1_curve hT) hT0.ne' (fun i => rho1_curve (hrho i)) hp.m_pos (sigma_ij_ne hp) (fun i => (hp.sigma_pos i).ne')
    (hp.diameter_pos hT0) h0 (Or.inl hne) (by rw [dftEta_packing]; exact heta) (rep_dftPade lawfulEmb_id) hreg
  obtain ⟨A', rfl, hA'⟩ := curve_of' hA
  exact ⟨_, A', fun t => h1 ((), t), hd, hA'⟩

/-- C76, association functional of one associating component, on whole grids: at every grid point dual numbers give
the value and the derivative of the energy density of that point. -/
theorem C76_association {p : PcSaftParameters n ℝ} (hp : Molecules p) {a : Fin n} (ha : p.assoc_comp = [a])
    (la : LinAlg ℝ ℝ) (laD : LinAlg ℝ (Dual ℝ)) (max_iter : ℕ) (tol : ℝ) (dim : ℕ) {γ : Type} (G : List γ)
    {n0 : γ → Fin n → ℝ → ℝ} {n0' : γ → Fin n → ℝ} {v : γ → ℕ → Fin n → ℝ → ℝ} {v' : γ → ℕ → Fin n → ℝ}
    {n3 : γ → ℝ → ℝ} {n3' : γ → ℝ} (h0 : ∀ g i, HasDerivAt (n0 g i) (n0' g i) t0)
    (hv : ∀ g d i, HasDerivAt (v g d i) (v' g d i) t0) (h3 : ∀ g, HasDerivAt (n3 g) (n3' g) t0)
    (hpt : ∀ g ∈ G, AssocPoint p (T t0) a (fun i => n0 g i t0) ((List.range dim).map fun d i => v g d i t0) (n3 g t0))
    (hna : ∀ g ∈ G, n0 g a t0 ≠ 1e-9) (hn : ∀ g ∈ G, ∑ i, n0 g i t0 ≠ 1e-9)
    (hs : ∀ g ∈ G, inhomStrength p (T t0) a (fun i => n0 g i t0) ((List.range dim).map fun d i => v g d i t0)
      (n3 g t0) ≠ Real.sqrt f64EPSILON) :
    ∃ (A : γ → ℝ → ℝ) (A' : γ → ℝ),
      (∀ t, associationFunctional la p max_iter tol (T t) (G.map fun g => assocRows dim (fun i => n0 g i t)
          (fun d i => v g d i t) (n3 g t)) = .ok (.ok (G.map fun g => A g t)))
      ∧ associationFunctional laD p max_iter tol (⟨T t0, T'⟩ : Dual ℝ) (G.map fun g =>
          assocRows dim (fun i => ⟨n0 g i t0, n0' g i⟩) (fun d i => ⟨v g d i t0, v' g d i⟩) ⟨n3 g t0, n3' g⟩)
        = .ok (.ok (G.map fun g => ⟨A g t0, A' g⟩))
      ∧ ∀ g ∈ G, HasDerivAt (A g) (A' g) t0 := by
  have key := fun g (hg : g ∈ G) => curve_of' (rep_assocFunctionalSingle lawfulEmb_id (ParamRel.refl p)
    (rho1_curve hT) hT0.ne'
    (wf := fun x => ⟨fun i => n0 g i x.2, (List.range dim).map fun d i => v g d i x.2, n3 g x.2⟩)
    (wd := ⟨fun i => ⟨n0 g i t0, n0' g i⟩, (List.range dim).map fun d i => ⟨v g d i t0, v' g d i⟩, ⟨n3 g t0, n3' g⟩⟩)
    ⟨fun i => rho1_curve (h0 g i), ⟨List.range dim, _, _, fun _ => rfl, rfl, fun d i => rho1_curve (hv g d i)⟩,
      rho1_curve (h3 g)⟩ a hp.m_pos (hp.diameter_pos hT0)
    (dftAssocRegular_of hp hT0 (hpt g hg) (Or.inl (hna g hg)) (Or.inl (hn g hg)) (Or.inl (hs g hg))))
  refine ⟨fun g t => assocFunctionalSingle p (T t) a ⟨fun i => n0 g i t, (List.range dim).map fun d i => v g d i t,
      n3 g t⟩,
    fun g => (assocFunctionalSingle p (⟨T t0, T'⟩ : Dual ℝ) a ⟨fun i => ⟨n0 g i t0, n0' g i⟩,
      (List.range dim).map fun d i => ⟨v g d i t0, v' g d i⟩, ⟨n3 g t0, n3' g⟩⟩).eps,
    fun t => associationFunctional_rows la p ha max_iter tol (T t) G dim _ _ _, ?_, fun g hg => ?_⟩
  · rw [associationFunctional_rows laD p ha max_iter tol _ G dim]
    refine congrArg (fun l => Except.ok (Except.ok l)) (List.map_congr_left fun g hg => ?_)
    obtain ⟨A', e, _⟩ := key g hg
    dsimp only at e ⊢
    rw [e]
  · obtain ⟨A', e, hA'⟩ := key g hg
    dsimp only at e ⊢
    rw [e]
    exact hA'

omit hT hT0 in
/-- C76, chain functional for pure components. -/
theorem C76_pure_chain (p : PcSaftParameters 1 ℝ) {rho lambda eta : ℝ → ℝ} {rho' lambda' eta' : ℝ}
    (hrho : HasDerivAt rho rho' t0) (hl : HasDerivAt lambda lambda' t0) (heta : HasDerivAt eta eta' t0)
    (hl0 : lambda t0 ≠ 0 ∨ rho t0 = 0) (h1 : eta t0 < 1) :
    ∃ (A : ℝ → ℝ) (A' : ℝ), (∀ t, pureChainFunctional p [rho t, lambda t, eta t] = .ok (A t))
      ∧ pureChainFunctional p [(⟨rho t0, rho'⟩ : Dual ℝ), ⟨lambda t0, lambda'⟩, ⟨eta t0, eta'⟩] = .ok ⟨A t0, A'⟩
      ∧ HasDerivAt A A' t0 := by
  obtain ⟨A, d, h1, hd, hA⟩ := rep_pureChainFunctional_empty lawfulEmb_id (ParamRel.refl p) isolated_unit
    (rho1_curve hrho) (rho1_curve hl) (rho1_curve heta) hl0 h1
  obtain ⟨A', rfl, hA'⟩ := curve_of' hA
  exact ⟨_, A', fun t => h1 ((), t), hd, hA'⟩

/-- C76, attractive functional for pure components. -/
theorem C76_pure_attractive {p : PcSaftParameters 1 ℝ} (hp : Molecules p) {rho : ℝ → ℝ} {rho' : ℝ}
    (hrho : HasDerivAt rho rho' t0) (h0 : 0 ≤ rho t0) (heta : Spec.packingFraction p (T t0) 1 (fun _ => rho t0) < 1)
    (hreg : PurePolarRegular (· ≠ ·) p (T t0) (rho t0)) :
    ∃ (A : ℝ → ℝ) (A' : ℝ), (∀ t, pureAttFunctional p (T t) [rho t] = .ok (A t))
      ∧ pureAttFunctional p (⟨T t0, T'⟩ : Dual ℝ) [⟨rho t0, rho'⟩] = .ok ⟨A t0, A'⟩ ∧ HasDerivAt A A' t0 := by
  obtain ⟨A, d, h1, hd, hA⟩ := rep_pureAttFunctional lawfulEmb_id (ParamRel.refl p) (rho1_curve hT) hT0.ne'
    (rho1_curve hrho) (hp.m_pos 0) (hp.sigma_pos 0).ne' (by rw [pureEta_packing]; exact packing_nonneg hp hT0 (fun _ => h0))
    (by rw [pureEta_packing]; exact heta) (rep_dftPade lawfulEmb_id) hreg
  obtain ⟨A', rfl, hA'⟩ := curve_of' hA
  exact ⟨_, A', fun t => h1 ((), t), hd, hA'⟩

/-- C76, hard spheres and association of a pure component, on whole grids.  The statement about the values is local,
because a packing fraction above one is reported as an error. -/
theorem C76_pure_fmt_association {p : PcSaftParameters 1 ℝ} (hp : Molecules p) {version : FMTVersion}
    (hver : version ≠ .KierlikRosinberg) (dim : ℕ) {γ : Type} (G : List γ) {n2 n3 : γ → ℝ → ℝ} {n2' n3' : γ → ℝ}
    {v : γ → ℕ → ℝ → ℝ} {v' : γ → ℕ → ℝ} (h2 : ∀ g, HasDerivAt (n2 g) (n2' g) t0)
    (h3 : ∀ g, HasDerivAt (n3 g) (n3' g) t0) (hv : ∀ g d, HasDerivAt (v g d) (v' g d) t0)
    (hpt : ∀ g ∈ G, PurePoint p (n2 g t0) (n3 g t0) ((List.range dim).map fun d => v g d t0))
    (hanti : version = .AntiSymWhiteBear → ∀ g ∈ G,
      (((List.range dim).map fun d => v g d t0).map fun x => x ^ 2).sum < n2 g t0 ^ 2)
    (hn3 : ∀ g ∈ G, n3 g t0 ≠ 1e-5) (hn2 : p.nassoc = 1 → ∀ g ∈ G, n2 g t0 ≠ 1e-9 * surface p (T t0) 0)
    (hs : p.nassoc = 1 → ∀ g ∈ G, pureStrength p (T t0) (n2 g t0) (n3 g t0) ((List.range dim).map fun d => v g d t0)
      ≠ Real.sqrt f64EPSILON) :
    ∃ (A : γ → ℝ → ℝ) (A' : γ → ℝ),
      (∀ᶠ t in 𝓝 t0, pureFmtAssocFunctional p version (T t) (G.map fun g => n2 g t :: n3 g t ::
          (List.range dim).map fun d => v g d t) = .ok (.ok (G.map fun g => A g t)))
      ∧ pureFmtAssocFunctional p version (⟨T t0, T'⟩ : Dual ℝ) (G.map fun g => ⟨n2 g t0, n2' g⟩ :: ⟨n3 g t0, n3' g⟩ ::
          (List.range dim).map fun d => ⟨v g d t0, v' g d⟩) = .ok (.ok (G.map fun g => ⟨A g t0, A' g⟩))
      ∧ ∀ g ∈ G, HasDerivAt (A g) (A' g) t0 := by
  have key : ∀ g, ∃ (A : ℝ → ℝ) (A' : ℝ), g ∈ G →
      (∀ t, pureFmtAssocPoint p version (T t) (n2 g t) (n3 g t) ((List.range dim).map fun d => v g d t) = .ok (A t))
      ∧ pureFmtAssocPoint p version (⟨T t0, T'⟩ : Dual ℝ) ⟨n2 g t0, n2' g⟩ ⟨n3 g t0, n3' g⟩
          ((List.range dim).map fun d => ⟨v g d t0, v' g d⟩) = .ok ⟨A t0, A'⟩
      ∧ HasDerivAt A A' t0 := by
    intro g
    by_cases hg : g ∈ G
    · obtain ⟨A, d, h1, hd, hA⟩ := rep_pureFmtAssocPoint lawfulEmb_id (ParamRel.refl p) version (List.range dim)
        (rho1_curve hT) hT0.ne' (rho1_curve (h2 g)) (rho1_curve (h3 g)) (fun d => rho1_curve (hv g d)) (hp.m_pos 0)
        (hp.diameter_pos hT0 0)
        (pureFmtRegular_of hp hT0 (hpt g hg) (Or.inl (hn3 g hg))
          (n2Regular_of hver fun h => ⟨(quotient_ne (hanti h g hg)).1, Or.inl (quotient_ne (hanti h g hg)).2⟩)
          (fun h => Or.inl (hn2 h g hg)) (fun h => Or.inl (hs h g hg)))
      obtain ⟨A', rfl, hA'⟩ := curve_of' hA
      exact ⟨_, A', fun _ => ⟨fun t => h1 ((), t), hd, hA'⟩⟩
    · exact ⟨fun _ => 0, 0, fun h => absurd h hg⟩
  choose A A' hA using key
  refine ⟨A, A', ?_, ?_, fun g hg => (hA g hg).2.2⟩
  · have hev : ∀ᶠ t in 𝓝 t0, ∀ g ∈ G, n3 g t < 1 := by
      have h := fun g (hg : g ∈ G) => (h3 g).continuousAt.eventually (gt_mem_nhds (hpt g hg).packing)
      clear hA hpt hanti hn3 hn2 hs
      induction G with
      | nil => simp
      | cons g G ih =>
        filter_upwards [h g (by simp), ih (fun g hg => h g (by simp [hg]))] with t h1 h2 g' hg'
        rcases List.mem_cons.1 hg' with rfl | hg'
        · exact h1
        · exact h2 g' hg'
    filter_upwards [hev] with t ht
    refine pureFmtAssocFunctional_rows p version (T t) G dim _ _ _ _ (fun g hg => ?_) (fun g hg => (hA g hg).1 t)
    have e1 : (1.0 : ℝ) = 1 := by norm_num
    simp only [lt_real, re_real, e1, decide_eq_false_iff_not, not_lt]
    exact (ht g hg).le
  · refine pureFmtAssocFunctional_rows p version _ G dim _ _ _ _ (fun g hg => ?_) (fun g hg => (hA g hg).2.1)
    have e1 : (1.0 : ℝ) = 1 := by norm_num
    have : DualNum.re (⟨n3 g t0, n3' g⟩ : Dual ℝ) = n3 g t0 := rfl
    simp only [this, lt_real, e1, decide_eq_false_iff_not, not_lt]
    exact (hpt g hg).packing.le

end curve


/-! ## C76: second derivatives in two independent directions -/

section second
variable {T : ℝ} (Tu Tw : ℝ) (hT0 : 0 < T)
include hT0

/-- C76, second derivatives of the chain functional. -/
theorem C76_chain_second {p : PcSaftParameters n ℝ} (hp : Molecules p) {rho lambda : Fin n → ℝ} {zeta2 zeta3 : ℝ}
    (rhou rhow lambdau lambdaw : Fin n → ℝ) (zeta2u zeta2w zeta3u zeta3w : ℝ) (hl0 : ∀ i, lambda i ≠ 0)
    (h20 : 0 ≤ zeta2) (h30 : zeta3 < 1) :
    ∃ (A : ℝ → ℝ → ℝ) (d : Dual (Dual ℝ)),
      (∀ s t, chainFunctional p (T + s * Tu + t * Tw) (chainRows (fun i => rho i + s * rhou i + t * rhow i)
        (fun i => lambda i + s * lambdau i + t * lambdaw i) (zeta2 + s * zeta2u + t * zeta2w)
        (zeta3 + s * zeta3u + t * zeta3w)) = .ok (A s t))
      ∧ chainFunctional p (⟨⟨T, Tu⟩, ⟨Tw, 0⟩⟩ : Dual (Dual ℝ)) (chainRows (fun i => ⟨⟨rho i, rhou i⟩, ⟨rhow i, 0⟩⟩)
          (fun i => ⟨⟨lambda i, lambdau i⟩, ⟨lambdaw i, 0⟩⟩) ⟨⟨zeta2, zeta2u⟩, ⟨zeta2w, 0⟩⟩
          ⟨⟨zeta3, zeta3u⟩, ⟨zeta3w, 0⟩⟩) = .ok d
      ∧ Jet2 A d ∧ d.eps.eps = deriv (fun s => deriv (A s) 0) 0 := by
  obtain ⟨A, d, h1, hd, hA⟩ := rep_chainFunctional lawfulEmb_id (ParamRel.refl p) (rho2_seed T Tu Tw)
    (by simpa using hT0.ne') (fun i => rho2_seed (rho i) (rhou i) (rhow i))
    (fun i => rho2_seed (lambda i) (lambdau i) (lambdaw i)) (rho2_seed zeta2 zeta2u zeta2w)
    (rho2_seed zeta3 zeta3u zeta3w) (by simpa using hp.diameter_pos hT0) (fun i => Or.inl (by simpa using hl0 i))
    (by simpa using h20) (by simpa using h30)
  exact ⟨_, d, fun s t => h1 (((), s), t), hd, jet2_of hA, (jet2_of hA).deriv⟩

/-- C76, second derivatives of the attractive functional. -/
theorem C76_attractive_second {pr : Fin n → PureRecord ℝ} {k : Fin n → Fin n → ℝ} (hp : Molecules (fromRecords pr k))
    {rho : Fin n → ℝ} (rhou rhow : Fin n → ℝ) (h0 : ∀ i, 0 ≤ rho i)
    (heta : Spec.packingFraction (fromRecords pr k) T 1 rho < 1) (hne : ∑ i, rho i ≠ f64EPSILON)
    (hreg : DftPolarRegular (· ≠ ·) (fromRecords pr k) T rho) :
    ∃ (A : ℝ → ℝ → ℝ) (d : Dual (Dual ℝ)),
      (∀ s t, attractiveFunctional (fromRecords pr k) (T + s * Tu + t * Tw)
        (List.ofFn (fun i => rho i + s * rhou i + t * rhow i)) = .ok (A s t))
      ∧ attractiveFunctional (fromRecords pr k) (⟨⟨T, Tu⟩, ⟨Tw, 0⟩⟩ : Dual (Dual ℝ))
          (List.ofFn (fun i => ⟨⟨rho i, rhou i⟩, ⟨rhow i, 0⟩⟩)) = .ok d
      ∧ Jet2 A d ∧ d.eps.eps = deriv (fun s => deriv (A s) 0) 0 := by
  obtain ⟨A, d, h1, hd, hA⟩ := rep_attractiveFunctional lawfulEmb_id (ParamRel.refl (fromRecords pr k))
    (rho2_seed T Tu Tw) (by simpa using hT0.ne') (fun i => rho2_seed (rho i) (rhou i) (rhow i)) hp.m_pos
    (sigma_ij_ne hp) (fun i => (hp.sigma_pos i).ne') (by simpa using hp.diameter_pos hT0) (by simpa using h0)
    (Or.inl (by simpa using hne)) (by rw [dftEta_packing]; simpa using heta) (rep_dftPade lawfulEmb_id)
    (by simpa using hreg)
  exact ⟨_, d, fun s t => h1 (((), s), t), hd, jet2_of hA, (jet2_of hA).deriv⟩

/-- C76, second derivatives of the association functional on whole grids. -/
theorem C76_association_second {p : PcSaftParameters n ℝ} (hp : Molecules p) {a : Fin n} (ha : p.assoc_comp = [a])
    (la : LinAlg ℝ ℝ) (laD : LinAlg ℝ (Dual (Dual ℝ))) (max_iter : ℕ) (tol : ℝ) (dim : ℕ) {γ : Type} (G : List γ)
    {n0 : γ → Fin n → ℝ} {v : γ → ℕ → Fin n → ℝ} {n3 : γ → ℝ} (n0u n0w : γ → Fin n → ℝ) (vu vw : γ → ℕ → Fin n → ℝ)
    (n3u n3w : γ → ℝ)
    (hpt : ∀ g ∈ G, AssocPoint p T a (n0 g) ((List.range dim).map (v g)) (n3 g))
    (hna : ∀ g ∈ G, n0 g a ≠ 1e-9) (hn : ∀ g ∈ G, ∑ i, n0 g i ≠ 1e-9)
    (hs : ∀ g ∈ G, inhomStrength p T a (n0 g) ((List.range dim).map (v g)) (n3 g) ≠ Real.sqrt f64EPSILON) :
    ∃ (A : γ → ℝ → ℝ → ℝ) (d : γ → Dual (Dual ℝ)),
      (∀ s t, associationFunctional la p max_iter tol (T + s * Tu + t * Tw) (G.map fun g => assocRows dim
          (fun i => n0 g i + s * n0u g i + t * n0w g i) (fun d i => v g d i + s * vu g d i + t * vw g d i)
          (n3 g + s * n3u g + t * n3w g)) = .ok (.ok (G.map fun g => A g s t)))
      ∧ associationFunctional laD p max_iter tol (⟨⟨T, Tu⟩, ⟨Tw, 0⟩⟩ : Dual (Dual ℝ)) (G.map fun g =>
          assocRows dim (fun i => ⟨⟨n0 g i, n0u g i⟩, ⟨n0w g i, 0⟩⟩) (fun d i => ⟨⟨v g d i, vu g d i⟩, ⟨vw g d i, 0⟩⟩)
            ⟨⟨n3 g, n3u g⟩, ⟨n3w g, 0⟩⟩) = .ok (.ok (G.map d))
      ∧ ∀ g ∈ G, Jet2 (A g) (d g) ∧ (d g).eps.eps = deriv (fun s => deriv (A g s) 0) 0 := by
  refine ⟨fun g s t => _, fun g => _, fun s t => associationFunctional_rows la p ha max_iter tol _ G dim _ _ _,
    associationFunctional_rows laD p ha max_iter tol _ G dim _ _ _, fun g hg => ?_⟩
  have hA := rep_assocFunctionalSingle lawfulEmb_id (ParamRel.refl p)
    (rho2_seed T Tu Tw) (by simpa using hT0.ne')
    (wf := fun x => ⟨fun i => n0 g i + x.1.2 * n0u g i + x.2 * n0w g i,
      (List.range dim).map fun d i => v g d i + x.1.2 * vu g d i + x.2 * vw g d i, n3 g + x.1.2 * n3u g + x.2 * n3w g⟩)
    (wd := ⟨fun i => ⟨⟨n0 g i, n0u g i⟩, ⟨n0w g i, 0⟩⟩,
      (List.range dim).map fun d i => ⟨⟨v g d i, vu g d i⟩, ⟨vw g d i, 0⟩⟩, ⟨⟨n3 g, n3u g⟩, ⟨n3w g, 0⟩⟩⟩)
    ⟨fun i => rho2_seed _ _ _, ⟨List.range dim, _, _, fun _ => rfl, rfl, fun d i => rho2_seed _ _ _⟩,
      rho2_seed _ _ _⟩ a hp.m_pos (by simpa using hp.diameter_pos hT0)
    (by simpa using dftAssocRegular_of hp hT0 (hpt g hg) (Or.inl (hna g hg)) (Or.inl (hn g hg)) (Or.inl (hs g hg)))
  exact ⟨jet2_of hA, (jet2_of hA).deriv⟩

omit hT0 in
/-- C76, second derivatives of the chain functional for pure components. -/
theorem C76_pure_chain_second (p : PcSaftParameters 1 ℝ) {rho lambda eta : ℝ} (rhou rhow lambdau lambdaw etau etaw : ℝ)
    (hl0 : lambda ≠ 0) (h1 : eta < 1) :
    ∃ (A : ℝ → ℝ → ℝ) (d : Dual (Dual ℝ)),
      (∀ s t, pureChainFunctional p [rho + s * rhou + t * rhow, lambda + s * lambdau + t * lambdaw,
        eta + s * etau + t * etaw] = .ok (A s t))
      ∧ pureChainFunctional p [(⟨⟨rho, rhou⟩, ⟨rhow, 0⟩⟩ : Dual (Dual ℝ)), ⟨⟨lambda, lambdau⟩, ⟨lambdaw, 0⟩⟩,
          ⟨⟨eta, etau⟩, ⟨etaw, 0⟩⟩] = .ok d
      ∧ Jet2 A d ∧ d.eps.eps = deriv (fun s => deriv (A s) 0) 0 := by
  obtain ⟨A, d, h1, hd, hA⟩ := rep_pureChainFunctional lawfulEmb_id (ParamRel.refl p) (rho2_seed rho rhou rhow)
    (rho2_seed lambda lambdau lambdaw) (rho2_seed eta etau etaw) (Or.inl (by simpa using hl0)) (by simpa using h1)
  exact ⟨_, d, fun s t => h1 (((), s), t), hd, jet2_of hA, (jet2_of hA).deriv⟩

/-- C76, second derivatives of the attractive functional for pure components. -/
theorem C76_pure_attractive_second {p : PcSaftParameters 1 ℝ} (hp : Molecules p) {rho : ℝ} (rhou rhow : ℝ)
    (h0 : 0 ≤ rho) (heta : Spec.packingFraction p T 1 (fun _ => rho) < 1)
    (hreg : PurePolarRegular (· ≠ ·) p T rho) :
    ∃ (A : ℝ → ℝ → ℝ) (d : Dual (Dual ℝ)),
      (∀ s t, pureAttFunctional p (T + s * Tu + t * Tw) [rho + s * rhou + t * rhow] = .ok (A s t))
      ∧ pureAttFunctional p (⟨⟨T, Tu⟩, ⟨Tw, 0⟩⟩ : Dual (Dual ℝ)) [⟨⟨rho, rhou⟩, ⟨rhow, 0⟩⟩] = .ok d
      ∧ Jet2 A d ∧ d.eps.eps = deriv (fun s => deriv (A s) 0) 0 := by
  obtain ⟨A, d, h1, hd, hA⟩ := rep_pureAttFunctional lawfulEmb_id (ParamRel.refl p) (rho2_seed T Tu Tw)
    (by simpa using hT0.ne') (rho2_seed rho rhou rhow) (hp.m_pos 0) (hp.sigma_pos 0).ne'
    (by rw [pureEta_packing]; simpa using packing_nonneg hp hT0 (fun _ => h0))
    (by rw [pureEta_packing]; simpa using heta) (rep_dftPade lawfulEmb_id) (by simpa using hreg)
  exact ⟨_, d, fun s t => h1 (((), s), t), hd, jet2_of hA, (jet2_of hA).deriv⟩

/-- C76, second derivatives of hard spheres and association of a pure component, on whole grids. -/
theorem C76_pure_fmt_association_second {p : PcSaftParameters 1 ℝ} (hp : Molecules p) {version : FMTVersion}
    (hver : version ≠ .KierlikRosinberg) (dim : ℕ) {γ : Type} (G : List γ) {n2 n3 : γ → ℝ} {v : γ → ℕ → ℝ}
    (n2u n2w n3u n3w : γ → ℝ) (vu vw : γ → ℕ → ℝ)
    (hpt : ∀ g ∈ G, PurePoint p (n2 g) (n3 g) ((List.range dim).map (v g)))
    (hanti : version = .AntiSymWhiteBear → ∀ g ∈ G,
      (((List.range dim).map (v g)).map fun x => x ^ 2).sum < n2 g ^ 2)
    (hn3 : ∀ g ∈ G, n3 g ≠ 1e-5) (hn2 : p.nassoc = 1 → ∀ g ∈ G, n2 g ≠ 1e-9 * surface p T 0)
    (hs : p.nassoc = 1 → ∀ g ∈ G, pureStrength p T (n2 g) (n3 g) ((List.range dim).map (v g)) ≠ Real.sqrt f64EPSILON) :
    ∃ (A : γ → ℝ → ℝ → ℝ) (d : γ → Dual (Dual ℝ)),
      (∀ᶠ x : ℝ × ℝ in 𝓝 (0, 0), pureFmtAssocFunctional p version (T + x.1 * Tu + x.2 * Tw) (G.map fun g =>
          (n2 g + x.1 * n2u g + x.2 * n2w g) :: (n3 g + x.1 * n3u g + x.2 * n3w g) ::
          (List.range dim).map fun d => v g d + x.1 * vu g d + x.2 * vw g d) = .ok (.ok (G.map fun g => A g x.1 x.2)))
      ∧ pureFmtAssocFunctional p version (⟨⟨T, Tu⟩, ⟨Tw, 0⟩⟩ : Dual (Dual ℝ)) (G.map fun g =>
          ⟨⟨n2 g, n2u g⟩, ⟨n2w g, 0⟩⟩ :: ⟨⟨n3 g, n3u g⟩, ⟨n3w g, 0⟩⟩ ::
          (List.range dim).map fun d => ⟨⟨v g d, vu g d⟩, ⟨vw g d, 0⟩⟩) = .ok (.ok (G.map d))
      ∧ ∀ g ∈ G, Jet2 (A g) (d g) ∧ (d g).eps.eps = deriv (fun s => deriv (A g s) 0) 0 := by
  have key : ∀ g, ∃ (A : ℝ → ℝ → ℝ) (d : Dual (Dual ℝ)), g ∈ G →
      (∀ s t, pureFmtAssocPoint p version (T + s * Tu + t * Tw) (n2 g + s * n2u g + t * n2w g)
        (n3 g + s * n3u g + t * n3w g) ((List.range dim).map fun d => v g d + s * vu g d + t * vw g d) = .ok (A s t))
      ∧ pureFmtAssocPoint p version (⟨⟨T, Tu⟩, ⟨Tw, 0⟩⟩ : Dual (Dual ℝ)) ⟨⟨n2 g, n2u g⟩, ⟨n2w g, 0⟩⟩
          ⟨⟨n3 g, n3u g⟩, ⟨n3w g, 0⟩⟩ ((List.range dim).map fun d => ⟨⟨v g d, vu g d⟩, ⟨vw g d, 0⟩⟩) = .ok d
      ∧ Jet2 A d := by
    intro g
    by_cases hg : g ∈ G
    · obtain ⟨A, d, h1, hd, hA⟩ := rep_pureFmtAssocPoint lawfulEmb_id (ParamRel.refl p) version (List.range dim)
        (rho2_seed T Tu Tw) (by simpa using hT0.ne') (rho2_seed (n2 g) (n2u g) (n2w g))
        (rho2_seed (n3 g) (n3u g) (n3w g)) (fun d => rho2_seed (v g d) (vu g d) (vw g d)) (hp.m_pos 0)
        (by simpa using hp.diameter_pos hT0 0)
        (by
          simpa using pureFmtRegular_of hp hT0 (hpt g hg) (Or.inl (hn3 g hg))
            (n2Regular_of hver fun h => ⟨(quotient_ne (hanti h g hg)).1, Or.inl (quotient_ne (hanti h g hg)).2⟩)
            (fun h => Or.inl (hn2 h g hg)) (fun h => Or.inl (hs h g hg)))
      exact ⟨_, d, fun _ => ⟨fun s t => h1 (((), s), t), hd, jet2_of hA⟩⟩
    · exact ⟨fun _ _ => 0, ⟨⟨0, 0⟩, ⟨0, 0⟩⟩, fun h => absurd h hg⟩
  choose A d hA using key
  refine ⟨A, d, ?_, ?_, fun g hg => ⟨(hA g hg).2.2, (hA g hg).2.2.deriv⟩⟩
  · have hev : ∀ᶠ x : ℝ × ℝ in 𝓝 (0, 0), ∀ g ∈ G, n3 g + x.1 * n3u g + x.2 * n3w g < 1 := by
      have h : ∀ g ∈ G, ∀ᶠ x : ℝ × ℝ in 𝓝 (0, 0), n3 g + x.1 * n3u g + x.2 * n3w g < 1 := fun g hg =>
        (Continuous.continuousAt (by fun_prop)).eventually (gt_mem_nhds (by simpa using (hpt g hg).packing))
      clear hA hpt hanti hn3 hn2 hs
      induction G with
      | nil => simp
      | cons g G ih =>
        filter_upwards [h g (by simp), ih (fun g hg => h g (by simp [hg]))] with t h1 h2 g' hg'
        rcases List.mem_cons.1 hg' with rfl | hg'
        · exact h1
        · exact h2 g' hg'
    filter_upwards [hev] with x hx
    refine pureFmtAssocFunctional_rows p version _ G dim _ _ _ _ (fun g hg => ?_) (fun g hg => (hA g hg).1 x.1 x.2)
    have e1 : (1.0 : ℝ) = 1 := by norm_num
    simp only [lt_real, re_real, e1, decide_eq_false_iff_not, not_lt]
    exact (hx g hg).le
  · refine pureFmtAssocFunctional_rows p version _ G dim _ _ _ _ (fun g hg => ?_) (fun g hg => (hA g hg).2.1)
    have e1 : (1.0 : ℝ) = 1 := by norm_num
    have : DualNum.re (⟨⟨n3 g, n3u g⟩, ⟨n3w g, 0⟩⟩ : Dual (Dual ℝ)) = n3 g := rfl
    simp only [this, lt_real, e1, decide_eq_false_iff_not, not_lt]
    exact (hpt g hg).packing.le

end second


end PcSaft.Props
