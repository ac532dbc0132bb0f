import Verif.Props.CrossConvergence
import Verif.Props.DftAssociation

/-!
# Property C80: the association functional of a mixture along a grid

The functional passes the site fractions from one grid point to the next as starting values. If association is
weak at every point, the iteration converges everywhere, and what it returns at a point depends on the other
points only within the tolerance.
-/

namespace PcSaft.Props
open PcSaft Spec
variable {n : ℕ}

/-- the association strengths at a grid point, from the weighted densities -/
noncomputable def pointStrength (p : PcSaftParameters n ℝ) (T : ℝ) (wd : AssocDensities n ℝ)
    (i j : Fin p.assoc_comp.length) : ℝ :=
  let r := fun i => hsDiameter p T i * c (0.5 : ℝ)
  strengths p T r (assocN2Total p r wd) (DualNum.recip (-wd.n3 + c (1.0 : ℝ))) (assocXi p r wd) i j

/-- the densities at a grid point that the functional uses -/
noncomputable def pointDensity (p : PcSaftParameters n ℝ) (T : ℝ) (wd : AssocDensities n ℝ) : Fin n → ℝ :=
  assocRho0 p (fun i => hsDiameter p T i * c (0.5 : ℝ)) wd

/-- weak association at a grid point -/
structure WeakPoint (p : PcSaftParameters n ℝ) (T : ℝ) (wd : AssocDensities n ℝ) : Prop where
  strength : ∀ i j, 0 ≤ pointStrength p T wd i j
  density : ∀ i, 0 ≤ pointDensity p T wd i
  weak : WeakSites (pointStrength p T wd) (assocNa p) (assocNb p) (assocRho p (pointDensity p T wd)) (2 / 3)

/-- Strengths and densities at a grid point are not negative if the densities are not, the packing fraction is below
one and the vector densities are bounded by the scalar ones. -/
theorem point_nonneg {p : PcSaftParameters n ℝ} {T : ℝ} (hT : 0 < T) (hm : ∀ i, 0 < p.m i)
    (hd : ∀ i, 0 < hsDiameter p T i) (hσ : ∀ i, 0 ≤ p.sigma i) (hκ : ∀ i j, 0 ≤ p.kappa_aibj i j)
    (hε : ∀ i j, 0 ≤ p.epsilon_k_aibj i j) {wd : AssocDensities n ℝ} (hn0 : ∀ i, 0 ≤ wd.n0i i) (hn3 : wd.n3 < 1)
    (hv : ∀ i, (wd.n2v.map (fun v => v i ^ 2)).sum
      ≤ (wd.n0i i * (4 * Real.pi * p.m i * (hsDiameter p T i / 2) ^ 2)) ^ 2)
    (hv' : (wd.n2v.map (fun v => (∑ i, v i) ^ 2)).sum
      ≤ (∑ i, wd.n0i i * (4 * Real.pi * p.m i * (hsDiameter p T i / 2) ^ 2)) ^ 2) :
    (∀ i j, 0 ≤ pointStrength p T wd i j) ∧ ∀ i, 0 ≤ pointDensity p T wd i := by
  have hhalf : ∀ i, hsDiameter p T i * c (0.5 : ℝ) = hsDiameter p T i / 2 := fun i => by
    have h5 : (0.5 : ℝ) = 1 / 2 := by norm_num
    simp only [c, ofF_real, h5]
    ring
  have hr : ∀ i, 0 < hsDiameter p T i * c (0.5 : ℝ) := fun i => by
    rw [hhalf]
    linarith [hd i]
  obtain ⟨g1, g2, g3, g4⟩ := C55_empty_regions p (fun i => hsDiameter p T i * c (0.5 : ℝ)) wd hm hr hn0
  simp only [hhalf] at g3 g4
  have hxi : 0 ≤ assocXi p (fun i => hsDiameter p T i * c (0.5 : ℝ)) wd := by
    rcases lt_or_ge (∑ i, wd.n0i i) (N0_CUTOFF : ℝ) with h | h
    · rw [g2 h]
      exact zero_le_one
    · have := (g4 h).2
      simp only [hhalf] at this ⊢
      rw [this, sub_nonneg]
      exact div_le_one_of_le₀ hv' (sq_nonneg _)
  have hn2 : 0 ≤ assocN2Total p (fun i => hsDiameter p T i * c (0.5 : ℝ)) wd := by
    have h4 : (4.0 : ℝ) = 4 := by norm_num
    simp only [assocN2Total, sumFin_real, assocN2i, c, ofF_real, dpowi_real, pi_real, h4]
    refine Finset.sum_nonneg fun i _ => ?_
    have := hn0 i
    have := (hm i).le
    have := Real.pi_pos.le
    positivity
  refine ⟨fun i j => ?_, fun i => ?_⟩
  · unfold pointStrength strengths associationStrength
    have h1 : 0 ≤ DualNum.recip (-wd.n3 + c (1.0 : ℝ)) := by
      have e1 : (1.0 : ℝ) = 1 := by norm_num
      simp only [c, ofF_real, recip_real, e1]
      exact inv_nonneg.2 (by linarith)
    have h2 : 0 ≤ DualNum.expm1 (DualNum.recip T * c (p.epsilon_k_aibj (p.assoc_comp.get i) (p.assoc_comp.get j))) := by
      simp only [c, ofF_real, recip_real, dexpm1_real]
      have h3 : 0 ≤ T⁻¹ * p.epsilon_k_aibj (p.assoc_comp.get i) (p.assoc_comp.get j) :=
        mul_nonneg (inv_nonneg.2 hT.le) (hε _ _)
      linarith [Real.add_one_le_exp (T⁻¹ * p.epsilon_k_aibj (p.assoc_comp.get i) (p.assoc_comp.get j))]
    have hri := (hr (p.assoc_comp.get i)).le
    have hrj := (hr (p.assoc_comp.get j)).le
    have h5 : (0.5 : ℝ) = 1 / 2 := by norm_num
    have e2 : (2.0 : ℝ) = 2 := by norm_num
    have e18 : (18.0 : ℝ) = 18 := by norm_num
    have e1 : (1.0 : ℝ) = 1 := by norm_num
    have hσi := hσ (p.assoc_comp.get i)
    have hσj := hσ (p.assoc_comp.get j)
    have hk := hκ (p.assoc_comp.get i) (p.assoc_comp.get j)
    generalize DualNum.expm1 (DualNum.recip T * c (p.epsilon_k_aibj (p.assoc_comp.get i) (p.assoc_comp.get j))) = E at h2 ⊢
    generalize DualNum.recip (-wd.n3 + c (1.0 : ℝ)) = n3i at h1 ⊢
    simp only [c, ofF_real, powi_real, h5, e2, e18, e1] at hri hrj hxi hn2 ⊢
    generalize assocXi p (fun i => hsDiameter p T i * (1 / 2)) wd = xi at hxi ⊢
    generalize assocN2Total p (fun i => hsDiameter p T i * (1 / 2)) wd = n2 at hn2 ⊢
    generalize hsDiameter p T (p.assoc_comp.get i) * (1 / 2) = ri at hri ⊢
    generalize hsDiameter p T (p.assoc_comp.get j) * (1 / 2) = rj at hrj ⊢
    generalize p.sigma (p.assoc_comp.get i) = si at hσi ⊢
    generalize p.sigma (p.assoc_comp.get j) = sj at hσj ⊢
    generalize p.kappa_aibj (p.assoc_comp.get i) (p.assoc_comp.get j) = ka at hk ⊢
    positivity
  · rcases lt_or_ge (wd.n0i i) (N0_CUTOFF : ℝ) with h | h
    · exact le_of_le_of_eq (hn0 i) (g1 i h).symm
    · have := (g3 i h).2
      unfold pointDensity
      simp only [hhalf] at this ⊢
      rw [this]
      exact mul_nonneg (hn0 i) (sub_nonneg.2 (div_le_one_of_le₀ (hv i) (sq_nonneg _)))

/-- What the energy density at a grid point has to be: zero below the cutoff, otherwise within `10 tol` per site of
the energy at the exact site fractions. -/
def PointAccurate (p : PcSaftParameters n ℝ) (T tol : ℝ) (wd : AssocDensities n ℝ) (phi : ℝ) : Prop :=
  (∑ i, pointDensity p T wd i < f64EPSILON → phi = 0)
  ∧ ((f64EPSILON : ℝ) ≤ ∑ i, pointDensity p T wd i → ∀ y, (∀ s, 0 < y s) →
    MassAction (siteMatrix (pointStrength p T wd) (assocNa p) (assocNb p) (assocRho p (pointDensity p T wd))) y →
    |phi - specEnergy (assocNa p) (assocNb p) (assocRho p (pointDensity p T wd)) y|
      ≤ 10 * tol * ∑ i, assocRho p (pointDensity p T wd) i * (assocNa p i + assocNb p i))

/-- one point: a result, and starting values in (0, 1] for the next point -/
theorem point_weak {p : PcSaftParameters n ℝ} (hna : ∀ i, 0 ≤ p.na i) (hnb : ∀ i, 0 ≤ p.nb i)
    (hk : p.nassoc ≤ 10 ^ 6) {la : LinAlg ℝ ℝ} (h0 : la.nderiv = 0)
    (hs : CorrectSolver (la.solveF p.assoc_comp.length)) {tol : ℝ} (htol : 1e-10 ≤ tol) (htol' : tol ≤ 1 / 8) {N : ℕ}
    (hN : 10 ≤ N) {T : ℝ} {wd : AssocDensities n ℝ} (hw : WeakPoint p T wd)
    {x : Fin p.assoc_comp.length ⊕ Fin p.assoc_comp.length → ℝ} (hx : ∀ s, 0 < x s ∧ x s ≤ 1) :
    ∃ phi x', assocFunctionalCrossPoint la p N tol T wd x = (.ok phi, some x') ∧ (∀ s, 0 < x' s ∧ x' s ≤ 1)
      ∧ PointAccurate p T tol wd phi := by
  set r := fun i => hsDiameter p T i * c (0.5 : ℝ) with hr
  by_cases hcut : ∑ i, pointDensity p T wd i < f64EPSILON
  · have hc : F64.lt (DualNum.re (sumFin (assocRho0 p r wd))) (f64EPSILON : ℝ) = true := by
      simp only [lt_real, re_real, sumFin_real, decide_eq_true_eq]
      exact hcut
    refine ⟨0, fun _ => 1, ?_, fun _ => by norm_num, fun _ => rfl, fun h => absurd hcut (not_lt.2 h)⟩
    have e0 : (0.0 : ℝ) = 0 := by norm_num
    have e1 : (1.0 : ℝ) = 1 := by norm_num
    have hpt : assocFunctionalCrossPoint la p N tol T wd x = (.ok (c (0.0 : ℝ)), some fun _ => 1.0) := by
      unfold assocFunctionalCrossPoint crossAssociationDensity
      simp only [← hr, hc, if_true, Option.map_some]
    rw [hpt, e1]
    simp only [c, ofF_real, e0]
  · have hc : F64.lt (DualNum.re (sumFin (assocRho0 p r wd))) (f64EPSILON : ℝ) = false := by
      simp only [lt_real, re_real, sumFin_real, decide_eq_false_iff_not]
      exact hcut
    have hM := siteMatrix_nonneg hw.strength (fun i => hna (p.assoc_comp.get i)) (fun i => hnb (p.assoc_comp.get i))
      (fun i => hw.density (p.assoc_comp.get i))
    obtain ⟨x', hx', hx1, -⟩ := C79_warm_start _ hs (pointStrength p T wd) (assocNa p) (assocNb p)
      (assocRho p (pointDensity p T wd)) hw.strength (fun i => hna _) (fun i => hnb _) (fun i => hw.density _) hw.weak hk
      htol (htol'.trans (by norm_num)) hN hx
    have hpt : assocFunctionalCrossPoint la p N tol T wd x
        = (.ok (energyOf p (pointDensity p T wd) x'), some x') := by
      unfold assocFunctionalCrossPoint crossAssociationDensity
      simp only [← hr, hc, Bool.false_eq_true, if_false, Option.getD_some, h0, newtonDual, Option.map_some]
      have hl : newtonLoop (newtonStep (la.solveF p.assoc_comp.length) (fun i j => DualNum.re (associationStrength p T r
          (assocN2Total p r wd) (DualNum.recip (-wd.n3 + c (1.0 : ℝ))) (assocXi p r wd) (p.assoc_comp.get i)
          (p.assoc_comp.get j))) (fun i => p.na (p.assoc_comp.get i)) (fun i => p.nb (p.assoc_comp.get i))
          (fun i => DualNum.re (assocRho0 p r wd (p.assoc_comp.get i))) tol) N x = .ok x' := hx'
      rw [hl]
      rfl
    refine ⟨_, x', hpt, hx1, fun h => absurd h hcut, fun hcut' y hy hsol => ?_⟩
    have hok : (crossAssociationDensity p 0 (la.solveF _) (la.solveD _) T (assocRho0 p r wd) r (assocN2Total p r wd)
        (DualNum.recip (-wd.n3 + c (1.0 : ℝ))) (assocXi p r wd) N tol (some x)).1
        = .ok (energyOf p (pointDensity p T wd) x') := by
      have := congrArg Prod.fst hpt
      unfold assocFunctionalCrossPoint at this
      rw [h0] at this
      exact this
    exact (C29_accuracy p _ (la.solveD _) hs T _ r _ _ _ N tol htol' (by omega) (some x) hcut' hw.strength hna hnb
      hw.density _ hok (fun z hz s => by
        obtain ⟨j, -, hreach, -⟩ := hz
        exact (reach_fractions hs hM (hw.weak.mono (by norm_num)) hx hreach s).1) y hy hsol).1

/-- C80: if association is weak at every grid point, the functional returns an energy density for every point, which
is within the tolerance of the exact one, whatever the other points are. -/
theorem C80_grid {p : PcSaftParameters n ℝ} (hna : ∀ i, 0 ≤ p.na i) (hnb : ∀ i, 0 ≤ p.nb i)
    (hk : p.nassoc ≤ 10 ^ 6) {la : LinAlg ℝ ℝ} (h0 : la.nderiv = 0)
    (hs : CorrectSolver (la.solveF p.assoc_comp.length)) {tol : ℝ} (htol : 1e-10 ≤ tol) (htol' : tol ≤ 1 / 8) {N : ℕ}
    (hN : 10 ≤ N) (T : ℝ) (pts : List (AssocDensities n ℝ)) (hw : ∀ wd ∈ pts, WeakPoint p T wd)
    {x : Fin p.assoc_comp.length ⊕ Fin p.assoc_comp.length → ℝ} (hx : ∀ s, 0 < x s ∧ x s ≤ 1) :
    ∃ phis, assocFunctionalCrossGrid la p N tol T x pts = .ok phis
      ∧ List.Forall₂ (PointAccurate p T tol) pts phis := by
  induction pts generalizing x with
  | nil => exact ⟨[], rfl, .nil⟩
  | cons wd rest ih =>
    obtain ⟨phi, x', h1, h2, h3⟩ := point_weak hna hnb hk h0 hs htol htol' hN (hw wd (by simp)) hx
    obtain ⟨phis, h4, h5⟩ := ih (fun wd' h => hw wd' (by simp [h])) h2
    refine ⟨phi :: phis, ?_, .cons h3 h5⟩
    unfold assocFunctionalCrossGrid
    rw [h1]
    simp only [Option.getD_some, h4]

/-- C80: the energy density at a point changes by no more than the tolerance allows when the other points change. -/
theorem C80_other_points {p : PcSaftParameters n ℝ} (hna : ∀ i, 0 ≤ p.na i) (hnb : ∀ i, 0 ≤ p.nb i)
    {tol T phi phi' : ℝ} (htol : 0 ≤ tol) {wd : AssocDensities n ℝ} (hw : WeakPoint p T wd)
    (h : PointAccurate p T tol wd phi)
    (h' : PointAccurate p T tol wd phi') :
    |phi - phi'| ≤ 20 * tol * ∑ i, assocRho p (pointDensity p T wd) i * (assocNa p i + assocNb p i) := by
  have hnn : 0 ≤ ∑ i, assocRho p (pointDensity p T wd) i * (assocNa p i + assocNb p i) :=
    Finset.sum_nonneg fun i _ => mul_nonneg (hw.density _) (add_nonneg (hna _) (hnb _))
  rcases lt_or_ge (∑ i, pointDensity p T wd i) (f64EPSILON : ℝ) with hc | hc
  · rw [h.1 hc, h'.1 hc, sub_self, abs_zero]
    positivity
  · obtain ⟨y, hy, hsol⟩ := MassAction.exists (siteMatrix_nonneg hw.strength (fun i => hna (p.assoc_comp.get i))
      (fun i => hnb (p.assoc_comp.get i)) (fun i => hw.density (p.assoc_comp.get i)))
    have h1 := h.2 hc y hy hsol
    have h2 := h'.2 hc y hy hsol
    rw [abs_sub_comm] at h2
    exact (abs_sub_le _ _ _).trans ((add_le_add h1 h2).trans (le_of_eq (by ring)))

/-- a homogeneous point is weak if the state is -/
theorem weakPoint_bulk {pr : Fin n → PureRecord ℝ} {kij : Fin n → Fin n → ℝ} {p : PcSaftParameters n ℝ}
    (hp : p = fromRecords pr kij) {T : ℝ} {rho : Fin n → ℝ} (h : Admissible p T 1 rho) (hn : AssocNonneg p)
    (hw : WeakAssociation p T 1 rho (2 / 3)) (dim : ℕ) :
    let wd : AssocDensities n ℝ := ⟨rho, List.replicate dim 0, packingFraction p.m rho (fun i => hsDiameter p T i * c (0.5 : ℝ))⟩
    WeakPoint p T wd ∧ pointDensity p T wd = rho
      ∧ ∀ i j, pointStrength p T wd i j
        = stateStrength p (StateHD.new T 1 rho) (p.assoc_comp.get i) (p.assoc_comp.get j) := by
  intro wd
  obtain ⟨e1, e2, e3⟩ := assoc_bulk_densities p (fun i => hsDiameter p T i * c (0.5 : ℝ)) rho dim
    (packingFraction p.m rho (fun i => hsDiameter p T i * c (0.5 : ℝ)))
  have hd : (StateHD.new T 1 rho).partial_density = rho := by
    rw [StateHD.new_density]
    funext i
    exact div_one _
  have hpd : pointDensity p T wd = rho := e1
  have hps : ∀ i j, pointStrength p T wd i j
      = stateStrength p (StateHD.new T 1 rho) (p.assoc_comp.get i) (p.assoc_comp.get j) := fun i j => by
    unfold pointStrength stateStrength strengths
    rw [hd, StateHD.new_temperature]
    simp only [wd]
    rw [e2, e3]
  have hps' : pointStrength p T wd = fun i j =>
      stateStrength p (StateHD.new T 1 rho) (p.assoc_comp.get i) (p.assoc_comp.get j) := funext fun i => funext (hps i)
  have hws := weakSites_state hp h hw
  rw [hd] at hws
  refine ⟨⟨fun i j => ?_, fun i => ?_, ?_⟩, hpd, hps⟩
  · rw [hps]
    exact stateStrength_nonneg hp h hn i j
  · rw [hpd]
    exact h.moles_nonneg i
  · rw [hps', hpd]
    exact hws

/-- C80: on every grid of homogeneous points with weak association, in every dimension, the functional of a mixture
with several associating components gives, within the tolerance, the association energy density of the equation of
state. -/
theorem C80_homogeneous {pr : Fin n → PureRecord ℝ} {kij : Fin n → Fin n → ℝ} {p : PcSaftParameters n ℝ}
    (hp : p = fromRecords pr kij) (ha : 2 ≤ p.nassoc) (hk : p.nassoc ≤ 10 ^ 6) (hn : AssocNonneg p)
    {la : LinAlg ℝ ℝ} (h0 : la.nderiv = 0)
    (hs : CorrectSolver (la.solveF p.assoc_comp.length)) {tol : ℝ} (htol : 1e-10 ≤ tol) (htol' : tol ≤ 1 / 8) {N : ℕ}
    (hN : 10 ≤ N) {T : ℝ} (dim : ℕ) (rhos : List (Fin n → ℝ))
    (h : ∀ rho ∈ rhos, Admissible p T 1 rho ∧ WeakAssociation p T 1 rho (2 / 3)) :
    ∃ phis, associationFunctional la p N tol T (rhos.map ((associationWeightFunctions p T).bulkRows dim))
        = .ok (.ok phis)
      ∧ List.Forall₂ (fun rho phi => (f64EPSILON : ℝ) ≤ ∑ i, rho i → ∀ a, ExactAssociation p T 1 rho a →
        |phi - a| ≤ 10 * tol * ∑ i, rho i * (p.na i + p.nb i)) rhos phis := by
  set r := fun i => hsDiameter p T i * c (0.5 : ℝ) with hr
  let wd : (Fin n → ℝ) → AssocDensities n ℝ := fun rho => ⟨rho, List.replicate dim 0, packingFraction p.m rho r⟩
  have hlen : p.assoc_comp.length ≠ 1 := by
    have : p.assoc_comp.length = p.nassoc := rfl
    omega
  have hn0 : 0 < n := by
    rcases Nat.eq_zero_or_pos n with rfl | h
    · have i0 : Fin p.assoc_comp.length := ⟨0, by change 0 < p.nassoc; omega⟩
      exact (p.assoc_comp.get i0).elim0
    · exact h
  have hm : ∀ rhos : List (Fin n → ℝ), (∀ rho ∈ rhos, Admissible p T 1 rho ∧ WeakAssociation p T 1 rho (2 / 3)) →
      (rhos.map ((associationWeightFunctions p T).bulkRows dim)).mapM (assocDecode n)
        = (.ok (rhos.map wd) : Except Panic (List (AssocDensities n ℝ))) := by
    intro rhos h
    induction rhos with
    | nil => rfl
    | cons rho rhos ih =>
      rw [List.map_cons, List.mapM_cons, ih (fun rho' h' => h rho' (by simp [h'])),
        assocDecode_bulk p T hn0 (fun i => ((h rho (by simp)).1.diameter_pos i).ne')]
      rfl
  obtain ⟨phis, h1, h2⟩ := C80_grid hn.na hn.nb hk h0 hs htol htol' hN T (rhos.map wd) (by
    intro w hw
    obtain ⟨rho, hrho, rfl⟩ := List.mem_map.1 hw
    exact (weakPoint_bulk hp (h rho hrho).1 hn (h rho hrho).2 dim).1) (x := fun _ => 0.2) (fun _ => by norm_num)
  refine ⟨phis, ?_, ?_⟩
  · unfold associationFunctional
    rw [hm rhos h]
    simp only [bind, Except.bind]
    split
    · rename_i b hb
      exact absurd (by rw [hb]; rfl) hlen
    · rw [h1]
  · rw [List.forall₂_map_left_iff] at h2
    have h3 : List.Forall₂ (fun rho phi => rho ∈ rhos ∧ PointAccurate p T tol (wd rho) phi) rhos phis := by
      rw [List.forall₂_and_left]
      exact ⟨fun _ h => h, h2⟩
    refine h3.imp ?_
    rintro rho phi ⟨hmem, hacc⟩ hcut a hex
    obtain ⟨hadm, hweak⟩ := h rho hmem
    obtain ⟨-, hpd, hps⟩ := weakPoint_bulk hp hadm hn hweak dim
    have hps' : pointStrength p T (wd rho) = fun i j =>
        stateStrength p (StateHD.new T 1 rho) (p.assoc_comp.get i) (p.assoc_comp.get j) := funext fun i => funext (hps i)
    have hd : (StateHD.new T 1 rho).partial_density = rho := by
      rw [StateHD.new_density]
      funext i
      exact div_one _
    obtain ⟨y, hy, hsol, rfl⟩ : ∃ y : Fin p.assoc_comp.length ⊕ Fin p.assoc_comp.length → ℝ,
        (∀ s, 0 < y s) ∧ MassAction (stateSites p (StateHD.new T 1 rho)) y
        ∧ a = specEnergy (assocNa p) (assocNb p) (assocRho p (StateHD.new T 1 rho).partial_density) y * 1 := by
      subst hp
      exact exact_restrict pr kij hadm hex
    unfold stateSites at hsol
    rw [hd] at hsol ⊢
    have key := hacc.2 (by rw [hpd]; exact hcut) y hy (by rw [hpd, hps']; exact hsol)
    rw [hpd] at key
    rw [mul_one]
    refine key.trans (mul_le_mul_of_nonneg_left ?_ (by linarith))
    have hinj : Function.Injective p.assoc_comp.get := by
      subst hp
      exact List.nodup_iff_injective_get.1 (nonzeroComp_sorted _).nodup
    have := Finset.sum_map Finset.univ ⟨p.assoc_comp.get, hinj⟩ (fun i => rho i * (p.na i + p.nb i))
    simp only [Function.Embedding.coeFn_mk] at this
    change ∑ i, rho (p.assoc_comp.get i) * (p.na (p.assoc_comp.get i) + p.nb (p.assoc_comp.get i)) ≤ _
    rw [← this]
    exact Finset.sum_le_sum_of_subset_of_nonneg (Finset.subset_univ _) fun i _ _ =>
      mul_nonneg (hadm.moles_nonneg i) (add_nonneg (hn.na i) (hn.nb i))

/-! ## Cases that meet the hypotheses -/

theorem packing_density (p : PcSaftParameters n ℝ) (T V : ℝ) (N : Fin n → ℝ) :
    Spec.packingFraction p T 1 (fun i => N i / V) = Spec.packingFraction p T V N := by
  unfold Spec.packingFraction
  exact Finset.sum_congr rfl fun i _ => by ring

/-- the condition only depends on the densities -/
theorem weakAssociation_density {p : PcSaftParameters n ℝ} {T V μ : ℝ} {N : Fin n → ℝ}
    (h : WeakAssociation p T V N μ) : WeakAssociation p T 1 (fun i => N i / V) μ := by
  have e : specStrength p T 1 (fun i => N i / V) = specStrength p T V N := by
    funext i j
    unfold specStrength
    rw [packing_density]
    unfold moment2
    simp only [div_one]
  unfold WeakAssociation at h ⊢
  rw [e]
  simpa only [div_one] using h

theorem twin_grid : ∃ K : ℝ, 0 < K ∧
    Admissible (fromRecords (twinRecords K) (fun _ _ => 0)) 300 1 (fun i => ![3, 11] i / 1000)
    ∧ WeakAssociation (fromRecords (twinRecords K) (fun _ _ => 0)) 300 1 (fun i => ![3, 11] i / 1000) (2 / 3) := by
  obtain ⟨K, hK, hw⟩ := twin_weak
  have h := twinRecords_admissible K (fun _ _ => 0) (V := 1000) (by norm_num)
  refine ⟨K, hK, ⟨h.temperature, one_pos, h.m_pos, h.sigma_pos, h.epsilon_nonneg, fun i => ?_, ⟨0, by norm_num⟩, ?_⟩,
    weakAssociation_density (hw _ (by norm_num))⟩
  · exact div_nonneg (h.moles_nonneg i) (by norm_num)
  · exact lt_of_eq_of_lt (packing_density _ _ _ _) h.packing

/-- a grid with any number of points -/
example (k dim : ℕ) : ∃ K : ℝ, 0 < K ∧ ∃ phis,
    associationFunctional (⟨fun _ => exactSolver, fun _ => exactSolver, 0⟩ : LinAlg ℝ ℝ)
      (fromRecords (twinRecords K) (fun _ _ => 0)) 50 1e-10 300
      ((List.replicate k (fun i => ![3, 11] i / 1000)).map
        ((associationWeightFunctions (fromRecords (twinRecords K) (fun _ _ => 0)) (300 : ℝ)).bulkRows dim))
      = .ok (.ok phis) ∧ phis.length = k := by
  obtain ⟨K, hK, hadm, hw⟩ := twin_grid
  have hna : (fromRecords (twinRecords K) (fun _ _ => 0)).nassoc = 2 := by
    rw [PcSaftParameters.nassoc, twinRecords_comp hK]
    rfl
  obtain ⟨phis, h1, h2⟩ := C80_homogeneous (p := fromRecords (twinRecords K) (fun _ _ => 0)) rfl hna.ge
    (by rw [hna]; norm_num) ⟨fun _ => by change (0 : ℝ) ≤ 2500; norm_num, fun _ => zero_le_one, fun _ => zero_le_one⟩
    (la := ⟨fun _ => exactSolver, fun _ => exactSolver, 0⟩) rfl exactSolver_correct (tol := 1e-10) le_rfl (by norm_num)
    (N := 50) (by norm_num) (T := 300) dim (List.replicate k (fun i => ![3, 11] i / 1000)) (fun rho hrho => by
      rw [List.eq_of_mem_replicate hrho]
      exact ⟨hadm, hw⟩)
  exact ⟨K, hK, phis, h1, by simpa using h2.length_eq.symm⟩

end PcSaft.Props
