import Verif.Props.CrossBalanced
import Verif.Props.DftCrossGrid
import Verif.Lemmas.DftRegular

/-!
# Property C122: the association functional along a grid at any strength, if all sites associate equally strongly
-/

open PcSaft.Spec

namespace PcSaft.Props
open PcSaft Spec
variable {n k : ℕ}

section start
variable {solve : Solver k ℝ} {delta : Fin k → Fin k → ℝ} {na nb rho : Fin k → ℝ} {tol : ℝ}

/-- From any common fraction the iterates are common fractions, and after the first step they fall towards the limit. -/
theorem reach_balanced_from (hs : CorrectSolver solve) (hM : ∀ s t, 0 ≤ siteMatrix delta na nb rho s t) {D : ℝ}
    (hw : BalancedSites delta na nb rho D) (hD : 0 ≤ D) (h2 : D ≤ 2 ^ 76) {t0 : ℝ} (h0 : 0 < t0) (h1 : t0 ≤ 1)
    {z : Fin k ⊕ Fin k → ℝ} {j : ℕ} (h : Reach (newtonStep solve delta na nb rho tol) j (fun _ => t0) z) :
    ∃ t, 0 < t ∧ t ≤ 1 ∧ (2 / 3 ≤ D → 1 ≤ j → HeronRun D j t) ∧ ∀ s, z s = t := by
  have := h.invariant (P := fun j x => ∃ t : ℝ, 0 < t ∧ t ≤ 1 ∧ (2 / 3 ≤ D → 1 ≤ j → HeronRun D j t) ∧ ∀ s, x s = t) ?_ 0
    ⟨t0, h0, h1, fun _ h => by omega, fun _ => rfl⟩
  · rwa [Nat.zero_add] at this
  · rintro j x z b ⟨t, ht, ht1, hrun, hx⟩ hst
    refine ⟨_, ?_, ?_, fun hD1 _ => ?_, fun s => StepEq.balanced hM hw.row hD ht hx
      (newtonStep_stepEq hs (fun s => by rw [hx]; exact ht) hst) s⟩
    · positivity
    · rw [div_le_one (by positivity)]
      nlinarith [mul_nonneg hD ht.le]
    · rcases Nat.eq_zero_or_pos j with rfl | hj
      · exact HeronRun.one hD1 h2 ht ht1
      · exact (hrun hD1 hj).next hD1 (h2.trans (by norm_num))

/-- C122: the iteration converges from every common starting value, within 50 steps, to a common fraction. -/
theorem C122_warm_start (hs : CorrectSolver solve) (hd : ∀ i j, 0 ≤ delta i j) (hna : ∀ i, 0 ≤ na i)
    (hnb : ∀ i, 0 ≤ nb i) (hrho : ∀ i, 0 ≤ rho i) {D : ℝ} (hD : 0 ≤ D) (hD' : D ≤ 2 ^ 76)
    (hw : BalancedSites delta na nb rho D) (hk : k ≤ 10 ^ 6) (htol : 1e-10 ≤ tol) (htol' : tol ≤ 1 / 2) {N : ℕ}
    (hN : 50 ≤ N) {t0 : ℝ} (h0 : 0 < t0) (h1 : t0 ≤ 1) :
    ∃ t, 0 < t ∧ t ≤ 1 ∧ newtonLoop (newtonStep solve delta na nb rho tol) N (fun _ => t0) = .ok (fun _ => t)
      ∧ (0 < k → |t - 2 / (1 + Real.sqrt (1 + 4 * D))| ≤ 4 * tol * (2 / (1 + Real.sqrt (1 + 4 * D)))) := by
  have hM := siteMatrix_nonneg hd hna hnb hrho
  have hpos : ∀ j z, Reach (newtonStep solve delta na nb rho tol) j (fun _ => t0) z → ∀ s, 0 < z s ∧ z s ≤ 1 :=
    fun j z h s => by
      obtain ⟨t, h1, h2, -, h3⟩ := reach_balanced_from hs hM hw hD hD' h0 h1 h
      rw [h3]
      exact ⟨h1, h2⟩
  have hex : ∃ x, newtonLoop (newtonStep solve delta na nb rho tol) N (fun _ => t0) = .ok x := by
    rcases le_total D (2 / 3) with hD1 | hD1
    · obtain ⟨x, hx, -⟩ := C79_warm_start solve hs delta na nb rho hd hna hnb hrho (hw.weak.mono hD1) hk htol htol'
        (N := N) (by omega) (x0 := fun _ => t0) (fun _ => ⟨h0, h1⟩)
      exact ⟨x, hx⟩
    · refine loop_converges_after hs hM (fun j z h s => (hpos j z h s).1) (m := 46) (b := 1 / 2 ^ 80) (by positivity)
        (by norm_num) (fun z h s => ?_) hk htol (by omega)
      obtain ⟨t, -, -, hrun, hz⟩ := reach_balanced_from hs hM hw hD hD' h0 h1 h
      simp only [hz]
      rw [← Finset.sum_mul, hw.row]
      exact (hrun hD1 (by norm_num)).gradient hD1 (hD'.trans (by norm_num))
  obtain ⟨x, hx⟩ := hex
  rcases (C30_loop_ok _ N _ x).1 hx with ⟨h0, _⟩ | ⟨j, z, hj, hr, hz⟩
  · omega
  · obtain ⟨t, ht, ht1, -, hzt⟩ := reach_balanced_from hs hM hw hD hD' h0 h1 hr
    have hstep := fun s => StepEq.balanced hM hw.row hD ht hzt
      (newtonStep_stepEq hs (fun s => by rw [hzt]; exact ht) hz) s
    refine ⟨_, ?_, ?_, hx.trans (congrArg _ (funext hstep)), fun hk0 => ?_⟩
    · positivity
    · rw [div_le_one (by positivity)]
      nlinarith [mul_nonneg hD ht.le]
    · have := (converged_step hs hM htol' (fun s => (hpos j z hr s).1) hz
        (y := fun _ => 2 / (1 + Real.sqrt (1 + 4 * D))) (fun _ => by positivity) (balanced_solution hD hw)
        (.inl ⟨0, hk0⟩)).2
      rwa [hstep] at this

end start

/-- equally strong association at a grid point, with a total strength of up to `2^76` -/
structure BalancedPoint (p : PcSaftParameters n ℝ) (T : ℝ) (wd : AssocDensities n ℝ) : Prop where
  strength : ∀ i j, 0 ≤ pointStrength p T wd i j
  density : ∀ i, 0 ≤ pointDensity p T wd i
  balanced : ∃ D, 0 ≤ D ∧ D ≤ 2 ^ 76
    ∧ BalancedSites (pointStrength p T wd) (assocNa p) (assocNb p) (assocRho p (pointDensity p T wd)) D

/-- one point: a result, and a common starting value in (0, 1] for the next point -/
theorem point_balanced {p : PcSaftParameters n ℝ} (hna : ∀ i, 0 ≤ p.na i) (hnb : ∀ i, 0 ≤ p.nb i)
    (hk : p.nassoc ≤ 10 ^ 6) {la : LinAlg ℝ ℝ} (h0 : la.nderiv = 0)
    (hs : CorrectSolver (la.solveF p.assoc_comp.length)) {tol : ℝ} (htol : 1e-10 ≤ tol) (htol' : tol ≤ 1 / 8) {N : ℕ}
    (hN : 50 ≤ N) {T : ℝ} {wd : AssocDensities n ℝ} (hw : BalancedPoint p T wd) {t : ℝ} (ht : 0 < t) (ht1 : t ≤ 1) :
    ∃ phi t', assocFunctionalCrossPoint la p N tol T wd (fun _ => t) = (.ok phi, some fun _ => t') ∧ 0 < t' ∧ t' ≤ 1
      ∧ PointAccurate p T tol wd phi := by
  set r := fun i => hsDiameter p T i * c (0.5 : ℝ) with hr
  by_cases hcut : ∑ i, pointDensity p T wd i < f64EPSILON
  · have hc : F64.lt (DualNum.re (sumFin (assocRho0 p r wd))) (f64EPSILON : ℝ) = true := by
      simp only [lt_real, re_real, sumFin_real, decide_eq_true_eq]
      exact hcut
    refine ⟨0, 1, ?_, one_pos, le_rfl, fun _ => rfl, fun h => absurd hcut (not_lt.2 h)⟩
    have e0 : (0.0 : ℝ) = 0 := by norm_num
    have e1 : (1.0 : ℝ) = 1 := by norm_num
    have hpt : assocFunctionalCrossPoint la p N tol T wd (fun _ => t) = (.ok (c (0.0 : ℝ)), some fun _ => 1.0) := by
      unfold assocFunctionalCrossPoint crossAssociationDensity
      simp only [← hr, hc, if_true, Option.map_some]
    rw [hpt, e1]
    simp only [c, ofF_real, e0]
  · have hc : F64.lt (DualNum.re (sumFin (assocRho0 p r wd))) (f64EPSILON : ℝ) = false := by
      simp only [lt_real, re_real, sumFin_real, decide_eq_false_iff_not]
      exact hcut
    have hM := siteMatrix_nonneg hw.strength (fun i => hna (p.assoc_comp.get i)) (fun i => hnb (p.assoc_comp.get i))
      (fun i => hw.density (p.assoc_comp.get i))
    obtain ⟨D, hD, hD', hbal⟩ := hw.balanced
    obtain ⟨t', ht', ht1', hloop, -⟩ := C122_warm_start hs hw.strength (fun i => hna _) (fun i => hnb _)
      (fun i => hw.density _) hD hD' hbal hk htol (htol'.trans (by norm_num)) hN ht ht1
    have hpt : assocFunctionalCrossPoint la p N tol T wd (fun _ => t)
        = (.ok (energyOf p (pointDensity p T wd) (fun _ => t')), some fun _ => t') := by
      unfold assocFunctionalCrossPoint crossAssociationDensity
      simp only [← hr, hc, Bool.false_eq_true, if_false, Option.getD_some, h0, newtonDual, Option.map_some]
      have hl : newtonLoop (newtonStep (la.solveF p.assoc_comp.length) (fun i j => DualNum.re (associationStrength p T r
          (assocN2Total p r wd) (DualNum.recip (-wd.n3 + c (1.0 : ℝ))) (assocXi p r wd) (p.assoc_comp.get i)
          (p.assoc_comp.get j))) (fun i => p.na (p.assoc_comp.get i)) (fun i => p.nb (p.assoc_comp.get i))
          (fun i => DualNum.re (assocRho0 p r wd (p.assoc_comp.get i))) tol) N (fun _ => t) = .ok fun _ => t' := hloop
      rw [hl]
      rfl
    refine ⟨_, t', hpt, ht', ht1', fun h => absurd h hcut, fun hcut' y hy hsol => ?_⟩
    have hok : (crossAssociationDensity p 0 (la.solveF _) (la.solveD _) T (assocRho0 p r wd) r (assocN2Total p r wd)
        (DualNum.recip (-wd.n3 + c (1.0 : ℝ))) (assocXi p r wd) N tol (some fun _ => t)).1
        = .ok (energyOf p (pointDensity p T wd) (fun _ => t')) := by
      have := congrArg Prod.fst hpt
      unfold assocFunctionalCrossPoint at this
      rw [h0] at this
      exact this
    exact (C29_accuracy p _ (la.solveD _) hs T _ r _ _ _ N tol htol' (by omega) (some fun _ => t) hcut' hw.strength hna
      hnb hw.density _ hok (fun z hz s => by
        obtain ⟨j, -, hreach, -⟩ := hz
        obtain ⟨t', h1, -, -, h3⟩ := reach_balanced_from hs hM hbal hD hD' ht ht1 hreach
        rw [h3]
        exact h1) y hy hsol).1

/-- C122: if the sites are equally strong at every grid point, however strong, the functional returns an energy density
for every point, which is within the tolerance of the exact one, whatever the other points are. -/
theorem C122_grid {p : PcSaftParameters n ℝ} (hna : ∀ i, 0 ≤ p.na i) (hnb : ∀ i, 0 ≤ p.nb i)
    (hk : p.nassoc ≤ 10 ^ 6) {la : LinAlg ℝ ℝ} (h0 : la.nderiv = 0)
    (hs : CorrectSolver (la.solveF p.assoc_comp.length)) {tol : ℝ} (htol : 1e-10 ≤ tol) (htol' : tol ≤ 1 / 8) {N : ℕ}
    (hN : 50 ≤ N) (T : ℝ) (pts : List (AssocDensities n ℝ)) (hw : ∀ wd ∈ pts, BalancedPoint p T wd) {t : ℝ}
    (ht : 0 < t) (ht1 : t ≤ 1) :
    ∃ phis, assocFunctionalCrossGrid la p N tol T (fun _ => t) pts = .ok phis
      ∧ List.Forall₂ (PointAccurate p T tol) pts phis := by
  induction pts generalizing t with
  | nil => exact ⟨[], rfl, .nil⟩
  | cons wd rest ih =>
    obtain ⟨phi, t', h1, h2, h2', h3⟩ := point_balanced hna hnb hk h0 hs htol htol' hN (hw wd (by simp)) ht ht1
    obtain ⟨phis, h4, h5⟩ := ih (fun wd' h => hw wd' (by simp [h])) h2 h2'
    refine ⟨phi :: phis, ?_, .cons h3 h5⟩
    unfold assocFunctionalCrossGrid
    rw [h1]
    simp only [Option.getD_some, h4]

/-- the common strength of the sites of component `l` at a grid point -/
noncomputable def pointTotal (p : PcSaftParameters n ℝ) (T : ℝ) (wd : AssocDensities n ℝ) (l : Fin p.assoc_comp.length) :
    ℝ :=
  pointStrength p T wd l l * ∑ j, assocRho p (pointDensity p T wd) j * assocNa p j

/-- Mixtures whose associating components have the same segments and association parameters and as many donor as acceptor
sites are balanced at every point of an inhomogeneous system. -/
theorem sameSites_point {pr : Fin n → PureRecord ℝ} {kij : Fin n → Fin n → ℝ} {p : PcSaftParameters n ℝ}
    (hp : p = fromRecords pr kij) (h : SameSites p) (T : ℝ) (wd : AssocDensities n ℝ) (l : Fin p.assoc_comp.length) :
    BalancedSites (pointStrength p T wd) (assocNa p) (assocNb p) (assocRho p (pointDensity p T wd))
      (pointTotal p T wd l) := by
  have hκ : ∀ i : Fin p.assoc_comp.length, p.kappa_ab (p.assoc_comp.get i) ≠ 0 := fun i => by
    subst hp
    exact (mem_assoc_iff pr kij _).1 (List.get_mem _ _)
  have hd : ∀ i, hsDiameter p T (p.assoc_comp.get i) = hsDiameter p T (p.assoc_comp.get l) := fun i => by
    unfold hsDiameter
    rw [h.epsilon_k _ _ (hκ i) (hκ l), h.sigma _ _ (hκ i) (hκ l)]
  have hk : ∀ i j : Fin p.assoc_comp.length, p.kappa_aibj (p.assoc_comp.get i) (p.assoc_comp.get j)
      = F64.sqrt (p.kappa_ab (p.assoc_comp.get i) * p.kappa_ab (p.assoc_comp.get j))
        * F64.powf (2.0 * F64.sqrt (p.sigma (p.assoc_comp.get i) * p.sigma (p.assoc_comp.get j))
          / (p.sigma (p.assoc_comp.get i) + p.sigma (p.assoc_comp.get j))) 3.0 := fun i j => by
    subst hp
    exact if_pos ⟨List.get_mem _ _, List.get_mem _ _⟩
  have he : ∀ i j : Fin p.assoc_comp.length, p.epsilon_k_aibj (p.assoc_comp.get i) (p.assoc_comp.get j)
      = 0.5 * (p.epsilon_k_ab (p.assoc_comp.get i) + p.epsilon_k_ab (p.assoc_comp.get j)) := fun i j => by
    subst hp
    exact if_pos ⟨List.get_mem _ _, List.get_mem _ _⟩
  have key : ∀ i j, pointStrength p T wd i j = pointStrength p T wd l l := fun i j => by
    unfold pointStrength strengths associationStrength
    simp only [hk, he, hd i, hd j, h.sigma _ _ (hκ i) (hκ l), h.sigma _ _ (hκ j) (hκ l), h.kappa_ab _ _ (hκ i) (hκ l),
      h.kappa_ab _ _ (hκ j) (hκ l), h.epsilon_k_ab _ _ (hκ i) (hκ l), h.epsilon_k_ab _ _ (hκ j) (hκ l)]
  intro i
  unfold pointTotal
  rw [Finset.mul_sum]
  constructor
  · refine Finset.sum_congr rfl fun j _ => ?_
    rw [key, show assocNb p j = assocNa p j from (h.sites _ (hκ j)).symm, mul_assoc]
  · refine Finset.sum_congr rfl fun j _ => ?_
    rw [key, mul_assoc]

/-- the weighted densities of a physical density profile: no negative densities, packing below one, and vector densities
bounded by the scalar ones -/
structure PhysicalPoint (p : PcSaftParameters n ℝ) (T : ℝ) (wd : AssocDensities n ℝ) : Prop where
  density : ∀ i, 0 ≤ wd.n0i i
  packing : wd.n3 < 1
  vector : ∀ i, (wd.n2v.map (fun v => v i ^ 2)).sum
    ≤ (wd.n0i i * (4 * Real.pi * p.m i * (hsDiameter p T i / 2) ^ 2)) ^ 2
  vector_total : (wd.n2v.map (fun v => (∑ i, v i) ^ 2)).sum
    ≤ (∑ i, wd.n0i i * (4 * Real.pi * p.m i * (hsDiameter p T i / 2) ^ 2)) ^ 2

theorem balancedPoint {pr : Fin n → PureRecord ℝ} {kij : Fin n → Fin n → ℝ} {p : PcSaftParameters n ℝ}
    (hp : p = fromRecords pr kij) (h : SameSites p) (hn : AssocNonneg p) (hmol : Molecules p)
    {T : ℝ} (hT : 0 < T) {wd : AssocDensities n ℝ} (hw : PhysicalPoint p T wd)
    {l : Fin p.assoc_comp.length} (hl : pointTotal p T wd l ≤ 2 ^ 76) : BalancedPoint p T wd := by
  have hκ : ∀ i j, 0 ≤ p.kappa_aibj i j := fun i j => by
    subst hp
    change 0 ≤ ite _ (Real.sqrt ((fromRecords pr kij).kappa_ab i * (fromRecords pr kij).kappa_ab j)
      * (2.0 * Real.sqrt ((fromRecords pr kij).sigma i * (fromRecords pr kij).sigma j)
        / ((fromRecords pr kij).sigma i + (fromRecords pr kij).sigma j)) ^ (3.0 : ℝ)) (0.0 : ℝ)
    have := hmol.sigma_pos i
    have := hmol.sigma_pos j
    split_ifs
    · positivity
    · norm_num
  have he : ∀ i j, 0 ≤ p.epsilon_k_aibj i j := fun i j => by
    subst hp
    change 0 ≤ ite _ (0.5 * ((fromRecords pr kij).epsilon_k_ab i + (fromRecords pr kij).epsilon_k_ab j)) (0.0 : ℝ)
    have := hn.epsilon i
    have := hn.epsilon j
    split_ifs
    · positivity
    · norm_num
  obtain ⟨h1, h2⟩ := point_nonneg hT hmol.m_pos (hmol.diameter_pos hT) (fun i => (hmol.sigma_pos i).le) hκ he hw.density hw.packing hw.vector hw.vector_total
  exact ⟨h1, h2, _, mul_nonneg (h1 l l) (Finset.sum_nonneg fun j _ => mul_nonneg (h2 _) (hn.na _)), hl,
    sameSites_point hp h T wd l⟩

/-- C122: mixtures whose associating components have the same segments and association parameters and as many donor as
acceptor sites, on any grid and with the rows of the weighted densities as the code receives them. -/
theorem C122_inhomogeneous {pr : Fin n → PureRecord ℝ} {kij : Fin n → Fin n → ℝ} {p : PcSaftParameters n ℝ}
    (hp : p = fromRecords pr kij) (h : SameSites p) (hn : AssocNonneg p) (hmol : Molecules p)
    (ha : 2 ≤ p.nassoc) (hk : p.nassoc ≤ 10 ^ 6) {T : ℝ} (hT : 0 < T)
    {la : LinAlg ℝ ℝ} (h0 : la.nderiv = 0) (hs : CorrectSolver (la.solveF p.assoc_comp.length)) {tol : ℝ}
    (htol : 1e-10 ≤ tol) (htol' : tol ≤ 1 / 8) {N : ℕ} (hN : 50 ≤ N) {grid : List (List ℝ)}
    {pts : List (AssocDensities n ℝ)} (hgrid : grid.mapM (assocDecode n) = .ok pts)
    (hw : ∀ wd ∈ pts, PhysicalPoint p T wd) (hl : ∀ wd ∈ pts, ∀ l, pointTotal p T wd l ≤ 2 ^ 76) :
    ∃ phis, associationFunctional la p N tol T grid = .ok (.ok phis)
      ∧ List.Forall₂ (PointAccurate p T tol) pts phis := by
  have hlen : p.assoc_comp.length ≠ 1 := by
    have : p.assoc_comp.length = p.nassoc := rfl
    omega
  obtain ⟨phis, h1, h2⟩ := C122_grid hn.na hn.nb hk h0 hs htol htol' hN T pts (fun wd hwd =>
    balancedPoint hp h hn hmol hT (hw wd hwd) (hl wd hwd ⟨0, by change 0 < p.nassoc; omega⟩)) (t := 0.2) (by norm_num)
    (by norm_num)
  refine ⟨phis, ?_, h2⟩
  unfold associationFunctional
  rw [hgrid]
  simp only [bind, Except.bind]
  split
  · rename_i b hb
    exact absurd (by rw [hb]; rfl) hlen
  · rw [h1]

/-- a homogeneous point is balanced if the state is -/
theorem balancedPoint_bulk {pr : Fin n → PureRecord ℝ} {kij : Fin n → Fin n → ℝ} {p : PcSaftParameters n ℝ}
    (hp : p = fromRecords pr kij) {T : ℝ} {rho : Fin n → ℝ} (h : Admissible p T 1 rho) (hn : AssocNonneg p) {D : ℝ}
    (hD : 0 ≤ D) (hD' : D ≤ 2 ^ 76) (hw : BalancedAssociation p T 1 rho D) (dim : ℕ) :
    let wd : AssocDensities n ℝ := ⟨rho, List.replicate dim 0, packingFraction p.m rho (fun i => hsDiameter p T i * c (0.5 : ℝ))⟩
    BalancedPoint p T wd ∧ pointDensity p T wd = rho
      ∧ ∀ i j, pointStrength p T wd i j
        = stateStrength p (StateHD.new T 1 rho) (p.assoc_comp.get i) (p.assoc_comp.get j) := by
  intro wd
  obtain ⟨e1, e2, e3⟩ := assoc_bulk_densities p (fun i => hsDiameter p T i * c (0.5 : ℝ)) rho dim
    (packingFraction p.m rho (fun i => hsDiameter p T i * c (0.5 : ℝ)))
  have hd : (StateHD.new T 1 rho).partial_density = rho := by
    rw [StateHD.new_density]
    funext i
    exact div_one _
  have hpd : pointDensity p T wd = rho := e1
  have hps : ∀ i j, pointStrength p T wd i j
      = stateStrength p (StateHD.new T 1 rho) (p.assoc_comp.get i) (p.assoc_comp.get j) := fun i j => by
    unfold pointStrength stateStrength strengths
    rw [hd, StateHD.new_temperature]
    simp only [wd]
    rw [e2, e3]
  have hps' : pointStrength p T wd = fun i j =>
      stateStrength p (StateHD.new T 1 rho) (p.assoc_comp.get i) (p.assoc_comp.get j) := funext fun i => funext (hps i)
  have hbs := balancedSites_state hp h hw
  rw [hd] at hbs
  refine ⟨⟨fun i j => ?_, fun i => ?_, D, hD, hD', ?_⟩, hpd, hps⟩
  · rw [hps]
    exact stateStrength_nonneg hp h hn i j
  · rw [hpd]
    exact h.moles_nonneg i
  · rw [hps', hpd]
    exact hbs

/-- C122: on every grid of homogeneous points with equally strong sites, in every dimension, the functional of a mixture
with several associating components gives, within the tolerance, the association energy density of the equation of
state. -/
theorem C122_homogeneous {pr : Fin n → PureRecord ℝ} {kij : Fin n → Fin n → ℝ} {p : PcSaftParameters n ℝ}
    (hp : p = fromRecords pr kij) (ha : 2 ≤ p.nassoc) (hk : p.nassoc ≤ 10 ^ 6) (hn : AssocNonneg p)
    {la : LinAlg ℝ ℝ} (h0 : la.nderiv = 0)
    (hs : CorrectSolver (la.solveF p.assoc_comp.length)) {tol : ℝ} (htol : 1e-10 ≤ tol) (htol' : tol ≤ 1 / 8) {N : ℕ}
    (hN : 50 ≤ N) {T : ℝ} (dim : ℕ) (rhos : List (Fin n → ℝ))
    (h : ∀ rho ∈ rhos, Admissible p T 1 rho ∧ ∃ D, 0 ≤ D ∧ D ≤ 2 ^ 76 ∧ BalancedAssociation p T 1 rho D) :
    ∃ phis, associationFunctional la p N tol T (rhos.map ((associationWeightFunctions p T).bulkRows dim))
        = .ok (.ok phis)
      ∧ List.Forall₂ (fun rho phi => (f64EPSILON : ℝ) ≤ ∑ i, rho i → ∀ a, ExactAssociation p T 1 rho a →
        |phi - a| ≤ 10 * tol * ∑ i, rho i * (p.na i + p.nb i)) rhos phis := by
  set r := fun i => hsDiameter p T i * c (0.5 : ℝ) with hr
  let wd : (Fin n → ℝ) → AssocDensities n ℝ := fun rho => ⟨rho, List.replicate dim 0, packingFraction p.m rho r⟩
  have hlen : p.assoc_comp.length ≠ 1 := by
    have : p.assoc_comp.length = p.nassoc := rfl
    omega
  have hn0 : 0 < n := by
    rcases Nat.eq_zero_or_pos n with rfl | h
    · have i0 : Fin p.assoc_comp.length := ⟨0, by change 0 < p.nassoc; omega⟩
      exact (p.assoc_comp.get i0).elim0
    · exact h
  have hm : ∀ rhos : List (Fin n → ℝ), (∀ rho ∈ rhos, Admissible p T 1 rho) →
      (rhos.map ((associationWeightFunctions p T).bulkRows dim)).mapM (assocDecode n)
        = (.ok (rhos.map wd) : Except Panic (List (AssocDensities n ℝ))) := by
    intro rhos h
    induction rhos with
    | nil => rfl
    | cons rho rhos ih =>
      rw [List.map_cons, List.mapM_cons, ih (fun rho' h' => h rho' (by simp [h'])),
        assocDecode_bulk p T hn0 (fun i => ((h rho (by simp)).diameter_pos i).ne')]
      rfl
  obtain ⟨phis, h1, h2⟩ := C122_grid hn.na hn.nb hk h0 hs htol htol' hN T (rhos.map wd) (by
    intro w hw
    obtain ⟨rho, hrho, rfl⟩ := List.mem_map.1 hw
    obtain ⟨hadm, D, hD, hD', hbal⟩ := h rho hrho
    exact (balancedPoint_bulk hp hadm hn hD hD' hbal dim).1) (t := 0.2) (by norm_num) (by norm_num)
  refine ⟨phis, ?_, ?_⟩
  · unfold associationFunctional
    rw [hm rhos fun rho hrho => (h rho hrho).1]
    simp only [bind, Except.bind]
    split
    · rename_i b hb
      exact absurd (by rw [hb]; rfl) hlen
    · rw [h1]
  · rw [List.forall₂_map_left_iff] at h2
    have h3 : List.Forall₂ (fun rho phi => rho ∈ rhos ∧ PointAccurate p T tol (wd rho) phi) rhos phis := by
      rw [List.forall₂_and_left]
      exact ⟨fun _ h => h, h2⟩
    refine h3.imp ?_
    rintro rho phi ⟨hmem, hacc⟩ hcut a hex
    obtain ⟨hadm, D, hD, hD', hbal⟩ := h rho hmem
    obtain ⟨-, hpd, hps⟩ := balancedPoint_bulk hp hadm hn hD hD' hbal dim
    have hps' : pointStrength p T (wd rho) = fun i j =>
        stateStrength p (StateHD.new T 1 rho) (p.assoc_comp.get i) (p.assoc_comp.get j) := funext fun i => funext (hps i)
    have hd : (StateHD.new T 1 rho).partial_density = rho := by
      rw [StateHD.new_density]
      funext i
      exact div_one _
    obtain ⟨y, hy, hsol, rfl⟩ : ∃ y : Fin p.assoc_comp.length ⊕ Fin p.assoc_comp.length → ℝ,
        (∀ s, 0 < y s) ∧ MassAction (stateSites p (StateHD.new T 1 rho)) y
        ∧ a = specEnergy (assocNa p) (assocNb p) (assocRho p (StateHD.new T 1 rho).partial_density) y * 1 := by
      subst hp
      exact exact_restrict pr kij hadm hex
    unfold stateSites at hsol
    rw [hd] at hsol ⊢
    have key := hacc.2 (by rw [hpd]; exact hcut) y hy (by rw [hpd, hps']; exact hsol)
    rw [hpd] at key
    rw [mul_one]
    refine key.trans (mul_le_mul_of_nonneg_left ?_ (by linarith))
    have hinj : Function.Injective p.assoc_comp.get := by
      subst hp
      exact List.nodup_iff_injective_get.1 (nonzeroComp_sorted _).nodup
    have := Finset.sum_map Finset.univ ⟨p.assoc_comp.get, hinj⟩ (fun i => rho i * (p.na i + p.nb i))
    simp only [Function.Embedding.coeFn_mk] at this
    change ∑ i, rho (p.assoc_comp.get i) * (p.na (p.assoc_comp.get i) + p.nb (p.assoc_comp.get i)) ≤ _
    rw [← this]
    exact Finset.sum_le_sum_of_subset_of_nonneg (Finset.subset_univ _) fun i _ _ =>
      mul_nonneg (hadm.moles_nonneg i) (add_nonneg (hn.na i) (hn.nb i))

/-! ## Cases that meet the hypotheses -/

/-- all pairs of sites with a strength of 10^6, from an empty neighbour's starting value of one -/
example : ∃ t, 0 < t ∧ t ≤ 1 ∧ newtonLoop (newtonStep exactSolver (fun _ _ : Fin 2 => (10 ^ 6 : ℝ)) (fun _ => 1)
    (fun _ => 1) ![1 / 4, 3 / 4] (1e-10 : ℝ)) 50 (fun _ => 1) = .ok (fun _ => t) := by
  obtain ⟨t, h1, h2, h3, -⟩ := C122_warm_start (k := 2) (delta := fun _ _ => 10 ^ 6) (na := fun _ => 1) (nb := fun _ => 1)
    (rho := ![1 / 4, 3 / 4]) exactSolver_correct (fun _ _ => by positivity) (fun _ => zero_le_one) (fun _ => zero_le_one)
    (fun i => by fin_cases i <;> norm_num) (D := 10 ^ 6) (by norm_num) (by norm_num)
    (fun i => by norm_num [Fin.sum_univ_two]) (by norm_num) (tol := 1e-10) le_rfl (by norm_num) (N := 50) le_rfl
    (t0 := 1) one_pos le_rfl
  exact ⟨t, h1, h2, h3⟩

/-- the condition only depends on the densities -/
theorem balancedAssociation_density {p : PcSaftParameters n ℝ} {T V D : ℝ} {N : Fin n → ℝ}
    (h : BalancedAssociation p T V N D) : BalancedAssociation p T 1 (fun i => N i / V) D := by
  have e : specStrength p T 1 (fun i => N i / V) = specStrength p T V N := by
    funext i j
    unfold specStrength
    rw [packing_density]
    unfold moment2
    simp only [div_one]
  unfold BalancedAssociation at h ⊢
  rw [e]
  simpa only [div_one] using h

theorem twinGrid_nonneg (K : ℝ) : AssocNonneg (fromRecords (twinRecords K) (fun _ _ => 0)) :=
  ⟨fun _ => by change (0 : ℝ) ≤ 2500; norm_num, fun _ => zero_le_one, fun _ => zero_le_one⟩

theorem twinGrid_nassoc {K : ℝ} (hK : 0 < K) : (fromRecords (twinRecords K) (fun _ _ => 0)).nassoc = 2 := by
  rw [PcSaftParameters.nassoc, twinRecords_comp hK]
  rfl

/-- strengths of 20 at any number of homogeneous points -/
example (k dim : ℕ) : ∃ K : ℝ, 0 < K ∧ ∃ phis,
    associationFunctional (⟨fun _ => exactSolver, fun _ => exactSolver, 0⟩ : LinAlg ℝ ℝ)
      (fromRecords (twinRecords K) (fun _ _ => 0)) 50 1e-10 300
      ((List.replicate k (fun i => ![3, 11] i / 1000)).map
        ((associationWeightFunctions (fromRecords (twinRecords K) (fun _ _ => 0)) (300 : ℝ)).bulkRows dim))
      = .ok (.ok phis) ∧ phis.length = k := by
  obtain ⟨K, hK, hw⟩ := twin_balanced
  have h := twinRecords_admissible K (fun _ _ => 0) (V := 1000) (by norm_num)
  have hna := twinGrid_nassoc hK
  obtain ⟨phis, h1, h2⟩ := C122_homogeneous (p := fromRecords (twinRecords K) (fun _ _ => 0)) rfl hna.ge
    (by rw [hna]; norm_num) (twinGrid_nonneg K)
    (la := ⟨fun _ => exactSolver, fun _ => exactSolver, 0⟩) rfl exactSolver_correct (tol := 1e-10) le_rfl (by norm_num)
    (N := 50) le_rfl (T := 300) dim (List.replicate k (fun i => ![3, 11] i / 1000)) (fun rho hrho => by
      rw [List.eq_of_mem_replicate hrho]
      refine ⟨⟨h.temperature, one_pos, h.m_pos, h.sigma_pos, h.epsilon_nonneg, fun i => ?_, ⟨0, by norm_num⟩, ?_⟩,
        20, by norm_num, by norm_num, balancedAssociation_density hw⟩
      · exact div_nonneg (h.moles_nonneg i) (by norm_num)
      · exact lt_of_eq_of_lt (packing_density _ _ _ _) h.packing)
  exact ⟨K, hK, phis, h1, by simpa using h2.length_eq.symm⟩

/-- weighted densities at the edge of a droplet, in one dimension -/
noncomputable def edgePoint : AssocDensities 2 ℝ := ⟨![0.003, 0.011], [![0.01, 0.02]], 0.2⟩

theorem edgePoint_decode : assocDecode 2 [0.003, 0.011, 0.01, 0.02, 0.2] = .ok edgePoint := by
  have h : ∀ a b : ℝ, (Fin.cons a (Fin.cons b Fin.elim0) : Fin 2 → ℝ) = ![a, b] := fun a b => by
    funext i
    fin_cases i <;> rfl
  have h1 : (rowSlice [0.003, 0.011, 0.01, 0.02, 0.2] 0 2 : Except Panic (Fin 2 → ℝ)) = .ok ![0.003, 0.011] :=
    congrArg Except.ok (h _ _)
  have h2 : (rowSlice [0.003, 0.011, 0.01, 0.02, 0.2] 2 2 : Except Panic (Fin 2 → ℝ)) = .ok ![0.01, 0.02] :=
    congrArg Except.ok (h _ _)
  have h3 : ((List.range 1).mapM fun i => (rowSlice [0.003, 0.011, 0.01, 0.02, 0.2] (2 * (i + 1)) 2 : Except Panic (Fin 2 → ℝ)))
      = .ok [![0.01, 0.02]] := by
    rw [List.range_succ, List.range_zero, List.nil_append, List.mapM_cons]
    simp only [zero_add, mul_one, h2]
    rfl
  unfold assocDecode
  rw [if_neg (by norm_num), h1]
  simp only [bind, Except.bind, List.length_cons, List.length_nil, zero_add, Nat.reduceAdd, Nat.reduceSub, Nat.reduceDiv,
    Nat.reduceMul, h3]
  rfl

theorem edgePoint_physical (K : ℝ) : PhysicalPoint (fromRecords (twinRecords K) (fun _ _ => 0)) 300 edgePoint := by
  have hd : ∀ i, 2 ≤ hsDiameter (fromRecords (twinRecords K) (fun _ _ => 0)) (300 : ℝ) i := fun i => by
    have := ((C13_diameter (fromRecords (twinRecords K) (fun _ _ => 0)) i (by change (0 : ℝ) < 3; norm_num)
      (by change (0 : ℝ) < 200; norm_num)).1 300 (by norm_num)).1
    change 0.88 * (3 : ℝ) < _ at this
    norm_num at this
    linarith
  have hm : ∀ i, (fromRecords (twinRecords K) (fun _ _ => 0)).m i = 1 := fun _ => rfl
  have hs : ∀ i, 12 ≤ 4 * Real.pi * (fromRecords (twinRecords K) (fun _ _ => 0)).m i
      * (hsDiameter (fromRecords (twinRecords K) (fun _ _ => 0)) (300 : ℝ) i / 2) ^ 2 := fun i => by
    rw [hm]
    have h1 := Real.pi_gt_three
    have h2 : 1 ≤ (hsDiameter (fromRecords (twinRecords K) (fun _ _ => 0)) (300 : ℝ) i / 2) ^ 2 := by
      nlinarith [hd i]
    nlinarith
  have e0 : edgePoint.n0i 0 = 0.003 := rfl
  have e1 : edgePoint.n0i 1 = 0.011 := rfl
  have v : edgePoint.n2v = [![0.01, 0.02]] := rfl
  refine ⟨fun i => ?_, ?_, fun i => ?_, ?_⟩
  · fin_cases i
    · exact e0.symm ▸ (by norm_num)
    · exact e1.symm ▸ (by norm_num)
  · change (0.2 : ℝ) < 1
    norm_num
  · rw [v]
    simp only [List.map_cons, List.map_nil, List.sum_cons, List.sum_nil, add_zero]
    refine pow_le_pow_left₀ ?_ ?_ 2
    · fin_cases i <;> norm_num
    · have := hs i
      fin_cases i
      · change (0.01 : ℝ) ≤ 0.003 * _
        norm_num at this ⊢
        linarith
      · change (0.02 : ℝ) ≤ 0.011 * _
        norm_num at this ⊢
        linarith
  · rw [v]
    simp only [List.map_cons, List.map_nil, List.sum_cons, List.sum_nil, add_zero, Fin.sum_univ_two, e0, e1]
    refine pow_le_pow_left₀ (by norm_num) ?_ 2
    have := hs 0
    have := hs 1
    change (0.01 + 0.02 : ℝ) ≤ _
    norm_num at *
    linarith

/-- twins with a small enough association volume -/
theorem edgePoint_total : ∃ K : ℝ, 0 < K ∧
    ∀ l, pointTotal (fromRecords (twinRecords K) (fun _ _ => 0)) 300 edgePoint l ≤ 1 / 2 := by
  let p1 := fromRecords (twinRecords 1) (fun _ _ => 0)
  let r : Fin 2 → ℝ := fun i => hsDiameter p1 300 i * c (0.5 : ℝ)
  let G : Fin 2 → ℝ := fun i => associationStrength p1 300 r (assocN2Total p1 r edgePoint)
    (DualNum.recip (-edgePoint.n3 + c (1.0 : ℝ))) (assocXi p1 r edgePoint) i i
  let A : Fin 2 → ℝ := pointDensity p1 300 edgePoint
  have hkap : ∀ K : ℝ, 0 < K → ∀ i, (fromRecords (twinRecords K) (fun _ _ => 0)).kappa_aibj i i
      = K * (fromRecords (twinRecords 1) (fun _ _ => 0)).kappa_aibj i i := fun K hK i => by
    have key : ∀ K : ℝ, 0 < K → (fromRecords (twinRecords K) (fun _ _ => 0)).kappa_aibj i i
        = K * F64.powf (2.0 * F64.sqrt ((3 : ℝ) * 3) / (3 + 3)) 3.0 := fun K hK => by
      have hi : i ∈ (fromRecords (twinRecords K) (fun _ _ => 0)).assoc_comp := by
        rw [twinRecords_comp hK]
        fin_cases i <;> simp
      have : (fromRecords (twinRecords K) (fun _ _ => 0)).kappa_aibj i i
          = Real.sqrt (K * K) * F64.powf (2.0 * F64.sqrt ((3 : ℝ) * 3) / (3 + 3)) 3.0 := if_pos ⟨hi, hi⟩
      rw [this, Real.sqrt_mul_self hK.le]
    rw [key K hK, key 1 one_pos, one_mul]
  have hG : ∀ K : ℝ, 0 < K → ∀ l, pointStrength (fromRecords (twinRecords K) (fun _ _ => 0)) 300 edgePoint l l
      = K * G ((fromRecords (twinRecords K) (fun _ _ => 0)).assoc_comp.get l) := fun K hK l => by
    have hk := hkap K hK ((fromRecords (twinRecords K) (fun _ _ => 0)).assoc_comp.get l)
    have he : ∀ i, (fromRecords (twinRecords K) (fun _ _ => 0)).epsilon_k_aibj i i
        = (fromRecords (twinRecords 1) (fun _ _ => 0)).epsilon_k_aibj i i := fun i => by
      have hi : ∀ K : ℝ, 0 < K → i ∈ (fromRecords (twinRecords K) (fun _ _ => 0)).assoc_comp := fun K hK => by
        rw [twinRecords_comp hK]
        fin_cases i <;> simp
      have key : ∀ K : ℝ, 0 < K → (fromRecords (twinRecords K) (fun _ _ => 0)).epsilon_k_aibj i i
          = 0.5 * ((2500 : ℝ) + 2500) := fun K hK => if_pos ⟨hi K hK, hi K hK⟩
      rw [key K hK, key 1 one_pos]
    unfold pointStrength strengths
    simp only [G, associationStrength, hk, he]
    generalize (fromRecords (twinRecords K) (fun _ _ => 0)).assoc_comp.get l = i
    simp only [c, ofF_real]
    rw [mul_left_comm _ K, mul_assoc K]
    rfl
  have hlen : ∀ K : ℝ, 0 < K → (fromRecords (twinRecords K) (fun _ _ => 0)).assoc_comp.length = 2 := fun K hK => by
    rw [twinRecords_comp hK]
    rfl
  set B := (|G 0| + |G 1|) * (2 * (|A 0| + |A 1|)) with hB
  have hB0 : 0 ≤ B := by positivity
  have hK : 0 < 1 / (2 + 2 * B) := by positivity
  refine ⟨1 / (2 + 2 * B), hK, fun l => ?_⟩
  have hAb : ∀ i, |A i| ≤ |A 0| + |A 1| := fun i => by
    fin_cases i
    · exact le_add_of_nonneg_right (abs_nonneg _)
    · exact le_add_of_nonneg_left (abs_nonneg _)
  have hsum : |∑ j, assocRho (fromRecords (twinRecords (1 / (2 + 2 * B))) (fun _ _ => 0))
      (pointDensity (fromRecords (twinRecords (1 / (2 + 2 * B))) (fun _ _ => 0)) 300 edgePoint) j
      * assocNa (fromRecords (twinRecords (1 / (2 + 2 * B))) (fun _ _ => 0)) j| ≤ 2 * (|A 0| + |A 1|) := by
    refine (Finset.abs_sum_le_sum_abs _ _).trans ?_
    have hc := Finset.sum_le_card_nsmul Finset.univ (fun j =>
      |assocRho (fromRecords (twinRecords (1 / (2 + 2 * B))) (fun _ _ => 0))
      (pointDensity (fromRecords (twinRecords (1 / (2 + 2 * B))) (fun _ _ => 0)) 300 edgePoint) j
      * assocNa (fromRecords (twinRecords (1 / (2 + 2 * B))) (fun _ _ => 0)) j|) (|A 0| + |A 1|) (fun j _ => by
        rw [show assocNa (fromRecords (twinRecords (1 / (2 + 2 * B))) (fun _ _ => 0)) j = 1 from rfl, mul_one]
        exact hAb _)
    refine hc.trans (le_of_eq ?_)
    rw [Finset.card_univ, Fintype.card_fin, hlen _ hK, nsmul_eq_mul, Nat.cast_ofNat]
  have hle : pointTotal (fromRecords (twinRecords (1 / (2 + 2 * B))) (fun _ _ => 0)) 300 edgePoint l ≤ 1 / 2 := by
    unfold pointTotal
    rw [hG _ hK]
    have hS := hsum
    set S := ∑ j, assocRho (fromRecords (twinRecords (1 / (2 + 2 * B))) (fun _ _ => 0))
      (pointDensity (fromRecords (twinRecords (1 / (2 + 2 * B))) (fun _ _ => 0)) 300 edgePoint) j
      * assocNa (fromRecords (twinRecords (1 / (2 + 2 * B))) (fun _ _ => 0)) j
    have hg : ∀ i, |G i| ≤ |G 0| + |G 1| := fun i => by
      fin_cases i
      · exact le_add_of_nonneg_right (abs_nonneg _)
      · exact le_add_of_nonneg_left (abs_nonneg _)
    have h1 : ∀ i, 1 / (2 + 2 * B) * G i * S ≤ 1 / (2 + 2 * B) * B := fun i => by
      rw [mul_assoc]
      refine mul_le_mul_of_nonneg_left ((le_abs_self _).trans ?_) hK.le
      rw [abs_mul, hB]
      exact mul_le_mul (hg i) hS (abs_nonneg _) (by positivity)
    refine (h1 _).trans ?_
    rw [one_div_mul_eq_div, div_le_iff₀ (by positivity)]
    linarith
  exact hle

example : ∃ K : ℝ, 0 < K ∧ ∃ phi,
    associationFunctional (⟨fun _ => exactSolver, fun _ => exactSolver, 0⟩ : LinAlg ℝ ℝ)
      (fromRecords (twinRecords K) (fun _ _ => 0)) 50 1e-10 300 [[0.003, 0.011, 0.01, 0.02, 0.2]]
      = .ok (.ok [phi]) := by
  obtain ⟨K, hK, hl⟩ := edgePoint_total
  have hna := twinGrid_nassoc hK
  have hadm := twinRecords_admissible K (fun _ _ => 0) (V := 1000) (by norm_num)
  obtain ⟨phis, h1, h2⟩ := C122_inhomogeneous (p := fromRecords (twinRecords K) (fun _ _ => 0)) rfl (twin_same K)
    (twinGrid_nonneg K) ⟨hadm.m_pos, hadm.sigma_pos, hadm.epsilon_nonneg⟩ hna.ge (by rw [hna]; norm_num) (T := 300)
    (by norm_num) (la := ⟨fun _ => exactSolver, fun _ => exactSolver, 0⟩) rfl exactSolver_correct (tol := 1e-10) le_rfl
    (by norm_num) (N := 50) le_rfl (grid := [[0.003, 0.011, 0.01, 0.02, 0.2]]) (pts := [edgePoint]) (by
      rw [List.mapM_cons, edgePoint_decode]
      rfl) (by simpa using edgePoint_physical K)
    (by simpa using fun l => (hl l).trans (by norm_num))
  obtain ⟨phi, rest, -, h3, rfl⟩ := List.forall₂_cons_left_iff.1 h2
  obtain rfl := List.forall₂_nil_left_iff.1 h3
  exact ⟨K, hK, phi, h1⟩

end PcSaft.Props
