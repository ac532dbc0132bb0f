import Verif.Props.CrossAssociationRoot

/-!
# Concrete cases for C27–C31 and C54

One component with as many A as B sites: started from equal positive values, the iterates stay
positive, so that the bounds C29 and C54 hold without a condition on the iterates.  (C59 asks for this in general
and is false, see `CrossAssociationRoot`.)
-/

namespace PcSaft.Props
open PcSaft Spec
variable {k n : ℕ}

/-- one step from equal positive values -/
theorem symmetric_step (h1 : ∀ i j : Fin k, i = j) {solve : Solver k ℝ} (hs : CorrectSolver solve)
    {delta : Fin k → Fin k → ℝ} {na nb rho : Fin k → ℝ} (hab : ∀ i, na i = nb i)
    (hM : ∀ i, 0 ≤ delta i i * (rho i * na i)) {tol t : ℝ} (ht : 0 < t)
    {x x' : Fin k ⊕ Fin k → ℝ} (hx : ∀ s, x s = t) {b : Bool}
    (h : newtonStep solve delta na nb rho tol x = .ok (x', b)) : ∃ t', 0 < t' ∧ ∀ s, x' s = t' := by
  by_cases hk : IsEmpty (Fin k)
  · exact ⟨1, one_pos, fun s => by rcases s with i | i <;> exact (hk.false i).elim⟩
  obtain ⟨i⟩ := not_isEmpty_iff.1 hk
  have hsub : Subsingleton (Fin k) := ⟨h1⟩
  obtain ⟨e, _⟩ := newtonStep_ok hs h
  have eA := e (.inl i)
  have eB := e (.inr i)
  rw [(siteMatrix_sum _ _ _ _ _ i).1, (siteMatrix_sum _ _ _ _ _ i).1, Fintype.sum_subsingleton _ i,
    Fintype.sum_subsingleton _ i, hx, hx, ← hab] at eA
  rw [(siteMatrix_sum _ _ _ _ _ i).2, (siteMatrix_sum _ _ _ _ _ i).2, Fintype.sum_subsingleton _ i,
    Fintype.sum_subsingleton _ i, hx, hx] at eB
  have hm := hM i
  set m := delta i i * (rho i * na i) with hmdef
  have eA' : (1 + m * t) * (x' (.inl i) - t) + m * t * (x' (.inr i) - t) = 1 - t * (1 + m * t) := by
    field_simp at eA
    linear_combination eA
  have eB' : (1 + m * t) * (x' (.inr i) - t) + m * t * (x' (.inl i) - t) = 1 - t * (1 + m * t) := by
    field_simp at eB
    linear_combination eB
  have hAB : x' (.inl i) = x' (.inr i) := by linear_combination eA' - eB'
  have hpos : 0 < 1 + 2 * m * t := by positivity
  have hval : x' (.inl i) = (1 + m * t ^ 2) / (1 + 2 * m * t) := by
    rw [eq_div_iff hpos.ne']
    rw [← hAB] at eA'
    linear_combination eA'
  refine ⟨x' (.inl i), by rw [hval]; positivity, fun s => ?_⟩
  rcases s with j | j
  · rw [h1 j i]
  · rw [h1 j i, hAB]

theorem symmetric_reach (h1 : ∀ i j : Fin k, i = j) {solve : Solver k ℝ} (hs : CorrectSolver solve)
    {delta : Fin k → Fin k → ℝ} {na nb rho : Fin k → ℝ} (hab : ∀ i, na i = nb i)
    (hM : ∀ i, 0 ≤ delta i i * (rho i * na i)) {tol : ℝ} {j : ℕ} {x z : Fin k ⊕ Fin k → ℝ}
    (h : Reach (newtonStep solve delta na nb rho tol) j x z) :
    (∃ t, 0 < t ∧ ∀ s, x s = t) → ∃ t', 0 < t' ∧ ∀ s, z s = t' := by
  induction h with
  | start x => exact id
  | next hstep _ ih => exact fun ⟨t, ht, hx⟩ => ih (symmetric_step h1 hs hab hM ht hx hstep)

/-- C59 (part): the iterates stay positive for one associating component with `na = nb` and the
default starting point -/
theorem C59_one_component_partial (p : PcSaftParameters n ℝ) (a : Fin n) (ha : p.assoc_comp = [a])
    (hab : p.na a = p.nb a) (hna : 0 ≤ p.na a) (solveF : Solver p.assoc_comp.length ℝ)
    (hs : CorrectSolver solveF) (T : ℝ) (density r : Fin n → ℝ) (n2 n3i xi : ℝ) (N : ℕ) (tol : ℝ)
    (hd : 0 ≤ associationStrength p T r n2 n3i xi a a) (hrho : 0 ≤ density a)
    (z : Fin p.assoc_comp.length ⊕ Fin p.assoc_comp.length → ℝ)
    (hz : LastIterate (realStep p solveF T density r n2 n3i xi tol) N (fun _ => 0.2) z) :
    ∀ s, 0 < z s := by
  have hget : ∀ i, p.assoc_comp.get i = a := by
    intro i
    have hmem : ∀ b ∈ p.assoc_comp, b = a := by
      rw [ha]
      simp
    exact hmem _ (List.get_mem p.assoc_comp i)
  have hlen : p.assoc_comp.length = 1 := by rw [ha]; rfl
  obtain ⟨j, _, hr, _⟩ := hz
  obtain ⟨t, ht, hzt⟩ := symmetric_reach (fun i j => by
      apply Fin.ext
      have := i.2
      have := j.2
      omega) hs
    (fun i => by simp only [assocNa, assocNb, hget]; exact hab)
    (fun i => by
      simp only [strengths, assocNa, assocRho, hget, re_real]
      exact mul_nonneg hd (mul_nonneg hrho hna)) hr ⟨0.2, by norm_num, fun _ => rfl⟩
  exact fun s => by rw [hzt]; exact ht

/-! ## Concrete cases -/

/-- the matrix of the counterexample also has its unique positive solution -/
example : ∃ x : Fin 2 ⊕ Fin 2 → ℝ, (∀ s, 0 < x s ∧ x s ≤ 1) ∧
    x (.inl 0) * (1 + (6 * x (.inr 0) + 22 * x (.inr 1))) = 1 := by
  obtain ⟨x, h1, _, h3, _⟩ := C27_unique_solution exDelta exNa exNb exRho
    (fun i j => by fin_cases i <;> fin_cases j <;> norm_num [exDelta])
    (fun i => by fin_cases i <;> norm_num [exNa]) (fun i => by fin_cases i <;> norm_num [exNb])
    (fun i => by fin_cases i <;> norm_num [exRho])
  refine ⟨x, h1, ?_⟩
  have := h3 0
  rw [Fin.sum_univ_two] at this
  simp [exDelta, exRho, exNb] at this
  linear_combination this

/-- from the default starting point the first step moves -/
example : ∃ x' b, newtonStep exactSolver exDelta exNa exNb exRho 1e-10 (fun _ => 0.2) = .ok (x', b)
    ∧ x' ≠ fun _ => 0.2 := by
  obtain ⟨x', b, h1, h2, _⟩ := C28_newton_step exactSolver exactSolver_correct exDelta exNa exNb exRho
    (fun i j => by fin_cases i <;> fin_cases j <;> norm_num [exDelta])
    (fun i => by fin_cases i <;> norm_num [exNa]) (fun i => by fin_cases i <;> norm_num [exNb])
    (fun i => by fin_cases i <;> norm_num [exRho]) 1e-10 (fun _ => 0.2) (fun _ => by norm_num)
  refine ⟨x', b, h1, fun h => ?_⟩
  have := h2.1 h (.inl 0)
  rw [(exMatrix _).1] at this
  norm_num at this

/-- the loop with a limit of three iterations stops with `NotConverged` where four succeed -/
example : newtonLoop (newtonStep exactSolver exDelta exNa exNb exRho 1e-10) 3 (fun _ => 0.2)
      = .error (.notConverged "Cross association")
    ∧ ∃ z, newtonLoop (newtonStep exactSolver exDelta exNa exNb exRho 1e-10) 4 (fun _ => 0.2) = .ok z := by
  obtain ⟨h1, h2⟩ := exReach exactSolver exactSolver_correct
  exact ⟨(C30_loop_error _ 3 _ _).2 (.inr ⟨by norm_num, rfl, _, h1⟩),
    _, (C30_loop_ok _ 4 _ _).2 (.inr ⟨3, _, by norm_num, h1, h2⟩)⟩

/-- C29 for the mixture of one associating and one inert component -/
example (N : ℕ) (hN : 0 < N) (a : ℝ) :
    let p := fromRecords assocRecords (fun _ _ => 0)
    let s := StateHD.new (300 : ℝ) 1000 (fun _ => 1)
    let r := fun i => hsDiameter p s.temperature i * c (0.5 : ℝ)
    let n2 := assocN2 p.m s.partial_density r
    let n3i := DualNum.recip (-(packingFraction p.m s.partial_density r) + c (1.0 : ℝ))
    (crossAssociationDensity p 0 exactSolver exactSolver s.temperature s.partial_density r n2 n3i
      (c (1.0 : ℝ)) N 1e-10 none).1 = .ok a →
    ∃ y, (∀ i, 0 < y i) ∧ MassAction (siteMatrix (strengths p s.temperature r n2 n3i (c (1.0 : ℝ)))
        (assocNa p) (assocNb p) (assocRho p s.partial_density)) y
      ∧ |a - specEnergy (assocNa p) (assocNb p) (assocRho p s.partial_density) y|
        ≤ 10 * 1e-10 * ∑ i, assocRho p s.partial_density i * (assocNa p i + assocNb p i) := by
  intro p s r n2 n3i hok
  have ha : p.assoc_comp = [0] := assocRecords_comp
  have hget : ∀ i, p.assoc_comp.get i = 0 := by
    intro i
    have hmem : ∀ b ∈ p.assoc_comp, b = 0 := by
      rw [ha]
      simp
    exact hmem _ (List.get_mem p.assoc_comp i)
  have hκ : p.kappa_ab 0 ≠ 0 := by
    change (0.03 : ℝ) ≠ 0
    norm_num
  have hstr : 0 ≤ associationStrength p s.temperature r n2 n3i (c (1.0 : ℝ)) 0 0 := by
    change 0 ≤ stateStrength p s 0 0
    have hε : 0 ≤ p.epsilon_k_ab 0 + p.epsilon_k_ab 0 := by
      change (0 : ℝ) ≤ 2500 + 2500
      norm_num
    have := specStrength_nonneg assocRecords_admissible 0 0 hε
    rwa [← C58_association_strength assocRecords (fun _ _ => 0) 300 1000 _ assocRecords_admissible 0 0
      hκ hκ] at this
  have hd : ∀ i j, 0 ≤ strengths p s.temperature r n2 n3i (c (1.0 : ℝ)) i j := by
    intro i j
    simp only [strengths, hget]
    exact hstr
  have hna : ∀ i, 0 ≤ p.na i := fun i => by
    fin_cases i
    · change (0 : ℝ) ≤ 1.0
      norm_num
    · change (0 : ℝ) ≤ 1.0
      norm_num
  have hnb : ∀ i, 0 ≤ p.nb i := fun i => by
    fin_cases i
    · change (0 : ℝ) ≤ 1.0
      norm_num
    · change (0 : ℝ) ≤ 1.0
      norm_num
  have hrho : ∀ i, 0 ≤ s.partial_density i := fun i => by
    simp only [s, StateHD.new_density]
    norm_num
  obtain ⟨y, hy, hsol⟩ := MassAction.exists (siteMatrix_nonneg hd (fun i => hna _) (fun i => hnb _)
    (fun i => hrho _))
  refine ⟨y, fun i => hy i, hsol, ?_⟩
  refine (C29_accuracy p exactSolver exactSolver exactSolver_correct s.temperature s.partial_density r n2
    n3i _ N 1e-10 (by norm_num) hN none ?_ hd hna hnb hrho a hok ?_ y (fun i => hy i) hsol).1
  · simp only [s, StateHD.new_density, Fin.sum_univ_two, f64EPSILON]
    norm_num
  · exact fun z hz => C59_one_component_partial p 0 ha rfl (hna 0) exactSolver exactSolver_correct _ _ _ _
      _ _ N _ hstr (hrho 0) z hz

/-- C31: the solution for `δρ = 2`, `na = nb = 1` is one half -/
example (x : Fin 1 ⊕ Fin 1 → ℝ) (hx : ∀ s, 0 < x s)
    (h : ∀ s, newtonG (fun _ _ => 2) (fun _ => 1) (fun _ => 1) (fun _ => 1) x s = 0) :
    x (.inl 0) = assocSiteFracAB (2 * 1 : ℝ) 1 1 :=
  (C31_one_component 2 1 1 1 1 (by rw [sqrt_epsilon]; norm_num) one_pos one_pos x hx h).1

end PcSaft.Props
