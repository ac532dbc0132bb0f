import Verif.Lemmas.NewtonWeak
import Verif.Props.CrossConsistency

/-!
# Property C79: the cross-association iteration converges when association is weak
-/

namespace PcSaft.Props
open PcSaft Spec
variable {n k : ℕ}

/-- The association strength between a site and all its partners, times their density, is at most `μ` for every
site. -/
def WeakSites (delta : Fin k → Fin k → ℝ) (na nb rho : Fin k → ℝ) (μ : ℝ) : Prop :=
  ∀ i, ∑ j, delta i j * rho j * nb j ≤ μ ∧ ∑ j, delta i j * rho j * na j ≤ μ

theorem WeakSites.row {delta : Fin k → Fin k → ℝ} {na nb rho : Fin k → ℝ} {μ : ℝ}
    (h : WeakSites delta na nb rho μ) (s : Fin k ⊕ Fin k) : ∑ t, siteMatrix delta na nb rho s t ≤ μ := by
  rcases s with i | i
  · have := (siteMatrix_sum delta na nb rho (fun _ => 1) i).1
    simp only [mul_one] at this
    rw [this]
    exact le_of_eq_of_le (Finset.sum_congr rfl fun j _ => by ring) (h i).1
  · have := (siteMatrix_sum delta na nb rho (fun _ => 1) i).2
    simp only [mul_one] at this
    rw [this]
    exact le_of_eq_of_le (Finset.sum_congr rfl fun j _ => by ring) (h i).2

theorem WeakSites.mono {delta : Fin k → Fin k → ℝ} {na nb rho : Fin k → ℝ} {μ ν : ℝ}
    (h : WeakSites delta na nb rho μ) (hμ : μ ≤ ν) : WeakSites delta na nb rho ν :=
  fun i => ⟨(h i).1.trans hμ, (h i).2.trans hμ⟩

/-- invariants along the iteration -/
theorem Reach.invariant {X : Type} {step : X → Except EosError (X × Bool)} {P : ℕ → X → Prop}
    (hP : ∀ j x z b, P j x → step x = .ok (z, b) → P (j + 1) z) {j : ℕ} {x z : X} (h : Reach step j x z) :
    ∀ i, P i x → P (i + j) z := by
  induction h with
  | start x => exact fun i h => h
  | next h1 _ ih =>
    intro i hi
    have := ih (i + 1) (hP _ _ _ _ hi h1)
    rwa [Nat.add_right_comm, Nat.add_assoc] at this

/-- an earlier point of a longer run, which did not converge there -/
theorem Reach.earlier {X : Type} {step : X → Except EosError (X × Bool)} {m j : ℕ} {x z : X}
    (h : Reach step m x z) (hj : j < m) : ∃ z' z'', Reach step j x z' ∧ step z' = .ok (z'', false) := by
  induction h generalizing j with
  | start => omega
  | next h1 h2 ih =>
    cases j with
    | zero => exact ⟨_, _, .start _, h1⟩
    | succ j =>
      obtain ⟨z', z'', h3, h4⟩ := ih (Nat.lt_of_succ_lt_succ hj)
      exact ⟨z', z'', .next h1 h3, h4⟩

section step
variable {solve : Solver k ℝ} {delta : Fin k → Fin k → ℝ} {na nb rho : Fin k → ℝ} {tol : ℝ}

theorem newtonStep_stepEq (hs : CorrectSolver solve) {x z : Fin k ⊕ Fin k → ℝ} {b : Bool} (hx : ∀ s, 0 < x s)
    (h : newtonStep solve delta na nb rho tol x = .ok (z, b)) : StepEq (siteMatrix delta na nb rho) x z :=
  stepEq_of hx (newtonStep_ok hs h).1

/-- fractions stay fractions -/
theorem reach_fractions (hs : CorrectSolver solve) (hM : ∀ s t, 0 ≤ siteMatrix delta na nb rho s t)
    (hw : WeakSites delta na nb rho 1) {x0 z : Fin k ⊕ Fin k → ℝ} (hx : ∀ s, 0 < x0 s ∧ x0 s ≤ 1) {j : ℕ}
    (h : Reach (newtonStep solve delta na nb rho tol) j x0 z) (s : Fin k ⊕ Fin k) : 0 < z s ∧ z s ≤ 1 := by
  refine h.invariant (P := fun _ x => ∀ s, 0 < x s ∧ x s ≤ 1) ?_ 0 hx s
  intro j x z b hx hst
  have hst' := newtonStep_stepEq hs (fun s => (hx s).1) hst
  exact hst'.fractions hM hw.row (fun s => (hx s).1) (fun s => (hx s).2)

/-- From a bound on the gradient to the norm that the code compares with the tolerance. -/
theorem normRe_lt {g : Fin k ⊕ Fin k → ℝ} {b : ℝ} (hb : ∀ s, |g s| ≤ b) (hb0 : 0 ≤ b) {t : ℝ}
    (h : Real.sqrt (2 * k) * b < t) : normRe g < t := by
  rw [normRe_real]
  refine lt_of_le_of_lt ?_ h
  have h1 : ∑ s, g s * g s ≤ ∑ _s : Fin k ⊕ Fin k, b * b := Finset.sum_le_sum fun s _ => by
    have := hb s
    rw [← abs_mul_abs_self (g s)]
    exact mul_le_mul this this (abs_nonneg _) hb0
  rw [Finset.sum_const, nsmul_eq_mul, Finset.card_univ, Fintype.card_sum, Fintype.card_fin] at h1
  calc Real.sqrt (∑ s, g s * g s) ≤ Real.sqrt (2 * k * (b * b)) := Real.sqrt_le_sqrt (by
        refine h1.trans (le_of_eq ?_)
        push_cast
        ring)
    _ = Real.sqrt (2 * k) * b := by
        rw [Real.sqrt_mul (by positivity), Real.sqrt_mul_self hb0]

/-- The loop returns a result if all iterates are positive and the one after nine steps has a small gradient. -/
theorem loop_converges (hs : CorrectSolver solve) (hM : ∀ s t, 0 ≤ siteMatrix delta na nb rho s t)
    {x0 : Fin k ⊕ Fin k → ℝ}
    (hpos : ∀ j z, Reach (newtonStep solve delta na nb rho tol) j x0 z → ∀ s, 0 < z s)
    (hsmall : ∀ z, Reach (newtonStep solve delta na nb rho tol) 9 x0 z →
      ∀ s, |(z s)⁻¹ - (1 + ∑ t, siteMatrix delta na nb rho s t * z t)| ≤ 5 * (4 / 5) ^ 2 ^ 8)
    (hk : k ≤ 10 ^ 6) (htol : 1e-10 ≤ tol) {N : ℕ} (hN : 10 ≤ N) :
    ∃ x, newtonLoop (newtonStep solve delta na nb rho tol) N x0 = .ok x := by
  match hl : newtonLoop (newtonStep solve delta na nb rho tol) N x0 with
  | .ok x => exact ⟨x, rfl⟩
  | .error e =>
    exfalso
    rcases (C30_loop_error _ N x0 e).1 hl with ⟨j, z, -, hr, hz⟩ | ⟨-, -, z, hr⟩
    · have htot := hs.total (newtonH delta na nb rho z) (newtonG delta na nb rho z)
        (newtonH_injective hM (hpos j z hr))
      obtain ⟨y, hy⟩ := Option.isSome_iff_exists.1 htot
      unfold newtonStep at hz
      simp only [hy] at hz
      cases hz
    · obtain ⟨z', z'', h1, h2⟩ := hr.earlier (j := 9) (by omega)
      have h3 := (newtonStep_ok hs h2).2
      have h4 : normRe (newtonG delta na nb rho z') < tol := by
        refine normRe_lt (b := 5 * (4 / 5) ^ 2 ^ 8) (fun s => by rw [newtonG_real]; exact hsmall z' h1 s)
          (by positivity) (lt_of_lt_of_le ?_ htol)
        have h5 : Real.sqrt (2 * k) ≤ 2000 := by
          rw [Real.sqrt_le_left (by norm_num)]
          have : (k : ℝ) ≤ 10 ^ 6 := by exact_mod_cast hk
          linarith
        have h6 : ((4 : ℝ) / 5) ^ 2 ^ 8 ≤ 1e-15 := by norm_num
        nlinarith [Real.sqrt_nonneg (2 * k : ℝ)]
      simp [h4] at h3

end step

/-! ## The loop -/

/-- C79: whatever the starting point in (0, 1], the error after `j + 1` steps is at most `5/6 (4/5)^(2^j)`, if the
association strengths add up to at most 2/3 at every site. -/
theorem C79_quadratic (solve : Solver k ℝ) (hs : CorrectSolver solve) (delta : Fin k → Fin k → ℝ)
    (na nb rho : Fin k → ℝ) (hd : ∀ i j, 0 ≤ delta i j) (hna : ∀ i, 0 ≤ na i) (hnb : ∀ i, 0 ≤ nb i)
    (hrho : ∀ i, 0 ≤ rho i) (hw : WeakSites delta na nb rho (2 / 3)) (tol : ℝ) {x0 z y : Fin k ⊕ Fin k → ℝ}
    (hx : ∀ s, 0 < x0 s ∧ x0 s ≤ 1) {j : ℕ}
    (h : Reach (newtonStep solve delta na nb rho tol) (j + 1) x0 z) (hy : ∀ s, 0 < y s)
    (hsol : MassAction (siteMatrix delta na nb rho) y) (s : Fin k ⊕ Fin k) :
    1 / 3 ≤ z s ∧ z s ≤ 1 ∧ |z s - y s| ≤ 5 / 6 * (4 / 5) ^ 2 ^ j := by
  have hM := siteMatrix_nonneg hd hna hnb hrho
  cases h with
  | next h1 h2 =>
    have hfirst := nearAny_first hM hw.row (fun s => (hx s).1) (fun s => (hx s).2)
      (newtonStep_stepEq hs (fun s => (hx s).1) h1) hsol hy
    have := h2.invariant (P := fun j x => NearAny y x j) (fun j x z b hx hst =>
      nearAny_next hM hw.row hx (newtonStep_stepEq hs (fun s => by linarith [hx.lower s]) hst) hsol) 0 hfirst
    rw [Nat.zero_add] at this
    exact ⟨this.lower s, this.upper s, this.error s⟩

/-- C79: from 0.2, the starting point of the code, the error after `j + 1` steps is at most `3/10 (4/5)^(2^j)`, if
the association strengths add up to at most one at every site. -/
theorem C79_quadratic_default (solve : Solver k ℝ) (hs : CorrectSolver solve) (delta : Fin k → Fin k → ℝ)
    (na nb rho : Fin k → ℝ) (hd : ∀ i j, 0 ≤ delta i j) (hna : ∀ i, 0 ≤ na i) (hnb : ∀ i, 0 ≤ nb i)
    (hrho : ∀ i, 0 ≤ rho i) (hw : WeakSites delta na nb rho 1) (tol : ℝ) {z y : Fin k ⊕ Fin k → ℝ} {j : ℕ}
    (h : Reach (newtonStep solve delta na nb rho tol) (j + 1) (fun _ => 0.2) z) (hy : ∀ s, 0 < y s)
    (hsol : MassAction (siteMatrix delta na nb rho) y) (s : Fin k ⊕ Fin k) :
    0 < z s ∧ z s ≤ 1 ∧ |z s - y s| ≤ 3 / 10 * (4 / 5) ^ 2 ^ j := by
  have hM := siteMatrix_nonneg hd hna hnb hrho
  have e : (0.2 : ℝ) = 1 / 5 := by norm_num
  rw [e] at h
  cases h with
  | next h1 h2 =>
    have hfirst := nearDefault_first hM hw.row (newtonStep_stepEq hs (fun s => by norm_num) h1) hsol hy
    have := h2.invariant (P := fun j x => NearDefault y x j) (fun j x z b hx hst =>
      nearDefault_next hM hw.row hx (newtonStep_stepEq hs hx.pos hst) hsol hy) 0 hfirst
    rw [Nat.zero_add] at this
    exact ⟨this.pos s, this.upper s, this.error s⟩

/-- C79: with a warm start anywhere in (0, 1] the iteration converges within ten steps to fractions that are within
the tolerance of the exact ones, if the association strengths add up to at most 2/3 at every site. -/
theorem C79_warm_start (solve : Solver k ℝ) (hs : CorrectSolver solve) (delta : Fin k → Fin k → ℝ)
    (na nb rho : Fin k → ℝ) (hd : ∀ i j, 0 ≤ delta i j) (hna : ∀ i, 0 ≤ na i) (hnb : ∀ i, 0 ≤ nb i)
    (hrho : ∀ i, 0 ≤ rho i) (hw : WeakSites delta na nb rho (2 / 3)) (hk : k ≤ 10 ^ 6) {tol : ℝ} (htol : 1e-10 ≤ tol)
    (htol' : tol ≤ 1 / 2) {N : ℕ} (hN : 10 ≤ N) {x0 : Fin k ⊕ Fin k → ℝ} (hx : ∀ s, 0 < x0 s ∧ x0 s ≤ 1) :
    ∃ x, newtonLoop (newtonStep solve delta na nb rho tol) N x0 = .ok x
      ∧ (∀ s, 0 < x s ∧ x s ≤ 1)
      ∧ ∀ y, (∀ s, 0 < y s) → MassAction (siteMatrix delta na nb rho) y → ∀ s, |x s - y s| ≤ 4 * tol * y s := by
  have hM := siteMatrix_nonneg hd hna hnb hrho
  have hw1 := hw.mono (by norm_num : (2 / 3 : ℝ) ≤ 1)
  have hpos : ∀ j z, Reach (newtonStep solve delta na nb rho tol) j x0 z → ∀ s, 0 < z s ∧ z s ≤ 1 := fun j z h s =>
    reach_fractions hs hM hw1 hx h s
  obtain ⟨y, hy, hsol⟩ := MassAction.exists hM
  obtain ⟨x, hx'⟩ := loop_converges hs hM (fun j z h s => (hpos j z h s).1) (fun z h s => by
    have hq := C79_quadratic solve hs delta na nb rho hd hna hnb hrho hw tol hx h hy hsol
    have hyl := massAction_lower hM hsol hy hw.row
    refine (gradient_bound hM hw1.row (fun s => by linarith [(hq s).1]) hsol hy (b := 1 / 5) (by norm_num) (fun s => by
      nlinarith [(hq s).1, hyl s]) (fun s => (hq s).2.2) s).trans ?_
    have : (0 : ℝ) < (4 / 5) ^ 2 ^ 8 := by positivity
    linarith) hk htol hN
  refine ⟨x, hx', ?_⟩
  rcases (C30_loop_ok _ N x0 x).1 hx' with ⟨h0, _⟩ | ⟨j, z, hj, hr, hz⟩
  · omega
  · refine ⟨(newtonStep_stepEq hs (fun s => (hpos j z hr s).1) hz).fractions hM hw1.row (fun s => (hpos j z hr s).1)
      (fun s => (hpos j z hr s).2), fun y hy hsol s =>
      (converged_step hs hM htol' (fun s => (hpos j z hr s).1) hz hy hsol s).2⟩

/-- C79: from 0.2 the iteration converges within ten steps to fractions that are within the tolerance of the exact
ones, if the association strengths add up to at most one at every site. -/
theorem C79_default_start (solve : Solver k ℝ) (hs : CorrectSolver solve) (delta : Fin k → Fin k → ℝ)
    (na nb rho : Fin k → ℝ) (hd : ∀ i j, 0 ≤ delta i j) (hna : ∀ i, 0 ≤ na i) (hnb : ∀ i, 0 ≤ nb i)
    (hrho : ∀ i, 0 ≤ rho i) (hw : WeakSites delta na nb rho 1) (hk : k ≤ 10 ^ 6) {tol : ℝ} (htol : 1e-10 ≤ tol)
    (htol' : tol ≤ 1 / 2) {N : ℕ} (hN : 10 ≤ N) :
    ∃ x, newtonLoop (newtonStep solve delta na nb rho tol) N (fun _ => 0.2) = .ok x
      ∧ (∀ s, 0 < x s ∧ x s ≤ 1)
      ∧ ∀ y, (∀ s, 0 < y s) → MassAction (siteMatrix delta na nb rho) y → ∀ s, |x s - y s| ≤ 4 * tol * y s := by
  have hM := siteMatrix_nonneg hd hna hnb hrho
  have hpos : ∀ j z, Reach (newtonStep solve delta na nb rho tol) j (fun _ => 0.2) z → ∀ s, 0 < z s ∧ z s ≤ 1 :=
    fun j z h s => reach_fractions hs hM hw (fun _ => by norm_num) h s
  obtain ⟨y, hy, hsol⟩ := MassAction.exists hM
  obtain ⟨x, hx'⟩ := loop_converges hs hM (fun j z h s => (hpos j z h s).1) (fun z h s => by
    have hq := C79_quadratic_default solve hs delta na nb rho hd hna hnb hrho hw tol h hy hsol
    have hyl := massAction_lower hM hsol hy hw.row
    have hp : (0 : ℝ) < (4 / 5) ^ 2 ^ 8 := by positivity
    have hp' : ((4 : ℝ) / 5) ^ 2 ^ 8 ≤ 1e-15 := by norm_num
    refine (gradient_bound hM hw.row (fun s => (hq s).1) hsol hy (b := 1 / 5) (by norm_num) (fun s => by
      have h1 := (abs_le.1 (hq s).2.2).1
      have h2 := hyl s
      have h3 : (49 : ℝ) / 100 ≤ z s := by linarith
      nlinarith) (fun s => (hq s).2.2) s).trans ?_
    linarith) hk htol hN
  refine ⟨x, hx', ?_⟩
  rcases (C30_loop_ok _ N _ x).1 hx' with ⟨h0, _⟩ | ⟨j, z, hj, hr, hz⟩
  · omega
  · refine ⟨(newtonStep_stepEq hs (fun s => (hpos j z hr s).1) hz).fractions hM hw.row (fun s => (hpos j z hr s).1)
      (fun s => (hpos j z hr s).2), fun y hy hsol s =>
      (converged_step hs hM htol' (fun s => (hpos j z hr s).1) hz hy hsol s).2⟩

/-- C59, the part that holds for any number of components: if the association strengths add up to at most one at
every site, every result of the iteration, for any tolerance and iteration limit, consists of fractions in (0, 1]. -/
theorem C59_weak_association_partial (solve : Solver k ℝ) (hs : CorrectSolver solve) (delta : Fin k → Fin k → ℝ)
    (na nb rho : Fin k → ℝ) (hd : ∀ i j, 0 ≤ delta i j) (hna : ∀ i, 0 ≤ na i) (hnb : ∀ i, 0 ≤ nb i)
    (hrho : ∀ i, 0 ≤ rho i) (hw : WeakSites delta na nb rho 1) (tol : ℝ) (N : ℕ) {x0 x : Fin k ⊕ Fin k → ℝ}
    (hx : ∀ s, 0 < x0 s ∧ x0 s ≤ 1)
    (h : newtonLoop (newtonStep solve delta na nb rho tol) N x0 = .ok x) (s : Fin k ⊕ Fin k) :
    0 < x s ∧ x s ≤ 1 := by
  have hM := siteMatrix_nonneg hd hna hnb hrho
  rcases (C30_loop_ok _ N x0 x).1 h with ⟨-, rfl⟩ | ⟨j, z, -, hr, hz⟩
  · exact hx s
  · have hp := reach_fractions hs hM hw hx hr
    exact (newtonStep_stepEq hs (fun s => (hp s).1) hz).fractions hM hw.row (fun s => (hp s).1) (fun s => (hp s).2) s

/-! ## States -/

/-- weak association at a state, over all components and with the strengths of the theory -/
def WeakAssociation (p : PcSaftParameters n ℝ) (T V : ℝ) (N : Fin n → ℝ) (μ : ℝ) : Prop :=
  WeakSites (specStrength p T V N) p.na p.nb (fun i => N i / V) μ

theorem stateStrength_nonneg {pr : Fin n → PureRecord ℝ} {kij : Fin n → Fin n → ℝ} {p : PcSaftParameters n ℝ}
    (hp : p = fromRecords pr kij) {T V : ℝ} {N : Fin n → ℝ} (h : Admissible p T V N) (hn : AssocNonneg p)
    (i j : Fin p.assoc_comp.length) :
    0 ≤ stateStrength p (StateHD.new T V N) (p.assoc_comp.get i) (p.assoc_comp.get j) := by
  subst hp
  rw [C58_association_strength pr kij T V N h _ _ ((mem_assoc_iff pr kij _).1 (List.get_mem _ _))
    ((mem_assoc_iff pr kij _).1 (List.get_mem _ _))]
  exact specStrength_nonneg h _ _ (add_nonneg (hn.epsilon _) (hn.epsilon _))

theorem weakSites_state {pr : Fin n → PureRecord ℝ} {kij : Fin n → Fin n → ℝ} {p : PcSaftParameters n ℝ}
    (hp : p = fromRecords pr kij) {T V : ℝ} {N : Fin n → ℝ} (h : Admissible p T V N) {μ : ℝ}
    (hw : WeakAssociation p T V N μ) :
    WeakSites (fun i j => stateStrength p (StateHD.new T V N) (p.assoc_comp.get i) (p.assoc_comp.get j)) (assocNa p)
      (assocNb p) (assocRho p (StateHD.new T V N).partial_density) μ := by
  subst hp
  have hst : ∀ i j, stateStrength (fromRecords pr kij) (StateHD.new T V N) ((fromRecords pr kij).assoc_comp.get i)
      ((fromRecords pr kij).assoc_comp.get j) = specStrength (fromRecords pr kij) T V N
        ((fromRecords pr kij).assoc_comp.get i) ((fromRecords pr kij).assoc_comp.get j) := fun i j =>
    C58_association_strength pr kij T V N h _ _ ((mem_assoc_iff pr kij _).1 (List.get_mem _ _))
      ((mem_assoc_iff pr kij _).1 (List.get_mem _ _))
  have hz : ∀ (nn : Fin n → ℝ) (i j : Fin n), (fromRecords pr kij).kappa_ab j = 0 →
      specStrength (fromRecords pr kij) T V N i j * (N j / V) * nn j = 0 := fun nn i j hj => by
    rw [specStrength_zero T V N (.inr hj)]
    simp
  intro i
  simp only [hst]
  have h1 := hw ((fromRecords pr kij).assoc_comp.get i)
  refine ⟨le_of_eq_of_le ?_ h1.1, le_of_eq_of_le ?_ h1.2⟩
  · exact sum_assoc pr kij (fun j => specStrength (fromRecords pr kij) T V N ((fromRecords pr kij).assoc_comp.get i) j
      * (N j / V) * (fromRecords pr kij).nb j) (hz _ _)
  · exact sum_assoc pr kij (fun j => specStrength (fromRecords pr kij) T V N ((fromRecords pr kij).assoc_comp.get i) j
      * (N j / V) * (fromRecords pr kij).na j) (hz _ _)

/-- what the iteration of the code does at a weakly associating state -/
theorem stateLoop_weak {pr : Fin n → PureRecord ℝ} {kij : Fin n → Fin n → ℝ} {p : PcSaftParameters n ℝ}
    (hp : p = fromRecords pr kij) {T V : ℝ} {N : Fin n → ℝ} (h : Admissible p T V N) (hn : AssocNonneg p)
    (hw : WeakAssociation p T V N 1) (hk : p.nassoc ≤ 10 ^ 6) {max_iter : ℕ} (hmax : 10 ≤ max_iter) {tol : ℝ}
    (htol : 1e-10 ≤ tol) (htol' : tol ≤ 1 / 2) {solve : Solver p.assoc_comp.length ℝ} (hs : CorrectSolver solve) :
    (∃ x, stateLoop p max_iter tol solve (StateHD.new T V N) = .ok x ∧ ∀ s, 0 < x s ∧ x s ≤ 1)
    ∧ PositiveRun p max_iter tol solve (StateHD.new T V N) := by
  have hst := stateStrength_nonneg hp h hn
  have hrho : ∀ i, 0 ≤ assocRho p (StateHD.new T V N).partial_density i := fun i => by
    change 0 ≤ (StateHD.new T V N).partial_density _
    rw [StateHD.new_density]
    exact div_nonneg (h.moles_nonneg _) h.volume.le
  have hw' := weakSites_state hp h hw
  constructor
  · obtain ⟨x, hx, hx1, -⟩ := C79_default_start solve hs _ (assocNa p) (assocNb p) _ hst (fun i => hn.na _)
      (fun i => hn.nb _) hrho hw' hk htol htol' hmax
    exact ⟨x, hx, hx1⟩
  · rintro z ⟨j, -, hr, -⟩ t
    exact (reach_fractions hs (siteMatrix_nonneg hst (fun i => hn.na _) (fun i => hn.nb _) hrho) hw'
      (fun _ => by norm_num) hr t).1

/-- C79: at a weakly associating state evaluating the residual Helmholtz energy never panics, whatever the number of
associating components, and the association energy is within the tolerance of the exact one. -/
theorem C79_residual {pr : Fin n → PureRecord ℝ} {kij : Fin n → Fin n → ℝ} {p : PcSaftParameters n ℝ}
    (hp : p = fromRecords pr kij) {T V : ℝ} {N : Fin n → ℝ} (h : Admissible p T V N) (hn : AssocNonneg p)
    (hw : WeakAssociation p T V N 1) (ha : 2 ≤ p.nassoc) (hk : p.nassoc ≤ 10 ^ 6) {o : PcSaftOptions ℝ}
    (hmax : 10 ≤ o.max_iter_cross_assoc) (htol : 1e-10 ≤ o.tol_cross_assoc) (htol' : o.tol_cross_assoc ≤ 1 / 8)
    {la : LinAlg ℝ ℝ} (h0 : la.nderiv = 0) (hs : CorrectSolver (la.solveF p.assoc_comp.length)) :
    ∃ a, (Eos.withOptions p o).residualHelmholtz la (StateHD.new T V N)
        = .ok (nonAssocSum o.dq_variant p (StateHD.new T V N) + a)
      ∧ ((f64EPSILON : ℝ) ≤ ∑ i, N i / V → ∀ b, ExactAssociation p T V N b →
        |a - b| ≤ 10 * o.tol_cross_assoc * ∑ i, N i * (p.na i + p.nb i)) := by
  obtain ⟨⟨x, hx, hx1⟩, hrun⟩ := stateLoop_weak hp h hn hw hk hmax htol (htol'.trans (by norm_num)) hs
  have hc := crossAssociation_real p o.max_iter_cross_assoc o.tol_cross_assoc (la.solveF _) (la.solveD _)
    (StateHD.new T V N)
  rw [hx] at hc
  have hok : ∃ a, crossAssociation p o.max_iter_cross_assoc o.tol_cross_assoc 0 (la.solveF _) (la.solveD _)
      (StateHD.new T V N) = .ok a := by
    rw [hc]
    split_ifs
    · exact ⟨_, rfl⟩
    · exact ⟨_, rfl⟩
  obtain ⟨a, ha'⟩ := hok
  refine ⟨a, ?_, fun hcut b hb => ?_⟩
  · rw [residual_of_two_le_nassoc la p o _ ha, h0, ha']
    rfl
  · exact C71_accuracy hp h hn (by omega) (le_trans (by norm_num) htol) htol' hs hcut ha' hrun hb

/-! ## Cases that meet the hypotheses -/

/-- two components, at every site the strengths add up to 1/2 -/
theorem weakSites_example : WeakSites (k := 2) (fun _ _ => 5) (fun _ => 1) (fun _ => 1) ![0.04, 0.06] (2 / 3) := by
  intro i
  simp only [Fin.sum_univ_two]
  norm_num

example (x0 : Fin 2 ⊕ Fin 2 → ℝ) (hx : ∀ s, 0 < x0 s ∧ x0 s ≤ 1) :=
  C79_warm_start exactSolver exactSolver_correct (fun _ _ => 5) (fun _ => 1) (fun _ => 1) ![0.04, 0.06]
    (fun _ _ => by norm_num) (fun _ => zero_le_one) (fun _ => zero_le_one)
    (fun i => by fin_cases i <;> norm_num) weakSites_example (by norm_num) (tol := 1e-10) le_rfl (by norm_num)
    (N := 50) (by norm_num) hx

example :=
  C79_default_start exactSolver exactSolver_correct (fun _ _ => 5) (fun _ => 1) (fun _ => 1) ![0.04, 0.06]
    (fun _ _ => by norm_num) (fun _ => zero_le_one) (fun _ => zero_le_one)
    (fun i => by fin_cases i <;> norm_num) (weakSites_example.mono (by norm_num)) (by norm_num) (tol := 1e-10) le_rfl
    (by norm_num) (N := 50) (by norm_num)

/-- the association strength of the twins is proportional to their association volume -/
theorem twin_strength_scale {K t : ℝ} (hK : 0 < K) (ht : 0 < t) (i j : Fin 2) :
    specStrength (fromRecords (twinRecords (t * K)) (fun _ _ => 0)) 300 1000 ![3, 11] i j
      = t * specStrength (fromRecords (twinRecords K) (fun _ _ => 0)) 300 1000 ![3, 11] i j := by
  have h1 : ∀ K i, (fromRecords (twinRecords K) (fun _ _ => 0)).kappa_ab i = K := fun _ _ => rfl
  have h2 : ∀ K, 0 < K → specStrength (fromRecords (twinRecords K) (fun _ _ => 0)) 300 1000 ![3, 11] i j
      = contactPair (moment2 (fromRecords (twinRecords 1) (fun _ _ => 0)) 300 1000 ![3, 11])
          (Spec.packingFraction (fromRecords (twinRecords 1) (fun _ _ => 0)) 300 1000 ![3, 11])
          (Spec.diameter 3 200 300) (Spec.diameter 3 200 300)
        * K * Real.sqrt (3 * 3) ^ 3 * (Real.exp ((2500 + 2500) / 2 / 300) - 1) := fun K hK => by
    rw [specStrength, h1, h1, Real.sqrt_mul_self hK.le]
    rfl
  rw [h2 K hK, h2 (t * K) (mul_pos ht hK)]
  ring

/-- twins whose strengths add up to 1/2 at every site -/
theorem twin_weak : ∃ K : ℝ, 0 < K ∧ ∀ μ : ℝ, 1 / 2 ≤ μ →
    WeakAssociation (fromRecords (twinRecords K) (fun _ _ => 0)) 300 1000 ![3, 11] μ := by
  obtain ⟨K, hK, -, hstr⟩ := twin_strength
  refine ⟨1 / 40 * K, by positivity, fun μ hμ i => ?_⟩
  have hna : ∀ j, (fromRecords (twinRecords (1 / 40 * K)) (fun _ _ => 0)).na j = 1 := fun _ => rfl
  have hnb : ∀ j, (fromRecords (twinRecords (1 / 40 * K)) (fun _ _ => 0)).nb j = 1 := fun _ => rfl
  simp only [Fin.sum_univ_two, twin_strength_scale hK (by norm_num : (0 : ℝ) < 1 / 40), hstr, hna, hnb]
  norm_num
  linarith

example : ∃ K : ℝ, 0 < K ∧ ∃ a, (Eos.new (fromRecords (twinRecords K) (fun _ _ => 0))).residualHelmholtz
    (⟨fun _ => exactSolver, fun _ => exactSolver, 0⟩ : LinAlg ℝ ℝ) (StateHD.new 300 1000 ![3, 11]) = .ok a := by
  obtain ⟨K, hK, hw⟩ := twin_weak
  have hna : (fromRecords (twinRecords K) (fun _ _ => 0)).nassoc = 2 := by
    rw [PcSaftParameters.nassoc, twinRecords_comp hK]
    rfl
  obtain ⟨a, ha, -⟩ := C79_residual (o := PcSaftOptions.default) rfl
    (twinRecords_admissible K (fun _ _ => 0) (V := 1000) (by norm_num))
    ⟨fun _ => by change (0 : ℝ) ≤ 2500; norm_num, fun _ => zero_le_one, fun _ => zero_le_one⟩ (hw 1 (by norm_num))
    hna.ge (by rw [hna]; norm_num) (by norm_num [PcSaftOptions.default]) (by norm_num [PcSaftOptions.default])
    (by norm_num [PcSaftOptions.default])
    (la := ⟨fun _ => exactSolver, fun _ => exactSolver, 0⟩) rfl exactSolver_correct
  exact ⟨K, hK, _, ha⟩

end PcSaft.Props
