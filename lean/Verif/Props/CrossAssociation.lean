import Verif.Lemmas.Newton
import Verif.Props.Association

/-!
# Properties C26–C31 and C54: cross association
-/

namespace PcSaft.Props
open PcSaft Spec
variable {n k : ℕ}

/-! ## C27 -/

/-- C27: the equations `g = 0` that the cross-association iteration solves have exactly one positive
solution, and it lies in (0, 1]. -/
theorem C27_unique_solution (delta : Fin k → Fin k → ℝ) (na nb rho : Fin k → ℝ)
    (hd : ∀ i j, 0 ≤ delta i j) (hna : ∀ i, 0 ≤ na i) (hnb : ∀ i, 0 ≤ nb i) (hrho : ∀ i, 0 ≤ rho i) :
    ∃ x : Fin k ⊕ Fin k → ℝ, (∀ s, 0 < x s ∧ x s ≤ 1)
      ∧ (∀ s, newtonG delta na nb rho x s = 0)
      ∧ (∀ i, x (.inl i) * (1 + ∑ j, delta i j * rho j * nb j * x (.inr j)) = 1)
      ∧ (∀ i, x (.inr i) * (1 + ∑ j, delta i j * rho j * na j * x (.inl j)) = 1)
      ∧ ∀ y : Fin k ⊕ Fin k → ℝ, (∀ s, 0 < y s) → (∀ s, newtonG delta na nb rho y s = 0) → y = x := by
  have hM := siteMatrix_nonneg hd hna hnb hrho
  obtain ⟨x, hx, hsol⟩ := MassAction.exists hM
  have key : ∀ y : Fin k ⊕ Fin k → ℝ, (∀ s, 0 < y s) →
      ((∀ s, newtonG delta na nb rho y s = 0) ↔ MassAction (siteMatrix delta na nb rho) y) := by
    intro y hy
    refine forall_congr' fun s => ?_
    rw [newtonG_real, sub_eq_zero, ← mul_right_inj' (hy s).ne', mul_inv_cancel₀ (hy s).ne', eq_comm]
  refine ⟨x, fun s => ⟨hx s, hsol.le_one hM hx s⟩, (key x hx).2 hsol, fun i => ?_, fun i => ?_,
    fun y hy h => ((key y hy).1 h).unique hM hy hx hsol⟩
  · have := hsol (.inl i)
    rw [(siteMatrix_sum delta na nb rho x i).1] at this
    simpa only [mul_assoc] using this
  · have := hsol (.inr i)
    rw [(siteMatrix_sum delta na nb rho x i).2] at this
    simpa only [mul_assoc] using this

theorem newtonG_zero_iff {delta : Fin k → Fin k → ℝ} {na nb rho : Fin k → ℝ}
    {y : Fin k ⊕ Fin k → ℝ} (hy : ∀ s, 0 < y s) :
    (∀ s, newtonG delta na nb rho y s = 0) ↔ MassAction (siteMatrix delta na nb rho) y := by
  refine forall_congr' fun s => ?_
  rw [newtonG_real, sub_eq_zero, ← mul_right_inj' (hy s).ne', mul_inv_cancel₀ (hy s).ne', eq_comm]

/-! ## C28 -/

/-- C28: at a positive iterate the step succeeds, and it leaves the iterate unchanged exactly if the
iterate is the solution. -/
theorem C28_newton_step (solve : Solver k ℝ) (hs : CorrectSolver solve) (delta : Fin k → Fin k → ℝ)
    (na nb rho : Fin k → ℝ) (hd : ∀ i j, 0 ≤ delta i j) (hna : ∀ i, 0 ≤ na i) (hnb : ∀ i, 0 ≤ nb i)
    (hrho : ∀ i, 0 ≤ rho i) (tol : ℝ) (x : Fin k ⊕ Fin k → ℝ) (hx : ∀ s, 0 < x s) :
    ∃ x' b, newtonStep solve delta na nb rho tol x = .ok (x', b)
      ∧ (x' = x ↔ MassAction (siteMatrix delta na nb rho) x)
      ∧ (b = true ↔ Real.sqrt (∑ s, ((x s)⁻¹ - (1 + ∑ t, siteMatrix delta na nb rho s t * x t)) ^ 2) < tol) := by
  have hM := siteMatrix_nonneg hd hna hnb hrho
  have htot := hs.total (newtonH delta na nb rho x) (newtonG delta na nb rho x)
    (newtonH_injective hM hx)
  obtain ⟨y, hy⟩ := Option.isSome_iff_exists.1 htot
  have hstep : newtonStep solve delta na nb rho tol x
      = .ok (fun s => x s - y s, F64.lt (normRe (newtonG delta na nb rho x)) tol) := by
    unfold newtonStep
    simp only [hy]
  refine ⟨_, _, hstep, ?_, ?_⟩
  · rw [← newtonG_zero_iff hx]
    have hsol := hs.solves _ _ _ hy
    constructor
    · intro h s
      have hy0 : y = 0 := by
        funext t
        have : x t - y t = x t := congrFun h t
        show y t = 0
        linarith
      rw [← hsol s, hy0]
      simp
    · intro h
      have hy0 : y = 0 := newtonH_injective hM hx y (fun s => by rw [hsol s, h s])
      funext s
      rw [hy0]
      simp
  · rw [lt_real, decide_eq_true_iff, normRe_real]
    simp only [newtonG_real, pow_two]

/-! ## C29 -/

/-- accuracy of one converged step -/
theorem converged_step {solve : Solver k ℝ} (hs : CorrectSolver solve) {delta : Fin k → Fin k → ℝ}
    {na nb rho : Fin k → ℝ} (hM : ∀ s t, 0 ≤ siteMatrix delta na nb rho s t) {tol : ℝ}
    (ht : tol ≤ 1 / 2) {x x' y : Fin k ⊕ Fin k → ℝ} (hx : ∀ s, 0 < x s)
    (h : newtonStep solve delta na nb rho tol x = .ok (x', true)) (hy : ∀ s, 0 < y s)
    (hsol : MassAction (siteMatrix delta na nb rho) y) (s : Fin k ⊕ Fin k) :
    0 < x' s ∧ |x' s - y s| ≤ 4 * tol * y s := by
  obtain ⟨h1, h2⟩ := newtonStep_ok hs h
  have hnorm : normRe (newtonG delta na nb rho x) < tol := by simpa using h2.symm
  have hg : ∀ s, |(x s)⁻¹ - (1 + ∑ t, siteMatrix delta na nb rho s t * x t)| ≤ tol := fun s => by
    rw [← newtonG_real]
    exact (abs_le_normRe _ s).trans hnorm.le
  have ht0 : 0 ≤ tol := (abs_nonneg _).trans (hg s)
  have hnear := near_solution hM hx hy hsol ht0 (by linarith) hg s
  have hv := newton_step_bound hM hx (v := fun s => x' s - x s) hg h1 s
  have hxs := hx s
  have hys := hy s
  have h1t : 0 < 1 - tol := by linarith
  have n1 : x s * (1 - tol) ≤ y s := by
    have := hnear.1
    rwa [inv_mul_eq_div, le_div_iff₀ h1t] at this
  have n2 : y s * (1 - tol) ≤ x s := by
    have := hnear.2
    rwa [inv_mul_eq_div, le_div_iff₀ h1t] at this
  obtain ⟨v1, v2⟩ := abs_le.1 hv
  refine ⟨by nlinarith, ?_⟩
  have hx2 : x s ≤ 2 * y s := by nlinarith
  rw [abs_le]
  constructor
  · nlinarith
  · nlinarith

/-- `z` is reached from `x` after `j` steps, none of which reported convergence. -/
inductive Reach {X : Type} (step : X → Except EosError (X × Bool)) : ℕ → X → X → Prop
  | start (x : X) : Reach step 0 x x
  | next {j : ℕ} {x x' z : X} : step x = .ok (x', false) → Reach step j x' z → Reach step (j + 1) x z

/-- C30: when the iteration returns a result and which one. -/
theorem C30_loop_ok {X : Type} (step : X → Except EosError (X × Bool)) (N : ℕ) (x y : X) :
    newtonLoop step N x = .ok y ↔
      (N = 0 ∧ y = x) ∨ ∃ j z, j < N ∧ Reach step j x z ∧ step z = .ok (y, true) := by
  induction N generalizing x with
  | zero =>
    simp only [newtonLoop, Except.ok.injEq, not_lt_zero, false_and, exists_false, or_false, true_and]
    exact eq_comm
  | succ N ih =>
    have hsplit : ∀ P : ℕ → X → Prop, (∃ j z, j < N + 1 ∧ Reach step j x z ∧ P j z) ↔
        (P 0 x ∨ ∃ x', step x = .ok (x', false) ∧ ∃ j z, j < N ∧ Reach step j x' z ∧ P (j + 1) z) := by
      intro P
      constructor
      · rintro ⟨j, z, hj, hr, hp⟩
        cases hr with
        | start => exact Or.inl hp
        | next h hr => exact Or.inr ⟨_, h, _, z, by omega, hr, hp⟩
      · rintro (hp | ⟨x', h, j, z, hj, hr, hp⟩)
        · exact ⟨0, x, by omega, .start x, hp⟩
        · exact ⟨j + 1, z, by omega, .next h hr, hp⟩
    rw [hsplit (fun _ z => step z = .ok (y, true))]
    simp only [Nat.add_eq_zero_iff, one_ne_zero, and_false, false_and, false_or]
    match hx : step x with
    | .error e =>
      simp [newtonLoop, hx]
    | .ok (x', true) =>
      simp [newtonLoop, hx]
    | .ok (x', false) =>
      simp only [newtonLoop, hx, Bool.false_eq_true, if_false, Except.ok.injEq, Prod.mk.injEq, and_false,
        false_or, and_true]
      simp only [exists_eq_left']
      by_cases hN : N = 0
      · subst hN
        simp
      · simp only [hN, if_false]
        rw [ih x']
        simp [hN]

/-- C30: when the iteration returns an error and which one. -/
theorem C30_loop_error {X : Type} (step : X → Except EosError (X × Bool)) (N : ℕ) (x : X)
    (e : EosError) :
    newtonLoop step N x = .error e ↔
      (∃ j z, j < N ∧ Reach step j x z ∧ step z = .error e)
      ∨ (0 < N ∧ e = .notConverged "Cross association" ∧ ∃ z, Reach step N x z) := by
  induction N generalizing x with
  | zero => simp [newtonLoop]
  | succ N ih =>
    have hnext : ∀ (z : X), Reach step (N + 1) x z ↔ ∃ x', step x = .ok (x', false) ∧ Reach step N x' z := by
      intro z
      constructor
      · intro h
        cases h with
        | next h hr => exact ⟨_, h, hr⟩
      · rintro ⟨x', h, hr⟩
        exact .next h hr
    have hsplit : (∃ j z, j < N + 1 ∧ Reach step j x z ∧ step z = .error e) ↔
        (step x = .error e ∨ ∃ x', step x = .ok (x', false) ∧ ∃ j z, j < N ∧ Reach step j x' z
          ∧ step z = .error e) := by
      constructor
      · rintro ⟨j, z, hj, hr, hp⟩
        cases hr with
        | start => exact Or.inl hp
        | next h hr => exact Or.inr ⟨_, h, _, z, by omega, hr, hp⟩
      · rintro (hp | ⟨x', h, j, z, hj, hr, hp⟩)
        · exact ⟨0, x, by omega, .start x, hp⟩
        · exact ⟨j + 1, z, by omega, .next h hr, hp⟩
    rw [hsplit]
    simp only [hnext]
    match hx : step x with
    | .error e' =>
      simp [newtonLoop, hx]
    | .ok (x', true) =>
      simp [newtonLoop, hx]
    | .ok (x', false) =>
      simp only [newtonLoop, hx, Bool.false_eq_true, if_false, Except.ok.injEq, Prod.mk.injEq,
        false_or, and_true, reduceCtorEq, Nat.succ_pos, true_and]
      simp only [exists_eq_left']
      by_cases hN : N = 0
      · subst hN
        simp only [if_true, not_lt_zero, false_and, exists_false, false_or, Except.error.injEq]
        constructor
        · rintro rfl
          exact ⟨rfl, x', .start x'⟩
        · rintro ⟨rfl, _⟩
          rfl
      · simp only [hN, if_false]
        rw [ih x']
        have : 0 < N := by omega
        simp [this]

section density
variable {F D : Type} [F64 F] [DualNum F D]

/-- the matrix of association strengths that `crossAssociationDensity` computes -/
def strengths (p : PcSaftParameters n F) (T : D) (r : Fin n → D) (n2 n3i xi : D)
    (i j : Fin p.assoc_comp.length) : D :=
  associationStrength p T r n2 n3i xi (p.assoc_comp.get i) (p.assoc_comp.get j)

/-- site numbers and densities of the associating components -/
def assocNa (p : PcSaftParameters n F) (i : Fin p.assoc_comp.length) : F := p.na (p.assoc_comp.get i)
@[inherit_doc assocNa]
def assocNb (p : PcSaftParameters n F) (i : Fin p.assoc_comp.length) : F := p.nb (p.assoc_comp.get i)
@[inherit_doc assocNa]
def assocRho (p : PcSaftParameters n F) (density : Fin n → D) (i : Fin p.assoc_comp.length) : D :=
  density (p.assoc_comp.get i)

/-- the real-valued iteration of `crossAssociationDensity` -/
def realStep (p : PcSaftParameters n F) (solveF : Solver p.assoc_comp.length F) (T : D)
    (density r : Fin n → D) (n2 n3i xi : D) (tol : F) :=
  newtonStep solveF (fun i j => DualNum.re (strengths p T r n2 n3i xi i j)) (assocNa p) (assocNb p)
    (fun i => DualNum.re (assocRho p density i)) tol

/-- energy density of given site fractions -/
def energyOf (p : PcSaftParameters n F) (density : Fin n → D)
    (x : Fin p.assoc_comp.length ⊕ Fin p.assoc_comp.length → D) : D :=
  sumFin (fun i => assocRho p density i
    * (assocF (x (.inl i)) * c (assocNa p i) + assocF (x (.inr i)) * c (assocNb p i)))

/-- C30: the possible outcomes of the cross-association energy density, for every number type,
solver, iteration limit and starting point. -/
theorem C30_outcomes (p : PcSaftParameters n F) (nderiv : ℕ) (solveF : Solver p.assoc_comp.length F)
    (solveD : Solver p.assoc_comp.length D) (T : D) (density r : Fin n → D) (n2 n3i xi : D) (N : ℕ)
    (tol : F) (x0 : Option (Fin p.assoc_comp.length ⊕ Fin p.assoc_comp.length → F)) :
    let out := crossAssociationDensity p nderiv solveF solveD T density r n2 n3i xi N tol x0
    let step := realStep p solveF T density r n2 n3i xi tol
    let x := x0.getD (fun _ => 0.2)
    -- below the cutoff the result is zero and the guess is reset
    (F64.lt (DualNum.re (sumFin density)) f64EPSILON = true →
      out = (.ok (c (0.0 : F)), x0.map (fun _ _ => 1.0)))
    ∧ (F64.lt (DualNum.re (sumFin density)) f64EPSILON = false →
      -- on error the guess is unchanged
      (∀ e, out.1 = .error e → out.2 = x0)
      -- if no iteration meets the tolerance the result is an error
      ∧ (0 < N → (∀ j z, j < N → Reach step j x z → ∀ y, step z ≠ .ok (y, true)) → ∃ e, out.1 = .error e)
      -- a result comes from a converged iteration, or from an iteration limit of zero
      ∧ (∀ a, out.1 = .ok a → ∃ y xd, out.2 = x0.map (fun _ => y) ∧ a = energyOf p density xd
          ∧ newtonDual (newtonStep solveD (strengths p T r n2 n3i xi) (assocNa p) (assocNb p)
              (assocRho p density) tol) nderiv (fun s => c (y s)) = .ok xd
          ∧ ((N = 0 ∧ y = x) ∨ ∃ j z, j < N ∧ Reach step j x z ∧ step z = .ok (y, true)))
      -- conversely a converged iteration gives a result unless a step for the derivatives fails
      ∧ (∀ j z y xd, j < N → Reach step j x z → step z = .ok (y, true) →
          newtonDual (newtonStep solveD (strengths p T r n2 n3i xi) (assocNa p) (assocNb p)
              (assocRho p density) tol) nderiv (fun s => c (y s)) = .ok xd →
          out = (.ok (energyOf p density xd), x0.map (fun _ => y)))) := by
  intro out step x
  have hout : F64.lt (DualNum.re (sumFin density)) f64EPSILON = false →
      out = match newtonLoop step N x with
        | .error e => (.error e, x0)
        | .ok y =>
          match newtonDual (newtonStep solveD (strengths p T r n2 n3i xi) (assocNa p) (assocNb p)
              (assocRho p density) tol) nderiv (fun s => c (y s)) with
          | .error e => (.error e, x0)
          | .ok xd => (.ok (energyOf p density xd), x0.map (fun _ => y)) := by
    intro h
    have hL : newtonLoop (newtonStep solveF
        (fun i j => DualNum.re (associationStrength p T r n2 n3i xi (p.assoc_comp.get i) (p.assoc_comp.get j)))
        (fun i => p.na (p.assoc_comp.get i)) (fun i => p.nb (p.assoc_comp.get i))
        (fun i => DualNum.re (density (p.assoc_comp.get i))) tol) N (x0.getD fun _ => 0.2)
        = newtonLoop step N x := rfl
    simp only [out, crossAssociationDensity, h, Bool.false_eq_true, if_false]
    rw [hL]
    cases newtonLoop step N x with
    | error e => rfl
    | ok y =>
      simp only
      have hD : newtonDual (newtonStep solveD (fun i j => associationStrength p T r n2 n3i xi
          (p.assoc_comp.get i) (p.assoc_comp.get j)) (fun i => p.na (p.assoc_comp.get i))
          (fun i => p.nb (p.assoc_comp.get i)) (fun i => density (p.assoc_comp.get i)) tol) nderiv
          (fun s => c (y s)) = newtonDual (newtonStep solveD (strengths p T r n2 n3i xi) (assocNa p)
            (assocNb p) (assocRho p density) tol) nderiv (fun s => c (y s)) := rfl
      rw [hD]
      cases newtonDual (newtonStep solveD (strengths p T r n2 n3i xi) (assocNa p)
            (assocNb p) (assocRho p density) tol) nderiv (fun s => c (y s)) with
      | error e => rfl
      | ok xd => rfl
  refine ⟨fun h => by simp only [out, crossAssociationDensity, h, if_true], fun h => ?_⟩
  have ho := hout h
  match hl : newtonLoop step N x with
  | .error e =>
    rw [hl] at ho
    simp only at ho
    refine ⟨fun _ _ => by rw [ho], fun _ _ => ⟨e, by rw [ho]⟩, fun a ha => ?_, fun j z y xd hj hr hz _ => ?_⟩
    · rw [ho] at ha
      simp at ha
    · rw [(C30_loop_ok step N x y).2 (.inr ⟨j, z, hj, hr, hz⟩)] at hl
      simp at hl
  | .ok y =>
    rw [hl] at ho
    simp only at ho
    have hok := (C30_loop_ok step N x y).1 hl
    match hdl : newtonDual (newtonStep solveD (strengths p T r n2 n3i xi) (assocNa p) (assocNb p)
              (assocRho p density) tol) nderiv (fun s => c (y s)) with
    | .error e =>
      rw [hdl] at ho
      simp only at ho
      refine ⟨fun _ _ => by rw [ho], fun _ _ => ⟨e, by rw [ho]⟩, fun a ha => ?_,
        fun j z y' xd hj hr hz hd' => ?_⟩
      · rw [ho] at ha
        simp at ha
      · rw [(C30_loop_ok step N x y').2 (.inr ⟨j, z, hj, hr, hz⟩), Except.ok.injEq] at hl
        rw [hl, hdl] at hd'
        simp at hd'
    | .ok xd =>
      rw [hdl] at ho
      simp only at ho
      refine ⟨fun e he => ?_, fun hN hno => ?_, fun a ha => ?_, fun j z y' xd' hj hr hz hd' => ?_⟩
      · rw [ho] at he
        simp at he
      · rcases hok with ⟨h0, _⟩ | ⟨j, z, hj, hr, hz⟩
        · omega
        · exact absurd hz (hno j z hj hr y)
      · refine ⟨y, xd, by rw [ho], ?_, hdl, hok⟩
        rw [ho] at ha
        simpa using ha.symm
      · rw [(C30_loop_ok step N x y').2 (.inr ⟨j, z, hj, hr, hz⟩), Except.ok.injEq] at hl
        rw [hl, hdl, Except.ok.injEq] at hd'
        rw [ho, hl, hd']

/-- C30: the contribution panics exactly if the solver returns an error. -/
theorem C30_panic (p : PcSaftParameters n F) (N : ℕ) (tol : F) (nderiv : ℕ)
    (solveF : Solver p.assoc_comp.length F) (solveD : Solver p.assoc_comp.length D)
    (s : StateHD n D) :
    let r := fun i => hsDiameter p s.temperature i * c 0.5
    let out := (crossAssociationDensity p nderiv solveF solveD s.temperature s.partial_density r
      (assocN2 p.m s.partial_density r)
      (DualNum.recip (-(packingFraction p.m s.partial_density r) + c 1.0)) (c (1.0 : F)) N tol none).1
    (∀ a, out = .ok a → crossAssociation p N tol nderiv solveF solveD s = .ok (a * s.volume))
    ∧ ((∃ e, out = .error e) ↔ crossAssociation p N tol nderiv solveF solveD s = .error .unwrapErr) := by
  intro r out
  have h : crossAssociation p N tol nderiv solveF solveD s = match out with
      | .error _ => .error .unwrapErr
      | .ok a => .ok (a * s.volume) := rfl
  cases ho : out with
  | error e => rw [h, ho]; simp
  | ok a => rw [h, ho]; simp

end density

/-! ## C29, C54: accuracy of the returned energy -/

theorem log_ratio_bound {x y e : ℝ} (hy : 0 < y) (he : e ≤ 1 / 2) (h : |x - y| ≤ e * y) :
    0 < x ∧ |Real.log x - Real.log y| ≤ 2 * e := by
  obtain ⟨h1, h2⟩ := abs_le.1 h
  have hx : 0 < x := by nlinarith
  refine ⟨hx, ?_⟩
  rw [← Real.log_div hx.ne' hy.ne']
  have hq : x / y ≤ 1 + e := by
    rw [div_le_iff₀ hy]; nlinarith
  have hq' : 1 - e ≤ x / y := by
    rw [le_div_iff₀ hy]; nlinarith
  have hpos : 0 < x / y := by positivity
  have he0 : 0 ≤ e := by
    by_contra hn
    push Not at hn
    nlinarith [abs_nonneg (x - y)]
  rw [abs_le]
  constructor
  · have := Real.one_sub_inv_le_log_of_pos hpos
    have h3 : (x / y)⁻¹ ≤ 1 + 2 * e := by
      rw [inv_le_comm₀ hpos (by linarith)]
      refine le_trans ?_ hq'
      rw [inv_le_comm₀ (by linarith) (by linarith), ← one_div, div_le_iff₀ (by linarith)]
      nlinarith
    linarith
  · have := Real.log_le_sub_one_of_pos hpos
    linarith

theorem assocF_diff {x y t : ℝ} (hy : 0 < y) (hy1 : y ≤ 1) (ht : t ≤ 1 / 8)
    (h : |x - y| ≤ 4 * t * y) : |assocF x - assocF y| ≤ 10 * t := by
  obtain ⟨_, hl⟩ := log_ratio_bound hy (by linarith) h
  have ht0 : 0 ≤ t := by
    by_contra hn
    push Not at hn
    nlinarith [abs_nonneg (x - y)]
  rw [assocF_real, assocF_real]
  have e : Real.log x - x / 2 + 1 / 2 - (Real.log y - y / 2 + 1 / 2)
      = (Real.log x - Real.log y) - (x - y) / 2 := by ring
  rw [e]
  obtain ⟨a1, a2⟩ := abs_le.1 hl
  obtain ⟨b1, b2⟩ := abs_le.1 h
  rw [abs_le]
  constructor <;> nlinarith

/-- energy density at exact site fractions, from the mass-action law and the per-site energy -/
noncomputable def specEnergy (na nb rho : Fin k → ℝ) (x : Fin k ⊕ Fin k → ℝ) : ℝ :=
  ∑ i, rho i * (na i * (Real.log (x (.inl i)) - x (.inl i) / 2 + 1 / 2)
    + nb i * (Real.log (x (.inr i)) - x (.inr i) / 2 + 1 / 2))

theorem energyOf_real (p : PcSaftParameters n ℝ) (density : Fin n → ℝ)
    (x : Fin p.assoc_comp.length ⊕ Fin p.assoc_comp.length → ℝ) :
    energyOf p density x = specEnergy (assocNa p) (assocNb p) (assocRho p density) x := by
  simp only [energyOf, specEnergy, sumFin_real, c, ofF_real, assocF_real]
  exact Finset.sum_congr rfl fun i _ => by ring

/-- what is known about the last iterate of a successful run -/
def LastIterate {X : Type} (step : X → Except EosError (X × Bool)) (N : ℕ) (x z : X) : Prop :=
  ∃ j < N, Reach step j x z ∧ ∃ y, step z = .ok (y, true)

theorem Reach.unique {X : Type} {step : X → Except EosError (X × Bool)} {j j' : ℕ} {x z z' y y' : X}
    (h : Reach step j x z) (hz : step z = .ok (y, true)) (h' : Reach step j' x z')
    (hz' : step z' = .ok (y', true)) : z = z' := by
  induction h generalizing j' with
  | start x =>
    cases h' with
    | start => rfl
    | next h1 _ => rw [hz] at h1; simp at h1
  | next h1 _ ih =>
    cases h' with
    | start => rw [hz'] at h1; simp at h1
    | next h2 hr =>
      rw [h1] at h2
      have e := (Prod.mk.inj (Except.ok.inj h2)).1
      subst e
      exact ih hz hr

/-- C29: with a correct solver, a tolerance of at most 1/8 and a positive last iterate, a result of
the cross-association solver is within `10 tol` per site of the energy at the exact solution, and the
returned site fractions are within a relative error of `4 tol` of it, whatever the starting point. -/
theorem C29_accuracy (p : PcSaftParameters n ℝ) (solveF solveD : Solver p.assoc_comp.length ℝ)
    (hs : CorrectSolver solveF) (T : ℝ) (density r : Fin n → ℝ) (n2 n3i xi : ℝ) (N : ℕ) (tol : ℝ)
    (ht : tol ≤ 1 / 8) (hN : 0 < N)
    (x0 : Option (Fin p.assoc_comp.length ⊕ Fin p.assoc_comp.length → ℝ))
    (hcut : (f64EPSILON : ℝ) ≤ ∑ i, density i)
    (hd : ∀ i j, 0 ≤ strengths p T r n2 n3i xi i j) (hna : ∀ i, 0 ≤ p.na i) (hnb : ∀ i, 0 ≤ p.nb i)
    (hrho : ∀ i, 0 ≤ density i) (a : ℝ)
    (hok : (crossAssociationDensity p 0 solveF solveD T density r n2 n3i xi N tol x0).1 = .ok a)
    (hpos : ∀ z, LastIterate (realStep p solveF T density r n2 n3i xi tol) N (x0.getD fun _ => 0.2) z →
      ∀ s, 0 < z s)
    (y : Fin p.assoc_comp.length ⊕ Fin p.assoc_comp.length → ℝ) (hy : ∀ s, 0 < y s)
    (hsol : MassAction (siteMatrix (strengths p T r n2 n3i xi) (assocNa p) (assocNb p)
      (assocRho p density)) y) :
    |a - specEnergy (assocNa p) (assocNb p) (assocRho p density) y|
      ≤ 10 * tol * ∑ i, assocRho p density i * (assocNa p i + assocNb p i)
    ∧ ∀ x', (crossAssociationDensity p 0 solveF solveD T density r n2 n3i xi N tol x0).2 = some x' →
        ∀ s, 0 < x' s ∧ |x' s - y s| ≤ 4 * tol * y s := by
  have hc : F64.lt (DualNum.re (sumFin density)) (f64EPSILON : ℝ) = false := by
    simp only [lt_real, re_real, sumFin_real, decide_eq_false_iff_not, not_lt]
    exact hcut
  obtain ⟨x', xd, h1, h2, h3, h4⟩ := ((C30_outcomes p 0 solveF solveD T density r n2 n3i xi N tol x0).2 hc).2.2.1 a hok
  have hxd : xd = x' := by
    simp only [newtonDual, Except.ok.injEq] at h3
    exact h3.symm
  have hM : ∀ s t, 0 ≤ siteMatrix (strengths p T r n2 n3i xi) (assocNa p) (assocNb p)
      (assocRho p density) s t :=
    siteMatrix_nonneg hd (fun i => hna _) (fun i => hnb _) (fun i => hrho _)
  have hacc : ∀ s, 0 < x' s ∧ |x' s - y s| ≤ 4 * tol * y s := by
    rcases h4 with ⟨h0, _⟩ | ⟨j, z, hj, hr, hz⟩
    · omega
    · exact converged_step hs hM (by linarith) (hpos z ⟨j, hj, hr, _, hz⟩) hz hy hsol
  refine ⟨?_, fun x'' hx'' => ?_⟩
  · rw [h2, energyOf_real, hxd, specEnergy, specEnergy, ← Finset.sum_sub_distrib, Finset.mul_sum]
    refine (Finset.abs_sum_le_sum_abs _ _).trans (Finset.sum_le_sum fun i _ => ?_)
    have dA := assocF_diff (hy (.inl i)) (hsol.le_one hM hy _) ht (hacc (.inl i)).2
    have dB := assocF_diff (hy (.inr i)) (hsol.le_one hM hy _) ht (hacc (.inr i)).2
    rw [assocF_real, assocF_real] at dA dB
    have hρ : 0 ≤ assocRho p density i := hrho _
    have hA : 0 ≤ assocNa p i := hna _
    have hB : 0 ≤ assocNb p i := hnb _
    rw [← mul_sub, abs_mul, abs_of_nonneg hρ]
    calc _ ≤ assocRho p density i * (assocNa p i * (10 * tol) + assocNb p i * (10 * tol)) := by
          apply mul_le_mul_of_nonneg_left _ hρ
          have e : ∀ A B A' B' : ℝ, assocNa p i * A + assocNb p i * B
              - (assocNa p i * A' + assocNb p i * B')
              = assocNa p i * (A - A') + assocNb p i * (B - B') := fun A B A' B' => by ring
          rw [e]
          refine (abs_add_le _ _).trans (add_le_add ?_ ?_)
          · rw [abs_mul, abs_of_nonneg hA]
            exact mul_le_mul_of_nonneg_left dA hA
          · rw [abs_mul, abs_of_nonneg hB]
            exact mul_le_mul_of_nonneg_left dB hB
      _ = _ := by ring
  · rw [h1] at hx''
    cases x0 with
    | none => simp at hx''
    | some x0 =>
      simp only [Option.map_some, Option.some.injEq] at hx''
      rw [← hx'']
      exact hacc

/-- C54: for two starting points (and iteration limits) with positive last iterates the energies
differ by at most `20 tol` per site. -/
theorem C54_guess_independent (p : PcSaftParameters n ℝ) (solveF solveD : Solver p.assoc_comp.length ℝ)
    (hs : CorrectSolver solveF) (T : ℝ) (density r : Fin n → ℝ) (n2 n3i xi : ℝ) (N N' : ℕ) (tol : ℝ)
    (ht : tol ≤ 1 / 8) (hN : 0 < N) (hN' : 0 < N')
    (x0 x0' : Option (Fin p.assoc_comp.length ⊕ Fin p.assoc_comp.length → ℝ))
    (hcut : (f64EPSILON : ℝ) ≤ ∑ i, density i)
    (hd : ∀ i j, 0 ≤ strengths p T r n2 n3i xi i j) (hna : ∀ i, 0 ≤ p.na i) (hnb : ∀ i, 0 ≤ p.nb i)
    (hrho : ∀ i, 0 ≤ density i) (a a' : ℝ)
    (hok : (crossAssociationDensity p 0 solveF solveD T density r n2 n3i xi N tol x0).1 = .ok a)
    (hok' : (crossAssociationDensity p 0 solveF solveD T density r n2 n3i xi N' tol x0').1 = .ok a')
    (hpos : ∀ z, LastIterate (realStep p solveF T density r n2 n3i xi tol) N (x0.getD fun _ => 0.2) z →
      ∀ s, 0 < z s)
    (hpos' : ∀ z, LastIterate (realStep p solveF T density r n2 n3i xi tol) N' (x0'.getD fun _ => 0.2) z →
      ∀ s, 0 < z s) :
    |a - a'| ≤ 20 * tol * ∑ i, assocRho p density i * (assocNa p i + assocNb p i) := by
  have hM : ∀ s t, 0 ≤ siteMatrix (strengths p T r n2 n3i xi) (assocNa p) (assocNb p)
      (assocRho p density) s t :=
    siteMatrix_nonneg hd (fun i => hna _) (fun i => hnb _) (fun i => hrho _)
  obtain ⟨y, hy, hsol⟩ := MassAction.exists hM
  have h1 := (C29_accuracy p solveF solveD hs T density r n2 n3i xi N tol ht hN x0 hcut hd hna hnb hrho a hok
    hpos y hy hsol).1
  have h2 := (C29_accuracy p solveF solveD hs T density r n2 n3i xi N' tol ht hN' x0' hcut hd hna hnb hrho a' hok'
    hpos' y hy hsol).1
  have := abs_sub_le a (specEnergy (assocNa p) (assocNb p) (assocRho p density) y) a'
  rw [abs_sub_comm (specEnergy _ _ _ _) a'] at this
  linarith

/-! ## C26 for cross association -/

/-- C26: the energy of site fractions in (0, 1] is not positive. -/
theorem C26_cross (p : PcSaftParameters n ℝ) (density : Fin n → ℝ) (hna : ∀ i, 0 ≤ p.na i)
    (hnb : ∀ i, 0 ≤ p.nb i) (hrho : ∀ i, 0 ≤ density i)
    (x : Fin p.assoc_comp.length ⊕ Fin p.assoc_comp.length → ℝ) (hx : ∀ s, 0 < x s ∧ x s ≤ 1) :
    energyOf p density x ≤ 0 := by
  rw [energyOf_real, specEnergy]
  refine Finset.sum_nonpos fun i _ => mul_nonpos_of_nonneg_of_nonpos (hrho _) ?_
  have h1 := assocF_nonpos (hx (.inl i)).1 (hx (.inl i)).2
  have h2 := assocF_nonpos (hx (.inr i)).1 (hx (.inr i)).2
  rw [assocF_real] at h1 h2
  exact add_nonpos (mul_nonpos_of_nonneg_of_nonpos (hna _) h1) (mul_nonpos_of_nonneg_of_nonpos (hnb _) h2)

/-! ## C31 -/

/-- C31: for one associating component the solution of the cross-association equations is the pair of
explicit site fractions, and the two implementations define the same energy. -/
theorem C31_one_component (delta na nb rho V : ℝ) (hd : Real.sqrt (f64EPSILON : ℝ) < delta * rho)
    (hna : 0 < na) (hnb : 0 < nb) (x : Fin 1 ⊕ Fin 1 → ℝ) (hx : ∀ s, 0 < x s)
    (h : ∀ s, newtonG (fun _ _ => delta) (fun _ => na) (fun _ => nb) (fun _ => rho) x s = 0) :
    x (.inl 0) = assocSiteFracAB (delta * rho) na nb
    ∧ x (.inr 0) = assocSiteFracAB (delta * rho) nb na
    ∧ specEnergy (fun _ => na) (fun _ => nb) (fun _ => rho) x * V
      = assocSingle (delta * rho) (rho * V) na nb := by
  have hM := (newtonG_zero_iff hx).1 h
  have hAB : MassActionAB (delta * rho) na nb (x (.inl 0)) (x (.inr 0)) := by
    constructor
    · have := hM (.inl 0)
      rw [(siteMatrix_sum _ _ _ _ x 0).1, Fin.sum_univ_one] at this
      linear_combination this
    · have := hM (.inr 0)
      rw [(siteMatrix_sum _ _ _ _ x 0).2, Fin.sum_univ_one] at this
      linear_combination this
  obtain ⟨xb, _, _, _, _, _, h1, h2⟩ := C23_site_fractions hd hna hnb
  obtain ⟨e1, e2⟩ := h2 _ _ (hx _) (hx _) hAB
  refine ⟨e1, by rw [e2, h1], ?_⟩
  rw [C23_energy hd hna hnb (hx _) (hx _) hAB, specEnergy, Fin.sum_univ_one]
  ring

end PcSaft.Props
