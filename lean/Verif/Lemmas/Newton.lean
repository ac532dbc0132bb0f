import Verif.Lemmas.MassAction
import Verif.Model.Association
import Mathlib.LinearAlgebra.Matrix.NonsingularInverse
import Mathlib.LinearAlgebra.Matrix.ToLinearEquiv

/-!
# The Newton iteration of cross association over the reals
-/

namespace PcSaft
open Spec

/-- A solver that meets `CorrectSolver`: multiply with the inverse matrix. -/
noncomputable def exactSolver {ι : Type*} [Fintype ι] [DecidableEq ι]
    (h : ι → ι → ℝ) (g : ι → ℝ) : Option (ι → ℝ) :=
  if (Matrix.of h).det ≠ 0 then some ((Matrix.of h)⁻¹.mulVec g) else none

theorem exactSolver_correct {ι : Type*} [Fintype ι] [DecidableEq ι] :
    CorrectSolver (exactSolver (ι := ι)) where
  solves := by
    intro h g y hy s
    unfold exactSolver at hy
    split at hy
    · rename_i hdet
      have hy : (Matrix.of h)⁻¹.mulVec g = y := by simpa using hy
      have : (Matrix.of h).mulVec y = g := by
        rw [← hy, Matrix.mulVec_mulVec, Matrix.mul_nonsing_inv _ (isUnit_iff_ne_zero.2 hdet),
          Matrix.one_mulVec]
      have := congrFun this s
      simpa [Matrix.mulVec, dotProduct] using this
    · simp at hy
  total := by
    intro h g hv
    unfold exactSolver
    have : (Matrix.of h).det ≠ 0 := by
      intro h0
      obtain ⟨v, hv0, hv1⟩ := Matrix.exists_mulVec_eq_zero_iff.2 h0
      exact hv0 (hv v (fun s => by
        have := congrFun hv1 s
        simpa [Matrix.mulVec, dotProduct] using this))
    simp [this]

variable {k : ℕ}

theorem siteMatrix_nonneg {delta : Fin k → Fin k → ℝ} {na nb rho : Fin k → ℝ}
    (hd : ∀ i j, 0 ≤ delta i j) (hna : ∀ i, 0 ≤ na i) (hnb : ∀ i, 0 ≤ nb i)
    (hrho : ∀ i, 0 ≤ rho i) : ∀ s t, 0 ≤ siteMatrix delta na nb rho s t := by
  rintro (i | i) (j | j)
  · exact le_rfl
  · exact mul_nonneg (hd i j) (mul_nonneg (hrho j) (hnb j))
  · exact mul_nonneg (hd i j) (mul_nonneg (hrho j) (hna j))
  · exact le_rfl

theorem siteMatrix_sum (delta : Fin k → Fin k → ℝ) (na nb rho : Fin k → ℝ)
    (x : Fin k ⊕ Fin k → ℝ) (i : Fin k) :
    ∑ t, siteMatrix delta na nb rho (.inl i) t * x t
      = ∑ j, delta i j * (rho j * nb j) * x (.inr j) ∧
    ∑ t, siteMatrix delta na nb rho (.inr i) t * x t
      = ∑ j, delta i j * (rho j * na j) * x (.inl j) := by
  constructor <;> rw [Fintype.sum_sum_type] <;> simp [siteMatrix]

theorem dnx_real (delta : Fin k → Fin k → ℝ) (rho nn x : Fin k → ℝ) (i : Fin k) :
    dnx delta rho nn x i = 1 + ∑ j, delta i j * (rho j * nn j) * x j := by
  have h1 : (1.0 : ℝ) = 1 := by norm_num
  simp only [dnx, sumFin_real, c, ofF_real, h1]
  rw [add_comm]
  congr 1
  exact Finset.sum_congr rfl fun j _ => by ring

theorem newtonG_real (delta : Fin k → Fin k → ℝ) (na nb rho : Fin k → ℝ)
    (x : Fin k ⊕ Fin k → ℝ) (s : Fin k ⊕ Fin k) :
    newtonG delta na nb rho x s
      = (x s)⁻¹ - (1 + ∑ t, siteMatrix delta na nb rho s t * x t) := by
  rcases s with i | i
  · rw [(siteMatrix_sum delta na nb rho x i).1]
    simp only [newtonG, dnx_real, recip_real]
  · rw [(siteMatrix_sum delta na nb rho x i).2]
    simp only [newtonG, dnx_real, recip_real]

theorem newtonH_real (delta : Fin k → Fin k → ℝ) (na nb rho : Fin k → ℝ)
    (x v : Fin k ⊕ Fin k → ℝ) (s : Fin k ⊕ Fin k) :
    ∑ t, newtonH delta na nb rho x s t * v t
      = -((1 + ∑ t, siteMatrix delta na nb rho s t * x t) / x s * v s
        + ∑ t, siteMatrix delta na nb rho s t * v t) := by
  have h0 : (0.0 : ℝ) = 0 := by norm_num
  rcases s with i | i
  · rw [(siteMatrix_sum delta na nb rho x i).1, (siteMatrix_sum delta na nb rho v i).1,
      Fintype.sum_sum_type]
    simp only [newtonH, dnx_real, c, ofF_real, h0, ite_mul, zero_mul, Finset.sum_ite_eq,
      Finset.mem_univ, if_true]
    have e : ∑ j, delta i j * rho j * -nb j * v (.inr j)
        = -∑ j, delta i j * (rho j * nb j) * v (.inr j) := by
      rw [← Finset.sum_neg_distrib]
      exact Finset.sum_congr rfl fun j _ => by ring
    rw [e]
    ring
  · rw [(siteMatrix_sum delta na nb rho x i).2, (siteMatrix_sum delta na nb rho v i).2,
      Fintype.sum_sum_type]
    simp only [newtonH, dnx_real, c, ofF_real, h0, ite_mul, zero_mul, Finset.sum_ite_eq,
      Finset.mem_univ, if_true]
    have e : ∑ j, delta i j * rho j * -na j * v (.inl j)
        = -∑ j, delta i j * (rho j * na j) * v (.inl j) := by
      rw [← Finset.sum_neg_distrib]
      exact Finset.sum_congr rfl fun j _ => by ring
    rw [e]
    ring

theorem normRe_real (g : Fin k ⊕ Fin k → ℝ) : normRe g = Real.sqrt (∑ s, g s * g s) := by
  simp only [normRe, sqrt_real, sumFin_real, re_real, Fintype.sum_sum_type]

theorem abs_le_normRe (g : Fin k ⊕ Fin k → ℝ) (s : Fin k ⊕ Fin k) : |g s| ≤ normRe g := by
  rw [normRe_real]
  apply Real.abs_le_sqrt
  rw [pow_two]
  exact Finset.single_le_sum (f := fun s => g s * g s) (fun s _ => mul_self_nonneg _)
    (Finset.mem_univ s)

/-- The Newton matrix is non-singular at positive iterates. -/
theorem newtonH_injective {delta : Fin k → Fin k → ℝ} {na nb rho : Fin k → ℝ}
    (hM : ∀ s t, 0 ≤ siteMatrix delta na nb rho s t) {x : Fin k ⊕ Fin k → ℝ} (hx : ∀ s, 0 < x s)
    (v : Fin k ⊕ Fin k → ℝ) (hv : ∀ s, ∑ t, newtonH delta na nb rho x s t * v t = 0) : v = 0 := by
  have := newton_step_bound hM hx (v := v) (g := 0) (t := 0) (by simp) (fun s => by
    have := hv s
    rw [newtonH_real] at this
    exact neg_eq_zero.1 this)
  funext s
  have := this s
  rw [zero_mul] at this
  exact abs_nonpos_iff.1 this

/-- What a step computes, for a correct solver. -/
theorem newtonStep_ok {solve : Solver k ℝ} (hs : CorrectSolver solve)
    {delta : Fin k → Fin k → ℝ} {na nb rho : Fin k → ℝ} {tol : ℝ} {x x' : Fin k ⊕ Fin k → ℝ}
    {b : Bool} (h : newtonStep solve delta na nb rho tol x = .ok (x', b)) :
    (∀ s, (1 + ∑ t, siteMatrix delta na nb rho s t * x t) / x s * (x' s - x s)
        + ∑ t, siteMatrix delta na nb rho s t * (x' t - x t)
      = (x s)⁻¹ - (1 + ∑ t, siteMatrix delta na nb rho s t * x t)) ∧
    b = decide (normRe (newtonG delta na nb rho x) < tol) := by
  unfold newtonStep at h
  dsimp only at h
  split at h
  · simp at h
  · rename_i y hy
    simp only [Except.ok.injEq, Prod.mk.injEq, lt_real] at h
    obtain ⟨h1, h2⟩ := h
    refine ⟨fun s => ?_, h2.symm⟩
    have hsol := hs.solves _ _ _ hy s
    rw [newtonH_real, newtonG_real] at hsol
    rw [← hsol]
    have e : ∀ t, x' t - x t = - y t := fun t => by rw [← h1]; ring
    simp only [e, mul_neg, Finset.sum_neg_distrib]
    ring

end PcSaft
