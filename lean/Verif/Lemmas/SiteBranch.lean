import Verif.Lemmas.MassAction
import Mathlib.Analysis.Calculus.ImplicitContDiff
import Mathlib.Analysis.Calculus.ContDiff.Operations
import Mathlib.Analysis.Calculus.Deriv.Prod
import Mathlib.Analysis.Normed.Module.FiniteDimension

/-!
# The solution of the mass-action equations depends smoothly on the matrix

The implicit function theorem at a positive solution.
-/

open Filter Topology
open scoped ContDiff

namespace PcSaft
open Spec
variable {ι : Type} [Fintype ι]

/-- the left-hand sides of the mass-action equations -/
def siteResidual (u : (ι × ι → ℝ) × (ι → ℝ)) (s : ι) : ℝ := u.2 s * (1 + ∑ t, u.1 (s, t) * u.2 t)

theorem siteResidual_contDiff : ContDiff ℝ ∞ (siteResidual (ι := ι)) := by
  refine contDiff_pi.mpr fun s => ?_
  unfold siteResidual
  have h1 : ∀ st : ι × ι, ContDiff ℝ ∞ (fun u : (ι × ι → ℝ) × (ι → ℝ) => u.1 st) := fun st =>
    (contDiff_apply ℝ ℝ st).comp contDiff_fst
  have h2 : ∀ t : ι, ContDiff ℝ ∞ (fun u : (ι × ι → ℝ) × (ι → ℝ) => u.2 t) := fun t =>
    (contDiff_apply ℝ ℝ t).comp contDiff_snd
  exact (h2 s).mul (contDiff_const.add (ContDiff.sum fun t _ => (h1 (s, t)).mul (h2 t)))

theorem siteResidual_fderiv (M : ι × ι → ℝ) (x v : ι → ℝ) (s : ι) :
    fderiv ℝ siteResidual (M, x) (0, v) s = (1 + ∑ t, M (s, t) * x t) * v s + x s * ∑ t, M (s, t) * v t := by
  have hF : HasFDerivAt (siteResidual (ι := ι)) (fderiv ℝ siteResidual (M, x)) (M, x) :=
    (siteResidual_contDiff.differentiable (by simp)).differentiableAt.hasFDerivAt
  have hl : HasDerivAt (fun t : ℝ => ((M, x) : (ι × ι → ℝ) × (ι → ℝ)) + t • ((0, v) : (ι × ι → ℝ) × (ι → ℝ)))
      ((0, v) : (ι × ι → ℝ) × (ι → ℝ)) 0 := by
    simpa using ((hasDerivAt_id (0 : ℝ)).smul_const ((0, v) : (ι × ι → ℝ) × (ι → ℝ))).const_add (M, x)
  have e0 : ((M, x) : (ι × ι → ℝ) × (ι → ℝ)) + (0 : ℝ) • ((0, v) : (ι × ι → ℝ) × (ι → ℝ)) = (M, x) := by
    rw [zero_smul, add_zero]
  have h1 := HasFDerivAt.comp_hasDerivAt (0 : ℝ) (e0.symm ▸ hF) hl
  have h2 := hasDerivAt_pi.mp h1 s
  have h3 : HasDerivAt (fun t : ℝ => (x s + t * v s) * (1 + ∑ j, M (s, j) * (x j + t * v j)))
      ((1 + ∑ t, M (s, t) * x t) * v s + x s * ∑ t, M (s, t) * v t) 0 := by
    have a : HasDerivAt (fun t : ℝ => x s + t * v s) (v s) 0 := by
      simpa using ((hasDerivAt_id (0 : ℝ)).mul_const (v s)).const_add (x s)
    have b : HasDerivAt (fun t : ℝ => 1 + ∑ j, M (s, j) * (x j + t * v j)) (∑ j, M (s, j) * v j) 0 := by
      refine HasDerivAt.const_add 1 ?_
      refine HasDerivAt.fun_sum fun j _ => ?_
      simpa using (((hasDerivAt_id (0 : ℝ)).mul_const (v j)).const_add (x j)).const_mul (M (s, j))
    have := a.mul b
    simp only [zero_mul, add_zero] at this
    rw [mul_comm]
    exact this
  rw [e0] at h2
  refine h2.unique ?_
  refine h3.congr_of_eventuallyEq (.of_forall fun t => ?_)
  simp [siteResidual]

/-- Near a positive solution for a non-negative matrix, the solutions are the graph of a smooth function of the
matrix. -/
theorem solution_branch {M : ι → ι → ℝ} (hM : ∀ s t, 0 ≤ M s t) {x : ι → ℝ} (hx : ∀ s, 0 < x s)
    (h : MassAction M x) :
    ∃ φ : (ι × ι → ℝ) → ι → ℝ, ContDiffAt ℝ ∞ φ (fun st => M st.1 st.2) ∧ φ (fun st => M st.1 st.2) = x
      ∧ ∀ᶠ u in 𝓝 ((fun st => M st.1 st.2 : ι × ι → ℝ), x),
        MassAction (fun s t => u.1 (s, t)) u.2 ↔ φ u.1 = u.2 := by
  classical
  set u0 : (ι × ι → ℝ) × (ι → ℝ) := (fun st => M st.1 st.2, x) with hu0
  have cd : ContDiffAt ℝ ∞ (siteResidual (ι := ι)) u0 := siteResidual_contDiff.contDiffAt
  have h1 : siteResidual u0 = fun _ => (1 : ℝ) := funext fun s => h s
  have hinj : Function.Injective (fderiv ℝ siteResidual u0 ∘L .inr ℝ (ι × ι → ℝ) (ι → ℝ)) := by
    refine (injective_iff_map_eq_zero _).mpr fun v hv => ?_
    have := newton_step_bound hM hx (v := v) (g := 0) (t := 0) (by simp) (fun s => by
      have h2 := congrFun hv s
      simp only [ContinuousLinearMap.comp_apply, ContinuousLinearMap.inr_apply, hu0, siteResidual_fderiv,
        Pi.zero_apply] at h2
      have hxs := (hx s).ne'
      have : ∀ a b d e : ℝ, d ≠ 0 → a * e + d * b = 0 → a / d * e + b = 0 := by
        intro a b d e hd h
        field_simp
        linarith
      exact this _ _ _ _ hxs h2)
    funext s
    have := this s
    rw [zero_mul] at this
    exact abs_nonpos_iff.1 this
  have hinv : (fderiv ℝ siteResidual u0 ∘L .inr ℝ (ι × ι → ℝ) (ι → ℝ)).IsInvertible := by
    refine ⟨(LinearEquiv.ofInjectiveEndo
      (fderiv ℝ siteResidual u0 ∘L .inr ℝ (ι × ι → ℝ) (ι → ℝ)).toLinearMap hinj).toContinuousLinearEquiv, ?_⟩
    ext1 v
    rfl
  refine ⟨cd.implicitFunction (by simp) hinv, cd.contDiffAt_implicitFunction (by simp) hinv,
    cd.implicitFunction_apply_self (by simp) hinv, ?_⟩
  filter_upwards [cd.eventually_apply_eq_iff_implicitFunction (by simp) hinv] with u hu
  rw [← hu, h1]
  exact ⟨fun h => funext h, fun h s => congrFun h s⟩

end PcSaft
