import Verif.Lemmas.RepEos
import Mathlib.Analysis.Calculus.ContDiff.Operations
import Mathlib.Analysis.Calculus.FDeriv.Symmetric
import Mathlib.Analysis.SpecialFunctions.Sqrt
import Mathlib.Analysis.SpecialFunctions.Log.Deriv
import Mathlib.Analysis.SpecialFunctions.ExpDeriv

/-!
# Real numbers that represent values of analytic functions
-/

open Filter Topology
open scoped ContDiff

namespace PcSaft
variable {E : Type} [NormedAddCommGroup E] [NormedSpace ℝ E]

/-- a real number represents the value of a function that is analytic at the point -/
noncomputable def repSmooth (x0 : E) : Rep x0 Same ℝ where
  R f d := ContDiffAt ℝ ω f x0 ∧ d = f x0
  continuousAt h := h.1.continuousAt
  congr := fun {f g d} h e => ⟨h.1.congr_of_eventuallyEq e.symm, by rw [h.2, e.eq_of_nhds]⟩
  constRel h := ⟨contDiffAt_const, h⟩
  add h h' := ⟨h.1.add h'.1, by rw [h.2, h'.2]⟩
  sub h h' := ⟨h.1.sub h'.1, by rw [h.2, h'.2]⟩
  mul h h' := ⟨h.1.mul h'.1, by rw [h.2, h'.2]⟩
  neg h := ⟨h.1.neg, by rw [h.2]⟩
  div h h' hne := ⟨h.1.div h'.1 hne, by rw [h.2, h'.2]⟩
  recip h hne := ⟨h.1.inv hne, by rw [h.2, recip_real]⟩
  powi h k := ⟨h.1.pow k, by rw [h.2, dpowi_real]⟩
  sqrt h hp := ⟨h.1.sqrt hp.ne', by rw [h.2, dsqrt_real]⟩
  ln h hp := ⟨h.1.log hp.ne', by rw [h.2, dln_real]⟩
  exp h := ⟨h.1.exp, by rw [h.2, dexp_real]⟩
  expm1 h := ⟨h.1.exp.sub contDiffAt_const, by rw [h.2, dexpm1_real]⟩
  ln1p h hp := ⟨(contDiffAt_const.add h.1).log hp.ne', by rw [h.2, dln1p_real]⟩
  re h := h.2
  sharp _ := fun h h' => by rw [h, h', lt_real]

/-- derivative along a straight line -/
theorem hasDerivAt_line {f : E → ℝ} {x u : E} (h : DifferentiableAt ℝ f x) :
    HasDerivAt (fun t : ℝ => f (x + t • u)) (fderiv ℝ f x u) 0 := by
  have h1 : HasDerivAt (fun t : ℝ => x + t • u) u 0 := by
    simpa using ((hasDerivAt_id (0 : ℝ)).smul_const u).const_add x
  have h2 : HasFDerivAt f (fderiv ℝ f x) (x + (0 : ℝ) • u) := by simpa using h.hasFDerivAt
  exact h2.comp_hasDerivAt 0 h1

/-- mixed second derivative along two straight lines -/
theorem deriv_deriv_line {f : E → ℝ} {x : E} (h : ContDiffAt ℝ ω f x) (u w : E) :
    deriv (fun s : ℝ => deriv (fun t : ℝ => f (x + s • u + t • w)) 0) 0 = fderiv ℝ (fderiv ℝ f) x u w := by
  have hd : ∀ᶠ y in 𝓝 x, DifferentiableAt ℝ f y :=
    ((h.of_le (m := 1) le_top).eventually (by simp)).mono fun y hy => hy.differentiableAt (by simp)
  have hline : Tendsto (fun s : ℝ => x + s • u) (𝓝 0) (𝓝 x) := by
    have : Continuous fun s : ℝ => x + s • u := by fun_prop
    simpa using this.tendsto 0
  have e : (fun s : ℝ => deriv (fun t : ℝ => f (x + s • u + t • w)) 0) =ᶠ[𝓝 0] fun s => fderiv ℝ f (x + s • u) w :=
    (hline.eventually hd).mono fun s hs => (hasDerivAt_line hs).deriv
  rw [e.deriv_eq]
  have hd2 : DifferentiableAt ℝ (fderiv ℝ f) x :=
    (h.fderiv_right (m := ω) (by simp)).differentiableAt (by simp)
  have h3 : HasFDerivAt (fun y => fderiv ℝ f y w) ((fderiv ℝ (fderiv ℝ f) x).flip w) x :=
    (hd2.hasFDerivAt.clm_apply (hasFDerivAt_const w x)).congr_fderiv (by ext; simp)
  have := hasDerivAt_line (u := u) h3.differentiableAt
  rw [this.deriv, h3.fderiv]
  rfl

/-- the order of differentiation does not matter -/
theorem second_symm {f : E → ℝ} {x : E} (h : ContDiffAt ℝ ω f x) (u w : E) :
    fderiv ℝ (fderiv ℝ f) x u w = fderiv ℝ (fderiv ℝ f) x w u :=
  h.isSymmSndFDerivAt (by simp) u w

end PcSaft
