import Verif.Lemmas.DiluteCalculus
import Mathlib.Analysis.Calculus.LHopital

/-!
# Second-order terms in the limit of low density
-/

open Filter Topology
open scoped ContDiff

namespace PcSaft

/-- a function that vanishes to second order, over the squared argument -/
theorem second_order_limit {f f' : ℝ → ℝ} {s : ℝ} (hf : ∀ᶠ u in 𝓝 (0 : ℝ), HasDerivAt f (f' u) u) (h0 : f 0 = 0)
    (h1 : f' 0 = 0) (h2 : HasDerivAt f' s 0) : Tendsto (fun u => f u / u ^ 2) (𝓝[≠] 0) (𝓝 (s / 2)) := by
  refine HasDerivAt.lhopital_zero_nhdsNE (f' := f') (g' := fun u => 2 * u) (hf.filter_mono nhdsWithin_le_nhds)
    (.of_forall fun u => by simpa using hasDerivAt_pow 2 u) ?_ ?_ ?_ ?_
  · filter_upwards [self_mem_nhdsWithin] with u (hu : u ≠ 0)
    exact mul_ne_zero two_ne_zero hu
  · have := hf.self_of_nhds.continuousAt.tendsto
    rw [h0] at this
    exact this.mono_left nhdsWithin_le_nhds
  · have : ContinuousAt (fun u : ℝ => u ^ 2) 0 := by fun_prop
    have := this.tendsto
    rw [zero_pow two_ne_zero] at this
    exact this.mono_left nhdsWithin_le_nhds
  · have h3 := hasDerivAt_iff_tendsto_slope_zero.1 h2
    have h4 := h3.div_const 2
    refine h4.congr fun u => ?_
    simp only [zero_add, h1, sub_zero, smul_eq_mul]
    rw [inv_mul_eq_div, div_div, mul_comm u]

variable {E : Type} [NormedAddCommGroup E] [NormedSpace ℝ E]

/-- the leading terms of the energy and of the slope for large volumes -/
theorem Dilute.second {F : ℝ × E → ℝ} {y0 : E} (h : Dilute F y0) :
    ∃ s, Tendsto (fun u => F (u, y0) / u ^ 2) (𝓝[≠] 0) (𝓝 (s / 2))
      ∧ Tendsto (fun V : ℝ => V * fderiv ℝ F (1 / V, y0) (1, 0)) atTop (𝓝 s) := by
  have hd : ∀ᶠ x in 𝓝 ((0 : ℝ), y0), DifferentiableAt ℝ F x :=
    ((h.smooth.of_le (m := 1) le_top).eventually (by simp)).mono fun y hy => hy.differentiableAt (by simp)
  have hline : ∀ u : ℝ, HasDerivAt (fun u : ℝ => (u, y0)) ((1 : ℝ), (0 : E)) u := fun u =>
    (hasDerivAt_id u).prodMk (hasDerivAt_const _ _)
  have hu : Tendsto (fun u : ℝ => (u, y0)) (𝓝 0) (𝓝 (0, y0)) := (Continuous.prodMk_left y0).tendsto 0
  have hf : ∀ᶠ u in 𝓝 (0 : ℝ), HasDerivAt (fun u => F (u, y0)) (fderiv ℝ F (u, y0) (1, 0)) u := by
    filter_upwards [hu.eventually hd] with u h1
    exact HasFDerivAt.comp_hasDerivAt u (f := fun u : ℝ => (u, y0)) h1.hasFDerivAt (hline u)
  have h1 : fderiv ℝ F (0, y0) (1, 0) = 0 := hf.self_of_nhds.unique h.slope.self_of_nhds
  have hd2 : DifferentiableAt ℝ (fderiv ℝ F) (0, y0) :=
    (h.smooth.fderiv_right (m := ω) (by simp)).differentiableAt (by simp)
  have h3 : HasFDerivAt (fun x => fderiv ℝ F x (1, 0)) ((fderiv ℝ (fderiv ℝ F) (0, y0)).flip (1, 0)) (0, y0) :=
    (hd2.hasFDerivAt.clm_apply (hasFDerivAt_const ((1 : ℝ), (0 : E)) _)).congr_fderiv (by ext <;> simp)
  have h2 : HasDerivAt (fun u : ℝ => fderiv ℝ F (u, y0) (1, 0)) (fderiv ℝ (fderiv ℝ F) (0, y0) (1, 0) (1, 0)) 0 :=
    HasFDerivAt.comp_hasDerivAt (0 : ℝ) (f := fun u : ℝ => (u, y0)) h3 (hline 0)
  refine ⟨_, second_order_limit hf h.zero.self_of_nhds h1 h2, ?_⟩
  have h4 := hasDerivAt_iff_tendsto_slope_zero.1 h2
  have hv : Tendsto (fun V : ℝ => 1 / V) atTop (𝓝[≠] 0) := by
    simp only [one_div]
    exact tendsto_inv_atTop_nhdsGT_zero.mono_right (nhdsWithin_mono _ fun x (hx : 0 < x) => hx.ne')
  refine (h4.comp hv).congr fun V => ?_
  simp [h1]

end PcSaft
