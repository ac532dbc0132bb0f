import Verif.Lemmas.RepSmooth
import Mathlib.Analysis.Calculus.Deriv.Prod
import Mathlib.Analysis.Calculus.Deriv.Inv

/-!
# Functions of the inverse volume that vanish to second order
-/

open Filter Topology
open scoped ContDiff

namespace PcSaft
variable {E : Type} [NormedAddCommGroup E] [NormedSpace ℝ E]

/-- an energy per volume as a function of the inverse volume and further variables: analytic where the inverse volume
is zero, and zero there together with its slope -/
structure Dilute (F : ℝ × E → ℝ) (y0 : E) : Prop where
  smooth : ContDiffAt ℝ ω F (0, y0)
  zero : ∀ᶠ y in 𝓝 y0, F (0, y) = 0
  slope : ∀ᶠ y in 𝓝 y0, HasDerivAt (fun u => F (u, y)) 0 0

theorem hasDerivAt_of_mul {g : ℝ → ℝ} (hg : ContinuousAt g 0) (h0 : g 0 = 0) : HasDerivAt (fun u => u * g u) 0 0 := by
  rw [hasDerivAt_iff_tendsto_slope_zero]
  have : Tendsto g (𝓝[≠] 0) (𝓝 0) := by
    have := hg.tendsto.mono_left (nhdsWithin_le_nhds (s := {0}ᶜ))
    rwa [h0] at this
  refine this.congr' ?_
  filter_upwards [self_mem_nhdsWithin] with t (ht : t ≠ 0)
  simp only [zero_add, zero_mul, sub_zero, smul_eq_mul]
  field_simp

theorem Dilute.add {F G : ℝ × E → ℝ} {y0 : E} (hF : Dilute F y0) (hG : Dilute G y0) :
    Dilute (fun x => F x + G x) y0 where
  smooth := hF.smooth.add hG.smooth
  zero := by filter_upwards [hF.zero, hG.zero] with y h1 h2; rw [h1, h2, add_zero]
  slope := by
    filter_upwards [hF.slope, hG.slope] with y h1 h2
    have := h1.add h2
    rw [add_zero] at this
    exact this

theorem dilute_zero {y0 : E} : Dilute (fun _ : ℝ × E => 0) y0 where
  smooth := contDiffAt_const
  zero := .of_forall fun _ => rfl
  slope := .of_forall fun _ => hasDerivAt_const _ _

/-- the usual case: the inverse volume is a factor, and the rest vanishes with it -/
theorem Dilute.of_mul {G : ℝ × E → ℝ} {y0 : E} (h : ContDiffAt ℝ ω G (0, y0)) (h0 : ∀ᶠ y in 𝓝 y0, G (0, y) = 0) :
    Dilute (fun x => x.1 * G x) y0 where
  smooth := contDiffAt_fst.mul h
  zero := .of_forall fun _ => zero_mul _
  slope := by
    have hc : ∀ᶠ x in 𝓝 ((0 : ℝ), y0), ContinuousAt G x :=
      ((h.of_le (m := 1) le_top).eventually (by simp)).mono fun x hx => hx.continuousAt
    have hy : Tendsto (fun y : E => ((0 : ℝ), y)) (𝓝 y0) (𝓝 (0, y0)) := (Continuous.prodMk_right 0).tendsto y0
    filter_upwards [h0, hy.eventually hc] with y h1 h2
    refine hasDerivAt_of_mul (g := fun u => G (u, y)) ?_ h1
    exact ContinuousAt.comp (f := fun u : ℝ => (u, y)) h2 (Continuous.prodMk_left y).continuousAt

variable {F : ℝ × E → ℝ} {y0 : E}

/-- the energy itself vanishes for large volumes -/
theorem Dilute.tendsto (h : Dilute F y0) : Tendsto (fun V : ℝ => V * F (1 / V, y0)) atTop (𝓝 0) := by
  have h1 := h.slope.self_of_nhds
  rw [hasDerivAt_iff_tendsto_slope_zero] at h1
  have h2 : Tendsto (fun V : ℝ => 1 / V) atTop (𝓝[≠] 0) := by
    simp only [one_div]
    exact tendsto_inv_atTop_nhdsGT_zero.mono_right (nhdsWithin_mono _ fun x (hx : 0 < x) => hx.ne')
  refine (h1.comp h2).congr fun V => ?_
  simp [h.zero.self_of_nhds]

/-- the derivative of the energy along a line, with the volume changing in proportion -/
noncomputable def diluteSlope (F : ℝ × E → ℝ) (y0 : E) (v : ℝ) (η : E) (V : ℝ) : ℝ :=
  v * (V * F (1 / V, y0)) - v * fderiv ℝ F (1 / V, y0) (1, 0) + V * fderiv ℝ F (1 / V, y0) (0, η)

theorem Dilute.eventually_differentiable (h : Dilute F y0) :
    ∀ᶠ V : ℝ in atTop, DifferentiableAt ℝ F (1 / V, y0) := by
  have hd : ∀ᶠ x in 𝓝 ((0 : ℝ), y0), DifferentiableAt ℝ F x :=
    ((h.smooth.of_le (m := 1) le_top).eventually (by simp)).mono fun y hy => hy.differentiableAt (by simp)
  have h2 : Tendsto (fun V : ℝ => ((1 / V, y0) : ℝ × E)) atTop (𝓝 (0, y0)) := by
    refine Tendsto.prodMk_nhds ?_ tendsto_const_nhds
    exact tendsto_const_nhds.div_atTop tendsto_id
  exact h2.eventually hd

theorem hasDerivAt_dilute {v V : ℝ} {η : E} (hV : V ≠ 0) (hF : DifferentiableAt ℝ F (1 / V, y0)) :
    HasDerivAt (fun s : ℝ => (V + s * (V * v)) * F (1 / (V + s * (V * v)), y0 + s • η)) (diluteSlope F y0 v η V) 0 := by
  have h1 : HasDerivAt (fun s : ℝ => V + s * (V * v)) (V * v) 0 := by
    simpa using ((hasDerivAt_id (0 : ℝ)).mul_const (V * v)).const_add V
  have h2 : HasDerivAt (fun s : ℝ => 1 / (V + s * (V * v))) (-(v / V)) 0 := by
    have := h1.inv (by simpa using hV)
    simp only [zero_mul, add_zero] at this
    simp only [one_div]
    have e : -(v / V) = -(V * v) / V ^ 2 := by field_simp
    rw [e]
    exact this
  have h3 : HasDerivAt (fun s : ℝ => y0 + s • η) η 0 := by
    simpa using ((hasDerivAt_id (0 : ℝ)).smul_const η).const_add y0
  have hF' : HasFDerivAt F (fderiv ℝ F (1 / V, y0)) (1 / (V + 0 * (V * v)), y0 + (0 : ℝ) • η) := by
    simpa using hF.hasFDerivAt
  have h4 := hF'.comp_hasDerivAt 0 (h2.prodMk h3)
  have h5 := h1.mul h4
  refine h5.congr_deriv ?_
  have e : ((-(v / V), η) : ℝ × E) = (-(v / V)) • ((1 : ℝ), (0 : E)) + (0, η) := by
    ext <;> simp
  simp only [Function.comp_apply, zero_mul, add_zero, zero_smul]
  rw [e, map_add, map_smul]
  unfold diluteSlope
  rw [smul_eq_mul]
  field_simp
  ring

/-- the derivatives of the energy vanish for large volumes as well -/
theorem Dilute.tendsto_slope (h : Dilute F y0) (v : ℝ) (η : E) :
    Tendsto (diluteSlope F y0 v η) atTop (𝓝 0) := by
  have hu : Tendsto (fun V : ℝ => 1 / V) atTop (𝓝[≠] 0) := by
    simp only [one_div]
    exact tendsto_inv_atTop_nhdsGT_zero.mono_right (nhdsWithin_mono _ fun x (hx : 0 < x) => hx.ne')
  have hd : ∀ᶠ x in 𝓝 ((0 : ℝ), y0), DifferentiableAt ℝ F x :=
    ((h.smooth.of_le (m := 1) le_top).eventually (by simp)).mono fun y hy => hy.differentiableAt (by simp)
  have hy : Tendsto (fun y : E => ((0 : ℝ), y)) (𝓝 y0) (𝓝 (0, y0)) := (Continuous.prodMk_right 0).tendsto y0
  have hd2 : DifferentiableAt ℝ (fderiv ℝ F) (0, y0) :=
    (h.smooth.fderiv_right (m := ω) (by simp)).differentiableAt (by simp)
  -- slope in the direction of the inverse volume
  have hs : ∀ᶠ y in 𝓝 y0, fderiv ℝ F (0, y) (1, 0) = 0 := by
    filter_upwards [hy.eventually hd, h.slope] with y h1 h2
    have h3 : HasDerivAt (fun u : ℝ => (u, y)) ((1 : ℝ), (0 : E)) 0 := (hasDerivAt_id 0).prodMk (hasDerivAt_const _ _)
    exact (HasFDerivAt.comp_hasDerivAt (0 : ℝ) (f := fun u : ℝ => (u, y)) h1.hasFDerivAt h3).unique h2
  have t2 : Tendsto (fun V : ℝ => fderiv ℝ F (1 / V, y0) (1, 0)) atTop (𝓝 0) := by
    have hc : ContinuousAt (fun u : ℝ => fderiv ℝ F (u, y0) (1, 0)) 0 := by
      have := hd2.continuousAt
      exact (ContinuousAt.comp (f := fun u : ℝ => (u, y0)) this (Continuous.prodMk_left y0).continuousAt).clm_apply
        continuousAt_const
    have := hc.tendsto.comp (hu.mono_right nhdsWithin_le_nhds)
    rwa [hs.self_of_nhds] at this
  -- slopes in the other directions
  have h0 : fderiv ℝ F (0, y0) (0, η) = 0 := by
    have h1 : HasDerivAt (fun s : ℝ => ((0 : ℝ), y0 + s • η)) ((0 : ℝ), η) 0 := by
      refine (hasDerivAt_const _ _).prodMk ?_
      simpa using ((hasDerivAt_id (0 : ℝ)).smul_const η).const_add y0
    have hF' : HasFDerivAt F (fderiv ℝ F (0, y0)) (0, y0 + (0 : ℝ) • η) := by
      simpa using hd.self_of_nhds.hasFDerivAt
    have h2 := hF'.comp_hasDerivAt 0 h1
    have hl : Tendsto (fun s : ℝ => y0 + s • η) (𝓝 0) (𝓝 y0) := by
      have : Continuous fun s : ℝ => y0 + s • η := by fun_prop
      simpa using this.tendsto 0
    have h3 : (F ∘ fun s : ℝ => ((0 : ℝ), y0 + s • η)) =ᶠ[𝓝 0] fun _ => 0 := hl.eventually h.zero
    exact h2.unique ((hasDerivAt_const (0 : ℝ) (0 : ℝ)).congr_of_eventuallyEq h3)
  have h2nd : fderiv ℝ (fderiv ℝ F) (0, y0) (1, 0) (0, η) = 0 := by
    rw [second_symm h.smooth]
    have h3 : HasFDerivAt (fun x => fderiv ℝ F x (1, 0)) ((fderiv ℝ (fderiv ℝ F) (0, y0)).flip (1, 0)) (0, y0) :=
      (hd2.hasFDerivAt.clm_apply (hasFDerivAt_const ((1 : ℝ), (0 : E)) _)).congr_fderiv (by ext <;> simp)
    have h1 := hasDerivAt_line (u := ((0 : ℝ), η)) h3.differentiableAt
    rw [h3.fderiv] at h1
    have hl : Tendsto (fun s : ℝ => y0 + s • η) (𝓝 0) (𝓝 y0) := by
      have : Continuous fun s : ℝ => y0 + s • η := by fun_prop
      simpa using this.tendsto 0
    have h4 : (fun s : ℝ => fderiv ℝ F (((0 : ℝ), y0) + s • ((0 : ℝ), η)) (1, 0)) =ᶠ[𝓝 0] fun _ => 0 := by
      filter_upwards [hl.eventually hs] with s hs
      simpa using hs
    exact h1.unique ((hasDerivAt_const (0 : ℝ) (0 : ℝ)).congr_of_eventuallyEq h4)
  have t3 : Tendsto (fun V : ℝ => V * fderiv ℝ F (1 / V, y0) (0, η)) atTop (𝓝 0) := by
    have h3 : HasFDerivAt (fun x => fderiv ℝ F x (0, η)) ((fderiv ℝ (fderiv ℝ F) (0, y0)).flip (0, η)) (0, y0) :=
      (hd2.hasFDerivAt.clm_apply (hasFDerivAt_const ((0 : ℝ), η) _)).congr_fderiv (by ext <;> simp)
    have h1 : HasDerivAt (fun u : ℝ => (u, y0)) ((1 : ℝ), (0 : E)) 0 := (hasDerivAt_id 0).prodMk (hasDerivAt_const _ _)
    have h2 := HasFDerivAt.comp_hasDerivAt (0 : ℝ) (f := fun u : ℝ => (u, y0)) h3 h1
    have e : ((fderiv ℝ (fderiv ℝ F) (0, y0)).flip (0, η)) (1, 0) = 0 := h2nd
    rw [e, hasDerivAt_iff_tendsto_slope_zero] at h2
    refine (h2.comp hu).congr fun V => ?_
    simp [h0]
  have := ((h.tendsto.const_mul v).sub (t2.const_mul v)).add t3
  simp only [mul_zero, sub_zero, add_zero] at this
  exact this

end PcSaft
