import Verif.Lemmas.VirialLimit
import Verif.Lemmas.Rep

/-!
# Third-order terms in the limit of low density
-/

open Filter Topology
open scoped ContDiff

namespace PcSaft

/-- the first terms of the Taylor series -/
theorem third_order_limit {f f₁ f₂ : ℝ → ℝ} {s : ℝ} (h1 : ∀ᶠ u in 𝓝 (0 : ℝ), HasDerivAt f (f₁ u) u)
    (h2 : ∀ᶠ u in 𝓝 (0 : ℝ), HasDerivAt f₁ (f₂ u) u) (h3 : HasDerivAt f₂ s 0) :
    Tendsto (fun u => (f u - (f 0 + f₁ 0 * u + f₂ 0 / 2 * u ^ 2)) / u ^ 3) (𝓝[≠] 0) (𝓝 (s / 6))
      ∧ Tendsto (fun u => (f₁ u - (f₁ 0 + f₂ 0 * u)) / u ^ 2) (𝓝[≠] 0) (𝓝 (s / 2)) := by
  have hlin : ∀ a b u : ℝ, HasDerivAt (fun u : ℝ => a + b * u) b u := fun a b u => by
    simpa using ((hasDerivAt_id u).const_mul b).const_add a
  have hsq : ∀ a b d u : ℝ, HasDerivAt (fun u : ℝ => a + b * u + d / 2 * u ^ 2) (b + d * u) u := fun a b d u => by
    have := (hlin a b u).fun_add ((hasDerivAt_pow 2 u).const_mul (d / 2))
    refine this.congr_deriv ?_
    push_cast
    ring
  have hd2 : Tendsto (fun u => (f₁ u - (f₁ 0 + f₂ 0 * u)) / u ^ 2) (𝓝[≠] 0) (𝓝 (s / 2)) := by
    refine second_order_limit (f' := fun u => f₂ u - f₂ 0) ?_ (by simp) (by simp) (h3.sub_const _)
    filter_upwards [h2] with u hu
    exact hu.fun_sub (hlin _ _ u)
  refine ⟨?_, hd2⟩
  refine HasDerivAt.lhopital_zero_nhdsNE (f' := fun u => f₁ u - (f₁ 0 + f₂ 0 * u)) (g' := fun u => 3 * u ^ 2) ?_
    (.of_forall fun u => by simpa using hasDerivAt_pow 3 u) ?_ ?_ ?_ ?_
  · filter_upwards [h1.filter_mono nhdsWithin_le_nhds] with u hu
    exact hu.fun_sub (hsq _ _ _ u)
  · filter_upwards [self_mem_nhdsWithin] with u (hu : u ≠ 0)
    exact mul_ne_zero three_ne_zero (pow_ne_zero 2 hu)
  · have hc : ContinuousAt (fun u => f u - (f 0 + f₁ 0 * u + f₂ 0 / 2 * u ^ 2)) 0 :=
      h1.self_of_nhds.continuousAt.sub (by fun_prop)
    have := hc.tendsto
    simp only [mul_zero, add_zero, zero_pow two_ne_zero, sub_self] at this
    exact this.mono_left nhdsWithin_le_nhds
  · have : ContinuousAt (fun u : ℝ => u ^ 3) 0 := by fun_prop
    have := this.tendsto
    rw [zero_pow three_ne_zero] at this
    exact this.mono_left nhdsWithin_le_nhds
  · have := hd2.div_const 3
    have e : s / 2 / 3 = s / 6 := by ring
    rw [e] at this
    refine this.congr fun u => ?_
    rw [div_div, mul_comm (u ^ 2)]

/-- a dual number that represents a function of a sum represents the derivative in the same way -/
theorem DualR.sum_step {F D X : Type} [F64 F] [DualNum F D] [TopologicalSpace X] {x0 : X} {emb : ℝ → F → Prop}
    {ρ : Rep x0 emb D} {A : ℝ → ℝ} {d : Dual D} (S : X → ℝ) (hS : ContinuousAt S x0) (h0 : S x0 = 0) (l : ℝ → X)
    (hl : ContinuousAt l 0) (hl0 : l 0 = x0) (hSl : ∀ t, S (l t) = t) (h : DualR ρ 0 (fun y => A (S y.1 + y.2)) d) :
    ∃ A' : ℝ → ℝ, (∀ᶠ t in 𝓝 (0 : ℝ), HasDerivAt A (A' t) t) ∧ ρ.R (fun x => A (S x)) d.re
      ∧ ρ.R (fun x => A' (S x)) d.eps := by
  obtain ⟨_, h1, A', h2, h3⟩ := h
  have hd : ∀ᶠ x in 𝓝 x0, HasDerivAt A (A' x) (S x) := by
    filter_upwards [h2] with x hx
    have h8 : HasDerivAt (fun s : ℝ => A (S x + s)) (A' x) (S x - S x) := by rwa [sub_self]
    have h9 := h8.comp_sub_const (S x) (S x)
    simpa using h9
  have hl' : Tendsto l (𝓝 0) (𝓝 x0) := hl0 ▸ hl.tendsto
  have hA : ∀ᶠ t in 𝓝 (0 : ℝ), HasDerivAt A (A' (l t)) t := by
    filter_upwards [hl'.eventually hd] with t ht
    rwa [hSl] at ht
  refine ⟨fun t => A' (l t), hA, by simpa using h1, ρ.congr h3 ?_⟩
  have hS' : Tendsto S (𝓝 x0) (𝓝 0) := h0 ▸ hS.tendsto
  filter_upwards [hd, hS'.eventually hA] with x hx hx'
  exact hx.unique hx'

variable {E : Type} [NormedAddCommGroup E] [NormedSpace ℝ E]

/-- the terms of second and third order of the energy and of the pressure for large volumes -/
theorem Dilute.third {F : ℝ × E → ℝ} {y0 : E} (h : Dilute F y0) :
    ∃ s₂ s₃, Tendsto (fun u => F (u, y0) / u ^ 2) (𝓝[≠] 0) (𝓝 s₂)
      ∧ Tendsto (fun u => (F (u, y0) - s₂ * u ^ 2) / u ^ 3) (𝓝[≠] 0) (𝓝 (s₃ / 2))
      ∧ Tendsto (fun u => (u * fderiv ℝ F (u, y0) (1, 0) - F (u, y0) - s₂ * u ^ 2) / u ^ 3) (𝓝[≠] 0) (𝓝 s₃) := by
  set g : ℝ → ℝ := fun u => F (u, y0) with hg
  have hsm : ContDiffAt ℝ ω g 0 := by
    have : ContDiffAt ℝ ω (fun u : ℝ => (u, y0)) 0 := contDiffAt_id.prodMk contDiffAt_const
    exact ContDiffAt.comp (0 : ℝ) h.smooth this
  have ev : ∀ {f : ℝ → ℝ}, ContDiffAt ℝ ω f 0 → ∀ᶠ u in 𝓝 (0 : ℝ), HasDerivAt f (deriv f u) u := fun {f} hf =>
    ((hf.of_le (m := 1) le_top).eventually (by simp)).mono fun y hy => (hy.differentiableAt (by simp)).hasDerivAt
  have hderiv : ∀ {f : ℝ → ℝ}, ContDiffAt ℝ ω f 0 → ContDiffAt ℝ ω (deriv f) 0 := fun {f} hf => by
    have h1 : ContDiffAt ℝ ω (fun u => fderiv ℝ f u 1) 0 :=
      (hf.fderiv_right (m := ω) (by simp)).clm_apply contDiffAt_const
    exact h1
  have hs1 := hderiv hsm
  have hs2 := hderiv hs1
  have hd : ∀ᶠ x in 𝓝 ((0 : ℝ), y0), DifferentiableAt ℝ F x :=
    ((h.smooth.of_le (m := 1) le_top).eventually (by simp)).mono fun y hy => hy.differentiableAt (by simp)
  have hu : Tendsto (fun u : ℝ => (u, y0)) (𝓝 0) (𝓝 (0, y0)) := (Continuous.prodMk_left y0).tendsto 0
  have hfd : ∀ᶠ u in 𝓝 (0 : ℝ), fderiv ℝ F (u, y0) (1, 0) = deriv g u := by
    filter_upwards [hu.eventually hd] with u h1
    exact (HasFDerivAt.comp_hasDerivAt u (f := fun u : ℝ => (u, y0)) h1.hasFDerivAt
      ((hasDerivAt_id u).prodMk (hasDerivAt_const _ _))).deriv.symm
  have z0 : g 0 = 0 := h.zero.self_of_nhds
  have z1 : deriv g 0 = 0 := h.slope.self_of_nhds.deriv
  have h2 := second_order_limit (ev hsm) z0 z1 (ev hs1).self_of_nhds
  obtain ⟨h3, h4⟩ := third_order_limit (ev hsm) (ev hs1) (ev hs2).self_of_nhds
  refine ⟨deriv (deriv g) 0 / 2, deriv (deriv (deriv g)) 0 / 3, h2, ?_, ?_⟩
  · have e : deriv (deriv (deriv g)) 0 / 6 = deriv (deriv (deriv g)) 0 / 3 / 2 := by ring
    rw [← e]
    refine h3.congr fun u => ?_
    rw [z0, z1, zero_mul, zero_add, zero_add]
  · have e : deriv (deriv (deriv g)) 0 / 2 - deriv (deriv (deriv g)) 0 / 6 = deriv (deriv (deriv g)) 0 / 3 := by ring
    rw [← e]
    refine (h4.sub h3).congr' ?_
    filter_upwards [hfd.filter_mono nhdsWithin_le_nhds, self_mem_nhdsWithin] with u h5 (hu : u ≠ 0)
    rw [h5, z0, z1]
    change _ = (u * deriv g u - g u - _) / _
    field_simp
    ring

end PcSaft
