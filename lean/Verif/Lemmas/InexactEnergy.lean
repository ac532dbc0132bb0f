import Verif.Lemmas.MassAction
import Mathlib.Analysis.SpecialFunctions.Log.Deriv
import Mathlib.Analysis.Calculus.Deriv.Inv

/-!
# Derivatives of the association energy at site fractions that are only approximate
-/

open Filter Topology PcSaft.Spec

namespace PcSaft

/-- The relative derivatives of the exact site fractions are bounded by those of the association strengths. -/
theorem fractions_derivative_bound {ι : Type*} [Fintype ι] {M : ι → ι → ℝ → ℝ} {M' : ι → ι → ℝ} {S : ι → ℝ → ℝ}
    {S' : ι → ℝ} {t0 μ P : ℝ} (hM : ∀ s r, HasDerivAt (M s r) (M' s r) t0) (hS : ∀ s, HasDerivAt (S s) (S' s) t0)
    (hsol : ∀ᶠ t in 𝓝 t0, MassAction (fun s r => M s r t) (fun s => S s t)) (hM0 : ∀ s r, 0 ≤ M s r t0)
    (hS0 : ∀ s, 0 < S s t0) (hμ0 : 0 ≤ μ) (hμ : ∀ s r, |M' s r| ≤ μ * M s r t0)
    (hP : ∀ s, 1 + ∑ r, M s r t0 * S r t0 ≤ P) (s : ι) : |S' s| ≤ μ * P * S s t0 := by
  have hder : ∀ s, (1 + ∑ r, M s r t0 * S r t0) / S s t0 * S' s + ∑ r, M s r t0 * S' r = -∑ r, M' s r * S r t0 := by
    intro s
    have h1 : HasDerivAt (fun t => 1 + ∑ r, M s r t * S r t) (∑ r, (M' s r * S r t0 + M s r t0 * S' r)) t0 :=
      (HasDerivAt.fun_sum fun r _ => (hM s r).mul (hS r)).const_add 1
    have h2 := (hS s).mul h1
    have h3 : HasDerivAt (fun _ : ℝ => (1 : ℝ)) 0 t0 := hasDerivAt_const _ _
    have h4 := h2.unique (h3.congr_of_eventuallyEq (hsol.mono fun t ht => ht s))
    rw [Finset.sum_add_distrib] at h4
    have h5 := (hS0 s).ne'
    field_simp
    linarith
  refine newton_step_bound hM0 hS0 (fun s => ?_) hder s
  rw [abs_neg]
  refine (Finset.abs_sum_le_sum_abs _ _).trans ?_
  have h1 : ∑ r, |M' s r * S r t0| ≤ μ * ∑ r, M s r t0 * S r t0 := by
    rw [Finset.mul_sum]
    refine Finset.sum_le_sum fun r _ => ?_
    rw [abs_mul, abs_of_pos (hS0 r), ← mul_assoc]
    exact mul_le_mul_of_nonneg_right (hμ s r) (hS0 r).le
  exact h1.trans (mul_le_mul_of_nonneg_left (by linarith [hP s]) hμ0)

/-- contribution of one site, and its derivative, at a fraction `z` instead of the exact `y` -/
theorem site_term_bound {x z y z' y' ε e₁ e₂ σ : ℝ} (hx : 0 < x) (hx2 : x ≤ 2) (hε : ε ≤ 1 / 4) (h1 : e₁ ≤ 1 / 4)
    (hσ0 : 0 ≤ σ) (hxy : |x - y| ≤ ε * x) (hzy : |z - y| ≤ e₁ * x) (hz' : |z' - y'| ≤ e₂ * x) (hy' : |y'| ≤ σ * x) :
    0 < z ∧ |(Real.log z - z / 2 + 1 / 2) - (Real.log y - y / 2 + 1 / 2)| ≤ 3 * e₁
    ∧ |(1 / z - 1 / 2) * z' - (1 / y - 1 / 2) * y'| ≤ 2 * e₂ + 3 * e₁ * σ := by
  obtain ⟨a1, a2⟩ := abs_le.1 hxy
  obtain ⟨b1, b2⟩ := abs_le.1 hzy
  have e0 : 0 ≤ e₁ := by
    have := (abs_nonneg _).trans hzy
    nlinarith
  have e20 : 0 ≤ e₂ := by
    have := (abs_nonneg _).trans hz'
    nlinarith
  have k1 : ε * x ≤ 1 / 4 * x := mul_le_mul_of_nonneg_right hε hx.le
  have k2 : e₁ * x ≤ 1 / 4 * x := mul_le_mul_of_nonneg_right h1 hx.le
  have hy : 3 / 4 * x ≤ y := by linarith
  have hz : 1 / 2 * x ≤ z := by linarith
  have hz3 : z ≤ 3 := by linarith
  have hy0 : 0 < y := by linarith
  have hz0 : 0 < z := by linarith
  have hlog : |Real.log z - Real.log y| ≤ 2 * e₁ := by
    have l1 : Real.log (z / y) ≤ z / y - 1 := Real.log_le_sub_one_of_pos (div_pos hz0 hy0)
    have l2 : Real.log (y / z) ≤ y / z - 1 := Real.log_le_sub_one_of_pos (div_pos hy0 hz0)
    rw [Real.log_div hz0.ne' hy0.ne'] at l1
    rw [Real.log_div hy0.ne' hz0.ne'] at l2
    have m1 : z / y - 1 ≤ 2 * e₁ := by
      rw [sub_le_iff_le_add, div_le_iff₀ hy0]
      nlinarith
    have m2 : y / z - 1 ≤ 2 * e₁ := by
      rw [sub_le_iff_le_add, div_le_iff₀ hz0]
      nlinarith
    rw [abs_le]
    constructor <;> linarith
  refine ⟨hz0, ?_, ?_⟩
  · have : (Real.log z - z / 2 + 1 / 2) - (Real.log y - y / 2 + 1 / 2)
        = (Real.log z - Real.log y) - (z - y) / 2 := by ring
    rw [this]
    refine (abs_sub _ _).trans ?_
    have h2 : |(z - y) / 2| ≤ e₁ := by
      rw [abs_div, abs_of_pos (by norm_num : (0 : ℝ) < 2)]
      have : e₁ * x ≤ e₁ * 2 := mul_le_mul_of_nonneg_left hx2 e0
      linarith
    linarith
  · have hsplit : (1 / z - 1 / 2) * z' - (1 / y - 1 / 2) * y'
        = (1 / z - 1 / 2) * (z' - y') + (y - z) / (z * y) * y' := by
      field_simp
      ring
    rw [hsplit]
    refine (abs_add_le _ _).trans (add_le_add ?_ ?_)
    · have c1 : |1 / z - 1 / 2| ≤ 1 / z := by
        have : 1 / 3 ≤ 1 / z := one_div_le_one_div_of_le hz0 hz3
        rw [abs_le]
        constructor <;> linarith
      rw [abs_mul]
      calc |1 / z - 1 / 2| * |z' - y'| ≤ 1 / z * (e₂ * x) :=
            mul_le_mul c1 hz' (abs_nonneg _) (by positivity)
        _ = e₂ * x / z := by ring
        _ ≤ 2 * e₂ := by
            rw [div_le_iff₀ hz0]
            nlinarith
    · rw [abs_mul, abs_div, abs_of_pos (mul_pos hz0 hy0), abs_sub_comm y z]
      have hzy2 : 3 / 8 * (x * x) ≤ z * y := by
        have := mul_le_mul hz hy (by positivity) hz0.le
        linarith
      calc |z - y| / (z * y) * |y'| ≤ e₁ * x / (z * y) * (σ * x) :=
            mul_le_mul (div_le_div_of_nonneg_right hzy (mul_pos hz0 hy0).le) hy' (abs_nonneg _) (by positivity)
        _ = e₁ * σ * (x * x) / (z * y) := by ring
        _ ≤ 3 * e₁ * σ := by
            rw [div_le_iff₀ (mul_pos hz0 hy0)]
            have : 0 ≤ e₁ * σ := mul_nonneg e0 hσ0
            nlinarith
end PcSaft
