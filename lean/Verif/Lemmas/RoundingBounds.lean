import Verif.Lemmas.RelativeRounding
import Verif.Lemmas.Hom
import Verif.Model.Eos
import Verif.Props.Rounding

/-!
# Rounding errors of the non-polar contributions
-/

namespace PcSaft
open Spec Props
variable {a : Arithmetic} {n : ℕ}

section
variable (h : Relative a)
include h

/-! ### Elementary functions -/

/-- `1 - 0.12 exp(-y)` is concave and positive at zero -/
theorem diameter_factor {k : ℕ} {y : ℝ} {y' : Rd a} (hy : Agrees a k y y') :
    Agrees a k (1 - 0.12 * Real.exp (-y)) ⟨1 - 0.12 * Real.exp (-y'.val)⟩ := by
  have key : ∀ {t y z : ℝ}, 0 ≤ y → 0 ≤ z → 1 ≤ t → y ≤ z * t →
      1 - 0.12 * Real.exp (-y) ≤ (1 - 0.12 * Real.exp (-z)) * t := by
    intro t y z hy hz ht hyz
    -- convexity of the exponential function on the segment from zero to `z t`
    have ht0 : 0 < t := by linarith
    have hc := convexOn_exp.2 (Set.mem_univ 0) (Set.mem_univ (-(z * t))) (sub_nonneg.2 (inv_le_one_of_one_le₀ ht))
      (inv_pos.2 ht0).le (by ring)
    rw [smul_eq_mul, smul_eq_mul, smul_eq_mul, smul_eq_mul, mul_zero, zero_add, Real.exp_zero, mul_one] at hc
    have e1 : t⁻¹ * -(z * t) = -z := by field_simp
    rw [e1] at hc
    have h1 := mul_le_mul_of_nonneg_right hc ht0.le
    have e2 : (1 - t⁻¹ + t⁻¹ * Real.exp (-(z * t))) * t = t - 1 + Real.exp (-(z * t)) := by
      field_simp
    rw [e2] at h1
    have h2 : Real.exp (-(z * t)) ≤ Real.exp (-y) := Real.exp_le_exp.2 (by linarith)
    nlinarith
  have g := growth_pow h k
  have hy' := hy.val_nonneg h
  have p1 : ∀ z : ℝ, 0 ≤ z → 0 ≤ 1 - 0.12 * Real.exp (-z) := fun z hz => by
    have := Real.exp_le_one_iff.2 (neg_nonpos.2 hz)
    linarith
  exact ⟨p1 y hy.nonneg, key hy.nonneg hy' g hy.lower, key hy' hy.nonneg g hy.upper⟩

theorem agrees_exp (y' : Rd a) : Agrees a 1 (Real.exp y'.val) (DualNum.exp y') := .round h (h.exp _) (Real.exp_pos _).le

/-- logarithms of numbers that are at least one -/
theorem agrees_ln {k : ℕ} {x : ℝ} {x' : Rd a} (hx : Agrees a k x x') (h1 : 1 ≤ x) :
    Differs a (k + 1) (1 + Real.log x) (Real.log x) (DualNum.ln x') := by
  have g := growth_pow h k
  have hx0 : 0 < x := by linarith
  have hx' := hx.val_pos h hx0
  have hl := Real.log_nonneg h1
  have e : Differs a k (1 + Real.log x) (Real.log x) ⟨Real.log x'.val⟩ := by
    refine ⟨by rw [abs_of_nonneg hl]; linarith, ?_⟩
    have u1 : Real.log x'.val ≤ Real.log x + Real.log (Growth a ^ k) := by
      rw [← Real.log_mul hx0.ne' (by positivity)]
      exact Real.log_le_log hx' hx.upper
    have u2 : Real.log x ≤ Real.log x'.val + Real.log (Growth a ^ k) := by
      rw [← Real.log_mul hx'.ne' (by positivity)]
      exact Real.log_le_log hx0 hx.lower
    have u3 := Real.log_le_sub_one_of_pos (growth_pos h k)
    change |Real.log x'.val - Real.log x| ≤ _
    rw [abs_le]
    constructor <;> nlinarith
  exact e.round h (h.ln _ hx')

/-- `-ln(1 - w)` for `w` at most a half -/
theorem agrees_ln1p {k : ℕ} {x : ℝ} {x' : Rd a} (hx : Agrees a k x (-x')) (h2 : x ≤ 1 / 2) (hg : Growth a ^ k ≤ 3 / 2) :
    Agrees a (4 * k + 1) (-Real.log (1 - x)) (-(DualNum.ln1p x')) := by
  have g := growth_pow h k
  have h0 := hx.nonneg
  have hx' : 0 ≤ -x'.val := hx.val_nonneg h
  have hup : -x'.val ≤ x * Growth a ^ k := hx.upper
  have hlo : x ≤ -x'.val * Growth a ^ k := hx.lower
  have b := one_add_mul_le_pow (show (-2 : ℝ) ≤ Growth a ^ k - 1 by linarith) 4
  rw [add_sub_cancel, ← pow_mul, mul_comm k] at b
  push_cast at b
  -- slopes of the logarithm
  have key : ∀ {w v : ℝ}, 0 ≤ w → w ≤ v → v ≤ 3 / 4 → -Real.log (1 - v) ≤ -Real.log (1 - w) + 4 * (v - w) := by
    intro w v hw hwv hv
    have h1 : 0 < 1 - v := by linarith
    have h2 : 0 < 1 - w := by linarith
    have := Real.log_le_sub_one_of_pos (div_pos h2 h1)
    rw [Real.log_div h2.ne' h1.ne'] at this
    have h3 : (1 - w) / (1 - v) - 1 = (v - w) / (1 - v) := by
      field_simp
      ring
    have h4 : (v - w) / (1 - v) ≤ 4 * (v - w) := by
      rw [div_le_iff₀ h1]
      nlinarith
    linarith
  have low : ∀ {w : ℝ}, w < 1 → w ≤ -Real.log (1 - w) := fun {w} hw => by
    have := Real.log_le_sub_one_of_pos (show 0 < 1 - w by linarith)
    linarith
  have hmono : ∀ {w v : ℝ}, w ≤ v → v < 1 → -Real.log (1 - w) ≤ -Real.log (1 - v) := fun {w v} hwv hv => by
    have := Real.log_le_log (show 0 < 1 - v by linarith) (show 1 - v ≤ 1 - w by linarith)
    linarith
  -- one direction for both numbers
  have main : ∀ {w v : ℝ}, 0 ≤ w → w ≤ 1 / 2 → v ≤ w * Growth a ^ k → -Real.log (1 - v) ≤
      -Real.log (1 - w) * Growth a ^ (4 * k) := by
    intro w v hw hw2 hv
    have h34 : w * Growth a ^ k ≤ 3 / 4 := by nlinarith
    have h1 := hmono hv (by linarith)
    have h3 := key hw (le_mul_of_one_le_right hw g) h34
    have h4 := low (show w < 1 by linarith)
    have h5 : 4 * (w * Growth a ^ k - w) ≤ 4 * (-Real.log (1 - w) * (Growth a ^ k - 1)) := by
      have := mul_le_mul_of_nonneg_right h4 (by linarith : (0 : ℝ) ≤ Growth a ^ k - 1)
      linarith
    have h6 : -Real.log (1 - w) * (1 + 4 * (Growth a ^ k - 1)) ≤ -Real.log (1 - w) * Growth a ^ (4 * k) :=
      mul_le_mul_of_nonneg_left b (hw.trans h4)
    linarith
  have hlast : -x'.val ≤ 3 / 4 := by nlinarith
  have e : Agrees a (4 * k) (-Real.log (1 - x)) ⟨-Real.log (1 + x'.val)⟩ := by
    have e1 : 1 + x'.val = 1 - -x'.val := by ring
    refine ⟨h0.trans (low (by linarith)), ?_, ?_⟩
    · change _ ≤ -Real.log (1 + x'.val) * _
      rw [e1]
      rcases le_or_gt (-x'.val) (1 / 2) with hc | hc
      · exact main hx' hc hlo
      · have h1 := hmono (show x ≤ -x'.val by linarith) (by linarith)
        exact h1.trans (le_mul_of_one_le_right ((h0.trans (low (by linarith))).trans h1) (growth_pow h _))
    · change -Real.log (1 + x'.val) ≤ _
      rw [e1]
      exact main h0 h2 hup
  refine e.trans h (.round h ?_ (e.val_nonneg h))
  have := h.ln1p x'.val (by linarith)
  change |-a.ln1p x'.val - -Real.log (1 + x'.val)| ≤ a.u * |-Real.log (1 + x'.val)|
  rw [neg_sub_neg, abs_sub_comm, abs_neg]
  exact this

end
end PcSaft
