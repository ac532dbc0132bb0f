import Verif.Spec.MassAction
import Verif.Model.Association
import Mathlib.Analysis.SpecialFunctions.Log.Deriv

/-!
# The explicit site fractions over the reals
-/

namespace PcSaft
open Spec

theorem sqrt_epsilon : Real.sqrt (f64EPSILON : ℝ) = (2 ^ 26)⁻¹ := by
  rw [Real.sqrt_eq_iff_mul_self_eq_of_pos (by positivity)]
  norm_num [f64EPSILON]

/-- formula above the cutoff in the scaled variables `a = δρ na`, `b = δρ nb` -/
noncomputable def fracForm (a b : ℝ) : ℝ := (Real.sqrt ((a - b + 1) ^ 2 + 4 * b) - (b - a + 1)) / (2 * a)

theorem assocSiteFracAB_above {d na nb : ℝ} (hd : (2 ^ 26)⁻¹ < d) :
    assocSiteFracAB d na nb = fracForm (d * na) (d * nb) := by
  have h1 : (1.0 : ℝ) = 1 := by norm_num
  have h2 : (2.0 : ℝ) = 2 := by norm_num
  have h4 : (4.0 : ℝ) = 4 := by norm_num
  simp only [assocSiteFracAB, fracForm, lt_real, sqrt_real, sqrt_epsilon, re_real, hd, decide_true,
    if_true, c, ofF_real, dsqrt_real, dpowi_real, h1, h2, h4]
  have e1 : (d * (na - nb) + 1) ^ 2 + d * nb * 4 = (d * na - d * nb + 1) ^ 2 + 4 * (d * nb) := by ring
  have e2 : d * (nb - na) + 1 = d * nb - d * na + 1 := by ring
  have e3 : d * na * 2 = 2 * (d * na) := by ring
  rw [e1, e2, e3]

/-- the series in the scaled variables -/
theorem assocSiteFracAB_below {d na nb : ℝ} (hd : d ≤ (2 ^ 26)⁻¹) :
    assocSiteFracAB d na nb = 1 - d * nb + d * nb * (d * na + d * nb) := by
  have h1 : (1.0 : ℝ) = 1 := by norm_num
  simp only [assocSiteFracAB, lt_real, sqrt_real, sqrt_epsilon, re_real, not_lt.2 hd, decide_false,
    c, ofF_real, h1]
  simp only [Bool.false_eq_true, if_false]
  ring

theorem assocSiteFracA_above {d na : ℝ} (hd : (2 ^ 26)⁻¹ < d) :
    assocSiteFracA d na = Real.sqrt ((4 * (d * na) + 1) ^ 2 - 1) / (2 * (d * na)) := by
  have h1 : (1.0 : ℝ) = 1 := by norm_num
  have h2 : (2.0 : ℝ) = 2 := by norm_num
  have h4 : (4.0 : ℝ) = 4 := by norm_num
  simp only [assocSiteFracA, lt_real, sqrt_real, sqrt_epsilon, re_real, hd, decide_true,
    if_true, c, ofF_real, dsqrt_real, dpowi_real, h1, h2, h4]
  have e1 : d * na * 4 + 1 = 4 * (d * na) + 1 := by ring
  have e3 : d * na * 2 = 2 * (d * na) := by ring
  rw [e1, e3]

theorem assocSiteFracA_below {d na : ℝ} (hd : d ≤ (2 ^ 26)⁻¹) :
    assocSiteFracA d na = 1 - d * na + 2 * (d * na) ^ 2 := by
  have h1 : (1.0 : ℝ) = 1 := by norm_num
  have h2 : (2.0 : ℝ) = 2 := by norm_num
  simp only [assocSiteFracA, lt_real, sqrt_real, sqrt_epsilon, re_real, not_lt.2 hd, decide_false,
    c, ofF_real, h1, h2]
  simp only [Bool.false_eq_true, if_false]
  ring

theorem fracForm_quadratic {a b : ℝ} (ha : 0 < a) (hb : 0 ≤ b) :
    a * fracForm a b ^ 2 + (b - a + 1) * fracForm a b - 1 = 0 := by
  have hR : Real.sqrt ((a - b + 1) ^ 2 + 4 * b) ^ 2 = (a - b + 1) ^ 2 + 4 * b :=
    Real.sq_sqrt (by positivity)
  unfold fracForm
  generalize Real.sqrt ((a - b + 1) ^ 2 + 4 * b) = R at hR
  field_simp
  linear_combination hR

theorem fracForm_pos {a b : ℝ} (ha : 0 < a) : 0 < fracForm a b := by
  unfold fracForm
  apply div_pos _ (by positivity)
  have h1 : |b - a + 1| < Real.sqrt ((a - b + 1) ^ 2 + 4 * b) := by
    apply Real.lt_sqrt_of_sq_lt
    rw [sq_abs]
    nlinarith
  have := le_abs_self (b - a + 1)
  linarith

/-- a positive solution of the quadratic equation is unique -/
theorem quadratic_unique {a b x y : ℝ} (ha : 0 ≤ a) (hx : 0 < x) (hy : 0 < y)
    (h1 : a * x ^ 2 + (b - a + 1) * x - 1 = 0) (h2 : a * y ^ 2 + (b - a + 1) * y - 1 = 0) :
    x = y := by
  have h : (x - y) * (1 + a * x * y) = 0 := by
    linear_combination y * h1 - x * h2
  have hpos : 0 < 1 + a * x * y := by positivity
  rcases mul_eq_zero.1 h with h | h
  · linarith
  · linarith

theorem massActionAB_iff {d na nb xa xb : ℝ} :
    MassActionAB d na nb xa xb ↔
      xa * (1 + d * nb * xb) = 1 ∧ xb * (1 + d * na * xa) = 1 := Iff.rfl

/-- the two equations in terms of one unknown -/
theorem Spec.MassActionAB.quadratic {d na nb xa xb : ℝ} (h : MassActionAB d na nb xa xb) :
    d * na * xa ^ 2 + (d * nb - d * na + 1) * xa - 1 = 0 := by
  obtain ⟨h1, h2⟩ := h
  linear_combination (d * na * xa + 1) * h1 - (d * nb * xa) * h2

/-- balance of bonds: as many A sites as B sites are bonded -/
theorem Spec.MassActionAB.balance {d na nb xa xb : ℝ} (hd : d ≠ 0) (hx : xa ≠ 0)
    (h : MassActionAB d na nb xa xb) : nb * (1 - xb) = na * (1 - xa) := by
  obtain ⟨h1, h2⟩ := h
  have : d * (nb * xb * xa) = 1 - xa := by linear_combination h1
  have : d * (na * xb * xa) = 1 - xb := by linear_combination h2
  have e : d * xa * xb * (nb * (1 - xb) - na * (1 - xa)) = 0 := by
    linear_combination (1 - xb) * h1 - (1 - xa) * h2
  rcases mul_eq_zero.1 e with e | e
  · exfalso
    rcases mul_eq_zero.1 e with e | e
    · rcases mul_eq_zero.1 e with e | e
      · exact hd e
      · exact hx e
    · rw [e] at h2; simp at h2
  · linarith

theorem Spec.MassActionAB.xb_eq {d na nb xa xb : ℝ} (hnb : nb ≠ 0) (hx : xa ≠ 0)
    (h : MassActionAB d na nb xa xb) : xb = (xa - 1) * (na / nb) + 1 := by
  by_cases hd : d = 0
  · obtain ⟨h1, h2⟩ := h
    subst hd
    simp at h1 h2
    simp [h1, h2]
  · have := h.balance hd hx
    field_simp
    linear_combination -this

/-- the one-variable form gives a solution of the two equations -/
theorem massActionAB_of_quadratic {d na nb xa : ℝ} (hnb : nb ≠ 0)
    (h : d * na * xa ^ 2 + (d * nb - d * na + 1) * xa - 1 = 0) :
    MassActionAB d na nb xa ((xa - 1) * (na / nb) + 1) := by
  constructor
  · field_simp
    linear_combination h
  · field_simp
    linear_combination na * h

theorem Spec.MassActionAB.le_one {d na nb xa xb : ℝ} (hd : 0 ≤ d) (hna : 0 ≤ na) (hnb : 0 ≤ nb)
    (ha : 0 < xa) (hb : 0 < xb) (h : MassActionAB d na nb xa xb) : xa ≤ 1 ∧ xb ≤ 1 := by
  obtain ⟨h1, h2⟩ := h
  have p1 : 0 ≤ xa * (d * nb * xb) := by positivity
  have p2 : 0 ≤ xb * (d * na * xa) := by positivity
  constructor <;> nlinarith

/-- existence and uniqueness for one component -/
theorem massActionAB_exists {d na nb : ℝ} (hd : 0 ≤ d) (hna : 0 < na) (hnb : 0 < nb) :
    ∃ xa xb, 0 < xa ∧ 0 < xb ∧ MassActionAB d na nb xa xb := by
  rcases hd.eq_or_lt with rfl | hd
  · exact ⟨1, 1, one_pos, one_pos, by constructor <;> simp⟩
  · have hq := fracForm_quadratic (a := d * na) (b := d * nb) (by positivity) (by positivity)
    have hp := fracForm_pos (a := d * na) (b := d * nb) (by positivity)
    have h := massActionAB_of_quadratic hnb.ne' hq
    refine ⟨_, _, hp, ?_, h⟩
    have h2 := h.2
    have : 0 < 1 + d * na * fracForm (d * na) (d * nb) := by positivity
    by_contra hn
    push Not at hn
    nlinarith

theorem Spec.MassActionAB.unique {d na nb xa xb ya yb : ℝ} (hd : 0 ≤ d) (hna : 0 ≤ na) (hnb : nb ≠ 0)
    (ha : 0 < xa) (hya : 0 < ya)
    (h1 : MassActionAB d na nb xa xb) (h2 : MassActionAB d na nb ya yb) : xa = ya ∧ xb = yb := by
  have e := quadratic_unique (by positivity) ha hya h1.quadratic h2.quadratic
  exact ⟨e, by rw [h1.xb_eq hnb ha.ne', h2.xb_eq hnb hya.ne', e]⟩

theorem Spec.MassActionAB.swap {d na nb xa xb : ℝ} (h : MassActionAB d na nb xa xb) :
    MassActionAB d nb na xb xa := ⟨h.2, h.1⟩

/-- error of the series in scaled variables -/
theorem series_error {a b x : ℝ} (ha : 0 ≤ a) (hb : 0 ≤ b) (hab : a + b ≤ 1) (ha1 : a ≤ 1 / 2)
    (hx : 0 < x)
    (h : a * x ^ 2 + (b - a + 1) * x - 1 = 0) :
    |1 - b + b * (a + b) - x| ≤ b * (a ^ 2 + 3 * a * b + b ^ 2) / (1 - a) := by
  have h1a : 0 < 1 - a := by linarith
  set s := 1 - b + b * (a + b) with hs
  have hs0 : 0 ≤ s := by
    have : 0 ≤ b * (a + b) := by positivity
    have : b ≤ 1 := by linarith
    linarith
  have key : (s - x) * (1 + b - a + a * (s + x))
      = b * (a ^ 2 + 3 * a * b + b ^ 2 - a * b * (2 * (a + b) - (a + b) ^ 2)) := by
    rw [hs]
    linear_combination -h
  have hf : 1 - a ≤ 1 + b - a + a * (s + x) := by
    have : 0 ≤ a * (s + x) := by positivity
    linarith
  have hlow : 0 ≤ b * (a ^ 2 + 3 * a * b + b ^ 2 - a * b * (2 * (a + b) - (a + b) ^ 2)) := by
    apply mul_nonneg hb
    have h1 : 2 * (a + b) - (a + b) ^ 2 ≤ 1 := by nlinarith [sq_nonneg (a + b - 1)]
    have h2 : a * b * (2 * (a + b) - (a + b) ^ 2) ≤ a * b * 1 :=
      mul_le_mul_of_nonneg_left h1 (by positivity)
    nlinarith [mul_nonneg ha hb, sq_nonneg a, sq_nonneg b]
  have hup : b * (a ^ 2 + 3 * a * b + b ^ 2 - a * b * (2 * (a + b) - (a + b) ^ 2))
      ≤ b * (a ^ 2 + 3 * a * b + b ^ 2) := by
    apply mul_le_mul_of_nonneg_left _ hb
    have : 0 ≤ a * b * (2 * (a + b) - (a + b) ^ 2) := by
      apply mul_nonneg (by positivity)
      nlinarith
    linarith
  have hsx : 0 ≤ s - x := by
    by_contra hn
    push Not at hn
    nlinarith
  rw [abs_of_nonneg hsx, le_div_iff₀ h1a]
  calc (s - x) * (1 - a) ≤ (s - x) * (1 + b - a + a * (s + x)) :=
        mul_le_mul_of_nonneg_left hf hsx
    _ ≤ _ := by rw [key]; exact hup

/-! ### The energy per site -/

theorem assocF_real (x : ℝ) : assocF x = Real.log x - x / 2 + 1 / 2 := by
  have h : (0.5 : ℝ) = 1 / 2 := by norm_num
  simp only [assocF, dln_real, c, ofF_real, h]
  ring

theorem assocF_nonpos {x : ℝ} (h0 : 0 < x) (h1 : x ≤ 1) : assocF x ≤ 0 := by
  rw [assocF_real]
  have := Real.log_le_sub_one_of_pos h0
  linarith

theorem assocF_neg {x : ℝ} (h0 : 0 < x) (h1 : x < 1) : assocF x < 0 := by
  rw [assocF_real]
  have := Real.log_le_sub_one_of_pos h0
  linarith

theorem assocF_one : assocF (1 : ℝ) = 0 := by
  rw [assocF_real]; norm_num

theorem assocF_pos {x : ℝ} (h0 : 1 < x) (h1 : x < 3) : 0 < assocF x := by
  rw [assocF_real]
  have h := Real.le_log_one_add_of_nonneg (x := x - 1) (by linarith)
  have e : 1 + (x - 1) = x := by ring
  rw [e] at h
  have : (x - 1) / 2 < 2 * (x - 1) / (x - 1 + 2) := by
    rw [div_lt_div_iff₀ (by norm_num) (by linarith)]
    nlinarith
  linarith

theorem assocSingle_ab {d moles na nb : ℝ} (hnb : 0 < nb) :
    assocSingle d moles na nb = moles * (na * assocF (assocSiteFracAB d na nb)
      + nb * assocF ((assocSiteFracAB d na nb - 1) * (na / nb) + 1)) := by
  have h0 : (0.0 : ℝ) = 0 := by norm_num
  have h1 : (1.0 : ℝ) = 1 := by norm_num
  simp only [assocSingle, lt_real, h0, hnb, decide_true, if_true, c, ofF_real, h1]
  ring

theorem assocSingle_a {d moles na nb : ℝ} (hnb : nb ≤ 0) :
    assocSingle d moles na nb = moles * (na * assocF (assocSiteFracA d na)) := by
  have h0 : (0.0 : ℝ) = 0 := by norm_num
  simp only [assocSingle, lt_real, h0, not_lt.2 hnb, decide_false, c, ofF_real]
  simp only [Bool.false_eq_true, if_false]
  ring

end PcSaft
