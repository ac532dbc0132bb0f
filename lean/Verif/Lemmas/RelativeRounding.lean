import Verif.Spec.RelativeRounding
import Mathlib.Analysis.Convex.SpecificFunctions.Basic

/-!
# Calculus of relative rounding errors
-/

namespace PcSaft
open Spec
variable {a : Arithmetic}

theorem growth_ge (h : Relative a) : 1 + a.u ≤ Growth a := by
  have h1 : 0 < 1 - a.u := by linarith [h.unit]
  rw [Growth, le_inv_comm₀ (by linarith [a.u_nonneg]) h1, inv_eq_one_div, le_div_iff₀ (by linarith [a.u_nonneg])]
  nlinarith [a.u_nonneg]

theorem growth_one (h : Relative a) : 1 ≤ Growth a := by linarith [growth_ge h, a.u_nonneg]

theorem growth_sub (h : Relative a) : (1 - a.u) * Growth a = 1 := by
  have h1 : 0 < 1 - a.u := by linarith [h.unit]
  rw [Growth, mul_inv_cancel₀ h1.ne']

theorem _root_.PcSaft.Spec.Relative.one (h : Relative a) : a.lit 10 true 1 = 1 := by
  have := h.int 10 true 1 1 (by norm_num) (by norm_num)
  rwa [Nat.cast_one] at this

theorem growth_pow (h : Relative a) (k : ℕ) : 1 ≤ Growth a ^ k := one_le_pow₀ (growth_one h)

theorem growth_pos (h : Relative a) (k : ℕ) : 0 < Growth a ^ k := by linarith [growth_pow h k]

theorem growth_mono (h : Relative a) {k l : ℕ} (hkl : k ≤ l) : Growth a ^ k ≤ Growth a ^ l :=
  pow_le_pow_right₀ (growth_one h) hkl

namespace Spec.Agrees
variable {k l j : ℕ} {x y : ℝ} {x' y' : Rd a}

theorem _root_.PcSaft.Spec.Agrees.val_nonneg (h : Relative a) (hx : Agrees a k x x') : 0 ≤ x'.val := by
  have := hx.nonneg.trans hx.lower
  exact nonneg_of_mul_nonneg_left this (growth_pos h k)

theorem _root_.PcSaft.Spec.Agrees.val_pos (h : Relative a) (hx : Agrees a k x x') (h0 : 0 < x) : 0 < x'.val := by
  have := h0.trans_le hx.lower
  exact pos_of_mul_pos_left this (growth_pos h k).le

theorem _root_.PcSaft.Spec.Agrees.mono (h : Relative a) (hx : Agrees a k x x') (hkl : k ≤ l) : Agrees a l x x' :=
  ⟨hx.nonneg, hx.lower.trans (mul_le_mul_of_nonneg_left (growth_mono h hkl) (hx.val_nonneg h)),
    hx.upper.trans (mul_le_mul_of_nonneg_left (growth_mono h hkl) hx.nonneg)⟩

theorem _root_.PcSaft.Spec.Agrees.exact (hx : 0 ≤ x) : Agrees a 0 x ⟨x⟩ := ⟨hx, by simp, by simp⟩

/-- one operation -/
theorem _root_.PcSaft.Spec.Agrees.round (h : Relative a) {r : ℝ} (hr : |r - x| ≤ a.u * |x|) (hx : 0 ≤ x) :
    Agrees a 1 x ⟨r⟩ := by
  rw [abs_of_nonneg hx, abs_le] at hr
  have g := growth_sub h
  have g1 := growth_ge h
  have g0 : 0 < Growth a := by linarith [growth_one h]
  refine ⟨hx, ?_, ?_⟩
  · rw [pow_one]
    have : x * (1 - a.u) ≤ r := by linarith
    calc x = x * ((1 - a.u) * Growth a) := by rw [g, mul_one]
      _ = x * (1 - a.u) * Growth a := by ring
      _ ≤ r * Growth a := mul_le_mul_of_nonneg_right this g0.le
  · rw [pow_one]
    have := mul_le_mul_of_nonneg_left g1 hx
    change r ≤ _
    linarith

theorem _root_.PcSaft.Spec.Agrees.trans (h : Relative a) {z : Rd a} (hx : Agrees a k x x') (hz : Agrees a l x'.val z) :
    Agrees a (k + l) x z := by
  have g1 := growth_pos h k
  have g2 := growth_pos h l
  refine ⟨hx.nonneg, ?_, ?_⟩
  · calc x ≤ x'.val * Growth a ^ k := hx.lower
      _ ≤ z.val * Growth a ^ l * Growth a ^ k := mul_le_mul_of_nonneg_right hz.lower g1.le
      _ = _ := by rw [pow_add]; ring
  · calc z.val ≤ x'.val * Growth a ^ l := hz.upper
      _ ≤ x * Growth a ^ k * Growth a ^ l := mul_le_mul_of_nonneg_right hx.upper g2.le
      _ = _ := by rw [pow_add]; ring

/-- results without rounding -/
theorem _root_.PcSaft.Spec.Agrees.addE (hx : Agrees a k x x') (hy : Agrees a k y y') :
    Agrees a k (x + y) ⟨x'.val + y'.val⟩ :=
  ⟨add_nonneg hx.nonneg hy.nonneg, by
    rw [add_mul]
    exact add_le_add hx.lower hy.lower, by
    rw [add_mul]
    exact add_le_add hx.upper hy.upper⟩

theorem _root_.PcSaft.Spec.Agrees.mulE (h : Relative a) (hx : Agrees a k x x') (hy : Agrees a l y y') :
    Agrees a (k + l) (x * y) ⟨x'.val * y'.val⟩ := by
  refine ⟨mul_nonneg hx.nonneg hy.nonneg, ?_, ?_⟩
  · calc x * y ≤ x'.val * Growth a ^ k * (y'.val * Growth a ^ l) :=
          mul_le_mul hx.lower hy.lower hy.nonneg (hx.nonneg.trans hx.lower)
      _ = _ := by rw [pow_add]; ring
  · calc x'.val * y'.val ≤ x * Growth a ^ k * (y * Growth a ^ l) :=
          mul_le_mul hx.upper hy.upper (hy.val_nonneg h) ((hx.val_nonneg h).trans hx.upper)
      _ = _ := by rw [pow_add]; ring

theorem _root_.PcSaft.Spec.Agrees.invE (h : Relative a) (hx : Agrees a k x x') (h0 : 0 < x) :
    Agrees a k x⁻¹ ⟨x'.val⁻¹⟩ := by
  have h1 := hx.val_pos h h0
  have g := growth_pos h k
  refine ⟨(inv_pos.2 h0).le, ?_, ?_⟩
  · change x⁻¹ ≤ x'.val⁻¹ * _
    rw [inv_mul_eq_div, inv_eq_one_div, div_le_div_iff₀ h0 h1, one_mul, mul_comm]
    exact hx.upper
  · change x'.val⁻¹ ≤ x⁻¹ * _
    rw [inv_mul_eq_div, inv_eq_one_div, div_le_div_iff₀ h1 h0, one_mul, mul_comm]
    exact hx.lower

theorem _root_.PcSaft.Spec.Agrees.add (h : Relative a) (hx : Agrees a k x x') (hy : Agrees a k y y') :
    Agrees a (k + 1) (x + y) (x' + y') :=
  have e := hx.addE hy
  e.trans h (.round h (h.add _ _) (e.val_nonneg h))

theorem _root_.PcSaft.Spec.Agrees.mul (h : Relative a) (hx : Agrees a k x x') (hy : Agrees a l y y') :
    Agrees a (k + l + 1) (x * y) (x' * y') :=
  have e := hx.mulE h hy
  e.trans h (.round h (h.mul _ _) (e.val_nonneg h))

theorem _root_.PcSaft.Spec.Agrees.div (h : Relative a) (hx : Agrees a k x x') (hy : Agrees a l y y') (h0 : 0 < y) :
    Agrees a (k + l + 1) (x / y) (x' / y') := by
  have e := hx.mulE h (hy.invE h h0)
  rw [← div_eq_mul_inv] at e
  refine e.trans h (.round h ?_ (e.val_nonneg h))
  change |a.div x'.val y'.val - x'.val * y'.val⁻¹| ≤ a.u * |x'.val * y'.val⁻¹|
  rw [← div_eq_mul_inv]
  exact h.div _ _ (hy.val_pos h h0).ne'

/-- products and sums with negated numbers; negation is exact -/
theorem _root_.PcSaft.Spec.Agrees.mul_neg (h : Relative a) (hx : Agrees a k x x') (hy : Agrees a l y (-y')) :
    Agrees a (k + l + 1) (x * y) (-(x' * y')) := by
  have e := hx.mulE h hy
  refine e.trans h (.round h ?_ (e.val_nonneg h))
  have := h.mul x'.val y'.val
  change |-a.mul x'.val y'.val - x'.val * -y'.val| ≤ a.u * |x'.val * -y'.val|
  rw [_root_.mul_neg, abs_neg, neg_sub_neg, abs_sub_comm]
  exact this

theorem _root_.PcSaft.Spec.Agrees.neg_mul (h : Relative a) (hx : Agrees a k x (-x')) (hy : Agrees a l y y') :
    Agrees a (k + l + 1) (x * y) (-(x' * y')) := by
  have e := hx.mulE h hy
  refine e.trans h (.round h ?_ (e.val_nonneg h))
  have := h.mul x'.val y'.val
  change |-a.mul x'.val y'.val - -x'.val * y'.val| ≤ a.u * |-x'.val * y'.val|
  rw [_root_.neg_mul, abs_neg, neg_sub_neg, abs_sub_comm]
  exact this

theorem _root_.PcSaft.Spec.Agrees.sub_neg (h : Relative a) (hx : Agrees a k x x') (hy : Agrees a k y (-y')) :
    Agrees a (k + 1) (x + y) (x' - y') := by
  have e := hx.addE hy
  refine e.trans h (.round h ?_ (e.val_nonneg h))
  have := h.sub x'.val y'.val
  change |a.sub x'.val y'.val - (x'.val + -y'.val)| ≤ a.u * |x'.val + -y'.val|
  rw [← sub_eq_add_neg]
  exact this

/-- the negated quotient with a negative denominator -/
theorem _root_.PcSaft.Spec.Agrees.div_neg (h : Relative a) (hx : Agrees a k x x') (hy : Agrees a l y (-y')) (h0 : 0 < y) :
    Agrees a (k + l + 1) (x / y) (-(x' / y')) := by
  have e := hx.mulE h (hy.invE h h0)
  rw [← div_eq_mul_inv] at e
  have hy' : 0 < -y'.val := hy.val_pos h h0
  refine e.trans h (.round h ?_ (e.val_nonneg h))
  have := h.div x'.val y'.val (by linarith)
  change |-a.div x'.val y'.val - x'.val * (-y'.val)⁻¹| ≤ a.u * |x'.val * (-y'.val)⁻¹|
  rw [inv_neg, _root_.mul_neg, ← div_eq_mul_inv, abs_neg, neg_sub_neg, abs_sub_comm]
  exact this

theorem _root_.PcSaft.Spec.Agrees.sqrt (h : Relative a) (hx : Agrees a k x x') :
    Agrees a (k + 1) (Real.sqrt x) (F64.sqrt x') := by
  have g := growth_pow h k
  have g' : Real.sqrt (Growth a ^ k) ≤ Growth a ^ k := Real.sqrt_le_iff.2 ⟨by linarith, by nlinarith⟩
  have e : Agrees a k (Real.sqrt x) ⟨Real.sqrt x'.val⟩ := by
    refine ⟨Real.sqrt_nonneg _, ?_, ?_⟩
    · calc Real.sqrt x ≤ Real.sqrt (x'.val * Growth a ^ k) := Real.sqrt_le_sqrt hx.lower
        _ = Real.sqrt x'.val * Real.sqrt (Growth a ^ k) := Real.sqrt_mul (hx.val_nonneg h) _
        _ ≤ _ := mul_le_mul_of_nonneg_left g' (Real.sqrt_nonneg _)
    · calc Real.sqrt x'.val ≤ Real.sqrt (x * Growth a ^ k) := Real.sqrt_le_sqrt hx.upper
        _ = Real.sqrt x * Real.sqrt (Growth a ^ k) := Real.sqrt_mul hx.nonneg _
        _ ≤ _ := mul_le_mul_of_nonneg_left g' (Real.sqrt_nonneg _)
  exact e.trans h (.round h (h.sqrt _ (hx.val_nonneg h)) (Real.sqrt_nonneg _))

theorem _root_.PcSaft.Spec.Agrees.powE (h : Relative a) (hx : Agrees a k x x') (j : ℕ) :
    Agrees a (k * j) (x ^ j) ⟨x'.val ^ j⟩ := by
  refine ⟨pow_nonneg hx.nonneg j, ?_, ?_⟩
  · change x ^ j ≤ x'.val ^ j * _
    rw [pow_mul, ← mul_pow]
    exact pow_le_pow_left₀ hx.nonneg hx.lower j
  · change x'.val ^ j ≤ x ^ j * _
    rw [pow_mul, ← mul_pow]
    exact pow_le_pow_left₀ (hx.val_nonneg h) hx.upper j

theorem _root_.PcSaft.Spec.Agrees.powi (h : Relative a) (hx : Agrees a k x x') (j : ℕ) :
    Agrees a (k * j + j) (x ^ j) (F64.powi x' j) := by
  have e := hx.powE h j
  obtain ⟨f, hf, f1, f2⟩ := h.powi x'.val j
  have h0 : 0 ≤ x'.val ^ j := pow_nonneg (hx.val_nonneg h) j
  refine e.trans h ⟨h0, ?_, ?_⟩
  · change x'.val ^ j ≤ a.powi x'.val j * _
    rw [hf, mul_assoc]
    exact le_mul_of_one_le_right h0 f1
  · change a.powi x'.val j ≤ _
    rw [hf]
    exact mul_le_mul_of_nonneg_left f2 h0

/-- even powers of a negated number -/
theorem _root_.PcSaft.Spec.Agrees.powi_neg (h : Relative a) (hx : Agrees a k x (-x')) {j : ℕ} (hj : Even j) :
    Agrees a (k * j + j) (x ^ j) (F64.powi x' j) := by
  have e := hx.powE h j
  obtain ⟨f, hf, f1, f2⟩ := h.powi x'.val j
  have e1 : (-x'.val) ^ j = x'.val ^ j := hj.neg_pow _
  have h0 : 0 ≤ (-x'.val) ^ j := pow_nonneg (hx.val_nonneg h) j
  refine e.trans h ⟨h0, ?_, ?_⟩
  · change (-x'.val) ^ j ≤ a.powi x'.val j * _
    rw [hf, mul_assoc, ← e1]
    exact le_mul_of_one_le_right h0 f1
  · change a.powi x'.val j ≤ (-x'.val) ^ j * _
    rw [hf, ← e1]
    exact mul_le_mul_of_nonneg_left f2 h0

theorem _root_.PcSaft.Spec.Agrees.lit (h : Relative a) (m : ℕ) (s : Bool) (e : ℕ) :
    Agrees a 1 (OfScientific.ofScientific m s e) (OfScientific.ofScientific m s e : Rd a) :=
  .round h (h.lit m s e) (by
    have : (0 : ℚ) ≤ OfScientific.ofScientific m s e := by
      rw [show (OfScientific.ofScientific m s e : ℚ) = Rat.ofScientific m s e from rfl, Rat.ofScientific_def]
      split_ifs
      · exact Rat.mkRat_nonneg (by positivity) _
      · positivity
    have h2 : (OfScientific.ofScientific m s e : ℝ) = ((OfScientific.ofScientific m s e : ℚ) : ℝ) := by
      norm_cast
    rw [h2]
    exact_mod_cast this)

theorem _root_.PcSaft.Spec.Agrees.one (h : Relative a) : Agrees a 0 1 (1.0 : Rd a) := by
  have e : (1.0 : Rd a) = ⟨1⟩ := Rd.ext h.one
  rw [e]
  exact .exact zero_le_one

theorem _root_.PcSaft.Spec.Agrees.pi (h : Relative a) : Agrees a 1 Real.pi (F64.pi : Rd a) := .round h h.pi Real.pi_pos.le

theorem _root_.PcSaft.Spec.Agrees.recip (h : Relative a) (hx : Agrees a k x x') (h0 : 0 < x) :
    Agrees a (k + 1) x⁻¹ (DualNum.recip x') := by
  have := (Agrees.one h).div h hx h0
  rw [zero_add, one_div] at this
  exact this

theorem _root_.PcSaft.Spec.Agrees.recip_neg (h : Relative a) (hx : Agrees a k x (-x')) (h0 : 0 < x) :
    Agrees a (k + 1) x⁻¹ (-(DualNum.recip x')) := by
  have := (Agrees.one h).div_neg h hx h0
  rw [zero_add, one_div] at this
  exact this

theorem _root_.PcSaft.Spec.Agrees.foldl (h : Relative a) {n : ℕ} {x : Fin n → ℝ} {x' : Fin n → Rd a}
    (hx : ∀ i, Agrees a k (x i) (x' i)) {y : ℝ} {y' : Rd a} (hy : Agrees a k y y') :
    Agrees a (k + n) (y + ∑ i, x i) (Fin.foldl n (fun acc i => acc + x' i) y') := by
  induction n with
  | zero => simpa using hy
  | succ n ih =>
    rw [Fin.foldl_succ_last, Fin.sum_univ_castSucc, ← add_assoc y]
    exact (ih fun i => hx i.castSucc).add h ((hx (Fin.last n)).mono h (Nat.le_add_right k n))

theorem _root_.PcSaft.Spec.Agrees.sumFin (h : Relative a) {n : ℕ} {x : Fin n → ℝ} {x' : Fin n → Rd a}
    (hx : ∀ i, Agrees a k (x i) (x' i)) : Agrees a (k + n) (∑ i, x i) (PcSaft.sumFin x') := by
  have h0 : Agrees a k 0 (c (0.0 : Rd a) : Rd a) := by
    have : (c (0.0 : Rd a) : Rd a) = ⟨0⟩ := Rd.ext (a.lit_zero _ _)
    rw [this]
    exact (Agrees.exact le_rfl).mono h (Nat.zero_le _)
  have := Agrees.foldl h hx h0
  rwa [zero_add] at this

/-! ### Differences from one -/

/-- the inner part of `1 - w`; `w` at most a quarter -/
theorem _root_.PcSaft.Spec.Agrees.one_sub_quarter (h : Relative a) (hx : Agrees a k x x') (h4 : x ≤ 1 / 4)
    (hg : Growth a ^ k ≤ 3) : Agrees a (k + 1) (1 - x) (-(x' - 1.0)) := by
  have e1 : (1.0 : Rd a).val = 1 := h.one
  have g := growth_pow h k
  have h0 := hx.nonneg
  have e : Agrees a k (1 - x) ⟨1 - x'.val⟩ := by
    refine ⟨by linarith, ?_, ?_⟩
    · change 1 - x ≤ (1 - x'.val) * Growth a ^ k
      have h1 := hx.upper
      generalize Growth a ^ k = Q at *
      have h2 : 1 - x ≤ (1 - x * Q) * Q := by
        have : (1 - x * Q) * Q - (1 - x) = (Q - 1) * (1 - x * (Q + 1)) := by ring
        have h5 : 0 ≤ (Q - 1) * (1 - x * (Q + 1)) := mul_nonneg (by linarith) (by nlinarith)
        linarith
      have h3 : (1 - x * Q) * Q ≤ (1 - x'.val) * Q := mul_le_mul_of_nonneg_right (by linarith) (by positivity)
      linarith
    · change 1 - x'.val ≤ (1 - x) * Growth a ^ k
      have h1 := hx.lower
      have h2 : x / Growth a ^ k ≤ x'.val := by rwa [div_le_iff₀ (by linarith)]
      have h3 : 1 - x / Growth a ^ k ≤ (1 - x) * Growth a ^ k := by
        have : (1 - x) * Growth a ^ k - (1 - x / Growth a ^ k)
            = (Growth a ^ k - 1) * (Growth a ^ k - x * (Growth a ^ k + 1)) / Growth a ^ k := by
          field_simp
          ring
        have h5 : 0 ≤ (Growth a ^ k - 1) * (Growth a ^ k - x * (Growth a ^ k + 1)) / Growth a ^ k :=
          div_nonneg (mul_nonneg (by linarith) (by nlinarith)) (by linarith)
        linarith
      linarith
  refine e.trans h (.round h ?_ (e.val_nonneg h))
  have := h.sub x'.val 1
  change |-a.sub x'.val (a.lit 10 true 1) - (1 - x'.val)| ≤ a.u * |1 - x'.val|
  rw [h.one, abs_sub_comm 1, show -a.sub x'.val 1 - (1 - x'.val) = -(a.sub x'.val 1 - (x'.val - 1)) by ring, abs_neg]
  exact this

theorem _root_.PcSaft.Spec.Agrees.one_sub_halfE (h : Relative a) (hx : Agrees a k x x') (h4 : x ≤ 1 / 2)
    (hg : Growth a ^ k ≤ 3 / 2) : Agrees a (2 * k) (1 - x) ⟨1 - x'.val⟩ := by
  have g := growth_pow h k
  have h0 := hx.nonneg
  have e2 : Growth a ^ (2 * k) = Growth a ^ k * Growth a ^ k := by rw [two_mul, pow_add]
  refine ⟨by linarith, ?_, ?_⟩
  · change 1 - x ≤ (1 - x'.val) * _
    rw [e2]
    have h1 := hx.upper
    generalize Growth a ^ k = Q at *
    have h2 : 1 - x ≤ (1 - x * Q) * (Q * Q) := by
      have : (1 - x * Q) * (Q * Q) - (1 - x) = (Q - 1) * ((Q + 1) - x * (Q * Q + Q + 1)) := by ring
      have h5 : 0 ≤ (Q - 1) * ((Q + 1) - x * (Q * Q + Q + 1)) := mul_nonneg (by linarith) (by nlinarith)
      linarith
    have h3 : (1 - x * Q) * (Q * Q) ≤ (1 - x'.val) * (Q * Q) := mul_le_mul_of_nonneg_right (by linarith) (by positivity)
    linarith
  · change 1 - x'.val ≤ (1 - x) * _
    rw [e2]
    have h1 := hx.lower
    have h6 := hx.val_nonneg h
    generalize Growth a ^ k = Q at *
    have h2 : x / Q ≤ x'.val := by rwa [div_le_iff₀ (by linarith)]
    have h3 : 1 - x / Q ≤ (1 - x) * Q := by
      have : (1 - x) * Q - (1 - x / Q) = (Q - 1) * (Q - x * (Q + 1)) / Q := by
        field_simp
        ring
      have h5 : 0 ≤ (Q - 1) * (Q - x * (Q + 1)) / Q :=
        div_nonneg (mul_nonneg (by linarith) (by nlinarith)) (by linarith)
      linarith
    have h4 : (1 - x) * Q ≤ (1 - x) * (Q * Q) := mul_le_mul_of_nonneg_left (by nlinarith) (by linarith)
    linarith

/-- the same with `w` at most a half -/
theorem _root_.PcSaft.Spec.Agrees.one_sub_half (h : Relative a) (hx : Agrees a k x x') (h4 : x ≤ 1 / 2)
    (hg : Growth a ^ k ≤ 3 / 2) : Agrees a (2 * k + 1) (1 - x) (-(x' - 1.0)) := by
  have e := hx.one_sub_halfE h h4 hg
  refine e.trans h (.round h ?_ (e.val_nonneg h))
  have := h.sub x'.val 1
  change |-a.sub x'.val (a.lit 10 true 1) - (1 - x'.val)| ≤ a.u * |1 - x'.val|
  rw [h.one, abs_sub_comm 1, show -a.sub x'.val 1 - (1 - x'.val) = -(a.sub x'.val 1 - (x'.val - 1)) by ring, abs_neg]
  exact this

/-- the same with the summands exchanged -/
theorem _root_.PcSaft.Spec.Agrees.neg_add_half (h : Relative a) (hx : Agrees a k x x') (h4 : x ≤ 1 / 2)
    (hg : Growth a ^ k ≤ 3 / 2) : Agrees a (2 * k + 1) (1 - x) (-x' + 1.0) := by
  have e := hx.one_sub_halfE h h4 hg
  refine e.trans h (.round h ?_ (e.val_nonneg h))
  have := h.add (-x'.val) 1
  change |a.add (-x'.val) (a.lit 10 true 1) - (1 - x'.val)| ≤ a.u * |1 - x'.val|
  rw [h.one, show 1 - x'.val = -x'.val + 1 by ring]
  exact this

end Spec.Agrees

/-! ### Signed quantities -/

namespace Spec.Differs
variable {k l j : ℕ} {s t x y : ℝ} {x' y' : Rd a}

theorem _root_.PcSaft.Spec.Differs.size_nonneg (hx : Differs a k s x x') : 0 ≤ s := (abs_nonneg x).trans hx.size

theorem _root_.PcSaft.Spec.Differs.mono (h : Relative a) (hx : Differs a k s x x') (hkl : k ≤ l) (hst : s ≤ t) :
    Differs a l t x x' :=
  ⟨hx.size.trans hst, hx.error.trans (mul_le_mul (by linarith [growth_mono h hkl]) hst hx.size_nonneg
    (by linarith [growth_pow h l]))⟩

theorem _root_.PcSaft.Spec.Agrees.differs (h : Relative a) (hx : Agrees a k x x') : Differs a k x x x' := by
  have g := growth_pow h k
  have h0 := hx.nonneg
  have h1 := hx.upper
  have h2 := hx.lower
  refine ⟨(abs_of_nonneg h0).le, abs_le.2 ⟨?_, by linarith⟩⟩
  have h3 := hx.val_nonneg h
  generalize Growth a ^ k = Q at *
  rcases le_or_gt x x'.val with h4 | h4
  · nlinarith
  · nlinarith

theorem _root_.PcSaft.Spec.Differs.neg (hx : Differs a k s x x') : Differs a k s (-x) (-x') :=
  ⟨by rw [abs_neg]; exact hx.size, by
    have := hx.error
    change |-x'.val - -x| ≤ _
    rwa [neg_sub_neg, abs_sub_comm]⟩

theorem _root_.PcSaft.Spec.Differs.abs_val (hx : Differs a k s x x') : |x'.val| ≤ Growth a ^ k * s := by
  have h1 := hx.error
  have h2 := hx.size
  have h3 := abs_sub_abs_le_abs_sub x'.val x
  linarith

/-- one operation on a value that carries an error already -/
theorem _root_.PcSaft.Spec.Differs.round (h : Relative a) (hx : Differs a k s x x') {r : ℝ}
    (hr : |r - x'.val| ≤ a.u * |x'.val|) : Differs a (k + 1) s x ⟨r⟩ := by
  refine ⟨hx.size, ?_⟩
  have h1 := hx.error
  have h2 := hx.abs_val
  have h3 := abs_sub_le r x'.val x
  have h4 := growth_ge h
  have h5 : 0 ≤ Growth a ^ k * s := mul_nonneg (growth_pos h k).le hx.size_nonneg
  have h6 : a.u * |x'.val| ≤ a.u * (Growth a ^ k * s) := mul_le_mul_of_nonneg_left h2 a.u_nonneg
  have h7 : (1 + a.u) * (Growth a ^ k * s) ≤ Growth a * (Growth a ^ k * s) := mul_le_mul_of_nonneg_right h4 h5
  have e : (Growth a ^ (k + 1) - 1) * s = Growth a * (Growth a ^ k * s) - s := by rw [pow_succ]; ring
  rw [e]
  change |r - x| ≤ _
  linarith

theorem _root_.PcSaft.Spec.Differs.addE (hx : Differs a k s x x') (hy : Differs a k t y y') :
    Differs a k (s + t) (x + y) ⟨x'.val + y'.val⟩ := by
  refine ⟨(abs_add_le _ _).trans (add_le_add hx.size hy.size), ?_⟩
  have h1 := hx.error
  have h2 := hy.error
  have h3 := abs_add_le (x'.val - x) (y'.val - y)
  change |x'.val + y'.val - (x + y)| ≤ _
  rw [show x'.val + y'.val - (x + y) = x'.val - x + (y'.val - y) by ring, mul_add]
  linarith

theorem _root_.PcSaft.Spec.Differs.mulE (h : Relative a) (hx : Differs a k s x x') (hy : Differs a l t y y') :
    Differs a (k + l) (s * t) (x * y) ⟨x'.val * y'.val⟩ := by
  refine ⟨by rw [abs_mul]; exact mul_le_mul hx.size hy.size (abs_nonneg _) hx.size_nonneg, ?_⟩
  have h1 := hx.error
  have h2 := hy.error
  have h3 := hx.abs_val
  have hs := hx.size_nonneg
  have ht := hy.size_nonneg
  have g1 := growth_pow h k
  have g2 := growth_pow h l
  change |x'.val * y'.val - x * y| ≤ _
  have e : x'.val * y'.val - x * y = x'.val * (y'.val - y) + (x'.val - x) * y := by ring
  rw [e]
  have h4 := abs_add_le (x'.val * (y'.val - y)) ((x'.val - x) * y)
  rw [abs_mul, abs_mul] at h4
  have h5 : |x'.val| * |y'.val - y| ≤ Growth a ^ k * s * ((Growth a ^ l - 1) * t) :=
    mul_le_mul h3 h2 (abs_nonneg _) (by positivity)
  have h6 : |x'.val - x| * |y| ≤ (Growth a ^ k - 1) * s * t :=
    mul_le_mul h1 hy.size (abs_nonneg _) (mul_nonneg (by linarith) hs)
  have e2 : (Growth a ^ (k + l) - 1) * (s * t) = Growth a ^ k * s * ((Growth a ^ l - 1) * t) + (Growth a ^ k - 1) * s * t := by
    rw [pow_add]
    ring
  rw [e2]
  linarith

theorem _root_.PcSaft.Spec.Differs.add (h : Relative a) (hx : Differs a k s x x') (hy : Differs a k t y y') :
    Differs a (k + 1) (s + t) (x + y) (x' + y') := (hx.addE hy).round h (h.add _ _)

theorem _root_.PcSaft.Spec.Differs.sub (h : Relative a) (hx : Differs a k s x x') (hy : Differs a k t y y') :
    Differs a (k + 1) (s + t) (x - y) (x' - y') := by
  have := hx.addE hy.neg
  rw [← sub_eq_add_neg] at this
  refine this.round h ?_
  change |a.sub x'.val y'.val - (x'.val + -y'.val)| ≤ a.u * |x'.val + -y'.val|
  rw [← sub_eq_add_neg]
  exact h.sub _ _

theorem _root_.PcSaft.Spec.Differs.mul (h : Relative a) (hx : Differs a k s x x') (hy : Differs a l t y y') :
    Differs a (k + l + 1) (s * t) (x * y) (x' * y') := (hx.mulE h hy).round h (h.mul _ _)

theorem _root_.PcSaft.Spec.Differs.div (h : Relative a) (hx : Differs a k s x x') (hy : Agrees a l y y') (h0 : 0 < y) :
    Differs a (k + l + 1) (s / y) (x / y) (x' / y') := by
  have := hx.mulE h ((hy.invE h h0).differs h)
  rw [← div_eq_mul_inv, ← div_eq_mul_inv] at this
  refine this.round h ?_
  change |a.div x'.val y'.val - x'.val * y'.val⁻¹| ≤ a.u * |x'.val * y'.val⁻¹|
  rw [← div_eq_mul_inv]
  exact h.div _ _ (hy.val_pos h h0).ne'

theorem _root_.PcSaft.Spec.Differs.foldl (h : Relative a) {n : ℕ} {s x : Fin n → ℝ} {x' : Fin n → Rd a}
    (hx : ∀ i, Differs a k (s i) (x i) (x' i)) {t y : ℝ} {y' : Rd a} (hy : Differs a k t y y') :
    Differs a (k + n) (t + ∑ i, s i) (y + ∑ i, x i) (Fin.foldl n (fun acc i => acc + x' i) y') := by
  induction n with
  | zero => simpa using hy
  | succ n ih =>
    rw [Fin.foldl_succ_last, Fin.sum_univ_castSucc, Fin.sum_univ_castSucc, ← add_assoc t, ← add_assoc y]
    exact (ih fun i => hx i.castSucc).add h ((hx (Fin.last n)).mono h (Nat.le_add_right k n) le_rfl)

theorem _root_.PcSaft.Spec.Differs.zero : Differs a k 0 0 (c (0.0 : Rd a) : Rd a) := by
  have : (c (0.0 : Rd a) : Rd a) = ⟨0⟩ := Rd.ext (a.lit_zero _ _)
  rw [this]
  exact ⟨by simp, by simp⟩

theorem _root_.PcSaft.Spec.Differs.sumFin (h : Relative a) {n : ℕ} {s x : Fin n → ℝ} {x' : Fin n → Rd a}
    (hx : ∀ i, Differs a k (s i) (x i) (x' i)) : Differs a (k + n) (∑ i, s i) (∑ i, x i) (PcSaft.sumFin x') := by
  have := Differs.foldl h hx (Differs.zero (k := k))
  rwa [zero_add, zero_add] at this

/-- a number that is not much smaller than its size has a small relative error -/
theorem _root_.PcSaft.Spec.Differs.agrees (h : Relative a) (hx : Differs a k s x x') {κ : ℕ} (hs : s ≤ κ * x)
    (h0 : 0 ≤ x) (hκ : κ * (Growth a ^ k - 1) ≤ 1 / 2) : Agrees a (k * (2 * κ)) x x' := by
  have g := growth_pow h k
  have h1 := abs_le.1 hx.error
  have b := one_add_mul_le_pow (show (-2 : ℝ) ≤ Growth a ^ k - 1 by linarith) (2 * κ)
  rw [add_sub_cancel, ← pow_mul] at b
  push_cast at b
  have h2 : (Growth a ^ k - 1) * s ≤ (Growth a ^ k - 1) * (κ * x) := mul_le_mul_of_nonneg_left hs (by linarith)
  set e := κ * (Growth a ^ k - 1) with he
  have e0 : 0 ≤ e := mul_nonneg (Nat.cast_nonneg _) (by linarith)
  have h3 : (Growth a ^ k - 1) * (κ * x) = e * x := by rw [he]; ring
  have hb : 1 + 2 * e ≤ Growth a ^ (k * (2 * κ)) := by rw [he]; linarith
  refine ⟨h0, ?_, ?_⟩
  · have h4 : x * (1 - e) ≤ x'.val := by linarith
    have h6 : 0 ≤ x * (1 - e) := mul_nonneg h0 (by linarith)
    calc x ≤ x * (1 - e) * (1 + 2 * e) := by nlinarith [mul_nonneg h0 e0]
      _ ≤ x'.val * (1 + 2 * e) := mul_le_mul_of_nonneg_right h4 (by linarith)
      _ ≤ _ := mul_le_mul_of_nonneg_left hb (h6.trans h4)
  · have : x * (1 + 2 * e) ≤ x * Growth a ^ (k * (2 * κ)) := mul_le_mul_of_nonneg_left hb h0
    nlinarith [mul_nonneg h0 e0]

end Spec.Differs
end PcSaft
