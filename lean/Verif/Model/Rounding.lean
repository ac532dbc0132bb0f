import Verif.Num
import Mathlib.Analysis.SpecialFunctions.Exp
import Mathlib.Analysis.Complex.Exponential
import Mathlib.Data.Int.Log
import Mathlib.Algebra.Order.Round

/-!
# Arithmetic with rounding

`f64` arithmetic does not return the exact result of an operation but a nearby number. `Arithmetic` collects
what is assumed about a floating point arithmetic and its elementary functions; `Rd a` is the number type that
computes with the arithmetic `a`. Nothing is assumed about an operation outside its domain (division by zero,
logarithm or root of a negative number) or if the exact result is too large to be represented, so that
infinities and NaN are covered by "an arbitrary result".
-/

namespace PcSaft

/-- A result `a'` is accurate with unit `u`: if the exact result `a` is in the range of the number format, the
error is at most `u` in units of `1 + |a|`. (Correct rounding to `f64` satisfies this with `u = 2⁻⁵³`,
including gradual underflow; the elementary functions of common libraries do with a few units.) -/
def Accurate (u a a' : ℝ) : Prop := u * |a| ≤ 1 → |a' - a| ≤ u * (1 + |a|)

/-- A floating point arithmetic. -/
structure Arithmetic where
  /-- the unit of rounding errors -/
  u : ℝ
  u_nonneg : 0 ≤ u
  add : ℝ → ℝ → ℝ
  sub : ℝ → ℝ → ℝ
  mul : ℝ → ℝ → ℝ
  div : ℝ → ℝ → ℝ
  /-- decimal literals -/
  lit : ℕ → Bool → ℕ → ℝ
  powi : ℝ → ℕ → ℝ
  powf : ℝ → ℝ → ℝ
  sqrt : ℝ → ℝ
  cbrt : ℝ → ℝ
  ln : ℝ → ℝ
  exp : ℝ → ℝ
  sin : ℝ → ℝ
  pi : ℝ
  expm1 : ℝ → ℝ
  ln1p : ℝ → ℝ
  add_acc : ∀ x y, Accurate u (x + y) (add x y)
  sub_acc : ∀ x y, Accurate u (x - y) (sub x y)
  mul_acc : ∀ x y, Accurate u (x * y) (mul x y)
  div_acc : ∀ x y, y ≠ 0 → Accurate u (x / y) (div x y)
  lit_acc : ∀ m s e, Accurate u (OfScientific.ofScientific m s e) (lit m s e)
  /-- an integer power is a product of as many factors, computed by multiplications -/
  powi_acc : ∀ (x : ℝ) (k : ℕ), k * u ≤ 1 → u * |x ^ k| ≤ 1 → |powi x k - x ^ k| ≤ 2 * k * u * (1 + |x ^ k|)
  powf_acc : ∀ x y, 0 < x → Accurate u (x ^ y) (powf x y)
  sqrt_acc : ∀ x, 0 ≤ x → Accurate u (Real.sqrt x) (sqrt x)
  cbrt_acc : ∀ x : ℝ, Accurate u (F64.cbrt x) (cbrt x)
  ln_acc : ∀ x, 0 < x → Accurate u (Real.log x) (ln x)
  exp_acc : ∀ x, Accurate u (Real.exp x) (exp x)
  sin_acc : ∀ x, Accurate u (Real.sin x) (sin x)
  pi_acc : Accurate u Real.pi pi
  expm1_acc : ∀ x, Accurate u (Real.exp x - 1) (expm1 x)
  ln1p_acc : ∀ x, 0 < 1 + x → Accurate u (Real.log (1 + x)) (ln1p x)
  /-- products with zero, quotients of zero and the literal zero are exact -/
  zero_mul : ∀ x, mul 0 x = 0
  mul_zero : ∀ x, mul x 0 = 0
  zero_div : ∀ x, x ≠ 0 → div 0 x = 0
  lit_zero : ∀ s e, lit 0 s e = 0

/-- a number of the arithmetic `a` -/
@[ext] structure Rd (a : Arithmetic) where
  val : ℝ

/-- negation, absolute value, minimum and comparisons are exact -/
@[reducible] noncomputable instance Rd.instF64 (a : Arithmetic) : F64 (Rd a) where
  add x y := ⟨a.add x.val y.val⟩
  sub x y := ⟨a.sub x.val y.val⟩
  mul x y := ⟨a.mul x.val y.val⟩
  div x y := ⟨a.div x.val y.val⟩
  neg x := ⟨-x.val⟩
  ofScientific m s e := ⟨a.lit m s e⟩
  powi x k := ⟨a.powi x.val k⟩
  powf x y := ⟨a.powf x.val y.val⟩
  sqrt x := ⟨a.sqrt x.val⟩
  cbrt x := ⟨a.cbrt x.val⟩
  ln x := ⟨a.ln x.val⟩
  exp x := ⟨a.exp x.val⟩
  sin x := ⟨a.sin x.val⟩
  abs x := ⟨|x.val|⟩
  min x y := ⟨min x.val y.val⟩
  lt x y := decide (x.val < y.val)
  eq x y := decide (x.val = y.val)
  isNan _ := false
  pi := ⟨a.pi⟩
  expm1 x := ⟨a.expm1 x.val⟩
  ln1p x := ⟨a.ln1p x.val⟩

/-! ### Two arithmetics -/

theorem accurate_self {u : ℝ} (hu : 0 ≤ u) (a : ℝ) : Accurate u a a := by
  intro _
  rw [sub_self, abs_zero]
  positivity

theorem ofScientific_zero (s : Bool) (e : ℕ) : (OfScientific.ofScientific 0 s e : ℝ) = 0 := by
  have h : (Rat.ofScientific 0 s e : ℚ) = 0 := by
    rw [Rat.ofScientific_def]
    split_ifs <;> simp
  simpa [OfScientific.ofScientific] using h

/-- exact arithmetic -/
noncomputable def Arithmetic.exact : Arithmetic where
  u := 0
  u_nonneg := le_refl 0
  add x y := x + y
  sub x y := x - y
  mul x y := x * y
  div x y := x / y
  lit m s e := OfScientific.ofScientific m s e
  powi x k := x ^ k
  powf x y := x ^ y
  sqrt := Real.sqrt
  cbrt := F64.cbrt
  ln := Real.log
  exp := Real.exp
  sin := Real.sin
  pi := Real.pi
  expm1 x := Real.exp x - 1
  ln1p x := Real.log (1 + x)
  add_acc _ _ := accurate_self le_rfl _
  sub_acc _ _ := accurate_self le_rfl _
  mul_acc _ _ := accurate_self le_rfl _
  div_acc _ _ _ := accurate_self le_rfl _
  lit_acc _ _ _ := accurate_self le_rfl _
  powi_acc _ _ _ _ := by simp
  powf_acc _ _ _ := accurate_self le_rfl _
  sqrt_acc _ _ := accurate_self le_rfl _
  cbrt_acc _ := accurate_self le_rfl _
  ln_acc _ _ := accurate_self le_rfl _
  exp_acc _ := accurate_self le_rfl _
  sin_acc _ := accurate_self le_rfl _
  pi_acc := accurate_self le_rfl _
  expm1_acc _ := accurate_self le_rfl _
  ln1p_acc _ _ := accurate_self le_rfl _
  zero_mul _ := by simp
  mul_zero _ := by simp
  zero_div _ _ := by simp
  lit_zero := ofScientific_zero

/-- powers by repeated multiplication, rounding after every step -/
def powRounded (fl : ℝ → ℝ) (x : ℝ) : ℕ → ℝ
  | 0 => 1
  | 1 => x
  | k + 2 => fl (powRounded fl x (k + 1) * x)

theorem powRounded_acc {fl : ℝ → ℝ} {u : ℝ} (hu : 0 ≤ u) (h : ∀ x, |fl x - x| ≤ u * |x|) (x : ℝ) (k : ℕ) :
    |powRounded fl x k - x ^ k| ≤ ((1 + u) ^ k - 1) * |x ^ k| := by
  induction k with
  | zero => simp [powRounded]
  | succ k ih =>
    match k with
    | 0 =>
      simp only [powRounded, zero_add, pow_one, sub_self, abs_zero, add_sub_cancel_left]
      positivity
    | k + 1 =>
      rw [show powRounded fl x (k + 1 + 1) = fl (powRounded fl x (k + 1) * x) from rfl]
      set P := powRounded fl x (k + 1)
      have h1 := h (P * x)
      have h2 : |P * x| ≤ (1 + u) ^ (k + 1) * |x ^ (k + 1 + 1)| := by
        have : |P| ≤ (1 + u) ^ (k + 1) * |x ^ (k + 1)| := by
          have := abs_sub_abs_le_abs_sub P (x ^ (k + 1))
          linarith
        calc |P * x| = |P| * |x| := abs_mul _ _
          _ ≤ (1 + u) ^ (k + 1) * |x ^ (k + 1)| * |x| := mul_le_mul_of_nonneg_right this (abs_nonneg x)
          _ = _ := by rw [mul_assoc, ← abs_mul, ← pow_succ]
      have h3 : |P * x - x ^ (k + 1 + 1)| ≤ ((1 + u) ^ (k + 1) - 1) * |x ^ (k + 1 + 1)| := by
        calc |P * x - x ^ (k + 1 + 1)| = |P - x ^ (k + 1)| * |x| := by
              rw [← abs_mul]
              congr 1
              ring
          _ ≤ ((1 + u) ^ (k + 1) - 1) * |x ^ (k + 1)| * |x| := mul_le_mul_of_nonneg_right ih (abs_nonneg x)
          _ = _ := by rw [mul_assoc, ← abs_mul, ← pow_succ]
      calc |fl (P * x) - x ^ (k + 1 + 1)| ≤ |fl (P * x) - P * x| + |P * x - x ^ (k + 1 + 1)| :=
            abs_sub_le _ _ _
        _ ≤ u * |P * x| + ((1 + u) ^ (k + 1) - 1) * |x ^ (k + 1 + 1)| := add_le_add h1 h3
        _ ≤ u * ((1 + u) ^ (k + 1) * |x ^ (k + 1 + 1)|) + ((1 + u) ^ (k + 1) - 1) * |x ^ (k + 1 + 1)| := by
            gcongr
        _ = _ := by ring

theorem one_add_pow_sub_one_le {u : ℝ} (hu : 0 ≤ u) {k : ℕ} (h : k * u ≤ 1) : (1 + u) ^ k - 1 ≤ 2 * k * u := by
  have h1 : (1 + u) ^ k ≤ Real.exp (k * u) := by
    rw [Real.exp_nat_mul]
    exact pow_le_pow_left₀ (by linarith) (by linarith [Real.add_one_le_exp u]) k
  have h0 : 0 ≤ k * u := by positivity
  have h2 := Real.exp_bound' h0 h (n := 2) (by norm_num)
  have h3 : Real.exp (k * u) ≤ 1 + k * u + (k * u) ^ 2 := by
    refine h2.trans ?_
    simp only [Finset.sum_range_succ, Finset.range_zero, Finset.sum_empty]
    norm_num
    nlinarith [sq_nonneg (k * u)]
  nlinarith

/-- An arithmetic that rounds the exact result of every operation, with powers by repeated multiplication. -/
noncomputable def Arithmetic.ofRounding (fl : ℝ → ℝ) (u : ℝ) (hu : 0 ≤ u) (h : ∀ x, |fl x - x| ≤ u * |x|) :
    Arithmetic :=
  have acc : ∀ x, Accurate u x (fl x) := fun x _ => (h x).trans (by nlinarith [abs_nonneg x])
  have h0 : fl 0 = 0 := by simpa using h 0
  { u := u
    u_nonneg := hu
    add := fun x y => fl (x + y)
    sub := fun x y => fl (x - y)
    mul := fun x y => fl (x * y)
    div := fun x y => fl (x / y)
    lit := fun m s e => fl (OfScientific.ofScientific m s e)
    powi := powRounded fl
    powf := fun x y => fl (x ^ y)
    sqrt := fun x => fl (Real.sqrt x)
    cbrt := fun x => fl (F64.cbrt x)
    ln := fun x => fl (Real.log x)
    exp := fun x => fl (Real.exp x)
    sin := fun x => fl (Real.sin x)
    pi := fl Real.pi
    expm1 := fun x => fl (Real.exp x - 1)
    ln1p := fun x => fl (Real.log (1 + x))
    add_acc := fun _ _ => acc _
    sub_acc := fun _ _ => acc _
    mul_acc := fun _ _ => acc _
    div_acc := fun _ _ _ => acc _
    lit_acc := fun _ _ _ => acc _
    powi_acc := fun x k hk _ => (powRounded_acc hu h x k).trans (by
      have h1 := one_add_pow_sub_one_le hu hk
      have h2 : 0 ≤ 2 * (k : ℝ) * u := by positivity
      calc ((1 + u) ^ k - 1) * |x ^ k| ≤ (2 * k * u) * |x ^ k| := mul_le_mul_of_nonneg_right h1 (abs_nonneg _)
        _ ≤ _ := by nlinarith [abs_nonneg (x ^ k)])
    powf_acc := fun _ _ _ => acc _
    sqrt_acc := fun _ _ => acc _
    cbrt_acc := fun _ => acc _
    ln_acc := fun _ _ => acc _
    exp_acc := fun _ => acc _
    sin_acc := fun _ => acc _
    pi_acc := acc _
    expm1_acc := fun _ => acc _
    ln1p_acc := fun _ _ => acc _
    zero_mul := fun x => by simp [h0]
    mul_zero := fun x => by simp [h0]
    zero_div := fun x _ => by simp [h0]
    lit_zero := fun s e => by rw [ofScientific_zero, h0] }

/-- rounding to the nearest number with `p + 1` binary digits, without limits on the exponent -/
noncomputable def roundBits (p : ℕ) (x : ℝ) : ℝ :=
  round (x * 2 ^ p / 2 ^ Int.log 2 |x|) * 2 ^ Int.log 2 |x| / 2 ^ p

theorem roundBits_acc (p : ℕ) (x : ℝ) : |roundBits p x - x| ≤ (2 ^ (p + 1))⁻¹ * |x| := by
  rcases eq_or_ne x 0 with rfl | hx
  · simp [roundBits]
  have he : (0 : ℝ) < 2 ^ Int.log 2 |x| := by positivity
  have hle : (2 : ℝ) ^ Int.log 2 |x| ≤ |x| := by
    have := Int.zpow_log_le_self (b := 2) (r := |x|) (by norm_num) (abs_pos.2 hx)
    exact_mod_cast this
  set E := (2 : ℝ) ^ Int.log 2 |x|
  have h := abs_sub_round (x * 2 ^ p / E)
  have hp : (0 : ℝ) < 2 ^ p := by positivity
  have e : roundBits p x - x = -(x * 2 ^ p / E - round (x * 2 ^ p / E)) * (E / 2 ^ p) := by
    rw [roundBits]
    field_simp
    ring
  rw [e, abs_mul, abs_neg, abs_of_pos (by positivity : 0 < E / 2 ^ p)]
  calc |x * 2 ^ p / E - round (x * 2 ^ p / E)| * (E / 2 ^ p) ≤ 1 / 2 * (E / 2 ^ p) := by gcongr
    _ ≤ 1 / 2 * (|x| / 2 ^ p) := by gcongr
    _ = _ := by
      rw [pow_succ]
      field_simp

/-- arithmetic with the precision of `f64` (53 binary digits, round to nearest), without limits on the
exponent -/
noncomputable def Arithmetic.binary64 : Arithmetic :=
  Arithmetic.ofRounding (roundBits 52) (2 ^ 53)⁻¹ (by positivity) (roundBits_acc 52)

end PcSaft
