import Mathlib.Analysis.SpecialFunctions.Pow.Real
import Mathlib.Analysis.SpecialFunctions.Sqrt
import Mathlib.Analysis.SpecialFunctions.Trigonometric.Basic
import Mathlib.Algebra.BigOperators.Fin

/-!
# Number types

The Rust sources are generic over `D: DualNum<f64>`; constants and pure-component parameters are
`f64`.  The model keeps that split: `F` stands for `f64`, `D` for the generic number type.

* `F = D = ℝ`      : idealised exact arithmetic, the subject of most theorems.
* `F = D = Float`  : executable, used in `Verif/Tests.lean` to compare the model with the numbers in
                     the repository's own unit tests.
* `F = D = XReal`  : exact reals plus `±∞` and `NaN`, used for "no NaN / no infinity" theorems.
* `F = ℝ, D = Dual`: first-order dual numbers, used for "the derivatives are right" theorems.
-/

namespace PcSaft

/-- The `f64` operations used in /repo/src (`powi`, `powf`, `sqrt`, `cbrt`, `ln`, `exp`, `sin`,
`abs`, `min`, comparison, `is_nan`).  Numeric literals are `OfScientific`. -/
class F64 (F : Type) extends Add F, Sub F, Mul F, Div F, Neg F, OfScientific F where
  powi : F → Nat → F
  powf : F → F → F
  sqrt : F → F
  cbrt : F → F
  ln : F → F
  exp : F → F
  sin : F → F
  abs : F → F
  min : F → F → F
  /-- IEEE `<` (false if an argument is NaN) -/
  lt : F → F → Bool
  /-- IEEE `==` (false if an argument is NaN) -/
  eq : F → F → Bool
  isNan : F → Bool
  /-- `std::f64::consts::PI` -/
  pi : F
  expm1 : F → F
  ln1p : F → F

/-- The `num_dual::DualNum<f64>` operations used in /repo/src.  `ofF` is `D::from(f64)`; the Rust
code's mixed operations `D op f64` are written `d op c x`. -/
class DualNum (F : outParam Type) (D : Type) extends Add D, Sub D, Mul D, Div D, Neg D where
  ofF : F → D
  recip : D → D
  powi : D → Nat → D
  sqrt : D → D
  ln : D → D
  exp : D → D
  expm1 : D → D
  ln1p : D → D
  /-- `D::re()` -/
  re : D → F

/-- embedding of an `f64` constant -/
abbrev c {F D : Type} [DualNum F D] (x : F) : D := DualNum.ofF x

/-- `f64: DualNum<f64>` (the zeroth-order dual number is `f64` itself). -/
@[reducible] instance selfDual {F : Type} [F64 F] : DualNum F F where
  ofF x := x
  recip x := (1.0 : F) / x
  powi := F64.powi
  sqrt := F64.sqrt
  ln := F64.ln
  exp := F64.exp
  expm1 := F64.expm1
  ln1p := F64.ln1p
  re x := x

@[reducible] noncomputable instance instF64Real : F64 ℝ where
  powi x n := x ^ n
  powf x y := x ^ y
  sqrt := Real.sqrt
  cbrt x := SignType.sign x * |x| ^ (1 / 3 : ℝ)
  ln := Real.log
  exp := Real.exp
  sin := Real.sin
  abs x := |x|
  min := min
  lt a b := decide (a < b)
  eq a b := decide (a = b)
  isNan _ := false
  pi := Real.pi
  expm1 x := Real.exp x - 1
  ln1p x := Real.log (1 + x)

instance instF64Float : F64 Float where
  powi x n := Float.pow x n.toFloat
  powf := Float.pow
  sqrt := Float.sqrt
  cbrt := Float.cbrt
  ln := Float.log
  exp := Float.exp
  sin := Float.sin
  abs := Float.abs
  min a b := if b < a then b else a
  lt a b := a < b
  eq a b := a == b
  isNan x := x.isNaN
  pi := 3.14159265358979323846
  expm1 x := Float.exp x - 1.0
  ln1p x := Float.log (1.0 + x)

variable {F D : Type} [F64 F] [DualNum F D]

/-- sum over an `Array1` (`.sum()` or an accumulating loop starting from zero) -/
def sumFin {n : Nat} (f : Fin n → D) : D := Fin.foldl n (fun acc i => acc + f i) (c (0.0 : F))

/-- a doubly nested accumulating loop with one accumulator starting from zero -/
def sumFin2 {n m : Nat} (f : Fin n → Fin m → D) : D :=
  Fin.foldl n (fun acc i => Fin.foldl m (fun acc j => acc + f i j) acc) (c (0.0 : F))

/-- `for j in (i+1)..n { acc = step(acc, j) }` -/
def foldUpper {S : Type} {n : Nat} (i : Fin n) (step : S → Fin n → S) (init : S) : S :=
  Fin.foldl n (fun acc j => if i < j then step acc j else acc) init

/-! ### Unfolding lemmas for `ℝ` -/

section real
@[simp] theorem ofF_real (x : ℝ) : (DualNum.ofF x : ℝ) = x := rfl
@[simp] theorem recip_real (x : ℝ) : DualNum.recip x = x⁻¹ := by
  show (1.0 : ℝ) / x = x⁻¹
  norm_num
@[simp] theorem dpowi_real (x : ℝ) (n : Nat) : DualNum.powi x n = x ^ n := rfl
@[simp] theorem dsqrt_real (x : ℝ) : DualNum.sqrt x = Real.sqrt x := rfl
@[simp] theorem dln_real (x : ℝ) : DualNum.ln x = Real.log x := rfl
@[simp] theorem dexp_real (x : ℝ) : DualNum.exp x = Real.exp x := rfl
@[simp] theorem dexpm1_real (x : ℝ) : DualNum.expm1 x = Real.exp x - 1 := rfl
@[simp] theorem dln1p_real (x : ℝ) : DualNum.ln1p x = Real.log (1 + x) := rfl
@[simp] theorem re_real (x : ℝ) : DualNum.re x = x := rfl
@[simp] theorem powi_real (x : ℝ) (n : Nat) : F64.powi x n = x ^ n := rfl
@[simp] theorem powf_real (x y : ℝ) : F64.powf x y = x ^ y := rfl
@[simp] theorem sqrt_real (x : ℝ) : F64.sqrt x = Real.sqrt x := rfl
@[simp] theorem cbrt_real (x : ℝ) : F64.cbrt x = SignType.sign x * |x| ^ (1 / 3 : ℝ) := rfl
@[simp] theorem ln_real (x : ℝ) : F64.ln x = Real.log x := rfl
@[simp] theorem exp_real (x : ℝ) : F64.exp x = Real.exp x := rfl
@[simp] theorem sin_real (x : ℝ) : F64.sin x = Real.sin x := rfl
@[simp] theorem abs_real (x : ℝ) : F64.abs x = |x| := rfl
@[simp] theorem min_real (x y : ℝ) : F64.min x y = min x y := rfl
@[simp] theorem lt_real (x y : ℝ) : F64.lt x y = decide (x < y) := rfl
@[simp] theorem eq_real (x y : ℝ) : F64.eq x y = decide (x = y) := rfl
@[simp] theorem isNan_real (x : ℝ) : F64.isNan x = false := rfl
@[simp] theorem pi_real : (F64.pi : ℝ) = Real.pi := rfl
@[simp] theorem expm1_real (x : ℝ) : F64.expm1 x = Real.exp x - 1 := rfl
@[simp] theorem ln1p_real (x : ℝ) : F64.ln1p x = Real.log (1 + x) := rfl

theorem foldl_add_real {n : Nat} (f : Fin n → ℝ) (a : ℝ) :
    Fin.foldl n (fun acc i => acc + f i) a = a + ∑ i, f i := by
  induction n with
  | zero => simp
  | succ n ih =>
    rw [Fin.foldl_succ_last, ih, Fin.sum_univ_castSucc, add_assoc]

@[simp] theorem sumFin_real {n : Nat} (f : Fin n → ℝ) : sumFin f = ∑ i, f i := by
  simp only [sumFin, c, ofF_real]
  rw [foldl_add_real]
  norm_num

@[simp] theorem sumFin2_real {n m : Nat} (f : Fin n → Fin m → ℝ) :
    sumFin2 f = ∑ i, ∑ j, f i j := by
  simp only [sumFin2, c, ofF_real, foldl_add_real]
  norm_num

theorem foldl_sub_real {n : Nat} (f : Fin n → ℝ) (a : ℝ) :
    Fin.foldl n (fun acc i => acc - f i) a = a - ∑ i, f i := by
  simpa [sub_eq_add_neg] using foldl_add_real (fun i => - f i) a

end real

end PcSaft
