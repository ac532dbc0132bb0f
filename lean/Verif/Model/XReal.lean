import Verif.Num

/-!
# Exact reals with infinities and NaN

The special values of `f64` with exact arithmetic on finite numbers: no rounding and no overflow of finite
operations, no signed zero (a zero divisor counts as positive zero).
-/

namespace PcSaft

inductive XReal where
  | fin (x : ℝ)
  | pinf
  | ninf
  | nan

namespace XReal
open Classical

/-- the infinity with the sign of a real number; NaN for zero -/
noncomputable def infSign (x : ℝ) : XReal := if 0 < x then pinf else if x < 0 then ninf else nan

protected noncomputable def add : XReal → XReal → XReal
  | nan, _ => nan
  | _, nan => nan
  | fin x, fin y => fin (x + y)
  | fin _, pinf => pinf
  | fin _, ninf => ninf
  | pinf, ninf => nan
  | pinf, _ => pinf
  | ninf, pinf => nan
  | ninf, _ => ninf

protected noncomputable def neg : XReal → XReal
  | fin x => fin (-x)
  | pinf => ninf
  | ninf => pinf
  | nan => nan

/-- the sign of a number as a real number; irrelevant for NaN -/
noncomputable def sgn : XReal → ℝ
  | fin x => x
  | pinf => 1
  | ninf => -1
  | nan => 0

protected noncomputable def mul : XReal → XReal → XReal
  | nan, _ => nan
  | _, nan => nan
  | fin x, fin y => fin (x * y)
  | a, b => infSign (a.sgn * b.sgn)

protected noncomputable def div : XReal → XReal → XReal
  | nan, _ => nan
  | _, nan => nan
  | fin x, fin y => if y = 0 then infSign x else fin (x / y)
  | fin _, pinf => fin 0
  | fin _, ninf => fin 0
  | a, fin y => if y = 0 then a else infSign (a.sgn * y)
  | _, _ => nan

protected noncomputable def sqrt : XReal → XReal
  | fin x => if x < 0 then nan else fin (Real.sqrt x)
  | pinf => pinf
  | ninf => nan
  | nan => nan

protected noncomputable def ln : XReal → XReal
  | fin x => if 0 < x then fin (Real.log x) else if x = 0 then ninf else nan
  | pinf => pinf
  | ninf => nan
  | nan => nan

protected noncomputable def exp : XReal → XReal
  | fin x => fin (Real.exp x)
  | pinf => pinf
  | ninf => fin 0
  | nan => nan

protected noncomputable def powi : XReal → ℕ → XReal
  | _, 0 => fin 1
  | x, k + 1 => XReal.mul (XReal.powi x k) x

/-- `powf` is used by the code only in the pair potential; finite arguments with positive base -/
protected noncomputable def powf : XReal → XReal → XReal
  | fin x, fin y => if 0 < x then fin (x ^ y) else nan
  | _, _ => nan

protected noncomputable def lt : XReal → XReal → Bool
  | fin x, fin y => decide (x < y)
  | fin _, pinf => true
  | ninf, fin _ => true
  | ninf, pinf => true
  | _, _ => false

protected noncomputable def eq : XReal → XReal → Bool
  | fin x, fin y => decide (x = y)
  | pinf, pinf => true
  | ninf, ninf => true
  | _, _ => false

def isNan : XReal → Bool
  | nan => true
  | _ => false

@[reducible] noncomputable instance : F64 XReal where
  add := XReal.add
  sub a b := XReal.add a (XReal.neg b)
  mul := XReal.mul
  div := XReal.div
  neg := XReal.neg
  ofScientific m s e := fin (OfScientific.ofScientific m s e)
  powi := XReal.powi
  powf := XReal.powf
  sqrt := XReal.sqrt
  cbrt
    | fin x => fin (F64.cbrt x)
    | a => a
  ln := XReal.ln
  exp := XReal.exp
  sin
    | fin x => fin (Real.sin x)
    | _ => nan
  abs
    | fin x => fin |x|
    | nan => nan
    | _ => pinf
  min a b := if a.isNan then b else if b.isNan then a else if XReal.lt b a then b else a
  lt := XReal.lt
  eq := XReal.eq
  isNan := isNan
  pi := fin Real.pi
  expm1 a := XReal.add (XReal.exp a) (fin (-1))
  ln1p a := XReal.ln (XReal.add (fin 1) a)

/-- a finite number (neither infinite nor NaN) -/
def IsFinite (a : XReal) : Prop := ∃ x, a = fin x

end XReal
end PcSaft
