import Verif.Num

/-!
# Model of the generalized dual numbers of the external crate `num_dual`

`Dual D` is the first-order dual number over an inner number type `D`, with the arithmetic of
`num_dual::Dual`. `Dual ℝ` stands for `Dual64`. Nesting gives the higher orders: `Dual (Dual ℝ)` has the
components and the arithmetic of `HyperDual64` (`re`, `eps1`, `eps2`, `eps1eps2`), and a diagonal seed in it
is `Dual2_64`; `Dual (Dual (Dual ℝ))` with a diagonal seed is `Dual3_64`.
-/

namespace PcSaft
variable {F D : Type}

/-- `num_dual::Dual<T, F>`: value and derivative -/
@[ext] structure Dual (D : Type) where
  re : D
  eps : D

namespace Dual
variable [F64 F] [DualNum F D]

/-- the chain rule used by all elementary functions of `num_dual` -/
def chain (f0 f1 : D) (x : Dual D) : Dual D := ⟨f0, x.eps * f1⟩

instance : DualNum F (Dual D) where
  add a b := ⟨a.re + b.re, a.eps + b.eps⟩
  sub a b := ⟨a.re - b.re, a.eps - b.eps⟩
  mul a b := ⟨a.re * b.re, a.eps * b.re + b.eps * a.re⟩
  div a b :=
    let inv := DualNum.recip b.re
    ⟨a.re * inv, (a.eps * b.re - b.eps * a.re) * inv * inv⟩
  neg a := ⟨-a.re, -a.eps⟩
  ofF x := ⟨c x, c (0.0 : F)⟩
  recip x :=
    let rec' := DualNum.recip x.re
    chain rec' (-(rec' * rec')) x
  powi x k :=
    match k with
    | 0 => ⟨c (1.0 : F), c (0.0 : F)⟩
    | 1 => x
    | k + 2 => chain (DualNum.powi x.re (k + 2))
        (DualNum.powi x.re (k + 1) * c (OfScientific.ofScientific (k + 2) false 0 : F)) x
  sqrt x :=
    let f0 := DualNum.sqrt x.re
    chain f0 (DualNum.recip x.re * f0 * c (0.5 : F)) x
  ln x := chain (DualNum.ln x.re) (DualNum.recip x.re) x
  exp x := chain (DualNum.exp x.re) (DualNum.exp x.re) x
  expm1 x := chain (DualNum.expm1 x.re) (DualNum.exp x.re) x
  ln1p x := chain (DualNum.ln1p x.re) (DualNum.recip (x.re + c (1.0 : F))) x
  re x := DualNum.re x.re

/-- a constant -/
def const (x : D) : Dual D := ⟨x, c (0.0 : F)⟩
/-- the variable of differentiation (`derive`) -/
def var (x : D) : Dual D := ⟨x, c (1.0 : F)⟩

end Dual
end PcSaft
