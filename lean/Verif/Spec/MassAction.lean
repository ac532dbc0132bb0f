import Mathlib.Algebra.BigOperators.Fin
import Mathlib.Data.Fintype.Sum
import Mathlib.Data.Real.Basic

/-!
# Specification: the mass-action law of association

Written down independently of the code: `x i` is the fraction of sites of kind `i` that are not
bonded and `M i j` is the product of the association strength between sites of kind `i` and `j` and
the number density of sites `j`.
-/

namespace PcSaft.Spec

/-- `x_i (1 + Σ_j M_ij x_j) = 1` for all kinds of sites -/
def MassAction {ι : Type*} [Fintype ι] (M : ι → ι → ℝ) (x : ι → ℝ) : Prop :=
  ∀ i, x i * (1 + ∑ j, M i j * x j) = 1

/-- Sites of type A (`Sum.inl`) bond with sites of type B (`Sum.inr`) only.  `delta i j` is the
association strength between components `i` and `j`, `rho j * nb j` the density of B sites of
component `j`. -/
def siteMatrix {k : ℕ} (delta : Fin k → Fin k → ℝ) (na nb rho : Fin k → ℝ) :
    Fin k ⊕ Fin k → Fin k ⊕ Fin k → ℝ
  | .inl _, .inl _ => 0
  | .inl i, .inr j => delta i j * (rho j * nb j)
  | .inr i, .inl j => delta i j * (rho j * na j)
  | .inr _, .inr _ => 0

/-- One component with A and B sites: `d` is the association strength times the density of
molecules. -/
def MassActionAB (d na nb xa xb : ℝ) : Prop :=
  xa * (1 + d * nb * xb) = 1 ∧ xb * (1 + d * na * xa) = 1

/-- One component with one kind of sites that bond with each other. -/
def MassActionA (d na x : ℝ) : Prop := x * (1 + d * na * x) = 1

/-- What is assumed about the external LU solver with exact arithmetic: a result solves the linear
system, and there is a result whenever the matrix is non-singular. -/
structure CorrectSolver {ι : Type*} [Fintype ι]
    (solve : (ι → ι → ℝ) → (ι → ℝ) → Option (ι → ℝ)) : Prop where
  solves : ∀ h g y, solve h g = some y → ∀ s, ∑ t, h s t * y t = g s
  total : ∀ h g, (∀ v : ι → ℝ, (∀ s, ∑ t, h s t * v t = 0) → v = 0) → (solve h g).isSome

end PcSaft.Spec
