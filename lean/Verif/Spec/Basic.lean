import Verif.Model.Parameters
import Mathlib.Analysis.SpecialFunctions.Exp

/-!
# Small independent specifications: segment diameter, packing fraction, admissible states
-/

namespace PcSaft.Spec
variable {n : ℕ}

/-- Chen–Kreglewski segment diameter -/
noncomputable def diameter (sigma epsilon_k T : ℝ) : ℝ :=
  sigma * (1 - 0.12 * Real.exp (-3 * epsilon_k / T))

/-- packing fraction of a mixture: total volume of the segments divided by the volume -/
noncomputable def packingFraction (p : PcSaftParameters n ℝ) (T V : ℝ) (moles : Fin n → ℝ) : ℝ :=
  ∑ i, moles i * p.m i * (Real.pi / 6 * diameter (p.sigma i) (p.epsilon_k i) T ^ 3) / V

/-- Physically admissible states: positive temperature, volume, segment numbers and sizes, non-negative
dispersion energies, non-negative moles that are not all zero, packing fraction below one. -/
structure Admissible (p : PcSaftParameters n ℝ) (T V : ℝ) (moles : Fin n → ℝ) : Prop where
  temperature : 0 < T
  volume : 0 < V
  m_pos : ∀ i, 0 < p.m i
  sigma_pos : ∀ i, 0 < p.sigma i
  epsilon_nonneg : ∀ i, 0 ≤ p.epsilon_k i
  moles_nonneg : ∀ i, 0 ≤ moles i
  moles_ne_zero : ∃ i, moles i ≠ 0
  packing : packingFraction p T V moles < 1

end PcSaft.Spec
