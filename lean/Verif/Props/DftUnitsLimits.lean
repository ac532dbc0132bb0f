import Verif.Props.DftPureUnits
import Verif.Props.PairPotential

/-!
# Property C124: parts of the functional, maximum density and pair potential in other units
-/

namespace PcSaft.Props
open PcSaft Spec

section
variable {n : ℕ} {l u : ℝ} (hl : 0 < l) (hu : 0 < u) (pr : Fin n → PureRecord ℝ) (k : Fin n → Fin n → ℝ)
include hl hu

/-- C124: the functional consists of the same parts in both systems of units. -/
theorem C124_parts (v : FMTVersion) (o : PcSaftOptions ℝ) :
    (Functional.withOptions (fromRecords (fun i => inUnits l u (pr i)) k) v o).contributions
      = (Functional.withOptions (fromRecords pr k) v o).contributions := by
  rw [fromRecords_inUnits hl hu pr k]
  rfl

/-- C124: the maximum density is the same number of particles per volume, for every composition
(`N = 0` included: both are then zero). -/
theorem C124_max_density (v : FMTVersion) (o : PcSaftOptions ℝ) (N : Fin n → ℝ) :
    (Functional.withOptions (fromRecords (fun i => inUnits l u (pr i)) k) v o).maxDensity N
      = (Functional.withOptions (fromRecords pr k) v o).maxDensity N / l ^ 3 := by
  rw [fromRecords_inUnits hl hu pr k]
  simp only [Functional.maxDensity, Functional.withOptions, computeMaxDensity, sumFin_real, powi_real]
  have e : (∑ i, F64.pi / 6.0 * ((fromRecords pr k).rescale l u fun i => inUnits l u (pr i)).m i
        * ((fromRecords pr k).rescale l u fun i => inUnits l u (pr i)).sigma i ^ 3 * N i : ℝ)
      = (∑ i, F64.pi / 6.0 * (fromRecords pr k).m i * (fromRecords pr k).sigma i ^ 3 * N i) * l ^ 3 := by
    rw [Finset.sum_mul]
    refine Finset.sum_congr rfl fun i _ => ?_
    simp only [PcSaftParameters.rescale, mul_pow]
    generalize (F64.pi / 6.0 : ℝ) = x
    ring
  rw [e, div_mul_eq_div_div]

/-- C124: the potential between two particles is the same energy at the same distance. -/
theorem C124_pair_potential (i : Fin n) (r : ℝ) :
    pairPotential (fromRecords (fun i => inUnits l u (pr i)) k) i (l * r)
      = u * pairPotential (fromRecords pr k) i r := by
  rw [fromRecords_inUnits hl hu pr k, pairPotential_eq, pairPotential_eq]
  simp only [PcSaftParameters.rescale]
  rw [mul_div_mul_left _ _ hl.ne']
  ring

end

/-! ## Examples -/

example (v : FMTVersion) (o : PcSaftOptions ℝ) := C124_parts (l := 1 / 10) (u := 1000) (by norm_num) (by norm_num)
  assocRecords (fun _ _ => 0) v o

example (v : FMTVersion) (o : PcSaftOptions ℝ) := C124_max_density (l := 1 / 10) (u := 1000) (by norm_num)
  (by norm_num) assocRecords (fun _ _ => 0) v o ![1, 2]

example := C124_pair_potential (l := 1 / 10) (u := 1000) (by norm_num) (by norm_num) assocRecords (fun _ _ => 0) 1 5

end PcSaft.Props
