import Verif.Props.Interface
import Verif.Props.DftMixtureTotal
import Verif.Props.Thermodynamics
import Verif.Props.VirialPolar
import Verif.Props.CrossResidual
import Verif.Props.CrossConsistency
import Verif.Props.CrossConvergenceDual
import Verif.Props.CrossFinite
import Verif.Props.DftRows
import Verif.Props.IdealGas

/-!
# Cases that meet the hypotheses

For theorems whose own file has no example, mostly because the mixtures used here are defined in later files. The
type of an `example` without one is the conclusion of the theorem for that case.
-/

open Filter Topology PcSaft.Spec

namespace PcSaft.Props

theorem assocRecords_positive (i : Fin 2) : 0 < (assocRecords i).model_record.m
    ∧ 0 < (assocRecords i).model_record.sigma ∧ 0 < (assocRecords i).model_record.epsilon_k := by
  fin_cases i <;> norm_num [assocRecords]

theorem assocRecords_kappa (i : Fin 2) : 0 ≤ (fromRecords assocRecords (fun _ _ => 0)).kappa_ab i := by
  fin_cases i <;> norm_num [assocRecords, fromRecords]

theorem assocRecords_moments : (fromRecords assocRecords (fun _ _ => 0)).ndipole = 0
    ∧ (fromRecords assocRecords (fun _ _ => 0)).nquadpole = 0 := by
  refine ⟨?_, nquadpole_of_none _ _ (fun i => by fin_cases i <;> rfl)⟩
  refine Nat.eq_zero_of_not_pos fun hpos => ?_
  obtain ⟨i, hi⟩ := (length_nonzeroComp_pos _).mp hpos
  obtain ⟨h1, -⟩ := C01_records_reach_components assocRecords (fun _ _ => 0) i
  apply hi
  have hq : (fromRecords assocRecords (fun _ _ => 0)).mu i = 0 := by
    change ((assocRecords i).model_record.mu.getD 0.0 : ℝ) = _
    fin_cases i <;> norm_num [assocRecords]
  change (fromRecords assocRecords (fun _ _ => 0)).mu i * (fromRecords assocRecords (fun _ _ => 0)).mu i / _ * _ * _
    = (0 : ℝ)
  rw [hq]
  simp

theorem assocRecords_density : (f64EPSILON : ℝ) < ∑ _i : Fin 2, 1 / 1000 := by
  rw [f64EPSILON]
  norm_num [Fin.sum_univ_two]

/-! ## parameters, construction -/

/-- a record with one dipole moment and no quadrupole moment -/
example : (fromRecords sampleRecords (fun _ _ => 0)).mu 1 = 1.8 ∧ (fromRecords sampleRecords (fun _ _ => 0)).q 1 = 0 := by
  obtain ⟨-, h1, h2, -⟩ := C01_records_reach_components sampleRecords (fun _ _ => 0) 1
  exact ⟨h1.2 _ rfl, h2.1 rfl⟩

example := C02_combining_rules (pr := assocRecords) (k := fun _ _ => 0.01) (fun i => (assocRecords_positive i).2.2) 0 1

example : 0 < 2 * Real.sqrt (3 * 4) / (3 + 4) ∧ 2 * Real.sqrt (3 * 4) / (3 + 4) ≤ (1 : ℝ) :=
  ratio_le_one three_pos four_pos

example := C03_component_lists sampleRecords (fun _ _ => 0) sampleRecords_ok.1.1
  sampleRecords_ok.1.2.1 sampleRecords_ok.1.2.2

/-- components 2 and 0 of three, then the first of these -/
example : ((fromRecords threeComponents (fun _ _ => 0)).subset ![2, 0]).subset (fun _ : Fin 1 => 0)
    = (fromRecords threeComponents (fun _ _ => 0)).subset (fun _ => 2) :=
  (C04_subset threeComponents (fun _ _ => 0) ![2, 0] (fun _ : Fin 1 => 0)).2.1

/-- two segments with transport coefficients, three times and once -/
example : ∃ r, fromSegments [(transportRecord.model_record, 3), (transportRecord.model_record, 1)] = .ok r
    ∧ r.viscosity.isSome ∧ ∀ v, r.thermal_conductivity = some v → v 0 = 4 ∧ v 3 = 4 * (-8) := by
  obtain ⟨r, h1, h2, -, -, h5, -⟩ := C05_from_segments_transport
    [(transportRecord.model_record, 3), (transportRecord.model_record, 1)]
  refine ⟨r, h1, h2.2 (by simp [transportRecord]), fun v hv => ?_⟩
  obtain ⟨a, -, -, b⟩ := h5 v hv
  constructor
  · rw [a]
    norm_num [transportRecord]
  · rw [b]
    simp [transportRecord]
    norm_num

/-- three identical segments as 1 + 2 -/
example : ∃ r r', fromSegments [(transportRecord.model_record, 1 + 2)] = .ok r
    ∧ fromSegments [(transportRecord.model_record, 1), (transportRecord.model_record, 2)] = .ok r'
    ∧ r.m = r'.m := by
  obtain ⟨r, r', h1, h2, h3, -⟩ := C07_segment_splitting_partial [] [] transportRecord.model_record 1 2
  exact ⟨r, r', h1, h2, (congrArg PcSaftRecord.m h3 : _)⟩

/-- no ideal gas records: QSPR -/
example (o : PcSaftOptions ℝ) : (Eos.withOptions (fromRecords sampleRecords (fun _ _ => 0)) o).ideal_gas = .qspr :=
  (C10_ideal_gas_selection (pr := sampleRecords) (k := fun _ _ => 0) o .WhiteBear).2.1.2 ⟨0, rfl⟩

/-- the functional of the pure associating fluid with one segment -/
example (o : PcSaftOptions ℝ) :
    (Functional.withOptions (fromRecords (fun _ : Fin 1 => assocRecords 0) (fun _ _ => 0)) .WhiteBear o).contributions
      = [.pureFmtAssoc .WhiteBear, .pureAtt] := by
  refine ((C56_functional_contributions (pr := fun _ : Fin 1 => assocRecords 0) (k := fun _ _ => 0) o .WhiteBear).1 rfl
    (Or.inl rfl)).trans ?_
  rw [if_neg]
  · rfl
  · rintro ⟨i, hi⟩
    have h1 : (fromRecords (fun _ : Fin 1 => assocRecords 0) (fun _ _ => (0 : ℝ))).m i = 1 := by
      norm_num [assocRecords, fromRecords]
    rw [h1] at hi
    exact lt_irrefl _ hi

/-- one associating component: the evaluation succeeds with any solver -/
example (la : LinAlg ℝ ℝ) (o : PcSaftOptions ℝ) (s : StateHD 2 ℝ) :
    ∃ a, (Eos.withOptions (fromRecords assocRecords (fun _ _ => 0)) o).residualHelmholtz la s = .ok a := by
  refine (C57_residual_evaluation (pr := assocRecords) (k := fun _ _ => 0) la o s).1 ?_
  rintro ⟨i, j, hij, hi, hj⟩
  have h1 : (fromRecords assocRecords (fun _ _ => (0 : ℝ))).kappa_ab 1 = 0 := by
    norm_num [assocRecords, fromRecords]
  fin_cases i <;> fin_cases j <;> simp_all

/-! ## equation of state -/

example := C13_diameter (fromRecords assocRecords (fun _ _ => 0)) 0 (assocRecords_positive 0).2.1
  (assocRecords_positive 0).2.2

/-- twice the system -/
example (la : LinAlg ℝ ℝ) := C14_residual_extensive la (Eos.new (fromRecords assocRecords (fun _ _ => 0))) 300 1000
  ![1, 2] 2 two_pos

example (T V : ℝ) := C15_permutation assocRecords (fun _ _ => 0) (fun i => (assocRecords_positive i).1.le)
  (Equiv.swap 0 1) T V ![1, 2]

example (T V : ℝ) := C17_absent_components assocRecords (fun _ _ => 0) (fun i => (assocRecords_positive i).1.le)
  (fun _ : Fin 1 => 0) (fun i j h => absurd h (by simp [Subsingleton.elim i j])) T V ![1, 0]
  (fun i hi => by fin_cases i <;> simp_all)

example (T V : ℝ) := C18_pseudo_components assocRecords (fun _ _ => 0) (fun i => (assocRecords_positive i).1.le)
  (![0, 1, 0] : Fin 3 → Fin 2) T V ![1, 2, 3]

example (T V : ℝ) := C18_split_one_component assocRecords (fun _ _ => 0) (fun i => (assocRecords_positive i).1.le)
  1 0.3 T V ![1, 2]

example := C19_carnahan_starling onePure 300 100 1 (onePure_admissible _ _ le_rfl one_pos le_rfl)

example := C20_pure onePure 300 100 1 (onePure_admissible _ _ le_rfl one_pos le_rfl)

example := C21_hard_sphere assocRecords_admissible
example := C21_hard_chain assocRecords_admissible
example := C21_dispersion assocRecords_admissible

example (o : PcSaftOptions ℝ) (la : LinAlg ℝ ℝ) (laX : LinAlg XReal (Dual XReal)) :=
  C21_derivatives o la laX assocRecords_admissible (fun i => (assocRecords_positive i).2.2) assocRecords_kappa
    (assocRecords_regular o) 1 0 (fun _ => 0)

/-- variants of the dipole-quadrupole term for molecules of the same size -/
example (s : StateHD 3 ℝ) := C48_dq_variants_agree threeComponents (fun _ _ => 0)
  (fun _ => by norm_num [threeComponents]) (fun _ _ => rfl) s

example := C64_hard_chain _ _ _ _ _ assocRecords_admissible

/-! ## derivatives -/

section
variable (o : PcSaftOptions ℝ) (la : LinAlg ℝ ℝ)

example (laD : LinAlg ℝ (Dual ℝ)) := C53_chemical_potential la laD 1 assocRecords_admissible (assocRecords_regular o)
example (laD : LinAlg ℝ (Dual ℝ)) := C53_entropy la laD assocRecords_admissible (assocRecords_regular o)
example (laD : LinAlg ℝ (Dual (Dual ℝ))) := C53_second_order la laD 1 0 0 1 (fun _ => 0) (fun _ => 0)
  assocRecords_admissible (assocRecords_regular o)
example (laD : LinAlg ℝ (Dual (Dual (Dual ℝ)))) := C53_third_order la laD 0 0 0 1 1 1 (fun _ => 0) (fun _ => 0)
  (fun _ => 0) assocRecords_admissible (assocRecords_regular o)
/-- along a curve: heating at constant density of a growing system -/
example (laD : LinAlg ℝ (Dual ℝ)) := C53_residual_along_curve la laD (T := fun t => 300 + 5 * t)
  (V := fun t => 1000 * Real.exp t) (N := fun _ t => Real.exp t) (T' := 5) (V' := 1000) (N' := fun _ => 1) (t0 := 0)
  (o := o) (pr := assocRecords) (k := fun _ _ => 0)
  (by simpa using ((hasDerivAt_id (0 : ℝ)).const_mul 5).const_add 300)
  (by simpa using (Real.hasDerivAt_exp 0).const_mul 1000)
  (fun _ => by simpa using Real.hasDerivAt_exp 0)
  (by simpa using assocRecords_admissible) (by simpa using assocRecords_regular o)
example (laD : LinAlg ℝ (Dual ℝ)) := C70_directional laD 1 2 ![3, 4] assocRecords_admissible (assocRecords_regular o)
example (laD : LinAlg ℝ (Dual ℝ)) (laD2 : LinAlg ℝ (Dual (Dual ℝ))) := C70_gibbs_duhem laD laD2 1 2 ![3, 4]
  assocRecords_admissible (assocRecords_regular o)
end

example := C53_hard_sphere (p := onePure) (T := fun _ => 300) (V := fun t => 100 + t) (N := fun _ _ => 1) (t0 := 0)
  (hasDerivAt_const _ _) ((hasDerivAt_id 0).const_add 100) (fun _ => hasDerivAt_const _ _)
  (onePure_admissible _ _ (by norm_num) one_pos le_rfl)
example := C53_hard_chain (p := onePure) (T := fun _ => 300) (V := fun t => 100 + t) (N := fun _ _ => 1) (t0 := 0)
  (hasDerivAt_const _ _) ((hasDerivAt_id 0).const_add 100) (fun _ => hasDerivAt_const _ _)
  (onePure_admissible _ _ (by norm_num) one_pos le_rfl)

example (la : LinAlg ℝ ℝ) (o : PcSaftOptions ℝ) := C15_residual la o assocRecords (fun _ _ => 0)
  (fun i => (assocRecords_positive i).1.le) (Equiv.swap 0 1)
  (by rw [PcSaftParameters.nassoc, assocRecords_comp]; exact le_rfl)
  (fun i _ hi _ => absurd ((length_nonzeroComp_pos _).mpr ⟨i, hi⟩)
    (not_lt.mpr assocRecords_moments.2.le))
  300 1000 ![1, 2]

/-! ## functional -/

section
variable (dim : ℕ)

example := C36_chain_bulk assocRecords_admissible dim 0
example := C36_pure_chain_bulk onePure (fun _ => 1) (onePure_admissible _ _ le_rfl one_pos le_rfl) dim
example := C37_dispersion_bulk assocRecords_admissible 1.3862 (by norm_num) dim assocRecords_density
example := C37_nonpolar_mixture assocRecords_admissible 1.3862 (by norm_num) dim assocRecords_density
  assocRecords_moments.1 assocRecords_moments.2
example := C37_pure_dispersion_bulk polarSphere (fun _ _ => 0) _ polarSphere_admissible rfl 1.3862 (by norm_num) dim
example := C41_pure_attractive_bulk_partial _ _ _ chainMolecule_state.choose_spec.1 rfl 1.3862 (by norm_num) dim .DQ35
  (Or.inr chainMolecule_moments.2)
end

example (T V : ℝ) (w : Fin 2 → ℝ) := C38_dipole_bulk (pr := dipoleAndQuadrupole) (k := fun _ _ => 0)
  (fun i => by fin_cases i <;> norm_num [dipoleAndQuadrupole, testRecord]) T V w
example (T V : ℝ) (w : Fin 2 → ℝ) := C38_dipole_quadrupole_bulk (pr := dipoleAndQuadrupole) (k := fun _ _ => 0)
  (fun i => by fin_cases i <;> norm_num [dipoleAndQuadrupole, testRecord]) T V w
example (T V : ℝ) (w : Fin 1 → ℝ) := C38_pure_polar_bulk polarSphere (fun _ _ => 0) (by norm_num [polarSphere])
  (by norm_num [polarSphere]) T V w

example : pureF3 (1 / 10) = whiteBearF3 (1 / 10) := C43_exact _ (by norm_num) (by norm_num)
example := C43_series (1 / 1000000) (by norm_num) (by norm_num)
/-- a packing fraction above one at the second grid point is an error -/
example : ∃ e, pureFmtAssocFunctional onePure .WhiteBear (300 : ℝ) [[1, 0.3, 0.1], [1, 1.2, 0.1]] = .ok (.error e) :=
  (C43_packing_check onePure .WhiteBear (by simp) 300 [[1, 0.3, 0.1], [1, 1.2, 0.1]] (by simp)).1.2
    ⟨[1, 1.2, 0.1], by simp, 1.2, rfl, by rw [lt_real, decide_eq_true_eq]; norm_num⟩

example (v : WeightedValues 2 ℝ) := C55_association_rows (fromRecords assocRecords (fun _ _ => 0)) (300 : ℝ) two_pos 3 v

example := C72_fmt_bulk assocRecords_admissible

example (v : FMTVersion) (o : PcSaftOptions ℝ) := C75_fluid_properties assocRecords (fun _ _ => 0) v o 1
  (assocRecords_positive 1).2.1 (assocRecords_positive 1).2.2

/-- component 1 of the mixture has 44 g/mol -/
example : molarWeight (fromRecords assocRecords (fun _ _ => (0 : ℝ))) 1 = ⟨44 / 1000, { kg := 1, mol := -1 }⟩ :=
  (C75_molar_weight assocRecords (fun _ _ => 0) .WhiteBear PcSaftOptions.default (id : Fin 2 → Fin 2) 1 0).1

example (T V : ℝ) (w : Fin 2 → ℝ) := C39_quadrupole_bulk_partial (pr := dipoleAndQuadrupole) (k := fun _ _ => 0)
  (fun i => by fin_cases i <;> norm_num [dipoleAndQuadrupole, testRecord])
  (length_nonzeroComp_le_one _ 1 (fun i hi => by
    fin_cases i
    · exact absurd (by norm_num [fromRecords, dipoleAndQuadrupole, testRecord]) hi
    · rfl)) T V w
example (dim : ℕ) := C38_attractive_bulk assocRecords (fun _ _ => 0) (fun _ => 1) assocRecords_admissible
  (by rw [assocRecords_moments.2]; exact zero_le_one) 1.3862 (by norm_num) dim assocRecords_density

/-! ## transport properties -/

example := C45_pure onePure 300 (fun _ => 1) (by norm_num) one_pos (by norm_num [onePure, fromRecords])
  (by norm_num [onePure, fromRecords]) (by norm_num [onePure, fromRecords]) (by norm_num [onePure, fromRecords])
example := C45_scaling (fromRecords assocRecords (fun _ _ => 0)) 300 2 two_ne_zero ![1, 2]
/-- a temperature in bar -/
example := C45_wrong_unit (fromRecords assocRecords (fun _ _ => 0)) ⟨300, { kg := 1, m := -1, s := -2 }⟩
  (by decide) ![1, 2]
example (s : ℝ) := C46_pseudo_components (fun _ : Fin 1 => transportRecord) (fun _ _ => 0) (fun _ _ => 0)
  (fun _ : Fin 2 => 0) (fun _ => ⟨0, (Subsingleton.elim _ _)⟩) s ![1 / 3, 2 / 3]
/-- two components: an error value; one component without coefficients: a panic -/
example (s : ℝ) : diffusionCorrelation (fromRecords assocRecords (fun _ _ => 0)) s ![1 / 2, 1 / 2]
      = .ok (.error (.incompatibleComponents 2 1))
    ∧ ∃ e, diffusionCorrelation onePure s ![1] = .error e :=
  ⟨(C46_diffusion_correlation_outcome _ s _).2.1 (by norm_num),
    (C46_diffusion_correlation_outcome _ s _).2.2.2 ⟨rfl, rfl⟩⟩
example (s : ℝ) : ∃ e, thermalConductivityCorrelation onePure s ![1] = .error e :=
  (C46_thermal_conductivity_correlation_outcome _ s _).2.2.2 ⟨rfl, rfl⟩
example (s : ℝ) : ∃ e, viscosityCorrelation onePure s ![1] = .error e :=
  (C46_viscosity_correlation_outcome _ s _).2 rfl
example (T V : SINumber ℝ) : diffusionReference (fromRecords assocRecords (fun _ _ => 0)) T V ![1, 2]
    = .ok (.error (.incompatibleComponents 2 1)) :=
  (C46_diffusion_reference_error _ T V _).1 (by norm_num)
example (la : LinAlg ℝ ℝ) (s : StateHD 1 ℝ) := C47_options_irrelevant la polarSphere (fun _ _ => 0)
  (by norm_num [polarSphere]) ⟨0.4, 3, 0.1, .DQ44⟩ PcSaftOptions.default s
/-- an entropy read off the residual energy at a fixed state -/
example (la : LinAlg ℝ ℝ) (T : SINumber ℝ) := C47_reference_of_own_entropy la polarSphere (fun _ _ => 0)
  (by norm_num [polarSphere]) ⟨0.4, 3, 0.1, .DQ44⟩ T
  (fun e => match e.residualHelmholtz la (StateHD.new 100 1000 (fun _ => 1)) with
    | .ok a => .ok (-a)
    | .error _ => .error (.incompatibleComponents 1 1))
  (fun e e' _ h => by rw [h])

/-! ## text -/

example : binaryDeserialize (binarySerialize (fun _ => true) (0.03 : ℝ)) = .ok 0.03 :=
  C49_binary_round_trip _ _ rfl
/-- an infinite dipole moment is lost -/
example := C49_not_finite (F := ℝ) (fun x => decide (x < 100)) 1 3 50 200 (by norm_num) (by norm_num) (by norm_num)
  (by norm_num)
example := C49_null_is_absent (F := ℝ) [("m", .num 1), ("sigma", .num 3)] [("epsilon_k", .num 200)] "mu"
  (by decide) (by decide)
example := C49_order (F := ℝ) (List.Perm.swap ("m", Json.num 1) ("sigma", Json.num 3) [("epsilon_k", Json.num 200)])
example : ∃ e, PcSaftRecord.deserialize (F := ℝ) (.obj [("m", .num 1), ("epsilon_k", .num 200)]) = .error e :=
  C49_required _ "sigma" (by decide) (Or.inl (by decide))
example := C49_unknown_keys (F := ℝ) [("m", .num 1), ("sigma", .num 3), ("epsilon_k", .num 200)] [] "comment" .null
  (by decide)

/-! ## association -/

/-- strong association with one site of each kind: both fractions are 1/2 for `d = 2` -/
theorem massAction_half : MassActionAB 2 1 1 (1 / 2) (1 / 2) := by
  constructor <;> norm_num

example : assocSingle 2 3 1 1 = 3 * (1 * (Real.log (1 / 2) - 1 / 2 / 2 + 1 / 2)
    + 1 * (Real.log (1 / 2) - 1 / 2 / 2 + 1 / 2)) := by
  refine C23_energy ?_ one_pos one_pos (by norm_num) (by norm_num) massAction_half
  refine lt_of_lt_of_le (Real.sqrt_lt_sqrt (by rw [f64EPSILON]; norm_num) (by rw [f64EPSILON]; norm_num :
    (f64EPSILON : ℝ) < 1)) ?_
  norm_num

/-- the associating component of the mixture, with the strength that C58 gives -/
example : ∃ xa xb, association (fromRecords assocRecords (fun _ _ => 0)) (StateHD.new (300 : ℝ) 1000 (fun _ => 1))
    = .ok (1 * (1.0 * (Real.log xa - xa / 2 + 1 / 2) + 1.0 * (Real.log xb - xb / 2 + 1 / 2))) := by
  have hna : (fromRecords assocRecords (fun _ _ => 0)).na 0 = 1.0 := rfl
  have hnb : (fromRecords assocRecords (fun _ _ => 0)).nb 0 = 1.0 := rfl
  have hd : Real.sqrt (f64EPSILON : ℝ) < specStrength (fromRecords assocRecords (fun _ _ => 0)) 300 1000 (fun _ => 1) 0 0
      * (1 / 1000) := by
    exact assocRecords_strength_lt
  obtain ⟨xa, xb, h1, h2, h3⟩ := massActionAB_exists (d := specStrength (fromRecords assocRecords (fun _ _ => 0)) 300
    1000 (fun _ => 1) 0 0 * (1 / 1000)) (na := 1.0) (nb := 1.0)
    (le_trans (Real.sqrt_nonneg _) hd.le) (by norm_num) (by norm_num)
  exact ⟨xa, xb, C23_helmholtz_energy assocRecords (fun _ _ => 0) 300 1000 (fun _ => 1) assocRecords_admissible 0 xa xb
    assocRecords_comp (by rw [hna]; norm_num) (by rw [hnb]; norm_num) hd h1 h2 h3⟩

example := C24_series_cubic (d := 0) (na := 1) (nb := 2) (xa := 1) (xb := 1) le_rfl (Real.sqrt_nonneg _) one_pos two_pos
  (by norm_num) one_pos (by constructor <;> norm_num)
example : ∃ xa, |assocSiteFracAB (1e-9 : ℝ) 1 2 - xa| ≤ 2 * 1e-9 ^ 3 * 2 * (1 ^ 2 + 3 * 1 * 2 + 2 ^ 2) := by
  obtain ⟨xa, xb, h1, h2, h3⟩ := massActionAB_exists (d := 1e-9) (na := 1) (nb := 2) (by norm_num) one_pos two_pos
  exact ⟨xa, (C24_series_cubic (by norm_num) (by rw [sqrt_epsilon]; norm_num) one_pos two_pos (by norm_num) h1 h3).1⟩
/-- `x = 1 / (1 + d)` for `d na = d (1 + d)` -/
example : |assocSiteFracA ((1e-9 : ℝ) * (1 + 1e-9)) 1 - 1 / (1 + 1e-9)| ≤ 2e-20 :=
  C25_series_partial (by norm_num) (by rw [sqrt_epsilon]; norm_num) one_pos (by norm_num) (by norm_num)
    (by unfold MassActionA; norm_num)
example : assocSingle (2 : ℝ) 3 1 1 ≤ 0 ∧ (assocSingle (2 : ℝ) 3 1 1 = 0 ↔ (2 : ℝ) = 0 ∨ (3 : ℝ) = 0) :=
  C26_single (by norm_num) (by norm_num) one_pos one_pos (by norm_num)

example (K : ℝ) (x : Fin (fromRecords (twinRecords K) (fun _ _ => 0)).assoc_comp.length
    ⊕ Fin (fromRecords (twinRecords K) (fun _ _ => 0)).assoc_comp.length → ℝ) (hx : ∀ s, x s = 1 / 5) :=
  C26_cross (fromRecords (twinRecords K) (fun _ _ => 0)) ![3, 11] (fun _ => zero_le_one) (fun _ => zero_le_one)
    (fun i => by fin_cases i <;> norm_num) x (fun s => by rw [hx]; norm_num)

example := C58_sign assocRecords (fun _ _ => 0) 300 1000 (fun _ => 1) assocRecords_admissible 0 0
  (by norm_num [assocRecords, fromRecords]) (by norm_num [assocRecords, fromRecords])

/-- the iteration for the twins stops at the exact solution 1/5 -/
theorem twin_run : ∃ K : ℝ, 0 < K ∧ K < 1 / 10
    ∧ (∀ i j, specStrength (fromRecords (twinRecords K) (fun _ _ => 0)) 300 1000 ![3, 11] i j = 10000 / 7)
    ∧ stateLoop (fromRecords (twinRecords K) (fun _ _ => 0)) 50 1e-10 exactSolver (StateHD.new 300 1000 ![3, 11])
      = .ok (fun _ => 0.2)
    ∧ MassAction (stateSites (fromRecords (twinRecords K) (fun _ _ => 0)) (StateHD.new 300 1000 ![3, 11])) (fun _ => 0.2)
    ∧ (∀ s t, 0 ≤ stateSites (fromRecords (twinRecords K) (fun _ _ => 0)) (StateHD.new 300 1000 ![3, 11]) s t)
    ∧ PositiveRun (fromRecords (twinRecords K) (fun _ _ => 0)) 50 1e-10 exactSolver (StateHD.new 300 1000 ![3, 11]) := by
  obtain ⟨K, hK, hK', hstr⟩ := twin_strength
  have h := twinRecords_admissible K (fun _ _ => 0) (V := 1000) (by norm_num)
  obtain ⟨l1, l2⟩ := run_of_equal_strengths rfl h (fun _ => hK.ne') (fun _ => rfl) (fun _ => rfl)
    (by norm_num) hstr (by simp only [Fin.sum_univ_two]; norm_num) 49 (tol := 1e-10) (by norm_num)
  have hst : ∀ i j, stateStrength (fromRecords (twinRecords K) (fun _ _ => 0)) (StateHD.new 300 1000 ![3, 11]) i j
      = 10000 / 7 := fun i j => by
    rw [C58_association_strength (twinRecords K) (fun _ _ => 0) 300 1000 ![3, 11] h i j hK.ne' hK.ne']
    exact hstr i j
  refine ⟨K, hK, hK', hstr, l1, ?_, ?_, l2⟩
  · exact twin_solution _ (twinRecords_comp hK _) _ _ _ _ (fun i j => hst _ _) (fun _ => rfl) (fun _ => rfl)
      (fun _ => rfl)
  · exact siteMatrix_nonneg (fun i j => by rw [hst]; norm_num) (fun _ => zero_le_one) (fun _ => zero_le_one)
      (fun i => div_nonneg (h.moles_nonneg _) h.volume.le)

theorem twin_density : (f64EPSILON : ℝ) ≤ ∑ i, (![3, 11] : Fin 2 → ℝ) i / 1000 := by
  simp only [Fin.sum_univ_two, f64EPSILON]
  norm_num

theorem twin_nonneg (K : ℝ) : AssocNonneg (fromRecords (twinRecords K) (fun _ _ => 0)) :=
  ⟨fun _ => by change (0 : ℝ) ≤ 2500; norm_num, fun _ => zero_le_one, fun _ => zero_le_one⟩

theorem twin_regular {K : ℝ} (hK : 0 < K) (o : PcSaftOptions ℝ) :
    ∀ ct ∈ (Eos.withoutAssociation (fromRecords (twinRecords K) (fun _ _ => 0)) o).contributions,
      Regular (fromRecords (twinRecords K) (fun _ _ => 0)) 300 1000 ![3, 11] ct := by
  intro ct hct
  have hd : (fromRecords (twinRecords K) (fun _ _ => 0)).ndipole = 0 := by
    refine Nat.eq_zero_of_not_pos fun hpos => ?_
    obtain ⟨i, hi⟩ := (length_nonzeroComp_pos _).mp hpos
    exact hi (by norm_num [fromRecords, twinRecords])
  have hq : (fromRecords (twinRecords K) (fun _ _ => 0)).nquadpole = 0 := nquadpole_of_none _ _ (fun _ => rfl)
  have hna : (fromRecords (twinRecords K) (fun _ _ => 0)).nassoc = 2 := by
    rw [PcSaftParameters.nassoc, twinRecords_comp hK]
    rfl
  have hmem := List.mem_of_mem_filter hct
  simp only [buildContributions, hna, hd, hq] at hmem
  simp at hmem
  rcases hmem with rfl | rfl | rfl | rfl
  · trivial
  · trivial
  · trivial
  · exact absurd (List.of_mem_filter hct) (by simp [Contribution.notAssociation])

/-- second derivative with respect to temperature and volume -/
example : ∃ K : ℝ, 0 < K ∧ let p := fromRecords (twinRecords K) (fun _ _ => 0)
    ∃ (solveD : Solver p.assoc_comp.length (Dual (Dual ℝ))) (a : Dual (Dual ℝ)), CorrectDualSolver solveD
      ∧ crossAssociation p 50 1e-10 2 exactSolver solveD
        (StateHD.new (⟨⟨300, 1⟩, ⟨0, 0⟩⟩ : Dual (Dual ℝ)) ⟨⟨1000, 0⟩, ⟨1, 0⟩⟩ (fun i => ⟨⟨![3, 11] i, 0⟩, ⟨0, 0⟩⟩)) = .ok a := by
  obtain ⟨K, hK, hK', -, h1, h2, h3, -⟩ := twin_run
  obtain ⟨solveD, hs⟩ := exists_correctDualSolver (towerDual (towerDual (towerReal ()) 0) 0)
    (fromRecords (twinRecords K) (fun _ _ => 0)).assoc_comp.length
  obtain ⟨a, ha, -⟩ := C32_energy_second_order 1 0 0 1 (fun _ => 0) (fun _ => 0)
    (twinRecords_admissible K (fun _ _ => 0) (by norm_num)) twin_density h3 hs h1 (fun _ => by norm_num) h2
  exact ⟨K, hK, solveD, a, hs, ha⟩

/-- third derivative with respect to the volume -/
example : ∃ K : ℝ, 0 < K ∧ let p := fromRecords (twinRecords K) (fun _ _ => 0)
    ∃ (solveD : Solver p.assoc_comp.length (Dual (Dual (Dual ℝ)))) (a : Dual (Dual (Dual ℝ))), CorrectDualSolver solveD
      ∧ crossAssociation p 50 1e-10 3 exactSolver solveD
        (StateHD.new (⟨⟨⟨300, 0⟩, ⟨0, 0⟩⟩, ⟨⟨0, 0⟩, ⟨0, 0⟩⟩⟩ : Dual (Dual (Dual ℝ)))
          ⟨⟨⟨1000, 1⟩, ⟨1, 0⟩⟩, ⟨⟨1, 0⟩, ⟨0, 0⟩⟩⟩ (fun i => ⟨⟨⟨![3, 11] i, 0⟩, ⟨0, 0⟩⟩, ⟨⟨0, 0⟩, ⟨0, 0⟩⟩⟩)) = .ok a := by
  obtain ⟨K, hK, hK', -, h1, h2, h3, -⟩ := twin_run
  obtain ⟨solveD, hs⟩ := exists_correctDualSolver (towerDual (towerDual (towerDual (towerReal ()) 0) 0) 0)
    (fromRecords (twinRecords K) (fun _ _ => 0)).assoc_comp.length
  obtain ⟨a, ha, -⟩ := C32_energy_third_order 0 0 0 1 1 1 (fun _ => 0) (fun _ => 0) (fun _ => 0)
    (twinRecords_admissible K (fun _ _ => 0) (by norm_num)) twin_density h3 hs h1 (fun _ => by norm_num) h2
  exact ⟨K, hK, solveD, a, hs, ha⟩

/-- second derivative of the whole residual energy -/
example (la : LinAlg ℝ ℝ) : ∃ K : ℝ, 0 < K ∧ ∃ (laD : LinAlg ℝ (Dual (Dual ℝ))) (d : Dual (Dual ℝ)),
    (Eos.new (fromRecords (twinRecords K) (fun _ _ => 0))).residualHelmholtz laD
        (StateHD.new (⟨⟨300, 1⟩, ⟨0, 0⟩⟩ : Dual (Dual ℝ)) ⟨⟨1000, 0⟩, ⟨1, 0⟩⟩ (fun i => ⟨⟨![3, 11] i, 0⟩, ⟨0, 0⟩⟩))
      = .ok d := by
  obtain ⟨K, hK, hK', -, h1, h2, h3, -⟩ := twin_run
  let laD : LinAlg ℝ (Dual (Dual ℝ)) := ⟨fun _ => exactSolver,
    fun k => (exists_correctDualSolver (towerDual (towerDual (towerReal ()) 0) 0) k).choose, 2⟩
  have hs : CorrectDualSolver (laD.solveD (fromRecords (twinRecords K) (fun _ _ => 0)).assoc_comp.length) :=
    (exists_correctDualSolver (towerDual (towerDual (towerReal ()) 0) 0) _).choose_spec
  have ha : 2 ≤ (fromRecords (twinRecords K) (fun _ _ => 0)).nassoc := by
    rw [PcSaftParameters.nassoc, twinRecords_comp hK]
    rfl
  obtain ⟨A0, d, -, hd, -⟩ := C53_cross_association_second_order (pr := twinRecords K) (kij := fun _ _ => 0)
    (o := PcSaftOptions.default) rfl ha 1 0 0 1 (fun _ => 0)
    (fun _ => 0) (twinRecords_admissible K (fun _ _ => 0) (by norm_num)) (twin_regular hK _) twin_density h3 la
    (laD := laD) rfl hs h1 (fun _ => by norm_num) h2
  exact ⟨K, hK, laD, d, hd⟩

/-- exact energy of the twins, the same with one of them split, and the accuracy of the iteration -/
example : ∃ K : ℝ, 0 < K ∧ ∃ a b, crossAssociation (fromRecords (twinRecords K) (fun _ _ => 0)) 50 1e-10 0 exactSolver
      exactSolver (StateHD.new 300 1000 ![3, 11]) = .ok a
    ∧ ExactAssociation (fromRecords (twinRecords K) (fun _ _ => 0)) 300 1000 ![3, 11] b
    ∧ ExactAssociation (fromRecords (fun _ : Fin 3 => twinRecords K 0) (fun _ _ => 0)) 300 1000 ![1, 2, 11] b
    ∧ |a - b| ≤ 10 * 1e-10 * ∑ i, ![3, 11] i * ((fromRecords (twinRecords K) (fun _ _ => 0)).na i
      + (fromRecords (twinRecords K) (fun _ _ => 0)).nb i) := by
  obtain ⟨K, hK, hK', -, h1, h2, h3, h4⟩ := twin_run
  have h := twinRecords_admissible K (fun _ _ => 0) (V := 1000) (by norm_num)
  obtain ⟨b, hb, -⟩ := C71_exact_unique h (twin_nonneg K)
  obtain ⟨a, ha⟩ := crossAssociation_of_loop exactSolver twin_density h1
  have hN : (![3, 11] : Fin 2 → ℝ) = fun i => ∑ j, if (![0, 0, 1] : Fin 3 → Fin 2) j = i then
      (![1, 2, 11] : Fin 3 → ℝ) j else 0 := by
    funext i
    fin_cases i
    · simp [Fin.sum_univ_three]
      norm_num
    · simp [Fin.sum_univ_three]
  refine ⟨K, hK, a, b, ha, hb, ?_, C71_accuracy rfl h (twin_nonneg K) (by norm_num) (by norm_num) (by norm_num)
    exactSolver_correct twin_density ha h4 hb⟩
  rw [hN] at hb
  exact C71_exact_merge (twinRecords K) (fun _ _ => 0) ![0, 0, 1] hb

/-- one associating component -/
example : ∃ b, ExactAssociation (fromRecords assocRecords (fun _ _ => 0)) 300 1000 (fun _ => 1) b
    ∧ association (fromRecords assocRecords (fun _ _ => 0)) (StateHD.new 300 1000 (fun _ => 1)) = .ok b := by
  obtain ⟨b, hb, -⟩ := C71_exact_unique assocRecords_admissible
    ⟨fun i => by fin_cases i <;> norm_num [assocRecords, fromRecords],
      fun i => by fin_cases i <;> norm_num [assocRecords, fromRecords],
      fun i => by fin_cases i <;> norm_num [assocRecords, fromRecords]⟩
  exact ⟨b, hb, C71_single assocRecords (fun _ _ => 0) assocRecords_admissible assocRecords_comp
    (by norm_num [assocRecords, fromRecords]) (by norm_num [assocRecords, fromRecords]) assocRecords_strength_lt hb⟩

/-- one run without a guess and one from a given guess -/
example : ∃ K : ℝ, 0 < K ∧ let p := fromRecords (twinRecords K) (fun _ _ => 0)
    let s : StateHD 2 ℝ := StateHD.new 300 1000 ![3, 11]
    let r := fun i => hsDiameter p s.temperature i * c (0.5 : ℝ)
    let n3i := DualNum.recip (-packingFraction p.m s.partial_density r + c (1.0 : ℝ))
    ∃ a a', (crossAssociationDensity p 0 exactSolver exactSolver s.temperature s.partial_density r
        (assocN2 p.m s.partial_density r) n3i (c (1.0 : ℝ)) 50 1e-10 none).1 = .ok a
      ∧ (crossAssociationDensity p 0 exactSolver exactSolver s.temperature s.partial_density r
        (assocN2 p.m s.partial_density r) n3i (c (1.0 : ℝ)) 50 1e-10 (some fun _ => 0.2)).1 = .ok a'
      ∧ |a - a'| ≤ 20 * 1e-10 * ∑ i, assocRho p s.partial_density i * (assocNa p i + assocNb p i) := by
  obtain ⟨K, hK, hK', hstr, h1, h2, h3, h4⟩ := twin_run
  have h := twinRecords_admissible K (fun _ _ => 0) (V := 1000) (by norm_num)
  obtain ⟨a, ha⟩ := crossAssociation_of_loop exactSolver twin_density h1
  unfold crossAssociation at ha
  refine ⟨K, hK, ?_⟩
  intro p s r n3i
  have key : ∃ b, (crossAssociationDensity p 0 exactSolver exactSolver s.temperature s.partial_density r
        (assocN2 p.m s.partial_density r) n3i (c (1.0 : ℝ)) 50 1e-10 none).1 = .ok b := by
    dsimp only at ha
    split at ha
    · exact absurd ha (by simp)
    · rename_i b hb
      exact ⟨b, hb⟩
  obtain ⟨b, hb⟩ := key
  have hb' : (crossAssociationDensity p 0 exactSolver exactSolver s.temperature s.partial_density r
        (assocN2 p.m s.partial_density r) n3i (c (1.0 : ℝ)) 50 1e-10 (some fun _ => 0.2)).1 = .ok b := by
    rw [← hb]
    unfold crossAssociationDensity
    dsimp only [Option.getD]
    split
    · rfl
    · split
      · rfl
      · split <;> rfl
  refine ⟨b, b, hb, hb', ?_⟩
  refine C54_guess_independent p exactSolver exactSolver exactSolver_correct s.temperature s.partial_density r _ n3i
    (c (1.0 : ℝ)) 50 50 1e-10 (by norm_num) (by norm_num) (by norm_num) none (some fun _ => 0.2) twin_density
    (fun i j => ?_) (fun _ => zero_le_one) (fun _ => zero_le_one)
    (fun i => div_nonneg (h.moles_nonneg _) h.volume.le) b b hb hb' h4 h4
  have := C58_association_strength (twinRecords K) (fun _ _ => 0) 300 1000 ![3, 11] h (p.assoc_comp.get i)
    (p.assoc_comp.get j) hK.ne' hK.ne'
  rw [hstr] at this
  exact le_of_le_of_eq (by norm_num) this.symm

/-- two components with equal strengths `((4 + t)² - (4 + t)) / 3` and densities 3/2: all site fractions are
`1 / (4 + t)` -/
example : ∃ (solve : Solver 2 (Dual ℝ)) (xd : Fin 2 ⊕ Fin 2 → Dual ℝ) (b : Bool), CorrectDualSolver solve
    ∧ newtonStep solve (fun _ _ => (⟨4, 7 / 3⟩ : Dual ℝ)) (fun _ => 1) (fun _ => 1) (fun _ => ⟨3 / 2, 0⟩) 1e-10
      (fun _ => ⟨1 / 4, 0⟩) = .ok (xd, b) ∧ ∀ s, (xd s).re = 1 / 4 ∧ (xd s).eps = -1 / 16 := by
  obtain ⟨solve, hs⟩ := exists_correctDualSolver (towerDual (towerReal ()) 0) 2
  have hd : HasDerivAt (fun t : ℝ => ((4 + t) ^ 2 - (4 + t)) / 3) (7 / 3) 0 := by
    have h1 := (hasDerivAt_id (0 : ℝ)).const_add 4
    refine (((h1.pow 2).sub h1).div_const 3).congr_deriv ?_
    norm_num
  have hS : HasDerivAt (fun t : ℝ => 1 / (4 + t)) (-1 / 16) 0 := by
    have h1 := ((hasDerivAt_id (0 : ℝ)).const_add 4).inv (by norm_num)
    simp only [id_eq, ← one_div] at h1
    refine h1.congr_deriv ?_
    norm_num
  have hev : ∀ᶠ t : ℝ in 𝓝 0, -1 < t := lt_mem_nhds (by norm_num)
  obtain ⟨xd, b, h1, h2⟩ := C32_first_derivative (k := 2) (delta := fun _ _ t => ((4 + t) ^ 2 - (4 + t)) / 3)
    (delta' := fun _ _ => 7 / 3) (rho := fun _ _ => 3 / 2) (rho' := fun _ => 0) (na := fun _ => 1) (nb := fun _ => 1)
    (t0 := 0) (fun _ _ => hd) (fun _ => hasDerivAt_const _ _)
    (hev.mono fun t ht => siteMatrix_nonneg (fun _ _ => by nlinarith) (fun _ => zero_le_one) (fun _ => zero_le_one)
      (fun _ => by norm_num))
    (S := fun _ t => 1 / (4 + t)) (hev.mono fun t ht => ⟨fun _ => one_div_pos.mpr (by linarith), by
      have h4 : (4 : ℝ) + t ≠ 0 := by linarith
      rintro (i | i) <;> simp only [siteMatrix_sum, Fin.sum_univ_two] <;> field_simp <;> ring⟩) hs 1e-10
  have e4 : (((4 : ℝ) + 0) ^ 2 - (4 + 0)) / 3 = 4 := by norm_num
  have e1 : (1 : ℝ) / (4 + 0) = 1 / 4 := by norm_num
  simp only [e4, e1] at h1 h2
  exact ⟨solve, xd, b, hs, h1, fun s => ⟨(h2 s).1, (h2 s).2.unique hS⟩⟩

/-! ## virial coefficients -/

example := C33_single_component (fromRecords assocRecords (fun _ _ => 0)) (T := 300) (by norm_num) ![1 / 2, 1 / 2] 0 []
  assocRecords_comp (assocRecords_admissible.diameter_pos 0).ne' (by norm_num [assocRecords, fromRecords])
example (solveF : Solver (fromRecords assocRecords (fun _ _ => 0)).assoc_comp.length ℝ)
    (solveD : Solver (fromRecords assocRecords (fun _ _ => 0)).assoc_comp.length Dual2) :=
  C33_first_order_partial (fromRecords assocRecords (fun _ _ => 0)) (T := 300) (by norm_num) ![1 / 2, 1 / 2] 0 []
    assocRecords_comp (assocRecords_admissible.diameter_pos 0).ne' (by norm_num [assocRecords, fromRecords]) 50 1e-10 2
    solveF solveD
example := C63_hard_sphere onePure (T := 300) (by norm_num) (fun _ => 1)
  (avgDiameter_pos onePure (fun _ => 1) (by norm_num) (by norm_num) (fun _ => by norm_num [onePure, fromRecords])
    (fun _ => by norm_num [onePure, fromRecords]) (fun _ => by norm_num [onePure, fromRecords])
    (fun _ => by norm_num) 3).ne'
example := C63_hard_chain onePure (T := 300) (by norm_num) (fun _ => 1)
example := C63_dispersion onePure (T := 300) (by norm_num) (fun _ => 1)

theorem polarSphere_kappa (i : Fin 1) : 0 ≤ (fromRecords polarSphere (fun _ _ => 0)).kappa_ab i := by
  norm_num [fromRecords, polarSphere]

example := C63_hard_sphere_finite (k := fun _ _ => 0) polarSphere_positive (T := 100) (by norm_num) (fun _ => 1)
  polarSphere_kappa (by
    have h := polarSphere_admissible.diameter_pos 0
    rw [hsDiameter_eq_spec] at h
    have hm : (fluidOf polarSphere (fun _ _ => 0)).m 0 = 1 := by norm_num [fluidOf, polarSphere]
    simp only [Finset.univ_unique, Fin.default_eq_zero, Finset.sum_singleton, hm]
    exact (mul_pos (by norm_num) (pow_pos h 3)).ne')
example := C63_hard_chain_finite (k := fun _ _ => 0) polarSphere_positive (T := 100) (by norm_num) (fun _ => 1)
  polarSphere_kappa
example := C63_dispersion_finite (k := fun _ _ => 0) polarSphere_positive (T := 100) (by norm_num) (fun _ => 1)
  polarSphere_kappa (by norm_num [fluidOf, polarSphere])
/-- the quadrupolar virial coefficient of the spheres, and the Helmholtz energy over the squared density -/
example : ∃ b < 0, VirialCoefficient b (quadrupole (xParameters polarSphere (fun _ _ => 0))
      (virialStateX 100 (fun _ => 1)))
    ∧ Tendsto (fun t => quadrupole (fromRecords polarSphere (fun _ _ => 0)) (StateHD.new (100 : ℝ) 1 (fun _ => 1 * t))
      / t ^ 2) (𝓝[≠] 0) (𝓝 b) := by
  obtain ⟨a, b, ha, hb, h⟩ := C63_quadrupole_partial
  have hv := h 1 polarSphere (fun _ _ => 0) 100 (fun _ => 1) polarSphere_positive polarSphere_kappa (by norm_num)
    (fun _ _ _ _ => rfl)
  have hneg : -(9 / 16 * Real.pi) * ∑ i, ∑ j, (1 : ℝ) * 1 * (fluidOf polarSphere (fun _ _ => 0)).quadrupoleStrength 100 i
      * (fluidOf polarSphere (fun _ _ => 0)).quadrupoleStrength 100 j / (fluidOf polarSphere (fun _ _ => 0)).sigmaIJ i j ^ 7
      * (fluidOf polarSphere (fun _ _ => 0)).j2 100 a b 0 i j < 0 := by
    simp only [Finset.univ_unique, Fin.default_eq_zero, Finset.sum_singleton]
    rw [polarSphere_j2, polarSphere_sigmaIJ]
    have hs := polarSphere_strength.2
    have a0 := abs_le.mp (ha 0 0)
    have b0 := abs_le.mp (hb 0 0)
    simp only [Spec.publishedAQ, Spec.publishedBQ, Matrix.cons_val_zero] at a0 b0
    have hJ : ∑ r : Fin 5, (a r 0 + b r 0) * (0 : ℝ) ^ (r : ℕ) = a 0 0 + b 0 0 := by
      simp [Fin.sum_univ_five]
    rw [hJ]
    have hab : 0 < a 0 0 + b 0 0 := by linarith
    have hp := Real.pi_pos
    rw [neg_mul]
    exact neg_lt_zero.mpr (by positivity)
  exact ⟨_, hneg, hv, C63_quadrupole_limit polarSphere_positive polarSphere_kappa (by norm_num) _ _ hv hneg.ne⟩

/-! ### C79 -/

theorem twin_nassoc {K : ℝ} (hK : 0 < K) : (fromRecords (twinRecords K) (fun _ _ => 0)).nassoc = 2 := by
  rw [PcSaftParameters.nassoc, twinRecords_comp hK]
  rfl

/-- second derivative of the residual energy of the twins with respect to temperature and volume -/
example : ∃ K : ℝ, 0 < K ∧ ∃ (laD : LinAlg ℝ (Dual (Dual ℝ))) (d : Dual (Dual ℝ)),
    (Eos.withOptions (fromRecords (twinRecords K) (fun _ _ => 0)) PcSaftOptions.default).residualHelmholtz laD
      (StateHD.new (⟨⟨300, 1⟩, ⟨0, 0⟩⟩ : Dual (Dual ℝ)) ⟨⟨1000, 0⟩, ⟨1, 0⟩⟩ (fun i => ⟨⟨![3, 11] i, 0⟩, ⟨0, 0⟩⟩))
      = .ok d := by
  obtain ⟨K, hK, hw⟩ := twin_weak
  let laD : LinAlg ℝ (Dual (Dual ℝ)) := ⟨fun _ => exactSolver,
    fun k => (exists_correctDualSolver (towerDual (towerDual (towerReal ()) 0) 0) k).choose, 2⟩
  have hs : CorrectDualSolver (laD.solveD (fromRecords (twinRecords K) (fun _ _ => 0)).assoc_comp.length) :=
    (exists_correctDualSolver (towerDual (towerDual (towerReal ()) 0) 0) _).choose_spec
  obtain ⟨d, hd⟩ := C79_second_derivatives (o := PcSaftOptions.default) (laD := laD) rfl (twin_nassoc hK).ge 1 0 0 1
    (fun _ => 0) (fun _ => 0) (twinRecords_admissible K (fun _ _ => 0) (V := 1000) (by norm_num))
    (twin_regular hK _) (twin_nonneg K) (hw 1 (by norm_num)) (by rw [twin_nassoc hK]; norm_num)
    (by norm_num [PcSaftOptions.default]) (by norm_num [PcSaftOptions.default]) (by norm_num [PcSaftOptions.default])
    exactSolver_correct hs
  exact ⟨K, hK, laD, d, hd⟩

/-- the pressure of the twins, computed with infinities and NaN, is finite -/
example : ∃ K : ℝ, 0 < K ∧ ∃ (laX : LinAlg XReal (Dual XReal)) (a a' : ℝ),
    (Eos.withOptions (xParameters (twinRecords K) (fun _ _ => 0)) (PcSaftOptions.default.map XReal.fin)).residualHelmholtz
      laX (StateHD.new (⟨XReal.fin 300, XReal.fin 0⟩ : Dual XReal) ⟨XReal.fin 1000, XReal.fin 1⟩
        (fun i => ⟨XReal.fin (![3, 11] i), XReal.fin 0⟩)) = .ok ⟨XReal.fin a, XReal.fin a'⟩ := by
  obtain ⟨K, hK, hw⟩ := twin_weak
  obtain ⟨la, laX, h1, h2, h3, h4, h5, h6⟩ := exists_finite_solvers
  obtain ⟨a, -, ha⟩ := C21_weak_first_derivatives (o := PcSaftOptions.default) rfl (twin_nassoc hK).ge 0 1 (fun _ => 0)
    (twinRecords_admissible K (fun _ _ => 0) (V := 1000) (by norm_num)) (fun _ => by change (0 : ℝ) < 200; norm_num)
    (fun _ => hK.le) (twin_regular hK _) (twin_nonneg K) (hw 1 (by norm_num)) (by rw [twin_nassoc hK]; norm_num)
    (by norm_num [PcSaftOptions.default]) (by norm_num [PcSaftOptions.default]) (by norm_num [PcSaftOptions.default])
    h1 h2 h3 h4 (h6.trans h5.symm)
  exact ⟨K, hK, laX, a.re, a.eps, ha⟩

end PcSaft.Props
