{
 "claims": [
  {
   "property": "C01",
   "status": "proved",
   "theorems": [
    "PcSaft.Props.C01_records_reach_components",
    "PcSaft.Props.C01_reduced_moments"
   ],
   "note": ""
  },
  {
   "property": "C02",
   "status": "proved",
   "theorems": [
    "PcSaft.Props.C02_combining_rules",
    "PcSaft.Props.C02_association_combining_rules"
   ],
   "note": ""
  },
  {
   "property": "C03",
   "status": "proved",
   "theorems": [
    "PcSaft.Props.C03_component_lists"
   ],
   "note": ""
  },
  {
   "property": "C04",
   "status": "proved",
   "theorems": [
    "PcSaft.Props.C04_subset"
   ],
   "note": ""
  },
  {
   "property": "C05",
   "status": "proved",
   "theorems": [
    "PcSaft.Props.C05_from_segments_additive",
    "PcSaft.Props.C05_from_segments_transport"
   ],
   "note": "Additive parameters, exactly and for every list; the molar weight etc. from the segment sums."
  },
  {
   "property": "C06",
   "status": "proved",
   "theorems": [
    "PcSaft.Props.C06_segment_order"
   ],
   "note": ""
  },
  {
   "property": "C07",
   "status": "partial",
   "theorems": [
    "PcSaft.Props.C07_segment_splitting_partial",
    "PcSaft.Props.C07_counterexample"
   ],
   "note": "The property is false for the thermal conductivity coefficients: C07_counterexample. C07_segment_splitting_partial proves it for all other parameters."
  },
  {
   "property": "C08",
   "status": "proved",
   "theorems": [
    "PcSaft.Props.C08_binary_segments"
   ],
   "note": ""
  },
  {
   "property": "C09",
   "status": "proved",
   "theorems": [
    "PcSaft.Props.C09_transport_tables"
   ],
   "note": ""
  },
  {
   "property": "C10",
   "status": "proved",
   "theorems": [
    "PcSaft.Props.C10_ideal_gas_selection"
   ],
   "note": ""
  },
  {
   "property": "C11",
   "status": "proved",
   "theorems": [
    "PcSaft.Props.C11_contributions"
   ],
   "note": ""
  },
  {
   "property": "C12",
   "status": "proved",
   "theorems": [
    "PcSaft.Props.C12_max_density"
   ],
   "note": ""
  },
  {
   "property": "C13",
   "status": "proved",
   "theorems": [
    "PcSaft.Props.C13_diameter"
   ],
   "note": ""
  },
  {
   "property": "C14",
   "status": "proved",
   "theorems": [
    "PcSaft.Props.C14_contribution_extensive",
    "PcSaft.Props.C14_residual_extensive"
   ],
   "note": "Every contribution and the total, including the panic outcome of the association solver."
  },
  {
   "property": "C15",
   "status": "proved",
   "theorems": [
    "PcSaft.Props.C15_residual_cross",
    "PcSaft.Props.C15_permutation",
    "PcSaft.Props.C15_residual"
   ],
   "note": "Contribution by contribution, and for the total residual energy with at most one associating component. With several associating components: the linear solver is assumed to fail exactly for singular matrices (ExactSolver, shown satisfiable)."
  },
  {
   "property": "C16",
   "status": "partial",
   "theorems": [
    "PcSaft.Props.C16_quadrupole_permutation_partial",
    "PcSaft.Props.C16_counterexample"
   ],
   "note": "False for quadrupolar components of different size: C16_counterexample (admissible state). The partial theorem covers equal diameters."
  },
  {
   "property": "C17",
   "status": "proved",
   "theorems": [
    "PcSaft.Props.C17_residual_cross",
    "PcSaft.Props.C17_absent_components",
    "PcSaft.Props.C17_residual"
   ],
   "note": "Contribution by contribution; total for at most one associating component. For several associating components see C27/C31. With several associating components: the linear solver is assumed to fail exactly for singular matrices (ExactSolver, shown satisfiable). Associating components that are removed or divided are covered up to the tolerance by C71."
  },
  {
   "property": "C18",
   "status": "proved",
   "theorems": [
    "PcSaft.Props.C18_residual_cross",
    "PcSaft.Props.C18_pseudo_components",
    "PcSaft.Props.C18_split_one_component"
   ],
   "note": "For any map onto a smaller mixture; also the explicit splitting of one component. With several associating components: the linear solver is assumed to fail exactly for singular matrices (ExactSolver, shown satisfiable). Associating components that are removed or divided are covered up to the tolerance by C71."
  },
  {
   "property": "C19",
   "status": "proved",
   "theorems": [
    "PcSaft.Props.C19_carnahan_starling",
    "PcSaft.Props.C19_increasing",
    "PcSaft.Props.C19_positive"
   ],
   "note": "Carnahan-Starling for one component, strict positivity for every mixture, strictly larger under compression."
  },
  {
   "property": "C20",
   "status": "proved",
   "theorems": [
    "PcSaft.Props.C20_hard_chain",
    "PcSaft.Props.C20_pure"
   ],
   "note": ""
  },
  {
   "property": "C21",
   "status": "proved",
   "theorems": [
    "PcSaft.Props.C21_iteration",
    "PcSaft.Props.C21_cross_association",
    "PcSaft.Props.C21_weak_residual",
    "PcSaft.Props.C21_weak_energy",
    "PcSaft.Props.C21_weak_first_derivatives",
    "PcSaft.Props.C21_weak_second_derivatives",
    "PcSaft.Props.C21_hard_sphere",
    "PcSaft.Props.C21_hard_chain",
    "PcSaft.Props.C21_dispersion",
    "PcSaft.Props.C21_residual",
    "PcSaft.Props.C21_derivatives",
    "PcSaft.Props.C21_polar_components_absent"
   ],
   "note": "Hard sphere, hard chain, dispersion without further condition; the whole residual energy and its first derivatives for parameter sets with at most one associating component, away from the pole of the polar Padé approximation, and where no polar molecule is present. Several associating components: the energy and its first and second derivatives where association is weak, assuming that the linear solver returns a finite solution of a finite non-singular system (FiniteSolver, shown satisfiable)."
  },
  {
   "property": "C22",
   "status": "proved",
   "theorems": [
    "PcSaft.Props.C22_limit",
    "PcSaft.Props.C22_zero_density"
   ],
   "note": "All contributions and the total, for every state with zero densities (C22_zero_density), and the limit of large volumes (C22_limit). The limit assumes that the polar pair terms at zero density do not vanish (DiluteRegular)."
  },
  {
   "property": "C23",
   "status": "proved",
   "theorems": [
    "PcSaft.Props.C23_site_fractions",
    "PcSaft.Props.C23_energy",
    "PcSaft.Props.C23_helmholtz_energy"
   ],
   "note": "Site fractions, energy and the whole Helmholtz energy contribution for one associating component."
  },
  {
   "property": "C24",
   "status": "proved",
   "theorems": [
    "PcSaft.Props.C24_series_cubic",
    "PcSaft.Props.C24_series_error"
   ],
   "note": "Cubic remainder with explicit constant; below 2e-20 for up to 10 sites."
  },
  {
   "property": "C25",
   "status": "partial",
   "theorems": [
    "PcSaft.Props.C25_series_partial",
    "PcSaft.Props.C25_counterexample",
    "PcSaft.Props.C25_energy_counterexample"
   ],
   "note": "False above the cutoff: C25_counterexample (fraction always above 2) and C25_energy_counterexample. The partial theorem covers the series branch."
  },
  {
   "property": "C26",
   "status": "proved",
   "theorems": [
    "PcSaft.Props.C26_single",
    "PcSaft.Props.C26_helmholtz_energy",
    "PcSaft.Props.C26_cross"
   ],
   "note": "One component unconditionally, cross association for any solution in (0,1]."
  },
  {
   "property": "C27",
   "status": "proved",
   "theorems": [
    "PcSaft.Props.C27_unique_solution"
   ],
   "note": ""
  },
  {
   "property": "C28",
   "status": "proved",
   "theorems": [
    "PcSaft.Props.C28_newton_step"
   ],
   "note": "The linear solver (external crate) is assumed to return a solution and to succeed for non-singular matrices."
  },
  {
   "property": "C29",
   "status": "proved",
   "theorems": [
    "PcSaft.Props.C29_accuracy"
   ],
   "note": "At a positive last iterate; see C59 for why this condition is needed."
  },
  {
   "property": "C30",
   "status": "proved",
   "theorems": [
    "PcSaft.Props.C30_loop_ok",
    "PcSaft.Props.C30_loop_error",
    "PcSaft.Props.C30_outcomes",
    "PcSaft.Props.C30_panic"
   ],
   "note": ""
  },
  {
   "property": "C31",
   "status": "proved",
   "theorems": [
    "PcSaft.Props.C31_one_component"
   ],
   "note": ""
  },
  {
   "property": "C32",
   "status": "proved",
   "theorems": [
    "PcSaft.Props.C32_exact_solution",
    "PcSaft.Props.C32_first_derivative",
    "PcSaft.Props.C32_energy",
    "PcSaft.Props.C32_energy_along_curve",
    "PcSaft.Props.C32_energy_second_order",
    "PcSaft.Props.C32_energy_third_order",
    "PcSaft.Props.C32_inexact_start"
   ],
   "note": "Exact real start: all derivatives for dual numbers nested N < 2^steps times; the energy, its derivative along admissible curves, second and third order jets. The linear solver is assumed correct (CorrectDualSolver, shown satisfiable). C32_inexact_start bounds the error left by a real solution within a tolerance."
  },
  {
   "property": "C33",
   "status": "partial",
   "theorems": [
    "PcSaft.Props.C33_single_component",
    "PcSaft.Props.C33_cross_association_vanishes",
    "PcSaft.Props.C33_disagreement",
    "PcSaft.Props.C33_first_order_partial",
    "PcSaft.Props.C33_counterexample"
   ],
   "note": "The code violates the property: proved as a disagreement for every component with sites of both types, with a concrete mixture as counterexample. The partial theorem keeps what is true (values and first derivatives agree). feos-core's virial state is modelled as density 0 + eps1 + eps2 at unit volume."
  },
  {
   "property": "C34",
   "status": "proved",
   "theorems": [
    "PcSaft.Props.C34_pure_fmt_bulk"
   ],
   "note": "Both supported FMT versions, every number of space dimensions, positive density (see DESIGN.md item 13 for zero density)."
  },
  {
   "property": "C35",
   "status": "proved",
   "theorems": [
    "PcSaft.Props.C35_association_bulk",
    "PcSaft.Props.C35_cross_association_bulk"
   ],
   "note": "One associating component (closed form) and the iterative solver, for every number of components and space dimensions; the solver's outcome (value, panic or failure) is the same."
  },
  {
   "property": "C36",
   "status": "proved",
   "theorems": [
    "PcSaft.Props.C36_chain_bulk",
    "PcSaft.Props.C36_pure_chain_bulk"
   ],
   "note": "Chain functional plus ideal chain term equals the hard chain contribution, for mixtures above the density cutoff and for pure components."
  },
  {
   "property": "C37",
   "status": "proved",
   "theorems": [
    "PcSaft.Props.C37_dispersion_bulk",
    "PcSaft.Props.C37_nonpolar_mixture",
    "PcSaft.Props.C37_pure_dispersion_bulk"
   ],
   "note": "Dispersion for mixtures and pure components."
  },
  {
   "property": "C38",
   "status": "proved",
   "theorems": [
    "PcSaft.Props.C38_dipole_bulk",
    "PcSaft.Props.C38_dipole_quadrupole_bulk",
    "PcSaft.Props.C38_attractive_bulk",
    "PcSaft.Props.C38_pure_polar_bulk"
   ],
   "note": "Dipoles, dipole-quadrupole (DQ35), pure dipoles and quadrupoles; attractive part of the functional as a whole for at most one quadrupolar component."
  },
  {
   "property": "C39",
   "status": "partial",
   "theorems": [
    "PcSaft.Props.C39_quadrupole_bulk_partial",
    "PcSaft.Props.C39_counterexample"
   ],
   "note": "False for two quadrupolar components, even equal ones: C39_counterexample. The partial theorem covers at most one quadrupolar component."
  },
  {
   "property": "C40",
   "status": "partial",
   "theorems": [
    "PcSaft.Props.C40_variant_bulk_partial",
    "PcSaft.Props.C40_counterexample"
   ],
   "note": "False for variant DQ44: C40_counterexample (admissible state, every dimension). The partial theorem covers DQ35."
  },
  {
   "property": "C41",
   "status": "partial",
   "theorems": [
    "PcSaft.Props.C41_pure_attractive_bulk_partial",
    "PcSaft.Props.C41_counterexample"
   ],
   "note": "False for a component with both moments: C41_counterexample. The partial theorem covers all other pure components."
  },
  {
   "property": "C42",
   "status": "partial",
   "theorems": [
    "PcSaft.Props.C42_chain_contribution_partial",
    "PcSaft.Props.C42_counterexample"
   ],
   "note": "False for segment number below one: C42_counterexample. The partial theorem covers m >= 1 and all mixtures."
  },
  {
   "property": "C43",
   "status": "proved",
   "theorems": [
    "PcSaft.Props.C43_exact",
    "PcSaft.Props.C43_series",
    "PcSaft.Props.C43_packing_check"
   ],
   "note": "Explicit remainder of the series; exact condition for the packing fraction error."
  },
  {
   "property": "C44",
   "status": "proved",
   "theorems": [
    "PcSaft.Props.C44_pair_potential"
   ],
   "note": "Values, signs, strict monotonicity on both sides of the minimum, minimum unique."
  },
  {
   "property": "C45",
   "status": "proved",
   "theorems": [
    "PcSaft.Props.C45_viscosity_reference",
    "PcSaft.Props.C45_pure",
    "PcSaft.Props.C45_scaling",
    "PcSaft.Props.C45_pseudo_components",
    "PcSaft.Props.C45_permutation",
    "PcSaft.Props.C45_identical",
    "PcSaft.Props.C45_wrong_unit"
   ],
   "note": "Unit arithmetic is explicit; C45_wrong_unit shows that a wrong unit is reported."
  },
  {
   "property": "C46",
   "status": "proved",
   "theorems": [
    "PcSaft.Props.C46_diffusion_reference_error",
    "PcSaft.Props.C46_diffusion_reference",
    "PcSaft.Props.C46_diffusion_correlation_outcome",
    "PcSaft.Props.C46_thermal_conductivity_correlation_outcome",
    "PcSaft.Props.C46_viscosity_correlation_outcome",
    "PcSaft.Props.C46_thermal_conductivity_reference_error",
    "PcSaft.Props.C46_pure_correlations",
    "PcSaft.Props.C46_pseudo_components",
    "PcSaft.Props.C46_identical"
   ],
   "note": "Outcome of every function for every number of components and for missing coefficients; pure limit and pseudo-components."
  },
  {
   "property": "C47",
   "status": "proved",
   "theorems": [
    "PcSaft.Props.C47_options_irrelevant",
    "PcSaft.Props.C47_reference_of_own_entropy",
    "PcSaft.Props.C47_value"
   ],
   "note": "No option changes the residual energy of a pure component, hence rebuilding with default options is harmless."
  },
  {
   "property": "C48",
   "status": "proved",
   "theorems": [
    "PcSaft.Props.C48_options_preserved",
    "PcSaft.Props.C48_dq_variants_agree"
   ],
   "note": "Options under subset, defaults, and agreement of the variants for equal diameters."
  },
  {
   "property": "C49",
   "status": "proved",
   "theorems": [
    "PcSaft.Props.C49_round_trip",
    "PcSaft.Props.C49_written_keys",
    "PcSaft.Props.C49_order",
    "PcSaft.Props.C49_unknown_keys",
    "PcSaft.Props.C49_null_is_absent",
    "PcSaft.Props.C49_required",
    "PcSaft.Props.C49_minimal",
    "PcSaft.Props.C49_not_finite",
    "PcSaft.Props.C49_array",
    "PcSaft.Props.C49_binary_round_trip"
   ],
   "note": "JSON values with exact numbers; printing and parsing of numbers by serde_json is assumed to be lossless for finite numbers. C49_not_finite: a NaN is written as null and read back as absent."
  },
  {
   "property": "C50",
   "status": "proved",
   "theorems": [
    "PcSaft.Props.C50_markdown"
   ],
   "note": "Names and formatted numbers must not contain a line break or a vertical bar."
  },
  {
   "property": "C51",
   "status": "proved",
   "theorems": [
    "PcSaft.Props.C51_parser"
   ],
   "note": ""
  },
  {
   "property": "C52",
   "status": "proved",
   "theorems": [
    "PcSaft.Props.C52_coefficients",
    "PcSaft.Props.C52_reference_state"
   ],
   "note": "Case distinction and value at the reference temperature."
  },
  {
   "property": "C53",
   "status": "proved",
   "theorems": [
    "PcSaft.Props.C53_cross_association_curve",
    "PcSaft.Props.C53_cross_association_second_order",
    "PcSaft.Props.C53_hard_sphere",
    "PcSaft.Props.C53_hard_chain",
    "PcSaft.Props.C53_dispersion",
    "PcSaft.Props.C53_residual_along_curve",
    "PcSaft.Props.C53_pressure",
    "PcSaft.Props.C53_entropy",
    "PcSaft.Props.C53_chemical_potential",
    "PcSaft.Props.C53_second_order",
    "PcSaft.Props.C53_third_order"
   ],
   "note": "Along any curve of states; seeds for temperature, volume and mole numbers; mixed second and third derivatives. Whole residual energy for at most one associating component at regular states; for several associating components first and mixed second derivatives, given an exact solution for the site fractions and a correct linear solver."
  },
  {
   "property": "C54",
   "status": "proved",
   "theorems": [
    "PcSaft.Props.C54_guess_independent"
   ],
   "note": ""
  },
  {
   "property": "C55",
   "status": "proved",
   "theorems": [
    "PcSaft.Props.C55_association_rows",
    "PcSaft.Props.C55_empty_regions",
    "PcSaft.Props.C55_chain_rows"
   ],
   "note": "Row layout for arbitrary (also inhomogeneous) weighted densities, generic in the number type; empty regions give finite zero."
  },
  {
   "property": "C56",
   "status": "proved",
   "theorems": [
    "PcSaft.Props.C56_functional_contributions"
   ],
   "note": ""
  },
  {
   "property": "C57",
   "status": "proved",
   "theorems": [
    "PcSaft.Props.C57_residual_evaluation"
   ],
   "note": "Residual contributions are total except for the cross association solver."
  },
  {
   "property": "C58",
   "status": "proved",
   "theorems": [
    "PcSaft.Props.C58_association_strength",
    "PcSaft.Props.C58_sign"
   ],
   "note": "Also gives sign and zeros (specStrength_nonneg, specStrength_eq_zero)."
  },
  {
   "property": "C59",
   "status": "partial",
   "theorems": [
    "PcSaft.Props.C59_one_component_partial",
    "PcSaft.Props.C59_counterexample",
    "PcSaft.Props.C59_balanced_partial",
    "PcSaft.Props.C59_weak_association_partial"
   ],
   "note": "False: C59_counterexample (admissible two-component mixture, default options, every correct linear solver). The partial theorem covers one component with equal numbers of donor and acceptor sites. C59_weak_association_partial covers any number of components when the association strengths add up to at most one at every site. C59_balanced_partial covers any number of components and any strength when every site has the same total strength."
  },
  {
   "property": "C60",
   "status": "proved",
   "theorems": [
    "PcSaft.Props.C60_pure_functional_total"
   ],
   "note": "Sum over the list of contributions that the constructor produces."
  },
  {
   "property": "C61",
   "status": "partial",
   "theorems": [
    "PcSaft.Props.C61_heat_capacity_partial",
    "PcSaft.Props.C61_heat_capacity_value",
    "PcSaft.Props.C61_counterexample"
   ],
   "note": "False away from the reference temperature: C61_counterexample at 400 K. The partial theorem gives the value at 298.15 K."
  },
  {
   "property": "C62",
   "status": "proved",
   "theorems": [
    "PcSaft.Props.C62_record_display",
    "PcSaft.Props.C62_parameters_display"
   ],
   "note": "Number formatting is a parameter."
  },
  {
   "property": "C63",
   "status": "partial",
   "theorems": [
    "PcSaft.Props.C63_hard_sphere",
    "PcSaft.Props.C63_hard_chain",
    "PcSaft.Props.C63_dispersion",
    "PcSaft.Props.C63_hard_sphere_finite",
    "PcSaft.Props.C63_hard_chain_finite",
    "PcSaft.Props.C63_dispersion_finite",
    "PcSaft.Props.C63_dipole",
    "PcSaft.Props.C63_quadrupole_partial",
    "PcSaft.Props.C63_dipole_quadrupole",
    "PcSaft.Props.C63_dipole_limit",
    "PcSaft.Props.C63_quadrupole_limit",
    "PcSaft.Props.C63_dipole_quadrupole_limit"
   ],
   "note": "Hard spheres, chains, dispersion and polar terms, for any number of components; the polar terms with an arithmetic in which 0/0 is NaN. Missing: the published pair term for quadrupolar components of different diameters, where the code deviates from the theory (C66); for them only the low-density limit is proved (C63_quadrupole_limit)."
  },
  {
   "property": "C64",
   "status": "proved",
   "theorems": [
    "PcSaft.Props.C64_hard_sphere",
    "PcSaft.Props.C64_hard_chain",
    "PcSaft.Props.C64_dispersion"
   ],
   "note": "The published table is transcribed in Spec/Theory.lean; constants compared to 5e-9."
  },
  {
   "property": "C65",
   "status": "proved",
   "theorems": [
    "PcSaft.Props.C65_dipole"
   ],
   "note": "Constants compared to 5e-7."
  },
  {
   "property": "C66",
   "status": "partial",
   "theorems": [
    "PcSaft.Props.C66_quadrupole_partial",
    "PcSaft.Props.C66_counterexample"
   ],
   "note": "Missing: mixtures of quadrupolar components with different diameters, where the code violates the property (C66_counterexample)."
  },
  {
   "property": "C67",
   "status": "proved",
   "theorems": [
    "PcSaft.Props.C67_dipole_quadrupole"
   ],
   "note": "Both DQ35 and DQ44."
  },
  {
   "property": "C68",
   "status": "proved",
   "theorems": [
    "PcSaft.Props.C68_residual_analytic"
   ],
   "note": "At most one associating component; states regular in the sense of Spec.Regular (off the pole of the polar terms and off the switch of the association formula)."
  },
  {
   "property": "C69",
   "status": "proved",
   "theorems": [
    "PcSaft.Props.C69_maxwell"
   ],
   "note": "At most one associating component; states regular in the sense of Spec.Regular (off the pole of the polar terms and off the switch of the association formula). Second derivatives."
  },
  {
   "property": "C70",
   "status": "proved",
   "theorems": [
    "PcSaft.Props.C70_directional",
    "PcSaft.Props.C70_euler",
    "PcSaft.Props.C70_gibbs_duhem"
   ],
   "note": "At most one associating component; states regular in the sense of Spec.Regular (off the pole of the polar terms and off the switch of the association formula)."
  },
  {
   "property": "C71",
   "status": "proved",
   "theorems": [
    "PcSaft.Props.C71_exact_unique",
    "PcSaft.Props.C71_exact_merge",
    "PcSaft.Props.C71_accuracy",
    "PcSaft.Props.C71_consistency",
    "PcSaft.Props.C71_single",
    "PcSaft.Props.C71_single_split"
   ],
   "note": "Runs of the Newton iteration with positive iterates (C59 shows that others exist). The linear solver is assumed correct (CorrectSolver, shown satisfiable)."
  },
  {
   "property": "C72",
   "status": "proved",
   "theorems": [
    "PcSaft.Props.C72_fmt_bulk",
    "PcSaft.Props.C72_mixture_functional_total"
   ],
   "note": "At most one quadrupolar component (C39) and DQ35 if both moments occur (C40). The bulk value of the FMT contribution of feos_dft is an assumption (fmtBulk)."
  },
  {
   "property": "C73",
   "status": "partial",
   "theorems": [
    "PcSaft.Props.C73_diffusion_partial",
    "PcSaft.Props.C73_counterexample"
   ],
   "note": "Violated by the code: the coefficients are always zero (src/parameters.rs:128-134). Proved part: they are present exactly if all segments have them."
  },
  {
   "property": "C74",
   "status": "proved",
   "theorems": [
    "PcSaft.Props.C74_record_getters",
    "PcSaft.Props.C74_record_roundtrip",
    "PcSaft.Props.C74_parameters_roundtrip",
    "PcSaft.Props.C74_defaults",
    "PcSaft.Props.C74_options"
   ],
   "note": "The conversion of Python objects by pyo3 is not modelled."
  },
  {
   "property": "C75",
   "status": "proved",
   "theorems": [
    "PcSaft.Props.C75_molar_weight",
    "PcSaft.Props.C75_fluid_properties"
   ],
   "note": "Positive sigma and epsilon_k for the statements about the pair potential."
  },
  {
   "property": "C76",
   "status": "proved",
   "theorems": [
    "PcSaft.Props.C76_chain",
    "PcSaft.Props.C76_attractive",
    "PcSaft.Props.C76_association",
    "PcSaft.Props.C76_pure_chain",
    "PcSaft.Props.C76_pure_attractive",
    "PcSaft.Props.C76_pure_fmt_association",
    "PcSaft.Props.C76_chain_second",
    "PcSaft.Props.C76_attractive_second",
    "PcSaft.Props.C76_association_second",
    "PcSaft.Props.C76_pure_chain_second",
    "PcSaft.Props.C76_pure_attractive_second",
    "PcSaft.Props.C76_pure_fmt_association_second"
   ],
   "note": "At most one associating component. Polar terms away from the pole of the Pade approximation, other formulas away from their switching points. The FMT contribution for mixtures belongs to feos_dft."
  },
  {
   "property": "C77",
   "status": "proved",
   "theorems": [
    "PcSaft.Props.C77_bulk_first_order",
    "PcSaft.Props.C77_bulk_second_order",
    "PcSaft.Props.C77_bulk_third_order",
    "PcSaft.Props.C77_chemical_potential",
    "PcSaft.Props.C77_pure_first_order",
    "PcSaft.Props.C77_pure_second_order",
    "PcSaft.Props.C77_pure_third_order"
   ],
   "note": "Mixtures in every version, with the restrictions of C72 (at most one quadrupolar component, DQ35 if dipoles and quadrupoles mix), and the functionals for pure components with those of C60 (m >= 1, not both moments, packing fraction above 1e-5). At most one associating component. Away from the switching points of the formulas, as in C53."
  },
  {
   "property": "C78",
   "status": "partial",
   "theorems": [
    "PcSaft.Props.C78_chain",
    "PcSaft.Props.C78_chain_derivative",
    "PcSaft.Props.C78_attractive",
    "PcSaft.Props.C78_attractive_derivative",
    "PcSaft.Props.C78_association",
    "PcSaft.Props.C78_association_derivative",
    "PcSaft.Props.C78_pure_chain",
    "PcSaft.Props.C78_pure_chain_derivative",
    "PcSaft.Props.C78_pure_attractive",
    "PcSaft.Props.C78_pure_attractive_derivative",
    "PcSaft.Props.C78_pure_fmt_association_partial",
    "PcSaft.Props.C78_pure_fmt_association_derivative_partial",
    "PcSaft.Props.C78_attractive_polar_components_absent",
    "PcSaft.Props.C78_attractive_empty",
    "PcSaft.Props.C78_pure_attractive_empty",
    "PcSaft.Props.C78_antisymmetrized_empty_counterexample",
    "PcSaft.Props.C78_packing_one_counterexample"
   ],
   "note": "Violated by the code: with AntiSymWhiteBear the energy density of a pure component is NaN wherever there is no fluid (src/dft/pure_saft_functional.rs:90-103), and a packing fraction of exactly one passes the check of lines 72-76 and gives NaN. Proved part: everything else, at most one associating component."
  },
  {
   "property": "C79",
   "status": "proved",
   "theorems": [
    "PcSaft.Props.C79_quadratic",
    "PcSaft.Props.C79_quadratic_default",
    "PcSaft.Props.C79_warm_start",
    "PcSaft.Props.C79_default_start",
    "PcSaft.Props.C79_residual",
    "PcSaft.Props.C79_cross_association_derivatives",
    "PcSaft.Props.C79_first_derivatives",
    "PcSaft.Props.C79_second_derivatives",
    "PcSaft.Props.C79_third_derivatives",
    "PcSaft.Props.C79_dilute",
    "PcSaft.Props.C79_hot",
    "PcSaft.Props.C79_dilute_residual",
    "PcSaft.Props.C79_hot_residual",
    "PcSaft.Props.C79_exact_bound",
    "PcSaft.Props.C79_bound"
   ],
   "note": "The bounds are sufficient, not sharp. Real numbers and dual numbers up to third order; for dual numbers the theorems say that there is a result, not how accurate the derivatives are (C32, C53). The linear solvers are assumed correct (CorrectSolver, CorrectDualSolver, shown satisfiable)."
  },
  {
   "property": "C80",
   "status": "proved",
   "theorems": [
    "PcSaft.Props.C80_grid",
    "PcSaft.Props.C80_other_points",
    "PcSaft.Props.C80_homogeneous"
   ],
   "note": "Evaluation with real numbers. The bound on the strengths at an inhomogeneous point is stated in terms of the strengths and densities that the functional computes there; point_nonneg derives their signs from the weighted densities. The linear solver is assumed correct (CorrectSolver, shown satisfiable)."
  },
  {
   "property": "C81",
   "status": "proved",
   "theorems": [
    "PcSaft.Props.C81_first",
    "PcSaft.Props.C81_pressure",
    "PcSaft.Props.C81_second"
   ],
   "note": "Dual numbers over the reals, in any direction of temperature, relative volume and amounts (C81_first), and the pressure (C81_pressure). Association of several components is exactly zero below the density cutoff of the code, so it needs no condition. Polar contributions need a nonvanishing pair term at zero density (DiluteRegular)."
  },
  {
   "property": "C82",
   "status": "proved",
   "theorems": [
    "PcSaft.Props.C82_white_bear",
    "PcSaft.Props.C82_antisymmetrized",
    "PcSaft.Props.C82_association",
    "PcSaft.Props.C82_association_rotation",
    "PcSaft.Props.C82_pure_rotation"
   ],
   "note": "What the weight functions see of a profile at a point is a record of arbitrary local averages (ProfileAt), so the theorems hold for every profile and geometry. The FMT functional for mixtures is in an external crate and not modelled. Below a packing fraction of 1e-5 the difference to the published form is at most n3^5/(4 pi) times the cubic term."
  },
  {
   "property": "C83",
   "status": "proved",
   "theorems": [
    "PcSaft.Props.C83_chain",
    "PcSaft.Props.C83_attractive"
   ],
   "note": "Real numbers. The pure hard sphere functional is compared with the published White Bear form in C82, since the mixture version is in an external crate."
  },
  {
   "property": "C84",
   "status": "proved",
   "theorems": [
    "PcSaft.Props.C84_contribution",
    "PcSaft.Props.C84_residual",
    "PcSaft.Props.C84_max_density",
    "PcSaft.Props.C84_first_order",
    "PcSaft.Props.C84_second_order",
    "PcSaft.Props.C84_third_order"
   ],
   "note": "Contributions and residual energy for real numbers (any number of associating components); derivatives up to third order with at most one associating component. The density cutoff of the cross association is a fixed number and therefore depends on the units; the theorems require both densities to be on the same side of it. Constants with units outside the residual energy (ideal gas, entropy scaling) are not part of the claim."
  },
  {
   "property": "C85",
   "status": "proved",
   "theorems": [
    "PcSaft.Props.C85_number_types",
    "PcSaft.Props.C85_extensive",
    "PcSaft.Props.C85_permutation",
    "PcSaft.Props.C85_absent_components",
    "PcSaft.Props.C85_pseudo_components",
    "PcSaft.Props.C85_units"
   ],
   "note": "Derivatives D means that the numbers represent functions and their derivatives; C85_number_types shows it for real numbers and dual numbers nested to any depth. Renumbering requires equal diameters of quadrupolar components (see C16). States must be regular (Regular): not exactly on a branch point of the code."
  },
  {
   "property": "C86",
   "status": "proved",
   "theorems": [
    "PcSaft.Props.C86_maximum",
    "PcSaft.Props.C86_strengths",
    "PcSaft.Props.C86_association_strength",
    "PcSaft.Props.C86_exact",
    "PcSaft.Props.C86_single",
    "PcSaft.Props.C86_residual",
    "PcSaft.Props.C86_cross",
    "PcSaft.Props.C86_cross_residual"
   ],
   "note": "C86_maximum and C86_strengths are about the mass-action equations, C86_residual about the code with one associating component and unchanged numbers of sites (up to 2^25), C86_cross and C86_cross_residual about the iteration with several associating components, whose result is within its tolerance of the exact energy (C71)."
  },
  {
   "property": "C87",
   "status": "proved",
   "theorems": [
    "PcSaft.Props.C87_integrals",
    "PcSaft.Props.C87_attractive",
    "PcSaft.Props.C87_binary_interaction",
    "PcSaft.Props.C87_residual"
   ],
   "note": "Packing fraction up to 1/2 (the default max_eta), segment numbers at least 1 and k_ij at most 1; the second perturbation integral changes sign at higher densities."
  },
  {
   "property": "C88",
   "status": "proved",
   "theorems": [
    "PcSaft.Props.C88_close_packing",
    "PcSaft.Props.C88_higher_pressures",
    "PcSaft.Props.C88_every_pressure",
    "PcSaft.Props.C88_associating"
   ],
   "note": "Pressure means sum(N)/V minus the volume derivative from dual numbers, divided by k_B T. With an associating component the switch between explicit formula and series makes the pressure jump by a tiny amount, so pressures in the gap need not be attained; the theorem covers the states above the switch. Several associating components are not covered."
  },
  {
   "property": "C89",
   "status": "proved",
   "theorems": [
    "PcSaft.Props.C89_free_volume",
    "PcSaft.Props.C89_compression",
    "PcSaft.Props.C89_repulsive",
    "PcSaft.Props.C89_unique_volume"
   ],
   "note": "Spec.referencePressure is evaluated from the contributions with dual numbers; C89_repulsive identifies it with the pressure of the whole equation of state for molecules without attraction."
  },
  {
   "property": "C90",
   "status": "proved",
   "theorems": [
    "PcSaft.Props.C90_rounding",
    "PcSaft.Props.C90_same_contributions",
    "PcSaft.Props.C90_value",
    "PcSaft.Props.C90_derivatives",
    "PcSaft.Props.C90_second_order",
    "PcSaft.Props.C90_converges"
   ],
   "note": "Model/Rounding.lean states what is assumed about the arithmetic (shown to hold for exact arithmetic and for rounding to 53 binary digits). The constant and the largest unit are shown to exist but not computed, so no number of correct digits for f64 at a given state follows. Numbers that are exactly zero must be handed over as zero. At the switching points (association strength times density equal to the square root of f64::EPSILON, Padé denominator zero) nothing is claimed."
  },
  {
   "property": "C91",
   "status": "proved",
   "theorems": [
    "PcSaft.Props.C91_association_strength",
    "PcSaft.Props.C91_exact",
    "PcSaft.Props.C91_cross",
    "PcSaft.Props.C91_cross_evaluation",
    "PcSaft.Props.C91_association",
    "PcSaft.Props.C91_derivatives"
   ],
   "note": "One associating component: evaluated by the code, including the derivatives (off the switching point between series and explicit formula), for up to 2^25 sites. Several: exact solution without restriction; the iteration of the code under convergence to positive fractions, which is shown for weak bonds."
  },
  {
   "property": "C92",
   "status": "proved",
   "theorems": [
    "PcSaft.Props.C92_coexistence",
    "PcSaft.Props.C92_potential",
    "PcSaft.Props.C92_equal_potentials",
    "PcSaft.Props.C92_loop",
    "PcSaft.Props.C92_condensation",
    "PcSaft.Props.C92_phase_equilibrium"
   ],
   "note": "Coexistence and equality of potentials hold for polar molecules too; the existence of a loop at low temperature is shown for molecules without moments and sites. Equal free enthalpy of the two phases follows because each is minimal. For mixtures the two phases share the composition (this is stability at fixed composition, not a full phase equilibrium)."
  },
  {
   "property": "C93",
   "status": "proved",
   "theorems": [
    "PcSaft.Props.C93_supercritical",
    "PcSaft.Props.C93_critical_point",
    "PcSaft.Props.C93_no_coexistence"
   ],
   "note": "Molecules without moments and association sites, average segment number at least one. For mixtures this is the mechanical critical point at fixed composition."
  },
  {
   "property": "C94",
   "status": "partial",
   "theorems": [
    "PcSaft.Props.C94_one_loop_partial",
    "PcSaft.Props.C94_one_loop_counterexample"
   ],
   "note": "Violated at low temperature for molecules of three segments (C94_one_loop_counterexample); the partial theorem covers temperatures from the critical one upwards. It is a property of the published polynomials of the dispersion term, which the code reproduces."
  },
  {
   "property": "C95",
   "status": "proved",
   "theorems": [
    "PcSaft.Props.C95_dipole_no_pole",
    "PcSaft.Props.C95_dipoles_attract",
    "PcSaft.Props.C95_dipolar_finite",
    "PcSaft.Props.C95_dipolar_derivatives",
    "PcSaft.Props.C95_quadrupole_no_pole",
    "PcSaft.Props.C95_quadrupoles_attract",
    "PcSaft.Props.C95_quadrupolar_finite",
    "PcSaft.Props.C95_pole_infinite",
    "PcSaft.Props.C95_cold_dipoles_repel",
    "PcSaft.Props.C95_cold_dipoles_pole"
   ],
   "note": "Signs of the polar integrals for all chain lengths from one segment, all packing fractions up to one half and all temperatures in the stated range; with the necessity of the temperature bound (C95_cold_dipoles_repel, C95_cold_dipoles_pole). Several quadrupolar components and the dipole-quadrupole term are not covered."
  },
  {
   "property": "C96",
   "status": "proved",
   "theorems": [
    "PcSaft.Props.C96_admissible",
    "PcSaft.Props.C96_maximum_density",
    "PcSaft.Props.C96_warm_dipoles",
    "PcSaft.Props.C96_warm_quadrupole",
    "PcSaft.Props.C96_finite",
    "PcSaft.Props.C96_quadrupolar_finite",
    "PcSaft.Props.C96_condensation",
    "PcSaft.Props.C96_gross2001",
    "PcSaft.Props.C96_viscosity",
    "PcSaft.Props.C96_group_contribution",
    "PcSaft.Props.C96_alkanes",
    "PcSaft.Props.C96_negative_segments"
   ],
   "note": "The data of the files are part of the model (Model/Shipped.lean, generated by tools/shipped.py). The range checks are over the complete files; the conclusions are for all mixtures and states. Several associating components, several quadrupolar components and dipole-quadrupole mixtures are not covered by the finiteness statements. sauer2014_hetero.json belongs to a different equation of state and is not modelled."
  },
  {
   "property": "C97",
   "status": "proved",
   "theorems": [
    "PcSaft.Props.C97_slope",
    "PcSaft.Props.C97_sign"
   ],
   "note": "Holds with all contributions. With several associating components the coefficient has no part from the bonds: the code leaves cross association out below a density of f64::EPSILON, so the pressures at very low density lack it too (see C33)."
  },
  {
   "property": "C98",
   "status": "partial",
   "theorems": [
    "PcSaft.Props.C98_increasing_partial",
    "PcSaft.Props.C98_boyle_temperature_partial",
    "PcSaft.Props.C98_pressure_partial",
    "PcSaft.Props.C98_shipped_partial",
    "PcSaft.Props.C98_cold_dipoles_counterexample",
    "PcSaft.Props.C98_polar_increasing_partial",
    "PcSaft.Props.C98_polar_boyle_temperature_partial",
    "PcSaft.Props.C98_polar_pressure_partial",
    "PcSaft.Props.C98_all_shipped_partial",
    "PcSaft.Props.C98_cold_quadrupoles_counterexample"
   ],
   "note": "Proved at all temperatures for substances without moments (C98_increasing_partial, C98_boyle_temperature_partial, C98_pressure_partial, C98_shipped_partial). Proved at temperatures of at least 1.1 epsilon_k for every substance, with any combination of dipole, quadrupole and sites, with at least one segment if it has moments (C98_polar_increasing_partial, C98_polar_boyle_temperature_partial, C98_polar_pressure_partial); C98_all_shipped_partial applies this to every shipped substance. At lower temperature it fails with moments: C98_cold_dipoles_counterexample and C98_cold_quadrupoles_counterexample show that the coefficient is positive at low temperature for dipolar substances with at least 1.1 segments and for quadrupolar ones with 1.1 to 1.9 segments, both without sites."
  },
  {
   "property": "C99",
   "status": "partial",
   "theorems": [
    "PcSaft.Props.C99_viscosity",
    "PcSaft.Props.C99_diffusion",
    "PcSaft.Props.C99_thermal_conductivity_partial",
    "PcSaft.Props.C99_thermal_conductivity_counterexample"
   ],
   "note": "Viscosity and self diffusion are positive without further conditions. Thermal conductivity is positive from the temperature 0.3552 m epsilon_k on at every density (C99_thermal_conductivity_partial) and negative in the dilute gas of long chains: C99_thermal_conductivity_counterexample shows it for eicosane from gross2001.json at 300 K, with the residual entropy of the equation of state itself."
  },
  {
   "property": "C100",
   "status": "partial",
   "theorems": [
    "PcSaft.Props.C100_equal_segments_partial",
    "PcSaft.Props.C100_unequal_segments_counterexample"
   ],
   "note": "Proved when all components have the same number of segments, with moments and sites (C100_equal_segments_partial). It fails for different numbers of segments: C100_unequal_segments_counterexample shows for all binary mixtures of molecules with the same segments but different numbers of them, at all temperatures, that no coefficients of pairs exist. The reason is the mean number of segments in the dispersion integrals. With several associating components the bonds do not contribute to the coefficient at all (see C33)."
  },
  {
   "property": "C101",
   "status": "partial",
   "theorems": [
    "PcSaft.Props.C101_molar_weight_partial",
    "PcSaft.Props.C101_hexene_counterexample",
    "PcSaft.Props.C101_groups",
    "PcSaft.Props.C101_group_contribution_partial",
    "PcSaft.Props.C101_isopropyl_ethanoate_counterexample"
   ],
   "note": "Holds for all entries but two (C101_molar_weight_partial, C101_group_contribution_partial, C101_groups). C101_hexene_counterexample: gross2001.json gives 1-hexene the molar weight 84.616 g/mol instead of 84.161 (digits swapped). C101_isopropyl_ethanoate_counterexample: gc_substances.json lists a group CH2 instead of >CH for isopropyl ethanoate."
  },
  {
   "property": "C102",
   "status": "partial",
   "theorems": [
    "PcSaft.Props.C102_viscosity_partial",
    "PcSaft.Props.C102_dimethylamine_counterexample",
    "PcSaft.Props.C102_group_contribution_partial",
    "PcSaft.Props.C102_ethylene_counterexample",
    "PcSaft.Props.C102_methanol_counterexample"
   ],
   "note": "Holds for mixtures of all records of loetgeringlin2018.json but dimethylamine (C102_viscosity_partial) and for mixtures of all substances built from groups of loetgeringlin2015_homo.json but methanol and ethylene (C102_group_contribution_partial). C102_dimethylamine_counterexample, C102_ethylene_counterexample and C102_methanol_counterexample show that the correlation falls on compression for these three."
  },
  {
   "property": "C103",
   "status": "proved",
   "theorems": [
    "PcSaft.Props.C103_associating",
    "PcSaft.Props.C103_shipped",
    "PcSaft.Props.C103_residual_entropy",
    "PcSaft.Props.C103_gross2001"
   ],
   "note": "C103_residual_entropy for arbitrary parameters without sites, C103_associating with sites; C103_gross2001 and C103_shipped for the shipped substances without moments (all but 4C water and methanol of rehner2020.json, whose bonding volumes exceed the bound). States exactly at the cutoff between the two formulas for the site fractions are excluded (C42). For mixtures with very different energies the sign is not determined at low temperature, so the claim is about pure fluids."
  },
  {
   "property": "C104",
   "status": "proved",
   "theorems": [
    "PcSaft.Props.C104_lipschitz",
    "PcSaft.Props.C104_value",
    "PcSaft.Props.C104_converges",
    "PcSaft.Props.C104_moments_converge",
    "PcSaft.Props.C104_dipoles_fade",
    "PcSaft.Props.C104_quadrupoles_fade",
    "PcSaft.Props.C104_warm_dipoles_fade",
    "PcSaft.Props.C104_association_fades"
   ],
   "note": "C104_lipschitz for the energy and its derivatives with the lists of polar and associating components unchanged; C104_moments_converge, C104_dipoles_fade, C104_quadrupoles_fade, C104_warm_dipoles_fade and C104_association_fades for components that leave these lists in the limit. Poles of the Padé approximants and states at the cutoff of the site fractions are excluded (C42, C95); a mixture that loses its last dipole or quadrupole is covered along rays or for warm dipoles, and without the other kind of moment."
  },
  {
   "property": "C105",
   "status": "partial",
   "theorems": [
    "PcSaft.Props.C105_attraction_partial",
    "PcSaft.Props.C105_counterexample",
    "PcSaft.Props.C105_chains",
    "PcSaft.Props.C105_association",
    "PcSaft.Props.C105_association_absent",
    "PcSaft.Props.C105_cross_association"
   ],
   "note": "The attractive part changes if a quadrupolar substance is listed twice (C105_counterexample, the missing factor of C39); C105_attraction_partial covers everything else. Splitting a chain or an associating substance is not claimed: the functionals are not linear in the densities there. With several associating components the components are renumbered or absent inert ones added."
  },
  {
   "property": "C106",
   "status": "proved",
   "theorems": [
    "PcSaft.Props.C106_limit",
    "PcSaft.Props.C106_cross",
    "PcSaft.Props.C106_reference_positive",
    "PcSaft.Props.C106_repulsion"
   ],
   "note": "The bound 1/2 on the packing fraction and m >= 1 are required only of polar mixtures, where they keep the second-order polar terms away from zero, by which the Pade approximation divides."
  },
  {
   "property": "C107",
   "status": "proved",
   "theorems": [
    "PcSaft.Props.C107_ideal",
    "PcSaft.Props.C107_curvature",
    "PcSaft.Props.C107_stable",
    "PcSaft.Props.C107_pressure"
   ],
   "note": "The volume depends on temperature and amounts. Cross association is exactly zero below the density cutoff of the code and needs no condition. The ideal part is stated separately (Spec.idealCurvature) and shown to be the second derivative of the mixing energy of an ideal gas (C107_ideal)."
  },
  {
   "property": "C108",
   "status": "partial",
   "theorems": [
    "PcSaft.Props.C108_dipole_in_quadrupoles",
    "PcSaft.Props.C108_quadrupole_in_dipoles",
    "PcSaft.Props.C108_dipole_in_quadrupoles_counterexample",
    "PcSaft.Props.C108_quadrupole_in_dipoles_counterexample",
    "PcSaft.Props.C108_infinite_dilution_partial",
    "PcSaft.Props.C108_dipolar_fluids"
   ],
   "note": "Proved at states where every contribution is smooth or consists of absent molecules only; for dipolar fluids without further condition on the amounts (C108_dipolar_fluids). Wrong in the code for a dipolar solute at infinite dilution in a quadrupolar solvent and the reverse: second- and third-order term of the dipole-quadrupole contribution vanish in proportion to the amount, and the branch for 0/0 keeps the second-order term alone, so that the chemical potential lies below its limit (C108_dipole_in_quadrupoles_counterexample, C108_quadrupole_in_dipoles_counterexample). Several associating components are not covered."
  },
  {
   "property": "C109",
   "status": "partial",
   "theorems": [
    "PcSaft.Props.C109_difference",
    "PcSaft.Props.C109_nonpolar_partial",
    "PcSaft.Props.C109_dipole_counterexample"
   ],
   "note": "Proved for fluids without dipoles and quadrupoles, with chains, dispersion and association (C109_nonpolar_partial). Wrong in the code for polar fluids: at zero density the Padé quotient is 0/0 and the branch for NaN keeps the pair term alone, so the returned coefficient lacks twice the interaction of three polar molecules; the exact difference is C109_difference, and for pure dipolar substances the returned coefficient is too low (C109_dipole_counterexample). With several associating components both the evaluation at zero density and the pressures at extremely low density leave association out (total density below machine precision, C33), so the agreement there is of that kind."
  },
  {
   "property": "C110",
   "status": "proved",
   "theorems": [
    "PcSaft.Props.C110_second",
    "PcSaft.Props.C110_third"
   ],
   "note": "Proved with all contributions in exact arithmetic over extended reals: the nesting of the dual numbers (temperature innermost) is that of feos-core, which is outside /repo and written down in slopeState2 and slopeState3. Associating components must have sites of both kinds. With several associating components the evaluation at zero density leaves association out (C79), and so does its derivative."
  },
  {
   "property": "C111",
   "status": "proved",
   "theorems": [
    "PcSaft.Props.C111_diameter",
    "PcSaft.Props.C111_max_density",
    "PcSaft.Props.C111_hard_sphere",
    "PcSaft.Props.C111_hard_chain",
    "PcSaft.Props.C111_residual_energy",
    "PcSaft.Props.C111_binary64",
    "PcSaft.Props.C111_pure_binary64"
   ],
   "note": "Proved for every arithmetic in which each operation has a relative error of at most u (Spec.Relative) and instantiated with 53 binary digits and round to nearest; overflow and underflow are excluded by that assumption, and the elementary functions are assumed to be accurate to half a unit in the last place. Covers the hard sphere, chain and dispersion contributions, the combining rules, the segment diameters and the maximum density; the polar and association contributions have no explicit bound (C90 gives the order of their errors)."
  },
  {
   "property": "C112",
   "status": "proved",
   "theorems": [
    "PcSaft.Props.C112_dilute_enthalpy",
    "PcSaft.Props.C112_sign"
   ],
   "note": "The limit is stated with bounds for all volumes above some volume, against the derivatives of the same code at finite density. Excluded: states where a polar pair sum vanishes, because the Padé approximation divides by it. With several associating components the theorem holds but says little about bonds: the code leaves cross association out below a density of f64::EPSILON, so that neither the coefficient nor the energies at these volumes have a part from the bonds (see C33 and C97)."
  },
  {
   "property": "C113",
   "status": "partial",
   "theorems": [
    "PcSaft.Props.C113_inversion_partial",
    "PcSaft.Props.C113_enthalpy_partial",
    "PcSaft.Props.C113_energy_partial",
    "PcSaft.Props.C113_shipped_partial",
    "PcSaft.Props.C113_polar_inversion_partial",
    "PcSaft.Props.C113_polar_enthalpy_partial",
    "PcSaft.Props.C113_all_shipped_partial",
    "PcSaft.Props.C113_cold_quadrupoles_counterexample"
   ],
   "note": "Without moments at all temperatures, with and without sites, and for all such substances of the shipped files. With moments, at least one segment and temperatures from 1.5 epsilon_k on; all shipped substances meet this. Missing: polar substances below 1.5 epsilon_k, where the claim is false in general: C113_cold_quadrupoles_counterexample shows B > T B' at all low temperatures for every substance with a quadrupole and 1.1 to 1.9 segments (carbon dioxide of the shipped files is one). Also missing: mixtures."
  },
  {
   "property": "C114",
   "status": "proved",
   "theorems": [
    "PcSaft.Props.C114_dilute_heat_capacity"
   ],
   "note": "The limit is stated with bounds for all volumes above some volume, against second derivatives of the same code at finite density. Excluded: states where a polar pair sum vanishes (there the code divides by zero in the limit). With several associating components the code drops the association below a density of f64::EPSILON, so the limit has no bond part then."
  },
  {
   "property": "C115",
   "status": "partial",
   "theorems": [
    "PcSaft.Props.C115_heat_capacity_partial",
    "PcSaft.Props.C115_shipped_partial",
    "PcSaft.Props.C115_cold_quadrupoles_counterexample"
   ],
   "note": "Without moments at all temperatures, with and without sites. With moments, at least one segment and temperatures from 2.1 epsilon_k on. Both for all substances of the shipped files. Missing: polar substances below 2.1 epsilon_k, where the claim is false in general: C115_cold_quadrupoles_counterexample shows negative residual heat capacities at all low temperatures for every substance with a quadrupole, 1.1 to 1.9 segments, no dipole and no sites (carbon dioxide of the shipped files is one). Between the temperatures of that theorem and 2.1 epsilon_k nothing is proved."
  },
  {
   "property": "C116",
   "status": "proved",
   "theorems": [
    "PcSaft.Props.C116_site_fraction",
    "PcSaft.Props.C116_weak_site_fraction",
    "PcSaft.Props.C116_strong_site_fraction",
    "PcSaft.Props.C116_association_energy",
    "PcSaft.Props.C116_residual_energy"
   ],
   "note": "f64 is modelled as rounding to 53 binary digits without limits on the exponent (Arithmetic.binary64); the elementary functions are assumed to be correctly rounded. The strength is computed with rounding as well, from the records. One associating component with na = nb; polar contributions are added in C118_associating_energy; several associating components are not covered."
  },
  {
   "property": "C117",
   "status": "partial",
   "theorems": [
    "PcSaft.Props.C117_bonded_fraction_partial",
    "PcSaft.Props.C117_bonded_counterexample",
    "PcSaft.Props.C117_strong_association_counterexample"
   ],
   "note": "Proved for strengths with delta nu at least 1e-4. Missing: weaker association, where the claim is false: at delta = 2^-26 + 2^-54, just above sqrt(f64::EPSILON), the computed fraction of bonded sites is wrong by more than 20 % (C117_bonded_counterexample). The fraction of sites of type B is computed as (xa - 1) na / nb + 1, which is exactly zero at delta = 2^110 (C117_strong_association_counterexample); the code takes its logarithm."
  },
  {
   "property": "C118",
   "status": "proved",
   "theorems": [
    "PcSaft.Props.C118_dipole",
    "PcSaft.Props.C118_quadrupole",
    "PcSaft.Props.C118_dipole_quadrupole",
    "PcSaft.Props.C118_residual_energy",
    "PcSaft.Props.C118_binary64",
    "PcSaft.Props.C118_pure_binary64",
    "PcSaft.Props.C118_associating_energy"
   ],
   "note": "f64 is modelled as rounding to 53 binary digits without limits on the exponent (Arithmetic.binary64); the elementary functions are assumed to be correctly rounded. The fallback of the code for a result that is not a number (no polar molecules present) is outside this arithmetic; such states are excluded by the condition on the denominators. For quadrupolar components of different diameters the code does not compute the theory (C66_counterexample). C118_associating_energy includes one associating component with na = nb."
  },
  {
   "property": "C119",
   "status": "proved",
   "theorems": [
    "PcSaft.Props.C119_explicit_formula",
    "PcSaft.Props.C119_site_fractions",
    "PcSaft.Props.C119_strong_association",
    "PcSaft.Props.C119_association_energy",
    "PcSaft.Props.C119_residual_energy"
   ],
   "note": "f64 is modelled as rounding to 53 binary digits without limits on the exponent (Arithmetic.binary64); the elementary functions are assumed to be correctly rounded. C119_strong_association: at a strength of 2^60 with one donor and two acceptors the computed fraction of free donors is exactly zero, so that the code takes the logarithm of zero. Several associating components are not covered."
  },
  {
   "property": "C120",
   "status": "proved",
   "theorems": [
    "PcSaft.Props.C120_default_start",
    "PcSaft.Props.C120_same_sites",
    "PcSaft.Props.C120_residual",
    "PcSaft.Props.C120_default_options",
    "PcSaft.Props.C120_split",
    "PcSaft.Props.C120_first_derivatives",
    "PcSaft.Props.C120_second_derivatives",
    "PcSaft.Props.C120_third_derivatives"
   ],
   "note": "Real numbers and dual numbers up to third order; the accuracy of the first derivatives is the subject of C121. In exact arithmetic; with rounding the tolerance of 1e-10 is out of reach when D exceeds about 1e11. The linear solvers are assumed correct (CorrectSolver, CorrectDualSolver, shown satisfiable)."
  },
  {
   "property": "C121",
   "status": "proved",
   "theorems": [
    "PcSaft.Props.C121_cross_association",
    "PcSaft.Props.C121_residual",
    "PcSaft.Props.C121_weak",
    "PcSaft.Props.C121_balanced",
    "PcSaft.Props.C121_pressure",
    "PcSaft.Props.C121_chemical_potential",
    "PcSaft.Props.C121_entropy"
   ],
   "note": "First derivatives in exact arithmetic. Directions that add a component that is absent (N_i = 0) are not covered by the explicit bound. ExactAssociation is unique (C71) and its derivative is part of the claim. The linear solvers are assumed correct (CorrectSolver, CorrectDualSolver, shown satisfiable)."
  },
  {
   "property": "C122",
   "status": "proved",
   "theorems": [
    "PcSaft.Props.C122_warm_start",
    "PcSaft.Props.C122_grid",
    "PcSaft.Props.C122_inhomogeneous",
    "PcSaft.Props.C122_homogeneous"
   ],
   "note": "Values in exact arithmetic. C80 has the same for weakly associating mixtures with unequal sites; a warm start can fail for strong association with unequal sites (C117). The linear solver is assumed correct."
  },
  {
   "property": "C123",
   "status": "proved",
   "theorems": [
    "PcSaft.Props.C123_exact_unique",
    "PcSaft.Props.C123_weak",
    "PcSaft.Props.C123_equal_sites",
    "PcSaft.Props.C123_interior"
   ],
   "note": "Exact arithmetic with the one-directional dual numbers (nderiv = 1). Strong association with unequal sites is left out because the iteration can fail there (C117). The linear solvers are assumed correct."
  },
  {
   "property": "C124",
   "status": "proved",
   "theorems": [
    "PcSaft.Props.C124_pure_spheres",
    "PcSaft.Props.C124_pure_attraction",
    "PcSaft.Props.C124_pure_chains",
    "PcSaft.Props.C124_attraction",
    "PcSaft.Props.C124_association",
    "PcSaft.Props.C124_cross_association",
    "PcSaft.Props.C124_chains",
    "PcSaft.Props.C124_parts",
    "PcSaft.Props.C124_max_density",
    "PcSaft.Props.C124_pair_potential"
   ],
   "note": "A profile is what the weight functions read of it: the density, its integrals over balls and spheres and the flux through spheres around the point. The absolute cutoffs (1e-9 and the machine epsilon) carry a unit; densities between the cutoffs of the two systems of units are excluded. The hard sphere part of mixtures (FMT) is in the dependency feos-dft and not modelled."
  }
 ]
}