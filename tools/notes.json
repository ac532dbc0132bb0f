{
 "C05": "Additive parameters, exactly and for every list; the molar weight etc. from the segment sums.",
 "C07": "The property is false for the thermal conductivity coefficients: C07_counterexample. C07_segment_splitting_partial proves it for all other parameters.",
 "C14": "Every contribution and the total, including the panic outcome of the association solver.",
 "C15": "Contribution by contribution, and for the total residual energy with at most one associating component. With several associating components: the linear solver is assumed to fail exactly for singular matrices (ExactSolver, shown satisfiable).",
 "C16": "False for quadrupolar components of different size: C16_counterexample (admissible state). The partial theorem covers equal diameters.",
 "C17": "Contribution by contribution; total for at most one associating component. For several associating components see C27/C31. With several associating components: the linear solver is assumed to fail exactly for singular matrices (ExactSolver, shown satisfiable). Associating components that are removed or divided are covered up to the tolerance by C71.",
 "C18": "For any map onto a smaller mixture; also the explicit splitting of one component. With several associating components: the linear solver is assumed to fail exactly for singular matrices (ExactSolver, shown satisfiable). Associating components that are removed or divided are covered up to the tolerance by C71.",
 "C19": "Carnahan-Starling for one component, strict positivity for every mixture, strictly larger under compression.",
 "C21": "Hard sphere, hard chain, dispersion without further condition; the whole residual energy and its first derivatives for parameter sets with at most one associating component, away from the pole of the polar Padé approximation, and where no polar molecule is present. Several associating components: the energy and its first and second derivatives where association is weak, assuming that the linear solver returns a finite solution of a finite non-singular system (FiniteSolver, shown satisfiable).",
 "C22": "All contributions and the total, for every state with zero densities (C22_zero_density), and the limit of large volumes (C22_limit). The limit assumes that the polar pair terms at zero density do not vanish (DiluteRegular).",
 "C23": "Site fractions, energy and the whole Helmholtz energy contribution for one associating component.",
 "C24": "Cubic remainder with explicit constant; below 2e-20 for up to 10 sites.",
 "C25": "False above the cutoff: C25_counterexample (fraction always above 2) and C25_energy_counterexample. The partial theorem covers the series branch.",
 "C26": "One component unconditionally, cross association for any solution in (0,1].",
 "C28": "The linear solver (external crate) is assumed to return a solution and to succeed for non-singular matrices.",
 "C29": "At a positive last iterate; see C59 for why this condition is needed.",
 "C32": "Exact real start: all derivatives for dual numbers nested N < 2^steps times; the energy, its derivative along admissible curves, second and third order jets. The linear solver is assumed correct (CorrectDualSolver, shown satisfiable). C32_inexact_start bounds the error left by a real solution within a tolerance.",
 "C33": "The code violates the property: proved as a disagreement for every component with sites of both types, with a concrete mixture as counterexample. The partial theorem keeps what is true (values and first derivatives agree). feos-core's virial state is modelled as density 0 + eps1 + eps2 at unit volume.",
 "C34": "Both supported FMT versions, every number of space dimensions, positive density (see DESIGN.md item 13 for zero density).",
 "C35": "One associating component (closed form) and the iterative solver, for every number of components and space dimensions; the solver's outcome (value, panic or failure) is the same.",
 "C36": "Chain functional plus ideal chain term equals the hard chain contribution, for mixtures above the density cutoff and for pure components.",
 "C37": "Dispersion for mixtures and pure components.",
 "C38": "Dipoles, dipole-quadrupole (DQ35), pure dipoles and quadrupoles; attractive part of the functional as a whole for at most one quadrupolar component.",
 "C39": "False for two quadrupolar components, even equal ones: C39_counterexample. The partial theorem covers at most one quadrupolar component.",
 "C40": "False for variant DQ44: C40_counterexample (admissible state, every dimension). The partial theorem covers DQ35.",
 "C41": "False for a component with both moments: C41_counterexample. The partial theorem covers all other pure components.",
 "C42": "False for segment number below one: C42_counterexample. The partial theorem covers m >= 1 and all mixtures.",
 "C43": "Explicit remainder of the series; exact condition for the packing fraction error.",
 "C44": "Values, signs, strict monotonicity on both sides of the minimum, minimum unique.",
 "C45": "Unit arithmetic is explicit; C45_wrong_unit shows that a wrong unit is reported.",
 "C46": "Outcome of every function for every number of components and for missing coefficients; pure limit and pseudo-components.",
 "C47": "No option changes the residual energy of a pure component, hence rebuilding with default options is harmless.",
 "C48": "Options under subset, defaults, and agreement of the variants for equal diameters.",
 "C49": "JSON values with exact numbers; printing and parsing of numbers by serde_json is assumed to be lossless for finite numbers. C49_not_finite: a NaN is written as null and read back as absent.",
 "C50": "Names and formatted numbers must not contain a line break or a vertical bar.",
 "C52": "Case distinction and value at the reference temperature.",
 "C53": "Along any curve of states; seeds for temperature, volume and mole numbers; mixed second and third derivatives. Whole residual energy for at most one associating component at regular states; for several associating components first and mixed second derivatives, given an exact solution for the site fractions and a correct linear solver.",
 "C55": "Row layout for arbitrary (also inhomogeneous) weighted densities, generic in the number type; empty regions give finite zero.",
 "C57": "Residual contributions are total except for the cross association solver.",
 "C58": "Also gives sign and zeros (specStrength_nonneg, specStrength_eq_zero).",
 "C59": "False: C59_counterexample (admissible two-component mixture, default options, every correct linear solver). The partial theorem covers one component with equal numbers of donor and acceptor sites. C59_weak_association_partial covers any number of components when the association strengths add up to at most one at every site. C59_balanced_partial covers any number of components and any strength when every site has the same total strength.",
 "C60": "Sum over the list of contributions that the constructor produces.",
 "C61": "False away from the reference temperature: C61_counterexample at 400 K. The partial theorem gives the value at 298.15 K.",
 "C62": "Number formatting is a parameter.",
 "C63": "Hard spheres, chains, dispersion and polar terms, for any number of components; the polar terms with an arithmetic in which 0/0 is NaN. Missing: the published pair term for quadrupolar components of different diameters, where the code deviates from the theory (C66); for them only the low-density limit is proved (C63_quadrupole_limit).",
 "C64": "The published table is transcribed in Spec/Theory.lean; constants compared to 5e-9.",
 "C65": "Constants compared to 5e-7.",
 "C66": "Missing: mixtures of quadrupolar components with different diameters, where the code violates the property (C66_counterexample).",
 "C67": "Both DQ35 and DQ44.",
 "C68": "At most one associating component; states regular in the sense of Spec.Regular (off the pole of the polar terms and off the switch of the association formula).",
 "C69": "At most one associating component; states regular in the sense of Spec.Regular (off the pole of the polar terms and off the switch of the association formula). Second derivatives.",
 "C70": "At most one associating component; states regular in the sense of Spec.Regular (off the pole of the polar terms and off the switch of the association formula).",
 "C71": "Runs of the Newton iteration with positive iterates (C59 shows that others exist). The linear solver is assumed correct (CorrectSolver, shown satisfiable).",
 "C72": "At most one quadrupolar component (C39) and DQ35 if both moments occur (C40). The bulk value of the FMT contribution of feos_dft is an assumption (fmtBulk).",
 "C73": "Violated by the code: the coefficients are always zero (src/parameters.rs:128-134). Proved part: they are present exactly if all segments have them.",
 "C74": "The conversion of Python objects by pyo3 is not modelled.",
 "C75": "Positive sigma and epsilon_k for the statements about the pair potential.",
 "C76": "At most one associating component. Polar terms away from the pole of the Pade approximation, other formulas away from their switching points. The FMT contribution for mixtures belongs to feos_dft.",
 "C77": "Mixtures in every version, with the restrictions of C72 (at most one quadrupolar component, DQ35 if dipoles and quadrupoles mix), and the functionals for pure components with those of C60 (m >= 1, not both moments, packing fraction above 1e-5). At most one associating component. Away from the switching points of the formulas, as in C53.",
 "C78": "Violated by the code: with AntiSymWhiteBear the energy density of a pure component is NaN wherever there is no fluid (src/dft/pure_saft_functional.rs:90-103), and a packing fraction of exactly one passes the check of lines 72-76 and gives NaN. Proved part: everything else, at most one associating component.",
 "C79": "The bounds are sufficient, not sharp. Real numbers and dual numbers up to third order; for dual numbers the theorems say that there is a result, not how accurate the derivatives are (C32, C53). The linear solvers are assumed correct (CorrectSolver, CorrectDualSolver, shown satisfiable).",
 "C80": "Evaluation with real numbers. The bound on the strengths at an inhomogeneous point is stated in terms of the strengths and densities that the functional computes there; point_nonneg derives their signs from the weighted densities. The linear solver is assumed correct (CorrectSolver, shown satisfiable).",
 "C81": "Dual numbers over the reals, in any direction of temperature, relative volume and amounts (C81_first), and the pressure (C81_pressure). Association of several components is exactly zero below the density cutoff of the code, so it needs no condition. Polar contributions need a nonvanishing pair term at zero density (DiluteRegular).",
 "C82": "What the weight functions see of a profile at a point is a record of arbitrary local averages (ProfileAt), so the theorems hold for every profile and geometry. The FMT functional for mixtures is in an external crate and not modelled. Below a packing fraction of 1e-5 the difference to the published form is at most n3^5/(4 pi) times the cubic term.",
 "C83": "Real numbers. The pure hard sphere functional is compared with the published White Bear form in C82, since the mixture version is in an external crate.",
 "C84": "Contributions and residual energy for real numbers (any number of associating components); derivatives up to third order with at most one associating component. The density cutoff of the cross association is a fixed number and therefore depends on the units; the theorems require both densities to be on the same side of it. Constants with units outside the residual energy (ideal gas, entropy scaling) are not part of the claim.",
 "C85": "Derivatives D means that the numbers represent functions and their derivatives; C85_number_types shows it for real numbers and dual numbers nested to any depth. Renumbering requires equal diameters of quadrupolar components (see C16). States must be regular (Regular): not exactly on a branch point of the code.",
 "C86": "C86_maximum and C86_strengths are about the mass-action equations, C86_residual about the code with one associating component and unchanged numbers of sites (up to 2^25), C86_cross and C86_cross_residual about the iteration with several associating components, whose result is within its tolerance of the exact energy (C71).",
 "C87": "Packing fraction up to 1/2 (the default max_eta), segment numbers at least 1 and k_ij at most 1; the second perturbation integral changes sign at higher densities.",
 "C88": "Pressure means sum(N)/V minus the volume derivative from dual numbers, divided by k_B T. With an associating component the switch between explicit formula and series makes the pressure jump by a tiny amount, so pressures in the gap need not be attained; the theorem covers the states above the switch. Several associating components are not covered.",
 "C89": "Spec.referencePressure is evaluated from the contributions with dual numbers; C89_repulsive identifies it with the pressure of the whole equation of state for molecules without attraction.",
 "C90": "Model/Rounding.lean states what is assumed about the arithmetic (shown to hold for exact arithmetic and for rounding to 53 binary digits). The constant and the largest unit are shown to exist but not computed, so no number of correct digits for f64 at a given state follows. Numbers that are exactly zero must be handed over as zero. At the switching points (association strength times density equal to the square root of f64::EPSILON, Padé denominator zero) nothing is claimed.",
 "C91": "One associating component: evaluated by the code, including the derivatives (off the switching point between series and explicit formula), for up to 2^25 sites. Several: exact solution without restriction; the iteration of the code under convergence to positive fractions, which is shown for weak bonds.",
 "C92": "Coexistence and equality of potentials hold for polar molecules too; the existence of a loop at low temperature is shown for molecules without moments and sites. Equal free enthalpy of the two phases follows because each is minimal. For mixtures the two phases share the composition (this is stability at fixed composition, not a full phase equilibrium).",
 "C93": "Molecules without moments and association sites, average segment number at least one. For mixtures this is the mechanical critical point at fixed composition.",
 "C94": "Violated at low temperature for molecules of three segments (C94_one_loop_counterexample); the partial theorem covers temperatures from the critical one upwards. It is a property of the published polynomials of the dispersion term, which the code reproduces.",
 "C95": "Signs of the polar integrals for all chain lengths from one segment, all packing fractions up to one half and all temperatures in the stated range; with the necessity of the temperature bound (C95_cold_dipoles_repel, C95_cold_dipoles_pole). Several quadrupolar components and the dipole-quadrupole term are not covered.",
 "C96": "The data of the files are part of the model (Model/Shipped.lean, generated by tools/shipped.py). The range checks are over the complete files; the conclusions are for all mixtures and states. Several associating components, several quadrupolar components and dipole-quadrupole mixtures are not covered by the finiteness statements. sauer2014_hetero.json belongs to a different equation of state and is not modelled.",
 "C97": "Holds with all contributions. With several associating components the coefficient has no part from the bonds: the code leaves cross association out below a density of f64::EPSILON, so the pressures at very low density lack it too (see C33).",
 "C98": "Proved at all temperatures for substances without moments (C98_increasing_partial, C98_boyle_temperature_partial, C98_pressure_partial, C98_shipped_partial). Proved at temperatures of at least 1.1 epsilon_k for every substance, with any combination of dipole, quadrupole and sites, with at least one segment if it has moments (C98_polar_increasing_partial, C98_polar_boyle_temperature_partial, C98_polar_pressure_partial); C98_all_shipped_partial applies this to every shipped substance. At lower temperature it fails with moments: C98_cold_dipoles_counterexample and C98_cold_quadrupoles_counterexample show that the coefficient is positive at low temperature for dipolar substances with at least 1.1 segments and for quadrupolar ones with 1.1 to 1.9 segments, both without sites.",
 "C99": "Viscosity and self diffusion are positive without further conditions. Thermal conductivity is positive from the temperature 0.3552 m epsilon_k on at every density (C99_thermal_conductivity_partial) and negative in the dilute gas of long chains: C99_thermal_conductivity_counterexample shows it for eicosane from gross2001.json at 300 K, with the residual entropy of the equation of state itself.",
 "C100": "Proved when all components have the same number of segments, with moments and sites (C100_equal_segments_partial). It fails for different numbers of segments: C100_unequal_segments_counterexample shows for all binary mixtures of molecules with the same segments but different numbers of them, at all temperatures, that no coefficients of pairs exist. The reason is the mean number of segments in the dispersion integrals. With several associating components the bonds do not contribute to the coefficient at all (see C33).",
 "C101": "Holds for all entries but two (C101_molar_weight_partial, C101_group_contribution_partial, C101_groups). C101_hexene_counterexample: gross2001.json gives 1-hexene the molar weight 84.616 g/mol instead of 84.161 (digits swapped). C101_isopropyl_ethanoate_counterexample: gc_substances.json lists a group CH2 instead of >CH for isopropyl ethanoate.",
 "C102": "Holds for mixtures of all records of loetgeringlin2018.json but dimethylamine (C102_viscosity_partial) and for mixtures of all substances built from groups of loetgeringlin2015_homo.json but methanol and ethylene (C102_group_contribution_partial). C102_dimethylamine_counterexample, C102_ethylene_counterexample and C102_methanol_counterexample show that the correlation falls on compression for these three.",
 "C103": "C103_residual_entropy for arbitrary parameters without sites, C103_associating with sites; C103_gross2001 and C103_shipped for the shipped substances without moments (all but 4C water and methanol of rehner2020.json, whose bonding volumes exceed the bound). States exactly at the cutoff between the two formulas for the site fractions are excluded (C42). For mixtures with very different energies the sign is not determined at low temperature, so the claim is about pure fluids.",
 "C104": "C104_lipschitz for the energy and its derivatives with the lists of polar and associating components unchanged; C104_moments_converge, C104_dipoles_fade, C104_quadrupoles_fade, C104_warm_dipoles_fade and C104_association_fades for components that leave these lists in the limit. Poles of the Padé approximants and states at the cutoff of the site fractions are excluded (C42, C95); a mixture that loses its last dipole or quadrupole is covered along rays or for warm dipoles, and without the other kind of moment.",
 "C105": "The attractive part changes if a quadrupolar substance is listed twice (C105_counterexample, the missing factor of C39); C105_attraction_partial covers everything else. Splitting a chain or an associating substance is not claimed: the functionals are not linear in the densities there. With several associating components the components are renumbered or absent inert ones added.",
 "C106": "The bound 1/2 on the packing fraction and m >= 1 are required only of polar mixtures, where they keep the second-order polar terms away from zero, by which the Pade approximation divides.",
 "C107": "The volume depends on temperature and amounts. Cross association is exactly zero below the density cutoff of the code and needs no condition. The ideal part is stated separately (Spec.idealCurvature) and shown to be the second derivative of the mixing energy of an ideal gas (C107_ideal).",
 "C108": "Proved at states where every contribution is smooth or consists of absent molecules only; for dipolar fluids without further condition on the amounts (C108_dipolar_fluids). Wrong in the code for a dipolar solute at infinite dilution in a quadrupolar solvent and the reverse: second- and third-order term of the dipole-quadrupole contribution vanish in proportion to the amount, and the branch for 0/0 keeps the second-order term alone, so that the chemical potential lies below its limit (C108_dipole_in_quadrupoles_counterexample, C108_quadrupole_in_dipoles_counterexample). Several associating components are not covered.",
 "C109": "Proved for fluids without dipoles and quadrupoles, with chains, dispersion and association (C109_nonpolar_partial). Wrong in the code for polar fluids: at zero density the Padé quotient is 0/0 and the branch for NaN keeps the pair term alone, so the returned coefficient lacks twice the interaction of three polar molecules; the exact difference is C109_difference, and for pure dipolar substances the returned coefficient is too low (C109_dipole_counterexample). With several associating components both the evaluation at zero density and the pressures at extremely low density leave association out (total density below machine precision, C33), so the agreement there is of that kind.",
 "C110": "Proved with all contributions in exact arithmetic over extended reals: the nesting of the dual numbers (temperature innermost) is that of feos-core, which is outside /repo and written down in slopeState2 and slopeState3. Associating components must have sites of both kinds. With several associating components the evaluation at zero density leaves association out (C79), and so does its derivative.",
 "C111": "Proved for every arithmetic in which each operation has a relative error of at most u (Spec.Relative) and instantiated with 53 binary digits and round to nearest; overflow and underflow are excluded by that assumption, and the elementary functions are assumed to be accurate to half a unit in the last place. Covers the hard sphere, chain and dispersion contributions, the combining rules, the segment diameters and the maximum density; the polar and association contributions have no explicit bound (C90 gives the order of their errors).",
 "C112": "The limit is stated with bounds for all volumes above some volume, against the derivatives of the same code at finite density. Excluded: states where a polar pair sum vanishes, because the Padé approximation divides by it. With several associating components the theorem holds but says little about bonds: the code leaves cross association out below a density of f64::EPSILON, so that neither the coefficient nor the energies at these volumes have a part from the bonds (see C33 and C97).",
 "C113": "Without moments at all temperatures, with and without sites, and for all such substances of the shipped files. With moments, at least one segment and temperatures from 1.5 epsilon_k on; all shipped substances meet this. Missing: polar substances below 1.5 epsilon_k, where the claim is false in general: C113_cold_quadrupoles_counterexample shows B > T B' at all low temperatures for every substance with a quadrupole and 1.1 to 1.9 segments (carbon dioxide of the shipped files is one). Also missing: mixtures.",
 "C114": "The limit is stated with bounds for all volumes above some volume, against second derivatives of the same code at finite density. Excluded: states where a polar pair sum vanishes (there the code divides by zero in the limit). With several associating components the code drops the association below a density of f64::EPSILON, so the limit has no bond part then.",
 "C115": "Without moments at all temperatures, with and without sites. With moments, at least one segment and temperatures from 2.1 epsilon_k on. Both for all substances of the shipped files. Missing: polar substances below 2.1 epsilon_k, where the claim is false in general: C115_cold_quadrupoles_counterexample shows negative residual heat capacities at all low temperatures for every substance with a quadrupole, 1.1 to 1.9 segments, no dipole and no sites (carbon dioxide of the shipped files is one). Between the temperatures of that theorem and 2.1 epsilon_k nothing is proved.",
 "C116": "f64 is modelled as rounding to 53 binary digits without limits on the exponent (Arithmetic.binary64); the elementary functions are assumed to be correctly rounded. The strength is computed with rounding as well, from the records. One associating component with na = nb; polar contributions are added in C118_associating_energy; several associating components are not covered.",
 "C117": "Proved for strengths with delta nu at least 1e-4. Missing: weaker association, where the claim is false: at delta = 2^-26 + 2^-54, just above sqrt(f64::EPSILON), the computed fraction of bonded sites is wrong by more than 20 % (C117_bonded_counterexample). The fraction of sites of type B is computed as (xa - 1) na / nb + 1, which is exactly zero at delta = 2^110 (C117_strong_association_counterexample); the code takes its logarithm.",
 "C118": "f64 is modelled as rounding to 53 binary digits without limits on the exponent (Arithmetic.binary64); the elementary functions are assumed to be correctly rounded. The fallback of the code for a result that is not a number (no polar molecules present) is outside this arithmetic; such states are excluded by the condition on the denominators. For quadrupolar components of different diameters the code does not compute the theory (C66_counterexample). C118_associating_energy includes one associating component with na = nb.",
 "C119": "f64 is modelled as rounding to 53 binary digits without limits on the exponent (Arithmetic.binary64); the elementary functions are assumed to be correctly rounded. C119_strong_association: at a strength of 2^60 with one donor and two acceptors the computed fraction of free donors is exactly zero, so that the code takes the logarithm of zero. Several associating components are not covered.",
 "C120": "Real numbers and dual numbers up to third order; the accuracy of the first derivatives is the subject of C121. In exact arithmetic; with rounding the tolerance of 1e-10 is out of reach when D exceeds about 1e11. The linear solvers are assumed correct (CorrectSolver, CorrectDualSolver, shown satisfiable).",
 "C121": "First derivatives in exact arithmetic. Directions that add a component that is absent (N_i = 0) are not covered by the explicit bound. ExactAssociation is unique (C71) and its derivative is part of the claim. The linear solvers are assumed correct (CorrectSolver, CorrectDualSolver, shown satisfiable).",
 "C122": "Values in exact arithmetic. C80 has the same for weakly associating mixtures with unequal sites; a warm start can fail for strong association with unequal sites (C117). The linear solver is assumed correct.",
 "C123": "Exact arithmetic with the one-directional dual numbers (nderiv = 1). Strong association with unequal sites is left out because the iteration can fail there (C117). The linear solvers are assumed correct.",
 "C124": "A profile is what the weight functions read of it: the density, its integrals over balls and spheres and the flux through spheres around the point. The absolute cutoffs (1e-9 and the machine epsilon) carry a unit; densities between the cutoffs of the two systems of units are excluded. The hard sphere part of mixtures (FMT) is in the dependency feos-dft and not modelled."
}