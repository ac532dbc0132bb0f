{"id": "C01", "title": "Records reach the right component with the documented defaults", "statement": "Building a parameter set from n pure records puts the m, sigma, epsilon_k and molar weight of record i at position i; dipole moment, quadrupole moment, association volume and association energy that are absent from a record become 0, and absent association site numbers become 1.", "quantifier": "for every number of components, every list of records (any subset of optional fields present) and every k_ij matrix", "why_tests_cant": "tests fix one or two components with one pattern of optional fields", "anchors": ["src/parameters.rs: PcSaftParameters::from_records"]}
{"id": "C02", "title": "Lorentz-Berthelot combining rules", "statement": "In a parameter set, sigma_ij is the arithmetic mean, e_k_ij the geometric mean, epsilon_k_ij equals (1-k_ij) times the geometric mean; all are symmetric (epsilon_k_ij when k_ij is); diagonal entries reduce to the pure values; the cross association energy is the arithmetic mean and the cross association volume reduces to the pure |kappa| on the diagonal, is symmetric, is zero when either component does not associate, and never exceeds the geometric mean of the pure volumes.", "quantifier": "for every number of components, all positive sigma and epsilon_k, all non-negative association volumes, all k_ij", "why_tests_cant": "a test can only check particular mixtures; symmetry and the bound are universal statements over matrices of any size", "anchors": ["src/parameters.rs: PcSaftParameters::from_records"]}
{"id": "C03", "title": "Lists of polar and associating components are exact and ordered", "statement": "A component is listed as dipolar, quadrupolar or associating exactly if its dipole moment, quadrupole moment or association volume is non-zero; every list is strictly increasing, without duplicates, and its stored length is the number of such components.", "quantifier": "for every number of components and all records with non-zero m, sigma, epsilon_k", "why_tests_cant": "all 2^n patterns of polar components for every n", "anchors": ["src/parameters.rs: PcSaftParameters::from_records", "src/parameters.rs: dipole_comp, quadpole_comp, assoc_comp, ndipole, nquadpole, nassoc"]}
{"id": "C04", "title": "Subsets of a mixture behave like mixtures built from the selected records", "statement": "Taking a subset of a parameter set gives exactly the parameter set built from the selected records and the corresponding block of the k_ij matrix; subset of a subset is the subset with composed indices; the full index list gives back the same parameters; each parameter of the subset equals the parameter of the selected component.", "quantifier": "for every parameter set built from records and all index lists (also with repetitions and reorderings)", "why_tests_cant": "infinitely many index lists", "anchors": ["src/parameters.rs: PcSaftParameters::from_records, records", "src/eos/mod.rs: PcSaft::subset", "src/dft/mod.rs: PcSaftFunctional::subset"]}
{"id": "C05", "title": "Group-contribution parameters are the additive averages", "statement": "Combining segments never panics; the result's m is the sum of n*m, m*sigma^3 and m*epsilon_k are the sums of the segment values (for non-zero total m), and dipole, quadrupole and association parameters are the sums over those segments that have them and absent if none has one. Transport coefficients are present exactly if every segment has them, and the coefficients of viscosity and thermal conductivity are the documented weighted sums.", "quantifier": "for every list of segments with arbitrary (also fractional) counts and any pattern of optional fields", "why_tests_cant": "unbounded lists and all patterns of missing fields", "anchors": ["src/parameters.rs: PcSaftRecord::from_segments"]}
{"id": "C06", "title": "Group contribution does not depend on the order of segments", "statement": "Combining the same segments in a different order gives the same record (all fields, including transport coefficients).", "quantifier": "for every list of segments and every permutation of it", "why_tests_cant": "factorially many orders of arbitrarily long lists", "anchors": ["src/parameters.rs: PcSaftRecord::from_segments"]}
{"id": "C07", "title": "Group contribution does not depend on how repeated segments are grouped", "statement": "Listing a segment once with count a+b or twice with counts a and b gives the same record. (The code violates this for the fourth thermal conductivity coefficient.)", "quantifier": "for every list of segments, every segment and all counts", "why_tests_cant": "all ways of splitting counts in arbitrary lists", "anchors": ["src/parameters.rs: PcSaftRecord::from_segments (thermal_conductivity, n_t)"]}
{"id": "C08", "title": "Segment-based binary parameters are bilinear in the segment counts", "statement": "The k_ij obtained from segment-segment parameters is the sum of k*n1*n2: independent of order, additive in concatenation, invariant when a count is split, and zero for an empty list.", "quantifier": "for every list of segment pairs", "why_tests_cant": "unbounded lists", "anchors": ["src/parameters.rs: PcSaftBinaryRecord::from_segments_binary"]}
{"id": "C09", "title": "Transport coefficient tables exist exactly when every component has coefficients", "statement": "The viscosity, diffusion and thermal conductivity coefficient tables of a parameter set are present if and only if every record has the coefficients, and then column i holds the coefficients of record i in order.", "quantifier": "for every number of components and every pattern of missing coefficients", "why_tests_cant": "2^n patterns for every n", "anchors": ["src/parameters.rs: PcSaftParameters::from_records (viscosity, diffusion, thermal_conductivity)"]}
{"id": "C10", "title": "Ideal gas model selection", "statement": "The equation of state uses Joback if and only if every component has an ideal gas record, with the records in component order, and the QSPR model otherwise; the functional uses Joback with the given records in the same case and default Joback records otherwise.", "quantifier": "for every number of components and every pattern of missing records", "why_tests_cant": "2^n patterns for every n", "anchors": ["src/eos/mod.rs: PcSaft::with_options", "src/dft/mod.rs: PcSaftFunctional::with_options", "src/parameters.rs: joback_records"]}
{"id": "C11", "title": "The residual model contains exactly the required contributions", "statement": "An equation of state always contains hard sphere, hard chain and dispersion; dipole if and only if some component is dipolar; quadrupole if and only if some component is quadrupolar; the dipole-quadrupole term (with the chosen variant) if and only if both occur; the explicit association term for exactly one associating component and the cross-association term (with the chosen iteration limit and tolerance) for two or more; each at most once.", "quantifier": "for every mixture and all options", "why_tests_cant": "all combinations for every number of components and all option values", "anchors": ["src/eos/mod.rs: PcSaft::with_options"]}
{"id": "C12", "title": "Maximum density corresponds to the maximum packing fraction", "statement": "At the maximum density the packing fraction computed with the temperature-independent diameters equals max_eta; the value is positive for positive input, does not change when all moles are scaled, and depends on the mole numbers only through the composition; equation of state and functional agree.", "quantifier": "for every mixture with positive m, sigma and all non-zero, non-negative mole vectors", "why_tests_cant": "continuum of compositions", "anchors": ["src/eos/mod.rs: PcSaft::compute_max_density", "src/dft/mod.rs: PcSaftFunctional::compute_max_density"]}
{"id": "C13", "title": "Temperature-dependent segment diameter", "statement": "The segment diameter lies strictly between 0.88 sigma and sigma, decreases strictly with temperature, tends to sigma as T tends to 0 and to 0.88 sigma as T tends to infinity.", "quantifier": "for all positive sigma, epsilon_k and temperatures", "why_tests_cant": "continuum", "anchors": ["src/eos/hard_sphere.rs: PcSaftParameters::hs_diameter"]}
{"id": "C14", "title": "Residual Helmholtz energy is extensive", "statement": "Scaling volume and all mole numbers by the same positive factor scales every contribution, and the total residual Helmholtz energy, by that factor.", "quantifier": "for every mixture, every state and every positive factor (association with two or more components above the zero-density cutoff and with a linear solver that depends only on its input)", "why_tests_cant": "continuum of states and factors", "anchors": ["src/eos/hard_sphere.rs", "src/eos/hard_chain.rs", "src/eos/dispersion.rs", "src/eos/polar.rs", "src/eos/association.rs", "src/eos/mod.rs: PcSaft::residual"]}
{"id": "C15", "title": "Renumbering the components does not change the Helmholtz energy", "statement": "Reordering the components together with the mole numbers and k_ij leaves the hard sphere, hard chain, dispersion, dipole, dipole-quadrupole and one-component association contributions unchanged; so does the whole residual energy of mixtures with several associating components.", "quantifier": "for every mixture, every state and every permutation", "why_tests_cant": "n! permutations for every n and a continuum of states", "anchors": ["src/eos/hard_sphere.rs: HardSphere", "src/eos/hard_chain.rs: HardChain", "src/eos/dispersion.rs: Dispersion", "src/eos/polar.rs: Dipole, DipoleQuadrupole", "src/eos/association.rs: Association"]}
{"id": "C16", "title": "Renumbering components with quadrupoles", "statement": "Reordering the components leaves the quadrupole contribution unchanged. (The code violates this for two quadrupolar components with different sigma.)", "quantifier": "for every mixture, every state and every permutation", "why_tests_cant": "n! permutations and a continuum of states; the defect is invisible for pure components and for mixtures with one quadrupolar component, which is all the tests use", "anchors": ["src/eos/polar.rs: Quadrupole::helmholtz_energy"]}
{"id": "C17", "title": "A component with zero moles has no influence", "statement": "The hard sphere, hard chain, dispersion, dipole, quadrupole, dipole-quadrupole and association contributions of a mixture in which one component has zero moles equal those of the mixture without this component; so does the whole residual energy of mixtures with several associating components, if the absent component does not associate.", "quantifier": "for every mixture, every position of the absent component and every state of the remaining components", "why_tests_cant": "continuum of states; tests check binary mixtures of alkanes only", "anchors": ["src/eos/hard_sphere.rs", "src/eos/hard_chain.rs", "src/eos/dispersion.rs", "src/eos/polar.rs", "src/eos/association.rs"]}
{"id": "C18", "title": "Splitting a component into identical pseudo-components changes nothing", "statement": "Replacing a component by two components with the same record and its moles divided between them leaves hard sphere, hard chain, dispersion, dipole and dipole-quadrupole contributions unchanged; so does the whole residual energy of mixtures with several associating components, if the divided component does not associate.", "quantifier": "for every mixture, every way of dividing the moles and every state", "why_tests_cant": "continuum of divisions", "anchors": ["src/eos/hard_sphere.rs", "src/eos/hard_chain.rs", "src/eos/dispersion.rs", "src/eos/polar.rs"]}
{"id": "C19", "title": "Pure hard spheres follow Carnahan-Starling and repel", "statement": "For one component the hard sphere contribution equals N m (4 eta - 3 eta^2)/(1 - eta)^2; it is non-negative and strictly increasing in the packing fraction.", "quantifier": "for all positive m, sigma, epsilon_k, T, V, N with packing fraction below one", "why_tests_cant": "continuum of states", "anchors": ["src/eos/hard_sphere.rs: HardSphere::helmholtz_energy"]}
{"id": "C20", "title": "Hard chain contribution: formula, sign and the spherical limit", "statement": "For one component the hard chain contribution equals N (1-m) ln((1-eta/2)/(1-eta)^3); in mixtures it uses the contact value 1/(1-z3) + 3 d z2/(2 (1-z3)^2) + d^2 z2^2/(2 (1-z3)^3), is exactly zero for m = 1 and non-positive when every m is at least 1.", "quantifier": "for every mixture and every state with packing fraction below one", "why_tests_cant": "continuum of states", "anchors": ["src/eos/hard_chain.rs: HardChain::helmholtz_energy"]}
{"id": "C21", "title": "No NaN or infinity at admissible states", "statement": "At every state with positive temperature and volume, non-negative moles (not all zero) and packing fraction below one, evaluating the contributions never divides by zero or takes the logarithm of a non-positive number: with exact arithmetic extended by infinities and NaN the result is finite and equals the value of the formula. A composition without any of the polar components, where the polar terms compute 0/0, is included.", "quantifier": "for every mixture with positive m and sigma and non-negative epsilon_k (hard sphere, hard chain, dispersion); for the whole residual energy positive epsilon_k and at most one associating component, or several at states where association is weak (C79)", "why_tests_cant": "continuum of states, including the edges of the admissible region", "anchors": ["src/eos/hard_sphere.rs", "src/eos/hard_chain.rs", "src/eos/dispersion.rs", "src/eos/association.rs: newton_step_cross_association"]}
{"id": "C22", "title": "Ideal gas limit", "statement": "At zero density of all components every contribution is zero: hard sphere, hard chain, dispersion, polar contributions and association. At given temperature and amounts the residual Helmholtz energy tends to zero as the volume grows.", "quantifier": "for every mixture, every composition and temperature; for the limit the pair terms of the polar contributions at zero density must not vanish, since the code divides by them", "why_tests_cant": "continuum of compositions and temperatures, and a limit", "anchors": ["src/eos/hard_sphere.rs", "src/eos/hard_chain.rs", "src/eos/dispersion.rs", "src/eos/polar.rs", "src/eos/association.rs"]}
{"id": "C23", "title": "The explicit site fractions solve the mass-action law", "statement": "For one associating component with two kinds of sites the computed fractions of unbonded sites satisfy the mass-action equations exactly, lie in (0,1], and are the only such solution; exchanging the roles of the site types exchanges the fractions.", "quantifier": "for all positive na, nb and association strengths above the small-strength cutoff", "why_tests_cant": "continuum", "anchors": ["src/eos/association.rs: assoc_site_frac_ab, Association::helmholtz_energy"]}
{"id": "C24", "title": "Small association strength: the series branch is accurate", "statement": "At or below the cutoff the series used for the site fractions deviates from the exact solution by at most a cubic remainder (below 2e-20 for site numbers up to 10), so the switch of formula causes no visible jump.", "quantifier": "for all 0 <= delta*rho <= sqrt(epsilon) and all site numbers in the stated range", "why_tests_cant": "continuum", "anchors": ["src/eos/association.rs: assoc_site_frac_ab, assoc_site_frac_a"]}
{"id": "C25", "title": "Components with one kind of self-associating sites", "statement": "The computed site fraction solves X (1 + na delta rho X) = 1 and lies in (0,1]. (The code violates this above the cutoff: the fraction exceeds 1.)", "quantifier": "for all positive na and association strengths", "why_tests_cant": "no test in the repository reaches this branch; a continuum of inputs", "anchors": ["src/eos/association.rs: assoc_site_frac_a, Association::helmholtz_energy"]}
{"id": "C26", "title": "Association never raises the Helmholtz energy", "statement": "For one associating component with two kinds of sites the association contribution is non-positive, and zero exactly at zero association strength or zero moles; for cross association the energy computed from any solution in (0,1] is non-positive.", "quantifier": "for all states and parameters", "why_tests_cant": "continuum", "anchors": ["src/eos/association.rs: Association, CrossAssociation"]}
{"id": "C27", "title": "The mass-action equations of cross association have exactly one solution", "statement": "For non-negative association strengths, densities and site numbers the equations solved by the cross-association iteration have exactly one positive solution and it lies in (0,1].", "quantifier": "for every number of associating components and all non-negative matrices", "why_tests_cant": "existence and uniqueness over a continuum of matrices of every size", "anchors": ["src/eos/association.rs: helmholtz_energy_density_cross_association, newton_step_cross_association"]}
{"id": "C28", "title": "Newton iteration of cross association: solvable and only stops moving at the solution", "statement": "At every positive iterate the linear system is non-singular, so the step never fails there; a step leaves the iterate unchanged if and only if it is the solution.", "quantifier": "for every number of associating components, all non-negative strengths and every positive iterate", "why_tests_cant": "continuum of iterates and matrices", "anchors": ["src/eos/association.rs: newton_step_cross_association"]}
{"id": "C29", "title": "Reported convergence means an accurate result", "statement": "If the cross-association solver reports convergence with tolerance tol <= 1/8 at a positive iterate, the returned fractions are positive and deviate from the exact solution by at most the relative error 4 tol, and the energy density by at most 10 tol per site, whatever the initial guess and the number of iterations were.", "quantifier": "for every history of the iteration, every initial guess, all parameters", "why_tests_cant": "all iteration histories", "anchors": ["src/eos/association.rs: helmholtz_energy_density_cross_association"]}
{"id": "C30", "title": "Outcomes of the cross-association solver", "statement": "The solver returns a result only if some iteration met the tolerance, the density is below the cutoff, or the iteration limit is zero; otherwise it returns an error; on error the caller's initial-guess array is unchanged; below the density cutoff the result is zero and the guess is reset to one; with iteration limit zero the starting values are used unchecked.", "quantifier": "for every step function, iteration limit and starting point", "why_tests_cant": "all runs of the loop", "anchors": ["src/eos/association.rs: helmholtz_energy_density_cross_association"]}
{"id": "C31", "title": "Cross association of one component agrees with the explicit formula", "statement": "For one associating component the cross-association equations have as their unique solution the explicit site fractions, so both implementations define the same Helmholtz energy.", "quantifier": "for all positive strengths above the small-strength cutoff, densities and site numbers", "why_tests_cant": "continuum; the test compares one state of water", "anchors": ["src/eos/association.rs: Association, CrossAssociation"]}
{"id": "C32", "title": "Derivatives of the cross-association energy are exact", "statement": "Starting from fractions whose real parts solve the equations, the repeated Newton steps with generalized dual numbers produce the exact solution in the dual algebra (all derivatives up to the order of the number type).", "quantifier": "for every nilpotent extension of the reals of order at most 2^k for k steps, every number of components and all strengths", "why_tests_cant": "all derivative directions and orders", "anchors": ["src/eos/association.rs: helmholtz_energy_density_cross_association (calculate derivatives)"]}
{"id": "C33", "title": "Second virial coefficient includes association", "statement": "At zero density the first density derivative of the association energy density vanishes but the second does not: both association implementations give the same dual-number result at zero density. (The code violates this: the cross-association path returns an exact zero without derivatives.)", "quantifier": "for all associating mixtures and temperatures", "why_tests_cant": "tests evaluate virial coefficients of non-associating fluids only", "anchors": ["src/eos/association.rs: helmholtz_energy_density_cross_association (density close to 0)"]}
{"id": "C34", "title": "Pure-component functional in the bulk equals the equation of state: hard sphere and association", "statement": "For a homogeneous fluid the FMT+association functional for pure components gives the hard sphere plus association energy density of the equation of state, for both supported FMT versions and any number of space dimensions.", "quantifier": "for all pure-component parameters and states with packing fraction above the series cutoff and at most one (below the cutoff: up to the series error)", "why_tests_cant": "continuum of states", "anchors": ["src/dft/pure_saft_functional.rs: PureFMTAssocFunctional"]}
{"id": "C35", "title": "Association functional in the bulk equals the equation of state", "statement": "For a homogeneous mixture the association functional gives the association energy density of the equation of state.", "quantifier": "for all mixtures with one associating component, all states and dimensions", "why_tests_cant": "continuum", "anchors": ["src/dft/association.rs: AssociationFunctional"]}
{"id": "C36", "title": "Chain functionals in the bulk equal the equation of state", "statement": "For a homogeneous fluid the chain functional plus the ideal chain term equals the hard chain contribution of the equation of state up to the documented epsilon regularisation (explicit error term); the pure and the mixture implementation agree.", "quantifier": "for all mixtures, states with packing fraction below one and dimensions", "why_tests_cant": "continuum", "anchors": ["src/dft/hard_chain.rs: ChainFunctional", "src/dft/pure_saft_functional.rs: PureChainFunctional"]}
{"id": "C37", "title": "Attractive functional in the bulk equals the equation of state: dispersion", "statement": "For a homogeneous fluid the dispersion part of the attractive functionals (mixture and pure) equals the dispersion contribution of the equation of state divided by the volume, whatever the weight-function scale psi.", "quantifier": "for all mixtures and states with total density above the cutoff", "why_tests_cant": "continuum", "anchors": ["src/dft/dispersion.rs: AttractiveFunctional", "src/dft/pure_saft_functional.rs: PureAttFunctional"]}
{"id": "C38", "title": "Attractive functional in the bulk equals the equation of state: dipoles", "statement": "For a homogeneous fluid the dipole and dipole-quadrupole (variant DQ35) parts of the mixture functional equal the corresponding contributions of the equation of state; the dipole and quadrupole parts of the pure functional equal those of the equation of state.", "quantifier": "for all mixtures with non-negative epsilon_k and all states", "why_tests_cant": "continuum", "anchors": ["src/dft/polar.rs: phi_polar_dipole, phi_polar_dipole_quadrupole", "src/dft/pure_saft_functional.rs: PureAttFunctional"]}
{"id": "C39", "title": "Attractive functional in the bulk equals the equation of state: quadrupoles in mixtures", "statement": "For a homogeneous mixture the quadrupole part of the functional equals the quadrupole contribution of the equation of state. (The code violates this for two or more quadrupolar components.)", "quantifier": "for all mixtures and states", "why_tests_cant": "no test compares the two implementations for such a mixture", "anchors": ["src/dft/polar.rs: phi_polar_quadrupole", "src/eos/polar.rs: Quadrupole"]}
{"id": "C40", "title": "The dipole-quadrupole variant option is honoured by the functional", "statement": "Functional and equation of state built with the same options agree for both variants. (The code violates this: the functional always uses DQ35.)", "quantifier": "for all mixtures, states and options", "why_tests_cant": "option combinations over a continuum of states", "anchors": ["src/dft/polar.rs: phi_polar_dipole_quadrupole", "src/eos/mod.rs: PcSaftOptions::dq_variant"]}
{"id": "C41", "title": "Pure components that are both dipolar and quadrupolar", "statement": "The pure-component functional contains the dipole-quadrupole term like the equation of state and the mixture functional. (The code violates this: the term is missing.)", "quantifier": "for all pure components with both moments", "why_tests_cant": "no test has such a component", "anchors": ["src/dft/pure_saft_functional.rs: PureAttFunctional"]}
{"id": "C42", "title": "Short chains (m < 1) in the pure-component functional", "statement": "The pure-component functional contains the chain term whenever the segment number differs from one. (The code violates this for m < 1, e.g. argon in the shipped parameter file.)", "quantifier": "for all pure components", "why_tests_cant": "no test has m < 1", "anchors": ["src/dft/mod.rs: PcSaftFunctional::with_options"]}
{"id": "C43", "title": "Series expansion of the third FMT function and the packing-fraction check", "statement": "Below the cutoff the series replacing the 0/0 expression deviates from the exact function by at most a bound far below double precision relevance; the functional returns an error if and only if some grid point has packing fraction above one.", "quantifier": "for all packing fractions below the cutoff and all grids", "why_tests_cant": "continuum; all grids", "anchors": ["src/dft/pure_saft_functional.rs: PureFMTAssocFunctional::calculate_helmholtz_energy_density"]}
{"id": "C44", "title": "Pair potential is Lennard-Jones", "statement": "The pair potential vanishes at r = sigma, has its minimum -epsilon at r = 2^(1/6) sigma, is positive for smaller r than sigma and negative beyond, and increases strictly beyond the minimum and decreases strictly before it.", "quantifier": "for all positive sigma, epsilon_k and distances", "why_tests_cant": "continuum", "anchors": ["src/dft/mod.rs: PairPotential::pair_potential"]}
{"id": "C45", "title": "Viscosity reference: units, pure limit, symmetry", "statement": "The viscosity reference never fails a unit check for a temperature in kelvin and is returned in pascal seconds; for one component it is the Chapman-Enskog value independent of the amount; for mixtures it does not change when the components are renumbered or all moles are scaled, and a mixture of identical components gives the pure value.", "quantifier": "for all mixtures and positive temperatures", "why_tests_cant": "continuum, all permutations", "anchors": ["src/eos/mod.rs: viscosity_reference, omega22"]}
{"id": "C46", "title": "Entropy-scaling correlations: error logic and pure limit", "statement": "Diffusion and thermal conductivity functions return the incompatible-components error exactly when the number of components is not one and never otherwise; missing coefficients lead to a panic and never to a number; for a pure component the correlations reduce to the documented polynomials in s/m; the viscosity correlation of a mixture of identical components equals the pure one.", "quantifier": "for all mixtures, compositions and entropies", "why_tests_cant": "all component counts and patterns", "anchors": ["src/eos/mod.rs: viscosity_correlation, diffusion_reference, diffusion_correlation, thermal_conductivity_reference, thermal_conductivity_correlation"]}
{"id": "C47", "title": "Thermal conductivity reference uses the given equation of state", "statement": "The residual entropy entering the thermal conductivity reference is that of the equation of state it is called on, including its options, although the code rebuilds an equation of state with default options for this purpose.", "quantifier": "for all equations of state and options", "why_tests_cant": "tests use default options only; that no option can change the value for a pure component is a statement about all options", "anchors": ["src/eos/mod.rs: thermal_conductivity_reference"]}
{"id": "C48", "title": "Options survive subsets; the dipole-quadrupole variants coincide for equal diameters", "statement": "Taking subsets keeps the options of the equation of state and of the functional (and its FMT version), and constructors without options use the documented defaults; if all sigma are equal the two dipole-quadrupole variants give the same energy.", "quantifier": "for all mixtures, options and index lists", "why_tests_cant": "continuum of options", "anchors": ["src/eos/mod.rs: PcSaft::new, with_options, subset", "src/dft/mod.rs: PcSaftFunctional::new, new_full, subset", "src/eos/polar.rs: DQVariants"]}
{"id": "C49", "title": "Records survive a JSON round trip", "statement": "Writing a record with finite numbers to JSON and reading it back gives the same record; absent options are not written; a document without the optional keys, or with null there, is read as absent; a document without m, sigma or epsilon_k is rejected.", "quantifier": "for every record and every pattern of optional fields", "why_tests_cant": "2^9 patterns times all numbers", "anchors": ["src/parameters.rs: PcSaftRecord (Serialize, Deserialize, skip_serializing_if)"]}
{"id": "C50", "title": "The markdown table has one well-formed row per component", "statement": "The table consists of a header line, a separator line and exactly one line per component in order, each with eleven cells, the first being the component's name or 'Component i' counted from one.", "quantifier": "for every number of components, all names and numbers without line breaks or vertical bars", "why_tests_cant": "every number of components and all strings", "anchors": ["src/parameters.rs: PcSaftParameters::to_markdown"]}
{"id": "C51", "title": "Parsing the dipole-quadrupole option", "statement": "Exactly the strings dq35 and dq44 are accepted and mapped to their variants; every other string is rejected.", "quantifier": "for every string", "why_tests_cant": "infinitely many strings", "anchors": ["src/python.rs: impl From<&str> for DQVariants"]}
{"id": "C52", "title": "QSPR ideal gas: choice of coefficients and reference state", "statement": "The coefficient set is the associating one exactly if some component associates, the polar one exactly if none associates and some component is polar, and the non-polar one otherwise; at the reference temperature 298.15 K the result is ln(kB T/(p0 A^3)) for every component, whatever the parameters.", "quantifier": "for all mixtures", "why_tests_cant": "all mixtures", "anchors": ["src/eos/qspr.rs: QSPR::de_broglie_wavelength"]}
{"id": "C53", "title": "Automatic derivatives of the contributions are the true derivatives", "statement": "Evaluating a contribution, or the whole residual Helmholtz energy, with generalized dual numbers gives the exact partial derivatives of the same function evaluated with real numbers: first derivatives with respect to temperature, volume or any mole number (pressure, entropy, chemical potential), and mixed second and third derivatives in arbitrary directions.", "quantifier": "for every mixture with at most one associating component, every state with packing fraction below one at which the polar and association formulas are smooth, and every direction", "why_tests_cant": "derivatives at a continuum of states", "anchors": ["src/eos/hard_sphere.rs", "src/eos/hard_chain.rs", "src/eos/dispersion.rs", "generic parameter D: DualNum<f64>"]}
{"id": "C54", "title": "Results of the association functional do not depend on the neighbouring grid points", "statement": "The energy density computed at a grid point depends on the other points only within the solver tolerance, although the initial guess is carried over from the previous point: if the solver succeeds at a point for two different initial guesses, the two results agree within an explicit multiple of the tolerance.", "quantifier": "for all grids, all orders of points and all initial guesses for which the last iterate is positive", "why_tests_cant": "all grids and histories", "anchors": ["src/dft/association.rs: AssociationFunctional::calculate_helmholtz_energy_density", "src/eos/association.rs: helmholtz_energy_density_cross_association"]}
{"id": "C55", "title": "The association functional reads the weighted densities it asked for", "statement": "For every number of components and space dimensions the rows selected by the association and chain functionals are the ones their weight functions produce; empty regions (density below the cutoff) use the unmodified density and no vector correction, so no division by zero occurs.", "quantifier": "for every number of components at least one and every dimension", "why_tests_cant": "all sizes", "anchors": ["src/dft/association.rs: AssociationFunctional", "src/dft/hard_chain.rs: ChainFunctional", "src/dft/pure_saft_functional.rs: PureFMTAssocFunctional"]}
{"id": "C56", "title": "The functional contains exactly the required contributions", "statement": "For one component and a White Bear type FMT version the functional consists of the combined FMT and association term, the attractive term, and the chain term for m > 1; otherwise of the FMT term with the chosen version, the attractive term, the chain term exactly if some m differs from one, and the association term (with the chosen options) exactly if some component associates.", "quantifier": "for every mixture, FMT version and option set", "why_tests_cant": "all combinations", "anchors": ["src/dft/mod.rs: PcSaftFunctional::with_options"]}
{"id": "C57", "title": "Evaluating the residual Helmholtz energy fails only if the association solver fails", "statement": "The residual Helmholtz energy of an equation of state is the sum of its contributions; evaluating it panics only when the cross-association iteration does not converge, and never with fewer than two associating components.", "quantifier": "for every mixture, option set and state", "why_tests_cant": "absence of panics over a continuum of states and all mixtures", "anchors": ["src/eos/mod.rs: PcSaft::with_options, residual", "src/eos/association.rs: CrossAssociation"]}
{"id": "C58", "title": "Association strength follows the combining rules", "statement": "The association strength between any two associating components is the contact value of the hard-sphere mixture times the geometric mean of the association volumes, the geometric-mean segment volume and the Boltzmann factor of the mean association energy minus one; it is symmetric, non-negative for non-negative association energies, and zero exactly if the mean association energy is zero.", "quantifier": "for all mixtures built from records and all admissible states", "why_tests_cant": "continuum; the tests only see energies of one or two states", "anchors": ["src/eos/association.rs: association_strength", "src/parameters.rs: from_records"]}
{"id": "C59", "title": "Converged site fractions are fractions", "statement": "Whenever the cross-association solver, started from its default values, reports convergence, the returned numbers are positive (and so, by C29, close to the true fractions of unbonded sites). (The code violates this: it can converge to a root with negative entries.)", "quantifier": "for all mixtures and admissible states, default options", "why_tests_cant": "the tests look at one state of water; the violation needs particular combinations of association sites and strengths", "anchors": ["src/eos/association.rs: helmholtz_energy_density_cross_association, newton_step_cross_association"]}
{"id": "C60", "title": "The functional for a pure component adds up to the equation of state", "statement": "In a homogeneous fluid the sum of all contributions of the functional built for a pure component, plus the ideal chain term, is the residual Helmholtz energy of the equation of state built from the same parameters and options.", "quantifier": "for every component with at least one segment that is not both dipolar and quadrupolar, both FMT versions of the pure implementation, every number of space dimensions and every state with packing fraction between the series cutoff and one", "why_tests_cant": "tests compare a few fluids at single states and need not notice a contribution that is missing for other parameters", "anchors": ["src/dft/mod.rs: PcSaftFunctional::with_options", "src/dft/pure_saft_functional.rs"]}
{"id": "C61", "title": "QSPR ideal gas heat capacity", "statement": "The isobaric heat capacity that follows from the QSPR de Broglie wavelength is the linear function of temperature through the correlated heat capacities at 300 K and 400 K. (The code violates this: the correlated values themselves change with temperature, so it holds at the reference temperature 298.15 K only.)", "quantifier": "for all parameters and all positive temperatures", "why_tests_cant": "the tests compare single numbers; the claim is about the temperature dependence", "anchors": ["src/eos/qspr.rs: ln_lambda3"]}
{"id": "C62", "title": "Printed records and parameter sets show exactly what is there", "statement": "The text for a record lists m, sigma, epsilon_k and exactly those options that are present, in field order, separated by commas; the text for a parameter set shows dipole moments, quadrupole moments, association parameters and binary parameters exactly if some component is dipolar, quadrupolar or associating or some binary parameter is not zero.", "quantifier": "for all records, parameter sets and number formats", "why_tests_cant": "2^9 combinations of optional fields, arbitrary numbers of components", "anchors": ["src/parameters.rs: Display for PcSaftRecord, Display for PcSaftParameters"]}
{"id": "C63", "title": "Second virial coefficients are those of the theory", "statement": "The dual-number evaluation at zero density that feos-core uses for virial coefficients gives for hard spheres two thirds of pi times the cubed collision diameter summed over all pairs of segments, for chains the term from the slope of the contact value, for dispersion the first and second order perturbation terms with the universal constants at zero density, for dipoles and quadrupoles the pair term; values and first derivatives vanish and no NaN appears.", "quantifier": "for all parameter sets, temperatures and mole fractions", "why_tests_cant": "the tests evaluate the equation of state at single liquid-like states, never at zero density, where several sub-expressions are 0/0", "anchors": ["src/eos/hard_sphere.rs", "src/eos/hard_chain.rs", "src/eos/dispersion.rs", "src/eos/polar.rs: helmholtz_energy of Dipole, Quadrupole, DipoleQuadrupole"]}
{"id": "C64", "title": "Hard spheres, chains and dispersion are the published equations", "statement": "For every mixture built from records the hard sphere contribution is the Boublik-Mansoori-Carnahan-Starling-Leland expression, the chain contribution is -sum rho_i (m_i-1) ln g_ii with the contact value of the hard sphere mixture, and the dispersion contribution is the Gross-Sadowski second-order perturbation theory with one-fluid mixing rules (k_ij only in the cross energies), where all 42 universal constants agree with the published table within rounding.", "quantifier": "for all records, k_ij matrices, temperatures, volumes and amounts with packing fraction below one", "why_tests_cant": "unit tests compare single numbers for propane and butane; one wrong digit in a constant or a wrong weight of a cross term can hide", "anchors": ["src/eos/hard_sphere.rs", "src/eos/hard_chain.rs", "src/eos/dispersion.rs"]}
{"id": "C65", "title": "The dipole term is the published Pad\u00e9 approximation", "statement": "The dipole contribution equals V phi2/(1-phi3/phi2) where phi2 and phi3 are plain sums over all pairs and triplets of components of the Gross-Vrabec terms, with reduced strengths mu^2/(m k_B T), segment numbers capped at two, and the published constants within rounding.", "quantifier": "for all records with positive m, sigma, epsilon, all temperatures, volumes and amounts off the pole of the Pad\u00e9 approximation", "why_tests_cant": "the code sums over i<=j<=k of polar components with multiplicities 1, 2, 3, 6; tests use at most two components", "anchors": ["src/eos/polar.rs:1-272", "src/parameters.rs: mu2"]}
{"id": "C66", "title": "The quadrupole term is the published Pad\u00e9 approximation", "statement": "As C65 for quadrupoles with strengths Q^2/(m k_B T) and the constants of Gross. (The code violates this for mixtures of quadrupolar components of different size.)", "quantifier": "for all records with positive m, sigma, epsilon, all temperatures, volumes and amounts off the pole of the Pad\u00e9 approximation", "why_tests_cant": "tests contain no mixture of two quadrupolar components of different size", "anchors": ["src/eos/polar.rs:284-369", "src/parameters.rs: q2"]}
{"id": "C67", "title": "The dipole-quadrupole term is the published Pad\u00e9 approximation", "statement": "As C65 for the dipole-quadrupole cross term of Vrabec and Gross, for both variants of the second-order term, including the factor alpha of triplets with two quadrupoles.", "quantifier": "for all records with positive m, sigma, epsilon, all temperatures, volumes and amounts off the pole of the Pad\u00e9 approximation", "why_tests_cant": "a single test value cannot separate the two kinds of triplets or the two scalings of the strengths", "anchors": ["src/eos/polar.rs:377-484"]}
{"id": "C68", "title": "The residual energy is analytic where it is used", "statement": "At every admissible state away from the pole of the polar terms and from the switch between the two association formulas, the residual Helmholtz energy is a real-analytic function of temperature, volume and mole numbers. There are no kinks or jumps that would break Newton solvers of phase equilibria.", "quantifier": "for all records, binary parameters, options and regular states with at most one associating component", "why_tests_cant": "smoothness is a statement about a whole neighbourhood of every state; finite differences cannot exclude a kink", "anchors": ["src/eos/mod.rs: PcSaft::with_options", "src/eos/hard_sphere.rs", "src/eos/hard_chain.rs", "src/eos/dispersion.rs", "src/eos/polar.rs", "src/eos/association.rs"]}
{"id": "C69", "title": "Maxwell relations hold for the derivatives the code returns", "statement": "The mixed second derivative of the residual energy does not depend on the order in which two directions (temperature, volume, any mole number or a combination) are seeded in the dual numbers. So dp/dT at constant volume equals dS/dV, and dmu_i/dN_j equals dmu_j/dN_i.", "quantifier": "for all records, options, pairs of directions and regular states with at most one associating component", "why_tests_cant": "tests check a handful of pairs at a handful of states within a tolerance", "anchors": ["src/eos/mod.rs: PcSaft::with_options", "src/eos/*.rs: helmholtz_energy"]}
{"id": "C70", "title": "Euler and Gibbs-Duhem relations", "statement": "Derivatives along a combined direction are the combination of the derivatives along the axes. The residual energy equals the sum of N_i mu_i minus p V with the derivatives the code returns, and the Gibbs-Duhem relation holds for every change of state.", "quantifier": "for all records, options, directions and regular states with at most one associating component", "why_tests_cant": "exact identities between outputs of separate evaluations, at every state", "anchors": ["src/eos/mod.rs: PcSaft::with_options", "src/eos/*.rs: helmholtz_energy"]}
{"id": "C71", "title": "Association energies of equivalent mixtures agree up to the tolerance", "statement": "The mass-action equations of a mixture define exactly one association energy. It does not change if identical components are merged, if components are renumbered or if absent components are left out, associating ones included. A converged run of the cross-association solver at positive iterates returns this energy up to 10 tol times the amount of association sites. So two descriptions of the same mixture give results that differ by at most 20 tol times that amount, and switching between the iterative solver and the explicit one-component formula changes the result by at most half of this.", "quantifier": "for all mixtures, all admissible states, all tolerances up to 1/8, all iteration limits and every correct linear solver", "why_tests_cant": "continuum of states, mixtures and tolerances; the exact solution is not available to a test", "anchors": ["src/eos/association.rs: CrossAssociation", "src/eos/association.rs: Association"]}
{"id": "C72", "title": "The whole mixture functional reproduces the equation of state in a homogeneous fluid", "statement": "In a homogeneous fluid the contributions that the mixture functional is built from add up, with the ideal chain term, to the residual Helmholtz energy density of the equation of state with the same parameters and options. If the equation of state fails because the association equations did not converge, the functional reports an error instead of a number.", "quantifier": "for all mixtures with at most one quadrupolar component and variant DQ35 if both kinds of moments occur, every FMT version that uses the mixture functional, all options, every linear solver and every admissible state", "why_tests_cant": "all mixtures and all states; tests compare a few interfacial results", "anchors": ["src/dft/mod.rs: PcSaftFunctional::with_options", "src/dft/hard_chain.rs", "src/dft/dispersion.rs", "src/dft/polar.rs", "src/dft/association.rs"]}
{"id": "C73", "title": "Group contribution uses the diffusion coefficients of the segments", "statement": "If all segments carry diffusion coefficients, the molecule's diffusion coefficients are computed from them, as for viscosity and thermal conductivity.", "quantifier": "for every list of segments with diffusion coefficients", "why_tests_cant": "statement about all coefficient values", "anchors": ["src/parameters.rs: PcSaftRecord::from_segments"]}
{"id": "C74", "title": "The Python classes pass everything through unchanged", "statement": "A Python record returns each constructor argument under its name, and rebuilding records or parameter sets from what Python shows gives the same object. The Python constructors of the equation of state and of the functional use the Rust defaults for missing arguments, put given arguments into the option of that name, and refuse an unknown dq_variant.", "quantifier": "for all argument values and all combinations of missing arguments", "why_tests_cant": "the repository has no tests of the Python layer; swapped arguments of equal type would go unnoticed", "anchors": ["src/python.rs", "build_wheel/src/eos.rs", "build_wheel/src/dft.rs", "src/parameters.rs: PcSaftRecord::new"]}
{"id": "C75", "title": "Molar weights and fluid properties agree between equation of state and functional", "statement": "Molar weights are the record's number in g/mol as an SI quantity, the same for both models and after taking subsets. Chain lengths, component indices, molecule shapes and diameters handed to the DFT library are those of the records, and the fluid-fluid energy and length parameters are the depth and the zero of the pair potential.", "quantifier": "for all records, options, components and subsets", "why_tests_cant": "all parameter values; units and index mix-ups only show in mixtures", "anchors": ["src/eos/mod.rs: MolarWeight", "src/dft/mod.rs: MolarWeight, FMTProperties, FluidParameters, PairPotential, molecule_shape"]}
{"id": "C76", "title": "Functional derivatives are exact at every grid point of a density profile", "statement": "Evaluating the chain, attractive and association functionals and the functionals for pure components with dual numbers at arbitrary (inhomogeneous) weighted densities gives the energy density and its exact first and second derivatives along any path of temperatures and weighted densities, on whole grids. First derivatives of the chain functionals are exact in empty regions too.", "quantifier": "for all parameter sets, temperatures, weighted densities with packing fraction below one, grids and directions, away from the switching points of the formulas", "why_tests_cant": "profiles have arbitrarily many grid points; the repository's tests only compare the bulk value", "anchors": ["src/dft/hard_chain.rs", "src/dft/dispersion.rs", "src/dft/polar.rs", "src/dft/association.rs", "src/dft/pure_saft_functional.rs"]}
{"id": "C77", "title": "Functional and equation of state agree in all derivatives in the bulk", "statement": "In a homogeneous fluid the contributions of the functional, evaluated with dual numbers of first, second or third order, add up together with the ideal chain term to the residual Helmholtz energy of the equation of state evaluated with the same dual numbers. Pressure, entropy, chemical potentials and all second and third derivatives computed from the functional are therefore those of the equation of state, for every version of the functional and in every space dimension.", "quantifier": "for all parameter sets (with at most one quadrupolar and one associating component), temperatures, volumes, amounts, seed directions, versions and dimensions", "why_tests_cant": "the repository's tests compare a few bulk values at one state; derivatives are needed in all directions at all states", "anchors": ["src/dft/mod.rs", "src/dft/hard_chain.rs", "src/dft/dispersion.rs", "src/dft/polar.rs", "src/dft/association.rs", "src/dft/pure_saft_functional.rs", "src/eos/mod.rs"]}
{"id": "C78", "title": "No NaN and no infinity in density profiles", "statement": "Every functional of this crate returns finite energy densities and finite derivatives at every grid point of a profile, also in empty regions and exactly at the cutoffs between formulas; the functional for pure components either reports a packing fraction that is too high or returns finite numbers.", "quantifier": "for all parameter sets, temperatures, non-negative densities with packing fraction below one, vector densities bounded by the scalar ones, and grids", "why_tests_cant": "a NaN at a single grid point spoils a whole calculation; tests use bulk states", "anchors": ["src/dft/hard_chain.rs", "src/dft/dispersion.rs", "src/dft/polar.rs", "src/dft/association.rs", "src/dft/pure_saft_functional.rs: PureFMTAssocFunctional::calculate_helmholtz_energy_density"]}
{"id": "C79", "title": "Cross association converges when association is weak", "statement": "If at every association site the association strengths times the densities of the partner sites add up to at most one, the cross-association solver with its default starting values converges within ten iterations, to fractions in (0, 1] that deviate from the exact ones by at most four times the tolerance. So evaluating the residual Helmholtz energy or its derivatives does not panic there. If they add up to at most 2/3, the same holds for every starting point in (0, 1], as used when the functional passes site fractions from one grid point to the next. The error decreases quadratically. Such states are not exceptional: at given temperature and composition all sufficiently large volumes qualify, at given volume and composition all sufficiently high temperatures. If the sums are at most mu (mu at most one), the association energy returned lies between minus (mu plus ten tolerances) and plus ten tolerances, per association site and molecule; the exact one lies between minus mu and zero.", "quantifier": "for all mixtures with up to a million associating components, all admissible states satisfying the bound, all tolerances from 1e-10 to 1/2 (1/8 for the energy) and iteration limits of at least ten, all correct linear solvers", "why_tests_cant": "a converged run at one state says nothing about the next; at stronger association the iteration does fail (C59)", "anchors": ["src/eos/association.rs: helmholtz_energy_density_cross_association, newton_step_cross_association", "src/eos/mod.rs: PcSaftOptions::default"]}
{"id": "C80", "title": "Association functional of a mixture along a profile", "statement": "The association functional passes the site fractions from one grid point to the next as starting values. If association is weak at every grid point (the association strengths times the densities of the partner sites add up to at most 2/3 at every site), the functional of a mixture with several associating components returns an energy density for every point. Below the density cutoff it is zero, elsewhere it is within ten times the tolerance per site of the exact one, so it depends on the other points only within the tolerance. At homogeneous points it is the association energy density of the equation of state.", "quantifier": "for all mixtures with up to a million associating components, all grids, all numbers of dimensions, all tolerances from 1e-10 to 1/8 and iteration limits of at least ten, all correct linear solvers", "why_tests_cant": "the starting values depend on the order and the contents of the whole grid", "anchors": ["src/dft/association.rs: AssociationFunctional::calculate_helmholtz_energy_density", "src/eos/association.rs: helmholtz_energy_density_cross_association"]}
{"id": "C81", "title": "Ideal gas limit of derivatives", "statement": "As the volume grows at given temperature and amounts, the derivatives of the residual Helmholtz energy that the code obtains with dual numbers tend to zero: the volume times the derivative with respect to the volume (so the compressibility factor tends to one), the derivatives with respect to the amounts (residual chemical potentials) and with respect to the temperature (residual entropy). The same holds for the second derivatives (residual heat capacity, compressibility, derivatives of the chemical potentials). The evaluation succeeds for all large volumes.", "quantifier": "for all mixtures with any number of associating components, all temperatures, amounts, options and linear solvers; the pair terms of the polar contributions at zero density must not vanish", "why_tests_cant": "a limit, over a continuum of mixtures and states", "anchors": ["src/eos/mod.rs", "src/eos/hard_sphere.rs", "src/eos/hard_chain.rs", "src/eos/dispersion.rs", "src/eos/polar.rs", "src/eos/association.rs"]}
{"id": "C82", "title": "Functionals in inhomogeneous fluids", "statement": "On every profile with packing fractions between zero and one, the functional for pure components (White Bear and its antisymmetrised version) has the published energy density, with the vector weighted densities in their places, plus the association functional. The association functional with one associating component has the energy density of Yu and Wu: the bondable density times the site energies whose free fractions solve the mass-action law for the inhomogeneous contact value. Neither functional depends on the orientation of the coordinate system.", "quantifier": "for all molecules, temperatures, grids, profiles and numbers of dimensions; below the series cutoffs up to an explicit error; the antisymmetrised version where the vector density does not exceed the positive scalar one, as for every nonnegative profile; the rotation law for any number of associating components and all linear solvers", "why_tests_cant": "tests of the bulk never see the vector weighted densities; profiles form a continuum", "anchors": ["src/dft/pure_saft_functional.rs: PureFMTAssocFunctional::calculate_helmholtz_energy_density", "src/dft/association.rs: AssociationFunctional::calculate_helmholtz_energy_density"]}
{"id": "C83", "title": "Functional for pure components and for mixtures in inhomogeneous fluids", "statement": "A pure component gets special functionals. At every point of every profile below close packing, not only in the bulk, the chain functional for pure components has the energy density of the one for mixtures, and so has the attractive functional where the weighted density exceeds machine epsilon and the component is not both dipolar and quadrupolar.", "quantifier": "for all components, temperatures, profiles and numbers of dimensions", "why_tests_cant": "tests compare the functionals for two fluids at flat interfaces; the claim is over all profiles", "anchors": ["src/dft/pure_saft_functional.rs", "src/dft/hard_chain.rs", "src/dft/dispersion.rs", "src/dft/mod.rs: PcSaftFunctional::with_options"]}
{"id": "C84", "title": "The choice of units does not matter (law of corresponding states)", "statement": "If lengths are expressed in units that are smaller by a factor l and energies by a factor u (diameters times l, energies and temperature times u, volume times l^3, dipole moments times sqrt(l^3 u), quadrupole moments times sqrt(l^5 u)), every contribution to the residual Helmholtz energy divided by k_B T keeps its value, the maximum density is divided by l^3, and the derivatives up to third order are converted like the quantities themselves.", "quantifier": "for all mixtures, states and positive factors; with two or more associating components the density must be on the same side of the fixed cutoff in both units", "why_tests_cant": "continuum of factors; a dimensional mistake such as a wrong power of a diameter is invisible at the fixed units of the tests if a constant was fitted along with it", "anchors": ["src/parameters.rs: PcSaftParameters::from_records", "src/eos/mod.rs", "src/eos/hard_sphere.rs", "src/eos/dispersion.rs", "src/eos/polar.rs", "src/eos/association.rs"]}
{"id": "C85", "title": "The symmetries hold for derivatives of every order", "statement": "Scaling all extensive quantities, renumbering the components, removing absent components, splitting components into pseudo-components and changing the units act on all derivatives of the residual Helmholtz energy as they act on the energy: the evaluations with dual numbers of any order give the same (or the scaled) number.", "quantifier": "for all mixtures with at most one associating component, all admissible states, all directions of differentiation and all orders", "why_tests_cant": "derivatives are computed by other code paths (operations on dual numbers) and form an infinite family; tests compare single numbers", "anchors": ["src/eos/mod.rs", "src/eos/hard_sphere.rs", "src/eos/hard_chain.rs", "src/eos/dispersion.rs", "src/eos/polar.rs", "src/eos/association.rs"]}
{"id": "C86", "title": "Stronger hydrogen bonds never raise the Helmholtz energy", "statement": "Raising the association volume kappa_ab or the association energy epsilon_k_ab of any component never raises the association energy or the residual Helmholtz energy of a mixture, and lowers both fractions of unbonded sites of a single associating component. At the solution of the mass-action equations the same holds for additional association sites, and the energy is the maximum over all trial fractions of unbonded A sites of an explicit function. With several associating components the computed energies keep the order up to the tolerance of the iteration.", "quantifier": "for all mixtures, all admissible states and all increases of the association parameters; with several associating components for all tolerances up to 1/8 and all runs with positive iterates (all runs if the association is weak)", "why_tests_cant": "tests compare single parameter sets; monotonicity over a continuum of parameters, across the switch from the explicit formula to the series and through an iterative solver is a universal statement", "anchors": ["src/eos/association.rs: Association, CrossAssociation, assoc_site_frac_ab, association_strength"]}
{"id": "C87", "title": "Dispersion attracts, and k_ij weakens it", "statement": "Up to the default maximum packing fraction of 0.5 both perturbation integrals and the compressibility term are positive, so the dispersion contribution is never positive; it is negative exactly if two molecules with positive dispersion energies and k_ij below one are present. Raising binary interaction parameters never lowers the residual Helmholtz energy, and does not affect whether the association solver succeeds.", "quantifier": "for all mixtures with at least 0.8 segments on average, all k_ij up to one, all states with packing fraction up to one half", "why_tests_cant": "the sign of the fitted 42-constant polynomials is a statement about all densities and segment numbers; it is false outside the stated range", "anchors": ["src/eos/dispersion.rs: Dispersion, A0, A1, A2, B0, B1, B2", "src/parameters.rs: PcSaftParameters::from_records"]}
{"id": "C88", "title": "Every pressure belongs to a state", "statement": "When a fluid is compressed towards the volume of its segments (packing fraction one), its residual Helmholtz energy exceeds every bound. Therefore every positive pressure is the pressure of some density if no component associates, and with one associating component every pressure above that of a state whose association is above the switching point of the code is the pressure of a denser state: a density iteration at given temperature, pressure and composition always has a solution.", "quantifier": "for all mixtures with at most one associating component, temperatures, compositions and positive pressures; polar contributions must stay away from the singularity of their Pad\u00e9 approximation", "why_tests_cant": "existence for a continuum of pressures; tests try a few pressures, and a wrong sign of a divergent term or a term that diverges faster shows only close to the highest density", "anchors": ["src/eos/mod.rs: HelmholtzEnergy contributions", "src/eos/hard_sphere.rs", "src/eos/hard_chain.rs", "src/eos/dispersion.rs", "src/eos/association.rs"]}
{"id": "C89", "title": "The repulsive reference fluid is stable", "statement": "The pressure of hard spheres and chains, from derivatives with respect to volume that the code evaluates with dual numbers, is at least that of an ideal gas in the volume that the segments leave free, and it rises whenever the fluid is compressed. A mixture whose molecules do not attract each other has exactly one density for every temperature, composition and positive pressure.", "quantifier": "for all mixtures of any number of components, sizes and chain lengths (also below one), all temperatures and all densities up to packing fraction one", "why_tests_cant": "a statement about all mixtures and densities at once; an error in one moment or exponent can keep all tested numbers within tolerance for pure fluids and break stability of an asymmetric mixture", "anchors": ["src/eos/hard_sphere.rs: HardSphere, zeta, zeta_23", "src/eos/hard_chain.rs: HardChain"]}
{"id": "C90", "title": "Rounding errors stay proportional to the rounding unit", "statement": "If every arithmetic operation and elementary function is rounded, and records, binary parameters and state are themselves only accurate to rounding, then the residual Helmholtz energy and all its derivatives computed with dual numbers differ from the exact values by at most a constant times the rounding unit, once the unit is small enough. The constant does not depend on the arithmetic. In particular rounding never makes a contribution appear, vanish or panic, and computed energies converge to the exact energy when the precision increases.", "quantifier": "for all floating point arithmetics (any rounding of operations, literals and elementary functions), all admissible states off the switching points with at most one associating component, all derivatives of any order, all rounded inputs", "why_tests_cant": "tests run one arithmetic (f64) with one compiler and mathematical library at a few states; a comparison of rounded numbers that decides which terms are evaluated can differ on another machine", "anchors": ["src/eos/mod.rs: with_options, contributions", "src/parameters.rs: from_records", "src/eos/hard_sphere.rs", "src/eos/hard_chain.rs", "src/eos/dispersion.rs", "src/eos/polar.rs", "src/eos/association.rs: assoc_site_frac_a, assoc_site_frac_ab"]}
{"id": "C91", "title": "Heating and expansion break hydrogen bonds", "statement": "When a mixture is heated or expanded at constant amounts of substance, the association strength, the fractions of bonded sites and the magnitude of the association energy (divided by k_B T) do not rise. Consequently the association contribution to the internal energy and to the pressure, obtained from dual numbers, is never positive. With several associating components this holds for the exact solution of the mass balances and, up to a multiple of the tolerance, for the iteration of the code.", "quantifier": "for all admissible states and all hotter or less dense states with the same moles, all records with non-negative association energies, all directions of non-negative change in temperature and volume", "why_tests_cant": "tests compare single numbers at a few states; the direction of the change holds for every pair of states and every parameter set", "anchors": ["src/eos/association.rs: association_strength, helmholtz_energy, assoc_site_frac_ab", "src/eos/hard_sphere.rs: zeta, hs_diameter"]}
{"id": "C92", "title": "Fluids condense", "statement": "If the pressure of an isotherm rises with the volume somewhere, there are two volumes with the same positive pressure and the same free enthalpy, and no volume has a lower free enthalpy at that pressure. For a pure substance the chemical potentials of the two phases, evaluated with dual numbers, are equal. Molecules that attract each other (without moments and association sites, at least 0.8 segments on average) have such isotherms at every temperature below some positive temperature: vapour and liquid coexist.", "quantifier": "for all parameter sets without association and all compositions for which the isotherm rises somewhere; for all mixtures of attracting molecules and all sufficiently low temperatures", "why_tests_cant": "tests compute a phase equilibrium of one substance at one temperature; that an equilibrium exists at all low temperatures and is the most stable state over all volumes cannot be sampled", "anchors": ["src/eos/mod.rs: PcSaft residual contributions", "src/eos/dispersion.rs: helmholtz_energy", "src/eos/hard_sphere.rs", "src/eos/hard_chain.rs"]}
{"id": "C93", "title": "There is a critical point, and above it only one phase", "statement": "For molecules without moments and association sites there is a temperature above which the pressure falls strictly with the volume and every positive pressure belongs to exactly one volume. If the molecules attract each other, the highest temperature at which this fails has a critical point: a volume at which the pressure is positive and, from one evaluation with third-order dual numbers, its first and second derivatives with respect to the volume are zero. At the critical temperature the pressure rises nowhere. No two phases coexist above it.", "quantifier": "for all mixtures (fixed composition) of such molecules (0.8 segments on average for the critical point), all options, all temperatures above the critical one and all volumes", "why_tests_cant": "tests locate the critical point of single substances with a solver; its existence for every parameter set and the absence of a second phase at all higher temperatures and volumes cannot be sampled", "anchors": ["src/eos/mod.rs: PcSaft residual contributions", "src/eos/dispersion.rs: helmholtz_energy", "src/eos/hard_sphere.rs", "src/eos/hard_chain.rs"]}
{"id": "C94", "title": "An isotherm has at most one van der Waals loop", "statement": "The pressure does not fall with the volume between two ranges of volumes in which it rises, so each pressure belongs to at most one vapour and one liquid. (Holds from the critical temperature upwards. Violated at low temperature: every molecule of three segments without moments and association sites has, at all temperatures below some temperature, two separate unstable ranges at densities below the maximum density of the code.)", "quantifier": "for all parameters, temperatures and volumes; the violation for all segment diameters and dispersion energies", "why_tests_cant": "a density iteration that stops at a spurious phase looks like a converged result; the number of loops is a statement about all volumes of an isotherm", "anchors": ["src/eos/dispersion.rs: helmholtz_energy", "src/eos/mod.rs: compute_max_density"]}
{"id": "C95", "title": "Polar molecules attract and the polar terms have no pole at moderate temperatures", "statement": "The dipole term is negative wherever a dipolar molecule is present, zero elsewhere, and never infinite, for any number of dipolar components with m >= 1 and epsilon_k <= 3/2 T up to a packing fraction of one half; so the residual Helmholtz energy and its derivatives are finite there. The same holds for the quadrupole term of a mixture with one quadrupolar component with m >= 1, epsilon_k <= T and q2 epsilon_k <= m T. The temperature bound is needed: at T = epsilon_k/3 the dipole energy of molecules of 3/2 segments is positive in the dilute gas and infinite at some density below the maximum density.", "quantifier": "for all parameter sets, numbers of components, temperatures, volumes and mole numbers within the stated bounds", "why_tests_cant": "a pole sits at isolated densities that a test grid misses; the absence of poles is a statement about a continuum of states and parameters", "anchors": ["src/eos/polar.rs: Dipole::helmholtz_energy", "src/eos/polar.rs: Quadrupole::helmholtz_energy", "src/eos/polar.rs: AD, BD, CD, AQ, BQ, CQ"]}
{"id": "C96", "title": "The shipped parameters stay in the range of the theorems", "statement": "Every mixture put together from the records in parameters/*.json is well defined up to the maximum density of the default options: all segment numbers, diameters and energies are positive and the packing fraction is at most one half. Mixtures with at most one associating component and no quadrupoles have a finite residual Helmholtz energy there, at every temperature without dipoles and from 220 K with dipoles; one quadrupolar component is finite from 345 K. Mixtures of substances without moments and sites (all of gross2001.json) condense at low temperature and have a critical point. Mixtures from loetgeringlin2018.json always have a viscosity correlation. The group contribution method gives positive parameters for all substances of gc_substances.json and for all branched alkanes, although the group >C< has negative parameters.", "quantifier": "for all numbers of components, all choices of records from the files, all binary interaction parameters, compositions, temperatures and densities in the stated ranges, and alkanes of any size", "why_tests_cant": "the number of mixtures is unbounded and each has a continuum of states; alkanes have unbounded size", "anchors": ["parameters/gross2001.json", "parameters/gross2002.json", "parameters/gross2005_fit.json", "parameters/gross2005_literature.json", "parameters/gross2006.json", "parameters/loetgeringlin2018.json", "parameters/rehner2020.json", "parameters/sauer2014_homo.json", "parameters/loetgeringlin2015_homo.json", "parameters/gc_substances.json", "src/parameters.rs: from_segments", "src/eos/mod.rs: compute_max_density"]}
{"id": "C97", "title": "The second virial coefficient is the slope of the compressibility factor", "statement": "The second virial coefficient, which feos_core takes from an evaluation with dual numbers at zero density, is finite, and it agrees with the pressures that the code gives for the gas: P V / (N k_B T) = 1 + b N / V up to terms that vanish faster as the volume grows. A gas with a negative coefficient has less pressure than the ideal gas at large volumes, one with a positive coefficient more.", "quantifier": "for all parameter records with positive segment numbers, diameters and energies, all binary interaction parameters, compositions and temperatures where the second-order polar terms do not vanish, all options, and all contributions including dipoles, quadrupoles and association", "why_tests_cant": "a limit of zero density over a continuum of temperatures and compositions; a test compares finitely many states with a finite tolerance", "anchors": ["src/eos/mod.rs: evaluate_residual", "src/eos/polar.rs: helmholtz_energy", "src/eos/association.rs: helmholtz_energy", "src/eos/hard_sphere.rs: helmholtz_energy", "src/eos/dispersion.rs: helmholtz_energy"]}
{"id": "C98", "title": "A pure substance has exactly one Boyle temperature", "statement": "The second virial coefficient of a pure substance grows with temperature. There is exactly one temperature at which it is zero; it is negative below and positive above. At lower temperatures a dilute gas has less pressure than the ideal gas, at higher temperatures more.", "quantifier": "for all pure component records with at least 0.8 segments and positive diameter and energy, associating or not, and all temperatures", "why_tests_cant": "uniqueness of a zero over all temperatures and monotonicity for a continuum of parameters", "anchors": ["src/eos/hard_sphere.rs: hs_diameter", "src/eos/hard_chain.rs: helmholtz_energy", "src/eos/dispersion.rs: helmholtz_energy", "src/eos/association.rs: helmholtz_energy", "src/eos/polar.rs: helmholtz_energy"]}
{"id": "C99", "title": "The reference values of the transport properties are positive", "statement": "viscosity_reference, diffusion_reference and thermal_conductivity_reference return positive values in the right unit, so that entropy scaling, which multiplies them with an exponential, gives positive transport properties.", "quantifier": "for all records with positive molar weight, segment number, diameter and energy, all temperatures up to 10^10 epsilon_k, all volumes, all mixtures for the viscosity and all pure substances for the other two", "why_tests_cant": "a sign over a continuum of parameters and states; the correlation of the collision integral contains a sine and the thermal conductivity reference a quadratic with a negative coefficient, so the sign is not evident from sample points", "anchors": ["src/eos/mod.rs: viscosity_reference", "src/eos/mod.rs: diffusion_reference", "src/eos/mod.rs: thermal_conductivity_reference", "src/eos/mod.rs: omega11, omega22"]}
{"id": "C100", "title": "The second virial coefficient of a mixture is quadratic in the composition", "statement": "At fixed temperature there are coefficients B_ij of the pairs, symmetric and independent of composition, such that the second virial coefficient of the mixture is the double sum of x_i x_j B_ij for all compositions. Users rely on this exact mixing rule of statistical mechanics when they extract cross coefficients.", "quantifier": "for all mixtures with positive parameters and any binary interaction parameters, all temperatures, all compositions, all options, with moments and sites", "why_tests_cant": "a statement about the functional form over all compositions of mixtures with any number of components; agreement at a few compositions does not show the form", "anchors": ["src/eos/hard_sphere.rs: helmholtz_energy", "src/eos/hard_chain.rs: helmholtz_energy", "src/eos/dispersion.rs: helmholtz_energy", "src/eos/polar.rs: helmholtz_energy", "src/eos/association.rs: helmholtz_energy"]}
{"id": "C101", "title": "The molar weights of the shipped substances agree with their formulas", "statement": "For every mixture of substances from the shipped parameter files the molar weights that molar_weight returns, which decide all mass densities and the transport references, are those of the chemical formulas in the same files. The groups of every substance for group contribution contain exactly the atoms of its formula, and the molar weights of groups add up to the molar weight of every molecule made of them.", "quantifier": "for all mixtures of any number of shipped substances, all records of all files, all lists of groups", "why_tests_cant": "mixtures of any size and molecules of any number of groups; the tests of the crate use two substances and never look at the data files", "anchors": ["parameters/gross2001.json", "parameters/gc_substances.json", "parameters/sauer2014_homo.json", "src/eos/mod.rs: molar_weight"]}
{"id": "C102", "title": "Viscosity rises when a fluid is compressed", "statement": "The residual entropy falls when a fluid is compressed, and the viscosity of a fluid rises. So for every mixture of shipped substances with viscosity coefficients, and for every substance built from groups with viscosity coefficients, viscosity_correlation returns a strictly higher value for a lower non-positive residual entropy, at every composition.", "quantifier": "for all mixtures of any number of shipped substances, all compositions, all pairs of residual entropies", "why_tests_cant": "all residual entropies and compositions; the tests compute the viscosity of propane at one state", "anchors": ["src/eos/mod.rs: viscosity_correlation", "src/parameters.rs: from_segments", "parameters/loetgeringlin2018.json", "parameters/loetgeringlin2015_homo.json"]}
{"id": "C103", "title": "A pure fluid has less entropy than the ideal gas", "statement": "The residual entropy at given temperature and volume, which the code obtains from an evaluation with dual numbers in the temperature and which entropy scaling takes as its argument, is negative for every pure substance without moments, at every positive temperature and every density up to a packing fraction of one half (the maximum density of the default options). With association sites, the bonding volume of a site times the number of sites must be at most one fifteenth of the volume per molecule, which holds for all shipped substances without moments up to the maximum density except two entries of rehner2020.json. So the correlations for transport properties are never evaluated outside of their domain of non-positive residual entropies.", "quantifier": "for all pure records with at least 0.8 segments (and a bounded bonding volume), all temperatures, all densities up to the maximum density", "why_tests_cant": "a statement about a temperature derivative on a two-dimensional unbounded range of states and all parameters; the repulsive, chain and dispersion contributions have different signs", "anchors": ["src/eos/mod.rs: residual", "src/eos/hard_sphere.rs", "src/eos/hard_chain.rs", "src/eos/dispersion.rs", "src/eos/association.rs"]}
{"id": "C104", "title": "Results depend continuously on the parameters", "statement": "Slightly different parameters and states give slightly different results. If every number of the pure records, every binary parameter and every component of the state (including the derivative parts of dual numbers) is off by at most u, the residual Helmholtz energy and all its derivatives are off by at most a constant times u, for all small u, and the code still returns a result. Components whose dipole moment, quadrupole moment or association volume is exactly zero are treated by different code (shorter lists, omitted contributions). The result for them is nevertheless the limit of the results for small moments or association volumes: when some components lose their moment while others keep theirs, when all moments of a fluid with one kind of moment are scaled down together, and when the association volume of the only associating component fades.", "quantifier": "for all numbers of components, all records, binary parameters and states with a regular intended state and at most one associating component, all perturbations, any number of nested dual numbers; for all filters along which moments or association volumes converge", "why_tests_cant": "a statement about all perturbations in all directions at once and about limits; the branches for absent moments are selected by an exact comparison with zero", "anchors": ["src/parameters.rs: PcSaftParameters::from_records", "src/eos/mod.rs: PcSaft::with_options", "src/eos/polar.rs", "src/eos/association.rs"]}
{"id": "C105", "title": "Interfaces and pores do not depend on how the components are listed", "statement": "In an inhomogeneous fluid, the chain, attractive and association parts of the Helmholtz energy functional do not change when the components of the profile are listed in another order or when components that occur nowhere are added. Listing a substance twice with its profile divided arbitrarily between both entries does not change the attractive part, nor the chain part of substances with one segment, nor the association part if the substance does not associate.", "quantifier": "for all numbers of components, all records, binary parameters, temperatures, all profiles and grids, any number of dimensions; linear equations solved exactly where several components associate", "why_tests_cant": "tests of the functionals compare a few numbers for fixed lists of components; the statement is about all profiles and all ways of listing the components, including the warm start that is carried from point to point of the grid", "anchors": ["src/dft/dispersion.rs: AttractiveFunctional", "src/dft/hard_chain.rs: ChainFunctional", "src/dft/association.rs: AssociationFunctional", "src/dft/polar.rs"]}
{"id": "C106", "title": "At high temperature only the shape of the molecules matters", "statement": "Heated at constant volume, the residual Helmholtz energy divided by k_B T of every mixture tends to that of a mixture of chains of hard spheres whose diameters are 88 percent of sigma; dispersion, polar forces and association leave nothing behind. The limit is positive, so every fluid heated enough has a positive residual energy. With several associating components the limit is reached up to the tolerance of the iteration.", "quantifier": "for all numbers of components, records, binary parameters, options and admissible states at which the packing fraction of the limit is at most 1/2 if polar components are present; polar components with at least one segment", "why_tests_cant": "a limit is a statement about infinitely many temperatures, and no finite temperature shows which terms survive", "anchors": ["src/eos/mod.rs: PcSaft", "src/eos/hard_sphere.rs", "src/eos/hard_chain.rs", "src/eos/dispersion.rs", "src/eos/polar.rs", "src/eos/association.rs", "src/parameters.rs: hs_diameter"]}
{"id": "C107", "title": "Dilute gas mixtures are stable", "statement": "At every temperature and composition there is a volume beyond which the mixture is stable: the curvature of the Helmholtz energy, ideal part plus the second derivative of the residual part from dual numbers, is positive in every direction of volume and amounts except the one that only changes the size of the system. The residual part is at most a given fraction of the ideal part, uniformly in the direction. In particular the pressure falls with growing volume.", "quantifier": "for all numbers of components, records, binary parameters, options, linear solvers, temperatures, positive amounts, and all directions; the pair terms of the polar contributions at zero density must not vanish", "why_tests_cant": "a limit and a statement about all directions of all mixtures; a test evaluates a few states in a few directions", "anchors": ["src/eos/mod.rs: PcSaft", "src/eos/hard_sphere.rs", "src/eos/hard_chain.rs", "src/eos/dispersion.rs", "src/eos/polar.rs", "src/eos/association.rs"]}
{"id": "C108", "title": "Infinite dilution", "statement": "Residual chemical potentials and the other slopes of the residual Helmholtz energy at states where components are absent are finite, and they are the limits of the values for vanishing amounts of these components: properties at infinite dilution can be evaluated by setting amounts to zero.", "quantifier": "for all numbers of components, records, binary parameters, options, admissible states with any amounts zero, and all directions", "why_tests_cant": "a limit at the edge of the composition range, where the code takes a different branch; tests evaluate interior states or one edge value without the limit", "anchors": ["src/eos/polar.rs: Dipole::helmholtz_energy", "src/eos/polar.rs: Quadrupole::helmholtz_energy", "src/eos/polar.rs: DipoleQuadrupole::helmholtz_energy", "src/eos/mod.rs: PcSaft"]}
{"id": "C109", "title": "Third virial coefficients", "statement": "The third virial coefficient that the code returns for a composition is that of its own pressures: at low density P V / N = 1 + B N / V + C (N / V)^2 with the returned B and C.", "quantifier": "for all numbers of components, records, binary parameters, options, temperatures and compositions", "why_tests_cant": "a limit of vanishing density; at zero density itself the code takes a branch that no finite density reaches, and no test compares the two", "anchors": ["src/eos/polar.rs: Dipole::helmholtz_energy", "src/eos/polar.rs: Quadrupole::helmholtz_energy", "src/eos/polar.rs: DipoleQuadrupole::helmholtz_energy", "src/eos/mod.rs: PcSaft"]}
{"id": "C110", "title": "Temperature derivatives of virial coefficients", "statement": "The temperature derivatives of the second and third virial coefficients that the code returns are the derivatives of the virial coefficients that the code returns. All four are finite at every positive temperature.", "quantifier": "for all numbers of components, records, binary parameters, options, temperatures and compositions, including compositions with absent components", "why_tests_cant": "a statement about a derivative at every temperature of a quantity that is computed through a 0/0 branch; tests compare one number with a difference quotient at best", "anchors": ["build_wheel/src/eos.rs: impl_virial_coefficients!(PyPcSaft)", "src/eos/polar.rs: Dipole::helmholtz_energy", "src/eos/dispersion.rs: Dispersion::helmholtz_energy", "src/eos/association.rs: Association::helmholtz_energy"]}
{"id": "C111", "title": "Size of rounding errors", "statement": "The residual Helmholtz energy of non-polar substances without association sites that is computed in f64 arithmetic differs from the exact value of the theory by at most 1e-12 times the sum of the absolute values of the terms of the theory. For a pure substance the error per particle in units of kT is at most m (10 + 432 e + 587 m e^2) 1e-12 with e = epsilon_k / T. The computed segment diameters and the maximum density have relative errors of a few units in the last place.", "quantifier": "for all records with at least one segment, binary parameters up to one, temperatures, volumes and moles with a packing fraction of at most one half, and up to twenty components; for any arithmetic with relative errors the bound is explicit in the number of components and the unit of rounding", "why_tests_cant": "tests compare with numbers that were computed with rounding themselves, at a few states; a bound for all states needs an analysis of every operation", "anchors": ["src/eos/hard_sphere.rs: HardSphere::helmholtz_energy, hs_diameter, zeta, zeta_23", "src/eos/hard_chain.rs: HardChain::helmholtz_energy", "src/eos/dispersion.rs: Dispersion::helmholtz_energy", "src/eos/mod.rs: PcSaft::compute_max_density", "src/parameters.rs: PcSaftParameters::from_records"]}
{"id": "C112", "title": "Energy and enthalpy of the dilute gas", "statement": "The residual internal energy and the residual enthalpy of a dilute gas follow from the second virial coefficient B and its temperature derivative B' that the library returns: times the volume over the square of the amount, the energy over kT approaches -T B' and the enthalpy over kT approaches B - T B'. So the residual enthalpy of the dilute gas is negative where B < T B' and positive where B > T B'.", "quantifier": "for all mixtures with positive parameters, all contributions (the polar pair sums not zero, associating components with sites of both kinds), all temperatures, compositions and options, at all volumes above a bound", "why_tests_cant": "the virial coefficients are computed at zero density with third order dual numbers, the energies at finite density with first order ones; a test compares both at a few states and with a tolerance", "anchors": ["src/eos/mod.rs: HelmholtzEnergy contributions of PcSaft", "src/eos/hard_sphere.rs: hs_diameter", "src/eos/polar.rs: Dipole, Quadrupole, DipoleQuadrupole", "src/eos/association.rs: Association::helmholtz_energy"]}
{"id": "C113", "title": "One inversion temperature above the Boyle temperature", "statement": "Every pure substance has exactly one Joule-Thomson inversion temperature of the dilute gas, the temperature at which B = T B', and it is above the Boyle temperature. Below it the residual enthalpy of the dilute gas is negative, above it is positive. The slope B' is positive.", "quantifier": "for all pure substances with at least 0.8 segments, at all temperatures and all options", "why_tests_cant": "that there is one such temperature and no second one is a statement about all temperatures and all parameters", "anchors": ["src/eos/hard_sphere.rs: hs_diameter", "src/eos/dispersion.rs: Dispersion::helmholtz_energy, A0, A1, A2", "src/eos/polar.rs: AD, BD, AQ, BQ, ADQ, BDQ", "src/eos/association.rs: Association::helmholtz_energy", "parameters/*.json"]}
{"id": "C114", "title": "Heat capacity of the dilute gas", "statement": "The slope B' of the second virial coefficient that the library returns is differentiable with respect to temperature, and the residual isochoric heat capacity of a dilute gas follows from it: over the Boltzmann constant and times the volume over the square of the amount, it approaches -(2 T B' + T^2 B'').", "quantifier": "for all mixtures with positive parameters, all contributions (the polar pair sums not zero, associating components with sites of both kinds), all temperatures, compositions and options, at all volumes above a bound", "why_tests_cant": "the heat capacity is a second temperature derivative at finite density, the virial coefficients are third order derivatives at zero density; a test compares both at a few states and with a tolerance", "anchors": ["src/eos/mod.rs: HelmholtzEnergy contributions of PcSaft", "src/eos/hard_sphere.rs: hs_diameter", "src/eos/polar.rs: Dipole, Quadrupole, DipoleQuadrupole", "src/eos/association.rs: Association::helmholtz_energy"]}
{"id": "C115", "title": "Interactions raise the heat capacity of a dilute gas", "statement": "The residual isochoric heat capacity of the dilute gas of a pure substance is positive.", "quantifier": "for all pure substances with at least 0.8 segments, all temperatures, amounts and options, at all volumes above a bound", "why_tests_cant": "the sign is a statement about all temperatures and parameters, also at low temperature, where no one computes gas phase states in a test", "anchors": ["src/eos/hard_sphere.rs: hs_diameter", "src/eos/dispersion.rs: Dispersion::helmholtz_energy, A0, A1, A2", "src/eos/polar.rs: AD, BD, AQ, BQ, ADQ, BDQ", "src/eos/association.rs: Association::helmholtz_energy", "parameters/*.json"]}
{"id": "C116", "title": "Rounding errors of the association contribution", "statement": "The fraction of free association sites computed in f64 agrees with the solution of the law of mass action to a relative error of 1.2e-7 (6e-15 away from the switch between the series and the explicit formula), and the association contribution and the residual Helmholtz energy agree with the theory evaluated exactly to about 1.4e-7 times the sizes of their terms.", "quantifier": "for all mixtures of up to twenty non-polar substances one of which has as many sites of type A as of type B (1 to 100), all temperatures above a thousandth of the association energy, all states with a packing fraction up to one half and at least a millionth of the sites free; the site fraction for all association strengths", "why_tests_cant": "the explicit formula subtracts numbers that are nearly equal when association is weak; how many digits are lost depends on the strength, and a test sees only the strengths it tries", "anchors": ["src/eos/association.rs: assoc_site_frac_ab, association_strength, Association::helmholtz_energy", "src/eos/hard_sphere.rs, src/eos/hard_chain.rs, src/eos/dispersion.rs", "src/parameters.rs: kappa_aibj, epsilon_k_aibj"]}
{"id": "C117", "title": "The fraction of bonded sites is accurate in f64", "statement": "The fraction of bonded sites 1 - X computed in f64 has a relative error of at most 1e-6, and the fractions whose logarithms are taken are positive.", "quantifier": "for all association strengths and numbers of sites of a component with as many sites of type A as of type B", "why_tests_cant": "the error is a quarter of the result in a narrow range of strengths just above the threshold at which the code switches from the series to the explicit formula, and a test would have to hit that range", "anchors": ["src/eos/association.rs: assoc_site_frac_ab, Association::helmholtz_energy"]}
{"id": "C118", "title": "Rounding errors of the polar contributions", "statement": "The dipole, quadrupole and dipole-quadrupole contributions computed in floating point agree with the theory evaluated exactly up to a bounded number of relative roundings of its terms; with the precision of f64 the residual Helmholtz energy of a polar substance is accurate to 1e-11 times the sizes of its terms, that of a mixture to 4e-9 times.", "quantifier": "for all arithmetics with a relative error in every operation, all mixtures without association sites or with one associating component that has as many sites of type A as of type B (up to twenty components for the numbers), all temperatures, volumes and amounts with a packing fraction up to one half at which the denominators of the Pad\u00e9 approximations are not much smaller than the terms of which they are sums; quadrupolar components of the same diameter", "why_tests_cant": "the Pad\u00e9 approximation divides by a difference of two sums; how many digits are lost depends on the state and the parameters, and a test has no exact result to compare with", "anchors": ["src/eos/polar.rs: Dipole::helmholtz_energy, Quadrupole::helmholtz_energy, DipoleQuadrupole::helmholtz_energy, pair_integral_ij, triplet_integral_ijk, triplet_integral_ijk_dq, MeanSegmentNumbers::new", "src/parameters.rs: mu2, q2, e_k_ij", "src/eos/mod.rs: PcSaft::with_options"]}
{"id": "C119", "title": "Rounding errors of association with different numbers of donors and acceptors", "statement": "With different numbers of donor and acceptor sites the explicit formula for the free sites subtracts large numbers, and the second fraction is computed from the first. As long as a millionth of the sites of each kind is free, both fractions computed in f64 agree with the law of mass action to a relative error of 2.6e-6 and the residual Helmholtz energy agrees with the theory to 2.7e-6 times the sizes of its terms. Without that condition the computed fraction can be exactly zero.", "quantifier": "for all mixtures of up to twenty substances, polar or not, one of which has sites of both types (1 to 100 each), all temperatures above a thousandth of the association energy, all states with a packing fraction up to one half at which the Pad\u00e9 denominators are regular; the fractions for all association strengths", "why_tests_cant": "the loss of digits grows with the strength for one order of the site numbers and with weakness for the other; a test sees only the strengths it tries", "anchors": ["src/eos/association.rs: assoc_site_frac_ab, Association::helmholtz_energy", "src/parameters.rs: na, nb, kappa_aibj, epsilon_k_aibj", "src/eos/mod.rs: PcSaft::with_options"]}
{"id": "C120", "title": "Cross association of equally strong sites converges at any strength", "statement": "If at every association site the association strengths times the densities of the partner sites add up to the same number, the cross-association solver with its default starting values, 50 iterations and tolerance 1e-10 converges, however strong association is (up to 2^80). All returned fractions are equal, in (0, 1], and within four times the tolerance of the solution 2/(1+sqrt(1+4D)) of the law of mass action. Evaluating the residual Helmholtz energy or its derivatives does not panic there, and the association energy is within the tolerance of the exact one. Mixtures whose associating components have the same segments, association parameters and as many donor as acceptor sites qualify in every state, whatever their chain lengths, polar moments and binary interaction parameters. So listing an associating substance several times, which switches from the explicit formula to the iteration, changes the energy by no more than the tolerance allows.", "quantifier": "for all mixtures with up to a million associating components, all admissible states satisfying the condition, default or larger iteration limits, tolerances of at least 1e-10", "why_tests_cant": "the number of iterations grows with the association strength; a test tries a few states of a few mixtures", "anchors": ["src/eos/association.rs: CrossAssociation::helmholtz_energy, helmholtz_energy_density_cross_association, newton_step_cross_association", "src/eos/mod.rs: PcSaftOptions::default"]}
{"id": "C121", "title": "Pressure, entropy and chemical potentials with several associating components are accurate to the tolerance", "statement": "The cross-association solver stops when its residual is below the tolerance, so the site fractions from which derivatives are computed are not exact. Still, if the iterates stayed positive and the tolerance times the total association strength R of every site is small (25 tol (1+R) <= 1), the derivative of the residual Helmholtz energy that one step with dual numbers gives differs from the derivative of the energy at the exact solution of the law of mass action by at most 100 tol times the sum over components of (|dN_i| + mu (1+R)^2 N_i)(n_A + n_B). Here mu = 3(|dV|/V + gamma)/(1-eta) + |dT|/T (2/(1-eta) + E/T), gamma bounds |dN_i|/N_i, eta is the packing fraction and E the largest association energy. In particular, for weakly associating mixtures and the default options, the error of the association pressure over kT is at most 1.2e-7/(1-eta) times the density of association sites, with similar bounds for chemical potentials and the entropy, without any assumption about the iteration.", "quantifier": "for all mixtures with several associating components, all admissible states and all directions in temperature, volume and mole numbers of present components; without assumption about the iteration for weakly associating mixtures and mixtures with equally strong sites", "why_tests_cant": "an error bound over a continuum of states and directions; tests compare with finite differences at single states", "anchors": ["src/eos/association.rs: helmholtz_energy_density_cross_association (derivatives after convergence), newton_step_cross_association, association_strength", "src/eos/mod.rs: PcSaftOptions::default"]}
{"id": "C122", "title": "The association functional works on every grid, however strong the association, if all sites are equally strong", "statement": "The solver for the association functional of several associating components starts at each grid point from the site fractions of the previous point. If the sites at every point are equally strong (for instance components with the same segment and association parameters and as many donor as acceptor sites), with a total strength of up to 2^76, the functional returns an energy density for every point within the default 50 iterations, each within the tolerance of the exact one (and zero at empty points), whatever the order of the points and however different they are, including after an empty point. It is enough that the weighted densities are physical: no negative densities, a packing fraction below one, vector densities bounded by the scalar ones. On homogeneous grids the result agrees with the equation of state.", "quantifier": "for all such mixtures, temperatures, dimensions and grids with any number of points, all tolerances from 1e-10 to 1/8 and at least 50 iterations", "why_tests_cant": "any number of points in any order, where each point's start depends on all previous ones, and strengths over 20 orders of magnitude", "anchors": ["src/dft/association.rs: helmholtz_energy_density (warm start x), xi, rho0", "src/eos/association.rs: helmholtz_energy_density_cross_association, newton_step_cross_association"]}
{"id": "C123", "title": "Functional derivatives of the association functional with several associating components are accurate to the tolerance", "statement": "DFT calculations need the derivatives of the association functional with respect to the weighted densities and the temperature. With several associating components the code gets them from one Newton step in dual numbers after the iteration in plain numbers. At every point of a grid of dual numbers (weighted densities and temperature with a direction each) the value is within 4 tol of the exact energy density, and the derivative within 100 tol of the derivative of the exact energy density along that direction, both measured by the number of sites, the change of the density and the relative change of the association strengths along the direction. The exact energy density exists, is unique and is differentiable there. This holds at weakly associating points and, for equally strong sites, at strongly associating ones.", "quantifier": "for all such mixtures, temperatures, directions and grids with any number of points where the densities are physical, no density sits on the cutoff of the code and the relative changes are bounded (which some bound satisfies at every point where all components are present); all tolerances from 1e-10 to 1/50, or to 1/(25(1+R)) for a total strength of up to R, and at least 10 or 50 iterations", "why_tests_cant": "comparison with exact derivatives at all points in all directions; errors of derivatives are not bounded by errors of values", "anchors": ["src/dft/association.rs: helmholtz_energy_density, association_strength, xi, rho0", "src/eos/association.rs: helmholtz_energy_density_cross_association (Newton steps in dual numbers), newton_step_cross_association"]}
{"id": "C124", "title": "The density functionals do not depend on the choice of units", "statement": "A user may describe the same substances with diameters, energies and moments in other consistent units, and give temperature and density profiles in these units. Every part of the functional then has the same Helmholtz energy density at every point of the inhomogeneous fluid, converted as a number per volume: the dispersion and polar part, the association part with one or with several associating components (including whether the iteration fails), and the bonds of the chains. The same holds for the functionals for pure components, there also for hard spheres in every version of fundamental measure theory, including the cases that fail. For the chains this includes the bonds of the ideal chain, and it holds up to the effect of the regularisation of the logarithm, which is bounded by the machine epsilon relative to the density on the sphere of contact. The functional consists of the same parts, its maximum density is the same density and its pair potential is the same energy at the same distance. A constant with a hidden dimension in the functional would break this.", "quantifier": "for all component records, binary parameters, temperatures, numbers of dimensions, grids and density profiles, all positive conversion factors of length and energy; densities are on the same side of the absolute cutoffs of the code in both systems of units", "why_tests_cant": "equality for all conversion factors and profiles; tests use one system of units", "anchors": ["src/dft/dispersion.rs: helmholtz_energy_density, weight_functions", "src/dft/polar.rs: phi_polar", "src/dft/association.rs: helmholtz_energy_density, rho0, xi, association_strength", "src/dft/hard_chain.rs: helmholtz_energy_density, weight_functions", "src/dft/pure_saft_functional.rs: weight_functions and helmholtz_energy_density of the three functionals", "src/dft/mod.rs: PcSaftFunctional::with_options, compute_max_density, pair_potential"]}
