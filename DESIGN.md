# Formal model of feos-pcsaft

Lean 4 model of the PC-SAFT implementation in `/repo/src` and kernel-checked theorems about it.
The list of properties is `properties.jsonl` (C01, C02, ...); `MANIFEST.json` maps each one to
theorems. This file says what is modelled, how each property is proved, what is trusted, and where
the code disagrees with a property.

## Layout

| path | content |
|---|---|
| `lean/Verif/Num.lean` | number-type classes (`F64`, `DualNum`) and the instance for exact reals |
| `lean/Verif/Model/*.lean` | the model, function by function, each definition citing file and lines |
| `lean/Verif/Tests.lean` | the model run on floating point numbers against the numbers in the repository's own unit tests |
| `lean/Verif/Lemmas/*.lean` | helper lemmas |
| `lean/Verif/Spec/*.lean` | small independent specifications |
| `lean/Verif/Props/*.lean` | property theorems, with `example`s showing that their hypotheses can be met; those that need mixtures defined in later files are in `Props/Examples.lean` |
| `lean/Verif/Axioms.lean` | checks the axioms of every property theorem during the build |
| `tools/` | scripts that write `MANIFEST.json` from the theorem names and `Model/Shipped.lean` and `Model/ShippedFormulas.lean` from the parameter files |
| `seeded/LOG.jsonl` | wrong programs tried against the theorems |

## How to read seeded/LOG.jsonl

Each line is one wrong program: an edit of the model in a scratch copy (`old`, `new`), the properties whose English claim it
breaks (`breaks`), the property theorems that no longer check (`failed`), the properties in `breaks` of which no theorem failed
(`not_failed`), and theorems that were tightened as a consequence.

* A theorem is listed in `failed` if its proof, or a lemma that it uses, is no longer accepted. That does not show that its
  statement became false: a proof can break because it follows the text of the model. The edit `rn01` replaces `ln_1p(-x)` by
  `ln(1 - x)`, which are equal in exact arithmetic, and still theorems about exact arithmetic are listed. So `failed` is an upper
  bound for what the theorems detect.
* An empty `failed` or an entry in `not_failed` is conclusive: the theorem holds of the wrong program as well. Each such entry has a
  note; either the theorem was tightened or the claim had been listed by mistake.
* Later batches only rebuild what the listed properties need, so `failed` is not complete there.

## How the code is modelled

The Rust code is generic in a number type `D: DualNum<f64>`. The model keeps that: every function is
written once over a class `DualNum F D` (operations the code uses) and instantiated at

* `F = D = ℝ`: exact arithmetic. Most theorems are about this instance.
* `F = D = Float`: only for conformance tests (`#guard`), never in a theorem.
* `F = D = XReal` (exact reals with ±∞ and NaN): theorems about the absence of NaN and infinities.
* `F = ℝ, D = Dual ℝ, Dual (Dual ℝ), Dual (Dual (Dual ℝ))`: dual numbers: theorems about derivatives.
* dual numbers nested any number of times: the dual Newton iteration.
* `F = Rd a`, `D` nested dual numbers over it: an arbitrary arithmetic `a` with rounding (C90, C104, C111, C116–C119).

Arrays of length n are functions on `Fin n`, so every theorem holds for every number of components.
Accumulating loops are folds in the order of the code. A Rust panic is an explicit `Except Panic`
value; a returned `EosError` is an explicit `Except EosError` value. The mutable warm-start argument
of the cross-association function is returned as part of the result.

### Modelled

`src/parameters.rs` (records, `from_segments`, `from_segments_binary`, `from_records`, `to_markdown`,
`Display`, serde attributes of the records), `src/eos/hard_sphere.rs`, `hard_chain.rs`, `dispersion.rs`,
`polar.rs`, `association.rs`, `qspr.rs`, `mod.rs` (options, construction, subset, maximum density,
entropy scaling), `src/dft/mod.rs` (construction, maximum density, pair potential), `hard_chain.rs`,
`dispersion.rs`, `polar.rs`, `association.rs`, `pure_saft_functional.rs`, the properties of the functional
that `feos_dft` asks for (`src/dft/mod.rs:127-163`), the record class and the `DQVariants` parser of
`src/python.rs`, the constructors in `build_wheel/src/eos.rs` and `dft.rs`, and the data in `parameters/*.json`
(except `sauer2014_hetero.json`, which belongs to a different equation of state).

### Not modelled

* Floating point rounding, overflow and underflow. `f64` is idealised as ℝ (or XReal), except in C90, C111 and C116–C119,
  where every operation is rounded. They assume about the arithmetic what `Arithmetic` in `Model/Rounding.lean` says (C111,
  C116–C119: also `Relative`, that every operation has a bounded relative error, which excludes overflow and underflow).
  C90 gives the order of the errors of all contributions; C111 gives their size, for `f64` too, for substances without
  moments and sites, C116 and C119 for the association contribution of one component, C118
  for the polar contributions.
* The conversion of Python objects by `pyo3`, the Python classes generated by macros of `feos_core` and
  `feos_dft`, `src/lib.rs`.
* `src/dft/mod.rs` parts that only forward to the `feos_dft` crate (`ideal_gas`, `contributions`), and the
  `FMTContribution` of `feos_dft` apart from its bulk value.
* Higher-order dual number types of `num_dual` are represented by nested first-order duals
  (`HyperDual64` by `Dual (Dual ℝ)`, `Dual3_64` by a diagonal seed in three levels) and, for the Newton
  iteration, by first-order duals nested any number of times.

### Assumptions about external crates

* `feos_core::StateHD::new`: partial density = moles/volume, mole fraction = moles/total.
  `new_virial`: unit volume, given density and composition.
* `feos_core::Parameter::subset`: selects records and the block of the binary matrix, then calls
  `from_records`.
* `feos_core` sums the residual contributions.
* `num_dual::linalg::LU`: a function of the matrix and right-hand side only; if it returns a vector it
  solves the system (assumed per theorem as a hypothesis, never as an axiom); it fails only on
  singular matrices (again a hypothesis where used).
* `quantity`: numbers with seven integer unit exponents; CODATA 2018 `KB`, `NAV`.
* `feos_dft::WeightFunctionInfo`: order of the rows of the weighted densities and the bulk values of
  the weight functions (`Verif/Model/DftWeights.lean`).
* `serde_json`: a finite number is read back as the same number, a non-finite one is written as `null`;
  a struct is an object with one entry per field; unknown keys are ignored. Formatting of single
  numbers is an arbitrary function.
* `FMTContribution` of `feos_dft`: in a homogeneous fluid every version is the White Bear form of the scalar
  weighted densities of the chain lengths and diameters it is given (`fmtBulk`). Used only in C72.
* the ideal-chain term of `feos_dft`, used only in C36, C60 and C72: rho (m-1) (ln(rho + e) - 1) for e ≥ 0.

## Trusted base

* The kernel of Lean 4.33.0, and Mathlib as checked by it.
* Axioms: every property theorem depends only on `propext`, `Classical.choice` and `Quot.sound`
  (or fewer). `lean/Verif/Axioms.lean` prints them and fails the build if another axiom appears.
* That the definitions in `Verif/Model` describe the Rust code. This is by reading; it is supported by
  the line citations and the conformance tests in `Verif/Tests.lean`.
* No axioms, `sorry`, `native_decide` or `bv_decide` are used.

## Where the code disagrees with a property

Each is proved as a theorem with a concrete witness (suffix `_counterexample`), beside a `_partial`
theorem with the part that does hold.

1. C16: `src/eos/polar.rs:341` divides the quadrupole cross term by `sigma_ij[[di, di]]^7`. The result
   depends on the order of the components. The same line makes C66 fail: no choice of constants turns the
   contribution into the symmetric sum of the theory.
2. C25: `assoc_site_frac_a` (`src/eos/association.rs:89`) evaluates sqrt((4 δ na + 1)² − 1)/(2 δ na)
   instead of (sqrt(1 + 4 δ na) − 1)/(2 δ na). The "fraction" exceeds one.
3. C39: `src/dft/polar.rs:223-233` lacks the factor 2 of the quadrupole cross term.
4. C40: `src/dft/polar.rs:335` always uses the DQ35 form.
5. C41: `src/dft/pure_saft_functional.rs:268-312` has no dipole-quadrupole term.
6. C42: `src/dft/mod.rs:59` adds the chain functional for m > 1 only; argon in the shipped parameters
   has m = 0.9285.
7. C33: `src/eos/association.rs:147-152` returns a constant zero at zero density, dropping derivatives.
8. C07: `src/parameters.rs:126` adds n_total·d per list entry, so splitting an entry changes it.
9. C47 (remark, not a violation): `src/eos/mod.rs:295` rebuilds the equation of state with default
   options. For one component no option changes the residual energy, so the value is right.
10. C61: `src/eos/qspr.rs` evaluates its correlations for the heat capacities at 300 K and 400 K with
    ε/T at the actual temperature T (and divides by 300 K or 400 K as well), so intercept and slope of
    the "linear" heat capacity change with temperature. The double division looks unintended: with a
    single one butane gets c_p(300 K) ≈ 100 J/mol/K, close to the measured 98.9, instead of 131.
11. C37 (remark): the pure functional uses `epsilon_k`, the equation of state `epsilon_k_ij`; they
    agree only if the self-interaction k_ii is zero.
12. C59: `src/eos/association.rs:131-259`: Newton's method from 0.2 can converge, with the default
    options, to a root with negative "fractions" (whose logarithm is NaN). Witness: na = (1, 0),
    nb = (3, 1), equal association energies, association volumes K and 9 K; exact iterates in
    `Props/CrossAssociationRoot.lean`.
13. C34 (remark): the AntiSymWhiteBear version (`src/dft/pure_saft_functional.rs:92`) divides the
    squared vector density by n2²; where both vanish (no fluid at all) that is 0/0. The theorem
    therefore needs a positive density.
14. C49 (remark): a record with `mu: Some(NaN)` is written as `null` and read back as `None`.
15. C73: `src/parameters.rs:128-134` sets the diffusion coefficients of a group-contribution molecule to zero,
    whatever those of the segments are (the loop that would fill them is commented out).
16. C78: `src/dft/pure_saft_functional.rs:90-103`: with AntiSymWhiteBear, `xi2` is 0/0 where there is no fluid.
    The comparison `xi2.re() > 1.0` is false for NaN, so the energy density of every pure component is NaN in
    empty regions.
17. C78: `src/dft/pure_saft_functional.rs:72-76` reports packing fractions above one. Exactly one passes, and
    `(1 - n3)² ln(1 - n3)` is 0 · ∞, so the energy density is NaN.
18. C94: the second-order dispersion term (`src/eos/dispersion.rs`) produces a second van der Waals loop at low
    temperature, at densities below the maximum density of the code. This is a property of the published polynomials,
    not of their implementation; a density iteration may stop at a spurious phase.
19. C95: at temperatures well below epsilon_k (for example T = epsilon_k/3 and m = 3/2) the dipole term
    (`src/eos/polar.rs`) is repulsive in the dilute gas and has a pole at a density below the maximum density of the code.
    Again a property of the published integrals, reproduced faithfully; the property is stated for moderate temperatures.
20. C98: for the same reason the second virial coefficient of dipolar substances without sites becomes positive at low
    temperature, and so does that of quadrupolar substances with 1.1 to 1.9 segments (carbon dioxide for example), so there is
    no single Boyle temperature. Reproduced faithfully from the published integrals. Above `T = 1.1 ε` there is exactly one.
21. C99: `thermal_conductivity_reference` (`src/eos/mod.rs:284-324`) adds to the Chapman-Enskog value a quadratic in `T / (m ε)`
    that is negative below `T = 0.355 m ε`. For long chains (eicosane at 300 K) the sum is negative in the dilute gas, so the
    thermal conductivity from entropy scaling would be negative.
22. C100: the second virial coefficient of mixtures of molecules with different numbers of segments is not quadratic in the
    composition, because the dispersion integrals use the mean number of segments. A property of the published equation of
    state, reproduced faithfully.
23. C101: `parameters/gross2001.json` gives 1-hexene the molar weight 84.616 g/mol; the formula C6H12 has 84.162 g/mol.
    `parameters/gc_substances.json` lists the groups CH3, CH2, COO, CH3, CH3 for isopropyl ethanoate; CH2 should be >CH.
24. C102: the viscosity coefficients of dimethylamine in `parameters/loetgeringlin2018.json` have the opposite sign of those of
    all other substances (2.1585 instead of about -2), so its viscosity falls by a factor of three on compression from the ideal
    gas. The coefficient of the group =CH2 in `parameters/loetgeringlin2015_homo.json` (42.4367e-1) does the same for ethylene;
    other alkenes are saved by the opposite value of =CH. Methanol from its groups is not monotone between the residual entropies
    -5.1 and -4.4 per segment.
25. C108: the branch for 0/0 in the dipole-quadrupole term (`src/eos/polar.rs:479-481`) returns the second-order term alone. It is
    right where dipoles and quadrupoles are both absent. With quadrupoles present and dipoles at infinite dilution (or the reverse)
    second- and third-order term vanish in proportion to the amount, the Padé form keeps a finite slope, and the chemical potential
    computed at zero amount is not the limit of those computed at small amounts.
26. C109: the same branch for 0/0 (`src/eos/polar.rs:267-269, 364-366, 479-481`) is taken when `feos_core` evaluates the third virial
    coefficient, which it does at zero density. Keeping the pair term alone is right to second order in the density and wrong to third
    order: the coefficient lacks the interaction of three dipoles, three quadrupoles, and three molecules of both kinds.

## Properties: what is modelled and how it is proved

* C01, C03, C04, C09, C10, C11, C48, C56, C57: structural theorems about `fromRecords`, `subset`,
  `withOptions`; case analysis and list lemmas.
* C02: real algebra; AM-GM for the bound.
* C05–C08: folds as `List.sum`; permutation lemmas; C07 by a counterexample plus a partial theorem.
* C12, C13, C19, C20, C44: real analysis on the instance ℝ.
* C14: each contribution is volume times a function of intensive variables.
* C15–C18: upper-triangular accumulations are rewritten as full symmetric sums over all components;
  then reindexing, dropping zero terms, or merging equal components. With several associating components the
  whole Newton run is carried over by a relabelling of the sites (`Lemmas/NewtonPerm.lean`); this needs a linear
  solver that fails exactly for singular matrices (`ExactSolver`).
* C21, C53: one framework (`Lemmas/Rep*.lean`). A representation relates real functions near a point to
  elements of a number type and is preserved by every operation of the code under its domain condition
  (divisor not zero, logarithm of a positive number, ...). Instances: finite `XReal` values; dual numbers
  over any represented number type (value and derivative). Following the code function by function gives,
  at admissible states, finiteness and exactness of the derivatives at once, including finiteness of the
  derivatives. Conditions: polar terms away from the pole of the Padé approximation (or, for
  finiteness, no polar molecules present), association of one component away from the switch between its two
  formulas. `C53_cross_association_*` extends the derivatives to several associating components, starting
  from an exact solution for the site fractions. For C21 with several associating components the run over `XReal` is
  compared with the run over the reals step by step (`Lemmas/NewtonLift.lean`): from positive finite fractions both
  make the same step. This covers states where association is weak (C79). What is assumed of the linear solver is
  `Spec.FiniteSolver`: a finite system whose matrix of real parts is non-singular gets a finite solution.
* C68–C70: real functions that are analytic at a point are another instance of that framework, so the residual
  energy is analytic at regular states. Symmetry of second derivatives, linearity of the first derivative and
  homogeneity of degree one (C14) then carry over to the dual number results of the code by C53.
* C71: the exact energy is defined by the mass-action equations of all components (C27 gives existence and
  uniqueness). It is invariant under merging; C29 bounds the distance of the code's result from it.
* C79: a Newton step satisfies `(1 + Σ M x) x' + x Σ M x' = 1 + x Σ M x`. With row sums of `M` at most one it maps (0, 1]
  into itself, and the error of the next iterate is bounded by the square of the last one
  (`Lemmas/NewtonWeak.lean`). Nine steps bring the gradient below 1e-10. `C79_dilute` and `C79_hot` are limits of the
  association strength for large volumes and high temperatures. `C79_bound` follows from a lower bound of the exact
  fractions and the accuracy of the energy.
* C80: induction over the grid. Each point hands on starting values in (0, 1], so C79 applies to the next.
* C22: evaluation at zero density. For the limit every contribution is written as `V F(1/V, T, N)` with `F` smooth at
  zero inverse volume, where `F` and its slope vanish (`Lemmas/DiluteCalculus.lean`, `Lemmas/Dilute.lean`). The evaluation
  with real numbers is then of the order of `1/V`.
* C82, C83: a profile at a grid point is described by its density and its averages over balls and spheres of any radius
  (`ProfileAt`); the weight functions of the model turn these into the rows the functionals read. Row arithmetic, then
  algebra; orthogonal matrices preserve the sums of squares of the vector densities.
* C84: the specification is a conversion of the pure component records (`inUnits`); `fromRecords` of the converted records
  is shown to be the converted parameter set (`fromRecords_inUnits`), and each contribution is invariant because all its
  factors combine to dimensionless numbers (Lemmas/Units.lean). The Newton iteration of the cross association sees only
  products of strengths and densities and is literally the same.
* C85: `residual_transfer` turns an identity between residual energies near a state into an identity between their
  evaluations with dual numbers: both evaluations represent the same function, and representation is unique (`Complete`).
  Regularity and admissibility of the transformed system are derived from those of the original one.
* C86: the association energy at the solution of the mass-action equations is the maximum of a function of the fractions
  of unbonded A sites (weighted tangent inequality of the logarithm); the function falls pointwise when strengths and
  numbers of sites rise. One component: the explicit root and the series are compared across the switch. Several
  components: C71 bounds the distance between the iteration and the exact energy.
* C87: after substituting a range of mean segment numbers, the polynomials are positive combinations of Bernstein
  polynomials on [0, 1/2] (Lemmas/DispersionSign.lean); the sums over pairs are monotone in 1 - k_ij. That k_ij enters
  nothing else is shown by unfolding the contributions.
* C88: every contribution times the square of the free fraction has a limit at packing fraction one: positive for hard
  spheres, zero for chains (logarithm of a pole), dispersion (the compressibility term vanishes) and polar terms (smooth),
  and bounded below by a logarithm for association (Lemmas/Dense.lean, DenseAssociation.lean). Mean value theorem and
  intermediate value theorem give the pressure; the low pressure end is C81.
* C89: in terms of 1/(V - volume of the segments) the energy is a polynomial plus logarithms; its derivative gives the
  pressure as a sum of terms that all grow (Lemmas/ChainPressure.lean). C53 identifies the derivative with the dual numbers.
* C90: all roundings of a computation are collected in a family of numbers indexed by all possible runs. A family stands
  for a real number if its error is O(rounding unit); this is one more instance of the relation between exact and
  approximate constants on which C21 and C53 rest (Lemmas/RepRounding.lean, RoundingNest.lean). Every function of the
  model commutes with picking out one run (Lemmas/Hom.lean). The quantity computed by one run is then the member of
  the family, and the definition of O( ) gives the constant.
* C91: diameters, packing fraction and moments fall with temperature and volume, and so do the contact value and the
  Boltzmann factor of the bond. Site fractions follow from C86; for several components the energy is the maximum of a
  function that rises with temperature and volume point by point. The sign of the derivative is the sign of the
  difference quotients (Props/Heating.lean).
* C92: at fixed temperature and amounts the function f(V) = residual energy - N log V grows without bound at close
  packing and falls to -infinity slower than linearly. The pressures at which the minimum of f + PV lies left and right
  of a convex gap form closed sets that cover an interval, so both kinds occur at one P (Lemmas/Coexistence.lean). At low
  temperature T^2 f tends to minus the second order dispersion term, which is positive and vanishes at large volumes, so
  f lies above one of its chords (Lemmas/Cold.lean). Equal potentials follow from Euler's relation C70
  (Props/Condensation.lean).
* C93: minus the slope of an isotherm times V^2 is at least N/(1-eta)^2 - eta (A/T + B/T^2): the reference fluid is
  steeper than an ideal gas in the free volume (C89), and the dispersion term is an analytic function of eta on the
  closed interval [0, 1] (Lemmas/Supercritical.lean). So the states with non-negative slope above a given temperature
  lie in a compact set of (T, eta); the highest temperature in this set, non-empty by C92, has the critical point
  (Lemmas/CriticalPoint.lean, Props/Critical.lean).
* C94: T^2 times the energy tends to a function of the packing fraction alone at low temperature (Lemmas/Cold.lean); three
  chords of this function, evaluated with exact rational arithmetic, give the signs of the slope of the isotherm.
* C95: the polar integrals are polynomials in the packing fraction, (m-1)/m and epsilon/T; their signs follow from Bernstein
  coefficients on sub-boxes, checked with exact rational arithmetic (Lemmas/PolarSign.lean). The pole of cold dipoles is an
  application of the intermediate value theorem to the difference of the two terms.
* C96: the parameter files are transcribed to rational numbers (Model/Shipped.lean). Their ranges are evaluated by the kernel
  (`decide +kernel`, over the complete finite files) and turned into the hypotheses of C12, C21, C92, C93 and C95 for every
  mixture. The alkane statement is an induction over the list of groups.
* C97: both sides are Taylor coefficients of the energy density in the density. The dual number evaluation at zero density is
  related to a limit of `A / ρ²` (limit_of_rep), the pressures at large volume to the same limit by the expansion behind C22 and
  C81; extensivity (C14) joins the two.
* C98: the explicit coefficient of C63 is a function of `ε / T`. Its derivative is bounded with the numbers of the published
  constants; existence is the intermediate value theorem. Counterexample for dipoles: the part of the pair integral that is
  linear in `ε / T` is negative at zero density for more than 1.1 segments, so the coefficient tends to `+∞` as `T → 0`.
  With moments: every polar pair term is `-K x² (α + β x)` with `x = ε / T`, and `2 α + 3 β x ≥ 0` up to `x = 10 / 11` for every
  number of segments from one on (dipole_range, quadrupole_range, mixed_range), so the terms grow with temperature as the rest.
* C99: signs of the explicit reference values of C45, C46 and C47. Counterexample: the residual entropy of the dilute gas tends to
  zero by C81, and a numerical bound of the collision integral decides the sign.
* C100: the coefficients of all contributions except dispersion are explicit double sums (C63, C33); the one of dispersion is a
  double sum times a function of the mean number of segments. Counterexample: for equal segments it is a cubic polynomial of the
  composition, so the third difference does not vanish.
* C101: the formulas are generated together with the records. The comparison of the data is evaluated by the kernel for all
  entries; the sum over groups is an induction over the list of groups. The sum of molar weights of the groups is done by
  feos_core, so only its summands are modelled.
* C102: the correlation of a mixture is a weighted mean of the cubic polynomials of its substances at the same argument, so a
  condition on the coefficients of each substance (negative slope of the cubic on the negative axis) suffices for every mixture.
  The condition is evaluated by the kernel for the data of all files.
* C103: with `x = 3 ε/T` the energy of a pure fluid is a function of `x` and the density. Its derivative is calculated in closed
  form; the change of the packing fraction with temperature is bounded with `x^k exp(-x) ≤ (k/e)^k`, the slopes of the
  perturbation integrals with Bernstein coefficients, and the chain term with a series of the logarithm. The repulsive part
  outweighs all negative bounds. With sites, the slope of the association energy follows from its variational form (a
  tangent from below touches it), so it is the number of bonds; `ln z ≤ (z - 1/z)/2` for both kinds of sites shows that the
  energy of the bonds exceeds their entropy as long as the bonding volume is small. The series below the cutoff is treated
  separately.
* C104: errors of the parameters are treated like rounding errors (C90): an arithmetic that is exact but declares an accuracy of `u`
  accepts every number that is off by `u`, so the same propagation applies. For fading moments the sums over pairs and triplets
  in closed form (which run over all components) are continuous, and the Padé approximant is `t⁴ a² / (a - t² b)` on a ray.
  For fading association volumes the branch with the series is the one in charge.
* C105: weighted densities of a renumbered or divided profile are sums of those of the parts (`SameFluid`), so the same sums as in
  C15–C18 apply point by point. For several associating components the warm start is renumbered along the grid. Listing a
  quadrupolar substance twice changes the result; that is the defect of C39 again.
* C106: the limit is stated with a separate formula for hard chains (`hardChains`). Each contribution has a limit of its own: the
  published formulas of C64 are continuous in the diameters; dispersion is linear in 1/T; T² φ₂ and T³ φ₃ of the polar terms have
  limits and the first is not zero because the pair integrals are positive (`dqPair_hot`); association strengths tend to zero. The
  limit is positive because the reference fluid of C89 is.
* C107: the representation theorem behind C53 is applied at low density to one function of the inverse volume for all number types
  (`dilute_rep_residual`); its derivatives are functions of the same kind (`Dilute.derivative`), and the direction of the size of
  the system drops out (`second_size`).
* C108: values and slopes with dual numbers over extended reals, at all states near the given one. Smooth contributions: the
  representation theorem with the state as a parameter. Absent polar molecules: the triplet term is at most half of the pair term
  nearby, so the Padé quotient and its slope tend to zero like the pair term. Counterexample: `polar_jump`, the limit of the slopes is
  `a²/(a-b)` where the code returns `a`.
* C109: third-order dual numbers over extended reals at zero density (`rhoX3`) compared with the Taylor expansion of the energy at low
  density. Every contribution: the dual components are the Taylor coefficients of the energy, except that the polar terms give those of
  the pair term (`padeVolume_nan3`); the difference is the three-body term of the theory at zero density.
* C110: the evaluation at zero density for any kind of dual numbers over extended reals gives the derivatives of one function of
  temperature and density, in which the polar contributions are pair terms (`rep_diluteSum`, `dilutePart`); the dual numbers with the
  temperature inside give the temperature derivative of its second and third density derivative (`slope2`, `slope3`).
* C111: a calculus of relative errors (`Agrees`: numbers of one sign, errors multiply) and of errors relative to the size of the terms
  (`Differs`: sums with cancellation) follows the code operation by operation; the result is compared with the theory of
  `Spec/Theory.lean`. The denominator of `c1` and the differences `1 - ζ₃` are bounded away from cancellation for packing fractions
  up to one half.
* C112: the residual Helmholtz energy is `V F(1/V, T, N)` with a smooth `F` (`Dilute`); its second density derivative at zero is the
  virial coefficient and the temperature derivative of that is the slope (C110). The energies of the code are temperature derivatives
  at finite volume and approach these.
* C113: `B - T B'` is an explicit function of `ε / T` (`throttleForm`), strictly monotone, and changes its sign. With moments the pair
  integrals are of one sign only from `1.5 ε` on. Below, the claim fails: `C113_cold_quadrupoles_counterexample`.
* C114: as C112, with the second temperature derivative of `F`, which is again of the kind `Dilute`.
* C115: `2 T B' + T² B''` is `x² g''(x)` less a bond part, with `x = ε / T` and the second virial coefficient `g(x)`; `g` is concave
  without moments (`boyleCurve_neg`). Polar pair terms are concave from `2.1 ε` on. Below, the claim fails:
  `C115_cold_quadrupoles_counterexample`.
* C116: relative errors as for C111. The cancellation in `sqrt(1 + 4 δ ν) - 1` multiplies them by at most `1 / (δ ν) + 2`, and
  `δ` is at least `2⁻²⁶` where the formula is used; `exp(y) - 1` multiplies them by at most `y + 1`.
* C117: from the same bound with `δ ν ≥ 10⁻⁴`. The counterexamples follow single operations with `roundBits_eq`.
* C118: relative errors as for C111. The sums over pairs and triplets are rewritten as full sums by symmetry, after each
  ordered term has been bounded. The Padé approximation multiplies the relative error by at most `2 κ + 2`, where `κ`
  bounds the sizes of the two orders divided by the absolute value of their difference.
* C119: as C116, with the condition number `(1 + δ (n_A + n_B)) / (δ n_A X_A)` of the difference in the explicit formula. The
  radicand has no cancellation beyond a factor of two: it equals `1 + 2 δ (n_A + n_B) + δ² (n_A - n_B)²`.
* C120: from equal values all fractions stay equal, and `w = 1 + 2 D t` follows Heron's method for `√(1 + 4 D)`: its relative
  deviation is at least halved in 40 steps and then squared in six.
* C121: in relative deviations the linear system of a Newton step is diagonally dominant, so an inexact start carries over
  linearly to the derivatives (C32_inexact_start); a small calculus of relative derivatives (`RelBound`) bounds those of the
  association strengths.
* C122: from any common start in (0, 1] the first step lands on the falling Heron sequence of C120, at most 2^76 above its
  limit, so that 46 more steps suffice; the common start is an invariant along the grid.
* C123: the error of one Newton step in dual numbers is first order in the error of the values it starts from, by the
  differentiated mass action equations (as in C121); the point functions are differentiated through the representation of
  dual numbers by curves.
* C124: the weighted densities of a profile in other units are homogeneous in the factor of length; each polar sum is
  homogeneous of degree -3, the strengths of association of degree 3, so that each Newton step commutes with the
  conversion.
* C81: the dual number result is the derivative of `V F(1/V, T, N)` along a line of states (C53), which tends to zero
  because the derivatives of `F` are continuous. Association of several components is exactly zero below the density
  cutoff.
* C23–C26, C31: quadratic equation, sign of ln x − x/2 + 1/2.
* C27: uniqueness by a maximal-ratio argument, existence by Knaster–Tarski.
* C28, C29, C54: scaled Newton system is strictly diagonally dominant at positive iterates.
* C58: algebra from the combining rules. C59: exact Newton iterates of a concrete mixture.
* C30: induction over the loop for an arbitrary step function.
* C32: dual numbers nested N times represent functions near a point; those that vanish to a given order form
  a filtration (`Lemmas/Tower.lean`), and every Newton step doubles the order of the error. The exact solution
  exists near the point and is smooth by the implicit function theorem (`Lemmas/SiteBranch.lean`). The
  property starts from an exact real solution. The real iteration stops at a tolerance instead, so
  `C32_inexact_start` bounds the error of the first derivative in terms of the error of the real solution.
  `LU::new(..).solve` with dual numbers is an assumption (`Spec.CorrectDualSolver`, shown to be satisfiable).
* C33, C63: second-order dual numbers at zero density; calculus of numbers that vanish to first or second
  order (`Lemmas/Second.lean`). The polar part of C63 uses second-order dual numbers over `XReal`, where the
  Padé quotient 0/0 is NaN, and is compared with the limit of the Helmholtz energy over the squared density.
* C64–C67: the theory is written down independently in `Spec/Theory.lean` (plain sums over components, record
  data, published tables); the closed forms of the contributions are matched term by term and the constants
  compared within the rounding of the tables. No copy of the papers was available offline, and the tables and
  prefactors of that file were written down after the code had been read. They are therefore not independent
  evidence for the numerical constants: an error shared by the code and the file would go unnoticed. What the
  theorems do establish is the structure of the equations, the summation ranges and that the model's constants
  stay as they are written there.
* C34–C43, C60: bulk evaluation of the weighted densities, then algebra.
* C45–C47: unit arithmetic and the panic monad.
* C49–C51, C62: small models of the serde attributes, of the table writer, of the parser and of the
  text output; list and string lemmas.
* C52: evaluation at T0, case analysis. C61: derivatives with respect to temperature.
* C55: row arithmetic.
* C72: the bulk theorems C35, C36, C38 summed over the contributions of the functional.
* C76, C78: the framework of C21 and C53 applied to the functionals at arbitrary weighted densities
  (`Lemmas/RepDft*.lean`). At a single point (no derivatives) the switching points need no exception. The absolute
  value in the chain functional has a kink at zero; it is multiplied by the density, so first derivatives are exact
  where both vanish (`Lemmas/RepDftEmpty.lean`). The two violations are evaluated with `XReal`.
* C77: every nested dual number represents a function, and a function determines it (`Lemmas/RepComplete.lean`). An
  identity between real functions (C60, C72) therefore holds for the dual numbers computed by the code.
* C73: evaluation. C74: evaluation of the constructors, C51 for the parser. C75: evaluation and C44.
