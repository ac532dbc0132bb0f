import Verif.Model.Polar
import Verif.Model.Association

/-!
# Model of /repo/src/eos/mod.rs (construction, options, residual contributions, maximum density) and
/repo/src/eos/qspr.rs
-/

namespace PcSaft
variable {F D : Type} [F64 F] [DualNum F D] {n : Nat}

/-- `PcSaftOptions`, /repo/src/eos/mod.rs:32-39. -/
structure PcSaftOptions (F : Type) where
  max_eta : F
  max_iter_cross_assoc : Nat
  tol_cross_assoc : F
  dq_variant : DQVariants

/-- `PcSaftOptions::default`, /repo/src/eos/mod.rs:41-50. -/
def PcSaftOptions.default : PcSaftOptions F :=
  { max_eta := 0.5
    max_iter_cross_assoc := 50
    tol_cross_assoc := 1e-10
    dq_variant := .DQ35 }

/-- The boxed contributions `Box<dyn HelmholtzEnergy>` pushed in /repo/src/eos/mod.rs:66-102, with the
options each one stores. -/
inductive Contribution (F : Type) where
  | hardSphere
  | hardChain
  | dispersion
  | dipole
  | quadrupole
  | dipoleQuadrupole (variant : DQVariants)
  | association
  | crossAssociation (max_iter : Nat) (tol : F)

/-- `IdealGasContributions`, /repo/src/eos/mod.rs:27-30. -/
inductive IdealGas (n : Nat) (F : Type) where
  | qspr
  | joback (records : Fin n → JobackRecord F)

/-- `PcSaft`, /repo/src/eos/mod.rs:53-58. -/
structure Eos (n : Nat) (F : Type) where
  parameters : PcSaftParameters n F
  options : PcSaftOptions F
  contributions : List (Contribution F)
  ideal_gas : IdealGas n F

/-- The contribution list built in /repo/src/eos/mod.rs:66-102. -/
def buildContributions (p : PcSaftParameters n F) (o : PcSaftOptions F) : List (Contribution F) :=
  [.hardSphere, .hardChain, .dispersion]
    ++ (if 0 < p.ndipole then [.dipole] else [])
    ++ (if 0 < p.nquadpole then [.quadrupole] else [])
    ++ (if 0 < p.ndipole ∧ 0 < p.nquadpole then [.dipoleQuadrupole o.dq_variant] else [])
    ++ (match p.nassoc with
        | 0 => []
        | 1 => [.association]
        | _ => [.crossAssociation o.max_iter_cross_assoc o.tol_cross_assoc])

/-- `PcSaft::with_options`, /repo/src/eos/mod.rs:65-115. -/
def Eos.withOptions (p : PcSaftParameters n F) (o : PcSaftOptions F) : Eos n F :=
  { parameters := p
    options := o
    contributions := buildContributions p o
    ideal_gas := match p.joback_records with
      | none => .qspr
      | some jr => .joback jr }

/-- `PcSaft::new`, /repo/src/eos/mod.rs:61-63. -/
def Eos.new (p : PcSaftParameters n F) : Eos n F := Eos.withOptions p PcSaftOptions.default

/-- `EquationOfState::subset`, /repo/src/eos/mod.rs:123-128. -/
def Eos.subset {k : Nat} (e : Eos n F) (sel : Fin k → Fin n) : Eos k F :=
  Eos.withOptions (e.parameters.subset sel) e.options

/-- `compute_max_density`, /repo/src/eos/mod.rs:130-134 and /repo/src/dft/mod.rs:116-120. -/
def computeMaxDensity (max_eta : F) (p : PcSaftParameters n F) (moles : Fin n → F) : F :=
  max_eta * sumFin moles
    / sumFin (fun i => F64.pi / 6.0 * p.m i * F64.powi (p.sigma i) 3 * moles i)

/-- `PcSaft::compute_max_density`, /repo/src/eos/mod.rs:130-134 (reads the stored options). -/
def Eos.maxDensity (e : Eos n F) (moles : Fin n → F) : F :=
  computeMaxDensity e.options.max_eta e.parameters moles

/-- What the association code needs from `num_dual`: LU at `f64`, LU at `D`, and `D::NDERIV`. -/
structure LinAlg (F D : Type) where
  solveF : (k : Nat) → Solver k F
  solveD : (k : Nat) → Solver k D
  nderiv : Nat

/-- Dynamic dispatch of `helmholtz_energy` over the boxed contributions. -/
def Contribution.helmholtzEnergy (la : LinAlg F D) (p : PcSaftParameters n F) (state : StateHD n D) :
    Contribution F → Except Panic D
  | .hardSphere => .ok (PcSaft.hardSphere p state)
  | .hardChain => .ok (PcSaft.hardChain p state)
  | .dispersion => .ok (PcSaft.dispersion p state)
  | .dipole => .ok (PcSaft.dipole p state)
  | .quadrupole => .ok (PcSaft.quadrupole p state)
  | .dipoleQuadrupole v => .ok (PcSaft.dipoleQuadrupole v p state)
  | .association => PcSaft.association p state
  | .crossAssociation max_iter tol =>
      PcSaft.crossAssociation p max_iter tol la.nderiv (la.solveF _) (la.solveD _) state

/-- The sum of the residual contributions, as evaluated by `feos_core`
(`EquationOfState::evaluate_residual`: `self.residual().iter().map(|c| c.helmholtz_energy(state)).sum()`). -/
def Eos.residualHelmholtz (la : LinAlg F D) (e : Eos n F) (state : StateHD n D) :
    Except Panic D :=
  e.contributions.foldlM (fun acc ct =>
    match ct.helmholtzEnergy la e.parameters state with
    | .error err => .error err
    | .ok a => .ok (acc + a)) (c (0.0 : F))

/-! ### QSPR ideal gas model -/

/-- /repo/src/eos/qspr.rs:8 -/
def qsprRGAS : F := 6.022140857 * 1.38064852
/-- /repo/src/eos/qspr.rs:9 -/
def qsprKB : F := 1.38064852e-23
/-- /repo/src/eos/qspr.rs:10-14 -/
def T300 : F := 300.0
/-- /repo/src/eos/qspr.rs:11 -/
def T400 : F := 400.0
/-- /repo/src/eos/qspr.rs:12 -/
def T0 : F := 298.15
/-- /repo/src/eos/qspr.rs:13 -/
def P0 : F := 1.0e5
/-- /repo/src/eos/qspr.rs:14 -/
def A3 : F := 1e-30

/-- /repo/src/eos/qspr.rs:17-24 -/
def NA_NP_300 : Fin 6 → F :=
  ![-5763.04893, 1232.30607, -239.3513996, 0.0, 0.0, -15174.28321]
/-- /repo/src/eos/qspr.rs:25-32 -/
def NA_NP_400 : Fin 6 → F :=
  ![-8171.26676935062, 1498.01217504596, -315.515836223387, 0.0, 0.0, -19389.5468655708]
/-- /repo/src/eos/qspr.rs:33-40 -/
def NA_P_300 : Fin 6 → F :=
  ![5177.19095226181, 919.565206504576, -108.829105648889, 0.0, -3.93917830677682,
    -13504.5671858292]
/-- /repo/src/eos/qspr.rs:41-48 -/
def NA_P_400 : Fin 6 → F :=
  ![10656.1018362315, 1146.10782703748, -131.023645998081, 0.0, -9.93789225413177,
    -24430.12952497]
/-- /repo/src/eos/qspr.rs:49-56 -/
def AP_300 : Fin 6 → F :=
  ![3600.32322462175, 1006.20461224949, -151.688378113974, 7.81876773647109e-07,
    8.01001754473385, -8959.37140957179]
/-- /repo/src/eos/qspr.rs:57-64 -/
def AP_400 : Fin 6 → F :=
  ![7248.0697641199, 1267.44346171358, -208.738557800023, 0.000170238690157906,
    -6.7841792685616, -12669.4196622924]

/-- The coefficient set chosen in /repo/src/eos/qspr.rs:73-79. -/
def qsprCoefficients (p : PcSaftParameters n F) : (Fin 6 → F) × (Fin 6 → F) :=
  match p.nassoc with
  | 0 => match p.ndipole + p.nquadpole with
    | 0 => (NA_NP_300, NA_NP_400)
    | _ => (NA_P_300, NA_P_400)
  | _ => (AP_300, AP_400)

/-- `icpc300` / `icpc400` of /repo/src/eos/qspr.rs:82-108 for one component (`cc` the coefficient
row, `tc` = 300 or 400). -/
def qsprIcpc (p : PcSaftParameters n F) (cc : Fin 6 → F) (tc : F) (temperature : D) (i : Fin n) : D :=
  let epsilon_kt := DualNum.recip temperature * c (p.epsilon_k i)
  let sigma3 := F64.powi (p.sigma i) 3
  let p1 := epsilon_kt * c (p.m i)
  let p2 := sigma3 * p.m i
  let p3 := epsilon_kt * c p2
  let p4 := DualNum.expm1 (DualNum.recip temperature * c (p.epsilon_k_ab i)) * c p2 * c sigma3
    * c (p.kappa_ab i)
  let p5 := p2 * p.q i
  let p6 := (1.0 : F)
  (p1 * c (cc 0) / c tc + c (p2 * cc 1) + p3 * c (cc 2) / c tc + p4 * c (cc 3) / c tc
    + c (p5 * cc 4) + c (p6 * cc 5)) * c 0.001

/-- `QSPR::de_broglie_wavelength` (the logarithm of the cubed de Broglie wavelength),
/repo/src/eos/qspr.rs:71-122. -/
def qsprDeBroglie (p : PcSaftParameters n F) (temperature : D) (i : Fin n) : D :=
  let cs := qsprCoefficients p
  let icpc300 := qsprIcpc p cs.1 T300 temperature i
  let icpc400 := qsprIcpc p cs.2 T400 temperature i
  let b := (icpc400 - icpc300) / c (T400 - T300)
  let a := icpc300 - b * c T300
  let k := a * (temperature - c T0 - temperature * DualNum.ln (temperature / c T0))
    - b * DualNum.powi (temperature - c T0) 2 * c 0.5
  k / (temperature * c qsprRGAS) + DualNum.ln (temperature * c qsprKB / c (P0 * A3))

end PcSaft
