import Verif.Model.Dft

/-!
# Model of /repo/src/dft/pure_saft_functional.rs and /repo/src/dft/mod.rs
-/

namespace PcSaft
variable {F D : Type} [F64 F] [DualNum F D] {n : Nat}

/-- /repo/src/dft/pure_saft_functional.rs:18 -/
def PI36M1 : F := 1.0 / (36.0 * F64.pi)
/-- /repo/src/dft/pure_saft_functional.rs:19 -/
def N3_CUTOFF : F := 1e-5

/-- `feos_dft::fundamental_measure_theory::FMTVersion` -/
inductive FMTVersion where
  | WhiteBear
  | KierlikRosinberg
  | AntiSymWhiteBear
  deriving DecidableEq, Repr

/-- `PureFMTAssocFunctional::weight_functions`, /repo/src/dft/pure_saft_functional.rs:37-54. -/
def pureFmtWeightFunctions (p : PcSaftParameters 1 F) (temperature : D) : WeightFunctionInfo 1 D :=
  let r := fun i => hsDiameter p temperature i * c 0.5
  (WeightFunctionInfo.new false).extend
    ([WeightFunctionShape.Delta, .Theta, .DeltaVec].map (fun s =>
      { prefactor := fun i => c (p.m i), kernel_radius := r, shape := s })) false

/-- `f3` of /repo/src/dft/pure_saft_functional.rs:105-111. -/
def pureF3 (n3 : D) : D :=
  if F64.lt (DualNum.re n3) N3_CUTOFF then
    (((n3 * c 35.0 / c 6.0 + c 4.8) * n3 + c 3.75) * n3 + c (8.0 / 3.0)) * n3 + c 1.5
  else
    let ln31 := DualNum.ln1p (-n3)
    let n3rec := DualNum.recip n3
    let n3m1 := -n3 + c 1.0
    let n3m1rec := DualNum.recip n3m1
    (n3m1 * n3m1 * ln31 + n3) * n3rec * n3rec * n3m1rec * n3m1rec

/-- sum of squares of the vector components -/
def sumSq (n2v : List D) : D := n2v.foldl (fun acc v => acc + v * v) (c (0.0 : F))

/-- `n2n2` of /repo/src/dft/pure_saft_functional.rs:85-103. -/
def pureN2n2 (version : FMTVersion) (n2 : D) (n2v : List D) : Except Panic D :=
  match version with
  | .WhiteBear => .ok (n2 * n2 - sumSq n2v * c 3.0)
  | .AntiSymWhiteBear =>
    let xi2 := sumSq n2v / DualNum.powi n2 2
    let xi2 := if F64.lt 1.0 (DualNum.re xi2) then c (1.0 : F) else xi2
    .ok (n2 * n2 * DualNum.powi (-xi2 + c 1.0) 3)
  | .KierlikRosinberg => .error .unreachable

/-- `n1n2` of /repo/src/dft/pure_saft_functional.rs:87,98. -/
def pureN1n2 (r n2 : D) (n2v : List D) : D :=
  let n1 := n2 / (r * c 4.0 * c F64.pi)
  n1 * n2 - n2v.foldl (fun acc v => acc + v / (r * c 4.0 * c F64.pi) * v) (c (0.0 : F))

/-- The association part of /repo/src/dft/pure_saft_functional.rs:114-139. -/
def pureAssoc (p : PcSaftParameters 1 F) (temperature r n2 n3 : D) (n2v : List D) : D :=
  let n3m1rec := DualNum.recip (-n3 + c 1.0)
  let n0 := n2 / (r * r * c 4.0 * c F64.pi)
  let xi := if F64.lt (DualNum.re n2)
      (N0_CUTOFF * 4.0 * F64.pi * p.m 0 * F64.powi (DualNum.re r) 2)
    then c (1.0 : F) else -(sumSq n2v) / (n2 * n2) + c 1.0
  let k := n2 * n3m1rec * r
  let deltarho := ((k / c 18.0 + c 0.5) * k * xi + c 1.0) * n3m1rec
    * (DualNum.expm1 (DualNum.recip temperature * c (p.epsilon_k_aibj 0 0))
      * c (F64.powi (p.sigma 0) 3 * p.kappa_aibj 0 0))
    * (n0 / c (p.m 0) * xi)
  if F64.lt 0.0 (p.nb 0) then
    let xa := assocSiteFracAB deltarho (p.na 0) (p.nb 0)
    let xb := (xa - c 1.0) * c (p.na 0) / c (p.nb 0) + c 1.0
    (n0 / c (p.m 0) * xi) * (assocF xa * c (p.na 0) + assocF xb * c (p.nb 0))
  else
    let xa := assocSiteFracA deltarho (p.na 0)
    n0 / c (p.m 0) * xi * (assocF xa * c (p.na 0))

/-- `PureFMTAssocFunctional::calculate_helmholtz_energy_density`,
/repo/src/dft/pure_saft_functional.rs:56-142, at one grid point past the check of lines 72-76. -/
def pureFmtAssocPoint (p : PcSaftParameters 1 F) (version : FMTVersion) (temperature n2 n3 : D)
    (n2v : List D) : Except Panic D :=
  let r := hsDiameter p temperature 0 * c 0.5
  let ln31 := DualNum.ln1p (-n3)
  let n3m1rec := DualNum.recip (-n3 + c 1.0)
  let n0 := n2 / (r * r * c 4.0 * c F64.pi)
  match pureN2n2 version n2 n2v with
  | .error e => .error e
  | .ok n2n2 =>
    let phi := -(n0 * ln31) + pureN1n2 r n2 n2v * n3m1rec + n2n2 * n2 * c PI36M1 * pureF3 n3
    .ok (if p.nassoc = 1 then phi + pureAssoc p temperature r n2 n3 n2v else phi)

/-- `PureFMTAssocFunctional::calculate_helmholtz_energy_density` on a grid: an error if any packing
fraction exceeds one (lines 72-76), otherwise pointwise. -/
def pureFmtAssocFunctional (p : PcSaftParameters 1 F) (version : FMTVersion) (temperature : D)
    (grid : List (List D)) : Except Panic (Except EosError (List D)) := do
  let pts ← grid.mapM (fun wd => do
    let n2 ← rowAt wd 0
    let n3 ← rowAt wd 1
    Except.ok (n2, n3, wd.drop 2))
  if pts.any (fun q => F64.lt 1.0 (DualNum.re q.2.1)) then
    .ok (.error (.iterationFailed "PureFMTAssocFunctional"))
  else do
    let phis ← pts.mapM (fun q => pureFmtAssocPoint p version temperature q.1 q.2.1 q.2.2)
    .ok (.ok phis)

/-- `PureChainFunctional::weight_functions`, /repo/src/dft/pure_saft_functional.rs:163-178. -/
def pureChainWeightFunctions (p : PcSaftParameters 1 F) (temperature : D) : WeightFunctionInfo 1 D :=
  let d := hsDiameter p temperature
  ((WeightFunctionInfo.new true).add (WeightFunction.newScaled d .Delta) false).add
    { prefactor := fun i => c (p.m i / 8.0), kernel_radius := d, shape := .Theta } false

/-- `PureChainFunctional::calculate_helmholtz_energy_density`,
/repo/src/dft/pure_saft_functional.rs:180-194, at one grid point. -/
def pureChainFunctional (p : PcSaftParameters 1 F) (wd : List D) : Except Panic D := do
  let rho ← rowAt wd 0
  let l ← rowAt wd 1
  let eta ← rowAt wd 2
  let lambda := chainLambda l
  let y := (eta * c 0.5 - c 1.0) / DualNum.powi (eta - c 1.0) 3
  .ok ((-((DualNum.ln (y * lambda) - c 1.0) * c (p.m 0 - 1.0))) * rho)

/-- `PureAttFunctional::weight_functions` (`psi = 1.3862`) and `weight_functions_pdgt`
(`psi = 1.3286`), /repo/src/dft/pure_saft_functional.rs:215-231. -/
def pureAttWeightFunctions (p : PcSaftParameters 1 F) (psi : F) (temperature : D) :
    WeightFunctionInfo 1 D :=
  let d := hsDiameter p temperature
  (WeightFunctionInfo.new false).add (WeightFunction.newScaled (fun i => d i * c psi) .Theta) false

/-- packing fraction of /repo/src/dft/pure_saft_functional.rs:244. -/
def pureEta (p : PcSaftParameters 1 F) (temperature rho : D) : D :=
  rho * c (F64.pi / 6.0) * c (p.m 0) * DualNum.powi (hsDiameter p temperature 0) 3

/-- The loop of /repo/src/dft/pure_saft_functional.rs:251-256 for one coefficient family. -/
def pureDispersionIntegral (a0 a1 a2 : Fin 7 → F) (m1 m2 : F) (eta : D) : D :=
  sumFin (fun i : Fin 7 => DualNum.powi eta i * c (a0 i + m1 * a1 i + m2 * a2 i))

/-- `c1` of /repo/src/dft/pure_saft_functional.rs:257-264. -/
def pureC1 (m : F) (eta : D) : D :=
  DualNum.recip
    ((eta * c 8.0 - DualNum.powi eta 2 * c 2.0) / DualNum.powi (eta - c 1.0) 4 * c m
      + (eta * c 20.0 - DualNum.powi eta 2 * c 27.0 + DualNum.powi eta 3 * c 12.0
          - DualNum.powi eta 4 * c 2.0)
        / DualNum.powi ((eta - c 1.0) * (eta - c 2.0)) 2 * c (1.0 - m)
      + c 1.0)

/-- The dispersion part, /repo/src/dft/pure_saft_functional.rs:238-266. -/
def pureDispersion (p : PcSaftParameters 1 F) (temperature rho : D) : D :=
  let eta := pureEta p temperature rho
  let m1 := (p.m 0 - 1.0) / p.m 0
  let m2 := m1 * (p.m 0 - 2.0) / p.m 0
  let e := DualNum.recip temperature * c (p.epsilon_k 0)
  let s3 := F64.powi (p.sigma 0) 3
  let i1 := pureDispersionIntegral A0 A1 A2 m1 m2 eta
  let i2 := pureDispersionIntegral B0 B1 B2 m1 m2 eta
  let c1 := pureC1 (p.m 0) eta
  (-(DualNum.powi (rho * c (p.m 0)) 2)) * e * c s3 * c F64.pi
    * (i1 * c 2.0 + c1 * (i2 * c (p.m 0) * e))

/-- The dipole part, /repo/src/dft/pure_saft_functional.rs:268-289. -/
def pureDipole (p : PcSaftParameters 1 F) (temperature rho : D) : D :=
  let eta := pureEta p temperature rho
  let e := DualNum.recip temperature * c (p.epsilon_k 0)
  let s3 := F64.powi (p.sigma 0) 3
  let mu2_term := e * c s3 * c (p.mu2 0)
  let m := F64.min (p.m 0) 2.0
  let m1 := (m - 1.0) / m
  let m2 := m1 * (m - 2.0) / m
  let phi2 := (-(rho * rho)) * dftPairIntegral (by decide) m1 m2 eta AD BD e
    * (mu2_term * mu2_term / c s3 * c F64.pi)
  let phi3 := (-(rho * rho * rho)) * dftTripletIntegral m1 m2 eta CD
    * (mu2_term * mu2_term * mu2_term / c s3 * c PI_SQ_43)
  dftPade phi2 phi3

/-- The quadrupole part, /repo/src/dft/pure_saft_functional.rs:291-312. -/
def pureQuadrupole (p : PcSaftParameters 1 F) (temperature rho : D) : D :=
  let eta := pureEta p temperature rho
  let e := DualNum.recip temperature * c (p.epsilon_k 0)
  let s3 := F64.powi (p.sigma 0) 3
  let q2_term := e * c (F64.powi (p.sigma 0) 5) * c (p.q2 0)
  let m := F64.min (p.m 0) 2.0
  let m1 := (m - 1.0) / m
  let m2 := m1 * (m - 2.0) / m
  let phi2 := (-(rho * rho)) * dftPairIntegral (by decide) m1 m2 eta AQ BQ e
    * (q2_term * q2_term / c (F64.powi (p.sigma 0) 7) * c F64.pi * c 0.5625)
  let phi3 := (rho * rho * rho) * dftTripletIntegral m1 m2 eta CQ
    * (q2_term * q2_term * q2_term / c (F64.powi s3 3) * c F64.pi * c F64.pi * c 0.5625)
  dftPade phi2 phi3

/-- `PureAttFunctional::calculate_helmholtz_energy_density`,
/repo/src/dft/pure_saft_functional.rs:233-315, at one grid point.  There is no dipole-quadrupole
term. -/
def pureAttFunctional (p : PcSaftParameters 1 F) (temperature : D) (wd : List D) :
    Except Panic D := do
  let rho ← rowAt wd 0
  let phi := pureDispersion p temperature rho
  let phi := if 0 < p.ndipole then phi + pureDipole p temperature rho else phi
  let phi := if 0 < p.nquadpole then phi + pureQuadrupole p temperature rho else phi
  .ok phi

/-! ### /repo/src/dft/mod.rs -/

/-- The boxed functional contributions pushed in /repo/src/dft/mod.rs:50-89. -/
inductive FunctionalContribution (F : Type) where
  | pureFmtAssoc (version : FMTVersion)
  | pureChain
  | pureAtt
  | fmt (version : FMTVersion)
  | chain
  | attractive
  | association (max_iter : Nat) (tol : F)

/-- `Joback` stored by the functional, /repo/src/dft/mod.rs:91-94. -/
inductive FunctionalIdealGas (n : Nat) (F : Type) where
  | joback (records : Fin n → JobackRecord F)
  | default (components : Nat)

/-- `PcSaftFunctional`, /repo/src/dft/mod.rs:28-34. -/
structure Functional (n : Nat) (F : Type) where
  parameters : PcSaftParameters n F
  fmt_version : FMTVersion
  options : PcSaftOptions F
  contributions : List (FunctionalContribution F)
  joback : FunctionalIdealGas n F

/-- The list built in /repo/src/dft/mod.rs:50-89. -/
def buildFunctionalContributions (p : PcSaftParameters n F) (v : FMTVersion) (o : PcSaftOptions F) :
    List (FunctionalContribution F) :=
  if (v = .WhiteBear ∨ v = .AntiSymWhiteBear) ∧ n = 1 then
    [.pureFmtAssoc v]
      ++ (if (List.finRange n).any (fun i => F64.lt 1.0 (p.m i)) then [.pureChain] else [])
      ++ [.pureAtt]
  else
    [.fmt v]
      ++ (if (List.finRange n).any (fun i => !(F64.eq (p.m i) 1.0)) then [.chain] else [])
      ++ [.attractive]
      ++ (if 0 < p.nassoc then [.association o.max_iter_cross_assoc o.tol_cross_assoc] else [])

/-- `PcSaftFunctional::with_options`, /repo/src/dft/mod.rs:45-104. -/
def Functional.withOptions (p : PcSaftParameters n F) (v : FMTVersion) (o : PcSaftOptions F) :
    Functional n F :=
  { parameters := p
    fmt_version := v
    options := o
    contributions := buildFunctionalContributions p v o
    joback := match p.joback_records with
      | some jr => .joback jr
      | none => .default n }

/-- `PcSaftFunctional::new`, /repo/src/dft/mod.rs:37-39. -/
def Functional.new (p : PcSaftParameters n F) : Functional n F :=
  Functional.withOptions p .WhiteBear PcSaftOptions.default

/-- `PcSaftFunctional::new_full`, /repo/src/dft/mod.rs:41-43. -/
def Functional.newFull (p : PcSaftParameters n F) (v : FMTVersion) : Functional n F :=
  Functional.withOptions p v PcSaftOptions.default

/-- `HelmholtzEnergyFunctional::subset`, /repo/src/dft/mod.rs:108-114. -/
def Functional.subset {k : Nat} (f : Functional n F) (sel : Fin k → Fin n) : Functional k F :=
  Functional.withOptions (f.parameters.subset sel) f.fmt_version f.options

/-- `compute_max_density`, /repo/src/dft/mod.rs:116-120. -/
def Functional.maxDensity (f : Functional n F) (moles : Fin n → F) : F :=
  computeMaxDensity f.options.max_eta f.parameters moles

/-- `PairPotential::pair_potential`, /repo/src/dft/mod.rs:165-173, for component `i` at distance `r`. -/
def pairPotential (p : PcSaftParameters n F) (i : Fin n) (r : F) : F :=
  4.0 * p.epsilon_k i * (F64.powi (p.sigma i / r) 12 - F64.powi (p.sigma i / r) 6)


/-- Energy density that `feos_dft` obtains from one contribution of the functional for pure components
in a homogeneous fluid: the contribution's `calculate_helmholtz_energy_density` applied to the weighted
densities of its own `weight_functions`, on a grid of one point.  `none` for the contributions of the
mixture functional. -/
def FunctionalContribution.pureBulk (p : PcSaftParameters 1 F) (dim : Nat) (temperature : D)
    (rho : Fin 1 → D) : FunctionalContribution F → Option (Except Panic (Except EosError (List D)))
  | .pureFmtAssoc v => some (pureFmtAssocFunctional p v temperature
      [(pureFmtWeightFunctions p temperature).bulkRows dim rho])
  | .pureChain => some (do
      let phi ← pureChainFunctional p ((pureChainWeightFunctions p temperature).bulkRows dim rho)
      .ok (.ok [phi]))
  | .pureAtt => some (do
      let phi ← pureAttFunctional p temperature
        ((pureAttWeightFunctions p PSI_DFT temperature).bulkRows dim rho)
      .ok (.ok [phi]))
  | _ => none

end PcSaft
