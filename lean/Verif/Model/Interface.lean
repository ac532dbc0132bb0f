import Verif.Model.DftPure
import Verif.Model.EntropyScaling
import Verif.Model.TextIO

/-!
# Model of the outer layers

* Python classes: /repo/src/python.rs:25-187, /repo/build_wheel/src/eos.rs:33-61,
  /repo/build_wheel/src/dft.rs:37-77
* properties of the functional used by `feos_dft`: /repo/src/dft/mod.rs:127-163
* contributions of the mixture functional in a homogeneous fluid

The conversion of Python objects to Rust values by `pyo3` is not modelled: arguments arrive as the Rust values.
-/

namespace PcSaft
variable {F D : Type} [F64 F] [DualNum F D] {n : Nat}

/-- `PcSaftRecord::new`, /repo/src/parameters.rs:191-220. -/
def PcSaftRecord.new (m sigma epsilon_k : F) (mu q kappa_ab epsilon_k_ab na nb : Option F)
    (viscosity : Option (Fin 4 → F)) (diffusion : Option (Fin 5 → F)) (thermal_conductivity : Option (Fin 4 → F)) :
    PcSaftRecord F :=
  { m := m, sigma := sigma, epsilon_k := epsilon_k, mu := mu, q := q, kappa_ab := kappa_ab,
    epsilon_k_ab := epsilon_k_ab, na := na, nb := nb, viscosity := viscosity, diffusion := diffusion,
    thermal_conductivity := thermal_conductivity }

/-- `PyPcSaftRecord`, /repo/src/python.rs:25-31. -/
structure PyPcSaftRecord (F : Type) where
  record : PcSaftRecord F

namespace PyPcSaftRecord

/-- `PyPcSaftRecord::new`, /repo/src/python.rs:35-64. -/
def new (m sigma epsilon_k : F) (mu q kappa_ab epsilon_k_ab na nb : Option F)
    (viscosity : Option (Fin 4 → F)) (diffusion : Option (Fin 5 → F)) (thermal_conductivity : Option (Fin 4 → F)) :
    PyPcSaftRecord F :=
  ⟨PcSaftRecord.new m sigma epsilon_k mu q kappa_ab epsilon_k_ab na nb viscosity diffusion thermal_conductivity⟩

/-- /repo/src/python.rs:66-69 -/
def get_m (r : PyPcSaftRecord F) : F := r.record.m
/-- /repo/src/python.rs:71-74 -/
def get_sigma (r : PyPcSaftRecord F) : F := r.record.sigma
/-- /repo/src/python.rs:76-79 -/
def get_epsilon_k (r : PyPcSaftRecord F) : F := r.record.epsilon_k
/-- /repo/src/python.rs:81-84 -/
def get_mu (r : PyPcSaftRecord F) : Option F := r.record.mu
/-- /repo/src/python.rs:86-89 -/
def get_q (r : PyPcSaftRecord F) : Option F := r.record.q
/-- /repo/src/python.rs:91-94 -/
def get_kappa_ab (r : PyPcSaftRecord F) : Option F := r.record.kappa_ab
/-- /repo/src/python.rs:96-99 -/
def get_epsilon_k_ab (r : PyPcSaftRecord F) : Option F := r.record.epsilon_k_ab
/-- /repo/src/python.rs:101-104 -/
def get_na (r : PyPcSaftRecord F) : Option F := r.record.na
/-- /repo/src/python.rs:106-109 -/
def get_nb (r : PyPcSaftRecord F) : Option F := r.record.nb
/-- /repo/src/python.rs:111-114 -/
def get_viscosity (r : PyPcSaftRecord F) : Option (Fin 4 → F) := r.record.viscosity
/-- /repo/src/python.rs:116-119 -/
def get_diffusion (r : PyPcSaftRecord F) : Option (Fin 5 → F) := r.record.diffusion
/-- /repo/src/python.rs:121-124 -/
def get_thermal_conductivity (r : PyPcSaftRecord F) : Option (Fin 4 → F) := r.record.thermal_conductivity

end PyPcSaftRecord

/-- `get_pure_records`, /repo/src/python.rs:164-171. -/
def PcSaftParameters.getPureRecords (p : PcSaftParameters n F) : Fin n → PureRecord F := p.pure_records

/-- `get_k_ij`, /repo/src/python.rs:173-176. -/
def PcSaftParameters.getKij (p : PcSaftParameters n F) : Fin n → Fin n → F := p.k_ij

/-- `PyPcSaft::new`, /repo/build_wheel/src/eos.rs:40-60.  A missing argument has the value in the `args`
attribute. -/
def pyEosNew (p : PcSaftParameters n F) (max_eta : Option F) (max_iter_cross_assoc : Option Nat)
    (tol_cross_assoc : Option F) (dq_variant : Option String) : Except Panic (Eos n F) :=
  match DQVariants.ofStr (dq_variant.getD "dq35") with
  | .error e => .error e
  | .ok v => .ok (Eos.withOptions p
    { max_eta := max_eta.getD 0.5
      max_iter_cross_assoc := max_iter_cross_assoc.getD 50
      tol_cross_assoc := tol_cross_assoc.getD 1e-10
      dq_variant := v })

/-- `PyPcSaftFunctional::new`, /repo/build_wheel/src/dft.rs:47-76. -/
def pyFunctionalNew (p : PcSaftParameters n F) (fmt_version : Option FMTVersion) (max_eta : Option F)
    (max_iter_cross_assoc : Option Nat) (tol_cross_assoc : Option F) (dq_variant : Option String) :
    Except Panic (Functional n F) :=
  match DQVariants.ofStr (dq_variant.getD "dq35") with
  | .error e => .error e
  | .ok v => .ok (Functional.withOptions p (fmt_version.getD .WhiteBear)
    { max_eta := max_eta.getD 0.5
      max_iter_cross_assoc := max_iter_cross_assoc.getD 50
      tol_cross_assoc := tol_cross_assoc.getD 1e-10
      dq_variant := v })

/-- `MolarWeight::molar_weight` of the functional, /repo/src/dft/mod.rs:135-139. -/
def Functional.molarWeight (f : Functional n F) (i : Fin n) : SINumber F :=
  (SINumber.smul (f.parameters.molarweight i) GRAM).div MOL

/-- `FMTProperties::component_index`, /repo/src/dft/mod.rs:142-144. -/
def PcSaftParameters.componentIndex (_ : PcSaftParameters n F) : Fin n → Nat := fun i => i

/-- `FMTProperties::chain_length`, /repo/src/dft/mod.rs:146-148. -/
def PcSaftParameters.chainLength (p : PcSaftParameters n F) : Fin n → F := p.m

/-- `FMTProperties::hs_diameter`, /repo/src/dft/mod.rs:150-152: the inherent method of the same name. -/
def PcSaftParameters.fmtDiameter (p : PcSaftParameters n F) (temperature : D) : Fin n → D :=
  hsDiameter p temperature

/-- `HelmholtzEnergyFunctional::molecule_shape`, /repo/src/dft/mod.rs:130-132: the segment numbers carried by
`MoleculeShape::NonSpherical`. -/
def Functional.moleculeShape (f : Functional n F) : Fin n → F := f.parameters.m

/-- `FluidParameters::epsilon_k_ff`, /repo/src/dft/mod.rs:156-158. -/
def Functional.epsilonKFf (f : Functional n F) : Fin n → F := f.parameters.epsilon_k

/-- `FluidParameters::sigma_ff`, /repo/src/dft/mod.rs:160-162. -/
def Functional.sigmaFf (f : Functional n F) : Fin n → F := f.parameters.sigma

/-- Energy density of `feos_dft::FMTContribution` (external crate) in a homogeneous fluid, as a function of what
it asks from `FMTProperties`: the scalar weighted densities for the given chain lengths and diameters, and the
expression of the White Bear functional.  The vector densities vanish.  All supported versions have this bulk
value. -/
def fmtBulk (chain_length : Fin n → F) (diameter rho : Fin n → D) : D :=
  let r := fun i => diameter i * c (0.5 : F)
  let n0 := sumFin (fun i => rho i * c (chain_length i))
  let n1 := sumFin (fun i => rho i * r i * c (chain_length i))
  let n2 := sumFin (fun i => rho i * DualNum.powi (r i) 2 * c (4.0 * F64.pi * chain_length i))
  let n3 := sumFin (fun i => rho i * DualNum.powi (r i) 3 * c (4.0 / 3.0 * F64.pi * chain_length i))
  let n3m1 := -n3 + c (1.0 : F)
  let ln31 := DualNum.ln1p (-n3)
  n1 * n2 / n3m1 - n0 * ln31
    + DualNum.powi n2 3 * (n3 + DualNum.powi n3m1 2 * ln31)
      / (DualNum.powi n3 2 * DualNum.powi n3m1 2 * c (36.0 * F64.pi : F))

/-- Energy density that `feos_dft` obtains from one contribution of the mixture functional in a homogeneous
fluid, on a grid of one point. `none` for the contributions of the functional for pure components. -/
def FunctionalContribution.mixtureBulk (la : LinAlg F D) (p : PcSaftParameters n F) (dim : Nat) (temperature : D)
    (rho : Fin n → D) : FunctionalContribution F → Option (Except Panic (Except EosError (List D)))
  | .fmt _ => some (.ok (.ok [fmtBulk p.chainLength (p.fmtDiameter temperature) rho]))
  | .chain => some (do
      let phi ← chainFunctional p temperature ((hardChainWeightFunctions p temperature true).bulkRows dim rho)
      .ok (.ok [phi]))
  | .attractive => some (do
      let phi ← attractiveFunctional p temperature ((attWeightFunctions p PSI_DFT temperature).bulkRows dim rho)
      .ok (.ok [phi]))
  | .association max_iter tol => some (associationFunctional la p max_iter tol temperature
      [(associationWeightFunctions p temperature).bulkRows dim rho])
  | _ => none

end PcSaft
