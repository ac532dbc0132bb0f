import Verif.Num
import Mathlib.Data.Fin.VecNotation

/-!
# Model of /repo/src/parameters.rs
-/

namespace PcSaft

/-- A Rust panic (`unwrap` on `None`, index out of bounds, `expect`). -/
inductive Panic where
  | unwrapNone
  | indexOutOfBounds
  | expect (msg : String)
  | unwrapErr
  | explicit (msg : String)
  | unreachable
  deriving DecidableEq, Repr

/-- evaluation of an iterator of panicking closures, in order -/
def collectPanic {A : Type} : {n : Nat} → (Fin n → Except Panic A) → Except Panic (Fin n → A)
  | 0, _ => .ok Fin.elim0
  | _ + 1, f =>
    match f 0 with
    | .error e => .error e
    | .ok a =>
      match collectPanic (fun i => f i.succ) with
      | .error e => .error e
      | .ok g => .ok (Fin.cons a g)

/-- `PcSaftRecord`, /repo/src/parameters.rs:12-46. -/
structure PcSaftRecord (F : Type) where
  m : F
  sigma : F
  epsilon_k : F
  mu : Option F
  q : Option F
  kappa_ab : Option F
  epsilon_k_ab : Option F
  na : Option F
  nb : Option F
  viscosity : Option (Fin 4 → F)
  diffusion : Option (Fin 5 → F)
  thermal_conductivity : Option (Fin 4 → F)

/-- `feos_core::joback::JobackRecord` (external crate; used only as an opaque payload here). -/
structure JobackRecord (F : Type) where
  a : F
  b : F
  c : F
  d : F
  e : F

/-- `feos_core::parameter::Identifier` (external crate).  Only `name` is read by this crate
(/repo/src/parameters.rs:460); the other search keys are kept as one opaque string. -/
structure Identifier where
  name : Option String
  other : String
  deriving DecidableEq

/-- `feos_core::parameter::PureRecord` (external crate), the fields this crate reads. -/
structure PureRecord (F : Type) where
  identifier : Identifier
  molarweight : F
  model_record : PcSaftRecord F
  ideal_gas_record : Option (JobackRecord F)

section segments
variable {F : Type} [F64 F]

/-- `Iterator::reduce(|a, b| a + b)`, /repo/src/parameters.rs:60-83. -/
def reduceAdd : List F → Option F
  | [] => none
  | x :: xs => some (xs.foldl (· + ·) x)

/-- The accumulating loop of /repo/src/parameters.rs:50-58. -/
def segM (segments : List (PcSaftRecord F × F)) : F :=
  segments.foldl (fun acc s => acc + s.1.m * s.2) 0.0

/-- /repo/src/parameters.rs:51,56. -/
def segSigma3 (segments : List (PcSaftRecord F × F)) : F :=
  segments.foldl (fun acc s => acc + s.1.m * F64.powi s.1.sigma 3 * s.2) 0.0

/-- /repo/src/parameters.rs:52,57. -/
def segEpsilonK (segments : List (PcSaftRecord F × F)) : F :=
  segments.foldl (fun acc s => acc + s.1.m * s.1.epsilon_k * s.2) 0.0

/-- The `filter_map(..).reduce(..)` chains of /repo/src/parameters.rs:60-83. -/
def segOptSum (field : PcSaftRecord F → Option F) (segments : List (PcSaftRecord F × F)) :
    Option F :=
  reduceAdd (segments.filterMap (fun s => (field s.1).map (· * s.2)))

/-- `segments.iter().fold(0.0, |acc, (_, n)| acc + n)`, /repo/src/parameters.rs:111. -/
def segNt (segments : List (PcSaftRecord F × F)) : F :=
  segments.foldl (fun acc s => acc + s.2) 0.0

/-- Loop body of /repo/src/parameters.rs:113-120 for one segment.  `unwrap` on a missing coefficient
set is an explicit panic. -/
def segViscosityStep (sigma3 : F) (p : Fin 4 → F) (s : PcSaftRecord F × F) :
    Except Panic (Fin 4 → F) :=
  match s.1.viscosity with
  | none => Except.error Panic.unwrapNone
  | some v =>
    let s3 := s.1.m * F64.powi s.1.sigma 3 * s.2
    Except.ok ![p 0 + s3 * v 0,
                p 1 + s3 * v 1 / F64.powf sigma3 0.45,
                p 2 + s.2 * v 2,
                p 3 + s.2 * v 3]

/-- /repo/src/parameters.rs:86-93,112-120: the viscosity accumulator. -/
def segViscosity (segments : List (PcSaftRecord F × F)) : Except Panic (Option (Fin 4 → F)) :=
  if segments.all (fun s => s.1.viscosity.isSome) then
    (segments.foldlM (segViscosityStep (segSigma3 segments)) ![0.0, 0.0, 0.0, 0.0]).map some
  else Except.ok none

/-- Loop body of /repo/src/parameters.rs:121-127 for one segment. -/
def segThermalConductivityStep (n_t : F) (p : Fin 4 → F) (s : PcSaftRecord F × F) :
    Except Panic (Fin 4 → F) :=
  match s.1.thermal_conductivity with
  | none => Except.error Panic.unwrapNone
  | some v =>
    Except.ok ![p 0 + s.2 * v 0,
                p 1 + s.2 * v 1,
                p 2 + s.2 * v 2,
                p 3 + n_t * v 3]

/-- /repo/src/parameters.rs:94-101,121-127: the thermal conductivity accumulator. -/
def segThermalConductivity (segments : List (PcSaftRecord F × F)) :
    Except Panic (Option (Fin 4 → F)) :=
  if segments.all (fun s => s.1.thermal_conductivity.isSome) then
    (segments.foldlM (segThermalConductivityStep (segNt segments)) ![0.0, 0.0, 0.0, 0.0]).map some
  else Except.ok none

/-- /repo/src/parameters.rs:102-109,128-134: diffusion coefficients are initialised to zero and
never accumulated (the code that would do so is commented out). -/
def segDiffusion (segments : List (PcSaftRecord F × F)) : Option (Fin 5 → F) :=
  if segments.all (fun s => s.1.diffusion.isSome) then some ![0.0, 0.0, 0.0, 0.0, 0.0] else none

/-- `PcSaftRecord::from_segments`, /repo/src/parameters.rs:48-154. -/
def fromSegments (segments : List (PcSaftRecord F × F)) : Except Panic (PcSaftRecord F) :=
  let m := segM segments
  let sigma3 := segSigma3 segments
  let epsilon_k := segEpsilonK segments
  match segViscosity segments, segThermalConductivity segments with
  | Except.error e, _ => Except.error e
  | _, Except.error e => Except.error e
  | Except.ok viscosity, Except.ok thermal_conductivity =>
    Except.ok {
      m := m
      sigma := F64.cbrt (sigma3 / m)
      epsilon_k := epsilon_k / m
      mu := segOptSum PcSaftRecord.mu segments
      q := segOptSum PcSaftRecord.q segments
      kappa_ab := segOptSum PcSaftRecord.kappa_ab segments
      epsilon_k_ab := segOptSum PcSaftRecord.epsilon_k_ab segments
      na := segOptSum PcSaftRecord.na segments
      nb := segOptSum PcSaftRecord.nb segments
      viscosity := viscosity.map (fun v => ![v 0 - 0.5 * F64.ln m, v 1, v 2, v 3])
      diffusion := segDiffusion segments
      thermal_conductivity := thermal_conductivity }

/-- `PcSaftBinaryRecord::from_segments_binary`, /repo/src/parameters.rs:235-240.  A binary record
is its `k_ij`. -/
def fromSegmentsBinary (segments : List (F × F × F)) : F :=
  segments.foldl (fun acc s => acc + s.1 * s.2.1 * s.2.2) 0.0

end segments

/-- `PcSaftParameters`, /repo/src/parameters.rs:243-274, for a mixture of `n` components.
`ndipole`, `nquadpole`, `nassoc` are the lengths of the component lists (they are stored redundantly
in Rust, /repo/src/parameters.rs:332,338,344). -/
structure PcSaftParameters (n : Nat) (F : Type) where
  molarweight : Fin n → F
  m : Fin n → F
  sigma : Fin n → F
  epsilon_k : Fin n → F
  mu : Fin n → F
  q : Fin n → F
  mu2 : Fin n → F
  q2 : Fin n → F
  kappa_ab : Fin n → F
  epsilon_k_ab : Fin n → F
  na : Fin n → F
  nb : Fin n → F
  kappa_aibj : Fin n → Fin n → F
  epsilon_k_aibj : Fin n → Fin n → F
  k_ij : Fin n → Fin n → F
  sigma_ij : Fin n → Fin n → F
  epsilon_k_ij : Fin n → Fin n → F
  e_k_ij : Fin n → Fin n → F
  dipole_comp : List (Fin n)
  quadpole_comp : List (Fin n)
  assoc_comp : List (Fin n)
  viscosity : Option (Fin 4 → Fin n → F)
  diffusion : Option (Fin 5 → Fin n → F)
  thermal_conductivity : Option (Fin 4 → Fin n → F)
  pure_records : Fin n → PureRecord F
  binary_records : Fin n → Fin n → F
  joback_records : Option (Fin n → JobackRecord F)

namespace PcSaftParameters
variable {n : Nat} {F : Type}
/-- `parameters.ndipole` -/
abbrev ndipole (p : PcSaftParameters n F) : Nat := p.dipole_comp.length
/-- `parameters.nquadpole` -/
abbrev nquadpole (p : PcSaftParameters n F) : Nat := p.quadpole_comp.length
/-- `parameters.nassoc` -/
abbrev nassoc (p : PcSaftParameters n F) : Nat := p.assoc_comp.length
end PcSaftParameters

/-- `collect::<Option<Vec<_>>>()` / the `any(is_none)` tests of
/repo/src/parameters.rs:370-404: all entries present, or nothing. -/
def collectOption {n : Nat} {A : Type} (f : Fin n → Option A) : Option (Fin n → A) :=
  if h : ∀ i, (f i).isSome then some (fun i => (f i).get (h i)) else none

section records
variable {F : Type} [F64 F]

/-- `(JOULE / KELVIN / KB).into_value()` with the `quantity` crate's CODATA 2018 value. -/
def jouleKelvinKB : F := 1.0 / 1.380649e-23

/-- Indices with `|v i| > 0`, /repo/src/parameters.rs:327-344. -/
def nonzeroComp {n : Nat} (v : Fin n → F) : List (Fin n) :=
  (List.finRange n).filter (fun i => F64.lt 0.0 (F64.abs (v i)))

/-- `PcSaftParameters::from_records`, /repo/src/parameters.rs:281-438.  The two inputs are a vector
of `n` pure records and an `n × n` matrix of `k_ij` (Rust panics on a matrix
of the wrong shape; that case is excluded by the type).  Loops that fill an array element by element are written as the function giving
each element. -/
def fromRecords {n : Nat} (pure_records : Fin n → PureRecord F)
    (binary_records : Fin n → Fin n → F) : PcSaftParameters n F :=
  let r := fun i => (pure_records i).model_record
  let m := fun i => (r i).m
  let sigma := fun i => (r i).sigma
  let epsilon_k := fun i => (r i).epsilon_k
  let mu := fun i => ((r i).mu).getD 0.0
  let q := fun i => ((r i).q).getD 0.0
  let na := fun i => ((r i).na).getD 1.0
  let nb := fun i => ((r i).nb).getD 1.0
  let kappa_ab := fun i => ((r i).kappa_ab).getD 0.0
  let epsilon_k_ab := fun i => ((r i).epsilon_k_ab).getD 0.0
  let mu2 := fun i => mu i * mu i / (m i * sigma i * sigma i * sigma i * epsilon_k i) * 1e-19
    * jouleKelvinKB
  let q2 := fun i => q i * q i / (m i * F64.powi (sigma i) 5 * epsilon_k i) * 1e-19
    * jouleKelvinKB
  let dipole_comp := nonzeroComp mu2
  let quadpole_comp := nonzeroComp q2
  let assoc_comp := nonzeroComp kappa_ab
  let kappa_aibj := fun a b =>
    if a ∈ assoc_comp ∧ b ∈ assoc_comp then
      F64.sqrt (kappa_ab a * kappa_ab b)
        * F64.powf (2.0 * F64.sqrt (sigma a * sigma b) / (sigma a + sigma b)) 3.0
    else 0.0
  let epsilon_k_aibj := fun a b =>
    if a ∈ assoc_comp ∧ b ∈ assoc_comp then 0.5 * (epsilon_k_ab a + epsilon_k_ab b) else 0.0
  let k_ij := binary_records
  let e_k_ij := fun i j => F64.sqrt (epsilon_k i * epsilon_k j)
  { molarweight := fun i => (pure_records i).molarweight
    m := m
    sigma := sigma
    epsilon_k := epsilon_k
    mu := mu
    q := q
    mu2 := mu2
    q2 := q2
    kappa_ab := kappa_ab
    epsilon_k_ab := epsilon_k_ab
    na := na
    nb := nb
    kappa_aibj := kappa_aibj
    epsilon_k_aibj := epsilon_k_aibj
    k_ij := k_ij
    sigma_ij := fun i j => 0.5 * (sigma i + sigma j)
    epsilon_k_ij := fun i j => (1.0 - k_ij i j) * e_k_ij i j
    e_k_ij := e_k_ij
    dipole_comp := dipole_comp
    quadpole_comp := quadpole_comp
    assoc_comp := assoc_comp
    viscosity := (collectOption (fun i => (r i).viscosity)).map (fun v k i => v i k)
    diffusion := (collectOption (fun i => (r i).diffusion)).map (fun v k i => v i k)
    thermal_conductivity :=
      (collectOption (fun i => (r i).thermal_conductivity)).map (fun v k i => v i k)
    pure_records := pure_records
    binary_records := binary_records
    joback_records := collectOption (fun i => (pure_records i).ideal_gas_record) }

/-- `Parameter::subset` of the external crate `feos_core`, applied to this crate's `records()`
(/repo/src/parameters.rs:440-447): select the records and rebuild.  `sel` is `component_list`
(indices in range; out of range panics in Rust). -/
def PcSaftParameters.subset {n k : Nat} (p : PcSaftParameters n F) (sel : Fin k → Fin n) :
    PcSaftParameters k F :=
  fromRecords (fun i => p.pure_records (sel i)) (fun i j => p.binary_records (sel i) (sel j))

end records

/-- `feos_core::StateHD` (external crate): the thermodynamic state handed to the contributions. -/
structure StateHD (n : Nat) (D : Type) where
  temperature : D
  volume : D
  moles : Fin n → D
  molefracs : Fin n → D
  partial_density : Fin n → D

section state
variable {F D : Type} [F64 F] [DualNum F D]
/-- `feos_core::StateHD::new` (external crate). -/
def StateHD.new {n : Nat} (temperature volume : D) (moles : Fin n → D) : StateHD n D :=
  let total := sumFin moles
  { temperature := temperature
    volume := volume
    moles := moles
    molefracs := fun i => moles i / total
    partial_density := fun i => moles i / volume }

/-- `feos_core::StateHD::new_virial` (external crate): unit volume, prescribed density and
composition; used for virial coefficients with `density = 0 + ε`. -/
def StateHD.newVirial {n : Nat} (temperature density : D) (molefracs : Fin n → D) : StateHD n D :=
  { temperature := temperature
    volume := c (1.0 : F)
    moles := fun i => molefracs i * density
    molefracs := molefracs
    partial_density := fun i => molefracs i * density }
end state

end PcSaft
