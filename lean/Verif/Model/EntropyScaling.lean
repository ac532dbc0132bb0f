import Verif.Model.Eos

/-!
# Model of the entropy-scaling part of /repo/src/eos/mod.rs:148-344

`quantity::si::SINumber` (external crate) is a number together with seven integer exponents of the SI
base units.  Adding numbers with different units panics, `into_value` and `to_reduced` fail unless the
units agree, and `sqrt` fails unless all exponents are even.
-/

namespace PcSaft
variable {F : Type} [F64 F] {n : Nat}

/-- exponents of metre, kilogram, second, ampere, mole, kelvin, candela -/
structure Dim where
  m : Int := 0
  kg : Int := 0
  s : Int := 0
  a : Int := 0
  mol : Int := 0
  k : Int := 0
  cd : Int := 0
  deriving DecidableEq, Repr

/-- product of units -/
def Dim.mul (x y : Dim) : Dim :=
  ⟨x.m + y.m, x.kg + y.kg, x.s + y.s, x.a + y.a, x.mol + y.mol, x.k + y.k, x.cd + y.cd⟩
/-- quotient of units -/
def Dim.div (x y : Dim) : Dim :=
  ⟨x.m - y.m, x.kg - y.kg, x.s - y.s, x.a - y.a, x.mol - y.mol, x.k - y.k, x.cd - y.cd⟩
/-- integer power of a unit -/
def Dim.pow (x : Dim) (e : Int) : Dim :=
  ⟨x.m * e, x.kg * e, x.s * e, x.a * e, x.mol * e, x.k * e, x.cd * e⟩
/-- all exponents even -/
def Dim.even (x : Dim) : Bool :=
  x.m % 2 == 0 && x.kg % 2 == 0 && x.s % 2 == 0 && x.a % 2 == 0 && x.mol % 2 == 0 && x.k % 2 == 0
    && x.cd % 2 == 0
/-- square root of a unit (meaningful if `even`) -/
def Dim.half (x : Dim) : Dim :=
  ⟨x.m / 2, x.kg / 2, x.s / 2, x.a / 2, x.mol / 2, x.k / 2, x.cd / 2⟩

/-- `quantity::si::SINumber` (external crate) -/
structure SINumber (F : Type) where
  value : F
  unit : Dim

namespace SINumber
/-- `*` -/
def mul (x y : SINumber F) : SINumber F := ⟨x.value * y.value, x.unit.mul y.unit⟩
/-- `/` -/
def div (x y : SINumber F) : SINumber F := ⟨x.value / y.value, x.unit.div y.unit⟩
/-- `+`; panics for different units -/
def add (x y : SINumber F) : Except Panic (SINumber F) :=
  if x.unit = y.unit then .ok ⟨x.value + y.value, x.unit⟩
  else .error (.explicit "Inconsistent units")
/-- `f64 * SINumber` -/
def smul (a : F) (y : SINumber F) : SINumber F := ⟨a * y.value, y.unit⟩
/-- `f64 / SINumber` -/
def rdiv (a : F) (y : SINumber F) : SINumber F := ⟨a / y.value, (Dim.mk 0 0 0 0 0 0 0).div y.unit⟩
/-- `SINumber / f64` -/
def divs (x : SINumber F) (a : F) : SINumber F := ⟨x.value / a, x.unit⟩
/-- `powi` -/
def powi (x : SINumber F) (e : Nat) : SINumber F := ⟨F64.powi x.value e, x.unit.pow e⟩
/-- `.sqrt().unwrap()` -/
def sqrtUnwrap (x : SINumber F) : Except Panic (SINumber F) :=
  if x.unit.even then .ok ⟨F64.sqrt x.value, x.unit.half⟩ else .error .unwrapErr
/-- `.into_value().unwrap()` -/
def intoValueUnwrap (x : SINumber F) : Except Panic F :=
  if x.unit = {} then .ok x.value else .error .unwrapErr
/-- `.to_reduced(reference).unwrap()` -/
def toReducedUnwrap (x ref : SINumber F) : Except Panic F :=
  if x.unit = ref.unit then .ok (x.value / ref.value) else .error .unwrapErr
end SINumber

open SINumber

/-- base and derived units of the `quantity` crate (values in SI base units) -/
def KELVIN : SINumber F := ⟨1.0, { k := 1 }⟩
/-- gram -/
def GRAM : SINumber F := ⟨1e-3, { kg := 1 }⟩
/-- mole -/
def MOL : SINumber F := ⟨1.0, { mol := 1 }⟩
/-- metre -/
def METER : SINumber F := ⟨1.0, { m := 1 }⟩
/-- Ångström -/
def ANGSTROM : SINumber F := ⟨1e-10, { m := 1 }⟩
/-- watt -/
def WATT : SINumber F := ⟨1.0, { kg := 1, m := 2, s := -3 }⟩
/-- Pascal second -/
def PASCAL_SECOND : SINumber F := ⟨1.0, { kg := 1, m := -1, s := -1 }⟩
/-- Boltzmann constant -/
def KB : SINumber F := ⟨1.380649e-23, { kg := 1, m := 2, s := -2, k := -1 }⟩
/-- Avogadro constant -/
def NAV : SINumber F := ⟨6.02214076e23, { mol := -1 }⟩
/-- gas constant (`KB * NAV`) -/
def RGAS : SINumber F := SINumber.mul KB NAV

/-- `omega11`, /repo/src/eos/mod.rs:154-159. -/
def omega11 (t : F) : F :=
  1.06036 * F64.powf t (-0.15610) + 0.19300 * F64.exp (-0.47635 * t)
    + 1.03587 * F64.exp (-1.52996 * t) + 1.76474 * F64.exp (-3.89411 * t)

/-- `omega22`, /repo/src/eos/mod.rs:161-164. -/
def omega22 (t : F) : F :=
  1.16145 * F64.powf t (-0.14874) + 0.52487 * F64.exp (-0.77320 * t)
    + 2.16178 * F64.exp (-2.43787 * t)
    - 6.435e-4 * F64.powf t 0.14874 * F64.sin (18.0323 * F64.powf t (-0.76830) - 7.27371)

/-- `MolarWeight::molar_weight`, /repo/src/eos/mod.rs:148-152. -/
def molarWeight (p : PcSaftParameters n F) (i : Fin n) : SINumber F :=
  (SINumber.smul (p.molarweight i) GRAM).div MOL

/-- `chapman_enskog_thermal_conductivity`, /repo/src/eos/mod.rs:167-181. -/
def chapmanEnskogThermalConductivity (temperature molarweight : SINumber F) (m sigma epsilon_k : F) :
    Except Panic (SINumber F) := do
  let t ← temperature.toReducedUnwrap KELVIN
  let mw ← molarweight.toReducedUnwrap (GRAM.div MOL)
  .ok (((SINumber.smul (0.083235 * F64.sqrt (t * m / mw) / F64.powi sigma 2 / omega22 (t / epsilon_k))
    WATT).div METER).div KELVIN)

/-- The Chapman–Enskog reference `ce[i]` of /repo/src/eos/mod.rs:193-205. -/
def viscosityCE (p : PcSaftParameters n F) (temperature : SINumber F) (i : Fin n) :
    Except Panic (SINumber F) := do
  let tr ← ((temperature.divs (p.epsilon_k i)).div KELVIN).intoValueUnwrap
  let root ← (((((SINumber.smul (p.molarweight i) GRAM).div MOL).mul KB).div NAV).mul temperature
    |>.divs F64.pi).sqrtUnwrap
  .ok (((SINumber.smul (5.0 / 16.0) root).divs (omega22 tr)).div
    ((SINumber.smul (p.sigma i) ANGSTROM).powi 2))

/-- `viscosity_reference`, /repo/src/eos/mod.rs:184-220.  `moles` is an `SIArray1`: values with one
common unit, so `moles.to_reduced(moles.sum())` always has matching units.  The quotient
`(ce[i] / ce[j]).into_value().unwrap()` is checked through the units of `ce`. -/
def viscosityReference (p : PcSaftParameters n F) (temperature : SINumber F) (moles : Fin n → F) :
    Except Panic (SINumber F) := do
  let x := fun i => moles i / sumFin moles
  let ce ← collectPanic (viscosityCE p temperature)
  (List.finRange n).foldlM (fun acc i => do
    let ratios ← collectPanic (fun j => ((ce i).div (ce j)).intoValueUnwrap)
    let denom := sumFin (fun j => x j * F64.powi (1.0 + F64.sqrt (ratios j)
        * F64.powf (p.molarweight j / p.molarweight i) (1.0 / 4.0)) 2
      / F64.sqrt (8.0 * (1.0 + p.molarweight i / p.molarweight j)))
    acc.add ((SINumber.mul (ce i) ⟨x i, {}⟩).divs denom))
    (SINumber.smul (0.0 * 1e-3) PASCAL_SECOND)

/-- `viscosity_correlation`, /repo/src/eos/mod.rs:222-236. -/
def viscosityCorrelation (p : PcSaftParameters n F) (s_res : F) (x : Fin n → F) : Except Panic F :=
  match p.viscosity with
  | none => .error (.expect "Missing viscosity coefficients.")
  | some coefficients =>
    let m := sumFin (fun i => x i * p.m i)
    let s := s_res / m
    let pref := fun i => x i * p.m i / m
    let a := sumFin (fun i => coefficients 0 i * x i)
    let b := sumFin (fun i => coefficients 1 i * pref i)
    let cc := sumFin (fun i => coefficients 2 i * pref i)
    let d := sumFin (fun i => coefficients 3 i * pref i)
    .ok (a + b * s + cc * F64.powi s 2 + d * F64.powi s 3)

/-- Result of a fallible function that may also panic. -/
abbrev Outcome (A : Type) := Except Panic (Except EosError A)

/-- One component of `diffusion_reference`, /repo/src/eos/mod.rs:249-258. -/
def diffusionReferenceComponent (p : PcSaftParameters n F) (temperature density : SINumber F)
    (i : Fin n) : Except Panic (SINumber F) := do
  let tr ← ((temperature.divs (p.epsilon_k i)).div KELVIN).intoValueUnwrap
  let root ← (((temperature.mul RGAS).divs F64.pi).div
    ((SINumber.smul (p.molarweight i) GRAM).div MOL)).sqrtUnwrap
  .ok ((((SINumber.rdiv (3.0 / 8.0) ((SINumber.smul (p.sigma i) ANGSTROM).powi 2)).divs
    (omega11 tr)).div (density.mul NAV)).mul root)

/-- `diffusion_reference`, /repo/src/eos/mod.rs:238-261. -/
def diffusionReference (p : PcSaftParameters n F) (temperature volume : SINumber F)
    (moles : Fin n → F) : Outcome (SINumber F) :=
  if h : n = 1 then
    let density := SINumber.div ⟨sumFin moles, { mol := 1 }⟩ volume
    match diffusionReferenceComponent p temperature density ⟨0, by omega⟩ with
    | .error e => .error e
    | .ok v => .ok (.ok v)
  else .ok (.error (.incompatibleComponents n 1))

/-- `diffusion_correlation`, /repo/src/eos/mod.rs:263-281. -/
def diffusionCorrelation (p : PcSaftParameters n F) (s_res : F) (x : Fin n → F) : Outcome F :=
  if n ≠ 1 then .ok (.error (.incompatibleComponents n 1))
  else match p.diffusion with
  | none => .error (.expect "Missing diffusion coefficients.")
  | some coefficients =>
    let m := sumFin (fun i => x i * p.m i)
    let s := s_res / m
    let pref := fun i => x i * p.m i / m
    let a := sumFin (fun i => coefficients 0 i * x i)
    let b := sumFin (fun i => coefficients 1 i * pref i)
    let cc := sumFin (fun i => coefficients 2 i * pref i)
    let d := sumFin (fun i => coefficients 3 i * pref i)
    let e := sumFin (fun i => coefficients 4 i * pref i)
    .ok (.ok (a + b * s - cc * (1.0 - F64.exp s) * F64.powi s 2 - d * F64.powi s 4
      - e * F64.powi s 8))

/-- One component of `thermal_conductivity_reference`, /repo/src/eos/mod.rs:297-321, from the molar
residual entropy in units of the gas constant. -/
def thermalConductivityReferenceComponent (p : PcSaftParameters n F) (temperature : SINumber F)
    (s_res : F) (i : Fin n) : Except Panic (SINumber F) := do
  let tr ← ((temperature.divs (p.epsilon_k i)).div KELVIN).intoValueUnwrap
  let s_res_reduced := s_res / p.m i
  let ref_ce ← chapmanEnskogThermalConductivity temperature (molarWeight p i) (p.m i) (p.sigma i)
    (p.epsilon_k i)
  let alpha_visc := F64.exp (-s_res_reduced / (-0.5))
  let ref_ts : SINumber F := ((SINumber.smul
    ((-0.0167141 * tr / p.m i + 0.0470581 * F64.powi (tr / p.m i) 2)
      * (p.m i * p.m i * F64.powi (p.sigma i) 3 * p.epsilon_k i) * 1e-5) WATT).div METER).div KELVIN
  ref_ce.add ⟨ref_ts.value * alpha_visc, ref_ts.unit⟩

/-- `thermal_conductivity_reference`, /repo/src/eos/mod.rs:284-324.  `molarEntropy` stands for
`State::new_nvt(eos, temperature, volume, moles)?.molar_entropy(ResidualNvt) / RGAS` of `feos_core`
for the equation of state it is given (`none`: `new_nvt` returned an error).  The code builds a *new*
equation of state with default options (line 295). -/
def thermalConductivityReference
    (molarEntropy : Eos n F → Except EosError F)
    (e : Eos n F) (temperature : SINumber F) : Outcome (SINumber F) :=
  if h : n = 1 then
    match molarEntropy (Eos.new e.parameters) with
    | .error err => .ok (.error err)
    | .ok s_res =>
      match thermalConductivityReferenceComponent e.parameters temperature s_res ⟨0, by omega⟩ with
      | .error err => .error err
      | .ok v => .ok (.ok v)
  else .ok (.error (.incompatibleComponents n 1))

/-- `thermal_conductivity_correlation`, /repo/src/eos/mod.rs:326-343. -/
def thermalConductivityCorrelation (p : PcSaftParameters n F) (s_res : F) (x : Fin n → F) :
    Outcome F :=
  if n ≠ 1 then .ok (.error (.incompatibleComponents n 1))
  else match p.thermal_conductivity with
  | none => .error (.expect "Missing thermal conductivity coefficients")
  | some coefficients =>
    let m := sumFin (fun i => x i * p.m i)
    let s := s_res / m
    let pref := fun i => x i * p.m i / m
    let a := sumFin (fun i => coefficients 0 i * x i)
    let b := sumFin (fun i => coefficients 1 i * pref i)
    let cc := sumFin (fun i => coefficients 2 i * pref i)
    let d := sumFin (fun i => coefficients 3 i * pref i)
    .ok (.ok (a + b * s + cc * (1.0 - F64.exp s) + d * F64.powi s 2))

end PcSaft
