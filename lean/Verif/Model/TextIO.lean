import Verif.Model.Parameters
import Verif.Model.Polar

/-!
# Model of the textual interfaces

* JSON form of the records: the `serde` attributes of /repo/src/parameters.rs:10-46,222-225
* tables and text: `to_markdown` and the two `Display` implementations in /repo/src/parameters.rs
* parsing of the dipole-quadrupole option: /repo/src/python.rs:15-23

The code generated by `serde_derive` and the crate `serde_json` are external.  Modelled is the conversion
between records and JSON *values*; JSON numbers carry their number exactly (the conversion between numbers
and decimal digits is not modelled).  `fmt` stands for the standard library's formatting of an `f64`.
-/

namespace PcSaft
variable {F : Type}

/-- JSON values -/
inductive Json (F : Type) where
  | null
  | bool (b : Bool)
  | num (x : F)
  | str (s : String)
  | arr (l : List (Json F))
  | obj (kvs : List (String × Json F))

/-- errors of `serde_json` -/
inductive JsonError where
  | missingField (key : String)
  | duplicateField (key : String)
  | invalidType
  | invalidLength
  deriving DecidableEq, Repr

/-! ### Writing -/

/-- `serde_json` writes a number that is not finite as `null`. -/
def Json.ofF64 (finite : F → Bool) (x : F) : Json F := if finite x then .num x else .null

/-- `[f64; k]` -/
def Json.ofArray (finite : F → Bool) {k : Nat} (v : Fin k → F) : Json F :=
  .arr (List.ofFn fun i => Json.ofF64 finite (v i))

/-- `#[serde(skip_serializing_if = "Option::is_none")]` -/
def skipNone (key : String) : Option (Json F) → List (String × Json F)
  | none => []
  | some j => [(key, j)]

/-- the keys and values written by `#[derive(Serialize)]` for `PcSaftRecord`, /repo/src/parameters.rs:11-46. -/
def PcSaftRecord.entries (finite : F → Bool) (r : PcSaftRecord F) : List (String × Json F) :=
  [("m", Json.ofF64 finite r.m), ("sigma", Json.ofF64 finite r.sigma),
    ("epsilon_k", Json.ofF64 finite r.epsilon_k)]
  ++ skipNone "mu" (r.mu.map (Json.ofF64 finite))
  ++ skipNone "q" (r.q.map (Json.ofF64 finite))
  ++ skipNone "kappa_ab" (r.kappa_ab.map (Json.ofF64 finite))
  ++ skipNone "epsilon_k_ab" (r.epsilon_k_ab.map (Json.ofF64 finite))
  ++ skipNone "na" (r.na.map (Json.ofF64 finite))
  ++ skipNone "nb" (r.nb.map (Json.ofF64 finite))
  ++ skipNone "viscosity" (r.viscosity.map (Json.ofArray finite))
  ++ skipNone "diffusion" (r.diffusion.map (Json.ofArray finite))
  ++ skipNone "thermal_conductivity" (r.thermal_conductivity.map (Json.ofArray finite))

/-- `serde_json::to_value(record)` -/
def PcSaftRecord.serialize (finite : F → Bool) (r : PcSaftRecord F) : Json F := .obj (r.entries finite)

/-! ### Reading -/

/-- The value for a key; the generated visitor rejects a key that occurs twice and skips unknown keys. -/
def Json.field (kvs : List (String × Json F)) (key : String) : Except JsonError (Option (Json F)) :=
  match kvs.filter (fun kv => kv.1 == key) with
  | [] => .ok none
  | [kv] => .ok (some kv.2)
  | _ => .error (.duplicateField key)

/-- `f64` -/
def Json.readF64 : Json F → Except JsonError F
  | .num x => .ok x
  | _ => .error .invalidType

/-- the elements of a JSON array as numbers -/
def Json.readNumbers : List (Json F) → Except JsonError (List F)
  | [] => .ok []
  | j :: l => do
    let x ← j.readF64
    let xs ← Json.readNumbers l
    .ok (x :: xs)

/-- `[f64; k]`: an array with exactly `k` numbers -/
def Json.readArray (k : Nat) : Json F → Except JsonError (Fin k → F)
  | .arr l => do
    let xs ← Json.readNumbers l
    if h : xs.length = k then .ok (fun i => xs.get (i.cast h.symm)) else .error .invalidLength
  | _ => .error .invalidType

/-- `Option<T>`: `null` is `None` -/
def Json.readOption {A : Type} (read : Json F → Except JsonError A) : Json F → Except JsonError (Option A)
  | .null => .ok none
  | j => do
    let a ← read j
    .ok (some a)

/-- a field without default -/
def Json.required {A : Type} (read : Json F → Except JsonError A) (kvs : List (String × Json F)) (key : String) :
    Except JsonError A := do
  match ← Json.field kvs key with
  | none => .error (.missingField key)
  | some j => read j

/-- a field of type `Option<T>` (a missing key is `None`) -/
def Json.optional {A : Type} (read : Json F → Except JsonError A) (kvs : List (String × Json F)) (key : String) :
    Except JsonError (Option A) := do
  match ← Json.field kvs key with
  | none => .ok none
  | some j => Json.readOption read j

/-- `#[derive(Deserialize)]` for `PcSaftRecord` from a map, /repo/src/parameters.rs:11-46. -/
def PcSaftRecord.ofEntries (kvs : List (String × Json F)) : Except JsonError (PcSaftRecord F) := do
  let m ← Json.required Json.readF64 kvs "m"
  let sigma ← Json.required Json.readF64 kvs "sigma"
  let epsilon_k ← Json.required Json.readF64 kvs "epsilon_k"
  let mu ← Json.optional Json.readF64 kvs "mu"
  let q ← Json.optional Json.readF64 kvs "q"
  let kappa_ab ← Json.optional Json.readF64 kvs "kappa_ab"
  let epsilon_k_ab ← Json.optional Json.readF64 kvs "epsilon_k_ab"
  let na ← Json.optional Json.readF64 kvs "na"
  let nb ← Json.optional Json.readF64 kvs "nb"
  let viscosity ← Json.optional (Json.readArray 4) kvs "viscosity"
  let diffusion ← Json.optional (Json.readArray 5) kvs "diffusion"
  let thermal_conductivity ← Json.optional (Json.readArray 4) kvs "thermal_conductivity"
  .ok { m, sigma, epsilon_k, mu, q, kappa_ab, epsilon_k_ab, na, nb, viscosity, diffusion,
        thermal_conductivity }

/-- `serde_json::from_value`: a map, or an array with one element per field (in the order of the fields). -/
def PcSaftRecord.deserialize : Json F → Except JsonError (PcSaftRecord F)
  | .obj kvs => PcSaftRecord.ofEntries kvs
  | .arr [jm, jsigma, jeps, jmu, jq, jkappa, jepsab, jna, jnb, jvisc, jdiff, jtherm] => do
    let m ← jm.readF64
    let sigma ← jsigma.readF64
    let epsilon_k ← jeps.readF64
    let mu ← jmu.readOption Json.readF64
    let q ← jq.readOption Json.readF64
    let kappa_ab ← jkappa.readOption Json.readF64
    let epsilon_k_ab ← jepsab.readOption Json.readF64
    let na ← jna.readOption Json.readF64
    let nb ← jnb.readOption Json.readF64
    let viscosity ← jvisc.readOption (Json.readArray 4)
    let diffusion ← jdiff.readOption (Json.readArray 5)
    let thermal_conductivity ← jtherm.readOption (Json.readArray 4)
    .ok { m, sigma, epsilon_k, mu, q, kappa_ab, epsilon_k_ab, na, nb, viscosity, diffusion,
          thermal_conductivity }
  | .arr _ => .error .invalidLength
  | _ => .error .invalidType

/-- `PcSaftBinaryRecord`, /repo/src/parameters.rs:222-225, written -/
def binarySerialize (finite : F → Bool) (k_ij : F) : Json F := .obj [("k_ij", Json.ofF64 finite k_ij)]

/-- `PcSaftBinaryRecord`, /repo/src/parameters.rs:222-225, read -/
def binaryDeserialize : Json F → Except JsonError F
  | .obj kvs => Json.required Json.readF64 kvs "k_ij"
  | .arr [j] => j.readF64
  | .arr _ => .error .invalidLength
  | _ => .error .invalidType

/-! ### Tables and text -/

/-- one row, /repo/src/parameters.rs:460-476 -/
def markdownRow (fmt : F → String) {n : Nat} (p : PcSaftParameters n F) (i : Fin n) : String :=
  let component := ((p.pure_records i).identifier.name).getD ("Component " ++ Nat.repr (i.val + 1))
  "\n|" ++ component ++ "|" ++ fmt (p.molarweight i) ++ "|" ++ fmt (p.m i) ++ "|" ++ fmt (p.sigma i)
    ++ "|" ++ fmt (p.epsilon_k i) ++ "|" ++ fmt (p.mu i) ++ "|" ++ fmt (p.q i) ++ "|" ++ fmt (p.kappa_ab i)
    ++ "|" ++ fmt (p.epsilon_k_ab i) ++ "|" ++ fmt (p.na i) ++ "|" ++ fmt (p.nb i) ++ "|"

/-- `to_markdown`, /repo/src/parameters.rs:451-481. -/
def toMarkdown (fmt : F → String) {n : Nat} (p : PcSaftParameters n F) : String :=
  (List.finRange n).foldl (fun o i => o ++ markdownRow fmt p i)
    "|component|molarweight|$m$|$\\sigma$|$\\varepsilon$|$\\mu$|$Q$|$\\kappa_{AB}$|$\\varepsilon_{AB}$|$N_A$|$N_B$|\n|-|-|-|-|-|-|-|-|-|-|-|"

/-- `if let Some(n) = &self.field { write!(f, ", field={}", n)?; }` -/
def writeSome {A : Type} (key : String) (fmt : A → String) : Option A → String
  | none => ""
  | some a => ", " ++ key ++ "=" ++ fmt a

/-- `Display for PcSaftRecord`, /repo/src/parameters.rs:156-190; `fmtArray` stands for `{:?}` of an array. -/
def PcSaftRecord.display (fmt : F → String) (fmtArray : List F → String) (r : PcSaftRecord F) : String :=
  "PcSaftRecord(m=" ++ fmt r.m ++ ", sigma=" ++ fmt r.sigma ++ ", epsilon_k=" ++ fmt r.epsilon_k
    ++ writeSome "mu" fmt r.mu ++ writeSome "q" fmt r.q ++ writeSome "kappa_ab" fmt r.kappa_ab
    ++ writeSome "epsilon_k_ab" fmt r.epsilon_k_ab ++ writeSome "na" fmt r.na ++ writeSome "nb" fmt r.nb
    ++ writeSome "viscosity" (fun v => fmtArray (List.ofFn v)) r.viscosity
    ++ writeSome "diffusion" (fun v => fmtArray (List.ofFn v)) r.diffusion
    ++ writeSome "thermal_conductivity" (fun v => fmtArray (List.ofFn v)) r.thermal_conductivity
    ++ ")"

/-- `Display for PcSaftParameters`, /repo/src/parameters.rs:484-509; `fmt1` and `fmt2` stand for the
formatting of one- and two-dimensional arrays. -/
def PcSaftParameters.display [F64 F] {n : Nat} (fmt1 : (Fin n → F) → String)
    (fmt2 : (Fin n → Fin n → F) → String) (p : PcSaftParameters n F) : String :=
  "PcSaftParameters(" ++ "\n\tmolarweight=" ++ fmt1 p.molarweight ++ "\n\tm=" ++ fmt1 p.m
    ++ "\n\tsigma=" ++ fmt1 p.sigma ++ "\n\tepsilon_k=" ++ fmt1 p.epsilon_k
    ++ (if !p.dipole_comp.isEmpty then "\n\tmu=" ++ fmt1 p.mu else "")
    ++ (if !p.quadpole_comp.isEmpty then "\n\tq=" ++ fmt1 p.q else "")
    ++ (if !p.assoc_comp.isEmpty then
          "\n\tkappa_ab=" ++ fmt1 p.kappa_ab ++ "\n\tepsilon_k_ab=" ++ fmt1 p.epsilon_k_ab
            ++ "\n\tna=" ++ fmt1 p.na ++ "\n\tnb=" ++ fmt1 p.nb
        else "")
    ++ (if !(List.finRange n).all (fun i => (List.finRange n).all (fun j => F64.eq (p.k_ij i j) 0.0)) then
          "\n\tk_ij=\n" ++ fmt2 p.k_ij
        else "")
    ++ "\n)"

/-- `impl From<&str> for DQVariants`, /repo/src/python.rs:15-23. -/
def DQVariants.ofStr (s : String) : Except Panic DQVariants :=
  match s with
  | "dq35" => .ok .DQ35
  | "dq44" => .ok .DQ44
  | _ => .error (.explicit "dq_variant must be either \"dq35\" or \"dq44\"")

end PcSaft
