import Verif.Model.Eos

/-!
# Weight functions of the external crate `feos_dft`, as far as this crate configures them

A `WeightFunctionInfo` fixes which weighted densities a functional receives and in which order (rows
of `weighted_densities`): local densities, then one row per component for every scalar weight function
added with `fmt = false`, then (dimension-major) the vector ones, then one row for every scalar weight
function added with `fmt = true` (summed over components), then the vector ones.  In the homogeneous
bulk, scalar weights act by their integral and vector weighted densities vanish.
-/

namespace PcSaft
variable {F D : Type} [F64 F] [DualNum F D] {n : Nat}

/-- `feos_dft::WeightFunctionShape`, the shapes used in /repo/src/dft. -/
inductive WeightFunctionShape where
  | Theta
  | Delta
  | DeltaVec
  deriving DecidableEq, Repr

/-- `feos_dft::WeightFunction` -/
structure WeightFunction (n : Nat) (D : Type) where
  prefactor : Fin n → D
  kernel_radius : Fin n → D
  shape : WeightFunctionShape

/-- Integral of the unscaled weight function over space: volume of a ball (Theta), surface of a sphere
(Delta), zero vector (DeltaVec). -/
def shapeIntegral (s : WeightFunctionShape) (r : D) : D :=
  match s with
  | .Theta => DualNum.powi r 3 * c (4.0 / 3.0 * F64.pi)
  | .Delta => DualNum.powi r 2 * c (4.0 * F64.pi)
  | .DeltaVec => c (0.0 : F)

/-- bulk weight of component `i` -/
def WeightFunction.bulkWeight (w : WeightFunction n D) (i : Fin n) : D :=
  w.prefactor i * shapeIntegral w.shape (w.kernel_radius i)

/-- `WeightFunction::new_scaled`: normalised to integral one. -/
def WeightFunction.newScaled (r : Fin n → D) (s : WeightFunctionShape) : WeightFunction n D :=
  { prefactor := fun i => DualNum.recip (shapeIntegral s (r i))
    kernel_radius := r
    shape := s }

/-- `feos_dft::WeightFunctionInfo` -/
structure WeightFunctionInfo (n : Nat) (D : Type) where
  local_density : Bool
  scalar_component : List (WeightFunction n D)
  vector_component : List (WeightFunction n D)
  scalar_fmt : List (WeightFunction n D)
  vector_fmt : List (WeightFunction n D)

/-- `WeightFunctionInfo::new` -/
def WeightFunctionInfo.new (local_density : Bool) : WeightFunctionInfo n D :=
  ⟨local_density, [], [], [], []⟩

/-- `WeightFunctionInfo::add` -/
def WeightFunctionInfo.add (info : WeightFunctionInfo n D) (w : WeightFunction n D) (fmt : Bool) :
    WeightFunctionInfo n D :=
  match w.shape, fmt with
  | .DeltaVec, true => { info with vector_fmt := info.vector_fmt ++ [w] }
  | .DeltaVec, false => { info with vector_component := info.vector_component ++ [w] }
  | _, true => { info with scalar_fmt := info.scalar_fmt ++ [w] }
  | _, false => { info with scalar_component := info.scalar_component ++ [w] }

/-- `WeightFunctionInfo::extend` -/
def WeightFunctionInfo.extend (info : WeightFunctionInfo n D) (ws : List (WeightFunction n D))
    (fmt : Bool) : WeightFunctionInfo n D :=
  ws.foldl (fun info w => info.add w fmt) info

/-- The weighted densities at one grid point: local densities, and one value per weight function and
component (or summed over components), vector ones per space direction. -/
structure WeightedValues (n : Nat) (D : Type) where
  loc : Fin n → D
  scalarComponent : WeightFunction n D → Fin n → D
  vectorComponent : WeightFunction n D → Nat → Fin n → D
  scalarFmt : WeightFunction n D → D
  vectorFmt : WeightFunction n D → Nat → D

/-- Rows of the weighted densities at one grid point in `dim` space dimensions. -/
def WeightFunctionInfo.rows (info : WeightFunctionInfo n D) (dim : Nat) (v : WeightedValues n D) :
    List D :=
  (if info.local_density then List.ofFn v.loc else [])
    ++ info.scalar_component.flatMap (fun w => List.ofFn (v.scalarComponent w))
    ++ info.vector_component.flatMap (fun w =>
        (List.range dim).flatMap (fun d => List.ofFn (v.vectorComponent w d)))
    ++ info.scalar_fmt.map v.scalarFmt
    ++ info.vector_fmt.flatMap (fun w => (List.range dim).map (v.vectorFmt w))

/-- The weighted densities of a homogeneous bulk phase. -/
def bulkValues (rho : Fin n → D) : WeightedValues n D :=
  { loc := rho
    scalarComponent := fun w i => w.bulkWeight i * rho i
    vectorComponent := fun _ _ _ => c (0.0 : F)
    scalarFmt := fun w => sumFin (fun i => w.bulkWeight i * rho i)
    vectorFmt := fun _ _ => c (0.0 : F) }

/-- Rows of the weighted densities of a homogeneous bulk phase in `dim` space dimensions. -/
def WeightFunctionInfo.bulkRows (info : WeightFunctionInfo n D) (dim : Nat) (rho : Fin n → D) :
    List D :=
  info.rows dim (bulkValues rho)

/-- row access `index_axis(Axis(0), i)` at one grid point; out of range panics -/
def rowAt (wd : List D) (i : Nat) : Except Panic D :=
  match wd[i]? with
  | some x => .ok x
  | none => .error .indexOutOfBounds

/-- `slice_axis(Axis(0), Slice::new(start, Some(start + k), 1))` at one grid point -/
def rowSlice (wd : List D) (start k : Nat) : Except Panic (Fin k → D) :=
  collectPanic (fun i : Fin k => rowAt wd (start + i))

end PcSaft
