import Verif.Model.Dispersion

/-!
# Model of /repo/src/eos/association.rs
-/

namespace PcSaft
variable {F D : Type} [F64 F] [DualNum F D] {n : Nat}

/-- `f64::EPSILON = 2^-52` -/
def f64EPSILON : F := 2.220446049250313080847263336181640625e-16

/-- `EosError` values produced by this crate. -/
inductive EosError where
  /-- `EosError::NotConverged` -/
  | notConverged (what : String)
  /-- `EosError::IncompatibleComponents(expected, found)` -/
  | incompatibleComponents (eos : Nat) (found : Nat)
  /-- `EosError::IterationFailed` -/
  | iterationFailed (what : String)
  /-- conversion from `num_dual::linalg::LinAlgError` by `?` -/
  | linAlg
  deriving DecidableEq, Repr

/-- `association_strength`, /repo/src/eos/association.rs:20-35. -/
def associationStrength (p : PcSaftParameters n F) (temperature : D) (r : Fin n → D)
    (n2 n3i xi : D) (ai aj : Fin n) : D :=
  let k := r ai * r aj / (r ai + r aj) * (n2 * n3i * c 2.0)
  n3i * (k * xi * (k / c 18.0 + c 0.5) + c 1.0)
    * c (F64.powi (0.5 * (p.sigma ai + p.sigma aj)) 3)
    * c (p.kappa_aibj ai aj)
    * DualNum.expm1 (DualNum.recip temperature * c (p.epsilon_k_aibj ai aj))

/-- `assoc_site_frac_ab`, /repo/src/eos/association.rs:77-85. -/
def assocSiteFracAB (deltarho : D) (na nb : F) : D :=
  if F64.lt (F64.sqrt f64EPSILON) (DualNum.re deltarho) then
    (DualNum.sqrt (DualNum.powi (deltarho * c (na - nb) + c 1.0) 2 + deltarho * c nb * c 4.0)
      - (deltarho * c (nb - na) + c 1.0))
      / (deltarho * c na * c 2.0)
  else
    c (1.0 : F) + deltarho * c nb * (deltarho * c (nb + na) - c 1.0)

/-- `assoc_site_frac_a`, /repo/src/eos/association.rs:87-93. -/
def assocSiteFracA (deltarho : D) (na : F) : D :=
  if F64.lt (F64.sqrt f64EPSILON) (DualNum.re deltarho) then
    DualNum.sqrt (DualNum.powi (deltarho * c na * c 4.0 + c 1.0) 2 - c 1.0)
      / (deltarho * c na * c 2.0)
  else
    c (1.0 : F) + deltarho * c na * (deltarho * c na * c 2.0 - c 1.0)

/-- weighted density `n2` of /repo/src/eos/association.rs:46,103. -/
def assocN2 (m : Fin n → F) (rho r : Fin n → D) : D :=
  sumFin (fun i => rho i * c (m i) * r i * r i) * c 4.0 * c F64.pi

/-- `x.ln() - x * 0.5 + 0.5`, /repo/src/eos/association.rs:61,66,211. -/
def assocF (x : D) : D := DualNum.ln x - x * c 0.5 + c 0.5

/-- The association Helmholtz energy of one component from the product of association strength and
density, /repo/src/eos/association.rs:54-67. -/
def assocSingle (deltarho moles : D) (na nb : F) : D :=
  if F64.lt 0.0 nb then
    let xa := assocSiteFracAB deltarho na nb
    let xb := (xa - c 1.0) * c (na / nb) + c 1.0
    moles * (assocF xa * c na + assocF xb * c nb)
  else
    let xa := assocSiteFracA deltarho na
    moles * assocF xa * c na

/-- `Association::helmholtz_energy`, /repo/src/eos/association.rs:37-69.  `p.assoc_comp[0]` panics
when there is no associating component. -/
def association (p : PcSaftParameters n F) (state : StateHD n D) : Except Panic D :=
  match p.assoc_comp with
  | [] => .error .indexOutOfBounds
  | a :: _ =>
    let r := fun i => hsDiameter p state.temperature i * c 0.5
    let n2 := assocN2 p.m state.partial_density r
    let n3 := packingFraction p.m state.partial_density r
    let n3i := DualNum.recip (-n3 + c 1.0)
    let deltarho := associationStrength p state.temperature r n2 n3i (c (1.0 : F)) a a
      * state.partial_density a
    .ok (assocSingle deltarho (state.moles a) (p.na a) (p.nb a))

/-- The solver `|h, g| LU::new(h)?.solve(&g)` of the external crate `num_dual`; `none` is
`LinAlgError` (singular matrix).  The index type is `Fin k ⊕ Fin k`: sites of type A, then sites of
type B. -/
abbrev Solver (k : Nat) (D : Type) :=
  (Fin k ⊕ Fin k → Fin k ⊕ Fin k → D) → (Fin k ⊕ Fin k → D) → Option (Fin k ⊕ Fin k → D)

/-- `dnx` for a site of type A (`nb`, `xb`) or of type B (`na`, `xa`) on component `i`,
/repo/src/eos/association.rs:241,243,248. -/
def dnx {k : Nat} (delta : Fin k → Fin k → D) (rho : Fin k → D) (nn : Fin k → F) (x : Fin k → D)
    (i : Fin k) : D :=
  sumFin (fun j => x j * c (nn j) * (delta i j * rho j)) + c 1.0

/-- gradient `g` of /repo/src/eos/association.rs:244,249. -/
def newtonG {k : Nat} (delta : Fin k → Fin k → D) (na nb : Fin k → F) (rho : Fin k → D)
    (x : Fin k ⊕ Fin k → D) : Fin k ⊕ Fin k → D
  | .inl i => DualNum.recip (x (.inl i)) - dnx delta rho nb (fun j => x (.inr j)) i
  | .inr i => DualNum.recip (x (.inr i)) - dnx delta rho na (fun j => x (.inl j)) i

/-- approximate Hessian `h` of /repo/src/eos/association.rs:245-246,250-251. -/
def newtonH {k : Nat} (delta : Fin k → Fin k → D) (na nb : Fin k → F) (rho : Fin k → D)
    (x : Fin k ⊕ Fin k → D) : Fin k ⊕ Fin k → Fin k ⊕ Fin k → D
  | .inl i, .inl j =>
      if i = j then -dnx delta rho nb (fun j => x (.inr j)) i / x (.inl i) else c (0.0 : F)
  | .inl i, .inr j => delta i j * rho j * c (-(nb j))
  | .inr i, .inl j => delta i j * rho j * c (-(na j))
  | .inr i, .inr j =>
      if i = j then -dnx delta rho na (fun j => x (.inl j)) i / x (.inr i) else c (0.0 : F)

/-- `norm(&g.map(D::re))` of `num_dual::linalg`. -/
def normRe {k : Nat} (g : Fin k ⊕ Fin k → D) : F :=
  F64.sqrt (sumFin (fun i => DualNum.re (g (.inl i)) * DualNum.re (g (.inl i)))
    + sumFin (fun i => DualNum.re (g (.inr i)) * DualNum.re (g (.inr i))))

/-- `newton_step_cross_association`, /repo/src/eos/association.rs:215-259: the new `x` and the
convergence flag (which refers to the gradient *before* the step). -/
def newtonStep {k : Nat} (solve : Solver k D) (delta : Fin k → Fin k → D) (na nb : Fin k → F)
    (rho : Fin k → D) (tol : F) (x : Fin k ⊕ Fin k → D) :
    Except EosError ((Fin k ⊕ Fin k → D) × Bool) :=
  let g := newtonG delta na nb rho x
  match solve (newtonH delta na nb rho x) g with
  | none => .error .linAlg
  | some y => .ok (fun s => x s - y s, F64.lt (normRe g) tol)

/-- The loop `for k in 0..max_iter` of /repo/src/eos/association.rs:180-195; the number counts the
remaining iterations. -/
def newtonLoop {X : Type} (step : X → Except EosError (X × Bool)) : Nat → X → Except EosError X
  | 0, x => .ok x
  | r + 1, x =>
    match step x with
    | .error e => .error e
    | .ok (x', converged) =>
      if converged then .ok x'
      else if r = 0 then .error (.notConverged "Cross association")
      else newtonLoop step r x'

/-- `for _ in 0..D::NDERIV { newton_step(..)?; }`, /repo/src/eos/association.rs:199-201. -/
def newtonDual {X : Type} (step : X → Except EosError (X × Bool)) : Nat → X → Except EosError X
  | 0, x => .ok x
  | r + 1, x =>
    match step x with
    | .error e => .error e
    | .ok (x', _) => newtonDual step r x'

/-- `helmholtz_energy_density_cross_association`, /repo/src/eos/association.rs:131-213.

`x0` is the optional mutable warm-start array; the result carries its value on return.  `nderiv` is
`D::NDERIV` (0 for `f64`, 1 for `Dual64`, 2 for `HyperDual64`, 3 for `Dual3`).  `solveF` and `solveD`
are the LU solver at `f64` and at `D`. -/
def crossAssociationDensity (p : PcSaftParameters n F) (nderiv : Nat)
    (solveF : Solver p.assoc_comp.length F) (solveD : Solver p.assoc_comp.length D)
    (temperature : D) (density r : Fin n → D) (n2 n3i xi : D) (max_iter : Nat) (tol : F)
    (x0 : Option (Fin p.assoc_comp.length ⊕ Fin p.assoc_comp.length → F)) :
    Except EosError D × Option (Fin p.assoc_comp.length ⊕ Fin p.assoc_comp.length → F) :=
  if F64.lt (DualNum.re (sumFin density)) f64EPSILON then
    (.ok (c (0.0 : F)), x0.map (fun _ _ => 1.0))
  else
    let ac := p.assoc_comp.get
    let delta := fun i j => associationStrength p temperature r n2 n3i xi (ac i) (ac j)
    let na := fun i => p.na (ac i)
    let nb := fun i => p.nb (ac i)
    let rho := fun i => density (ac i)
    let x := x0.getD (fun _ => 0.2)
    match newtonLoop (newtonStep solveF (fun i j => DualNum.re (delta i j)) na nb
        (fun i => DualNum.re (rho i)) tol) max_iter x with
    | .error e => (.error e, x0)
    | .ok x =>
      match newtonDual (newtonStep solveD delta na nb rho tol) nderiv (fun s => c (x s)) with
      | .error e => (.error e, x0)
      | .ok xd =>
        (.ok (sumFin (fun i => rho i
          * (assocF (xd (.inl i)) * c (na i) + assocF (xd (.inr i)) * c (nb i)))),
         x0.map (fun _ => x))

/-- `CrossAssociation::helmholtz_energy`, /repo/src/eos/association.rs:95-123.  The `unwrap` turns
every error into a panic. -/
def crossAssociation (p : PcSaftParameters n F) (max_iter : Nat) (tol : F) (nderiv : Nat)
    (solveF : Solver p.assoc_comp.length F) (solveD : Solver p.assoc_comp.length D)
    (state : StateHD n D) : Except Panic D :=
  let r := fun i => hsDiameter p state.temperature i * c 0.5
  let n2 := assocN2 p.m state.partial_density r
  let n3 := packingFraction p.m state.partial_density r
  let n3i := DualNum.recip (-n3 + c 1.0)
  match (crossAssociationDensity p nderiv solveF solveD state.temperature state.partial_density r
      n2 n3i (c (1.0 : F)) max_iter tol none).1 with
  | .error _ => .error .unwrapErr
  | .ok a => .ok (a * state.volume)

end PcSaft
