import Verif.Model.EntropyScaling
import Verif.Model.DftPure

/-!
# Conformance tests (not proofs)

The `Float` instance of the model is evaluated and compared with the reference numbers of the
repository's own unit tests.  These are checks that the model was transcribed correctly; no theorem
depends on them.
-/

namespace PcSaft.Tests
open PcSaft

/-- Gaussian elimination with partial pivoting on `Float` arrays -/
def gauss (a : Array (Array Float)) (b : Array Float) : Option (Array Float) := Id.run do
  let n := b.size
  let mut a := a
  let mut b := b
  for k in [0:n] do
    let mut piv := k
    for i in [k:n] do
      if (a[i]!)[k]!.abs > (a[piv]!)[k]!.abs then piv := i
    if (a[piv]!)[k]! == 0.0 then return none
    let t := a[k]!
    a := (a.set! k a[piv]!).set! piv t
    let tb := b[k]!
    b := (b.set! k b[piv]!).set! piv tb
    for i in [k+1:n] do
      let f := (a[i]!)[k]! / (a[k]!)[k]!
      let mut row := a[i]!
      for j in [k:n] do
        row := row.set! j (row[j]! - f * (a[k]!)[j]!)
      a := a.set! i row
      b := b.set! i (b[i]! - f * b[k]!)
  let mut x := Array.replicate n 0.0
  for kk in [0:n] do
    let k := n - 1 - kk
    let mut s := b[k]!
    for j in [k+1:n] do
      s := s - (a[k]!)[j]! * x[j]!
    x := x.set! k (s / (a[k]!)[k]!)
  return some x

def toNat {k : Nat} : Fin k ⊕ Fin k → Nat
  | .inl i => i
  | .inr i => k + i

def floatSolve (k : Nat) : Solver k Float := fun h g =>
  let idx : Array (Fin k ⊕ Fin k) :=
    ((List.finRange k).map Sum.inl ++ (List.finRange k).map Sum.inr).toArray
  let a := idx.map (fun i => idx.map (fun j => h i j))
  let b := idx.map g
  (gauss a b).map (fun x s => x[toNat s]!)

def la : LinAlg Float Float := ⟨floatSolve, floatSolve, 0⟩

def rec0 (m s e : Float) : PcSaftRecord Float :=
  ⟨m, s, e, none, none, none, none, none, none, none, none, none⟩
def pureRec (mw : Float) (r : PcSaftRecord Float) : PureRecord Float :=
  ⟨⟨none, ""⟩, mw, r, none⟩

def propane := { rec0 2.001829 3.618353 208.1101 with
  viscosity := some ![-0.8013, -1.9972, -0.2907, -0.0467]
  diffusion := some ![-0.675163251512047, 0.3212017677695878, 0.100175249144429, 0.0, 0.0]
  thermal_conductivity := some ![-1.23950e0, -0.0, 0.0, 0.0] }
def butane := rec0 2.331586 3.7086010000000003 222.8774
def water := { rec0 1.065587 3.000683 366.5121 with
  kappa_ab := some 0.034867983, epsilon_k_ab := some 2500.6706, na := some 1.0, nb := some 1.0 }
def dme := { rec0 2.2634 3.2723 210.29 with mu := some 1.3 }
def co2 := { rec0 1.5131 3.1869 163.333 with q := some 4.4 }

def par1 (r : PcSaftRecord Float) : PcSaftParameters 1 Float :=
  fromRecords (fun _ => pureRec 44.0962 r) (fun _ _ => 0.0)
def par2 (r s : PcSaftRecord Float) : PcSaftParameters 2 Float :=
  fromRecords ![pureRec 44.0962 r, pureRec 58.123 s] (fun _ _ => 0.0)

def close (a b eps : Float) : Bool := Float.abs (a - b) < eps
def closeE (a : Except Panic Float) (b eps : Float) : Bool :=
  match a with
  | .ok a => close a b eps
  | .error _ => false

def s1 : StateHD 1 Float := StateHD.new 250.0 1000.0 ![1.0]

-- /repo/src/eos/hard_sphere.rs:85, hard_chain.rs:54, dispersion.rs tests
#guard close (hardSphere (par1 propane) s1) 0.410610492598808 1e-10
#guard close (hardChain (par1 propane) s1) (-0.12402626171926148) 1e-10
#guard close (dispersion (par1 propane) s1) (-1.0622531100351962) 1e-10

-- mixture limits, /repo/src/eos/*.rs `mix`
#guard close (dispersion (par2 propane butane) (StateHD.new 250.0 2.5e28 ![1.0, 0.0]))
  (dispersion (par1 propane) (StateHD.new 250.0 2.5e28 ![1.0])) 1e-14

-- association
def sw : StateHD 1 Float := StateHD.new 350.0 41.248289328513216 ![1.23]
#guard closeE ((association (par1 water) sw).map (· / 1.23)) (-4.229878997054543) 1e-10
#guard closeE ((crossAssociation (par1 water) 50 1e-10 0 (floatSolve _) (floatSolve _) sw).map
  (· / 1.23)) (-4.229878997054543) 1e-10

-- polar
#guard close (dipole (par1 dme) (StateHD.new 350.0 1000.0 ![1.0])) (-1.40501033595417E-2) 1e-6
#guard close (quadrupole (par1 co2) (StateHD.new 350.0 1000.0 ![1.0])) (-4.38559558854186E-2) 1e-6
def smix : StateHD 2 Float := StateHD.new 350.0 1000.0 ![1.0, 1.0]
#guard close (dispersion (par2 dme co2) smix) (-1.6283622072860044) 1e-6
#guard close (dipole (par2 dme co2) smix) (-1.35361827881345E-2) 1e-6
#guard close (quadrupole (par2 dme co2) smix) (-4.20168059082731E-2) 1e-6
-- the repository has commented out its assertion for this contribution; the number below comes from
-- an independent transliteration of /repo/src/eos/polar.rs:388-484
#guard close (dipoleQuadrupole .DQ35 (par2 dme co2) smix) (-0.022648039747446887) 1e-12
#guard close (dipoleQuadrupole .DQ44 (par2 dme co2) smix) (-0.023252304219139937) 1e-12

-- DFT in the bulk against the equation of state (floating point spot checks only)
def firstOk (a : Except Panic (Except EosError (List Float))) : Float :=
  match a with
  | .ok (.ok (x :: _)) => x
  | _ => 0.0 / 0.0
def okOr (a : Except Panic Float) : Float := match a with | .ok x => x | .error _ => 0.0 / 0.0

def rhoW : Float := 1.23 / 41.248289328513216
#guard close
  (firstOk (pureFmtAssocFunctional (par1 water) .WhiteBear 350.0
    [(pureFmtWeightFunctions (par1 water) 350.0).bulkRows 3 ![rhoW]]) * 41.248289328513216)
  (hardSphere (par1 water) sw + okOr (association (par1 water) sw)) 1e-10
#guard close
  (firstOk (associationFunctional la (par2 water water) 50 1e-10 350.0
    [(associationWeightFunctions (par2 water water) 350.0).bulkRows 3 ![rhoW / 2.0, rhoW / 2.0]]))
  (okOr (association (par1 water) sw) / 41.248289328513216) 1e-10
#guard close
  (okOr (attractiveFunctional (par2 dme co2) 350.0
    ((attWeightFunctions (par2 dme co2) PSI_DFT 350.0).bulkRows 3 ![1e-3, 1e-3])) * 1000.0)
  (dispersion (par2 dme co2) smix + dipole (par2 dme co2) smix + quadrupole (par2 dme co2) smix
    + dipoleQuadrupole .DQ35 (par2 dme co2) smix) 1e-10
#guard close
  (okOr (pureAttFunctional (par1 dme) 350.0
    ((pureAttWeightFunctions (par1 dme) PSI_DFT 350.0).bulkRows 3 ![1e-3])) * 1000.0)
  (dispersion (par1 dme) (StateHD.new 350.0 1000.0 ![1.0])
    + dipole (par1 dme) (StateHD.new 350.0 1000.0 ![1.0])) 1e-10
-- chain functional plus ideal chain term
def idealChain (m rho : Float) : Float := rho * (Float.log rho - 1.0) * (m - 1.0)
#guard close
  ((okOr (pureChainFunctional (par1 propane)
    ((pureChainWeightFunctions (par1 propane) 250.0).bulkRows 3 ![1e-3]))
    + idealChain 2.001829 1e-3) * 1000.0)
  (hardChain (par1 propane) s1) 1e-10
#guard close
  ((okOr (chainFunctional (par1 propane) 250.0
    ((hardChainWeightFunctions (par1 propane) 250.0 true).bulkRows 3 ![1e-3]))
    + idealChain 2.001829 1e-3) * 1000.0)
  (hardChain (par1 propane) s1) 1e-10

-- dilute-gas viscosity reference of propane at 300 K is about 0.018 mPa s
#guard (match viscosityReference (par1 propane) ⟨300.0, { k := 1 }⟩ ![1.0] with
  | .ok x => close x.value 1.8e-5 1e-6 && x.unit == { kg := 1, m := -1, s := -1 }
  | .error _ => false)

end PcSaft.Tests
