import Verif.Model.Parameters

/-!
# Model of /repo/src/eos/hard_sphere.rs and /repo/src/eos/hard_chain.rs
-/

namespace PcSaft
variable {F D : Type} [F64 F] [DualNum F D] {n : Nat}

/-- `PcSaftParameters::hs_diameter`, /repo/src/eos/hard_sphere.rs:9-14. -/
def hsDiameter (p : PcSaftParameters n F) (temperature : D) : Fin n → D :=
  let ti := DualNum.recip temperature * c (-3.0)
  fun i => -(DualNum.exp (ti * c (p.epsilon_k i)) * c 0.12 - c 1.0) * c (p.sigma i)

/-- `zeta`, /repo/src/eos/hard_sphere.rs:40-54. -/
def zeta (m : Fin n → F) (partial_density diameter : Fin n → D) (k : Fin 4) : D :=
  sumFin (fun i => partial_density i * DualNum.powi (diameter i) k * c (F64.pi / 6.0 * m i))

/-- `zeta_23`, /repo/src/eos/hard_sphere.rs:56-64. -/
def zeta23 (m : Fin n → F) (molefracs diameter : Fin n → D) : D :=
  let z := fun (k : Nat) => sumFin (fun i => molefracs i * DualNum.powi (diameter i) (k + 2)
    * c (m i))
  z 0 / z 1

/-- `HardSphere::helmholtz_energy`, /repo/src/eos/hard_sphere.rs:21-32. -/
def hardSphere (p : PcSaftParameters n F) (state : StateHD n D) : D :=
  let d := hsDiameter p state.temperature
  let z := zeta p.m state.partial_density d
  let frac_1mz3 := -(DualNum.recip (z 3 - c 1.0))
  let z23 := zeta23 p.m state.molefracs d
  state.volume * c 6.0 / c F64.pi
    * (z 1 * z 2 * frac_1mz3 * c 3.0
      + DualNum.powi (z 2) 2 * DualNum.powi frac_1mz3 2 * z23
      + (z 2 * DualNum.powi z23 2 - z 0) * DualNum.ln1p (z 3 * c (-1.0)))

/-- The contact value `g_hs` of /repo/src/eos/hard_chain.rs:17-20 for one segment diameter. -/
def gHs (z2 z3 d : D) : D :=
  let frac_1mz3 := -(DualNum.recip (z3 - c 1.0))
  let cc := z2 * frac_1mz3 * frac_1mz3
  frac_1mz3 + d * cc * c 1.5
    - DualNum.powi d 2 * DualNum.powi cc 2 * (z3 - c 1.0) * c 0.5

/-- `HardChain::helmholtz_energy`, /repo/src/eos/hard_chain.rs:14-26. -/
def hardChain (p : PcSaftParameters n F) (state : StateHD n D) : D :=
  let d := hsDiameter p state.temperature
  let z := zeta p.m state.partial_density d
  sumFin (fun i => state.partial_density i * c (1.0 - p.m i) * DualNum.ln (gHs (z 2) (z 3) (d i)))
    * state.volume

end PcSaft
