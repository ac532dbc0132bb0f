import Verif.Model.HardSphere

/-!
# Model of /repo/src/eos/dispersion.rs
-/

namespace PcSaft
variable {F D : Type} [F64 F] [DualNum F D] {n : Nat}

/-- /repo/src/eos/dispersion.rs:8-16 -/
def A0 : Fin 7 → F := ![
    0.91056314451539,
    0.63612814494991,
    2.68613478913903,
    -26.5473624914884,
    97.7592087835073,
    -159.591540865600,
    91.2977740839123]
/-- /repo/src/eos/dispersion.rs:17-25 -/
def A1 : Fin 7 → F := ![
    -0.30840169182720,
    0.18605311591713,
    -2.50300472586548,
    21.4197936296668,
    -65.2558853303492,
    83.3186804808856,
    -33.7469229297323]
/-- /repo/src/eos/dispersion.rs:26-34 -/
def A2 : Fin 7 → F := ![
    -0.09061483509767,
    0.45278428063920,
    0.59627007280101,
    -1.72418291311787,
    -4.13021125311661,
    13.7766318697211,
    -8.67284703679646]
/-- /repo/src/eos/dispersion.rs:35-43 -/
def B0 : Fin 7 → F := ![
    0.72409469413165,
    2.23827918609380,
    -4.00258494846342,
    -21.00357681484648,
    26.8556413626615,
    206.5513384066188,
    -355.60235612207947]
/-- /repo/src/eos/dispersion.rs:44-52 -/
def B1 : Fin 7 → F := ![
    -0.57554980753450,
    0.69950955214436,
    3.89256733895307,
    -17.21547164777212,
    192.6722644652495,
    -161.8264616487648,
    -165.2076934555607]
/-- /repo/src/eos/dispersion.rs:53-61 -/
def B2 : Fin 7 → F := ![
    0.09768831158356,
    -0.25575749816100,
    -9.15585615297321,
    20.64207597439724,
    -38.80443005206285,
    93.6267740770146,
    -29.66690558514725]

/-- `(rho * &p.m * &r * &r * &r).sum() * 4.0 * FRAC_PI_3` with `r = hs_diameter * 0.5`: the packing
fraction as computed in /repo/src/eos/dispersion.rs:75-78, /repo/src/eos/polar.rs:203-204 and
/repo/src/eos/association.rs:43,47. -/
def packingFraction (m : Fin n → F) (rho r : Fin n → D) : D :=
  sumFin (fun i => rho i * c (m i) * r i * r i * r i) * c 4.0 * c (F64.pi / 3.0)

/-- The loop of /repo/src/eos/dispersion.rs:96-103 for one coefficient family
(`i1` with `A0,A1,A2`, `i2` with `B0,B1,B2`); the running power `eta_i` is part of the state. -/
def dispersionIntegral (a0 a1 a2 : Fin 7 → F) (m eta : D) : D :=
  (Fin.foldl 7 (fun (acc : D × D) i =>
    (acc.1 + ((m - c 1.0) / m * ((m - c 2.0) / m * c (a2 i) + c (a1 i)) + c (a0 i)) * acc.2,
     acc.2 * eta)) (c (0.0 : F), c (1.0 : F))).1

/-- `c1` of /repo/src/eos/dispersion.rs:104-109. -/
def dispersionC1 (m eta : D) : D :=
  DualNum.recip
    (m * (eta * c 8.0 - DualNum.powi eta 2 * c 2.0) / DualNum.powi (eta - c 1.0) 4
      + (c 1.0 - m)
        * (eta * c 20.0 - DualNum.powi eta 2 * c 27.0 + DualNum.powi eta 3 * c 12.0
          - DualNum.powi eta 4 * c 2.0)
        / DualNum.powi ((eta - c 1.0) * (eta - c 2.0)) 2
      + c 1.0)

/-- `rho1mix` of /repo/src/eos/dispersion.rs:84-93. -/
def rho1mix (p : PcSaftParameters n F) (temperature : D) (rho : Fin n → D) : D :=
  sumFin2 (fun i j =>
    let eps_ij := DualNum.recip temperature * c (p.epsilon_k_ij i j)
    let sigma_ij := F64.powi (p.sigma_ij i j) 3
    rho i * rho j * c (p.m i) * c (p.m j) * eps_ij * c sigma_ij)

/-- `rho2mix` of /repo/src/eos/dispersion.rs:85-93. -/
def rho2mix (p : PcSaftParameters n F) (temperature : D) (rho : Fin n → D) : D :=
  sumFin2 (fun i j =>
    let eps_ij := DualNum.recip temperature * c (p.epsilon_k_ij i j)
    let sigma_ij := F64.powi (p.sigma_ij i j) 3
    rho i * rho j * c (p.m i) * c (p.m j) * eps_ij * eps_ij * c sigma_ij)

/-- `Dispersion::helmholtz_energy`, /repo/src/eos/dispersion.rs:67-114. -/
def dispersion (p : PcSaftParameters n F) (state : StateHD n D) : D :=
  let rho := state.partial_density
  let r := fun i => hsDiameter p state.temperature i * c 0.5
  let eta := packingFraction p.m rho r
  let m := sumFin (fun i => state.molefracs i * c (p.m i))
  let i1 := dispersionIntegral A0 A1 A2 m eta
  let i2 := dispersionIntegral B0 B1 B2 m eta
  let c1 := dispersionC1 m eta
  (-(rho1mix p state.temperature rho) * i1 * c 2.0
    - rho2mix p state.temperature rho * m * c1 * i2) * c F64.pi * state.volume

end PcSaft
