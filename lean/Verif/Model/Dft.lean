import Verif.Model.DftWeights

/-!
# Model of /repo/src/dft/{hard_chain,dispersion,polar,association}.rs

Array operations over the grid are pointwise, so each functional is modelled at one grid point; the
association functional, whose warm start is carried from point to point, is modelled on the whole grid.
-/

namespace PcSaft
variable {F D : Type} [F64 F] [DualNum F D] {n : Nat}

/-! ### Hard chain -/

/-- `hard_chain_weight_functions`, /repo/src/dft/hard_chain.rs:12-42. -/
def hardChainWeightFunctions (p : PcSaftParameters n F) (temperature : D) (lambda : Bool) :
    WeightFunctionInfo n D :=
  let d := hsDiameter p temperature
  let info := ((WeightFunctionInfo.new true).add
      { prefactor := fun i => c (p.m i) / (d i * c 8.0), kernel_radius := d, shape := .Theta } true).add
      { prefactor := fun i => c (p.m i / 8.0), kernel_radius := d, shape := .Theta } true
  if lambda then info.add (WeightFunction.newScaled d .Delta) false else info

/-- `if l.re() < 0.0 { -l } else { l } + EPSILON`, /repo/src/dft/hard_chain.rs:74 and
/repo/src/dft/pure_saft_functional.rs:189.  Rust parses this as `(if … { -l } else { l }) + EPSILON`
in expression position (a closure body). -/
def chainLambda (l : D) : D :=
  (if F64.lt (DualNum.re l) 0.0 then -l else l) + c f64EPSILON

/-- One term of the loop of /repo/src/dft/hard_chain.rs:83-90, without the sign. -/
def chainTerm (di : D) (mi : F) (rhoi lambdai zeta2 z3i : D) : D :=
  let z2d := zeta2 * di
  let yi := z2d * z3i * z3i * (z2d * z3i * c 0.5 + c 1.5) + z3i
  (DualNum.ln (yi * lambdai) - c 1.0) * rhoi * c (mi - 1.0)

/-- `ChainFunctional::calculate_helmholtz_energy_density`, /repo/src/dft/hard_chain.rs:60-92, at one
grid point. -/
def chainFunctional (p : PcSaftParameters n F) (temperature : D) (wd : List D) : Except Panic D :=
  let k := (wd.length - 2) / 2
  if hk : k ≤ n then do
    let rho ← rowSlice wd 0 k
    let lambda ← rowSlice wd k k
    let zeta2 ← rowAt wd (2 * k)
    let zeta3 ← rowAt wd (2 * k + 1)
    let d := hsDiameter p temperature
    let z3i := DualNum.recip (-zeta3 + c 1.0)
    .ok (Fin.foldl k (fun phi i => phi
      - chainTerm (d (i.castLE hk)) (p.m (i.castLE hk)) (rho i) (chainLambda (lambda i)) zeta2 z3i)
      (c (0.0 : F)))
  else .error .indexOutOfBounds

/-! ### Attraction -/

/-- /repo/src/dft/dispersion.rs:15 -/
def PSI_DFT : F := 1.3862
/-- /repo/src/dft/dispersion.rs:17 -/
def PSI_PDGT : F := 1.3286

/-- `att_weight_functions`, /repo/src/dft/dispersion.rs:30-40. -/
def attWeightFunctions (p : PcSaftParameters n F) (psi : F) (temperature : D) :
    WeightFunctionInfo n D :=
  let d := hsDiameter p temperature
  (WeightFunctionInfo.new false).add (WeightFunction.newScaled (fun i => d i * c psi) .Theta) false

/-- packing fraction of /repo/src/dft/dispersion.rs:64-70 and /repo/src/dft/polar.rs:19-25. -/
def dftEta (p : PcSaftParameters n F) (temperature : D) (density : Fin n → D) : D :=
  let r := fun i => hsDiameter p temperature i * c 0.5
  sumFin (fun i => density i * (r i * r i * r i * c (p.m i) * c 4.0 * c (F64.pi / 3.0)))

/-- mean segment number of /repo/src/dft/dispersion.rs:73-85. -/
def dftMBar (p : PcSaftParameters n F) (density : Fin n → D) : D :=
  let m_bar := sumFin (fun i => density i * c (p.m i))
  let rhog := sumFin density
  if F64.lt f64EPSILON (DualNum.re rhog) then m_bar / rhog else c (1.0 : F)

/-- `pair_integral_ij`, /repo/src/dft/polar.rs:40-65, at one grid point. -/
def dftPairIntegral {k : Nat} (hk : k ≤ 5) (mij1 mij2 : F) (eta : D) (a b : Fin k → Fin 3 → F)
    (eps_ij_t : D) : D :=
  sumFin (fun i : Fin k => etas eta (i.castLE hk)
    * (eps_ij_t * c (b i 0 + mij1 * b i 1 + mij2 * b i 2)
      + c (a i 0)
      + c (mij1 * a i 1)
      + c (mij2 * a i 2)))

/-- `triplet_integral_ijk`, /repo/src/dft/polar.rs:67-80, at one grid point. -/
def dftTripletIntegral (mijk1 mijk2 : F) (eta : D) (cc : Fin 4 → Fin 3 → F) : D :=
  sumFin (fun i : Fin 4 => etas eta (i.castLE (by decide))
    * c (cc i 0 + mijk1 * cc i 1 + mijk2 * cc i 2))

/-- `triplet_integral_ijk_dq`, /repo/src/dft/polar.rs:82-93, at one grid point. -/
def dftTripletIntegralDQ (mijk : F) (eta : D) (cc : Fin 3 → Fin 2 → F) : D :=
  sumFin (fun i : Fin 3 => etas eta (i.castLE (by decide)) * c (cc i 0 + mijk * cc i 1))

/-- `phi2 * phi2 / (phi2 - phi3)` with the NaN fallback, /repo/src/dft/polar.rs:174-179,262-267,
362-367 and /repo/src/dft/pure_saft_functional.rs:282-287,305-310. -/
def dftPade (phi2 phi3 : D) : D :=
  let result := phi2 * phi2 / (phi2 - phi3)
  if F64.isNan (DualNum.re result) then phi2 else result

/-- `phi_polar_dipole`, /repo/src/dft/polar.rs:95-181: accumulation of `phi2`. -/
def dftDipolePhi2 (p : PcSaftParameters n F) (temperature : D) (rho : Fin n → D) (eta : D) : D :=
  let t_inv := DualNum.recip temperature
  let comp := p.dipole_comp
  let m := MeanSegmentNumbers.new p.m comp
  let eps_ij_t := fun i j => t_inv * c (p.e_k_ij i j)
  let sig_ij_3 := fun i j => F64.powi (p.sigma_ij i j) 3
  let mu2_term := fun (i : Fin comp.length) =>
    eps_ij_t (comp.get i) (comp.get i) * c (sig_ij_3 (comp.get i) (comp.get i)) * c (p.mu2 (comp.get i))
  Fin.foldl comp.length (fun phi2 i =>
    let di := comp.get i
    let phi2 := phi2 - rho di * rho di
      * dftPairIntegral (by decide) (m.mij1 i i) (m.mij2 i i) eta AD BD (eps_ij_t di di)
      * (mu2_term i * mu2_term i / c (sig_ij_3 di di))
    foldUpper i (fun phi2 j =>
      let dj := comp.get j
      phi2 - rho di * rho dj
        * dftPairIntegral (by decide) (m.mij1 i j) (m.mij2 i j) eta AD BD (eps_ij_t di dj)
        * (mu2_term i * mu2_term j / c (sig_ij_3 di dj) * c 2.0)) phi2) (c (0.0 : F))

/-- `phi_polar_dipole`, /repo/src/dft/polar.rs:95-181: accumulation of `phi3`. -/
def dftDipolePhi3 (p : PcSaftParameters n F) (temperature : D) (rho : Fin n → D) (eta : D) : D :=
  let t_inv := DualNum.recip temperature
  let comp := p.dipole_comp
  let m := MeanSegmentNumbers.new p.m comp
  let eps_ij_t := fun i j => t_inv * c (p.e_k_ij i j)
  let sig_ij_3 := fun i j => F64.powi (p.sigma_ij i j) 3
  let mu2_term := fun (i : Fin comp.length) =>
    eps_ij_t (comp.get i) (comp.get i) * c (sig_ij_3 (comp.get i) (comp.get i)) * c (p.mu2 (comp.get i))
  Fin.foldl comp.length (fun phi3 i =>
    let di := comp.get i
    let phi3 := phi3 - rho di * rho di * rho di
      * dftTripletIntegral (m.mijk1 i i i) (m.mijk2 i i i) eta CD
      * (mu2_term i * mu2_term i * mu2_term i / c (sig_ij_3 di di))
    foldUpper i (fun phi3 j =>
      let dj := comp.get j
      let phi3 := phi3 - rho di * rho di * rho dj
        * dftTripletIntegral (m.mijk1 i i j) (m.mijk2 i i j) eta CD
        * (mu2_term i * mu2_term i * mu2_term j
          / c (p.sigma_ij di di * p.sigma_ij di dj * p.sigma_ij di dj) * c 3.0)
      let phi3 := phi3 - rho di * rho dj * rho dj
        * dftTripletIntegral (m.mijk1 i j j) (m.mijk2 i j j) eta CD
        * (mu2_term i * mu2_term j * mu2_term j
          / c (p.sigma_ij di dj * p.sigma_ij di dj * p.sigma_ij dj dj) * c 3.0)
      foldUpper j (fun phi3 k =>
        let dk := comp.get k
        phi3 - rho di * rho dj * rho dk
          * dftTripletIntegral (m.mijk1 i j k) (m.mijk2 i j k) eta CD
          * (mu2_term i * mu2_term j * mu2_term k
            / c (p.sigma_ij di dj * p.sigma_ij di dk * p.sigma_ij dj dk) * c 6.0)) phi3) phi3)
    (c (0.0 : F))

/-- `phi_polar_quadrupole`, /repo/src/dft/polar.rs:183-269: accumulation of `phi2`.  The cross term
(lines 223-233) divides by `sigma_ij[[di, dj]]^7` and carries no factor 2. -/
def dftQuadrupolePhi2 (p : PcSaftParameters n F) (temperature : D) (rho : Fin n → D) (eta : D) : D :=
  let t_inv := DualNum.recip temperature
  let comp := p.quadpole_comp
  let m := MeanSegmentNumbers.new p.m comp
  let eps_ij_t := fun i j => t_inv * c (p.e_k_ij i j)
  let q2_term := fun (i : Fin comp.length) =>
    eps_ij_t (comp.get i) (comp.get i) * c (F64.powi (p.sigma (comp.get i)) 5) * c (p.q2 (comp.get i))
  Fin.foldl comp.length (fun phi2 i =>
    let di := comp.get i
    let phi2 := phi2 - rho di * rho di
      * dftPairIntegral (by decide) (m.mij1 i i) (m.mij2 i i) eta AQ BQ (eps_ij_t di di)
      * (q2_term i * q2_term i / c (F64.powi (p.sigma_ij di di) 7))
    foldUpper i (fun phi2 j =>
      let dj := comp.get j
      phi2 - rho di * rho dj
        * dftPairIntegral (by decide) (m.mij1 i j) (m.mij2 i j) eta AQ BQ (eps_ij_t di dj)
        * (q2_term i * q2_term j / c (F64.powi (p.sigma_ij di dj) 7))) phi2) (c (0.0 : F))

/-- `phi_polar_quadrupole`, /repo/src/dft/polar.rs:183-269: accumulation of `phi3`. -/
def dftQuadrupolePhi3 (p : PcSaftParameters n F) (temperature : D) (rho : Fin n → D) (eta : D) : D :=
  let t_inv := DualNum.recip temperature
  let comp := p.quadpole_comp
  let m := MeanSegmentNumbers.new p.m comp
  let eps_ij_t := fun i j => t_inv * c (p.e_k_ij i j)
  let sig_ij_3 := fun i j => F64.powi (p.sigma_ij i j) 3
  let q2_term := fun (i : Fin comp.length) =>
    eps_ij_t (comp.get i) (comp.get i) * c (F64.powi (p.sigma (comp.get i)) 5) * c (p.q2 (comp.get i))
  Fin.foldl comp.length (fun phi3 i =>
    let di := comp.get i
    let phi3 := phi3 + rho di * rho di * rho di
      * dftTripletIntegral (m.mijk1 i i i) (m.mijk2 i i i) eta CQ
      * (q2_term i * q2_term i * q2_term i / c (F64.powi (sig_ij_3 di di) 3))
    foldUpper i (fun phi3 j =>
      let dj := comp.get j
      let phi3 := phi3 + rho di * rho di * rho dj
        * dftTripletIntegral (m.mijk1 i i j) (m.mijk2 i i j) eta CQ
        * (q2_term i * q2_term i * q2_term j
          / c (sig_ij_3 di di * sig_ij_3 di dj * sig_ij_3 di dj) * c 3.0)
      let phi3 := phi3 + rho di * rho dj * rho dj
        * dftTripletIntegral (m.mijk1 i j j) (m.mijk2 i j j) eta CQ
        * (q2_term i * q2_term j * q2_term j
          / c (sig_ij_3 di dj * sig_ij_3 di dj * sig_ij_3 dj dj) * c 3.0)
      foldUpper j (fun phi3 k =>
        let dk := comp.get k
        phi3 + rho di * rho dj * rho dk
          * dftTripletIntegral (m.mijk1 i j k) (m.mijk2 i j k) eta CQ
          * (q2_term i * q2_term j * q2_term k
            / c (sig_ij_3 di dj * sig_ij_3 di dk * sig_ij_3 dj dk) * c 6.0)) phi3) phi3)
    (c (0.0 : F))

/-- `phi_polar_dipole_quadrupole`, /repo/src/dft/polar.rs:271-369: accumulation of `phi2` (there is no
variant argument; lines 335-336 are the DQ35 form). -/
def dftDipoleQuadrupolePhi2 (p : PcSaftParameters n F) (temperature : D) (rho : Fin n → D) (eta : D) :
    D :=
  let t_inv := DualNum.recip temperature
  let eps_ij_t := fun i j => t_inv * c (p.e_k_ij i j)
  let mu2_term := fun i => eps_ij_t i i * c (F64.powi (p.sigma i) 4) * c (p.mu2 i)
  let q2_term := fun i => eps_ij_t i i * c (F64.powi (p.sigma i) 4) * c (p.q2 i)
  Fin.foldl p.dipole_comp.length (fun phi2 i =>
    Fin.foldl p.quadpole_comp.length (fun phi2 j =>
      let di := p.dipole_comp.get i
      let qj := p.quadpole_comp.get j
      let m := mdqPair p di qj
      phi2 - rho di * rho qj
        * dftPairIntegral (by decide) (meanSeg1 m) (meanSeg2 m) eta ADQ BDQ (eps_ij_t di qj)
        * (mu2_term di / c (p.sigma di) * q2_term qj * c (p.sigma qj)
          / c (F64.powi (p.sigma_ij di qj) 5))) phi2) (c (0.0 : F))

/-- `phi_polar_dipole_quadrupole`, /repo/src/dft/polar.rs:271-369: accumulation of `phi3`. -/
def dftDipoleQuadrupolePhi3 (p : PcSaftParameters n F) (temperature : D) (rho : Fin n → D) (eta : D) :
    D :=
  let t_inv := DualNum.recip temperature
  let eps_ij_t := fun i j => t_inv * c (p.e_k_ij i j)
  let mu2_term := fun i => eps_ij_t i i * c (F64.powi (p.sigma i) 4) * c (p.mu2 i)
  let q2_term := fun i => eps_ij_t i i * c (F64.powi (p.sigma i) 4) * c (p.q2 i)
  Fin.foldl p.dipole_comp.length (fun phi3 i =>
    Fin.foldl p.quadpole_comp.length (fun phi3 j =>
      let di := p.dipole_comp.get i
      let qj := p.quadpole_comp.get j
      let phi3 := Fin.foldl p.dipole_comp.length (fun phi3 k =>
        let dk := p.dipole_comp.get k
        phi3 + rho di * rho qj * rho dk
          * dftTripletIntegralDQ (meanSeg1 (mdqTriplet p di qj dk)) eta CDQ
          * (mu2_term di * q2_term qj * mu2_term dk
            / c (F64.powi (p.sigma_ij di qj * p.sigma_ij di dk * p.sigma_ij qj dk) 2))) phi3
      Fin.foldl p.quadpole_comp.length (fun phi3 k =>
        let qk := p.quadpole_comp.get k
        phi3 + rho di * rho qj * rho qk
          * dftTripletIntegralDQ (meanSeg1 (mdqTriplet p di qj qk)) eta CDQ
          * (mu2_term di * q2_term qj * q2_term qk
            / c (F64.powi (p.sigma_ij di qj * p.sigma_ij di qk * p.sigma_ij qj qk) 2)
            * c ALPHA)) phi3) phi3)
    (c (0.0 : F))

/-- `phi_polar_dipole`, /repo/src/dft/polar.rs:95-181. -/
def dftDipole (p : PcSaftParameters n F) (temperature : D) (rho : Fin n → D) (eta : D) : D :=
  dftPade (dftDipolePhi2 p temperature rho eta * c F64.pi)
    (dftDipolePhi3 p temperature rho eta * c PI_SQ_43)

/-- `phi_polar_quadrupole`, /repo/src/dft/polar.rs:183-269. -/
def dftQuadrupole (p : PcSaftParameters n F) (temperature : D) (rho : Fin n → D) (eta : D) : D :=
  dftPade (dftQuadrupolePhi2 p temperature rho eta * c (F64.pi * 0.5625))
    (dftQuadrupolePhi3 p temperature rho eta * c (F64.pi * F64.pi * 0.5625))

/-- `phi_polar_dipole_quadrupole`, /repo/src/dft/polar.rs:271-369. -/
def dftDipoleQuadrupole (p : PcSaftParameters n F) (temperature : D) (rho : Fin n → D) (eta : D) : D :=
  dftPade (dftDipoleQuadrupolePhi2 p temperature rho eta * c (F64.pi * 2.25))
    (dftDipoleQuadrupolePhi3 p temperature rho eta * c (F64.pi * F64.pi))

/-- `calculate_helmholtz_energy_density_polar`, /repo/src/dft/polar.rs:10-38. -/
def dftPolar (p : PcSaftParameters n F) (temperature : D) (rho : Fin n → D) : D :=
  let eta := dftEta p temperature rho
  let phi := c (0.0 : F)
  let phi := if 0 < p.ndipole then phi + dftDipole p temperature rho eta else phi
  let phi := if 0 < p.nquadpole then phi + dftQuadrupole p temperature rho eta else phi
  if 0 < p.ndipole ∧ 0 < p.nquadpole then phi + dftDipoleQuadrupole p temperature rho eta else phi

/-- The loop of /repo/src/dft/dispersion.rs:104-113 for one coefficient family. -/
def dftDispersionIntegral (a0 a1 a2 : Fin 7 → F) (m1 m2 eta : D) : D :=
  (Fin.foldl 7 (fun (acc : D × D) i =>
    (acc.1 + (m2 * c (a2 i) + m1 * c (a1 i) + c (a0 i)) * acc.2, acc.2 * eta))
    (c (0.0 : F), c (1.0 : F))).1

/-- `c1` of /repo/src/dft/dispersion.rs:114-121. -/
def dftC1 (m eta : D) : D :=
  DualNum.recip
    (m * (eta * c 8.0 - DualNum.powi eta 2 * c 2.0) / DualNum.powi (eta - c 1.0) 4
      + (eta * (eta * (eta * (eta * c 2.0 - c 12.0) + c 27.0) - c 20.0))
        / DualNum.powi ((eta - c 1.0) * (eta - c 2.0)) 2
        * (m - c 1.0)
      + c 1.0)

/-- The dispersion part of `AttractiveFunctional::calculate_helmholtz_energy_density`,
/repo/src/dft/dispersion.rs:56-125. -/
def dftDispersion (p : PcSaftParameters n F) (temperature : D) (density : Fin n → D) : D :=
  let eta := dftEta p temperature density
  let m_bar := dftMBar p density
  let rho1mix := sumFin2 (fun i j =>
    let eps_ij_t := DualNum.recip temperature * c (p.epsilon_k_ij i j)
    let sigma_ij_3 := F64.powi (p.sigma_ij i j) 3
    density i * density j * (eps_ij_t * c sigma_ij_3 * c (p.m i) * c (p.m j)))
  let rho2mix := sumFin2 (fun i j =>
    let eps_ij_t := DualNum.recip temperature * c (p.epsilon_k_ij i j)
    let sigma_ij_3 := F64.powi (p.sigma_ij i j) 3
    density i * density j * (eps_ij_t * eps_ij_t * c sigma_ij_3 * c (p.m i) * c (p.m j)))
  let m1 := (m_bar - c 1.0) / m_bar
  let m2 := (m_bar - c 2.0) / m_bar * m1
  let i1 := dftDispersionIntegral A0 A1 A2 m1 m2 eta
  let i2 := dftDispersionIntegral B0 B1 B2 m1 m2 eta
  let c1 := dftC1 m_bar eta
  (-rho1mix * i1 * c 2.0 - rho2mix * m_bar * c1 * i2) * c F64.pi

/-- `AttractiveFunctional::calculate_helmholtz_energy_density`, /repo/src/dft/dispersion.rs:51-126, at
one grid point. -/
def attractiveFunctional (p : PcSaftParameters n F) (temperature : D) (wd : List D) :
    Except Panic D := do
  let density ← rowSlice wd 0 n
  .ok (dftDispersion p temperature density + dftPolar p temperature density)

/-! ### Association -/

/-- /repo/src/dft/association.rs:15 -/
def N0_CUTOFF : F := 1e-9

/-- `AssociationFunctional::weight_functions`, /repo/src/dft/association.rs:38-62. -/
def associationWeightFunctions (p : PcSaftParameters n F) (temperature : D) : WeightFunctionInfo n D :=
  let r := fun i => hsDiameter p temperature i * c 0.5
  (((WeightFunctionInfo.new false).add (WeightFunction.newScaled r .Delta) false).add
    { prefactor := fun i => c (p.m i), kernel_radius := r, shape := .DeltaVec } false).add
    { prefactor := fun i => c (p.m i), kernel_radius := r, shape := .Theta } true

/-- The weighted densities the association functional reads at one grid point. -/
structure AssocDensities (n : Nat) (D : Type) where
  n0i : Fin n → D
  n2v : List (Fin n → D)
  n3 : D

/-- Row arithmetic of /repo/src/dft/association.rs:71-86. -/
def assocDecode (n : Nat) (wd : List D) : Except Panic (AssocDensities n D) :=
  if n = 0 then .error (.explicit "attempt to divide by zero") else do
  let dim := (wd.length - 1) / n - 1
  let n0i ← rowSlice wd 0 n
  let n2v ← (List.range dim).mapM (fun i => rowSlice wd (n * (i + 1)) n)
  let n3 ← rowAt wd (n * (dim + 1))
  .ok ⟨n0i, n2v, n3⟩

/-- `n2i` of /repo/src/dft/association.rs:90-94. -/
def assocN2i (p : PcSaftParameters n F) (r : Fin n → D) (wd : AssocDensities n D) (i : Fin n) : D :=
  wd.n0i i * (DualNum.powi (r i) 2 * c (p.m i * 4.0 * F64.pi))

/-- `rho0` of /repo/src/dft/association.rs:95-106. -/
def assocRho0 (p : PcSaftParameters n F) (r : Fin n → D) (wd : AssocDensities n D) (i : Fin n) : D :=
  let n2i := assocN2i p r wd i
  if F64.lt (DualNum.re (wd.n0i i)) N0_CUTOFF then wd.n0i i
  else (wd.n2v.foldl (fun acc v => acc + v i * v i) (c (0.0 : F)) / -(n2i * n2i) + c 1.0) * wd.n0i i

/-- `n2` of /repo/src/dft/association.rs:110. -/
def assocN2Total (p : PcSaftParameters n F) (r : Fin n → D) (wd : AssocDensities n D) : D :=
  sumFin (assocN2i p r wd)

/-- `xi` of /repo/src/dft/association.rs:109-123. -/
def assocXi (p : PcSaftParameters n F) (r : Fin n → D) (wd : AssocDensities n D) : D :=
  let n2 := assocN2Total p r wd
  if F64.lt (DualNum.re (sumFin wd.n0i)) N0_CUTOFF then c (1.0 : F)
  else (wd.n2v.foldl (fun acc v => acc + sumFin v * sumFin v) (c (0.0 : F))) / -(n2 * n2) + c 1.0

/-- The single-component branch of /repo/src/dft/association.rs:129-151 at one grid point. -/
def assocFunctionalSingle (p : PcSaftParameters n F) (temperature : D) (a : Fin n)
    (wd : AssocDensities n D) : D :=
  let r := fun i => hsDiameter p temperature i * c 0.5
  let rho0 := assocRho0 p r wd a
  let n2 := assocN2Total p r wd
  let xi := assocXi p r wd
  let n3i := DualNum.recip (-wd.n3 + c 1.0)
  let k := n2 * n3i * r a
  let deltarho := ((k / c 18.0 + c 0.5) * k * xi + c 1.0) * n3i
    * (DualNum.expm1 (DualNum.recip temperature * c (p.epsilon_k_aibj a a))
      * c (F64.powi (p.sigma a) 3 * p.kappa_aibj a a))
    * rho0
  let na := p.na a
  let nb := p.nb a
  if F64.lt 0.0 nb then
    let xa := assocSiteFracAB deltarho na nb
    let xb := (xa - c 1.0) * c (na / nb) + c 1.0
    (assocF xa * c na + assocF xb * c nb) * rho0
  else
    let xa := assocSiteFracA deltarho na
    assocF xa * c na * rho0

/-- One grid point of the cross-association branch, /repo/src/dft/association.rs:162-175: result and
new warm-start array. -/
def assocFunctionalCrossPoint (la : LinAlg F D) (p : PcSaftParameters n F) (max_iter : Nat) (tol : F)
    (temperature : D) (wd : AssocDensities n D)
    (x : Fin p.assoc_comp.length ⊕ Fin p.assoc_comp.length → F) :
    Except EosError D × Option (Fin p.assoc_comp.length ⊕ Fin p.assoc_comp.length → F) :=
  let r := fun i => hsDiameter p temperature i * c 0.5
  let n3i := DualNum.recip (-wd.n3 + c 1.0)
  crossAssociationDensity p la.nderiv (la.solveF _) (la.solveD _) temperature (assocRho0 p r wd) r
    (assocN2Total p r wd) n3i (assocXi p r wd) max_iter tol (some x)

/-- The sequential iteration over the grid, /repo/src/dft/association.rs:153-176: the warm start is
carried from point to point and the first error ends the evaluation. -/
def assocFunctionalCrossGrid (la : LinAlg F D) (p : PcSaftParameters n F) (max_iter : Nat) (tol : F)
    (temperature : D) :
    (Fin p.assoc_comp.length ⊕ Fin p.assoc_comp.length → F) → List (AssocDensities n D) →
      Except EosError (List D)
  | _, [] => .ok []
  | x, wd :: rest =>
    match assocFunctionalCrossPoint la p max_iter tol temperature wd x with
    | (.error e, _) => .error e
    | (.ok phi, x') =>
      match assocFunctionalCrossGrid la p max_iter tol temperature (x'.getD x) rest with
      | .error e => .error e
      | .ok phis => .ok (phi :: phis)

/-- `AssociationFunctional::calculate_helmholtz_energy_density`, /repo/src/dft/association.rs:64-180, on
a grid given as the list of its points (each a list of rows). -/
def associationFunctional (la : LinAlg F D) (p : PcSaftParameters n F) (max_iter : Nat) (tol : F)
    (temperature : D) (grid : List (List D)) : Except Panic (Except EosError (List D)) := do
  let pts ← grid.mapM (assocDecode n)
  match p.assoc_comp with
  | [a] => .ok (.ok (pts.map (assocFunctionalSingle p temperature a)))
  | _ => .ok (assocFunctionalCrossGrid la p max_iter tol temperature (fun _ => 0.2) pts)

end PcSaft
