import Verif.Model.Dispersion

/-!
# Model of /repo/src/eos/polar.rs
-/

namespace PcSaft
variable {F D : Type} [F64 F] [DualNum F D] {n : Nat}

/-- /repo/src/eos/polar.rs:9 -/
def ALPHA : F := 1.1937350

/-- /repo/src/eos/polar.rs:12-18 -/
def AD : Fin 5 → Fin 3 → F := ![
    ![0.30435038064, 0.95346405973, -1.16100802773],
    ![-0.13585877707, -1.83963831920, 4.52586067320],
    ![1.44933285154, 2.01311801180, 0.97512223853],
    ![0.35569769252, -7.37249576667, -12.2810377713],
    ![-2.06533084541, 8.23741345333, 5.93975747420]]

/-- /repo/src/eos/polar.rs:20-26 -/
def BD : Fin 5 → Fin 3 → F := ![
    ![0.21879385627, -0.58731641193, 3.48695755800],
    ![-1.18964307357, 1.24891317047, -14.9159739347],
    ![1.16268885692, -0.50852797392, 15.3720218600],
    ![0.0, 0.0, 0.0],
    ![0.0, 0.0, 0.0]]

/-- /repo/src/eos/polar.rs:28-33 -/
def CD : Fin 4 → Fin 3 → F := ![
    ![-0.06467735252, -0.95208758351, -0.62609792333],
    ![0.19758818347, 2.99242575222, 1.29246858189],
    ![-0.80875619458, -2.38026356489, 1.65427830900],
    ![0.69028490492, -0.27012609786, -3.43967436378]]

/-- /repo/src/eos/polar.rs:36-42 -/
def AQ : Fin 5 → Fin 3 → F := ![
    ![1.237830788, 1.285410878, 1.794295401],
    ![2.435503144, -11.46561451, 0.769510293],
    ![1.633090469, 22.08689285, 7.264792255],
    ![-1.611815241, 7.46913832, 94.48669892],
    ![6.977118504, -17.19777208, -77.1484579]]

/-- /repo/src/eos/polar.rs:44-50 -/
def BQ : Fin 5 → Fin 3 → F := ![
    ![0.454271755, -0.813734006, 6.868267516],
    ![-4.501626435, 10.06402986, -5.173223765],
    ![3.585886783, -10.87663092, -17.2402066],
    ![0.0, 0.0, 0.0],
    ![0.0, 0.0, 0.0]]

/-- /repo/src/eos/polar.rs:52-57 -/
def CQ : Fin 4 → Fin 3 → F := ![
    ![-0.500043713, 2.000209381, 3.135827145],
    ![6.531869153, -6.78386584, 7.247588801],
    ![-16.01477983, 20.38324603, 3.075947834],
    ![14.42597018, -10.89598394, 0.0]]

/-- /repo/src/eos/polar.rs:60-65 -/
def ADQ : Fin 4 → Fin 3 → F := ![
    ![0.697094963, -0.673459279, 0.670340770],
    ![-0.633554144, -1.425899106, -4.338471826],
    ![2.945509028, 4.19441392, 7.234168360],
    ![-1.467027314, 1.0266216, 0.0]]

/-- /repo/src/eos/polar.rs:67-72 -/
def BDQ : Fin 4 → Fin 3 → F := ![
    ![-0.484038322, 0.67651011, -1.167560146],
    ![1.970405465, -3.013867512, 2.13488432],
    ![-2.118572671, 0.46742656, 0.0],
    ![0.0, 0.0, 0.0]]

/-- /repo/src/eos/polar.rs:74-78 -/
def CDQ : Fin 3 → Fin 2 → F := ![
    ![0.795009692, -2.099579397],
    ![3.386863396, -5.941376392],
    ![0.475106328, -0.178820384]]

/-- /repo/src/eos/polar.rs:80 -/
def PI_SQ_43 : F := 4.0 * F64.pi * (F64.pi / 3.0)

/-- `MeanSegmentNumbers`, /repo/src/eos/polar.rs:82-87, for `k` polar components. -/
structure MeanSegmentNumbers (k : Nat) (F : Type) where
  mij1 : Fin k → Fin k → F
  mij2 : Fin k → Fin k → F
  mijk1 : Fin k → Fin k → Fin k → F
  mijk2 : Fin k → Fin k → Fin k → F

/-- `(m - 1.0) / m` -/
def meanSeg1 (m : F) : F := (m - 1.0) / m
/-- `(m - 1.0) / m * (m - 2.0) / m` -/
def meanSeg2 (m : F) : F := meanSeg1 m * (m - 2.0) / m

/-- `MeanSegmentNumbers::new`, /repo/src/eos/polar.rs:94-146, for the list `comp` of polar components.
The arrays start as zeros and only the entries on and above the diagonal are written. -/
def MeanSegmentNumbers.new (m : Fin n → F) (comp : List (Fin n)) :
    MeanSegmentNumbers comp.length F :=
  let mi := fun (i : Fin comp.length) => F64.min (m (comp.get i)) 2.0
  { mij1 := fun i j =>
      if i = j then meanSeg1 (mi i)
      else if i < j then meanSeg1 (F64.sqrt (mi i * mi j))
      else 0.0
    mij2 := fun i j =>
      if i = j then meanSeg2 (mi i)
      else if i < j then meanSeg2 (F64.sqrt (mi i * mi j))
      else 0.0
    mijk1 := fun i j k =>
      if i = j ∧ j = k then meanSeg1 (mi i)
      else if i = j ∧ j < k then meanSeg1 (F64.cbrt (mi i * mi i * mi k))
      else if i < j ∧ j = k then meanSeg1 (F64.cbrt (mi i * mi j * mi j))
      else if i < j ∧ j < k then meanSeg1 (F64.cbrt (mi i * mi j * mi k))
      else 0.0
    mijk2 := fun i j k =>
      if i = j ∧ j = k then meanSeg2 (mi i)
      else if i = j ∧ j < k then meanSeg2 (F64.cbrt (mi i * mi i * mi k))
      else if i < j ∧ j = k then meanSeg2 (F64.cbrt (mi i * mi j * mi j))
      else if i < j ∧ j < k then meanSeg2 (F64.cbrt (mi i * mi j * mi k))
      else 0.0 }

/-- The first `k ≤ 5` powers `[1, eta, eta², eta³, eta⁴]` of /repo/src/eos/polar.rs:156-157,170-171,178. -/
def etas (eta : D) : Fin 5 → D :=
  let eta2 := eta * eta
  ![c (1.0 : F), eta, eta2, eta2 * eta, eta2 * eta2]

/-- `pair_integral_ij`, /repo/src/eos/polar.rs:148-167.  `k` is the table length. -/
def pairIntegral {k : Nat} (hk : k ≤ 5) (mij1 mij2 : F) (eta : D) (a b : Fin k → Fin 3 → F)
    (eps_ij_t : D) : D :=
  sumFin (fun i : Fin k => etas eta (i.castLE hk)
    * (eps_ij_t * c (b i 0 + mij1 * b i 1 + mij2 * b i 2)
      + c (a i 0)
      + c (mij1 * a i 1)
      + c (mij2 * a i 2)))

/-- `triplet_integral_ijk`, /repo/src/eos/polar.rs:169-175. -/
def tripletIntegral (mijk1 mijk2 : F) (eta : D) (cc : Fin 4 → Fin 3 → F) : D :=
  sumFin (fun i : Fin 4 => etas eta (i.castLE (by decide))
    * c (cc i 0 + mijk1 * cc i 1 + mijk2 * cc i 2))

/-- `triplet_integral_ijk_dq`, /repo/src/eos/polar.rs:177-182. -/
def tripletIntegralDQ (mijk : F) (eta : D) (cc : Fin 3 → Fin 2 → F) : D :=
  sumFin (fun i : Fin 3 => etas eta (i.castLE (by decide)) * c (cc i 0 + mijk * cc i 1))

/-- `phi2 * phi2 / (phi2 - phi3) * volume` with the NaN fallback, /repo/src/eos/polar.rs:266-270,
363-367 and 478-482. -/
def padeVolume (phi2 phi3 volume : D) : D :=
  let result := phi2 * phi2 / (phi2 - phi3) * volume
  if F64.isNan (DualNum.re result) then phi2 * volume else result

/-- `mu2_term` of /repo/src/eos/polar.rs:196-200 -/
def dipoleTerm (p : PcSaftParameters n F) (t_inv : D) (i : Fin n) : D :=
  t_inv * c (F64.powi (p.sigma_ij i i) 3) * c (p.epsilon_k i) * c (p.mu2 i)

/-- The accumulation of `phi2` in `Dipole::helmholtz_energy`, /repo/src/eos/polar.rs:206-263. -/
def dipolePhi2 (p : PcSaftParameters n F) (temperature : D) (rho : Fin n → D) (eta : D) : D :=
  let t_inv := DualNum.recip temperature
  let comp := p.dipole_comp
  let m := MeanSegmentNumbers.new p.m comp
  let mu2_term := fun (i : Fin comp.length) => dipoleTerm p t_inv (comp.get i)
  Fin.foldl comp.length (fun phi2 i =>
    let di := comp.get i
    let phi2 := phi2 - rho di * rho di * mu2_term i * mu2_term i
      * pairIntegral (by decide) (m.mij1 i i) (m.mij2 i i) eta AD BD (t_inv * c (p.e_k_ij di di))
      / c (F64.powi (p.sigma_ij di di) 3)
    foldUpper i (fun phi2 j =>
      let dj := comp.get j
      phi2 - rho di * rho dj * mu2_term i * mu2_term j
        * pairIntegral (by decide) (m.mij1 i j) (m.mij2 i j) eta AD BD (t_inv * c (p.e_k_ij di dj))
        / c (F64.powi (p.sigma_ij di dj) 3) * c 2.0) phi2) (c (0.0 : F))

/-- The accumulation of `phi3` in `Dipole::helmholtz_energy`, /repo/src/eos/polar.rs:206-263. -/
def dipolePhi3 (p : PcSaftParameters n F) (temperature : D) (rho : Fin n → D) (eta : D) : D :=
  let t_inv := DualNum.recip temperature
  let comp := p.dipole_comp
  let m := MeanSegmentNumbers.new p.m comp
  let mu2_term := fun (i : Fin comp.length) => dipoleTerm p t_inv (comp.get i)
  Fin.foldl comp.length (fun phi3 i =>
    let di := comp.get i
    let phi3 := phi3 - rho di * rho di * rho di * mu2_term i * mu2_term i * mu2_term i
      * tripletIntegral (m.mijk1 i i i) (m.mijk2 i i i) eta CD
      / c (F64.powi (p.sigma_ij di di) 3)
    foldUpper i (fun phi3 j =>
      let dj := comp.get j
      let phi3 := phi3 - rho di * rho di * rho dj * mu2_term i * mu2_term i * mu2_term j
        / c (p.sigma_ij di di * p.sigma_ij di dj * p.sigma_ij di dj)
        * tripletIntegral (m.mijk1 i i j) (m.mijk2 i i j) eta CD * c 3.0
      let phi3 := phi3 - rho di * rho dj * rho dj * mu2_term i * mu2_term j * mu2_term j
        / c (p.sigma_ij di dj * p.sigma_ij di dj * p.sigma_ij dj dj)
        * tripletIntegral (m.mijk1 i j j) (m.mijk2 i j j) eta CD * c 3.0
      foldUpper j (fun phi3 k =>
        let dk := comp.get k
        phi3 - rho di * rho dj * rho dk * mu2_term i * mu2_term j * mu2_term k
          / c (p.sigma_ij di dj * p.sigma_ij di dk * p.sigma_ij dj dk)
          * tripletIntegral (m.mijk1 i j k) (m.mijk2 i j k) eta CD * c 6.0) phi3) phi3)
    (c (0.0 : F))

/-- `Dipole::helmholtz_energy`, /repo/src/eos/polar.rs:188-272. -/
def dipole (p : PcSaftParameters n F) (state : StateHD n D) : D :=
  let rho := state.partial_density
  let r := fun i => hsDiameter p state.temperature i * c 0.5
  let eta := packingFraction p.m rho r
  let phi2 := dipolePhi2 p state.temperature rho eta * c F64.pi
  let phi3 := dipolePhi3 p state.temperature rho eta * c PI_SQ_43
  padeVolume phi2 phi3 state.volume

/-- `q2_term` of /repo/src/eos/polar.rs:292-296 -/
def quadrupoleTerm (p : PcSaftParameters n F) (t_inv : D) (i : Fin n) : D :=
  t_inv * c (F64.powi (p.sigma i) 5) * c (p.epsilon_k i) * c (p.q2 i)

/-- The accumulation of `phi2` in `Quadrupole::helmholtz_energy`, /repo/src/eos/polar.rs:302-359.
Note the index pair `[[di, di]]` in the divisor of the cross term (line 341). -/
def quadrupolePhi2 (p : PcSaftParameters n F) (temperature : D) (rho : Fin n → D) (eta : D) : D :=
  let t_inv := DualNum.recip temperature
  let comp := p.quadpole_comp
  let m := MeanSegmentNumbers.new p.m comp
  let q2_term := fun (i : Fin comp.length) => quadrupoleTerm p t_inv (comp.get i)
  Fin.foldl comp.length (fun phi2 i =>
    let di := comp.get i
    let phi2 := phi2 - (rho di * rho di * q2_term i * q2_term i
      * pairIntegral (by decide) (m.mij1 i i) (m.mij2 i i) eta AQ BQ (t_inv * c (p.e_k_ij di di)))
      / c (F64.powi (p.sigma_ij di di) 7)
    foldUpper i (fun phi2 j =>
      let dj := comp.get j
      phi2 - (rho di * rho dj * q2_term i * q2_term j
        * pairIntegral (by decide) (m.mij1 i j) (m.mij2 i j) eta AQ BQ (t_inv * c (p.e_k_ij di dj)))
        / c (F64.powi (p.sigma_ij di di) 7) * c 2.0) phi2) (c (0.0 : F))

/-- The accumulation of `phi3` in `Quadrupole::helmholtz_energy`, /repo/src/eos/polar.rs:302-359. -/
def quadrupolePhi3 (p : PcSaftParameters n F) (temperature : D) (rho : Fin n → D) (eta : D) : D :=
  let t_inv := DualNum.recip temperature
  let comp := p.quadpole_comp
  let m := MeanSegmentNumbers.new p.m comp
  let q2_term := fun (i : Fin comp.length) => quadrupoleTerm p t_inv (comp.get i)
  let sig_ij_3 := fun i j => F64.powi (p.sigma_ij i j) 3
  Fin.foldl comp.length (fun phi3 i =>
    let di := comp.get i
    let phi3 := phi3 + (rho di * rho di * rho di * q2_term i * q2_term i * q2_term i
      * tripletIntegral (m.mijk1 i i i) (m.mijk2 i i i) eta CQ)
      / c (F64.powi (sig_ij_3 di di) 3)
    foldUpper i (fun phi3 j =>
      let dj := comp.get j
      let phi3 := phi3 + rho di * rho di * rho dj * q2_term i * q2_term i * q2_term j
        / c (sig_ij_3 di di * sig_ij_3 di dj * sig_ij_3 di dj)
        * tripletIntegral (m.mijk1 i i j) (m.mijk2 i i j) eta CQ * c 3.0
      let phi3 := phi3 + rho di * rho dj * rho dj * q2_term i * q2_term j * q2_term j
        / c (sig_ij_3 di dj * sig_ij_3 di dj * sig_ij_3 dj dj)
        * tripletIntegral (m.mijk1 i j j) (m.mijk2 i j j) eta CQ * c 3.0
      foldUpper j (fun phi3 k =>
        let dk := comp.get k
        phi3 + rho di * rho dj * rho dk * q2_term i * q2_term j * q2_term k
          / c (sig_ij_3 di dj * sig_ij_3 di dk * sig_ij_3 dj dk)
          * tripletIntegral (m.mijk1 i j k) (m.mijk2 i j k) eta CQ * c 6.0) phi3) phi3)
    (c (0.0 : F))

/-- `Quadrupole::helmholtz_energy`, /repo/src/eos/polar.rs:284-369. -/
def quadrupole (p : PcSaftParameters n F) (state : StateHD n D) : D :=
  let rho := state.partial_density
  let r := fun i => hsDiameter p state.temperature i * c 0.5
  let eta := packingFraction p.m rho r
  let phi2 := quadrupolePhi2 p state.temperature rho eta * c (F64.pi * 0.5625)
  let phi3 := quadrupolePhi3 p state.temperature rho eta * c (F64.pi * F64.pi * 0.5625)
  padeVolume phi2 phi3 state.volume

/-- `DQVariants`, /repo/src/eos/polar.rs:377-381. -/
inductive DQVariants where
  | DQ35
  | DQ44
  deriving DecidableEq, Repr

/-- `q2_term` and `mu2_term` of /repo/src/eos/polar.rs:395-404 (`x2 = q2` or `mu2`). -/
def dqTerm (p : PcSaftParameters n F) (x2 : Fin n → F) (t_inv : D) (i : Fin n) : D :=
  t_inv * c (F64.powi (p.sigma i) 4) * c (p.epsilon_k i) * c (x2 i)

/-- `mu2_q2_term` of /repo/src/eos/polar.rs:445-448. -/
def muQTerm (v : DQVariants) (p : PcSaftParameters n F) (t_inv : D) (di qj : Fin n) : D :=
  match v with
  | .DQ35 => dqTerm p p.mu2 t_inv di / c (p.sigma di) * dqTerm p p.q2 t_inv qj * c (p.sigma qj)
  | .DQ44 => dqTerm p p.mu2 t_inv di * dqTerm p p.q2 t_inv qj

/-- The mean segment number `m` of a dipole-quadrupole pair, /repo/src/eos/polar.rs:417-421. -/
def mdqPair (p : PcSaftParameters n F) (i j : Fin n) : F :=
  F64.sqrt (F64.min (p.m i) 2.0 * F64.min (p.m j) 2.0)

/-- The mean segment number `m` of a triplet, /repo/src/eos/polar.rs:426-434. -/
def mdqTriplet (p : PcSaftParameters n F) (i j k : Fin n) : F :=
  F64.cbrt (F64.min (p.m i) 2.0 * F64.min (p.m j) 2.0 * F64.min (p.m k) 2.0)

/-- The accumulation of `phi2` in `DipoleQuadrupole::helmholtz_energy`,
/repo/src/eos/polar.rs:439-474. -/
def dipoleQuadrupolePhi2 (v : DQVariants) (p : PcSaftParameters n F) (temperature : D)
    (rho : Fin n → D) (eta : D) : D :=
  let t_inv := DualNum.recip temperature
  Fin.foldl p.dipole_comp.length (fun phi2 i =>
    Fin.foldl p.quadpole_comp.length (fun phi2 j =>
      let di := p.dipole_comp.get i
      let qj := p.quadpole_comp.get j
      let m := mdqPair p di qj
      phi2 - rho di * rho qj * muQTerm v p t_inv di qj / c (F64.powi (p.sigma_ij di qj) 5)
        * pairIntegral (by decide) (meanSeg1 m) (meanSeg2 m) eta ADQ BDQ
            (t_inv * c (p.e_k_ij di qj))) phi2) (c (0.0 : F))

/-- The accumulation of `phi3` in `DipoleQuadrupole::helmholtz_energy`,
/repo/src/eos/polar.rs:439-474. -/
def dipoleQuadrupolePhi3 (p : PcSaftParameters n F) (temperature : D) (rho : Fin n → D) (eta : D) :
    D :=
  let t_inv := DualNum.recip temperature
  let mu2_term := dqTerm p p.mu2 t_inv
  let q2_term := dqTerm p p.q2 t_inv
  Fin.foldl p.dipole_comp.length (fun phi3 i =>
    Fin.foldl p.quadpole_comp.length (fun phi3 j =>
      let di := p.dipole_comp.get i
      let qj := p.quadpole_comp.get j
      let phi3 := Fin.foldl p.dipole_comp.length (fun phi3 k =>
        let dk := p.dipole_comp.get k
        phi3 + rho di * rho qj * rho dk * mu2_term di * q2_term qj * mu2_term dk
          / c (F64.powi (p.sigma_ij di qj * p.sigma_ij di dk * p.sigma_ij qj dk) 2)
          * tripletIntegralDQ (meanSeg1 (mdqTriplet p di qj dk)) eta CDQ) phi3
      Fin.foldl p.quadpole_comp.length (fun phi3 k =>
        let qk := p.quadpole_comp.get k
        phi3 + rho di * rho qj * rho qk * mu2_term di * q2_term qj * q2_term qk
          / c (F64.powi (p.sigma_ij di qj * p.sigma_ij di qk * p.sigma_ij qj qk) 2)
          * c ALPHA
          * tripletIntegralDQ (meanSeg1 (mdqTriplet p di qj qk)) eta CDQ) phi3) phi3)
    (c (0.0 : F))

/-- `DipoleQuadrupole::helmholtz_energy`, /repo/src/eos/polar.rs:388-484. -/
def dipoleQuadrupole (v : DQVariants) (p : PcSaftParameters n F) (state : StateHD n D) : D :=
  let rho := state.partial_density
  let r := fun i => hsDiameter p state.temperature i * c 0.5
  let eta := packingFraction p.m rho r
  let phi2 := dipoleQuadrupolePhi2 v p state.temperature rho eta * c (F64.pi * 2.25)
  let phi3 := dipoleQuadrupolePhi3 p state.temperature rho eta * c (F64.pi * F64.pi)
  padeVolume phi2 phi3 state.volume

end PcSaft
