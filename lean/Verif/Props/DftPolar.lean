import Verif.Props.DftAttractive

/-!
# C38, C39: the polar parts of the attractive functionals of a homogeneous fluid
-/

namespace PcSaft.Props
open PcSaft Spec
variable {n : ℕ} {T V : ℝ}

theorem dftPade_real (a b : ℝ) : dftPade a b = a * a / (a - b) := by
  simp [dftPade]

theorem padeVolume_real (a b V : ℝ) : padeVolume a b V = a * a / (a - b) * V := by
  simp [padeVolume]

theorem dftPairIntegral_eq {k : ℕ} (hk : k ≤ 5) (m1 m2 eta : ℝ) (a b : Fin k → Fin 3 → ℝ) (e : ℝ) :
    dftPairIntegral hk m1 m2 eta a b e = pairIntegral hk m1 m2 eta a b e := rfl
theorem dftTripletIntegral_eq (m1 m2 eta : ℝ) (cc : Fin 4 → Fin 3 → ℝ) :
    dftTripletIntegral m1 m2 eta cc = tripletIntegral m1 m2 eta cc := rfl
theorem dftTripletIntegralDQ_eq (m eta : ℝ) (cc : Fin 3 → Fin 2 → ℝ) :
    dftTripletIntegralDQ m eta cc = tripletIntegralDQ m eta cc := rfl

theorem fromRecords_e_diag (pr : Fin n → PureRecord ℝ) (k : Fin n → Fin n → ℝ)
    (he : ∀ i, 0 ≤ (pr i).model_record.epsilon_k) (i : Fin n) :
    (fromRecords pr k).e_k_ij i i = (fromRecords pr k).epsilon_k i := by
  change Real.sqrt ((pr i).model_record.epsilon_k * (pr i).model_record.epsilon_k) = (pr i).model_record.epsilon_k
  exact Real.sqrt_mul_self (he i)

section loops
variable {p : PcSaftParameters n ℝ} (he : ∀ i, p.e_k_ij i i = p.epsilon_k i)
include he

theorem dftDipolePhi2_eq (T : ℝ) (rho : Fin n → ℝ) (eta : ℝ) :
    dftDipolePhi2 p T rho eta = dipolePhi2 p T rho eta := by
  have hmu : ∀ i, T⁻¹ * p.e_k_ij i i * p.sigma_ij i i ^ 3 * p.mu2 i = dipoleTerm p T⁻¹ i := by
    intro i
    simp only [dipoleTerm, c, ofF_real, powi_real, he]
    ring
  have h2 : (2.0 : ℝ) = 2 := by norm_num
  unfold dftDipolePhi2 dipolePhi2
  simp only [c, ofF_real, recip_real, powi_real, dftPairIntegral_eq, hmu, h2]
  congr 1
  funext acc i
  congr 1
  · funext acc j
    ring
  · ring

theorem dftDipolePhi3_eq (T : ℝ) (rho : Fin n → ℝ) (eta : ℝ) :
    dftDipolePhi3 p T rho eta = dipolePhi3 p T rho eta := by
  have hmu : ∀ i, T⁻¹ * p.e_k_ij i i * p.sigma_ij i i ^ 3 * p.mu2 i = dipoleTerm p T⁻¹ i := by
    intro i
    simp only [dipoleTerm, c, ofF_real, powi_real, he]
    ring
  have h3 : (3.0 : ℝ) = 3 := by norm_num
  have h6 : (6.0 : ℝ) = 6 := by norm_num
  unfold dftDipolePhi3 dipolePhi3
  simp only [c, ofF_real, recip_real, powi_real, dftTripletIntegral_eq, hmu, h3, h6]
  congr 1
  funext acc i
  congr 1
  · funext acc j
    congr 1
    · funext acc k
      ring
    · ring
  · ring

theorem dftDipoleQuadrupolePhi2_eq (T : ℝ) (rho : Fin n → ℝ) (eta : ℝ) :
    dftDipoleQuadrupolePhi2 p T rho eta = dipoleQuadrupolePhi2 .DQ35 p T rho eta := by
  have hmu : ∀ i, T⁻¹ * p.e_k_ij i i * p.sigma i ^ 4 * p.mu2 i = dqTerm p p.mu2 T⁻¹ i := by
    intro i
    simp only [dqTerm, c, ofF_real, powi_real, he]
    ring
  have hq : ∀ i, T⁻¹ * p.e_k_ij i i * p.sigma i ^ 4 * p.q2 i = dqTerm p p.q2 T⁻¹ i := by
    intro i
    simp only [dqTerm, c, ofF_real, powi_real, he]
    ring
  unfold dftDipoleQuadrupolePhi2 dipoleQuadrupolePhi2
  simp only [c, ofF_real, recip_real, powi_real, dftPairIntegral_eq, hmu, hq, muQTerm]
  congr 1
  funext acc i
  congr 1
  funext acc j
  ring

theorem dftDipoleQuadrupolePhi3_eq (T : ℝ) (rho : Fin n → ℝ) (eta : ℝ) :
    dftDipoleQuadrupolePhi3 p T rho eta = dipoleQuadrupolePhi3 p T rho eta := by
  have hmu : ∀ i, T⁻¹ * p.e_k_ij i i * p.sigma i ^ 4 * p.mu2 i = dqTerm p p.mu2 T⁻¹ i := by
    intro i
    simp only [dqTerm, c, ofF_real, powi_real, he]
    ring
  have hq : ∀ i, T⁻¹ * p.e_k_ij i i * p.sigma i ^ 4 * p.q2 i = dqTerm p p.q2 T⁻¹ i := by
    intro i
    simp only [dqTerm, c, ofF_real, powi_real, he]
    ring
  unfold dftDipoleQuadrupolePhi3 dipoleQuadrupolePhi3
  simp only [c, ofF_real, recip_real, powi_real, dftTripletIntegralDQ_eq, hmu, hq]
  congr 1
  funext acc i
  congr 1
  funext acc j
  congr 1
  · funext acc k
    ring
  · congr 1
    funext acc k
    ring

theorem dftQuadrupolePhi3_eq (T : ℝ) (rho : Fin n → ℝ) (eta : ℝ) :
    dftQuadrupolePhi3 p T rho eta = quadrupolePhi3 p T rho eta := by
  have hq : ∀ i, T⁻¹ * p.e_k_ij i i * p.sigma i ^ 5 * p.q2 i = quadrupoleTerm p T⁻¹ i := by
    intro i
    simp only [quadrupoleTerm, c, ofF_real, powi_real, he]
    ring
  have h3 : (3.0 : ℝ) = 3 := by norm_num
  have h6 : (6.0 : ℝ) = 6 := by norm_num
  unfold dftQuadrupolePhi3 quadrupolePhi3
  simp only [c, ofF_real, recip_real, powi_real, dftTripletIntegral_eq, hq, h3, h6]
  congr 1
  funext acc i
  congr 1
  · funext acc j
    congr 1
    · funext acc k
      ring
    · ring
  · ring

theorem dftQuadrupolePhi2_eq_of_single (h1 : p.quadpole_comp.length ≤ 1) (T : ℝ) (rho : Fin n → ℝ) (eta : ℝ) :
    dftQuadrupolePhi2 p T rho eta = quadrupolePhi2 p T rho eta := by
  have hq : ∀ i, T⁻¹ * p.e_k_ij i i * p.sigma i ^ 5 * p.q2 i = quadrupoleTerm p T⁻¹ i := by
    intro i
    simp only [quadrupoleTerm, c, ofF_real, powi_real, he]
    ring
  unfold dftQuadrupolePhi2 quadrupolePhi2
  simp only [c, ofF_real, recip_real, powi_real, dftPairIntegral_eq, hq]
  congr 1
  funext acc i
  have e : ∀ (s s' : ℝ → Fin p.quadpole_comp.length → ℝ) (a a' : ℝ), a = a' → foldUpper i s a = foldUpper i s' a' := by
    intro s s' a a' ha
    rw [ha]
    apply foldUpper_congr
    intro acc j hij
    have hi := i.2
    have hj := j.2
    have : i.val < j.val := hij
    omega
  apply e
  ring

end loops

variable (pr : Fin n → PureRecord ℝ) (k : Fin n → Fin n → ℝ)

/-- C38: in a homogeneous mixture the dipole part of the functional is the dipole contribution of the
equation of state. -/
theorem C38_dipole_bulk (he : ∀ i, 0 ≤ (pr i).model_record.epsilon_k) (T V : ℝ) (moles : Fin n → ℝ) :
    let p := fromRecords pr k
    let rho := fun i => moles i / V
    V * dftDipole p T rho (dftEta p T rho) = dipole p (StateHD.new T V moles) := by
  intro p rho
  have hd := fromRecords_e_diag pr k he
  have e : dipole p (StateHD.new T V moles) = padeVolume (dipolePhi2 p T rho (packingFraction p.m rho
      (fun i => hsDiameter p T i * c (0.5 : ℝ))) * c F64.pi) (dipolePhi3 p T rho (packingFraction p.m rho
      (fun i => hsDiameter p T i * c (0.5 : ℝ))) * c PI_SQ_43) V := rfl
  rw [e, ← dftEta_eq, padeVolume_real, dftDipole, dftPade_real, dftDipolePhi2_eq hd, dftDipolePhi3_eq hd]
  ring

/-- C38: in a homogeneous mixture the dipole-quadrupole part of the functional is the
dipole-quadrupole contribution of the equation of state with variant DQ35. -/
theorem C38_dipole_quadrupole_bulk (he : ∀ i, 0 ≤ (pr i).model_record.epsilon_k) (T V : ℝ)
    (moles : Fin n → ℝ) :
    let p := fromRecords pr k
    let rho := fun i => moles i / V
    V * dftDipoleQuadrupole p T rho (dftEta p T rho) = dipoleQuadrupole .DQ35 p (StateHD.new T V moles) := by
  intro p rho
  have hd := fromRecords_e_diag pr k he
  have e : dipoleQuadrupole .DQ35 p (StateHD.new T V moles) = padeVolume (dipoleQuadrupolePhi2 .DQ35 p T rho
      (packingFraction p.m rho (fun i => hsDiameter p T i * c (0.5 : ℝ))) * c (F64.pi * 2.25))
      (dipoleQuadrupolePhi3 p T rho (packingFraction p.m rho
      (fun i => hsDiameter p T i * c (0.5 : ℝ))) * c (F64.pi * F64.pi)) V := rfl
  rw [e, ← dftEta_eq, padeVolume_real, dftDipoleQuadrupole, dftPade_real, dftDipoleQuadrupolePhi2_eq hd,
    dftDipoleQuadrupolePhi3_eq hd]
  ring

/-- C39, the part that holds: with at most one quadrupolar component the quadrupole part of the
functional is the quadrupole contribution of the equation of state.  Missing: two or more quadrupolar
components, see `C39_counterexample`. -/
theorem C39_quadrupole_bulk_partial (he : ∀ i, 0 ≤ (pr i).model_record.epsilon_k)
    (h1 : (fromRecords pr k).nquadpole ≤ 1) (T V : ℝ) (moles : Fin n → ℝ) :
    let p := fromRecords pr k
    let rho := fun i => moles i / V
    V * dftQuadrupole p T rho (dftEta p T rho) = quadrupole p (StateHD.new T V moles) := by
  intro p rho
  have hd := fromRecords_e_diag pr k he
  have e : quadrupole p (StateHD.new T V moles) = padeVolume (quadrupolePhi2 p T rho (packingFraction p.m rho
      (fun i => hsDiameter p T i * c (0.5 : ℝ))) * c (F64.pi * 0.5625)) (quadrupolePhi3 p T rho
      (packingFraction p.m rho (fun i => hsDiameter p T i * c (0.5 : ℝ))) * c (F64.pi * F64.pi * 0.5625)) V := rfl
  rw [e, ← dftEta_eq, padeVolume_real, dftQuadrupole, dftPade_real,
    dftQuadrupolePhi2_eq_of_single hd h1, dftQuadrupolePhi3_eq hd]
  ring

/-- C37-C39 together: for mixtures with at most one quadrupolar component the attractive functional of
a homogeneous fluid is the sum of the attractive contributions which the equation of state with
variant DQ35 contains. -/
theorem C38_attractive_bulk (moles : Fin n → ℝ) (h : Admissible (fromRecords pr k) T V moles)
    (h1 : (fromRecords pr k).nquadpole ≤ 1) (psi : ℝ) (hpsi : psi ≠ 0) (dim : ℕ)
    (hrho : f64EPSILON < ∑ i, moles i / V) :
    let p := fromRecords pr k
    let s := StateHD.new T V moles
    attractiveFunctional p T ((attWeightFunctions p psi T).bulkRows dim (fun i => moles i / V))
      = .ok ((dispersion p s + (if 0 < p.ndipole then dipole p s else 0)
          + (if 0 < p.nquadpole then quadrupole p s else 0)
          + (if 0 < p.ndipole ∧ 0 < p.nquadpole then dipoleQuadrupole .DQ35 p s else 0)) / V) := by
  intro p s
  have hV := h.volume.ne'
  rw [C37_dispersion_bulk h psi hpsi dim hrho]
  have a1 := C38_dipole_bulk pr k h.epsilon_nonneg T V moles
  have a2 := C39_quadrupole_bulk_partial pr k h.epsilon_nonneg h1 T V moles
  have a3 := C38_dipole_quadrupole_bulk pr k h.epsilon_nonneg T V moles
  simp only at a1 a2 a3
  change _ = dipole p s at a1
  change _ = quadrupole p s at a2
  change _ = dipoleQuadrupole .DQ35 p s at a3
  have h0 : (0.0 : ℝ) = 0 := by norm_num
  simp only [dftPolar, c, ofF_real, h0]
  rw [← a1, ← a2, ← a3]
  congr 1
  change dispersion p s / V + _ = _
  split_ifs <;> (field_simp; try ring)

/-- C38: the dipole and quadrupole parts of the functional for pure components are those of the
equation of state. -/
theorem C38_pure_polar_bulk (pr : Fin 1 → PureRecord ℝ) (k : Fin 1 → Fin 1 → ℝ)
    (he : 0 ≤ (pr 0).model_record.epsilon_k) (hm : 0 ≤ (pr 0).model_record.m) (T V : ℝ) (moles : Fin 1 → ℝ) :
    let p := fromRecords pr k
    V * pureDipole p T (moles 0 / V) = dipole p (StateHD.new T V moles)
    ∧ V * pureQuadrupole p T (moles 0 / V) = quadrupole p (StateHD.new T V moles) := by
  intro p
  have hm' : ∀ i, 0 ≤ (pr i).model_record.m := fun i => by rw [Subsingleton.elim i 0]; exact hm
  have he' : ∀ i, 0 ≤ (pr i).model_record.epsilon_k := fun i => by rw [Subsingleton.elim i 0]; exact he
  have hp : PolarOk p := polarOk_fromRecords pr k hm'
  have hd : p.e_k_ij 0 0 = p.epsilon_k 0 := fromRecords_e_diag pr k he' 0
  have hz : ∀ rho : Fin 1 → ℝ, pureEta p T (rho 0) = zeta p.m rho (hsDiameter p T) 3 := by
    intro rho
    rw [pureEta_eq, packingFraction_eq_zeta]
  have hrho : (StateHD.new T V moles).partial_density = fun i => moles i / V := rfl
  have hm2 : F64.min (p.m 0) 2.0 = mdqPair p 0 0 := (mdqPair_self p 0 hm).symm
  have hm3 : F64.min (p.m 0) 2.0 = mdqTriplet p 0 0 0 := (mdqTriplet_self p 0).symm
  have hs := hp.sigma_diag 0
  constructor
  · rw [dipole_real p hp]
    simp only [StateHD.new_temperature, StateHD.new_volume, hrho, Finset.univ_unique, Fin.default_eq_zero,
      Finset.sum_singleton]
    have e := hz (fun i => moles i / V)
    rw [← e]
    unfold pureDipole
    simp only [dftPade_real, dftPairIntegral_eq, dftTripletIntegral_eq]
    rw [mul_comm V]
    have hI : pairIntegral (by decide) ((F64.min (p.m 0) 2.0 - 1.0) / F64.min (p.m 0) 2.0)
        ((F64.min (p.m 0) 2.0 - 1.0) / F64.min (p.m 0) 2.0 * (F64.min (p.m 0) 2.0 - 2.0) / F64.min (p.m 0) 2.0)
        (pureEta p T (moles 0 / V)) AD BD (DualNum.recip T * c (p.epsilon_k 0))
        = pairI (by decide) AD BD p T (pureEta p T (moles 0 / V)) 0 0 := by
      rw [hm2, ← hd, recip_real]
      rfl
    have hJ : tripletIntegral ((F64.min (p.m 0) 2.0 - 1.0) / F64.min (p.m 0) 2.0)
        ((F64.min (p.m 0) 2.0 - 1.0) / F64.min (p.m 0) 2.0 * (F64.min (p.m 0) 2.0 - 2.0) / F64.min (p.m 0) 2.0)
        (pureEta p T (moles 0 / V)) CD
        = tripI CD p (pureEta p T (moles 0 / V)) 0 0 0 := by
      rw [hm3]
      rfl
    rw [hI, hJ]
    have hK2 : dipK2 p T (pureEta p T (moles 0 / V)) 0 0
        = pairI (by decide) AD BD p T (pureEta p T (moles 0 / V)) 0 0
          * (T⁻¹ * p.epsilon_k 0 * p.sigma 0 ^ 3 * p.mu2 0) ^ 2 / p.sigma 0 ^ 3 := by
      simp only [dipK2, dipoleTerm, hs, c, ofF_real, powi_real]
      ring
    have hK3 : dipK3 p T (pureEta p T (moles 0 / V)) 0 0 0
        = tripI CD p (pureEta p T (moles 0 / V)) 0 0 0
          * (T⁻¹ * p.epsilon_k 0 * p.sigma 0 ^ 3 * p.mu2 0) ^ 3 / p.sigma 0 ^ 3 := by
      simp only [dipK3, dipoleTerm, hs, c, ofF_real, powi_real]
      ring
    rw [hK2, hK3]
    simp only [c, ofF_real, powi_real, recip_real, pi_real]
    generalize T⁻¹ * p.epsilon_k 0 * p.sigma 0 ^ 3 * p.mu2 0 = q
    generalize pairI (by decide) AD BD p T (pureEta p T (moles 0 / V)) 0 0 = P
    generalize tripI CD p (pureEta p T (moles 0 / V)) 0 0 0 = J
    generalize p.sigma 0 ^ 3 = s3
    congr 1
    congr 1
    · ring
    · ring
  · rw [quadrupole_real p hp]
    simp only [StateHD.new_temperature, StateHD.new_volume, hrho, Finset.univ_unique, Fin.default_eq_zero,
      Finset.sum_singleton]
    have e := hz (fun i => moles i / V)
    rw [← e]
    unfold pureQuadrupole
    simp only [dftPade_real, dftPairIntegral_eq, dftTripletIntegral_eq]
    rw [mul_comm V]
    have hI : pairIntegral (by decide) ((F64.min (p.m 0) 2.0 - 1.0) / F64.min (p.m 0) 2.0)
        ((F64.min (p.m 0) 2.0 - 1.0) / F64.min (p.m 0) 2.0 * (F64.min (p.m 0) 2.0 - 2.0) / F64.min (p.m 0) 2.0)
        (pureEta p T (moles 0 / V)) AQ BQ (DualNum.recip T * c (p.epsilon_k 0))
        = pairI (by decide) AQ BQ p T (pureEta p T (moles 0 / V)) 0 0 := by
      rw [hm2, ← hd, recip_real]
      rfl
    have hJ : tripletIntegral ((F64.min (p.m 0) 2.0 - 1.0) / F64.min (p.m 0) 2.0)
        ((F64.min (p.m 0) 2.0 - 1.0) / F64.min (p.m 0) 2.0 * (F64.min (p.m 0) 2.0 - 2.0) / F64.min (p.m 0) 2.0)
        (pureEta p T (moles 0 / V)) CQ
        = tripI CQ p (pureEta p T (moles 0 / V)) 0 0 0 := by
      rw [hm3]
      rfl
    rw [hI, hJ]
    have hK2 : quadK2 p T (pureEta p T (moles 0 / V)) 0 0
        = pairI (by decide) AQ BQ p T (pureEta p T (moles 0 / V)) 0 0
          * (T⁻¹ * p.epsilon_k 0 * p.sigma 0 ^ 5 * p.q2 0) ^ 2 / p.sigma 0 ^ 7 := by
      simp only [quadK2, quadrupoleTerm, min_self, c, ofF_real, powi_real]
      ring
    have hK3 : quadK3 p T (pureEta p T (moles 0 / V)) 0 0 0
        = tripI CQ p (pureEta p T (moles 0 / V)) 0 0 0
          * (T⁻¹ * p.epsilon_k 0 * p.sigma 0 ^ 5 * p.q2 0) ^ 3 / (p.sigma 0 ^ 3) ^ 3 := by
      simp only [quadK3, quadrupoleTerm, hs, c, ofF_real, powi_real]
      ring
    rw [hK2, hK3]
    simp only [c, ofF_real, powi_real, recip_real, pi_real]
    have h9 : (0.5625 : ℝ) = 9 / 16 := by norm_num
    rw [h9]
    generalize T⁻¹ * p.epsilon_k 0 * p.sigma 0 ^ 5 * p.q2 0 = q
    generalize pairI (by decide) AQ BQ p T (pureEta p T (moles 0 / V)) 0 0 = P
    generalize tripI CQ p (pureEta p T (moles 0 / V)) 0 0 0 = J
    generalize (p.sigma 0 ^ 3) ^ 3 = s9
    generalize p.sigma 0 ^ 7 = s7
    congr 1
    congr 1
    · ring
    · ring

end PcSaft.Props
