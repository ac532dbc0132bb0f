import Verif.Lemmas.RoundingPolar
import Verif.Props.RoundingAssociation

/-!
# C118: rounding errors of the polar contributions
-/

namespace PcSaft.Props
open Spec
variable {n : ℕ}

/-- second order of dipoles with quadrupoles for the two variants of the code -/
noncomputable def mixedSecond (v : DQVariants) (f : Fluid n) (T : ℝ) (rho : Fin n → ℝ) (a b : Fin 4 → Fin 3 → ℝ) : ℝ :=
  match v with
  | .DQ35 => f.dipoleQuadrupole2 T rho a b
  | .DQ44 => f.dipoleQuadrupole2' T rho a b

/-- size of the terms of the second order of dipoles with quadrupoles for the two variants of the code -/
noncomputable def mixedSecondSize (v : DQVariants) (f : Fluid n) (T : ℝ) (rho : Fin n → ℝ) (a b : Fin 4 → Fin 3 → ℝ) : ℝ :=
  match v with
  | .DQ35 => f.dipoleQuadrupole2Size T rho a b
  | .DQ44 => f.dipoleQuadrupole2Size' T rho a b

/-- operations of the perturbation terms -/
def polarOps (n : ℕ) : ℕ := 308 + 5 * n + 2 * n ^ 2 + 2 * n ^ 3

/-- operations of a polar contribution -/
def padeOps (n κ : ℕ) : ℕ := 2 * polarOps n + 3 + (polarOps n + 1) * (2 * κ)

section
variable (pr : Fin n → PureRecord ℝ) (kij : Fin n → Fin n → ℝ)

theorem pairSize_theory {q : ℕ} (A B : Fin q → Fin 3 → ℝ) (T eta : ℝ) (i j : Fin n) :
    pairSize A B (mdqPair (fromRecords pr kij) i j) eta (T⁻¹ * (fromRecords pr kij).e_k_ij i j)
      = (fluidOf pr kij).j2Size T A B eta i j := by
  rw [mPair_theory, eIJ_theory, inv_mul_eq_div]
  rfl

theorem tripletSize_theory {q : ℕ} (hm : ∀ i, 0 < (pr i).model_record.m) (A : Fin q → Fin 3 → ℝ) (eta : ℝ) (i j l : Fin n) :
    tripletSize A (mdqTriplet (fromRecords pr kij) i j l) eta = (fluidOf pr kij).j3Size A eta i j l := by
  rw [mTriplet_theory pr kij hm]
  rfl

variable {pr} (hr : PositiveRecords pr) {T V : ℝ} (hT : 0 < T) (moles : Fin n → ℝ)

include hr hT in
theorem dipole2_forms (rho : Fin n → ℝ) :
    dipolePhi2 (fromRecords pr kij) T rho ((fluidOf pr kij).zeta T rho 3) * Real.pi = (fluidOf pr kij).dipole2 T rho AD BD
    ∧ (∑ i, ∑ j, dipS2 (fromRecords pr kij) T rho ((fluidOf pr kij).zeta T rho 3) i j) * Real.pi
      = (fluidOf pr kij).dipole2Size T rho AD BD := by
  have hok := polarOk_fromRecords pr kij (fun i => (hr.m i).le)
  have hs : ∀ i, dipoleTerm (fromRecords pr kij) T⁻¹ i = (fluidOf pr kij).dipoleStrength T i := fun i =>
    dipoleTerm_theory pr kij T i (hr.m i).ne' (hr.sigma i).ne' (hr.epsilon i).ne' hT.ne'
  constructor
  · rw [dipolePhi2_real hok]
    simp only [Spec.Fluid.dipole2, dipK2, hs, sigmaIJ_theory, pairI_theory, neg_mul, Finset.sum_mul, Finset.mul_sum,
      ← Finset.sum_neg_distrib]
    exact Finset.sum_congr rfl fun i _ => Finset.sum_congr rfl fun j _ => by ring
  · simp only [Spec.Fluid.dipole2Size, dipS2, hs, sigmaIJ_theory, pairSize_theory, Finset.sum_mul, Finset.mul_sum]
    exact Finset.sum_congr rfl fun i _ => Finset.sum_congr rfl fun j _ => by ring

include hr hT in
theorem dipole3_forms (rho : Fin n → ℝ) :
    dipolePhi3 (fromRecords pr kij) T rho ((fluidOf pr kij).zeta T rho 3) * (4 / 3 * Real.pi ^ 2)
      = (fluidOf pr kij).dipole3 T rho CD
    ∧ (∑ i, ∑ j, ∑ l, dipS3 (fromRecords pr kij) T rho ((fluidOf pr kij).zeta T rho 3) i j l) * (4 / 3 * Real.pi ^ 2)
      = (fluidOf pr kij).dipole3Size T rho CD := by
  have hok := polarOk_fromRecords pr kij (fun i => (hr.m i).le)
  have hs : ∀ i, dipoleTerm (fromRecords pr kij) T⁻¹ i = (fluidOf pr kij).dipoleStrength T i := fun i =>
    dipoleTerm_theory pr kij T i (hr.m i).ne' (hr.sigma i).ne' (hr.epsilon i).ne' hT.ne'
  constructor
  · rw [dipolePhi3_real hok]
    simp only [Spec.Fluid.dipole3, dipK3, hs, sigmaIJ_theory, tripI_theory pr kij hr.m, neg_mul, Finset.sum_mul,
      Finset.mul_sum, ← Finset.sum_neg_distrib]
    exact Finset.sum_congr rfl fun i _ => Finset.sum_congr rfl fun j _ => Finset.sum_congr rfl fun l _ => by ring
  · simp only [Spec.Fluid.dipole3Size, dipS3, hs, sigmaIJ_theory, tripletSize_theory pr kij hr.m, Finset.sum_mul,
      Finset.mul_sum]
    exact Finset.sum_congr rfl fun i _ => Finset.sum_congr rfl fun j _ => Finset.sum_congr rfl fun l _ => by ring

include hr hT in
theorem quadrupole2_forms (rho : Fin n → ℝ)
    (hq : ∀ i j, (fluidOf pr kij).q i ≠ 0 → (fluidOf pr kij).q j ≠ 0 → (fluidOf pr kij).sigma i = (fluidOf pr kij).sigma j) :
    quadrupolePhi2 (fromRecords pr kij) T rho ((fluidOf pr kij).zeta T rho 3) * (Real.pi * (9 / 16))
      = (fluidOf pr kij).quadrupole2 T rho AQ BQ
    ∧ (∑ i, ∑ j, quadS2 (fromRecords pr kij) T rho ((fluidOf pr kij).zeta T rho 3) i j) * (Real.pi * (9 / 16))
      = (fluidOf pr kij).quadrupole2Size T rho AQ BQ := by
  have hok := polarOk_fromRecords pr kij (fun i => (hr.m i).le)
  have hs : ∀ i, quadrupoleTerm (fromRecords pr kij) T⁻¹ i = (fluidOf pr kij).quadrupoleStrength T i := fun i =>
    quadrupoleTerm_theory pr kij T i (hr.m i).ne' (hr.sigma i).ne' (hr.epsilon i).ne' hT.ne'
  have key : ∀ i j, (fluidOf pr kij).quadrupoleStrength T i * (fluidOf pr kij).quadrupoleStrength T j
        / (fromRecords pr kij).sigma (min i j) ^ 7
      = (fluidOf pr kij).quadrupoleStrength T i * (fluidOf pr kij).quadrupoleStrength T j
        / (fluidOf pr kij).sigmaIJ i j ^ 7 := fun i j => by
    by_cases hi : (fluidOf pr kij).q i = 0
    · simp [Spec.Fluid.quadrupoleStrength, hi]
    · by_cases hj : (fluidOf pr kij).q j = 0
      · simp [Spec.Fluid.quadrupoleStrength, hj]
      · have e := hq i j hi hj
        have e' : (fromRecords pr kij).sigma (min i j) = (fluidOf pr kij).sigmaIJ i j := by
          change (fluidOf pr kij).sigma (min i j) = _
          rcases min_choice i j with hmin | hmin <;> rw [hmin, Spec.Fluid.sigmaIJ] <;> linarith
        rw [e']
  constructor
  · rw [quadrupolePhi2_real hok]
    simp only [Spec.Fluid.quadrupole2, quadK2, hs, pairI_theory, neg_mul, Finset.sum_mul, Finset.mul_sum,
      ← Finset.sum_neg_distrib]
    refine Finset.sum_congr rfl fun i _ => Finset.sum_congr rfl fun j _ => ?_
    have := key i j
    generalize (fluidOf pr kij).j2 T AQ BQ _ i j = J
    linear_combination (-(rho i * rho j * J * (Real.pi * (9 / 16)))) * this
  · simp only [Spec.Fluid.quadrupole2Size, quadS2, hs, pairSize_theory, Finset.sum_mul, Finset.mul_sum]
    refine Finset.sum_congr rfl fun i _ => Finset.sum_congr rfl fun j _ => ?_
    have := key i j
    generalize (fluidOf pr kij).j2Size T AQ BQ _ i j = J
    linear_combination (rho i * rho j * J * (Real.pi * (9 / 16))) * this

include hr hT in
theorem quadrupole3_forms (rho : Fin n → ℝ) :
    quadrupolePhi3 (fromRecords pr kij) T rho ((fluidOf pr kij).zeta T rho 3) * (Real.pi * Real.pi * (9 / 16))
      = (fluidOf pr kij).quadrupole3 T rho CQ
    ∧ (∑ i, ∑ j, ∑ l, quadS3 (fromRecords pr kij) T rho ((fluidOf pr kij).zeta T rho 3) i j l) * (Real.pi * Real.pi * (9 / 16))
      = (fluidOf pr kij).quadrupole3Size T rho CQ := by
  have hok := polarOk_fromRecords pr kij (fun i => (hr.m i).le)
  have hs : ∀ i, quadrupoleTerm (fromRecords pr kij) T⁻¹ i = (fluidOf pr kij).quadrupoleStrength T i := fun i =>
    quadrupoleTerm_theory pr kij T i (hr.m i).ne' (hr.sigma i).ne' (hr.epsilon i).ne' hT.ne'
  constructor
  · rw [quadrupolePhi3_real hok]
    simp only [Spec.Fluid.quadrupole3, quadK3, hs, sigmaIJ_theory, tripI_theory pr kij hr.m, Finset.sum_mul, Finset.mul_sum]
    exact Finset.sum_congr rfl fun i _ => Finset.sum_congr rfl fun j _ => Finset.sum_congr rfl fun l _ => by ring
  · simp only [Spec.Fluid.quadrupole3Size, quadS3, hs, sigmaIJ_theory, tripletSize_theory pr kij hr.m, Finset.sum_mul,
      Finset.mul_sum]
    exact Finset.sum_congr rfl fun i _ => Finset.sum_congr rfl fun j _ => Finset.sum_congr rfl fun l _ => by ring

include hr hT in
theorem mixed2_forms (v : DQVariants) (rho : Fin n → ℝ) :
    dipoleQuadrupolePhi2 v (fromRecords pr kij) T rho ((fluidOf pr kij).zeta T rho 3) * (Real.pi * (9 / 4))
      = mixedSecond v (fluidOf pr kij) T rho ADQ BDQ
    ∧ (∑ i, ∑ j, dqS2 v (fromRecords pr kij) T rho ((fluidOf pr kij).zeta T rho 3) i j) * (Real.pi * (9 / 4))
      = mixedSecondSize v (fluidOf pr kij) T rho ADQ BDQ := by
  have hok := polarOk_fromRecords pr kij (fun i => (hr.m i).le)
  have hs : ∀ i, dqTerm (fromRecords pr kij) (fromRecords pr kij).mu2 T⁻¹ i
      = (fluidOf pr kij).dipoleStrength T i * (fluidOf pr kij).sigma i := fun i =>
    muTerm_theory pr kij T i (hr.m i).ne' (hr.sigma i).ne' (hr.epsilon i).ne' hT.ne'
  have hs' : ∀ i, dqTerm (fromRecords pr kij) (fromRecords pr kij).q2 T⁻¹ i
      = (fluidOf pr kij).quadrupoleStrength T i / (fluidOf pr kij).sigma i := fun i =>
    qTerm_theory pr kij T i (hr.m i).ne' (hr.sigma i).ne' (hr.epsilon i).ne' hT.ne'
  have hsig : ∀ i, (fluidOf pr kij).sigma i ≠ 0 := fun i => (hr.sigma i).ne'
  have e35 : ∀ i j, muQTerm .DQ35 (fromRecords pr kij) T⁻¹ i j
      = (fluidOf pr kij).dipoleStrength T i * (fluidOf pr kij).quadrupoleStrength T j := fun i j => by
    simp only [muQTerm, hs, hs', c, ofF_real]
    have e1 : (fluidOf pr kij).dipoleStrength T i * (fluidOf pr kij).sigma i / (fromRecords pr kij).sigma i
        = (fluidOf pr kij).dipoleStrength T i := mul_div_cancel_right₀ _ (hsig i)
    have e2 : (fluidOf pr kij).quadrupoleStrength T j / (fluidOf pr kij).sigma j * (fromRecords pr kij).sigma j
        = (fluidOf pr kij).quadrupoleStrength T j := div_mul_cancel₀ _ (hsig j)
    rw [e1, mul_assoc, e2]
  have e44 : ∀ i j, muQTerm .DQ44 (fromRecords pr kij) T⁻¹ i j
      = (fluidOf pr kij).dipoleStrength T i * (fluidOf pr kij).sigma i
        * ((fluidOf pr kij).quadrupoleStrength T j / (fluidOf pr kij).sigma j) := fun i j => by
    simp only [muQTerm, hs, hs']
  rw [dipoleQuadrupolePhi2_real hok]
  cases v with
  | DQ35 =>
    constructor
    · simp only [mixedSecond, Spec.Fluid.dipoleQuadrupole2, dqK2, e35, sigmaIJ_theory, pairI_theory, neg_mul,
        Finset.sum_mul, Finset.mul_sum, ← Finset.sum_neg_distrib]
      exact Finset.sum_congr rfl fun i _ => Finset.sum_congr rfl fun j _ => by ring
    · simp only [mixedSecondSize, Spec.Fluid.dipoleQuadrupole2Size, dqS2, e35, sigmaIJ_theory, pairSize_theory,
        Finset.sum_mul, Finset.mul_sum]
      exact Finset.sum_congr rfl fun i _ => Finset.sum_congr rfl fun j _ => by ring
  | DQ44 =>
    constructor
    · simp only [mixedSecond, Spec.Fluid.dipoleQuadrupole2', dqK2, e44, sigmaIJ_theory, pairI_theory, neg_mul,
        Finset.sum_mul, Finset.mul_sum, ← Finset.sum_neg_distrib]
      exact Finset.sum_congr rfl fun i _ => Finset.sum_congr rfl fun j _ => by ring
    · simp only [mixedSecondSize, Spec.Fluid.dipoleQuadrupole2Size', dqS2, e44, sigmaIJ_theory, pairSize_theory,
        Finset.sum_mul, Finset.mul_sum]
      exact Finset.sum_congr rfl fun i _ => Finset.sum_congr rfl fun j _ => by ring

include hr hT in
theorem mixed3_forms (rho : Fin n → ℝ) :
    dipoleQuadrupolePhi3 (fromRecords pr kij) T rho ((fluidOf pr kij).zeta T rho 3) * (Real.pi * Real.pi)
      = (fluidOf pr kij).dipoleQuadrupole3 T rho ALPHA CDQ
    ∧ (∑ i, ∑ j, ∑ l, (dqS3d (fromRecords pr kij) T rho ((fluidOf pr kij).zeta T rho 3) i j l
        + dqS3q (fromRecords pr kij) T rho ((fluidOf pr kij).zeta T rho 3) i j l)) * (Real.pi * Real.pi)
      = (fluidOf pr kij).dipoleQuadrupole3Size T rho ALPHA CDQ := by
  have hok := polarOk_fromRecords pr kij (fun i => (hr.m i).le)
  have hs : ∀ i, dqTerm (fromRecords pr kij) (fromRecords pr kij).mu2 T⁻¹ i
      = (fluidOf pr kij).dipoleStrength T i * (fluidOf pr kij).sigma i := fun i =>
    muTerm_theory pr kij T i (hr.m i).ne' (hr.sigma i).ne' (hr.epsilon i).ne' hT.ne'
  have hs' : ∀ i, dqTerm (fromRecords pr kij) (fromRecords pr kij).q2 T⁻¹ i
      = (fluidOf pr kij).quadrupoleStrength T i / (fluidOf pr kij).sigma i := fun i =>
    qTerm_theory pr kij T i (hr.m i).ne' (hr.sigma i).ne' (hr.epsilon i).ne' hT.ne'
  constructor
  · rw [dipoleQuadrupolePhi3_real hok]
    simp only [Spec.Fluid.dipoleQuadrupole3, dqK3d, dqK3q, hs, hs', sigmaIJ_theory, dqI3_theory pr kij hr.m,
      Finset.sum_mul, Finset.mul_sum]
    exact Finset.sum_congr rfl fun i _ => Finset.sum_congr rfl fun j _ => Finset.sum_congr rfl fun l _ => by ring
  · simp only [Spec.Fluid.dipoleQuadrupole3Size, dqS3d, dqS3q, hs, hs', sigmaIJ_theory, tripletSize_theory pr kij hr.m,
      Finset.sum_mul, Finset.mul_sum]
    exact Finset.sum_congr rfl fun i _ => Finset.sum_congr rfl fun j _ => Finset.sum_congr rfl fun l _ => by ring

end

/-! ### The three contributions -/

section
variable {ar : Arithmetic} (h : Relative ar) {pr : Fin n → PureRecord ℝ} {kij : Fin n → Fin n → ℝ} {T V : ℝ} {moles : Fin n → ℝ}
  (he : ∀ i, 0 < (pr i).model_record.epsilon_k) (hk : ∀ i j, kij i j ≤ 1) (ha : Admissible (fromRecords pr kij) T V moles)

theorem positive_of_admissible (he : ∀ i, 0 < (pr i).model_record.epsilon_k)
    (ha : Admissible (fromRecords pr kij) T V moles) : PositiveRecords pr := ⟨ha.m_pos, ha.sigma_pos, he⟩

theorem state_sigma_ij_pos (ha : Admissible (fromRecords pr kij) T V moles) (i j : Fin n) : 0 < (fromRecords pr kij).sigma_ij i j := by
  have h1 : 0 < (pr i).model_record.sigma := ha.sigma_pos i
  have h2 : 0 < (pr j).model_record.sigma := ha.sigma_pos j
  rw [sigmaIJ_theory, Spec.Fluid.sigmaIJ]
  change 0 < ((pr i).model_record.sigma + (pr j).model_record.sigma) / 2
  linarith

include h hk ha in
theorem agrees_eta (hg : Growth ar ^ 3 ≤ 3) :
    Agrees ar (39 + n) ((fluidOf pr kij).zeta T (fun i => moles i / V) 3)
      (packingFraction (roundedParameters ar pr kij).m (roundedState ar T V moles).partial_density
        (fun i => hsDiameter (roundedParameters ar pr kij) (roundedState ar T V moles).temperature i * c (0.5 : Rd ar))) := by
  obtain ⟨h1, h2⟩ := admissible_agrees h pr kij hk ha
  have := agrees_packing h h1.m h2.partial_density (agrees_hsDiameter h h1 h2.temperature ha.temperature hg)
  rw [zeta3_state, ← packing_theory] at this
  exact this

include h he hk ha in
theorem dipole_differs (hg : Growth ar ^ 3 ≤ 3) {κ : ℕ} :
    let f := fluidOf pr kij
    let rho := fun i => moles i / V
    Fluid.PadeRegular κ (f.dipole2Size T rho AD BD) (f.dipole3Size T rho CD) (f.dipole2 T rho AD BD) (f.dipole3 T rho CD) →
    κ * (Growth ar ^ (polarOps n + 1) - 1) ≤ 1 / 2 →
    Differs ar (padeOps n κ) (V * Fluid.padeSize (f.dipole2Size T rho AD BD) (f.dipole2 T rho AD BD) (f.dipole3 T rho CD))
      (V * Fluid.pade (f.dipole2 T rho AD BD) (f.dipole3 T rho CD))
      (dipole (roundedParameters ar pr kij) (roundedState ar T V moles)) := by
  intro f rho hreg hκ
  have hr := positive_of_admissible he ha
  obtain ⟨h1, h2⟩ := admissible_agrees h pr kij hk ha
  have hq := polarAgree h hr kij
  have hok := polarOk_fromRecords pr kij (fun i => (hr.m i).le)
  have hη := agrees_eta h hk ha hg
  have d2 := (differs_dipolePhi2 h h1 hq h2.temperature ha.temperature hok hr.m (state_sigma_ij_pos ha) h2.partial_density hη).mul h
    ((Agrees.pi h).differs h)
  have hpi : Agrees ar 5 (4 / 3 * Real.pi ^ 2) (PI_SQ_43 : Rd ar) := by
    have := ((agrees_four h).mul h (Agrees.pi h)).mul h ((Agrees.pi h).div h (agrees_three h) (by norm_num))
    rw [show 4 / 3 * Real.pi ^ 2 = 4 * Real.pi * (Real.pi / 3) by ring]
    exact this
  have d3 := (differs_dipolePhi3 h h1 hq h2.temperature ha.temperature hok hr.m (state_sigma_ij_pos ha) h2.partial_density hη).mul h
    (hpi.differs h)
  have f2 := dipole2_forms kij hr ha.temperature rho
  have f3 := dipole3_forms kij hr ha.temperature rho
  have d2' := d2.mono h (show _ ≤ polarOps n by
    rw [polarOps]; ring_nf; nlinarith [Nat.zero_le (n ^ 2), Nat.zero_le (n ^ 3)]) f2.2.le
  have d3' := d3.mono h (show _ ≤ polarOps n by
    rw [polarOps]; ring_nf; nlinarith [Nat.zero_le (n ^ 2), Nat.zero_le (n ^ 3)]) f3.2.le
  have e2 : dipolePhi2 (fromRecords pr kij) (StateHD.new T V moles).temperature (StateHD.new T V moles).partial_density
      (f.zeta T rho 3) * Real.pi = f.dipole2 T rho AD BD := f2.1
  have e3 : dipolePhi3 (fromRecords pr kij) (StateHD.new T V moles).temperature (StateHD.new T V moles).partial_density
      (f.zeta T rho 3) * (4 / 3 * Real.pi ^ 2) = f.dipole3 T rho CD := f3.1
  rw [e2] at d2'
  rw [e3] at d3'
  exact differs_pade h d2' d3' h2.volume hreg.1 hreg.2 hκ

include h he hk ha in
theorem quadrupole_differs (hg : Growth ar ^ 3 ≤ 3) {κ : ℕ} :
    let f := fluidOf pr kij
    let rho := fun i => moles i / V
    (∀ i j, f.q i ≠ 0 → f.q j ≠ 0 → f.sigma i = f.sigma j) →
    Fluid.PadeRegular κ (f.quadrupole2Size T rho AQ BQ) (f.quadrupole3Size T rho CQ) (f.quadrupole2 T rho AQ BQ)
      (f.quadrupole3 T rho CQ) →
    κ * (Growth ar ^ (polarOps n + 1) - 1) ≤ 1 / 2 →
    Differs ar (padeOps n κ)
      (V * Fluid.padeSize (f.quadrupole2Size T rho AQ BQ) (f.quadrupole2 T rho AQ BQ) (f.quadrupole3 T rho CQ))
      (V * Fluid.pade (f.quadrupole2 T rho AQ BQ) (f.quadrupole3 T rho CQ))
      (quadrupole (roundedParameters ar pr kij) (roundedState ar T V moles)) := by
  intro f rho hσ hreg hκ
  have hr := positive_of_admissible he ha
  obtain ⟨h1, h2⟩ := admissible_agrees h pr kij hk ha
  have hq := polarAgree h hr kij
  have hok := polarOk_fromRecords pr kij (fun i => (hr.m i).le)
  have hη := agrees_eta h hk ha hg
  have hlit : Agrees ar 1 (9 / 16) (0.5625 : Rd ar) := by
    have := Agrees.lit h 5625 true 4
    rwa [show (OfScientific.ofScientific 5625 true 4 : ℝ) = 9 / 16 by norm_num] at this
  have d2 := (differs_quadrupolePhi2 h h1 hq h2.temperature ha.temperature hok hr.m (state_sigma_ij_pos ha) h2.partial_density hη).mul h
    (((Agrees.pi h).mul h hlit).differs h)
  have d3 := (differs_quadrupolePhi3 h h1 hq h2.temperature ha.temperature hok hr.m (state_sigma_ij_pos ha) h2.partial_density hη).mul h
    ((((Agrees.pi h).mul h (Agrees.pi h)).mul h hlit).differs h)
  have f2 := quadrupole2_forms kij hr ha.temperature rho hσ
  have f3 := quadrupole3_forms kij hr ha.temperature rho
  have d2' := d2.mono h (show _ ≤ polarOps n by
    rw [polarOps]; ring_nf; nlinarith [Nat.zero_le (n ^ 2), Nat.zero_le (n ^ 3)]) f2.2.le
  have d3' := d3.mono h (show _ ≤ polarOps n by
    rw [polarOps]; ring_nf; nlinarith [Nat.zero_le (n ^ 2), Nat.zero_le (n ^ 3)]) f3.2.le
  have e2 : quadrupolePhi2 (fromRecords pr kij) (StateHD.new T V moles).temperature (StateHD.new T V moles).partial_density
      (f.zeta T rho 3) * (Real.pi * (9 / 16)) = f.quadrupole2 T rho AQ BQ := f2.1
  have e3 : quadrupolePhi3 (fromRecords pr kij) (StateHD.new T V moles).temperature (StateHD.new T V moles).partial_density
      (f.zeta T rho 3) * (Real.pi * Real.pi * (9 / 16)) = f.quadrupole3 T rho CQ := f3.1
  rw [e2] at d2'
  rw [e3] at d3'
  exact differs_pade h d2' d3' h2.volume hreg.1 hreg.2 hκ

include h he hk ha in
theorem mixed_differs (hg : Growth ar ^ 3 ≤ 3) {κ : ℕ} (v : DQVariants) :
    let f := fluidOf pr kij
    let rho := fun i => moles i / V
    Fluid.PadeRegular κ (mixedSecondSize v f T rho ADQ BDQ) (f.dipoleQuadrupole3Size T rho ALPHA CDQ)
      (mixedSecond v f T rho ADQ BDQ) (f.dipoleQuadrupole3 T rho ALPHA CDQ) →
    κ * (Growth ar ^ (polarOps n + 1) - 1) ≤ 1 / 2 →
    Differs ar (padeOps n κ)
      (V * Fluid.padeSize (mixedSecondSize v f T rho ADQ BDQ) (mixedSecond v f T rho ADQ BDQ)
        (f.dipoleQuadrupole3 T rho ALPHA CDQ))
      (V * Fluid.pade (mixedSecond v f T rho ADQ BDQ) (f.dipoleQuadrupole3 T rho ALPHA CDQ))
      (dipoleQuadrupole v (roundedParameters ar pr kij) (roundedState ar T V moles)) := by
  intro f rho hreg hκ
  have hr := positive_of_admissible he ha
  obtain ⟨h1, h2⟩ := admissible_agrees h pr kij hk ha
  have hq := polarAgree h hr kij
  have hok := polarOk_fromRecords pr kij (fun i => (hr.m i).le)
  have hη := agrees_eta h hk ha hg
  have hlit : Agrees ar 1 (9 / 4) (2.25 : Rd ar) := by
    have := Agrees.lit h 225 true 2
    rwa [show (OfScientific.ofScientific 225 true 2 : ℝ) = 9 / 4 by norm_num] at this
  have d2 := (differs_dipoleQuadrupolePhi2 h h1 hq h2.temperature ha.temperature hok hr.m (state_sigma_ij_pos ha)
    h2.partial_density hη v).mul h (((Agrees.pi h).mul h hlit).differs h)
  have d3 := (differs_dipoleQuadrupolePhi3 h h1 hq h2.temperature ha.temperature hok hr.m (state_sigma_ij_pos ha)
    h2.partial_density hη).mul h (((Agrees.pi h).mul h (Agrees.pi h)).differs h)
  have f2 := mixed2_forms kij hr ha.temperature v rho
  have f3 := mixed3_forms kij hr ha.temperature rho
  have d2' := d2.mono h (show _ ≤ polarOps n by
    rw [polarOps]; ring_nf; nlinarith [Nat.zero_le (n ^ 2), Nat.zero_le (n ^ 3)]) f2.2.le
  have d3' := d3.mono h (show _ ≤ polarOps n by
    rw [polarOps]; ring_nf; nlinarith [Nat.zero_le (n ^ 2), Nat.zero_le (n ^ 3)]) f3.2.le
  have e2 : dipoleQuadrupolePhi2 v (fromRecords pr kij) (StateHD.new T V moles).temperature
      (StateHD.new T V moles).partial_density (f.zeta T rho 3) * (Real.pi * (9 / 4)) = mixedSecond v f T rho ADQ BDQ := f2.1
  have e3 : dipoleQuadrupolePhi3 (fromRecords pr kij) (StateHD.new T V moles).temperature
      (StateHD.new T V moles).partial_density (f.zeta T rho 3) * (Real.pi * Real.pi)
      = f.dipoleQuadrupole3 T rho ALPHA CDQ := f3.1
  rw [e2] at d2'
  rw [e3] at d3'
  exact differs_pade h d2' d3' h2.volume hreg.1 hreg.2 hκ

end

/-! ### The residual energy -/

section
variable (f : Fluid n) (T : ℝ) (rho : Fin n → ℝ)

theorem no_dipoles (hf : ∀ i, f.mu i = 0) : (∀ a b, f.dipole2 T rho a b = 0 ∧ f.dipole2Size T rho a b = 0)
    ∧ (∀ a, f.dipole3 T rho a = 0) ∧ (∀ v a b, mixedSecond v f T rho a b = 0 ∧ mixedSecondSize v f T rho a b = 0)
    ∧ ∀ al a, f.dipoleQuadrupole3 T rho al a = 0 := by
  have h0 : ∀ i, f.dipoleStrength T i = 0 := fun i => by simp [Spec.Fluid.dipoleStrength, hf]
  refine ⟨fun a b => ⟨?_, ?_⟩, fun a => ?_, fun v a b => ?_, fun al a => ?_⟩
  · simp [Spec.Fluid.dipole2, h0]
  · simp [Spec.Fluid.dipole2Size, h0]
  · simp [Spec.Fluid.dipole3, h0]
  · cases v <;> simp [mixedSecond, mixedSecondSize, Spec.Fluid.dipoleQuadrupole2, Spec.Fluid.dipoleQuadrupole2',
      Spec.Fluid.dipoleQuadrupole2Size, Spec.Fluid.dipoleQuadrupole2Size', h0]
  · simp [Spec.Fluid.dipoleQuadrupole3, h0]

theorem no_quadrupoles (hf : ∀ i, f.q i = 0) : (∀ a b, f.quadrupole2 T rho a b = 0 ∧ f.quadrupole2Size T rho a b = 0)
    ∧ (∀ a, f.quadrupole3 T rho a = 0) ∧ (∀ v a b, mixedSecond v f T rho a b = 0 ∧ mixedSecondSize v f T rho a b = 0)
    ∧ ∀ al a, f.dipoleQuadrupole3 T rho al a = 0 := by
  have h0 : ∀ i, f.quadrupoleStrength T i = 0 := fun i => by simp [Spec.Fluid.quadrupoleStrength, hf]
  refine ⟨fun a b => ⟨?_, ?_⟩, fun a => ?_, fun v a b => ?_, fun al a => ?_⟩
  · simp [Spec.Fluid.quadrupole2, h0]
  · simp [Spec.Fluid.quadrupole2Size, h0]
  · simp [Spec.Fluid.quadrupole3, h0]
  · cases v <;> simp [mixedSecond, mixedSecondSize, Spec.Fluid.dipoleQuadrupole2, Spec.Fluid.dipoleQuadrupole2',
      Spec.Fluid.dipoleQuadrupole2Size, Spec.Fluid.dipoleQuadrupole2Size', h0]
  · simp [Spec.Fluid.dipoleQuadrupole3, h0]

end

/-- the lists of polar components hold the components with a moment -/
theorem polar_lists {pr : Fin n → PureRecord ℝ} (hr : PositiveRecords pr) (kij : Fin n → Fin n → ℝ) :
    (∀ i, i ∈ (fromRecords pr kij).dipole_comp ↔ (fluidOf pr kij).mu i ≠ 0)
    ∧ ∀ i, i ∈ (fromRecords pr kij).quadpole_comp ↔ (fluidOf pr kij).q i ≠ 0 := by
  constructor <;> intro i
  · have h1 := dipoleTerm_theory pr kij 1 i (hr.m i).ne' (hr.sigma i).ne' (hr.epsilon i).ne' one_ne_zero
    have h2 : i ∈ (fromRecords pr kij).dipole_comp ↔ (fromRecords pr kij).mu2 i ≠ 0 := mem_nonzeroComp (fromRecords pr kij).mu2 i
    have h3 : (fluidOf pr kij).dipoleStrength 1 i = 0 ↔ (fluidOf pr kij).mu i = 0 := by
      have hm : (fluidOf pr kij).m i ≠ 0 := (hr.m i).ne'
      have h5 : (1380649e-29 : ℝ) ≠ 0 := by norm_num
      have h6 : (1e-19 : ℝ) ≠ 0 := by norm_num
      simp [Spec.Fluid.dipoleStrength, hm, Spec.Fluid.debyeSq, Spec.Fluid.kB, h5, h6]
    rw [h2, ← not_iff_not, not_not, not_not, ← h3, ← h1, dipoleTerm]
    have hs : (fromRecords pr kij).sigma_ij i i ≠ 0 := by
      rw [(polarOk_fromRecords pr kij (fun i => (hr.m i).le)).sigma_diag]
      exact (hr.sigma i).ne'
    have he : (fromRecords pr kij).epsilon_k i ≠ 0 := (hr.epsilon i).ne'
    simp [hs, he]
  · have h1 := quadrupoleTerm_theory pr kij 1 i (hr.m i).ne' (hr.sigma i).ne' (hr.epsilon i).ne' one_ne_zero
    have h2 : i ∈ (fromRecords pr kij).quadpole_comp ↔ (fromRecords pr kij).q2 i ≠ 0 := mem_nonzeroComp (fromRecords pr kij).q2 i
    have h3 : (fluidOf pr kij).quadrupoleStrength 1 i = 0 ↔ (fluidOf pr kij).q i = 0 := by
      have hm : (fluidOf pr kij).m i ≠ 0 := (hr.m i).ne'
      have h5 : (1380649e-29 : ℝ) ≠ 0 := by norm_num
      have h6 : (1e-19 : ℝ) ≠ 0 := by norm_num
      simp [Spec.Fluid.quadrupoleStrength, hm, Spec.Fluid.debyeSq, Spec.Fluid.kB, h5, h6]
    rw [h2, ← not_iff_not, not_not, not_not, ← h3, ← h1, quadrupoleTerm]
    have hs : (fromRecords pr kij).sigma i ≠ 0 := (hr.sigma i).ne'
    have he : (fromRecords pr kij).epsilon_k i ≠ 0 := (hr.epsilon i).ne'
    simp [hs, he]

/-- conditions on the moments and the state: the denominators of the Padé approximations that occur are not much smaller than
the terms of which they are sums, and quadrupolar components have the same diameter -/
structure PolarRegular (κ : ℕ) (v : DQVariants) (f : Fluid n) (T : ℝ) (rho : Fin n → ℝ) (t : Tables) : Prop where
  diameters : ∀ i j, f.q i ≠ 0 → f.q j ≠ 0 → f.sigma i = f.sigma j
  dipoles : (∃ i, f.mu i ≠ 0) → Fluid.PadeRegular κ (f.dipole2Size T rho t.aD t.bD) (f.dipole3Size T rho t.cD)
    (f.dipole2 T rho t.aD t.bD) (f.dipole3 T rho t.cD)
  quadrupoles : (∃ i, f.q i ≠ 0) → Fluid.PadeRegular κ (f.quadrupole2Size T rho t.aQ t.bQ) (f.quadrupole3Size T rho t.cQ)
    (f.quadrupole2 T rho t.aQ t.bQ) (f.quadrupole3 T rho t.cQ)
  mixed : (∃ i, f.mu i ≠ 0) → (∃ i, f.q i ≠ 0) → Fluid.PadeRegular κ (mixedSecondSize v f T rho t.aM t.bM)
    (f.dipoleQuadrupole3Size T rho t.alpha t.cM) (mixedSecond v f T rho t.aM t.bM) (f.dipoleQuadrupole3 T rho t.alpha t.cM)

/-- residual Helmholtz energy density of substances without association sites -/
noncomputable def polarEnergy (v : DQVariants) (f : Fluid n) (T : ℝ) (rho : Fin n → ℝ) (t : Tables) : ℝ :=
  f.hardSphere T rho + f.chain T rho + f.dispersion T rho t.a t.b
    + Fluid.pade (f.dipole2 T rho t.aD t.bD) (f.dipole3 T rho t.cD)
    + Fluid.pade (f.quadrupole2 T rho t.aQ t.bQ) (f.quadrupole3 T rho t.cQ)
    + Fluid.pade (mixedSecond v f T rho t.aM t.bM) (f.dipoleQuadrupole3 T rho t.alpha t.cM)

/-- size of its terms -/
noncomputable def polarSize (v : DQVariants) (f : Fluid n) (T : ℝ) (rho : Fin n → ℝ) (t : Tables) : ℝ :=
  f.hardSphereSize T rho + f.chainSize T rho + f.dispersionSize T rho t.a t.b
    + Fluid.padeSize (f.dipole2Size T rho t.aD t.bD) (f.dipole2 T rho t.aD t.bD) (f.dipole3 T rho t.cD)
    + Fluid.padeSize (f.quadrupole2Size T rho t.aQ t.bQ) (f.quadrupole2 T rho t.aQ t.bQ) (f.quadrupole3 T rho t.cQ)
    + Fluid.padeSize (mixedSecondSize v f T rho t.aM t.bM) (mixedSecond v f T rho t.aM t.bM)
      (f.dipoleQuadrupole3 T rho t.alpha t.cM)

/-- the constants in the code -/
noncomputable def codeTables : Tables :=
  ⟨![A0, A1, A2], ![B0, B1, B2], AD, BD, CD, AQ, BQ, CQ, ALPHA, ADQ, BDQ, CDQ⟩

theorem codeTables_published : codeTables.Published where
  a := constants_published.1
  b := constants_published.2
  aD i j := by fin_cases i <;> fin_cases j <;> norm_num [codeTables, AD, Spec.publishedAD, abs_le]
  bD i j := by fin_cases i <;> fin_cases j <;> norm_num [codeTables, BD, Spec.publishedBD, abs_le]
  cD i j := by fin_cases i <;> fin_cases j <;> norm_num [codeTables, CD, Spec.publishedCD, abs_le]
  aQ i j := by fin_cases i <;> fin_cases j <;> norm_num [codeTables, AQ, Spec.publishedAQ, abs_le]
  bQ i j := by fin_cases i <;> fin_cases j <;> norm_num [codeTables, BQ, Spec.publishedBQ, abs_le]
  cQ i j := by fin_cases i <;> fin_cases j <;> norm_num [codeTables, CQ, Spec.publishedCQ, abs_le]
  alpha := by norm_num [codeTables, ALPHA, Spec.publishedAlpha, abs_le]
  aM i j := by fin_cases i <;> fin_cases j <;> norm_num [codeTables, ADQ, Spec.publishedADQ, abs_le]
  bM i j := by fin_cases i <;> fin_cases j <;> norm_num [codeTables, BDQ, Spec.publishedBDQ, abs_le]
  cM i j := by fin_cases i <;> fin_cases j <;> norm_num [codeTables, CDQ, Spec.publishedCDQ, abs_le]

/-- sum of the contributions other than association in the order of the code -/
noncomputable def polarSum {ar : Arithmetic} (pr : Fin n → PureRecord ℝ) (kij : Fin n → Fin n → ℝ) (v : DQVariants) (s : StateHD n (Rd ar)) :
    Rd ar :=
  let p := fromRecords pr kij
  let p' := roundedParameters ar pr kij
  let A := c (0.0 : Rd ar) + hardSphere p' s + hardChain p' s + dispersion p' s
  let A := if p.dipole_comp = [] then A else A + dipole p' s
  let A := if p.quadpole_comp = [] then A else A + quadrupole p' s
  if p.dipole_comp = [] ∨ p.quadpole_comp = [] then A else A + dipoleQuadrupole v p' s

/-- what the rounded code computes for substances without association sites and with one associating component -/
theorem polar_residual {ar : Arithmetic} (h : Relative ar) {pr : Fin n → PureRecord ℝ} (hr : PositiveRecords pr)
    (kij : Fin n → Fin n → ℝ) (o : PcSaftOptions (Rd ar)) (la : LinAlg (Rd ar) (Rd ar)) (s : StateHD n (Rd ar)) :
    ((fromRecords pr kij).assoc_comp = [] →
      (Eos.withOptions (roundedParameters ar pr kij) o).residualHelmholtz la s = .ok (polarSum pr kij o.dq_variant s))
    ∧ ∀ j B, (fromRecords pr kij).assoc_comp = [j] → association (roundedParameters ar pr kij) s = .ok B →
      (Eos.withOptions (roundedParameters ar pr kij) o).residualHelmholtz la s = .ok (polarSum pr kij o.dq_variant s + B) := by
  have hq := polarAgree h hr kij
  have d1 : (roundedParameters ar pr kij).dipole_comp = (fromRecords pr kij).dipole_comp := hq.dipole_comp
  have d2 : (roundedParameters ar pr kij).quadpole_comp = (fromRecords pr kij).quadpole_comp := hq.quadpole_comp
  have d3 : (roundedParameters ar pr kij).assoc_comp = (fromRecords pr kij).assoc_comp := rounded_assoc_comp pr kij
  have e : (Eos.withOptions (roundedParameters ar pr kij) o).contributions = buildContributions (roundedParameters ar pr kij) o :=
    rfl
  constructor
  · intro hj
    rw [Eos.residualHelmholtz, e, buildContributions, polarSum]
    simp only [PcSaftParameters.ndipole, PcSaftParameters.nquadpole, PcSaftParameters.nassoc, d1, d2, d3, hj,
      List.length_pos_iff, List.length_nil]
    by_cases k1 : (fromRecords pr kij).dipole_comp = [] <;> by_cases k2 : (fromRecords pr kij).quadpole_comp = [] <;>
      simp only [k1, k2, ne_eq, not_true_eq_false, not_false_eq_true, and_true, and_false, or_true, or_false, if_true,
        if_false] <;>
      rfl
  · intro j B hj hB
    have hB' : Contribution.helmholtzEnergy la (Eos.withOptions (roundedParameters ar pr kij) o).parameters s .association
      = .ok B := hB
    rw [Eos.residualHelmholtz, e, buildContributions, polarSum]
    simp only [PcSaftParameters.ndipole, PcSaftParameters.nquadpole, PcSaftParameters.nassoc, d1, d2, d3, hj,
      List.length_pos_iff, List.length_singleton]
    by_cases k1 : (fromRecords pr kij).dipole_comp = [] <;> by_cases k2 : (fromRecords pr kij).quadpole_comp = [] <;>
      simp only [k1, k2, ne_eq, not_true_eq_false, not_false_eq_true, and_true, and_false, or_true, or_false, if_true,
        if_false, List.cons_append, List.nil_append, List.append_nil, List.foldlM_cons, List.foldlM_nil, hB'] <;>
      rfl

theorem polarSum_differs {ar : Arithmetic} (h : Relative ar) {pr : Fin n → PureRecord ℝ} {kij : Fin n → Fin n → ℝ}
    {T V : ℝ} {moles : Fin n → ℝ} (hm : ∀ i, 1 ≤ (pr i).model_record.m)
    (he : ∀ i, 0 < (pr i).model_record.epsilon_k) (hk : ∀ i j, kij i j ≤ 1) (ha : Admissible (fromRecords pr kij) T V moles)
    (hp : Spec.packingFraction (fromRecords pr kij) T V moles ≤ 1 / 2) (hg : Growth ar ^ (411 + 12 * n) ≤ 13 / 12)
    (v : DQVariants) {κ : ℕ} (hκ : κ * (Growth ar ^ (polarOps n + 1) - 1) ≤ 1 / 2) :
    let f := fluidOf pr kij
    let rho := fun i => moles i / V
    PolarRegular κ v f T rho codeTables →
    Differs ar (5245 + 160 * n + n ^ 2 + padeOps n κ) (V * polarSize v f T rho codeTables)
      (V * polarEnergy v f T rho codeTables) (polarSum pr kij v (roundedState ar T V moles)) := by
  intro f rho hreg
  have hr := positive_of_admissible he ha
  simp only [polarSize, polarEnergy]
  dsimp only [codeTables, polarSum]
  obtain ⟨l1, l2⟩ := polar_lists hr kij
  have hg1 : ∀ k ≤ 411 + 12 * n, Growth ar ^ k ≤ 3 / 2 := fun k hk => by linarith [growth_mono h hk]
  have hg3 : Growth ar ^ 3 ≤ 3 := (hg1 3 (by omega)).trans (by norm_num)
  have t1 := (Differs.zero (a := ar) (k := 5239 + 160 * n + n * n)).add h
    ((hardSphere_differs h pr kij hk ha hp (hg1 _ (by omega))).mono h (by nlinarith) le_rfl)
  have t2 := t1.add h ((hardChain_differs h pr kij hk ha hp (hg1 _ (by omega))).mono h (by nlinarith) le_rfl)
  have t3 := t2.add h ((dispersion_differs h pr kij hk ha hm hp hg).mono h (by omega) le_rfl)
  rw [zero_add, zero_add, ← mul_add, ← mul_add, ← mul_add, ← mul_add] at t3
  have hn2 : n * n = n ^ 2 := (pow_two n).symm
  have t3 := t3.mono h (show _ ≤ 5242 + 160 * n + n ^ 2 + padeOps n κ by omega) le_rfl
  have p0 : ∀ s : ℝ, s = 0 → ∀ a b : ℝ, Fluid.padeSize s a b = 0 := fun s hs a b => by simp [Fluid.padeSize, hs]
  have q0 : ∀ a2 a3 : ℝ, a2 = 0 → Fluid.pade a2 a3 = 0 := fun a2 a3 hs => by simp [Fluid.pade, hs]
  -- dipoles
  have t4 : Differs ar (5243 + 160 * n + n ^ 2 + padeOps n κ)
      (V * (f.hardSphereSize T rho + f.chainSize T rho + f.dispersionSize T rho ![A0, A1, A2] ![B0, B1, B2]
        + Fluid.padeSize (f.dipole2Size T rho AD BD) (f.dipole2 T rho AD BD) (f.dipole3 T rho CD)))
      (V * (f.hardSphere T rho + f.chain T rho + f.dispersion T rho ![A0, A1, A2] ![B0, B1, B2]
        + Fluid.pade (f.dipole2 T rho AD BD) (f.dipole3 T rho CD)))
      (if (fromRecords pr kij).dipole_comp = [] then
        c (0.0 : Rd ar) + hardSphere (roundedParameters ar pr kij) (roundedState ar T V moles)
          + hardChain (roundedParameters ar pr kij) (roundedState ar T V moles)
          + dispersion (roundedParameters ar pr kij) (roundedState ar T V moles)
       else c (0.0 : Rd ar) + hardSphere (roundedParameters ar pr kij) (roundedState ar T V moles)
          + hardChain (roundedParameters ar pr kij) (roundedState ar T V moles)
          + dispersion (roundedParameters ar pr kij) (roundedState ar T V moles)
          + dipole (roundedParameters ar pr kij) (roundedState ar T V moles)) := by
    by_cases k1 : (fromRecords pr kij).dipole_comp = []
    · rw [if_pos k1]
      have hz := no_dipoles f T rho (fun i => by
        by_contra hne
        have := (l1 i).2 hne
        rw [k1] at this
        exact List.not_mem_nil this)
      rw [p0 _ (hz.1 _ _).2, q0 _ _ (hz.1 _ _).1, add_zero, add_zero]
      exact t3.mono h (by omega) le_rfl
    · rw [if_neg k1]
      obtain ⟨i, hi⟩ := List.exists_mem_of_ne_nil _ k1
      have d := dipole_differs h he hk ha hg3 (hreg.dipoles ⟨i, (l1 i).1 hi⟩) hκ
      have t := t3.add h (d.mono h (by omega) le_rfl)
      rw [← mul_add, ← mul_add] at t
      exact t.mono h (by omega) le_rfl
  -- quadrupoles
  generalize (if (fromRecords pr kij).dipole_comp = [] then _ else _ : Rd ar) = A4 at t4 ⊢
  have t5 : Differs ar (5244 + 160 * n + n ^ 2 + padeOps n κ)
      (V * (f.hardSphereSize T rho + f.chainSize T rho + f.dispersionSize T rho ![A0, A1, A2] ![B0, B1, B2]
        + Fluid.padeSize (f.dipole2Size T rho AD BD) (f.dipole2 T rho AD BD) (f.dipole3 T rho CD)
        + Fluid.padeSize (f.quadrupole2Size T rho AQ BQ) (f.quadrupole2 T rho AQ BQ) (f.quadrupole3 T rho CQ)))
      (V * (f.hardSphere T rho + f.chain T rho + f.dispersion T rho ![A0, A1, A2] ![B0, B1, B2]
        + Fluid.pade (f.dipole2 T rho AD BD) (f.dipole3 T rho CD)
        + Fluid.pade (f.quadrupole2 T rho AQ BQ) (f.quadrupole3 T rho CQ)))
      (if (fromRecords pr kij).quadpole_comp = [] then A4
       else A4 + quadrupole (roundedParameters ar pr kij) (roundedState ar T V moles)) := by
    by_cases k2 : (fromRecords pr kij).quadpole_comp = []
    · rw [if_pos k2]
      have hz := no_quadrupoles f T rho (fun i => by
        by_contra hne
        have := (l2 i).2 hne
        rw [k2] at this
        exact List.not_mem_nil this)
      rw [p0 _ (hz.1 _ _).2, q0 _ _ (hz.1 _ _).1, add_zero, add_zero]
      exact t4.mono h (by omega) le_rfl
    · rw [if_neg k2]
      obtain ⟨i, hi⟩ := List.exists_mem_of_ne_nil _ k2
      have d := quadrupole_differs h he hk ha hg3 hreg.diameters (hreg.quadrupoles ⟨i, (l2 i).1 hi⟩) hκ
      have t := t4.add h (d.mono h (by omega) le_rfl)
      rw [← mul_add, ← mul_add] at t
      exact t.mono h (by omega) le_rfl
  generalize (if (fromRecords pr kij).quadpole_comp = [] then _ else _ : Rd ar) = A5 at t5 ⊢
  -- dipoles with quadrupoles
  by_cases k : (fromRecords pr kij).dipole_comp = [] ∨ (fromRecords pr kij).quadpole_comp = []
  · simp only [if_pos k]
    have hz : (mixedSecond v f T rho ADQ BDQ = 0) ∧ mixedSecondSize v f T rho ADQ BDQ = 0 := by
      rcases k with k1 | k2
      · exact (no_dipoles f T rho (fun i => by
          by_contra hne
          have := (l1 i).2 hne
          rw [k1] at this
          exact List.not_mem_nil this)).2.2.1 _ _ _
      · exact (no_quadrupoles f T rho (fun i => by
          by_contra hne
          have := (l2 i).2 hne
          rw [k2] at this
          exact List.not_mem_nil this)).2.2.1 _ _ _
    rw [p0 _ hz.2, q0 _ _ hz.1, add_zero, add_zero]
    exact t5.mono h (show 5244 + 160 * n + n ^ 2 + padeOps n κ ≤ 5245 + 160 * n + n ^ 2 + padeOps n κ by omega) le_rfl
  · simp only [if_neg k]
    obtain ⟨k1, k2⟩ := not_or.1 k
    obtain ⟨i, hi⟩ := List.exists_mem_of_ne_nil _ k1
    obtain ⟨j, hj⟩ := List.exists_mem_of_ne_nil _ k2
    have d := mixed_differs h he hk ha hg3 v (hreg.mixed ⟨i, (l1 i).1 hi⟩ ⟨j, (l2 j).1 hj⟩) hκ
    have t := t5.add h (d.mono h (by omega) le_rfl)
    rw [← mul_add, ← mul_add] at t
    exact t.mono h (show 5244 + 160 * n + n ^ 2 + padeOps n κ + 1 ≤ 5245 + 160 * n + n ^ 2 + padeOps n κ by omega) le_rfl

theorem no_sites {pr : Fin n → PureRecord ℝ} (hka : ∀ i, (pr i).model_record.kappa_ab = none) (kij : Fin n → Fin n → ℝ) :
    (fromRecords pr kij).assoc_comp = [] := by
  refine List.filter_eq_nil_iff.2 fun i _ => ?_
  have z0 : (0.0 : ℝ) = 0 := by norm_num
  simp [hka i, z0]

theorem polar_residual_differs {ar : Arithmetic} (h : Relative ar) {pr : Fin n → PureRecord ℝ} {kij : Fin n → Fin n → ℝ}
    {T V : ℝ} {moles : Fin n → ℝ} (hka : ∀ i, (pr i).model_record.kappa_ab = none) (hm : ∀ i, 1 ≤ (pr i).model_record.m)
    (he : ∀ i, 0 < (pr i).model_record.epsilon_k) (hk : ∀ i j, kij i j ≤ 1) (ha : Admissible (fromRecords pr kij) T V moles)
    (hp : Spec.packingFraction (fromRecords pr kij) T V moles ≤ 1 / 2) (hg : Growth ar ^ (411 + 12 * n) ≤ 13 / 12)
    (o : PcSaftOptions (Rd ar)) (la : LinAlg (Rd ar) (Rd ar)) {κ : ℕ} (hκ : κ * (Growth ar ^ (polarOps n + 1) - 1) ≤ 1 / 2) :
    let f := fluidOf pr kij
    let rho := fun i => moles i / V
    PolarRegular κ o.dq_variant f T rho codeTables →
    ∃ A, (Eos.withOptions (roundedParameters ar pr kij) o).residualHelmholtz la (roundedState ar T V moles) = .ok A
      ∧ Differs ar (5245 + 160 * n + n ^ 2 + padeOps n κ) (V * polarSize o.dq_variant f T rho codeTables)
        (V * polarEnergy o.dq_variant f T rho codeTables) A := by
  intro f rho hreg
  exact ⟨_, (polar_residual h (positive_of_admissible he ha) kij o la _).1 (no_sites hka kij),
    polarSum_differs h hm he hk ha hp hg o.dq_variant hκ hreg⟩

/-! ### The property -/

/-- C118: the dipole contribution computed with rounding -/
theorem C118_dipole : ∃ t : Tables, t.Published
    ∧ ∀ (ar : Arithmetic), Relative ar → ∀ (n : ℕ) (pr : Fin n → PureRecord ℝ) (kij : Fin n → Fin n → ℝ) (T V : ℝ)
      (moles : Fin n → ℝ) (κ : ℕ), (∀ i, 0 < (pr i).model_record.epsilon_k) → (∀ i j, kij i j ≤ 1) →
      Admissible (fromRecords pr kij) T V moles → Growth ar ^ 3 ≤ 3 → κ * (Growth ar ^ (polarOps n + 1) - 1) ≤ 1 / 2 →
      let f := fluidOf pr kij
      let rho := fun i => moles i / V
      let a2 := f.dipole2 T rho t.aD t.bD
      let a3 := f.dipole3 T rho t.cD
      let s2 := f.dipole2Size T rho t.aD t.bD
      let s3 := f.dipole3Size T rho t.cD
      a2 ≠ a3 → s2 + s3 ≤ κ * |a2 - a3| →
      |(dipole (roundedParameters ar pr kij) (roundedState ar T V moles)).val - V * (a2 / (1 - a3 / a2))|
        ≤ (Growth ar ^ (padeOps n κ) - 1) * (V * (s2 ^ 2 / |a2 - a3|)) := by
  refine ⟨codeTables, codeTables_published, ?_⟩
  intro ar h n pr kij T V moles κ he hk ha hg hκ f rho a2 a3 s2 s3 hne hs
  exact (dipole_differs h he hk ha hg ⟨hne, hs⟩ hκ).error

/-- C118: the quadrupole contribution computed with rounding, for quadrupolar components of the same diameter (for others
see `C66_counterexample`) -/
theorem C118_quadrupole : ∃ t : Tables, t.Published
    ∧ ∀ (ar : Arithmetic), Relative ar → ∀ (n : ℕ) (pr : Fin n → PureRecord ℝ) (kij : Fin n → Fin n → ℝ) (T V : ℝ)
      (moles : Fin n → ℝ) (κ : ℕ), (∀ i, 0 < (pr i).model_record.epsilon_k) → (∀ i j, kij i j ≤ 1) →
      Admissible (fromRecords pr kij) T V moles → Growth ar ^ 3 ≤ 3 → κ * (Growth ar ^ (polarOps n + 1) - 1) ≤ 1 / 2 →
      let f := fluidOf pr kij
      let rho := fun i => moles i / V
      let a2 := f.quadrupole2 T rho t.aQ t.bQ
      let a3 := f.quadrupole3 T rho t.cQ
      let s2 := f.quadrupole2Size T rho t.aQ t.bQ
      let s3 := f.quadrupole3Size T rho t.cQ
      (∀ i j, f.q i ≠ 0 → f.q j ≠ 0 → f.sigma i = f.sigma j) → a2 ≠ a3 → s2 + s3 ≤ κ * |a2 - a3| →
      |(quadrupole (roundedParameters ar pr kij) (roundedState ar T V moles)).val - V * (a2 / (1 - a3 / a2))|
        ≤ (Growth ar ^ (padeOps n κ) - 1) * (V * (s2 ^ 2 / |a2 - a3|)) := by
  refine ⟨codeTables, codeTables_published, ?_⟩
  intro ar h n pr kij T V moles κ he hk ha hg hκ f rho a2 a3 s2 s3 hσ hne hs
  exact (quadrupole_differs h he hk ha hg hσ ⟨hne, hs⟩ hκ).error

/-- C118: the contribution of dipoles with quadrupoles computed with rounding -/
theorem C118_dipole_quadrupole : ∃ t : Tables, t.Published
    ∧ ∀ (ar : Arithmetic), Relative ar → ∀ (n : ℕ) (pr : Fin n → PureRecord ℝ) (kij : Fin n → Fin n → ℝ) (T V : ℝ)
      (moles : Fin n → ℝ) (κ : ℕ) (v : DQVariants), (∀ i, 0 < (pr i).model_record.epsilon_k) → (∀ i j, kij i j ≤ 1) →
      Admissible (fromRecords pr kij) T V moles → Growth ar ^ 3 ≤ 3 → κ * (Growth ar ^ (polarOps n + 1) - 1) ≤ 1 / 2 →
      let f := fluidOf pr kij
      let rho := fun i => moles i / V
      let a2 := mixedSecond v f T rho t.aM t.bM
      let a3 := f.dipoleQuadrupole3 T rho t.alpha t.cM
      let s2 := mixedSecondSize v f T rho t.aM t.bM
      let s3 := f.dipoleQuadrupole3Size T rho t.alpha t.cM
      a2 ≠ a3 → s2 + s3 ≤ κ * |a2 - a3| →
      |(dipoleQuadrupole v (roundedParameters ar pr kij) (roundedState ar T V moles)).val - V * (a2 / (1 - a3 / a2))|
        ≤ (Growth ar ^ (padeOps n κ) - 1) * (V * (s2 ^ 2 / |a2 - a3|)) := by
  refine ⟨codeTables, codeTables_published, ?_⟩
  intro ar h n pr kij T V moles κ v he hk ha hg hκ f rho a2 a3 s2 s3 hne hs
  exact (mixed_differs h he hk ha hg v ⟨hne, hs⟩ hκ).error

/-- C118: the residual Helmholtz energy of substances without association sites, polar or not, computed with rounding, differs
from the theory by at most the effect of `5245 + 160 n + n² + padeOps n κ` operations on the terms of the theory. -/
theorem C118_residual_energy : ∃ t : Tables, t.Published
    ∧ ∀ (ar : Arithmetic), Relative ar → ∀ (n : ℕ) (pr : Fin n → PureRecord ℝ) (kij : Fin n → Fin n → ℝ) (T V : ℝ)
      (moles : Fin n → ℝ) (o : PcSaftOptions (Rd ar)) (la : LinAlg (Rd ar) (Rd ar)) (κ : ℕ),
      (∀ i, (pr i).model_record.kappa_ab = none) → (∀ i, 1 ≤ (pr i).model_record.m) →
      (∀ i, 0 < (pr i).model_record.epsilon_k) → (∀ i j, kij i j ≤ 1) → Admissible (fromRecords pr kij) T V moles →
      Spec.packingFraction (fromRecords pr kij) T V moles ≤ 1 / 2 → Growth ar ^ (411 + 12 * n) ≤ 13 / 12 →
      κ * (Growth ar ^ (polarOps n + 1) - 1) ≤ 1 / 2 →
      let f := fluidOf pr kij
      let rho := fun i => moles i / V
      PolarRegular κ o.dq_variant f T rho t →
      ∃ A, (Eos.withOptions (roundedParameters ar pr kij) o).residualHelmholtz la (roundedState ar T V moles) = .ok A
        ∧ |A.val - V * polarEnergy o.dq_variant f T rho t|
          ≤ (Growth ar ^ (5245 + 160 * n + n ^ 2 + padeOps n κ) - 1) * (V * polarSize o.dq_variant f T rho t) := by
  refine ⟨codeTables, codeTables_published, ?_⟩
  intro ar h n pr kij T V moles o la κ hka hm he hk ha hp hg hκ f rho hreg
  obtain ⟨A, hA, e⟩ := polar_residual_differs h hka hm he hk ha hp hg o la hκ hreg
  exact ⟨A, hA, e.error⟩

theorem growth_polar : Growth Arithmetic.binary64 ^ 70000 - 1 ≤ 1e-11 ∧ Growth Arithmetic.binary64 ^ 35000000 - 1 ≤ 4e-9 := by
  have hu : Arithmetic.binary64.u = (2 ^ 53)⁻¹ := rfl
  have g1 := growth_le relative_binary64 70000
  have g2 := growth_le relative_binary64 35000000
  rw [hu] at g1 g2
  generalize Growth Arithmetic.binary64 ^ 70000 = G1 at g1 ⊢
  generalize Growth Arithmetic.binary64 ^ 35000000 = G2 at g2 ⊢
  norm_num at g1 g2 ⊢
  constructor <;> linarith

/-- C118: with the precision of `f64` and up to twenty components the error of the residual Helmholtz energy is at most
`4 · 10⁻⁹` times the terms of the theory. -/
theorem C118_binary64 : ∃ t : Tables, t.Published
    ∧ ∀ (n : ℕ) (pr : Fin n → PureRecord ℝ) (kij : Fin n → Fin n → ℝ) (T V : ℝ) (moles : Fin n → ℝ)
      (o : PcSaftOptions (Rd .binary64)) (la : LinAlg (Rd .binary64) (Rd .binary64)), n ≤ 20 →
      (∀ i, (pr i).model_record.kappa_ab = none) → (∀ i, 1 ≤ (pr i).model_record.m) →
      (∀ i, 0 < (pr i).model_record.epsilon_k) → (∀ i j, kij i j ≤ 1) → Admissible (fromRecords pr kij) T V moles →
      Spec.packingFraction (fromRecords pr kij) T V moles ≤ 1 / 2 →
      let f := fluidOf pr kij
      let rho := fun i => moles i / V
      PolarRegular 1000 o.dq_variant f T rho t →
      ∃ A, (Eos.withOptions (roundedParameters .binary64 pr kij) o).residualHelmholtz la
          (roundedState .binary64 T V moles) = .ok A
        ∧ |A.val - V * polarEnergy o.dq_variant f T rho t| ≤ 4e-9 * (V * polarSize o.dq_variant f T rho t) := by
  refine ⟨codeTables, codeTables_published, ?_⟩
  intro n pr kij T V moles o la hn hka hm he hk ha hp f rho hreg
  have n2 : n ^ 2 ≤ 20 ^ 2 := Nat.pow_le_pow_left hn 2
  have n3 : n ^ 3 ≤ 20 ^ 3 := Nat.pow_le_pow_left hn 3
  have hN : polarOps n ≤ 17208 := by
    rw [polarOps]
    omega
  have hκ : ((1000 : ℕ) : ℝ) * (Growth Arithmetic.binary64 ^ (polarOps n + 1) - 1) ≤ 1 / 2 := by
    have := growth_mono relative_binary64 (show polarOps n + 1 ≤ 35000000 by omega)
    have := growth_polar.2
    push_cast
    linarith
  obtain ⟨A, hA, e⟩ := polar_residual_differs relative_binary64 hka hm he hk ha hp (growth_binary64.1 n hn) o la hκ hreg
  refine ⟨A, hA, e.error.trans (mul_le_mul_of_nonneg_right ?_ e.size_nonneg)⟩
  have := growth_mono relative_binary64 (show 5245 + 160 * n + n ^ 2 + padeOps n 1000 ≤ 35000000 by
    rw [padeOps]
    omega)
  linarith [growth_polar.2]

/-- C118: for a single component with the precision of `f64` the error is at most `10⁻¹¹` times the terms of the theory. -/
theorem C118_pure_binary64 : ∃ t : Tables, t.Published
    ∧ ∀ (r : PureRecord ℝ) (T V N : ℝ) (o : PcSaftOptions (Rd .binary64)) (la : LinAlg (Rd .binary64) (Rd .binary64)),
      r.model_record.kappa_ab = none → 1 ≤ r.model_record.m → 0 < r.model_record.epsilon_k →
      Admissible (fromRecords (fun _ : Fin 1 => r) (fun _ _ => 0)) T V (fun _ => N) →
      Spec.packingFraction (fromRecords (fun _ : Fin 1 => r) (fun _ _ => 0)) T V (fun _ => N) ≤ 1 / 2 →
      let f := fluidOf (fun _ : Fin 1 => r) (fun _ _ => 0)
      let rho := fun _ : Fin 1 => N / V
      PolarRegular 100 o.dq_variant f T rho t →
      ∃ A, (Eos.withOptions (roundedParameters .binary64 (fun _ : Fin 1 => r) (fun _ _ => 0)) o).residualHelmholtz la
          (roundedState .binary64 T V (fun _ => N)) = .ok A
        ∧ |A.val - V * polarEnergy o.dq_variant f T rho t| ≤ 1e-11 * (V * polarSize o.dq_variant f T rho t) := by
  refine ⟨codeTables, codeTables_published, ?_⟩
  intro r T V N o la hka hm he ha hp f rho hreg
  have hκ : ((100 : ℕ) : ℝ) * (Growth Arithmetic.binary64 ^ (polarOps 1 + 1) - 1) ≤ 1 / 2 := by
    have := growth_mono relative_binary64 (show polarOps 1 + 1 ≤ 70000 by decide)
    have := growth_polar.1
    push_cast
    linarith
  obtain ⟨A, hA, e⟩ := polar_residual_differs relative_binary64 (fun _ => hka) (fun _ => hm) (fun _ => he)
    (fun _ _ => zero_le_one) ha hp (growth_binary64.1 1 (by norm_num)) o la hκ hreg
  refine ⟨A, hA, e.error.trans (mul_le_mul_of_nonneg_right ?_ e.size_nonneg)⟩
  have := growth_mono relative_binary64 (show 5245 + 160 * 1 + 1 ^ 2 + padeOps 1 100 ≤ 70000 by decide)
  exact (sub_le_sub_right this 1).trans growth_polar.1

/-- C118: one associating component in addition.  With the precision of `f64` and up to twenty components the errors are at most
`4.1 · 10⁻⁹` times the terms of the other contributions and `1.4 · 10⁻⁷` times those of the association contribution. -/
theorem C118_associating_energy : ∃ t : Tables, t.Published
    ∧ ∀ (n : ℕ) (pr : Fin n → PureRecord ℝ) (kij : Fin n → Fin n → ℝ) (T V : ℝ) (moles : Fin n → ℝ) (j : Fin n) (nu x : ℝ)
      (o : PcSaftOptions (Rd .binary64)) (la : LinAlg (Rd .binary64) (Rd .binary64)), n ≤ 20 →
      (∀ i, 1 ≤ (pr i).model_record.m) → (∀ i, 0 < (pr i).model_record.epsilon_k) → (∀ i j, kij i j ≤ 1) →
      Admissible (fromRecords pr kij) T V moles →
      Spec.packingFraction (fromRecords pr kij) T V moles ≤ 1 / 2 → (fromRecords pr kij).assoc_comp = [j] →
      0 ≤ (fromRecords pr kij).kappa_ab j → 0 ≤ (fromRecords pr kij).epsilon_k_ab j →
      (fromRecords pr kij).epsilon_k_ab j ≤ 1000 * T → (fromRecords pr kij).na j = nu → (fromRecords pr kij).nb j = nu →
      1 ≤ nu → nu ≤ 100 → 1e-6 ≤ x → MassActionA (specStrength (fromRecords pr kij) T V moles j j * (moles j / V)) nu x →
      let f := fluidOf pr kij
      let rho := fun i => moles i / V
      PolarRegular 1000 o.dq_variant f T rho t →
      ∃ A, (Eos.withOptions (roundedParameters .binary64 pr kij) o).residualHelmholtz la
          (roundedState .binary64 T V moles) = .ok A
        ∧ |A.val - (V * polarEnergy o.dq_variant f T rho t + moles j * (2 * nu * (Real.log x - x / 2 + 1 / 2)))|
          ≤ 4.1e-9 * (V * polarSize o.dq_variant f T rho t) + 1.4e-7 * (moles j * (2 * nu * (2 + |Real.log x|))) := by
  refine ⟨codeTables, codeTables_published, ?_⟩
  intro n pr kij T V moles j nu x o la hn hm he hk ha hp hj hκa hε hε2 hna hnb h1 h2 hx hmx f rho hreg
  have h := relative_binary64
  have n2 : n ^ 2 ≤ 20 ^ 2 := Nat.pow_le_pow_left hn 2
  have n3 : n ^ 3 ≤ 20 ^ 3 := Nat.pow_le_pow_left hn 3
  have hN : polarOps n ≤ 17208 := by
    rw [polarOps]
    omega
  have hκ : ((1000 : ℕ) : ℝ) * (Growth Arithmetic.binary64 ^ (polarOps n + 1) - 1) ≤ 1 / 2 := by
    have := growth_mono relative_binary64 (show polarOps n + 1 ≤ 35000000 by omega)
    have := growth_polar.2
    push_cast
    linarith
  obtain ⟨B, hB, eB⟩ := association_differs hn hk ha hp hj hκa hε hε2 hna hnb h1 h2 hx hmx
  have eA := polarSum_differs h hm he hk ha hp (growth_binary64.1 n hn) o.dq_variant hκ hreg
  refine ⟨_, (polar_residual h (positive_of_admissible he ha) kij o la _).2 j B hj hB, ?_⟩
  have k1 : Growth Arithmetic.binary64 ^ (5245 + 160 * n + n ^ 2 + padeOps n 1000) ≤ 1 + 4e-9 := by
    have := growth_mono relative_binary64 (show 5245 + 160 * n + n ^ 2 + padeOps n 1000 ≤ 35000000 by
      rw [padeOps]
      omega)
    linarith [growth_polar.2]
  have k2 := growth_f64 (k := 107 * 10 ^ 7) (e := 1.3e-7) (by norm_num) (by norm_num)
  set C := polarSum pr kij o.dq_variant (roundedState .binary64 T V moles)
  have u1 := eA.error
  have u2 := eB.error
  have u3 := eA.abs_val
  have u4 := eB.abs_val
  have s1 := eA.size_nonneg
  have s2 := eB.size_nonneg
  have u5 := h.add C.val B.val
  have hu : Arithmetic.binary64.u = (2 ^ 53)⁻¹ := rfl
  rw [hu] at u5
  change |Arithmetic.binary64.add C.val B.val - _| ≤ _
  change |C.val - V * polarEnergy o.dq_variant f T rho codeTables| ≤ _ * (V * polarSize o.dq_variant f T rho codeTables) at u1
  change |C.val| ≤ _ * (V * polarSize o.dq_variant f T rho codeTables) at u3
  change 0 ≤ V * polarSize o.dq_variant f T rho codeTables at s1
  set W := V * polarSize o.dq_variant f T rho codeTables
  set Z := moles j * (2 * nu * (2 + |Real.log x|))
  have v1 := u1.trans (mul_le_mul_of_nonneg_right (sub_le_iff_le_add'.2 k1) s1)
  have v2 := u2.trans (mul_le_mul_of_nonneg_right (sub_le_iff_le_add'.2 k2) s2)
  have v3 := u3.trans (mul_le_mul_of_nonneg_right (k1.trans (show _ ≤ (2 : ℝ) by norm_num)) s1)
  have v4 := u4.trans (mul_le_mul_of_nonneg_right (k2.trans (show _ ≤ (2 : ℝ) by norm_num)) s2)
  have v5 := u5.trans (mul_le_mul_of_nonneg_left (abs_add_le C.val B.val) (by positivity))
  rw [abs_le] at v1 v2 v5 ⊢
  norm_num at v3 v4 v5 ⊢
  constructor <;> linarith

/-! ### A concrete substance -/

theorem polarSphere_j2Size {q : ℕ} (a b : Fin q → Fin 3 → ℝ) (eta : ℝ) :
    (fluidOf polarSphere (fun _ _ => 0)).j2Size 100 a b eta 0 0
      = ∑ r, (|a r 0| + 2 * |a r 1| + 6 * |a r 2| + (|b r 0| + 2 * |b r 1| + 6 * |b r 2|)) * eta ^ (r : ℕ) := by
  have hm : (fluidOf polarSphere (fun _ _ => 0)).mPair 0 0 = 1 := by
    simp [Spec.Fluid.mPair, Spec.Fluid.mP, fluidOf, polarSphere]
  have he : (fluidOf polarSphere (fun _ _ => 0)).energyIJ 0 0 = 100 := by
    simp only [Spec.Fluid.energyIJ, fluidOf, polarSphere]
    exact Real.sqrt_mul_self (by norm_num)
  simp only [Spec.Fluid.j2Size, hm, he, Spec.Fluid.coeffSize]
  norm_num

theorem polarSphere_j3Size {q : ℕ} (a : Fin q → Fin 3 → ℝ) (eta : ℝ) :
    (fluidOf polarSphere (fun _ _ => 0)).j3Size a eta 0 0 0
      = ∑ r, (|a r 0| + 2 * |a r 1| + 6 * |a r 2|) * eta ^ (r : ℕ) := by
  have hm : (fluidOf polarSphere (fun _ _ => 0)).mTriplet 0 0 0 = 1 := by
    simp [Spec.Fluid.mTriplet, Spec.Fluid.mP, fluidOf, polarSphere]
  simp only [Spec.Fluid.j3Size, hm, Spec.Fluid.coeffSize]
  norm_num

theorem padeRegular_of {κ : ℕ} {P R S2 S3 J J3 s2 s3 a2 a3 : ℝ} (hP : 0 < P) (e1 : s2 = P * S2) (e2 : s3 = P * (R * S3))
    (e3 : a2 = -(P * J)) (e4 : a3 = P * (R * J3)) (h0 : 0 < J + R * J3) (h1 : S2 + R * S3 ≤ κ * (J + R * J3)) :
    Fluid.PadeRegular κ s2 s3 a2 a3 := by
  have e : a2 - a3 = -(P * (J + R * J3)) := by rw [e3, e4]; ring
  have hpos := mul_pos hP h0
  constructor
  · intro hc
    rw [hc, sub_self] at e
    linarith
  · rw [e, abs_neg, abs_of_pos hpos, e1, e2]
    have := mul_le_mul_of_nonneg_left h1 hP.le
    linarith

theorem polarSphere_regular (v : DQVariants) :
    PolarRegular 100 v (fluidOf polarSphere (fun _ _ => 0)) 100 (fun _ => 1 / 1000) codeTables := by
  obtain ⟨h0, h1⟩ := polarSphere_zeta
  have hp := Real.pi_pos
  have hp3 := Real.pi_gt_d2
  have hp4 := Real.pi_lt_d2
  have hsig : (fluidOf polarSphere (fun _ _ => 0)).sigma 0 = 3 := rfl
  have hμ : (fluidOf polarSphere (fun _ _ => 0)).dipoleStrength 100 0 = 400000000 / 1380649 := by
    norm_num [Spec.Fluid.dipoleStrength, fluidOf, polarSphere, Spec.Fluid.debyeSq, Spec.Fluid.kB]
  have hQ : (fluidOf polarSphere (fun _ _ => 0)).quadrupoleStrength 100 0 = 900000000 / 1380649 := by
    norm_num [Spec.Fluid.quadrupoleStrength, fluidOf, polarSphere, Spec.Fluid.debyeSq, Spec.Fluid.kB]
  constructor
  · intro i j _ _
    rw [Subsingleton.elim i j]
  · intro _
    simp only [Spec.Fluid.dipole2, Spec.Fluid.dipole3, Spec.Fluid.dipole2Size, Spec.Fluid.dipole3Size, Finset.univ_unique,
      Fin.default_eq_zero, Finset.sum_singleton, polarSphere_j2, polarSphere_j3, polarSphere_j2Size, polarSphere_j3Size,
      polarSphere_sigmaIJ, hμ]
    generalize (fluidOf polarSphere (fun _ _ => 0)).zeta 100 (fun _ => 1 / 1000) 3 = eta at h0 h1 ⊢
    have h2 : 0 < eta ^ 2 := by positivity
    have h3 : 0 < eta ^ 3 := by positivity
    have h4 : 0 < eta ^ 4 := by positivity
    have l2 : eta ^ 2 ≤ 0.001 := (pow_le_pow_left₀ h0.le h1.le 2).trans (by norm_num)
    have l3 : eta ^ 3 ≤ 0.001 := (pow_le_pow_left₀ h0.le h1.le 3).trans (by norm_num)
    have l4 : eta ^ 4 ≤ 0.001 := (pow_le_pow_left₀ h0.le h1.le 4).trans (by norm_num)
    have hJ : 0.49 ≤ ∑ r : Fin 5, ((AD r 0 : ℝ) + BD r 0) * eta ^ (r : ℕ) := by
      rw [Fin.sum_univ_five]
      simp only [AD, BD, Matrix.cons_val_zero, Matrix.cons_val_one, Matrix.cons_val]
      norm_num
      linarith
    have hJ3 : ∑ r : Fin 4, (CD r 0 : ℝ) * eta ^ (r : ℕ) ≤ 0 := by
      rw [Fin.sum_univ_four]
      simp only [CD, Matrix.cons_val_zero, Matrix.cons_val_one, Matrix.cons_val]
      norm_num
      linarith
    have hS2 : ∑ r : Fin 5, (|(AD r 0 : ℝ)| + 2 * |(AD r 1 : ℝ)| + 6 * |(AD r 2 : ℝ)|
        + (|(BD r 0 : ℝ)| + 2 * |(BD r 1 : ℝ)| + 6 * |(BD r 2 : ℝ)|)) * eta ^ (r : ℕ) ≤ 36 := by
      rw [Fin.sum_univ_five]
      simp only [AD, BD, Matrix.cons_val_zero, Matrix.cons_val_one, Matrix.cons_val]
      norm_num [abs_of_neg, abs_of_pos]
      linarith
    have hS3 : ∑ r : Fin 4, (|(CD r 0 : ℝ)| + 2 * |(CD r 1 : ℝ)| + 6 * |(CD r 2 : ℝ)|) * eta ^ (r : ℕ) ≤ 7 := by
      rw [Fin.sum_univ_four]
      simp only [CD, Matrix.cons_val_zero, Matrix.cons_val_one, Matrix.cons_val]
      norm_num [abs_of_neg, abs_of_pos]
      linarith
    change Fluid.PadeRegular 100 (Real.pi * (_ * ∑ r : Fin 5, (|(AD r 0 : ℝ)| + 2 * |(AD r 1 : ℝ)| + 6 * |(AD r 2 : ℝ)|
        + (|(BD r 0 : ℝ)| + 2 * |(BD r 1 : ℝ)| + 6 * |(BD r 2 : ℝ)|)) * eta ^ (r : ℕ)))
      (4 / 3 * Real.pi ^ 2 * (_ * ∑ r : Fin 4, (|(CD r 0 : ℝ)| + 2 * |(CD r 1 : ℝ)| + 6 * |(CD r 2 : ℝ)|) * eta ^ (r : ℕ)))
      (-Real.pi * (_ * ∑ r : Fin 5, ((AD r 0 : ℝ) + BD r 0) * eta ^ (r : ℕ)))
      (-(4 / 3 * Real.pi ^ 2) * (_ * ∑ r : Fin 4, (CD r 0 : ℝ) * eta ^ (r : ℕ)))
    generalize ∑ r : Fin 5, ((AD r 0 : ℝ) + BD r 0) * eta ^ (r : ℕ) = J at hJ ⊢
    generalize ∑ r : Fin 4, (CD r 0 : ℝ) * eta ^ (r : ℕ) = J3 at hJ3 ⊢
    generalize ∑ r : Fin 5, (|(AD r 0 : ℝ)| + 2 * |(AD r 1 : ℝ)| + 6 * |(AD r 2 : ℝ)|
        + (|(BD r 0 : ℝ)| + 2 * |(BD r 1 : ℝ)| + 6 * |(BD r 2 : ℝ)|)) * eta ^ (r : ℕ) = S2 at hS2 ⊢
    generalize ∑ r : Fin 4, (|(CD r 0 : ℝ)| + 2 * |(CD r 1 : ℝ)| + 6 * |(CD r 2 : ℝ)|) * eta ^ (r : ℕ) = S3 at hS3 ⊢
    have hR : 0 ≤ 4 / 3 * Real.pi * (1 / 1000 * (400000000 / 1380649)) * -J3 := mul_nonneg (by positivity) (by linarith)
    have hR3 : 4 / 3 * Real.pi * (1 / 1000 * (400000000 / 1380649)) * S3 ≤ 1.3 * 7 := by
      have : 4 / 3 * Real.pi * (1 / 1000 * (400000000 / 1380649)) ≤ 1.3 := by linarith
      calc _ ≤ 4 / 3 * Real.pi * (1 / 1000 * (400000000 / 1380649)) * 7 := by gcongr
        _ ≤ _ := by linarith
    refine padeRegular_of (P := Real.pi * (1 / 1000 * (1 / 1000) * (400000000 / 1380649) * (400000000 / 1380649) / 3 ^ 3))
      (R := 4 / 3 * Real.pi * (1 / 1000 * (400000000 / 1380649))) (S2 := S2) (S3 := S3) (J := J) (J3 := -J3)
      (by positivity) (by ring) (by ring) (by ring) (by ring) (by linarith) ?_
    push_cast
    linarith
  · intro _
    simp only [Spec.Fluid.quadrupole2, Spec.Fluid.quadrupole3, Spec.Fluid.quadrupole2Size, Spec.Fluid.quadrupole3Size,
      Finset.univ_unique, Fin.default_eq_zero, Finset.sum_singleton, polarSphere_j2, polarSphere_j3, polarSphere_j2Size,
      polarSphere_j3Size, polarSphere_sigmaIJ, hQ]
    generalize (fluidOf polarSphere (fun _ _ => 0)).zeta 100 (fun _ => 1 / 1000) 3 = eta at h0 h1 ⊢
    have h2 : 0 < eta ^ 2 := by positivity
    have h3 : 0 < eta ^ 3 := by positivity
    have h4 : 0 < eta ^ 4 := by positivity
    have l2 : eta ^ 2 ≤ 0.001 := (pow_le_pow_left₀ h0.le h1.le 2).trans (by norm_num)
    have l3 : eta ^ 3 ≤ 0.001 := (pow_le_pow_left₀ h0.le h1.le 3).trans (by norm_num)
    have l4 : eta ^ 4 ≤ 0.001 := (pow_le_pow_left₀ h0.le h1.le 4).trans (by norm_num)
    have hJ : 1.5 ≤ ∑ r : Fin 5, ((AQ r 0 : ℝ) + BQ r 0) * eta ^ (r : ℕ) := by
      rw [Fin.sum_univ_five]
      simp only [AQ, BQ, Matrix.cons_val_zero, Matrix.cons_val_one, Matrix.cons_val]
      norm_num
      linarith
    have hJ3 : -0.6 ≤ ∑ r : Fin 4, (CQ r 0 : ℝ) * eta ^ (r : ℕ) := by
      rw [Fin.sum_univ_four]
      simp only [CQ, Matrix.cons_val_zero, Matrix.cons_val_one, Matrix.cons_val]
      norm_num
      linarith
    have hS2 : ∑ r : Fin 5, (|(AQ r 0 : ℝ)| + 2 * |(AQ r 1 : ℝ)| + 6 * |(AQ r 2 : ℝ)|
        + (|(BQ r 0 : ℝ)| + 2 * |(BQ r 1 : ℝ)| + 6 * |(BQ r 2 : ℝ)|)) * eta ^ (r : ℕ) ≤ 64 := by
      rw [Fin.sum_univ_five]
      simp only [AQ, BQ, Matrix.cons_val_zero, Matrix.cons_val_one, Matrix.cons_val]
      norm_num [abs_of_neg, abs_of_pos]
      linarith
    have hS3 : ∑ r : Fin 4, (|(CQ r 0 : ℝ)| + 2 * |(CQ r 1 : ℝ)| + 6 * |(CQ r 2 : ℝ)|) * eta ^ (r : ℕ) ≤ 30 := by
      rw [Fin.sum_univ_four]
      simp only [CQ, Matrix.cons_val_zero, Matrix.cons_val_one, Matrix.cons_val]
      norm_num [abs_of_neg, abs_of_pos]
      linarith
    change Fluid.PadeRegular 100 (9 / 16 * Real.pi * (_ * ∑ r : Fin 5, (|(AQ r 0 : ℝ)| + 2 * |(AQ r 1 : ℝ)| + 6 * |(AQ r 2 : ℝ)|
        + (|(BQ r 0 : ℝ)| + 2 * |(BQ r 1 : ℝ)| + 6 * |(BQ r 2 : ℝ)|)) * eta ^ (r : ℕ)))
      (9 / 16 * Real.pi ^ 2 * (_ * ∑ r : Fin 4, (|(CQ r 0 : ℝ)| + 2 * |(CQ r 1 : ℝ)| + 6 * |(CQ r 2 : ℝ)|) * eta ^ (r : ℕ)))
      (-(9 / 16 * Real.pi) * (_ * ∑ r : Fin 5, ((AQ r 0 : ℝ) + BQ r 0) * eta ^ (r : ℕ)))
      (9 / 16 * Real.pi ^ 2 * (_ * ∑ r : Fin 4, (CQ r 0 : ℝ) * eta ^ (r : ℕ)))
    generalize ∑ r : Fin 5, ((AQ r 0 : ℝ) + BQ r 0) * eta ^ (r : ℕ) = J at hJ ⊢
    generalize ∑ r : Fin 4, (CQ r 0 : ℝ) * eta ^ (r : ℕ) = J3 at hJ3 ⊢
    generalize ∑ r : Fin 5, (|(AQ r 0 : ℝ)| + 2 * |(AQ r 1 : ℝ)| + 6 * |(AQ r 2 : ℝ)|
        + (|(BQ r 0 : ℝ)| + 2 * |(BQ r 1 : ℝ)| + 6 * |(BQ r 2 : ℝ)|)) * eta ^ (r : ℕ) = S2 at hS2 ⊢
    generalize ∑ r : Fin 4, (|(CQ r 0 : ℝ)| + 2 * |(CQ r 1 : ℝ)| + 6 * |(CQ r 2 : ℝ)|) * eta ^ (r : ℕ) = S3 at hS3 ⊢
    have hr : Real.pi * (1 / 1000 * (900000000 / 1380649)) / 9 ≤ 0.25 := by linarith
    have hR : -0.15 ≤ Real.pi * (1 / 1000 * (900000000 / 1380649)) / 9 * J3 := by
      have : Real.pi * (1 / 1000 * (900000000 / 1380649)) / 9 * -0.6 ≤ Real.pi * (1 / 1000 * (900000000 / 1380649)) / 9 * J3 :=
        mul_le_mul_of_nonneg_left hJ3 (by positivity)
      linarith
    have hR3 : Real.pi * (1 / 1000 * (900000000 / 1380649)) / 9 * S3 ≤ 0.25 * 30 := by
      calc _ ≤ Real.pi * (1 / 1000 * (900000000 / 1380649)) / 9 * 30 := by gcongr
        _ ≤ _ := by linarith
    refine padeRegular_of
      (P := 9 / 16 * Real.pi * (1 / 1000 * (1 / 1000) * (900000000 / 1380649) * (900000000 / 1380649) / 3 ^ 7))
      (R := Real.pi * (1 / 1000 * (900000000 / 1380649)) / 9) (S2 := S2) (S3 := S3) (J := J) (J3 := J3)
      (by positivity) (by ring) (by ring) (by ring) (by ring) (by linarith) ?_
    push_cast
    linarith
  · intro _ _
    have h44 : mixedSecond v (fluidOf polarSphere (fun _ _ => 0)) 100 (fun _ => 1 / 1000) codeTables.aM codeTables.bM
          = mixedSecond .DQ35 (fluidOf polarSphere (fun _ _ => 0)) 100 (fun _ => 1 / 1000) codeTables.aM codeTables.bM
        ∧ mixedSecondSize v (fluidOf polarSphere (fun _ _ => 0)) 100 (fun _ => 1 / 1000) codeTables.aM codeTables.bM
          = mixedSecondSize .DQ35 (fluidOf polarSphere (fun _ _ => 0)) 100 (fun _ => 1 / 1000) codeTables.aM codeTables.bM := by
      cases v
      · exact ⟨rfl, rfl⟩
      · simp only [mixedSecond, mixedSecondSize, Spec.Fluid.dipoleQuadrupole2, Spec.Fluid.dipoleQuadrupole2',
          Spec.Fluid.dipoleQuadrupole2Size, Spec.Fluid.dipoleQuadrupole2Size', Finset.univ_unique, Fin.default_eq_zero,
          Finset.sum_singleton, hsig]
        constructor <;> ring
    rw [h44.1, h44.2]
    simp only [mixedSecond, mixedSecondSize, Spec.Fluid.dipoleQuadrupole2, Spec.Fluid.dipoleQuadrupole3,
      Spec.Fluid.dipoleQuadrupole2Size, Spec.Fluid.dipoleQuadrupole3Size,
      Finset.univ_unique, Fin.default_eq_zero, Finset.sum_singleton, polarSphere_j2, polarSphere_j3, polarSphere_j2Size,
      polarSphere_j3Size, polarSphere_sigmaIJ, hQ, hμ, hsig]
    generalize (fluidOf polarSphere (fun _ _ => 0)).zeta 100 (fun _ => 1 / 1000) 3 = eta at h0 h1 ⊢
    have h2 : 0 < eta ^ 2 := by positivity
    have h3 : 0 < eta ^ 3 := by positivity
    have l2 : eta ^ 2 ≤ 0.0004 := (pow_le_pow_left₀ h0.le h1.le 2).trans (by norm_num)
    have l3 : eta ^ 3 ≤ 0.0004 := (pow_le_pow_left₀ h0.le h1.le 3).trans (by norm_num)
    have hJ : 0.21 ≤ ∑ r : Fin 4, ((ADQ r 0 : ℝ) + BDQ r 0) * eta ^ (r : ℕ) := by
      rw [Fin.sum_univ_four]
      simp only [ADQ, BDQ, Matrix.cons_val_zero, Matrix.cons_val_one, Matrix.cons_val]
      norm_num
      linarith
    have hS2 : ∑ r : Fin 4, (|(ADQ r 0 : ℝ)| + 2 * |(ADQ r 1 : ℝ)| + 6 * |(ADQ r 2 : ℝ)|
        + (|(BDQ r 0 : ℝ)| + 2 * |(BDQ r 1 : ℝ)| + 6 * |(BDQ r 2 : ℝ)|)) * eta ^ (r : ℕ) ≤ 16 := by
      rw [Fin.sum_univ_four]
      simp only [ADQ, BDQ, Matrix.cons_val_zero, Matrix.cons_val_one, Matrix.cons_val]
      norm_num [abs_of_neg, abs_of_pos]
      linarith
    have hS3 : ∑ r : Fin 3, (|(![(CDQ r 0 : ℝ), CDQ r 1, 0] : Fin 3 → ℝ) 0| + 2 * |(![(CDQ r 0 : ℝ), CDQ r 1, 0] : Fin 3 → ℝ) 1|
        + 6 * |(![(CDQ r 0 : ℝ), CDQ r 1, 0] : Fin 3 → ℝ) 2|) * eta ^ (r : ℕ) ≤ 5.5 := by
      rw [Fin.sum_univ_three]
      simp only [CDQ, Matrix.cons_val_zero, Matrix.cons_val_one, Matrix.cons_val]
      norm_num [abs_of_neg, abs_of_pos]
      linarith
    have hJ3 : 0 ≤ ∑ r : Fin 3, (![(CDQ r 0 : ℝ), CDQ r 1, 0] : Fin 3 → ℝ) 0 * eta ^ (r : ℕ) := by
      rw [Fin.sum_univ_three]
      simp only [CDQ, Matrix.cons_val_zero, Matrix.cons_val_one, Matrix.cons_val]
      norm_num
      linarith
    change Fluid.PadeRegular 100 (9 / 4 * Real.pi * (_ * ∑ r : Fin 4, (|(ADQ r 0 : ℝ)| + 2 * |(ADQ r 1 : ℝ)|
        + 6 * |(ADQ r 2 : ℝ)| + (|(BDQ r 0 : ℝ)| + 2 * |(BDQ r 1 : ℝ)| + 6 * |(BDQ r 2 : ℝ)|)) * eta ^ (r : ℕ)))
      (Real.pi ^ 2 * (1 / 1000 * (1 / 1000) * (1 / 1000) * _ * _ * (_ + ALPHA * _) / _
        * ∑ r : Fin 3, (|(![(CDQ r 0 : ℝ), CDQ r 1, 0] : Fin 3 → ℝ) 0|
        + 2 * |(![(CDQ r 0 : ℝ), CDQ r 1, 0] : Fin 3 → ℝ) 1| + 6 * |(![(CDQ r 0 : ℝ), CDQ r 1, 0] : Fin 3 → ℝ) 2|)
          * eta ^ (r : ℕ)))
      (-(9 / 4 * Real.pi) * (_ * ∑ r : Fin 4, ((ADQ r 0 : ℝ) + BDQ r 0) * eta ^ (r : ℕ)))
      (Real.pi ^ 2 * (1 / 1000 * (1 / 1000) * (1 / 1000) * _ * _ * (_ + ALPHA * _) / _
        * ∑ r : Fin 3, (![(CDQ r 0 : ℝ), CDQ r 1, 0] : Fin 3 → ℝ) 0 * eta ^ (r : ℕ)))
    generalize ∑ r : Fin 4, ((ADQ r 0 : ℝ) + BDQ r 0) * eta ^ (r : ℕ) = J at hJ ⊢
    generalize ∑ r : Fin 3, (![(CDQ r 0 : ℝ), CDQ r 1, 0] : Fin 3 → ℝ) 0 * eta ^ (r : ℕ) = J3 at hJ3 ⊢
    generalize ∑ r : Fin 4, (|(ADQ r 0 : ℝ)| + 2 * |(ADQ r 1 : ℝ)| + 6 * |(ADQ r 2 : ℝ)|
        + (|(BDQ r 0 : ℝ)| + 2 * |(BDQ r 1 : ℝ)| + 6 * |(BDQ r 2 : ℝ)|)) * eta ^ (r : ℕ) = S2 at hS2 ⊢
    generalize ∑ r : Fin 3, (|(![(CDQ r 0 : ℝ), CDQ r 1, 0] : Fin 3 → ℝ) 0|
        + 2 * |(![(CDQ r 0 : ℝ), CDQ r 1, 0] : Fin 3 → ℝ) 1| + 6 * |(![(CDQ r 0 : ℝ), CDQ r 1, 0] : Fin 3 → ℝ) 2|)
          * eta ^ (r : ℕ) = S3 at hS3 ⊢
    have hal : (ALPHA : ℝ) = 1.1937350 := rfl
    rw [hal]
    have hr : Real.pi * (4 / 9 / 1000 * (400000000 / 1380649 * 3 + 1.1937350 * (900000000 / 1380649 / 3)) / 3) ≤ 0.54 := by
      linarith
    have hR : 0 ≤ Real.pi * (4 / 9 / 1000 * (400000000 / 1380649 * 3 + 1.1937350 * (900000000 / 1380649 / 3)) / 3) * J3 :=
      mul_nonneg (by positivity) hJ3
    have hR3 : Real.pi * (4 / 9 / 1000 * (400000000 / 1380649 * 3 + 1.1937350 * (900000000 / 1380649 / 3)) / 3) * S3
        ≤ 0.54 * 5.5 := by
      calc _ ≤ Real.pi * (4 / 9 / 1000 * (400000000 / 1380649 * 3 + 1.1937350 * (900000000 / 1380649 / 3)) / 3) * 5.5 := by
            gcongr
        _ ≤ _ := by linarith
    refine padeRegular_of
      (P := 9 / 4 * Real.pi * (1 / 1000 * (1 / 1000) * (400000000 / 1380649) * (900000000 / 1380649) / 3 ^ 5))
      (R := Real.pi * (4 / 9 / 1000 * (400000000 / 1380649 * 3 + 1.1937350 * (900000000 / 1380649 / 3)) / 3))
      (S2 := S2) (S3 := S3) (J := J) (J3 := J3)
      (by positivity) (by ring) (by ring) (by ring) (by ring) (by linarith) ?_
    push_cast
    linarith

/-- a molecule with a dipole and a quadrupole meets the hypotheses of all theorems of this file -/
example (v : DQVariants) : Relative .binary64 ∧ (∀ i, (polarSphere i).model_record.kappa_ab = none)
    ∧ (∀ i, 1 ≤ (polarSphere i).model_record.m) ∧ (∀ i, 0 < (polarSphere i).model_record.epsilon_k)
    ∧ Admissible (fromRecords polarSphere (fun _ _ => 0)) 100 1000 (fun _ => 1)
    ∧ Spec.packingFraction (fromRecords polarSphere (fun _ _ => 0)) 100 1000 (fun _ => 1) ≤ 1 / 2
    ∧ PolarRegular 100 v (fluidOf polarSphere (fun _ _ => 0)) 100 (fun _ => 1 / 1000) codeTables
    ∧ Growth Arithmetic.binary64 ^ (411 + 12 * 1) ≤ 13 / 12
    ∧ ((100 : ℕ) : ℝ) * (Growth Arithmetic.binary64 ^ (polarOps 1 + 1) - 1) ≤ 1 / 2
    ∧ (∃ i, (fluidOf polarSphere (fun _ _ => 0)).mu i ≠ 0) ∧ ∃ i, (fluidOf polarSphere (fun _ _ => 0)).q i ≠ 0 := by
  refine ⟨relative_binary64, fun _ => rfl, fun _ => by norm_num [polarSphere], polarSphere_positive.epsilon,
    polarSphere_admissible, ?_, polarSphere_regular v, growth_binary64.1 1 (by norm_num), ?_, ⟨0, ?_⟩, ⟨0, ?_⟩⟩
  · have e : Spec.packingFraction (fromRecords polarSphere (fun _ _ => 0)) 100 1000 (fun _ => 1)
        = (fluidOf polarSphere (fun _ _ => 0)).zeta 100 (fun _ => 1 / 1000) 3 := by
      simp only [Spec.Fluid.zeta, Spec.packingFraction, Finset.univ_unique, Fin.default_eq_zero, Finset.sum_singleton,
        Spec.Fluid.d, fluidOf, fromRecords]
      ring
    rw [e]
    linarith [polarSphere_zeta.2]
  · have := growth_mono relative_binary64 (show polarOps 1 + 1 ≤ 70000 by decide)
    have := growth_polar.1
    push_cast
    linarith
  · norm_num [fluidOf, polarSphere]
  · norm_num [fluidOf, polarSphere]

/-- the same molecule with a site of each type -/
noncomputable def polarSites (_ : Fin 1) : PureRecord ℝ :=
  ⟨⟨none, ""⟩, 44, ⟨1, 3, 100, some 2, some 3, some 0.01, some 1000, none, none, none, none, none⟩, none⟩

theorem polarSites_strength : 0 ≤ specStrength (fromRecords polarSites (fun _ _ => 0)) 100 1000 (fun _ => 1) 0 0 * (1 / 1000)
    ∧ specStrength (fromRecords polarSites (fun _ _ => 0)) 100 1000 (fun _ => 1) 0 0 * (1 / 1000) ≤ 162 := by
  have ha := polarSphere_admissible
  have hpi := Real.pi_lt_d2
  have d0 : 0 < Spec.diameter 3 100 100 := by
    unfold Spec.diameter
    have := exp_le_one_of (e := 100) (T := 100) (by norm_num) (by norm_num)
    linarith
  have d1 : Spec.diameter 3 100 100 ≤ 3 := by
    unfold Spec.diameter
    have := Real.exp_pos (-3 * 100 / 100)
    linarith
  have z : moment2 (fromRecords polarSites (fun _ _ => 0)) 100 1000 (fun _ => 1)
      = 1 / 1000 * (Real.pi / 6 * Spec.diameter 3 100 100 ^ 2) := by
    rw [moment2, Fin.sum_univ_one]
    change 1 / 1000 * 1 * (Real.pi / 6 * Spec.diameter 3 100 100 ^ 2) = _
    ring
  have e : specStrength (fromRecords polarSites (fun _ _ => 0)) 100 1000 (fun _ => 1) 0 0
      = contactPair (1 / 1000 * (Real.pi / 6 * Spec.diameter 3 100 100 ^ 2))
        (Spec.packingFraction (fromRecords polarSphere (fun _ _ => 0)) 100 1000 (fun _ => 1))
        (Spec.diameter 3 100 100) (Spec.diameter 3 100 100) * Real.sqrt (0.01 * 0.01) * Real.sqrt (3 * 3) ^ 3
        * (Real.exp ((1000 + 1000) / 2 / 100) - 1) := by
    rw [← z]
    rfl
  have hη : Spec.packingFraction (fromRecords polarSphere (fun _ _ => 0)) 100 1000 (fun _ => 1) ≤ 1 / 2 := by
    have e : Spec.packingFraction (fromRecords polarSphere (fun _ _ => 0)) 100 1000 (fun _ => 1)
        = (fluidOf polarSphere (fun _ _ => 0)).zeta 100 (fun _ => 1 / 1000) 3 := by
      simp only [Spec.Fluid.zeta, Spec.packingFraction, Finset.univ_unique, Fin.default_eq_zero, Finset.sum_singleton,
        Spec.Fluid.d, fluidOf, fromRecords]
      ring
    rw [e]
    linarith [polarSphere_zeta.2]
  set η := Spec.packingFraction (fromRecords polarSphere (fun _ _ => 0)) 100 1000 (fun _ => 1)
  set d := Spec.diameter 3 100 100
  have hz : 1 / 1000 * (Real.pi / 6 * d ^ 2) ≤ 1 / 10 := by
    have : d ^ 2 ≤ 9 := (pow_le_pow_left₀ d0.le d1 2).trans (by norm_num)
    have : Real.pi / 6 * d ^ 2 ≤ 4 / 6 * 9 := mul_le_mul (by linarith) this (by positivity) (by norm_num)
    linarith
  have hz0 : 0 ≤ 1 / 1000 * (Real.pi / 6 * d ^ 2) := by positivity
  generalize 1 / 1000 * (Real.pi / 6 * d ^ 2) = w at *
  have hc0 := contactPair_pos (d1 := d) (d2 := d) hz0 (show η < 1 by linarith) d0 d0
  have hc : contactPair w η d d ≤ 10 := by
    have hr : d * d / (d + d) = d / 2 := by field_simp; ring
    have hw : 1 / 2 ≤ 1 - η := by linarith
    have i1 : 1 / (1 - η) ≤ 2 := by rw [div_le_iff₀ (by linarith)]; linarith
    have i2 : 3 * (d / 2) * w / (1 - η) ^ 2 ≤ 2 := by
      have h4 : 1 / 4 ≤ (1 - η) ^ 2 := by nlinarith
      have h5 : 3 * (d / 2) * w ≤ 3 * (3 / 2) * (1 / 10) := by gcongr
      rw [div_le_iff₀ (by linarith)]
      linarith
    have i3 : 2 * (d / 2) ^ 2 * w ^ 2 / (1 - η) ^ 3 ≤ 2 := by
      have h4 : (1 / 2) ^ 3 ≤ (1 - η) ^ 3 := pow_le_pow_left₀ (by norm_num) hw 3
      have h5 : 2 * (d / 2) ^ 2 * w ^ 2 ≤ 2 * (3 / 2) ^ 2 * (1 / 10) ^ 2 := by gcongr
      rw [div_le_iff₀ (by linarith)]
      linarith
    rw [contactPair, hr]
    linarith
  have hx : Real.exp ((1000 + 1000) / 2 / 100) - 1 ≤ 60000 := by
    have h2 : Real.exp ((1000 + 1000) / 2 / 100) = Real.exp 1 ^ 10 := by rw [← Real.exp_nat_mul]; norm_num
    have h3 : Real.exp 1 ^ 10 ≤ 3 ^ 10 := pow_le_pow_left₀ (Real.exp_pos 1).le (by linarith [Real.exp_one_lt_d9]) 10
    norm_num at h3
    linarith
  have hx0 : 0 ≤ Real.exp ((1000 + 1000) / 2 / 100) - 1 := by
    linarith [Real.add_one_le_exp ((1000 + 1000) / 2 / 100 : ℝ)]
  rw [e, Real.sqrt_mul_self (by norm_num), Real.sqrt_mul_self (by norm_num)]
  generalize Real.exp ((1000 + 1000) / 2 / 100) - 1 = E at *
  generalize contactPair w η d d = g at *
  have hS : g * 0.01 * 3 ^ 3 * E * (1 / 1000) ≤ 10 * 0.01 * 3 ^ 3 * 60000 * (1 / 1000) := by gcongr
  have hS0 : 0 ≤ g * 0.01 * 3 ^ 3 * E * (1 / 1000) := by positivity
  exact ⟨hS0, hS.trans (by norm_num)⟩

theorem polarSites_fraction : ∃ x : ℝ, 1e-6 ≤ x
    ∧ MassActionA (specStrength (fromRecords polarSites (fun _ _ => 0)) 100 1000 (fun _ => 1) 0 0 * (1 / 1000)) 1 x := by
  obtain ⟨hS0, hS⟩ := polarSites_strength
  generalize specStrength (fromRecords polarSites (fun _ _ => 0)) 100 1000 (fun _ => 1) 0 0 * (1 / 1000) = δ at *
  obtain ⟨x, x0, hm⟩ := massActionA_exists hS0 one_pos
  refine ⟨x, ?_, hm⟩
  rw [MassActionA] at hm
  by_contra hc
  push Not at hc
  have : x * x ≤ 1e-6 * 1e-6 := mul_self_le_mul_self x0.le hc.le
  have : δ * (x * x) ≤ 162 * (1e-6 * 1e-6) := mul_le_mul hS this (by positivity) (by norm_num)
  norm_num at this hc hm
  linarith

/-- a molecule with a dipole, a quadrupole and association sites meets the hypotheses of `C118_associating_energy` -/
example (v : DQVariants) : ∃ x : ℝ, (∀ i, 1 ≤ (polarSites i).model_record.m) ∧ (∀ i, 0 < (polarSites i).model_record.epsilon_k)
    ∧ Admissible (fromRecords polarSites (fun _ _ => 0)) 100 1000 (fun _ => 1)
    ∧ (fromRecords polarSites (fun _ _ => 0)).assoc_comp = [0]
    ∧ (fromRecords polarSites (fun _ _ => 0)).kappa_ab 0 = 0.01 ∧ (fromRecords polarSites (fun _ _ => 0)).epsilon_k_ab 0 = 1000
    ∧ (fromRecords polarSites (fun _ _ => 0)).na 0 = 1 ∧ (fromRecords polarSites (fun _ _ => 0)).nb 0 = 1 ∧ 1e-6 ≤ x
    ∧ MassActionA (specStrength (fromRecords polarSites (fun _ _ => 0)) 100 1000 (fun _ => 1) 0 0 * (1 / 1000)) 1 x
    ∧ PolarRegular 100 v (fluidOf polarSites (fun _ _ => 0)) 100 (fun _ => 1 / 1000) codeTables := by
  obtain ⟨x, hx, hm⟩ := polarSites_fraction
  have one : (1.0 : ℝ) = 1 := by norm_num
  have ha := polarSphere_admissible
  refine ⟨x, fun _ => le_rfl, fun _ => by norm_num [polarSites],
    ⟨ha.temperature, ha.volume, ha.m_pos, ha.sigma_pos, ha.epsilon_nonneg, ha.moles_nonneg, ha.moles_ne_zero, ha.packing⟩,
    ?_, rfl, rfl, one, one, hx, hm, polarSphere_regular v⟩
  have h : ∀ i, i ∈ (fromRecords polarSites (fun _ _ => 0)).assoc_comp := fun i =>
    (mem_assoc_iff polarSites _ i).2 (show (0.01 : ℝ) ≠ 0 by norm_num)
  have hn : (fromRecords polarSites (fun _ _ => 0)).assoc_comp.Nodup := (nonzeroComp_sorted _).nodup
  have hl : (fromRecords polarSites (fun _ _ => 0)).assoc_comp.length ≤ 1 := by
    simpa using hn.length_le_card
  match hc : (fromRecords polarSites (fun _ _ => 0)).assoc_comp, hl with
  | [], _ =>
    have := h 0
    rw [hc] at this
    exact absurd this List.not_mem_nil
  | [i], _ => rw [Subsingleton.elim i 0]

end PcSaft.Props
