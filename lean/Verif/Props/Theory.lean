import Verif.Props.Mixture
import Verif.Spec.Theory
import Mathlib.Tactic.FinCases

/-!
# Properties C64–C67: the contributions are the published equations
-/

namespace PcSaft.Props
open PcSaft
variable {n : ℕ}

/-- the input of the theory: parameters of the records, with zero for moments that are not given -/
noncomputable def fluidOf (pr : Fin n → PureRecord ℝ) (k : Fin n → Fin n → ℝ) : Spec.Fluid n where
  m i := (pr i).model_record.m
  sigma i := (pr i).model_record.sigma
  epsilon i := (pr i).model_record.epsilon_k
  mu i := (pr i).model_record.mu.getD 0
  q i := (pr i).model_record.q.getD 0
  k := k

section forms
variable (pr : Fin n → PureRecord ℝ) (k : Fin n → Fin n → ℝ)

theorem hsDiameter_theory (T : ℝ) (i : Fin n) : hsDiameter (fromRecords pr k) T i = (fluidOf pr k).d T i := by
  rw [hsDiameter_real]
  have : (0.12 : ℝ) = 3 / 25 := by norm_num
  simp only [Spec.Fluid.d, Spec.diameter, fluidOf, fromRecords, this]

theorem zeta_theory (T : ℝ) (rho : Fin n → ℝ) (j : Fin 4) :
    zeta (fromRecords pr k).m rho (hsDiameter (fromRecords pr k) T) j = (fluidOf pr k).zeta T rho j := by
  rw [zeta_real]
  simp only [Spec.Fluid.zeta, hsDiameter_theory]
  congr 1
  exact Finset.sum_congr rfl fun i _ => by rw [← mul_assoc]; rfl

theorem sigmaIJ_theory (i j : Fin n) : (fromRecords pr k).sigma_ij i j = (fluidOf pr k).sigmaIJ i j := by
  have : (0.5 : ℝ) = 1 / 2 := by norm_num
  simp only [fromRecords, Spec.Fluid.sigmaIJ, fluidOf, this]
  ring

theorem epsIJ_theory (i j : Fin n) : (fromRecords pr k).epsilon_k_ij i j = (1 - k i j) * (fluidOf pr k).energyIJ i j := by
  have : (1.0 : ℝ) = 1 := by norm_num
  simp only [fromRecords, Spec.Fluid.energyIJ, fluidOf, this, sqrt_real]

theorem eIJ_theory (i j : Fin n) : (fromRecords pr k).e_k_ij i j = (fluidOf pr k).energyIJ i j := rfl

theorem zeta_pos_of_admissible {T V : ℝ} {moles : Fin n → ℝ}
    (h : Spec.Admissible (fromRecords pr k) T V moles) (j : ℕ) :
    0 < (fluidOf pr k).zeta T (fun i => moles i / V) j := by
  have hd : ∀ i, 0 < (fluidOf pr k).d T i := fun i => by
    have e : 0 < hsDiameter (fromRecords pr k) T i := by
      rw [hsDiameter_real]
      have := exp_le_one_of (h.epsilon_nonneg i) h.temperature
      exact mul_pos (h.sigma_pos i) (by linarith)
    rwa [hsDiameter_theory] at e
  obtain ⟨i, hi⟩ := h.moles_ne_zero
  refine mul_pos (by positivity) (Finset.sum_pos' (fun i _ => ?_) ⟨i, Finset.mem_univ i, ?_⟩)
  · exact mul_nonneg (mul_nonneg (div_nonneg (h.moles_nonneg i) h.volume.le) (h.m_pos i).le) (pow_pos (hd i) j).le
  · exact mul_pos (mul_pos (div_pos (lt_of_le_of_ne (h.moles_nonneg i) (Ne.symm hi)) h.volume) (h.m_pos i))
      (pow_pos (hd i) j)

theorem zeta3_lt_one {T V : ℝ} {moles : Fin n → ℝ} (h : Spec.Admissible (fromRecords pr k) T V moles) :
    (fluidOf pr k).zeta T (fun i => moles i / V) 3 < 1 := by
  have e : (fluidOf pr k).zeta T (fun i => moles i / V) 3 = Spec.packingFraction (fromRecords pr k) T V moles := by
    simp only [Spec.Fluid.zeta, Spec.packingFraction, Finset.mul_sum]
    exact Finset.sum_congr rfl fun i _ => by
      simp only [Spec.Fluid.d, fluidOf, fromRecords]
      ring
  rw [e]
  exact h.packing

theorem sum_moles_pos {T V : ℝ} {moles : Fin n → ℝ} (h : Spec.Admissible (fromRecords pr k) T V moles) :
    0 < ∑ i, moles i := by
  obtain ⟨i, hi⟩ := h.moles_ne_zero
  exact Finset.sum_pos' (fun i _ => h.moles_nonneg i)
    ⟨i, Finset.mem_univ i, lt_of_le_of_ne (h.moles_nonneg i) (Ne.symm hi)⟩

/-- moments of the composition -/
theorem moment_theory {T V : ℝ} {moles : Fin n → ℝ} (h : Spec.Admissible (fromRecords pr k) T V moles) (j : ℕ) :
    (fluidOf pr k).zeta T (fun i => moles i / V) j = Real.pi / 6 * ((∑ i, moles i) / V)
      * ∑ i, (StateHD.new T V moles).molefracs i
        * ((fromRecords pr k).m i * hsDiameter (fromRecords pr k) T i ^ j) := by
  have hN := (sum_moles_pos pr k h).ne'
  have hV := h.volume.ne'
  simp only [Spec.Fluid.zeta, StateHD.new, sumFin_real, Finset.mul_sum, hsDiameter_theory]
  refine Finset.sum_congr rfl fun i _ => ?_
  change _ = _ * (moles i / _ * ((fluidOf pr k).m i * _))
  field_simp

theorem zeta23_theory {T V : ℝ} {moles : Fin n → ℝ} (h : Spec.Admissible (fromRecords pr k) T V moles) :
    zeta23 (fromRecords pr k).m (StateHD.new T V moles).molefracs (hsDiameter (fromRecords pr k) T)
      = (fluidOf pr k).zeta T (fun i => moles i / V) 2 / (fluidOf pr k).zeta T (fun i => moles i / V) 3 := by
  rw [zeta23_real, moment_theory pr k h 2, moment_theory pr k h 3, mul_div_mul_left]
  exact mul_ne_zero (by positivity) (div_ne_zero (sum_moles_pos pr k h).ne' h.volume.ne')

theorem mBar_theory {T V : ℝ} {moles : Fin n → ℝ} (h : Spec.Admissible (fromRecords pr k) T V moles) :
    ∑ i, (StateHD.new T V moles).molefracs i * (fromRecords pr k).m i
      = (fluidOf pr k).mBar (fun i => moles i / V) := by
  simp only [Spec.Fluid.mBar, StateHD.new, sumFin_real]
  have hN := (sum_moles_pos pr k h).ne'
  have hV := h.volume.ne'
  rw [← Finset.sum_div, div_div_eq_mul_div, Finset.sum_mul, Finset.sum_div]
  refine Finset.sum_congr rfl fun i _ => ?_
  change moles i / _ * (fluidOf pr k).m i = _
  field_simp

theorem c1_theory (m eta : ℝ) : c1Form m eta = Spec.Fluid.c1 m eta := by
  simp only [c1Form, Spec.Fluid.c1, one_div, mul_div_assoc]

theorem integral_theory (a0 a1 a2 : Fin 7 → ℝ) (m eta : ℝ) :
    intForm a0 a1 a2 m eta = Spec.Fluid.integral ![a0, a1, a2] m eta := by
  simp only [intForm, Spec.Fluid.integral, Spec.Fluid.coeff]
  exact Finset.sum_congr rfl fun i _ => by
    simp only [Matrix.cons_val_zero, Matrix.cons_val_one, Matrix.cons_val]
    ring

theorem rho1mix_theory (T : ℝ) (rho : Fin n → ℝ) :
    rho1mix (fromRecords pr k) T rho = (fluidOf pr k).pairSum T rho 1 := by
  rw [rho1mix_real]
  exact Finset.sum_congr rfl fun i _ => Finset.sum_congr rfl fun j _ => by
    rw [epsIJ_theory, sigmaIJ_theory]
    change _ * ((fluidOf pr k).m i * (fluidOf pr k).m j * _ * _) = _
    change _ = _ * ((1 - k i j) * _ / T) ^ 1 * _
    ring

theorem rho2mix_theory (T : ℝ) (rho : Fin n → ℝ) :
    rho2mix (fromRecords pr k) T rho = (fluidOf pr k).pairSum T rho 2 := by
  rw [rho2mix_real]
  exact Finset.sum_congr rfl fun i _ => Finset.sum_congr rfl fun j _ => by
    rw [epsIJ_theory, sigmaIJ_theory]
    change _ * ((fluidOf pr k).m i * (fluidOf pr k).m j * _ * _) = _
    change _ = _ * ((1 - k i j) * _ / T) ^ 2 * _
    ring

theorem contact_theory (T : ℝ) (rho : Fin n → ℝ) (i : Fin n) :
    gForm ((fluidOf pr k).zeta T rho 2) ((fluidOf pr k).zeta T rho 3) ((fluidOf pr k).d T i)
      = (fluidOf pr k).contact T rho i := by
  simp only [gForm, Spec.Fluid.contact]
  ring

end forms

/-! ## C64 -/

/-- C64: the hard sphere contribution is the Boublik–Mansoori–Carnahan–Starling–Leland expression. -/
theorem C64_hard_sphere (pr : Fin n → PureRecord ℝ) (k : Fin n → Fin n → ℝ) (T V : ℝ) (moles : Fin n → ℝ)
    (h : Spec.Admissible (fromRecords pr k) T V moles) :
    hardSphere (fromRecords pr k) (StateHD.new T V moles)
      = V * (fluidOf pr k).hardSphere T (fun i => moles i / V) := by
  rw [hardSphere_real]
  change hsForm V (zeta _ (fun i => moles i / V) (hsDiameter _ T) 0) (zeta _ (fun i => moles i / V) (hsDiameter _ T) 1)
    (zeta _ (fun i => moles i / V) (hsDiameter _ T) 2) (zeta _ (fun i => moles i / V) (hsDiameter _ T) 3) _ = _
  have h3 := (zeta_pos_of_admissible pr k h 3).ne'
  have e23 := zeta23_theory pr k h
  rw [StateHD.new] at e23 ⊢
  rw [e23, zeta_theory, zeta_theory, zeta_theory, zeta_theory]
  have hw := (sub_pos.mpr (zeta3_lt_one pr k h)).ne'
  simp only [hsForm, Spec.Fluid.hardSphere, Fin.isValue, Fin.val_zero, Fin.val_one, Fin.val_two]
  have c3 : ((3 : Fin 4) : ℕ) = 3 := rfl
  rw [c3]
  generalize (fluidOf pr k).zeta T (fun i => moles i / V) 3 = z3 at *
  have hp := Real.pi_ne_zero
  field_simp

/-- C64: the chain contribution is the first-order perturbation theory of Wertheim with the contact value of the
hard sphere mixture. -/
theorem C64_hard_chain (pr : Fin n → PureRecord ℝ) (k : Fin n → Fin n → ℝ) (T V : ℝ) (moles : Fin n → ℝ)
    (h : Spec.Admissible (fromRecords pr k) T V moles) :
    hardChain (fromRecords pr k) (StateHD.new T V moles) = V * (fluidOf pr k).chain T (fun i => moles i / V) := by
  rw [hardChain_real]
  change V * ∑ i, moles i / V * (_ * Real.log (gHs (zeta _ (fun i => moles i / V) (hsDiameter _ T) 2)
    (zeta _ (fun i => moles i / V) (hsDiameter _ T) 3) (hsDiameter _ T i))) = _
  have h3 := zeta3_lt_one pr k h
  have c2 : ((2 : Fin 4) : ℕ) = 2 := rfl
  have c3 : ((3 : Fin 4) : ℕ) = 3 := rfl
  rw [zeta_theory, zeta_theory, c2, c3]
  simp only [Spec.Fluid.chain, ← Finset.sum_neg_distrib]
  congr 1
  refine Finset.sum_congr rfl fun i _ => ?_
  rw [gHs_real _ _ _ h3.ne, hsDiameter_theory]
  rw [contact_theory]
  change _ * ((1 - (fluidOf pr k).m i) * _) = _
  ring

/-- the dispersion contribution with the constants of the code -/
theorem dispersion_theory {n : ℕ} (pr : Fin n → PureRecord ℝ) (k : Fin n → Fin n → ℝ) {T V : ℝ} {moles : Fin n → ℝ}
    (h : Spec.Admissible (fromRecords pr k) T V moles) :
    dispersion (fromRecords pr k) (StateHD.new T V moles)
      = V * (fluidOf pr k).dispersion T (fun i => moles i / V) ![A0, A1, A2] ![B0, B1, B2] := by
  rw [dispersion_real]
  rw [mBar_theory pr k h]
  change dispForm V (rho1mix _ T (fun i => moles i / V)) (rho2mix _ T (fun i => moles i / V)) _
    (zeta _ (fun i => moles i / V) (hsDiameter _ T) 3) = _
  rw [rho1mix_theory, rho2mix_theory, zeta_theory, dispForm, integral_theory, integral_theory, c1_theory]
  simp only [Spec.Fluid.dispersion]
  have c3 : ((3 : Fin 4) : ℕ) = 3 := rfl
  rw [c3]
  ring

theorem constants_published : (∀ i j, |(![A0, A1, A2] : Fin 3 → Fin 7 → ℝ) i j - Spec.publishedA i j| ≤ 5e-9)
    ∧ (∀ i j, |(![B0, B1, B2] : Fin 3 → Fin 7 → ℝ) i j - Spec.publishedB i j| ≤ 5e-9) := by
  constructor
  · intro i j
    fin_cases i <;> fin_cases j <;> norm_num [A0, A1, A2, Spec.publishedA, abs_le]
  · intro i j
    fin_cases i <;> fin_cases j <;> norm_num [B0, B1, B2, Spec.publishedB, abs_le]

/-- C64: the dispersion contribution is the second-order perturbation theory of Gross and Sadowski, and the
universal constants are the published ones up to the rounding of the published table. -/
theorem C64_dispersion : ∃ a b : Fin 3 → Fin 7 → ℝ,
    (∀ i j, |a i j - Spec.publishedA i j| ≤ 5e-9) ∧ (∀ i j, |b i j - Spec.publishedB i j| ≤ 5e-9)
    ∧ ∀ (n : ℕ) (pr : Fin n → PureRecord ℝ) (k : Fin n → Fin n → ℝ) (T V : ℝ) (moles : Fin n → ℝ),
      Spec.Admissible (fromRecords pr k) T V moles →
      dispersion (fromRecords pr k) (StateHD.new T V moles)
        = V * (fluidOf pr k).dispersion T (fun i => moles i / V) a b := by
  exact ⟨![A0, A1, A2], ![B0, B1, B2], constants_published.1, constants_published.2,
    fun _ pr k _ _ _ h => dispersion_theory pr k h⟩

/-! ## Polar terms: the ingredients -/

section polar
variable (pr : Fin n → PureRecord ℝ) (k : Fin n → Fin n → ℝ)

theorem dipoleTerm_theory (T : ℝ) (i : Fin n) (hm : (pr i).model_record.m ≠ 0) (hs : (pr i).model_record.sigma ≠ 0)
    (he : (pr i).model_record.epsilon_k ≠ 0) (hT : T ≠ 0) :
    dipoleTerm (fromRecords pr k) T⁻¹ i = (fluidOf pr k).dipoleStrength T i := by
  have h5 : (0.5 : ℝ) = 1 / 2 := by norm_num
  have h0 : (0.0 : ℝ) = 0 := by norm_num
  simp only [dipoleTerm, fromRecords, Spec.Fluid.dipoleStrength, fluidOf, Spec.Fluid.debyeSq, Spec.Fluid.kB,
    jouleKelvinKB, c, ofF_real, powi_real, h5, h0]
  generalize (pr i).model_record.m = m at *
  generalize (pr i).model_record.sigma = s at *
  generalize (pr i).model_record.epsilon_k = e at *
  generalize (pr i).model_record.mu.getD 0 = u at *
  have hk : (1.380649e-23 : ℝ) ≠ 0 := by norm_num
  generalize (1.380649e-23 : ℝ) = kb at *
  generalize (1e-19 : ℝ) = d at *
  have h1 : (1.0 : ℝ) = 1 := by norm_num
  rw [h1]
  field_simp
  ring

theorem quadrupoleTerm_theory (T : ℝ) (i : Fin n) (hm : (pr i).model_record.m ≠ 0)
    (hs : (pr i).model_record.sigma ≠ 0) (he : (pr i).model_record.epsilon_k ≠ 0) (hT : T ≠ 0) :
    quadrupoleTerm (fromRecords pr k) T⁻¹ i = (fluidOf pr k).quadrupoleStrength T i := by
  have h0 : (0.0 : ℝ) = 0 := by norm_num
  simp only [quadrupoleTerm, fromRecords, Spec.Fluid.quadrupoleStrength, fluidOf, Spec.Fluid.debyeSq, Spec.Fluid.kB,
    jouleKelvinKB, c, ofF_real, powi_real, h0]
  generalize (pr i).model_record.m = m at *
  generalize (pr i).model_record.sigma = s at *
  generalize (pr i).model_record.epsilon_k = e at *
  generalize (pr i).model_record.q.getD 0 = u at *
  have hk : (1.380649e-23 : ℝ) ≠ 0 := by norm_num
  generalize (1.380649e-23 : ℝ) = kb at *
  generalize (1e-19 : ℝ) = d at *
  have h1 : (1.0 : ℝ) = 1 := by norm_num
  rw [h1]
  field_simp

theorem muTerm_theory (T : ℝ) (i : Fin n) (hm : (pr i).model_record.m ≠ 0) (hs : (pr i).model_record.sigma ≠ 0)
    (he : (pr i).model_record.epsilon_k ≠ 0) (hT : T ≠ 0) :
    dqTerm (fromRecords pr k) (fromRecords pr k).mu2 T⁻¹ i
      = (fluidOf pr k).dipoleStrength T i * (fluidOf pr k).sigma i := by
  rw [← dipoleTerm_theory pr k T i hm hs he hT]
  have h5 : (0.5 : ℝ) = 1 / 2 := by norm_num
  simp only [dipoleTerm, dqTerm, c, ofF_real, powi_real]
  have e : (fromRecords pr k).sigma_ij i i = (fromRecords pr k).sigma i := by
    simp only [fromRecords, h5]; ring
  rw [e]
  change _ = _ * (fromRecords pr k).sigma i
  ring

theorem qTerm_theory (T : ℝ) (i : Fin n) (hm : (pr i).model_record.m ≠ 0) (hs : (pr i).model_record.sigma ≠ 0)
    (he : (pr i).model_record.epsilon_k ≠ 0) (hT : T ≠ 0) :
    dqTerm (fromRecords pr k) (fromRecords pr k).q2 T⁻¹ i
      = (fluidOf pr k).quadrupoleStrength T i / (fluidOf pr k).sigma i := by
  rw [← quadrupoleTerm_theory pr k T i hm hs he hT]
  simp only [quadrupoleTerm, dqTerm, c, ofF_real, powi_real]
  change _ = _ / (fromRecords pr k).sigma i
  have hs' : (fromRecords pr k).sigma i ≠ 0 := hs
  field_simp

theorem mPair_theory (i j : Fin n) : mdqPair (fromRecords pr k) i j = (fluidOf pr k).mPair i j := by
  have h2 : (2.0 : ℝ) = 2 := by norm_num
  simp only [mdqPair, Spec.Fluid.mPair, Spec.Fluid.mP, fluidOf, fromRecords, sqrt_real, min_real, h2]

theorem mTriplet_theory (hm : ∀ i, 0 < (pr i).model_record.m) (i j l : Fin n) :
    mdqTriplet (fromRecords pr k) i j l = (fluidOf pr k).mTriplet i j l := by
  have h2 : (2.0 : ℝ) = 2 := by norm_num
  have hpos : ∀ i, 0 < (fluidOf pr k).mP i := fun i => lt_min (hm i) two_pos
  have h : mdqTriplet (fromRecords pr k) i j l
      = F64.cbrt ((fluidOf pr k).mP i * (fluidOf pr k).mP j * (fluidOf pr k).mP l) := by
    simp only [mdqTriplet, Spec.Fluid.mP, fluidOf, fromRecords, min_real, h2]
  have hp : 0 < (fluidOf pr k).mP i * (fluidOf pr k).mP j * (fluidOf pr k).mP l :=
    mul_pos (mul_pos (hpos i) (hpos j)) (hpos l)
  rw [h, cbrt_real, sign_pos hp, abs_of_pos hp, Spec.Fluid.mTriplet]
  simp

theorem etas_pow (eta : ℝ) (r : Fin 5) : etas eta r = eta ^ (r : ℕ) := by
  have h1 : (1.0 : ℝ) = 1 := by norm_num
  fin_cases r <;> simp [etas, c, h1] <;> ring

theorem pairI_theory {q : ℕ} (hq : q ≤ 5) (a b : Fin q → Fin 3 → ℝ) (T eta : ℝ) (i j : Fin n) :
    pairI hq a b (fromRecords pr k) T eta i j = (fluidOf pr k).j2 T a b eta i j := by
  have h1 : (1.0 : ℝ) = 1 := by norm_num
  have h2 : (2.0 : ℝ) = 2 := by norm_num
  simp only [pairI, pairIntegral, sumFin_real, Spec.Fluid.j2, etas_pow, mPair_theory, eIJ_theory, Spec.Fluid.coeff,
    meanSeg1, meanSeg2, c, ofF_real, h1, h2, Fin.val_castLE]
  exact Finset.sum_congr rfl fun r _ => by ring

theorem tripI_theory (hm : ∀ i, 0 < (pr i).model_record.m) (a : Fin 4 → Fin 3 → ℝ) (eta : ℝ) (i j l : Fin n) :
    tripI a (fromRecords pr k) eta i j l = (fluidOf pr k).j3 a eta i j l := by
  have h1 : (1.0 : ℝ) = 1 := by norm_num
  have h2 : (2.0 : ℝ) = 2 := by norm_num
  simp only [tripI, tripletIntegral, sumFin_real, Spec.Fluid.j3, etas_pow, mTriplet_theory pr k hm, Spec.Fluid.coeff,
    meanSeg1, meanSeg2, c, ofF_real, h1, h2, Fin.val_castLE]
  exact Finset.sum_congr rfl fun r _ => by ring

theorem dqI3_theory (hm : ∀ i, 0 < (pr i).model_record.m) (eta : ℝ) (i j l : Fin n) :
    dqI3 (fromRecords pr k) eta i j l = (fluidOf pr k).j3 (fun r => ![CDQ r 0, CDQ r 1, 0]) eta i j l := by
  have h1 : (1.0 : ℝ) = 1 := by norm_num
  simp only [dqI3, tripletIntegralDQ, sumFin_real, Spec.Fluid.j3, etas_pow, mTriplet_theory pr k hm,
    Spec.Fluid.coeff, meanSeg1, c, ofF_real, h1, Fin.val_castLE]
  exact Finset.sum_congr rfl fun r _ => by
    simp only [Matrix.cons_val_zero, Matrix.cons_val_one, Matrix.cons_val]
    ring

theorem pade_theory (a2 a3 V : ℝ) : padeVolume a2 a3 V = V * Spec.Fluid.pade a2 a3 := by
  simp only [padeVolume, isNan_real, re_real, Spec.Fluid.pade, Bool.false_eq_true, if_false]
  by_cases h : a2 = 0
  · simp [h]
  · rw [one_sub_div h, div_div_eq_mul_div]
    ring

theorem packingFraction_theory (T : ℝ) (rho : Fin n → ℝ) :
    packingFraction (fromRecords pr k).m rho (fun i => hsDiameter (fromRecords pr k) T i * c (0.5 : ℝ))
      = (fluidOf pr k).zeta T rho 3 := by
  rw [packingFraction_eq_zeta, zeta_theory]
  rfl

end polar

/-- Records for which the polar terms are defined: positive segment numbers, diameters and energies. -/
structure PositiveRecords (pr : Fin n → PureRecord ℝ) : Prop where
  m : ∀ i, 0 < (pr i).model_record.m
  sigma : ∀ i, 0 < (pr i).model_record.sigma
  epsilon : ∀ i, 0 < (pr i).model_record.epsilon_k

/-! ## C65 -/

/-- C65: the dipole contribution is the Padé approximation of Gross and Vrabec, with their constants (up to the
rounding of the published table), summed over all pairs and triplets of components; the case where the Padé
denominator vanishes although the second-order term does not is excluded. -/
theorem C65_dipole : ∃ (a b : Fin 5 → Fin 3 → ℝ) (d : Fin 4 → Fin 3 → ℝ),
    (∀ i j, |a i j - Spec.publishedAD i j| ≤ 5e-7) ∧ (∀ i j, |b i j - Spec.publishedBD i j| ≤ 5e-7)
    ∧ (∀ i j, |d i j - Spec.publishedCD i j| ≤ 5e-7)
    ∧ ∀ (n : ℕ) (pr : Fin n → PureRecord ℝ) (k : Fin n → Fin n → ℝ) (T V : ℝ) (moles : Fin n → ℝ),
      PositiveRecords pr → 0 < T →
      let f := fluidOf pr k
      let rho := fun i => moles i / V
      (f.dipole2 T rho a b = f.dipole3 T rho d → f.dipole2 T rho a b = 0) →
      dipole (fromRecords pr k) (StateHD.new T V moles)
        = V * Spec.Fluid.pade (f.dipole2 T rho a b) (f.dipole3 T rho d) := by
  refine ⟨AD, BD, CD, ?_, ?_, ?_, ?_⟩
  · intro i j
    fin_cases i <;> fin_cases j <;> norm_num [AD, Spec.publishedAD, abs_le]
  · intro i j
    fin_cases i <;> fin_cases j <;> norm_num [BD, Spec.publishedBD, abs_le]
  · intro i j
    fin_cases i <;> fin_cases j <;> norm_num [CD, Spec.publishedCD, abs_le]
  intro n pr k T V moles hr hT f rho _
  have hok := polarOk_fromRecords pr k (fun i => (hr.m i).le)
  have e : dipole (fromRecords pr k) (StateHD.new T V moles)
      = padeVolume (dipolePhi2 (fromRecords pr k) T rho (f.zeta T rho 3) * Real.pi)
        (dipolePhi3 (fromRecords pr k) T rho (f.zeta T rho 3) * PI_SQ_43) V := by
    rw [← packingFraction_theory pr k T rho]
    rfl
  rw [e, pade_theory, dipolePhi2_real hok, dipolePhi3_real hok]
  have hs : ∀ i, dipoleTerm (fromRecords pr k) T⁻¹ i = f.dipoleStrength T i := fun i =>
    dipoleTerm_theory pr k T i (hr.m i).ne' (hr.sigma i).ne' (hr.epsilon i).ne' hT.ne'
  have e2 : -(∑ i, ∑ j, rho i * rho j * dipK2 (fromRecords pr k) T (f.zeta T rho 3) i j) * Real.pi
      = f.dipole2 T rho AD BD := by
    simp only [Spec.Fluid.dipole2, dipK2, hs, sigmaIJ_theory, pairI_theory, neg_mul, Finset.sum_mul, Finset.mul_sum,
      ← Finset.sum_neg_distrib]
    exact Finset.sum_congr rfl fun i _ => Finset.sum_congr rfl fun j _ => by ring
  have e3 : -(∑ i, ∑ j, ∑ l, rho i * rho j * rho l * dipK3 (fromRecords pr k) T (f.zeta T rho 3) i j l) * PI_SQ_43
      = f.dipole3 T rho CD := by
    have h4 : (PI_SQ_43 : ℝ) = 4 / 3 * Real.pi ^ 2 := by
      simp only [PI_SQ_43, pi_real]
      norm_num
      ring
    simp only [Spec.Fluid.dipole3, dipK3, hs, sigmaIJ_theory, tripI_theory pr k hr.m, neg_mul, Finset.sum_mul,
      Finset.mul_sum, h4, ← Finset.sum_neg_distrib]
    exact Finset.sum_congr rfl fun i _ => Finset.sum_congr rfl fun j _ => Finset.sum_congr rfl fun l _ => by ring
  rw [e2, e3]

/-- a pure polar fluid of spheres, used to show that the hypotheses of C64–C67 can be met -/
noncomputable def polarSphere (_ : Fin 1) : PureRecord ℝ :=
  ⟨⟨none, ""⟩, 44, ⟨1, 3, 100, some 2, some 3, none, none, none, none, none, none, none⟩, none⟩

theorem polarSphere_positive : PositiveRecords polarSphere := by
  constructor <;> intro i <;> norm_num [polarSphere]

theorem polarSphere_zeta : 0 < (fluidOf polarSphere (fun _ _ => 0)).zeta 100 (fun _ => 1 / 1000) 3
    ∧ (fluidOf polarSphere (fun _ _ => 0)).zeta 100 (fun _ => 1 / 1000) 3 < 0.018 := by
  have he := Real.exp_pos (-3 * 100 / 100 : ℝ)
  have he1 : Real.exp (-3 * 100 / 100 : ℝ) < 1 := Real.exp_lt_one_iff.mpr (by norm_num)
  have hd : 0 < (fluidOf polarSphere (fun _ _ => 0)).d 100 0 ∧ (fluidOf polarSphere (fun _ _ => 0)).d 100 0 < 3 := by
    simp only [Spec.Fluid.d, Spec.diameter, fluidOf, polarSphere]
    constructor <;> linarith
  have hd3 : (fluidOf polarSphere (fun _ _ => 0)).d 100 0 ^ 3 < 27 := by
    have := pow_lt_pow_left₀ hd.2 hd.1.le (n := 3) (by norm_num)
    linarith
  have hd0 := pow_pos hd.1 3
  simp only [Spec.Fluid.zeta, Finset.univ_unique, Fin.default_eq_zero, Finset.sum_singleton]
  have hm : (fluidOf polarSphere (fun _ _ => 0)).m 0 = 1 := rfl
  rw [hm]
  have hp := Real.pi_pos
  have hp4 := Real.pi_lt_four
  constructor
  · positivity
  · nlinarith

theorem polarSphere_admissible : Spec.Admissible (fromRecords polarSphere (fun _ _ => 0)) 100 1000 (fun _ => 1) where
  temperature := by norm_num
  volume := by norm_num
  m_pos := polarSphere_positive.m
  sigma_pos := polarSphere_positive.sigma
  epsilon_nonneg i := (polarSphere_positive.epsilon i).le
  moles_nonneg _ := zero_le_one
  moles_ne_zero := ⟨0, one_ne_zero⟩
  packing := by
    have h := polarSphere_zeta.2
    have e : Spec.packingFraction (fromRecords polarSphere (fun _ _ => 0)) 100 1000 (fun _ => 1)
        = (fluidOf polarSphere (fun _ _ => 0)).zeta 100 (fun _ => 1 / 1000) 3 := by
      simp only [Spec.Fluid.zeta, Spec.packingFraction, Finset.univ_unique, Fin.default_eq_zero, Finset.sum_singleton,
        Spec.Fluid.d, fluidOf, fromRecords]
      ring
    rw [e]
    linarith

/-- C64 for this fluid: the hard sphere term is not zero -/
example : hardSphere (fromRecords polarSphere (fun _ _ => 0)) (StateHD.new 100 1000 (fun _ => 1))
    = 1000 * (fluidOf polarSphere (fun _ _ => 0)).hardSphere 100 (fun _ => 1 / 1000)
    ∧ 0 < hardSphere (fromRecords polarSphere (fun _ _ => 0)) (StateHD.new (100 : ℝ) 1000 (fun _ => 1)) :=
  ⟨C64_hard_sphere _ _ _ _ _ polarSphere_admissible, C19_positive _ _ _ _ polarSphere_admissible⟩

theorem polarSphere_j2 {q : ℕ} (a b : Fin q → Fin 3 → ℝ) (eta : ℝ) :
    (fluidOf polarSphere (fun _ _ => 0)).j2 100 a b eta 0 0 = ∑ r, (a r 0 + b r 0) * eta ^ (r : ℕ) := by
  have hm : (fluidOf polarSphere (fun _ _ => 0)).mPair 0 0 = 1 := by
    simp [Spec.Fluid.mPair, Spec.Fluid.mP, fluidOf, polarSphere]
  have he : (fluidOf polarSphere (fun _ _ => 0)).energyIJ 0 0 = 100 := by
    simp only [Spec.Fluid.energyIJ, fluidOf, polarSphere]
    exact Real.sqrt_mul_self (by norm_num)
  simp only [Spec.Fluid.j2, hm, he, Spec.Fluid.coeff]
  norm_num

theorem polarSphere_j3 {q : ℕ} (a : Fin q → Fin 3 → ℝ) (eta : ℝ) :
    (fluidOf polarSphere (fun _ _ => 0)).j3 a eta 0 0 0 = ∑ r, a r 0 * eta ^ (r : ℕ) := by
  have hm : (fluidOf polarSphere (fun _ _ => 0)).mTriplet 0 0 0 = 1 := by
    simp [Spec.Fluid.mTriplet, Spec.Fluid.mP, fluidOf, polarSphere]
  simp only [Spec.Fluid.j3, hm, Spec.Fluid.coeff]
  norm_num

theorem polarSphere_sigmaIJ : (fluidOf polarSphere (fun _ _ => 0)).sigmaIJ 0 0 = 3 := by
  norm_num [Spec.Fluid.sigmaIJ, fluidOf, polarSphere]

theorem polarSphere_strength : 0 < (fluidOf polarSphere (fun _ _ => 0)).dipoleStrength 100 0
    ∧ 0 < (fluidOf polarSphere (fun _ _ => 0)).quadrupoleStrength 100 0 := by
  constructor
  · norm_num [Spec.Fluid.dipoleStrength, fluidOf, polarSphere, Spec.Fluid.debyeSq, Spec.Fluid.kB]
  · norm_num [Spec.Fluid.quadrupoleStrength, fluidOf, polarSphere, Spec.Fluid.debyeSq, Spec.Fluid.kB]

/-- C65 for this fluid: the hypothesis on the Padé denominator holds and the dipole energy is negative. -/
example : dipole (fromRecords polarSphere (fun _ _ => 0)) (StateHD.new (100 : ℝ) 1000 (fun _ => 1)) < 0 := by
  obtain ⟨a, b, d, ha, hb, hd, h⟩ := C65_dipole
  set f := fluidOf polarSphere (fun _ _ => 0) with hf
  obtain ⟨h0, h1⟩ := polarSphere_zeta
  have h2 : f.dipole2 100 (fun _ => 1 / 1000) a b < 0 := by
    simp only [Spec.Fluid.dipole2, Finset.univ_unique, Fin.default_eq_zero, Finset.sum_singleton]
    rw [polarSphere_j2, polarSphere_sigmaIJ]
    have hs := polarSphere_strength.1
    rw [← hf] at h0 h1 hs
    generalize f.zeta 100 (fun _ => 1 / 1000) 3 = eta at h0 h1 ⊢
    have hJ : 0 < ∑ r, (a r 0 + b r 0) * eta ^ (r : ℕ) := by
      simp only [Fin.sum_univ_five]
      have a0 := abs_le.mp (ha 0 0); have a1 := abs_le.mp (ha 1 0); have a2 := abs_le.mp (ha 2 0)
      have a3 := abs_le.mp (ha 3 0); have a4 := abs_le.mp (ha 4 0)
      have b0 := abs_le.mp (hb 0 0); have b1 := abs_le.mp (hb 1 0); have b2 := abs_le.mp (hb 2 0)
      have b3 := abs_le.mp (hb 3 0); have b4 := abs_le.mp (hb 4 0)
      simp only [Spec.publishedAD, Spec.publishedBD, Matrix.cons_val_zero, Matrix.cons_val_one, Matrix.cons_val]
        at a0 a1 a2 a3 a4 b0 b1 b2 b3 b4
      have k2 : 0 ≤ (a 2 0 + b 2 0) * eta ^ 2 := mul_nonneg (by linarith) (by positivity)
      have k3 : 0 ≤ (a 3 0 + b 3 0) * eta ^ 3 := mul_nonneg (by linarith) (by positivity)
      have k1 : -1.4 * eta ≤ (a 1 0 + b 1 0) * eta := mul_le_mul_of_nonneg_right (by linarith) h0.le
      have k4 : -2.1 * eta ^ 4 ≤ (a 4 0 + b 4 0) * eta ^ 4 := mul_le_mul_of_nonneg_right (by linarith) (by positivity)
      have k5 : eta ^ 4 ≤ eta := by
        calc eta ^ 4 ≤ eta ^ 1 := pow_le_pow_of_le_one h0.le (by linarith) (by norm_num)
          _ = eta := pow_one _
      change 0 < (a 0 0 + b 0 0) * eta ^ 0 + (a 1 0 + b 1 0) * eta ^ 1 + (a 2 0 + b 2 0) * eta ^ 2
        + (a 3 0 + b 3 0) * eta ^ 3 + (a 4 0 + b 4 0) * eta ^ 4
      rw [pow_zero, pow_one]
      linarith
    have hp := Real.pi_pos
    generalize ∑ r, (a r 0 + b r 0) * eta ^ (r : ℕ) = J at hJ ⊢
    rw [neg_mul]
    exact neg_neg_of_pos (by positivity)
  have h3 : 0 < f.dipole3 100 (fun _ => 1 / 1000) d := by
    simp only [Spec.Fluid.dipole3, Finset.univ_unique, Fin.default_eq_zero, Finset.sum_singleton]
    rw [polarSphere_j3, polarSphere_sigmaIJ]
    have hs := polarSphere_strength.1
    rw [← hf] at h0 h1 hs
    generalize f.zeta 100 (fun _ => 1 / 1000) 3 = eta at h0 h1 ⊢
    have hJ : ∑ r, d r 0 * eta ^ (r : ℕ) < 0 := by
      simp only [Fin.sum_univ_four]
      have a0 := abs_le.mp (hd 0 0); have a1 := abs_le.mp (hd 1 0); have a2 := abs_le.mp (hd 2 0)
      have a3 := abs_le.mp (hd 3 0)
      simp only [Spec.publishedCD, Matrix.cons_val_zero, Matrix.cons_val_one, Matrix.cons_val] at a0 a1 a2 a3
      have k2 : d 2 0 * eta ^ 2 ≤ 0 := mul_nonpos_of_nonpos_of_nonneg (by linarith) (by positivity)
      have k1 : d 1 0 * eta ≤ 0.2 * eta := mul_le_mul_of_nonneg_right (by linarith) h0.le
      have k3 : d 3 0 * eta ^ 3 ≤ 0.7 * eta ^ 3 := mul_le_mul_of_nonneg_right (by linarith) (by positivity)
      have k5 : eta ^ 3 ≤ eta := by
        calc eta ^ 3 ≤ eta ^ 1 := pow_le_pow_of_le_one h0.le (by linarith) (by norm_num)
          _ = eta := pow_one _
      change d 0 0 * eta ^ 0 + d 1 0 * eta ^ 1 + d 2 0 * eta ^ 2 + d 3 0 * eta ^ 3 < 0
      rw [pow_zero, pow_one]
      linarith
    have hp := Real.pi_pos
    generalize ∑ r, d r 0 * eta ^ (r : ℕ) = J at hJ ⊢
    have hJ' := neg_pos.mpr hJ
    have : 0 < 4 / 3 * Real.pi ^ 2 * (1 / 1000 * (1 / 1000) * (1 / 1000) * f.dipoleStrength 100 0
      * f.dipoleStrength 100 0 * f.dipoleStrength 100 0 / (3 * 3 * 3) * -J) := by positivity
    linarith
  rw [h 1 polarSphere (fun _ _ => 0) 100 1000 (fun _ => 1) polarSphere_positive (by norm_num) (fun he => by linarith)]
  refine mul_neg_of_pos_of_neg (by norm_num) (div_neg_of_neg_of_pos h2 ?_)
  have := div_neg_of_pos_of_neg h3 h2
  linarith

/-! ## C66 -/

/-- C66 for mixtures whose quadrupolar components have the same diameter; for others the code divides the pair term
by the diameter of one of the components (`C66_counterexample`). -/
theorem C66_quadrupole_partial : ∃ (a b : Fin 5 → Fin 3 → ℝ) (d : Fin 4 → Fin 3 → ℝ),
    (∀ i j, |a i j - Spec.publishedAQ i j| ≤ 5e-7) ∧ (∀ i j, |b i j - Spec.publishedBQ i j| ≤ 5e-7)
    ∧ (∀ i j, |d i j - Spec.publishedCQ i j| ≤ 5e-7)
    ∧ ∀ (n : ℕ) (pr : Fin n → PureRecord ℝ) (k : Fin n → Fin n → ℝ) (T V : ℝ) (moles : Fin n → ℝ),
      PositiveRecords pr → 0 < T →
      let f := fluidOf pr k
      let rho := fun i => moles i / V
      (∀ i j, f.q i ≠ 0 → f.q j ≠ 0 → f.sigma i = f.sigma j) →
      (f.quadrupole2 T rho a b = f.quadrupole3 T rho d → f.quadrupole2 T rho a b = 0) →
      quadrupole (fromRecords pr k) (StateHD.new T V moles)
        = V * Spec.Fluid.pade (f.quadrupole2 T rho a b) (f.quadrupole3 T rho d) := by
  refine ⟨AQ, BQ, CQ, ?_, ?_, ?_, ?_⟩
  · intro i j
    fin_cases i <;> fin_cases j <;> norm_num [AQ, Spec.publishedAQ, abs_le]
  · intro i j
    fin_cases i <;> fin_cases j <;> norm_num [BQ, Spec.publishedBQ, abs_le]
  · intro i j
    fin_cases i <;> fin_cases j <;> norm_num [CQ, Spec.publishedCQ, abs_le]
  intro n pr k T V moles hr hT f rho hq _
  have hok := polarOk_fromRecords pr k (fun i => (hr.m i).le)
  have e : quadrupole (fromRecords pr k) (StateHD.new T V moles)
      = padeVolume (quadrupolePhi2 (fromRecords pr k) T rho (f.zeta T rho 3) * (Real.pi * 0.5625))
        (quadrupolePhi3 (fromRecords pr k) T rho (f.zeta T rho 3) * (Real.pi * Real.pi * 0.5625)) V := by
    rw [← packingFraction_theory pr k T rho]
    rfl
  rw [e, pade_theory, quadrupolePhi2_real hok, quadrupolePhi3_real hok]
  have hs : ∀ i, quadrupoleTerm (fromRecords pr k) T⁻¹ i = f.quadrupoleStrength T i := fun i =>
    quadrupoleTerm_theory pr k T i (hr.m i).ne' (hr.sigma i).ne' (hr.epsilon i).ne' hT.ne'
  have h56 : (0.5625 : ℝ) = 9 / 16 := by norm_num
  have e2 : -(∑ i, ∑ j, rho i * rho j * quadK2 (fromRecords pr k) T (f.zeta T rho 3) i j) * (Real.pi * 0.5625)
      = f.quadrupole2 T rho AQ BQ := by
    simp only [Spec.Fluid.quadrupole2, quadK2, hs, pairI_theory, neg_mul, Finset.sum_mul,
      Finset.mul_sum, ← Finset.sum_neg_distrib, h56]
    refine Finset.sum_congr rfl fun i _ => Finset.sum_congr rfl fun j _ => ?_
    by_cases hi : f.q i = 0
    · have : f.quadrupoleStrength T i = 0 := by simp [Spec.Fluid.quadrupoleStrength, hi]
      rw [this]
      ring
    by_cases hj : f.q j = 0
    · have : f.quadrupoleStrength T j = 0 := by simp [Spec.Fluid.quadrupoleStrength, hj]
      rw [this]
      ring
    have hij := hq i j hi hj
    have hmin : (fromRecords pr k).sigma (min i j) = f.sigmaIJ i j := by
      have : f.sigmaIJ i j = f.sigma i := by
        simp only [Spec.Fluid.sigmaIJ, ← hij]
        ring
      rw [this]
      change f.sigma (min i j) = f.sigma i
      rcases min_choice i j with h | h <;> rw [h]
      exact hij.symm
    rw [hmin]
    change _ = -(_ * (_ / f.sigmaIJ i j ^ 7 * f.j2 T AQ BQ (f.zeta T rho 3) i j))
    ring
  have e3 : (∑ i, ∑ j, ∑ l, rho i * rho j * rho l * quadK3 (fromRecords pr k) T (f.zeta T rho 3) i j l)
      * (Real.pi * Real.pi * 0.5625) = f.quadrupole3 T rho CQ := by
    simp only [Spec.Fluid.quadrupole3, quadK3, hs, sigmaIJ_theory, tripI_theory pr k hr.m, Finset.sum_mul,
      Finset.mul_sum, h56]
    exact Finset.sum_congr rfl fun i _ => Finset.sum_congr rfl fun j _ => Finset.sum_congr rfl fun l _ => by ring
  rw [e2, e3]

/-- the theory does not depend on the order of the components -/
theorem quadrupole2_perm (f : Spec.Fluid n) (g : Equiv.Perm (Fin n)) (T : ℝ) (rho : Fin n → ℝ)
    (a b : Fin 5 → Fin 3 → ℝ) :
    (Spec.Fluid.mk (f.m ∘ g) (f.sigma ∘ g) (f.epsilon ∘ g) (f.mu ∘ g) (f.q ∘ g) (fun i j => f.k (g i) (g j))).quadrupole2
      T (rho ∘ g) a b = f.quadrupole2 T rho a b := by
  have hz : (Spec.Fluid.mk (f.m ∘ g) (f.sigma ∘ g) (f.epsilon ∘ g) (f.mu ∘ g) (f.q ∘ g)
      (fun i j => f.k (g i) (g j))).zeta T (rho ∘ g) 3 = f.zeta T rho 3 := by
    simp only [Spec.Fluid.zeta]
    congr 1
    exact Equiv.sum_comp g (fun i => rho i * f.m i * f.d T i ^ 3)
  unfold Spec.Fluid.quadrupole2
  rw [hz]
  congr 1
  rw [← Equiv.sum_comp g (fun i => ∑ j, rho i * rho j * f.quadrupoleStrength T i * f.quadrupoleStrength T j
    / f.sigmaIJ i j ^ 7 * f.j2 T a b (f.zeta T rho 3) i j)]
  refine Finset.sum_congr rfl fun i _ => ?_
  rw [← Equiv.sum_comp g (fun j => rho (g i) * rho j * f.quadrupoleStrength T (g i) * f.quadrupoleStrength T j
    / f.sigmaIJ (g i) j ^ 7 * f.j2 T a b (f.zeta T rho 3) (g i) j)]
  rfl

theorem quadrupole3_perm (f : Spec.Fluid n) (g : Equiv.Perm (Fin n)) (T : ℝ) (rho : Fin n → ℝ)
    (a : Fin 4 → Fin 3 → ℝ) :
    (Spec.Fluid.mk (f.m ∘ g) (f.sigma ∘ g) (f.epsilon ∘ g) (f.mu ∘ g) (f.q ∘ g) (fun i j => f.k (g i) (g j))).quadrupole3
      T (rho ∘ g) a = f.quadrupole3 T rho a := by
  have hz : (Spec.Fluid.mk (f.m ∘ g) (f.sigma ∘ g) (f.epsilon ∘ g) (f.mu ∘ g) (f.q ∘ g)
      (fun i j => f.k (g i) (g j))).zeta T (rho ∘ g) 3 = f.zeta T rho 3 := by
    simp only [Spec.Fluid.zeta]
    congr 1
    exact Equiv.sum_comp g (fun i => rho i * f.m i * f.d T i ^ 3)
  unfold Spec.Fluid.quadrupole3
  rw [hz]
  congr 1
  set F : Fin n → Fin n → Fin n → ℝ := fun i j l => rho i * rho j * rho l
    * f.quadrupoleStrength T i * f.quadrupoleStrength T j * f.quadrupoleStrength T l
    / (f.sigmaIJ i j ^ 3 * f.sigmaIJ i l ^ 3 * f.sigmaIJ j l ^ 3) * f.j3 a (f.zeta T rho 3) i j l with hF
  change _ = ∑ i, ∑ j, ∑ l, F i j l
  rw [← Equiv.sum_comp g (fun i => ∑ j, ∑ l, F i j l)]
  refine Finset.sum_congr rfl fun i _ => ?_
  rw [← Equiv.sum_comp g (fun j => ∑ l, F (g i) j l)]
  refine Finset.sum_congr rfl fun j _ => ?_
  rw [← Equiv.sum_comp g (fun l => F (g i) (g j) l)]
  rfl

/-- C66, disagreement: no choice of the constants makes the quadrupole contribution the published sum over pairs and
triplets for every mixture, because that sum does not depend on the order of the components. -/
theorem C66_counterexample (a b : Fin 5 → Fin 3 → ℝ) (d : Fin 4 → Fin 3 → ℝ) :
    ∃ (pr : Fin 2 → PureRecord ℝ) (V : ℝ), PositiveRecords pr
      ∧ Spec.Admissible (fromRecords pr (fun _ _ => 0)) 100 V (fun _ => 1)
      ∧ quadrupole (fromRecords pr (fun _ _ => 0)) (StateHD.new 100 V (fun _ => 1))
        ≠ V * Spec.Fluid.pade ((fluidOf pr (fun _ _ => 0)).quadrupole2 100 (fun _ => 1 / V) a b)
          ((fluidOf pr (fun _ _ => 0)).quadrupole3 100 (fun _ => 1 / V) d) := by
  obtain ⟨V, hadm, hne⟩ := C16_counterexample
  have hpos : PositiveRecords twoQuadrupoles := by
    constructor <;> intro i <;> fin_cases i <;> norm_num [twoQuadrupoles]
  by_cases h : quadrupole (fromRecords twoQuadrupoles (fun _ _ => 0)) (StateHD.new 100 V (fun _ => 1))
        = V * Spec.Fluid.pade ((fluidOf twoQuadrupoles (fun _ _ => 0)).quadrupole2 100 (fun _ => 1 / V) a b)
          ((fluidOf twoQuadrupoles (fun _ _ => 0)).quadrupole3 100 (fun _ => 1 / V) d)
  · refine ⟨fun i => twoQuadrupoles (Equiv.swap 0 1 i), V,
      ⟨fun i => hpos.m _, fun i => hpos.sigma _, fun i => hpos.epsilon _⟩, ?_, ?_⟩
    · exact ⟨hadm.temperature, hadm.volume, fun i => hadm.m_pos (Equiv.swap 0 1 i),
        fun i => hadm.sigma_pos (Equiv.swap 0 1 i), fun i => hadm.epsilon_nonneg (Equiv.swap 0 1 i),
        fun _ => zero_le_one, ⟨0, one_ne_zero⟩, by
          refine lt_of_eq_of_lt ?_ hadm.packing
          simp only [Spec.packingFraction]
          exact Equiv.sum_comp (Equiv.swap 0 1) (fun i => 1 * (fromRecords twoQuadrupoles (fun _ _ => (0 : ℝ))).m i
            * (Real.pi / 6 * Spec.diameter ((fromRecords twoQuadrupoles (fun _ _ => (0 : ℝ))).sigma i)
              ((fromRecords twoQuadrupoles (fun _ _ => (0 : ℝ))).epsilon_k i) 100 ^ 3) / V)⟩
    · intro h'
      apply hne
      rw [h', h]
      have e2 := quadrupole2_perm (fluidOf twoQuadrupoles (fun _ _ => 0)) (Equiv.swap 0 1) 100 (fun _ => 1 / V) a b
      have e3 := quadrupole3_perm (fluidOf twoQuadrupoles (fun _ _ => 0)) (Equiv.swap 0 1) 100 (fun _ => 1 / V) d
      rw [← e2, ← e3]
      rfl
  · exact ⟨twoQuadrupoles, V, hpos, hadm, h⟩

/-- C66 for the fluid of polar spheres: the hypotheses hold. -/
example : ∃ a2 a3 : ℝ, a2 < 0 ∧ a2 < a3 ∧ quadrupole (fromRecords polarSphere (fun _ _ => 0))
    (StateHD.new (100 : ℝ) 1000 (fun _ => 1)) = 1000 * Spec.Fluid.pade a2 a3 := by
  obtain ⟨a, b, d, ha, hb, hd, h⟩ := C66_quadrupole_partial
  set f := fluidOf polarSphere (fun _ _ => 0) with hf
  obtain ⟨h0, h1⟩ := polarSphere_zeta
  have hs := polarSphere_strength.2
  have hs2 : f.quadrupoleStrength 100 0 < 700 := by
    norm_num [f, Spec.Fluid.quadrupoleStrength, fluidOf, polarSphere, Spec.Fluid.debyeSq, Spec.Fluid.kB]
  have h2 : f.quadrupole2 100 (fun _ => 1 / 1000) a b < 0
      ∧ f.quadrupole2 100 (fun _ => 1 / 1000) a b < f.quadrupole3 100 (fun _ => 1 / 1000) d := by
    simp only [Spec.Fluid.quadrupole2, Spec.Fluid.quadrupole3, Finset.univ_unique, Fin.default_eq_zero,
      Finset.sum_singleton]
    rw [polarSphere_j2, polarSphere_j3, polarSphere_sigmaIJ]
    rw [← hf] at h0 h1 hs
    generalize f.zeta 100 (fun _ => 1 / 1000) 3 = eta at h0 h1 ⊢
    have hJ : 1 < ∑ r, (a r 0 + b r 0) * eta ^ (r : ℕ) := by
      simp only [Fin.sum_univ_five]
      have a0 := abs_le.mp (ha 0 0); have a1 := abs_le.mp (ha 1 0); have a2 := abs_le.mp (ha 2 0)
      have a3 := abs_le.mp (ha 3 0); have a4 := abs_le.mp (ha 4 0)
      have b0 := abs_le.mp (hb 0 0); have b1 := abs_le.mp (hb 1 0); have b2 := abs_le.mp (hb 2 0)
      have b3 := abs_le.mp (hb 3 0); have b4 := abs_le.mp (hb 4 0)
      simp only [Spec.publishedAQ, Spec.publishedBQ, Matrix.cons_val_zero, Matrix.cons_val_one, Matrix.cons_val]
        at a0 a1 a2 a3 a4 b0 b1 b2 b3 b4
      have k2 : 0 ≤ (a 2 0 + b 2 0) * eta ^ 2 := mul_nonneg (by linarith) (by positivity)
      have k3 : -1.7 * eta ^ 3 ≤ (a 3 0 + b 3 0) * eta ^ 3 := mul_le_mul_of_nonneg_right (by linarith) (by positivity)
      have k1 : -2.1 * eta ≤ (a 1 0 + b 1 0) * eta := mul_le_mul_of_nonneg_right (by linarith) h0.le
      have k4 : 0 ≤ (a 4 0 + b 4 0) * eta ^ 4 := mul_nonneg (by linarith) (by positivity)
      have k5 : eta ^ 3 ≤ eta := by
        calc eta ^ 3 ≤ eta ^ 1 := pow_le_pow_of_le_one h0.le (by linarith) (by norm_num)
          _ = eta := pow_one _
      change 1 < (a 0 0 + b 0 0) * eta ^ 0 + (a 1 0 + b 1 0) * eta ^ 1 + (a 2 0 + b 2 0) * eta ^ 2
        + (a 3 0 + b 3 0) * eta ^ 3 + (a 4 0 + b 4 0) * eta ^ 4
      rw [pow_zero, pow_one]
      linarith
    have hJ3 : -1 < ∑ r, d r 0 * eta ^ (r : ℕ) := by
      simp only [Fin.sum_univ_four]
      have a0 := abs_le.mp (hd 0 0); have a1 := abs_le.mp (hd 1 0); have a2 := abs_le.mp (hd 2 0)
      have a3 := abs_le.mp (hd 3 0)
      simp only [Spec.publishedCQ, Matrix.cons_val_zero, Matrix.cons_val_one, Matrix.cons_val] at a0 a1 a2 a3
      have k2 : -16.1 * eta ^ 2 ≤ d 2 0 * eta ^ 2 := mul_le_mul_of_nonneg_right (by linarith) (by positivity)
      have k1 : 0 ≤ d 1 0 * eta := mul_nonneg (by linarith) h0.le
      have k3 : 0 ≤ d 3 0 * eta ^ 3 := mul_nonneg (by linarith) (by positivity)
      have k5 : eta ^ 2 ≤ eta := by
        calc eta ^ 2 ≤ eta ^ 1 := pow_le_pow_of_le_one h0.le (by linarith) (by norm_num)
          _ = eta := pow_one _
      change -1 < d 0 0 * eta ^ 0 + d 1 0 * eta ^ 1 + d 2 0 * eta ^ 2 + d 3 0 * eta ^ 3
      rw [pow_zero, pow_one]
      linarith
    have hp := Real.pi_pos
    have hp4 := Real.pi_lt_four
    generalize ∑ r, (a r 0 + b r 0) * eta ^ (r : ℕ) = J at hJ ⊢
    generalize ∑ r, d r 0 * eta ^ (r : ℕ) = K at hJ3 ⊢
    generalize f.quadrupoleStrength 100 0 = s at hs hs2 ⊢
    have e2 : -(9 / 16 * Real.pi) * (1 / 1000 * (1 / 1000) * s * s / 3 ^ 7 * J)
        = -(9 / 16 * Real.pi * s ^ 2 / (1000 ^ 2 * 3 ^ 7)) * J := by ring
    have e3 : 9 / 16 * Real.pi ^ 2 * (1 / 1000 * (1 / 1000) * (1 / 1000) * s * s * s / (3 ^ 3 * 3 ^ 3 * 3 ^ 3) * K)
        = (9 / 16 * Real.pi * s ^ 2 / (1000 ^ 2 * 3 ^ 7)) * (Real.pi * s / 9000 * K) := by ring
    rw [e2, e3]
    have hc : 0 < 9 / 16 * Real.pi * s ^ 2 / (1000 ^ 2 * 3 ^ 7) := by positivity
    generalize 9 / 16 * Real.pi * s ^ 2 / (1000 ^ 2 * 3 ^ 7) = w at hc ⊢
    have hps : Real.pi * s / 9000 < 1 := by
      have : Real.pi * s < 4 * 700 := mul_lt_mul'' hp4 hs2 hp.le hs.le
      linarith
    have hps0 : 0 < Real.pi * s / 9000 := by positivity
    have hK : -1 < Real.pi * s / 9000 * K := by nlinarith
    constructor
    · nlinarith
    · nlinarith
  refine ⟨_, _, h2.1, h2.2, h 1 polarSphere (fun _ _ => 0) 100 1000 (fun _ => 1) polarSphere_positive (by norm_num) ?_
    (fun he => absurd he h2.2.ne)⟩
  intro i j _ _
  rw [Subsingleton.elim i j]

/-! ## C67 -/

/-- C67: the dipole-quadrupole contribution is the Padé approximation of Vrabec and Gross with their constants (up to
the rounding of the published tables); both variants of the second-order term. -/
theorem C67_dipole_quadrupole : ∃ (alpha : ℝ) (a b : Fin 4 → Fin 3 → ℝ) (d : Fin 3 → Fin 2 → ℝ),
    |alpha - Spec.publishedAlpha| ≤ 5e-6 ∧
    (∀ i j, |a i j - Spec.publishedADQ i j| ≤ 5e-7) ∧ (∀ i j, |b i j - Spec.publishedBDQ i j| ≤ 5e-7)
    ∧ (∀ i j, |d i j - Spec.publishedCDQ i j| ≤ 5e-7)
    ∧ ∀ (n : ℕ) (pr : Fin n → PureRecord ℝ) (k : Fin n → Fin n → ℝ) (T V : ℝ) (moles : Fin n → ℝ),
      PositiveRecords pr → 0 < T →
      let f := fluidOf pr k
      let rho := fun i => moles i / V
      ((f.dipoleQuadrupole2 T rho a b = f.dipoleQuadrupole3 T rho alpha d → f.dipoleQuadrupole2 T rho a b = 0) →
        dipoleQuadrupole .DQ35 (fromRecords pr k) (StateHD.new T V moles)
          = V * Spec.Fluid.pade (f.dipoleQuadrupole2 T rho a b) (f.dipoleQuadrupole3 T rho alpha d))
      ∧ ((f.dipoleQuadrupole2' T rho a b = f.dipoleQuadrupole3 T rho alpha d → f.dipoleQuadrupole2' T rho a b = 0) →
        dipoleQuadrupole .DQ44 (fromRecords pr k) (StateHD.new T V moles)
          = V * Spec.Fluid.pade (f.dipoleQuadrupole2' T rho a b) (f.dipoleQuadrupole3 T rho alpha d)) := by
  refine ⟨ALPHA, ADQ, BDQ, CDQ, ?_, ?_, ?_, ?_, ?_⟩
  · norm_num [ALPHA, Spec.publishedAlpha, abs_le]
  · intro i j
    fin_cases i <;> fin_cases j <;> norm_num [ADQ, Spec.publishedADQ, abs_le]
  · intro i j
    fin_cases i <;> fin_cases j <;> norm_num [BDQ, Spec.publishedBDQ, abs_le]
  · intro i j
    fin_cases i <;> fin_cases j <;> norm_num [CDQ, Spec.publishedCDQ, abs_le]
  intro n pr k T V moles hr hT f rho
  have hok := polarOk_fromRecords pr k (fun i => (hr.m i).le)
  have e : ∀ v, dipoleQuadrupole v (fromRecords pr k) (StateHD.new T V moles)
      = padeVolume (dipoleQuadrupolePhi2 v (fromRecords pr k) T rho (f.zeta T rho 3) * (Real.pi * 2.25))
        (dipoleQuadrupolePhi3 (fromRecords pr k) T rho (f.zeta T rho 3) * (Real.pi * Real.pi)) V := by
    intro v
    rw [← packingFraction_theory pr k T rho]
    rfl
  have hs : ∀ i, dqTerm (fromRecords pr k) (fromRecords pr k).mu2 T⁻¹ i = f.dipoleStrength T i * f.sigma i := fun i =>
    muTerm_theory pr k T i (hr.m i).ne' (hr.sigma i).ne' (hr.epsilon i).ne' hT.ne'
  have hs' : ∀ i, dqTerm (fromRecords pr k) (fromRecords pr k).q2 T⁻¹ i = f.quadrupoleStrength T i / f.sigma i :=
    fun i => qTerm_theory pr k T i (hr.m i).ne' (hr.sigma i).ne' (hr.epsilon i).ne' hT.ne'
  have h225 : (2.25 : ℝ) = 9 / 4 := by norm_num
  have hsig : ∀ i, f.sigma i ≠ 0 := fun i => (hr.sigma i).ne'
  have e3 : dipoleQuadrupolePhi3 (fromRecords pr k) T rho (f.zeta T rho 3) * (Real.pi * Real.pi)
      = f.dipoleQuadrupole3 T rho ALPHA CDQ := by
    rw [dipoleQuadrupolePhi3_real hok]
    simp only [Spec.Fluid.dipoleQuadrupole3, dqK3d, dqK3q, hs, hs', sigmaIJ_theory, dqI3_theory pr k hr.m,
      Finset.sum_mul, Finset.mul_sum]
    exact Finset.sum_congr rfl fun i _ => Finset.sum_congr rfl fun j _ => Finset.sum_congr rfl fun l _ => by ring
  refine ⟨fun _ => ?_, fun _ => ?_⟩
  · rw [e, pade_theory, e3, dipoleQuadrupolePhi2_real hok]
    congr 2
    simp only [Spec.Fluid.dipoleQuadrupole2, dqK2, muQTerm, hs, hs', sigmaIJ_theory, pairI_theory, neg_mul,
      Finset.sum_mul, Finset.mul_sum, ← Finset.sum_neg_distrib, h225, c, ofF_real]
    refine Finset.sum_congr rfl fun i _ => Finset.sum_congr rfl fun j _ => ?_
    have e1 : f.dipoleStrength T i * f.sigma i / (fromRecords pr k).sigma i = f.dipoleStrength T i :=
      mul_div_cancel_right₀ _ (hsig i)
    have e2 : f.quadrupoleStrength T j / f.sigma j * (fromRecords pr k).sigma j = f.quadrupoleStrength T j :=
      div_mul_cancel₀ _ (hsig j)
    rw [e1, mul_assoc (f.dipoleStrength T i), e2]
    ring
  · rw [e, pade_theory, e3, dipoleQuadrupolePhi2_real hok]
    congr 2
    simp only [Spec.Fluid.dipoleQuadrupole2', dqK2, muQTerm, hs, hs', sigmaIJ_theory, pairI_theory, neg_mul,
      Finset.sum_mul, Finset.mul_sum, ← Finset.sum_neg_distrib, h225]
    exact Finset.sum_congr rfl fun i _ => Finset.sum_congr rfl fun j _ => by ring

/-- C67 for the fluid of polar spheres: the hypotheses hold. -/
example : ∃ a2 a3 : ℝ, a2 < 0 ∧ 0 < a3 ∧ dipoleQuadrupole .DQ35 (fromRecords polarSphere (fun _ _ => 0))
    (StateHD.new (100 : ℝ) 1000 (fun _ => 1)) = 1000 * Spec.Fluid.pade a2 a3 := by
  obtain ⟨alpha, a, b, d, hal, ha, hb, hd, h⟩ := C67_dipole_quadrupole
  set f := fluidOf polarSphere (fun _ _ => 0) with hf
  obtain ⟨h0, h1⟩ := polarSphere_zeta
  obtain ⟨hs, ht⟩ := polarSphere_strength
  have hsig : f.sigma 0 = 3 := rfl
  have h2 : f.dipoleQuadrupole2 100 (fun _ => 1 / 1000) a b < 0
      ∧ 0 < f.dipoleQuadrupole3 100 (fun _ => 1 / 1000) alpha d := by
    simp only [Spec.Fluid.dipoleQuadrupole2, Spec.Fluid.dipoleQuadrupole3, Finset.univ_unique, Fin.default_eq_zero,
      Finset.sum_singleton]
    rw [polarSphere_j2, polarSphere_j3, polarSphere_sigmaIJ, hsig]
    rw [← hf] at h0 h1 hs ht
    generalize f.zeta 100 (fun _ => 1 / 1000) 3 = eta at h0 h1 ⊢
    have hJ : 0 < ∑ r, (a r 0 + b r 0) * eta ^ (r : ℕ) := by
      simp only [Fin.sum_univ_four]
      have a0 := abs_le.mp (ha 0 0); have a1 := abs_le.mp (ha 1 0); have a2 := abs_le.mp (ha 2 0)
      have a3 := abs_le.mp (ha 3 0)
      have b0 := abs_le.mp (hb 0 0); have b1 := abs_le.mp (hb 1 0); have b2 := abs_le.mp (hb 2 0)
      have b3 := abs_le.mp (hb 3 0)
      simp only [Spec.publishedADQ, Spec.publishedBDQ, Matrix.cons_val_zero, Matrix.cons_val_one, Matrix.cons_val]
        at a0 a1 a2 a3 b0 b1 b2 b3
      have k2 : 0 ≤ (a 2 0 + b 2 0) * eta ^ 2 := mul_nonneg (by linarith) (by positivity)
      have k1 : 0 ≤ (a 1 0 + b 1 0) * eta := mul_nonneg (by linarith) h0.le
      have k3 : -1.5 * eta ^ 3 ≤ (a 3 0 + b 3 0) * eta ^ 3 := mul_le_mul_of_nonneg_right (by linarith) (by positivity)
      have k5 : eta ^ 3 ≤ eta := by
        calc eta ^ 3 ≤ eta ^ 1 := pow_le_pow_of_le_one h0.le (by linarith) (by norm_num)
          _ = eta := pow_one _
      change 0 < (a 0 0 + b 0 0) * eta ^ 0 + (a 1 0 + b 1 0) * eta ^ 1 + (a 2 0 + b 2 0) * eta ^ 2
        + (a 3 0 + b 3 0) * eta ^ 3
      rw [pow_zero, pow_one]
      linarith
    have hK : 0 < ∑ r : Fin 3, (fun r => ![d r 0, d r 1, 0] : Fin 3 → Fin 3 → ℝ) r 0 * eta ^ (r : ℕ) := by
      simp only [Fin.sum_univ_three]
      have a0 := abs_le.mp (hd 0 0); have a1 := abs_le.mp (hd 1 0); have a2 := abs_le.mp (hd 2 0)
      simp only [Spec.publishedCDQ, Matrix.cons_val_zero, Matrix.cons_val_one, Matrix.cons_val] at a0 a1 a2
      have k2 : 0 ≤ d 2 0 * eta ^ 2 := mul_nonneg (by linarith) (by positivity)
      have k1 : 0 ≤ d 1 0 * eta := mul_nonneg (by linarith) h0.le
      change 0 < d 0 0 * eta ^ 0 + d 1 0 * eta ^ 1 + d 2 0 * eta ^ 2
      rw [pow_zero, pow_one]
      linarith
    have hp := Real.pi_pos
    have hA : 0 < alpha := by
      have := abs_le.mp hal
      simp only [Spec.publishedAlpha] at this
      linarith
    generalize ∑ r, (a r 0 + b r 0) * eta ^ (r : ℕ) = J at hJ ⊢
    generalize ∑ r : Fin 3, (fun r => ![d r 0, d r 1, 0] : Fin 3 → Fin 3 → ℝ) r 0 * eta ^ (r : ℕ) = K at hK ⊢
    constructor
    · rw [neg_mul]
      exact neg_neg_of_pos (by positivity)
    · positivity
  exact ⟨_, _, h2.1, h2.2, (h 1 polarSphere (fun _ _ => 0) 100 1000 (fun _ => 1) polarSphere_positive
    (by norm_num)).1 (fun he => by linarith [h2.1, h2.2])⟩

end PcSaft.Props
