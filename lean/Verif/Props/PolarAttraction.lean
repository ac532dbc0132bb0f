import Verif.Lemmas.PolarSign
import Verif.Props.Finite
import Verif.Props.Attraction
import Verif.Props.HardSphere

/-! # C95: polar molecules attract each other and the polar terms have no pole

The perturbation expansion of the polar terms is summed as `φ₂² / (φ₂ - φ₃)`, which has a pole where the two
terms agree.  Up to the default maximum packing fraction, and at temperatures that are not far below the
dispersion energies, the terms have opposite signs and the polar terms are negative. -/

namespace PcSaft.Spec
open PcSaft
variable {n : ℕ}

/-- States with dipoles that are not too cold: packing fractions up to one half and, for every dipolar
component, at least one segment and `ε/k ≤ 3/2 T`. -/
structure WarmDipoles (p : PcSaftParameters n ℝ) (T V : ℝ) (N : Fin n → ℝ) : Prop where
  admissible : Admissible p T V N
  packing : packingFraction p T V N ≤ 1 / 2
  segments : ∀ i, p.mu i ≠ 0 → 1 ≤ p.m i
  energy_pos : ∀ i, p.mu i ≠ 0 → 0 < p.epsilon_k i
  energy_le : ∀ i, p.mu i ≠ 0 → p.epsilon_k i ≤ 3 / 2 * T

/-- States with one quadrupolar component that is not too cold and whose quadrupoles are not too strong. -/
structure WarmQuadrupole (p : PcSaftParameters n ℝ) (T V : ℝ) (N : Fin n → ℝ) (a : Fin n) : Prop where
  admissible : Admissible p T V N
  packing : packingFraction p T V N ≤ 1 / 2
  alone : ∀ i, p.q i ≠ 0 ↔ i = a
  segments : 1 ≤ p.m a
  energy_pos : 0 < p.epsilon_k a
  energy_le : p.epsilon_k a ≤ T
  strength : p.q2 a * p.epsilon_k a ≤ p.m a * T

end PcSaft.Spec

namespace PcSaft.Props
open PcSaft Spec
variable {n : ℕ} {pr : Fin n → PureRecord ℝ} {k : Fin n → Fin n → ℝ} {T V : ℝ} {N : Fin n → ℝ}

theorem jouleKelvinKB_pos : (0 : ℝ) < jouleKelvinKB := by
  unfold jouleKelvinKB
  norm_num

theorem mu2_zero {i : Fin n} (h : (fromRecords pr k).mu i = 0) : (fromRecords pr k).mu2 i = 0 := by
  change (fromRecords pr k).mu i * (fromRecords pr k).mu i / _ * 1e-19 * jouleKelvinKB = 0
  rw [h]
  simp

theorem q2_zero {i : Fin n} (h : (fromRecords pr k).q i = 0) : (fromRecords pr k).q2 i = 0 := by
  change (fromRecords pr k).q i * (fromRecords pr k).q i / _ * 1e-19 * jouleKelvinKB = 0
  rw [h]
  simp

theorem mu2_pos (h : Admissible (fromRecords pr k) T V N) {i : Fin n} (hmu : (fromRecords pr k).mu i ≠ 0)
    (he : 0 < (fromRecords pr k).epsilon_k i) : 0 < (fromRecords pr k).mu2 i := by
  have e : (fromRecords pr k).mu2 i = (fromRecords pr k).mu i * (fromRecords pr k).mu i
    / ((fromRecords pr k).m i * (fromRecords pr k).sigma i * (fromRecords pr k).sigma i * (fromRecords pr k).sigma i
      * (fromRecords pr k).epsilon_k i) * 1e-19 * jouleKelvinKB := rfl
  have h1 := h.m_pos i
  have h2 := h.sigma_pos i
  have h3 := jouleKelvinKB_pos
  have h4 : 0 < (fromRecords pr k).mu i * (fromRecords pr k).mu i := mul_self_pos.2 hmu
  rw [e]
  positivity

theorem q2_pos (h : Admissible (fromRecords pr k) T V N) {i : Fin n} (hq : (fromRecords pr k).q i ≠ 0)
    (he : 0 < (fromRecords pr k).epsilon_k i) : 0 < (fromRecords pr k).q2 i := by
  have e : (fromRecords pr k).q2 i = (fromRecords pr k).q i * (fromRecords pr k).q i
    / ((fromRecords pr k).m i * (fromRecords pr k).sigma i ^ 5 * (fromRecords pr k).epsilon_k i) * 1e-19
      * jouleKelvinKB := rfl
  have h1 := h.m_pos i
  have h2 := h.sigma_pos i
  have h3 := jouleKelvinKB_pos
  have h4 : 0 < (fromRecords pr k).q i * (fromRecords pr k).q i := mul_self_pos.2 hq
  rw [e]
  positivity

theorem tabForm_neg (a : Fin 4 → Fin 3 → ℝ) (u y : ℝ) :
    tabForm (tripTab fun i j => -a i j) u y = -tabForm (tripTab a) u y := by
  unfold tabForm
  rw [← Finset.sum_neg_distrib]
  refine Finset.sum_congr rfl fun i _ => ?_
  unfold tripTab
  split_ifs <;> ring

section dipoles
variable (h : WarmDipoles (fromRecords pr k) T V N)
include h

theorem _root_.PcSaft.Spec.WarmDipoles.eta_mem : 0 ≤ zeta (fromRecords pr k).m (StateHD.new T V N).partial_density (hsDiameter (fromRecords pr k) T) 3
    ∧ zeta (fromRecords pr k).m (StateHD.new T V N).partial_density (hsDiameter (fromRecords pr k) T) 3 ≤ 1 / 2 :=
  ⟨(h.admissible.zeta_pos 3).le, by rw [zeta3_eq_packing]; exact h.packing⟩

theorem _root_.PcSaft.Spec.WarmDipoles.term_pos {i : Fin n} (hi : (fromRecords pr k).mu i ≠ 0) : 0 < dipoleTerm (fromRecords pr k) T⁻¹ i := by
  simp only [dipoleTerm, c, ofF_real, powi_real]
  have := mu2_pos h.admissible hi (h.energy_pos i hi)
  have := h.energy_pos i hi
  have := sigma_ij_pos h.admissible i i
  have := h.admissible.temperature
  positivity

omit h in
theorem dipoleTerm_zero' {i : Fin n} (hi : (fromRecords pr k).mu i = 0) : dipoleTerm (fromRecords pr k) T⁻¹ i = 0 := by
  simp only [dipoleTerm, c, ofF_real]
  rw [mu2_zero hi, mul_zero]

theorem _root_.PcSaft.Spec.WarmDipoles.pair_pos {i j : Fin n} (hi : (fromRecords pr k).mu i ≠ 0) (hj : (fromRecords pr k).mu j ≠ 0)
    {y : ℝ} (hy : 0 ≤ y) (hy' : y ≤ 1 / 2) : 0 < pairI (by decide) AD BD (fromRecords pr k) T y i j := by
  obtain ⟨h1, h2⟩ := mdqPair_mem (h.segments i hi) (h.segments j hj)
  obtain ⟨u1, u2⟩ := meanSeg1_mem h1 h2
  have hT := h.admissible.temperature
  have e : (fromRecords pr k).e_k_ij i j = Real.sqrt ((fromRecords pr k).epsilon_k i * (fromRecords pr k).epsilon_k j) := rfl
  have hle : (fromRecords pr k).e_k_ij i j ≤ 3 / 2 * T := by
    rw [e]
    refine Real.sqrt_le_iff.2 ⟨by positivity, ?_⟩
    rw [pow_two]
    exact mul_le_mul (h.energy_le i hi) (h.energy_le j hj) (h.energy_pos j hj).le (by positivity)
  have h0 : 0 ≤ (fromRecords pr k).e_k_ij i j := by rw [e]; exact Real.sqrt_nonneg _
  unfold pairI
  rw [pairIntegral_tab (by linarith)]
  refine dipolePair u1 u2 hy hy' (by positivity) ?_
  rw [inv_mul_le_iff₀ hT]
  linarith

theorem _root_.PcSaft.Spec.WarmDipoles.triplet_neg {i j l : Fin n} (hi : (fromRecords pr k).mu i ≠ 0) (hj : (fromRecords pr k).mu j ≠ 0)
    (hl : (fromRecords pr k).mu l ≠ 0) {y : ℝ} (hy : 0 ≤ y) (hy' : y ≤ 1 / 2) :
    tripI CD (fromRecords pr k) y i j l < 0 := by
  obtain ⟨h1, h2⟩ := mdqTriplet_mem (h.segments i hi) (h.segments j hj) (h.segments l hl)
  obtain ⟨u1, u2⟩ := meanSeg1_mem h1 h2
  unfold tripI
  rw [tripletIntegral_tab (by linarith)]
  have := dipoleTriplet u1 u2 hy hy'
  rw [tabForm_neg] at this
  linarith

theorem _root_.PcSaft.Spec.WarmDipoles.K2_nonneg {y : ℝ} (hy : 0 ≤ y) (hy' : y ≤ 1 / 2) (i j : Fin n) :
    0 ≤ dipK2 (fromRecords pr k) T y i j := by
  unfold dipK2
  by_cases hi : (fromRecords pr k).mu i = 0
  · rw [dipoleTerm_zero' hi]; simp
  by_cases hj : (fromRecords pr k).mu j = 0
  · rw [dipoleTerm_zero' hj]; simp
  have := h.term_pos hi
  have := h.term_pos hj
  have := h.pair_pos hi hj hy hy'
  have := sigma_ij_pos h.admissible i j
  positivity

theorem _root_.PcSaft.Spec.WarmDipoles.K2_pos {y : ℝ} (hy : 0 ≤ y) (hy' : y ≤ 1 / 2) {i : Fin n} (hi : (fromRecords pr k).mu i ≠ 0) :
    0 < dipK2 (fromRecords pr k) T y i i := by
  unfold dipK2
  have := h.term_pos hi
  have := h.pair_pos hi hi hy hy'
  have := sigma_ij_pos h.admissible i i
  positivity

theorem _root_.PcSaft.Spec.WarmDipoles.K3_nonpos {y : ℝ} (hy : 0 ≤ y) (hy' : y ≤ 1 / 2) (i j l : Fin n) :
    dipK3 (fromRecords pr k) T y i j l ≤ 0 := by
  unfold dipK3
  by_cases hi : (fromRecords pr k).mu i = 0
  · rw [dipoleTerm_zero' hi]; simp
  by_cases hj : (fromRecords pr k).mu j = 0
  · rw [dipoleTerm_zero' hj]; simp
  by_cases hl : (fromRecords pr k).mu l = 0
  · rw [dipoleTerm_zero' hl]; simp
  have h1 := h.term_pos hi
  have h2 := h.term_pos hj
  have h3 := h.term_pos hl
  have := sigma_ij_pos h.admissible i j
  have := sigma_ij_pos h.admissible i l
  have := sigma_ij_pos h.admissible j l
  refine div_nonpos_of_nonpos_of_nonneg (mul_nonpos_of_nonneg_of_nonpos (by positivity)
    (h.triplet_neg hi hj hl hy hy').le) (by positivity)

/-- the two terms of the expansion of the dipole energy have opposite signs -/
theorem _root_.PcSaft.Spec.WarmDipoles.phis : (dipolePhis (fromRecords pr k) (StateHD.new T V N)).1 ≤ 0
    ∧ 0 ≤ (dipolePhis (fromRecords pr k) (StateHD.new T V N)).2
    ∧ ((∃ i, (fromRecords pr k).mu i ≠ 0 ∧ 0 < N i) → (dipolePhis (fromRecords pr k) (StateHD.new T V N)).1 < 0) := by
  have hp := polarOk_fromRecords pr k fun i => (h.admissible.m_pos i).le
  obtain ⟨y0, y1⟩ := h.eta_mem
  have hV := h.admissible.volume
  have hr : ∀ i, 0 ≤ N i / V := fun i => div_nonneg (h.admissible.moles_nonneg i) hV.le
  have hq : (0 : ℝ) < PI_SQ_43 := by
    unfold PI_SQ_43
    simp only [pi_real]
    have := Real.pi_pos
    positivity
  have hy : stateEta (fromRecords pr k) (StateHD.new T V N)
      = zeta (fromRecords pr k).m (StateHD.new T V N).partial_density (hsDiameter (fromRecords pr k) T) 3 := by
    rw [stateEta, packingFraction_eq_zeta]
    rfl
  simp only [dipolePhis, hy, dipolePhi2_real hp, dipolePhi3_real hp, c, ofF_real, pi_real,
    StateHD.new_temperature]
  set y := zeta (fromRecords pr k).m (StateHD.new T V N).partial_density (hsDiameter (fromRecords pr k) T) 3
  simp only [StateHD.new_density]
  have h2 : ∀ i j, 0 ≤ N i / V * (N j / V) * dipK2 (fromRecords pr k) T y i j := fun i j =>
    mul_nonneg (mul_nonneg (hr i) (hr j)) (h.K2_nonneg y0 y1 i j)
  have h3 : ∀ i j l, N i / V * (N j / V) * (N l / V) * dipK3 (fromRecords pr k) T y i j l ≤ 0 := fun i j l =>
    mul_nonpos_of_nonneg_of_nonpos (mul_nonneg (mul_nonneg (hr i) (hr j)) (hr l)) (h.K3_nonpos y0 y1 i j l)
  refine ⟨?_, ?_, ?_⟩
  · exact mul_nonpos_of_nonpos_of_nonneg (neg_nonpos.2 (Finset.sum_nonneg fun i _ => Finset.sum_nonneg fun j _ => h2 i j))
      Real.pi_pos.le
  · refine mul_nonneg (neg_nonneg.2 (Finset.sum_nonpos fun i _ => Finset.sum_nonpos fun j _ =>
      Finset.sum_nonpos fun l _ => h3 i j l)) hq.le
  · rintro ⟨i, hi, hN⟩
    refine mul_neg_of_neg_of_pos (neg_lt_zero.2 ?_) Real.pi_pos
    refine Finset.sum_pos' (fun i _ => Finset.sum_nonneg fun j _ => h2 i j) ⟨i, Finset.mem_univ _, ?_⟩
    refine Finset.sum_pos' (fun j _ => h2 i j) ⟨i, Finset.mem_univ _, ?_⟩
    have := h.K2_pos y0 y1 hi
    positivity

/-- C95: the dipole term is finite and exact at every warm state: its denominator vanishes only where no
dipolar molecule is present and the term is absent. -/
theorem C95_dipole_no_pole : FiniteAt (fromRecords pr k) T V N .dipole
    ∧ ((∃ i, (fromRecords pr k).mu i ≠ 0 ∧ 0 < N i) → Regular (fromRecords pr k) T V N .dipole) := by
  obtain ⟨-, h2, h3⟩ := h.phis
  have hreg : (∃ i, (fromRecords pr k).mu i ≠ 0 ∧ 0 < N i) → Regular (fromRecords pr k) T V N .dipole :=
    fun hi => ((h3 hi).trans_le h2).ne
  refine ⟨?_, hreg⟩
  by_cases hi : ∃ i, (fromRecords pr k).mu i ≠ 0 ∧ 0 < N i
  · exact Or.inl (hreg hi)
  · refine Or.inr (dipolePhis_absent _ fun i hm => ?_)
    have : (fromRecords pr k).mu2 i ≠ 0 := (mem_nonzeroComp _ i).1 hm
    by_contra hN
    exact hi ⟨i, fun e => this (mu2_zero e), lt_of_le_of_ne (h.admissible.moles_nonneg i) (Ne.symm hN)⟩

/-- C95: dipoles attract each other, so their energy is negative wherever a dipolar molecule is present. -/
theorem C95_dipoles_attract : dipole (fromRecords pr k) (StateHD.new T V N) ≤ 0
    ∧ (dipole (fromRecords pr k) (StateHD.new T V N) < 0 ↔ ∃ i, (fromRecords pr k).mu i ≠ 0 ∧ 0 < N i) := by
  have hneg : (∃ i, (fromRecords pr k).mu i ≠ 0 ∧ 0 < N i) → dipole (fromRecords pr k) (StateHD.new T V N) < 0 := by
    intro hi
    obtain ⟨-, h2, h3⟩ := h.phis
    have h1 := h3 hi
    have e : dipole (fromRecords pr k) (StateHD.new T V N) = padeVolume
      (dipolePhis (fromRecords pr k) (StateHD.new T V N)).1 (dipolePhis (fromRecords pr k) (StateHD.new T V N)).2 V := rfl
    rw [e]
    simp only [padeVolume, isNan_real, Bool.false_eq_true, if_false]
    exact mul_neg_of_neg_of_pos (div_neg_of_pos_of_neg (mul_pos_of_neg_of_neg h1 h1) (by linarith)) h.admissible.volume
  have hzero : (¬∃ i, (fromRecords pr k).mu i ≠ 0 ∧ 0 < N i) → dipole (fromRecords pr k) (StateHD.new T V N) = 0 := by
    intro hi
    have e : dipole (fromRecords pr k) (StateHD.new T V N) = padeVolume
      (dipolePhis (fromRecords pr k) (StateHD.new T V N)).1 (dipolePhis (fromRecords pr k) (StateHD.new T V N)).2 V := rfl
    rw [e, dipolePhis_absent]
    · simp [padeVolume, isNan_real]
    · intro i hm
      have : (fromRecords pr k).mu2 i ≠ 0 := (mem_nonzeroComp _ i).1 hm
      by_contra hN
      exact hi ⟨i, fun e => this (mu2_zero e), lt_of_le_of_ne (h.admissible.moles_nonneg i) (Ne.symm hN)⟩
  refine ⟨?_, fun hlt => ?_, hneg⟩
  · by_cases hi : ∃ i, (fromRecords pr k).mu i ≠ 0 ∧ 0 < N i
    · exact (hneg hi).le
    · exact (hzero hi).le
  · by_contra hi
    exact hlt.ne (hzero hi)

/-- C95: the residual Helmholtz energy of warm dipolar mixtures without quadrupoles and association is a number
(neither infinite nor NaN) at every composition. -/
theorem C95_dipolar_finite (o : PcSaftOptions ℝ) (la : LinAlg ℝ ℝ) (laX : LinAlg XReal XReal)
    (he : ∀ i, 0 < (pr i).model_record.epsilon_k) (hq : (fromRecords pr k).quadpole_comp = [])
    (ha : (fromRecords pr k).assoc_comp = []) :
    ∃ A : ℝ, (Eos.withOptions (fromRecords pr k) o).residualHelmholtz la (StateHD.new T V N) = .ok A
      ∧ (Eos.withOptions (xParameters pr k) (o.map XReal.fin)).residualHelmholtz laX
        (StateHD.new (XReal.fin T) (XReal.fin V) (fun i => XReal.fin (N i))) = .ok (XReal.fin A) := by
  refine C21_residual o la laX h.admissible he (fun i => ?_) fun ct hct => ?_
  · by_contra hne
    have : i ∈ (fromRecords pr k).assoc_comp := (mem_assoc_iff pr k i).2 (by intro e; exact hne e.ge)
    simp [ha] at this
  · cases ct with
    | hardSphere => trivial
    | hardChain => trivial
    | dispersion => trivial
    | dipole => exact (C95_dipole_no_pole h).1
    | quadrupole => exact Or.inr (quadrupolePhis_absent _ (by simp [hq]))
    | dipoleQuadrupole v => simp [buildContributions, PcSaftParameters.nquadpole, PcSaftParameters.nassoc, hq, ha] at hct
    | association => simp [buildContributions, PcSaftParameters.nassoc, ha] at hct
    | crossAssociation _ _ => simp [buildContributions, PcSaftParameters.nassoc, ha] at hct

/-- C95: at warm states with a dipolar molecule the derivatives are finite and exact as well. -/
theorem C95_dipolar_derivatives (o : PcSaftOptions ℝ) (la : LinAlg ℝ ℝ) (laX : LinAlg XReal (Dual XReal))
    (he : ∀ i, 0 < (pr i).model_record.epsilon_k) (hq : (fromRecords pr k).quadpole_comp = [])
    (ha : (fromRecords pr k).assoc_comp = []) (hi : ∃ i, (fromRecords pr k).mu i ≠ 0 ∧ 0 < N i) (T' V' : ℝ) (N' : Fin n → ℝ) :
    ∃ (A : ℝ → ℝ) (A' : ℝ), (∀ t, (Eos.withOptions (fromRecords pr k) o).residualHelmholtz la
        (StateHD.new (T + t * T') (V + t * V') (fun i => N i + t * N' i)) = .ok (A t))
      ∧ HasDerivAt A A' 0
      ∧ (Eos.withOptions (xParameters pr k) (o.map XReal.fin)).residualHelmholtz laX
        (StateHD.new ⟨XReal.fin T, XReal.fin T'⟩ ⟨XReal.fin V, XReal.fin V'⟩
          (fun i => ⟨XReal.fin (N i), XReal.fin (N' i)⟩)) = .ok ⟨XReal.fin (A 0), XReal.fin A'⟩ := by
  refine C21_derivatives o la laX h.admissible he (fun i => ?_) (fun ct hct => ?_) T' V' N'
  · by_contra hne
    have : i ∈ (fromRecords pr k).assoc_comp := (mem_assoc_iff pr k i).2 (by intro e; exact hne e.ge)
    simp [ha] at this
  · cases ct with
    | hardSphere => trivial
    | hardChain => trivial
    | dispersion => trivial
    | dipole => exact (C95_dipole_no_pole h).2 hi
    | quadrupole => simp [buildContributions, PcSaftParameters.nquadpole, PcSaftParameters.nassoc, hq, ha] at hct
    | dipoleQuadrupole v => simp [buildContributions, PcSaftParameters.nquadpole, PcSaftParameters.nassoc, hq, ha] at hct
    | association => simp [buildContributions, PcSaftParameters.nassoc, ha] at hct
    | crossAssociation _ _ => simp [buildContributions, PcSaftParameters.nassoc, ha] at hct

end dipoles

section quadrupoles
variable {a : Fin n} (h : WarmQuadrupole (fromRecords pr k) T V N a)
include h

theorem _root_.PcSaft.Spec.WarmQuadrupole.term_zero {i : Fin n} (hi : i ≠ a) : quadrupoleTerm (fromRecords pr k) T⁻¹ i = 0 := by
  have : (fromRecords pr k).q i = 0 := by
    by_contra hq
    exact hi ((h.alone i).1 hq)
  simp only [quadrupoleTerm, c, ofF_real]
  rw [q2_zero this, mul_zero]

/-- the volume of the quadrupolar molecules is bounded by the packing fraction -/
theorem _root_.PcSaft.Spec.WarmQuadrupole.strength_le :
    Real.pi * (N a / V) * (fromRecords pr k).sigma a ^ 3 * (T⁻¹ * (fromRecords pr k).epsilon_k a * (fromRecords pr k).q2 a)
      ≤ 881 / 100 * Spec.packingFraction (fromRecords pr k) T V N := by
  have hT := h.admissible.temperature
  have hV := h.admissible.volume
  have hs := h.admissible.sigma_pos a
  have hm := h.admissible.m_pos a
  have hN := h.admissible.moles_nonneg a
  have hd : 0.88 * (fromRecords pr k).sigma a ≤ hsDiameter (fromRecords pr k) T a := by
    rw [hsDiameter_real]
    have := exp_le_one_of (h.admissible.epsilon_nonneg a) hT
    rw [mul_comm]
    refine mul_le_mul_of_nonneg_left ?_ hs.le
    linarith
  have h1 : Real.pi / 6 * (N a / V * ((fromRecords pr k).m a * hsDiameter (fromRecords pr k) T a ^ 3))
      ≤ Spec.packingFraction (fromRecords pr k) T V N := by
    rw [← zeta3_eq_packing, zeta3_real, StateHD.new_density]
    refine mul_le_mul_of_nonneg_left ?_ (by positivity)
    refine Finset.single_le_sum (f := fun i => N i / V * ((fromRecords pr k).m i * hsDiameter (fromRecords pr k) T i ^ 3))
      (fun i _ => ?_) (Finset.mem_univ a)
    exact mul_nonneg (div_nonneg (h.admissible.moles_nonneg i) hV.le)
      (mul_pos (h.admissible.m_pos i) (pow_pos (h.admissible.diameter_pos i) _)).le
  have h2 : (0.88 * (fromRecords pr k).sigma a) ^ 3 ≤ hsDiameter (fromRecords pr k) T a ^ 3 :=
    pow_le_pow_left₀ (by positivity) hd 3
  have h3 : T⁻¹ * (fromRecords pr k).epsilon_k a * (fromRecords pr k).q2 a ≤ (fromRecords pr k).m a := by
    rw [mul_assoc, inv_mul_le_iff₀ hT]
    have := h.strength
    linarith
  have hpi := Real.pi_pos
  have e : Real.pi * (N a / V) * (fromRecords pr k).sigma a ^ 3 * (T⁻¹ * (fromRecords pr k).epsilon_k a * (fromRecords pr k).q2 a)
      ≤ Real.pi * (N a / V) * (fromRecords pr k).sigma a ^ 3 * (fromRecords pr k).m a :=
    mul_le_mul_of_nonneg_left h3 (by positivity)
  have e2 : Real.pi / 6 * (N a / V * ((fromRecords pr k).m a * (0.88 * (fromRecords pr k).sigma a) ^ 3))
      ≤ Real.pi / 6 * (N a / V * ((fromRecords pr k).m a * hsDiameter (fromRecords pr k) T a ^ 3)) := by gcongr
  have e3 : 0 ≤ Real.pi * (N a / V) * (fromRecords pr k).sigma a ^ 3 * (fromRecords pr k).m a := by positivity
  have e4 : Real.pi / 6 * (N a / V * ((fromRecords pr k).m a * (0.88 * (fromRecords pr k).sigma a) ^ 3))
      = 0.88 ^ 3 / 6 * (Real.pi * (N a / V) * (fromRecords pr k).sigma a ^ 3 * (fromRecords pr k).m a) := by ring
  rw [e4] at e2
  norm_num at e2
  linarith

/-- the terms of the expansion of the quadrupole energy and their difference -/
theorem _root_.PcSaft.Spec.WarmQuadrupole.phis (hN : 0 < N a) :
    (quadrupolePhis (fromRecords pr k) (StateHD.new T V N)).1 < 0
    ∧ (quadrupolePhis (fromRecords pr k) (StateHD.new T V N)).1 < (quadrupolePhis (fromRecords pr k) (StateHD.new T V N)).2 := by
  have hp := polarOk_fromRecords pr k fun i => (h.admissible.m_pos i).le
  have hT := h.admissible.temperature
  have hV := h.admissible.volume
  have hs := h.admissible.sigma_pos a
  have hpi := Real.pi_pos
  have hqa := (h.alone a).2 rfl
  have hq2 := q2_pos h.admissible hqa h.energy_pos
  have hea := h.energy_pos
  have y0 := (h.admissible.zeta_pos 3).le
  have y1 := h.packing
  have hw := h.strength_le
  rw [← zeta3_eq_packing] at y1 hw
  have hy : stateEta (fromRecords pr k) (StateHD.new T V N)
      = zeta (fromRecords pr k).m (StateHD.new T V N).partial_density (hsDiameter (fromRecords pr k) T) 3 := by
    rw [stateEta, packingFraction_eq_zeta]
    rfl
  simp only [quadrupolePhis, hy, quadrupolePhi2_real hp, quadrupolePhi3_real hp, c, ofF_real,
    pi_real, StateHD.new_temperature]
  set y := zeta (fromRecords pr k).m (StateHD.new T V N).partial_density (hsDiameter (fromRecords pr k) T) 3
  simp only [StateHD.new_density]
  have s2 : ∑ i, ∑ j, N i / V * (N j / V) * quadK2 (fromRecords pr k) T y i j
      = N a / V * (N a / V) * quadK2 (fromRecords pr k) T y a a := by
    rw [Finset.sum_eq_single a, Finset.sum_eq_single a]
    · intro j _ hj
      simp [quadK2, h.term_zero hj]
    · simp
    · intro i _ hi
      refine Finset.sum_eq_zero fun j _ => ?_
      simp [quadK2, h.term_zero hi]
    · simp
  have s3 : ∑ i, ∑ j, ∑ l, N i / V * (N j / V) * (N l / V) * quadK3 (fromRecords pr k) T y i j l
      = N a / V * (N a / V) * (N a / V) * quadK3 (fromRecords pr k) T y a a a := by
    rw [Finset.sum_eq_single a, Finset.sum_eq_single a, Finset.sum_eq_single a]
    · intro j _ hj
      simp [quadK3, h.term_zero hj]
    · simp
    · intro i _ hi
      refine Finset.sum_eq_zero fun j _ => ?_
      simp [quadK3, h.term_zero hi]
    · simp
    · intro i _ hi
      refine Finset.sum_eq_zero fun j _ => Finset.sum_eq_zero fun j _ => ?_
      simp [quadK3, h.term_zero hi]
    · simp
  rw [s2, s3]
  have hee : (fromRecords pr k).e_k_ij a a = (fromRecords pr k).epsilon_k a := by
    change Real.sqrt ((fromRecords pr k).epsilon_k a * (fromRecords pr k).epsilon_k a) = _
    exact Real.sqrt_mul_self hea.le
  have hss : (fromRecords pr k).sigma_ij a a = (fromRecords pr k).sigma a := hp.sigma_diag a
  obtain ⟨h1, h2⟩ := mdqPair_mem h.segments h.segments
  obtain ⟨u1, u2⟩ := meanSeg1_mem h1 h2
  have hmm : mdqTriplet (fromRecords pr k) a a a = mdqPair (fromRecords pr k) a a := by
    rw [mdqTriplet_self, mdqPair_self _ _ (hp.m_nonneg a)]
  have hpair : pairI (by decide) AQ BQ (fromRecords pr k) T y a a
      = tabForm (pairTab AQ BQ (T⁻¹ * (fromRecords pr k).epsilon_k a)) (meanSeg1 (mdqPair (fromRecords pr k) a a)) y := by
    unfold pairI
    rw [pairIntegral_tab (by linarith), hee]
  have htrip : tripI CQ (fromRecords pr k) y a a a
      = tabForm (tripTab CQ) (meanSeg1 (mdqPair (fromRecords pr k) a a)) y := by
    unfold tripI
    rw [hmm, tripletIntegral_tab (by linarith)]
  have hs1 : T⁻¹ * (fromRecords pr k).epsilon_k a ≤ 1 := by
    rw [inv_mul_le_iff₀ hT]
    linarith [h.energy_le]
  have hs0 : 0 ≤ T⁻¹ * (fromRecords pr k).epsilon_k a := by positivity
  have hP := quadPair u1 u2 y0 y1 hs0 (by linarith)
  have hQ := quadPole u1 u2 y0 y1 hs0 hs1 (by positivity) hw
  rw [← hpair] at hP hQ
  rw [← htrip] at hQ
  have ht : quadrupoleTerm (fromRecords pr k) T⁻¹ a
      = T⁻¹ * (fromRecords pr k).sigma a ^ 5 * (fromRecords pr k).epsilon_k a * (fromRecords pr k).q2 a := by
    simp only [quadrupoleTerm, c, ofF_real, powi_real]
  have htp : 0 < quadrupoleTerm (fromRecords pr k) T⁻¹ a := by rw [ht]; positivity
  have k2 : quadK2 (fromRecords pr k) T y a a = quadrupoleTerm (fromRecords pr k) T⁻¹ a ^ 2 / (fromRecords pr k).sigma a ^ 7
      * pairI (by decide) AQ BQ (fromRecords pr k) T y a a := by
    unfold quadK2
    rw [min_self]
    ring
  have k3 : Real.pi * (N a / V) * quadK3 (fromRecords pr k) T y a a a
      = quadrupoleTerm (fromRecords pr k) T⁻¹ a ^ 2 / (fromRecords pr k).sigma a ^ 7
      * (Real.pi * (N a / V) * (fromRecords pr k).sigma a ^ 3 * (T⁻¹ * (fromRecords pr k).epsilon_k a * (fromRecords pr k).q2 a)
      * tripI CQ (fromRecords pr k) y a a a) := by
    unfold quadK3
    rw [hss, ht]
    field_simp
  have hpos : 0 < quadK2 (fromRecords pr k) T y a a + Real.pi * (N a / V) * quadK3 (fromRecords pr k) T y a a a := by
    rw [k2, k3, ← mul_add]
    positivity
  have hk2 : 0 < quadK2 (fromRecords pr k) T y a a := by
    rw [k2]
    positivity
  have e5 : (0.5625 : ℝ) = 9 / 16 := by norm_num
  rw [e5]
  have hr : 0 < N a / V := by positivity
  constructor
  · refine mul_neg_of_neg_of_pos (neg_lt_zero.2 ?_) (by positivity)
    positivity
  · have := mul_pos (mul_pos (mul_pos hr hr) (by positivity : 0 < Real.pi * (9 / 16))) hpos
    nlinarith

/-- C95: the quadrupole term of a mixture with one quadrupolar component has no pole at warm states. -/
theorem C95_quadrupole_no_pole : FiniteAt (fromRecords pr k) T V N .quadrupole
    ∧ (0 < N a → Regular (fromRecords pr k) T V N .quadrupole) := by
  have hreg : 0 < N a → Regular (fromRecords pr k) T V N .quadrupole := fun hN => (h.phis hN).2.ne
  refine ⟨?_, hreg⟩
  rcases (h.admissible.moles_nonneg a).lt_or_eq with hN | hN
  · exact Or.inl (hreg hN)
  · refine Or.inr (quadrupolePhis_absent _ fun i hm => ?_)
    have : (fromRecords pr k).q2 i ≠ 0 := (mem_nonzeroComp _ i).1 hm
    rw [(h.alone i).1 fun e => this (q2_zero e), hN]

/-- C95: quadrupoles attract each other. -/
theorem C95_quadrupoles_attract : quadrupole (fromRecords pr k) (StateHD.new T V N) ≤ 0
    ∧ (quadrupole (fromRecords pr k) (StateHD.new T V N) < 0 ↔ 0 < N a) := by
  have e : quadrupole (fromRecords pr k) (StateHD.new T V N) = padeVolume
    (quadrupolePhis (fromRecords pr k) (StateHD.new T V N)).1 (quadrupolePhis (fromRecords pr k) (StateHD.new T V N)).2 V := rfl
  rcases (h.admissible.moles_nonneg a).lt_or_eq with hN | hN
  · obtain ⟨h1, h2⟩ := h.phis hN
    have : quadrupole (fromRecords pr k) (StateHD.new T V N) < 0 := by
      rw [e]
      simp only [padeVolume, isNan_real, Bool.false_eq_true, if_false]
      exact mul_neg_of_neg_of_pos (div_neg_of_pos_of_neg (mul_pos_of_neg_of_neg h1 h1) (by linarith)) h.admissible.volume
    exact ⟨this.le, fun _ => hN, fun _ => this⟩
  · have : quadrupole (fromRecords pr k) (StateHD.new T V N) = 0 := by
      rw [e, quadrupolePhis_absent]
      · simp [padeVolume, isNan_real]
      · intro i hm
        have : (fromRecords pr k).q2 i ≠ 0 := (mem_nonzeroComp _ i).1 hm
        rw [(h.alone i).1 fun e => this (q2_zero e), hN]
    rw [this, ← hN]
    exact ⟨le_rfl, iff_of_false (lt_irrefl _) (lt_irrefl _)⟩

/-- C95: the residual Helmholtz energy of warm mixtures with one quadrupolar component, without dipoles and
association, is a number at every composition. -/
theorem C95_quadrupolar_finite (o : PcSaftOptions ℝ) (la : LinAlg ℝ ℝ) (laX : LinAlg XReal XReal)
    (he : ∀ i, 0 < (pr i).model_record.epsilon_k) (hd : (fromRecords pr k).dipole_comp = [])
    (ha : (fromRecords pr k).assoc_comp = []) :
    ∃ A : ℝ, (Eos.withOptions (fromRecords pr k) o).residualHelmholtz la (StateHD.new T V N) = .ok A
      ∧ (Eos.withOptions (xParameters pr k) (o.map XReal.fin)).residualHelmholtz laX
        (StateHD.new (XReal.fin T) (XReal.fin V) (fun i => XReal.fin (N i))) = .ok (XReal.fin A) := by
  refine C21_residual o la laX h.admissible he (fun i => ?_) fun ct hct => ?_
  · by_contra hne
    have : i ∈ (fromRecords pr k).assoc_comp := (mem_assoc_iff pr k i).2 (by intro e; exact hne e.ge)
    simp [ha] at this
  · cases ct with
    | hardSphere => trivial
    | hardChain => trivial
    | dispersion => trivial
    | dipole => simp [buildContributions, PcSaftParameters.ndipole, PcSaftParameters.nassoc, hd, ha] at hct
    | quadrupole => exact (C95_quadrupole_no_pole h).1
    | dipoleQuadrupole v => simp [buildContributions, PcSaftParameters.ndipole, PcSaftParameters.nassoc, hd, ha] at hct
    | association => simp [buildContributions, PcSaftParameters.nassoc, ha] at hct
    | crossAssociation _ _ => simp [buildContributions, PcSaftParameters.nassoc, ha] at hct

end quadrupoles

/-! ## Cold dipoles -/

theorem pade_pole {x V : ℝ} (hx : x ≠ 0) (hV : 0 < V) : padeVolume (XReal.fin x) (XReal.fin x) (XReal.fin V) = XReal.pinf := by
  have h1 : XReal.fin x - XReal.fin x = XReal.fin 0 := by rw [← XReal.equations.sub, sub_self]
  have h2 : XReal.fin x * XReal.fin x = XReal.fin (x * x) := by rw [← XReal.equations.mul]
  have h3 : XReal.fin (x * x) / XReal.fin 0 = XReal.pinf := by
    change (if (0 : ℝ) = 0 then XReal.infSign (x * x) else _) = _
    simp [XReal.infSign, mul_self_pos.2 hx]
  have h4 : XReal.pinf * XReal.fin V = XReal.pinf := by
    change XReal.infSign (1 * V) = _
    simp [XReal.infSign, hV]
  unfold padeVolume
  dsimp only
  rw [h1, h2, h3, h4]
  rfl

/-- C95: where the two terms of the expansion agree without vanishing, the dipole energy is infinite. -/
theorem C95_pole_infinite (h : Admissible (fromRecords pr k) T V N) (he : ∀ i, 0 < (pr i).model_record.epsilon_k)
    (hk : ∀ i, 0 ≤ (fromRecords pr k).kappa_ab i)
    (h1 : (dipolePhis (fromRecords pr k) (StateHD.new T V N)).1 = (dipolePhis (fromRecords pr k) (StateHD.new T V N)).2)
    (h2 : (dipolePhis (fromRecords pr k) (StateHD.new T V N)).2 ≠ 0) :
    dipole (xParameters pr k) (StateHD.new (XReal.fin T) (XReal.fin V) (fun i => XReal.fin (N i))) = XReal.pinf := by
  have le := XReal.lawfulEmb
  have hp := xParameters_rel pr k h.m_pos h.sigma_pos he hk
  have hs := rep_state le (rhoX_const T) (rhoX_const V) (fun i => rhoX_const (N i)) h
  have heta := rep_eta le hp hs h.temperature.ne'
  have hsij : ∀ i j, (fromRecords pr k).sigma_ij i j ≠ 0 := fun i j => (sigma_ij_pos h i j).ne'
  have r2 := rhoX.mul (rep_dipolePhi2 le hp h.m_pos hsij hs.temperature h.temperature.ne' heta hs.partial_density)
    (rhoX.constOf (CR.pi le))
  have r3 := rhoX.mul (rep_dipolePhi3 le hp h.m_pos hsij hs.temperature h.temperature.ne' heta hs.partial_density)
    (rhoX.constOf (CR.piSq le))
  have rV := hs.volume
  obtain ⟨_, r2⟩ := r2
  obtain ⟨_, r3⟩ := r3
  obtain ⟨_, rV⟩ := rV
  unfold dipole
  dsimp only
  erw [r2, r3, rV]
  rw [← pade_pole h2 h.volume]
  congr 1
  exact congrArg XReal.fin h1

/-- a dipolar molecule of three halves of a segment -/
noncomputable def coldDipole (σ ε mu : ℝ) : Fin 1 → PureRecord ℝ := fun _ =>
  ⟨⟨some "cold dipole", ""⟩, 50, ⟨3 / 2, σ, ε, some mu, none, none, none, none, none, none, none, none⟩, none⟩

section cold
variable {σ ε mu : ℝ}

theorem coldDipole_admissible (hσ : 0 < σ) (hε : 0 < ε) {y : ℝ} (hy : 0 < y) (hy' : y < 1) :
    ∃ V, 0 < V ∧ Spec.packingFraction (fromRecords (coldDipole σ ε mu) 0) (ε / 3) V (fun _ => 1) = y
      ∧ Admissible (fromRecords (coldDipole σ ε mu) 0) (ε / 3) V (fun _ => 1) := by
  have hd : 0 < hsDiameter (fromRecords (coldDipole σ ε mu) 0) (ε / 3) 0 := by
    rw [hsDiameter_real]
    have := exp_le_one_of (e := (fromRecords (coldDipole σ ε mu) 0).epsilon_k 0) (T := ε / 3) hε.le (by positivity)
    exact mul_pos hσ (by linarith)
  have hpi := Real.pi_pos
  set d := hsDiameter (fromRecords (coldDipole σ ε mu) 0) (ε / 3) 0 with hdd
  have hV : 0 < Real.pi / 4 * d ^ 3 / y := by positivity
  have e : Spec.packingFraction (fromRecords (coldDipole σ ε mu) 0) (ε / 3) (Real.pi / 4 * d ^ 3 / y) (fun _ => 1) = y := by
    rw [← zeta3_eq_packing, zeta3_real, Fin.sum_univ_one, StateHD.new_density, ← hdd]
    have hm : (fromRecords (coldDipole σ ε mu) 0).m 0 = 3 / 2 := rfl
    rw [hm]
    field_simp
    norm_num
  refine ⟨_, hV, e, by positivity, hV, fun i => ?_, fun i => hσ, fun i => hε.le, fun _ => zero_le_one, ⟨0, one_ne_zero⟩, ?_⟩
  · change (0 : ℝ) < 3 / 2
    norm_num
  · rw [e]
    exact hy'

/-- the difference of the two terms of the expansion, up to a positive factor, at packing fraction `y` -/
noncomputable def coldGap (B y : ℝ) : ℝ :=
  tabForm (pairTab AD BD 3) (1 / 3) y + B * y * tabForm (tripTab fun i j => -CD i j) (1 / 3) y

theorem coldDipole_phis (hσ : 0 < σ) (hε : 0 < ε) (hmu : mu ≠ 0) : ∃ B > 0, ∀ V, 0 < V → ∃ C > 0, ∃ D > 0,
    (dipolePhis (fromRecords (coldDipole σ ε mu) 0) (StateHD.new (ε / 3) V fun _ => 1)).2
      = D * tabForm (tripTab fun i j => -CD i j) (1 / 3)
        (Spec.packingFraction (fromRecords (coldDipole σ ε mu) 0) (ε / 3) V (fun _ => 1))
    ∧ (dipolePhis (fromRecords (coldDipole σ ε mu) 0) (StateHD.new (ε / 3) V fun _ => 1)).1
      - (dipolePhis (fromRecords (coldDipole σ ε mu) 0) (StateHD.new (ε / 3) V fun _ => 1)).2
      = -C * coldGap B (Spec.packingFraction (fromRecords (coldDipole σ ε mu) 0) (ε / 3) V (fun _ => 1)) := by
  have hpi := Real.pi_pos
  obtain ⟨V0, -, -, hadm⟩ := coldDipole_admissible (mu := mu) hσ hε (y := 1 / 2) (by norm_num) (by norm_num)
  have hd := hadm.diameter_pos 0
  have hp := polarOk_fromRecords (coldDipole σ ε mu) 0 fun i => (hadm.m_pos i).le
  have hmu2 := mu2_pos hadm (i := 0) hmu hε
  set p := fromRecords (coldDipole σ ε mu) 0 with hpp
  set d := hsDiameter p (ε / 3) 0 with hdd
  have ht : dipoleTerm p (ε / 3)⁻¹ 0 = (ε / 3)⁻¹ * σ ^ 3 * ε * p.mu2 0 := by
    simp only [dipoleTerm, c, ofF_real, powi_real]
    rw [hp.sigma_diag]
    rfl
  have htp : 0 < dipoleTerm p (ε / 3)⁻¹ 0 := by rw [ht]; positivity
  set t := dipoleTerm p (ε / 3)⁻¹ 0 with htt
  refine ⟨8 * t / (3 / 2 * d ^ 3), by positivity, fun V hV => ?_⟩
  have hss : p.sigma_ij 0 0 = σ := hp.sigma_diag 0
  have hee : p.e_k_ij 0 0 = ε := Real.sqrt_mul_self hε.le
  have hm2 : mdqPair p 0 0 = 3 / 2 := by
    rw [mdqPair_self _ _ (hp.m_nonneg 0), min_real]
    have : p.m 0 = 3 / 2 := rfl
    rw [this]
    norm_num
  have hm3 : mdqTriplet p 0 0 0 = 3 / 2 := by
    rw [mdqTriplet_self, min_real]
    have : p.m 0 = 3 / 2 := rfl
    rw [this]
    norm_num
  have hu : meanSeg1 (3 / 2 : ℝ) = 1 / 3 := by
    unfold meanSeg1
    norm_num
  have hy : stateEta p (StateHD.new (ε / 3) V fun _ => 1) = Spec.packingFraction p (ε / 3) V (fun _ => 1) := by
    rw [stateEta, packingFraction_eq_zeta, ← zeta3_eq_packing]
    rfl
  have hyV : Spec.packingFraction p (ε / 3) V (fun _ => 1) = Real.pi / 4 * d ^ 3 / V := by
    rw [← zeta3_eq_packing, zeta3_real, Fin.sum_univ_one, StateHD.new_density, ← hdd]
    have : p.m 0 = 3 / 2 := rfl
    rw [this]
    ring
  have hpair : ∀ y, pairI (by decide) AD BD p (ε / 3) y 0 0 = tabForm (pairTab AD BD 3) (1 / 3) y := by
    intro y
    unfold pairI
    rw [hm2, pairIntegral_tab (by norm_num), hu, hee]
    congr 3
    field_simp
  have htrip : ∀ y, tripI CD p y 0 0 0 = -tabForm (tripTab fun i j => -CD i j) (1 / 3) y := by
    intro y
    unfold tripI
    rw [hm3, tripletIntegral_tab (by norm_num), hu, tabForm_neg, neg_neg]
  have hq : (PI_SQ_43 : ℝ) = 4 / 3 * Real.pi ^ 2 := by
    unfold PI_SQ_43
    simp only [pi_real]
    norm_num
    ring
  refine ⟨(1 / V) ^ 2 * t ^ 2 / σ ^ 3 * Real.pi, by positivity, (1 / V) ^ 3 * t ^ 3 / σ ^ 3 * (4 / 3 * Real.pi ^ 2),
    by positivity, ?_, ?_⟩ <;>
  · simp only [dipolePhis, hy, dipolePhi2_real hp, dipolePhi3_real hp, c, ofF_real, pi_real, StateHD.new_temperature,
      StateHD.new_density, Fin.sum_univ_one, dipK2, dipK3, hpair, htrip, hss, ← htt, hq, coldGap]
    try rw [hyV]
    field_simp
    try ring

theorem coldGap_continuous (B : ℝ) : Continuous (coldGap B) := by
  unfold coldGap tabForm
  fun_prop

theorem coldGap_zero (B : ℝ) : coldGap B 0 < 0 := by
  simp [coldGap, tabForm, Fin.sum_univ_succ, pairTab, AD, BD]
  norm_num

theorem coldGap_half {B : ℝ} (hB : 0 < B) : 0 < coldGap B (1 / 2) := by
  have h3 := dipoleTriplet (u := 1 / 3) (y := 1 / 2) (by norm_num) (by norm_num) (by norm_num) le_rfl
  have h2 : 0 < tabForm (pairTab AD BD 3) (1 / 3) (1 / 2) := by
    simp [tabForm, Fin.sum_univ_succ, pairTab, AD, BD]
    norm_num
  unfold coldGap
  positivity

/-- C95, the temperature bound is needed: at `T = ε / 3` a dilute gas of dipolar molecules of 3/2 segments has a
positive dipole energy. -/
theorem C95_cold_dipoles_repel (hσ : 0 < σ) (hε : 0 < ε) (hmu : mu ≠ 0) :
    ∃ V, Admissible (fromRecords (coldDipole σ ε mu) 0) (ε / 3) V (fun _ => 1)
      ∧ Spec.packingFraction (fromRecords (coldDipole σ ε mu) 0) (ε / 3) V (fun _ => 1) ≤ 1 / 2
      ∧ 0 < dipole (fromRecords (coldDipole σ ε mu) 0) (StateHD.new (ε / 3) V fun _ => 1) := by
  obtain ⟨B, hB, hphi⟩ := coldDipole_phis hσ hε hmu
  have hev : ∀ᶠ y in nhdsWithin 0 (Set.Ioi 0), coldGap B y < 0 :=
    ((coldGap_continuous B).continuousAt.eventually_lt continuousAt_const (coldGap_zero B)).filter_mono nhdsWithin_le_nhds
  obtain ⟨y, hy, hy0, hy1⟩ := (hev.and (Ioo_mem_nhdsGT (show (0 : ℝ) < 1 / 2 by norm_num))).exists
  obtain ⟨V, hV, hyV, hadm⟩ := coldDipole_admissible (mu := mu) hσ hε hy0 (by linarith)
  obtain ⟨C, hC, D, hD, e2, e1⟩ := hphi V hV
  refine ⟨V, hadm, by rw [hyV]; exact hy1.le, ?_⟩
  rw [hyV] at e1 e2
  have e : dipole (fromRecords (coldDipole σ ε mu) 0) (StateHD.new (ε / 3) V fun _ => 1) = padeVolume
    (dipolePhis (fromRecords (coldDipole σ ε mu) 0) (StateHD.new (ε / 3) V fun _ => 1)).1
    (dipolePhis (fromRecords (coldDipole σ ε mu) 0) (StateHD.new (ε / 3) V fun _ => 1)).2 V := rfl
  rw [e]
  simp only [padeVolume, isNan_real, Bool.false_eq_true, if_false]
  have h3 := dipoleTriplet (u := 1 / 3) (y := y) (by norm_num) (by norm_num) hy0.le hy1.le
  have hp3 := mul_pos hD h3
  rw [← e2] at hp3
  have hgap : 0 < -C * coldGap B y := mul_pos_of_neg_of_neg (neg_lt_zero.2 hC) hy
  rw [← e1] at hgap
  have hp2 : 0 < (dipolePhis (fromRecords (coldDipole σ ε mu) 0) (StateHD.new (ε / 3) V fun _ => 1)).1 := by linarith
  positivity

/-- C95, the temperature bound is needed: at `T = ε / 3` there is a density below the default maximum density at
which the dipole energy of molecules of 3/2 segments is infinite. -/
theorem C95_cold_dipoles_pole (hσ : 0 < σ) (hε : 0 < ε) (hmu : mu ≠ 0) :
    ∃ V, Admissible (fromRecords (coldDipole σ ε mu) 0) (ε / 3) V (fun _ => 1)
      ∧ Spec.packingFraction (fromRecords (coldDipole σ ε mu) 0) (ε / 3) V (fun _ => 1) < 1 / 2
      ∧ dipole (xParameters (coldDipole σ ε mu) 0)
          (StateHD.new (XReal.fin (ε / 3)) (XReal.fin V) fun _ => XReal.fin 1) = XReal.pinf := by
  obtain ⟨B, hB, hphi⟩ := coldDipole_phis hσ hε hmu
  obtain ⟨y, ⟨hy0, hy1⟩, hy⟩ := intermediate_value_Ioo (show (0 : ℝ) ≤ 1 / 2 by norm_num) (coldGap_continuous B).continuousOn
    (Set.mem_Ioo.2 ⟨coldGap_zero B, coldGap_half hB⟩)
  obtain ⟨V, hV, hyV, hadm⟩ := coldDipole_admissible (mu := mu) hσ hε hy0 (by linarith)
  obtain ⟨C, hC, D, hD, e2, e1⟩ := hphi V hV
  refine ⟨V, hadm, by rw [hyV]; exact hy1, ?_⟩
  rw [hyV] at e1 e2
  have h3 := dipoleTriplet (u := 1 / 3) (y := y) (by norm_num) (by norm_num) hy0.le hy1.le
  refine C95_pole_infinite hadm (fun _ => hε) (fun i => ?_) ?_ ?_
  · simp [fromRecords, coldDipole]
    norm_num
  · rw [hy, mul_zero] at e1
    linarith
  · rw [e2]
    positivity

end cold

/-! ## Non-vacuity -/

/-- a warm gas of dipolar molecules -/
theorem warmDipole_example : ∃ V, WarmDipoles (fromRecords (coldDipole 3 (600 : ℝ) 2) 0) (600 : ℝ) V (fun _ => 1) := by
  have hpi := Real.pi_lt_four
  have hd : ∀ i, hsDiameter (fromRecords (coldDipole 3 (600 : ℝ) 2) 0) (600 : ℝ) i ≤ 3 := by
    intro i
    rw [hsDiameter_real]
    have : (fromRecords (coldDipole 3 (600 : ℝ) 2) 0).sigma i = 3 := rfl
    rw [this]
    have := Real.exp_pos (-3 * (fromRecords (coldDipole 3 (600 : ℝ) 2) 0).epsilon_k i / 600)
    nlinarith
  have h0 : 0 ≤ hsDiameter (fromRecords (coldDipole 3 (600 : ℝ) 2) 0) (600 : ℝ) 0 := by
    rw [hsDiameter_real]
    have := exp_le_one_of (e := (fromRecords (coldDipole 3 (600 : ℝ) 2) 0).epsilon_k 0) (T := 600)
      (show (0 : ℝ) ≤ 600 by norm_num) (by norm_num)
    exact mul_nonneg (show (0 : ℝ) ≤ 3 by norm_num) (by linarith)
  have hpack : Spec.packingFraction (fromRecords (coldDipole 3 (600 : ℝ) 2) 0) (600 : ℝ) 1000 (fun _ => 1) ≤ 1 / 2 := by
    rw [← zeta3_eq_packing, zeta3_real, Fin.sum_univ_one, StateHD.new_density]
    have hm : (fromRecords (coldDipole 3 (600 : ℝ) 2) 0).m 0 = 3 / 2 := rfl
    rw [hm]
    have := pow_le_pow_left₀ h0 (hd 0) 3
    have hp := Real.pi_pos
    nlinarith
  refine ⟨1000, ⟨by norm_num, by norm_num, fun i => ?_, fun i => ?_, fun i => ?_, fun i => zero_le_one, ⟨0, one_ne_zero⟩,
    by linarith⟩, hpack, fun i _ => ?_, fun i _ => ?_, fun i _ => ?_⟩ <;> norm_num [fromRecords, coldDipole]

/-- C95 for it -/
example : ∃ V, dipole (fromRecords (coldDipole 3 (600 : ℝ) 2) 0) (StateHD.new (600 : ℝ) V fun _ => 1) < 0 := by
  obtain ⟨V, h⟩ := warmDipole_example
  exact ⟨V, (C95_dipoles_attract h).2.2 ⟨0, by norm_num [fromRecords, coldDipole], one_pos⟩⟩

/-- a quadrupolar molecule diluted in a plain one -/
noncomputable def quadrupoleMixture (i : Fin 2) : PureRecord ℝ :=
  if i = 0 then pureOf (plainRecord 1 3 100)
  else ⟨⟨some "quadrupole", ""⟩, 44, ⟨3 / 2, 3, 100, none, some 1, none, none, none, none, none, none, none⟩, none⟩

theorem quadrupoleMixture_warm : WarmQuadrupole (fromRecords quadrupoleMixture 0) (300 : ℝ) 1000 (fun _ => 1) 1 := by
  have hpi := Real.pi_lt_four
  have hs : ∀ i, (fromRecords quadrupoleMixture 0).sigma i = 3 := by
    intro i
    fin_cases i <;> norm_num [fromRecords, quadrupoleMixture, pureOf, plainRecord]
  have he : ∀ i, (fromRecords quadrupoleMixture 0).epsilon_k i = 100 := by
    intro i
    fin_cases i <;> norm_num [fromRecords, quadrupoleMixture, pureOf, plainRecord]
  have hd : ∀ i, 0 ≤ hsDiameter (fromRecords quadrupoleMixture 0) (300 : ℝ) i
      ∧ hsDiameter (fromRecords quadrupoleMixture 0) (300 : ℝ) i ≤ 3 := by
    intro i
    rw [hsDiameter_real, hs]
    have := Real.exp_pos (-3 * (fromRecords quadrupoleMixture 0).epsilon_k i / 300)
    have := exp_le_one_of (e := (fromRecords quadrupoleMixture 0).epsilon_k i) (T := 300)
      (by rw [he]; norm_num) (by norm_num)
    constructor <;> nlinarith
  have hpack : Spec.packingFraction (fromRecords quadrupoleMixture 0) (300 : ℝ) 1000 (fun _ => 1) ≤ 1 / 2 := by
    rw [← zeta3_eq_packing, zeta3_real, Fin.sum_univ_two, StateHD.new_density]
    have hm0 : (fromRecords quadrupoleMixture 0).m 0 = 1 := by norm_num [fromRecords, quadrupoleMixture, pureOf, plainRecord]
    have hm1 : (fromRecords quadrupoleMixture 0).m 1 = 3 / 2 := by norm_num [fromRecords, quadrupoleMixture]
    rw [hm0, hm1]
    have h1 := pow_le_pow_left₀ (hd 0).1 (hd 0).2 3
    have h2 := pow_le_pow_left₀ (hd 1).1 (hd 1).2 3
    have hp := Real.pi_pos
    nlinarith
  refine ⟨⟨by norm_num, by norm_num, fun i => ?_, fun i => ?_, fun i => ?_, fun i => zero_le_one, ⟨0, one_ne_zero⟩,
    by linarith⟩, hpack, fun i => ?_, ?_, ?_, ?_, ?_⟩
  · fin_cases i <;> norm_num [fromRecords, quadrupoleMixture, pureOf, plainRecord]
  · rw [hs]; norm_num
  · rw [he]; norm_num
  · fin_cases i <;> norm_num [fromRecords, quadrupoleMixture, pureOf, plainRecord]
  · norm_num [fromRecords, quadrupoleMixture]
  · rw [he]; norm_num
  · rw [he]; norm_num
  · norm_num [fromRecords, quadrupoleMixture, jouleKelvinKB]

/-- C95 for it -/
example : quadrupole (fromRecords quadrupoleMixture 0) (StateHD.new (300 : ℝ) 1000 fun _ => 1) < 0 :=
  (C95_quadrupoles_attract quadrupoleMixture_warm).2.2 one_pos

end PcSaft.Props
