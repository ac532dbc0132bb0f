import Verif.Lemmas.Cold
import Verif.Lemmas.Coexistence

/-!
# Property C92: fluids condense

An isotherm on which the pressure rises with the volume somewhere has two volumes with equal pressure and equal free
enthalpy, more stable than all others. Below some temperature the isotherms of attracting molecules are of this kind.
-/

open Filter Topology

namespace PcSaft
variable {n : ℕ}

/-- free enthalpy (divided by `k_B T`, without the terms that depend on temperature and amounts only) from the value `a`
of the residual Helmholtz energy -/
noncomputable def Spec.freeEnthalpy (V : ℝ) (N : Fin n → ℝ) (a P : ℝ) : ℝ := a - (∑ i, N i) * Real.log V + P * V

/-- `V` is a state of pressure `P`, and no other volume has a lower free enthalpy at that pressure -/
def Spec.IsStable (p : PcSaftParameters n ℝ) (o : PcSaftOptions ℝ) (la : LinAlg ℝ ℝ) (laD : LinAlg ℝ (Dual ℝ)) (T V : ℝ)
    (N : Fin n → ℝ) (P : ℝ) : Prop :=
  Spec.Admissible p T V N ∧ Spec.IsPressure p o laD T V N P
    ∧ ∃ a, (Eos.withOptions p o).residualHelmholtz la (StateHD.new T V N) = .ok a
      ∧ ∀ W b, Spec.Admissible p T W N → (Eos.withOptions p o).residualHelmholtz la (StateHD.new T W N) = .ok b →
        Spec.freeEnthalpy V N a P ≤ Spec.freeEnthalpy W N b P

/-- chemical potential (divided by `k_B T`, without the terms that depend on temperature only) from an evaluation with
dual numbers -/
def Spec.IsPotential (p : PcSaftParameters n ℝ) (o : PcSaftOptions ℝ) (laD : LinAlg ℝ (Dual ℝ)) (T V : ℝ) (N : Fin n → ℝ)
    (j : Fin n) (μ : ℝ) : Prop :=
  ∃ d : Dual ℝ, (Eos.withOptions p o).residualHelmholtz laD
      (StateHD.new ⟨T, 0⟩ ⟨V, 0⟩ (fun i => ⟨N i, if i = j then 1 else 0⟩)) = .ok d
    ∧ μ = d.eps + Real.log (N j / V)

namespace Props
open PcSaft Spec

section general
variable {pr : Fin n → PureRecord ℝ} {k : Fin n → Fin n → ℝ} {T V₁ : ℝ} {N : Fin n → ℝ} {o : PcSaftOptions ℝ}
  (h : Admissible (fromRecords pr k) T V₁ N) (ha : (fromRecords pr k).nassoc = 0)
  (hr0 : ∀ ct ∈ buildContributions (fromRecords pr k) o, DiluteRegular (fromRecords pr k) T N ct)
  (hr1 : ∀ V, closeVolume (fromRecords pr k) T N ≤ V → ∀ ct ∈ buildContributions (fromRecords pr k) o,
    PolarRegular (fromRecords pr k) T V N ct)

/-- energy with the volume dependent part of the ideal gas -/
noncomputable def totalEnergy (o : PcSaftOptions ℝ) (p : PcSaftParameters n ℝ) (T : ℝ) (N : Fin n → ℝ) (V : ℝ) : ℝ :=
  residualSum o.dq_variant p (StateHD.new T V N) - (∑ i, N i) * Real.log V

theorem regular_of_polar (ha : (fromRecords pr k).nassoc = 0) {V : ℝ}
    (hr : ∀ ct ∈ buildContributions (fromRecords pr k) o, PolarRegular (fromRecords pr k) T V N ct) :
    ∀ ct ∈ buildContributions (fromRecords pr k) o, Regular (fromRecords pr k) T V N ct := fun ct hct => by
  have h1 := hr ct hct
  cases ct with
  | hardSphere => trivial
  | hardChain => trivial
  | dispersion => trivial
  | dipole => exact h1
  | quadrupole => exact h1
  | dipoleQuadrupole v => exact h1
  | association => simp [buildContributions, ha] at hct
  | crossAssociation a b => simp [buildContributions, ha] at hct

include h ha hr1 in
theorem totalEnergy_deriv (laD : LinAlg ℝ (Dual ℝ)) {V : ℝ} (hV : closeVolume (fromRecords pr k) T N < V) :
    HasDerivAt (totalEnergy o (fromRecords pr k) T N) (deriv (totalEnergy o (fromRecords pr k) T N) V) V
      ∧ ∀ P, IsPressure (fromRecords pr k) o laD T V N P ↔ P = -deriv (totalEnergy o (fromRecords pr k) T N) V := by
  have hA : Admissible (fromRecords pr k) T V N := admissible_volume h (by rwa [closeVolume_eq] at hV)
  have hV0 := hA.volume
  obtain ⟨h1, h2⟩ := residual_volume_derivative (by omega) hA (regular_of_polar ha (hr1 V hV.le)) laD
  have h3 := h1.differentiableAt.hasDerivAt.sub ((Real.hasDerivAt_log hV0.ne').const_mul (∑ i, N i))
  have h4 : HasDerivAt (totalEnergy o (fromRecords pr k) T N)
      (deriv (fun W => residualSum o.dq_variant (fromRecords pr k) (StateHD.new T W N)) V - (∑ i, N i) * V⁻¹) V := h3
  refine ⟨h4.differentiableAt.hasDerivAt, fun P => ?_⟩
  rw [h4.deriv]
  unfold IsPressure
  rw [h2]
  constructor
  · rintro ⟨d, hd, rfl⟩
    rw [← Except.ok.inj hd]
    change _ - deriv _ V = _
    ring
  · rintro rfl
    refine ⟨_, rfl, ?_⟩
    change _ = _ - deriv _ V
    ring

include h ha hr1 in
theorem totalEnergy_dense : Tendsto (totalEnergy o (fromRecords pr k) T N) (𝓝[>] (closeVolume (fromRecords pr k) T N)) atTop := by
  have h3 : 0 < closeVolume (fromRecords pr k) T N := by rw [closeVolume_eq]; exact zeta_pos_moles h 3
  have hsites : ProperSites (fromRecords pr k) := fun i hi => by
    rw [List.length_eq_zero_iff.1 ha] at hi
    exact absurd hi List.not_mem_nil
  have h1 := residual_dense h hsites (hr1 _ le_rfl)
  have h2 : Tendsto (fun V => -((∑ i, N i) * Real.log V)) (𝓝[>] (closeVolume (fromRecords pr k) T N))
      (𝓝 (-((∑ i, N i) * Real.log (closeVolume (fromRecords pr k) T N)))) :=
    (((Real.continuousAt_log h3.ne').tendsto.mono_left nhdsWithin_le_nhds).const_mul _).neg
  refine (h1.atTop_add h2).congr fun V => ?_
  unfold totalEnergy
  ring

include h ha hr0 in
theorem residual_vanishes : Tendsto (fun V => residualSum o.dq_variant (fromRecords pr k) (StateHD.new T V N)) atTop (𝓝 0) := by
  refine Metric.tendsto_atTop.2 fun ε hε => ?_
  obtain ⟨V₀, hV₀⟩ := C22_limit ⟨fun _ _ _ => none, fun _ _ _ => none, 0⟩ h o hr0 (half_pos hε)
  refine ⟨V₀, fun V hV => ?_⟩
  obtain ⟨a, ha1, ha2⟩ := hV₀ V hV
  rw [residual_of_nassoc_le_one _ _ o _ (by omega)] at ha1
  rw [Real.dist_eq, sub_zero, Except.ok.inj ha1]
  linarith

include h ha hr0 in
theorem totalEnergy_dilute : Tendsto (totalEnergy o (fromRecords pr k) T N) atTop atBot
    ∧ ∀ a, 0 < a → Tendsto (fun V => totalEnergy o (fromRecords pr k) T N V + a * V) atTop atTop := by
  have h1 := residual_vanishes h ha hr0
  have hN := h.total_pos
  constructor
  · have h2 : Tendsto (fun V => -((∑ i, N i) * Real.log V)) atTop atBot :=
      tendsto_neg_atTop_atBot.comp (Real.tendsto_log_atTop.const_mul_atTop hN)
    exact (h1.add_atBot h2).congr fun V => by unfold totalEnergy; ring
  · intro a ha
    have h2 : Tendsto (fun V : ℝ => Real.log V / V) atTop (𝓝 0) :=
      Real.isLittleO_log_id_atTop.tendsto_div_nhds_zero
    have h3 : Tendsto (fun V : ℝ => a - (∑ i, N i) * (Real.log V / V)) atTop (𝓝 a) := by
      simpa using (h2.const_mul (∑ i, N i)).const_sub a
    have h4 := h3.pos_mul_atTop ha tendsto_id
    refine (h1.add_atTop h4).congr' ?_
    filter_upwards [eventually_gt_atTop 0] with V hV
    unfold totalEnergy
    simp only [id]
    field_simp
    ring

include h ha hr1 in
theorem stable_of_lowest (la : LinAlg ℝ ℝ) (laD : LinAlg ℝ (Dual ℝ)) {P V : ℝ}
    (hl : LowestAt (totalEnergy o (fromRecords pr k) T N) (closeVolume (fromRecords pr k) T N) P V) :
    IsStable (fromRecords pr k) o la laD T V N P := by
  obtain ⟨h1, h2⟩ := totalEnergy_deriv h ha hr1 laD hl.1
  refine ⟨admissible_volume h (by rw [← closeVolume_eq]; exact hl.1), (h2 P).2 ?_, _,
    residual_of_nassoc_le_one la _ o _ (by omega), fun W b hW hb => ?_⟩
  · rw [hl.deriv h1]
    ring
  · rw [residual_of_nassoc_le_one _ _ o _ (by omega)] at hb
    rw [← Except.ok.inj hb]
    exact hl.2 W (closeVolume_lt hW)

include h ha hr0 hr1 in
/-- C92: if the pressure of an isotherm rises with the volume somewhere, then there are two volumes with the same
positive pressure and the same free enthalpy, and no volume is more stable than these. -/
theorem C92_coexistence (la : LinAlg ℝ ℝ) (laD : LinAlg ℝ (Dual ℝ)) {U W PU PW : ℝ}
    (hU : Admissible (fromRecords pr k) T U N) (hUW : U < W) (hPU : IsPressure (fromRecords pr k) o laD T U N PU)
    (hPW : IsPressure (fromRecords pr k) o laD T W N PW) (hrise : PU < PW) :
    ∃ P Vl Vv, 0 < P ∧ Vl < Vv ∧ IsStable (fromRecords pr k) o la laD T Vl N P
      ∧ IsStable (fromRecords pr k) o la laD T Vv N P := by
  have hlt := closeVolume_lt hU
  obtain ⟨h1, h2⟩ := totalEnergy_dilute h ha hr0
  rw [((totalEnergy_deriv h ha hr1 laD hlt).2 PU).1 hPU, ((totalEnergy_deriv h ha hr1 laD (hlt.trans hUW)).2 PW).1 hPW] at hrise
  obtain ⟨P, hP, Vl, Vv, a1, a2, a3⟩ := coexistence_of_rise (fun V hV => (totalEnergy_deriv h ha hr1 laD hV).1)
    (totalEnergy_dense h ha hr1) h2 h1 (by rw [closeVolume_eq]; exact (zeta_pos_moles h 3).le) hlt hUW (by linarith)
  exact ⟨P, Vl, Vv, hP, a1, stable_of_lowest h ha hr1 la laD a2, stable_of_lowest h ha hr1 la laD a3⟩

end general

/-! ## Chemical potentials -/

section potential
variable {pr : Fin 1 → PureRecord ℝ} {k : Fin 1 → Fin 1 → ℝ} {T : ℝ} {N : Fin 1 → ℝ} {o : PcSaftOptions ℝ}

/-- the free enthalpy of a pure substance is its amount times its chemical potential -/
theorem C92_potential (la : LinAlg ℝ ℝ) (laD : LinAlg ℝ (Dual ℝ)) {V P : ℝ} (h : Admissible (fromRecords pr k) T V N)
    (hr : ∀ ct ∈ buildContributions (fromRecords pr k) o, Regular (fromRecords pr k) T V N ct)
    (hP : IsPressure (fromRecords pr k) o laD T V N P) :
    ∃ a μ, (Eos.withOptions (fromRecords pr k) o).residualHelmholtz la (StateHD.new T V N) = .ok a
      ∧ IsPotential (fromRecords pr k) o laD T V N 0 μ
      ∧ freeEnthalpy V N a P = N 0 * (μ + 1 - Real.log (N 0)) := by
  obtain ⟨a, dV, dN, h1, h2, h3, h4⟩ := C70_euler la laD (o := o) h hr
  obtain ⟨d, hd, rfl⟩ := hP
  have hN : 0 < N 0 := by
    have := h.total_pos
    simpa using this
  have hV := h.volume
  have e : d = dV := by
    have : seed1 T 0 V 1 N 0 = StateHD.new (⟨T, 0⟩ : Dual ℝ) ⟨V, 1⟩ (fun i => ⟨N i, 0⟩) := rfl
    rw [this, hd] at h2
    exact Except.ok.inj h2
  refine ⟨a, (dN 0).eps + Real.log (N 0 / V), h1, ⟨dN 0, h3 0, rfl⟩, ?_⟩
  rw [h4, e, freeEnthalpy, Real.log_div hN.ne' hV.ne']
  simp only [Fin.sum_univ_one]
  field_simp
  ring

/-- C92: at two volumes of a pure substance with equal free enthalpies the chemical potentials are equal. -/
theorem C92_equal_potentials (la : LinAlg ℝ ℝ) (laD : LinAlg ℝ (Dual ℝ)) {V W P : ℝ}
    (hr : ∀ V, Admissible (fromRecords pr k) T V N → ∀ ct ∈ buildContributions (fromRecords pr k) o,
      Regular (fromRecords pr k) T V N ct)
    (hV : IsStable (fromRecords pr k) o la laD T V N P) (hW : IsStable (fromRecords pr k) o la laD T W N P) :
    ∃ μ, IsPotential (fromRecords pr k) o laD T V N 0 μ ∧ IsPotential (fromRecords pr k) o laD T W N 0 μ := by
  obtain ⟨v1, v2, a, v3, v4⟩ := hV
  obtain ⟨w1, w2, b, w3, w4⟩ := hW
  obtain ⟨a', μ, e1, e2, e3⟩ := C92_potential la laD v1 (hr V v1) v2
  obtain ⟨b', ν, g1, g2, g3⟩ := C92_potential la laD w1 (hr W w1) w2
  rw [v3] at e1
  rw [w3] at g1
  obtain rfl := Except.ok.inj e1
  obtain rfl := Except.ok.inj g1
  have heq := le_antisymm (v4 W b w1 w3) (w4 V a v1 v3)
  have hN : 0 < N 0 := by
    have := v1.total_pos
    simpa using this
  rw [e3, g3] at heq
  have := mul_left_cancel₀ hN.ne' heq
  exact ⟨μ, e2, by rwa [show μ = ν by linarith]⟩

end potential

/-! ## Low temperatures -/

section cold
variable {pr : Fin n → PureRecord ℝ} {k : Fin n → Fin n → ℝ} {T V₁ : ℝ} {N : Fin n → ℝ} {o : PcSaftOptions ℝ}

/-- molecules without moments and sites, some of which attract each other -/
structure _root_.PcSaft.Spec.Attracting (p : PcSaftParameters n ℝ) (N : Fin n → ℝ) : Prop where
  dipole : p.ndipole = 0
  quadrupole : p.nquadpole = 0
  association : p.nassoc = 0
  segments : 4 / 5 * ∑ i, N i ≤ ∑ i, N i * p.m i
  pair : ∃ i j, 0 < N i ∧ 0 < N j ∧ p.epsilon_k_ij i j ≠ 0

theorem pair_sigma_pos (h : Admissible (fromRecords pr k) T V₁ N) (i j : Fin n) : 0 < (fromRecords pr k).sigma_ij i j := by
  have h1 := h.sigma_pos i
  have h2 := h.sigma_pos j
  have e : (fromRecords pr k).sigma_ij i j = 0.5 * ((fromRecords pr k).sigma i + (fromRecords pr k).sigma j) := rfl
  rw [e]
  positivity

theorem _root_.PcSaft.Spec.Attracting.rho2_pos (hat : Attracting (fromRecords pr k) N)
    (h : Admissible (fromRecords pr k) T V₁ N) : 0 < rho2mix (fromRecords pr k) 1 N := by
  obtain ⟨i, j, hi, hj, he⟩ := hat.pair
  rw [rho2mix_real]
  have hterm : ∀ i j, 0 ≤ N i * N j * ((fromRecords pr k).m i * (fromRecords pr k).m j
      * ((fromRecords pr k).epsilon_k_ij i j / 1) ^ 2 * (fromRecords pr k).sigma_ij i j ^ 3) := fun i j => by
    have := h.moles_nonneg i
    have := h.moles_nonneg j
    have := h.m_pos i
    have := h.m_pos j
    have := pair_sigma_pos h i j
    positivity
  refine Finset.sum_pos' (fun i _ => Finset.sum_nonneg fun j _ => hterm i j) ⟨i, Finset.mem_univ i,
    Finset.sum_pos' (fun j _ => hterm i j) ⟨j, Finset.mem_univ j, ?_⟩⟩
  have := h.m_pos i
  have := h.m_pos j
  have := pair_sigma_pos h i j
  rw [div_one]
  positivity

theorem _root_.PcSaft.Spec.Attracting.residual (hat : Attracting (fromRecords pr k) N) (T V : ℝ) (N' : Fin n → ℝ) :
    residualSum o.dq_variant (fromRecords pr k) (StateHD.new T V N')
      = hardSphere (fromRecords pr k) (StateHD.new T V N') + hardChain (fromRecords pr k) (StateHD.new T V N')
        + dispersion (fromRecords pr k) (StateHD.new T V N') := by
  have ha : assocEnergy (fromRecords pr k) (StateHD.new T V N') = 0 := by
    unfold assocEnergy
    rw [List.length_eq_zero_iff.1 hat.association]
  rw [residualSum, ha, dipole_eq_zero hat.dipole, quadrupole_eq_zero hat.quadrupole,
    dipoleQuadrupole_eq_zero (Or.inl hat.dipole)]
  ring

theorem _root_.PcSaft.Spec.Attracting.regular (hat : Attracting (fromRecords pr k) N) (T V : ℝ) (N' : Fin n → ℝ) :
    ∀ ct ∈ buildContributions (fromRecords pr k) o, PolarRegular (fromRecords pr k) T V N' ct
      ∧ Regular (fromRecords pr k) T V N' ct ∧ DiluteRegular (fromRecords pr k) T N' ct := by
  intro ct hct
  simp [buildContributions, hat.dipole, hat.quadrupole, hat.association] at hct
  rcases hct with rfl | rfl | rfl <;> exact ⟨trivial, trivial, trivial⟩

/-- C92: below some temperature the pressure of attracting molecules rises with the volume somewhere. -/
theorem C92_loop (hat : Attracting (fromRecords pr k) N) (h : Admissible (fromRecords pr k) T V₁ N)
    (laD : LinAlg ℝ (Dual ℝ)) :
    ∃ T₀, 0 < T₀ ∧ ∀ t, 0 < t → t < T₀ → ∃ U W PU PW, Admissible (fromRecords pr k) t U N ∧ U < W
      ∧ IsPressure (fromRecords pr k) o laD t U N PU ∧ IsPressure (fromRecords pr k) o laD t W N PW ∧ PU < PW := by
  set p := fromRecords pr k with hp
  have hZ : 0 < coldVolume p N := cold_zeta_pos h 3
  set A := 2 * coldVolume p N with hA
  have hpos : 0 < coldEnergy p N A := coldEnergy_pos h hat.segments (hat.rho2_pos h) le_rfl
  -- a volume at which the attraction is less than half as strong
  obtain ⟨B, hB1, hB2⟩ := (((coldEnergy_dilute h).eventually (gt_mem_nhds (half_pos hpos))).and
    (eventually_gt_atTop A)).exists
  -- a volume so large that the chord from `A` is nearly horizontal
  obtain ⟨C, hC⟩ : ∃ C, C = 2 * B := ⟨_, rfl⟩
  have hA0 : 0 < A := by rw [hA]; linarith
  have hAc : coldVolume p N < A := by rw [hA]; linarith
  have hBc := hAc.trans hB2
  have hBC : B < C := by rw [hC]; linarith [hA0.trans hB2]
  have hCc := hBc.trans hBC
  have hCpos : 0 < coldEnergy p N C := coldEnergy_pos h hat.segments (hat.rho2_pos h) (by rw [← hA]; exact (hB2.trans hBC).le)
  have hlim : ∀ W, coldVolume p N < W → Tendsto (fun t => t ^ 2 * totalEnergy o p t N W) (𝓝[>] 0) (𝓝 (-coldEnergy p N W)) :=
    fun W hW => by
      have h1 := plain_cold h hW
      have h2 := tendsto_sq_zero.mul_const ((∑ i, N i) * Real.log W)
      have h3 := h1.sub h2
      rw [zero_mul, sub_zero] at h3
      refine h3.congr fun t => ?_
      unfold totalEnergy
      rw [hat.residual]
      ring
  have hch : Tendsto (fun t => (C - B) * (t ^ 2 * totalEnergy o p t N A) + (B - A) * (t ^ 2 * totalEnergy o p t N C)
      - (C - A) * (t ^ 2 * totalEnergy o p t N B)) (𝓝[>] 0)
      (𝓝 ((C - B) * (-coldEnergy p N A) + (B - A) * (-coldEnergy p N C) - (C - A) * (-coldEnergy p N B))) :=
    (((hlim A hAc).const_mul _).add ((hlim C hCc).const_mul _)).sub ((hlim B hBc).const_mul _)
  have hneg : (C - B) * (-coldEnergy p N A) + (B - A) * (-coldEnergy p N C) - (C - A) * (-coldEnergy p N B) < 0 := by
    have e1 : C - B = B := by rw [hC]; ring
    have e2 : C - A < 2 * B := by rw [hC]; linarith
    rw [e1]
    have h1 : (C - A) * coldEnergy p N B ≤ (C - A) * (coldEnergy p N A / 2) :=
      mul_le_mul_of_nonneg_left hB1.le (by linarith)
    have h2 : (C - A) * (coldEnergy p N A / 2) < 2 * B * (coldEnergy p N A / 2) :=
      mul_lt_mul_of_pos_right e2 (by linarith)
    have h3 : 0 ≤ (B - A) * coldEnergy p N C := mul_nonneg (by linarith) hCpos.le
    linarith
  obtain ⟨T₀, hT₀, hsub⟩ := mem_nhdsGT_iff_exists_Ioo_subset.1 (hch.eventually (gt_mem_nhds hneg))
  refine ⟨T₀, hT₀, fun t ht htT => ?_⟩
  have hneg' : (C - B) * (t ^ 2 * totalEnergy o p t N A) + (B - A) * (t ^ 2 * totalEnergy o p t N C)
      - (C - A) * (t ^ 2 * totalEnergy o p t N B) < 0 := hsub ⟨ht, htT⟩
  have hAt : Admissible p t A N := admissible_cold h ht hAc
  have hr1 : ∀ V, closeVolume p t N ≤ V → ∀ ct ∈ buildContributions p o, PolarRegular p t V N ct :=
    fun V _ ct hct => (hat.regular t V N ct hct).1
  obtain ⟨U, W, u1, u2, u3⟩ := rise_of_chord (f := totalEnergy o p t N)
    (fun V hV => (totalEnergy_deriv hAt hat.association hr1 laD hV).1) (closeVolume_lt hAt) hB2 hBC (by
      have ht2 : 0 < t ^ 2 := by positivity
      have e : (C - B) * (t ^ 2 * totalEnergy o p t N A) + (B - A) * (t ^ 2 * totalEnergy o p t N C)
          - (C - A) * (t ^ 2 * totalEnergy o p t N B)
          = t ^ 2 * ((C - B) * totalEnergy o p t N A + (B - A) * totalEnergy o p t N C - (C - A) * totalEnergy o p t N B) := by
        ring
      rw [e] at hneg'
      have := neg_of_mul_neg_right hneg' ht2.le
      linarith)
  exact ⟨U, W, _, _, admissible_volume hAt (by rw [← closeVolume_eq]; exact u1), u2,
    ((totalEnergy_deriv hAt hat.association hr1 laD u1).2 _).2 rfl,
    ((totalEnergy_deriv hAt hat.association hr1 laD (u1.trans u2)).2 _).2 rfl, by linarith⟩

/-- C92: below some temperature a liquid and a vapour with the same pressure and the same free enthalpy exist, and no
other volume is more stable. -/
theorem C92_condensation (hat : Attracting (fromRecords pr k) N) (h : Admissible (fromRecords pr k) T V₁ N)
    (la : LinAlg ℝ ℝ) (laD : LinAlg ℝ (Dual ℝ)) :
    ∃ T₀, 0 < T₀ ∧ ∀ t, 0 < t → t < T₀ → ∃ P Vl Vv, 0 < P ∧ Vl < Vv
      ∧ IsStable (fromRecords pr k) o la laD t Vl N P ∧ IsStable (fromRecords pr k) o la laD t Vv N P := by
  obtain ⟨T₀, hT₀, hloop⟩ := C92_loop (o := o) hat h laD
  refine ⟨T₀, hT₀, fun t ht htT => ?_⟩
  obtain ⟨U, W, PU, PW, h1, h2, h3, h4, h5⟩ := hloop t ht htT
  exact C92_coexistence h1 hat.association (fun ct hct => (hat.regular t U N ct hct).2.2)
    (fun V _ ct hct => (hat.regular t V N ct hct).1) la laD h1 h2 h3 h4 h5

end cold

/-- C92: a pure substance of attracting molecules has a vapour-liquid equilibrium at every temperature below some
temperature: two volumes with the same pressure and the same chemical potential. -/
theorem C92_phase_equilibrium {pr : Fin 1 → PureRecord ℝ} {k : Fin 1 → Fin 1 → ℝ} {T V₁ : ℝ} {N : Fin 1 → ℝ}
    {o : PcSaftOptions ℝ} (hat : Attracting (fromRecords pr k) N) (h : Admissible (fromRecords pr k) T V₁ N)
    (laD : LinAlg ℝ (Dual ℝ)) :
    ∃ T₀, 0 < T₀ ∧ ∀ t, 0 < t → t < T₀ → ∃ P μ Vl Vv, 0 < P ∧ Vl < Vv
      ∧ Admissible (fromRecords pr k) t Vl N ∧ Admissible (fromRecords pr k) t Vv N
      ∧ IsPressure (fromRecords pr k) o laD t Vl N P ∧ IsPressure (fromRecords pr k) o laD t Vv N P
      ∧ IsPotential (fromRecords pr k) o laD t Vl N 0 μ ∧ IsPotential (fromRecords pr k) o laD t Vv N 0 μ := by
  obtain ⟨T₀, hT₀, hc⟩ := C92_condensation (o := o) hat h ⟨fun _ _ _ => none, fun _ _ _ => none, 0⟩ laD
  refine ⟨T₀, hT₀, fun t ht htT => ?_⟩
  obtain ⟨P, Vl, Vv, hP, hlv, hl, hv⟩ := hc t ht htT
  obtain ⟨μ, m1, m2⟩ := C92_equal_potentials _ laD (fun V _ ct hct => (hat.regular t V N ct hct).2.1) hl hv
  exact ⟨P, μ, Vl, Vv, hP, hlv, hl.1, hv.1, hl.2.1, hv.2.1, m1, m2⟩

/-! ## Cases that meet the hypotheses -/

theorem plainRecords_attracting {k : Fin n → Fin n → ℝ} {N : Fin n → ℝ} {i : Fin n} (hN : ∀ j, 0 ≤ N j)
    (hi : 0 < N i) (hk : k i i ≠ 1) : Attracting (fromRecords plainRecords k) N where
  dipole := congrArg List.length (plainRecords_lists k).1
  quadrupole := congrArg List.length (plainRecords_lists k).2.1
  association := congrArg List.length (plainRecords_lists k).2.2
  segments := by
    change 4 / 5 * ∑ i, _ ≤ ∑ i, N i * (1 : ℝ)
    have := Finset.sum_nonneg fun i (_ : i ∈ Finset.univ) => hN i
    simp only [mul_one]
    linarith
  pair := ⟨i, i, hi, hi, by
    change (1.0 - k i i) * Real.sqrt (200 * 200) ≠ 0
    refine mul_ne_zero (fun h0 => hk ?_) (Real.sqrt_ne_zero'.2 (by norm_num))
    norm_num at h0
    linarith⟩

theorem plainPure_admissible (k : Fin 1 → Fin 1 → ℝ) : Admissible (fromRecords plainRecords k) 300 1000 (fun _ => 1) where
  temperature := by norm_num
  volume := by norm_num
  m_pos _ := one_pos
  sigma_pos i := by
    change (0 : ℝ) < 3 + (i : ℕ) / 10
    positivity
  epsilon_nonneg _ := by
    change (0 : ℝ) ≤ 200
    norm_num
  moles_nonneg _ := zero_le_one
  moles_ne_zero := ⟨0, one_ne_zero⟩
  packing := by
    have h1 : Spec.packingFraction (fromRecords plainRecords k) 300 1000 (fun _ => 1)
        = 1 * 1 * (Real.pi / 6 * Spec.diameter (3 + (0 : ℕ) / 10) 200 300 ^ 3) / 1000 := by
      unfold Spec.packingFraction
      rw [Fin.sum_univ_one]
      rfl
    have he := Real.exp_pos (-3 * 200 / 300)
    have he1 : Real.exp (-3 * 200 / 300) ≤ 1 := Real.exp_le_one_iff.2 (by norm_num)
    have h2 : Spec.diameter (3 + (0 : ℕ) / 10) 200 300 ≤ 3 := by
      unfold Spec.diameter
      norm_num at he he1 ⊢
      nlinarith
    have h3 : 0 ≤ Spec.diameter (3 + (0 : ℕ) / 10) 200 300 := by
      unfold Spec.diameter
      refine mul_nonneg (by norm_num) ?_
      linarith
    have h4 := pow_le_pow_left₀ h3 h2 3
    have hpi := Real.pi_lt_four
    have hpi0 := Real.pi_pos
    rw [h1]
    nlinarith

/-- a pure substance -/
example (o : PcSaftOptions ℝ) (laD : LinAlg ℝ (Dual ℝ)) :=
  C92_phase_equilibrium (o := o) (plainRecords_attracting (k := fun _ _ => 0) (i := 0) (fun _ => zero_le_one) one_pos zero_ne_one)
    (plainPure_admissible _) laD

/-- a mixture of two components -/
example (o : PcSaftOptions ℝ) (la : LinAlg ℝ ℝ) (laD : LinAlg ℝ (Dual ℝ)) :=
  C92_condensation (o := o) (plainRecords_attracting (k := fun _ _ => 0.05) (N := ![1, 1]) (i := 0) (by intro j; fin_cases j <;> simp) one_pos (by norm_num))
    (plainRecords_admissible _ one_pos zero_le_one le_rfl le_rfl) la laD

example (o : PcSaftOptions ℝ) (laD : LinAlg ℝ (Dual ℝ)) :=
  C92_loop (o := o) (plainRecords_attracting (k := fun _ _ => 0.05) (N := ![1, 1]) (i := 0) (by intro j; fin_cases j <;> simp) one_pos (by norm_num))
    (plainRecords_admissible _ one_pos zero_le_one le_rfl le_rfl) laD

/-- the free enthalpy from the chemical potential at an actual state -/
example (o : PcSaftOptions ℝ) (la : LinAlg ℝ ℝ) (laD : LinAlg ℝ (Dual ℝ)) {P : ℝ}
    (hP : IsPressure (fromRecords plainRecords fun _ _ => 0) o laD 300 1000 (fun _ : Fin 1 => 1) P) :=
  C92_potential la laD (plainPure_admissible _) (plainRecords_regular _ o _ _ _) hP

end Props
end PcSaft
