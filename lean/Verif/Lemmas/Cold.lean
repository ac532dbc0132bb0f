import Verif.Props.Reference
import Verif.Lemmas.DispersionSign

/-!
# The contributions at low temperature

At constant volume, when the temperature goes to zero, the square of the temperature times the residual energy tends to
the second-order dispersion term at the largest diameters.
-/

open Filter Topology

namespace PcSaft
open Spec Props
variable {n : ℕ}

/-- segment diameters in the limit of zero temperature -/
noncomputable def coldDiameter (p : PcSaftParameters n ℝ) (i : Fin n) : ℝ :=
  p.sigma i * (1 - 3 / 25 * (if p.epsilon_k i = 0 then 1 else 0))

/-- volume of the segments in the limit of zero temperature -/
noncomputable def coldVolume (p : PcSaftParameters n ℝ) (N : Fin n → ℝ) : ℝ := zeta p.m N (coldDiameter p) 3

/-- second-order dispersion energy in the limit of zero temperature (the factor `1 / T²` taken out) -/
noncomputable def coldEnergy (p : PcSaftParameters n ℝ) (N : Fin n → ℝ) (V : ℝ) : ℝ :=
  Real.pi * (rho2mix p 1 N * ((∑ i, N i * p.m i) / ∑ i, N i)) / V
    * (c1Form ((∑ i, N i * p.m i) / ∑ i, N i) (coldVolume p N / V)
      * intForm B0 B1 B2 ((∑ i, N i * p.m i) / ∑ i, N i) (coldVolume p N / V))

section
variable {p : PcSaftParameters n ℝ} {T V : ℝ} {N : Fin n → ℝ}

theorem tendsto_diameter (he : ∀ i, 0 ≤ p.epsilon_k i) :
    Tendsto (fun T => hsDiameter p T) (𝓝[>] 0) (𝓝 (coldDiameter p)) := by
  refine tendsto_pi_nhds.2 fun i => ?_
  simp only [hsDiameter_real]
  unfold coldDiameter
  refine Tendsto.const_mul _ (Tendsto.const_sub _ (Tendsto.const_mul _ ?_))
  split_ifs with h
  · simp only [h, mul_zero, zero_div, Real.exp_zero]
    exact tendsto_const_nhds
  · have hpos : 0 < p.epsilon_k i := lt_of_le_of_ne (he i) (Ne.symm h)
    have h1 : Tendsto (fun T : ℝ => -3 * p.epsilon_k i * T⁻¹) (𝓝[>] 0) atBot :=
      tendsto_inv_nhdsGT_zero.const_mul_atTop_of_neg (by linarith)
    exact Real.tendsto_exp_atBot.comp h1

theorem diameter_le_cold (hs : ∀ i, 0 < p.sigma i) (T : ℝ) (i : Fin n) :
    hsDiameter p T i ≤ coldDiameter p i := by
  rw [hsDiameter_real, coldDiameter]
  refine mul_le_mul_of_nonneg_left (sub_le_sub_left (mul_le_mul_of_nonneg_left ?_ (by norm_num)) 1) (hs i).le
  split_ifs with h
  · simp [h]
  · exact (Real.exp_pos _).le

theorem coldDiameter_pos (hs : ∀ i, 0 < p.sigma i) (i : Fin n) : 0 < coldDiameter p i := by
  unfold coldDiameter
  refine mul_pos (hs i) ?_
  split_ifs <;> norm_num

theorem cold_zeta_pos (h : Admissible p T V N) (k : Fin 4) : 0 < zeta p.m N (coldDiameter p) k := by
  obtain ⟨i, hi⟩ := h.moles_ne_zero
  have hd := coldDiameter_pos h.sigma_pos
  rw [zeta_real]
  refine mul_pos (by positivity) (Finset.sum_pos' (fun j _ => ?_) ⟨i, Finset.mem_univ i, ?_⟩)
  · have := h.moles_nonneg j
    have := h.m_pos j
    have := hd j
    positivity
  · have : 0 < N i := lt_of_le_of_ne (h.moles_nonneg i) (Ne.symm hi)
    have := h.m_pos i
    have := hd i
    positivity

/-- above the cold volume every temperature is admissible -/
theorem admissible_cold (h : Admissible p T V N) {T' W : ℝ} (hT : 0 < T') (hW : coldVolume p N < W) :
    Admissible p T' W N := by
  have hZ : 0 < coldVolume p N := cold_zeta_pos h 3
  have hW0 := hZ.trans hW
  refine ⟨hT, hW0, h.m_pos, h.sigma_pos, h.epsilon_nonneg, h.moles_nonneg, h.moles_ne_zero, ?_⟩
  have hd : ∀ i, 0 < hsDiameter p T' i := fun i => by
    rw [hsDiameter_real]
    refine mul_pos (h.sigma_pos i) ?_
    have : Real.exp (-3 * p.epsilon_k i / T') ≤ 1 :=
      Real.exp_le_one_iff.2 (div_nonpos_of_nonpos_of_nonneg (by linarith [h.epsilon_nonneg i]) hT.le)
    linarith
  have hle : zeta p.m N (hsDiameter p T') 3 ≤ coldVolume p N := by
    unfold coldVolume
    rw [zeta_real, zeta_real]
    have := Real.pi_pos
    refine mul_le_mul_of_nonneg_left (Finset.sum_le_sum fun i _ => ?_) (by positivity)
    have h1 := diameter_le_cold h.sigma_pos T' i
    have h2 := (hd i).le
    have h3 := h.moles_nonneg i
    have h4 := (h.m_pos i).le
    gcongr
  rw [packing_eq, one_div_mul_eq_div, div_lt_one hW0]
  exact hle.trans_lt hW

theorem zeta_over (p : PcSaftParameters n ℝ) (d : Fin n → ℝ) (V : ℝ) (N : Fin n → ℝ) (k : Fin 4) :
    zeta p.m (fun i => N i / V) d k = zeta p.m N d k / V := by
  rw [zeta_real, zeta_real, mul_div_assoc, Finset.sum_div]
  congr 1
  exact Finset.sum_congr rfl fun i _ => by ring

theorem continuous_zeta (m rho : Fin n → ℝ) (k : Fin 4) : Continuous fun d : Fin n → ℝ => zeta m rho d k := by
  simp only [zeta_real]
  fun_prop

theorem segmentSum_pos (h : Admissible p T V N) : 0 < ∑ i, N i * p.m i := by
  obtain ⟨i, hi⟩ := h.moles_ne_zero
  exact Finset.sum_pos' (fun j _ => mul_nonneg (h.moles_nonneg j) (h.m_pos j).le)
    ⟨i, Finset.mem_univ _, mul_pos (lt_of_le_of_ne (h.moles_nonneg i) (Ne.symm hi)) (h.m_pos i)⟩

theorem continuousAt_c1 {m x : ℝ} (hm : 0 < m) (h0 : 0 ≤ x) (h1 : x < 1) : ContinuousAt (fun x => c1Form m x) x := by
  have := c1_pos hm h0 h1
  unfold c1Form at this ⊢
  have hu : (1 - x) ^ 4 ≠ 0 := pow_ne_zero 4 (by linarith)
  have hv : ((1 - x) * (2 - x)) ^ 2 ≠ 0 := pow_ne_zero 2 (mul_ne_zero (by linarith) (by linarith))
  refine ContinuousAt.inv₀ ?_ (inv_pos.1 this).ne'
  refine (continuousAt_const.add (ContinuousAt.div ?_ ?_ ?_)).add (ContinuousAt.div ?_ ?_ ?_)
  · fun_prop
  · fun_prop
  · exact hu
  · fun_prop
  · fun_prop
  · exact hv

theorem tendsto_sq_zero : Tendsto (fun T : ℝ => T ^ 2) (𝓝[>] 0) (𝓝 0) := by
  have : Tendsto (fun T : ℝ => T ^ 2) (𝓝 0) (𝓝 (0 ^ 2)) := (continuous_pow 2).tendsto 0
  rw [zero_pow two_ne_zero] at this
  exact this.mono_left nhdsWithin_le_nhds

/-- the hard sphere contribution stays finite -/
theorem hardSphere_cold (h : Admissible p T V N) {W : ℝ} (hW : coldVolume p N < W) :
    Tendsto (fun T => T ^ 2 * hardSphere p (StateHD.new T W N)) (𝓝[>] 0) (𝓝 0) := by
  have hZ : 0 < coldVolume p N := cold_zeta_pos h 3
  have hW0 := hZ.trans hW
  have hz : 1 - zeta p.m (fun i => N i / W) (coldDiameter p) 3 ≠ 0 := by
    rw [zeta_over]
    have : zeta p.m N (coldDiameter p) 3 / W < 1 := (div_lt_one hW0).2 hW
    linarith
  have hN := h.total_pos
  have h23 : ∑ i, N i / (∑ j, N j) * (p.m i * coldDiameter p i ^ 3) ≠ 0 := by
    have h1 := cold_zeta_pos h 3
    rw [zeta_real] at h1
    have h2 : 0 < ∑ i, N i * (p.m i * coldDiameter p i ^ 3) := pos_of_mul_pos_right h1 (by positivity)
    have e : ∑ i, N i / (∑ j, N j) * (p.m i * coldDiameter p i ^ 3)
        = (∑ i, N i * (p.m i * coldDiameter p i ^ 3)) / ∑ j, N j := by
      rw [Finset.sum_div]
      exact Finset.sum_congr rfl fun i _ => by ring
    rw [e]
    exact (div_pos h2 hN).ne'
  have hc : ContinuousAt (fun d : Fin n → ℝ => hsForm W (zeta p.m (fun i => N i / W) d 0)
      (zeta p.m (fun i => N i / W) d 1) (zeta p.m (fun i => N i / W) d 2) (zeta p.m (fun i => N i / W) d 3)
      (zeta23 p.m (fun i => N i / ∑ j, N j) d)) (coldDiameter p) := by
    have c0 := fun k => (continuous_zeta p.m (fun i => N i / W) k).continuousAt (x := coldDiameter p)
    have c23 : ContinuousAt (fun d => zeta23 p.m (fun i => N i / ∑ j, N j) d) (coldDiameter p) := by
      simp only [zeta23_real]
      have hs : ∀ q : ℕ, Continuous fun d : Fin n → ℝ => ∑ i, N i / (∑ j, N j) * (p.m i * d i ^ q) := fun q => by
        fun_prop
      exact (hs 2).continuousAt.div (hs 3).continuousAt h23
    have cf : ContinuousAt (fun d => 1 - zeta p.m (fun i => N i / W) d 3) (coldDiameter p) :=
      continuousAt_const.sub (c0 3)
    unfold hsForm
    refine continuousAt_const.mul (((((continuousAt_const.mul (c0 1)).mul (c0 2)).div cf hz).add
      ((((c0 2).pow 2).mul c23).div (cf.pow 2) (pow_ne_zero 2 hz))).add
      ((((c0 2).mul (c23.pow 2)).sub (c0 0)).mul (cf.log hz)))
  have h1 := hc.tendsto.comp (tendsto_diameter h.epsilon_nonneg)
  have h3 := tendsto_sq_zero.mul h1
  rw [zero_mul] at h3
  refine h3.congr fun T => ?_
  rw [hardSphere_real]
  simp only [Function.comp, StateHD.new_density, StateHD.new_temperature, StateHD.new_volume]
  congr 4
  funext i
  rw [StateHD.new_molefracs]

/-- so does the chain contribution -/
theorem hardChain_cold (h : Admissible p T V N) {W : ℝ} (hW : coldVolume p N < W) :
    Tendsto (fun T => T ^ 2 * hardChain p (StateHD.new T W N)) (𝓝[>] 0) (𝓝 0) := by
  have hZ : 0 < coldVolume p N := cold_zeta_pos h 3
  have hW0 := hZ.trans hW
  have hlt : zeta p.m (fun i => N i / W) (coldDiameter p) 3 < 1 := by
    rw [zeta_over]
    exact (div_lt_one hW0).2 hW
  have hz : 0 < 1 - zeta p.m (fun i => N i / W) (coldDiameter p) 3 := by linarith
  have h2 : 0 < zeta p.m (fun i => N i / W) (coldDiameter p) 2 := by
    rw [zeta_over]
    exact div_pos (cold_zeta_pos h 2) hW0
  have hc : ContinuousAt (fun d : Fin n → ℝ => W * ∑ i, N i / W * ((1 - p.m i)
      * Real.log (gForm (zeta p.m (fun i => N i / W) d 2) (zeta p.m (fun i => N i / W) d 3) (d i)))) (coldDiameter p) := by
    have c0 := fun k => (continuous_zeta p.m (fun i => N i / W) k).continuousAt (x := coldDiameter p)
    have cf : ContinuousAt (fun d => 1 - zeta p.m (fun i => N i / W) d 3) (coldDiameter p) :=
      continuousAt_const.sub (c0 3)
    refine continuousAt_const.mul (tendsto_finsetSum _ fun i _ => ?_)
    have ci : ContinuousAt (fun d : Fin n → ℝ => d i) (coldDiameter p) := continuousAt_apply i _
    have hd := coldDiameter_pos h.sigma_pos i
    refine (continuousAt_const.mul (continuousAt_const.mul (ContinuousAt.log ?_ ?_))).tendsto
    · unfold gForm
      refine ((continuousAt_const.div cf hz.ne').add (((continuousAt_const.mul ci).mul (c0 2)).div (cf.pow 2)
        (pow_ne_zero 2 hz.ne'))).add (((continuousAt_const.mul (ci.pow 2)).mul ((c0 2).pow 2)).div (cf.pow 3)
        (pow_ne_zero 3 hz.ne'))
    · unfold gForm
      positivity
  have h1 := hc.tendsto.comp (tendsto_diameter h.epsilon_nonneg)
  have h3 := tendsto_sq_zero.mul h1
  rw [zero_mul] at h3
  refine h3.congr' ?_
  filter_upwards [self_mem_nhdsWithin] with T hT
  have hA := admissible_cold h (T' := T) hT hW
  rw [hardChain_real]
  simp only [Function.comp, StateHD.new_density, StateHD.new_temperature, StateHD.new_volume]
  have hne : zeta p.m (fun i => N i / W) (hsDiameter p T) 3 ≠ 1 := by
    have := hA.packing
    rw [packing_eq, one_div_mul_eq_div] at this
    rw [zeta_over]
    exact this.ne
  congr 2
  exact Finset.sum_congr rfl fun i _ => by rw [gHs_real _ _ _ hne]

/-- the second-order dispersion term remains -/
theorem dispersion_cold (h : Admissible p T V N) {W : ℝ} (hW : coldVolume p N < W) :
    Tendsto (fun T => T ^ 2 * dispersion p (StateHD.new T W N)) (𝓝[>] 0) (𝓝 (-coldEnergy p N W)) := by
  have hZ : 0 < coldVolume p N := cold_zeta_pos h 3
  have hW0 := hZ.trans hW
  have hN := h.total_pos
  have hm1 : 0 < (∑ i, N i * p.m i) / ∑ i, N i := div_pos (segmentSum_pos h) hN
  have hlt : coldVolume p N / W < 1 := (div_lt_one hW0).2 hW
  have hη : 0 ≤ coldVolume p N / W := (div_pos hZ hW0).le
  set mm := (∑ i, N i * p.m i) / ∑ i, N i with hmm
  have hc1 : ContinuousAt (fun x => c1Form mm x) (coldVolume p N / W) :=
    continuousAt_c1 hm1 hη hlt
  have hI : ∀ a0 a1 a2 : Fin 7 → ℝ, Continuous fun x => intForm a0 a1 a2 mm x := fun a0 a1 a2 => by
    unfold intForm
    fun_prop
  have hη' : Tendsto (fun T => zeta p.m N (hsDiameter p T) 3 / W) (𝓝[>] 0) (𝓝 (coldVolume p N / W)) :=
    (((continuous_zeta p.m N 3).continuousAt.tendsto).comp (tendsto_diameter h.epsilon_nonneg)).div_const W
  have hT : Tendsto (fun T : ℝ => T) (𝓝[>] 0) (𝓝 0) := nhdsWithin_le_nhds
  have h1 : Tendsto (fun T => -Real.pi / W * (2 * (T * rho1mix p 1 N) * intForm A0 A1 A2 mm (zeta p.m N (hsDiameter p T) 3 / W)
      + rho2mix p 1 N * mm * c1Form mm (zeta p.m N (hsDiameter p T) 3 / W)
        * intForm B0 B1 B2 mm (zeta p.m N (hsDiameter p T) 3 / W))) (𝓝[>] 0)
      (𝓝 (-Real.pi / W * (2 * (0 * rho1mix p 1 N) * intForm A0 A1 A2 mm (coldVolume p N / W)
        + rho2mix p 1 N * mm * c1Form mm (coldVolume p N / W) * intForm B0 B1 B2 mm (coldVolume p N / W)))) :=
    Tendsto.const_mul _ ((((hT.mul_const _).const_mul 2).mul (((hI _ _ _).tendsto _).comp hη')).add
      (((hc1.tendsto.comp hη').const_mul _).mul (((hI _ _ _).tendsto _).comp hη')))
  have e : -Real.pi / W * (2 * (0 * rho1mix p 1 N) * intForm A0 A1 A2 mm (coldVolume p N / W)
        + rho2mix p 1 N * mm * c1Form mm (coldVolume p N / W) * intForm B0 B1 B2 mm (coldVolume p N / W))
      = -coldEnergy p N W := by
    unfold coldEnergy
    rw [← hmm]
    ring
  rw [e] at h1
  refine h1.congr' ?_
  filter_upwards [self_mem_nhdsWithin] with T hT0
  have hT0 : (0 : ℝ) < T := hT0
  have r1 : rho1mix p T (fun i => N i / W) = rho1mix p 1 N / (T * W ^ 2) := by
    rw [rho1mix_real, rho1mix_real, Finset.sum_div]
    refine Finset.sum_congr rfl fun i _ => ?_
    rw [Finset.sum_div]
    refine Finset.sum_congr rfl fun j _ => ?_
    field_simp
  have r2 : rho2mix p T (fun i => N i / W) = rho2mix p 1 N / (T ^ 2 * W ^ 2) := by
    rw [rho2mix_real, rho2mix_real, Finset.sum_div]
    refine Finset.sum_congr rfl fun i _ => ?_
    rw [Finset.sum_div]
    refine Finset.sum_congr rfl fun j _ => ?_
    field_simp
  have em : ∑ i, N i / (∑ j, N j) * p.m i = mm := by
    rw [hmm, Finset.sum_div]
    exact Finset.sum_congr rfl fun i _ => by ring
  rw [dispersion_real, StateHD.new_density, StateHD.new_temperature, StateHD.new_volume, StateHD.new_molefracs, em, r1, r2,
    zeta_over]
  unfold dispForm
  field_simp

/-- the limit of the residual energy of a fluid without polar and association contributions -/
theorem plain_cold (h : Admissible p T V N) {W : ℝ} (hW : coldVolume p N < W) :
    Tendsto (fun T => T ^ 2 * (hardSphere p (StateHD.new T W N) + hardChain p (StateHD.new T W N)
      + dispersion p (StateHD.new T W N))) (𝓝[>] 0) (𝓝 (-coldEnergy p N W)) := by
  have := ((hardSphere_cold h hW).add (hardChain_cold h hW)).add (dispersion_cold h hW)
  rw [zero_add, zero_add] at this
  exact this.congr fun T => by ring

theorem coldEnergy_pos (h : Admissible p T V N) (hm : 4 / 5 * ∑ i, N i ≤ ∑ i, N i * p.m i) (h2 : 0 < rho2mix p 1 N) {W : ℝ}
    (hW : 2 * coldVolume p N ≤ W) : 0 < coldEnergy p N W := by
  have hZ : 0 < coldVolume p N := cold_zeta_pos h 3
  have hW0 : 0 < W := by linarith
  have hN := h.total_pos
  have hm1 : 4 / 5 ≤ (∑ i, N i * p.m i) / ∑ i, N i := (le_div_iff₀ hN).2 hm
  have hη : 0 ≤ coldVolume p N / W := (div_pos hZ hW0).le
  have hη' : coldVolume p N / W ≤ 1 / 2 := by
    rw [div_le_iff₀ hW0]
    linarith
  have := c1_pos (show 0 < (∑ i, N i * p.m i) / ∑ i, N i by linarith) hη (by linarith)
  have := int2_pos hm1 hη hη'
  have := Real.pi_pos
  unfold coldEnergy
  positivity

theorem coldEnergy_dilute (h : Admissible p T V N) :
    Tendsto (coldEnergy p N) atTop (𝓝 0) := by
  have hN := h.total_pos
  have hm1 : 0 < (∑ i, N i * p.m i) / ∑ i, N i := div_pos (segmentSum_pos h) hN
  have h1 : Tendsto (fun W => coldVolume p N / W) atTop (𝓝 0) := tendsto_const_nhds.div_atTop tendsto_id
  have hc1 : ContinuousAt (fun x => c1Form ((∑ i, N i * p.m i) / ∑ i, N i) x) 0 :=
    continuousAt_c1 hm1 le_rfl zero_lt_one
  have hI : Continuous fun x => intForm B0 B1 B2 ((∑ i, N i * p.m i) / ∑ i, N i) x := by
    unfold intForm
    fun_prop
  have h2 : Tendsto (fun W : ℝ => Real.pi * (rho2mix p 1 N * ((∑ i, N i * p.m i) / ∑ i, N i)) / W) atTop (𝓝 0) :=
    tendsto_const_nhds.div_atTop tendsto_id
  have := h2.mul ((hc1.tendsto.comp h1).mul ((hI.tendsto 0).comp h1))
  rw [zero_mul] at this
  exact this

end

end PcSaft
