import Verif.Props.Condensation
import Mathlib.Analysis.SpecialFunctions.Complex.Analytic

/-!
# Stability of isotherms

The slope of an isotherm of molecules without moments and sites is bounded by the slope of an ideal gas in the free volume
plus a term that falls with temperature and with the packing fraction.
-/

open Filter Topology

namespace PcSaft
open Spec Props
variable {n : ℕ}

/-! ## The compressibility term in the closed interval -/

/-- denominator of the compressibility term -/
noncomputable def c1Den (m x : ℝ) : ℝ :=
  (1 - x) ^ 4 * (2 - x) ^ 2 + m * (8 * x - 2 * x ^ 2) * (2 - x) ^ 2
    + (1 - m) * (20 * x - 27 * x ^ 2 + 12 * x ^ 3 - 2 * x ^ 4) * (1 - x) ^ 2

/-- compressibility term, also at complete packing -/
noncomputable def c1Ext (m x : ℝ) : ℝ := (1 - x) ^ 4 * (2 - x) ^ 2 / c1Den m x

theorem c1Ext_eq {m x : ℝ} (h1 : x < 1) : c1Form m x = c1Ext m x := by
  have a : 1 - x ≠ 0 := by linarith
  have b : 2 - x ≠ 0 := by linarith
  have e : 1 + m * (8 * x - 2 * x ^ 2) / (1 - x) ^ 4
      + (1 - m) * (20 * x - 27 * x ^ 2 + 12 * x ^ 3 - 2 * x ^ 4) / ((1 - x) * (2 - x)) ^ 2
      = c1Den m x / ((1 - x) ^ 4 * (2 - x) ^ 2) := by
    unfold c1Den
    field_simp
  rw [c1Form, e, inv_div, c1Ext]

theorem c1Den_pos {m x : ℝ} (hm : 0 < m) (h0 : 0 ≤ x) (h1 : x ≤ 1) : 0 < c1Den m x := by
  rcases h1.eq_or_lt with rfl | hlt
  · unfold c1Den
    nlinarith
  · have h := c1_pos hm h0 hlt
    rw [c1Ext_eq hlt, c1Ext] at h
    have a : 0 < 1 - x := by linarith
    have b : 0 < 2 - x := by linarith
    have hn : 0 < (1 - x) ^ 4 * (2 - x) ^ 2 := by positivity
    exact (div_pos_iff_of_pos_left hn).1 h

theorem analyticAt_c1Ext {m x : ℝ} (hm : 0 < m) (h0 : 0 ≤ x) (h1 : x ≤ 1) : AnalyticAt ℝ (c1Ext m) x := by
  unfold c1Ext
  refine AnalyticAt.div (by fun_prop) ?_ (c1Den_pos hm h0 h1).ne'
  unfold c1Den
  fun_prop

theorem analyticAt_int (a0 a1 a2 : Fin 7 → ℝ) (m x : ℝ) : AnalyticAt ℝ (intForm a0 a1 a2 m) x := by
  unfold intForm
  exact Finset.analyticAt_fun_sum _ fun i _ => by fun_prop

/-- bound for the slope of a virial-like term -/
theorem exists_slope_bound {J : ℝ → ℝ} (hJ : ∀ x, 0 ≤ x → x ≤ 1 → AnalyticAt ℝ J x) :
    ∃ C, 0 ≤ C ∧ ∀ x, 0 ≤ x → x ≤ 1 → |deriv (deriv J) x * x + 2 * deriv J x| ≤ C := by
  have hc : ContinuousOn (fun x => |deriv (deriv J) x * x + 2 * deriv J x|) (Set.Icc 0 1) := fun x hx => by
    have h1 := (hJ x hx.1 hx.2).deriv
    have h2 := h1.deriv
    exact (((h2.continuousAt.mul continuousAt_id).add (h1.continuousAt.const_mul 2)).abs).continuousWithinAt
  obtain ⟨C, hC⟩ := isCompact_Icc.bddAbove_image hc
  have hb : ∀ x, 0 ≤ x → x ≤ 1 → |deriv (deriv J) x * x + 2 * deriv J x| ≤ C := fun x h0 h1 => hC ⟨x, ⟨h0, h1⟩, rfl⟩
  exact ⟨C, (abs_nonneg _).trans (hb 0 le_rfl zero_le_one), hb⟩

/-- the energy `-J(c/V)/c` and its derivatives -/
theorem hasDerivAt_virial {J : ℝ → ℝ} {c V : ℝ} (hc : c ≠ 0) (hV : V ≠ 0) (hJ : DifferentiableAt ℝ J (c / V)) :
    HasDerivAt (fun V => -(J (c / V)) / c) (deriv J (c / V) / V ^ 2) V := by
  have h1 : HasDerivAt (fun V => c / V) (-c / V ^ 2) V := by
    have := (hasDerivAt_inv hV).const_mul c
    simp only [div_eq_mul_inv]
    refine this.congr_deriv ?_
    ring
  have h2 := ((hJ.hasDerivAt.comp V h1).neg).div_const c
  refine h2.congr_deriv ?_
  field_simp

theorem hasDerivAt_virial_pressure {J : ℝ → ℝ} {c V : ℝ} (hV : V ≠ 0) (hJ : DifferentiableAt ℝ (deriv J) (c / V)) :
    HasDerivAt (fun V => -(deriv J (c / V) / V ^ 2)) ((deriv (deriv J) (c / V) * (c / V) + 2 * deriv J (c / V)) / V ^ 3) V := by
  have h1 : HasDerivAt (fun V => c / V) (-c / V ^ 2) V := by
    have := (hasDerivAt_inv hV).const_mul c
    simp only [div_eq_mul_inv]
    refine this.congr_deriv ?_
    ring
  have h2 := ((hJ.hasDerivAt.comp V h1).div (hasDerivAt_pow 2 V) (pow_ne_zero 2 hV)).neg
  refine h2.congr_deriv ?_
  simp only [Function.comp]
  field_simp
  push_cast
  ring

section
variable {p : PcSaftParameters n ℝ} {T V : ℝ} {N : Fin n → ℝ}

/-- mean number of segments -/
noncomputable def meanSegments (p : PcSaftParameters n ℝ) (N : Fin n → ℝ) : ℝ := (∑ i, N i * p.m i) / ∑ i, N i

/-- first- and second-order dispersion as functions of the packing fraction -/
noncomputable def dispJ1 (p : PcSaftParameters n ℝ) (N : Fin n → ℝ) (x : ℝ) : ℝ :=
  2 * Real.pi * rho1mix p 1 N * (x * intForm A0 A1 A2 (meanSegments p N) x)

noncomputable def dispJ2 (p : PcSaftParameters n ℝ) (N : Fin n → ℝ) (x : ℝ) : ℝ :=
  Real.pi * rho2mix p 1 N * meanSegments p N * (x * (c1Ext (meanSegments p N) x * intForm B0 B1 B2 (meanSegments p N) x))

noncomputable def dispJ (p : PcSaftParameters n ℝ) (N : Fin n → ℝ) (T x : ℝ) : ℝ := dispJ1 p N x / T + dispJ2 p N x / T ^ 2

theorem meanSegments_pos (h : Admissible p T V N) : 0 < meanSegments p N := div_pos (segmentSum_pos h) h.total_pos

theorem analyticAt_dispJ1 (x : ℝ) : AnalyticAt ℝ (dispJ1 p N) x := by
  unfold dispJ1
  exact analyticAt_const.mul (analyticAt_id.mul (analyticAt_int _ _ _ _ x))

theorem analyticAt_dispJ2 (hm : 0 < meanSegments p N) {x : ℝ} (h0 : 0 ≤ x) (h1 : x ≤ 1) : AnalyticAt ℝ (dispJ2 p N) x := by
  unfold dispJ2
  exact analyticAt_const.mul (analyticAt_id.mul ((analyticAt_c1Ext hm h0 h1).mul (analyticAt_int _ _ _ _ x)))

theorem dispersion_virial (h : Admissible p T V N) :
    dispersion p (StateHD.new T V N) = -(dispJ p N T (closeVolume p T N / V)) / closeVolume p T N := by
  have hT := h.temperature
  have hV := h.volume
  have hc : 0 < closeVolume p T N := by rw [closeVolume_eq]; exact zeta_pos_moles h 3
  have hlt := closeVolume_lt h
  have hx : closeVolume p T N / V < 1 := (div_lt_one hV).2 hlt
  have r1 : rho1mix p T (fun i => N i / V) = rho1mix p 1 N / (T * V ^ 2) := by
    rw [rho1mix_real, rho1mix_real, Finset.sum_div]
    refine Finset.sum_congr rfl fun i _ => ?_
    rw [Finset.sum_div]
    refine Finset.sum_congr rfl fun j _ => ?_
    field_simp
  have r2 : rho2mix p T (fun i => N i / V) = rho2mix p 1 N / (T ^ 2 * V ^ 2) := by
    rw [rho2mix_real, rho2mix_real, Finset.sum_div]
    refine Finset.sum_congr rfl fun i _ => ?_
    rw [Finset.sum_div]
    refine Finset.sum_congr rfl fun j _ => ?_
    field_simp
  have em : ∑ i, N i / (∑ j, N j) * p.m i = meanSegments p N := by
    rw [meanSegments, Finset.sum_div]
    exact Finset.sum_congr rfl fun i _ => by ring
  rw [dispersion_real, StateHD.new_density, StateHD.new_temperature, StateHD.new_volume, StateHD.new_molefracs, em, r1, r2,
    zeta_over, ← closeVolume_eq]
  unfold dispForm dispJ dispJ1 dispJ2
  rw [c1Ext_eq hx]
  field_simp

theorem deriv_dispJ (hm : 0 < meanSegments p N) {x : ℝ} (h0 : 0 ≤ x) (h1 : x ≤ 1) :
    AnalyticAt ℝ (dispJ p N T) x ∧ deriv (dispJ p N T) x = deriv (dispJ1 p N) x / T + deriv (dispJ2 p N) x / T ^ 2
      ∧ deriv (deriv (dispJ p N T)) x = deriv (deriv (dispJ1 p N)) x / T + deriv (deriv (dispJ2 p N)) x / T ^ 2 := by
  have a1 := analyticAt_dispJ1 (p := p) (N := N) x
  have a2 := analyticAt_dispJ2 hm h0 h1
  have e1 : ∀ᶠ y in 𝓝 x, deriv (dispJ p N T) y = deriv (dispJ1 p N) y / T + deriv (dispJ2 p N) y / T ^ 2 := by
    filter_upwards [a1.eventually_analyticAt, a2.eventually_analyticAt] with y b1 b2
    exact ((b1.differentiableAt.hasDerivAt.div_const T).add (b2.differentiableAt.hasDerivAt.div_const (T ^ 2))).deriv
  refine ⟨?_, e1.self_of_nhds, ?_⟩
  · unfold dispJ
    simp only [div_eq_mul_inv]
    exact (a1.mul analyticAt_const).add (a2.mul analyticAt_const)
  · rw [Filter.EventuallyEq.deriv_eq e1]
    exact ((a1.deriv.differentiableAt.hasDerivAt.div_const T).add
      (a2.deriv.differentiableAt.hasDerivAt.div_const (T ^ 2))).deriv

end

/-! ## The reference fluid -/

/-- the pressure beyond that of an ideal gas in the free volume grows with `τ` -/
theorem refExcess_mono {c2 c3 : ℝ} {N m d : Fin n → ℝ} {τ σ : ℝ} (h2 : 0 ≤ c2) (h3 : 0 < c3) (hd : ∀ i, 0 ≤ d i)
    (hm : ∀ i, 0 ≤ m i) (hN : ∀ i, 0 ≤ N i) (hτ : 0 < τ) (hle : τ ≤ σ) :
    refPressure c2 c3 N m d τ - (∑ i, N i) * τ ≤ refPressure c2 c3 N m d σ - (∑ i, N i) * σ := by
  have hσ : 0 < σ := hτ.trans_le hle
  have e : ∀ t, refPressure c2 c3 N m d t - (∑ i, N i) * t = t * ∑ i, N i * (kappaForm (d i * c2 * t)
      + m i * (3 * (d i * c2 * t) + 2 * (d i * c2 * t) ^ 2 + (d i * c2 * t) ^ 2 / (1 + c3 * t) - kappaForm (d i * c2 * t))) :=
    fun t => by
      unfold refPressure
      rw [mul_comm (∑ i, N i) t, ← mul_sub, ← Finset.sum_sub_distrib]
      congr 1
      exact Finset.sum_congr rfl fun i _ => by ring
  rw [e, e]
  refine mul_le_mul hle (Finset.sum_le_sum fun i _ => mul_le_mul_of_nonneg_left ?_ (hN i))
    (Finset.sum_nonneg fun i _ => mul_nonneg (hN i) ?_) hσ.le
  · have hdc := mul_nonneg (hd i) h2
    obtain ⟨k1, k2⟩ := kappa_mono (y := d i * c2 * τ) (z := d i * c2 * σ) (by positivity)
      (mul_le_mul_of_nonneg_left hle hdc)
    have k3 : (d i * c2 * τ) ^ 2 / (1 + c3 * τ) ≤ (d i * c2 * σ) ^ 2 / (1 + c3 * σ) := by
      rw [div_le_div_iff₀ (by positivity) (by positivity), mul_pow, mul_pow _ σ, mul_assoc, mul_assoc]
      refine mul_le_mul_of_nonneg_left ?_ (sq_nonneg _)
      have a : τ ^ 2 ≤ σ ^ 2 := pow_le_pow_left₀ hτ.le hle 2
      have b : 0 ≤ c3 * (τ * σ) := by positivity
      nlinarith [mul_le_mul_of_nonneg_left hle b]
    exact add_le_add k1 (mul_le_mul_of_nonneg_left (by linarith) (hm i))
  · have hdc := mul_nonneg (hd i) h2
    obtain ⟨b1, b2⟩ := kappa_bounds (y := d i * c2 * τ) (by positivity)
    have : 0 ≤ (d i * c2 * τ) ^ 2 / (1 + c3 * τ) := by positivity
    exact add_nonneg b1 (mul_nonneg (hm i) (by linarith))

/-- a lower bound of the segment volumes at all temperatures -/
theorem exists_closeVolume_ge {p : PcSaftParameters n ℝ} {T V : ℝ} {N : Fin n → ℝ} (h : Admissible p T V N) :
    ∃ b, 0 < b ∧ ∀ t, 0 < t → b ≤ closeVolume p t N := by
  obtain ⟨i, hi⟩ := h.moles_ne_zero
  refine ⟨zeta p.m N (fun i => 22 / 25 * p.sigma i) 3, ?_, fun t ht => ?_⟩
  · rw [zeta_real]
    refine mul_pos (by positivity) (Finset.sum_pos' (fun j _ => ?_) ⟨i, Finset.mem_univ i, ?_⟩)
    · have := h.moles_nonneg j
      have := h.m_pos j
      have := h.sigma_pos j
      positivity
    · have : 0 < N i := lt_of_le_of_ne (h.moles_nonneg i) (Ne.symm hi)
      have := h.m_pos i
      have := h.sigma_pos i
      positivity
  · rw [closeVolume_eq, zeta_real, zeta_real]
    have := Real.pi_pos
    refine mul_le_mul_of_nonneg_left (Finset.sum_le_sum fun i _ => ?_) (by positivity)
    have h1 : 22 / 25 * p.sigma i ≤ hsDiameter p t i := by
      rw [hsDiameter_real, mul_comm]
      refine mul_le_mul_of_nonneg_left ?_ (h.sigma_pos i).le
      have : Real.exp (-3 * p.epsilon_k i / t) ≤ 1 :=
        Real.exp_le_one_iff.2 (div_nonpos_of_nonpos_of_nonneg (by linarith [h.epsilon_nonneg i]) ht.le)
      linarith
    have h2 := (h.sigma_pos i).le
    have h3 := h.moles_nonneg i
    have h4 := (h.m_pos i).le
    gcongr

/-! ## The slope of an isotherm -/

section
variable {pr : Fin n → PureRecord ℝ} {k : Fin n → Fin n → ℝ} {T V : ℝ} {N : Fin n → ℝ} {o : PcSaftOptions ℝ}

/-- molecules without moments and sites -/
structure Spec.Plain (p : PcSaftParameters n ℝ) : Prop where
  dipole : p.ndipole = 0
  quadrupole : p.nquadpole = 0
  association : p.nassoc = 0

theorem Spec.Plain.residual (hp : Plain (fromRecords pr k)) (T V : ℝ) (N' : Fin n → ℝ) :
    residualSum o.dq_variant (fromRecords pr k) (StateHD.new T V N')
      = hardSphere (fromRecords pr k) (StateHD.new T V N') + hardChain (fromRecords pr k) (StateHD.new T V N')
        + dispersion (fromRecords pr k) (StateHD.new T V N') := by
  have ha : assocEnergy (fromRecords pr k) (StateHD.new T V N') = 0 := by
    unfold assocEnergy
    rw [List.length_eq_zero_iff.1 hp.association]
  rw [residualSum, ha, dipole_eq_zero hp.dipole, quadrupole_eq_zero hp.quadrupole,
    dipoleQuadrupole_eq_zero (Or.inl hp.dipole)]
  ring

theorem Spec.Plain.regular (hp : Plain (fromRecords pr k)) (T V : ℝ) (N' : Fin n → ℝ) :
    ∀ ct ∈ buildContributions (fromRecords pr k) o, PolarRegular (fromRecords pr k) T V N' ct
      ∧ Regular (fromRecords pr k) T V N' ct ∧ DiluteRegular (fromRecords pr k) T N' ct := by
  intro ct hct
  simp [buildContributions, hp.dipole, hp.quadrupole, hp.association] at hct
  rcases hct with rfl | rfl | rfl <;> exact ⟨trivial, trivial, trivial⟩

theorem plain_pressure (hp : Plain (fromRecords pr k)) (h : Admissible (fromRecords pr k) T V N) :
    HasDerivAt (totalEnergy o (fromRecords pr k) T N)
      (deriv (dispJ (fromRecords pr k) N T) (closeVolume (fromRecords pr k) T N / V) / V ^ 2
        - refPressure (zeta (fromRecords pr k).m N (hsDiameter (fromRecords pr k) T) 2)
          (zeta (fromRecords pr k).m N (hsDiameter (fromRecords pr k) T) 3) N (fromRecords pr k).m
          (hsDiameter (fromRecords pr k) T) (1 / (V - closeVolume (fromRecords pr k) T N))) V := by
  set p := fromRecords pr k with hpd
  have hV := h.volume
  have hc : 0 < closeVolume p T N := by rw [closeVolume_eq]; exact zeta_pos_moles h 3
  have hlt := closeVolume_lt h
  have hx0 : 0 ≤ closeVolume p T N / V := by positivity
  have hx : closeVolume p T N / V ≤ 1 := ((div_lt_one hV).2 hlt).le
  have h1 := hasDerivAt_reference h
  have h2 := hasDerivAt_virial hc.ne' hV.ne'
    (deriv_dispJ (T := T) (meanSegments_pos h) hx0 hx).1.differentiableAt
  have h3 := (Real.hasDerivAt_log hV.ne').const_mul (∑ i, N i)
  have ev : totalEnergy o p T N =ᶠ[𝓝 V] fun W => (hardSphere p (StateHD.new T W N) + hardChain p (StateHD.new T W N)
      + -(dispJ p N T (closeVolume p T N / W)) / closeVolume p T N) - (∑ i, N i) * Real.log W := by
    filter_upwards [lt_mem_nhds hlt] with W hW
    unfold totalEnergy
    rw [hp.residual, dispersion_virial (admissible_volume h (by rwa [closeVolume_eq] at hW))]
  refine (((h1.add h2).sub h3).congr_of_eventuallyEq ev).congr_deriv ?_
  field_simp
  ring

theorem totalEnergy_analytic (hp : Plain (fromRecords pr k)) (h : Admissible (fromRecords pr k) T V N) :
    AnalyticAt ℝ (totalEnergy o (fromRecords pr k) T N) V := by
  have h1 := (residual_volume_derivative (o := o) (by rw [hp.association]; exact Nat.zero_le _) h
    (fun ct hct => (hp.regular T V N ct hct).2.1) ⟨fun _ _ _ => none, fun _ _ _ => none, 0⟩).1
  exact h1.sub (analyticAt_const.mul (analyticAt_id.log h.volume))

/-- the isotherm falls at least as steeply as that of an ideal gas in the free volume, up to the dispersion -/
theorem plain_slope (hp : Plain (fromRecords pr k)) (h : Admissible (fromRecords pr k) T V N) :
    -deriv (deriv (totalEnergy o (fromRecords pr k) T N)) V
      ≤ -((∑ i, N i) / (V - closeVolume (fromRecords pr k) T N) ^ 2)
        + (deriv (deriv (dispJ (fromRecords pr k) N T)) (closeVolume (fromRecords pr k) T N / V)
            * (closeVolume (fromRecords pr k) T N / V)
          + 2 * deriv (dispJ (fromRecords pr k) N T) (closeVolume (fromRecords pr k) T N / V)) / V ^ 3 := by
  set p := fromRecords pr k with hpd
  have hV := h.volume
  set cv := closeVolume p T N with hcv
  have hc : 0 < cv := by rw [hcv, closeVolume_eq]; exact zeta_pos_moles h 3
  have hlt : cv < V := closeVolume_lt h
  have hx0 : 0 ≤ cv / V := by positivity
  have hx : cv / V ≤ 1 := ((div_lt_one hV).2 hlt).le
  have hJ := deriv_dispJ (T := T) (meanSegments_pos h) hx0 hx
  have d1 := (totalEnergy_analytic (o := o) hp h).deriv.differentiableAt.hasDerivAt.neg
  have d2 : HasDerivAt (fun W : ℝ => (∑ i, N i) * (1 / (W - cv))) (-((∑ i, N i) / (V - cv) ^ 2)) V := by
    have := (((hasDerivAt_id V).sub_const cv).inv (sub_pos.2 hlt).ne').const_mul (∑ i, N i)
    simp only [one_div]
    refine this.congr_deriv ?_
    simp only [id]
    ring
  have d3 := hasDerivAt_virial_pressure (c := cv) hV.ne' hJ.1.deriv.differentiableAt
  have d4 := (d1.sub d2).sub d3
  have hanti : ∀ W, V ≤ W → (fun W => -deriv (totalEnergy o p T N) W - (∑ i, N i) * (1 / (W - cv))
      - -(deriv (dispJ p N T) (cv / W) / W ^ 2)) W
      ≤ (fun W => -deriv (totalEnergy o p T N) W - (∑ i, N i) * (1 / (W - cv)) - -(deriv (dispJ p N T) (cv / W) / W ^ 2)) V := by
    intro W hW
    have hAW : Admissible p T W N := admissible_volume h (by rw [← closeVolume_eq]; exact hlt.trans_le hW)
    have hWc : 0 < W - cv := sub_pos.2 (hlt.trans_le hW)
    have hmono := refExcess_mono (N := N) (m := p.m) (d := hsDiameter p T) (τ := 1 / (W - cv)) (σ := 1 / (V - cv))
      (zeta_pos_moles h 2).le (zeta_pos_moles h 3) (fun i => (h.diameter_pos i).le) (fun i => (h.m_pos i).le) h.moles_nonneg
      (by positivity) (one_div_le_one_div_of_le (sub_pos.2 hlt) (by linarith))
    dsimp only
    rw [(plain_pressure hp h).deriv, (plain_pressure hp hAW).deriv]
    linarith
  have h0 : deriv (fun W => -deriv (totalEnergy o p T N) W - (∑ i, N i) * (1 / (W - cv))
      - -(deriv (dispJ p N T) (cv / W) / W ^ 2)) V ≤ 0 := by
    have hd := d4.hasDerivWithinAt (s := Set.Ici V)
    have ht := hasDerivWithinAt_iff_tendsto_slope.1 hd
    rw [Set.Ici_sdiff_left] at ht
    refine (d4.deriv).trans_le (le_of_tendsto ht ?_)
    filter_upwards [self_mem_nhdsWithin] with W hW
    have hW : V < W := hW
    rw [slope_def_field]
    exact div_nonpos_of_nonpos_of_nonneg (sub_nonpos.2 (hanti W hW.le)) (by linarith)
  have h5 : deriv (fun W => -deriv (totalEnergy o p T N) W - (∑ i, N i) * (1 / (W - cv))
      - -(deriv (dispJ p N T) (cv / W) / W ^ 2)) V = _ := d4.deriv
  rw [h5] at h0
  linarith

/-- C93: bound of the slope in terms of the packing fraction and the temperature -/
theorem slope_bound (hp : Plain (fromRecords pr k)) (h : Admissible (fromRecords pr k) T V N) :
    ∃ A B, 0 ≤ A ∧ 0 ≤ B ∧ ∀ t W, Admissible (fromRecords pr k) t W N →
      -deriv (deriv (totalEnergy o (fromRecords pr k) t N)) W * W ^ 2
        ≤ -((∑ i, N i) / (1 - closeVolume (fromRecords pr k) t N / W) ^ 2)
          + closeVolume (fromRecords pr k) t N / W * (A / t + B / t ^ 2) := by
  set p := fromRecords pr k with hpd
  have hm := meanSegments_pos h
  obtain ⟨C1, hC1, b1⟩ := exists_slope_bound (J := dispJ1 p N) fun x _ _ => analyticAt_dispJ1 x
  obtain ⟨C2, hC2, b2⟩ := exists_slope_bound (J := dispJ2 p N) fun x h0 h1 => analyticAt_dispJ2 hm h0 h1
  obtain ⟨b, hb, hcb⟩ := exists_closeVolume_ge h
  refine ⟨C1 / b, C2 / b, by positivity, by positivity, fun t W hA => ?_⟩
  have ht := hA.temperature
  have hW := hA.volume
  have hle := hcb t ht
  have hlt := closeVolume_lt hA
  have hs := plain_slope (o := o) hp hA
  rw [← hpd] at hs
  set cv := closeVolume p t N with hcv
  have hc : 0 < cv := hb.trans_le hle
  have hx0 : 0 ≤ cv / W := by positivity
  have hx : cv / W ≤ 1 := ((div_lt_one hW).2 hlt).le
  obtain ⟨-, e1, e2⟩ := deriv_dispJ (T := t) hm hx0 hx
  have g1 := (abs_le.1 (b1 _ hx0 hx)).2
  have g2 := (abs_le.1 (b2 _ hx0 hx)).2
  rw [e1, e2] at hs
  set x := cv / W with hxd
  have e3 : (deriv (deriv (dispJ1 p N)) x / t + deriv (deriv (dispJ2 p N)) x / t ^ 2) * x
      + 2 * (deriv (dispJ1 p N) x / t + deriv (dispJ2 p N) x / t ^ 2)
      = (deriv (deriv (dispJ1 p N)) x * x + 2 * deriv (dispJ1 p N) x) / t
        + (deriv (deriv (dispJ2 p N)) x * x + 2 * deriv (dispJ2 p N) x) / t ^ 2 := by ring
  rw [e3] at hs
  have hK : (deriv (deriv (dispJ1 p N)) x * x + 2 * deriv (dispJ1 p N) x) / t
        + (deriv (deriv (dispJ2 p N)) x * x + 2 * deriv (dispJ2 p N) x) / t ^ 2 ≤ C1 / t + C2 / t ^ 2 := by
    gcongr
  have h1 := mul_le_mul_of_nonneg_right hs (sq_nonneg W)
  refine h1.trans ?_
  have e4 : (-((∑ i, N i) / (W - cv) ^ 2)
      + ((deriv (deriv (dispJ1 p N)) x * x + 2 * deriv (dispJ1 p N) x) / t
        + (deriv (deriv (dispJ2 p N)) x * x + 2 * deriv (dispJ2 p N) x) / t ^ 2) / W ^ 3) * W ^ 2
      = -((∑ i, N i) / (1 - x) ^ 2) + x * (((deriv (deriv (dispJ1 p N)) x * x + 2 * deriv (dispJ1 p N) x) / t
        + (deriv (deriv (dispJ2 p N)) x * x + 2 * deriv (dispJ2 p N) x) / t ^ 2) / cv) := by
    have h2 : 1 - x = (W - cv) / W := by rw [hxd]; field_simp
    have h3 : W - cv ≠ 0 := (sub_pos.2 hlt).ne'
    rw [h2]
    generalize (deriv (deriv (dispJ1 p N)) x * x + 2 * deriv (dispJ1 p N) x) / t
        + (deriv (deriv (dispJ2 p N)) x * x + 2 * deriv (dispJ2 p N) x) / t ^ 2 = K
    rw [hxd]
    field_simp
  rw [e4]
  refine add_le_add le_rfl (mul_le_mul_of_nonneg_left ?_ hx0)
  have h5 : C1 / b / t + C2 / b / t ^ 2 = (C1 / t + C2 / t ^ 2) / b := by ring
  rw [h5]
  refine (div_le_div_of_nonneg_right hK hc.le).trans (div_le_div_of_nonneg_left (by positivity) hb hle)

end

end PcSaft
