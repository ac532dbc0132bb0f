import Verif.Lemmas.ThrottlingPolar
import Verif.Props.BoylePolar
import Verif.Props.Throttling

/-!
# Property C113 for polar substances

From `1.5 ε` on there is exactly one inversion temperature, above the Boyle temperature.  At low temperature the polar
pair integrals change their sign, see `C113_cold_quadrupoles_counterexample`.
-/

namespace PcSaft
namespace Props
open PcSaft Spec Dual2

section
variable {m : ℝ} (hm : 1 ≤ m)
include hm

theorem dipole_throttle : 0 < pairZero AD m ∧ 0 ≤ pairZero AD m + 2 * pairZero BD m * (2 / 3) := by
  obtain ⟨h1, h2⟩ := min_range hm
  refine ⟨(dipole_range hm).1, ?_⟩
  have hm0 : 0 < m := by linarith
  rw [pairZero_eq _ hm0, pairZero_eq _ hm0]
  generalize (min m 2)⁻¹ = y at h1 h2
  have e0 : (AD 0 0 : ℝ) = 0.30435038064 := rfl
  have e1 : (AD 0 1 : ℝ) = 0.95346405973 := rfl
  have e2 : (AD 0 2 : ℝ) = -1.16100802773 := rfl
  have f0 : (BD 0 0 : ℝ) = 0.21879385627 := rfl
  have f1 : (BD 0 1 : ℝ) = -0.58731641193 := rfl
  have f2 : (BD 0 2 : ℝ) = 3.48695755800 := rfl
  rw [e0, e1, e2, f0, f1, f2]
  have := mul_nonneg (sub_nonneg.2 h1) (sub_nonneg.2 h2)
  nlinarith [sq_nonneg (y - 3 / 4), sq_nonneg (y - 0.8), sq_nonneg (y - 0.7)]

theorem quadrupole_throttle : 0 < pairZero AQ m ∧ 0 ≤ pairZero AQ m + 2 * pairZero BQ m * (2 / 3) := by
  obtain ⟨h1, h2⟩ := min_range hm
  refine ⟨(quadrupole_range hm).1, ?_⟩
  have hm0 : 0 < m := by linarith
  rw [pairZero_eq _ hm0, pairZero_eq _ hm0]
  generalize (min m 2)⁻¹ = y at h1 h2
  have e0 : (AQ 0 0 : ℝ) = 1.237830788 := rfl
  have e1 : (AQ 0 1 : ℝ) = 1.285410878 := rfl
  have e2 : (AQ 0 2 : ℝ) = 1.794295401 := rfl
  have f0 : (BQ 0 0 : ℝ) = 0.454271755 := rfl
  have f1 : (BQ 0 1 : ℝ) = -0.813734006 := rfl
  have f2 : (BQ 0 2 : ℝ) = 6.868267516 := rfl
  rw [e0, e1, e2, f0, f1, f2]
  have := mul_nonneg (sub_nonneg.2 h1) (sub_nonneg.2 h2)
  nlinarith [sq_nonneg (y - 3 / 4), sq_nonneg (y - 0.8), sq_nonneg (y - 0.7)]

theorem mixed_throttle : 0 < pairZero ADQ m ∧ 0 ≤ pairZero ADQ m + 2 * pairZero BDQ m * (2 / 3) := by
  obtain ⟨h1, h2⟩ := min_range hm
  refine ⟨(mixed_range hm).1, ?_⟩
  have hm0 : 0 < m := by linarith
  rw [pairZero_eq _ hm0, pairZero_eq _ hm0]
  generalize (min m 2)⁻¹ = y at h1 h2
  have e0 : (ADQ 0 0 : ℝ) = 0.697094963 := rfl
  have e1 : (ADQ 0 1 : ℝ) = -0.673459279 := rfl
  have e2 : (ADQ 0 2 : ℝ) = 0.670340770 := rfl
  have f0 : (BDQ 0 0 : ℝ) = -0.484038322 := rfl
  have f1 : (BDQ 0 1 : ℝ) = 0.67651011 := rfl
  have f2 : (BDQ 0 2 : ℝ) = -1.167560146 := rfl
  rw [e0, e1, e2, f0, f1, f2]
  have := mul_nonneg (sub_nonneg.2 h1) (sub_nonneg.2 h2)
  nlinarith [sq_nonneg (y - 3 / 4), sq_nonneg (y - 0.8), sq_nonneg (y - 0.7)]

end

variable {pr : Fin 1 → PureRecord ℝ} {k : Fin 1 → Fin 1 → ℝ} {T : ℝ}

/-- the polar sums do not vanish from `1.1 ε` on -/
theorem pure_regular_polar (hr : PositiveRecords pr)
    (hp : (fromRecords pr k).mu 0 ≠ 0 ∨ (fromRecords pr k).q 0 ≠ 0 → 1 ≤ (pr 0).model_record.m)
    (hs : (fromRecords pr k).kappa_ab 0 ≠ 0 → 0 < (fromRecords pr k).na 0) (o : PcSaftOptions ℝ)
    (hTε : 1.1 * (pr 0).model_record.epsilon_k ≤ T) {N : ℝ} (hN : 0 < N) :
    ∀ ct ∈ buildContributions (fromRecords pr k) o, DiluteRegular (fromRecords pr k) T (fun _ => N) ct := by
  intro ct hct
  have hε := hr.epsilon 0
  have hσ := hr.sigma 0
  have hT : 0 < T := lt_of_lt_of_le (mul_pos (by norm_num) hε) hTε
  have hx0 : 0 < (pr 0).model_record.epsilon_k / T := by positivity
  have hx1 : (pr 0).model_record.epsilon_k / T ≤ 10 / 11 := by
    rw [div_le_iff₀ hT]
    linarith
  have hN2 : 0 < N ^ 2 := by positivity
  rcases pure_mem hr hct with rfl | rfl | rfl | ⟨rfl, h⟩ | ⟨rfl, h⟩ | ⟨rfl, h, h'⟩ | ⟨rfl, hkz, hl⟩
  · trivial
  · trivial
  · trivial
  · have e := dipole_pure (k := k) hr hT N
    have hS := dipoleStrength_pos (k := k) hr h
    obtain ⟨r1, r2⟩ := dipole_range (hp (.inl h))
    have := polarForm_pos r1 r2 hx0.le hx1
    have pos : 0 < N ^ 2 * polarVirial pr k T .dipole := by
      unfold polarVirial dipPairStrength
      positivity
    exact fun h0 => by
      rw [h0, zero_mul] at e
      linarith
  · have e := quadrupole_pure (k := k) hr hT N
    have hS := quadrupoleStrength_pos (k := k) hr h
    obtain ⟨r1, r2⟩ := quadrupole_range (hp (.inr h))
    have := polarForm_pos r1 r2 hx0.le hx1
    have pos : 0 < N ^ 2 * polarVirial pr k T .quadrupole := by
      unfold polarVirial quadPairStrength
      positivity
    exact fun h0 => by
      rw [h0, zero_mul] at e
      linarith
  · have e := dipoleQuadrupole_pure (k := k) hr hT o.dq_variant N
    have hS := dipoleStrength_pos (k := k) hr h
    have hS' := quadrupoleStrength_pos (k := k) hr h'
    obtain ⟨r1, r2⟩ := mixed_range (hp (.inl h))
    have := polarForm_pos r1 r2 hx0.le hx1
    have pos : 0 < N ^ 2 * polarVirial pr k T (.dipoleQuadrupole o.dq_variant) := by
      unfold polarVirial mixedPairStrength
      positivity
    exact fun h0 => by
      rw [h0, zero_mul] at e
      linarith
  · exact ⟨0, hl, hs hkz⟩

/-- the coefficient of the enthalpy as a function of temperature -/
theorem pure_inversion_polar (hr : PositiveRecords pr) (hm : 4 / 5 ≤ (pr 0).model_record.m)
    (hp : (fromRecords pr k).mu 0 ≠ 0 ∨ (fromRecords pr k).q 0 ≠ 0 → 1 ≤ (pr 0).model_record.m)
    (hk : 0 ≤ (fromRecords pr k).kappa_ab 0)
    (hs : (fromRecords pr k).kappa_ab 0 ≠ 0 → 0 ≤ (fromRecords pr k).epsilon_k_ab 0 ∧ 0 < (fromRecords pr k).na 0
      ∧ 0 < (fromRecords pr k).nb 0) :
    ∃ B' : ℝ → ℝ, (∀ T, 0 < T → HasDerivAt (pureVirial pr k) (B' T) T)
      ∧ (∀ T, 1.5 * (pr 0).model_record.epsilon_k ≤ T → 0 < B' T)
      ∧ StrictMonoOn (fun T => pureVirial pr k T - T * B' T) (Set.Ici (1.5 * (pr 0).model_record.epsilon_k))
      ∧ ∃ TI, 1.5 * (pr 0).model_record.epsilon_k < TI ∧ pureVirial pr k TI - TI * B' TI = 0 := by
  have h1 := hr.m 0
  have h2 := hr.sigma 0
  have hA : 0 < Real.pi * (pr 0).model_record.m * (pr 0).model_record.sigma ^ 3 := by positivity
  obtain ⟨p1, p2, p3⟩ := polar_cases hp
  obtain ⟨C, e, hC, he, hb⟩ : ∃ C e, 0 ≤ C ∧ 0 ≤ e
      ∧ ∀ T, bondVirial (fromRecords pr k) T = C * (Real.exp (e / T) - 1) := by
    by_cases hkz : (fromRecords pr k).kappa_ab 0 = 0
    · exact ⟨0, 0, le_rfl, le_rfl, fun T => by rw [bondVirial, if_pos hkz, zero_mul]⟩
    · obtain ⟨s1, s2, s3⟩ := hs hkz
      have h3 : 0 < (fromRecords pr k).sigma 0 := h2
      exact ⟨(fromRecords pr k).na 0 * (fromRecords pr k).nb 0 * (fromRecords pr k).sigma 0 ^ 3
        * (fromRecords pr k).kappa_ab 0, (fromRecords pr k).epsilon_k_ab 0, by positivity, s1, fun T => by
          rw [bondVirial, if_neg hkz]⟩
  have := inversion_temperature_polar hm (hr.epsilon 0) hA hC he (dipPairStrength_nonneg (k := k) hr)
    (quadPairStrength_nonneg (k := k) hr) (mixedPairStrength_nonneg (k := k) hr) (fun h => dipole_throttle (p1 h))
    (fun h => quadrupole_throttle (p2 h)) (fun h => mixed_throttle (p3 h))
  simp only [← hb] at this
  exact this

/-- the slope that the code returns is the derivative of `pureVirial` -/
theorem pure_slope_polar (hr : PositiveRecords pr) (hk : 0 ≤ (fromRecords pr k).kappa_ab 0)
    (hs : (fromRecords pr k).kappa_ab 0 ≠ 0 → 0 ≤ (fromRecords pr k).epsilon_k_ab 0 ∧ 0 < (fromRecords pr k).na 0
      ∧ 0 < (fromRecords pr k).nb 0)
    (h00 : k 0 0 = 0) (o : PcSaftOptions ℝ) (laX' : LinAlg XReal XDual3) (hT : 0 < T) {s : ℝ}
    (hd : HasDerivAt (pureVirial pr k) s T) :
    IsSecondVirialSlope pr k o laX' T (fun _ => 1) (pureVirial pr k T) s := by
  let laX : LinAlg XReal XDual2 := ⟨fun _ _ _ => none, fun _ _ _ => none, 0⟩
  have hk' : ∀ i, 0 ≤ (fromRecords pr k).kappa_ab i := fun i => by
    rw [Subsingleton.elim i 0]
    exact hk
  have hsites : ∀ a ∈ (fromRecords pr k).assoc_comp, 0 < (fromRecords pr k).na a ∧ 0 < (fromRecords pr k).nb a :=
    fun a ha => by
      rw [mem_assoc_comp, Subsingleton.elim a 0] at ha
      rw [Subsingleton.elim a 0]
      exact (hs ha).2
  obtain ⟨C, C', hC⟩ := C110_second (x := fun _ : Fin 1 => (1 : ℝ)) hr hk' (fun _ => zero_le_one) (by simp) o
    (fun a ha => (hsites a ha).1) (fun a ha => (hsites a ha).2) laX laX'
  have eC : ∀ T, 0 < T → C T = pureVirial pr k T := fun T hT =>
    virial_unique (hC T hT).1 (pure_virial_polar hr hk hs h00 hT o laX)
  have eC' : C' T = s := by
    refine (hC T hT).2.2.unique (hd.congr_of_eventuallyEq ?_)
    filter_upwards [lt_mem_nhds hT] with t ht
    exact eC t ht
  rw [← eC T hT, ← eC']
  exact (hC T hT).2.1

/-! ## The property -/

section
variable (hr : PositiveRecords pr) (hm : 4 / 5 ≤ (pr 0).model_record.m)
  (hp : (fromRecords pr k).mu 0 ≠ 0 ∨ (fromRecords pr k).q 0 ≠ 0 → 1 ≤ (pr 0).model_record.m)
  (hk : 0 ≤ (fromRecords pr k).kappa_ab 0)
  (hs : (fromRecords pr k).kappa_ab 0 ≠ 0 → 0 ≤ (fromRecords pr k).epsilon_k_ab 0 ∧ 0 < (fromRecords pr k).na 0
    ∧ 0 < (fromRecords pr k).nb 0) (h00 : k 0 0 = 0)
include hr hm hp hk hs h00

/-- C113 with moments: there is exactly one inversion temperature above `1.5 ε`, and from `1.5 ε` on the second virial
coefficient is positive only above a Boyle temperature that is lower. -/
theorem C113_polar_inversion_partial (o : PcSaftOptions ℝ) (laX' : LinAlg XReal XDual3) :
    ∃ TB TI, 1.1 * (pr 0).model_record.epsilon_k < TB ∧ TB < TI ∧ 1.5 * (pr 0).model_record.epsilon_k < TI
      ∧ ∀ T, 1.5 * (pr 0).model_record.epsilon_k ≤ T → ∃ b b', IsSecondVirialSlope pr k o laX' T (fun _ => 1) b b'
        ∧ 0 < b' ∧ (b < 0 ↔ T < TB) ∧ (b < T * b' ↔ T < TI) ∧ (b = T * b' ↔ T = TI) ∧ (T * b' < b ↔ TI < T) := by
  have hε := hr.epsilon 0
  obtain ⟨mono, TB, hTB, hz⟩ := pure_virial_polar_boyle hr hm hp hk hs
  obtain ⟨B', hB', pos, mono', TI, hTI, hz'⟩ := pure_inversion_polar hr hm hp hk hs
  have hlt : TB < TI := by
    rcases le_or_gt TB (1.5 * (pr 0).model_record.epsilon_k) with h | h
    · exact h.trans_lt hTI
    · refine (mono'.lt_iff_lt (Set.mem_Ici.2 h.le) (Set.mem_Ici.2 hTI.le)).1 ?_
      have h2 := mul_pos (show 0 < TB by linarith) (pos TB h.le)
      rw [hz', hz]
      linarith
  refine ⟨TB, TI, hTB, hlt, hTI, fun T hT => ?_⟩
  have hT0 : 0 < T := by linarith
  have hT1 : 1.1 * (pr 0).model_record.epsilon_k ≤ T := by linarith
  refine ⟨_, _, pure_slope_polar hr hk hs h00 o laX' hT0 (hB' T hT0), pos T hT, ?_⟩
  have h1 := mono.lt_iff_lt (Set.mem_Ici.2 hT1) (Set.mem_Ici.2 hTB.le)
  have h2 := mono'.lt_iff_lt (Set.mem_Ici.2 hT) (Set.mem_Ici.2 hTI.le)
  have h3 := mono'.lt_iff_lt (Set.mem_Ici.2 hTI.le) (Set.mem_Ici.2 hT)
  have h4 := mono'.injOn.eq_iff (Set.mem_Ici.2 hT) (Set.mem_Ici.2 hTI.le)
  beta_reduce at h2 h3 h4
  rw [hz] at h1
  rw [hz'] at h2 h3 h4
  exact ⟨h1, by rw [← h2, sub_neg], by rw [← h4, sub_eq_zero], by rw [← h3, sub_pos]⟩

/-- C113 with moments, the enthalpies: between `1.5 ε` and the inversion temperature the residual enthalpy of the dilute
gas is negative, above the inversion temperature it is positive. -/
theorem C113_polar_enthalpy_partial (o : PcSaftOptions ℝ) (laD : LinAlg ℝ (Dual ℝ)) :
    ∃ TI, 1.5 * (pr 0).model_record.epsilon_k < TI ∧ ∀ T N, 1.5 * (pr 0).model_record.epsilon_k ≤ T → 0 < N →
    (T < TI → ∃ V₀, ∀ V, V₀ ≤ V → ∃ w, IsResidualEnthalpy (fromRecords pr k) o laD T V (fun _ => N) w ∧ w < 0)
    ∧ (TI < T → ∃ V₀, ∀ V, V₀ ≤ V → ∃ w, IsResidualEnthalpy (fromRecords pr k) o laD T V (fun _ => N) w ∧ 0 < w) := by
  let laX' : LinAlg XReal XDual3 := ⟨fun _ _ _ => none, fun _ _ _ => none, 0⟩
  have hε := hr.epsilon 0
  have hk' : ∀ i, 0 ≤ (fromRecords pr k).kappa_ab i := fun i => by
    rw [Subsingleton.elim i 0]
    exact hk
  have hsites : ∀ a ∈ (fromRecords pr k).assoc_comp, 0 < (fromRecords pr k).na a ∧ 0 < (fromRecords pr k).nb a :=
    fun a ha => by
      rw [mem_assoc_comp, Subsingleton.elim a 0] at ha
      rw [Subsingleton.elim a 0]
      exact (hs ha).2
  obtain ⟨TB, TI, -, -, hTI, hI⟩ := C113_polar_inversion_partial hr hm hp hk hs h00 o laX'
  refine ⟨TI, hTI, fun T N hTε hN => ?_⟩
  have hT : 0 < T := by linarith
  obtain ⟨b, b', hb, -, -, g1, -, g2⟩ := hI T hTε
  have hx : (fun i : Fin 1 => N / ∑ _j : Fin 1, N) = fun _ => 1 := by
    funext i
    simp [hN.ne']
  obtain ⟨f1, f2⟩ := C112_sign hr hk' (pure_admissible (k := k) hr hT hN) o
    (pure_regular_polar hr hp (fun hne => (hs hne).2.1) o (by linarith) hN) (fun a ha => (hsites a ha).1)
    (fun a ha => (hsites a ha).2) laX' laD (b := b) (b' := b') (by rw [hx]; exact hb)
  exact ⟨fun hT' => f1 (g1.2 hT'), fun hT' => f2 (g2.2 hT')⟩

end

/-- C113 for the shipped files: every substance, whichever moments and sites it has, has exactly one inversion temperature
above `1.5 ε`, and its dilute gas has negative residual enthalpies at lower and positive ones at higher temperatures. -/
theorem C113_all_shipped_partial {pr : Fin 1 → PureRecord ℝ} (hpr : MixtureOf Shipped.substances pr) (o : PcSaftOptions ℝ)
    (laX' : LinAlg XReal XDual3) (laD : LinAlg ℝ (Dual ℝ)) :
    (∃ TB TI, 1.1 * (pr 0).model_record.epsilon_k < TB ∧ TB < TI ∧ 1.5 * (pr 0).model_record.epsilon_k < TI
      ∧ ∀ T, 1.5 * (pr 0).model_record.epsilon_k ≤ T →
        ∃ b b', IsSecondVirialSlope pr (fun _ _ => 0) o laX' T (fun _ => 1) b b'
        ∧ 0 < b' ∧ (b < 0 ↔ T < TB) ∧ (b < T * b' ↔ T < TI) ∧ (b = T * b' ↔ T = TI) ∧ (T * b' < b ↔ TI < T))
    ∧ ∃ TI, 1.5 * (pr 0).model_record.epsilon_k < TI ∧ ∀ T N, 1.5 * (pr 0).model_record.epsilon_k ≤ T → 0 < N →
      (T < TI → ∃ V₀, ∀ V, V₀ ≤ V → ∃ w, IsResidualEnthalpy (fromRecords pr fun _ _ => 0) o laD T V (fun _ => N) w
        ∧ w < 0)
      ∧ (TI < T → ∃ V₀, ∀ V, V₀ ≤ V → ∃ w, IsResidualEnthalpy (fromRecords pr fun _ _ => 0) o laD T V (fun _ => N) w
        ∧ 0 < w) := by
  have hp := mixture_pos (fun _ _ => 0) hpr
  have hr : PositiveRecords pr := ⟨fun i => by
    have : 4 / 5 ≤ (pr i).model_record.m := (hp i).1
    linarith, fun i => (hp i).2.1, fun i => (hp i).2.2⟩
  have hk := mixture_kappa (fun _ _ => 0) hpr 0
  obtain ⟨r, hr', hm, -, -, -, hmu, hq, -, h2, h3, h4, -⟩ := mixture_entry hpr (fun _ _ => 0) 0
  obtain ⟨-, g1, g2, g3, -⟩ := shipped_sites r hr'
  have hs : 0 ≤ (fromRecords pr fun _ _ => 0).epsilon_k_ab 0 ∧ 0 < (fromRecords pr fun _ _ => 0).na 0
      ∧ 0 < (fromRecords pr fun _ _ => 0).nb 0 := by
    rw [h2, h3, h4]
    exact ⟨by exact_mod_cast g1, by exact_mod_cast g2, by exact_mod_cast g3⟩
  have hpol : (fromRecords pr fun _ _ => 0).mu 0 ≠ 0 ∨ (fromRecords pr fun _ _ => 0).q 0 ≠ 0 →
      1 ≤ (pr 0).model_record.m := by
    change _ → 1 ≤ (fromRecords pr fun _ _ => 0).m 0
    rw [hm, hmu, hq]
    rintro (h | h)
    · exact_mod_cast (shipped_dipoles r hr' (by exact_mod_cast h)).1
    · exact_mod_cast (shipped_quadrupoles r hr' (by exact_mod_cast h)).1
  exact ⟨C113_polar_inversion_partial hr (hp 0).1 hpol hk (fun _ => hs) rfl o laX',
    C113_polar_enthalpy_partial hr (hp 0).1 hpol hk (fun _ => hs) rfl o laD⟩

/-! ## Cold quadrupoles -/

/-- C113 fails with quadrupoles: for every pure substance with a quadrupole, between 1.1 and 1.9 segments, no dipole and
no sites, `T b' < b` at low temperature, so that the dilute gas would warm when it is throttled there as well. -/
theorem C113_cold_quadrupoles_counterexample (hr : PositiveRecords pr) (hm : 11 / 10 ≤ (pr 0).model_record.m)
    (hm' : (pr 0).model_record.m ≤ 19 / 10) (hk : (fromRecords pr k).kappa_ab 0 = 0)
    (hmu : (fromRecords pr k).mu 0 = 0) (hq : (fromRecords pr k).q 0 ≠ 0)
    (h00 : k 0 0 = 0) (o : PcSaftOptions ℝ) (laX' : LinAlg XReal XDual3) :
    ∃ T₀, 0 < T₀ ∧ ∀ T, 0 < T → T < T₀ → ∃ b b', IsSecondVirialSlope pr k o laX' T (fun _ => 1) b b' ∧ T * b' < b := by
  have hm0 := hr.m 0
  have hσ := hr.sigma 0
  have hε := hr.epsilon 0
  have hS := quadrupoleStrength_pos (k := k) hr hq
  set m := (pr 0).model_record.m with hmdef
  set ε := (pr 0).model_record.epsilon_k with hεdef
  set A := Real.pi * m * (pr 0).model_record.sigma ^ 3 with hAdef
  have hA : 0 < A := by positivity
  have hQ : 0 < quadPairStrength pr k := by
    unfold quadPairStrength
    positivity
  have hβ : 0 < -pairZero BQ m := by
    rw [pairZero_eq _ hm0, min_eq_left (by linarith)]
    have h1 : m⁻¹ ≤ 10 / 11 := by
      rw [inv_le_comm₀ hm0 (by norm_num)]
      linarith
    have h2 : 10 / 19 ≤ m⁻¹ := by
      rw [le_inv_comm₀ (by norm_num) hm0]
      linarith
    generalize m⁻¹ = y at h1 h2
    have f0 : (BQ 0 0 : ℝ) = 0.454271755 := rfl
    have f1 : (BQ 0 1 : ℝ) = -0.813734006 := rfl
    have f2 : (BQ 0 2 : ℝ) = 6.868267516 := rfl
    rw [f0, f1, f2]
    nlinarith [mul_nonneg (sub_nonneg.2 h1) (sub_nonneg.2 h2)]
  have eB : pureVirial pr k = fun T => A * boyleForm m (ε / T)
      - quadPairStrength pr k * ((ε / T) ^ 2 * (pairZero AQ m + pairZero BQ m * (ε / T))) := by
    funext T
    have z1 : polarVirial pr k T .dipole = 0 := by simp [polarVirial, dipPairStrength, dipoleStrength_zero hmu]
    have z2 : polarVirial pr k T (.dipoleQuadrupole .DQ35) = 0 := by
      simp [polarVirial, mixedPairStrength, dipoleStrength_zero hmu]
    have z3 : polarVirial pr k T .quadrupole = quadPairStrength pr k * ((ε / T) ^ 2
      * (pairZero AQ m + pairZero BQ m * (ε / T))) := rfl
    rw [pureVirial, z1, z2, z3, bondVirial, if_pos hk]
    ring
  obtain ⟨X, hX1, hX⟩ := cold_enthalpy (α := pairZero AQ m) hm0 hA hQ hβ
  refine ⟨ε / X, by positivity, fun T hT hTX => ?_⟩
  have hx : X < ε / T := by
    rw [lt_div_iff₀ (by positivity)] at hTX
    rw [lt_div_iff₀ hT]
    linarith
  have hd : HasDerivAt (pureVirial pr k) (A * (boyleSlope m (ε / T) * (-(ε / T ^ 2)))
      - quadPairStrength pr k * (-((ε / T) ^ 2 * (2 * pairZero AQ m + 3 * pairZero BQ m * (ε / T))) / T)) T := by
    rw [eB]
    have hq' : HasDerivAt (fun T : ℝ => ε / T) (-(ε / T ^ 2)) T := by
      have := (hasDerivAt_inv hT.ne').const_mul ε
      simp only [div_eq_mul_inv]
      exact this.congr_deriv (by ring)
    have k1 : HasDerivAt (fun T : ℝ => boyleForm m (ε / T)) (boyleSlope m (ε / T) * (-(ε / T ^ 2))) T :=
      HasDerivAt.comp T (h₂ := boyleForm m) (hasDerivAt_boyleForm m (ε / T)) hq'
    exact (k1.const_mul A).sub ((hasDerivAt_polarForm _ _ ε hT.ne').const_mul _)
  refine ⟨_, _, pure_slope_polar hr hk.ge (fun h => absurd hk h) h00 o laX' hT hd, ?_⟩
  have h1 := hX _ hx
  rw [throttleForm_eq] at h1
  rw [eB, ← sub_pos]
  refine h1.trans_eq ?_
  beta_reduce
  have e1 : ε / T ^ 2 = ε / T / T := by field_simp
  rw [e1]
  generalize boyleSlope m (ε / T) = s
  generalize boyleForm m (ε / T) = b
  generalize ε / T = x
  field_simp
  ring

/-! ## Cases that meet the hypotheses -/

example (laX' : LinAlg XReal XDual3) (laD : LinAlg ℝ (Dual ℝ)) :=
  C113_all_shipped_partial carbonDioxide_mixture PcSaftOptions.default laX' laD

example (laX' : LinAlg XReal XDual3) (laD : LinAlg ℝ (Dual ℝ)) :=
  C113_all_shipped_partial acetone_mixture PcSaftOptions.default laX' laD

/-- a substance with a dipole, a quadrupole and sites -/
example (laX' : LinAlg XReal XDual3) (laD : LinAlg ℝ (Dual ℝ)) :=
  have hm : (4 / 5 : ℝ) ≤ (everyMoment 0).model_record.m := by norm_num [everyMoment]
  have hp : (fromRecords everyMoment fun _ _ => 0).mu 0 ≠ 0 ∨ (fromRecords everyMoment fun _ _ => 0).q 0 ≠ 0 →
      1 ≤ (everyMoment 0).model_record.m := fun _ => by norm_num [everyMoment]
  have hk : 0 ≤ (fromRecords everyMoment fun _ _ => 0).kappa_ab 0 := by
    change (0 : ℝ) ≤ 0.02
    norm_num
  have hs : (fromRecords everyMoment fun _ _ => 0).kappa_ab 0 ≠ 0 →
      0 ≤ (fromRecords everyMoment fun _ _ => 0).epsilon_k_ab 0 ∧ 0 < (fromRecords everyMoment fun _ _ => 0).na 0
        ∧ 0 < (fromRecords everyMoment fun _ _ => 0).nb 0 := fun _ => by
    change (0 : ℝ) ≤ 2000 ∧ (0 : ℝ) < 1 ∧ (0 : ℝ) < 1
    norm_num
  And.intro
    (C113_polar_inversion_partial everyMoment_pos hm hp hk hs rfl ⟨0.5, 50, 1e-10, .DQ44⟩ laX')
    (C113_polar_enthalpy_partial everyMoment_pos hm hp hk hs rfl PcSaftOptions.default laD)

/-- carbon dioxide -/
example (laX' : LinAlg XReal XDual3) :=
  have hp := mixture_pos (fun _ _ => 0) carbonDioxide_mixture
  have hr : PositiveRecords carbonDioxide := ⟨fun i => by
    have : 4 / 5 ≤ (carbonDioxide i).model_record.m := (hp i).1
    linarith, fun i => (hp i).2.1, fun i => (hp i).2.2⟩
  have em : (carbonDioxide 0).model_record.m = 1.6298 := by
    change (((Shipped.gross2005_fit[0]'(by decide)).model_record.m : ℚ) : ℝ) = _
    norm_num [Shipped.gross2005_fit, Shipped.substance, Shipped.record]
  C113_cold_quadrupoles_counterexample (k := fun _ _ => 0) hr (by rw [em]; norm_num) (by rw [em]; norm_num)
    (by change Option.getD none (0.0 : ℝ) = 0; norm_num) (by change Option.getD none (0.0 : ℝ) = 0; norm_num)
    (by
      change (((Shipped.gross2005_fit[0]'(by decide)).model_record.q.map (Rat.cast : ℚ → ℝ)).getD 0.0) ≠ 0
      norm_num [Shipped.gross2005_fit, Shipped.substance, Shipped.record]) rfl PcSaftOptions.default laX'

end Props
end PcSaft
