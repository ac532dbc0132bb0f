import Verif.Props.Mixture
import Mathlib.Analysis.Calculus.Deriv.Inv
import Mathlib.Analysis.Calculus.Deriv.Pow
import Mathlib.Analysis.SpecialFunctions.Log.Deriv
import Mathlib.Analysis.SpecialFunctions.ExpDeriv

/-!
# C52, C61: the ideal gas model from quantitative structure property relations
-/

namespace PcSaft.Spec

/-- Isobaric heat capacity of an ideal gas in units of the gas constant, from the logarithm of the cubed
de Broglie wavelength `lam`.  The Helmholtz energy is `N k T (ln ρ + lam T - 1)`, so `T lam T` contributes
`-T (T lam)''` to the isochoric heat capacity and the isobaric one is larger by one. -/
noncomputable def idealGasHeatCapacity (lam : ℝ → ℝ) (T : ℝ) : ℝ :=
  1 - T * deriv (deriv fun T => T * lam T) T

end PcSaft.Spec

namespace PcSaft.Props
open PcSaft Filter Topology
variable {n : ℕ}

theorem nonzeroComp_length_ne_zero (v : Fin n → ℝ) : (nonzeroComp v).length ≠ 0 ↔ ∃ i, v i ≠ 0 := by
  rw [ne_eq, List.length_eq_zero_iff, ← ne_eq, List.ne_nil_iff_exists_cons]
  constructor
  · rintro ⟨i, l, h⟩
    exact ⟨i, (mem_nonzeroComp v i).mp (by rw [h]; simp)⟩
  · rintro ⟨i, h⟩
    have := (mem_nonzeroComp v i).mpr h
    match hl : nonzeroComp v with
    | [] => rw [hl] at this; simp at this
    | x :: l => exact ⟨x, l, rfl⟩

/-- C52: choice of the coefficient set, from the input records -/
theorem C52_coefficients (pr : Fin n → PureRecord ℝ) (k : Fin n → Fin n → ℝ)
    (hpos : ∀ i, 0 < (pr i).model_record.m ∧ 0 < (pr i).model_record.sigma
      ∧ 0 < (pr i).model_record.epsilon_k) :
    let p := fromRecords pr k
    let associating := ∃ i, (pr i).model_record.kappa_ab.getD 0 ≠ 0
    let polar := ∃ i, (pr i).model_record.mu.getD 0 ≠ 0 ∨ (pr i).model_record.q.getD 0 ≠ 0
    (associating → qsprCoefficients p = (AP_300, AP_400))
    ∧ (¬ associating ∧ polar → qsprCoefficients p = (NA_P_300, NA_P_400))
    ∧ (¬ associating ∧ ¬ polar → qsprCoefficients p = (NA_NP_300, NA_NP_400)) := by
  intro p associating polar
  have h0 : (0.0 : ℝ) = 0 := by norm_num
  have hA : p.nassoc ≠ 0 ↔ associating := by
    refine (nonzeroComp_length_ne_zero p.kappa_ab).trans ?_
    simp only [p, fromRecords, h0, associating]
  have hmu : ∀ i, p.mu2 i ≠ 0 ↔ (pr i).model_record.mu.getD 0 ≠ 0 := by
    intro i
    obtain ⟨h1, h2, h3⟩ := hpos i
    simp only [p, fromRecords, h0, jouleKelvinKB]
    constructor
    · intro h hz
      refine h ?_
      rw [hz]
      simp
    · intro h
      have : (1e-19 : ℝ) ≠ 0 := by norm_num
      have : (1.0 : ℝ) / 1.380649e-23 ≠ 0 := by norm_num
      positivity
  have hq : ∀ i, p.q2 i ≠ 0 ↔ (pr i).model_record.q.getD 0 ≠ 0 := by
    intro i
    obtain ⟨h1, h2, h3⟩ := hpos i
    simp only [p, fromRecords, h0, jouleKelvinKB, powi_real]
    constructor
    · intro h hz
      refine h ?_
      rw [hz]
      simp
    · intro h
      have : (1e-19 : ℝ) ≠ 0 := by norm_num
      have : (1.0 : ℝ) / 1.380649e-23 ≠ 0 := by norm_num
      positivity
  have hP : p.ndipole + p.nquadpole ≠ 0 ↔ polar := by
    have h1 : p.ndipole ≠ 0 ↔ ∃ i, p.mu2 i ≠ 0 := nonzeroComp_length_ne_zero p.mu2
    have h2 : p.nquadpole ≠ 0 ↔ ∃ i, p.q2 i ≠ 0 := nonzeroComp_length_ne_zero p.q2
    have h3 : p.ndipole + p.nquadpole ≠ 0 ↔ p.ndipole ≠ 0 ∨ p.nquadpole ≠ 0 := by omega
    rw [h3, h1, h2, ← exists_or]
    simp only [hmu, hq, polar]
  refine ⟨fun h => ?_, fun h => ?_, fun h => ?_⟩
  · have := hA.mpr h
    unfold qsprCoefficients
    split
    · next hn => exact absurd hn this
    · rfl
  · have h1 : p.nassoc = 0 := not_not.mp (hA.not.mpr h.1)
    have h2 := hP.mpr h.2
    unfold qsprCoefficients
    rw [h1]
    simp only
  · have h1 : p.nassoc = 0 := not_not.mp (hA.not.mpr h.1)
    have h2 : p.ndipole + p.nquadpole = 0 := not_not.mp (hP.not.mpr h.2)
    unfold qsprCoefficients
    rw [h1]
    simp only
    rw [h2]
    rfl

/-- C52: at 298.15 K the result does not depend on the parameters -/
theorem C52_reference_state (p : PcSaftParameters n ℝ) (i : Fin n) :
    qsprDeBroglie p (298.15 : ℝ) i = Real.log (1.38064852e-23 * 298.15 / (1e5 * (1e-10) ^ 3)) := by
  have h1 : (298.15 : ℝ) / 298.15 = 1 := div_self (by norm_num)
  have h2 : (1.0e5 : ℝ) * 1e-30 = 1e5 * (1e-10) ^ 3 := by norm_num
  simp only [qsprDeBroglie, T0, c, ofF_real, dln_real, dpowi_real, qsprKB, P0, A3, h1, h2, sub_self, Real.log_one,
    mul_zero, ne_eq, OfNat.ofNat_ne_zero, not_false_eq_true, zero_pow, zero_mul, zero_div, zero_add]
  rw [mul_comm]

/-! ### C61 -/

section derivatives
variable {a b a' b' : ℝ → ℝ}

/-- the integrated heat capacity of /repo/src/eos/qspr.rs:114-116 for temperature dependent `a` and `b` -/
theorem deriv2_integral {T₀ : ℝ} (hT₀ : 0 < T₀)
    (ha : ∀ T, 0 < T → HasDerivAt a (a' T) T) (hb : ∀ T, 0 < T → HasDerivAt b (b' T) T)
    {T a'' b'' : ℝ} (hT : 0 < T) (ha' : HasDerivAt a' a'' T) (hb' : HasDerivAt b' b'' T) (R C : ℝ)
    (hR : R ≠ 0) (hC : 0 < C) :
    deriv (deriv fun T => T * ((a T * (T - T₀ - T * Real.log (T / T₀)) - b T * (T - T₀) ^ 2 * (1 / 2))
        / (T * R) + Real.log (T * C))) T
      = (a'' * (T - T₀ - T * Real.log (T / T₀)) - 2 * a' T * Real.log (T / T₀) - a T / T
          - (b'' * (T - T₀) ^ 2 * (1 / 2) + 2 * b' T * (T - T₀) + b T)) / R + 1 / T := by
  have hlog : ∀ t, 0 < t → HasDerivAt (fun T => Real.log (T / T₀)) (1 / t) t := by
    intro t ht
    have h := ((hasDerivAt_id' t).div_const T₀).log (div_pos ht hT₀).ne'
    refine HasDerivAt.congr_deriv h ?_
    field_simp
  have hlogC : ∀ t, 0 < t → HasDerivAt (fun T => Real.log (T * C)) (1 / t) t := by
    intro t ht
    have h := ((hasDerivAt_id' t).mul_const C).log (mul_pos ht hC).ne'
    refine HasDerivAt.congr_deriv h ?_
    field_simp
  have hg : ∀ t, 0 < t → HasDerivAt (fun T => T - T₀ - T * Real.log (T / T₀)) (-Real.log (t / T₀)) t := by
    intro t ht
    have h := ((hasDerivAt_id' t).sub_const T₀).sub ((hasDerivAt_id' t).mul (hlog t ht))
    refine HasDerivAt.congr_deriv h ?_
    field_simp
    ring
  have hh : ∀ t : ℝ, HasDerivAt (fun T => (T - T₀) ^ 2) (2 * (t - T₀)) t := by
    intro t
    have h := ((hasDerivAt_id' t).sub_const T₀).pow 2
    refine HasDerivAt.congr_deriv h ?_
    simp
  -- first derivative
  have hfirst : ∀ t, 0 < t → HasDerivAt (fun T => T * ((a T * (T - T₀ - T * Real.log (T / T₀))
        - b T * (T - T₀) ^ 2 * (1 / 2)) / (T * R) + Real.log (T * C)))
      ((a' t * (t - T₀ - t * Real.log (t / T₀)) + a t * -Real.log (t / T₀)
        - (b' t * (t - T₀) ^ 2 + b t * (2 * (t - T₀))) * (1 / 2)) / R + (Real.log (t * C) + 1)) t := by
    intro t ht
    have h1 := (((ha t ht).mul (hg t ht)).sub (((hb t ht).mul (hh t)).mul_const (1 / 2))).div_const R
    have h2 := (hasDerivAt_id' t).mul (hlogC t ht)
    have h3 := h1.add h2
    have h4 := h3.congr_of_eventuallyEq (f₁ := fun T => T * ((a T * (T - T₀ - T * Real.log (T / T₀))
        - b T * (T - T₀) ^ 2 * (1 / 2)) / (T * R) + Real.log (T * C))) (by
      filter_upwards [lt_mem_nhds ht] with x hx
      simp only [Pi.add_apply, Pi.mul_apply, Pi.sub_apply]
      field_simp)
    refine HasDerivAt.congr_deriv h4 ?_
    field_simp
  have hev : (deriv fun T => T * ((a T * (T - T₀ - T * Real.log (T / T₀)) - b T * (T - T₀) ^ 2 * (1 / 2))
        / (T * R) + Real.log (T * C))) =ᶠ[𝓝 T] fun t =>
      (a' t * (t - T₀ - t * Real.log (t / T₀)) + a t * -Real.log (t / T₀)
        - (b' t * (t - T₀) ^ 2 + b t * (2 * (t - T₀))) * (1 / 2)) / R + (Real.log (t * C) + 1) := by
    filter_upwards [lt_mem_nhds hT] with x hx
    exact (hfirst x hx).deriv
  rw [hev.deriv_eq]
  have h1 : HasDerivAt (fun t : ℝ => 2 * (t - T₀)) 2 T := by
    have h := ((hasDerivAt_id' T).sub_const T₀).const_mul (2 : ℝ)
    simpa using h
  have h2 := (((ha'.mul (hg T hT)).add ((ha T hT).mul (hlog T hT).neg)).sub
    (((hb'.mul (hh T)).add ((hb T hT).mul h1)).mul_const (1 / 2))).div_const R
  have h3 := h2.add ((hlogC T hT).add_const 1)
  refine (HasDerivAt.deriv h3).trans ?_
  simp only [Pi.neg_apply]
  field_simp
  ring

end derivatives

/-- the correlation for 300 K or 400 K as function of the temperature in the code -/
theorem qsprIcpc_real (p : PcSaftParameters n ℝ) (cc : Fin 6 → ℝ) (tc T : ℝ) (i : Fin n) :
    qsprIcpc p cc tc T i
      = (p.sigma i ^ 3 * p.m i * cc 1 + p.sigma i ^ 3 * p.m i * p.q i * cc 4 + cc 5) / 1000
        + p.epsilon_k i * p.m i * (cc 0 + p.sigma i ^ 3 * cc 2) / tc / 1000 * T⁻¹
        + p.sigma i ^ 6 * p.m i * p.kappa_ab i * cc 3 / tc / 1000
          * (Real.exp (p.epsilon_k_ab i * T⁻¹) - 1) := by
  have h1 : (1.0 : ℝ) = 1 := by norm_num
  have h2 : (0.001 : ℝ) = 1 / 1000 := by norm_num
  simp only [qsprIcpc, c, ofF_real, recip_real, powi_real, dexpm1_real, h1, h2]
  rw [mul_comm T⁻¹ (p.epsilon_k_ab i)]
  generalize Real.exp _ = e
  generalize T⁻¹ = t
  ring

theorem hasDerivAt_inverse_form (A B G d : ℝ) {T : ℝ} (hT : 0 < T) :
    HasDerivAt (fun T : ℝ => A + B * T⁻¹ + G * (Real.exp (d * T⁻¹) - 1))
      (-(B + G * d * Real.exp (d * T⁻¹)) * (T⁻¹) ^ 2) T := by
  have h := hasDerivAt_inv hT.ne'
  refine HasDerivAt.congr_deriv
    (((h.const_mul B).const_add A).add ((((h.const_mul d).exp).sub_const 1).const_mul G)) ?_
  field_simp
  ring

theorem hasDerivAt_inverse_form2 (B G d : ℝ) {T : ℝ} (hT : 0 < T) :
    HasDerivAt (fun T : ℝ => -(B + G * d * Real.exp (d * T⁻¹)) * (T⁻¹) ^ 2)
      (2 * (B + G * d * Real.exp (d * T⁻¹)) * T⁻¹ ^ 3 + G * d ^ 2 * Real.exp (d * T⁻¹) * T⁻¹ ^ 4) T := by
  have h := hasDerivAt_inv hT.ne'
  refine HasDerivAt.congr_deriv
    (((((h.const_mul d).exp).const_mul (G * d)).const_add B).neg.mul (h.pow 2)) ?_
  simp only [Pi.neg_apply]
  generalize hE : Real.exp _ = E
  have : (T ^ 2)⁻¹ = T⁻¹ ^ 2 := by rw [inv_pow]
  rw [this]
  push_cast
  ring

/-- slope `b` of the linear heat capacity, /repo/src/eos/qspr.rs:111 -/
noncomputable def qsprB (p : PcSaftParameters n ℝ) (i : Fin n) (T : ℝ) : ℝ :=
  (qsprIcpc p (qsprCoefficients p).2 400 T i - qsprIcpc p (qsprCoefficients p).1 300 T i) / 100

/-- The linear interpolation between the values of the correlations for 300 K and 400 K, evaluated with the
dimensionless groups for the temperature `T`, at the temperature `t` (in J/(mol K)). -/
noncomputable def qsprLinear (p : PcSaftParameters n ℝ) (i : Fin n) (T t : ℝ) : ℝ :=
  qsprIcpc p (qsprCoefficients p).1 300 T i + qsprB p i T * (t - 300)

theorem qsprDeBroglie_real (p : PcSaftParameters n ℝ) (i : Fin n) (T : ℝ) :
    qsprDeBroglie p T i
      = ((qsprIcpc p (qsprCoefficients p).1 300 T i - qsprB p i T * 300)
          * (T - 298.15 - T * Real.log (T / 298.15)) - qsprB p i T * (T - 298.15) ^ 2 * (1 / 2))
          / (T * (6.022140857 * 1.38064852))
        + Real.log (T * (1.38064852e-23 / (1.0e5 * 1e-30))) := by
  have h3 : (300.0 : ℝ) = 300 := by norm_num
  have h4 : (400.0 : ℝ) = 400 := by norm_num
  have h5 : (400 : ℝ) - 300 = 100 := by norm_num
  have h6 : (0.5 : ℝ) = 1 / 2 := by norm_num
  simp only [qsprDeBroglie, T0, T300, T400, c, ofF_real, dln_real, dpowi_real, qsprKB, P0, A3, qsprRGAS, h3, h4, h5,
    h6, qsprB]
  rw [mul_div_assoc]

/-- constants of the intercept and the slope in the form of `hasDerivAt_inverse_form` -/
theorem qspr_inverse_form (p : PcSaftParameters n ℝ) (i : Fin n) (cc : Fin 6 → ℝ) (tc : ℝ) :
    ∃ A G : ℝ, (p.kappa_ab i = 0 → G = 0) ∧ ∀ T, qsprIcpc p cc tc T i = A
      + p.epsilon_k i * p.m i * (cc 0 + p.sigma i ^ 3 * cc 2) / tc / 1000 * T⁻¹
      + G * (Real.exp (p.epsilon_k_ab i * T⁻¹) - 1) :=
  ⟨_, _, fun h => by rw [h]; simp, fun T => qsprIcpc_real p cc tc T i⟩

/-- coefficient of the inverse temperature in the correlation -/
noncomputable def qsprSlope (p : PcSaftParameters n ℝ) (i : Fin n) (cc : Fin 6 → ℝ) (tc : ℝ) : ℝ :=
  p.epsilon_k i * p.m i * (cc 0 + p.sigma i ^ 3 * cc 2) / tc / 1000

/-- The heat capacity of the model at any temperature: the linear interpolation, and terms from the
derivatives of intercept and slope. -/
theorem heatCapacity_value (p : PcSaftParameters n ℝ) (i : Fin n) :
    ∃ a₁ b₁ Ga Gb : ℝ,
      b₁ = (qsprSlope p i (qsprCoefficients p).2 400 - qsprSlope p i (qsprCoefficients p).1 300) / 100
      ∧ a₁ = qsprSlope p i (qsprCoefficients p).1 300 - 300 * b₁
      ∧ (p.kappa_ab i = 0 → Ga = 0 ∧ Gb = 0)
      ∧ ∀ T : ℝ, 0 < T →
        let E := Real.exp (p.epsilon_k_ab i * T⁻¹)
        let d := p.epsilon_k_ab i
        (6.022140857 * 1.38064852) * Spec.idealGasHeatCapacity (fun T => qsprDeBroglie p T i) T
          = qsprLinear p i T T - T * ((2 * (a₁ + Ga * d * E) * T⁻¹ ^ 3 + Ga * d ^ 2 * E * T⁻¹ ^ 4)
                * (T - 298.15 - T * Real.log (T / 298.15))
              - 2 * (-(a₁ + Ga * d * E) * T⁻¹ ^ 2) * Real.log (T / 298.15)
              - ((2 * (b₁ + Gb * d * E) * T⁻¹ ^ 3 + Gb * d ^ 2 * E * T⁻¹ ^ 4) * (T - 298.15) ^ 2 * (1 / 2)
                + 2 * (-(b₁ + Gb * d * E) * T⁻¹ ^ 2) * (T - 298.15))) := by
  obtain ⟨A3, G3, hG3, h3⟩ := qspr_inverse_form p i (qsprCoefficients p).1 300
  obtain ⟨A4, G4, hG4, h4⟩ := qspr_inverse_form p i (qsprCoefficients p).2 400
  set B3 := qsprSlope p i (qsprCoefficients p).1 300 with hB3
  set B4 := qsprSlope p i (qsprCoefficients p).2 400 with hB4
  set d := p.epsilon_k_ab i
  have h3 : ∀ T, qsprIcpc p (qsprCoefficients p).1 300 T i = A3 + B3 * T⁻¹ + G3 * (Real.exp (d * T⁻¹) - 1) := h3
  have h4 : ∀ T, qsprIcpc p (qsprCoefficients p).2 400 T i = A4 + B4 * T⁻¹ + G4 * (Real.exp (d * T⁻¹) - 1) := h4
  have hb : ∀ T, qsprB p i T = (A4 - A3) / 100 + (B4 - B3) / 100 * T⁻¹
      + (G4 - G3) / 100 * (Real.exp (d * T⁻¹) - 1) := by
    intro T
    rw [qsprB, h3, h4]
    ring
  have ha : ∀ T, qsprIcpc p (qsprCoefficients p).1 300 T i - qsprB p i T * 300
      = (A3 - 3 * (A4 - A3)) + (B3 - 300 * ((B4 - B3) / 100)) * T⁻¹
      + (G3 - 3 * (G4 - G3)) * (Real.exp (d * T⁻¹) - 1) := by
    intro T
    rw [hb, h3]
    ring
  refine ⟨B3 - 300 * ((B4 - B3) / 100), (B4 - B3) / 100, G3 - 3 * (G4 - G3), (G4 - G3) / 100, rfl, rfl, fun hk => ?_,
    fun T hT => ?_⟩
  · rw [hG3 hk, hG4 hk]
    norm_num
  · intro E d'
    have hlam : (fun T => qsprDeBroglie p T i) = fun T => _ := funext fun T => qsprDeBroglie_real p i T
    have hlin : qsprLinear p i T T = (qsprIcpc p (qsprCoefficients p).1 300 T i - qsprB p i T * 300)
        + qsprB p i T * T := by
      unfold qsprLinear
      ring
    rw [hlin]
    unfold Spec.idealGasHeatCapacity
    rw [hlam]
    simp only [ha]
    simp only [hb]
    have := deriv2_integral (T₀ := 298.15) (by norm_num)
      (fun t ht => hasDerivAt_inverse_form (A3 - 3 * (A4 - A3)) (B3 - 300 * ((B4 - B3) / 100))
        (G3 - 3 * (G4 - G3)) d ht)
      (fun t ht => hasDerivAt_inverse_form ((A4 - A3) / 100) ((B4 - B3) / 100) ((G4 - G3) / 100) d ht)
      hT (hasDerivAt_inverse_form2 _ _ d hT) (hasDerivAt_inverse_form2 _ _ d hT)
      (6.022140857 * 1.38064852) (1.38064852e-23 / (1.0e5 * 1e-30)) (by norm_num) (by norm_num)
    rw [this]
    have hR : (6.022140857 * 1.38064852 : ℝ) ≠ 0 := by norm_num
    generalize (6.022140857 * 1.38064852 : ℝ) = R at hR
    generalize Real.log (T / 298.15) = L
    change _ = _ - T * ((2 * (_ + _ * d * Real.exp (d * T⁻¹)) * _ + _ * d ^ 2 * Real.exp (d * T⁻¹) * _) * _
      - 2 * (-(_ + _ * d * Real.exp (d * T⁻¹)) * _) * _
      - ((2 * (_ + _ * d * Real.exp (d * T⁻¹)) * _ + _ * d ^ 2 * Real.exp (d * T⁻¹) * _) * _ * _
        + 2 * (-(_ + _ * d * Real.exp (d * T⁻¹)) * _) * _))
    generalize Real.exp (d * T⁻¹) = e
    have hT' := hT.ne'
    generalize ((A3 - 3 * (A4 - A3)) + (B3 - 300 * ((B4 - B3) / 100)) * T⁻¹ + (G3 - 3 * (G4 - G3)) * (e - 1)) = a
    generalize ((A4 - A3) / 100 + (B4 - B3) / 100 * T⁻¹ + (G4 - G3) / 100 * (e - 1)) = b
    generalize (2 * (B3 - 300 * ((B4 - B3) / 100) + (G3 - 3 * (G4 - G3)) * d * e) * T⁻¹ ^ 3
      + (G3 - 3 * (G4 - G3)) * d ^ 2 * e * T⁻¹ ^ 4) = a2
    generalize (2 * ((B4 - B3) / 100 + (G4 - G3) / 100 * d * e) * T⁻¹ ^ 3
      + (G4 - G3) / 100 * d ^ 2 * e * T⁻¹ ^ 4) = b2
    generalize -(B3 - 300 * ((B4 - B3) / 100) + (G3 - 3 * (G4 - G3)) * d * e) * T⁻¹ ^ 2 = a1
    generalize -((B4 - B3) / 100 + (G4 - G3) / 100 * d * e) * T⁻¹ ^ 2 = b1
    field_simp
    ring

/-- C61: The isobaric heat capacity at the reference temperature 298.15 K is the linear interpolation
between the correlations for 300 K and 400 K.  The full property asks for this at every temperature, which
is false, see `C61_counterexample`. -/
theorem C61_heat_capacity_partial (p : PcSaftParameters n ℝ) (i : Fin n) :
    (6.022140857 * 1.38064852) * Spec.idealGasHeatCapacity (fun T => qsprDeBroglie p T i) 298.15
      = qsprLinear p i 298.15 298.15 := by
  obtain ⟨a₁, b₁, Ga, Gb, -, -, -, h⟩ := heatCapacity_value p i
  have h := h 298.15 (by norm_num)
  simp only [sub_self, div_self (show (298.15 : ℝ) ≠ 0 by norm_num), Real.log_one, mul_zero, ne_eq,
    OfNat.ofNat_ne_zero, not_false_eq_true, zero_pow, zero_mul, sub_zero, add_zero] at h
  exact h

/-- C61: for a component that does not associate, the heat capacity at any temperature; the last term comes
from the temperature dependence of intercept and slope. -/
theorem C61_heat_capacity_value (p : PcSaftParameters n ℝ) (i : Fin n) (hk : p.kappa_ab i = 0) {T : ℝ} (hT : 0 < T) :
    let b₁ := (qsprSlope p i (qsprCoefficients p).2 400 - qsprSlope p i (qsprCoefficients p).1 300) / 100
    let a₁ := qsprSlope p i (qsprCoefficients p).1 300 - 300 * b₁
    (6.022140857 * 1.38064852) * Spec.idealGasHeatCapacity (fun T => qsprDeBroglie p T i) T
      = qsprLinear p i T T - (T - 298.15) / T ^ 2 * (2 * a₁ + b₁ * (T + 298.15)) := by
  intro b₁' a₁'
  obtain ⟨a₁, b₁, Ga, Gb, hb, ha, hG, h⟩ := heatCapacity_value p i
  have h := h T hT
  obtain ⟨rfl, rfl⟩ := hG hk
  have e1 : b₁' = b₁ := hb.symm
  have e2 : a₁' = a₁ := by
    change _ - 300 * b₁' = a₁
    rw [ha, e1]
  simp only [zero_mul, add_zero] at h
  rw [e1, e2, h]
  field_simp
  ring

/-- C61: the property is false: for the hydrocarbon-like component with m = 2, σ = 3 Å, ε = 200 K the heat
capacity at 400 K is not the value of the correlation for 400 K. -/
theorem C61_counterexample :
    (6.022140857 * 1.38064852) * Spec.idealGasHeatCapacity (fun T => qsprDeBroglie onePure T 0) 400
      ≠ qsprIcpc onePure (qsprCoefficients onePure).2 400 (400 : ℝ) 0 := by
  have hc : qsprCoefficients onePure = (NA_NP_300, NA_NP_400) :=
    (C52_coefficients _ _ (fun _ => by norm_num)).2.2
      ⟨fun ⟨_, h⟩ => h rfl, fun ⟨_, h⟩ => h.elim (fun h => h rfl) (fun h => h rfl)⟩
  have hk : onePure.kappa_ab 0 = 0 := by
    change (0.0 : ℝ) = 0
    norm_num
  rw [C61_heat_capacity_value onePure 0 hk (by norm_num : (0 : ℝ) < 400)]
  have hl : qsprLinear onePure 0 400 400 = qsprIcpc onePure (qsprCoefficients onePure).2 400 (400 : ℝ) 0 := by
    unfold qsprLinear qsprB
    ring
  rw [hl, hc]
  have hm : onePure.m 0 = 2 := rfl
  have hs : onePure.sigma 0 = 3 := rfl
  have he : onePure.epsilon_k 0 = 200 := rfl
  have h1 : qsprSlope onePure 0 NA_NP_300 300
      = 200 * 2 * ((-5763.04893) + 3 ^ 3 * (-239.3513996)) / 300 / 1000 := by
    unfold qsprSlope
    rw [hm, hs, he]
    rfl
  have h2 : qsprSlope onePure 0 NA_NP_400 400
      = 200 * 2 * ((-8171.26676935062) + 3 ^ 3 * (-315.515836223387)) / 400 / 1000 := by
    unfold qsprSlope
    rw [hm, hs, he]
    rfl
  simp only [h1, h2]
  intro h
  have h := sub_eq_self.mp h
  norm_num at h

end PcSaft.Props
