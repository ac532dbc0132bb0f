import Verif.Props.Transport
import Verif.Props.Boyle

/-!
# Property C99: the reference values of the transport properties are positive

Entropy scaling multiplies a reference value with the exponential of a correlation, so a negative reference value gives
a negative transport property.  The reference values for viscosity and self diffusion are positive.  The one for thermal
conductivity is positive at high temperature, but negative for long chains in the dilute gas.
-/

namespace PcSaft

/-- `s` is the residual entropy per amount of substance over the gas constant at given temperature and volume,
`-∂(A/k)/∂T / N` for the residual Helmholtz energy `A` -/
def Spec.IsResidualEntropy {n : ℕ} (p : PcSaftParameters n ℝ) (o : PcSaftOptions ℝ) (laD : LinAlg ℝ (Dual ℝ))
    (T V : ℝ) (N : Fin n → ℝ) (s : ℝ) : Prop :=
  ∃ d, (Eos.withOptions p o).residualHelmholtz laD (StateHD.new ⟨T, 1⟩ ⟨V, 0⟩ (fun i => ⟨N i, 0⟩)) = .ok d
    ∧ s = -(d.re + T * d.eps) / ∑ i, N i

namespace Props
open PcSaft Spec
variable {n : ℕ}

/-- C99: the viscosity reference of every mixture is positive. -/
theorem C99_viscosity (p : PcSaftParameters n ℝ) {T : ℝ} {moles : Fin n → ℝ} (hT : 0 < T)
    (hw : ∀ i, 0 < p.molarweight i) (hs : ∀ i, 0 < p.sigma i) (he : ∀ i, 0 < p.epsilon_k i)
    (ht : ∀ i, T ≤ 10 ^ 10 * p.epsilon_k i) (hn : ∀ i, 0 ≤ moles i) (hn0 : ∃ i, moles i ≠ 0) :
    ∃ v, 0 < v ∧ viscosityReference p (kelvin T) moles = .ok ⟨v, { kg := 1, m := -1, s := -1 }⟩ := by
  refine ⟨_, ?_, C45_viscosity_reference p T moles⟩
  have hce : ∀ i, 0 < ceValue p T i := fun i => ceValue_pos p i hT (hw i) (hs i) (he i) (ht i)
  obtain ⟨i, hi⟩ := hn0
  have hi0 : 0 < moles i := lt_of_le_of_ne (hn i) (Ne.symm hi)
  have hsum : 0 < ∑ j, moles j := Finset.sum_pos' (fun j _ => hn j) ⟨i, Finset.mem_univ i, hi0⟩
  have hphi : ∀ a b : Fin n, 0 < (1 + Real.sqrt (ceValue p T a / ceValue p T b)
      * (p.molarweight b / p.molarweight a) ^ (1 / 4 : ℝ)) ^ 2
        / Real.sqrt (8 * (1 + p.molarweight a / p.molarweight b)) := by
    intro a b
    have h1 := Real.sqrt_nonneg (ceValue p T a / ceValue p T b)
    have h2 := Real.rpow_nonneg (div_pos (hw b) (hw a)).le (1 / 4 : ℝ)
    have h3 := div_pos (hw a) (hw b)
    positivity
  have hx : ∀ j, 0 ≤ moles j / ∑ l, moles l := fun j => div_nonneg (hn j) hsum.le
  have hden : ∀ a : Fin n, 0 < ∑ b, moles b / (∑ l, moles l) * ((1 + Real.sqrt (ceValue p T a / ceValue p T b)
      * (p.molarweight b / p.molarweight a) ^ (1 / 4 : ℝ)) ^ 2
        / Real.sqrt (8 * (1 + p.molarweight a / p.molarweight b))) := fun a =>
    Finset.sum_pos' (fun b _ => mul_nonneg (hx b) (hphi a b).le)
      ⟨i, Finset.mem_univ i, mul_pos (div_pos hi0 hsum) (hphi a i)⟩
  unfold Spec.wilke
  exact Finset.sum_pos' (fun a _ => div_nonneg (mul_nonneg (hx a) (hce a).le) (hden a).le)
    ⟨i, Finset.mem_univ i, div_pos (mul_pos (div_pos hi0 hsum) (hce i)) (hden i)⟩

theorem omega11_pos {t : ℝ} (h0 : 0 < t) : 0 < omega11 t := by
  have := Real.rpow_pos_of_pos h0 (-0.15610)
  simp only [omega11, powf_real, exp_real]
  positivity

/-- C99: the reference for self diffusion is positive. -/
theorem C99_diffusion (p : PcSaftParameters 1 ℝ) {T V : ℝ} {moles : Fin 1 → ℝ} (hT : 0 < T) (hV : 0 < V)
    (hw : 0 < p.molarweight 0) (hs : 0 < p.sigma 0) (he : 0 < p.epsilon_k 0) (hn : 0 < moles 0) :
    ∃ v, 0 < v ∧ diffusionReference p (kelvin T) ⟨V, { m := 3 }⟩ moles = .ok (.ok ⟨v, { m := 2, s := -1 }⟩) := by
  refine ⟨_, ?_, C46_diffusion_reference p T V moles⟩
  have := omega11_pos (div_pos hT he)
  have := Real.pi_pos
  positivity

/-- C99, thermal conductivity: the reference is positive from the temperature `0.3552 m ε` on, at every density.
Missing: lower temperatures, where it fails for long chains. -/
theorem C99_thermal_conductivity_partial (S : Eos 1 ℝ → Except EosError ℝ) (e : Eos 1 ℝ) {T s : ℝ} (hT : 0 < T)
    (hm : 0 < e.parameters.m 0) (hw : 0 < e.parameters.molarweight 0) (hs : 0 < e.parameters.sigma 0)
    (he : 0 < e.parameters.epsilon_k 0) (ht : T ≤ 10 ^ 10 * e.parameters.epsilon_k 0)
    (hhot : 0.3552 * (e.parameters.m 0 * e.parameters.epsilon_k 0) ≤ T) (hS : S (Eos.new e.parameters) = .ok s) :
    ∃ v, 0 < v ∧ thermalConductivityReference S e (kelvin T)
      = .ok (.ok ⟨v, { kg := 1, m := 1, s := -3, k := -1 }⟩) := by
  refine ⟨_, ?_, by
    unfold thermalConductivityReference
    rw [dif_pos rfl, hS]
    simp only
    rw [show (⟨0, by omega⟩ : Fin 1) = 0 from rfl, C47_value]⟩
  have ho := omega22_pos (div_pos hT he) ((div_le_iff₀ he).mpr ht)
  set m := e.parameters.m 0
  set σ := e.parameters.sigma 0
  set ε := e.parameters.epsilon_k 0
  have h1 : 0 < 0.083235 * Real.sqrt (T * m / e.parameters.molarweight 0) / σ ^ 2 / omega22 (T / ε) := by positivity
  have h2 : 0.3552 ≤ T / ε / m := by
    rw [div_div, le_div_iff₀ (by positivity)]
    linarith
  have h3 : 0 ≤ -0.0167141 * (T / ε) / m + 0.0470581 * (T / ε / m) ^ 2 := by
    rw [mul_div_assoc]
    nlinarith
  have h4 := Real.exp_pos (2 * (s / m))
  positivity

/-- eicosane from gross2001.json -/
noncomputable def eicosane : Fin 1 → PureRecord ℝ := fun _ => (Shipped.gross2001[19]'(by decide)).map (Rat.cast : ℚ → ℝ)

theorem eicosane_mixture : MixtureOf Shipped.substances eicosane := fun _ => ⟨Shipped.gross2001[19]'(by decide), by
  have := List.getElem_mem (l := Shipped.gross2001) (n := 19) (by decide)
  simp only [Shipped.substances, List.mem_append]
  tauto, rfl⟩

theorem eicosane_values : (fromRecords eicosane fun _ _ => 0).m 0 = 7.9849
    ∧ (fromRecords eicosane fun _ _ => 0).sigma 0 = 3.9869 ∧ (fromRecords eicosane fun _ _ => 0).epsilon_k 0 = 257.75
    ∧ (fromRecords eicosane fun _ _ => 0).molarweight 0 = 282.553 := by
  refine ⟨?_, ?_, ?_, ?_⟩
  · change (((7.9849 : ℚ)) : ℝ) = _
    norm_num
  · change (((3.9869 : ℚ)) : ℝ) = _
    norm_num
  · change (((257.75 : ℚ)) : ℝ) = _
    norm_num
  · change (((282.553 : ℚ)) : ℝ) = _
    norm_num

/-- lower bound of the collision integral just above the reduced temperature one -/
theorem omega22_ge : 1.13 ≤ omega22 (300 / 257.75 : ℝ) := by
  have ht : (0:ℝ) < 300 / 257.75 := by norm_num
  have h1 : 1 - 0.14874 * (300 / 257.75 - 1) ≤ ((300 / 257.75 : ℝ)) ^ (-0.14874 : ℝ) := by
    rw [Real.rpow_def_of_pos ht]
    have := Real.add_one_le_exp (Real.log (300 / 257.75) * (-0.14874))
    have := Real.log_le_sub_one_of_pos ht
    linarith
  have h2 : ((300 / 257.75 : ℝ)) ^ (0.14874 : ℝ) ≤ 2 := by
    have : ((300 / 257.75 : ℝ)) ^ (0.14874 : ℝ) ≤ (300 / 257.75 : ℝ) ^ (1 : ℝ) :=
      Real.rpow_le_rpow_of_exponent_le (by norm_num) (by norm_num)
    rw [Real.rpow_one] at this
    norm_num at this ⊢
    linarith
  have h3 : 0 < ((300 / 257.75 : ℝ)) ^ (0.14874 : ℝ) := Real.rpow_pos_of_pos ht _
  have h4 := Real.sin_le_one (18.0323 * (300 / 257.75 : ℝ) ^ (-0.76830 : ℝ) - 7.27371)
  have h5 := Real.exp_pos (-0.77320 * (300 / 257.75 : ℝ))
  have h6 := Real.exp_pos (-2.43787 * (300 / 257.75 : ℝ))
  simp only [omega22, powf_real, exp_real, sin_real]
  generalize ((300 / 257.75 : ℝ)) ^ (-0.14874 : ℝ) = a at *
  generalize ((300 / 257.75 : ℝ)) ^ (0.14874 : ℝ) = b at *
  generalize Real.sin (18.0323 * (300 / 257.75 : ℝ) ^ (-0.76830 : ℝ) - 7.27371) = c at *
  have h7 : b * c ≤ 2 := by nlinarith
  norm_num at *
  nlinarith

/-- the reference of eicosane at 300 K is negative when the residual entropy is small -/
theorem eicosane_negative {s : ℝ} (hs : -0.07 ≤ s) :
    0.083235 * Real.sqrt (300 * 7.9849 / 282.553) / 3.9869 ^ 2 / omega22 (300 / 257.75)
          + (-0.0167141 * (300 / 257.75) / 7.9849 + 0.0470581 * (300 / 257.75 / 7.9849) ^ 2)
            * (7.9849 * 7.9849 * 3.9869 ^ 3 * 257.75) * 1e-5 * Real.exp (2 * (s / 7.9849)) < 0 := by
  have h1 : Real.sqrt (300 * 7.9849 / 282.553) ≤ 2.912 := by
    rw [Real.sqrt_le_left (by norm_num)]
    norm_num
  have h2 : 0.083235 * Real.sqrt (300 * 7.9849 / 282.553) / 3.9869 ^ 2 / omega22 (300 / 257.75) ≤ 0.0136 := by
    rw [div_le_iff₀ (by linarith [omega22_ge]), div_le_iff₀ (by norm_num)]
    have := omega22_ge
    norm_num at *
    nlinarith
  have h3 : (0.98 : ℝ) ≤ Real.exp (2 * (s / 7.9849)) := by
    have := Real.add_one_le_exp (2 * (s / 7.9849))
    have : -0.01 ≤ s / 7.9849 := by
      rw [le_div_iff₀ (by norm_num)]
      norm_num at *
      linarith
    norm_num at *
    linarith
  generalize Real.exp (2 * (s / 7.9849)) = x at *
  generalize 0.083235 * Real.sqrt (300 * 7.9849 / 282.553) / 3.9869 ^ 2 / omega22 (300 / 257.75) = y at *
  norm_num at *
  linarith

/-- C99 fails for thermal conductivity: in every sufficiently dilute gas of eicosane, a shipped substance, at 300 K, the
reference calculated from the residual entropy of the equation of state is negative. -/
theorem C99_thermal_conductivity_counterexample (laD : LinAlg ℝ (Dual ℝ)) :
    ∃ V₀, ∀ V, V₀ ≤ V → ∃ s, IsResidualEntropy (fromRecords eicosane fun _ _ => 0) PcSaftOptions.default laD 300 V (fun _ => 1) s
      ∧ ∀ (S : Eos 1 ℝ → Except EosError ℝ) (e : Eos 1 ℝ), e.parameters = fromRecords eicosane (fun _ _ => 0) →
        S (Eos.new e.parameters) = .ok s → ∃ v, v < 0 ∧ thermalConductivityReference S e (kelvin 300)
          = .ok (.ok ⟨v, { kg := 1, m := 1, s := -3, k := -1 }⟩) := by
  have hp := mixture_pos (fun _ _ => 0) eicosane_mixture
  have hr : PositiveRecords eicosane := ⟨fun i => by
    have : 4 / 5 ≤ (eicosane i).model_record.m := (hp i).1
    linarith, fun i => (hp i).2.1, fun i => (hp i).2.2⟩
  have hmu : (fromRecords eicosane fun _ _ => 0).mu 0 = 0 := by
    change Option.getD none (0.0 : ℝ) = 0
    norm_num
  have hq : (fromRecords eicosane fun _ _ => 0).q 0 = 0 := by
    change Option.getD none (0.0 : ℝ) = 0
    norm_num
  have hkz : (fromRecords eicosane fun _ _ => 0).kappa_ab 0 = 0 := by
    change Option.getD none (0.0 : ℝ) = 0
    norm_num
  have hd0 := virial_diameter_pos (k := fun _ _ => 0) hr (T := 300) (by norm_num) 0
  have hv : 0 < (fromRecords eicosane fun _ _ => 0).m 0 * hsDiameter (fromRecords eicosane fun _ _ => 0) 300 0 ^ 3 :=
    mul_pos (hr.m 0) (pow_pos hd0 3)
  have hA : Admissible (fromRecords eicosane fun _ _ => 0) 300
      (Real.pi * ((fromRecords eicosane fun _ _ => 0).m 0 * hsDiameter (fromRecords eicosane fun _ _ => 0) 300 0 ^ 3))
      (fun _ => 1) := by
    refine ⟨by norm_num, by positivity, hr.m, hr.sigma, fun i => (hr.epsilon i).le, fun _ => zero_le_one,
      ⟨0, one_ne_zero⟩, ?_⟩
    rw [hsDiameter_eq_spec] at hv ⊢
    simp only [Spec.packingFraction, Finset.univ_unique, Fin.default_eq_zero, Finset.sum_singleton]
    rw [div_lt_one (by positivity)]
    nlinarith [Real.pi_pos]
  have hd : ∀ ct ∈ buildContributions (fromRecords eicosane fun _ _ => 0) PcSaftOptions.default,
      DiluteRegular (fromRecords eicosane fun _ _ => 0) 300 (fun _ => 1) ct := by
    intro ct hct
    rcases pure_contributions hmu hq PcSaftOptions.default with ⟨-, hc⟩ | ⟨hne, -⟩
    · rw [hc] at hct
      simp only [List.mem_cons, List.not_mem_nil, or_false] at hct
      rcases hct with rfl | rfl | rfl <;> trivial
    · exact absurd hkz hne
  obtain ⟨V₀, hV⟩ := C81_first laD hA PcSaftOptions.default hd 1 0 (fun _ => 0) (ε := 0.0002) (by norm_num)
  refine ⟨V₀, fun V hV' => ?_⟩
  obtain ⟨d, hok, g1, g2⟩ := hV V hV'
  rw [mul_zero] at hok
  refine ⟨_, ⟨d, hok, rfl⟩, ?_⟩
  intro S e he hS
  refine ⟨_, ?_, by
    unfold thermalConductivityReference
    rw [dif_pos rfl, hS]
    simp only
    rw [show (⟨0, by omega⟩ : Fin 1) = 0 from rfl, C47_value]⟩
  obtain ⟨v1, v2, v3, v4⟩ := eicosane_values
  rw [he, v1, v2, v3, v4]
  apply eicosane_negative
  rw [abs_le] at g1 g2
  simp only [Finset.univ_unique, Finset.sum_const, Finset.card_singleton, one_smul, div_one]
  linarith [g1.2, g2.2]

/-! ## Cases that meet the hypotheses -/

example (p : PcSaftParameters 2 ℝ) (hw : p.molarweight = ![16.043, 30.07]) (hs : p.sigma = ![3.7039, 3.5206])
    (he : p.epsilon_k = ![150.03, 191.42]) :=
  C99_viscosity p (T := 300) (moles := ![1, 2]) (by norm_num) (by rw [hw]; intro i; fin_cases i <;> norm_num)
    (by rw [hs]; intro i; fin_cases i <;> norm_num) (by rw [he]; intro i; fin_cases i <;> norm_num)
    (by rw [he]; intro i; fin_cases i <;> norm_num) (by intro i; fin_cases i <;> norm_num) ⟨0, by norm_num⟩

example : ∃ v, 0 < v ∧ diffusionReference (fromRecords eicosane fun _ _ => 0) (kelvin 300) ⟨1, { m := 3 }⟩ (fun _ => 1)
    = .ok (.ok ⟨v, { m := 2, s := -1 }⟩) := by
  obtain ⟨-, v2, v3, v4⟩ := eicosane_values
  exact C99_diffusion _ (by norm_num) one_pos (by rw [v4]; norm_num) (by rw [v2]; norm_num) (by rw [v3]; norm_num) one_pos

/-- eicosane at 800 K, with every residual entropy -/
example (s : ℝ) : ∃ v, 0 < v ∧ thermalConductivityReference (fun _ => .ok s) (Eos.new (fromRecords eicosane fun _ _ => 0))
    (kelvin 800) = .ok (.ok ⟨v, { kg := 1, m := 1, s := -3, k := -1 }⟩) := by
  obtain ⟨v1, v2, v3, v4⟩ := eicosane_values
  refine C99_thermal_conductivity_partial (fun _ => .ok s) (Eos.new (fromRecords eicosane fun _ _ => 0)) (s := s)
    (by norm_num) ?_ ?_ ?_ ?_ ?_ ?_ rfl
  · change 0 < (fromRecords eicosane fun _ _ => 0).m 0
    rw [v1]; norm_num
  · change 0 < (fromRecords eicosane fun _ _ => 0).molarweight 0
    rw [v4]; norm_num
  · change 0 < (fromRecords eicosane fun _ _ => 0).sigma 0
    rw [v2]; norm_num
  · change 0 < (fromRecords eicosane fun _ _ => 0).epsilon_k 0
    rw [v3]; norm_num
  · change 800 ≤ 10 ^ 10 * (fromRecords eicosane fun _ _ => 0).epsilon_k 0
    rw [v3]; norm_num
  · change 0.3552 * ((fromRecords eicosane fun _ _ => 0).m 0 * (fromRecords eicosane fun _ _ => 0).epsilon_k 0) ≤ 800
    rw [v1, v3]; norm_num

end Props
end PcSaft
