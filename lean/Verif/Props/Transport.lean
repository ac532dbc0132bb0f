import Verif.Model.EntropyScaling
import Verif.Props.Mixture
import Verif.Props.PairPotential

/-!
# C45–C47: references and correlations for entropy scaling
-/

namespace PcSaft.Spec
variable {n : ℕ}

/-- Chapman–Enskog viscosity of a dilute gas in Pa s for a temperature in K, a molar weight in g/mol, a
diameter in Å, and the value of the collision integral. -/
noncomputable def chapmanEnskogViscosity (T mw sigma omega : ℝ) : ℝ :=
  5 / 16 * Real.sqrt (mw * (1 / 1000) / (6.02214076e23) * (1.380649e-23) * T / Real.pi)
    / (omega * (sigma * 1e-10) ^ 2)

/-- Wilke's mixing rule for the viscosity of dilute gases -/
noncomputable def wilke (eta mw x : Fin n → ℝ) : ℝ :=
  ∑ i, x i * eta i / ∑ j, x j
    * ((1 + Real.sqrt (eta i / eta j) * (mw j / mw i) ^ (1 / 4 : ℝ)) ^ 2
        / Real.sqrt (8 * (1 + mw i / mw j)))

/-- Wilke's rule for a mixture whose component `j` is the substance `φ j`: only the total amount of each
substance matters. -/
theorem wilke_merge {n' : ℕ} (φ : Fin n' → Fin n) (eta mw : Fin n → ℝ) (x : Fin n' → ℝ) :
    wilke (fun j => eta (φ j)) (fun j => mw (φ j)) x = wilke eta mw (merge φ x) := by
  unfold wilke
  simp only [mul_div_assoc]
  rw [sum_merge φ x (fun i => eta i / ∑ j, merge φ x j
    * ((1 + Real.sqrt (eta i / eta j) * (mw j / mw i) ^ (1 / 4 : ℝ)) ^ 2
        / Real.sqrt (8 * (1 + mw i / mw j))))]
  refine Finset.sum_congr rfl fun i _ => ?_
  rw [sum_merge φ x (fun j => ((1 + Real.sqrt (eta (φ i) / eta j) * (mw j / mw (φ i)) ^ (1 / 4 : ℝ)) ^ 2
        / Real.sqrt (8 * (1 + mw (φ i) / mw j))))]

/-- Wilke's rule returns the common value if all components agree -/
theorem wilke_const {e w : ℝ} (he : e ≠ 0) (hw : w ≠ 0) (x : Fin n → ℝ) (hx : ∑ i, x i = 1) :
    wilke (fun _ => e) (fun _ => w) x = e := by
  unfold wilke
  have h16 : Real.sqrt (8 * (1 + 1)) = 4 := by
    rw [show (8 * (1 + 1) : ℝ) = 4 ^ 2 by norm_num]
    exact Real.sqrt_sq (by norm_num)
  have h1 : ∀ j : Fin n, x j * ((1 + Real.sqrt (e / e) * (w / w) ^ (1 / 4 : ℝ)) ^ 2
      / Real.sqrt (8 * (1 + w / w))) = x j := by
    intro j
    rw [div_self he, div_self hw, h16, Real.sqrt_one, Real.one_rpow]
    norm_num
  simp only [h1, hx, div_one, ← Finset.sum_mul, one_mul]

end PcSaft.Spec

namespace PcSaft.Props
open PcSaft
variable {n : ℕ}

/-! ### C45 -/

theorem collectPanic_ok {A : Type} {n : ℕ} (f : Fin n → A) :
    collectPanic (fun i => Except.ok (f i)) = .ok f := by
  induction n with
  | zero =>
    simp only [collectPanic]
    congr 1
    funext i
    exact i.elim0
  | succ n ih =>
    simp only [collectPanic, ih]
    congr 1
    funext i
    refine Fin.cases ?_ (fun j => ?_) i <;> rfl

/-- the value of the Chapman–Enskog viscosity of component `i` at a temperature in kelvin -/
noncomputable def ceValue (p : PcSaftParameters n ℝ) (T : ℝ) (i : Fin n) : ℝ :=
  Spec.chapmanEnskogViscosity T (p.molarweight i) (p.sigma i) (omega22 (T / p.epsilon_k i))

/-- a temperature in kelvin -/
def kelvin (T : ℝ) : SINumber ℝ := ⟨T, { k := 1 }⟩

theorem viscosityCE_kelvin (p : PcSaftParameters n ℝ) (T : ℝ) (i : Fin n) :
    viscosityCE p (kelvin T) i = .ok ⟨ceValue p T i, { kg := 1, m := -1, s := -1 }⟩ := by
  have h1 : (1.0 : ℝ) = 1 := by norm_num
  have h5 : (5.0 : ℝ) / 16.0 = 5 / 16 := by norm_num
  have h3 : (1e-3 : ℝ) = 1 / 1000 := by norm_num
  simp only [viscosityCE, kelvin, SINumber.divs, SINumber.div, SINumber.smul, SINumber.mul, KELVIN, GRAM, MOL,
    KB, NAV, ANGSTROM, SINumber.intoValueUnwrap, SINumber.sqrtUnwrap, SINumber.powi, Dim.div, Dim.mul, Dim.pow,
    Dim.even, Dim.half]
  norm_num [bind, Except.bind, ceValue, Spec.chapmanEnskogViscosity]
  ring_nf

theorem foldlM_add {A : Type} (l : List A) (f : A → ℝ) (u : Dim) (a : ℝ) :
    l.foldlM (m := Except Panic) (fun acc i => acc.add ⟨f i, u⟩) (⟨a, u⟩ : SINumber ℝ)
      = .ok ⟨a + (l.map f).sum, u⟩ := by
  induction l generalizing a with
  | nil => simp [pure, Except.pure]
  | cons b l ih =>
    rw [List.foldlM_cons]
    have : (⟨a, u⟩ : SINumber ℝ).add ⟨f b, u⟩ = .ok ⟨a + f b, u⟩ := if_pos rfl
    rw [this]
    change (List.foldlM _ _ l) = _
    rw [ih]
    simp [add_assoc]

/-- C45: for a temperature in kelvin the viscosity reference never panics, is returned in Pa s and is
Wilke's mixing rule for the Chapman–Enskog viscosities of the components and the mole fractions. -/
theorem C45_viscosity_reference (p : PcSaftParameters n ℝ) (T : ℝ) (moles : Fin n → ℝ) :
    viscosityReference p (kelvin T) moles
      = .ok ⟨Spec.wilke (ceValue p T) p.molarweight (fun i => moles i / ∑ j, moles j),
          { kg := 1, m := -1, s := -1 }⟩ := by
  have hce : collectPanic (viscosityCE p (kelvin T))
      = .ok (fun i => (⟨ceValue p T i, { kg := 1, m := -1, s := -1 }⟩ : SINumber ℝ)) := by
    rw [← collectPanic_ok]
    congr 1
    funext i
    exact viscosityCE_kelvin p T i
  have hr : ∀ i : Fin n, collectPanic (fun j : Fin n =>
      ((⟨ceValue p T i, { kg := 1, m := -1, s := -1 }⟩ : SINumber ℝ).div
        ⟨ceValue p T j, { kg := 1, m := -1, s := -1 }⟩).intoValueUnwrap)
      = .ok (fun j => ceValue p T i / ceValue p T j) := by
    intro i
    rw [← collectPanic_ok]
    rfl
  unfold viscosityReference
  simp only [bind, Except.bind, hce, hr]
  have h0 : (SINumber.smul (0.0 * 1e-3) PASCAL_SECOND : SINumber ℝ)
      = ⟨0, { kg := 1, m := -1, s := -1 }⟩ := by
    simp only [SINumber.smul, PASCAL_SECOND]
    norm_num
  rw [h0]
  refine (foldlM_add (List.finRange n) _ { kg := 1, m := -1, s := -1 } 0).trans ?_
  congr 2
  rw [zero_add, ← Fin.sum_univ_def]
  · unfold Spec.wilke
    refine Finset.sum_congr rfl fun i _ => ?_
    have h1 : (1.0 : ℝ) = 1 := by norm_num
    have h4 : (1.0 : ℝ) / 4.0 = 1 / 4 := by norm_num
    have h8 : (8.0 : ℝ) = 8 := by norm_num
    simp only [sumFin_real, powi_real, sqrt_real, powf_real, h1, h8, SINumber.mul]
    rw [mul_comm (ceValue p T i)]
    congr 1
    refine Finset.sum_congr rfl fun j _ => ?_
    rw [mul_div_assoc]
    norm_num

/-- the collision integral is positive unless the reduced temperature is astronomically high -/
theorem omega22_pos {t : ℝ} (h0 : 0 < t) (h1 : t ≤ 10 ^ 10) : 0 < omega22 t := by
  have hA : (0 : ℝ) < t ^ (-0.14874 : ℝ) := Real.rpow_pos_of_pos h0 _
  have hB : t ^ (0.14874 : ℝ) ≤ 1000 * t ^ (-0.14874 : ℝ) := by
    have e : t ^ (0.14874 : ℝ) = t ^ (0.29748 : ℝ) * t ^ (-0.14874 : ℝ) := by
      rw [← Real.rpow_add h0]
      norm_num
    have e2 : t ^ (0.29748 : ℝ) ≤ 1000 := by
      calc t ^ (0.29748 : ℝ) ≤ ((10 : ℝ) ^ 10) ^ (0.29748 : ℝ) :=
            Real.rpow_le_rpow h0.le h1 (by norm_num)
        _ ≤ ((10 : ℝ) ^ 10) ^ (0.3 : ℝ) :=
            Real.rpow_le_rpow_of_exponent_le (by norm_num) (by norm_num)
        _ = 1000 := by
            rw [← Real.rpow_natCast, ← Real.rpow_mul (by norm_num)]
            have : ((10 : ℕ) : ℝ) * (0.3 : ℝ) = ((3 : ℕ) : ℝ) := by norm_num
            rw [this, Real.rpow_natCast]
            norm_num
    rw [e]
    exact mul_le_mul_of_nonneg_right e2 hA.le
  have hB0 : (0 : ℝ) ≤ t ^ (0.14874 : ℝ) := Real.rpow_nonneg h0.le _
  have hs := Real.sin_le_one (18.0323 * t ^ (-0.76830 : ℝ) - 7.27371)
  have hS : 6.435e-4 * t ^ (0.14874 : ℝ) * Real.sin (18.0323 * t ^ (-0.76830 : ℝ) - 7.27371)
      ≤ 0.6435 * t ^ (-0.14874 : ℝ) := by
    calc _ ≤ 6.435e-4 * t ^ (0.14874 : ℝ) * 1 :=
          mul_le_mul_of_nonneg_left hs (mul_nonneg (by norm_num) hB0)
      _ ≤ _ := by nlinarith
  have hE1 := Real.exp_pos (-0.77320 * t)
  have hE2 := Real.exp_pos (-2.43787 * t)
  simp only [omega22, powf_real, exp_real, sin_real]
  nlinarith

theorem ceValue_pos (p : PcSaftParameters n ℝ) {T : ℝ} (i : Fin n) (hT : 0 < T) (hw : 0 < p.molarweight i)
    (hs : 0 < p.sigma i) (he : 0 < p.epsilon_k i) (ht : T ≤ 10 ^ 10 * p.epsilon_k i) : 0 < ceValue p T i := by
  have := omega22_pos (div_pos hT he) ((div_le_iff₀ he).mpr ht)
  have := Real.pi_pos
  unfold ceValue Spec.chapmanEnskogViscosity
  positivity

/-- C45: for one component the reference is the Chapman–Enskog value for every positive amount. -/
theorem C45_pure (p : PcSaftParameters 1 ℝ) (T : ℝ) (moles : Fin 1 → ℝ) (hT : 0 < T) (hm : 0 < moles 0)
    (hw : 0 < p.molarweight 0) (hs : 0 < p.sigma 0) (he : 0 < p.epsilon_k 0)
    (ht : T ≤ 10 ^ 10 * p.epsilon_k 0) :
    viscosityReference p (kelvin T) moles
      = .ok ⟨Spec.chapmanEnskogViscosity T (p.molarweight 0) (p.sigma 0) (omega22 (T / p.epsilon_k 0)),
          { kg := 1, m := -1, s := -1 }⟩ := by
  rw [C45_viscosity_reference]
  have h1 : ceValue p T = fun _ => ceValue p T 0 := by
    funext i
    rw [Subsingleton.elim i 0]
  have h2 : p.molarweight = fun _ => p.molarweight 0 := by
    funext i
    rw [Subsingleton.elim i 0]
  rw [h1, h2, Spec.wilke_const (ceValue_pos p 0 hT hw hs he ht).ne' hw.ne']
  · rfl
  · rw [← Finset.sum_div]
    refine div_self ?_
    rw [Fin.sum_univ_one]
    exact hm.ne'

/-- C45: scaling all moles does not change the reference. -/
theorem C45_scaling (p : PcSaftParameters n ℝ) (T l : ℝ) (hl : l ≠ 0) (moles : Fin n → ℝ) :
    viscosityReference p (kelvin T) (fun i => l * moles i) = viscosityReference p (kelvin T) moles := by
  rw [C45_viscosity_reference, C45_viscosity_reference]
  congr 3
  funext i
  rw [← Finset.mul_sum, mul_div_mul_left _ _ hl]

/-- C45: if component `j` of a mixture has the record of substance `φ j`, only the total amount of each
substance matters. -/
theorem C45_pseudo_components {n' : ℕ} (pr : Fin n → PureRecord ℝ) (k : Fin n → Fin n → ℝ)
    (k' : Fin n' → Fin n' → ℝ) (φ : Fin n' → Fin n) (T : ℝ) (moles : Fin n' → ℝ) :
    viscosityReference (fromRecords (fun j => pr (φ j)) k') (kelvin T) moles
      = viscosityReference (fromRecords pr k) (kelvin T) (fun i => ∑ j, if φ j = i then moles j else 0) := by
  rw [C45_viscosity_reference, C45_viscosity_reference]
  congr 2
  have h : (fun i => (∑ j, if φ j = i then moles j else 0)
      / ∑ i, ∑ j, if φ j = i then moles j else 0) = merge φ (fun i => moles i / ∑ j, moles j) := by
    funext i
    have e := sum_merge_one φ moles
    unfold merge at e
    rw [e, merge_div]
    rfl
  rw [h]
  exact Spec.wilke_merge φ (ceValue (fromRecords pr k) T) (fromRecords pr k).molarweight _

/-- C45: renumbering the components does not change the reference. -/
theorem C45_permutation (pr : Fin n → PureRecord ℝ) (k k' : Fin n → Fin n → ℝ) (σ : Equiv.Perm (Fin n))
    (T : ℝ) (moles : Fin n → ℝ) :
    viscosityReference (fromRecords (fun j => pr (σ j)) k') (kelvin T) (fun j => moles (σ j))
      = viscosityReference (fromRecords pr k) (kelvin T) moles := by
  rw [C45_pseudo_components pr k k' σ]
  congr 1
  exact merge_comp_equiv σ moles

/-- C45: a mixture of components with the same record gives the value of the pure component. -/
theorem C45_identical (r : PureRecord ℝ) (k : Fin n → Fin n → ℝ) (T : ℝ) (moles : Fin n → ℝ) (hT : 0 < T)
    (hm : 0 < ∑ j, moles j) (hw : 0 < r.molarweight) (hs : 0 < r.model_record.sigma)
    (he : 0 < r.model_record.epsilon_k) (ht : T ≤ 10 ^ 10 * r.model_record.epsilon_k) :
    viscosityReference (fromRecords (fun _ => r) k) (kelvin T) moles
      = .ok ⟨Spec.chapmanEnskogViscosity T r.molarweight r.model_record.sigma
          (omega22 (T / r.model_record.epsilon_k)), { kg := 1, m := -1, s := -1 }⟩ := by
  rw [C45_pseudo_components (fun _ : Fin 1 => r) (fun _ _ => 0) k (fun _ => 0)]
  have := C45_pure (fromRecords (fun _ : Fin 1 => r) (fun _ _ => 0)) T
    (fun i => ∑ j, if (fun _ => 0 : Fin n → Fin 1) j = i then moles j else 0) hT (by simpa using hm)
    hw hs he ht
  exact this

/-- C45: a quantity that is not a temperature is rejected by a unit check. -/
theorem C45_wrong_unit (p : PcSaftParameters (n + 1) ℝ) (T : SINumber ℝ) (hT : T.unit ≠ { k := 1 })
    (moles : Fin (n + 1) → ℝ) : viscosityReference p T moles = .error .unwrapErr := by
  have h0 : viscosityCE p T 0 = .error .unwrapErr := by
    have h : ((T.divs (p.epsilon_k 0)).div KELVIN).intoValueUnwrap = .error .unwrapErr := by
      refine if_neg fun h => hT ?_
      obtain ⟨v, m, kg, s, a, mol, k, cd⟩ := T
      simp only [SINumber.divs, SINumber.div, KELVIN, Dim.div, Dim.mk.injEq] at h ⊢
      omega
    simp only [viscosityCE, h, bind, Except.bind]
  unfold viscosityReference
  simp only [collectPanic, h0, bind, Except.bind]

/-- two components at 300 K: the hypotheses hold -/
example : viscosityReference (fromRecords (fun _ : Fin 2 => threeComponents 0) (fun _ _ => 0)) (kelvin 300) ![1, 2]
    = .ok ⟨Spec.chapmanEnskogViscosity 300 44 3 (omega22 (300 / 100)), { kg := 1, m := -1, s := -1 }⟩ :=
  C45_identical (threeComponents 0) (fun _ _ => 0) 300 ![1, 2] (by norm_num)
    (by rw [Fin.sum_univ_two]; norm_num) (by norm_num [threeComponents])
    (by norm_num [threeComponents]) (by norm_num [threeComponents]) (by norm_num [threeComponents])

/-! ### C46 -/

/-- C46: the diffusion reference returns an error exactly for several components. -/
theorem C46_diffusion_reference_error (p : PcSaftParameters n ℝ) (T V : SINumber ℝ) (moles : Fin n → ℝ) :
    (n ≠ 1 → diffusionReference p T V moles = .ok (.error (.incompatibleComponents n 1)))
    ∧ (n = 1 → ∀ e, diffusionReference p T V moles ≠ .ok (.error e)) := by
  refine ⟨fun h => dif_neg h, fun h e => ?_⟩
  unfold diffusionReference
  rw [dif_pos h]
  simp only
  split <;> simp

/-- C46: for one component, a temperature in kelvin and a volume in cubic metres the diffusion reference is
the Chapman–Enskog self diffusion coefficient in m²/s. -/
theorem C46_diffusion_reference (p : PcSaftParameters 1 ℝ) (T V : ℝ) (moles : Fin 1 → ℝ) :
    diffusionReference p (kelvin T) ⟨V, { m := 3 }⟩ moles
      = .ok (.ok ⟨3 / 8 / ((p.sigma 0 * 1e-10) ^ 2 * omega11 (T / p.epsilon_k 0)
            * (moles 0 / V * 6.02214076e23))
          * Real.sqrt (T * (1.380649e-23 * 6.02214076e23) / (Real.pi * (p.molarweight 0 * (1 / 1000)))),
        { m := 2, s := -1 }⟩) := by
  have hc : diffusionReferenceComponent p (kelvin T)
      (SINumber.div ⟨sumFin moles, { mol := 1 }⟩ ⟨V, { m := 3 }⟩) 0
      = .ok ⟨3 / 8 / ((p.sigma 0 * 1e-10) ^ 2 * omega11 (T / p.epsilon_k 0)
            * (moles 0 / V * 6.02214076e23))
          * Real.sqrt (T * (1.380649e-23 * 6.02214076e23) / (Real.pi * (p.molarweight 0 * (1 / 1000)))),
        { m := 2, s := -1 }⟩ := by
    simp only [diffusionReferenceComponent, kelvin, SINumber.divs, SINumber.div, SINumber.smul, SINumber.rdiv,
      SINumber.mul, KELVIN, GRAM, MOL, RGAS, KB, NAV, ANGSTROM, SINumber.intoValueUnwrap, SINumber.sqrtUnwrap,
      SINumber.powi, Dim.div, Dim.mul, Dim.pow, Dim.even, Dim.half]
    norm_num [bind, Except.bind]
    simp only [div_eq_mul_inv, mul_inv]
    ring_nf
  unfold diffusionReference
  rw [dif_pos rfl]
  simp only
  rw [show (⟨0, by omega⟩ : Fin 1) = 0 from rfl, hc]

/-- C46: the diffusion correlation returns an error exactly for several components and panics exactly for
one component without coefficients. -/
theorem C46_diffusion_correlation_outcome (p : PcSaftParameters n ℝ) (s : ℝ) (x : Fin n → ℝ) :
    ((∃ e, diffusionCorrelation p s x = .ok (.error e)) ↔ n ≠ 1)
    ∧ (n ≠ 1 → diffusionCorrelation p s x = .ok (.error (.incompatibleComponents n 1)))
    ∧ ((∃ e, diffusionCorrelation p s x = .error e) ↔ n = 1 ∧ p.diffusion = none) := by
  unfold diffusionCorrelation
  by_cases h : n = 1
  · rw [if_neg (not_not.mpr h)]
    cases p.diffusion <;> simp [h]
  · rw [if_pos h]
    simp [h]

/-- C46: the same for the thermal conductivity correlation -/
theorem C46_thermal_conductivity_correlation_outcome (p : PcSaftParameters n ℝ) (s : ℝ) (x : Fin n → ℝ) :
    ((∃ e, thermalConductivityCorrelation p s x = .ok (.error e)) ↔ n ≠ 1)
    ∧ (n ≠ 1 → thermalConductivityCorrelation p s x = .ok (.error (.incompatibleComponents n 1)))
    ∧ ((∃ e, thermalConductivityCorrelation p s x = .error e) ↔ n = 1 ∧ p.thermal_conductivity = none) := by
  unfold thermalConductivityCorrelation
  by_cases h : n = 1
  · rw [if_neg (not_not.mpr h)]
    cases p.thermal_conductivity <;> simp [h]
  · rw [if_pos h]
    simp [h]

/-- C46: the viscosity correlation never returns an error value for any number of components and panics
exactly without coefficients. -/
theorem C46_viscosity_correlation_outcome (p : PcSaftParameters n ℝ) (s : ℝ) (x : Fin n → ℝ) :
    (∃ e, viscosityCorrelation p s x = .error e) ↔ p.viscosity = none := by
  unfold viscosityCorrelation
  cases p.viscosity <;> simp

/-- C46: the thermal conductivity reference returns the incompatible-components error for every number of
components but one; for one component the only possible error value is that of creating the state. -/
theorem C46_thermal_conductivity_reference_error (S : Eos n ℝ → Except EosError ℝ) (e : Eos n ℝ)
    (T : SINumber ℝ) :
    (n ≠ 1 → thermalConductivityReference S e T = .ok (.error (.incompatibleComponents n 1)))
    ∧ (n = 1 → ∀ err, thermalConductivityReference S e T = .ok (.error err) ↔
        S (Eos.new e.parameters) = .error err) := by
  refine ⟨fun h => dif_neg h, fun h err => ?_⟩
  unfold thermalConductivityReference
  rw [dif_pos h]
  cases hS : S (Eos.new e.parameters) with
  | error err' => simp
  | ok v =>
    simp only
    split <;> simp

/-- C46: for a pure component the correlations are the documented functions of the reduced entropy per
segment. -/
theorem C46_pure_correlations (p : PcSaftParameters 1 ℝ) (s : ℝ) (hm : p.m 0 ≠ 0) :
    (∀ v, p.viscosity = some v → viscosityCorrelation p s (fun _ => 1)
      = .ok (v 0 0 + v 1 0 * (s / p.m 0) + v 2 0 * (s / p.m 0) ^ 2 + v 3 0 * (s / p.m 0) ^ 3))
    ∧ (∀ d, p.diffusion = some d → diffusionCorrelation p s (fun _ => 1)
      = .ok (.ok (d 0 0 + d 1 0 * (s / p.m 0)
          - d 2 0 * (1 - Real.exp (s / p.m 0)) * (s / p.m 0) ^ 2
          - d 3 0 * (s / p.m 0) ^ 4 - d 4 0 * (s / p.m 0) ^ 8)))
    ∧ (∀ l, p.thermal_conductivity = some l → thermalConductivityCorrelation p s (fun _ => 1)
      = .ok (.ok (l 0 0 + l 1 0 * (s / p.m 0) + l 2 0 * (1 - Real.exp (s / p.m 0))
          + l 3 0 * (s / p.m 0) ^ 2))) := by
  have h1 : (1.0 : ℝ) = 1 := by norm_num
  refine ⟨fun v hv => ?_, fun d hd => ?_, fun l hl => ?_⟩
  · simp only [viscosityCorrelation, hv, sumFin_real, Fin.sum_univ_one, one_mul, div_self hm, mul_one, powi_real]
  · simp only [diffusionCorrelation, hd, sumFin_real, Fin.sum_univ_one, one_mul, div_self hm, mul_one, powi_real,
      exp_real, h1, ne_eq, not_true_eq_false, if_false]
  · simp only [thermalConductivityCorrelation, hl, sumFin_real, Fin.sum_univ_one, one_mul, div_self hm, mul_one,
      powi_real, exp_real, h1, ne_eq, not_true_eq_false, if_false]

/-- C46: if component `j` of a mixture has the record of substance `φ j` and each substance occurs, the
viscosity correlation depends on the total amount of each substance only (including the panic for missing
coefficients). -/
theorem C46_pseudo_components {n' : ℕ} (pr : Fin n → PureRecord ℝ) (k : Fin n → Fin n → ℝ)
    (k' : Fin n' → Fin n' → ℝ) (φ : Fin n' → Fin n) (hφ : Function.Surjective φ) (s : ℝ) (x : Fin n' → ℝ) :
    viscosityCorrelation (fromRecords (fun j => pr (φ j)) k') s x
      = viscosityCorrelation (fromRecords pr k) s (fun i => ∑ j, if φ j = i then x j else 0) := by
  have hv : (fromRecords (fun j => pr (φ j)) k').viscosity
      = (fromRecords pr k).viscosity.map (fun v c j => v c (φ j)) := by
    change Option.map _ (collectOption fun j => (pr (φ j)).model_record.viscosity)
      = Option.map _ (Option.map _ (collectOption fun i => (pr i).model_record.viscosity))
    cases h : collectOption fun i => (pr i).model_record.viscosity with
    | none =>
      have h' : collectOption (fun j => (pr (φ j)).model_record.viscosity) = none := by
        rw [← Option.not_isSome_iff_eq_none, collectOption_isSome] at h ⊢
        intro hall
        refine h fun i => ?_
        obtain ⟨j, rfl⟩ := hφ i
        exact hall j
      rw [h']
      rfl
    | some v =>
      have hg := (collectOption_get _ _).mp h
      have h' : collectOption (fun j => (pr (φ j)).model_record.viscosity) = some (fun j => v (φ j)) :=
        (collectOption_get _ _).mpr fun j => hg (φ j)
      rw [h']
      rfl
  unfold viscosityCorrelation
  rw [hv]
  cases hp : (fromRecords pr k).viscosity with
  | none => rfl
  | some v =>
    have e1 : ∀ f : Fin n → ℝ, ∑ j, f (φ j) * x j = ∑ i, f i * merge φ x i := by
      intro f
      simp only [mul_comm (f _)]
      rw [sum_merge]
    have e2 : ∀ f : Fin n → ℝ, ∑ j, x j * f (φ j) = ∑ i, merge φ x i * f i := fun f =>
      (sum_merge φ x f).symm
    have e3 : ∀ (f g : Fin n → ℝ) (m : ℝ), ∑ j, f (φ j) * (x j * g (φ j) / m)
        = ∑ i, f i * (merge φ x i * g i / m) := by
      intro f g m
      calc _ = ∑ j, x j * (fun i => f i * g i / m) (φ j) :=
            Finset.sum_congr rfl fun j _ => by ring
        _ = ∑ i, merge φ x i * (f i * g i / m) := e2 (fun i => f i * g i / m)
        _ = _ := Finset.sum_congr rfl fun i _ => by ring
    have hm : (fromRecords (fun j => pr (φ j)) k').m = fun j => (fromRecords pr k).m (φ j) := rfl
    simp only [Option.map, sumFin_real, hm]
    rw [e1 (v 0), e2 (fromRecords pr k).m, e3 (v 1), e3 (v 2), e3 (v 3)]
    rfl

/-- C46: for a mixture of components with the same record the viscosity correlation is the pure one. -/
theorem C46_identical (r : PureRecord ℝ) (k : Fin (n + 1) → Fin (n + 1) → ℝ) (s : ℝ) (x : Fin (n + 1) → ℝ)
    (hx : ∑ i, x i = 1) :
    viscosityCorrelation (fromRecords (fun _ => r) k) s x
      = viscosityCorrelation (fromRecords (fun _ : Fin 1 => r) (fun _ _ => 0)) s (fun _ => 1) := by
  rw [C46_pseudo_components (fun _ : Fin 1 => r) (fun _ _ => 0) k (fun _ => 0)
    (fun i => ⟨0, Subsingleton.elim _ _⟩)]
  congr 1
  funext i
  rw [← hx]
  exact Finset.sum_congr rfl fun j _ => if_pos (Subsingleton.elim _ _)

/-- a component with coefficients for all three correlations -/
noncomputable def transportRecord : PureRecord ℝ :=
  ⟨⟨none, ""⟩, 44, ⟨2, 3, 200, none, none, none, none, none, none, some ![-1, -2, -3, -4],
    some ![1, 2, 3, 4, 5], some ![1, -2, 3, -4]⟩, none⟩

/-- the coefficients are used: η* = -1 + 2 - 3 + 4 for s_res = -2 and m = 2 -/
example : viscosityCorrelation (fromRecords (fun _ : Fin 3 => transportRecord) (fun _ _ => 0)) (-2)
    ![1 / 2, 1 / 4, 1 / 4] = .ok 2 := by
  rw [C46_identical transportRecord _ (-2) ![1 / 2, 1 / 4, 1 / 4] (by rw [Fin.sum_univ_three]; norm_num [Matrix.cons_val_two])]
  have hv : (fromRecords (fun _ : Fin 1 => transportRecord) (fun _ _ => 0)).viscosity
      = some (fun c _ => (![-1, -2, -3, -4] : Fin 4 → ℝ) c) := by
    have : (fromRecords (fun _ : Fin 1 => transportRecord) (fun _ _ => 0)).viscosity
        = Option.map (fun v k i => v i k) (collectOption fun _ : Fin 1 => transportRecord.model_record.viscosity) := rfl
    rw [this]
    rw [(collectOption_get (fun _ : Fin 1 => transportRecord.model_record.viscosity)
      (fun _ : Fin 1 => ![-1, -2, -3, -4])).mpr fun _ => rfl]
    rfl
  rw [(C46_pure_correlations _ (-2) (show (2 : ℝ) ≠ 0 by norm_num)).1 _ hv]
  congr 1
  change (-1 : ℝ) + -2 * (-2 / 2) + -3 * (-2 / 2) ^ 2 + -4 * (-2 / 2) ^ 3 = 2
  norm_num

/-! ### C47 -/

theorem nassoc_one_component (p : PcSaftParameters 1 ℝ) (h : p.assoc_comp = nonzeroComp p.kappa_ab) :
    p.nassoc ≤ 1 := by
  change p.assoc_comp.length ≤ 1
  rw [h]
  simpa using (nonzeroComp_sorted p.kappa_ab).nodup.length_le_card

/-- C47: for one component no option changes the residual Helmholtz energy, at any state. -/
theorem C47_options_irrelevant (la : LinAlg ℝ ℝ) (pr : Fin 1 → PureRecord ℝ) (k : Fin 1 → Fin 1 → ℝ)
    (hs : 0 < (pr 0).model_record.sigma) (o o' : PcSaftOptions ℝ) (s : StateHD 1 ℝ) :
    (Eos.withOptions (fromRecords pr k) o).residualHelmholtz la s
      = (Eos.withOptions (fromRecords pr k) o').residualHelmholtz la s := by
  have ha := nassoc_one_component (fromRecords pr k) rfl
  rw [residual_of_nassoc_le_one la _ _ _ ha, residual_of_nassoc_le_one la _ _ _ ha]
  have e := C48_dq_variants_agree pr k (fun i => by rw [Subsingleton.elim i 0]; exact hs)
    (fun i j => by rw [Subsingleton.elim i j]) s
  congr 1
  simp only [residualSum]
  cases o.dq_variant <;> cases o'.dq_variant <;> simp only [e]

/-- C47: The reference rebuilds the equation of state with default options.  Nevertheless it is the value
computed from the residual entropy of the equation of state it is called on, for every way of deriving the
entropy `S` from the residual Helmholtz energy as a function of the state (and the parameters). -/
theorem C47_reference_of_own_entropy (la : LinAlg ℝ ℝ) (pr : Fin 1 → PureRecord ℝ) (k : Fin 1 → Fin 1 → ℝ)
    (hs : 0 < (pr 0).model_record.sigma) (o : PcSaftOptions ℝ) (T : SINumber ℝ)
    (S : Eos 1 ℝ → Except EosError ℝ)
    (hS : ∀ e e' : Eos 1 ℝ, e.parameters = e'.parameters →
      (∀ s, e.residualHelmholtz la s = e'.residualHelmholtz la s) → S e = S e') :
    let e := Eos.withOptions (fromRecords pr k) o
    thermalConductivityReference S e T
      = match S e with
        | .error err => .ok (.error err)
        | .ok s_res => (thermalConductivityReferenceComponent e.parameters T s_res 0).map .ok := by
  intro e
  have h : S (Eos.new e.parameters) = S e := hS _ _ rfl fun s =>
    C47_options_irrelevant la pr k hs _ o s
  unfold thermalConductivityReference
  rw [dif_pos rfl, h]
  cases S e with
  | error err => rfl
  | ok v =>
    simp only
    rw [show (⟨0, by omega⟩ : Fin 1) = 0 from rfl]
    cases thermalConductivityReferenceComponent e.parameters T v 0 <;> rfl

/-- C47: the value for a temperature in kelvin, in W/(m K) -/
theorem C47_value (p : PcSaftParameters 1 ℝ) (T s : ℝ) :
    thermalConductivityReferenceComponent p (kelvin T) s 0
      = .ok ⟨0.083235 * Real.sqrt (T * p.m 0 / p.molarweight 0) / p.sigma 0 ^ 2 / omega22 (T / p.epsilon_k 0)
          + (-0.0167141 * (T / p.epsilon_k 0) / p.m 0 + 0.0470581 * (T / p.epsilon_k 0 / p.m 0) ^ 2)
            * (p.m 0 * p.m 0 * p.sigma 0 ^ 3 * p.epsilon_k 0) * 1e-5 * Real.exp (2 * (s / p.m 0)),
          { kg := 1, m := 1, s := -3, k := -1 }⟩ := by
  have h1 : (1.0 : ℝ) = 1 := by norm_num
  have hw : p.molarweight 0 * 1e-3 / 1e-3 = p.molarweight 0 := by
    rw [mul_div_assoc, div_self (by norm_num), mul_one]
  have he : -(s / p.m 0) / -0.5 = 2 * (s / p.m 0) := by
    rw [neg_div_neg_eq, show (0.5 : ℝ) = 1 / 2 by norm_num]
    ring
  simp only [thermalConductivityReferenceComponent, chapmanEnskogThermalConductivity, molarWeight, kelvin,
    SINumber.divs, SINumber.div, SINumber.smul, SINumber.add, KELVIN, GRAM, MOL, WATT, METER,
    SINumber.intoValueUnwrap, SINumber.toReducedUnwrap, Dim.div, bind, Except.bind, powi_real, sqrt_real, exp_real,
    h1, hw, he, div_one, mul_one, sub_self, sub_zero, if_true]
  rfl

end PcSaft.Props
