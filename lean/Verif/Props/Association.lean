import Verif.Lemmas.SiteFraction
import Verif.Lemmas.MergeInv
import Verif.Props.HardSphere
import Verif.Props.Construction
import Mathlib.Tactic.NormNum

/-!
# Properties C23–C26 and C58: association strength and explicit site fractions
-/

namespace PcSaft.Props
open PcSaft Spec
variable {n : ℕ}

/-! ## C58: association strength -/

/-- contact value of the unlike pair of hard spheres with diameters `di` and `dj` -/
noncomputable def contactPair (ζ₂ ζ₃ di dj : ℝ) : ℝ :=
  1 / (1 - ζ₃) + 3 * (di * dj / (di + dj)) * ζ₂ / (1 - ζ₃) ^ 2
    + 2 * (di * dj / (di + dj)) ^ 2 * ζ₂ ^ 2 / (1 - ζ₃) ^ 3

/-- association strength between components `i` and `j` from the pure-component parameters, with the
combining rules for the association volume and energy -/
noncomputable def specStrength (p : PcSaftParameters n ℝ) (T V : ℝ) (moles : Fin n → ℝ)
    (i j : Fin n) : ℝ :=
  contactPair (moment2 p T V moles) (Spec.packingFraction p T V moles)
      (Spec.diameter (p.sigma i) (p.epsilon_k i) T) (Spec.diameter (p.sigma j) (p.epsilon_k j) T)
    * Real.sqrt (p.kappa_ab i * p.kappa_ab j) * Real.sqrt (p.sigma i * p.sigma j) ^ 3
    * (Real.exp ((p.epsilon_k_ab i + p.epsilon_k_ab j) / 2 / T) - 1)

theorem mem_assoc_iff (pr : Fin n → PureRecord ℝ) (k : Fin n → Fin n → ℝ) (i : Fin n) :
    i ∈ (fromRecords pr k).assoc_comp ↔ (fromRecords pr k).kappa_ab i ≠ 0 :=
  mem_nonzeroComp (fromRecords pr k).kappa_ab i

/-- C58: the association strength used by both association contributions. -/
theorem C58_association_strength (pr : Fin n → PureRecord ℝ) (k : Fin n → Fin n → ℝ) (T V : ℝ)
    (moles : Fin n → ℝ) (h : Admissible (fromRecords pr k) T V moles) (i j : Fin n)
    (hi : (fromRecords pr k).kappa_ab i ≠ 0) (hj : (fromRecords pr k).kappa_ab j ≠ 0) :
    stateStrength (fromRecords pr k) (StateHD.new T V moles) i j
      = specStrength (fromRecords pr k) T V moles i j := by
  set p := fromRecords pr k with hp
  have hκ : p.kappa_aibj i j = Real.sqrt (p.kappa_ab i * p.kappa_ab j)
      * (2 * Real.sqrt (p.sigma i * p.sigma j) / (p.sigma i + p.sigma j)) ^ 3 := by
    have h3 : (3.0 : ℝ) = ((3 : ℕ) : ℝ) := by norm_num
    have h2 : (2.0 : ℝ) = 2 := by norm_num
    have : (i ∈ p.assoc_comp ∧ j ∈ p.assoc_comp) :=
      ⟨(mem_assoc_iff pr k i).2 hi, (mem_assoc_iff pr k j).2 hj⟩
    have e : p.kappa_aibj i j = if i ∈ p.assoc_comp ∧ j ∈ p.assoc_comp then
      F64.sqrt (p.kappa_ab i * p.kappa_ab j)
        * F64.powf (2.0 * F64.sqrt (p.sigma i * p.sigma j) / (p.sigma i + p.sigma j)) 3.0
      else 0.0 := rfl
    rw [e, if_pos this, powf_real, sqrt_real, sqrt_real, h3, Real.rpow_natCast, h2]
  have hε : p.epsilon_k_aibj i j = (p.epsilon_k_ab i + p.epsilon_k_ab j) / 2 := by
    have h5 : (0.5 : ℝ) = 1 / 2 := by norm_num
    have : (i ∈ p.assoc_comp ∧ j ∈ p.assoc_comp) :=
      ⟨(mem_assoc_iff pr k i).2 hi, (mem_assoc_iff pr k j).2 hj⟩
    have e : p.epsilon_k_aibj i j = if i ∈ p.assoc_comp ∧ j ∈ p.assoc_comp then
      0.5 * (p.epsilon_k_ab i + p.epsilon_k_ab j) else 0.0 := rfl
    rw [e, if_pos this, h5]
    ring
  have hd := h.diameter_pos
  have hη : Spec.packingFraction p T V moles < 1 := h.packing
  have hσi := h.sigma_pos i
  have hσj := h.sigma_pos j
  have hn2 : assocN2 p.m (StateHD.new T V moles).partial_density
      (fun i => hsDiameter p T i * c (0.5 : ℝ)) = 6 * moment2 p T V moles := by
    rw [assocN2_real, moment2, Finset.mul_sum, Finset.mul_sum, StateHD.new_density]
    refine Finset.sum_congr rfl (fun l _ => ?_)
    have h5 : (0.5 : ℝ) = 1 / 2 := by norm_num
    rw [hsDiameter_eq_spec]
    simp only [c, ofF_real, h5]
    ring
  unfold stateStrength specStrength
  simp only [StateHD.new_temperature]
  rw [hn2, packingFraction_eq_zeta, zeta3_eq_packing]
  unfold associationStrength
  rw [hκ, hε]
  have di := hd i
  have dj := hd j
  rw [hsDiameter_eq_spec] at di dj
  have h5 : (0.5 : ℝ) = 1 / 2 := by norm_num
  have h1 : (1.0 : ℝ) = 1 := by norm_num
  have h2 : (2.0 : ℝ) = 2 := by norm_num
  have h18 : (18.0 : ℝ) = 18 := by norm_num
  simp only [hsDiameter_eq_spec, c, ofF_real, recip_real, dexpm1_real, powi_real, h5, h1, h2, h18]
  have e1 : -Spec.packingFraction p T V moles + 1 = 1 - Spec.packingFraction p T V moles := by ring
  have e2 : T⁻¹ * ((p.epsilon_k_ab i + p.epsilon_k_ab j) / 2)
      = (p.epsilon_k_ab i + p.epsilon_k_ab j) / 2 / T := by ring
  rw [e1, e2]
  unfold contactPair
  have hw : 1 - Spec.packingFraction p T V moles ≠ 0 := by linarith
  generalize 1 - Spec.packingFraction p T V moles = w at *
  generalize Spec.diameter (p.sigma i) (p.epsilon_k i) T = d1 at *
  generalize Spec.diameter (p.sigma j) (p.epsilon_k j) T = d2 at *
  generalize Real.exp ((p.epsilon_k_ab i + p.epsilon_k_ab j) / 2 / T) - 1 = E
  generalize Real.sqrt (p.sigma i * p.sigma j) = S
  generalize Real.sqrt (p.kappa_ab i * p.kappa_ab j) = K
  generalize moment2 p T V moles = Z
  have hs : p.sigma i + p.sigma j ≠ 0 := by positivity
  have hdd : d1 + d2 ≠ 0 := by positivity
  have eS : (1 / 2 * (p.sigma i + p.sigma j)) ^ 3 * (K * (2 * S / (p.sigma i + p.sigma j)) ^ 3)
      = K * S ^ 3 := by
    field_simp
  have eg : w⁻¹ * (d1 * (1 / 2) * (d2 * (1 / 2)) / (d1 * (1 / 2) + d2 * (1 / 2)) * (6 * Z * w⁻¹ * 2) * 1
      * (d1 * (1 / 2) * (d2 * (1 / 2)) / (d1 * (1 / 2) + d2 * (1 / 2)) * (6 * Z * w⁻¹ * 2) / 18 + 1 / 2) + 1)
      = 1 / w + 3 * (d1 * d2 / (d1 + d2)) * Z / w ^ 2
        + 2 * (d1 * d2 / (d1 + d2)) ^ 2 * Z ^ 2 / w ^ 3 := by
    have : d1 * (1 / 2) + d2 * (1 / 2) = (d1 + d2) / 2 := by ring
    rw [this]
    generalize hD : d1 + d2 = D at *
    field_simp
    ring
  rw [eg, mul_assoc _ (_ ^ 3), eS]
  ring

theorem contactPair_pos {z2 z3 d1 d2 : ℝ} (h2 : 0 ≤ z2) (h3 : z3 < 1) (hd1 : 0 < d1)
    (hd2 : 0 < d2) : 0 < contactPair z2 z3 d1 d2 := by
  have : 0 < 1 - z3 := by linarith
  unfold contactPair
  positivity

theorem moment2_nonneg {p : PcSaftParameters n ℝ} {T V : ℝ} {moles : Fin n → ℝ}
    (h : Admissible p T V moles) : 0 ≤ moment2 p T V moles := by
  rw [← zeta2_eq_moment2]
  exact (h.zeta_pos 2).le

/-- sign of the association strength -/
theorem specStrength_nonneg {p : PcSaftParameters n ℝ} {T V : ℝ} {moles : Fin n → ℝ}
    (h : Admissible p T V moles) (i j : Fin n) (hε : 0 ≤ p.epsilon_k_ab i + p.epsilon_k_ab j) :
    0 ≤ specStrength p T V moles i j := by
  have di := h.diameter_pos i
  have dj := h.diameter_pos j
  rw [hsDiameter_eq_spec] at di dj
  have hg := contactPair_pos (moment2_nonneg h) h.packing di dj
  have hT := h.temperature
  have he : 0 ≤ Real.exp ((p.epsilon_k_ab i + p.epsilon_k_ab j) / 2 / T) - 1 := by
    have : 0 ≤ (p.epsilon_k_ab i + p.epsilon_k_ab j) / 2 / T := by positivity
    have := Real.add_one_le_exp ((p.epsilon_k_ab i + p.epsilon_k_ab j) / 2 / T)
    linarith
  unfold specStrength
  exact mul_nonneg (mul_nonneg (mul_nonneg hg.le (Real.sqrt_nonneg _)) (pow_nonneg (Real.sqrt_nonneg _) _)) he

theorem specStrength_eq_zero {p : PcSaftParameters n ℝ} {T V : ℝ} {moles : Fin n → ℝ}
    (h : Admissible p T V moles) (i : Fin n) (hκ : p.kappa_ab i ≠ 0) :
    specStrength p T V moles i i = 0 ↔ p.epsilon_k_ab i = 0 := by
  have di := h.diameter_pos i
  rw [hsDiameter_eq_spec] at di
  have hg := contactPair_pos (moment2_nonneg h) h.packing di di
  have hT := h.temperature
  have hσ := h.sigma_pos i
  have h1 : Real.sqrt (p.kappa_ab i * p.kappa_ab i) ≠ 0 := by
    rw [Real.sqrt_mul_self_eq_abs]; exact abs_ne_zero.2 hκ
  have h2 : Real.sqrt (p.sigma i * p.sigma i) ^ 3 ≠ 0 := by
    rw [Real.sqrt_mul_self hσ.le]; positivity
  unfold specStrength
  rw [mul_eq_zero, or_iff_right (mul_ne_zero (mul_ne_zero hg.ne' h1) h2), sub_eq_zero,
    Real.exp_eq_one_iff, div_eq_zero_iff, or_iff_left hT.ne']
  constructor <;> intro h <;> linarith

/-- C58: the association strength is symmetric, non-negative for non-negative association energies,
and zero exactly if the association energies cancel. -/
theorem C58_sign (pr : Fin n → PureRecord ℝ) (k : Fin n → Fin n → ℝ) (T V : ℝ)
    (moles : Fin n → ℝ) (h : Admissible (fromRecords pr k) T V moles) (i j : Fin n)
    (hi : 0 < (fromRecords pr k).kappa_ab i) (hj : 0 < (fromRecords pr k).kappa_ab j) :
    let p := fromRecords pr k
    let s := StateHD.new T V moles
    stateStrength p s i j = stateStrength p s j i
    ∧ (0 ≤ stateStrength p s i j ↔ 0 ≤ p.epsilon_k_ab i + p.epsilon_k_ab j)
    ∧ (stateStrength p s i j = 0 ↔ p.epsilon_k_ab i + p.epsilon_k_ab j = 0) := by
  intro p s
  have hij := C58_association_strength pr k T V moles h i j hi.ne' hj.ne'
  have hji := C58_association_strength pr k T V moles h j i hj.ne' hi.ne'
  have di := h.diameter_pos i
  have dj := h.diameter_pos j
  rw [hsDiameter_eq_spec] at di dj
  have hg := contactPair_pos (moment2_nonneg h) h.packing di dj
  have hT := h.temperature
  have h1 : 0 < Real.sqrt (p.kappa_ab i * p.kappa_ab j) := Real.sqrt_pos.2 (mul_pos hi hj)
  have h2 : 0 < Real.sqrt (p.sigma i * p.sigma j) ^ 3 :=
    pow_pos (Real.sqrt_pos.2 (mul_pos (h.sigma_pos i) (h.sigma_pos j))) 3
  have hpre := mul_pos (mul_pos hg h1) h2
  refine ⟨?_, ?_, ?_⟩
  · rw [hij, hji]
    unfold specStrength contactPair
    rw [mul_comm (p.kappa_ab i), mul_comm (p.sigma i), add_comm (p.epsilon_k_ab i),
      mul_comm (Spec.diameter (p.sigma i) (p.epsilon_k i) T),
      add_comm (Spec.diameter (p.sigma i) (p.epsilon_k i) T)]
  · rw [hij]
    unfold specStrength
    rw [mul_nonneg_iff_of_pos_left hpre, sub_nonneg, Real.one_le_exp_iff, le_div_iff₀ hT]
    constructor <;> intro h <;> linarith
  · rw [hij]
    unfold specStrength
    rw [mul_eq_zero, or_iff_right hpre.ne', sub_eq_zero, Real.exp_eq_one_iff, div_eq_zero_iff,
      or_iff_left hT.ne']
    constructor <;> intro h <;> linarith

/-! ## C23 -/

/-- C23: above the cutoff the explicit site fractions are the only positive solution of the mass
action law, they lie in (0, 1], and exchanging the numbers of A and B sites exchanges them. -/
theorem C23_site_fractions {d na nb : ℝ} (hd : Real.sqrt (f64EPSILON : ℝ) < d) (hna : 0 < na)
    (hnb : 0 < nb) :
    ∃ xb : ℝ, 0 < assocSiteFracAB d na nb ∧ assocSiteFracAB d na nb ≤ 1 ∧ 0 < xb ∧ xb ≤ 1
      ∧ MassActionAB d na nb (assocSiteFracAB d na nb) xb
      ∧ assocSiteFracAB d nb na = xb
      ∧ ∀ ya yb, 0 < ya → 0 < yb → MassActionAB d na nb ya yb →
          ya = assocSiteFracAB d na nb ∧ yb = xb := by
  rw [sqrt_epsilon] at hd
  have hd0 : 0 < d := lt_trans (by positivity) hd
  obtain ⟨xa, xb, ha, hb, h⟩ := massActionAB_exists hd0.le hna hnb
  have e : ∀ (na nb xa xb : ℝ), 0 < na → 0 < nb → 0 < xa → MassActionAB d na nb xa xb →
      assocSiteFracAB d na nb = xa := by
    intro na nb xa xb hna hnb ha h
    rw [assocSiteFracAB_above hd]
    exact quadratic_unique (by positivity) (fracForm_pos (by positivity)) ha
      (fracForm_quadratic (by positivity) (by positivity)) h.quadratic
  rw [e na nb xa xb hna hnb ha h, e nb na xb xa hnb hna hb h.swap]
  obtain ⟨h1, h2⟩ := h.le_one hd0.le hna.le hnb.le ha hb
  exact ⟨xb, ha, h1, hb, h2, h, rfl, fun ya yb hya _ hy => hy.unique hd0.le hna.le hnb.ne' hya ha h⟩

/-- C23 for the energy: it is the sum over the sites of `ln X - X/2 + 1/2`, evaluated at the exact
solution of the mass-action law. -/
theorem C23_energy {d moles na nb xa xb : ℝ} (hd : Real.sqrt (f64EPSILON : ℝ) < d) (hna : 0 < na)
    (hnb : 0 < nb) (ha : 0 < xa) (hb : 0 < xb) (h : MassActionAB d na nb xa xb) :
    assocSingle d moles na nb = moles * (na * (Real.log xa - xa / 2 + 1 / 2)
      + nb * (Real.log xb - xb / 2 + 1 / 2)) := by
  obtain ⟨yb, _, _, _, _, h1, _, h2⟩ := C23_site_fractions hd hna hnb
  obtain ⟨e1, e2⟩ := h2 xa xb ha hb h
  rw [assocSingle_ab hnb, ← e1, assocF_real, ← h.xb_eq hnb.ne' ha.ne', assocF_real]

/-- C23 for the Helmholtz energy of the equation of state with one associating component. -/
theorem C23_helmholtz_energy (pr : Fin n → PureRecord ℝ) (k : Fin n → Fin n → ℝ) (T V : ℝ)
    (moles : Fin n → ℝ) (h : Admissible (fromRecords pr k) T V moles) (a : Fin n) (xa xb : ℝ)
    (hκ : (fromRecords pr k).assoc_comp = [a])
    (hna : 0 < (fromRecords pr k).na a) (hnb : 0 < (fromRecords pr k).nb a)
    (hd : Real.sqrt (f64EPSILON : ℝ) < specStrength (fromRecords pr k) T V moles a a * (moles a / V))
    (ha : 0 < xa) (hb : 0 < xb)
    (hx : MassActionAB (specStrength (fromRecords pr k) T V moles a a * (moles a / V))
      ((fromRecords pr k).na a) ((fromRecords pr k).nb a) xa xb) :
    association (fromRecords pr k) (StateHD.new T V moles)
      = .ok (moles a * ((fromRecords pr k).na a * (Real.log xa - xa / 2 + 1 / 2)
        + (fromRecords pr k).nb a * (Real.log xb - xb / 2 + 1 / 2))) := by
  have hka : (fromRecords pr k).kappa_ab a ≠ 0 := (mem_assoc_iff pr k a).1 (by rw [hκ]; simp)
  rw [association_eq _ _ a [] hκ, C58_association_strength pr k T V moles h a a hka hka,
    StateHD.new_density, StateHD.new_moles]
  rw [C23_energy hd hna hnb ha hb hx]

/-! ## C24 -/

/-- C24: at and below the cutoff the deviation of the series from the exact solution is bounded by a
cubic term. -/
theorem C24_series_cubic {d na nb xa xb : ℝ} (hd0 : 0 ≤ d) (hd : d ≤ Real.sqrt (f64EPSILON : ℝ))
    (hna : 0 < na) (hnb : 0 < nb) (hsmall : na + nb ≤ 2 ^ 25) (ha : 0 < xa)
    (h : MassActionAB d na nb xa xb) :
    |assocSiteFracAB d na nb - xa| ≤ 2 * d ^ 3 * nb * (na ^ 2 + 3 * na * nb + nb ^ 2) ∧
    |((assocSiteFracAB d na nb - 1) * (na / nb) + 1) - xb|
      ≤ 2 * d ^ 3 * na * (na ^ 2 + 3 * na * nb + nb ^ 2) := by
  rw [sqrt_epsilon] at hd
  rw [assocSiteFracAB_below hd]
  have hsum : d * na + d * nb ≤ 1 / 2 := by
    calc d * na + d * nb = d * (na + nb) := by ring
      _ ≤ (2 ^ 26)⁻¹ * 2 ^ 25 := mul_le_mul hd hsmall (by positivity) (by positivity)
      _ = 1 / 2 := by norm_num
  have h1 : 0 ≤ d * na := by positivity
  have h2 : 0 ≤ d * nb := by positivity
  have key := series_error h1 h2 (by linarith) (by linarith) ha h.quadratic
  have hinv : (1 - d * na)⁻¹ ≤ 2 := by
    rw [inv_le_comm₀ (by linarith) (by norm_num)]
    linarith
  have bound : |1 - d * nb + d * nb * (d * na + d * nb) - xa|
      ≤ 2 * d ^ 3 * nb * (na ^ 2 + 3 * na * nb + nb ^ 2) := by
    refine key.trans ?_
    rw [div_eq_mul_inv]
    calc _ ≤ d * nb * ((d * na) ^ 2 + 3 * (d * na) * (d * nb) + (d * nb) ^ 2) * 2 :=
          mul_le_mul_of_nonneg_left hinv (by positivity)
      _ = _ := by ring
  refine ⟨bound, ?_⟩
  rw [h.xb_eq hnb.ne' ha.ne']
  have e : (1 - d * nb + d * nb * (d * na + d * nb) - 1) * (na / nb) + 1 - ((xa - 1) * (na / nb) + 1)
      = (1 - d * nb + d * nb * (d * na + d * nb) - xa) * (na / nb) := by ring
  rw [e, abs_mul, abs_of_pos (div_pos hna hnb)]
  calc _ ≤ 2 * d ^ 3 * nb * (na ^ 2 + 3 * na * nb + nb ^ 2) * (na / nb) :=
        mul_le_mul_of_nonneg_right bound (div_pos hna hnb).le
    _ = _ := by field_simp

/-- C24: with at most ten sites of each kind the error is at most 2e-20 in both fractions. -/
theorem C24_series_error {d na nb xa xb : ℝ} (hd0 : 0 ≤ d) (hd : d ≤ Real.sqrt (f64EPSILON : ℝ))
    (hna : 0 < na) (hnb : 0 < nb) (hna10 : na ≤ 10) (hnb10 : nb ≤ 10) (ha : 0 < xa)
    (h : MassActionAB d na nb xa xb) :
    |assocSiteFracAB d na nb - xa| ≤ 2e-20 ∧
    |((assocSiteFracAB d na nb - 1) * (na / nb) + 1) - xb| ≤ 2e-20 := by
  rw [sqrt_epsilon] at hd
  rw [assocSiteFracAB_below hd]
  have h1 : 0 ≤ d * na := by positivity
  have h2 : 0 ≤ d * nb := by positivity
  have h3 : d * na ≤ (2 ^ 26)⁻¹ * 10 := mul_le_mul hd hna10 hna.le (by positivity)
  have h4 : d * nb ≤ (2 ^ 26)⁻¹ * 10 := mul_le_mul hd hnb10 hnb.le (by positivity)
  have key := series_error h1 h2 (by norm_num at *; linarith) (by norm_num at *; linarith) ha h.quadratic
  have hinv : (1 - d * na)⁻¹ ≤ 1.1 := by
    rw [inv_le_comm₀ (by norm_num at *; linarith) (by norm_num)]
    norm_num at *
    linarith
  have hpoly : (d * na) ^ 2 + 3 * (d * na) * (d * nb) + (d * nb) ^ 2 ≤ 5 * ((2 ^ 26)⁻¹ * 10) ^ 2 := by
    nlinarith [mul_le_mul h3 h3 h1 (by positivity), mul_le_mul h3 h4 h2 (by positivity),
      mul_le_mul h4 h4 h2 (by positivity)]
  have hp0 : 0 ≤ (d * na) ^ 2 + 3 * (d * na) * (d * nb) + (d * nb) ^ 2 := by positivity
  have gen : ∀ y, 0 ≤ y → y ≤ (2 ^ 26)⁻¹ * 10 →
      y * ((d * na) ^ 2 + 3 * (d * na) * (d * nb) + (d * nb) ^ 2) * (1 - d * na)⁻¹ ≤ 2e-20 := by
    intro y hy0 hy
    calc _ ≤ (((2 : ℝ) ^ 26)⁻¹ * 10) * (5 * (((2 : ℝ) ^ 26)⁻¹ * 10) ^ 2) * (1.1 : ℝ) := by
          apply mul_le_mul (mul_le_mul hy hpoly hp0 (by positivity)) hinv _ (by positivity)
          rw [inv_nonneg]
          norm_num at *
          linarith
      _ ≤ 2e-20 := by norm_num
  refine ⟨key.trans (by rw [div_eq_mul_inv]; exact gen _ h2 h4), ?_⟩
  rw [h.xb_eq hnb.ne' ha.ne']
  have e : (1 - d * nb + d * nb * (d * na + d * nb) - 1) * (na / nb) + 1 - ((xa - 1) * (na / nb) + 1)
      = (1 - d * nb + d * nb * (d * na + d * nb) - xa) * (na / nb) := by ring
  rw [e, abs_mul, abs_of_pos (div_pos hna hnb)]
  calc _ ≤ _ * (na / nb) := mul_le_mul_of_nonneg_right key (div_pos hna hnb).le
    _ = d * na * ((d * na) ^ 2 + 3 * (d * na) * (d * nb) + (d * nb) ^ 2) * (1 - d * na)⁻¹ := by
        field_simp
    _ ≤ _ := gen _ h1 h3

/-! ## C25 -/

/-- C25, what holds: at and below the cutoff the series for one kind of sites is accurate.  Missing:
the statement above the cutoff, which is false (`C25_counterexample`). -/
theorem C25_series_partial {d na x : ℝ} (hd0 : 0 ≤ d) (hd : d ≤ Real.sqrt (f64EPSILON : ℝ))
    (hna : 0 < na) (hna10 : na ≤ 10) (hx : 0 < x) (h : MassActionA d na x) :
    |assocSiteFracA d na - x| ≤ 2e-20 := by
  have h' : MassActionAB d na na x x := ⟨h, h⟩
  have := (C24_series_error hd0 hd hna hna hna10 hna10 hx h').1
  rw [sqrt_epsilon] at hd
  rw [assocSiteFracA_below hd]
  rw [assocSiteFracAB_below hd] at this
  have e : 1 - d * na + 2 * (d * na) ^ 2 = 1 - d * na + d * na * (d * na + d * na) := by ring
  rw [e]
  exact this

/-- C25 fails for every strength above the cutoff: the computed "fraction" exceeds 2, so it is not a
fraction and does not solve the mass-action law. -/
theorem C25_counterexample {d na : ℝ} (hd : Real.sqrt (f64EPSILON : ℝ) < d) (hna : 0 < na) :
    2 < assocSiteFracA d na ∧ ¬ MassActionA d na (assocSiteFracA d na) := by
  rw [sqrt_epsilon] at hd
  have hd0 : 0 < d := lt_trans (by positivity) hd
  have hy : 0 < d * na := by positivity
  have h2 : 2 < assocSiteFracA d na := by
    rw [assocSiteFracA_above hd, lt_div_iff₀ (by positivity)]
    apply Real.lt_sqrt_of_sq_lt
    nlinarith
  refine ⟨h2, fun h => ?_⟩
  have h' : assocSiteFracA d na * (1 + d * na * assocSiteFracA d na) = 1 := h
  have : 0 < d * na * assocSiteFracA d na := by positivity
  nlinarith

/-- Consequence for the energy: with `d na > 2/5` association of a component with one kind of sites
raises the Helmholtz energy. -/
theorem C25_energy_counterexample {d na moles : ℝ} (hd : Real.sqrt (f64EPSILON : ℝ) < d) (hna : 0 < na)
    (hy : 2 / 5 < d * na) (hm : 0 < moles) : 0 < assocSingle d moles na 0 := by
  have h2 := (C25_counterexample hd hna).1
  rw [sqrt_epsilon] at hd
  rw [assocSingle_a le_rfl]
  have h3 : assocSiteFracA d na < 3 := by
    rw [assocSiteFracA_above hd, div_lt_iff₀ (by linarith), Real.sqrt_lt' (by linarith)]
    nlinarith
  have := assocF_pos (by linarith) h3
  positivity

/-! ## C26 -/

theorem fracs_below {d na nb : ℝ} (hd0 : 0 ≤ d) (hd : d ≤ (2 ^ 26)⁻¹) (hna : 0 < na) (hnb : 0 < nb)
    (hsmall : na + nb < 2 ^ 26) :
    (0 < assocSiteFracAB d na nb ∧ assocSiteFracAB d na nb ≤ 1
      ∧ 0 < (assocSiteFracAB d na nb - 1) * (na / nb) + 1
      ∧ (assocSiteFracAB d na nb - 1) * (na / nb) + 1 ≤ 1)
    ∧ (0 < d → assocSiteFracAB d na nb < 1) := by
  rw [assocSiteFracAB_below hd]
  have hsum : d * na + d * nb < 1 := by
    calc d * na + d * nb = d * (na + nb) := by ring
      _ ≤ (2 ^ 26)⁻¹ * (na + nb) := mul_le_mul_of_nonneg_right hd (by positivity)
      _ < (2 ^ 26)⁻¹ * 2 ^ 26 := by gcongr
      _ = 1 := by norm_num
  have h1 : 0 ≤ d * na := by positivity
  have h2 : 0 ≤ d * nb := by positivity
  have e : (1 - d * nb + d * nb * (d * na + d * nb) - 1) * (na / nb) + 1
      = 1 - d * na + d * na * (d * na + d * nb) := by
    field_simp
    ring
  rw [e]
  have p1 : 0 ≤ d * na * (d * na + d * nb) := by positivity
  have p2 : 0 ≤ d * nb * (d * na + d * nb) := by positivity
  refine ⟨⟨by linarith, by nlinarith, by linarith, by nlinarith⟩, fun hd0 => ?_⟩
  have : 0 < d * nb := by positivity
  nlinarith

/-- C26: association of one component with A and B sites never raises the Helmholtz energy, and
leaves it unchanged exactly at zero strength (or density) or zero moles. -/
theorem C26_single {d moles na nb : ℝ} (hd : 0 ≤ d) (hm : 0 ≤ moles) (hna : 0 < na) (hnb : 0 < nb)
    (hsmall : na + nb < 2 ^ 26) :
    assocSingle d moles na nb ≤ 0 ∧ (assocSingle d moles na nb = 0 ↔ d = 0 ∨ moles = 0) := by
  have hf : (0 < assocSiteFracAB d na nb ∧ assocSiteFracAB d na nb ≤ 1
      ∧ 0 < (assocSiteFracAB d na nb - 1) * (na / nb) + 1
      ∧ (assocSiteFracAB d na nb - 1) * (na / nb) + 1 ≤ 1)
    ∧ (0 < d → assocSiteFracAB d na nb < 1) := by
    rcases le_or_gt d (2 ^ 26)⁻¹ with hc | hc
    · exact fracs_below hd hc hna hnb hsmall
    · obtain ⟨xb, p1, p2, p3, p4, h, _⟩ := C23_site_fractions (by rw [sqrt_epsilon]; exact hc) hna hnb
      have e := h.xb_eq hnb.ne' p1.ne'
      rw [← e]
      refine ⟨⟨p1, p2, p3, p4⟩, fun hd0 => ?_⟩
      have h1 := h.1
      have : 0 < assocSiteFracAB d na nb * (d * nb * xb) := by positivity
      nlinarith
  obtain ⟨⟨p1, p2, p3, p4⟩, p5⟩ := hf
  rw [assocSingle_ab hnb]
  have f1 := mul_nonpos_of_nonneg_of_nonpos hna.le (assocF_nonpos p1 p2)
  have f2 := mul_nonpos_of_nonneg_of_nonpos hnb.le (assocF_nonpos p3 p4)
  refine ⟨mul_nonpos_of_nonneg_of_nonpos hm (by linarith), ?_⟩
  constructor
  · intro h0
    rcases mul_eq_zero.1 h0 with h0 | h0
    · exact Or.inr h0
    · left
      by_contra hne
      have hlt := p5 (lt_of_le_of_ne hd (Ne.symm hne))
      have := mul_neg_of_pos_of_neg hna (assocF_neg p1 hlt)
      linarith
  · rintro (rfl | rfl)
    · have : assocSiteFracAB (0 : ℝ) na nb = 1 := by
        rw [assocSiteFracAB_below (by positivity)]; ring
      rw [this]
      simp [assocF_one]
    · simp

/-- C26 for the Helmholtz energy of the equation of state with one associating component. -/
theorem C26_helmholtz_energy (pr : Fin n → PureRecord ℝ) (k : Fin n → Fin n → ℝ) (T V : ℝ)
    (moles : Fin n → ℝ) (h : Admissible (fromRecords pr k) T V moles) (a : Fin n)
    (hκ : (fromRecords pr k).assoc_comp = [a]) (hε : 0 ≤ (fromRecords pr k).epsilon_k_ab a)
    (hna : 0 < (fromRecords pr k).na a) (hnb : 0 < (fromRecords pr k).nb a)
    (hsmall : (fromRecords pr k).na a + (fromRecords pr k).nb a < 2 ^ 26) :
    ∃ A, association (fromRecords pr k) (StateHD.new T V moles) = .ok A ∧ A ≤ 0
      ∧ (A = 0 ↔ (fromRecords pr k).epsilon_k_ab a = 0 ∨ moles a = 0) := by
  have hka : (fromRecords pr k).kappa_ab a ≠ 0 := (mem_assoc_iff pr k a).1 (by rw [hκ]; simp)
  have hV := h.volume
  have hN := h.moles_nonneg a
  have hs := specStrength_nonneg h a a (by linarith)
  have hz := specStrength_eq_zero h a hka
  rw [association_eq _ _ a [] hκ, C58_association_strength pr k T V moles h a a hka hka,
    StateHD.new_density, StateHD.new_moles]
  obtain ⟨h1, h2⟩ := C26_single (d := specStrength (fromRecords pr k) T V moles a a * (moles a / V))
    (mul_nonneg hs (div_nonneg hN hV.le)) hN hna hnb hsmall
  refine ⟨_, rfl, h1, ?_⟩
  rw [h2, mul_eq_zero, hz, div_eq_zero_iff, or_iff_left hV.ne', or_assoc, or_self]

/-! ## Non-vacuity -/

/-- a mixture of an associating and a non-associating component -/
noncomputable def assocRecords (i : Fin 2) : PureRecord ℝ :=
  if i = 0 then ⟨⟨none, ""⟩, 18, ⟨1, 3, 200, none, none, some 0.03, some 2500, none, none, none, none,
    none⟩, none⟩
  else ⟨⟨none, ""⟩, 44, ⟨2, 3, 200, none, none, none, none, none, none, none, none, none⟩, none⟩

theorem assocRecords_comp : (fromRecords assocRecords (fun _ _ => 0)).assoc_comp = [0] := by
  have h : (fromRecords assocRecords (fun _ _ => 0)).kappa_ab = fun i => if i = 0 then 0.03 else 0.0 := by
    funext i
    fin_cases i <;> rfl
  have e : (fromRecords assocRecords (fun _ _ => 0)).assoc_comp
      = nonzeroComp (fromRecords assocRecords (fun _ _ => 0)).kappa_ab := rfl
  rw [e, h]
  simp only [nonzeroComp, List.finRange_succ, List.finRange_zero, List.map_nil, List.map_cons]
  norm_num [lt_real]

theorem assocRecords_admissible :
    Admissible (fromRecords assocRecords (fun _ _ => 0)) 300 1000 (fun _ => 1) where
  temperature := by norm_num
  volume := by norm_num
  m_pos := fun i => by fin_cases i <;> norm_num [assocRecords, fromRecords]
  sigma_pos := fun i => by fin_cases i <;> norm_num [assocRecords, fromRecords]
  epsilon_nonneg := fun i => by fin_cases i <;> norm_num [assocRecords, fromRecords]
  moles_nonneg := fun _ => zero_le_one
  moles_ne_zero := ⟨0, one_ne_zero⟩
  packing := by
    have hm : (fromRecords assocRecords (fun _ _ => 0)).m 0 = 1
      ∧ (fromRecords assocRecords (fun _ _ => 0)).m 1 = 2 := ⟨rfl, rfl⟩
    have hs : (fromRecords assocRecords (fun _ _ => 0)).sigma 0 = 3
      ∧ (fromRecords assocRecords (fun _ _ => 0)).sigma 1 = 3 := ⟨rfl, rfl⟩
    have he : (fromRecords assocRecords (fun _ _ => 0)).epsilon_k 0 = 200
      ∧ (fromRecords assocRecords (fun _ _ => 0)).epsilon_k 1 = 200 := ⟨rfl, rfl⟩
    simp only [Spec.packingFraction, Fin.sum_univ_two, hm.1, hs.1, he.1, hm.2, hs.2, he.2]
    have hd : Spec.diameter 3 200 300 ≤ 3 := by
      unfold Spec.diameter
      have := Real.exp_pos (-3 * 200 / 300)
      linarith
    have hd0 : 0 ≤ Spec.diameter 3 200 300 := by
      unfold Spec.diameter
      have := exp_le_one_of (e := 200) (T := 300) (by norm_num) (by norm_num)
      linarith
    have hd3 : Spec.diameter 3 200 300 ^ 3 ≤ 27 := by
      calc Spec.diameter 3 200 300 ^ 3 ≤ 3 ^ 3 := pow_le_pow_left₀ hd0 hd 3
        _ = 27 := by norm_num
    have hpi := Real.pi_lt_d2
    have hpi0 := Real.pi_pos
    have : Real.pi / 6 * Spec.diameter 3 200 300 ^ 3 ≤ 4 / 6 * 27 := by
      apply mul_le_mul _ hd3 (by positivity) (by norm_num)
      linarith
    linarith

/-- the association energy of this mixture is negative -/
example : ∃ A < 0, association (fromRecords assocRecords (fun _ _ => 0))
    (StateHD.new (300 : ℝ) 1000 (fun _ => 1)) = .ok A := by
  have hna : (fromRecords assocRecords (fun _ _ => 0)).na 0 = 1.0 := rfl
  have hnb : (fromRecords assocRecords (fun _ _ => 0)).nb 0 = 1.0 := rfl
  have he : (fromRecords assocRecords (fun _ _ => 0)).epsilon_k_ab 0 = 2500 := rfl
  obtain ⟨A, h1, h2, h3⟩ := C26_helmholtz_energy assocRecords (fun _ _ => 0) 300 1000 (fun _ => 1)
    assocRecords_admissible 0 assocRecords_comp (by rw [he]; norm_num) (by rw [hna]; norm_num)
    (by rw [hnb]; norm_num) (by rw [hna, hnb]; norm_num)
  refine ⟨A, lt_of_le_of_ne h2 (fun h => ?_), h1⟩
  rw [h3, he] at h
  norm_num at h

/-- 2-site component with `δρ = 2`: half of the sites are bonded -/
example : assocSiteFracAB (2 : ℝ) 1 1 = 1 / 2 := by
  have hd : Real.sqrt (f64EPSILON : ℝ) < 2 := by rw [sqrt_epsilon]; norm_num
  obtain ⟨xb, _, _, _, _, _, _, h⟩ := C23_site_fractions hd one_pos one_pos
  exact ((h (1 / 2) (1 / 2) (by norm_num) (by norm_num) (by constructor <;> norm_num)).1).symm

example : |assocSiteFracAB (1e-9 : ℝ) 1 2 - (massActionAB_exists (d := 1e-9) (na := 1) (nb := 2)
    (by norm_num) one_pos two_pos).choose| ≤ 2e-20 := by
  have hs := (massActionAB_exists (d := 1e-9) (na := 1) (nb := 2) (by norm_num) one_pos
    two_pos).choose_spec
  obtain ⟨xb, h1, h2, h3⟩ := hs
  exact (C24_series_error (by norm_num) (by rw [sqrt_epsilon]; norm_num) one_pos two_pos (by norm_num)
    (by norm_num) h1 h3).1

example : 0 < assocSingle (1 : ℝ) 1 1 0 :=
  C25_energy_counterexample (by rw [sqrt_epsilon]; norm_num) one_pos (by norm_num) one_pos

end PcSaft.Props
