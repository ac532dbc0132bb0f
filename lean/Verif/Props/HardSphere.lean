import Verif.Lemmas.Admissible
import Mathlib.Analysis.SpecialFunctions.Log.Basic
import Mathlib.Topology.Algebra.Order.Field
import Mathlib.Analysis.Real.Pi.Bounds
import Mathlib.Analysis.SpecialFunctions.Log.Deriv

/-!
# Properties C13, C19, C20: segment diameter, hard spheres, hard chains
-/

namespace PcSaft.Props
open PcSaft Filter Topology
variable {n : ℕ}

/-! ## C13 -/

/-- C13: bounds, monotonicity and limits of the segment diameter. -/
theorem C13_diameter (p : PcSaftParameters n ℝ) (i : Fin n) (hs : 0 < p.sigma i)
    (he : 0 < p.epsilon_k i) :
    (∀ T : ℝ, 0 < T → 0.88 * p.sigma i < hsDiameter p T i ∧ hsDiameter p T i < p.sigma i)
    ∧ (∀ T T' : ℝ, 0 < T → T < T' → hsDiameter p T' i < hsDiameter p T i)
    ∧ Tendsto (fun T : ℝ => hsDiameter p T i) (𝓝[>] 0) (𝓝 (p.sigma i))
    ∧ Tendsto (fun T : ℝ => hsDiameter p T i) atTop (𝓝 (0.88 * p.sigma i)) := by
  have e88 : (0.88 : ℝ) = 22 / 25 := by norm_num
  simp only [hsDiameter_real, e88]
  refine ⟨fun T hT => ?_, fun T T' hT hTT' => ?_, ?_, ?_⟩
  · have h1 : Real.exp (-3 * p.epsilon_k i / T) < 1 := by
      rw [Real.exp_lt_one_iff]
      apply div_neg_of_neg_of_pos <;> linarith
    have h2 := Real.exp_pos (-3 * p.epsilon_k i / T)
    constructor <;> nlinarith
  · have h1 : Real.exp (-3 * p.epsilon_k i / T) < Real.exp (-3 * p.epsilon_k i / T') := by
      rw [Real.exp_lt_exp, neg_mul, neg_div, neg_div, neg_lt_neg_iff]
      exact div_lt_div_of_pos_left (by linarith) hT hTT'
    nlinarith
  · have h1 : Tendsto (fun T : ℝ => -3 * p.epsilon_k i / T) (𝓝[>] 0) atBot := by
      have : Tendsto (fun T : ℝ => T⁻¹) (𝓝[>] 0) atTop := tendsto_inv_nhdsGT_zero
      exact Tendsto.const_mul_atTop_of_neg (by linarith) this
    have h2 := Real.tendsto_exp_atBot.comp h1
    have h3 : Tendsto (fun T : ℝ => p.sigma i * (1 - 3 / 25 * Real.exp (-3 * p.epsilon_k i / T)))
        (𝓝[>] 0) (𝓝 (p.sigma i * (1 - 3 / 25 * 0))) :=
      Tendsto.const_mul _ (Tendsto.const_sub _ (Tendsto.const_mul _ h2))
    simpa using h3
  · have h1 : Tendsto (fun T : ℝ => -3 * p.epsilon_k i / T) atTop (𝓝 0) :=
      tendsto_const_nhds.div_atTop tendsto_id
    have h2 := (Real.continuous_exp.tendsto 0).comp h1
    have h3 : Tendsto (fun T : ℝ => p.sigma i * (1 - 3 / 25 * Real.exp (-3 * p.epsilon_k i / T)))
        atTop (𝓝 (p.sigma i * (1 - 3 / 25 * Real.exp 0))) :=
      Tendsto.const_mul _ (Tendsto.const_sub _ (Tendsto.const_mul _ h2))
    have e : 22 / 25 * p.sigma i = p.sigma i * (1 - 3 / 25 * Real.exp 0) := by
      rw [Real.exp_zero]; ring
    rw [e]
    exact h3

/-! ## C19 -/

/-- C19: for one component the hard sphere contribution is the Carnahan–Starling expression. -/
theorem C19_carnahan_starling (p : PcSaftParameters 1 ℝ) (T V N : ℝ)
    (h : Spec.Admissible p T V (fun _ => N)) :
    let η := Spec.packingFraction p T V (fun _ => N)
    hardSphere p (StateHD.new T V (fun _ => N)) = N * p.m 0 * (4 * η - 3 * η ^ 2) / (1 - η) ^ 2 := by
  intro η
  have hη : η < 1 := h.packing
  have hV := h.volume
  have hd := h.diameter_pos 0
  have hN : N ≠ 0 := by
    obtain ⟨i, hi⟩ := h.moles_ne_zero
    exact hi
  have hm := h.m_pos 0
  have hz3 := zeta3_eq_packing p T V (fun _ => N)
  rw [hardSphere_real, StateHD.new_temperature, zeta23_new p T V _ hV.ne' (by simpa using hN)]
  rw [hz3]
  rw [zeta3_real, StateHD.new_density] at hz3
  rw [zeta0_real, zeta1_real, zeta2_real, StateHD.new_density, StateHD.new_volume, hsForm]
  change _ = η at hz3
  change V * 6 / Real.pi * (_ / (1 - η) + _ * (_ / η) / (1 - η) ^ 2 + (_ * (_ / η) ^ 2 - _) * Real.log (1 - η)) = _
  simp only [Fin.sum_univ_one] at hz3 ⊢
  generalize hsDiameter p T 0 = d at *
  have hpi := Real.pi_pos
  have hη0 : η ≠ 0 := by
    rw [← hz3]
    have : 0 < p.m 0 * d ^ 3 := by positivity
    simp [hN, hV.ne', hm.ne', hd.ne']
  have hu : 1 - η ≠ 0 := by linarith
  have hlog : Real.pi / 6 * (N / V * (p.m 0 * d ^ 2)) * (Real.pi / 6 * (N / V * (p.m 0 * d ^ 2)) / η) ^ 2
      - Real.pi / 6 * (N / V * p.m 0) = 0 := by
    rw [← hz3]
    field_simp
    ring
  rw [hlog, zero_mul, add_zero]
  have e1 : Real.pi / 6 * (N / V * (p.m 0 * d ^ 2)) / η = 1 / d := by
    rw [← hz3]; field_simp
  rw [e1]
  have e2 : 3 * (Real.pi / 6 * (N / V * (p.m 0 * d))) * (Real.pi / 6 * (N / V * (p.m 0 * d ^ 2)))
      = 3 * (Real.pi / 6 * (N / V * p.m 0)) * η := by
    rw [← hz3]; ring
  have e3 : (Real.pi / 6 * (N / V * (p.m 0 * d ^ 2))) ^ 2 * (1 / d)
      = (Real.pi / 6 * (N / V * p.m 0)) * η := by
    rw [← hz3]; field_simp
  rw [e2, e3]
  clear_value η
  clear e1 e2 e3 hlog hz3 h
  obtain ⟨u, rfl⟩ : ∃ u, η = 1 - u := ⟨1 - η, by ring⟩
  have hu' : (u : ℝ) ≠ 0 := by simpa using hu
  simp only [sub_sub_cancel]
  field_simp
  ring

/-- the Carnahan–Starling function is strictly increasing on packing fractions below one -/
theorem carnahanStarling_strictMono {a b : ℝ} (hab : a < b) (hb : b < 1) :
    (4 * a - 3 * a ^ 2) / (1 - a) ^ 2 < (4 * b - 3 * b ^ 2) / (1 - b) ^ 2 := by
  have e : ∀ x : ℝ, x < 1 → (4 * x - 3 * x ^ 2) / (1 - x) ^ 2
      = (1 / (1 - x)) ^ 2 + 2 * (1 / (1 - x)) - 3 := by
    intro x hx
    have : 1 - x ≠ 0 := by linarith
    field_simp
    ring
  rw [e a (by linarith), e b hb]
  have h1 : 1 / (1 - a) < 1 / (1 - b) := one_div_lt_one_div_of_lt (by linarith) (by linarith)
  have h0 : 0 < 1 / (1 - a) := one_div_pos.mpr (by linarith)
  nlinarith

/-- C19: compressing a pure fluid strictly increases the hard sphere energy (the hard sphere pressure
is positive). -/
theorem C19_increasing (p : PcSaftParameters 1 ℝ) (T V V' N : ℝ)
    (h : Spec.Admissible p T V (fun _ => N)) (h' : Spec.Admissible p T V' (fun _ => N))
    (hVV' : V' < V) :
    hardSphere p (StateHD.new T V (fun _ => N)) < hardSphere p (StateHD.new T V' (fun _ => N)) := by
  rw [C19_carnahan_starling p T V N h, C19_carnahan_starling p T V' N h', mul_div_assoc, mul_div_assoc]
  have hN : 0 < N := by
    obtain ⟨i, hi⟩ := h.moles_ne_zero
    exact lt_of_le_of_ne (h.moles_nonneg 0) (Ne.symm hi)
  apply mul_lt_mul_of_pos_left _ (mul_pos hN (h.m_pos 0))
  apply carnahanStarling_strictMono _ h'.packing
  simp only [Spec.packingFraction, Fin.sum_univ_one]
  have hd := h.diameter_pos 0
  rw [hsDiameter_eq_spec] at hd
  have hm := h.m_pos 0
  exact div_lt_div_of_pos_left (by positivity) h'.volume hVV'

/-- C19: hard spheres repel: the contribution is strictly positive for every mixture. -/
theorem C19_positive (p : PcSaftParameters n ℝ) (T V : ℝ) (moles : Fin n → ℝ)
    (h : Spec.Admissible p T V moles) : 0 < hardSphere p (StateHD.new T V moles) := by
  rw [hardSphere_real, StateHD.new_temperature,
    zeta23_new p T V moles h.volume.ne' h.total_pos.ne', StateHD.new_volume]
  have hz0 := h.zeta_pos 0
  have hz1 := h.zeta_pos 1
  have hz2 := h.zeta_pos 2
  have hz3 := h.zeta_pos 3
  have hlt := h.zeta3_lt_one
  generalize zeta p.m (StateHD.new T V moles).partial_density (hsDiameter p T) 0 = z0 at *
  generalize zeta p.m (StateHD.new T V moles).partial_density (hsDiameter p T) 1 = z1 at *
  generalize zeta p.m (StateHD.new T V moles).partial_density (hsDiameter p T) 2 = z2 at *
  generalize zeta p.m (StateHD.new T V moles).partial_density (hsDiameter p T) 3 = z3 at *
  have hu : 0 < 1 - z3 := by linarith
  have hlog : -(z3 / (1 - z3)) ≤ Real.log (1 - z3) := by
    have := Real.one_sub_inv_le_log_of_pos hu
    have e : 1 - (1 - z3)⁻¹ = -(z3 / (1 - z3)) := by field_simp; ring
    linarith
  have hlog0 : Real.log (1 - z3) < 0 := Real.log_neg hu (by linarith)
  have hV := h.volume
  have hpi := Real.pi_pos
  unfold hsForm
  apply mul_pos (by positivity)
  have a1 : 0 < 3 * z1 * z2 / (1 - z3) := by positivity
  have a2 : 0 < -z0 * Real.log (1 - z3) := by nlinarith
  have a3 : 0 ≤ z2 ^ 2 * (z2 / z3) / (1 - z3) ^ 2 + z2 * (z2 / z3) ^ 2 * Real.log (1 - z3) := by
    have e : z2 ^ 2 * (z2 / z3) / (1 - z3) ^ 2 + z2 * (z2 / z3) ^ 2 * Real.log (1 - z3)
        = z2 ^ 3 / z3 ^ 2 * (z3 / (1 - z3) ^ 2 + Real.log (1 - z3)) := by
      field_simp
    rw [e]
    apply mul_nonneg (by positivity)
    have : z3 / (1 - z3) ≤ z3 / (1 - z3) ^ 2 := by
      apply div_le_div_of_nonneg_left hz3.le (by positivity)
      nlinarith
    linarith
  nlinarith

/-! ## C20 -/

/-- contact value of hard spheres in a mixture, in terms of the moments ζ₂ and ζ₃ -/
noncomputable def contactValue (ζ₂ ζ₃ d : ℝ) : ℝ :=
  1 / (1 - ζ₃) + 3 * d * ζ₂ / (2 * (1 - ζ₃) ^ 2) + d ^ 2 * ζ₂ ^ 2 / (2 * (1 - ζ₃) ^ 3)

/-- second moment of the segment size distribution -/
noncomputable def moment2 (p : PcSaftParameters n ℝ) (T V : ℝ) (moles : Fin n → ℝ) : ℝ :=
  ∑ i, moles i / V * p.m i * (Real.pi / 6 * Spec.diameter (p.sigma i) (p.epsilon_k i) T ^ 2)

theorem zeta2_eq_moment2 (p : PcSaftParameters n ℝ) (T V : ℝ) (moles : Fin n → ℝ) :
    zeta p.m (StateHD.new T V moles).partial_density (hsDiameter p T) 2 = moment2 p T V moles := by
  rw [zeta2_real, moment2, Finset.mul_sum]
  refine Finset.sum_congr rfl (fun i _ => ?_)
  rw [hsDiameter_eq_spec, StateHD.new_density]
  ring

/-- C20: the hard chain contribution of a mixture in terms of the contact values, its sign, and the
spherical limit. -/
theorem C20_hard_chain (p : PcSaftParameters n ℝ) (T V : ℝ) (moles : Fin n → ℝ)
    (h : Spec.Admissible p T V moles) :
    let d := fun i => Spec.diameter (p.sigma i) (p.epsilon_k i) T
    let g := fun i => contactValue (moment2 p T V moles) (Spec.packingFraction p T V moles) (d i)
    hardChain p (StateHD.new T V moles) = ∑ i, moles i * (1 - p.m i) * Real.log (g i)
    ∧ (∀ i, 1 < g i)
    ∧ ((∀ i, p.m i = 1) → hardChain p (StateHD.new T V moles) = 0)
    ∧ ((∀ i, 1 ≤ p.m i) → hardChain p (StateHD.new T V moles) ≤ 0)
    ∧ ((∀ i, p.m i ≤ 1) → 0 ≤ hardChain p (StateHD.new T V moles)) := by
  intro d g
  have hV := h.volume
  have hz2 := h.zeta_pos 2
  have hz3 := h.zeta_pos 3
  have hlt := h.zeta3_lt_one
  have hg : ∀ i, gHs (zeta p.m (StateHD.new T V moles).partial_density (hsDiameter p T) 2)
      (zeta p.m (StateHD.new T V moles).partial_density (hsDiameter p T) 3) (hsDiameter p T i) = g i := by
    intro i
    rw [gHs_real _ _ _ hlt.ne, zeta2_eq_moment2, zeta3_eq_packing, hsDiameter_eq_spec]
    simp only [g, gForm, contactValue, d]
    generalize 1 - Spec.packingFraction p T V moles = w
    ring
  have hg1 : ∀ i, 1 < g i := by
    intro i
    rw [← hg i, gHs_real _ _ _ hlt.ne]
    have hd := h.diameter_pos i
    generalize zeta p.m (StateHD.new T V moles).partial_density (hsDiameter p T) 2 = z2 at *
    generalize zeta p.m (StateHD.new T V moles).partial_density (hsDiameter p T) 3 = z3 at *
    have hu : 0 < 1 - z3 := by linarith
    unfold gForm
    have a1 : 1 < 1 / (1 - z3) := by rw [lt_div_iff₀ hu]; linarith
    have a2 : 0 < 3 / 2 * hsDiameter p T i * z2 / (1 - z3) ^ 2 := by positivity
    have a3 : 0 < 1 / 2 * hsDiameter p T i ^ 2 * z2 ^ 2 / (1 - z3) ^ 3 := by positivity
    linarith
  have hform : hardChain p (StateHD.new T V moles)
      = ∑ i, moles i * (1 - p.m i) * Real.log (g i) := by
    rw [hardChain_real, StateHD.new_temperature, Finset.mul_sum]
    refine Finset.sum_congr rfl (fun i _ => ?_)
    rw [hg i, StateHD.new_volume, StateHD.new_density]
    field_simp
  refine ⟨hform, hg1, ?_, ?_, ?_⟩
  · intro hm
    rw [hform]
    exact Finset.sum_eq_zero (fun i _ => by rw [hm i]; ring)
  · intro hm
    rw [hform]
    refine Finset.sum_nonpos (fun i _ => ?_)
    have := Real.log_pos (hg1 i)
    exact mul_nonpos_of_nonpos_of_nonneg
      (mul_nonpos_of_nonneg_of_nonpos (h.moles_nonneg i) (by linarith [hm i])) this.le
  · intro hm
    rw [hform]
    refine Finset.sum_nonneg (fun i _ => ?_)
    have := Real.log_pos (hg1 i)
    exact mul_nonneg (mul_nonneg (h.moles_nonneg i) (by linarith [hm i])) this.le

/-- C20: the formula for one component. -/
theorem C20_pure (p : PcSaftParameters 1 ℝ) (T V N : ℝ) (h : Spec.Admissible p T V (fun _ => N)) :
    let η := Spec.packingFraction p T V (fun _ => N)
    hardChain p (StateHD.new T V (fun _ => N))
      = N * (1 - p.m 0) * Real.log ((1 - η / 2) / (1 - η) ^ 3) := by
  intro η
  rw [(C20_hard_chain p T V _ h).1, Fin.sum_univ_one]
  congr 2
  have e : Spec.diameter (p.sigma 0) (p.epsilon_k 0) T * moment2 p T V (fun _ => N) = η := by
    simp only [moment2, Fin.sum_univ_one, η, Spec.packingFraction]
    ring
  have hη : η < 1 := h.packing
  have hu : 1 - η ≠ 0 := by linarith
  change contactValue _ η _ = _
  unfold contactValue
  rw [mul_assoc 3, e, ← mul_pow, e]
  field_simp
  ring

/-! ## Non-vacuity -/

/-- a parameter set with one component, m = 2, σ = 3, ε = 200 K -/
noncomputable def onePure : PcSaftParameters 1 ℝ :=
  fromRecords (fun _ => ⟨⟨none, ""⟩, 44, ⟨2, 3, 200, none, none, none, none, none, none, none, none, none⟩,
    none⟩) (fun _ _ => 0)

/-- 1 molecule in 100 Å³ at 300 K is admissible -/
theorem onePure_admissible (V N : ℝ) (hV : 100 ≤ V) (hN : 0 < N) (hN1 : N ≤ 1) :
    Spec.Admissible onePure 300 V (fun _ => N) where
  temperature := by norm_num
  volume := by linarith
  m_pos := fun _ => by norm_num [onePure, fromRecords]
  sigma_pos := fun _ => by norm_num [onePure, fromRecords]
  epsilon_nonneg := fun _ => by norm_num [onePure, fromRecords]
  moles_nonneg := fun _ => hN.le
  moles_ne_zero := ⟨0, hN.ne'⟩
  packing := by
    have hm : onePure.m 0 = 2 := rfl
    have hs : onePure.sigma 0 = 3 := rfl
    have he : onePure.epsilon_k 0 = 200 := rfl
    simp only [Spec.packingFraction, Fin.sum_univ_one, hm, hs, he]
    rw [div_lt_one (by linarith)]
    have hd : Spec.diameter 3 200 300 ≤ 3 := by
      unfold Spec.diameter
      have := Real.exp_pos (-3 * 200 / 300)
      linarith
    have hd0 : 0 ≤ Spec.diameter 3 200 300 := by
      unfold Spec.diameter
      have := exp_le_one_of (e := 200) (T := 300) (by norm_num) (by norm_num)
      linarith
    have hd3 : Spec.diameter 3 200 300 ^ 3 ≤ 27 := by
      calc Spec.diameter 3 200 300 ^ 3 ≤ 3 ^ 3 := pow_le_pow_left₀ hd0 hd 3
        _ = 27 := by norm_num
    have hd3' : 0 ≤ Spec.diameter 3 200 300 ^ 3 := by positivity
    have hpi := Real.pi_lt_d2
    have hpi0 := Real.pi_pos
    calc N * 2 * (Real.pi / 6 * Spec.diameter 3 200 300 ^ 3)
        ≤ 1 * 2 * (Real.pi / 6 * 27) := by gcongr
      _ < 100 := by norm_num; linarith
      _ ≤ V := hV

example : hardSphere onePure (StateHD.new (300 : ℝ) 200 (fun _ => 1))
    < hardSphere onePure (StateHD.new (300 : ℝ) 100 (fun _ => 1)) :=
  C19_increasing _ _ _ _ _ (onePure_admissible 200 1 (by norm_num) one_pos le_rfl)
    (onePure_admissible 100 1 le_rfl one_pos le_rfl) (by norm_num)

example : hardChain onePure (StateHD.new (300 : ℝ) 100 (fun _ => 1)) ≤ 0 :=
  (C20_hard_chain _ _ _ _ (onePure_admissible 100 1 le_rfl one_pos le_rfl)).2.2.2.1
    (fun _ => by norm_num [onePure, fromRecords])

end PcSaft.Props
