import Verif.Lemmas.DispersionSign
import Mathlib.Analysis.SpecialFunctions.ExpDeriv
import Mathlib.Analysis.Calculus.Deriv.MeanValue
import Mathlib.Topology.Order.IntermediateValue

/-!
# The second virial coefficient of chains as a function of temperature
-/

open Filter Topology

namespace PcSaft

/-- the first perturbation integral at zero density -/
noncomputable def int1Zero (m : ℝ) : ℝ :=
  0.91056314451539 + (m - 1) / m * (-0.30840169182720) + (m - 1) / m * ((m - 2) / m) * (-0.09061483509767)

/-- the second perturbation integral at zero density -/
noncomputable def int2Zero (m : ℝ) : ℝ :=
  0.72409469413165 + (m - 1) / m * (-0.57554980753450) + (m - 1) / m * ((m - 2) / m) * 0.09768831158356

theorem int1Zero_bound {m : ℝ} (hm : 4 / 5 ≤ m) : 0.069696 * (3 * m + 5) < 2 * (m * int1Zero m) := by
  have hm0 : 0 < m := by linarith
  have e : m * int1Zero m = 0.91056314451539 * m - 0.30840169182720 * (m - 1)
      - 0.09061483509767 * (m - 3 + 2 * m⁻¹) := by
    unfold int1Zero
    field_simp
    ring
  have h : m⁻¹ ≤ 5 / 4 := by
    rw [inv_le_comm₀ hm0 (by norm_num)]
    linarith
  rw [e]
  linarith

theorem int2Zero_pos {m : ℝ} (hm : 4 / 5 ≤ m) : 0 < int2Zero m := by
  have hm0 : 0 < m := by linarith
  have h : m⁻¹ ≤ 5 / 4 := by
    rw [inv_le_comm₀ hm0 (by norm_num)]
    linarith
  have hi : 0 < m⁻¹ := inv_pos.2 hm0
  have e : int2Zero m = 0.72409469413165 - 0.57554980753450 * (1 - m⁻¹)
      + 0.09768831158356 * ((1 - m⁻¹) * (1 - 2 * m⁻¹)) := by
    unfold int2Zero
    field_simp
    ring
  rw [e]
  nlinarith [sq_nonneg (m⁻¹ - 1)]

/-- the second virial coefficient over `π m σ³` as a function of `ε / T` -/
noncomputable def boyleForm (m x : ℝ) : ℝ :=
  (3 * m + 5) / 12 * (1 - 0.12 * Real.exp (-3 * x)) ^ 3 - 2 * (m * int1Zero m) * x - m ^ 2 * int2Zero m * x ^ 2

theorem hasDerivAt_boyleForm (m x : ℝ) : HasDerivAt (boyleForm m)
    ((3 * m + 5) / 12 * (3 * (1 - 0.12 * Real.exp (-3 * x)) ^ 2 * (0.36 * Real.exp (-3 * x))) - 2 * (m * int1Zero m)
      - m ^ 2 * int2Zero m * (2 * x)) x := by
  have h1 : HasDerivAt (fun x : ℝ => Real.exp (-3 * x)) (Real.exp (-3 * x) * (-3)) x := by
    have : HasDerivAt (fun x : ℝ => -3 * x) (-3) x := by simpa using (hasDerivAt_id x).const_mul (-3)
    exact this.exp
  have h2 := ((((h1.const_mul 0.12).const_sub 1).pow 3).const_mul ((3 * m + 5) / 12)).sub
    ((hasDerivAt_id x).const_mul (2 * (m * int1Zero m)))
  have h3 := h2.sub ((hasDerivAt_pow 2 x).const_mul (m ^ 2 * int2Zero m))
  refine h3.congr_deriv ?_
  norm_num only [Nat.cast_ofNat, Nat.reduceSub, pow_one]
  ring

theorem boyleForm_anti {m : ℝ} (hm : 4 / 5 ≤ m) : StrictAntiOn (boyleForm m) (Set.Ici 0) := by
  have hm0 : 0 < m := by linarith
  refine strictAntiOn_of_deriv_neg (convex_Ici 0)
    (fun x _ => (hasDerivAt_boyleForm m x).continuousAt.continuousWithinAt) fun x hx => ?_
  rw [interior_Ici] at hx
  have hx0 : 0 < x := hx
  rw [(hasDerivAt_boyleForm m x).deriv]
  set t := Real.exp (-3 * x) with ht
  have t0 : 0 < t := Real.exp_pos _
  have t1 : t ≤ 1 := Real.exp_le_one_iff.2 (by linarith)
  have hb : (1 - 0.12 * t) ^ 2 * t ≤ 0.7744 := by nlinarith [mul_nonneg t0.le (sub_nonneg.2 t1), sq_nonneg t]
  have h1 := int1Zero_bound hm
  have h2 := int2Zero_pos hm
  have h3 : 0 ≤ m ^ 2 * int2Zero m * (2 * x) := by positivity
  have h4 : (3 * m + 5) / 12 * (3 * (1 - 0.12 * t) ^ 2 * (0.36 * t))
      = (3 * m + 5) * 0.09 * ((1 - 0.12 * t) ^ 2 * t) := by ring
  have h5 : (3 * m + 5) * 0.09 * ((1 - 0.12 * t) ^ 2 * t) ≤ (3 * m + 5) * 0.09 * 0.7744 :=
    mul_le_mul_of_nonneg_left hb (by positivity)
  rw [h4]
  linarith

/-- A coefficient that combines chains, dispersion and bonds of one kind grows with temperature, from negative to
positive values. -/
theorem boyle_temperature {m ε A C e : ℝ} (hm : 4 / 5 ≤ m) (hε : 0 < ε) (hA : 0 < A) (hC : 0 ≤ C) (he : 0 ≤ e) :
    let B := fun T : ℝ => A * boyleForm m (ε / T) - C * (Real.exp (e / T) - 1)
    StrictMonoOn B (Set.Ioi 0) ∧ ∃ TB, 0 < TB ∧ B TB = 0 := by
  intro B
  have hm0 : 0 < m := by linarith
  have mono : StrictMonoOn B (Set.Ioi 0) := by
    intro T (hT : 0 < T) T' (hT' : 0 < T') h
    have h1 : ε / T' < ε / T := div_lt_div_of_pos_left hε hT h
    have h2 := boyleForm_anti hm (Set.mem_Ici.2 (div_pos hε hT').le) (Set.mem_Ici.2 (div_pos hε hT).le) h1
    have h3 : e / T' ≤ e / T := div_le_div_of_nonneg_left he hT h.le
    have h4 := Real.exp_le_exp.2 h3
    have h5 := mul_lt_mul_of_pos_left h2 hA
    have h6 := mul_le_mul_of_nonneg_left (sub_le_sub_right h4 1) hC
    change A * boyleForm m (ε / T) - C * (Real.exp (e / T) - 1) < A * boyleForm m (ε / T') - C * (Real.exp (e / T') - 1)
    linarith
  refine ⟨mono, ?_⟩
  have hcont : ContinuousOn B (Set.Ioi 0) := by
    intro T (hT : 0 < T)
    have h1 : ContinuousAt (fun T : ℝ => ε / T) T := continuousAt_const.div continuousAt_id hT.ne'
    have h2 : ContinuousAt (fun T : ℝ => e / T) T := continuousAt_const.div continuousAt_id hT.ne'
    have h3 : ContinuousAt (fun T : ℝ => boyleForm m (ε / T)) T :=
      ContinuousAt.comp (f := fun T : ℝ => ε / T) (hasDerivAt_boyleForm m _).continuousAt h1
    exact ((h3.const_mul A).sub ((h2.rexp.sub_const 1).const_mul C)).continuousWithinAt
  -- high temperatures
  have hhigh : ∃ T, 0 < T ∧ 0 < B T := by
    have h1 : Tendsto (fun T : ℝ => ε / T) atTop (𝓝 0) := tendsto_const_nhds.div_atTop tendsto_id
    have h2 : Tendsto (fun T : ℝ => e / T) atTop (𝓝 0) := tendsto_const_nhds.div_atTop tendsto_id
    have h3 := ((hasDerivAt_boyleForm m 0).continuousAt.tendsto.comp h1).const_mul A
    have h4 := (((Real.continuous_exp.tendsto 0).comp h2).sub_const 1).const_mul C
    have h5 := h3.sub h4
    have h6 : 0 < A * boyleForm m 0 - C * (Real.exp 0 - 1) := by
      have : boyleForm m 0 = (3 * m + 5) / 12 * 0.88 ^ 3 := by
        simp only [boyleForm, mul_zero, Real.exp_zero]
        norm_num
      rw [this, Real.exp_zero, sub_self, mul_zero, sub_zero]
      positivity
    obtain ⟨T, hT, hT0⟩ := ((h5.eventually (lt_mem_nhds h6)).and (eventually_gt_atTop 0)).exists
    exact ⟨T, hT0, hT⟩
  -- low temperatures
  have hlow : ∃ T, 0 < T ∧ B T < 0 := by
    have hb := int1Zero_bound hm
    have h1 : 0 < m * int1Zero m := by nlinarith
    set x := (3 * m + 5) / (12 * (2 * (m * int1Zero m))) with hx
    have hx0 : 0 < x := by positivity
    refine ⟨ε / x, div_pos hε hx0, ?_⟩
    have e1 : ε / (ε / x) = x := div_div_cancel₀ hε.ne'
    have h2 : boyleForm m x < 0 := by
      have t0 : 0 < Real.exp (-3 * x) := Real.exp_pos _
      have t1 : Real.exp (-3 * x) ≤ 1 := Real.exp_le_one_iff.2 (by linarith)
      have h3 : (1 - 0.12 * Real.exp (-3 * x)) ^ 3 < 1 := pow_lt_one₀ (by linarith) (by linarith) (by norm_num)
      have h4 : 2 * (m * int1Zero m) * x = (3 * m + 5) / 12 := by
        have hne := h1.ne'
        rw [hx]
        generalize m * int1Zero m = q at hne
        field_simp
      have h5 := int2Zero_pos hm
      have h6 : 0 ≤ m ^ 2 * int2Zero m * x ^ 2 := by positivity
      have h7 : (3 * m + 5) / 12 * (1 - 0.12 * Real.exp (-3 * x)) ^ 3 < (3 * m + 5) / 12 * 1 :=
        mul_lt_mul_of_pos_left h3 (by positivity)
      unfold boyleForm
      rw [h4]
      linarith
    have h3 : 1 ≤ Real.exp (e / (ε / x)) := Real.one_le_exp (by positivity)
    have h4 : 0 ≤ C * (Real.exp (e / (ε / x)) - 1) := mul_nonneg hC (by linarith)
    have h5 : A * boyleForm m x < 0 := mul_neg_of_pos_of_neg hA h2
    change A * boyleForm m (ε / (ε / x)) - C * (Real.exp (e / (ε / x)) - 1) < 0
    rw [e1]
    rw [e1] at *
    linarith
  obtain ⟨T1, a1, b1⟩ := hlow
  obtain ⟨T2, a2, b2⟩ := hhigh
  obtain ⟨TB, hTB, hz⟩ := (isPreconnected_Ioi (a := (0 : ℝ))).intermediate_value (Set.mem_Ioi.2 a1) (Set.mem_Ioi.2 a2)
    hcont ⟨b1.le, b2.le⟩
  exact ⟨TB, hTB, hz⟩

end PcSaft
