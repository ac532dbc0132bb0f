import Verif.Lemmas.Boyle
import Verif.Lemmas.DiluteSecond
import Verif.Lemmas.VirialLimit

/-!
# Energy and enthalpy of the dilute gas
-/

open Filter Topology
open scoped ContDiff

namespace PcSaft
section
variable {E : Type} [NormedAddCommGroup E] [NormedSpace ℝ E] {F : ℝ × E → ℝ} {y0 : E}

/-- the second derivative with respect to the inverse volume -/
noncomputable def diluteCurvature (F : ℝ × E → ℝ) (y : E) : ℝ :=
  fderiv ℝ (fun x => fderiv ℝ F x (1, 0)) (0, y) (1, 0)

theorem Dilute.second_curvature (h : Dilute F y0) :
    Tendsto (fun u => F (u, y0) / u ^ 2) (𝓝[≠] 0) (𝓝 (diluteCurvature F y0 / 2))
      ∧ Tendsto (fun V : ℝ => V * fderiv ℝ F (1 / V, y0) (1, 0)) atTop (𝓝 (diluteCurvature F y0)) := by
  obtain ⟨s, h1, h2⟩ := h.second
  have hd : DifferentiableAt ℝ (fun x => fderiv ℝ F x (1, 0)) (0, y0) :=
    ((h.smooth.fderiv_right (m := ω) (by simp)).clm_apply contDiffAt_const).differentiableAt (by simp)
  have h3 := hasDerivAt_iff_tendsto_slope_zero.1 (hasDerivAt_line (u := ((1 : ℝ), (0 : E))) hd)
  have hv : Tendsto (fun V : ℝ => 1 / V) atTop (𝓝[≠] 0) := by
    simp only [one_div]
    exact tendsto_inv_atTop_nhdsGT_zero.mono_right (nhdsWithin_mono _ fun x (hx : 0 < x) => hx.ne')
  have e : s = diluteCurvature F y0 := by
    refine tendsto_nhds_unique h2 ((h3.comp hv).congr fun V => ?_)
    simp [h.slope_volume]
  rw [← e]
  exact ⟨h1, h2⟩

/-- the coefficient of the derivative in another direction is the derivative of the coefficient -/
theorem Dilute.curvature_derivative (h : Dilute F y0) (η : E) :
    HasDerivAt (fun r : ℝ => diluteCurvature F (y0 + r • η)) (diluteCurvature (fun x => fderiv ℝ F x (0, η)) y0) 0 := by
  have hFu : ContDiffAt ℝ ω (fun x => fderiv ℝ F x (1, 0)) (0, y0) :=
    (h.smooth.fderiv_right (m := ω) (by simp)).clm_apply contDiffAt_const
  have hFuu : DifferentiableAt ℝ (fun x => fderiv ℝ (fun x => fderiv ℝ F x (1, 0)) x (1, 0)) (0, y0) :=
    ((hFu.fderiv_right (m := ω) (by simp)).clm_apply contDiffAt_const).differentiableAt (by simp)
  have key : ∀ {f : ℝ × E → ℝ} {x : ℝ × E}, ContDiffAt ℝ ω f x → ∀ a b : ℝ × E,
      fderiv ℝ (fun x => fderiv ℝ f x a) x b = fderiv ℝ (fun x => fderiv ℝ f x b) x a := by
    intro f x hf a b
    have hd2 : DifferentiableAt ℝ (fderiv ℝ f) x := (hf.fderiv_right (m := ω) (by simp)).differentiableAt (by simp)
    have hfl : ∀ e : ℝ × E, HasFDerivAt (fun x => fderiv ℝ f x e) ((fderiv ℝ (fderiv ℝ f) x).flip e) x :=
      fun e => (hd2.hasFDerivAt.clm_apply (hasFDerivAt_const e _)).congr_fderiv (by ext <;> simp)
    rw [(hfl a).fderiv, (hfl b).fderiv]
    exact second_symm hf b a
  have h1 := hasDerivAt_line (u := ((0 : ℝ), η)) hFuu
  rw [key hFu] at h1
  have hev : (fun x => fderiv ℝ (fun x => fderiv ℝ F x (1, 0)) x (0, η))
      =ᶠ[𝓝 ((0 : ℝ), y0)] fun x => fderiv ℝ (fun x => fderiv ℝ F x (0, η)) x (1, 0) := by
    filter_upwards [h.smooth.eventually (by simp)] with x hx
    exact key hx _ _
  rw [hev.fderiv_eq] at h1
  simpa [diluteCurvature] using h1

end

/-- the coefficient of the enthalpy over `π m σ³` as a function of `ε / T` -/
noncomputable def throttleForm (m x : ℝ) : ℝ :=
  (3 * m + 5) / 12 * ((1 - 0.12 * Real.exp (-3 * x)) ^ 3
      + x * (3 * (1 - 0.12 * Real.exp (-3 * x)) ^ 2 * (0.36 * Real.exp (-3 * x))))
    - 2 * (2 * (m * int1Zero m)) * x - 3 * (m ^ 2 * int2Zero m) * x ^ 2

/-- the slope of the second virial coefficient with respect to `ε / T` -/
noncomputable def boyleSlope (m x : ℝ) : ℝ :=
  (3 * m + 5) / 12 * (3 * (1 - 0.12 * Real.exp (-3 * x)) ^ 2 * (0.36 * Real.exp (-3 * x))) - 2 * (m * int1Zero m)
      - m ^ 2 * int2Zero m * (2 * x)

theorem throttleForm_eq (m x : ℝ) : throttleForm m x = boyleForm m x + x * boyleSlope m x := by
  unfold throttleForm boyleForm boyleSlope
  ring

theorem diameter_slope_bound {t : ℝ} (t0 : 0 < t) (t1 : t ≤ 1) : (1 - 0.12 * t) ^ 2 * t ≤ 0.7744 := by
  have h := mul_nonneg t0.le (sub_nonneg.2 t1)
  nlinarith [sq_nonneg t]

theorem boyleSlope_neg {m x : ℝ} (hm : 4 / 5 ≤ m) (hx : 0 ≤ x) : boyleSlope m x < 0 := by
  have hm0 : 0 < m := by linarith
  unfold boyleSlope
  set t := Real.exp (-3 * x) with ht
  have t0 : 0 < t := Real.exp_pos _
  have t1 : t ≤ 1 := Real.exp_le_one_iff.2 (by linarith)
  have hb := diameter_slope_bound t0 t1
  have h1 := int1Zero_bound hm
  have h2 := int2Zero_pos hm
  have h3 : 0 ≤ m ^ 2 * int2Zero m * (2 * x) := by positivity
  have h4 : (3 * m + 5) / 12 * (3 * (1 - 0.12 * t) ^ 2 * (0.36 * t))
      = (3 * m + 5) * 0.09 * ((1 - 0.12 * t) ^ 2 * t) := by ring
  have h5 : (3 * m + 5) * 0.09 * ((1 - 0.12 * t) ^ 2 * t) ≤ (3 * m + 5) * 0.09 * 0.7744 :=
    mul_le_mul_of_nonneg_left hb (by positivity)
  rw [h4]
  linarith

theorem hasDerivAt_throttleForm (m x : ℝ) : HasDerivAt (throttleForm m)
    ((3 * m + 5) / 12 * (2 * (3 * (1 - 0.12 * Real.exp (-3 * x)) ^ 2 * (0.36 * Real.exp (-3 * x)))
        + x * (1.08 * Real.exp (-3 * x) * (1 - 0.12 * Real.exp (-3 * x)) * (1.08 * Real.exp (-3 * x) - 3)))
      - 2 * (2 * (m * int1Zero m)) - 3 * (m ^ 2 * int2Zero m) * (2 * x)) x := by
  have h1 : HasDerivAt (fun x : ℝ => Real.exp (-3 * x)) (Real.exp (-3 * x) * (-3)) x := by
    have : HasDerivAt (fun x : ℝ => -3 * x) (-3) x := by simpa using (hasDerivAt_id x).const_mul (-3)
    exact this.exp
  have h2 := (h1.const_mul 0.12).const_sub 1
  have h3 := (((h2.pow 2).const_mul 3).mul (h1.const_mul 0.36))
  have h4 := ((h2.pow 3).add ((hasDerivAt_id x).mul h3)).const_mul ((3 * m + 5) / 12)
  have h5 := (h4.sub ((hasDerivAt_id x).const_mul (2 * (2 * (m * int1Zero m))))).sub
    ((hasDerivAt_pow 2 x).const_mul (3 * (m ^ 2 * int2Zero m)))
  refine h5.congr_deriv ?_
  norm_num only [Nat.cast_ofNat, Nat.reduceSub, pow_one, id, Pi.mul_apply, Pi.pow_apply]
  ring

theorem throttleForm_anti {m : ℝ} (hm : 4 / 5 ≤ m) : StrictAntiOn (throttleForm m) (Set.Ici 0) := by
  have hm0 : 0 < m := by linarith
  refine strictAntiOn_of_deriv_neg (convex_Ici 0)
    (fun x _ => (hasDerivAt_throttleForm m x).continuousAt.continuousWithinAt) fun x hx => ?_
  rw [interior_Ici] at hx
  have hx0 : 0 < x := hx
  rw [(hasDerivAt_throttleForm m x).deriv]
  have hs := boyleSlope_neg hm hx0.le
  unfold boyleSlope at hs
  set t := Real.exp (-3 * x) with ht
  have t0 : 0 < t := Real.exp_pos _
  have t1 : t ≤ 1 := Real.exp_le_one_iff.2 (by linarith)
  have h2 := int2Zero_pos hm
  have h3 : 0 < m ^ 2 * int2Zero m * x := by positivity
  have h4 : (3 * m + 5) / 12 * (x * (1.08 * t * (1 - 0.12 * t) * (1.08 * t - 3))) ≤ 0 := by
    have a1 : 0 < 1 - 0.12 * t := by linarith
    have a2 : 1.08 * t - 3 ≤ 0 := by linarith
    have a3 : 0 ≤ (3 * m + 5) / 12 * (x * (1.08 * t * (1 - 0.12 * t))) := by positivity
    have := mul_nonpos_of_nonneg_of_nonpos a3 a2
    linarith
  have h5 : (3 * m + 5) / 12 * (2 * (3 * (1 - 0.12 * t) ^ 2 * (0.36 * t))
        + x * (1.08 * t * (1 - 0.12 * t) * (1.08 * t - 3)))
      = 2 * ((3 * m + 5) / 12 * (3 * (1 - 0.12 * t) ^ 2 * (0.36 * t)))
        + (3 * m + 5) / 12 * (x * (1.08 * t * (1 - 0.12 * t) * (1.08 * t - 3))) := by ring
  rw [h5]
  linarith

/-- The coefficient of the enthalpy grows with temperature, from negative to positive values, and its zero lies above
the Boyle temperature. -/
theorem inversion_temperature {m ε A C e : ℝ} (hm : 4 / 5 ≤ m) (hε : 0 < ε) (hA : 0 < A) (hC : 0 ≤ C) (he : 0 ≤ e) :
    let B := fun T : ℝ => A * boyleForm m (ε / T) - C * (Real.exp (e / T) - 1)
    ∃ B' : ℝ → ℝ, (∀ T, 0 < T → HasDerivAt B (B' T) T ∧ 0 < B' T)
      ∧ StrictMonoOn (fun T => B T - T * B' T) (Set.Ioi 0) ∧ ∃ TI, 0 < TI ∧ B TI - TI * B' TI = 0 := by
  intro B
  have hm0 : 0 < m := by linarith
  refine ⟨fun T => A * (boyleSlope m (ε / T) * (-(ε / T ^ 2))) - C * (Real.exp (e / T) * (-(e / T ^ 2))),
    fun T hT => ⟨?_, ?_⟩, ?_⟩
  · have hq : ∀ a : ℝ, HasDerivAt (fun T : ℝ => a / T) (-(a / T ^ 2)) T := fun a => by
      have := (hasDerivAt_inv hT.ne').const_mul a
      simp only [div_eq_mul_inv]
      exact this.congr_deriv (by ring)
    have h1 : HasDerivAt (fun T : ℝ => boyleForm m (ε / T)) (boyleSlope m (ε / T) * (-(ε / T ^ 2))) T :=
      HasDerivAt.comp T (h₂ := boyleForm m) (hasDerivAt_boyleForm m (ε / T)) (hq ε)
    exact (h1.const_mul A).sub (((hq e).exp.sub_const 1).const_mul C)
  · have h1 := boyleSlope_neg hm (div_pos hε hT).le
    have h2 : 0 < A * (-boyleSlope m (ε / T) * (ε / T ^ 2)) := by
      have : 0 < -boyleSlope m (ε / T) := by linarith
      positivity
    have h3 : 0 ≤ C * (Real.exp (e / T) * (e / T ^ 2)) := by positivity
    have e1 : A * (boyleSlope m (ε / T) * (-(ε / T ^ 2))) - C * (Real.exp (e / T) * (-(e / T ^ 2)))
      = A * (-boyleSlope m (ε / T) * (ε / T ^ 2)) + C * (Real.exp (e / T) * (e / T ^ 2)) := by ring
    beta_reduce
    rw [e1]
    linarith
  set G : ℝ → ℝ := fun T => A * throttleForm m (ε / T) - C * (Real.exp (e / T) * (1 + e / T) - 1) with hG
  have hGB : ∀ T, 0 < T → B T - T * (A * (boyleSlope m (ε / T) * (-(ε / T ^ 2))) - C * (Real.exp (e / T) * (-(e / T ^ 2))))
      = G T := by
    intro T hT
    have e1 : ∀ a : ℝ, a / T ^ 2 = a / T / T := fun a => by field_simp
    change A * boyleForm m (ε / T) - C * (Real.exp (e / T) - 1) - _ = A * throttleForm m (ε / T) - _
    rw [throttleForm_eq, e1, e1]
    generalize boyleSlope m (ε / T) = s
    generalize boyleForm m (ε / T) = b
    generalize Real.exp (e / T) = w
    generalize ε / T = x
    generalize e / T = y
    field_simp
    ring
  have mono : StrictMonoOn G (Set.Ioi 0) := by
    intro T (hT : 0 < T) T' (hT' : 0 < T') h
    have h1 : ε / T' < ε / T := div_lt_div_of_pos_left hε hT h
    have h2 := throttleForm_anti hm (Set.mem_Ici.2 (div_pos hε hT').le) (Set.mem_Ici.2 (div_pos hε hT).le) h1
    have h3 : e / T' ≤ e / T := div_le_div_of_nonneg_left he hT h.le
    have h4 := Real.exp_le_exp.2 h3
    have h0 : 0 ≤ e / T' := by positivity
    have h7 : Real.exp (e / T') * (1 + e / T') ≤ Real.exp (e / T) * (1 + e / T) :=
      mul_le_mul h4 (by linarith) (by linarith) (Real.exp_pos _).le
    have h5 := mul_lt_mul_of_pos_left h2 hA
    have h6 := mul_le_mul_of_nonneg_left (sub_le_sub_right h7 1) hC
    change A * throttleForm m (ε / T) - C * (Real.exp (e / T) * (1 + e / T) - 1)
      < A * throttleForm m (ε / T') - C * (Real.exp (e / T') * (1 + e / T') - 1)
    linarith
  refine ⟨mono.congr fun T hT => (hGB T hT).symm, ?_⟩
  suffices ∃ TI, 0 < TI ∧ G TI = 0 by
    obtain ⟨TI, h1, h2⟩ := this
    exact ⟨TI, h1, (hGB TI h1).trans h2⟩
  have hcont : ContinuousOn G (Set.Ioi 0) := by
    intro T (hT : 0 < T)
    have h1 : ContinuousAt (fun T : ℝ => ε / T) T := continuousAt_const.div continuousAt_id hT.ne'
    have h2 : ContinuousAt (fun T : ℝ => e / T) T := continuousAt_const.div continuousAt_id hT.ne'
    have h3 : ContinuousAt (fun T : ℝ => throttleForm m (ε / T)) T :=
      ContinuousAt.comp (f := fun T : ℝ => ε / T) (hasDerivAt_throttleForm m _).continuousAt h1
    exact ((h3.const_mul A).sub (((h2.rexp.mul (h2.const_add 1)).sub_const 1).const_mul C)).continuousWithinAt
  have hhigh : ∃ T, 0 < T ∧ 0 < G T := by
    have h1 : Tendsto (fun T : ℝ => ε / T) atTop (𝓝 0) := tendsto_const_nhds.div_atTop tendsto_id
    have h2 : Tendsto (fun T : ℝ => e / T) atTop (𝓝 0) := tendsto_const_nhds.div_atTop tendsto_id
    have h3 := ((hasDerivAt_throttleForm m 0).continuousAt.tendsto.comp h1).const_mul A
    have h4 := ((((Real.continuous_exp.tendsto 0).comp h2).mul (h2.const_add 1)).sub_const 1).const_mul C
    have h5 := h3.sub h4
    have h6 : 0 < A * throttleForm m 0 - C * (Real.exp 0 * (1 + 0) - 1) := by
      have : throttleForm m 0 = (3 * m + 5) / 12 * 0.88 ^ 3 := by
        simp only [throttleForm, mul_zero, Real.exp_zero]
        norm_num
      rw [this, Real.exp_zero, add_zero, mul_one, sub_self, mul_zero, sub_zero]
      positivity
    obtain ⟨T, hT, hT0⟩ := ((h5.eventually (lt_mem_nhds h6)).and (eventually_gt_atTop 0)).exists
    exact ⟨T, hT0, hT⟩
  have hlow : ∃ T, 0 < T ∧ G T < 0 := by
    obtain ⟨-, TB, hTB, hz⟩ := boyle_temperature (A := A) (C := C) (e := e) hm hε hA hC he
    refine ⟨TB, hTB, ?_⟩
    have h1 := boyleSlope_neg hm (div_pos hε hTB).le
    have h2 : 0 < A * (ε / TB * -boyleSlope m (ε / TB)) := by
      have : 0 < -boyleSlope m (ε / TB) := by linarith
      positivity
    have h3 : 0 ≤ C * (Real.exp (e / TB) * (e / TB)) := by positivity
    change A * throttleForm m (ε / TB) - C * (Real.exp (e / TB) * (1 + e / TB) - 1) < 0
    rw [throttleForm_eq]
    linarith
  obtain ⟨T1, a1, b1⟩ := hlow
  obtain ⟨T2, a2, b2⟩ := hhigh
  obtain ⟨TI, hTI, hz⟩ := (isPreconnected_Ioi (a := (0 : ℝ))).intermediate_value (Set.mem_Ioi.2 a1) (Set.mem_Ioi.2 a2)
    hcont ⟨b1.le, b2.le⟩
  exact ⟨TI, hTI, hz⟩

end PcSaft
