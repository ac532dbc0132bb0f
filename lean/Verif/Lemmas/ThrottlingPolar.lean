import Verif.Lemmas.BoylePolar
import Verif.Lemmas.Throttling

/-!
# The inversion temperature with polar pair terms
-/

open Filter Topology

namespace PcSaft

/-- a polar pair term as a function of temperature -/
theorem hasDerivAt_polarForm (a b ε : ℝ) {T : ℝ} (hT : T ≠ 0) :
    HasDerivAt (fun T : ℝ => (ε / T) ^ 2 * (a + b * (ε / T))) (-((ε / T) ^ 2 * (2 * a + 3 * b * (ε / T))) / T) T := by
  have hq : HasDerivAt (fun T : ℝ => ε / T) (-(ε / T ^ 2)) T := by
    have := (hasDerivAt_inv hT).const_mul ε
    simp only [div_eq_mul_inv]
    exact this.congr_deriv (by ring)
  have h := (hq.pow 2).mul ((hq.const_mul b).const_add a)
  refine h.congr_deriv ?_
  norm_num only [Nat.cast_ofNat, Nat.reduceSub, pow_one, Pi.pow_apply]
  field_simp
  ring

/-- its part of the enthalpy grows with `x` -/
theorem throttlePolar_mono {a b x y : ℝ} (h : 0 < a ∧ 0 ≤ a + 2 * b * (2 / 3)) (hx : 0 ≤ x) (hxy : x ≤ y)
    (hy : y ≤ 2 / 3) : x ^ 2 * (3 * a + 4 * b * x) ≤ y ^ 2 * (3 * a + 4 * b * y) := by
  refine polarForm_mono (x₀ := 2 / 3) (by linarith [h.1]) ?_ hx hxy hy
  linarith [h.2]

/-- the enthalpy coefficient is negative at `1.5 ε` -/
theorem throttleForm_neg {m : ℝ} (hm : 4 / 5 ≤ m) : throttleForm m (2 / 3) < 0 := by
  have hm0 : 0 < m := by linarith
  have e : m * int1Zero m = 0.91056314451539 * m - 0.30840169182720 * (m - 1)
      - 0.09061483509767 * (m - 3 + 2 * m⁻¹) := by
    unfold int1Zero
    field_simp
    ring
  have h : m⁻¹ ≤ 5 / 4 := by
    rw [inv_le_comm₀ hm0 (by norm_num)]
    linarith
  have hs := boyleSlope_neg hm (show (0 : ℝ) ≤ 2 / 3 by norm_num)
  unfold boyleSlope at hs
  have t0 : 0 < Real.exp (-3 * (2 / 3)) := Real.exp_pos _
  have t1 : Real.exp (-3 * (2 / 3)) ≤ 1 := Real.exp_le_one_iff.2 (by norm_num)
  have h3 : (1 - 0.12 * Real.exp (-3 * (2 / 3))) ^ 3 ≤ 1 := pow_le_one₀ (by linarith) (by linarith)
  have h4 : (3 * m + 5) / 12 * (1 - 0.12 * Real.exp (-3 * (2 / 3))) ^ 3 ≤ (3 * m + 5) / 12 :=
    mul_le_of_le_one_right (by positivity) h3
  have h5 : 0 < m ^ 2 * int2Zero m := by
    have := int2Zero_pos hm
    positivity
  rw [throttleForm_eq]
  unfold boyleForm boyleSlope
  rw [e] at hs ⊢
  linarith

/-- A coefficient that combines chains, dispersion, bonds and polar pair terms: from `1.5 ε` on its slope is positive,
and the coefficient of the enthalpy grows from a negative to positive values. -/
theorem inversion_temperature_polar {m ε A C e a₁ b₁ a₂ b₂ a₃ b₃ D Q M : ℝ} (hm : 4 / 5 ≤ m) (hε : 0 < ε) (hA : 0 < A)
    (hC : 0 ≤ C) (he : 0 ≤ e) (hD : 0 ≤ D) (hQ : 0 ≤ Q) (hM : 0 ≤ M)
    (h1 : 0 < D → 0 < a₁ ∧ 0 ≤ a₁ + 2 * b₁ * (2 / 3)) (h2 : 0 < Q → 0 < a₂ ∧ 0 ≤ a₂ + 2 * b₂ * (2 / 3))
    (h3 : 0 < M → 0 < a₃ ∧ 0 ≤ a₃ + 2 * b₃ * (2 / 3)) :
    let B := fun T : ℝ => A * boyleForm m (ε / T) - C * (Real.exp (e / T) - 1)
      - (D * ((ε / T) ^ 2 * (a₁ + b₁ * (ε / T))) + Q * ((ε / T) ^ 2 * (a₂ + b₂ * (ε / T)))
        + M * ((ε / T) ^ 2 * (a₃ + b₃ * (ε / T))))
    ∃ B' : ℝ → ℝ, (∀ T, 0 < T → HasDerivAt B (B' T) T) ∧ (∀ T, 1.5 * ε ≤ T → 0 < B' T)
      ∧ StrictMonoOn (fun T => B T - T * B' T) (Set.Ici (1.5 * ε)) ∧ ∃ TI, 1.5 * ε < TI ∧ B TI - TI * B' TI = 0 := by
  intro B
  obtain ⟨B₀', g1, g2, -⟩ := inversion_temperature (A := A) (C := C) (e := e) hm hε hA hC he
  have hlow : ∀ T, 1.5 * ε ≤ T → 0 < T ∧ 0 < ε / T ∧ ε / T ≤ 2 / 3 := fun T hT => by
    have hT0 : 0 < T := by linarith
    refine ⟨hT0, div_pos hε hT0, ?_⟩
    rw [div_le_iff₀ hT0]
    linarith
  set p : ℝ → ℝ → ℝ → ℝ := fun a b T => -((ε / T) ^ 2 * (2 * a + 3 * b * (ε / T))) / T with hp
  set B' : ℝ → ℝ := fun T => B₀' T - (D * p a₁ b₁ T + Q * p a₂ b₂ T + M * p a₃ b₃ T) with hB'
  have slope : ∀ {K a b T : ℝ}, 0 ≤ K → (0 < K → 0 < a ∧ 0 ≤ a + 2 * b * (2 / 3)) → 1.5 * ε ≤ T → K * p a b T ≤ 0 := by
    intro K a b T hK h hT
    obtain ⟨p1, p2, p3⟩ := hlow T hT
    rcases hK.eq_or_lt with hK' | hK'
    · rw [← hK', zero_mul]
    · obtain ⟨q1, q2⟩ := h hK'
      have q3 : 0 ≤ 2 * a + 3 * b * (ε / T) := by
        rcases le_or_gt 0 b with hb | hb
        · positivity
        · nlinarith
      have : 0 ≤ (ε / T) ^ 2 * (2 * a + 3 * b * (ε / T)) / T := by positivity
      have e1 : p a b T = -((ε / T) ^ 2 * (2 * a + 3 * b * (ε / T)) / T) := by rw [hp]; ring
      rw [e1, mul_neg]
      exact neg_nonpos.2 (mul_nonneg hK this)
  set r : ℝ → ℝ → ℝ → ℝ := fun a b x => x ^ 2 * (3 * a + 4 * b * x) with hrdef
  have part : ∀ {K a b x y : ℝ}, 0 ≤ K → (0 < K → 0 < a ∧ 0 ≤ a + 2 * b * (2 / 3)) → 0 ≤ x → x ≤ y → y ≤ 2 / 3 →
      K * r a b x ≤ K * r a b y := by
    intro K a b x y hK h hx hxy hy
    rcases hK.eq_or_lt with hK' | hK'
    · rw [← hK', zero_mul, zero_mul]
    · exact mul_le_mul_of_nonneg_left (throttlePolar_mono (h hK') hx hxy hy) hK
  set G : ℝ → ℝ := fun T => (A * boyleForm m (ε / T) - C * (Real.exp (e / T) - 1) - T * B₀' T)
    - (D * r a₁ b₁ (ε / T) + Q * r a₂ b₂ (ε / T) + M * r a₃ b₃ (ε / T)) with hG
  have hGB : ∀ T, 0 < T → B T - T * B' T = G T := by
    intro T hT
    have e1 : ∀ a b : ℝ, T * p a b T = -((ε / T) ^ 2 * (2 * a + 3 * b * (ε / T))) := fun a b => by
      rw [hp]
      exact mul_div_cancel₀ _ hT.ne'
    have e2 : T * B' T = T * B₀' T - (D * (T * p a₁ b₁ T) + Q * (T * p a₂ b₂ T) + M * (T * p a₃ b₃ T)) := by
      rw [hB']
      ring
    rw [e2, e1, e1, e1]
    change A * boyleForm m (ε / T) - C * (Real.exp (e / T) - 1)
      - (D * ((ε / T) ^ 2 * (a₁ + b₁ * (ε / T))) + Q * ((ε / T) ^ 2 * (a₂ + b₂ * (ε / T)))
        + M * ((ε / T) ^ 2 * (a₃ + b₃ * (ε / T)))) - _ = _
    rw [hG, hrdef]
    ring
  have mono : StrictMonoOn G (Set.Ici (1.5 * ε)) := by
    intro T (hT : 1.5 * ε ≤ T) T' (hT' : 1.5 * ε ≤ T') h
    obtain ⟨p1, p2, p3⟩ := hlow T hT
    obtain ⟨p1', p2', p3'⟩ := hlow T' hT'
    have q1 : ε / T' ≤ ε / T := div_le_div_of_nonneg_left hε.le p1 h.le
    have q2 := g2 (Set.mem_Ioi.2 p1) (Set.mem_Ioi.2 p1') h
    have q6 := part hD h1 p2'.le q1 p3
    have q7 := part hQ h2 p2'.le q1 p3
    have q8 := part hM h3 p2'.le q1 p3
    change _ - (_ + _ + _) < _ - (_ + _ + _)
    beta_reduce at q2
    linarith
  refine ⟨B', fun T hT => ?_, fun T hT => ?_, mono.congr fun T (hT : 1.5 * ε ≤ T) => (hGB T (hlow T hT).1).symm, ?_⟩
  · have k1 := fun a b => hasDerivAt_polarForm a b ε hT.ne'
    exact (g1 T hT).1.sub ((((k1 a₁ b₁).const_mul D).add ((k1 a₂ b₂).const_mul Q)).add ((k1 a₃ b₃).const_mul M))
  · have q0 := (g1 T (hlow T hT).1).2
    have q1 := slope hD h1 hT
    have q2 := slope hQ h2 hT
    have q3 := slope hM h3 hT
    change 0 < _ - (_ + _ + _)
    linarith
  suffices ∃ TI, 1.5 * ε < TI ∧ G TI = 0 by
    obtain ⟨TI, k1, k2⟩ := this
    exact ⟨TI, k1, (hGB TI (hlow TI k1.le).1).trans k2⟩
  -- an explicit form
  have hB₀ : ∀ T, 0 < T → A * boyleForm m (ε / T) - C * (Real.exp (e / T) - 1) - T * B₀' T
      = A * throttleForm m (ε / T) - C * (Real.exp (e / T) * (1 + e / T) - 1) := by
    intro T hT
    have hq : ∀ a : ℝ, HasDerivAt (fun T : ℝ => a / T) (-(a / T ^ 2)) T := fun a => by
      have := (hasDerivAt_inv hT.ne').const_mul a
      simp only [div_eq_mul_inv]
      exact this.congr_deriv (by ring)
    have k1 : HasDerivAt (fun T : ℝ => boyleForm m (ε / T)) (boyleSlope m (ε / T) * (-(ε / T ^ 2))) T :=
      HasDerivAt.comp T (h₂ := boyleForm m) (hasDerivAt_boyleForm m (ε / T)) (hq ε)
    have k2 := (k1.const_mul A).sub (((hq e).exp.sub_const 1).const_mul C)
    rw [(g1 T hT).1.unique k2]
    have e1 : ∀ a : ℝ, a / T ^ 2 = a / T / T := fun a => by field_simp
    rw [throttleForm_eq, e1, e1]
    generalize boyleSlope m (ε / T) = s
    generalize boyleForm m (ε / T) = b
    generalize Real.exp (e / T) = w
    generalize ε / T = x
    generalize e / T = y
    field_simp
    ring
  set H : ℝ → ℝ := fun T => (A * throttleForm m (ε / T) - C * (Real.exp (e / T) * (1 + e / T) - 1))
    - (D * r a₁ b₁ (ε / T) + Q * r a₂ b₂ (ε / T) + M * r a₃ b₃ (ε / T)) with hH
  have hGH : ∀ T, 0 < T → G T = H T := fun T hT => by
    simp only [hG, hH]
    rw [hB₀ T hT]
  have hcont : ContinuousOn H (Set.Ici (1.5 * ε)) := by
    intro T (hT : 1.5 * ε ≤ T)
    obtain ⟨p1, -⟩ := hlow T hT
    have c1 : ContinuousAt (fun T : ℝ => ε / T) T := continuousAt_const.div continuousAt_id p1.ne'
    have c2 : ContinuousAt (fun T : ℝ => e / T) T := continuousAt_const.div continuousAt_id p1.ne'
    have c3 : ContinuousAt (fun T : ℝ => throttleForm m (ε / T)) T :=
      ContinuousAt.comp (f := fun T : ℝ => ε / T) (hasDerivAt_throttleForm m _).continuousAt c1
    have c4 : ∀ K a b : ℝ, ContinuousAt (fun T : ℝ => K * r a b (ε / T)) T := fun K a b =>
      ((c1.pow 2).mul ((c1.const_mul (4 * b)).const_add (3 * a))).const_mul K
    exact (((c3.const_mul A).sub (((c2.rexp.mul (c2.const_add 1)).sub_const 1).const_mul C)).sub
      (((c4 D a₁ b₁).add (c4 Q a₂ b₂)).add (c4 M a₃ b₃))).continuousWithinAt
  have hneg : H (1.5 * ε) < 0 := by
    obtain ⟨p1, p2, p3⟩ := hlow _ le_rfl
    have ex : ε / (1.5 * ε) = 2 / 3 := by
      field_simp
      norm_num
    have n1 := mul_neg_of_pos_of_neg hA (throttleForm_neg hm)
    have n2 : 0 ≤ C * (Real.exp (e / (1.5 * ε)) * (1 + e / (1.5 * ε)) - 1) := by
      refine mul_nonneg hC (sub_nonneg.2 ?_)
      have hz := div_nonneg he p1.le
      exact one_le_mul_of_one_le_of_one_le (Real.one_le_exp hz) (by linarith)
    have n3 : ∀ {K a b : ℝ}, 0 ≤ K → (0 < K → 0 < a ∧ 0 ≤ a + 2 * b * (2 / 3)) → 0 ≤ K * r a b (2 / 3) := fun hK h => by
      have := part hK h le_rfl (by norm_num : (0 : ℝ) ≤ 2 / 3) le_rfl
      simpa [hrdef] using this
    have n4 := n3 hD h1
    have n5 := n3 hQ h2
    have n6 := n3 hM h3
    change A * throttleForm m (ε / (1.5 * ε)) - _ - (D * r a₁ b₁ (ε / (1.5 * ε)) + Q * r a₂ b₂ (ε / (1.5 * ε))
      + M * r a₃ b₃ (ε / (1.5 * ε))) < 0
    rw [ex]
    linarith
  have hhigh : ∃ T, 1.5 * ε < T ∧ 0 < H T := by
    have t1 : Tendsto (fun T : ℝ => ε / T) atTop (𝓝 0) := tendsto_const_nhds.div_atTop tendsto_id
    have t2 : Tendsto (fun T : ℝ => e / T) atTop (𝓝 0) := tendsto_const_nhds.div_atTop tendsto_id
    have t3 := ((hasDerivAt_throttleForm m 0).continuousAt.tendsto.comp t1).const_mul A
    have t4 := ((((Real.continuous_exp.tendsto 0).comp t2).mul (t2.const_add 1)).sub_const 1).const_mul C
    have t5 : ∀ K a b : ℝ, Tendsto (fun T : ℝ => K * r a b (ε / T)) atTop
        (𝓝 (K * (0 ^ 2 * (3 * a + 4 * b * 0)))) := fun K a b =>
      ((t1.pow 2).mul ((t1.const_mul (4 * b)).const_add (3 * a))).const_mul K
    have t6 := (t3.sub t4).sub (((t5 D a₁ b₁).add (t5 Q a₂ b₂)).add (t5 M a₃ b₃))
    have t7 : 0 < A * throttleForm m 0 - C * (Real.exp 0 * (1 + 0) - 1)
        - (D * (0 ^ 2 * (3 * a₁ + 4 * b₁ * 0)) + Q * (0 ^ 2 * (3 * a₂ + 4 * b₂ * 0))
          + M * (0 ^ 2 * (3 * a₃ + 4 * b₃ * 0))) := by
      have e0 : throttleForm m 0 = (3 * m + 5) / 12 * 0.88 ^ 3 := by
        simp only [throttleForm, mul_zero, Real.exp_zero]
        norm_num
      have hm0 : 0 < m := by linarith
      have : 0 < A * ((3 * m + 5) / 12 * 0.88 ^ 3) := by positivity
      rw [e0, Real.exp_zero]
      norm_num at this ⊢
      exact this
    obtain ⟨T, hT, hT0⟩ := ((t6.eventually (lt_mem_nhds t7)).and (eventually_gt_atTop (1.5 * ε))).exists
    exact ⟨T, hT0, hT⟩
  obtain ⟨T, hT, hBT⟩ := hhigh
  obtain ⟨TI, ⟨k1, k2⟩, k3⟩ := intermediate_value_Icc hT.le (hcont.mono Set.Icc_subset_Ici_self) ⟨hneg.le, hBT.le⟩
  have hne : 1.5 * ε < TI := by
    refine lt_of_le_of_ne k1 fun e => ?_
    rw [← e] at k3
    linarith
  exact ⟨TI, hne, (hGH TI (hlow TI hne.le).1).trans k3⟩

/-- a cubic term in `x` wins over the other terms of the enthalpy -/
theorem cold_enthalpy {A D α β m : ℝ} (hm : 0 < m) (hA : 0 < A) (hD : 0 < D) (hβ : 0 < β) :
    ∃ X, 1 ≤ X ∧ ∀ x, X < x → 0 < A * throttleForm m x + D * x ^ 2 * (4 * β * x - 3 * α) := by
  set c1 := 2 * (2 * (m * int1Zero m)) with hc1
  set c2 := 3 * (m ^ 2 * int2Zero m) with hc2
  set X := 1 + (|A * c2 + D * (3 * α)| + |A * c1|) / (D * (4 * β)) with hX
  have hX1 : 1 ≤ X := le_add_of_nonneg_right (by positivity)
  refine ⟨X, hX1, fun x hx => ?_⟩
  have hx0 : 0 < x := by linarith
  have hb : -(c1 * x) - c2 * x ^ 2 ≤ throttleForm m x := by
    have t0 : Real.exp (-3 * x) ≤ 1 := Real.exp_le_one_iff.2 (by linarith)
    have t1 : 0 ≤ 1 - 0.12 * Real.exp (-3 * x) := by linarith
    have t2 : 0 ≤ (3 * m + 5) / 12 * ((1 - 0.12 * Real.exp (-3 * x)) ^ 3
      + x * (3 * (1 - 0.12 * Real.exp (-3 * x)) ^ 2 * (0.36 * Real.exp (-3 * x)))) := by positivity
    unfold throttleForm
    linarith
  have hb' := mul_le_mul_of_nonneg_left hb hA.le
  have h1 : D * (4 * β) * X = D * (4 * β) + (|A * c2 + D * (3 * α)| + |A * c1|) := by
    rw [hX]
    field_simp
  have h2 : D * (4 * β) * X < D * (4 * β) * x := mul_lt_mul_of_pos_left hx (by positivity)
  have h3 : |A * c2 + D * (3 * α)| + |A * c1| < D * (4 * β) * x := by
    have : 0 < D * (4 * β) := by positivity
    linarith
  have h4 := le_abs_self (A * c2 + D * (3 * α))
  have h5 := le_abs_self (A * c1)
  have h6 : (A * c2 + D * (3 * α)) * x + A * c1 < D * (4 * β) * x ^ 2 := by
    have g1 : (A * c2 + D * (3 * α)) * x ≤ |A * c2 + D * (3 * α)| * x := mul_le_mul_of_nonneg_right h4 hx0.le
    have g2 : |A * c1| ≤ |A * c1| * x := le_mul_of_one_le_right (abs_nonneg _) (by linarith)
    have g3 := mul_lt_mul_of_pos_right h3 hx0
    nlinarith
  have h7 := mul_lt_mul_of_pos_right h6 hx0
  have e1 : A * (-(c1 * x) - c2 * x ^ 2) + D * x ^ 2 * (4 * β * x - 3 * α)
      = D * (4 * β) * x ^ 2 * x - ((A * c2 + D * (3 * α)) * x + A * c1) * x := by ring
  linarith

end PcSaft
