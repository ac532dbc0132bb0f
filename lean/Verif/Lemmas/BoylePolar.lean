import Verif.Lemmas.Boyle

/-!
# The second virial coefficient of polar substances as a function of temperature
-/

open Filter Topology

namespace PcSaft

/-- a polar pair term grows with `x = ε / T` as long as `x` is not too large -/
theorem polarForm_mono {α β x₀ x y : ℝ} (hα : 0 ≤ α) (h : 0 ≤ 2 * α + 3 * β * x₀) (hx : 0 ≤ x) (hxy : x ≤ y)
    (hy : y ≤ x₀) : x ^ 2 * (α + β * x) ≤ y ^ 2 * (α + β * y) := by
  have e : y ^ 2 * (α + β * y) - x ^ 2 * (α + β * x) = (y - x) * (α * (x + y) + β * (x ^ 2 + x * y + y ^ 2)) := by ring
  have hb : 0 ≤ α * (x + y) + β * (x ^ 2 + x * y + y ^ 2) := by
    rcases le_or_gt 0 β with hβ | hβ
    · have hy0 : 0 ≤ y := hx.trans hxy
      have : 0 ≤ x + y := by linarith
      have : 0 ≤ x ^ 2 + x * y + y ^ 2 := by positivity
      positivity
    · have h1 : 0 ≤ 2 * α + 3 * β * y := by nlinarith
      have h2 : 0 ≤ (2 * α + 3 * β * y) * (x + y) := mul_nonneg h1 (by linarith)
      have h3 : 0 ≤ -β * (y ^ 2 + x * y - 2 * x ^ 2) := mul_nonneg (by linarith) (by nlinarith)
      have e2 : 2 * (α * (x + y) + β * (x ^ 2 + x * y + y ^ 2))
          = (2 * α + 3 * β * y) * (x + y) + -β * (y ^ 2 + x * y - 2 * x ^ 2) := by ring
      linarith
  have := mul_nonneg (sub_nonneg.2 hxy) hb
  linarith

theorem polarForm_nonneg {α β x₀ x : ℝ} (hα : 0 ≤ α) (h : 0 ≤ 2 * α + 3 * β * x₀) (hx : 0 ≤ x) (hx0 : x ≤ x₀) :
    0 ≤ x ^ 2 * (α + β * x) := by
  have := polarForm_mono hα h le_rfl hx hx0
  simpa using this

/-- the pair integral is positive -/
theorem polarForm_pos {α β x₀ x : ℝ} (hα : 0 < α) (h : 0 ≤ 2 * α + 3 * β * x₀) (hx : 0 ≤ x) (hx0 : x ≤ x₀) :
    0 < α + β * x := by
  rcases le_or_gt 0 β with hβ | hβ
  · have := mul_nonneg hβ hx
    linarith
  · nlinarith

theorem boyleForm_neg {m : ℝ} (hm : 4 / 5 ≤ m) : boyleForm m (10 / 11) < 0 := by
  have hm0 : 0 < m := by linarith
  have e : m * int1Zero m = 0.91056314451539 * m - 0.30840169182720 * (m - 1)
      - 0.09061483509767 * (m - 3 + 2 * m⁻¹) := by
    unfold int1Zero
    field_simp
    ring
  have h : m⁻¹ ≤ 5 / 4 := by
    rw [inv_le_comm₀ hm0 (by norm_num)]
    linarith
  have t0 : 0 < Real.exp (-3 * (10 / 11)) := Real.exp_pos _
  have t1 : Real.exp (-3 * (10 / 11)) ≤ 1 := Real.exp_le_one_iff.2 (by norm_num)
  have h3 : (1 - 0.12 * Real.exp (-3 * (10 / 11))) ^ 3 ≤ 1 := pow_le_one₀ (by linarith) (by linarith)
  have h4 : (3 * m + 5) / 12 * (1 - 0.12 * Real.exp (-3 * (10 / 11))) ^ 3 ≤ (3 * m + 5) / 12 :=
    mul_le_of_le_one_right (by positivity) h3
  have h5 : 0 < m ^ 2 * int2Zero m * (10 / 11) ^ 2 := by
    have := int2Zero_pos hm
    positivity
  unfold boyleForm
  rw [e]
  linarith

/-- A coefficient that combines chains, dispersion, bonds and polar pair terms grows with temperature from `1.1 ε` on,
from a negative to positive values. -/
theorem boyle_temperature_polar {m ε A C e a₁ b₁ a₂ b₂ a₃ b₃ D Q M : ℝ} (hm : 4 / 5 ≤ m) (hε : 0 < ε) (hA : 0 < A)
    (hC : 0 ≤ C) (he : 0 ≤ e) (hD : 0 ≤ D) (hQ : 0 ≤ Q) (hM : 0 ≤ M)
    (h1 : 0 < D → 0 < a₁ ∧ 0 ≤ 2 * a₁ + 3 * b₁ * (10 / 11)) (h2 : 0 < Q → 0 < a₂ ∧ 0 ≤ 2 * a₂ + 3 * b₂ * (10 / 11))
    (h3 : 0 < M → 0 < a₃ ∧ 0 ≤ 2 * a₃ + 3 * b₃ * (10 / 11)) :
    let B := fun T : ℝ => A * boyleForm m (ε / T) - C * (Real.exp (e / T) - 1)
      - (D * ((ε / T) ^ 2 * (a₁ + b₁ * (ε / T))) + Q * ((ε / T) ^ 2 * (a₂ + b₂ * (ε / T)))
        + M * ((ε / T) ^ 2 * (a₃ + b₃ * (ε / T))))
    StrictMonoOn B (Set.Ici (1.1 * ε)) ∧ ∃ TB, 1.1 * ε < TB ∧ B TB = 0 := by
  intro B
  have part : ∀ {K a b x y : ℝ}, 0 ≤ K → (0 < K → 0 < a ∧ 0 ≤ 2 * a + 3 * b * (10 / 11)) → 0 ≤ x → x ≤ y → y ≤ 10 / 11 →
      K * (x ^ 2 * (a + b * x)) ≤ K * (y ^ 2 * (a + b * y)) := by
    intro K a b x y hK h hx hxy hy
    rcases hK.eq_or_lt with hK' | hK'
    · rw [← hK', zero_mul, zero_mul]
    · exact mul_le_mul_of_nonneg_left (polarForm_mono (h hK').1.le (h hK').2 hx hxy hy) hK
  have hlow : ∀ T, 1.1 * ε ≤ T → 0 < T ∧ ε / T ≤ 10 / 11 := fun T hT => by
    have hT0 : 0 < T := by linarith
    refine ⟨hT0, ?_⟩
    rw [div_le_iff₀ hT0]
    linarith
  have mono : StrictMonoOn B (Set.Ici (1.1 * ε)) := by
    intro T (hT : 1.1 * ε ≤ T) T' (hT' : 1.1 * ε ≤ T') h
    obtain ⟨p1, p2⟩ := hlow T hT
    obtain ⟨p1', -⟩ := hlow T' hT'
    have q1 : ε / T' < ε / T := div_lt_div_of_pos_left hε p1 h
    have q0 : 0 ≤ ε / T' := (div_pos hε p1').le
    have q2 := boyleForm_anti hm (Set.mem_Ici.2 q0) (Set.mem_Ici.2 (div_pos hε p1).le) q1
    have q3 : e / T' ≤ e / T := div_le_div_of_nonneg_left he p1 h.le
    have q4 := mul_le_mul_of_nonneg_left (sub_le_sub_right (Real.exp_le_exp.2 q3) 1) hC
    have q5 := mul_lt_mul_of_pos_left q2 hA
    have q6 := part hD h1 q0 q1.le p2
    have q7 := part hQ h2 q0 q1.le p2
    have q8 := part hM h3 q0 q1.le p2
    change _ - _ - (_ + _ + _) < _ - _ - (_ + _ + _)
    linarith
  refine ⟨mono, ?_⟩
  have hcont : ContinuousOn B (Set.Ici (1.1 * ε)) := by
    intro T (hT : 1.1 * ε ≤ T)
    obtain ⟨p1, -⟩ := hlow T hT
    have c1 : ContinuousAt (fun T : ℝ => ε / T) T := continuousAt_const.div continuousAt_id p1.ne'
    have c2 : ContinuousAt (fun T : ℝ => e / T) T := continuousAt_const.div continuousAt_id p1.ne'
    have c3 : ContinuousAt (fun T : ℝ => boyleForm m (ε / T)) T :=
      ContinuousAt.comp (f := fun T : ℝ => ε / T) (hasDerivAt_boyleForm m _).continuousAt c1
    have c4 : ∀ K a b : ℝ, ContinuousAt (fun T : ℝ => K * ((ε / T) ^ 2 * (a + b * (ε / T)))) T := fun K a b =>
      ((c1.pow 2).mul ((c1.const_mul b).const_add a)).const_mul K
    exact (((c3.const_mul A).sub ((c2.rexp.sub_const 1).const_mul C)).sub
      (((c4 D a₁ b₁).add (c4 Q a₂ b₂)).add (c4 M a₃ b₃))).continuousWithinAt
  have hneg : B (1.1 * ε) < 0 := by
    obtain ⟨p1, p2⟩ := hlow _ le_rfl
    have ex : ε / (1.1 * ε) = 10 / 11 := by
      field_simp
      norm_num
    have n1 := mul_neg_of_pos_of_neg hA (boyleForm_neg hm)
    have n2 : 0 ≤ C * (Real.exp (e / (1.1 * ε)) - 1) :=
      mul_nonneg hC (sub_nonneg.2 (Real.one_le_exp (div_nonneg he p1.le)))
    have n3 : ∀ {K a b : ℝ}, 0 ≤ K → (0 < K → 0 < a ∧ 0 ≤ 2 * a + 3 * b * (10 / 11)) →
        0 ≤ K * ((10 / 11 : ℝ) ^ 2 * (a + b * (10 / 11))) := fun hK h => by
      have := part hK h le_rfl (by norm_num : (0 : ℝ) ≤ 10 / 11) le_rfl
      simpa using this
    have n4 := n3 hD h1
    have n5 := n3 hQ h2
    have n6 := n3 hM h3
    change A * boyleForm m (ε / (1.1 * ε)) - _ - _ < 0
    rw [ex]
    linarith
  have hhigh : ∃ T, 1.1 * ε < T ∧ 0 < B T := by
    have t1 : Tendsto (fun T : ℝ => ε / T) atTop (𝓝 0) := tendsto_const_nhds.div_atTop tendsto_id
    have t2 : Tendsto (fun T : ℝ => e / T) atTop (𝓝 0) := tendsto_const_nhds.div_atTop tendsto_id
    have t3 := ((hasDerivAt_boyleForm m 0).continuousAt.tendsto.comp t1).const_mul A
    have t4 := (((Real.continuous_exp.tendsto 0).comp t2).sub_const 1).const_mul C
    have t5 : ∀ K a b : ℝ, Tendsto (fun T : ℝ => K * ((ε / T) ^ 2 * (a + b * (ε / T)))) atTop
        (𝓝 (K * (0 ^ 2 * (a + b * 0)))) := fun K a b =>
      ((t1.pow 2).mul ((t1.const_mul b).const_add a)).const_mul K
    have t6 := (t3.sub t4).sub (((t5 D a₁ b₁).add (t5 Q a₂ b₂)).add (t5 M a₃ b₃))
    have t7 : 0 < A * boyleForm m 0 - C * (Real.exp 0 - 1)
        - (D * (0 ^ 2 * (a₁ + b₁ * 0)) + Q * (0 ^ 2 * (a₂ + b₂ * 0)) + M * (0 ^ 2 * (a₃ + b₃ * 0))) := by
      have e0 : boyleForm m 0 = (3 * m + 5) / 12 * 0.88 ^ 3 := by
        simp only [boyleForm, mul_zero, Real.exp_zero]
        norm_num
      have hm0 : 0 < m := by linarith
      have : 0 < A * ((3 * m + 5) / 12 * 0.88 ^ 3) := by positivity
      rw [e0, Real.exp_zero]
      norm_num at this ⊢
      exact this
    obtain ⟨T, hT, hT0⟩ := ((t6.eventually (lt_mem_nhds t7)).and (eventually_gt_atTop (1.1 * ε))).exists
    exact ⟨T, hT0, hT⟩
  obtain ⟨T, hT, hBT⟩ := hhigh
  obtain ⟨TB, ⟨g1, g2⟩, g3⟩ := intermediate_value_Icc hT.le (hcont.mono Set.Icc_subset_Ici_self) ⟨hneg.le, hBT.le⟩
  refine ⟨TB, lt_of_le_of_ne g1 fun e => ?_, g3⟩
  rw [← e] at g3
  linarith

end PcSaft
