import Verif.Lemmas.ThrottlingPolar

/-!
# Second temperature derivatives of the second virial coefficient
-/

open Filter Topology

namespace PcSaft

/-- the second derivative of the second virial coefficient with respect to `ε / T` -/
noncomputable def boyleCurve (m x : ℝ) : ℝ :=
  (3 * m + 5) / 12 * (1.08 * Real.exp (-3 * x) * (1 - 0.12 * Real.exp (-3 * x)) * (1.08 * Real.exp (-3 * x) - 3))
    - m ^ 2 * int2Zero m * 2

theorem hasDerivAt_boyleSlope (m x : ℝ) : HasDerivAt (boyleSlope m) (boyleCurve m x) x := by
  have h1 : HasDerivAt (fun x : ℝ => Real.exp (-3 * x)) (Real.exp (-3 * x) * (-3)) x := by
    have : HasDerivAt (fun x : ℝ => -3 * x) (-3) x := by simpa using (hasDerivAt_id x).const_mul (-3)
    exact this.exp
  have h2 := (h1.const_mul 0.12).const_sub 1
  have h3 := (((h2.pow 2).const_mul 3).mul (h1.const_mul 0.36)).const_mul ((3 * m + 5) / 12)
  have h4 := (h3.sub_const (2 * (m * int1Zero m))).sub (((hasDerivAt_id x).const_mul 2).const_mul (m ^ 2 * int2Zero m))
  refine h4.congr_deriv ?_
  unfold boyleCurve
  norm_num only [Nat.cast_ofNat, Nat.reduceSub, pow_one, id, Pi.mul_apply, Pi.pow_apply]
  ring

theorem boyleCurve_neg {m x : ℝ} (hm : 4 / 5 ≤ m) (hx : 0 ≤ x) : boyleCurve m x < 0 := by
  have hm0 : 0 < m := by linarith
  have h2 := int2Zero_pos hm
  unfold boyleCurve
  have t0 : 0 < Real.exp (-3 * x) := Real.exp_pos _
  have t1 : Real.exp (-3 * x) ≤ 1 := Real.exp_le_one_iff.2 (by linarith)
  generalize Real.exp (-3 * x) = t at t0 t1
  have p1 : 0 < 1 - 0.12 * t := by linarith
  have p2 : 0 < 3 - 1.08 * t := by linarith
  have p3 : 0 < (3 * m + 5) / 12 * (1.08 * t * (1 - 0.12 * t) * (3 - 1.08 * t)) := by positivity
  have p4 : 0 < m ^ 2 * int2Zero m * 2 := by positivity
  have e : (3 * m + 5) / 12 * (1.08 * t * (1 - 0.12 * t) * (1.08 * t - 3))
      = -((3 * m + 5) / 12 * (1.08 * t * (1 - 0.12 * t) * (3 - 1.08 * t))) := by ring
  rw [e]
  linarith

theorem boyleCurve_bound {m x : ℝ} (hm : 0 < m) (hx : 0 ≤ x) :
    -((3 * m + 5) / 12 * 3.24) - m ^ 2 * int2Zero m * 2 ≤ boyleCurve m x := by
  unfold boyleCurve
  have t0 : 0 < Real.exp (-3 * x) := Real.exp_pos _
  have t1 : Real.exp (-3 * x) ≤ 1 := Real.exp_le_one_iff.2 (by linarith)
  generalize Real.exp (-3 * x) = t at t0 t1
  have p1 : 0 ≤ t * (1 - 0.12 * t) := mul_nonneg t0.le (by linarith)
  have p2 : t * (1 - 0.12 * t) ≤ 1 := by nlinarith
  have p3 : t * (1 - 0.12 * t) * (3 - 1.08 * t) ≤ 3 := by nlinarith
  have p4 : -3.24 ≤ 1.08 * t * (1 - 0.12 * t) * (1.08 * t - 3) := by nlinarith
  have p5 := mul_le_mul_of_nonneg_left p4 (show 0 ≤ (3 * m + 5) / 12 by positivity)
  linarith

/-- A coefficient that combines chains, dispersion, bonds and polar pair terms, its first and second derivative with
respect to temperature, and the combination that gives the heat capacity. -/
theorem heat_temperature (m ε A C e a₁ b₁ a₂ b₂ a₃ b₃ D Q M : ℝ) :
    let B := fun T : ℝ => A * boyleForm m (ε / T) - C * (Real.exp (e / T) - 1)
      - (D * ((ε / T) ^ 2 * (a₁ + b₁ * (ε / T))) + Q * ((ε / T) ^ 2 * (a₂ + b₂ * (ε / T)))
        + M * ((ε / T) ^ 2 * (a₃ + b₃ * (ε / T))))
    ∃ B' B'' : ℝ → ℝ, ∀ T, 0 < T → HasDerivAt B (B' T) T ∧ HasDerivAt B' (B'' T) T
      ∧ 2 * T * B' T + T ^ 2 * B'' T = (ε / T) ^ 2 * (A * boyleCurve m (ε / T) - (D * (2 * a₁ + 6 * b₁ * (ε / T))
          + Q * (2 * a₂ + 6 * b₂ * (ε / T)) + M * (2 * a₃ + 6 * b₃ * (ε / T))))
        - C * ((e / T) ^ 2 * Real.exp (e / T)) := by
  intro B
  have hq : ∀ {T : ℝ}, 0 < T → ∀ a : ℝ, HasDerivAt (fun T : ℝ => a / T) (-(a / T ^ 2)) T := fun {T} hT a => by
    have := (hasDerivAt_inv hT.ne').const_mul a
    simp only [div_eq_mul_inv]
    exact this.congr_deriv (by ring)
  set g : ℝ → ℝ := fun x => A * boyleSlope m x - (D * (2 * a₁ * x + 3 * b₁ * x ^ 2) + Q * (2 * a₂ * x + 3 * b₂ * x ^ 2)
    + M * (2 * a₃ * x + 3 * b₃ * x ^ 2)) with hg
  set g' : ℝ → ℝ := fun x => A * boyleCurve m x - (D * (2 * a₁ + 6 * b₁ * x) + Q * (2 * a₂ + 6 * b₂ * x)
    + M * (2 * a₃ + 6 * b₃ * x)) with hg'
  have hgd : ∀ x, HasDerivAt g (g' x) x := fun x => by
    have k : ∀ a b : ℝ, HasDerivAt (fun x : ℝ => 2 * a * x + 3 * b * x ^ 2) (2 * a + 6 * b * x) x := fun a b => by
      have := ((hasDerivAt_id x).const_mul (2 * a)).add ((hasDerivAt_pow 2 x).const_mul (3 * b))
      refine this.congr_deriv ?_
      norm_num only [Nat.cast_ofNat, Nat.reduceSub, pow_one]
      ring
    exact ((hasDerivAt_boyleSlope m x).const_mul A).sub
      ((((k a₁ b₁).const_mul D).add ((k a₂ b₂).const_mul Q)).add ((k a₃ b₃).const_mul M))
  -- the slope times the square of the temperature
  set S : ℝ → ℝ := fun T => C * e * Real.exp (e / T) - ε * g (ε / T) with hS
  have hSd : ∀ T, 0 < T → HasDerivAt S (C * e * (Real.exp (e / T) * (-(e / T ^ 2))) - ε * (g' (ε / T) * (-(ε / T ^ 2)))) T :=
    fun T hT => ((hq hT e).exp.const_mul (C * e)).sub
      ((HasDerivAt.comp T (h₂ := g) (hgd (ε / T)) (hq hT ε)).const_mul ε)
  refine ⟨fun T => S T * (T⁻¹) ^ 2, fun T => (C * e * (Real.exp (e / T) * (-(e / T ^ 2)))
    - ε * (g' (ε / T) * (-(ε / T ^ 2)))) * (T⁻¹) ^ 2 + S T * (2 * T⁻¹ * (-(T ^ 2)⁻¹)), fun T hT => ⟨?_, ?_, ?_⟩⟩
  · have k1 : HasDerivAt (fun T : ℝ => boyleForm m (ε / T)) (boyleSlope m (ε / T) * (-(ε / T ^ 2))) T :=
      HasDerivAt.comp T (h₂ := boyleForm m) (hasDerivAt_boyleForm m (ε / T)) (hq hT ε)
    have k2 := fun a b => hasDerivAt_polarForm a b ε hT.ne'
    refine (((k1.const_mul A).sub (((hq hT e).exp.sub_const 1).const_mul C)).sub
      ((((k2 a₁ b₁).const_mul D).add ((k2 a₂ b₂).const_mul Q)).add ((k2 a₃ b₃).const_mul M))).congr_deriv ?_
    rw [hS, hg]
    beta_reduce
    generalize boyleSlope m (ε / T) = s
    generalize Real.exp (e / T) = w
    field_simp
    ring
  · have k3 := (hasDerivAt_inv hT.ne').pow 2
    refine ((hSd T hT).mul k3).congr_deriv ?_
    norm_num only [Nat.cast_ofNat, Nat.reduceSub, pow_one, Pi.pow_apply]
  · beta_reduce
    have e1 : g' (ε / T) = A * boyleCurve m (ε / T) - (D * (2 * a₁ + 6 * b₁ * (ε / T))
          + Q * (2 * a₂ + 6 * b₂ * (ε / T)) + M * (2 * a₃ + 6 * b₃ * (ε / T))) := rfl
    rw [← e1]
    generalize g' (ε / T) = s
    generalize S T = r
    generalize Real.exp (e / T) = w
    field_simp
    ring

/-- the combination is negative where the polar terms are concave -/
theorem heat_neg {m x y A C w a₁ b₁ a₂ b₂ a₃ b₃ D Q M : ℝ} (hm : 4 / 5 ≤ m) (hx : 0 < x) (hA : 0 < A) (hC : 0 ≤ C)
    (hw : 0 ≤ w) (hD : 0 ≤ D) (hQ : 0 ≤ Q) (hM : 0 ≤ M) (h1 : 0 < D → 0 ≤ a₁ + 3 * b₁ * x)
    (h2 : 0 < Q → 0 ≤ a₂ + 3 * b₂ * x) (h3 : 0 < M → 0 ≤ a₃ + 3 * b₃ * x) :
    x ^ 2 * (A * boyleCurve m x - (D * (2 * a₁ + 6 * b₁ * x) + Q * (2 * a₂ + 6 * b₂ * x) + M * (2 * a₃ + 6 * b₃ * x)))
      - C * (y ^ 2 * w) < 0 := by
  have part : ∀ {K a b : ℝ}, 0 ≤ K → (0 < K → 0 ≤ a + 3 * b * x) → 0 ≤ K * (2 * a + 6 * b * x) := by
    intro K a b hK h
    rcases hK.eq_or_lt with hK' | hK'
    · rw [← hK', zero_mul]
    · exact mul_nonneg hK (by linarith [h hK'])
  have p1 := part hD h1
  have p2 := part hQ h2
  have p3 := part hM h3
  have p4 := mul_neg_of_pos_of_neg hA (boyleCurve_neg hm hx.le)
  have p5 : 0 ≤ C * (y ^ 2 * w) := by positivity
  have p6 := mul_neg_of_pos_of_neg (pow_pos hx 2)
    (show A * boyleCurve m x - (D * (2 * a₁ + 6 * b₁ * x) + Q * (2 * a₂ + 6 * b₂ * x) + M * (2 * a₃ + 6 * b₃ * x)) < 0 by
      linarith)
  linarith

/-- a term that grows with `x` wins over the curvature of the other terms -/
theorem cold_heat {A Q a β m : ℝ} (hm : 0 < m) (hA : 0 < A) (hQ : 0 < Q) (hβ : 0 < β) :
    ∃ X, 1 ≤ X ∧ ∀ x, X < x → a < β * x ∧ 0 < A * boyleCurve m x - Q * (2 * a + 6 * -β * x) := by
  set K := A * ((3 * m + 5) / 12 * 3.24 + m ^ 2 * int2Zero m * 2) with hK
  refine ⟨1 + (|K| + Q * (2 * |a|)) / (Q * (6 * β)) + |a| / β, ?_, fun x hx => ?_⟩
  · have : 0 ≤ (|K| + Q * (2 * |a|)) / (Q * (6 * β)) := by positivity
    have : 0 ≤ |a| / β := by positivity
    linarith
  have q1 : 0 ≤ (|K| + Q * (2 * |a|)) / (Q * (6 * β)) := by positivity
  have q2 : 0 ≤ |a| / β := by positivity
  have hx0 : 0 < x := by linarith
  have r1 : |a| < β * x := by
    have : |a| / β < x := by linarith
    rw [div_lt_iff₀ hβ] at this
    linarith
  have r2 : |K| + Q * (2 * |a|) < Q * (6 * β) * x := by
    have : (|K| + Q * (2 * |a|)) / (Q * (6 * β)) < x := by linarith
    rw [div_lt_iff₀ (by positivity)] at this
    linarith
  refine ⟨(le_abs_self a).trans_lt r1, ?_⟩
  have r3 := mul_le_mul_of_nonneg_left (boyleCurve_bound hm hx0.le) hA.le
  have r4 := le_abs_self K
  have r5 := mul_le_mul_of_nonneg_left (le_abs_self a) hQ.le
  have e1 : A * (-((3 * m + 5) / 12 * 3.24) - m ^ 2 * int2Zero m * 2) = -K := by
    rw [hK]
    ring
  have e2 : Q * (2 * a + 6 * -β * x) = 2 * (Q * a) - Q * (6 * β) * x := by ring
  rw [e1] at r3
  rw [e2]
  linarith

end PcSaft
