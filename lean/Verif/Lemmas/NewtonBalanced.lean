import Verif.Lemmas.NewtonWeak

/-!
# The site fraction iteration when every site has the same total association strength

From equal starting values all fractions stay equal, and the iteration is Newton's method for
`D t² + t = 1`.  With `w = 1 + 2 D t` it is Heron's method for the square root of `1 + 4 D`.
-/

namespace PcSaft
open Spec
variable {ι : Type} [Fintype ι]

/-- From equal values the step leads to equal values. -/
theorem StepEq.balanced {M : ι → ι → ℝ} (hM : ∀ i j, 0 ≤ M i j) {D : ℝ} (hD : ∀ i, ∑ j, M i j = D) (hD0 : 0 ≤ D)
    {x x' : ι → ℝ} {t : ℝ} (ht : 0 < t) (hx : ∀ i, x i = t) (h : StepEq M x x') (i : ι) :
    x' i = (1 + D * t ^ 2) / (1 + 2 * D * t) := by
  have : Nonempty ι := ⟨i⟩
  set t' := (1 + D * t ^ 2) / (1 + 2 * D * t) with ht'
  have hden : 0 < 1 + 2 * D * t := by positivity
  have he : t' * (1 + 2 * D * t) = 1 + D * t ^ 2 := div_mul_cancel₀ _ hden.ne'
  obtain ⟨l, hl⟩ := Finite.exists_max fun i => |x' i - t'|
  have hs : ∑ j, M l j * x j = D * t := by
    simp only [hx]
    rw [← Finset.sum_mul, hD]
  have hs' : ∑ j, M l j * x' j = ∑ j, M l j * (x' j - t') + D * t' := by
    simp only [mul_sub, Finset.sum_sub_distrib]
    rw [← Finset.sum_mul, hD]
    ring
  have e := h l
  rw [hs, hs', hx] at e
  have e2 : (1 + D * t) * (x' l - t') = -(t * ∑ j, M l j * (x' j - t')) := by linear_combination e - he
  have hb : |∑ j, M l j * (x' j - t')| ≤ D * |x' l - t'| := by
    rw [← hD l, Finset.sum_mul]
    refine (Finset.abs_sum_le_sum_abs _ _).trans (Finset.sum_le_sum fun j _ => ?_)
    rw [abs_mul, abs_of_nonneg (hM l j)]
    exact mul_le_mul_of_nonneg_left (hl j) (hM l j)
  have e3 : (1 + D * t) * |x' l - t'| = t * |∑ j, M l j * (x' j - t')| := by
    have h1 : |(1 + D * t) * (x' l - t')| = (1 + D * t) * |x' l - t'| := by
      rw [abs_mul, abs_of_pos (by positivity)]
    have h2 : |-(t * ∑ j, M l j * (x' j - t'))| = t * |∑ j, M l j * (x' j - t')| := by
      rw [abs_neg, abs_mul, abs_of_pos ht]
    rw [← h1, e2, h2]
  have h0 : |x' l - t'| ≤ 0 := by
    have := mul_le_mul_of_nonneg_left hb ht.le
    nlinarith
  have hi := (hl i).trans h0
  have := abs_nonpos_iff.1 hi
  linarith

/-- relative deviation of `1 + 2 D t` from its limit `√(1 + 4 D)` -/
noncomputable def heronError (D t : ℝ) : ℝ := (1 + 2 * D * t) / Real.sqrt (1 + 4 * D) - 1

theorem heronError_step {D t : ℝ} (hD : 0 ≤ D) (ht : 0 < t) :
    heronError D ((1 + D * t ^ 2) / (1 + 2 * D * t)) = heronError D t ^ 2 / (2 * (1 + heronError D t)) := by
  have hR : 0 < Real.sqrt (1 + 4 * D) := Real.sqrt_pos.2 (by linarith)
  have hR2 : Real.sqrt (1 + 4 * D) ^ 2 = 1 + 4 * D := Real.sq_sqrt (by linarith)
  have hw : 0 < 1 + 2 * D * t := by positivity
  unfold heronError
  set R := Real.sqrt (1 + 4 * D)
  have e1 : 1 + ((1 + 2 * D * t) / R - 1) = (1 + 2 * D * t) / R := by ring
  rw [e1]
  have e2 : 1 + 2 * D * ((1 + D * t ^ 2) / (1 + 2 * D * t)) = ((1 + 2 * D * t) ^ 2 + R ^ 2) / (2 * (1 + 2 * D * t)) := by
    rw [hR2]
    field_simp
    ring
  rw [e2]
  field_simp
  ring

theorem heronError_start {D : ℝ} (h1 : 2 / 3 ≤ D) (h2 : D ≤ 2 ^ 80) :
    -2 / 5 ≤ heronError D (1 / 5) ∧ heronError D (1 / 5) ≤ 2 ^ 38 := by
  have hR : 0 < Real.sqrt (1 + 4 * D) := Real.sqrt_pos.2 (by linarith)
  have hR2 : Real.sqrt (1 + 4 * D) ^ 2 = 1 + 4 * D := Real.sq_sqrt (by linarith)
  unfold heronError
  set R := Real.sqrt (1 + 4 * D) with hRdef
  constructor
  · have : 3 / 5 ≤ (1 + 2 * D * (1 / 5)) / R := by
      rw [le_div_iff₀ hR]
      have h3 : (3 / 5 * R) ^ 2 ≤ (1 + 2 * D * (1 / 5)) ^ 2 := by
        rw [mul_pow, hR2]
        nlinarith [sq_nonneg (D - 2)]
      exact le_of_sq_le_sq h3 (by linarith)
    linarith
  · have : (1 + 2 * D * (1 / 5)) / R ≤ 2 ^ 38 + 1 := by
      rw [div_le_iff₀ hR]
      have hr1 : 4 / 5 ≤ Real.sqrt D := by
        rw [Real.le_sqrt' (by norm_num)]
        linarith
      have hr2 : Real.sqrt D ≤ 2 ^ 40 := by
        rw [Real.sqrt_le_left (by norm_num)]
        exact h2.trans (by norm_num)
      have hr3 : Real.sqrt D ^ 2 = D := Real.sq_sqrt (by linarith)
      have hr4 : 2 * Real.sqrt D ≤ R := by
        refine le_of_sq_le_sq ?_ hR.le
        rw [hR2, mul_pow, hr3]
        linarith
      set r := Real.sqrt D
      calc 1 + 2 * D * (1 / 5) ≤ (1 / 5 * r + 7 / 10) * (2 * r) := by nlinarith
        _ ≤ (2 ^ 38 + 1) * R := by
            apply mul_le_mul _ hr4 (by linarith) (by norm_num)
            linarith
    linarith

/-- the gradient in terms of the deviation -/
theorem heron_gradient {D t : ℝ} (h1 : 2 / 3 ≤ D) (ht : 0 < t) (hE : 0 ≤ heronError D t) :
    |t⁻¹ - (1 + D * t)| ≤ 3 * Real.sqrt (1 + 4 * D) * heronError D t := by
  have hR : 0 < Real.sqrt (1 + 4 * D) := Real.sqrt_pos.2 (by linarith)
  have hR2 : Real.sqrt (1 + 4 * D) ^ 2 = 1 + 4 * D := Real.sq_sqrt (by linarith)
  have hRge : 3 / 2 ≤ Real.sqrt (1 + 4 * D) := by
    rw [Real.le_sqrt' (by norm_num)]
    linarith
  have hw : (1 + 2 * D * t) = Real.sqrt (1 + 4 * D) * (1 + heronError D t) := by
    unfold heronError
    field_simp
    ring
  set R := Real.sqrt (1 + 4 * D) with hRdef
  set E := heronError D t with hEdef
  have hg : 0 ≤ D * t ^ 2 + t - 1 := by
    have : 4 * D * (D * t ^ 2 + t - 1) = R ^ 2 * (2 * E + E ^ 2) := by
      have : 4 * D * (D * t ^ 2 + t - 1) = (1 + 2 * D * t) ^ 2 - R ^ 2 := by rw [hR2]; ring
      rw [this, hw]
      ring
    have h2 : 0 ≤ 4 * D * (D * t ^ 2 + t - 1) := by rw [this]; positivity
    exact nonneg_of_mul_nonneg_right h2 (by linarith)
  have e : t⁻¹ - (1 + D * t) = -((D * t ^ 2 + t - 1) / t) := by
    field_simp
    ring
  rw [e, abs_neg, abs_of_nonneg (div_nonneg hg ht.le), div_le_iff₀ ht]
  have h3 : 4 * D * (D * t ^ 2 + t - 1) = R ^ 2 * (2 * E + E ^ 2) := by
    have : 4 * D * (D * t ^ 2 + t - 1) = (1 + 2 * D * t) ^ 2 - R ^ 2 := by rw [hR2]; ring
    rw [this, hw]
    ring
  have h4 : 2 * D * t = R * (1 + E) - 1 := by linarith
  have h5 : R ^ 2 * (2 * E + E ^ 2) ≤ 6 * R * E * (R * (1 + E) - 1) := by
    have : 0 ≤ R * E * (4 * R + 5 * R * E - 6) := by
      apply mul_nonneg (mul_nonneg hR.le hE)
      nlinarith [mul_nonneg hR.le hE]
    nlinarith
  have h6 : 4 * D * (D * t ^ 2 + t - 1) ≤ 4 * D * (3 * R * E * t) := by
    rw [h3]
    refine h5.trans (le_of_eq ?_)
    rw [← h4]
    ring
  exact le_of_mul_le_mul_left h6 (by linarith)

/-- what is known about the common fraction after `j` steps -/
structure HeronRun (D : ℝ) (j : ℕ) (t : ℝ) : Prop where
  pos : 0 < t
  le_one : t ≤ 1
  start : j = 0 → t = 1 / 5
  nonneg : 1 ≤ j → 0 ≤ heronError D t
  halved : 1 ≤ j → heronError D t * 2 ^ j ≤ 2 ^ 39
  squared : ∀ i, j = 40 + i → heronError D t ≤ 2 * (1 / 2) ^ 2 ^ (i + 1)

theorem HeronRun.next {D : ℝ} (h1 : 2 / 3 ≤ D) (h2 : D ≤ 2 ^ 80) {j : ℕ} {t : ℝ} (h : HeronRun D j t) :
    HeronRun D (j + 1) ((1 + D * t ^ 2) / (1 + 2 * D * t)) := by
  have ht := h.pos
  have hD : 0 ≤ D := by linarith
  have hst := heronError_step hD ht
  have hden : 0 < 1 + 2 * D * t := by positivity
  -- the deviation before the step
  have hcase : -2 / 5 ≤ heronError D t ∧ heronError D t * 2 ^ j ≤ 2 ^ 38 * 2 := by
    rcases Nat.eq_zero_or_pos j with rfl | hj
    · rw [h.start rfl]
      have := heronError_start h1 h2
      exact ⟨this.1, by linarith [this.2]⟩
    · exact ⟨by linarith [h.nonneg hj], by linarith [h.halved hj]⟩
  set E := heronError D t with hE
  have hpos : 0 < 2 * (1 + E) := by linarith [hcase.1]
  have hnn : 0 ≤ E ^ 2 / (2 * (1 + E)) := by positivity
  refine ⟨by positivity, ?_, fun h => by omega, fun _ => by rw [hst]; exact hnn, fun _ => ?_, fun i hi => ?_⟩
  · rw [div_le_one hden]
    nlinarith [h.le_one, mul_nonneg hD ht.le]
  · rw [hst]
    rcases le_or_gt 0 E with h0 | h0
    · have : E ^ 2 / (2 * (1 + E)) ≤ E / 2 := by
        rw [div_le_div_iff₀ hpos (by norm_num)]
        nlinarith
      calc E ^ 2 / (2 * (1 + E)) * 2 ^ (j + 1) ≤ E / 2 * 2 ^ (j + 1) :=
            mul_le_mul_of_nonneg_right this (by positivity)
        _ = E * 2 ^ j := by rw [pow_succ]; ring
        _ ≤ 2 ^ 39 := by linarith [hcase.2]
    · have hj : j = 0 := by
        by_contra hne
        exact absurd (h.nonneg (Nat.one_le_iff_ne_zero.2 hne)) (not_le.2 h0)
      subst hj
      have : E ^ 2 / (2 * (1 + E)) ≤ 1 := by
        rw [div_le_one hpos]
        nlinarith [hcase.1]
      norm_num
      linarith
  · rw [hst]
    have hE0 : 0 ≤ E := h.nonneg (by omega)
    cases i with
    | zero =>
      have hj : j = 39 := by omega
      subst hj
      have h3 : E ≤ 1 := by
        have := h.halved (by norm_num)
        norm_num at this ⊢
        linarith
      have : E ^ 2 / (2 * (1 + E)) ≤ E / 2 := by
        rw [div_le_div_iff₀ hpos (by norm_num)]
        nlinarith
      norm_num
      linarith
    | succ i =>
      have h3 := h.squared i (by omega)
      have : E ^ 2 / (2 * (1 + E)) ≤ E ^ 2 / 2 := by
        apply div_le_div_of_nonneg_left (sq_nonneg E) (by norm_num)
        linarith
      have h4 : E ^ 2 ≤ (2 * (1 / 2) ^ 2 ^ (i + 1)) ^ 2 := pow_le_pow_left₀ hE0 h3 2
      have h5 : (2 * (1 / 2 : ℝ) ^ 2 ^ (i + 1)) ^ 2 = 4 * (1 / 2) ^ 2 ^ (i + 1 + 1) := by
        rw [mul_pow, ← pow_mul, ← pow_succ]
        norm_num
      rw [h5] at h4
      linarith

theorem HeronRun.zero (D : ℝ) : HeronRun D 0 (1 / 5) :=
  ⟨by norm_num, by norm_num, fun _ => rfl, fun h => by omega, fun h => by omega, fun i hi => by omega⟩

/-- the first step from any fraction -/
theorem HeronRun.one {D t : ℝ} (h1 : 2 / 3 ≤ D) (h2 : D ≤ 2 ^ 76) (ht : 0 < t) (ht1 : t ≤ 1) :
    HeronRun D 1 ((1 + D * t ^ 2) / (1 + 2 * D * t)) := by
  have hD : 0 ≤ D := by linarith
  have hden : 0 < 1 + 2 * D * t := by positivity
  have hle : (1 + D * t ^ 2) / (1 + 2 * D * t) ≤ 1 := by
    rw [div_le_one hden]
    nlinarith [mul_nonneg hD ht.le]
  have hR : 0 < Real.sqrt (1 + 4 * D) := Real.sqrt_pos.2 (by linarith)
  refine ⟨by positivity, hle, fun h => by omega, fun _ => ?_, fun _ => ?_, fun i hi => by omega⟩
  · rw [heronError_step hD ht]
    have : 0 < 1 + heronError D t := by
      unfold heronError
      have : 0 < (1 + 2 * D * t) / Real.sqrt (1 + 4 * D) := by positivity
      linarith
    positivity
  · set t' := (1 + D * t ^ 2) / (1 + 2 * D * t)
    have hr1 : 4 / 5 ≤ Real.sqrt D := by
      rw [Real.le_sqrt' (by norm_num)]
      linarith
    have hr2 : Real.sqrt D ≤ 2 ^ 38 := by
      rw [Real.sqrt_le_left (by norm_num)]
      exact h2.trans (by norm_num)
    have hr3 : Real.sqrt D ^ 2 = D := Real.sq_sqrt hD
    have hr4 : 2 * Real.sqrt D ≤ Real.sqrt (1 + 4 * D) := by
      refine le_of_sq_le_sq ?_ hR.le
      rw [Real.sq_sqrt (by linarith), mul_pow, hr3]
      linarith
    have h3 : (1 + 2 * D * t') / Real.sqrt (1 + 4 * D) ≤ 2 ^ 38 + 1 := by
      rw [div_le_iff₀ hR]
      have h4 : 1 + 2 * D * t' ≤ 1 + 2 * D := by nlinarith
      set r := Real.sqrt D
      calc 1 + 2 * D * t' ≤ (r + 1) * (2 * r) := by nlinarith
        _ ≤ (2 ^ 38 + 1) * Real.sqrt (1 + 4 * D) := by
            apply mul_le_mul _ hr4 (by linarith) (by norm_num)
            linarith
    unfold heronError
    linarith

/-- the gradient after 46 steps -/
theorem HeronRun.gradient {D : ℝ} (h1 : 2 / 3 ≤ D) (h2 : D ≤ 2 ^ 80) {t : ℝ} (h : HeronRun D 46 t) :
    |t⁻¹ - (1 + D * t)| ≤ 1 / 2 ^ 80 := by
  refine (heron_gradient h1 h.pos (h.nonneg (by norm_num))).trans ?_
  have hs := h.squared 6 rfl
  have hE := h.nonneg (by norm_num)
  have hR : Real.sqrt (1 + 4 * D) ≤ 2 ^ 42 := by
    rw [Real.sqrt_le_left (by norm_num)]
    calc 1 + 4 * D ≤ 1 + 4 * 2 ^ 80 := by linarith
      _ ≤ (2 ^ 42) ^ 2 := by norm_num
  have hR0 := Real.sqrt_nonneg (1 + 4 * D)
  calc 3 * Real.sqrt (1 + 4 * D) * heronError D t ≤ 3 * 2 ^ 42 * (2 * (1 / 2) ^ 2 ^ (6 + 1)) := by
        apply mul_le_mul _ hs hE (by norm_num)
        linarith
    _ ≤ 1 / 2 ^ 80 := by norm_num

end PcSaft
