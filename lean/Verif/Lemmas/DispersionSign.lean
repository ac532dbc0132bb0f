import Verif.Lemmas.RealForms
import Mathlib.Tactic.LinearCombination
import Mathlib.Tactic.FinCases

/-!
# Signs of the perturbation integrals

Positivity of polynomials from the coefficients in the Bernstein basis on `[0, 1/2]`.
-/

namespace PcSaft

/-- a polynomial of degree six whose Bernstein coefficients on `[0, 1/2]` are positive -/
theorem poly6_pos {c : Fin 7 → ℝ} {y : ℝ} (hy : 0 ≤ y) (hy' : y ≤ 1 / 2) (b0 : 0 < c 0) (b1 : 0 < c 0 + c 1 / 12)
    (b2 : 0 < c 0 + c 1 / 6 + c 2 / 60) (b3 : 0 < c 0 + c 1 / 4 + c 2 / 20 + c 3 / 160)
    (b4 : 0 < c 0 + c 1 / 3 + c 2 / 10 + c 3 / 40 + c 4 / 240)
    (b5 : 0 < c 0 + 5 * c 1 / 12 + c 2 / 6 + c 3 / 16 + c 4 / 48 + c 5 / 192)
    (b6 : 0 < c 0 + c 1 / 2 + c 2 / 4 + c 3 / 8 + c 4 / 16 + c 5 / 32 + c 6 / 64) :
    0 < ∑ i, c i * y ^ (i : ℕ) := by
  have hu : 0 ≤ 1 - 2 * y := by linarith
  have e : ∑ i, c i * y ^ (i : ℕ) = c 0 * (1 - 2 * y) ^ 6 + (c 0 + c 1 / 12) * (6 * (2 * y) * (1 - 2 * y) ^ 5)
      + (c 0 + c 1 / 6 + c 2 / 60) * (15 * (2 * y) ^ 2 * (1 - 2 * y) ^ 4)
      + (c 0 + c 1 / 4 + c 2 / 20 + c 3 / 160) * (20 * (2 * y) ^ 3 * (1 - 2 * y) ^ 3)
      + (c 0 + c 1 / 3 + c 2 / 10 + c 3 / 40 + c 4 / 240) * (15 * (2 * y) ^ 4 * (1 - 2 * y) ^ 2)
      + (c 0 + 5 * c 1 / 12 + c 2 / 6 + c 3 / 16 + c 4 / 48 + c 5 / 192) * (6 * (2 * y) ^ 5 * (1 - 2 * y))
      + (c 0 + c 1 / 2 + c 2 / 4 + c 3 / 8 + c 4 / 16 + c 5 / 32 + c 6 / 64) * (2 * y) ^ 6 := by
    simp only [Fin.sum_univ_succ, Fin.sum_univ_zero, Fin.val_succ, Fin.val_zero]
    have s1 : Fin.succ (0 : Fin 6) = 1 := rfl
    have s2 : Fin.succ (Fin.succ (0 : Fin 5)) = 2 := rfl
    have s3 : Fin.succ (Fin.succ (Fin.succ (0 : Fin 4))) = 3 := rfl
    have s4 : Fin.succ (Fin.succ (Fin.succ (Fin.succ (0 : Fin 3)))) = 4 := rfl
    have s5 : Fin.succ (Fin.succ (Fin.succ (Fin.succ (Fin.succ (0 : Fin 2))))) = 5 := rfl
    have s6 : Fin.succ (Fin.succ (Fin.succ (Fin.succ (Fin.succ (Fin.succ (0 : Fin 1)))))) = 6 := rfl
    rw [s6, s5, s4, s3, s2, s1]
    ring
  rw [e]
  rcases hu.eq_or_lt with h | h
  · rw [← h]
    have : 0 < y := by linarith
    positivity
  · positivity

/-- The perturbation integral as a quadratic in `(m - 1) / m`, positive for at least four fifths of a segment. -/
theorem intForm_pos {a0 a1 a2 : Fin 7 → ℝ} {m eta : ℝ} (hm : 4 / 5 ≤ m)
    (h0 : 0 < ∑ i, (a0 i - a1 i / 4 + 3 / 8 * a2 i) * eta ^ (i : ℕ))
    (h1 : 0 < ∑ i, (a0 i + 3 / 8 * a1 i - 7 / 8 * a2 i) * eta ^ (i : ℕ))
    (h2 : 0 < ∑ i, (a0 i + a1 i + a2 i) * eta ^ (i : ℕ)) : 0 < intForm a0 a1 a2 m eta := by
  have hm0 : 0 < m := by linarith
  have ht : 0 ≤ 4 / 5 * ((m - 1) / m + 1 / 4) := by
    have : -(1 / 4) ≤ (m - 1) / m := by
      rw [le_div_iff₀ hm0]
      linarith
    linarith
  have ht' : 0 < 1 - 4 / 5 * ((m - 1) / m + 1 / 4) := by
    have : (m - 1) / m < 1 := by
      rw [div_lt_one hm0]
      linarith
    linarith
  have e2 : (m - 2) / m = 2 * ((m - 1) / m) - 1 := by field_simp; ring
  have e : intForm a0 a1 a2 m eta
      = (1 - 4 / 5 * ((m - 1) / m + 1 / 4)) ^ 2 * ∑ i, (a0 i - a1 i / 4 + 3 / 8 * a2 i) * eta ^ (i : ℕ)
      + 2 * (4 / 5 * ((m - 1) / m + 1 / 4)) * (1 - 4 / 5 * ((m - 1) / m + 1 / 4))
        * ∑ i, (a0 i + 3 / 8 * a1 i - 7 / 8 * a2 i) * eta ^ (i : ℕ)
      + (4 / 5 * ((m - 1) / m + 1 / 4)) ^ 2 * ∑ i, (a0 i + a1 i + a2 i) * eta ^ (i : ℕ) := by
    unfold intForm
    rw [e2]
    generalize (m - 1) / m = t
    simp only [Finset.mul_sum, ← Finset.sum_add_distrib]
    exact Finset.sum_congr rfl fun i _ => by ring
  rw [e]
  generalize 4 / 5 * ((m - 1) / m + 1 / 4) = t at *
  positivity

theorem int1_pos {m eta : ℝ} (hm : 4 / 5 ≤ m) (h0 : 0 ≤ eta) (h1 : eta ≤ 1 / 2) : 0 < intForm A0 A1 A2 m eta := by
  refine intForm_pos hm (poly6_pos h0 h1 ?_ ?_ ?_ ?_ ?_ ?_ ?_) (poly6_pos h0 h1 ?_ ?_ ?_ ?_ ?_ ?_ ?_)
    (poly6_pos h0 h1 ?_ ?_ ?_ ?_ ?_ ?_ ?_) <;> simp [A0, A1, A2] <;> norm_num

theorem int2_pos {m eta : ℝ} (hm : 4 / 5 ≤ m) (h0 : 0 ≤ eta) (h1 : eta ≤ 1 / 2) : 0 < intForm B0 B1 B2 m eta := by
  refine intForm_pos hm (poly6_pos h0 h1 ?_ ?_ ?_ ?_ ?_ ?_ ?_) (poly6_pos h0 h1 ?_ ?_ ?_ ?_ ?_ ?_ ?_)
    (poly6_pos h0 h1 ?_ ?_ ?_ ?_ ?_ ?_ ?_) <;> simp [B0, B1, B2] <;> norm_num

theorem c1_pos {m eta : ℝ} (hm0 : 0 < m) (h0 : 0 ≤ eta) (h1 : eta < 1) : 0 < c1Form m eta := by
  unfold c1Form
  rw [inv_pos]
  have hu : 0 < 1 - eta := by linarith
  have hv : 0 < 2 - eta := by linarith
  rcases le_total m 1 with hm | hm
  · have q1 : 0 ≤ 8 * eta - 2 * eta ^ 2 := by nlinarith
    have q2 : 0 ≤ 20 * eta - 27 * eta ^ 2 + 12 * eta ^ 3 - 2 * eta ^ 4 := by
      have : 0 ≤ eta * (1 - eta) * (20 - 7 * eta + 5 * eta ^ 2) :=
        mul_nonneg (mul_nonneg h0 hu.le) (by nlinarith)
      nlinarith [pow_nonneg h0 4, mul_nonneg (pow_nonneg h0 4) hu.le]
    have r1 : 0 ≤ m * (8 * eta - 2 * eta ^ 2) / (1 - eta) ^ 4 := by positivity
    have r2 : 0 ≤ (1 - m) * (20 * eta - 27 * eta ^ 2 + 12 * eta ^ 3 - 2 * eta ^ 4) / ((1 - eta) * (2 - eta)) ^ 2 :=
      div_nonneg (mul_nonneg (by linarith) q2) (by positivity)
    linarith
  have e : 1 + m * (8 * eta - 2 * eta ^ 2) / (1 - eta) ^ 4
      + (1 - m) * (20 * eta - 27 * eta ^ 2 + 12 * eta ^ 3 - 2 * eta ^ 4) / ((1 - eta) * (2 - eta)) ^ 2
      = 1 + (8 * eta - 2 * eta ^ 2) / (1 - eta) ^ 4 + (m - 1) * (eta * (12 + 27 * eta - 70 * eta ^ 2 + 51 * eta ^ 3
        - 16 * eta ^ 4 + 2 * eta ^ 5)) / ((1 - eta) ^ 4 * (2 - eta) ^ 2) := by
    field_simp
    ring
  rw [e]
  have p1 : 0 ≤ 8 * eta - 2 * eta ^ 2 := by nlinarith
  have p2 : 0 ≤ 12 + 27 * eta - 70 * eta ^ 2 + 51 * eta ^ 3 - 16 * eta ^ 4 + 2 * eta ^ 5 := by
    have : 0 ≤ eta ^ 5 := by positivity
    have h2 : 0 ≤ eta ^ 2 * (1 - eta) := by positivity
    have h3 : 0 ≤ eta ^ 3 * (1 - eta) := by positivity
    nlinarith [mul_nonneg h0 hu.le, mul_nonneg h0 (sq_nonneg (1 - eta))]
  have : 0 ≤ (m - 1) * (eta * (12 + 27 * eta - 70 * eta ^ 2 + 51 * eta ^ 3 - 16 * eta ^ 4 + 2 * eta ^ 5))
      / ((1 - eta) ^ 4 * (2 - eta) ^ 2) :=
    div_nonneg (mul_nonneg (by linarith) (mul_nonneg h0 p2)) (by positivity)
  have : 0 ≤ (8 * eta - 2 * eta ^ 2) / (1 - eta) ^ 4 := div_nonneg p1 (by positivity)
  linarith

end PcSaft
