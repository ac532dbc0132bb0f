import Verif.Lemmas.DispersionSign
import Mathlib.Analysis.SpecialFunctions.Log.Deriv
import Mathlib.Analysis.SpecialFunctions.ExpDeriv
import Mathlib.Analysis.Calculus.Deriv.Pow
import Mathlib.Analysis.Calculus.Deriv.Inv
import Mathlib.Analysis.Complex.ExponentialBounds

/-!
# The entropy of a pure fluid of chains

Bounds for the slopes of the perturbation integrals and the sign of `a + T ∂a/∂T` for the reduced Helmholtz energy `a` of a
pure fluid.
-/

namespace PcSaft

theorem sum6 (c : Fin 6 → ℝ) (y : ℝ) : ∑ i, c i * y ^ (i : ℕ)
    = c 0 + c 1 * y + c 2 * y ^ 2 + c 3 * y ^ 3 + c 4 * y ^ 4 + c 5 * y ^ 5 := by
  simp only [Fin.sum_univ_succ, Fin.sum_univ_zero, Fin.val_succ, Fin.val_zero]
  have s1 : Fin.succ (0 : Fin 5) = 1 := rfl
  have s2 : Fin.succ (Fin.succ (0 : Fin 4)) = 2 := rfl
  have s3 : Fin.succ (Fin.succ (Fin.succ (0 : Fin 3))) = 3 := rfl
  have s4 : Fin.succ (Fin.succ (Fin.succ (Fin.succ (0 : Fin 2)))) = 4 := rfl
  have s5 : Fin.succ (Fin.succ (Fin.succ (Fin.succ (Fin.succ (0 : Fin 1))))) = 5 := rfl
  rw [s5, s4, s3, s2, s1]
  ring

/-- lower bound of a polynomial of degree five by its Bernstein coefficients on `[0, 3 / 20]` -/
theorem poly5_low {c : Fin 6 → ℝ} {y L : ℝ} (hy : 0 ≤ y) (hy' : y ≤ 3 / 20)
    (b0 : L ≤ c 0)
    (b1 : L ≤ c 0 + 3 / 100 * c 1)
    (b2 : L ≤ c 0 + 3 / 50 * c 1 + 9 / 4000 * c 2)
    (b3 : L ≤ c 0 + 9 / 100 * c 1 + 27 / 4000 * c 2 + 27 / 80000 * c 3)
    (b4 : L ≤ c 0 + 3 / 25 * c 1 + 27 / 2000 * c 2 + 27 / 20000 * c 3 + 81 / 800000 * c 4)
    (b5 : L ≤ c 0 + 3 / 20 * c 1 + 9 / 400 * c 2 + 27 / 8000 * c 3 + 81 / 160000 * c 4 + 243 / 3200000 * c 5) :
    L ≤ ∑ i, c i * y ^ (i : ℕ) := by
  have hu : 0 ≤ y := by linarith
  have hv : 0 ≤ (3 / 20 - y) := by linarith
  have e : ∑ i, c i * y ^ (i : ℕ) - L = (c 0 - L) * (3200000 / 243 * y ^ 0 * (3 / 20 - y) ^ 5)
      + (c 0 + 3 / 100 * c 1 - L) * (16000000 / 243 * y ^ 1 * (3 / 20 - y) ^ 4)
      + (c 0 + 3 / 50 * c 1 + 9 / 4000 * c 2 - L) * (32000000 / 243 * y ^ 2 * (3 / 20 - y) ^ 3)
      + (c 0 + 9 / 100 * c 1 + 27 / 4000 * c 2 + 27 / 80000 * c 3 - L) * (32000000 / 243 * y ^ 3 * (3 / 20 - y) ^ 2)
      + (c 0 + 3 / 25 * c 1 + 27 / 2000 * c 2 + 27 / 20000 * c 3 + 81 / 800000 * c 4 - L) * (16000000 / 243 * y ^ 4 * (3 / 20 - y) ^ 1)
      + (c 0 + 3 / 20 * c 1 + 9 / 400 * c 2 + 27 / 8000 * c 3 + 81 / 160000 * c 4 + 243 / 3200000 * c 5 - L) * (3200000 / 243 * y ^ 5 * (3 / 20 - y) ^ 0) := by
    rw [sum6]
    ring
  have p0 := mul_nonneg (sub_nonneg.2 b0) (show 0 ≤ (3200000 / 243 * y ^ 0 * (3 / 20 - y) ^ 5) by positivity)
  have p1 := mul_nonneg (sub_nonneg.2 b1) (show 0 ≤ (16000000 / 243 * y ^ 1 * (3 / 20 - y) ^ 4) by positivity)
  have p2 := mul_nonneg (sub_nonneg.2 b2) (show 0 ≤ (32000000 / 243 * y ^ 2 * (3 / 20 - y) ^ 3) by positivity)
  have p3 := mul_nonneg (sub_nonneg.2 b3) (show 0 ≤ (32000000 / 243 * y ^ 3 * (3 / 20 - y) ^ 2) by positivity)
  have p4 := mul_nonneg (sub_nonneg.2 b4) (show 0 ≤ (16000000 / 243 * y ^ 4 * (3 / 20 - y) ^ 1) by positivity)
  have p5 := mul_nonneg (sub_nonneg.2 b5) (show 0 ≤ (3200000 / 243 * y ^ 5 * (3 / 20 - y) ^ 0) by positivity)
  have h := add_nonneg (add_nonneg (add_nonneg (add_nonneg (add_nonneg p0 p1) p2) p3) p4) p5
  rw [← e] at h
  linarith

/-- lower bound of a polynomial of degree five by its Bernstein coefficients on `[3 / 20, 3 / 10]` -/
theorem poly5_mid {c : Fin 6 → ℝ} {y L : ℝ} (hy : 3 / 20 ≤ y) (hy' : y ≤ 3 / 10)
    (b0 : L ≤ c 0 + 3 / 20 * c 1 + 9 / 400 * c 2 + 27 / 8000 * c 3 + 81 / 160000 * c 4 + 243 / 3200000 * c 5)
    (b1 : L ≤ c 0 + 9 / 50 * c 1 + 63 / 2000 * c 2 + 27 / 5000 * c 3 + 729 / 800000 * c 4 + 243 / 1600000 * c 5)
    (b2 : L ≤ c 0 + 21 / 100 * c 1 + 171 / 4000 * c 2 + 27 / 3200 * c 3 + 81 / 50000 * c 4 + 243 / 800000 * c 5)
    (b3 : L ≤ c 0 + 6 / 25 * c 1 + 9 / 160 * c 2 + 513 / 40000 * c 3 + 567 / 200000 * c 4 + 243 / 400000 * c 5)
    (b4 : L ≤ c 0 + 27 / 100 * c 1 + 9 / 125 * c 2 + 189 / 10000 * c 3 + 243 / 50000 * c 4 + 243 / 200000 * c 5)
    (b5 : L ≤ c 0 + 3 / 10 * c 1 + 9 / 100 * c 2 + 27 / 1000 * c 3 + 81 / 10000 * c 4 + 243 / 100000 * c 5) :
    L ≤ ∑ i, c i * y ^ (i : ℕ) := by
  have hu : 0 ≤ (y - 3 / 20) := by linarith
  have hv : 0 ≤ (3 / 10 - y) := by linarith
  have e : ∑ i, c i * y ^ (i : ℕ) - L = (c 0 + 3 / 20 * c 1 + 9 / 400 * c 2 + 27 / 8000 * c 3 + 81 / 160000 * c 4 + 243 / 3200000 * c 5 - L) * (3200000 / 243 * (y - 3 / 20) ^ 0 * (3 / 10 - y) ^ 5)
      + (c 0 + 9 / 50 * c 1 + 63 / 2000 * c 2 + 27 / 5000 * c 3 + 729 / 800000 * c 4 + 243 / 1600000 * c 5 - L) * (16000000 / 243 * (y - 3 / 20) ^ 1 * (3 / 10 - y) ^ 4)
      + (c 0 + 21 / 100 * c 1 + 171 / 4000 * c 2 + 27 / 3200 * c 3 + 81 / 50000 * c 4 + 243 / 800000 * c 5 - L) * (32000000 / 243 * (y - 3 / 20) ^ 2 * (3 / 10 - y) ^ 3)
      + (c 0 + 6 / 25 * c 1 + 9 / 160 * c 2 + 513 / 40000 * c 3 + 567 / 200000 * c 4 + 243 / 400000 * c 5 - L) * (32000000 / 243 * (y - 3 / 20) ^ 3 * (3 / 10 - y) ^ 2)
      + (c 0 + 27 / 100 * c 1 + 9 / 125 * c 2 + 189 / 10000 * c 3 + 243 / 50000 * c 4 + 243 / 200000 * c 5 - L) * (16000000 / 243 * (y - 3 / 20) ^ 4 * (3 / 10 - y) ^ 1)
      + (c 0 + 3 / 10 * c 1 + 9 / 100 * c 2 + 27 / 1000 * c 3 + 81 / 10000 * c 4 + 243 / 100000 * c 5 - L) * (3200000 / 243 * (y - 3 / 20) ^ 5 * (3 / 10 - y) ^ 0) := by
    rw [sum6]
    ring
  have p0 := mul_nonneg (sub_nonneg.2 b0) (show 0 ≤ (3200000 / 243 * (y - 3 / 20) ^ 0 * (3 / 10 - y) ^ 5) by positivity)
  have p1 := mul_nonneg (sub_nonneg.2 b1) (show 0 ≤ (16000000 / 243 * (y - 3 / 20) ^ 1 * (3 / 10 - y) ^ 4) by positivity)
  have p2 := mul_nonneg (sub_nonneg.2 b2) (show 0 ≤ (32000000 / 243 * (y - 3 / 20) ^ 2 * (3 / 10 - y) ^ 3) by positivity)
  have p3 := mul_nonneg (sub_nonneg.2 b3) (show 0 ≤ (32000000 / 243 * (y - 3 / 20) ^ 3 * (3 / 10 - y) ^ 2) by positivity)
  have p4 := mul_nonneg (sub_nonneg.2 b4) (show 0 ≤ (16000000 / 243 * (y - 3 / 20) ^ 4 * (3 / 10 - y) ^ 1) by positivity)
  have p5 := mul_nonneg (sub_nonneg.2 b5) (show 0 ≤ (3200000 / 243 * (y - 3 / 20) ^ 5 * (3 / 10 - y) ^ 0) by positivity)
  have h := add_nonneg (add_nonneg (add_nonneg (add_nonneg (add_nonneg p0 p1) p2) p3) p4) p5
  rw [← e] at h
  linarith

/-- lower bound of a polynomial of degree five by its Bernstein coefficients on `[3 / 10, 1 / 2]` -/
theorem poly5_high {c : Fin 6 → ℝ} {y L : ℝ} (hy : 3 / 10 ≤ y) (hy' : y ≤ 1 / 2)
    (b0 : L ≤ c 0 + 3 / 10 * c 1 + 9 / 100 * c 2 + 27 / 1000 * c 3 + 81 / 10000 * c 4 + 243 / 100000 * c 5)
    (b1 : L ≤ c 0 + 17 / 50 * c 1 + 57 / 500 * c 2 + 189 / 5000 * c 3 + 621 / 50000 * c 4 + 81 / 20000 * c 5)
    (b2 : L ≤ c 0 + 19 / 50 * c 1 + 71 / 500 * c 2 + 261 / 5000 * c 3 + 189 / 10000 * c 4 + 27 / 4000 * c 5)
    (b3 : L ≤ c 0 + 21 / 50 * c 1 + 87 / 500 * c 2 + 71 / 1000 * c 3 + 57 / 2000 * c 4 + 9 / 800 * c 5)
    (b4 : L ≤ c 0 + 23 / 50 * c 1 + 21 / 100 * c 2 + 19 / 200 * c 3 + 17 / 400 * c 4 + 3 / 160 * c 5)
    (b5 : L ≤ c 0 + 1 / 2 * c 1 + 1 / 4 * c 2 + 1 / 8 * c 3 + 1 / 16 * c 4 + 1 / 32 * c 5) :
    L ≤ ∑ i, c i * y ^ (i : ℕ) := by
  have hu : 0 ≤ (y - 3 / 10) := by linarith
  have hv : 0 ≤ (1 / 2 - y) := by linarith
  have e : ∑ i, c i * y ^ (i : ℕ) - L = (c 0 + 3 / 10 * c 1 + 9 / 100 * c 2 + 27 / 1000 * c 3 + 81 / 10000 * c 4 + 243 / 100000 * c 5 - L) * (3125 * (y - 3 / 10) ^ 0 * (1 / 2 - y) ^ 5)
      + (c 0 + 17 / 50 * c 1 + 57 / 500 * c 2 + 189 / 5000 * c 3 + 621 / 50000 * c 4 + 81 / 20000 * c 5 - L) * (15625 * (y - 3 / 10) ^ 1 * (1 / 2 - y) ^ 4)
      + (c 0 + 19 / 50 * c 1 + 71 / 500 * c 2 + 261 / 5000 * c 3 + 189 / 10000 * c 4 + 27 / 4000 * c 5 - L) * (31250 * (y - 3 / 10) ^ 2 * (1 / 2 - y) ^ 3)
      + (c 0 + 21 / 50 * c 1 + 87 / 500 * c 2 + 71 / 1000 * c 3 + 57 / 2000 * c 4 + 9 / 800 * c 5 - L) * (31250 * (y - 3 / 10) ^ 3 * (1 / 2 - y) ^ 2)
      + (c 0 + 23 / 50 * c 1 + 21 / 100 * c 2 + 19 / 200 * c 3 + 17 / 400 * c 4 + 3 / 160 * c 5 - L) * (15625 * (y - 3 / 10) ^ 4 * (1 / 2 - y) ^ 1)
      + (c 0 + 1 / 2 * c 1 + 1 / 4 * c 2 + 1 / 8 * c 3 + 1 / 16 * c 4 + 1 / 32 * c 5 - L) * (3125 * (y - 3 / 10) ^ 5 * (1 / 2 - y) ^ 0) := by
    rw [sum6]
    ring
  have p0 := mul_nonneg (sub_nonneg.2 b0) (show 0 ≤ (3125 * (y - 3 / 10) ^ 0 * (1 / 2 - y) ^ 5) by positivity)
  have p1 := mul_nonneg (sub_nonneg.2 b1) (show 0 ≤ (15625 * (y - 3 / 10) ^ 1 * (1 / 2 - y) ^ 4) by positivity)
  have p2 := mul_nonneg (sub_nonneg.2 b2) (show 0 ≤ (31250 * (y - 3 / 10) ^ 2 * (1 / 2 - y) ^ 3) by positivity)
  have p3 := mul_nonneg (sub_nonneg.2 b3) (show 0 ≤ (31250 * (y - 3 / 10) ^ 3 * (1 / 2 - y) ^ 2) by positivity)
  have p4 := mul_nonneg (sub_nonneg.2 b4) (show 0 ≤ (15625 * (y - 3 / 10) ^ 4 * (1 / 2 - y) ^ 1) by positivity)
  have p5 := mul_nonneg (sub_nonneg.2 b5) (show 0 ≤ (3125 * (y - 3 / 10) ^ 5 * (1 / 2 - y) ^ 0) by positivity)
  have h := add_nonneg (add_nonneg (add_nonneg (add_nonneg (add_nonneg p0 p1) p2) p3) p4) p5
  rw [← e] at h
  linarith

/-- lower bound of a polynomial of degree five by its Bernstein coefficients on `[0, 1 / 2]` -/
theorem poly5_all {c : Fin 6 → ℝ} {y L : ℝ} (hy : 0 ≤ y) (hy' : y ≤ 1 / 2)
    (b0 : L ≤ c 0)
    (b1 : L ≤ c 0 + 1 / 10 * c 1)
    (b2 : L ≤ c 0 + 1 / 5 * c 1 + 1 / 40 * c 2)
    (b3 : L ≤ c 0 + 3 / 10 * c 1 + 3 / 40 * c 2 + 1 / 80 * c 3)
    (b4 : L ≤ c 0 + 2 / 5 * c 1 + 3 / 20 * c 2 + 1 / 20 * c 3 + 1 / 80 * c 4)
    (b5 : L ≤ c 0 + 1 / 2 * c 1 + 1 / 4 * c 2 + 1 / 8 * c 3 + 1 / 16 * c 4 + 1 / 32 * c 5) :
    L ≤ ∑ i, c i * y ^ (i : ℕ) := by
  have hu : 0 ≤ y := by linarith
  have hv : 0 ≤ (1 / 2 - y) := by linarith
  have e : ∑ i, c i * y ^ (i : ℕ) - L = (c 0 - L) * (32 * y ^ 0 * (1 / 2 - y) ^ 5)
      + (c 0 + 1 / 10 * c 1 - L) * (160 * y ^ 1 * (1 / 2 - y) ^ 4)
      + (c 0 + 1 / 5 * c 1 + 1 / 40 * c 2 - L) * (320 * y ^ 2 * (1 / 2 - y) ^ 3)
      + (c 0 + 3 / 10 * c 1 + 3 / 40 * c 2 + 1 / 80 * c 3 - L) * (320 * y ^ 3 * (1 / 2 - y) ^ 2)
      + (c 0 + 2 / 5 * c 1 + 3 / 20 * c 2 + 1 / 20 * c 3 + 1 / 80 * c 4 - L) * (160 * y ^ 4 * (1 / 2 - y) ^ 1)
      + (c 0 + 1 / 2 * c 1 + 1 / 4 * c 2 + 1 / 8 * c 3 + 1 / 16 * c 4 + 1 / 32 * c 5 - L) * (32 * y ^ 5 * (1 / 2 - y) ^ 0) := by
    rw [sum6]
    ring
  have p0 := mul_nonneg (sub_nonneg.2 b0) (show 0 ≤ (32 * y ^ 0 * (1 / 2 - y) ^ 5) by positivity)
  have p1 := mul_nonneg (sub_nonneg.2 b1) (show 0 ≤ (160 * y ^ 1 * (1 / 2 - y) ^ 4) by positivity)
  have p2 := mul_nonneg (sub_nonneg.2 b2) (show 0 ≤ (320 * y ^ 2 * (1 / 2 - y) ^ 3) by positivity)
  have p3 := mul_nonneg (sub_nonneg.2 b3) (show 0 ≤ (320 * y ^ 3 * (1 / 2 - y) ^ 2) by positivity)
  have p4 := mul_nonneg (sub_nonneg.2 b4) (show 0 ≤ (160 * y ^ 4 * (1 / 2 - y) ^ 1) by positivity)
  have p5 := mul_nonneg (sub_nonneg.2 b5) (show 0 ≤ (32 * y ^ 5 * (1 / 2 - y) ^ 0) by positivity)
  have h := add_nonneg (add_nonneg (add_nonneg (add_nonneg (add_nonneg p0 p1) p2) p3) p4) p5
  rw [← e] at h
  linarith

/-! ## Slopes of the perturbation integrals -/

/-- slope of a perturbation integral -/
noncomputable def intSlope (a0 a1 a2 : Fin 7 → ℝ) (m eta : ℝ) : ℝ :=
  ∑ i : Fin 6, ((i : ℝ) + 1) * ((m - 1) / m * ((m - 2) / m * a2 i.succ + a1 i.succ) + a0 i.succ) * eta ^ (i : ℕ)

theorem hasDerivAt_int (a0 a1 a2 : Fin 7 → ℝ) (m eta : ℝ) :
    HasDerivAt (intForm a0 a1 a2 m) (intSlope a0 a1 a2 m eta) eta := by
  have e : intForm a0 a1 a2 m = fun x => ((m - 1) / m * ((m - 2) / m * a2 0 + a1 0) + a0 0)
      + ∑ i : Fin 6, ((m - 1) / m * ((m - 2) / m * a2 i.succ + a1 i.succ) + a0 i.succ) * x ^ ((i : ℕ) + 1) := by
    funext x
    rw [intForm, Fin.sum_univ_succ]
    simp
  rw [e]
  have h : ∀ i : Fin 6, HasDerivAt (fun x => ((m - 1) / m * ((m - 2) / m * a2 i.succ + a1 i.succ) + a0 i.succ) * x ^ ((i : ℕ) + 1))
      (((m - 1) / m * ((m - 2) / m * a2 i.succ + a1 i.succ) + a0 i.succ) * (((i : ℕ) + 1 : ℕ) * eta ^ ((i : ℕ) + 1 - 1))) eta :=
    fun i => (hasDerivAt_pow ((i : ℕ) + 1) eta).const_mul _
  refine ((HasDerivAt.fun_sum (u := Finset.univ) fun i _ => h i).const_add _).congr_deriv ?_
  unfold intSlope
  refine Finset.sum_congr rfl fun i _ => ?_
  push_cast
  ring

/-- the slope as a quadratic in the inverse number of segments -/
theorem intSlope_eq (a0 a1 a2 : Fin 7 → ℝ) {m : ℝ} (hm : 0 < m) (eta : ℝ) : intSlope a0 a1 a2 m eta
    = (4 / (5 * m)) ^ 2 * (∑ i : Fin 6, ((i : ℝ) + 1) * (a0 i.succ - a1 i.succ / 4 + 3 / 8 * a2 i.succ) * eta ^ (i : ℕ))
      + 2 * (1 - 4 / (5 * m)) * (4 / (5 * m))
        * (∑ i : Fin 6, ((i : ℝ) + 1) * (a0 i.succ + 3 / 8 * a1 i.succ - 7 / 8 * a2 i.succ) * eta ^ (i : ℕ))
      + (1 - 4 / (5 * m)) ^ 2 * ∑ i : Fin 6, ((i : ℝ) + 1) * (a0 i.succ + a1 i.succ + a2 i.succ) * eta ^ (i : ℕ) := by
  have e1 : (m - 1) / m = 1 - 5 / 4 * (4 / (5 * m)) := by field_simp
  have e2 : (m - 2) / m = 1 - 5 / 2 * (4 / (5 * m)) := by field_simp; ring
  unfold intSlope
  rw [e1, e2]
  generalize 4 / (5 * m) = t
  simp only [Finset.mul_sum, ← Finset.sum_add_distrib]
  exact Finset.sum_congr rfl fun i _ => by ring

theorem int1_slope {m eta : ℝ} (hm : 4 / 5 ≤ m) (h0 : 0 ≤ eta) (h1 : eta ≤ 1 / 2) : -0.54 ≤ intSlope A0 A1 A2 m eta := by
  have hm0 : 0 < m := by linarith
  have ht : 4 / (5 * m) ≤ 1 := by rw [div_le_one (by positivity)]; linarith
  have ht0 : 0 ≤ 4 / (5 * m) := by positivity
  rw [intSlope_eq _ _ _ hm0]
  have b0 : -0.54 ≤ ∑ i : Fin 6, ((i : ℝ) + 1) * (A0 i.succ - A1 i.succ / 4 + 3 / 8 * A2 i.succ) * eta ^ (i : ℕ) := by
    refine poly5_all h0 h1 ?_ ?_ ?_ ?_ ?_ ?_ <;> simp [A0, A1, A2] <;> norm_num
  have b1 : -0.54 ≤ ∑ i : Fin 6, ((i : ℝ) + 1) * (A0 i.succ + 3 / 8 * A1 i.succ - 7 / 8 * A2 i.succ) * eta ^ (i : ℕ) := by
    refine poly5_all h0 h1 ?_ ?_ ?_ ?_ ?_ ?_ <;> simp [A0, A1, A2] <;> norm_num
  have b2 : -0.54 ≤ ∑ i : Fin 6, ((i : ℝ) + 1) * (A0 i.succ + A1 i.succ + A2 i.succ) * eta ^ (i : ℕ) := by
    refine poly5_all h0 h1 ?_ ?_ ?_ ?_ ?_ ?_ <;> simp [A0, A1, A2] <;> norm_num
  generalize 4 / (5 * m) = t at *
  have c0 := mul_le_mul_of_nonneg_left b0 (sq_nonneg t)
  have c1 := mul_le_mul_of_nonneg_left b1 (show 0 ≤ 2 * (1 - t) * t from mul_nonneg (by linarith) ht0)
  have c2 := mul_le_mul_of_nonneg_left b2 (sq_nonneg (1 - t))
  have : t ^ 2 * -0.54 + 2 * (1 - t) * t * -0.54 + (1 - t) ^ 2 * -0.54 = (-0.54 : ℝ) := by ring
  linarith

theorem int2_slope_low {m eta : ℝ} (hm : 4 / 5 ≤ m) (h0 : 0 ≤ eta) (h1 : eta ≤ 3 / 10) :
    -2.8 * (4 / (5 * m)) ^ 2 ≤ intSlope B0 B1 B2 m eta := by
  have hm0 : 0 < m := by linarith
  have ht : 4 / (5 * m) ≤ 1 := by rw [div_le_one (by positivity)]; linarith
  have ht0 : 0 ≤ 4 / (5 * m) := by positivity
  rw [intSlope_eq _ _ _ hm0]
  have b0 : -2.8 ≤ ∑ i : Fin 6, ((i : ℝ) + 1) * (B0 i.succ - B1 i.succ / 4 + 3 / 8 * B2 i.succ) * eta ^ (i : ℕ) := by
    rcases le_total eta (3 / 20) with h | h
    · refine poly5_low h0 h ?_ ?_ ?_ ?_ ?_ ?_ <;> simp [B0, B1, B2] <;> norm_num
    · refine poly5_mid h h1 ?_ ?_ ?_ ?_ ?_ ?_ <;> simp [B0, B1, B2] <;> norm_num
  have b1 : 0 ≤ ∑ i : Fin 6, ((i : ℝ) + 1) * (B0 i.succ + 3 / 8 * B1 i.succ - 7 / 8 * B2 i.succ) * eta ^ (i : ℕ) := by
    rcases le_total eta (3 / 20) with h | h
    · refine poly5_low h0 h ?_ ?_ ?_ ?_ ?_ ?_ <;> simp [B0, B1, B2] <;> norm_num
    · refine poly5_mid h h1 ?_ ?_ ?_ ?_ ?_ ?_ <;> simp [B0, B1, B2] <;> norm_num
  have b2 : 0 ≤ ∑ i : Fin 6, ((i : ℝ) + 1) * (B0 i.succ + B1 i.succ + B2 i.succ) * eta ^ (i : ℕ) := by
    rcases le_total eta (3 / 20) with h | h
    · refine poly5_low h0 h ?_ ?_ ?_ ?_ ?_ ?_ <;> simp [B0, B1, B2] <;> norm_num
    · refine poly5_mid h h1 ?_ ?_ ?_ ?_ ?_ ?_ <;> simp [B0, B1, B2] <;> norm_num
  generalize 4 / (5 * m) = t at *
  have c0 := mul_le_mul_of_nonneg_left b0 (sq_nonneg t)
  have c1 := mul_nonneg (show 0 ≤ 2 * (1 - t) * t from mul_nonneg (by linarith) ht0) b1
  have c2 := mul_nonneg (sq_nonneg (1 - t)) b2
  linarith

theorem int2_slope_high {m eta : ℝ} (hm : 4 / 5 ≤ m) (h0 : 3 / 10 ≤ eta) (h1 : eta ≤ 1 / 2) :
    -13 ≤ intSlope B0 B1 B2 m eta := by
  have hm0 : 0 < m := by linarith
  have ht : 4 / (5 * m) ≤ 1 := by rw [div_le_one (by positivity)]; linarith
  have ht0 : 0 ≤ 4 / (5 * m) := by positivity
  rw [intSlope_eq _ _ _ hm0]
  have b0 : -13 ≤ ∑ i : Fin 6, ((i : ℝ) + 1) * (B0 i.succ - B1 i.succ / 4 + 3 / 8 * B2 i.succ) * eta ^ (i : ℕ) := by
    refine poly5_high h0 h1 ?_ ?_ ?_ ?_ ?_ ?_ <;> simp [B0, B1, B2] <;> norm_num
  have b1 : -13 ≤ ∑ i : Fin 6, ((i : ℝ) + 1) * (B0 i.succ + 3 / 8 * B1 i.succ - 7 / 8 * B2 i.succ) * eta ^ (i : ℕ) := by
    refine poly5_high h0 h1 ?_ ?_ ?_ ?_ ?_ ?_ <;> simp [B0, B1, B2] <;> norm_num
  have b2 : -13 ≤ ∑ i : Fin 6, ((i : ℝ) + 1) * (B0 i.succ + B1 i.succ + B2 i.succ) * eta ^ (i : ℕ) := by
    refine poly5_high h0 h1 ?_ ?_ ?_ ?_ ?_ ?_ <;> simp [B0, B1, B2] <;> norm_num
  generalize 4 / (5 * m) = t at *
  have c0 := mul_le_mul_of_nonneg_left b0 (sq_nonneg t)
  have c1 := mul_le_mul_of_nonneg_left b1 (show 0 ≤ 2 * (1 - t) * t from mul_nonneg (by linarith) ht0)
  have c2 := mul_le_mul_of_nonneg_left b2 (sq_nonneg (1 - t))
  have : t ^ 2 * -13 + 2 * (1 - t) * t * -13 + (1 - t) ^ 2 * -13 = (-13 : ℝ) := by ring
  linarith

/-! ## The compressibility term -/

/-- inverse of the compressibility term -/
noncomputable def c1Inv (m x : ℝ) : ℝ :=
  1 + m * ((8 * x - 2 * x ^ 2) / (1 - x) ^ 4)
    + (1 - m) * ((20 * x - 27 * x ^ 2 + 12 * x ^ 3 - 2 * x ^ 4) / ((1 - x) * (2 - x)) ^ 2)

theorem c1Form_eq_inv (m x : ℝ) : c1Form m x = (c1Inv m x)⁻¹ := by
  rw [c1Form, c1Inv, mul_div_assoc, mul_div_assoc]

/-- slope of the inverse of the compressibility term -/
noncomputable def c1InvSlope (m x : ℝ) : ℝ :=
  m * ((8 + 20 * x - 4 * x ^ 2) / (1 - x) ^ 5)
    + (1 - m) * ((40 - 48 * x + 12 * x ^ 2 + 2 * x ^ 3) / ((1 - x) * (2 - x)) ^ 3)

theorem hasDerivAt_c1Inv {m x : ℝ} (h : x < 1) : HasDerivAt (c1Inv m) (c1InvSlope m x) x := by
  have a : 1 - x ≠ 0 := by linarith
  have b : 2 - x ≠ 0 := by linarith
  have d1 : HasDerivAt (fun x : ℝ => 1 - x) (-1) x := (hasDerivAt_id x).const_sub 1
  have d2 : HasDerivAt (fun x : ℝ => 2 - x) (-1) x := (hasDerivAt_id x).const_sub 2
  have dp : ∀ n : ℕ, HasDerivAt (fun x : ℝ => x ^ n) (n * x ^ (n - 1)) x := fun n => hasDerivAt_pow n x
  have n1 : HasDerivAt (fun x : ℝ => 8 * x - 2 * x ^ 2) (8 - 4 * x) x := by
    refine (((hasDerivAt_id x).const_mul 8).sub ((dp 2).const_mul 2)).congr_deriv ?_
    norm_num
    ring
  have n2 : HasDerivAt (fun x : ℝ => 20 * x - 27 * x ^ 2 + 12 * x ^ 3 - 2 * x ^ 4)
      (20 - 54 * x + 36 * x ^ 2 - 8 * x ^ 3) x := by
    refine (((((hasDerivAt_id x).const_mul 20).sub ((dp 2).const_mul 27)).add ((dp 3).const_mul 12)).sub
      ((dp 4).const_mul 2)).congr_deriv ?_
    norm_num
    ring
  have q1 := n1.div (d1.pow 4) (pow_ne_zero 4 a)
  have q2 := n2.div ((d1.mul d2).pow 2) (pow_ne_zero 2 (mul_ne_zero a b))
  refine (((q1.const_mul m).const_add 1).add (q2.const_mul (1 - m))).congr_deriv ?_
  unfold c1InvSlope
  congr 2
  · simp only [Pi.pow_apply]
    norm_num only [Nat.cast_ofNat, Nat.reduceSub]
    field_simp
    ring
  · simp only [Pi.pow_apply, Pi.mul_apply]
    norm_num only [Nat.cast_ofNat, Nat.reduceSub, pow_one]
    field_simp
    ring

/-- the part of the inverse compressibility term that grows with chain length -/
theorem c1Inv_split {m x : ℝ} (h : x < 1) : c1Inv m x = 1 + (8 * x - 2 * x ^ 2) / (1 - x) ^ 4 + (m - 1)
    * (x * (12 + 27 * x - 70 * x ^ 2 + 51 * x ^ 3 - 16 * x ^ 4 + 2 * x ^ 5) / ((1 - x) ^ 4 * (2 - x) ^ 2)) := by
  have a : 1 - x ≠ 0 := by linarith
  have b : 2 - x ≠ 0 := by linarith
  unfold c1Inv
  field_simp
  ring

theorem one_le_c1Inv {m x : ℝ} (hm : 4 / 5 ≤ m) (h0 : 0 ≤ x) (h1 : x ≤ 1 / 2) : 1 ≤ c1Inv m x := by
  rw [c1Inv_split (by linarith)]
  have a : 0 < 1 - x := by linarith
  have b : 0 < 2 - x := by linarith
  have e : (8 * x - 2 * x ^ 2) / (1 - x) ^ 4 + (m - 1)
      * (x * (12 + 27 * x - 70 * x ^ 2 + 51 * x ^ 3 - 16 * x ^ 4 + 2 * x ^ 5) / ((1 - x) ^ 4 * (2 - x) ^ 2))
      = x * ((8 - 2 * x) * (2 - x) ^ 2 + (m - 1) * (12 + 27 * x - 70 * x ^ 2 + 51 * x ^ 3 - 16 * x ^ 4 + 2 * x ^ 5))
        / ((1 - x) ^ 4 * (2 - x) ^ 2) := by
    field_simp
  have p2 : 0 ≤ 12 + 27 * x - 70 * x ^ 2 + 51 * x ^ 3 - 16 * x ^ 4 + 2 * x ^ 5 := by
    have : 0 ≤ x ^ 5 := by positivity
    have h2 : 0 ≤ x ^ 2 * (1 - x) := by positivity
    have h3 : 0 ≤ x ^ 3 * (1 - x) := by positivity
    nlinarith [mul_nonneg h0 a.le, mul_nonneg h0 (sq_nonneg (1 - x))]
  have p3 : 12 + 27 * x - 70 * x ^ 2 + 51 * x ^ 3 - 16 * x ^ 4 + 2 * x ^ 5 ≤ 5 * ((8 - 2 * x) * (2 - x) ^ 2) := by
    nlinarith [mul_nonneg h0 (sub_nonneg.2 h1), pow_nonneg h0 2, pow_nonneg h0 3, pow_nonneg h0 4,
      mul_nonneg (pow_nonneg h0 2) (sub_nonneg.2 h1), mul_nonneg (pow_nonneg h0 3) (sub_nonneg.2 h1),
      mul_nonneg (pow_nonneg h0 4) (sub_nonneg.2 h1)]
  have : 0 ≤ x * ((8 - 2 * x) * (2 - x) ^ 2 + (m - 1) * (12 + 27 * x - 70 * x ^ 2 + 51 * x ^ 3 - 16 * x ^ 4 + 2 * x ^ 5))
        / ((1 - x) ^ 4 * (2 - x) ^ 2) := by
    refine div_nonneg (mul_nonneg h0 ?_) (by positivity)
    nlinarith
  rw [← e] at this
  linarith

theorem c1Inv_dense {m x : ℝ} (hm : 0 < m) (h0 : 3 / 10 ≤ x) (h1 : x ≤ 1 / 2) : 25 / 4 * m ≤ c1Inv m x := by
  have a : 0 < 1 - x := by linarith
  have b : 0 < 2 - x := by linarith
  have x0 : 0 ≤ x := by linarith
  have hx : 0 ≤ x - 3 / 10 := by linarith
  have hx' : 0 ≤ 1 / 2 - x := by linarith
  have h : 25 / 4 ≤ x * (12 + 27 * x - 70 * x ^ 2 + 51 * x ^ 3 - 16 * x ^ 4 + 2 * x ^ 5) / ((1 - x) ^ 4 * (2 - x) ^ 2) := by
    rw [le_div_iff₀ (by positivity)]
    obtain ⟨y, rfl⟩ : ∃ y, x = 3 / 10 + y := ⟨x - 3 / 10, by ring⟩
    have hy : 0 ≤ y := by linarith
    have hy' : y ≤ 1 / 5 := by linarith
    nlinarith [pow_nonneg hy 2, pow_nonneg hy 3, pow_nonneg hy 4, pow_nonneg hy 5, pow_nonneg hy 6,
      mul_nonneg hy (sub_nonneg.2 hy'), mul_nonneg (pow_nonneg hy 2) (sub_nonneg.2 hy'),
      mul_nonneg (pow_nonneg hy 3) (sub_nonneg.2 hy'), mul_nonneg (pow_nonneg hy 4) (sub_nonneg.2 hy'),
      mul_nonneg (pow_nonneg hy 5) (sub_nonneg.2 hy')]
  have q2 : 0 ≤ (20 * x - 27 * x ^ 2 + 12 * x ^ 3 - 2 * x ^ 4) / ((1 - x) * (2 - x)) ^ 2 := by
    refine div_nonneg ?_ (by positivity)
    have : 0 ≤ x * (1 - x) * (20 - 7 * x + 5 * x ^ 2) := mul_nonneg (mul_nonneg x0 a.le) (by nlinarith)
    nlinarith [pow_nonneg x0 4, mul_nonneg (pow_nonneg x0 4) a.le]
  have e : c1Inv m x = 1 + (20 * x - 27 * x ^ 2 + 12 * x ^ 3 - 2 * x ^ 4) / ((1 - x) * (2 - x)) ^ 2
      + m * (x * (12 + 27 * x - 70 * x ^ 2 + 51 * x ^ 3 - 16 * x ^ 4 + 2 * x ^ 5) / ((1 - x) ^ 4 * (2 - x) ^ 2)) := by
    have a' := a.ne'
    have b' := b.ne'
    unfold c1Inv
    field_simp
    ring
  rw [e]
  nlinarith

theorem c1Inv_slope_le {m x w : ℝ} (hm : 4 / 5 ≤ m) (h0 : 0 ≤ x) (h1 : x ≤ 1 / 2) (hw : w ≤ 0.151) :
    w * x * c1InvSlope m x ≤ c1Inv m x := by
  have a : 0 < 1 - x := by linarith
  have b : 0 < 2 - x := by linarith
  have hx' : 0 ≤ 1 / 2 - x := by linarith
  have a' := a.ne'
  have b' := b.ne'
  have e1 : c1Inv m x = 1 + (x / ((1 - x) ^ 5 * (2 - x) ^ 3)) * ((1 - x) * (2 - x) * ((8 - 2 * x) * (2 - x) ^ 2
      + (m - 1) * (12 + 27 * x - 70 * x ^ 2 + 51 * x ^ 3 - 16 * x ^ 4 + 2 * x ^ 5))) := by
    unfold c1Inv
    field_simp
    ring
  have e2 : w * x * c1InvSlope m x = (x / ((1 - x) ^ 5 * (2 - x) ^ 3)) * (w * ((8 + 20 * x - 4 * x ^ 2) * (2 - x) ^ 3
      + (m - 1) * ((8 + 20 * x - 4 * x ^ 2) * (2 - x) ^ 3 - (40 - 48 * x + 12 * x ^ 2 + 2 * x ^ 3) * (1 - x) ^ 2))) := by
    unfold c1InvSlope
    field_simp
    ring
  rw [e1, e2]
  have hf : 0 ≤ x / ((1 - x) ^ 5 * (2 - x) ^ 3) := div_nonneg h0 (by positivity)
  have key : w * ((8 + 20 * x - 4 * x ^ 2) * (2 - x) ^ 3
      + (m - 1) * ((8 + 20 * x - 4 * x ^ 2) * (2 - x) ^ 3 - (40 - 48 * x + 12 * x ^ 2 + 2 * x ^ 3) * (1 - x) ^ 2))
      ≤ (1 - x) * (2 - x) * ((8 - 2 * x) * (2 - x) ^ 2
      + (m - 1) * (12 + 27 * x - 70 * x ^ 2 + 51 * x ^ 3 - 16 * x ^ 4 + 2 * x ^ 5)) := by
    have l1 := mul_nonneg h0 hx'
    have l2 := mul_nonneg (pow_nonneg h0 2) hx'
    have l3 := mul_nonneg (pow_nonneg h0 3) hx'
    have l4 := mul_nonneg (pow_nonneg h0 4) hx'
    have l5 := mul_nonneg (pow_nonneg h0 5) hx'
    have l6 := mul_nonneg (pow_nonneg h0 6) hx'
    have k0 : 0 ≤ (8 + 20 * x - 4 * x ^ 2) * (2 - x) ^ 3 - (40 - 48 * x + 12 * x ^ 2 + 2 * x ^ 3) * (1 - x) ^ 2 := by
      nlinarith
    have k1 : 0.151 * ((8 + 20 * x - 4 * x ^ 2) * (2 - x) ^ 3 - (40 - 48 * x + 12 * x ^ 2 + 2 * x ^ 3) * (1 - x) ^ 2)
        ≤ (1 - x) * (2 - x) * (12 + 27 * x - 70 * x ^ 2 + 51 * x ^ 3 - 16 * x ^ 4 + 2 * x ^ 5) := by
      norm_num
      nlinarith [mul_nonneg h0 (sq_nonneg (1 / 2 - x)), mul_nonneg (pow_nonneg h0 2) (sq_nonneg (1 / 2 - x))]
    have k2 : 0 ≤ 4 / 5 * ((8 + 20 * x - 4 * x ^ 2) * (2 - x) ^ 3)
        + 1 / 5 * ((40 - 48 * x + 12 * x ^ 2 + 2 * x ^ 3) * (1 - x) ^ 2) := by
      have : 0 ≤ 40 - 48 * x + 12 * x ^ 2 + 2 * x ^ 3 := by nlinarith
      have : 0 ≤ 8 + 20 * x - 4 * x ^ 2 := by nlinarith
      positivity
    have k3 : 0.151 * (4 / 5 * ((8 + 20 * x - 4 * x ^ 2) * (2 - x) ^ 3)
        + 1 / 5 * ((40 - 48 * x + 12 * x ^ 2 + 2 * x ^ 3) * (1 - x) ^ 2))
        ≤ (1 - x) * (2 - x) * ((8 - 2 * x) * (2 - x) ^ 2
          - 1 / 5 * (12 + 27 * x - 70 * x ^ 2 + 51 * x ^ 3 - 16 * x ^ 4 + 2 * x ^ 5)) := by
      norm_num
      nlinarith [mul_nonneg h0 (sq_nonneg (1 / 2 - x)), mul_nonneg (pow_nonneg h0 2) (sq_nonneg (1 / 2 - x)),
        sq_nonneg (1 / 2 - x)]
    have r1 := (mul_le_mul_of_nonneg_right hw k0).trans k1
    have r2 := (mul_le_mul_of_nonneg_right hw k2).trans k3
    have r3 := mul_le_mul_of_nonneg_left r1 (show 0 ≤ m - 4 / 5 by linarith)
    linarith
  have := mul_le_mul_of_nonneg_left key hf
  linarith

/-! ## The repulsive part -/

/-- reduced energy per molecule of hard chains -/
noncomputable def chainForm (m x : ℝ) : ℝ :=
  m * ((4 * x - 3 * x ^ 2) / (1 - x) ^ 2) + (1 - m) * Real.log ((1 - x / 2) / (1 - x) ^ 3)

noncomputable def chainSlope (m x : ℝ) : ℝ :=
  m * ((4 - 2 * x) / (1 - x) ^ 3) + (1 - m) * ((5 - 2 * x) / ((1 - x) * (2 - x)))

theorem hasDerivAt_chain {m x : ℝ} (h : x < 1) : HasDerivAt (chainForm m) (chainSlope m x) x := by
  have a : 1 - x ≠ 0 := by linarith
  have b : 2 - x ≠ 0 := by linarith
  have b' : 1 - x / 2 ≠ 0 := by linarith
  have d1 : HasDerivAt (fun x : ℝ => 1 - x) (-1) x := (hasDerivAt_id x).const_sub 1
  have d2 : HasDerivAt (fun x : ℝ => 1 - x / 2) (-(1 / 2)) x := ((hasDerivAt_id x).div_const 2).const_sub 1
  have n1 : HasDerivAt (fun x : ℝ => 4 * x - 3 * x ^ 2) (4 - 6 * x) x := by
    refine (((hasDerivAt_id x).const_mul 4).sub ((hasDerivAt_pow 2 x).const_mul 3)).congr_deriv ?_
    norm_num
    ring
  have q1 := n1.div (d1.pow 2) (pow_ne_zero 2 a)
  have q2 := (d2.div (d1.pow 3) (pow_ne_zero 3 a)).log (div_ne_zero b' (pow_ne_zero 3 a))
  refine ((q1.const_mul m).add (q2.const_mul (1 - m))).congr_deriv ?_
  unfold chainSlope
  congr 2
  · simp only [Pi.pow_apply]
    norm_num only [Nat.cast_ofNat, Nat.reduceSub, pow_one]
    field_simp
    ring
  · simp only [Pi.pow_apply, Pi.div_apply]
    norm_num only [Nat.cast_ofNat, Nat.reduceSub, pow_one]
    have e : 1 - x / 2 = (2 - x) / 2 := by ring
    rw [e]
    field_simp
    ring

theorem chain_log_le {x : ℝ} (h0 : 0 ≤ x) (h1 : x ≤ 1 / 2) :
    Real.log ((1 - x / 2) / (1 - x) ^ 3) ≤ 3 * (x + x ^ 2 / 2 + x ^ 3 / (1 - x)) - x / 2 := by
  have a : 0 < 1 - x := by linarith
  have b : 0 < 1 - x / 2 := by linarith
  rw [Real.log_div b.ne' (pow_pos a 3).ne', Real.log_pow]
  have l1 := Real.log_le_sub_one_of_pos b
  have l2 := Real.abs_log_sub_add_sum_range_le (x := x) (by rw [abs_of_nonneg h0]; linarith) 2
  rw [abs_of_nonneg h0] at l2
  simp only [Finset.sum_range_succ, Finset.sum_range_zero] at l2
  have l3 := (abs_le.1 l2).1
  norm_num at l3 ⊢
  linarith

theorem chain_log_nonneg {x : ℝ} (h0 : 0 ≤ x) (h1 : x ≤ 1 / 2) : 0 ≤ Real.log ((1 - x / 2) / (1 - x) ^ 3) := by
  have a : 0 < 1 - x := by linarith
  refine Real.log_nonneg ?_
  rw [le_div_iff₀ (pow_pos a 3)]
  nlinarith [sq_nonneg x, mul_nonneg h0 (sq_nonneg x)]

theorem chain_bracket {x : ℝ} (h0 : 0 ≤ x) (h1 : x ≤ 1 / 2) : (0.8 + 1.5 * x) + (3 * (1 + x / 2 + x ^ 2 / (1 - x)) - 1 / 2)
    ≤ (4 - 3 * x) / (1 - x) ^ 2 - 0.151 * ((4 - 2 * x) / (1 - x) ^ 3) := by
  have a : 0 < 1 - x := by linarith
  have e : (4 - 3 * x) / (1 - x) ^ 2 - 0.151 * ((4 - 2 * x) / (1 - x) ^ 3)
      - ((0.8 + 1.5 * x) + (3 * (1 + x / 2 + x ^ 2 / (1 - x)) - 1 / 2))
      = ((4 - 3 * x) * (1 - x) - 151 / 1000 * (4 - 2 * x) - (33 / 10 + 3 * x) * (1 - x) ^ 3 - 3 * x ^ 2 * (1 - x) ^ 2)
        / (1 - x) ^ 3 := by
    have a' := a.ne'
    have d1 : (0.8 : ℝ) = 4 / 5 := by norm_num
    have d2 : (1.5 : ℝ) = 3 / 2 := by norm_num
    have d3 : (0.151 : ℝ) = 151 / 1000 := by norm_num
    rw [d1, d2, d3]
    field_simp
    ring
  have hp : 0 ≤ (4 - 3 * x) * (1 - x) - 151 / 1000 * (4 - 2 * x) - (33 / 10 + 3 * x) * (1 - x) ^ 3
      - 3 * x ^ 2 * (1 - x) ^ 2 := by
    have hx' : 0 ≤ 1 / 2 - x := by linarith
    nlinarith [mul_nonneg h0 hx', mul_nonneg (pow_nonneg h0 2) hx', mul_nonneg (pow_nonneg h0 3) hx']
  have := div_nonneg hp (pow_pos a 3).le
  rw [← e] at this
  linarith

theorem chain_entropy {m x w : ℝ} (hm : 4 / 5 ≤ m) (h0 : 0 ≤ x) (h1 : x ≤ 1 / 2) (hw0 : 0 ≤ w) (hw : w ≤ 0.151) :
    (0.8 + 1.5 * x) * (m * x) ≤ chainForm m x - w * x * chainSlope m x := by
  have a : 0 < 1 - x := by linarith
  have b : 0 < 2 - x := by linarith
  have hm0 : 0 < m := by linarith
  have hbr := chain_bracket h0 h1
  have hs : 0 ≤ (4 - 2 * x) / (1 - x) ^ 3 := div_nonneg (by linarith) (pow_pos a 3).le
  have hr : w * ((4 - 2 * x) / (1 - x) ^ 3) ≤ 0.151 * ((4 - 2 * x) / (1 - x) ^ 3) := mul_le_mul_of_nonneg_right hw hs
  have ht : 0 ≤ x ^ 2 / (1 - x) := div_nonneg (sq_nonneg x) a.le
  have hg : 0 ≤ (5 - 2 * x) / ((1 - x) * (2 - x)) := div_nonneg (by linarith) (by positivity)
  have hg' : (5 - 2 * x) / ((1 - x) * (2 - x)) ≤ 6 := by
    rw [div_le_iff₀ (by positivity)]
    nlinarith
  have e1 : (4 * x - 3 * x ^ 2) / (1 - x) ^ 2 = x * ((4 - 3 * x) / (1 - x) ^ 2) := by
    rw [← mul_div_assoc]
    congr 1
    ring
  have e3 : x ^ 3 / (1 - x) = x * (x ^ 2 / (1 - x)) := by
    rw [← mul_div_assoc]
    congr 1
    ring
  have hmx : 0 ≤ m * x := by positivity
  unfold chainForm chainSlope
  rw [e1]
  rcases le_total m 1 with h | h
  · have hl := mul_nonneg (show 0 ≤ 1 - m by linarith) (chain_log_nonneg h0 h1)
    have hb := mul_le_mul_of_nonneg_left (show (0.8 + 1.5 * x) + 1 / 4 * (0.151 * 6)
      ≤ (4 - 3 * x) / (1 - x) ^ 2 - w * ((4 - 2 * x) / (1 - x) ^ 3) by norm_num at hbr hr ⊢; linarith) hmx
    have hc : w * x * ((1 - m) * ((5 - 2 * x) / ((1 - x) * (2 - x)))) ≤ m * x * (1 / 4 * (0.151 * 6)) := by
      have c1 : w * ((5 - 2 * x) / ((1 - x) * (2 - x))) ≤ 0.151 * 6 := mul_le_mul hw hg' hg (by norm_num)
      have c2 : (1 - m) * (w * ((5 - 2 * x) / ((1 - x) * (2 - x)))) ≤ m * (1 / 4) * (0.151 * 6) :=
        mul_le_mul (by linarith) c1 (mul_nonneg hw0 hg) (by positivity)
      have := mul_le_mul_of_nonneg_left c2 h0
      linarith
    linarith
  · have hl := mul_le_mul_of_nonneg_left (chain_log_le h0 h1) (show 0 ≤ m - 1 by linarith)
    rw [e3] at hl
    have hc : 0 ≤ w * x * ((m - 1) * ((5 - 2 * x) / ((1 - x) * (2 - x)))) :=
      mul_nonneg (mul_nonneg hw0 h0) (mul_nonneg (by linarith) hg)
    have hb := mul_le_mul_of_nonneg_left (show (0.8 + 1.5 * x) + (3 * (1 + x / 2 + x ^ 2 / (1 - x)) - 1 / 2)
      ≤ (4 - 3 * x) / (1 - x) ^ 2 - w * ((4 - 2 * x) / (1 - x) ^ 3) by linarith) hmx
    have hx3 : 0 ≤ 3 * (x + x ^ 2 / 2 + x * (x ^ 2 / (1 - x))) - x / 2 := by
      have := mul_nonneg h0 ht
      nlinarith [sq_nonneg x]
    nlinarith

/-! ## The whole energy -/

/-- reduced energy per molecule of a pure fluid as a function of three times the reduced inverse temperature -/
noncomputable def pureForm (m S x : ℝ) : ℝ :=
  chainForm m (S * (1 - 3 / 25 * Real.exp (-x)) ^ 3)
    - 4 * m * S * x * intForm A0 A1 A2 m (S * (1 - 3 / 25 * Real.exp (-x)) ^ 3)
    - 2 / 3 * m ^ 2 * S * x ^ 2 * (c1Form m (S * (1 - 3 / 25 * Real.exp (-x)) ^ 3)
      * intForm B0 B1 B2 m (S * (1 - 3 / 25 * Real.exp (-x)) ^ 3))

theorem exp_bounds {x : ℝ} (hx : 0 ≤ x) : x * Real.exp (-x) ≤ 0.3679 ∧ x ^ 2 * Real.exp (-x) ≤ 0.5415
    ∧ x ^ 3 * Real.exp (-x) ≤ 1.3445 := by
  have h1 : ∀ y : ℝ, 0 ≤ y → y * Real.exp (-y) ≤ 0.3679 := fun y hy => by
    have a := Real.add_one_le_exp (y - 1)
    have b : y * Real.exp (-y) ≤ Real.exp (-1) := by
      have : Real.exp (-1) = Real.exp (y - 1) * Real.exp (-y) := by rw [← Real.exp_add]; ring_nf
      rw [this]
      exact mul_le_mul_of_nonneg_right (by linarith) (Real.exp_pos _).le
    have d : Real.exp (-1) ≤ 0.3679 := by
      rw [Real.exp_neg, inv_le_comm₀ (Real.exp_pos 1) (by norm_num)]
      have := Real.exp_one_gt_d9
      norm_num at this ⊢
      linarith
    linarith
  refine ⟨h1 x hx, ?_, ?_⟩
  · have a := h1 (x / 2) (by linarith)
    have b : 0 ≤ x / 2 * Real.exp (-(x / 2)) := by positivity
    have e : x ^ 2 * Real.exp (-x) = 4 * (x / 2 * Real.exp (-(x / 2))) ^ 2 := by
      rw [mul_pow, ← Real.exp_nat_mul]
      push_cast
      ring_nf
    have := pow_le_pow_left₀ b a 2
    rw [e]
    norm_num at this ⊢
    linarith
  · have a := h1 (x / 3) (by linarith)
    have b : 0 ≤ x / 3 * Real.exp (-(x / 3)) := by positivity
    have e : x ^ 3 * Real.exp (-x) = 27 * (x / 3 * Real.exp (-(x / 3))) ^ 3 := by
      rw [mul_pow, ← Real.exp_nat_mul]
      push_cast
      ring_nf
    have := pow_le_pow_left₀ b a 3
    rw [e]
    norm_num at this ⊢
    linarith

/-- the sum of all terms, from bounds for the parts -/
theorem entropy_sum {m eta S x w C D I J K : ℝ} (hm : 4 / 5 ≤ m) (h0 : 0 < eta) (h1 : eta ≤ 1 / 2) (hS0 : 0 ≤ S)
    (hS : S ≤ 1.4675 * eta) (hx : 0 ≤ x) (hw : 0 ≤ w) (hxw : x * w ≤ 0.2216) (hxxw : x ^ 2 * w ≤ 0.5501)
    (hC : (0.8 + 1.5 * eta) * (m * eta) ≤ C) (hJ : -0.54 ≤ J) (hK : -2.25 ≤ m * (D * K)) (hI : 0 ≤ I) :
    0 < C + 4 * m * S * (x * w) * eta * J + 2 / 3 * m ^ 2 * S * x ^ 2 * (I + w * eta * (D * K)) := by
  have hm0 : 0 < m := by linarith
  have t1 : -(4 * m * (1.4675 * eta) * 0.2216 * eta * 0.54) ≤ 4 * m * S * (x * w) * eta * J := by
    have hxw0 : 0 ≤ x * w := mul_nonneg hx hw
    have a : S * (x * w) ≤ 1.4675 * eta * 0.2216 := mul_le_mul hS hxw hxw0 (by positivity)
    have b : 4 * m * S * (x * w) * eta * (-0.54) ≤ 4 * m * S * (x * w) * eta * J :=
      mul_le_mul_of_nonneg_left hJ (by positivity)
    have c := mul_le_mul_of_nonneg_left a (show 0 ≤ 4 * m * eta * 0.54 by positivity)
    linarith
  have t2 : -(2 / 3 * m * (1.4675 * eta) * 0.5501 * eta * 2.25) ≤ 2 / 3 * m ^ 2 * S * x ^ 2 * (w * eta * (D * K)) := by
    have hxw0 : 0 ≤ x ^ 2 * w := by positivity
    have a : S * (x ^ 2 * w) ≤ 1.4675 * eta * 0.5501 := mul_le_mul hS hxxw hxw0 (by positivity)
    have b : 2 / 3 * m * S * (x ^ 2 * w) * eta * (-2.25) ≤ 2 / 3 * m * S * (x ^ 2 * w) * eta * (m * (D * K)) :=
      mul_le_mul_of_nonneg_left hK (by positivity)
    have c := mul_le_mul_of_nonneg_left a (show 0 ≤ 2 / 3 * m * eta * 2.25 by positivity)
    linarith
  have t3 : 0 ≤ 2 / 3 * m ^ 2 * S * x ^ 2 * I := by positivity
  have t4 : 0 < (0.8 + 1.5 * eta) * (m * eta) - 4 * m * (1.4675 * eta) * 0.2216 * eta * 0.54
      - 2 / 3 * m * (1.4675 * eta) * 0.5501 * eta * 2.25 := by
    have e : (0.8 + 1.5 * eta) * (m * eta) - 4 * m * (1.4675 * eta) * 0.2216 * eta * 0.54
      - 2 / 3 * m * (1.4675 * eta) * 0.5501 * eta * 2.25
      = m * eta * (0.8 + (1.5 - 4 * 1.4675 * 0.2216 * 0.54 - 2 / 3 * 1.4675 * 0.5501 * 2.25) * eta) := by ring
    rw [e]
    refine mul_pos (mul_pos hm0 h0) ?_
    norm_num
    linarith
  rw [mul_add]
  linarith

theorem pureForm_entropy {m S x : ℝ} (hm : 4 / 5 ≤ m) (hS : 0 < S) (hx : 0 ≤ x)
    (h1 : S * (1 - 3 / 25 * Real.exp (-x)) ^ 3 ≤ 1 / 2) :
    ∃ d, HasDerivAt (pureForm m S) d x ∧ 0 < pureForm m S x - x * d := by
  have hm0 : 0 < m := by linarith
  have hE := Real.exp_pos (-x)
  have hE1 : Real.exp (-x) ≤ 1 := Real.exp_le_one_iff.2 (by linarith)
  have hq : 22 / 25 ≤ 1 - 3 / 25 * Real.exp (-x) := by linarith
  have hq0 : 0 < 1 - 3 / 25 * Real.exp (-x) := by linarith
  set q := 1 - 3 / 25 * Real.exp (-x) with hqdef
  set eta := S * q ^ 3 with hetadef
  have he0 : 0 < eta := by positivity
  have hlt : eta < 1 := by linarith
  set r := 9 / 25 * Real.exp (-x) / q with hrdef
  set w := x * r with hwdef
  have hr0 : 0 ≤ r := by positivity
  have hw0 : 0 ≤ w := mul_nonneg hx hr0
  obtain ⟨x1, x2, x3⟩ := exp_bounds hx
  have bound : ∀ (k : ℕ) (L : ℝ), x ^ k * Real.exp (-x) ≤ L → x ^ k * r ≤ 9 / 22 * L := fun k L hL => by
    have : x ^ k * r = 9 / 25 * (x ^ k * Real.exp (-x)) / q := by rw [hrdef]; ring
    rw [this, div_le_iff₀ hq0]
    have h0 : 0 ≤ x ^ k * Real.exp (-x) := by positivity
    have := mul_le_mul_of_nonneg_left hq (show 0 ≤ 9 / 22 * L by linarith)
    linarith
  have hw : w ≤ 0.151 := by
    have := bound 1 _ (by simpa using x1)
    rw [pow_one] at this
    norm_num at this ⊢
    linarith
  have hxw : x * w ≤ 0.2216 := by
    have := bound 2 _ x2
    have e : x * w = x ^ 2 * r := by rw [hwdef]; ring
    rw [e]
    norm_num at this ⊢
    linarith
  have hxxw : x ^ 2 * w ≤ 0.5501 := by
    have := bound 3 _ x3
    have e : x ^ 2 * w = x ^ 3 * r := by rw [hwdef]; ring
    rw [e]
    norm_num at this ⊢
    linarith
  have hS' : S ≤ 1.4675 * eta := by
    have : (22 / 25 : ℝ) ^ 3 ≤ q ^ 3 := pow_le_pow_left₀ (by norm_num) hq 3
    have := mul_le_mul_of_nonneg_left this (show 0 ≤ 1.4675 * S by positivity)
    rw [hetadef]
    norm_num at this ⊢
    linarith
  have deta : HasDerivAt (fun x => S * (1 - 3 / 25 * Real.exp (-x)) ^ 3) (eta * r) x := by
    have d0 : HasDerivAt (fun x : ℝ => Real.exp (-x)) (-Real.exp (-x)) x := by
      refine ((hasDerivAt_id x).neg.exp).congr_deriv ?_
      simp
    refine ((((d0.const_mul (3 / 25)).const_sub 1).pow 3).const_mul S).congr_deriv ?_
    rw [hetadef, hrdef]
    change S * (((3 : ℕ) : ℝ) * q ^ (3 - 1) * -(3 / 25 * -Real.exp (-x))) = _
    norm_num only [Nat.cast_ofNat, Nat.reduceSub]
    field_simp
    ring
  have dC := (hasDerivAt_chain (m := m) hlt).comp x deta
  have dI := (hasDerivAt_int A0 A1 A2 m eta).comp x deta
  have dB := (hasDerivAt_int B0 B1 B2 m eta).comp x deta
  have hQ := one_le_c1Inv hm he0.le h1
  have hQ0 : 0 < c1Inv m eta := by linarith
  have dQ' : HasDerivAt (fun x => c1Inv m (S * (1 - 3 / 25 * Real.exp (-x)) ^ 3)) (c1InvSlope m eta * (eta * r)) x :=
    HasDerivAt.comp (h₂ := c1Inv m) x (hasDerivAt_c1Inv hlt) deta
  have dQ := dQ'.inv (show c1Inv m eta ≠ 0 from hQ0.ne')
  have d1 := (((hasDerivAt_id x).const_mul (4 * m * S)).mul dI)
  have d2 := (((hasDerivAt_pow 2 x).const_mul (2 / 3 * m ^ 2 * S)).mul (dQ.mul dB))
  have ef : pureForm m S = fun x => chainForm m (S * (1 - 3 / 25 * Real.exp (-x)) ^ 3)
      - 4 * m * S * x * intForm A0 A1 A2 m (S * (1 - 3 / 25 * Real.exp (-x)) ^ 3)
      - 2 / 3 * m ^ 2 * S * x ^ 2 * ((c1Inv m (S * (1 - 3 / 25 * Real.exp (-x)) ^ 3))⁻¹
      * intForm B0 B1 B2 m (S * (1 - 3 / 25 * Real.exp (-x)) ^ 3)) := by
    funext y
    rw [pureForm, c1Form_eq_inv]
  refine ⟨_, by rw [ef]; exact (dC.sub d1).sub d2, ?_⟩
  simp only [Function.comp, Pi.inv_apply, Pi.mul_apply, id]
  rw [pureForm, c1Form_eq_inv, ← hqdef, ← hetadef]
  have hD : 0 < (c1Inv m eta)⁻¹ := inv_pos.2 hQ0
  have hD1 : (c1Inv m eta)⁻¹ ≤ 1 := inv_le_one_of_one_le₀ hQ
  have hK : -2.25 ≤ m * ((c1Inv m eta)⁻¹ * intSlope B0 B1 B2 m eta) := by
    rcases le_total eta (3 / 10) with h | h
    · have a := mul_le_mul_of_nonneg_left (int2_slope_low hm he0.le h) (mul_pos hm0 hD).le
      have b : m * (c1Inv m eta)⁻¹ * (-2.8 * (4 / (5 * m)) ^ 2) = -(2.8 * (16 / (25 * m)) * (c1Inv m eta)⁻¹) := by
        field_simp
        ring
      have c : 16 / (25 * m) ≤ 4 / 5 := by
        rw [div_le_iff₀ (by positivity)]
        linarith
      have d : 16 / (25 * m) * (c1Inv m eta)⁻¹ ≤ 4 / 5 * 1 := mul_le_mul c hD1 hD.le (by norm_num)
      rw [b] at a
      norm_num at a d ⊢
      linarith
    · have a := mul_le_mul_of_nonneg_left (int2_slope_high hm h h1) (mul_pos hm0 hD).le
      have b : m * (c1Inv m eta)⁻¹ ≤ 4 / 25 := by
        rw [← div_eq_mul_inv, div_le_iff₀ hQ0]
        have := c1Inv_dense hm0 h h1
        linarith
      norm_num
      linarith
  have hI : 0 ≤ (c1Inv m eta)⁻¹ * intForm B0 B1 B2 m eta * (1 - (c1Inv m eta)⁻¹ * (w * eta * c1InvSlope m eta)) := by
    refine mul_nonneg (mul_nonneg hD.le (int2_pos hm he0.le h1).le) ?_
    have := mul_le_mul_of_nonneg_left (c1Inv_slope_le hm he0.le h1 hw) hD.le
    rw [inv_mul_cancel₀ hQ0.ne'] at this
    linarith
  have main := entropy_sum hm he0 h1 hS.le hS' hx hw0 hxw hxxw (chain_entropy hm he0.le h1 hw0 hw)
    (int1_slope hm he0.le h1) hK hI
  refine lt_of_lt_of_eq main ?_
  have eQ : -(c1InvSlope m eta * (eta * r)) / c1Inv m eta ^ 2
      = -((c1Inv m eta)⁻¹ ^ 2 * (c1InvSlope m eta * (eta * r))) := by
    rw [inv_pow]
    field_simp
  rw [eQ, hwdef]
  generalize (c1Inv m eta)⁻¹ = Q
  push_cast
  ring

end PcSaft
