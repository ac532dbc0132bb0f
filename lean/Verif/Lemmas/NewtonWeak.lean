import Verif.Lemmas.Newton

/-!
# Convergence of the cross-association iteration when association is weak

`M i j` is the association strength between sites `i` and `j` times the density of sites `j`.  The step of the code
solves `(1 + Σ M x) / x (x' - x) + Σ M (x' - x) = 1/x - 1 - Σ M x`.
-/

namespace PcSaft
open Spec
variable {ι : Type*} [Fintype ι]

/-- the step without denominators -/
def StepEq (M : ι → ι → ℝ) (x x' : ι → ℝ) : Prop :=
  ∀ i, (1 + ∑ j, M i j * x j) * x' i + x i * ∑ j, M i j * x' j = 1 + x i * ∑ j, M i j * x j

theorem stepEq_of {M : ι → ι → ℝ} {x x' : ι → ℝ} (hx : ∀ i, 0 < x i)
    (h : ∀ i, (1 + ∑ j, M i j * x j) / x i * (x' i - x i) + ∑ j, M i j * (x' j - x j)
      = (x i)⁻¹ - (1 + ∑ j, M i j * x j)) : StepEq M x x' := by
  intro i
  have hi := h i
  have hne := (hx i).ne'
  simp only [mul_sub, Finset.sum_sub_distrib] at hi
  field_simp at hi
  linear_combination hi

theorem sum_le_of_le_one {M : ι → ι → ℝ} (hM : ∀ i j, 0 ≤ M i j) {x : ι → ℝ} {b : ℝ} (hx : ∀ i, x i ≤ b) (i : ι) :
    ∑ j, M i j * x j ≤ b * ∑ j, M i j := by
  rw [Finset.mul_sum]
  exact Finset.sum_le_sum fun j _ => by nlinarith [hM i j, hx j]

theorem le_sum_of_le {M : ι → ι → ℝ} (hM : ∀ i j, 0 ≤ M i j) {x : ι → ℝ} {b : ℝ} (hx : ∀ i, b ≤ x i) (i : ι) :
    b * ∑ j, M i j ≤ ∑ j, M i j * x j := by
  rw [Finset.mul_sum]
  exact Finset.sum_le_sum fun j _ => by nlinarith [hM i j, hx j]

/-- if there is anything to bond with, the sum over positive fractions is positive -/
theorem sum_pos_of {M : ι → ι → ℝ} (hM : ∀ i j, 0 ≤ M i j) {x : ι → ℝ} (hx : ∀ i, 0 < x i) {i : ι}
    (h : 0 < ∑ j, M i j) : 0 < ∑ j, M i j * x j := by
  refine lt_of_le_of_ne (sum_mul_nonneg hM (fun j => (hx j).le) i) fun h0 => h.ne' ?_
  have := (Finset.sum_eq_zero_iff_of_nonneg fun j _ => mul_nonneg (hM i j) (hx j).le).1 h0.symm
  exact Finset.sum_eq_zero fun j hj => (mul_eq_zero.1 (this j hj)).resolve_right (hx j).ne'

/-- The step maps fractions to fractions if the strengths add up to at most one at every site. -/
theorem StepEq.fractions {M : ι → ι → ℝ} (hM : ∀ i j, 0 ≤ M i j) (hm : ∀ i, ∑ j, M i j ≤ 1) {x x' : ι → ℝ}
    (hx : ∀ i, 0 < x i) (hx1 : ∀ i, x i ≤ 1) (h : StepEq M x x') (i : ι) : 0 < x' i ∧ x' i ≤ 1 := by
  have hS : ∀ i, 0 ≤ ∑ j, M i j := fun i => Finset.sum_nonneg fun j _ => hM i j
  have hs : ∀ i, 0 ≤ ∑ j, M i j * x j := sum_mul_nonneg hM fun j => (hx j).le
  have hpos : ∀ i, 0 < x' i := by
    have : Nonempty ι := ⟨i⟩
    obtain ⟨i0, hi0⟩ := Finite.exists_min x'
    obtain ⟨i1, hi1⟩ := Finite.exists_max x'
    by_contra hneg
    push Not at hneg
    obtain ⟨l, hl⟩ := hneg
    have ha : x' i0 ≤ 0 := (hi0 l).trans hl
    -- the strictly negative remainder at the smallest entry
    have hrem : 0 < (1 - x i0 * ∑ j, M i0 j) + x i0 * ∑ j, M i0 j * x j := by
      have h1 : x i0 * ∑ j, M i0 j ≤ 1 := by nlinarith [hx i0, hx1 i0, hm i0, hS i0]
      rcases h1.lt_or_eq with h1 | h1
      · have := mul_nonneg (hx i0).le (hs i0)
        linarith
      · have h2 : 0 < ∑ j, M i0 j := by
          rcases (hS i0).lt_or_eq with h2 | h2
          · exact h2
          · rw [← h2] at h1
            simp at h1
        have := mul_pos (hx i0) (sum_pos_of hM hx h2)
        linarith
    have e0 := h i0
    have e1 := h i1
    -- largest entry
    have hup : x' i1 - 1 ≤ -x' i0 := by
      by_contra hgt
      push Not at hgt
      have hl1 : x' i0 * ∑ j, M i1 j ≤ ∑ j, M i1 j * x' j := le_sum_of_le hM hi0 i1
      have : (1 + ∑ j, M i1 j * x j) * (x' i1 - 1) ≤ x i1 * (-x' i0 * ∑ j, M i1 j) := by
        nlinarith [mul_nonneg (sub_nonneg.2 (hx1 i1)) (hs i1), mul_le_mul_of_nonneg_left hl1 (hx i1).le]
      have h3 : x i1 * (-x' i0 * ∑ j, M i1 j) ≤ -x' i0 := by
        have : x i1 * ∑ j, M i1 j ≤ 1 := by nlinarith [hx i1, hx1 i1, hm i1, hS i1]
        nlinarith
      nlinarith [hs i1]
    have hu : ∑ j, M i0 j * x' j ≤ (1 + -x' i0) * ∑ j, M i0 j :=
      sum_le_of_le_one hM (fun j => by linarith [hi1 j]) i0
    have h4 : (1 + ∑ j, M i0 j * x j) * (-x' i0) < x i0 * (-x' i0 * ∑ j, M i0 j) := by
      nlinarith [mul_le_mul_of_nonneg_left hu (hx i0).le]
    have h5 : x i0 * (-x' i0 * ∑ j, M i0 j) ≤ -x' i0 := by
      have : x i0 * ∑ j, M i0 j ≤ 1 := by nlinarith [hx i0, hx1 i0, hm i0, hS i0]
      nlinarith
    nlinarith [hs i0]
  refine ⟨hpos i, ?_⟩
  have e := h i
  have h1 := mul_nonneg (sub_nonneg.2 (hx1 i)) (hs i)
  have h2 := mul_nonneg (hx i).le (sum_mul_nonneg hM (fun j => (hpos j).le) i)
  by_contra hgt
  push Not at hgt
  nlinarith [hs i]

/-- lower bound of the new fractions -/
theorem StepEq.lower {M : ι → ι → ℝ} (hM : ∀ i j, 0 ≤ M i j) {x x' : ι → ℝ}
    (hx : ∀ i, 0 < x i) (hx1 : ∀ i, x i ≤ 1) (h' : ∀ i, x' i ≤ 1) (h : StepEq M x x') {μ : ℝ}
    (hm : ∀ i, ∑ j, M i j ≤ μ) (i : ι) : 1 - μ ≤ x' i := by
  have hS : 0 ≤ ∑ j, M i j := Finset.sum_nonneg fun j _ => hM i j
  have hs : 0 ≤ ∑ j, M i j * x j := sum_mul_nonneg hM (fun j => (hx j).le) i
  have hle := sum_le_of_le_one hM h' i
  have hle' := sum_le_of_le_one hM hx1 i
  have e := h i
  have hmi := hm i
  have hxi := hx i
  have hx1i := hx1 i
  rw [one_mul] at hle hle'
  have h1 : x i * ∑ j, M i j * x' j ≤ x i * ∑ j, M i j := mul_le_mul_of_nonneg_left hle hxi.le
  have h2 : x i * ((∑ j, M i j) - ∑ j, M i j * x j) ≤ (∑ j, M i j) - ∑ j, M i j * x j := by
    nlinarith
  by_contra hlt
  push Not at hlt
  nlinarith

/-- the error of a step is a product of two errors -/
theorem StepEq.error {M : ι → ι → ℝ} {x x' y : ι → ℝ} (h : StepEq M x x') (hy : MassAction M y) (i : ι) :
    (1 + ∑ j, M i j * x j) * (x' i - y i) + x i * ∑ j, M i j * (x' j - y j)
      = (x i - y i) * ∑ j, M i j * (x j - y j) := by
  have e := h i
  have e' := hy i
  simp only [mul_sub, Finset.sum_sub_distrib]
  linear_combination e - e'

theorem abs_sum_le {M : ι → ι → ℝ} (hM : ∀ i j, 0 ≤ M i j) {v : ι → ℝ} {E : ℝ} (hv : ∀ i, |v i| ≤ E) (i : ι) :
    |∑ j, M i j * v j| ≤ E * ∑ j, M i j := by
  rw [abs_le]
  constructor
  · have := le_sum_of_le hM (fun j => (abs_le.1 (hv j)).1) i
    linarith
  · exact sum_le_of_le_one hM (fun j => (abs_le.1 (hv j)).2) i

/-- quadratic convergence -/
theorem StepEq.quadratic {M : ι → ι → ℝ} (hM : ∀ i j, 0 ≤ M i j) {x x' y : ι → ℝ} (h : StepEq M x x')
    (hy : MassAction M y) (hx : ∀ i, 0 < x i) {μ δ E : ℝ} (hm : ∀ i, ∑ j, M i j ≤ μ) (hδ : 0 < δ)
    (hden : ∀ i, δ ≤ 1 + (∑ j, M i j * x j) - x i * ∑ j, M i j) (hE : ∀ i, |x i - y i| ≤ E) (i : ι) :
    δ * |x' i - y i| ≤ μ * (E * E) := by
  have : Nonempty ι := ⟨i⟩
  obtain ⟨l, hl⟩ := Finite.exists_max fun i => |x' i - y i|
  have hs : 0 ≤ ∑ j, M l j * x j := sum_mul_nonneg hM (fun j => (hx j).le) l
  have hS : 0 ≤ ∑ j, M l j := Finset.sum_nonneg fun j _ => hM l j
  have e := h.error hy l
  have h1 := abs_sum_le hM hl l
  have h2 := abs_sum_le hM hE l
  have hE0 : 0 ≤ E := (abs_nonneg _).trans (hE l)
  have h3 : (1 + ∑ j, M l j * x j) * |x' l - y l| ≤ E * (E * ∑ j, M l j) + x l * (|x' l - y l| * ∑ j, M l j) := by
    have e2 : (1 + ∑ j, M l j * x j) * (x' l - y l)
        = (x l - y l) * ∑ j, M l j * (x j - y j) - x l * ∑ j, M l j * (x' j - y j) := by
      linear_combination e
    calc (1 + ∑ j, M l j * x j) * |x' l - y l| = |(1 + ∑ j, M l j * x j) * (x' l - y l)| := by
          rw [abs_mul, abs_of_nonneg (by linarith : (0 : ℝ) ≤ 1 + ∑ j, M l j * x j)]
      _ ≤ |(x l - y l) * ∑ j, M l j * (x j - y j)| + |x l * ∑ j, M l j * (x' j - y j)| := by
          rw [e2]; exact abs_sub _ _
      _ ≤ _ := by
          rw [abs_mul, abs_mul, abs_of_pos (hx l)]
          exact add_le_add (mul_le_mul (hE l) h2 (abs_nonneg _) hE0) (mul_le_mul_of_nonneg_left h1 (hx l).le)
  have h4 : δ * |x' l - y l| ≤ μ * (E * E) := by
    have := mul_le_mul_of_nonneg_right (hden l) (abs_nonneg (x' l - y l))
    have := mul_le_mul_of_nonneg_right (hm l) (mul_nonneg hE0 hE0)
    nlinarith
  exact (mul_le_mul_of_nonneg_left (hl i) hδ.le).trans h4

/-- solutions are bounded from below -/
theorem massAction_lower {M : ι → ι → ℝ} (hM : ∀ i j, 0 ≤ M i j) {y : ι → ℝ} (hy : MassAction M y)
    (hy0 : ∀ i, 0 < y i) {μ : ℝ} (hm : ∀ i, ∑ j, M i j ≤ μ) (i : ι) : 1 ≤ (1 + μ) * y i := by
  have h1 := sum_le_of_le_one hM (hy.le_one hM hy0) i
  have := hy i
  have := hy0 i
  have := hm i
  nlinarith

/-! ### Any starting point -/

/-- What is known about an iterate after at least one step from any starting point, if the strengths add up to at
most two thirds. -/
structure NearAny (y z : ι → ℝ) (j : ℕ) : Prop where
  lower : ∀ i, 1 / 3 ≤ z i
  upper : ∀ i, z i ≤ 1
  error : ∀ i, |z i - y i| ≤ 5 / 6 * (4 / 5) ^ 2 ^ j

theorem nearAny_first {M : ι → ι → ℝ} (hM : ∀ i j, 0 ≤ M i j) (hm : ∀ i, ∑ j, M i j ≤ 2 / 3) {x x' y : ι → ℝ}
    (hx : ∀ i, 0 < x i) (hx1 : ∀ i, x i ≤ 1) (h : StepEq M x x') (hy : MassAction M y) (hy0 : ∀ i, 0 < y i) :
    NearAny y x' 0 := by
  have hf := h.fractions hM (fun i => (hm i).trans (by norm_num)) hx hx1
  have hl := h.lower hM hx hx1 (fun i => (hf i).2) hm
  refine ⟨fun i => by linarith [hl i], fun i => (hf i).2, fun i => ?_⟩
  have h1 := hl i
  have h2 := (hf i).2
  have h3 := massAction_lower hM hy hy0 hm i
  have h4 := hy.le_one hM hy0 i
  norm_num
  rw [abs_le]
  constructor <;> linarith

theorem nearAny_next {M : ι → ι → ℝ} (hM : ∀ i j, 0 ≤ M i j) (hm : ∀ i, ∑ j, M i j ≤ 2 / 3) {x x' y : ι → ℝ}
    {j : ℕ} (hx : NearAny y x j) (h : StepEq M x x') (hy : MassAction M y) : NearAny y x' (j + 1) := by
  have hx0 : ∀ i, 0 < x i := fun i => by linarith [hx.lower i]
  have hf := h.fractions hM (fun i => (hm i).trans (by norm_num)) hx0 hx.upper
  have hl := h.lower hM hx0 hx.upper (fun i => (hf i).2) hm
  refine ⟨fun i => by linarith [hl i], fun i => (hf i).2, fun i => ?_⟩
  have hq := h.quadratic hM hy hx0 (δ := 5 / 9) hm (by norm_num) (fun i => by
    have h1 := le_sum_of_le hM hx.lower i
    have h2 : 0 ≤ ∑ j, M i j := Finset.sum_nonneg fun j _ => hM i j
    have := hm i
    have := hx.upper i
    nlinarith) hx.error i
  rw [pow_succ, pow_mul]
  nlinarith

/-! ### The default starting point 0.2 -/

/-- What is known about an iterate after at least one step from 0.2, if the strengths add up to at most one. -/
structure NearDefault (y z : ι → ℝ) (j : ℕ) : Prop where
  pos : ∀ i, 0 < z i
  upper : ∀ i, z i ≤ 1
  error : ∀ i, |z i - y i| ≤ 3 / 10 * (4 / 5) ^ 2 ^ j

theorem nearDefault_first {M : ι → ι → ℝ} (hM : ∀ i j, 0 ≤ M i j) (hm : ∀ i, ∑ j, M i j ≤ 1) {x' y : ι → ℝ}
    (h : StepEq M (fun _ => 1 / 5) x') (hy : MassAction M y) (hy0 : ∀ i, 0 < y i) : NearDefault y x' 0 := by
  have hf := h.fractions hM hm (fun _ => by norm_num) (fun _ => by norm_num)
  refine ⟨fun i => (hf i).1, fun i => (hf i).2, fun i => ?_⟩
  have : Nonempty ι := ⟨i⟩
  obtain ⟨l, hl⟩ := Finite.exists_max fun i => |x' i - y i|
  refine (hl i).trans ?_
  have e := h.error hy l
  have h1 := abs_sum_le hM hl l
  have hS : 0 ≤ ∑ j, M l j := Finset.sum_nonneg fun j _ => hM l j
  have hlow := massAction_lower hM hy hy0 hm
  have hyl := hlow l
  have hy1 := hy.le_one hM hy0 l
  have e' := hy l
  set S := ∑ j, M l j with hSdef
  have hs1 : ∑ j, M l j * (1 / 5 : ℝ) = 1 / 5 * S := by rw [← Finset.sum_mul, mul_comm]
  have hs2 : ∑ j, M l j * (1 / 5 - y j) = 1 / 5 * S - ∑ j, M l j * y j := by
    simp only [mul_sub, Finset.sum_sub_distrib, hs1]
  rw [hs1, hs2] at e
  have hYlow : 1 / 2 * S ≤ ∑ j, M l j * y j := le_sum_of_le hM (fun j => by linarith [hlow j]) l
  have hYup : ∑ j, M l j * y j ≤ 1 * S := sum_le_of_le_one hM (fun j => hy.le_one hM hy0 j) l
  set Y := ∑ j, M l j * y j with hYdef
  set W := ∑ j, M l j * (x' j - y j) with hWdef
  -- the product of the errors
  have hR0 : 0 ≤ (1 / 5 - y l) * (1 / 5 * S - Y) := by nlinarith
  have hR : (1 / 5 - y l) * (1 / 5 * S - Y) ≤ 6 / 25 := by
    have h2 : Y - 1 / 5 * S ≤ 4 / 5 * Y := by linarith
    have h3 : (y l - 1 / 5) * (Y - 1 / 5 * S) ≤ (y l - 1 / 5) * (4 / 5 * Y) :=
      mul_le_mul_of_nonneg_left h2 (by linarith)
    have h4 : y l * Y = 1 - y l := by linarith
    have h5 : Y ≤ 1 := by linarith [hm l]
    have h6 : 2 * (1 - y l) = 2 * (y l * Y) := by rw [h4]
    nlinarith
  have hA : (1 + 1 / 5 * S) * |x' l - y l| ≤ 6 / 25 + 1 / 5 * (|x' l - y l| * S) := by
    have e2 : (1 + 1 / 5 * S) * (x' l - y l) = (1 / 5 - y l) * (1 / 5 * S - Y) - 1 / 5 * W := by
      linear_combination e
    calc (1 + 1 / 5 * S) * |x' l - y l| = |(1 + 1 / 5 * S) * (x' l - y l)| := by
          rw [abs_mul, abs_of_nonneg (by linarith : (0 : ℝ) ≤ 1 + 1 / 5 * S)]
      _ ≤ |(1 / 5 - y l) * (1 / 5 * S - Y)| + |1 / 5 * W| := by rw [e2]; exact abs_sub _ _
      _ ≤ _ := by
          rw [abs_of_nonneg hR0, abs_mul, abs_of_pos (by norm_num : (0 : ℝ) < 1 / 5)]
          exact add_le_add hR (mul_le_mul_of_nonneg_left h1 (by norm_num))
  norm_num
  nlinarith

theorem nearDefault_next {M : ι → ι → ℝ} (hM : ∀ i j, 0 ≤ M i j) (hm : ∀ i, ∑ j, M i j ≤ 1) {x x' y : ι → ℝ}
    {j : ℕ} (hx : NearDefault y x j) (h : StepEq M x x') (hy : MassAction M y) (hy0 : ∀ i, 0 < y i) :
    NearDefault y x' (j + 1) := by
  have hf := h.fractions hM hm hx.pos hx.upper
  refine ⟨fun i => (hf i).1, fun i => (hf i).2, fun i => ?_⟩
  have hp : ((4 : ℝ) / 5) ^ 2 ^ j ≤ 4 / 5 := by
    calc ((4 : ℝ) / 5) ^ 2 ^ j ≤ (4 / 5) ^ 1 := pow_le_pow_of_le_one (by norm_num) (by norm_num) Nat.one_le_two_pow
      _ = 4 / 5 := pow_one _
  have hE : ∀ i, |x i - y i| ≤ 6 / 25 := fun i => (hx.error i).trans (by linarith)
  have hlow := massAction_lower hM hy hy0 hm
  have hq := h.quadratic hM hy hx.pos (δ := 3 / 10) hm (by norm_num) (fun i => by
    have hS : 0 ≤ ∑ j, M i j := Finset.sum_nonneg fun j _ => hM i j
    have h1 : 1 / 2 * ∑ j, M i j ≤ ∑ j, M i j * y j := le_sum_of_le hM (fun j => by linarith [hlow j]) i
    have h2 := abs_sum_le hM hE i
    simp only [mul_sub, Finset.sum_sub_distrib] at h2
    have e := hy i
    have hyi := hy0 i
    have hmi := hm i
    have hxi := (abs_le.1 (hE i)).2
    have h3 := (abs_le.1 h2).1
    -- 1/y - y m ≥ 4/5
    have h4 : 4 / 5 ≤ 1 + (∑ j, M i j * y j) - y i * ∑ j, M i j := by
      by_contra hlt
      push Not at hlt
      nlinarith [sq_nonneg (y i - 7 / 10)]
    have h5 : x i * ∑ j, M i j ≤ (y i + 6 / 25) * ∑ j, M i j := mul_le_mul_of_nonneg_right (by linarith) hS
    nlinarith) hx.error i
  rw [pow_succ, pow_mul]
  nlinarith

/-- the gradient near the solution -/
theorem gradient_bound {M : ι → ι → ℝ} (hM : ∀ i j, 0 ≤ M i j) (hm : ∀ i, ∑ j, M i j ≤ 1) {x y : ι → ℝ}
    (hx : ∀ i, 0 < x i) (hy : MassAction M y) (hy0 : ∀ i, 0 < y i) {E b : ℝ} (hb : 0 < b)
    (hxy : ∀ i, b ≤ x i * y i) (hE : ∀ i, |x i - y i| ≤ E) (i : ι) :
    |(x i)⁻¹ - (1 + ∑ j, M i j * x j)| ≤ E / b + E := by
  have e := hy i
  have hy1 : 1 + ∑ j, M i j * y j = (y i)⁻¹ := by
    have := (hy0 i).ne'
    field_simp
    linarith
  have h2 := abs_sum_le hM hE i
  have hE0 : 0 ≤ E := (abs_nonneg _).trans (hE i)
  have e2 : (x i)⁻¹ - (1 + ∑ j, M i j * x j) = -((x i - y i) / (x i * y i)) - ∑ j, M i j * (x j - y j) := by
    simp only [mul_sub, Finset.sum_sub_distrib]
    have h1 := (hy0 i).ne'
    have h3 := (hx i).ne'
    have : (x i)⁻¹ - (y i)⁻¹ = -((x i - y i) / (x i * y i)) := by
      field_simp
      ring
    rw [← this, ← hy1]
    ring
  rw [e2]
  refine (abs_sub _ _).trans (add_le_add ?_ (h2.trans ?_))
  · rw [abs_neg, abs_div, abs_of_pos (mul_pos (hx i) (hy0 i))]
    exact div_le_div₀ hE0 (hE i) hb (hxy i)
  · nlinarith [hm i]

end PcSaft
