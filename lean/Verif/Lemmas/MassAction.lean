import Verif.Spec.MassAction
import Mathlib.Order.FixedPoints
import Mathlib.Order.CompleteLatticeIntervals
import Mathlib.Algebra.Order.Archimedean.Real.Basic
import Mathlib.Data.Fintype.Lattice
import Mathlib.Algebra.Order.BigOperators.Group.Finset
import Mathlib.Algebra.BigOperators.Ring.Finset
import Mathlib.Algebra.Order.BigOperators.Ring.Finset
import Mathlib.Tactic.FieldSimp
import Mathlib.Tactic.Linarith
import Mathlib.Tactic.LinearCombination
import Mathlib.Tactic.Positivity

/-!
# The mass-action law with a non-negative matrix

Uniqueness, sensitivity and existence, all by comparing two positive vectors through their largest
ratio.
-/

namespace PcSaft
open Spec
variable {ι : Type*} [Fintype ι]

/-- Two positive vectors are within a factor `B` of each other if at an index of the largest ratio
that ratio is at most `B`. -/
theorem ratio_bound {x y : ι → ℝ} (hx : ∀ i, 0 < x i) (hy : ∀ i, 0 < y i) {B : ℝ}
    (h : ∀ (i : ι) (θ : ℝ), 1 ≤ θ → (∀ j, x j ≤ θ * y j ∧ y j ≤ θ * x j) →
      (x i = θ * y i ∨ y i = θ * x i) → θ ≤ B) :
    ∀ i, x i ≤ B * y i ∧ y i ≤ B * x i := by
  intro i0
  have : Nonempty ι := ⟨i0⟩
  obtain ⟨i, hi⟩ := Finite.exists_max (fun i => max (x i / y i) (y i / x i))
  set θ := max (x i / y i) (y i / x i) with hθ
  have hall : ∀ j, x j ≤ θ * y j ∧ y j ≤ θ * x j := by
    intro j
    have := hi j
    constructor
    · exact (div_le_iff₀ (hy j)).1 ((le_max_left _ _).trans this)
    · exact (div_le_iff₀ (hx j)).1 ((le_max_right _ _).trans this)
  have hone : 1 ≤ θ := by
    rcases le_total (x i) (y i) with h1 | h1
    · exact ((one_le_div (hx i)).2 h1).trans (le_max_right _ _)
    · exact ((one_le_div (hy i)).2 h1).trans (le_max_left _ _)
  have heq : x i = θ * y i ∨ y i = θ * x i := by
    rcases max_choice (x i / y i) (y i / x i) with h1 | h1
    · left; rw [hθ, h1]; exact (div_mul_cancel₀ _ (hy i).ne').symm
    · right; rw [hθ, h1]; exact (div_mul_cancel₀ _ (hx i).ne').symm
  have hle := h i θ hone hall heq
  exact ⟨(hall i0).1.trans (mul_le_mul_of_nonneg_right hle (hy i0).le),
    (hall i0).2.trans (mul_le_mul_of_nonneg_right hle (hx i0).le)⟩

theorem sum_mul_le {M : ι → ι → ℝ} (hM : ∀ i j, 0 ≤ M i j) {x y : ι → ℝ} {θ : ℝ}
    (h : ∀ j, x j ≤ θ * y j) (i : ι) : ∑ j, M i j * x j ≤ θ * ∑ j, M i j * y j := by
  rw [Finset.mul_sum]
  apply Finset.sum_le_sum
  intro j _
  calc M i j * x j ≤ M i j * (θ * y j) := mul_le_mul_of_nonneg_left (h j) (hM i j)
    _ = _ := by ring

theorem sum_mul_nonneg {M : ι → ι → ℝ} (hM : ∀ i j, 0 ≤ M i j) {x : ι → ℝ} (hx : ∀ j, 0 ≤ x j)
    (i : ι) : 0 ≤ ∑ j, M i j * x j :=
  Finset.sum_nonneg fun j _ => mul_nonneg (hM i j) (hx j)

/-- A positive vector whose residuals `1/x_i - 1 - (Mx)_i` are at most `t < 1` in magnitude is
within a factor `1/(1-t)` of any positive solution. -/
theorem near_solution {M : ι → ι → ℝ} (hM : ∀ i j, 0 ≤ M i j) {x y : ι → ℝ} (hx : ∀ i, 0 < x i)
    (hy : ∀ i, 0 < y i) (hsol : MassAction M y) {t : ℝ} (ht0 : 0 ≤ t) (ht : t < 1)
    (hg : ∀ i, |(x i)⁻¹ - (1 + ∑ j, M i j * x j)| ≤ t) :
    ∀ i, x i ≤ (1 - t)⁻¹ * y i ∧ y i ≤ (1 - t)⁻¹ * x i := by
  have h1t : 0 < 1 - t := by linarith
  have hB : 1 ≤ (1 - t)⁻¹ := (one_le_inv₀ h1t).2 (by linarith)
  refine ratio_bound hx hy ?_
  intro i θ hθ hall heq
  have hθ0 : 0 < θ := by linarith
  have hyi : (y i)⁻¹ = 1 + ∑ j, M i j * y j := by
    have := hsol i
    exact inv_eq_of_mul_eq_one_right this
  have hgi := abs_le.1 (hg i)
  have hS := sum_mul_nonneg hM (fun j => (hy j).le) i
  rcases heq with h1 | h1
  · -- x is large at i
    have hlow : ∑ j, M i j * y j ≤ θ * ∑ j, M i j * x j := sum_mul_le hM (fun j => (hall j).2) i
    have hxi : θ * (x i)⁻¹ = 1 + ∑ j, M i j * y j := by
      rw [h1, mul_inv, ← hyi]; field_simp
    have : θ * (1 - t) ≤ 1 := by nlinarith [mul_le_mul_of_nonneg_left hgi.1 hθ0.le]
    exact (le_inv_comm₀ hθ0 h1t).2 (by rw [le_inv_comm₀ h1t hθ0]; rw [← one_div]; exact (le_div_iff₀ h1t).2 this)
  · have hup : ∑ j, M i j * x j ≤ θ * ∑ j, M i j * y j := sum_mul_le hM (fun j => (hall j).1) i
    have hxi : (x i)⁻¹ = θ * (1 + ∑ j, M i j * y j) := by
      rw [← hyi, h1]; field_simp
    have h2 : θ ≤ 1 + t := by nlinarith
    refine h2.trans ?_
    rw [← one_div, le_div_iff₀ h1t]
    nlinarith

theorem Spec.MassAction.unique {M : ι → ι → ℝ} (hM : ∀ i j, 0 ≤ M i j) {x y : ι → ℝ}
    (hx : ∀ i, 0 < x i) (hy : ∀ i, 0 < y i) (h1 : MassAction M x) (h2 : MassAction M y) :
    x = y := by
  have h := near_solution hM hx hy h2 (t := 0) le_rfl one_pos (fun i => by
    rw [inv_eq_of_mul_eq_one_right (h1 i)]; simp)
  funext i
  have := h i
  simp only [sub_zero, inv_one, one_mul] at this
  exact le_antisymm this.1 this.2

theorem Spec.MassAction.le_one {M : ι → ι → ℝ} (hM : ∀ i j, 0 ≤ M i j) {x : ι → ℝ}
    (hx : ∀ i, 0 < x i) (h : MassAction M x) (i : ι) : x i ≤ 1 := by
  have hS := sum_mul_nonneg hM (fun j => (hx j).le) i
  have := h i
  nlinarith [hx i, mul_nonneg (hx i).le hS]

/-- A pair `a`, `b` with `a (1 + M b) = 1` and `b (1 + M a) = 1` is a single solution. -/
theorem pair_eq {M : ι → ι → ℝ} (hM : ∀ i j, 0 ≤ M i j) {a b : ι → ℝ}
    (ha : ∀ i, 0 < a i) (hb : ∀ i, 0 < b i) (h1 : ∀ i, a i * (1 + ∑ j, M i j * b j) = 1)
    (h2 : ∀ i, b i * (1 + ∑ j, M i j * a j) = 1) : a = b := by
  have key : ∀ i, a i ≤ 1 * b i ∧ b i ≤ 1 * a i := by
    refine ratio_bound ha hb ?_
    intro i θ hθ hall heq
    have hSa := sum_mul_nonneg hM (fun j => (ha j).le) i
    have hSb := sum_mul_nonneg hM (fun j => (hb j).le) i
    rcases heq with h | h
    · have hle : ∑ j, M i j * a j ≤ θ * ∑ j, M i j * b j := sum_mul_le hM (fun j => (hall j).1) i
      have e1 := h1 i
      have e2 := h2 i
      rw [h] at e1
      have hbi := hb i
      have : b i * (θ * (1 + ∑ j, M i j * b j)) = b i * (1 + ∑ j, M i j * a j) := by
        linear_combination e1 - e2
      have := mul_left_cancel₀ hbi.ne' this
      linarith
    · have hle : ∑ j, M i j * b j ≤ θ * ∑ j, M i j * a j := sum_mul_le hM (fun j => (hall j).2) i
      have e1 := h1 i
      have e2 := h2 i
      rw [h] at e2
      have hai := ha i
      have : a i * (θ * (1 + ∑ j, M i j * a j)) = a i * (1 + ∑ j, M i j * b j) := by
        linear_combination e2 - e1
      have := mul_left_cancel₀ hai.ne' this
      linarith
  funext i
  have := key i
  simp only [one_mul] at this
  exact le_antisymm this.1 this.2

theorem Spec.MassAction.exists {M : ι → ι → ℝ} (hM : ∀ i j, 0 ≤ M i j) :
    ∃ x : ι → ℝ, (∀ i, 0 < x i) ∧ MassAction M x := by
  classical
  have : Fact ((0 : ℝ) ≤ 1) := ⟨zero_le_one⟩
  have hpos : ∀ (x : ι → Set.Icc (0 : ℝ) 1) (i : ι), 0 < 1 + ∑ j, M i j * (x j : ℝ) := fun x i => by
    have := sum_mul_nonneg hM (fun j => (x j).2.1) i
    linarith
  let T : (ι → Set.Icc (0 : ℝ) 1) → (ι → Set.Icc (0 : ℝ) 1) := fun x i =>
    ⟨(1 + ∑ j, M i j * (x j : ℝ))⁻¹, by
      have := sum_mul_nonneg hM (fun j => (x j).2.1) i
      exact ⟨(inv_pos.2 (hpos x i)).le, inv_le_one_of_one_le₀ (by linarith)⟩⟩
  have hT : ∀ x y, x ≤ y → T y ≤ T x := by
    intro x y hxy i
    show (1 + ∑ j, M i j * (y j : ℝ))⁻¹ ≤ (1 + ∑ j, M i j * (x j : ℝ))⁻¹
    apply inv_anti₀ (hpos x i)
    gcongr with j
    · exact hM i j
    · exact hxy j
  let T2 : (ι → Set.Icc (0 : ℝ) 1) →o (ι → Set.Icc (0 : ℝ) 1) :=
    ⟨fun x => T (T x), fun x y h => hT _ _ (hT _ _ h)⟩
  let z := OrderHom.lfp T2
  have hz : T (T z) = z := OrderHom.map_lfp T2
  have e1 : ∀ i, (z i : ℝ) = (1 + ∑ j, M i j * ((T z) j : ℝ))⁻¹ := fun i => by
    have := congrFun hz i
    exact (congrArg Subtype.val this).symm
  have e2 : ∀ i, ((T z) i : ℝ) = (1 + ∑ j, M i j * (z j : ℝ))⁻¹ := fun i => rfl
  have p1 : ∀ i, 0 < (z i : ℝ) := fun i => by rw [e1]; exact inv_pos.2 (hpos _ i)
  have p2 : ∀ i, 0 < ((T z) i : ℝ) := fun i => by rw [e2]; exact inv_pos.2 (hpos _ i)
  have m1 : ∀ i, (z i : ℝ) * (1 + ∑ j, M i j * ((T z) j : ℝ)) = 1 := fun i => by
    rw [e1]; exact inv_mul_cancel₀ (hpos _ i).ne'
  have m2 : ∀ i, ((T z) i : ℝ) * (1 + ∑ j, M i j * (z j : ℝ)) = 1 := fun i => by
    rw [e2]; exact inv_mul_cancel₀ (hpos _ i).ne'
  have := pair_eq hM p1 p2 m1 m2
  refine ⟨fun i => z i, p1, fun i => ?_⟩
  have h := m1 i
  have h3 : (fun i => ((T z) i : ℝ)) = fun i => (z i : ℝ) := this.symm
  have h4 : ∀ j, ((T z) j : ℝ) = z j := fun j => congrFun h3 j
  simpa only [h4] using h

/-! ### The Newton step -/

/-- If `(1 + (Mx)_i)/x_i v_i + (Mv)_i = g_i` with `|g_i| ≤ t` and positive `x`, then
`|v_i| ≤ t x_i`. -/
theorem newton_step_bound {M : ι → ι → ℝ} (hM : ∀ i j, 0 ≤ M i j) {x v g : ι → ℝ}
    (hx : ∀ i, 0 < x i) {t : ℝ} (hg : ∀ i, |g i| ≤ t)
    (h : ∀ i, (1 + ∑ j, M i j * x j) / x i * v i + ∑ j, M i j * v j = g i) :
    ∀ i, |v i| ≤ t * x i := by
  intro i0
  have : Nonempty ι := ⟨i0⟩
  obtain ⟨i, hi⟩ := Finite.exists_max (fun i => |v i| / x i)
  have hall : ∀ j, |v j| ≤ |v i| / x i * x j := fun j => (div_le_iff₀ (hx j)).1 (hi j)
  have hS := sum_mul_nonneg hM (fun j => (hx j).le) i
  have h1 : |∑ j, M i j * v j| ≤ |v i| / x i * ∑ j, M i j * x j := by
    refine (Finset.abs_sum_le_sum_abs _ _).trans ?_
    rw [Finset.mul_sum]
    apply Finset.sum_le_sum
    intro j _
    rw [abs_mul, abs_of_nonneg (hM i j)]
    calc M i j * |v j| ≤ M i j * (|v i| / x i * x j) := mul_le_mul_of_nonneg_left (hall j) (hM i j)
      _ = _ := by ring
  have h2 : |(1 + ∑ j, M i j * x j) / x i * v i| = (1 + ∑ j, M i j * x j) * (|v i| / x i) := by
    rw [abs_mul, abs_div, abs_of_pos (hx i), abs_of_nonneg (by linarith)]; ring
  have h3 : |v i| / x i ≤ t := by
    have h4 : |(1 + ∑ j, M i j * x j) / x i * v i| ≤ |g i| + |∑ j, M i j * v j| := by
      have : (1 + ∑ j, M i j * x j) / x i * v i = g i - ∑ j, M i j * v j := by rw [← h i]; ring
      rw [this]
      exact abs_sub _ _
    rw [h2] at h4
    nlinarith [hg i]
  exact (hall i0).trans (mul_le_mul_of_nonneg_right h3 (hx i0).le)

end PcSaft
