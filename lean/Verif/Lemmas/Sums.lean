import Verif.Num
import Mathlib.Tactic.Ring
import Mathlib.Tactic.Linarith
import Mathlib.Algebra.BigOperators.Ring.Finset
import Mathlib.Algebra.BigOperators.Field
import Mathlib.Algebra.BigOperators.Group.Finset.Sigma
import Mathlib.Data.List.NodupEquivFin
import Mathlib.Data.Fintype.BigOperators

/-! # Triangular loops as symmetric sums, and merging of components -/

namespace PcSaft

theorem foldUpper_add_real {n : ℕ} (i : Fin n) (f : Fin n → ℝ) (a : ℝ) :
    foldUpper i (fun acc j => acc + f j) a = a + ∑ j, if i < j then f j else 0 := by
  rw [foldUpper, ← foldl_add_real]
  congr 1
  funext acc j
  split <;> simp

theorem foldUpper_sub_real {n : ℕ} (i : Fin n) (f : Fin n → ℝ) (a : ℝ) :
    foldUpper i (fun acc j => acc - f j) a = a - ∑ j, if i < j then f j else 0 := by
  rw [foldUpper, ← foldl_sub_real]
  congr 1
  funext acc j
  split <;> simp

/-- upper triangle plus diagonal of a symmetric pair sum -/
theorem sum_pairs_symm {n : ℕ} (f : Fin n → Fin n → ℝ) (hs : ∀ i j, f i j = f j i) :
    ∑ i, (f i i + ∑ j, if i < j then 2 * f i j else 0) = ∑ i, ∑ j, f i j := by
  induction n with
  | zero => simp
  | succ n ih =>
    have h := ih (fun i j => f i.succ j.succ) (fun i j => hs _ _)
    simp only [Fin.sum_univ_succ, Fin.succ_lt_succ_iff, if_false, Fin.succ_pos,
      if_true, Fin.not_lt_zero, Finset.sum_add_distrib, zero_add, ← Finset.mul_sum] at h ⊢
    have e : ∑ i : Fin n, f i.succ 0 = ∑ i : Fin n, f 0 i.succ :=
      Finset.sum_congr rfl (fun i _ => hs _ _)
    rw [e]
    linarith

/-- weighted ordered triplets of a totally symmetric triple sum -/
theorem sum_triples_symm {n : ℕ} (f : Fin n → Fin n → Fin n → ℝ) (h1 : ∀ i j k, f i j k = f j i k)
    (h2 : ∀ i j k, f i j k = f i k j) :
    ∑ i, (f i i i + ∑ j, if i < j then 3 * f i i j + 3 * f i j j
        + ∑ k, (if j < k then 6 * f i j k else 0) else 0) = ∑ i, ∑ j, ∑ k, f i j k := by
  induction n with
  | zero => simp
  | succ n ih =>
    have h := ih (fun i j k => f i.succ j.succ k.succ) (fun i j k => h1 _ _ _) (fun i j k => h2 _ _ _)
    have hp := sum_pairs_symm (fun j k : Fin n => f 0 j.succ k.succ) (fun j k => h2 _ _ _)
    simp only [Fin.sum_univ_succ, Fin.succ_lt_succ_iff, if_false, Fin.succ_pos,
      if_true, Fin.not_lt_zero, Finset.sum_add_distrib, zero_add, ← Finset.mul_sum] at h hp ⊢
    have e1 : ∑ i : Fin n, f i.succ 0 0 = ∑ i : Fin n, f 0 0 i.succ :=
      Finset.sum_congr rfl (fun i _ => by rw [h1, h2])
    have e2 : ∑ i : Fin n, f 0 i.succ 0 = ∑ i : Fin n, f 0 0 i.succ :=
      Finset.sum_congr rfl (fun i _ => by rw [h2])
    have e3 : ∑ i : Fin n, ∑ j : Fin n, f i.succ 0 j.succ = ∑ i : Fin n, ∑ j : Fin n, f 0 i.succ j.succ :=
      Finset.sum_congr rfl (fun i _ => Finset.sum_congr rfl (fun j _ => by rw [h1]))
    have e4 : ∑ i : Fin n, ∑ j : Fin n, f i.succ j.succ 0 = ∑ i : Fin n, ∑ j : Fin n, f 0 i.succ j.succ :=
      Finset.sum_congr rfl (fun i _ => Finset.sum_congr rfl (fun j _ => by rw [h2, h1]))
    rw [e1, e2, e3, e4]
    have e5 : ∀ x : Fin n, ∑ j : Fin n, (if x < j then 6 * f 0 x.succ j.succ else 0)
        = 3 * ∑ j : Fin n, (if x < j then 2 * f 0 x.succ j.succ else 0) := by
      intro x
      rw [Finset.mul_sum]
      refine Finset.sum_congr rfl (fun j _ => ?_)
      split <;> ring
    simp only [e5, ← Finset.mul_sum]
    linarith

/-- a sum over the entries of a duplicate-free list of indices is the sum over all indices if the
summand vanishes elsewhere -/
theorem sum_list_get {n : ℕ} (l : List (Fin n)) (hl : l.Nodup) (g : Fin n → ℝ)
    (hg : ∀ i, i ∉ l → g i = 0) : ∑ i : Fin l.length, g (l.get i) = ∑ i, g i := by
  have h1 : ∑ i : Fin l.length, g (l.get i) = (l.map g).sum := by
    rw [← List.sum_ofFn]
    congr 1
    conv_rhs => rw [← List.ofFn_get l]
    rw [List.map_ofFn]
    rfl
  rw [h1, ← List.sum_toFinset g hl]
  refine Finset.sum_subset (Finset.subset_univ _) (fun i _ hi => hg i ?_)
  simpa using hi

/-- moles of the components after merging the components with equal image under `φ` -/
noncomputable def merge {n n' : ℕ} (φ : Fin n' → Fin n) (w : Fin n' → ℝ) (i : Fin n) : ℝ :=
  ∑ j, if φ j = i then w j else 0

theorem sum_merge {n n' : ℕ} (φ : Fin n' → Fin n) (w : Fin n' → ℝ) (f : Fin n → ℝ) :
    ∑ i, merge φ w i * f i = ∑ j, w j * f (φ j) := by
  simp only [merge, Finset.sum_mul]
  rw [Finset.sum_comm]
  refine Finset.sum_congr rfl (fun j _ => ?_)
  simp [ite_mul]

theorem sum_merge_one {n n' : ℕ} (φ : Fin n' → Fin n) (w : Fin n' → ℝ) :
    ∑ i, merge φ w i = ∑ j, w j := by
  simpa using sum_merge φ w (fun _ => 1)

theorem merge_div {n n' : ℕ} (φ : Fin n' → Fin n) (w : Fin n' → ℝ) (V : ℝ) :
    merge φ (fun j => w j / V) = fun i => merge φ w i / V := by
  funext i
  simp only [merge, Finset.sum_div]
  exact Finset.sum_congr rfl (fun j _ => by split <;> simp)

theorem sum_merge2 {n n' : ℕ} (φ : Fin n' → Fin n) (w : Fin n' → ℝ) (f : Fin n → Fin n → ℝ) :
    ∑ i, ∑ j, merge φ w i * merge φ w j * f i j = ∑ i, ∑ j, w i * w j * f (φ i) (φ j) := by
  simp only [mul_assoc, ← Finset.mul_sum]
  rw [sum_merge φ w (fun i => ∑ j, merge φ w j * f i j)]
  refine Finset.sum_congr rfl (fun i _ => ?_)
  rw [sum_merge φ w (fun j => f (φ i) j)]

theorem sum_merge3 {n n' : ℕ} (φ : Fin n' → Fin n) (w : Fin n' → ℝ) (f : Fin n → Fin n → Fin n → ℝ) :
    ∑ i, ∑ j, ∑ k, merge φ w i * merge φ w j * merge φ w k * f i j k
      = ∑ i, ∑ j, ∑ k, w i * w j * w k * f (φ i) (φ j) (φ k) := by
  simp only [mul_assoc, ← Finset.mul_sum]
  rw [sum_merge φ w (fun i => ∑ j, merge φ w j * ∑ k, merge φ w k * f i j k)]
  refine Finset.sum_congr rfl (fun i _ => ?_)
  rw [sum_merge φ w (fun j => ∑ k, merge φ w k * f (φ i) j k)]
  congr 1
  refine Finset.sum_congr rfl (fun j _ => ?_)
  rw [sum_merge φ w (fun k => f (φ i) (φ j) k)]

/-- for an injective map merging only moves the entries -/
theorem merge_apply_injective {n n' : ℕ} {φ : Fin n' → Fin n} (hφ : Function.Injective φ)
    (w : Fin n' → ℝ) (j : Fin n') : merge φ w (φ j) = w j := by
  simp only [merge]
  rw [Finset.sum_eq_single j]
  · simp
  · intro b _ hb
    rw [if_neg (fun h => hb (hφ h))]
  · simp

theorem merge_of_not_range {n n' : ℕ} {φ : Fin n' → Fin n} (w : Fin n' → ℝ) (i : Fin n)
    (hi : ∀ j, φ j ≠ i) : merge φ w i = 0 := by
  simp [merge, hi]

end PcSaft
