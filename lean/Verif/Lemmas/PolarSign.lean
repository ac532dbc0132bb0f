import Verif.Lemmas.DispersionSign
import Verif.Lemmas.PolarForms

/-!
# Signs of the integrals in the polar contributions

With `u = (m - 1) / m` for the mean segment number `m` the integrals are polynomials of second degree in `u` and of fourth
degree in the packing fraction. Their signs follow from Bernstein coefficients on `[0, 1/4]` and `[1/4, 1/2]`.
-/

namespace PcSaft
variable {n : ℕ}

theorem convex_pos {t a b : ℝ} (h0 : 0 ≤ t) (h1 : t ≤ 1) (ha : 0 < a) (hb : 0 < b) : 0 < (1 - t) * a + t * b := by
  rcases h0.eq_or_lt with h | h
  · rw [← h]
    linarith
  · have := mul_pos h hb
    have := mul_nonneg (sub_nonneg.2 h1) ha.le
    linarith

/-- a table of constants as a polynomial in the packing fraction and in `u` -/
noncomputable def tabForm (t : Fin 7 → Fin 3 → ℝ) (u y : ℝ) : ℝ := ∑ i, (t i 0 + u * t i 1 + u * (2 * u - 1) * t i 2) * y ^ (i : ℕ)

/-- polar form of `tabForm` in `u` -/
noncomputable def blossom (t : Fin 7 → Fin 3 → ℝ) (u v : ℝ) (i : Fin 7) : ℝ :=
  t i 0 + (u + v) / 2 * t i 1 + (2 * u * v - (u + v) / 2) * t i 2

theorem tabForm_pos {t : Fin 7 → Fin 3 → ℝ} {lo hi u y : ℝ} (h : lo < hi) (h0 : lo ≤ u) (h1 : u ≤ hi)
    (b0 : 0 < ∑ i, blossom t lo lo i * y ^ (i : ℕ)) (b1 : 0 < ∑ i, blossom t lo hi i * y ^ (i : ℕ))
    (b2 : 0 < ∑ i, blossom t hi hi i * y ^ (i : ℕ)) : 0 < tabForm t u y := by
  have hd : 0 < hi - lo := sub_pos.2 h
  obtain ⟨s, hs⟩ : ∃ s, s = (u - lo) / (hi - lo) := ⟨_, rfl⟩
  have hu : u = lo + s * (hi - lo) := by
    rw [hs]
    field_simp
    ring
  have hs0 : 0 ≤ s := hs ▸ div_nonneg (sub_nonneg.2 h0) hd.le
  have hs1 : s ≤ 1 := hs ▸ (div_le_one hd).2 (by linarith)
  have e : tabForm t u y = (1 - s) ^ 2 * (∑ i, blossom t lo lo i * y ^ (i : ℕ))
      + 2 * s * (1 - s) * (∑ i, blossom t lo hi i * y ^ (i : ℕ)) + s ^ 2 * ∑ i, blossom t hi hi i * y ^ (i : ℕ) := by
    unfold tabForm
    simp only [Finset.mul_sum, ← Finset.sum_add_distrib]
    refine Finset.sum_congr rfl fun i _ => ?_
    unfold blossom
    rw [hu]
    ring
  rw [e]
  have h2 : 0 ≤ 1 - s := by linarith
  rcases hs0.eq_or_lt with hz | hz
  · rw [← hz]
    norm_num
    exact b0
  · positivity

/-- table of a pair integral at the reduced inverse temperature `s` -/
def pairTab (a b : Fin 5 → Fin 3 → ℝ) (s : ℝ) : Fin 7 → Fin 3 → ℝ := fun i j =>
  if h : (i : ℕ) < 5 then a ⟨i, h⟩ j + s * b ⟨i, h⟩ j else 0

/-- table of a triplet integral -/
def tripTab (a : Fin 4 → Fin 3 → ℝ) : Fin 7 → Fin 3 → ℝ := fun i j => if h : (i : ℕ) < 4 then a ⟨i, h⟩ j else 0

/-- table of a triplet integral times `k` times the packing fraction -/
def tripTab' (k : ℝ) (a : Fin 4 → Fin 3 → ℝ) : Fin 7 → Fin 3 → ℝ := fun i j =>
  if h : (i : ℕ) - 1 < 4 ∧ 0 < (i : ℕ) then k * a ⟨i - 1, h.1⟩ j else 0

theorem tabForm_convex (a b : Fin 5 → Fin 3 → ℝ) (s q u y : ℝ) (hq : q ≠ 0) :
    tabForm (pairTab a b s) u y = (1 - s / q) * tabForm (pairTab a b 0) u y + s / q * tabForm (pairTab a b q) u y := by
  unfold tabForm
  simp only [Finset.mul_sum, ← Finset.sum_add_distrib]
  refine Finset.sum_congr rfl fun i _ => ?_
  unfold pairTab
  split_ifs
  · field_simp
    ring
  · ring

theorem tabForm_add (t t' : Fin 7 → Fin 3 → ℝ) (u y : ℝ) :
    tabForm (fun i j => t i j + t' i j) u y = tabForm t u y + tabForm t' u y := by
  unfold tabForm
  rw [← Finset.sum_add_distrib]
  exact Finset.sum_congr rfl fun i _ => by ring

theorem tripTab'_form (k : ℝ) (a : Fin 4 → Fin 3 → ℝ) (u y : ℝ) :
    tabForm (tripTab' k a) u y = k * y * tabForm (tripTab a) u y := by
  unfold tabForm
  simp only [Fin.sum_univ_succ, Fin.sum_univ_zero, tripTab, tripTab']
  norm_num [Fin.succ]
  ring

section
variable {u y s : ℝ}

/-- a statement about all `u` in `[0, 1/2]` from the two halves -/
theorem tab_halves {t : Fin 7 → Fin 3 → ℝ} (hu0 : 0 ≤ u) (hu1 : u ≤ 1 / 2)
    (h00 : 0 < ∑ i, blossom t 0 0 i * y ^ (i : ℕ)) (h01 : 0 < ∑ i, blossom t 0 (1 / 4) i * y ^ (i : ℕ))
    (h11 : 0 < ∑ i, blossom t (1 / 4) (1 / 4) i * y ^ (i : ℕ))
    (h12 : 0 < ∑ i, blossom t (1 / 4) (1 / 2) i * y ^ (i : ℕ))
    (h22 : 0 < ∑ i, blossom t (1 / 2) (1 / 2) i * y ^ (i : ℕ)) : 0 < tabForm t u y := by
  rcases le_total u (1 / 4) with h | h
  · exact tabForm_pos (by norm_num) hu0 h h00 h01 h11
  · exact tabForm_pos (by norm_num) h hu1 h11 h12 h22

theorem dipolePair0 (hu0 : 0 ≤ u) (hu1 : u ≤ 1 / 2) (hy : 0 ≤ y) (hy' : y ≤ 1 / 2) : 0 < tabForm (pairTab AD BD 0) u y := by
  refine tab_halves hu0 hu1 ?_ ?_ ?_ ?_ ?_ <;> refine poly6_pos hy hy' ?_ ?_ ?_ ?_ ?_ ?_ ?_ <;>
    · simp [blossom, pairTab, AD]
      norm_num

theorem dipolePair1 (hu0 : 0 ≤ u) (hu1 : u ≤ 1 / 2) (hy : 0 ≤ y) (hy' : y ≤ 1 / 2) :
    0 < tabForm (pairTab AD BD (3 / 2)) u y := by
  refine tab_halves hu0 hu1 ?_ ?_ ?_ ?_ ?_ <;> refine poly6_pos hy hy' ?_ ?_ ?_ ?_ ?_ ?_ ?_ <;>
    · simp [blossom, pairTab, AD, BD]
      norm_num

theorem dipolePair (hu0 : 0 ≤ u) (hu1 : u ≤ 1 / 2) (hy : 0 ≤ y) (hy' : y ≤ 1 / 2) (hs : 0 ≤ s) (hs' : s ≤ 3 / 2) :
    0 < tabForm (pairTab AD BD s) u y := by
  have h0 := dipolePair0 hu0 hu1 hy hy'
  have h1 := dipolePair1 hu0 hu1 hy hy'
  rw [tabForm_convex AD BD s (3 / 2) u y (by norm_num)]
  have h2 : s / (3 / 2) ≤ 1 := (div_le_one (by norm_num)).2 hs'
  exact convex_pos (by positivity) h2 h0 h1

theorem dipoleTriplet (hu0 : 0 ≤ u) (hu1 : u ≤ 1 / 2) (hy : 0 ≤ y) (hy' : y ≤ 1 / 2) :
    0 < tabForm (tripTab fun i j => -CD i j) u y := by
  refine tab_halves hu0 hu1 ?_ ?_ ?_ ?_ ?_ <;> refine poly6_pos hy hy' ?_ ?_ ?_ ?_ ?_ ?_ ?_ <;>
    · simp [blossom, tripTab, CD]
      norm_num

theorem quadPair0 (hu0 : 0 ≤ u) (hu1 : u ≤ 1 / 2) (hy : 0 ≤ y) (hy' : y ≤ 1 / 2) : 0 < tabForm (pairTab AQ BQ 0) u y := by
  refine tab_halves hu0 hu1 ?_ ?_ ?_ ?_ ?_ <;> refine poly6_pos hy hy' ?_ ?_ ?_ ?_ ?_ ?_ ?_ <;>
    · simp [blossom, pairTab, AQ]
      norm_num

theorem quadPair1 (hu0 : 0 ≤ u) (hu1 : u ≤ 1 / 2) (hy : 0 ≤ y) (hy' : y ≤ 1 / 2) :
    0 < tabForm (pairTab AQ BQ (3 / 2)) u y := by
  refine tab_halves hu0 hu1 ?_ ?_ ?_ ?_ ?_ <;> refine poly6_pos hy hy' ?_ ?_ ?_ ?_ ?_ ?_ ?_ <;>
    · simp [blossom, pairTab, AQ, BQ]
      norm_num

theorem quadPair (hu0 : 0 ≤ u) (hu1 : u ≤ 1 / 2) (hy : 0 ≤ y) (hy' : y ≤ 1 / 2) (hs : 0 ≤ s) (hs' : s ≤ 3 / 2) :
    0 < tabForm (pairTab AQ BQ s) u y := by
  have h0 := quadPair0 hu0 hu1 hy hy'
  have h1 := quadPair1 hu0 hu1 hy hy'
  rw [tabForm_convex AQ BQ s (3 / 2) u y (by norm_num)]
  have h2 : s / (3 / 2) ≤ 1 := (div_le_one (by norm_num)).2 hs'
  exact convex_pos (by positivity) h2 h0 h1

theorem quadPole0 (hu0 : 0 ≤ u) (hu1 : u ≤ 1 / 2) (hy : 0 ≤ y) (hy' : y ≤ 1 / 2) :
    0 < tabForm (fun i j => pairTab AQ BQ 0 i j + tripTab' (881 / 100) CQ i j) u y := by
  refine tab_halves hu0 hu1 ?_ ?_ ?_ ?_ ?_ <;> refine poly6_pos hy hy' ?_ ?_ ?_ ?_ ?_ ?_ ?_ <;>
    · simp [blossom, pairTab, tripTab', AQ, CQ]
      norm_num

theorem quadPole1 (hu0 : 0 ≤ u) (hu1 : u ≤ 1 / 2) (hy : 0 ≤ y) (hy' : y ≤ 1 / 2) :
    0 < tabForm (fun i j => pairTab AQ BQ 1 i j + tripTab' (881 / 100) CQ i j) u y := by
  refine tab_halves hu0 hu1 ?_ ?_ ?_ ?_ ?_ <;> refine poly6_pos hy hy' ?_ ?_ ?_ ?_ ?_ ?_ ?_ <;>
    · simp [blossom, pairTab, tripTab', AQ, BQ, CQ]
      norm_num

/-- up to the given strength the third-order term of the quadrupoles does not cancel the second-order term -/
theorem quadPole (hu0 : 0 ≤ u) (hu1 : u ≤ 1 / 2) (hy : 0 ≤ y) (hy' : y ≤ 1 / 2) (hs : 0 ≤ s) (hs' : s ≤ 1) {w : ℝ}
    (hw : 0 ≤ w) (hw' : w ≤ 881 / 100 * y) : 0 < tabForm (pairTab AQ BQ s) u y + w * tabForm (tripTab CQ) u y := by
  have h0 := quadPole0 hu0 hu1 hy hy'
  have h1 := quadPole1 hu0 hu1 hy hy'
  rw [tabForm_add, tripTab'_form] at h0 h1
  have hp := quadPair hu0 hu1 hy hy' hs (by linarith)
  rcases le_total 0 (tabForm (tripTab CQ) u y) with h | h
  · positivity
  · have hc := tabForm_convex AQ BQ s 1 u y one_ne_zero
    rw [div_one] at hc
    have h3 : 881 / 100 * y * tabForm (tripTab CQ) u y ≤ w * tabForm (tripTab CQ) u y :=
      mul_le_mul_of_nonpos_right hw' h
    have := convex_pos hs hs' h0 h1
    rw [hc]
    linarith

end

/-! ## The integrals of the code -/

theorem etas_real (y : ℝ) (i : Fin 5) : etas (F := ℝ) y i = y ^ (i : ℕ) := by
  unfold etas
  have e : (1.0 : ℝ) = 1 := by norm_num
  simp only [c, ofF_real, e]
  fin_cases i
  · simp
  · simp
  · simp [sq]
  · simp [pow_succ]
  · change y * y * (y * y) = y ^ 4
    ring

theorem meanSeg2_eq {m : ℝ} (hm : 0 < m) : meanSeg2 m = meanSeg1 m * (2 * meanSeg1 m - 1) := by
  unfold meanSeg2 meanSeg1
  have h1 : (1.0 : ℝ) = 1 := by norm_num
  have h2 : (2.0 : ℝ) = 2 := by norm_num
  rw [h1, h2]
  field_simp
  ring

theorem meanSeg1_mem {m : ℝ} (h1 : 1 ≤ m) (h2 : m ≤ 2) : 0 ≤ meanSeg1 m ∧ meanSeg1 m ≤ 1 / 2 := by
  unfold meanSeg1
  have e1 : (1.0 : ℝ) = 1 := by norm_num
  rw [e1]
  refine ⟨div_nonneg (by linarith) (by linarith), ?_⟩
  rw [div_le_iff₀ (by linarith)]
  linarith

theorem pairIntegral_tab {m : ℝ} (hm : 0 < m) (a b : Fin 5 → Fin 3 → ℝ) (y s : ℝ) :
    pairIntegral (by decide) (meanSeg1 m) (meanSeg2 m) y a b s = tabForm (pairTab a b s) (meanSeg1 m) y := by
  unfold pairIntegral tabForm
  rw [sumFin_real, meanSeg2_eq hm]
  simp only [etas_real, c, ofF_real]
  rw [Fin.sum_univ_castSucc (n := 6), Fin.sum_univ_castSucc (n := 5)]
  simp only [pairTab]
  norm_num
  refine Finset.sum_congr rfl fun i _ => ?_
  ring

theorem tripletIntegral_tab {m : ℝ} (hm : 0 < m) (a : Fin 4 → Fin 3 → ℝ) (y : ℝ) :
    tripletIntegral (meanSeg1 m) (meanSeg2 m) y a = tabForm (tripTab a) (meanSeg1 m) y := by
  unfold tripletIntegral tabForm
  rw [sumFin_real, meanSeg2_eq hm]
  simp only [etas_real, c, ofF_real]
  rw [Fin.sum_univ_castSucc (n := 6), Fin.sum_univ_castSucc (n := 5), Fin.sum_univ_castSucc (n := 4)]
  simp only [tripTab]
  norm_num
  refine Finset.sum_congr rfl fun i _ => ?_
  ring

section
variable {p : PcSaftParameters n ℝ} {T y : ℝ} {i j k : Fin n}

theorem min2_mem {x : ℝ} (h : 1 ≤ x) : 1 ≤ min x 2 ∧ min x 2 ≤ 2 := ⟨le_min h one_le_two, min_le_right _ _⟩

theorem mdqPair_mem (hi : 1 ≤ p.m i) (hj : 1 ≤ p.m j) : 1 ≤ mdqPair p i j ∧ mdqPair p i j ≤ 2 := by
  have h2 : (2.0 : ℝ) = 2 := by norm_num
  simp only [mdqPair, sqrt_real, min_real, h2]
  obtain ⟨a1, a2⟩ := min2_mem hi
  obtain ⟨b1, b2⟩ := min2_mem hj
  constructor
  · rw [Real.one_le_sqrt]
    nlinarith
  · refine Real.sqrt_le_iff.2 ⟨by norm_num, ?_⟩
    nlinarith

theorem mdqTriplet_mem (hi : 1 ≤ p.m i) (hj : 1 ≤ p.m j) (hk : 1 ≤ p.m k) :
    1 ≤ mdqTriplet p i j k ∧ mdqTriplet p i j k ≤ 2 := by
  have h2 : (2.0 : ℝ) = 2 := by norm_num
  obtain ⟨a1, a2⟩ := min2_mem hi
  obtain ⟨b1, b2⟩ := min2_mem hj
  obtain ⟨c1, c2⟩ := min2_mem hk
  simp only [mdqTriplet, cbrt_real, min_real, h2]
  generalize min (p.m i) 2 = a at *
  generalize min (p.m j) 2 = b at *
  generalize min (p.m k) 2 = d at *
  have h1 : 1 ≤ a * b * d := one_le_mul_of_one_le_of_one_le (one_le_mul_of_one_le_of_one_le a1 b1) c1
  have h8 : a * b * d ≤ 8 := by
    have : a * b ≤ 2 * 2 := mul_le_mul a2 b2 (by linarith) (by norm_num)
    have : a * b * d ≤ 2 * 2 * 2 := mul_le_mul this c2 (by linarith) (by norm_num)
    linarith
  have hpos : 0 < a * b * d := by linarith
  rw [sign_pos hpos, abs_of_pos hpos]
  rw [SignType.coe_one, one_mul]
  constructor
  · exact Real.one_le_rpow h1 (by norm_num)
  · calc (a * b * d) ^ (1 / 3 : ℝ) ≤ (8 : ℝ) ^ (1 / 3 : ℝ) := Real.rpow_le_rpow hpos.le h8 (by norm_num)
      _ = 2 := by
        rw [show (8 : ℝ) = 2 ^ (3 : ℝ) by norm_num, ← Real.rpow_mul (by norm_num)]
        norm_num

end

end PcSaft
