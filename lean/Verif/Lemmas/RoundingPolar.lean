import Verif.Lemmas.RoundingInputs

/-!
# Rounding errors of the polar contributions
-/

namespace PcSaft
open Spec Props
variable {a : Arithmetic} {n : ℕ}

/-- parameters of the polar terms of the code with rounding -/
structure PolarAgree (a : Arithmetic) (p : PcSaftParameters n ℝ) (p' : PcSaftParameters n (Rd a)) : Prop where
  e_k_ij : ∀ i j, Agrees a 2 (p.e_k_ij i j) (p'.e_k_ij i j)
  mu2 : ∀ i, Agrees a 11 (p.mu2 i) (p'.mu2 i)
  q2 : ∀ i, Agrees a 14 (p.q2 i) (p'.q2 i)
  dipole_comp : p'.dipole_comp = p.dipole_comp
  quadpole_comp : p'.quadpole_comp = p.quadpole_comp

/-- size of the terms of a pair integral -/
noncomputable def pairSize {q : ℕ} (A B : Fin q → Fin 3 → ℝ) (m eta e : ℝ) : ℝ :=
  ∑ r : Fin q, (Fluid.coeffSize (A r 0) (A r 1) (A r 2) m + Fluid.coeffSize (B r 0) (B r 1) (B r 2) m * e) * eta ^ (r : ℕ)

/-- size of the terms of a triplet integral -/
noncomputable def tripletSize {q : ℕ} (A : Fin q → Fin 3 → ℝ) (m eta : ℝ) : ℝ :=
  ∑ r : Fin q, Fluid.coeffSize (A r 0) (A r 1) (A r 2) m * eta ^ (r : ℕ)

section
variable (h : Relative a)
include h

/-! ### Elementary operations -/

omit h in
theorem cbrt_nonneg_real {x : ℝ} (hx : 0 ≤ x) : F64.cbrt x = x ^ (1 / 3 : ℝ) := by
  rw [cbrt_real]
  rcases hx.lt_or_eq with h0 | h0
  · rw [sign_pos h0, abs_of_pos h0]
    simp
  · rw [← h0]
    simp

theorem agrees_cbrt {k : ℕ} {x : ℝ} {x' : Rd a} (hx : Agrees a k x x') :
    Agrees a (k + 1) (F64.cbrt x) (F64.cbrt x') := by
  have g := growth_pow h k
  have hx' := hx.val_nonneg h
  have g' : (Growth a ^ k) ^ (1 / 3 : ℝ) ≤ Growth a ^ k := Real.rpow_le_self_of_one_le g (by norm_num)
  have e : Agrees a k (F64.cbrt x) ⟨F64.cbrt x'.val⟩ := by
    rw [cbrt_nonneg_real hx.nonneg, cbrt_nonneg_real hx']
    refine ⟨Real.rpow_nonneg hx.nonneg _, ?_, ?_⟩
    · calc x ^ (1 / 3 : ℝ) ≤ (x'.val * Growth a ^ k) ^ (1 / 3 : ℝ) :=
            Real.rpow_le_rpow hx.nonneg hx.lower (by norm_num)
        _ = x'.val ^ (1 / 3 : ℝ) * (Growth a ^ k) ^ (1 / 3 : ℝ) := Real.mul_rpow hx' (by linarith)
        _ ≤ _ := mul_le_mul_of_nonneg_left g' (Real.rpow_nonneg hx' _)
    · calc x'.val ^ (1 / 3 : ℝ) ≤ (x * Growth a ^ k) ^ (1 / 3 : ℝ) :=
            Real.rpow_le_rpow hx' hx.upper (by norm_num)
        _ = x ^ (1 / 3 : ℝ) * (Growth a ^ k) ^ (1 / 3 : ℝ) := Real.mul_rpow hx.nonneg (by linarith)
        _ ≤ _ := mul_le_mul_of_nonneg_left g' (Real.rpow_nonneg hx.nonneg _)
  exact e.trans h (.round h (h.cbrt _) (e.val_nonneg h))

/-- quotient of signed numbers; the denominator is not much smaller than its terms -/
theorem differs_quotient {k l : ℕ} {s t x y : ℝ} {x' y' : Rd a} (hx : Differs a k s x x') (hy : Differs a l t y y') {κ : ℕ}
    (hy0 : y ≠ 0) (ht : t ≤ κ * |y|) (hκ : κ * (Growth a ^ l - 1) ≤ 1 / 2) :
    Differs a (k + l * (2 * κ) + 1) (s / |y|) (x / y) (x' / y') := by
  have key : ∀ (z : ℝ) (z' : Rd a), 0 < z → Differs a l t z z' → t ≤ κ * z → ∀ (v : ℝ) (v' : Rd a), Differs a k s v v' →
      z'.val ≠ 0 ∧ Differs a (k + l * (2 * κ)) (s / z) (v / z) ⟨v'.val / z'.val⟩ := by
    intro z z' hz hd hs v v' hv
    have ag := hd.agrees h hs hz.le hκ
    have := hv.mulE h ((ag.invE h hz).differs h)
    rw [← div_eq_mul_inv, ← div_eq_mul_inv] at this
    exact ⟨(ag.val_pos h hz).ne', this⟩
  have main : y'.val ≠ 0 ∧ Differs a (k + l * (2 * κ)) (s / |y|) (x / y) ⟨x'.val / y'.val⟩ := by
    rcases lt_or_gt_of_ne hy0 with hn | hp
    · rw [abs_of_neg hn] at ht ⊢
      obtain ⟨e1, e2⟩ := key (-y) (-y') (by linarith) hy.neg ht (-x) (-x') hx.neg
      have n1 : (-y' : Rd a).val = -y'.val := rfl
      have n2 : (-x' : Rd a).val = -x'.val := rfl
      rw [n1, n2, neg_div_neg_eq, neg_div_neg_eq] at e2
      rw [n1, neg_ne_zero] at e1
      exact ⟨e1, e2⟩
    · rw [abs_of_pos hp] at ht ⊢
      exact key y y' hp hy ht x x' hx
  exact main.2.round h (h.div _ _ main.1)

theorem differs_times {k : ℕ} {s x b : ℝ} {r b' : Rd a} (hd : Differs a k s x r) (hb : Agrees a 0 b b') :
    Differs a (k + 1) (b * s) (b * x) (r * b') := by
  have := hd.mul h (hb.differs h)
  rwa [mul_comm _ b, mul_comm _ b] at this

/-! ### Loops -/

omit h in
theorem differs_loop {L q K : ℕ} {fs fx : ℝ → Fin L → ℝ} {fr : Rd a → Fin L → Rd a}
    (hstep : ∀ i k s x r, K ≤ k → Differs a k s x r → Differs a (k + q) (fs s i) (fx x i) (fr r i)) {k : ℕ} {s x : ℝ} {r : Rd a}
    (hk : K ≤ k) (h0 : Differs a k s x r) :
    Differs a (k + q * L) (Fin.foldl L fs s) (Fin.foldl L fx x) (Fin.foldl L fr r) := by
  induction L with
  | zero => simpa using h0
  | succ L ih =>
    rw [Fin.foldl_succ_last, Fin.foldl_succ_last, Fin.foldl_succ_last]
    have := hstep (Fin.last L) _ _ _ _ (hk.trans (Nat.le_add_right k (q * L)))
      (ih (fs := fun s i => fs s i.castSucc) (fx := fun x i => fx x i.castSucc) (fr := fun r i => fr r i.castSucc)
        (fun i => hstep i.castSucc))
    rw [Nat.mul_succ, ← add_assoc]
    exact this

theorem differs_upper {L q K : ℕ} (i : Fin L) {fs fx : ℝ → Fin L → ℝ} {fr : Rd a → Fin L → Rd a}
    (hstep : ∀ j, i < j → ∀ k s x r, K ≤ k → Differs a k s x r → Differs a (k + q) (fs s j) (fx x j) (fr r j)) {k : ℕ}
    {s x : ℝ} {r : Rd a} (hk : K ≤ k) (h0 : Differs a k s x r) :
    Differs a (k + q * L) (foldUpper i fs s) (foldUpper i fx x) (foldUpper i fr r) := by
  unfold foldUpper
  refine differs_loop (K := K) (fun j k s x r hk hd => ?_) hk h0
  by_cases hij : i < j
  · rw [if_pos hij, if_pos hij, if_pos hij]
    exact hstep j hij k s x r hk hd
  · rw [if_neg hij, if_neg hij, if_neg hij]
    exact hd.mono h (Nat.le_add_right k q) le_rfl

/-- the pair loop of the polar terms -/
theorem differs_pairLoop (comp : List (Fin n)) (hnd : comp.Nodup) {f S : Fin n → Fin n → ℝ} (hf : ∀ i j, f i j = f j i)
    (hS : ∀ i j, S i j = S j i) (fz : ∀ i j, i ∉ comp → f i j = 0) (Sz : ∀ i j, i ∉ comp → S i j = 0) {K : ℕ}
    {t : Fin comp.length → Rd a} {t2 : Fin comp.length → Fin comp.length → Rd a}
    (ht : ∀ i, Differs a K (S (comp.get i) (comp.get i)) (f (comp.get i) (comp.get i)) (t i))
    (ht2 : ∀ i j, i < j → Differs a K (2 * S (comp.get i) (comp.get j)) (2 * f (comp.get i) (comp.get j)) (t2 i j)) :
    Differs a (K + (1 + comp.length) * comp.length) (∑ i, ∑ j, S i j) (-∑ i, ∑ j, f i j)
      (Fin.foldl comp.length (fun acc i => foldUpper i (fun acc j => acc - t2 i j) (acc - t i)) (c (0.0 : Rd a))) := by
  have e := pairLoop_real comp hnd (fun i j => -S i j) (fun i j => by rw [hS]) (fun i j hi => by rw [Sz i j hi, neg_zero])
  simp only [Finset.sum_neg_distrib, neg_neg] at e
  rw [← e, ← pairLoop_real comp hnd f hf fz]
  refine differs_loop (K := K) (fun i k s x r hk hd => ?_) le_rfl Differs.zero
  have h1 := hd.sub h ((ht i).mono h hk le_rfl)
  have h2 := differs_upper h (q := 1) (K := K) i (fs := fun s j => s - 2 * -S (comp.get i) (comp.get j))
    (fx := fun x j => x - 2 * f (comp.get i) (comp.get j)) (fr := fun r j => r - t2 i j)
    (fun j hij k s x r hk hd => by
      have := hd.sub h ((ht2 i j hij).mono h hk le_rfl)
      rwa [show s + 2 * S (comp.get i) (comp.get j) = s - 2 * -S (comp.get i) (comp.get j) by ring] at this)
    (show K ≤ k + 1 by omega) h1
  rw [show s + S (comp.get i) (comp.get i) = s - -S (comp.get i) (comp.get i) by ring] at h2
  rwa [one_mul, add_assoc] at h2

/-- the triplet loop of the polar terms, accumulating by `op` with the sign `e` -/
theorem differs_tripletLoop (comp : List (Fin n)) (hnd : comp.Nodup) {f S : Fin n → Fin n → Fin n → ℝ}
    (f1 : ∀ i j k, f i j k = f j i k) (f2 : ∀ i j k, f i j k = f i k j) (S1 : ∀ i j k, S i j k = S j i k)
    (S2 : ∀ i j k, S i j k = S i k j) (fz : ∀ i j k, i ∉ comp → f i j k = 0) (Sz : ∀ i j k, i ∉ comp → S i j k = 0) {K : ℕ}
    {e : ℝ} {op : Rd a → Rd a → Rd a} (hop : ∀ {k s t x y r r'}, Differs a k s x r → Differs a k t y r' →
      Differs a (k + 1) (s + t) (x + e * y) (op r r'))
    {t : Fin comp.length → Rd a} {tij tjj : Fin comp.length → Fin comp.length → Rd a}
    {tk : Fin comp.length → Fin comp.length → Fin comp.length → Rd a}
    (ht : ∀ i, Differs a K (S (comp.get i) (comp.get i) (comp.get i)) (f (comp.get i) (comp.get i) (comp.get i)) (t i))
    (h1 : ∀ i j, i < j → Differs a K (3 * S (comp.get i) (comp.get i) (comp.get j))
      (3 * f (comp.get i) (comp.get i) (comp.get j)) (tij i j))
    (h2 : ∀ i j, i < j → Differs a K (3 * S (comp.get i) (comp.get j) (comp.get j))
      (3 * f (comp.get i) (comp.get j) (comp.get j)) (tjj i j))
    (h3 : ∀ i j k, i < j → j < k → Differs a K (6 * S (comp.get i) (comp.get j) (comp.get k))
      (6 * f (comp.get i) (comp.get j) (comp.get k)) (tk i j k)) :
    Differs a (K + (1 + (2 + comp.length) * comp.length) * comp.length) (∑ i, ∑ j, ∑ k, S i j k)
      (e * ∑ i, ∑ j, ∑ k, f i j k)
      (Fin.foldl comp.length (fun acc i => foldUpper i (fun acc j => foldUpper j (fun acc k => op acc (tk i j k))
        (op (op acc (tij i j)) (tjj i j))) (op acc (t i))) (c (0.0 : Rd a))) := by
  have ee := tripletLoop_real comp hnd (fun i j k => e * f i j k) (fun i j k => by rw [f1]) (fun i j k => by rw [f2])
    (fun i j k hi => by rw [fz i j k hi, mul_zero])
  simp only [← Finset.mul_sum] at ee
  rw [← ee, ← tripletLoop_real comp hnd S S1 S2 Sz]
  refine differs_loop (K := K) (fun i k s x r hk hd => ?_) le_rfl Differs.zero
  have g1 := hop hd ((ht i).mono h hk le_rfl)
  have g2 := differs_upper h (q := 2 + comp.length) (K := K) i
    (fs := fun acc j => foldUpper j (fun acc k => acc + 6 * S (comp.get i) (comp.get j) (comp.get k))
      (acc + 3 * S (comp.get i) (comp.get i) (comp.get j) + 3 * S (comp.get i) (comp.get j) (comp.get j)))
    (fx := fun acc j => foldUpper j (fun acc k => acc + 6 * (e * f (comp.get i) (comp.get j) (comp.get k)))
      (acc + 3 * (e * f (comp.get i) (comp.get i) (comp.get j)) + 3 * (e * f (comp.get i) (comp.get j) (comp.get j))))
    (fr := fun acc j => foldUpper j (fun acc k => op acc (tk i j k)) (op (op acc (tij i j)) (tjj i j)))
    (fun j hij k s x r hk hd => by
      have u1 := hop hd ((h1 i j hij).mono h hk le_rfl)
      have u2 := hop u1 ((h2 i j hij).mono h (hk.trans (Nat.le_succ k)) le_rfl)
      have u3 := differs_upper h (q := 1) (K := K) j
        (fs := fun s l => s + 6 * S (comp.get i) (comp.get j) (comp.get l))
        (fx := fun x l => x + 6 * (e * f (comp.get i) (comp.get j) (comp.get l))) (fr := fun r l => op r (tk i j l))
        (fun l hjl k s x r hk hd => by
          have := hop hd ((h3 i j l hij hjl).mono h hk le_rfl)
          rwa [show x + e * (6 * f (comp.get i) (comp.get j) (comp.get l))
            = x + 6 * (e * f (comp.get i) (comp.get j) (comp.get l)) by ring] at this)
        (show K ≤ k + 1 + 1 by omega) u2
      rw [show x + e * (3 * f (comp.get i) (comp.get i) (comp.get j)) + e * (3 * f (comp.get i) (comp.get j) (comp.get j))
        = x + 3 * (e * f (comp.get i) (comp.get i) (comp.get j)) + 3 * (e * f (comp.get i) (comp.get j) (comp.get j)) by ring,
        one_mul, add_assoc, add_assoc, ← add_assoc 1 1] at u3
      exact u3)
    (show K ≤ k + 1 by omega) g1
  rwa [add_assoc] at g2

/-- a loop that adds -/
theorem differs_sumLoop (comp : List (Fin n)) (hnd : comp.Nodup) {f S : Fin n → ℝ} (fz : ∀ i, i ∉ comp → f i = 0)
    (Sz : ∀ i, i ∉ comp → S i = 0) {K q : ℕ} {step : Rd a → Fin comp.length → Rd a}
    (ht : ∀ i k s x r, K ≤ k → Differs a k s x r →
      Differs a (k + q) (s + S (comp.get i)) (x + f (comp.get i)) (step r i)) {k : ℕ} {s x : ℝ} {r : Rd a} (hk : K ≤ k)
    (h0 : Differs a k s x r) :
    Differs a (k + q * n) (s + ∑ i, S i) (x + ∑ i, f i) (Fin.foldl comp.length step r) := by
  rw [← sum_list_get comp hnd f fz, ← sum_list_get comp hnd S Sz]
  have := differs_loop (K := K) (q := q) (fs := fun s i => s + S (comp.get i)) (fx := fun x i => x + f (comp.get i)) (fr := step)
    (fun i k s x r hk hd => ht i k s x r hk hd) hk h0
  rw [foldl_add_real, foldl_add_real] at this
  exact this.mono h (Nat.add_le_add_left (Nat.mul_le_mul_left q (by simpa using hnd.length_le_card)) k) le_rfl

/-! ### Constants -/

theorem differs_dipole_constants : (∀ i j, Differs a 1 |(AD i j : ℝ)| (AD i j) (AD i j))
    ∧ (∀ i j, Differs a 1 |(BD i j : ℝ)| (BD i j) (BD i j)) ∧ ∀ i j, Differs a 1 |(CD i j : ℝ)| (CD i j) (CD i j) := by
  refine ⟨fun i j => ?_, fun i j => ?_, fun i j => ?_⟩ <;> fin_cases i <;> fin_cases j <;>
    first | exact differs_lit h _ _ _ | exact differs_neg_lit h _ _ _

theorem differs_quadrupole_constants : (∀ i j, Differs a 1 |(AQ i j : ℝ)| (AQ i j) (AQ i j))
    ∧ (∀ i j, Differs a 1 |(BQ i j : ℝ)| (BQ i j) (BQ i j)) ∧ ∀ i j, Differs a 1 |(CQ i j : ℝ)| (CQ i j) (CQ i j) := by
  refine ⟨fun i j => ?_, fun i j => ?_, fun i j => ?_⟩ <;> fin_cases i <;> fin_cases j <;>
    first | exact differs_lit h _ _ _ | exact differs_neg_lit h _ _ _

theorem differs_mixed_constants : (∀ i j, Differs a 1 |(ADQ i j : ℝ)| (ADQ i j) (ADQ i j))
    ∧ (∀ i j, Differs a 1 |(BDQ i j : ℝ)| (BDQ i j) (BDQ i j)) ∧ ∀ i j, Differs a 1 |(CDQ i j : ℝ)| (CDQ i j) (CDQ i j) := by
  refine ⟨fun i j => ?_, fun i j => ?_, fun i j => ?_⟩ <;> fin_cases i <;> fin_cases j <;>
    first | exact differs_lit h _ _ _ | exact differs_neg_lit h _ _ _

/-! ### Integrals -/

theorem agrees_etas {k : ℕ} {eta : ℝ} {eta' : Rd a} (he : Agrees a k eta eta') (r : Fin 5) :
    Agrees a (4 * k + 3) (eta ^ (r : ℕ)) (etas eta' r) := by
  have e2 := he.mul h he
  have e3 := e2.mul h he
  have e4 := e2.mul h e2
  have h1 : eta * eta = eta ^ 2 := by ring
  have h2 : eta ^ 2 * eta = eta ^ 3 := by ring
  have h3 : eta ^ 2 * eta ^ 2 = eta ^ 4 := by ring
  rw [h1] at e2 e3 e4
  rw [h2] at e3
  rw [h3] at e4
  fin_cases r
  · have := (Agrees.one h).mono h (show 0 ≤ 4 * k + 3 by omega)
    rw [← pow_zero eta] at this
    exact this
  · have := he.mono h (show k ≤ 4 * k + 3 by omega)
    rw [← pow_one eta] at this
    exact this
  · exact e2.mono h (by omega)
  · exact e3.mono h (by omega)
  · exact e4.mono h (by omega)

theorem differs_meanSeg {m : ℝ} {m' : Rd a} (hm : Agrees a 3 m m') (h0 : 0 < m) :
    Differs a 8 ((m + 1) / m) (meanSeg1 m) (meanSeg1 m')
      ∧ Differs a 17 ((m + 1) / m * (m + 2) / m) (meanSeg2 m) (meanSeg2 m') := by
  have h1 : (1.0 : ℝ) = 1 := by norm_num
  have h2 : (2.0 : ℝ) = 2 := by norm_num
  have d1 := ((hm.differs h).sub h (((Agrees.one h).mono h (Nat.zero_le 3)).differs h)).div h hm h0
  have d2 := (hm.differs h).sub h (((agrees_two h).mono h (Nat.zero_le 3)).differs h)
  have d3 := (d1.mul h d2).div h hm h0
  unfold meanSeg1 meanSeg2 meanSeg1
  rw [h1, h2]
  exact ⟨d1.mono h (by omega) le_rfl, d3.mono h (by omega) le_rfl⟩

/-- coefficients -/
theorem differs_coeff {m : ℝ} {m' : Rd a} (hm : Agrees a 3 m m') (h0 : 0 < m) {b0 b1 b2 : ℝ} {b0' b1' b2' : Rd a}
    (d0 : Differs a 1 |b0| b0 b0') (d1 : Differs a 1 |b1| b1 b1') (d2 : Differs a 1 |b2| b2 b2') :
    Differs a 20 (Fluid.coeffSize b0 b1 b2 m) (b0 + meanSeg1 m * b1 + meanSeg2 m * b2)
      (b0' + meanSeg1 m' * b1' + meanSeg2 m' * b2') := by
  obtain ⟨m1, m2⟩ := differs_meanSeg h hm h0
  have t := (((d0.mono h (show _ ≤ 10 by omega) le_rfl).add h (m1.mul h d1)).mono h (show _ ≤ 19 by omega) le_rfl).add h
    (m2.mul h d2)
  rw [show |b0| + (m + 1) / m * |b1| + (m + 1) / m * (m + 2) / m * |b2| = Fluid.coeffSize b0 b1 b2 m by
    rw [Fluid.coeffSize]; ring] at t
  exact t

theorem differs_pairIntegral {q : ℕ} (hq : q ≤ 5) {A B : Fin q → Fin 3 → ℝ} {A' B' : Fin q → Fin 3 → Rd a}
    (hA : ∀ i j, Differs a 1 |A i j| (A i j) (A' i j)) (hB : ∀ i j, Differs a 1 |B i j| (B i j) (B' i j)) {m : ℝ} {m' : Rd a}
    (hm : Agrees a 3 m m') (h0 : 0 < m) {k : ℕ} {eta : ℝ} {eta' : Rd a} (he : Agrees a k eta eta') {e : ℝ} {e' : Rd a}
    (hε : Agrees a 4 e e') :
    Differs a (4 * k + 37) (pairSize A B m eta e) (pairIntegral hq (meanSeg1 m) (meanSeg2 m) eta A B e)
      (pairIntegral hq (meanSeg1 m') (meanSeg2 m') eta' A' B' e') := by
  obtain ⟨m1, m2⟩ := differs_meanSeg h hm h0
  have t : ∀ r : Fin q, Differs a (4 * k + 32)
      ((Fluid.coeffSize (A r 0) (A r 1) (A r 2) m + Fluid.coeffSize (B r 0) (B r 1) (B r 2) m * e) * eta ^ (r : ℕ))
      (etas eta (r.castLE hq) * (e * c (B r 0 + meanSeg1 m * B r 1 + meanSeg2 m * B r 2) + c (A r 0)
        + c (meanSeg1 m * A r 1) + c (meanSeg2 m * A r 2)))
      (etas eta' (r.castLE hq) * (e' * c (B' r 0 + meanSeg1 m' * B' r 1 + meanSeg2 m' * B' r 2) + c (A' r 0)
        + c (meanSeg1 m' * A' r 1) + c (meanSeg2 m' * A' r 2))) := fun r => by
    have e1 := (hε.differs h).mul h (differs_coeff h hm h0 (hB r 0) (hB r 1) (hB r 2))
    have e2 := e1.add h ((hA r 0).mono h (show _ ≤ 4 + 20 + 1 by omega) le_rfl)
    have e3 := e2.add h ((m1.mul h (hA r 1)).mono h (show _ ≤ 4 + 20 + 1 + 1 by omega) le_rfl)
    have e4 := e3.add h ((m2.mul h (hA r 2)).mono h (show _ ≤ 4 + 20 + 1 + 1 + 1 by omega) le_rfl)
    have e5 := ((agrees_etas h he (r.castLE hq)).differs h).mul h e4
    have u : eta ^ ((r.castLE hq : Fin 5) : ℕ) * (e * Fluid.coeffSize (B r 0) (B r 1) (B r 2) m + |A r 0|
        + (m + 1) / m * |A r 1| + (m + 1) / m * (m + 2) / m * |A r 2|)
        = (Fluid.coeffSize (A r 0) (A r 1) (A r 2) m + Fluid.coeffSize (B r 0) (B r 1) (B r 2) m * e) * eta ^ (r : ℕ) := by
      rw [Fin.val_castLE, show Fluid.coeffSize (A r 0) (A r 1) (A r 2) m = |A r 0| + (m + 1) / m * |A r 1|
        + (m + 1) / m * ((m + 2) / m) * |A r 2| from rfl]
      ring
    rw [u] at e5
    rw [etas_pow]
    exact e5.mono h (by omega) le_rfl
  have := Differs.sumFin h t
  rw [pairIntegral, sumFin_real]
  exact this.mono h (by omega) le_rfl

theorem differs_tripletIntegral {A : Fin 4 → Fin 3 → ℝ} {A' : Fin 4 → Fin 3 → Rd a}
    (hA : ∀ i j, Differs a 1 |A i j| (A i j) (A' i j)) {m : ℝ} {m' : Rd a}
    (hm : Agrees a 3 m m') (h0 : 0 < m) {k : ℕ} {eta : ℝ} {eta' : Rd a} (he : Agrees a k eta eta') :
    Differs a (4 * k + 28) (tripletSize A m eta) (tripletIntegral (meanSeg1 m) (meanSeg2 m) eta A)
      (tripletIntegral (meanSeg1 m') (meanSeg2 m') eta' A') := by
  have t : ∀ r : Fin 4, Differs a (4 * k + 24) (Fluid.coeffSize (A r 0) (A r 1) (A r 2) m * eta ^ (r : ℕ))
      (etas eta (r.castLE (by decide)) * c (A r 0 + meanSeg1 m * A r 1 + meanSeg2 m * A r 2))
      (etas eta' (r.castLE (by decide)) * c (A' r 0 + meanSeg1 m' * A' r 1 + meanSeg2 m' * A' r 2)) := fun r => by
    have e1 := ((agrees_etas h he (r.castLE (by decide))).differs h).mul h
      (differs_coeff h hm h0 (hA r 0) (hA r 1) (hA r 2))
    rw [Fin.val_castLE, mul_comm (eta ^ (r : ℕ)) (Fluid.coeffSize _ _ _ _)] at e1
    rw [etas_pow, Fin.val_castLE]
    exact e1.mono h (by omega) le_rfl
  have := Differs.sumFin h t
  rw [tripletIntegral, sumFin_real]
  exact this.mono h (by omega) le_rfl

theorem differs_tripletIntegralDQ {A : Fin 3 → Fin 2 → ℝ} {A' : Fin 3 → Fin 2 → Rd a}
    (hA : ∀ i j, Differs a 1 |A i j| (A i j) (A' i j)) {m : ℝ} {m' : Rd a}
    (hm : Agrees a 3 m m') (h0 : 0 < m) {k : ℕ} {eta : ℝ} {eta' : Rd a} (he : Agrees a k eta eta') :
    Differs a (4 * k + 18) (tripletSize (fun r => ![A r 0, A r 1, 0]) m eta) (tripletIntegralDQ (meanSeg1 m) eta A)
      (tripletIntegralDQ (meanSeg1 m') eta' A') := by
  obtain ⟨m1, -⟩ := differs_meanSeg h hm h0
  have t : ∀ r : Fin 3, Differs a (4 * k + 15) (Fluid.coeffSize (A r 0) (A r 1) 0 m * eta ^ (r : ℕ))
      (etas eta (r.castLE (by decide)) * c (A r 0 + meanSeg1 m * A r 1))
      (etas eta' (r.castLE (by decide)) * c (A' r 0 + meanSeg1 m' * A' r 1)) := fun r => by
    have e0 := ((hA r 0).mono h (show _ ≤ 10 by omega) le_rfl).add h (m1.mul h (hA r 1))
    have e1 := ((agrees_etas h he (r.castLE (by decide))).differs h).mul h e0
    rw [Fin.val_castLE, show eta ^ (r : ℕ) * (|A r 0| + (m + 1) / m * |A r 1|)
      = Fluid.coeffSize (A r 0) (A r 1) 0 m * eta ^ (r : ℕ) by rw [Fluid.coeffSize, abs_zero]; ring] at e1
    rw [etas_pow, Fin.val_castLE]
    exact e1.mono h (by omega) le_rfl
  have := Differs.sumFin h t
  rw [tripletIntegralDQ, sumFin_real]
  exact this.mono h (by omega) le_rfl

/-! ### Segment numbers -/

section segments
variable {p : PcSaftParameters n ℝ} {p' : PcSaftParameters n (Rd a)} (hp : ParametersAgree a p p')
include hp

theorem agrees_min (i : Fin n) : Agrees a 0 (F64.min (p.m i) 2.0) (F64.min (p'.m i) 2.0) := by
  have h2 : (2.0 : ℝ) = 2 := by norm_num
  have hm := hp.m i
  have ht := agrees_two h
  rw [min_real, h2]
  refine ⟨le_min hm.nonneg two_pos.le, ?_, ?_⟩
  · have l1 := hm.lower
    have l2 := ht.lower
    rw [pow_zero, mul_one] at l1 l2 ⊢
    exact min_le_min l1 l2
  · have l1 := hm.upper
    have l2 := ht.upper
    rw [pow_zero, mul_one] at l1 l2 ⊢
    exact min_le_min l1 l2

theorem agrees_mdqPair (i j : Fin n) : Agrees a 2 (mdqPair p i j) (mdqPair p' i j) := by
  have := ((agrees_min h hp i).mul h (agrees_min h hp j)).sqrt h
  rw [mdqPair, sqrt_real]
  exact this

theorem agrees_mdqTriplet (i j k : Fin n) : Agrees a 3 (mdqTriplet p i j k) (mdqTriplet p' i j k) :=
  agrees_cbrt h (((agrees_min h hp i).mul h (agrees_min h hp j)).mul h (agrees_min h hp k))

theorem rounded_mij (comp : List (Fin n)) (i j : Fin comp.length) (hij : i ≤ j) :
    ∃ m', Agrees a 3 (mdqPair p (comp.get i) (comp.get j)) m' ∧ (MeanSegmentNumbers.new p'.m comp).mij1 i j = meanSeg1 m'
      ∧ (MeanSegmentNumbers.new p'.m comp).mij2 i j = meanSeg2 m' := by
  rcases hij.eq_or_lt with rfl | hlt
  · refine ⟨F64.min (p'.m (comp.get i)) 2.0, ?_, ?_, ?_⟩
    · rw [mdqPair_self _ _ (hp.m _).nonneg]
      exact (agrees_min h hp _).mono h (by omega)
    · simp only [MeanSegmentNumbers.new, if_true]
    · simp only [MeanSegmentNumbers.new, if_true]
  · refine ⟨mdqPair p' (comp.get i) (comp.get j), (agrees_mdqPair h hp _ _).mono h (by omega), ?_, ?_⟩
    · simp only [MeanSegmentNumbers.new, if_neg hlt.ne, if_pos hlt, mdqPair]
    · simp only [MeanSegmentNumbers.new, if_neg hlt.ne, if_pos hlt, mdqPair]

theorem rounded_mijk (comp : List (Fin n)) (i j k : Fin comp.length) (hij : i ≤ j) (hjk : j ≤ k) :
    ∃ m', Agrees a 3 (mdqTriplet p (comp.get i) (comp.get j) (comp.get k)) m'
      ∧ (MeanSegmentNumbers.new p'.m comp).mijk1 i j k = meanSeg1 m'
      ∧ (MeanSegmentNumbers.new p'.m comp).mijk2 i j k = meanSeg2 m' := by
  rcases hij.eq_or_lt with rfl | hlt <;> rcases hjk.eq_or_lt with rfl | hlt'
  · refine ⟨F64.min (p'.m (comp.get i)) 2.0, ?_, ?_, ?_⟩
    · rw [mdqTriplet_self]
      exact (agrees_min h hp _).mono h (by omega)
    · simp only [MeanSegmentNumbers.new, and_self, if_true]
    · simp only [MeanSegmentNumbers.new, and_self, if_true]
  · refine ⟨_, agrees_mdqTriplet h hp _ _ _, ?_, ?_⟩ <;>
      simp only [MeanSegmentNumbers.new, hlt'.ne, hlt', and_false, and_true, if_true, if_false, mdqTriplet]
  · refine ⟨_, agrees_mdqTriplet h hp _ _ _, ?_, ?_⟩ <;>
      simp only [MeanSegmentNumbers.new, hlt.ne, hlt, false_and, and_true, if_true, if_false, mdqTriplet]
  · refine ⟨_, agrees_mdqTriplet h hp _ _ _, ?_, ?_⟩ <;>
      simp only [MeanSegmentNumbers.new, hlt.ne, hlt, hlt'.ne, hlt', and_false, and_true, if_true, if_false, mdqTriplet]

omit h hp in
theorem mdqPair_pos (hm : ∀ i, 0 < p.m i) (i j : Fin n) : 0 < mdqPair p i j := by
  have h2 : (2.0 : ℝ) = 2 := by norm_num
  rw [mdqPair, sqrt_real, min_real, min_real, h2]
  exact Real.sqrt_pos.2 (mul_pos (lt_min (hm i) two_pos) (lt_min (hm j) two_pos))

omit h hp in
theorem mdqTriplet_pos (hm : ∀ i, 0 < p.m i) (i j k : Fin n) : 0 < mdqTriplet p i j k := by
  have h2 : (2.0 : ℝ) = 2 := by norm_num
  have : 0 < min (p.m i) 2 * min (p.m j) 2 * min (p.m k) 2 :=
    mul_pos (mul_pos (lt_min (hm i) two_pos) (lt_min (hm j) two_pos)) (lt_min (hm k) two_pos)
  rw [mdqTriplet, min_real, min_real, min_real, h2, cbrt_nonneg_real this.le]
  exact Real.rpow_pos_of_pos this _

end segments

/-! ### Dipoles -/

section dipoles
variable {p : PcSaftParameters n ℝ} {p' : PcSaftParameters n (Rd a)} (hp : ParametersAgree a p p') (hq : PolarAgree a p p')
  {T : ℝ} {T' : Rd a} (hT : Agrees a 0 T T') (hT0 : 0 < T)

include hp hq hT hT0 in
theorem agrees_dipoleTerm (i : Fin n) : Agrees a 27 (dipoleTerm p T⁻¹ i) (dipoleTerm p' (DualNum.recip T') i) := by
  have := (((hT.recip h hT0).mul h ((hp.sigma_ij i i).powi h 3)).mul h (hp.epsilon_k i)).mul h (hq.mu2 i)
  simp only [dipoleTerm, c, ofF_real, powi_real]
  exact this

include hp hq hT hT0 in
theorem agrees_quadrupoleTerm (i : Fin n) :
    Agrees a 23 (quadrupoleTerm p T⁻¹ i) (quadrupoleTerm p' (DualNum.recip T') i) := by
  have := (((hT.recip h hT0).mul h ((hp.sigma i).powi h 5)).mul h (hp.epsilon_k i)).mul h (hq.q2 i)
  simp only [quadrupoleTerm, c, ofF_real, powi_real]
  exact this

/-- size of a pair of dipoles -/
noncomputable def dipS2 (p : PcSaftParameters n ℝ) (T : ℝ) (rho : Fin n → ℝ) (eta : ℝ) (i j : Fin n) : ℝ :=
  rho i * rho j * dipoleTerm p T⁻¹ i * dipoleTerm p T⁻¹ j
    * pairSize AD BD (mdqPair p i j) eta (T⁻¹ * p.e_k_ij i j) / p.sigma_ij i j ^ 3

/-- size of a triplet of dipoles -/
noncomputable def dipS3 (p : PcSaftParameters n ℝ) (T : ℝ) (rho : Fin n → ℝ) (eta : ℝ) (i j k : Fin n) : ℝ :=
  rho i * rho j * rho k * dipoleTerm p T⁻¹ i * dipoleTerm p T⁻¹ j * dipoleTerm p T⁻¹ k
    / (p.sigma_ij i j * p.sigma_ij i k * p.sigma_ij j k) * tripletSize CD (mdqTriplet p i j k) eta

/-- size of a pair of quadrupoles; the code divides by the diameter of the component with the smaller index -/
noncomputable def quadS2 (p : PcSaftParameters n ℝ) (T : ℝ) (rho : Fin n → ℝ) (eta : ℝ) (i j : Fin n) : ℝ :=
  rho i * rho j * quadrupoleTerm p T⁻¹ i * quadrupoleTerm p T⁻¹ j
    * pairSize AQ BQ (mdqPair p i j) eta (T⁻¹ * p.e_k_ij i j) / p.sigma (min i j) ^ 7

/-- size of a triplet of quadrupoles -/
noncomputable def quadS3 (p : PcSaftParameters n ℝ) (T : ℝ) (rho : Fin n → ℝ) (eta : ℝ) (i j k : Fin n) : ℝ :=
  rho i * rho j * rho k * quadrupoleTerm p T⁻¹ i * quadrupoleTerm p T⁻¹ j * quadrupoleTerm p T⁻¹ k
    / (p.sigma_ij i j ^ 3 * p.sigma_ij i k ^ 3 * p.sigma_ij j k ^ 3) * tripletSize CQ (mdqTriplet p i j k) eta

omit h in
theorem length_le_card {comp : List (Fin n)} (hnd : comp.Nodup) : comp.length ≤ n := by
  simpa using hnd.length_le_card

omit h in
theorem loop2_le {L : ℕ} (hL : L ≤ n) : (1 + L) * L ≤ n + n * n := by nlinarith

omit h in
theorem loop3_le {L : ℕ} (hL : L ≤ n) : (1 + (2 + L) * L) * L ≤ n + 2 * (n * n) + n * n * n := by
  have h1 := Nat.mul_le_mul hL hL
  have h2 := Nat.mul_le_mul h1 hL
  nlinarith

variable (hok : PolarOk p) (hm : ∀ i, 0 < p.m i) (hs : ∀ i j, 0 < p.sigma_ij i j) {rho : Fin n → ℝ} {rho' : Fin n → Rd a}
  (hr : ∀ i, Agrees a 1 (rho i) (rho' i)) {k : ℕ} {eta : ℝ} {eta' : Rd a} (he : Agrees a k eta eta')

include hp hq hT hT0 hok hm hs hr he in
theorem differs_dipolePhi2 : Differs a (4 * k + 111 + (n + n * n)) (∑ i, ∑ j, dipS2 p T rho eta i j)
    (dipolePhi2 p T rho eta) (dipolePhi2 p' T' rho' eta') := by
  have hμ := agrees_dipoleTerm h hp hq hT hT0
  obtain ⟨cA, cB, -⟩ := differs_dipole_constants h
  rw [dipolePhi2_real hok]
  have fold : ∀ comp, p'.dipole_comp = comp → dipolePhi2 p' T' rho' eta'
      = Fin.foldl comp.length (fun acc i => foldUpper i (fun acc j => acc
          - rho' (comp.get i) * rho' (comp.get j) * dipoleTerm p' (DualNum.recip T') (comp.get i)
            * dipoleTerm p' (DualNum.recip T') (comp.get j)
            * pairIntegral (by decide) ((MeanSegmentNumbers.new p'.m comp).mij1 i j)
              ((MeanSegmentNumbers.new p'.m comp).mij2 i j) eta' AD BD
              (DualNum.recip T' * c (p'.e_k_ij (comp.get i) (comp.get j)))
            / c (F64.powi (p'.sigma_ij (comp.get i) (comp.get j)) 3) * c 2.0)
          (acc - rho' (comp.get i) * rho' (comp.get i) * dipoleTerm p' (DualNum.recip T') (comp.get i)
            * dipoleTerm p' (DualNum.recip T') (comp.get i)
            * pairIntegral (by decide) ((MeanSegmentNumbers.new p'.m comp).mij1 i i)
              ((MeanSegmentNumbers.new p'.m comp).mij2 i i) eta' AD BD
              (DualNum.recip T' * c (p'.e_k_ij (comp.get i) (comp.get i)))
            / c (F64.powi (p'.sigma_ij (comp.get i) (comp.get i)) 3))) (c (0.0 : Rd a)) := by
    rintro comp rfl
    rfl
  rw [fold _ hq.dipole_comp]
  have key : ∀ i j : Fin p.dipole_comp.length, i ≤ j → Differs a (4 * k + 110)
      (dipS2 p T rho eta (p.dipole_comp.get i) (p.dipole_comp.get j))
      (rho (p.dipole_comp.get i) * rho (p.dipole_comp.get j)
        * dipK2 p T eta (p.dipole_comp.get i) (p.dipole_comp.get j))
      (rho' (p.dipole_comp.get i) * rho' (p.dipole_comp.get j) * dipoleTerm p' (DualNum.recip T') (p.dipole_comp.get i)
        * dipoleTerm p' (DualNum.recip T') (p.dipole_comp.get j)
        * pairIntegral (by decide) ((MeanSegmentNumbers.new p'.m p.dipole_comp).mij1 i j)
          ((MeanSegmentNumbers.new p'.m p.dipole_comp).mij2 i j) eta' AD BD
          (DualNum.recip T' * c (p'.e_k_ij (p.dipole_comp.get i) (p.dipole_comp.get j)))
        / c (F64.powi (p'.sigma_ij (p.dipole_comp.get i) (p.dipole_comp.get j)) 3)) := fun i j hij => by
    obtain ⟨m', hm', e1, e2⟩ := rounded_mij h hp p.dipole_comp i j hij
    rw [e1, e2]
    generalize p.dipole_comp.get i = x at *
    generalize p.dipole_comp.get j = y at *
    have hI := differs_pairIntegral h (show 5 ≤ 5 by decide) cA cB hm' (mdqPair_pos hm x y) he
      ((hT.recip h hT0).mul h (hq.e_k_ij x y))
    have := (((((hr x).mul h (hr y)).mul h (hμ x)).mul h (hμ y)).differs h |>.mul h hI).div h ((hp.sigma_ij x y).powi h 3)
      (pow_pos (hs x y) 3)
    rw [show rho x * rho y * dipK2 p T eta x y = rho x * rho y * dipoleTerm p T⁻¹ x * dipoleTerm p T⁻¹ y
      * pairIntegral (by decide) (meanSeg1 (mdqPair p x y)) (meanSeg2 (mdqPair p x y)) eta AD BD (T⁻¹ * p.e_k_ij x y)
      / p.sigma_ij x y ^ 3 by unfold dipK2 pairI; ring]
    exact this.mono h (by omega) le_rfl
  refine (differs_pairLoop h (K := 4 * k + 111) p.dipole_comp hok.dip_nodup (S := dipS2 p T rho eta)
    (f := fun i j => rho i * rho j * dipK2 p T eta i j) (fun i j => ?_) (fun i j => ?_) (fun i j hi => ?_)
    (fun i j hi => ?_) (fun i => (key i i le_rfl).mono h (by omega) le_rfl) (fun i j hij => ?_)).mono h
    (Nat.add_le_add_left (loop2_le (length_le_card hok.dip_nodup)) _) le_rfl
  · unfold dipK2
    rw [pairI_symm (by decide) AD BD hok T eta i j, hok.sigma_symm i j]
    ring
  · unfold dipS2
    rw [mdqPair_symm p i j, hok.sigma_symm i j, hok.e_symm i j]
    ring
  · unfold dipK2
    rw [dipoleTerm_zero hok _ hi]
    ring
  · unfold dipS2
    rw [dipoleTerm_zero hok _ hi]
    ring
  · have := (key i j hij.le).mul h ((agrees_two h).differs h)
    rw [mul_comm _ (2 : ℝ), mul_comm _ (2 : ℝ)] at this
    exact this.mono h (by omega) le_rfl

include hp hq hT hT0 hok hm hs hr he in
theorem differs_dipolePhi3 : Differs a (4 * k + 131 + (n + 2 * (n * n) + n * n * n))
    (∑ i, ∑ j, ∑ l, dipS3 p T rho eta i j l) (dipolePhi3 p T rho eta) (dipolePhi3 p' T' rho' eta') := by
  have hμ := agrees_dipoleTerm h hp hq hT hT0
  obtain ⟨-, -, cC⟩ := differs_dipole_constants h
  rw [dipolePhi3_real hok, ← neg_one_mul]
  set μ' := dipoleTerm p' (DualNum.recip T') with hμ'
  have fold : ∀ comp, p'.dipole_comp = comp → dipolePhi3 p' T' rho' eta'
      = Fin.foldl comp.length (fun acc i => foldUpper i (fun acc j => foldUpper j (fun acc l => acc
            - rho' (comp.get i) * rho' (comp.get j) * rho' (comp.get l) * μ' (comp.get i) * μ' (comp.get j) * μ' (comp.get l)
              / c (p'.sigma_ij (comp.get i) (comp.get j) * p'.sigma_ij (comp.get i) (comp.get l)
                * p'.sigma_ij (comp.get j) (comp.get l))
              * tripletIntegral ((MeanSegmentNumbers.new p'.m comp).mijk1 i j l)
                ((MeanSegmentNumbers.new p'.m comp).mijk2 i j l) eta' CD * c 6.0)
          (acc - rho' (comp.get i) * rho' (comp.get i) * rho' (comp.get j) * μ' (comp.get i) * μ' (comp.get i) * μ' (comp.get j)
              / c (p'.sigma_ij (comp.get i) (comp.get i) * p'.sigma_ij (comp.get i) (comp.get j)
                * p'.sigma_ij (comp.get i) (comp.get j))
              * tripletIntegral ((MeanSegmentNumbers.new p'.m comp).mijk1 i i j)
                ((MeanSegmentNumbers.new p'.m comp).mijk2 i i j) eta' CD * c 3.0
            - rho' (comp.get i) * rho' (comp.get j) * rho' (comp.get j) * μ' (comp.get i) * μ' (comp.get j) * μ' (comp.get j)
              / c (p'.sigma_ij (comp.get i) (comp.get j) * p'.sigma_ij (comp.get i) (comp.get j)
                * p'.sigma_ij (comp.get j) (comp.get j))
              * tripletIntegral ((MeanSegmentNumbers.new p'.m comp).mijk1 i j j)
                ((MeanSegmentNumbers.new p'.m comp).mijk2 i j j) eta' CD * c 3.0))
          (acc - rho' (comp.get i) * rho' (comp.get i) * rho' (comp.get i) * μ' (comp.get i) * μ' (comp.get i) * μ' (comp.get i)
            * tripletIntegral ((MeanSegmentNumbers.new p'.m comp).mijk1 i i i)
                ((MeanSegmentNumbers.new p'.m comp).mijk2 i i i) eta' CD
            / c (F64.powi (p'.sigma_ij (comp.get i) (comp.get i)) 3))) (c (0.0 : Rd a)) := by
    rintro comp rfl
    rfl
  rw [fold _ hq.dipole_comp]
  have hρ : ∀ x y z : Fin n, Agrees a 89 (rho x * rho y * rho z * dipoleTerm p T⁻¹ x * dipoleTerm p T⁻¹ y * dipoleTerm p T⁻¹ z)
      (rho' x * rho' y * rho' z * μ' x * μ' y * μ' z) := fun x y z =>
    ((((((hr x).mul h (hr y)).mul h (hr z)).mul h (hμ x)).mul h (hμ y)).mul h (hμ z)).mono h (by omega)
  have key : ∀ i j l : Fin p.dipole_comp.length, i ≤ j → j ≤ l → Differs a (4 * k + 130)
      (dipS3 p T rho eta (p.dipole_comp.get i) (p.dipole_comp.get j) (p.dipole_comp.get l))
      (rho (p.dipole_comp.get i) * rho (p.dipole_comp.get j) * rho (p.dipole_comp.get l)
        * dipK3 p T eta (p.dipole_comp.get i) (p.dipole_comp.get j) (p.dipole_comp.get l))
      (rho' (p.dipole_comp.get i) * rho' (p.dipole_comp.get j) * rho' (p.dipole_comp.get l) * μ' (p.dipole_comp.get i)
        * μ' (p.dipole_comp.get j) * μ' (p.dipole_comp.get l)
        / c (p'.sigma_ij (p.dipole_comp.get i) (p.dipole_comp.get j) * p'.sigma_ij (p.dipole_comp.get i) (p.dipole_comp.get l)
          * p'.sigma_ij (p.dipole_comp.get j) (p.dipole_comp.get l))
        * tripletIntegral ((MeanSegmentNumbers.new p'.m p.dipole_comp).mijk1 i j l)
          ((MeanSegmentNumbers.new p'.m p.dipole_comp).mijk2 i j l) eta' CD) := fun i j l hij hjl => by
    obtain ⟨m', hm', e1, e2⟩ := rounded_mijk h hp p.dipole_comp i j l hij hjl
    rw [e1, e2]
    generalize p.dipole_comp.get i = x at *
    generalize p.dipole_comp.get j = y at *
    generalize p.dipole_comp.get l = z at *
    have hI := differs_tripletIntegral h cC hm' (mdqTriplet_pos hm x y z) he
    have := (((hρ x y z).div h (((hp.sigma_ij x y).mul h (hp.sigma_ij x z)).mul h (hp.sigma_ij y z))
      (mul_pos (mul_pos (hs x y) (hs x z)) (hs y z))).differs h).mul h hI
    rw [show rho x * rho y * rho z * dipK3 p T eta x y z
      = rho x * rho y * rho z * dipoleTerm p T⁻¹ x * dipoleTerm p T⁻¹ y * dipoleTerm p T⁻¹ z
        / (p.sigma_ij x y * p.sigma_ij x z * p.sigma_ij y z)
        * tripletIntegral (meanSeg1 (mdqTriplet p x y z)) (meanSeg2 (mdqTriplet p x y z)) eta CD by unfold dipK3 tripI; ring]
    exact this.mono h (by omega) le_rfl
  refine (differs_tripletLoop h (K := 4 * k + 131) (e := -1) (op := fun x y => x - y) p.dipole_comp hok.dip_nodup
    (S := dipS3 p T rho eta) (f := fun i j l => rho i * rho j * rho l * dipK3 p T eta i j l)
    (fun i j l => ?_) (fun i j l => ?_) (fun i j l => ?_) (fun i j l => ?_) (fun i j l hi => ?_) (fun i j l hi => ?_)
    (fun h1 h2 => ?_) (fun i => ?_) (fun i j hij => differs_times h (key i i j le_rfl hij.le) (agrees_three h))
    (fun i j hij => differs_times h (key i j j hij.le le_rfl) (agrees_three h))
    (fun i j l hij hjl => differs_times h (key i j l hij.le hjl.le) (agrees_six h))).mono h
    (Nat.add_le_add_left (loop3_le (length_le_card hok.dip_nodup)) _) le_rfl
  · unfold dipK3
    rw [tripI_swap12, hok.sigma_symm i j]
    ring
  · unfold dipK3
    rw [tripI_swap23, hok.sigma_symm j l]
    ring
  · unfold dipS3
    rw [mdqTriplet_swap12, hok.sigma_symm i j]
    ring
  · unfold dipS3
    rw [mdqTriplet_swap23, hok.sigma_symm j l]
    ring
  · unfold dipK3
    rw [dipoleTerm_zero hok _ hi]
    ring
  · unfold dipS3
    rw [dipoleTerm_zero hok _ hi]
    ring
  · rw [neg_one_mul, ← sub_eq_add_neg]
    exact h1.sub h h2
  · obtain ⟨m', hm', e1, e2⟩ := rounded_mijk h hp p.dipole_comp i i i le_rfl le_rfl
    rw [e1, e2]
    generalize p.dipole_comp.get i = x at *
    have hI := differs_tripletIntegral h cC hm' (mdqTriplet_pos hm x x x) he
    have := (((hρ x x x).differs h).mul h hI).div h ((hp.sigma_ij x x).powi h 3) (pow_pos (hs x x) 3)
    rw [show rho x * rho x * rho x * dipK3 p T eta x x x
      = rho x * rho x * rho x * dipoleTerm p T⁻¹ x * dipoleTerm p T⁻¹ x * dipoleTerm p T⁻¹ x
        * tripletIntegral (meanSeg1 (mdqTriplet p x x x)) (meanSeg2 (mdqTriplet p x x x)) eta CD
        / p.sigma_ij x x ^ 3 by unfold dipK3 tripI; ring,
      show dipS3 p T rho eta x x x
      = rho x * rho x * rho x * dipoleTerm p T⁻¹ x * dipoleTerm p T⁻¹ x * dipoleTerm p T⁻¹ x
        * tripletSize CD (mdqTriplet p x x x) eta / p.sigma_ij x x ^ 3 by unfold dipS3; ring]
    exact this.mono h (by omega) le_rfl

/-! ### Quadrupoles -/

include hp hq hT hT0 hok hm hs hr he in
theorem differs_quadrupolePhi2 : Differs a (4 * k + 119 + (n + n * n)) (∑ i, ∑ j, quadS2 p T rho eta i j)
    (quadrupolePhi2 p T rho eta) (quadrupolePhi2 p' T' rho' eta') := by
  have hξ := agrees_quadrupoleTerm h hp hq hT hT0
  obtain ⟨cA, cB, -⟩ := differs_quadrupole_constants h
  rw [quadrupolePhi2_real hok]
  have fold : ∀ comp, p'.quadpole_comp = comp → quadrupolePhi2 p' T' rho' eta'
      = Fin.foldl comp.length (fun acc i => foldUpper i (fun acc j => acc
          - rho' (comp.get i) * rho' (comp.get j) * quadrupoleTerm p' (DualNum.recip T') (comp.get i)
            * quadrupoleTerm p' (DualNum.recip T') (comp.get j)
            * pairIntegral (by decide) ((MeanSegmentNumbers.new p'.m comp).mij1 i j)
              ((MeanSegmentNumbers.new p'.m comp).mij2 i j) eta' AQ BQ
              (DualNum.recip T' * c (p'.e_k_ij (comp.get i) (comp.get j)))
            / c (F64.powi (p'.sigma_ij (comp.get i) (comp.get i)) 7) * c 2.0)
          (acc - rho' (comp.get i) * rho' (comp.get i) * quadrupoleTerm p' (DualNum.recip T') (comp.get i)
            * quadrupoleTerm p' (DualNum.recip T') (comp.get i)
            * pairIntegral (by decide) ((MeanSegmentNumbers.new p'.m comp).mij1 i i)
              ((MeanSegmentNumbers.new p'.m comp).mij2 i i) eta' AQ BQ
              (DualNum.recip T' * c (p'.e_k_ij (comp.get i) (comp.get i)))
            / c (F64.powi (p'.sigma_ij (comp.get i) (comp.get i)) 7))) (c (0.0 : Rd a)) := by
    rintro comp rfl
    rfl
  rw [fold _ hq.quadpole_comp]
  have key : ∀ i j : Fin p.quadpole_comp.length, i ≤ j → Differs a (4 * k + 118)
      (quadS2 p T rho eta (p.quadpole_comp.get i) (p.quadpole_comp.get j))
      (rho (p.quadpole_comp.get i) * rho (p.quadpole_comp.get j)
        * quadK2 p T eta (p.quadpole_comp.get i) (p.quadpole_comp.get j))
      (rho' (p.quadpole_comp.get i) * rho' (p.quadpole_comp.get j) * quadrupoleTerm p' (DualNum.recip T') (p.quadpole_comp.get i)
        * quadrupoleTerm p' (DualNum.recip T') (p.quadpole_comp.get j)
        * pairIntegral (by decide) ((MeanSegmentNumbers.new p'.m p.quadpole_comp).mij1 i j)
          ((MeanSegmentNumbers.new p'.m p.quadpole_comp).mij2 i j) eta' AQ BQ
          (DualNum.recip T' * c (p'.e_k_ij (p.quadpole_comp.get i) (p.quadpole_comp.get j)))
        / c (F64.powi (p'.sigma_ij (p.quadpole_comp.get i) (p.quadpole_comp.get i)) 7)) := fun i j hij => by
    obtain ⟨m', hm', e1, e2⟩ := rounded_mij h hp p.quadpole_comp i j hij
    have hmin : min (p.quadpole_comp.get i) (p.quadpole_comp.get j) = p.quadpole_comp.get i := by
      rcases hij.eq_or_lt with rfl | hlt
      · exact min_self _
      · exact min_eq_left (hok.quad_get_lt hlt).le
    rw [e1, e2]
    generalize p.quadpole_comp.get i = x at *
    generalize p.quadpole_comp.get j = y at *
    have hI := differs_pairIntegral h (show 5 ≤ 5 by decide) cA cB hm' (mdqPair_pos hm x y) he
      ((hT.recip h hT0).mul h (hq.e_k_ij x y))
    have := (((((hr x).mul h (hr y)).mul h (hξ x)).mul h (hξ y)).differs h |>.mul h hI).div h ((hp.sigma_ij x x).powi h 7)
      (pow_pos (hs x x) 7)
    rw [show rho x * rho y * quadK2 p T eta x y = rho x * rho y * quadrupoleTerm p T⁻¹ x * quadrupoleTerm p T⁻¹ y
      * pairIntegral (by decide) (meanSeg1 (mdqPair p x y)) (meanSeg2 (mdqPair p x y)) eta AQ BQ (T⁻¹ * p.e_k_ij x y)
      / p.sigma_ij x x ^ 7 by unfold quadK2 pairI; rw [hmin, hok.sigma_diag]; ring, quadS2, hmin, ← hok.sigma_diag x]
    exact this.mono h (by omega) le_rfl
  refine (differs_pairLoop h (K := 4 * k + 119) p.quadpole_comp hok.quad_nodup (S := quadS2 p T rho eta)
    (f := fun i j => rho i * rho j * quadK2 p T eta i j) (fun i j => ?_) (fun i j => ?_) (fun i j hi => ?_)
    (fun i j hi => ?_) (fun i => (key i i le_rfl).mono h (by omega) le_rfl) (fun i j hij => ?_)).mono h
    (Nat.add_le_add_left (loop2_le (length_le_card hok.quad_nodup)) _) le_rfl
  · unfold quadK2
    rw [pairI_symm (by decide) AQ BQ hok T eta i j, min_comm i j]
    ring
  · unfold quadS2
    rw [mdqPair_symm p i j, min_comm i j, hok.e_symm i j]
    ring
  · unfold quadK2
    rw [quadrupoleTerm_zero hok _ hi]
    ring
  · unfold quadS2
    rw [quadrupoleTerm_zero hok _ hi]
    ring
  · have := (key i j hij.le).mul h ((agrees_two h).differs h)
    rw [mul_comm _ (2 : ℝ), mul_comm _ (2 : ℝ)] at this
    exact this.mono h (by omega) le_rfl

include hp hq hT hT0 hok hm hs hr he in
theorem differs_quadrupolePhi3 : Differs a (4 * k + 146 + (n + 2 * (n * n) + n * n * n))
    (∑ i, ∑ j, ∑ l, quadS3 p T rho eta i j l) (quadrupolePhi3 p T rho eta) (quadrupolePhi3 p' T' rho' eta') := by
  have hξ := agrees_quadrupoleTerm h hp hq hT hT0
  obtain ⟨-, -, cC⟩ := differs_quadrupole_constants h
  rw [quadrupolePhi3_real hok, ← one_mul (∑ i, ∑ j, ∑ l, rho i * rho j * rho l * quadK3 p T eta i j l)]
  set ξ' := quadrupoleTerm p' (DualNum.recip T') with hξ'
  have fold : ∀ comp, p'.quadpole_comp = comp → quadrupolePhi3 p' T' rho' eta'
      = Fin.foldl comp.length (fun acc i => foldUpper i (fun acc j => foldUpper j (fun acc l => acc
            + rho' (comp.get i) * rho' (comp.get j) * rho' (comp.get l) * ξ' (comp.get i) * ξ' (comp.get j) * ξ' (comp.get l)
              / c (F64.powi (p'.sigma_ij (comp.get i) (comp.get j)) 3 * F64.powi (p'.sigma_ij (comp.get i) (comp.get l)) 3
                * F64.powi (p'.sigma_ij (comp.get j) (comp.get l)) 3)
              * tripletIntegral ((MeanSegmentNumbers.new p'.m comp).mijk1 i j l)
                ((MeanSegmentNumbers.new p'.m comp).mijk2 i j l) eta' CQ * c 6.0)
          (acc + rho' (comp.get i) * rho' (comp.get i) * rho' (comp.get j) * ξ' (comp.get i) * ξ' (comp.get i) * ξ' (comp.get j)
              / c (F64.powi (p'.sigma_ij (comp.get i) (comp.get i)) 3 * F64.powi (p'.sigma_ij (comp.get i) (comp.get j)) 3
                * F64.powi (p'.sigma_ij (comp.get i) (comp.get j)) 3)
              * tripletIntegral ((MeanSegmentNumbers.new p'.m comp).mijk1 i i j)
                ((MeanSegmentNumbers.new p'.m comp).mijk2 i i j) eta' CQ * c 3.0
            + rho' (comp.get i) * rho' (comp.get j) * rho' (comp.get j) * ξ' (comp.get i) * ξ' (comp.get j) * ξ' (comp.get j)
              / c (F64.powi (p'.sigma_ij (comp.get i) (comp.get j)) 3 * F64.powi (p'.sigma_ij (comp.get i) (comp.get j)) 3
                * F64.powi (p'.sigma_ij (comp.get j) (comp.get j)) 3)
              * tripletIntegral ((MeanSegmentNumbers.new p'.m comp).mijk1 i j j)
                ((MeanSegmentNumbers.new p'.m comp).mijk2 i j j) eta' CQ * c 3.0))
          (acc + rho' (comp.get i) * rho' (comp.get i) * rho' (comp.get i) * ξ' (comp.get i) * ξ' (comp.get i) * ξ' (comp.get i)
            * tripletIntegral ((MeanSegmentNumbers.new p'.m comp).mijk1 i i i)
                ((MeanSegmentNumbers.new p'.m comp).mijk2 i i i) eta' CQ
            / c (F64.powi (F64.powi (p'.sigma_ij (comp.get i) (comp.get i)) 3) 3))) (c (0.0 : Rd a)) := by
    rintro comp rfl
    rfl
  rw [fold _ hq.quadpole_comp]
  have hρ : ∀ x y z : Fin n, Agrees a 77 (rho x * rho y * rho z * quadrupoleTerm p T⁻¹ x * quadrupoleTerm p T⁻¹ y * quadrupoleTerm p T⁻¹ z)
      (rho' x * rho' y * rho' z * ξ' x * ξ' y * ξ' z) := fun x y z =>
    ((((((hr x).mul h (hr y)).mul h (hr z)).mul h (hξ x)).mul h (hξ y)).mul h (hξ z)).mono h (by omega)
  have key : ∀ i j l : Fin p.quadpole_comp.length, i ≤ j → j ≤ l → Differs a (4 * k + 145)
      (quadS3 p T rho eta (p.quadpole_comp.get i) (p.quadpole_comp.get j) (p.quadpole_comp.get l))
      (rho (p.quadpole_comp.get i) * rho (p.quadpole_comp.get j) * rho (p.quadpole_comp.get l)
        * quadK3 p T eta (p.quadpole_comp.get i) (p.quadpole_comp.get j) (p.quadpole_comp.get l))
      (rho' (p.quadpole_comp.get i) * rho' (p.quadpole_comp.get j) * rho' (p.quadpole_comp.get l) * ξ' (p.quadpole_comp.get i)
        * ξ' (p.quadpole_comp.get j) * ξ' (p.quadpole_comp.get l)
        / c (F64.powi (p'.sigma_ij (p.quadpole_comp.get i) (p.quadpole_comp.get j)) 3 * F64.powi (p'.sigma_ij (p.quadpole_comp.get i) (p.quadpole_comp.get l)) 3
          * F64.powi (p'.sigma_ij (p.quadpole_comp.get j) (p.quadpole_comp.get l)) 3)
        * tripletIntegral ((MeanSegmentNumbers.new p'.m p.quadpole_comp).mijk1 i j l)
          ((MeanSegmentNumbers.new p'.m p.quadpole_comp).mijk2 i j l) eta' CQ) := fun i j l hij hjl => by
    obtain ⟨m', hm', e1, e2⟩ := rounded_mijk h hp p.quadpole_comp i j l hij hjl
    rw [e1, e2]
    generalize p.quadpole_comp.get i = x at *
    generalize p.quadpole_comp.get j = y at *
    generalize p.quadpole_comp.get l = z at *
    have hI := differs_tripletIntegral h cC hm' (mdqTriplet_pos hm x y z) he
    have := (((hρ x y z).div h ((((hp.sigma_ij x y).powi h 3).mul h ((hp.sigma_ij x z).powi h 3)).mul h ((hp.sigma_ij y z).powi h 3))
      (mul_pos (mul_pos (pow_pos (hs x y) 3) (pow_pos (hs x z) 3)) (pow_pos (hs y z) 3))).differs h).mul h hI
    rw [show rho x * rho y * rho z * quadK3 p T eta x y z
      = rho x * rho y * rho z * quadrupoleTerm p T⁻¹ x * quadrupoleTerm p T⁻¹ y * quadrupoleTerm p T⁻¹ z
        / (p.sigma_ij x y ^ 3 * p.sigma_ij x z ^ 3 * p.sigma_ij y z ^ 3)
        * tripletIntegral (meanSeg1 (mdqTriplet p x y z)) (meanSeg2 (mdqTriplet p x y z)) eta CQ by unfold quadK3 tripI; ring]
    exact this.mono h (by omega) le_rfl
  refine (differs_tripletLoop h (K := 4 * k + 146) (e := 1) (op := fun x y => x + y) p.quadpole_comp hok.quad_nodup
    (S := quadS3 p T rho eta) (f := fun i j l => rho i * rho j * rho l * quadK3 p T eta i j l)
    (fun i j l => ?_) (fun i j l => ?_) (fun i j l => ?_) (fun i j l => ?_) (fun i j l hi => ?_) (fun i j l hi => ?_)
    (fun h1 h2 => ?_) (fun i => ?_) (fun i j hij => differs_times h (key i i j le_rfl hij.le) (agrees_three h))
    (fun i j hij => differs_times h (key i j j hij.le le_rfl) (agrees_three h))
    (fun i j l hij hjl => differs_times h (key i j l hij.le hjl.le) (agrees_six h))).mono h
    (Nat.add_le_add_left (loop3_le (length_le_card hok.quad_nodup)) _) le_rfl
  · unfold quadK3
    rw [tripI_swap12, hok.sigma_symm i j]
    ring
  · unfold quadK3
    rw [tripI_swap23, hok.sigma_symm j l]
    ring
  · unfold quadS3
    rw [mdqTriplet_swap12, hok.sigma_symm i j]
    ring
  · unfold quadS3
    rw [mdqTriplet_swap23, hok.sigma_symm j l]
    ring
  · unfold quadK3
    rw [quadrupoleTerm_zero hok _ hi]
    ring
  · unfold quadS3
    rw [quadrupoleTerm_zero hok _ hi]
    ring
  · rw [one_mul]
    exact h1.add h h2
  · obtain ⟨m', hm', e1, e2⟩ := rounded_mijk h hp p.quadpole_comp i i i le_rfl le_rfl
    rw [e1, e2]
    generalize p.quadpole_comp.get i = x at *
    have hI := differs_tripletIntegral h cC hm' (mdqTriplet_pos hm x x x) he
    have := (((hρ x x x).differs h).mul h hI).div h (((hp.sigma_ij x x).powi h 3).powi h 3) (pow_pos (pow_pos (hs x x) 3) 3)
    rw [show rho x * rho x * rho x * quadK3 p T eta x x x
      = rho x * rho x * rho x * quadrupoleTerm p T⁻¹ x * quadrupoleTerm p T⁻¹ x * quadrupoleTerm p T⁻¹ x
        * tripletIntegral (meanSeg1 (mdqTriplet p x x x)) (meanSeg2 (mdqTriplet p x x x)) eta CQ
        / (p.sigma_ij x x ^ 3) ^ 3 by unfold quadK3 tripI; ring,
      show quadS3 p T rho eta x x x
      = rho x * rho x * rho x * quadrupoleTerm p T⁻¹ x * quadrupoleTerm p T⁻¹ x * quadrupoleTerm p T⁻¹ x
        * tripletSize CQ (mdqTriplet p x x x) eta / (p.sigma_ij x x ^ 3) ^ 3 by unfold quadS3; ring]
    exact this.mono h (by omega) le_rfl

/-! ### Dipoles and quadrupoles -/

/-- size of a pair of a dipole and a quadrupole -/
noncomputable def dqS2 (v : DQVariants) (p : PcSaftParameters n ℝ) (T : ℝ) (rho : Fin n → ℝ) (eta : ℝ) (i j : Fin n) : ℝ :=
  rho i * rho j * muQTerm v p T⁻¹ i j / p.sigma_ij i j ^ 5 * pairSize ADQ BDQ (mdqPair p i j) eta (T⁻¹ * p.e_k_ij i j)

/-- size of a triplet of two dipoles and a quadrupole -/
noncomputable def dqS3d (p : PcSaftParameters n ℝ) (T : ℝ) (rho : Fin n → ℝ) (eta : ℝ) (i j k : Fin n) : ℝ :=
  rho i * rho j * rho k * dqTerm p p.mu2 T⁻¹ i * dqTerm p p.q2 T⁻¹ j * dqTerm p p.mu2 T⁻¹ k
    / (p.sigma_ij i j * p.sigma_ij i k * p.sigma_ij j k) ^ 2
    * tripletSize (fun r => ![CDQ r 0, CDQ r 1, 0]) (mdqTriplet p i j k) eta

/-- size of a triplet of a dipole and two quadrupoles -/
noncomputable def dqS3q (p : PcSaftParameters n ℝ) (T : ℝ) (rho : Fin n → ℝ) (eta : ℝ) (i j k : Fin n) : ℝ :=
  rho i * rho j * rho k * dqTerm p p.mu2 T⁻¹ i * dqTerm p p.q2 T⁻¹ j * dqTerm p p.q2 T⁻¹ k
    / (p.sigma_ij i j * p.sigma_ij i k * p.sigma_ij j k) ^ 2 * ALPHA
    * tripletSize (fun r => ![CDQ r 0, CDQ r 1, 0]) (mdqTriplet p i j k) eta

include hp hT hT0 in
theorem agrees_dqTerm {l : ℕ} {x2 : Fin n → ℝ} {x2' : Fin n → Rd a} (hx : ∀ i, Agrees a l (x2 i) (x2' i)) (i : Fin n) :
    Agrees a (l + 8) (dqTerm p x2 T⁻¹ i) (dqTerm p' x2' (DualNum.recip T') i) := by
  have := (((hT.recip h hT0).mul h ((hp.sigma i).powi h 4)).mul h (hp.epsilon_k i)).mul h (hx i)
  simp only [dqTerm, c, ofF_real, powi_real]
  exact this.mono h (by omega)

include hp hq hT hT0 hok hs in
theorem agrees_muQTerm (v : DQVariants) (i j : Fin n) :
    Agrees a 44 (muQTerm v p T⁻¹ i j) (muQTerm v p' (DualNum.recip T') i j) := by
  have h1 := agrees_dqTerm h hp hT hT0 hq.mu2 i
  have h2 := agrees_dqTerm h hp hT hT0 hq.q2 j
  have h3 : 0 < p.sigma i := by
    rw [← hok.sigma_diag]
    exact hs i i
  cases v with
  | DQ35 => exact ((((h1.div h (hp.sigma i) h3).mul h h2).mul h (hp.sigma j))).mono h (by omega)
  | DQ44 => exact (h1.mul h h2).mono h (by omega)

include hp hq hT hT0 hok hm hs hr he in
theorem differs_dipoleQuadrupolePhi2 (v : DQVariants) : Differs a (4 * k + 107 + n * n)
    (∑ i, ∑ j, dqS2 v p T rho eta i j) (dipoleQuadrupolePhi2 v p T rho eta) (dipoleQuadrupolePhi2 v p' T' rho' eta') := by
  obtain ⟨cA, cB, -⟩ := differs_mixed_constants h
  rw [dipoleQuadrupolePhi2_real hok]
  have fold : ∀ l1 l2, p'.dipole_comp = l1 → p'.quadpole_comp = l2 → dipoleQuadrupolePhi2 v p' T' rho' eta'
      = Fin.foldl l1.length (fun acc i => Fin.foldl l2.length (fun acc j => acc
          - rho' (l1.get i) * rho' (l2.get j) * muQTerm v p' (DualNum.recip T') (l1.get i) (l2.get j)
            / c (F64.powi (p'.sigma_ij (l1.get i) (l2.get j)) 5)
            * pairIntegral (by decide) (meanSeg1 (mdqPair p' (l1.get i) (l2.get j)))
              (meanSeg2 (mdqPair p' (l1.get i) (l2.get j))) eta' ADQ BDQ
              (DualNum.recip T' * c (p'.e_k_ij (l1.get i) (l2.get j)))) acc) (c (0.0 : Rd a)) := by
    rintro l1 l2 rfl rfl
    rfl
  rw [fold _ _ hq.dipole_comp hq.quadpole_comp]
  have key : ∀ x y : Fin n, Differs a (4 * k + 107) (dqS2 v p T rho eta x y) (rho x * rho y * dqK2 v p T eta x y)
      (rho' x * rho' y * muQTerm v p' (DualNum.recip T') x y / c (F64.powi (p'.sigma_ij x y) 5)
        * pairIntegral (by decide) (meanSeg1 (mdqPair p' x y)) (meanSeg2 (mdqPair p' x y)) eta' ADQ BDQ
          (DualNum.recip T' * c (p'.e_k_ij x y))) := fun x y => by
    have hI := differs_pairIntegral h (show 4 ≤ 5 by decide) cA cB ((agrees_mdqPair h hp x y).mono h (show 2 ≤ 3 by omega))
      (mdqPair_pos hm x y) he ((hT.recip h hT0).mul h (hq.e_k_ij x y))
    have := (((((hr x).mul h (hr y)).mul h (agrees_muQTerm h hp hq hT hT0 hok hs v x y)).div h ((hp.sigma_ij x y).powi h 5)
      (pow_pos (hs x y) 5)).differs h).mul h hI
    rw [show rho x * rho y * dqK2 v p T eta x y = rho x * rho y * muQTerm v p T⁻¹ x y / p.sigma_ij x y ^ 5
      * pairIntegral (by decide) (meanSeg1 (mdqPair p x y)) (meanSeg2 (mdqPair p x y)) eta ADQ BDQ (T⁻¹ * p.e_k_ij x y) by
        unfold dqK2 pairI; ring]
    exact this.mono h (by omega) le_rfl
  have z1 : ∀ i j, i ∉ p.dipole_comp → muQTerm v p T⁻¹ i j = 0 := fun i j hi => muQTerm_zero_left hok _ _ hi
  have z2 : ∀ i j, j ∉ p.quadpole_comp → muQTerm v p T⁻¹ i j = 0 := fun i j hi => muQTerm_zero_right hok _ _ hi
  have := differs_sumLoop h (K := 4 * k + 107) (q := n) p.dipole_comp hok.dip_nodup (S := fun i => ∑ j, dqS2 v p T rho eta i j)
    (f := fun i => ∑ j, -(rho i * rho j * dqK2 v p T eta i j))
    (fun i hi => Finset.sum_eq_zero fun j _ => by rw [dqK2, z1 i j hi]; ring)
    (fun i hi => Finset.sum_eq_zero fun j _ => by rw [dqS2, z1 i j hi]; ring)
    (step := fun acc i => Fin.foldl p.quadpole_comp.length (fun acc j => acc
          - rho' (p.dipole_comp.get i) * rho' (p.quadpole_comp.get j)
            * muQTerm v p' (DualNum.recip T') (p.dipole_comp.get i) (p.quadpole_comp.get j)
            / c (F64.powi (p'.sigma_ij (p.dipole_comp.get i) (p.quadpole_comp.get j)) 5)
            * pairIntegral (by decide) (meanSeg1 (mdqPair p' (p.dipole_comp.get i) (p.quadpole_comp.get j)))
              (meanSeg2 (mdqPair p' (p.dipole_comp.get i) (p.quadpole_comp.get j))) eta' ADQ BDQ
              (DualNum.recip T' * c (p'.e_k_ij (p.dipole_comp.get i) (p.quadpole_comp.get j)))) acc)
    (fun i k' s x r hk hd => by
      have := differs_sumLoop h (K := 4 * k + 107) (q := 1) p.quadpole_comp hok.quad_nodup
        (S := fun j => dqS2 v p T rho eta (p.dipole_comp.get i) j)
        (f := fun j => -(rho (p.dipole_comp.get i) * rho j * dqK2 v p T eta (p.dipole_comp.get i) j))
        (fun j hj => by rw [dqK2, z2 _ j hj]; ring) (fun j hj => by rw [dqS2, z2 _ j hj]; ring)
        (step := fun acc j => acc - rho' (p.dipole_comp.get i) * rho' (p.quadpole_comp.get j)
            * muQTerm v p' (DualNum.recip T') (p.dipole_comp.get i) (p.quadpole_comp.get j)
            / c (F64.powi (p'.sigma_ij (p.dipole_comp.get i) (p.quadpole_comp.get j)) 5)
            * pairIntegral (by decide) (meanSeg1 (mdqPair p' (p.dipole_comp.get i) (p.quadpole_comp.get j)))
              (meanSeg2 (mdqPair p' (p.dipole_comp.get i) (p.quadpole_comp.get j))) eta' ADQ BDQ
              (DualNum.recip T' * c (p'.e_k_ij (p.dipole_comp.get i) (p.quadpole_comp.get j))))
        (fun j k' s x r hk hd => by
          rw [← sub_eq_add_neg]
          exact hd.sub h ((key _ _).mono h hk le_rfl)) hk hd
      rwa [one_mul] at this)
    le_rfl Differs.zero
  simp only [Finset.sum_neg_distrib, zero_add] at this
  exact this

include hp hq hT hT0 hok hm hs hr he in
theorem differs_dipoleQuadrupolePhi3 : Differs a (4 * k + 117 + (n + n) * n * n)
    (∑ i, ∑ j, ∑ l, (dqS3d p T rho eta i j l + dqS3q p T rho eta i j l)) (dipoleQuadrupolePhi3 p T rho eta)
    (dipoleQuadrupolePhi3 p' T' rho' eta') := by
  obtain ⟨-, -, cC⟩ := differs_mixed_constants h
  have hμ := agrees_dqTerm h hp hT hT0 hq.mu2
  have hξ := agrees_dqTerm h hp hT hT0 hq.q2
  rw [dipoleQuadrupolePhi3_real hok]
  set μ' := dqTerm p' p'.mu2 (DualNum.recip T') with hμ'
  set ξ' := dqTerm p' p'.q2 (DualNum.recip T') with hξ'
  set td : Fin n → Fin n → Fin n → Rd a := fun x y z => rho' x * rho' y * rho' z * μ' x * ξ' y * μ' z
    / c (F64.powi (p'.sigma_ij x y * p'.sigma_ij x z * p'.sigma_ij y z) 2)
    * tripletIntegralDQ (meanSeg1 (mdqTriplet p' x y z)) eta' CDQ with htd
  set tq : Fin n → Fin n → Fin n → Rd a := fun x y z => rho' x * rho' y * rho' z * μ' x * ξ' y * ξ' z
    / c (F64.powi (p'.sigma_ij x y * p'.sigma_ij x z * p'.sigma_ij y z) 2) * c ALPHA
    * tripletIntegralDQ (meanSeg1 (mdqTriplet p' x y z)) eta' CDQ with htq
  have fold : ∀ l1 l2, p'.dipole_comp = l1 → p'.quadpole_comp = l2 → dipoleQuadrupolePhi3 p' T' rho' eta'
      = Fin.foldl l1.length (fun acc i => Fin.foldl l2.length (fun acc j =>
          Fin.foldl l2.length (fun acc l => acc + tq (l1.get i) (l2.get j) (l2.get l))
            (Fin.foldl l1.length (fun acc l => acc + td (l1.get i) (l2.get j) (l1.get l)) acc)) acc) (c (0.0 : Rd a)) := by
    rintro l1 l2 rfl rfl
    rfl
  rw [fold _ _ hq.dipole_comp hq.quadpole_comp]
  have hI : ∀ x y z : Fin n, _ := fun x y z =>
    differs_tripletIntegralDQ h cC (agrees_mdqTriplet h hp x y z) (mdqTriplet_pos hm x y z) he
  have hσ : ∀ x y z : Fin n, Agrees a 24 ((p.sigma_ij x y * p.sigma_ij x z * p.sigma_ij y z) ^ 2)
      (F64.powi (p'.sigma_ij x y * p'.sigma_ij x z * p'.sigma_ij y z) 2) := fun x y z =>
    ((((hp.sigma_ij x y).mul h (hp.sigma_ij x z)).mul h (hp.sigma_ij y z)).powi h 2)
  have hσ0 : ∀ x y z : Fin n, 0 < (p.sigma_ij x y * p.sigma_ij x z * p.sigma_ij y z) ^ 2 := fun x y z =>
    pow_pos (mul_pos (mul_pos (hs x y) (hs x z)) (hs y z)) 2
  have keyd : ∀ x y z : Fin n, Differs a (4 * k + 117) (dqS3d p T rho eta x y z) (rho x * rho y * rho z * dqK3d p T eta x y z)
      (td x y z) := fun x y z => by
    have := ((((((((hr x).mul h (hr y)).mul h (hr z)).mul h (hμ x)).mul h (hξ y)).mul h (hμ z)).div h (hσ x y z)
      (hσ0 x y z)).differs h).mul h (hI x y z)
    rw [show rho x * rho y * rho z * dqK3d p T eta x y z = rho x * rho y * rho z * dqTerm p p.mu2 T⁻¹ x * dqTerm p p.q2 T⁻¹ y
      * dqTerm p p.mu2 T⁻¹ z / (p.sigma_ij x y * p.sigma_ij x z * p.sigma_ij y z) ^ 2
      * tripletIntegralDQ (meanSeg1 (mdqTriplet p x y z)) eta CDQ by unfold dqK3d dqI3; ring]
    exact this.mono h (by omega) le_rfl
  have keyq : ∀ x y z : Fin n, Differs a (4 * k + 117) (dqS3q p T rho eta x y z) (rho x * rho y * rho z * dqK3q p T eta x y z)
      (tq x y z) := fun x y z => by
    have := (((((((((hr x).mul h (hr y)).mul h (hr z)).mul h (hμ x)).mul h (hξ y)).mul h (hξ z)).div h (hσ x y z)
      (hσ0 x y z)).mul h (Agrees.lit h 11937350 true 7)).differs h).mul h (hI x y z)
    rw [show rho x * rho y * rho z * dqK3q p T eta x y z = rho x * rho y * rho z * dqTerm p p.mu2 T⁻¹ x * dqTerm p p.q2 T⁻¹ y
      * dqTerm p p.q2 T⁻¹ z / (p.sigma_ij x y * p.sigma_ij x z * p.sigma_ij y z) ^ 2 * ALPHA
      * tripletIntegralDQ (meanSeg1 (mdqTriplet p x y z)) eta CDQ by unfold dqK3q dqI3; ring]
    exact this.mono h (by omega) le_rfl
  have zμ : ∀ i, i ∉ p.dipole_comp → dqTerm p p.mu2 T⁻¹ i = 0 := fun i hi => muTerm_zero hok _ hi
  have zξ : ∀ i, i ∉ p.quadpole_comp → dqTerm p p.q2 T⁻¹ i = 0 := fun i hi => qTerm_zero hok _ hi
  have := differs_sumLoop h (K := 4 * k + 117) (q := (n + n) * n) p.dipole_comp hok.dip_nodup
    (S := fun i => ∑ j, ∑ l, (dqS3d p T rho eta i j l + dqS3q p T rho eta i j l))
    (f := fun i => ∑ j, ∑ l, rho i * rho j * rho l * (dqK3d p T eta i j l + dqK3q p T eta i j l))
    (fun i hi => Finset.sum_eq_zero fun j _ => Finset.sum_eq_zero fun l _ => by rw [dqK3d, dqK3q, zμ i hi]; ring)
    (fun i hi => Finset.sum_eq_zero fun j _ => Finset.sum_eq_zero fun l _ => by rw [dqS3d, dqS3q, zμ i hi]; ring)
    (step := fun acc i => Fin.foldl p.quadpole_comp.length (fun acc j =>
          Fin.foldl p.quadpole_comp.length (fun acc l => acc
              + tq (p.dipole_comp.get i) (p.quadpole_comp.get j) (p.quadpole_comp.get l))
            (Fin.foldl p.dipole_comp.length (fun acc l => acc
              + td (p.dipole_comp.get i) (p.quadpole_comp.get j) (p.dipole_comp.get l)) acc)) acc)
    (fun i k' s x r hk hd => by
      generalize p.dipole_comp.get i = u
      exact differs_sumLoop h (K := 4 * k + 117) (q := n + n) p.quadpole_comp hok.quad_nodup
        (S := fun j => ∑ l, (dqS3d p T rho eta u j l + dqS3q p T rho eta u j l))
        (f := fun j => ∑ l, rho u * rho j * rho l * (dqK3d p T eta u j l + dqK3q p T eta u j l))
        (fun j hj => Finset.sum_eq_zero fun l _ => by rw [dqK3d, dqK3q, zξ j hj]; ring)
        (fun j hj => Finset.sum_eq_zero fun l _ => by rw [dqS3d, dqS3q, zξ j hj]; ring)
        (fun j k' s x r hk hd => by
          generalize p.quadpole_comp.get j = w
          have e1 := differs_sumLoop h (K := 4 * k + 117) (q := 1) p.dipole_comp hok.dip_nodup
            (S := fun l => dqS3d p T rho eta u w l) (f := fun l => rho u * rho w * rho l * dqK3d p T eta u w l)
            (fun l hl => by rw [dqK3d, zμ l hl]; ring) (fun l hl => by rw [dqS3d, zμ l hl]; ring)
            (step := fun acc l => acc + td u w (p.dipole_comp.get l))
            (fun l k' s x r hk hd => hd.add h ((keyd _ _ _).mono h hk le_rfl)) hk hd
          have e2 := differs_sumLoop h (K := 4 * k + 117) (q := 1) p.quadpole_comp hok.quad_nodup
            (S := fun l => dqS3q p T rho eta u w l) (f := fun l => rho u * rho w * rho l * dqK3q p T eta u w l)
            (fun l hl => by rw [dqK3q, zξ l hl]; ring) (fun l hl => by rw [dqS3q, zξ l hl]; ring)
            (step := fun acc l => acc + tq u w (p.quadpole_comp.get l))
            (fun l k' s x r hk hd => hd.add h ((keyq _ _ _).mono h hk le_rfl)) (hk.trans (Nat.le_add_right _ _)) e1
          rw [add_assoc s, add_assoc x, ← Finset.sum_add_distrib, ← Finset.sum_add_distrib, one_mul, add_assoc] at e2
          simp only [← mul_add] at e2
          exact e2) hk hd)
    le_rfl Differs.zero
  simp only [zero_add] at this
  exact this

end dipoles

/-! ### Padé approximation -/

theorem differs_pade {k : ℕ} {s2 s3 phi2 phi3 V : ℝ} {phi2' phi3' V' : Rd a} (h2 : Differs a k s2 phi2 phi2')
    (h3 : Differs a k s3 phi3 phi3') (hV : Agrees a 0 V V') (hne : phi2 ≠ phi3) {κ : ℕ} (hs : s2 + s3 ≤ κ * |phi2 - phi3|)
    (hκ : κ * (Growth a ^ (k + 1) - 1) ≤ 1 / 2) :
    Differs a (2 * k + 3 + (k + 1) * (2 * κ)) (V * (s2 ^ 2 / |phi2 - phi3|)) (V * Fluid.pade phi2 phi3)
      (padeVolume phi2' phi3' V') := by
  have t := (differs_quotient h (h2.mul h h2) (h2.sub h h3) (sub_ne_zero.2 hne) hs hκ).mul h (hV.differs h)
  rw [show V * (s2 ^ 2 / |phi2 - phi3|) = s2 * s2 / |phi2 - phi3| * V by ring, ← pade_theory]
  simp only [padeVolume, isNan_real, re_real, Bool.false_eq_true, if_false]
  exact t.mono h (by omega) le_rfl

/-! ### Parameters -/

theorem polarAgree {pr : Fin n → PureRecord ℝ} (hr : PositiveRecords pr) (kij : Fin n → Fin n → ℝ) :
    PolarAgree a (fromRecords pr kij)
      (fromRecords (fun i => (pr i).mapHom (handOver a)) (fun i j => handOver a (kij i j))) := by
  have z : (0.0 : Rd a) = ⟨0⟩ := Rd.ext (a.lit_zero _ _)
  have z0 : (0.0 : ℝ) = 0 := by norm_num
  have am := fun i => agrees_handOver (a := a) (hr.m i).le
  have as := fun i => agrees_handOver (a := a) (hr.sigma i).le
  have ae := fun i => agrees_handOver (a := a) (hr.epsilon i).le
  have sq : ∀ x : ℝ, Agrees a 1 (x * x) ((⟨x⟩ : Rd a) * ⟨x⟩) := fun x => .round h (h.mul _ _) (mul_self_nonneg x)
  have jk : Agrees a 2 (jouleKelvinKB : ℝ) (jouleKelvinKB : Rd a) := by
    have := (Agrees.one h).div h (Agrees.lit h 1380649 true 29) (by norm_num)
    have h1 : (1.0 : ℝ) = 1 := by norm_num
    rw [jouleKelvinKB, jouleKelvinKB, h1]
    exact this
  have m0 : ∀ i, (((pr i).mapHom (handOver a)).model_record.mu).getD 0.0
      = (⟨((pr i).model_record.mu).getD 0.0⟩ : Rd a) := fun i => by
    rcases hk : (pr i).model_record.mu with _ | x <;>
      simp [PureRecord.mapHom, PcSaftRecord.mapHom, hk, z, z0, handOver]
  have q0 : ∀ i, (((pr i).mapHom (handOver a)).model_record.q).getD 0.0
      = (⟨((pr i).model_record.q).getD 0.0⟩ : Rd a) := fun i => by
    rcases hk : (pr i).model_record.q with _ | x <;>
      simp [PureRecord.mapHom, PcSaftRecord.mapHom, hk, z, z0, handOver]
  have hμ : ∀ i, Agrees a 11 ((fromRecords pr kij).mu2 i)
      ((fromRecords (fun i => (pr i).mapHom (handOver a)) (fun i j => handOver a (kij i j))).mu2 i) := fun i => by
    have := (((sq (((pr i).model_record.mu).getD 0.0)).div h ((((am i).mul h (as i)).mul h (as i)).mul h (as i) |>.mul h (ae i))
      (mul_pos (mul_pos (mul_pos (mul_pos (hr.m i) (hr.sigma i)) (hr.sigma i)) (hr.sigma i)) (hr.epsilon i))).mul h
      (Agrees.lit h 1 true 19)).mul h jk
    rw [← m0] at this
    exact this.mono h (by omega)
  have hξ : ∀ i, Agrees a 14 ((fromRecords pr kij).q2 i)
      ((fromRecords (fun i => (pr i).mapHom (handOver a)) (fun i j => handOver a (kij i j))).q2 i) := fun i => by
    have := (((sq (((pr i).model_record.q).getD 0.0)).div h (((am i).mul h ((as i).powi h 5)).mul h (ae i))
      (mul_pos (mul_pos (hr.m i) (pow_pos (hr.sigma i) 5)) (hr.epsilon i))).mul h
      (Agrees.lit h 1 true 19)).mul h jk
    rw [← q0] at this
    exact this.mono h (by omega)
  have lists : ∀ {k : ℕ} (v : Fin n → ℝ) (v' : Fin n → Rd a), (∀ i, Agrees a k (v i) (v' i)) →
      nonzeroComp v' = nonzeroComp v := fun {k} v v' hv => by
    refine List.filter_congr fun i _ => ?_
    rw [z, z0]
    have hi := hv i
    have h1 := hi.val_nonneg h
    rcases hi.nonneg.lt_or_eq with hpos | hzero
    · have h2 := hi.val_pos h hpos
      simp [F64.lt, F64.abs, hpos.ne', h2.ne']
    · have h2 := hi.upper
      rw [← hzero, zero_mul] at h2
      have h3 : (v' i).val = 0 := le_antisymm h2 h1
      simp [F64.lt, F64.abs, ← hzero, h3]
  refine ⟨fun i j => ?_, hμ, hξ, lists _ _ hμ, lists _ _ hξ⟩
  have := ((ae i).mul h (ae j)).sqrt h
  exact this

end
end PcSaft
