import Verif.Lemmas.RoundingAssociation

/-!
# Rounding errors of the association contribution: different numbers of donor and acceptor sites
-/

namespace PcSaft
open Spec Props
variable {a : Arithmetic} {n : ℕ}

/-! ### The law of mass action -/

/-- the root taken in the code -/
theorem massActionAB_root {d na nb x y : ℝ} (hd : 0 ≤ d) (ha : 0 ≤ na) (hb : 0 ≤ nb) (hx : 0 < x)
    (h : MassActionAB d na nb x y) :
    Real.sqrt ((d * (na - nb) + 1) ^ 2 + d * nb * 4) = 2 * (d * na) * x + (d * (nb - na) + 1) := by
  have q := h.quadratic
  have p : 0 ≤ 2 * (d * na) * x + (d * (nb - na) + 1) := by
    have e : x * (d * na * x + (d * (nb - na) + 1)) = 1 := by linear_combination q
    have : 0 < d * na * x + (d * (nb - na) + 1) := by
      by_contra hc
      push Not at hc
      nlinarith
    have : 0 ≤ d * na * x := by positivity
    linarith
  rw [Real.sqrt_eq_iff_mul_self_eq (by positivity) p]
  linear_combination (-4 * (d * na)) * q

/-- a relative error of the strength gives at most the same relative error of the fractions -/
theorem massActionAB_mono {d d' na nb x x' y y' Q : ℝ} (hd : 0 ≤ d) (ha : 0 ≤ na) (hb : 0 < nb) (hx : 0 < x) (hx' : 0 < x')
    (hy' : 0 < y') (h : MassActionAB d na nb x y) (h' : MassActionAB d' na nb x' y') (hQ : 1 ≤ Q) (hdQ : d' ≤ d * Q) :
    x ≤ x' * Q := by
  have q := h.quadratic
  have e := h'.xb_eq hb.ne' hx'.ne'
  have e2 : nb * y' = nb - na + na * x' := by
    rw [e]
    field_simp
    ring
  have h1 := h'.1
  have e3 : x' * (1 + d' * (nb * y')) = 1 := by linear_combination h1
  by_contra hc
  push Not at hc
  have hz : 0 < x' * Q := by positivity
  -- the equation at `x' Q`
  have k1 : d' * (nb * y') ≤ d * Q * (nb * y') := mul_le_mul_of_nonneg_right hdQ (by positivity)
  have k2 : 1 ≤ x' * (1 + d * Q * (nb * y')) := by
    rw [← e3]
    exact mul_le_mul_of_nonneg_left (by linarith) hx'.le
  have k3 : 1 ≤ x' * Q * (d * na * (x' * Q) + (d * nb - d * na + 1)) := by
    rw [e2] at k2
    have p1 : 0 ≤ x' * (Q - 1) := mul_nonneg hx'.le (by linarith)
    have p2 : 0 ≤ d * na * (x' * Q) * (x' * (Q - 1)) := by positivity
    nlinarith
  have k4 : x * (d * na * x + (d * nb - d * na + 1)) = 1 := by linear_combination q
  have k5 : 0 < d * na * (x' * Q) + (d * nb - d * na + 1) := by
    by_contra hc
    push Not at hc
    nlinarith
  have k6 : d * na * (x' * Q) ≤ d * na * x := mul_le_mul_of_nonneg_left hc.le (by positivity)
  nlinarith

section
variable (h : Relative a)
include h

theorem agrees_massActionAB {k : ℕ} {d na nb x y x' y' : ℝ} {d' : Rd a} (hd : Agrees a k d d') (ha : 0 < na) (hb : 0 < nb)
    (hx : 0 < x) (hy : 0 < y) (hx' : 0 < x') (hy' : 0 < y') (hm : MassActionAB d na nb x y)
    (hm' : MassActionAB d'.val na nb x' y') : Agrees a k x ⟨x'⟩ ∧ Agrees a k y ⟨y'⟩ :=
  ⟨⟨hx.le, massActionAB_mono hd.nonneg ha.le hb hx hx' hy' hm hm' (growth_pow h k) hd.upper,
      massActionAB_mono (hd.val_nonneg h) ha.le hb hx' hx hy hm' hm (growth_pow h k) hd.lower⟩,
    ⟨hy.le, massActionAB_mono hd.nonneg hb.le ha hy hy' hx' hm.swap hm'.swap (growth_pow h k) hd.upper,
      massActionAB_mono (hd.val_nonneg h) hb.le ha hy' hy hx hm'.swap hm.swap (growth_pow h k) hd.lower⟩⟩

/-! ### The fraction of the first kind of sites -/

omit h in
theorem differs_exact (y : ℝ) : Differs a 0 |y| y ⟨y⟩ := ⟨le_rfl, by simp⟩

theorem _root_.PcSaft.Spec.Differs.square {k : ℕ} {s x : ℝ} {x' : Rd a} (hx : Differs a k s x x') :
    Differs a (k + k + 2) (s * s) (x ^ 2) (DualNum.powi x' 2) := by
  have m := hx.mulE h hx
  rw [← pow_two x] at m
  obtain ⟨f, e, f1, f2⟩ := h.powi x'.val 2
  refine ⟨m.size, ?_⟩
  have g := growth_pow h 2
  have e' : (DualNum.powi x' 2 : Rd a).val = x'.val * x'.val * f := by
    rw [← pow_two]
    exact e
  have hf : |f - 1| ≤ Growth a ^ 2 - 1 := by
    rw [abs_le]
    constructor
    · by_contra hc
      push Not at hc
      nlinarith
    · linarith
  have v := m.abs_val
  have r := m.error
  have s1 : |x'.val * x'.val * f - x'.val * x'.val| ≤ (Growth a ^ 2 - 1) * (Growth a ^ (k + k) * (s * s)) := by
    rw [← mul_sub_one, abs_mul, mul_comm]
    exact mul_le_mul hf v (abs_nonneg _) (by linarith)
  rw [e']
  have tri := abs_sub_le (x'.val * x'.val * f) (x'.val * x'.val) (x ^ 2)
  change |x'.val * x'.val - x ^ 2| ≤ _ at r
  have e2 : (Growth a ^ (k + k + 2) - 1) * (s * s) = (Growth a ^ 2 - 1) * (Growth a ^ (k + k) * (s * s))
      + (Growth a ^ (k + k) - 1) * (s * s) := by
    rw [pow_add _ (k + k)]
    ring
  rw [e2]
  linarith

/-- `δ (na - nb) + 1` -/
theorem differs_asymmetry {d na nb : Rd a} (hd : 0 ≤ d.val) :
    Differs a 3 (d.val * |na.val - nb.val| + 1) (d.val * (na.val - nb.val) + 1) (d * c (na - nb) + c (1.0 : Rd a)) := by
  have w := (differs_exact (na.val - nb.val)).round h (h.sub na.val nb.val)
  have w1 := ((Agrees.exact (a := a) hd).differs h).mul h w
  exact w1.add h ((Agrees.one h).differs h |>.mono h (show 0 ≤ 2 by omega) le_rfl)

/-- the explicit formula -/
theorem differs_fraction_above {d na nb : Rd a} {x y : ℝ} (hd : 0 < d.val) (ha : 0 < na.val) (hb : 0 < nb.val)
    (hlt : F64.lt (F64.sqrt f64EPSILON) d = true) (hx : 0 < x) (hm : MassActionAB d.val na.val nb.val x y)
    (hg : Growth a ^ 9 ≤ 5 / 4) :
    Differs a 42 (1 / (d.val * na.val) + 1 + nb.val / na.val) x (assocSiteFracAB d na nb) := by
  have ad : Agrees a 0 d.val d := .exact hd.le
  have aa : Agrees a 0 na.val na := .exact ha.le
  have ab : Agrees a 0 nb.val nb := .exact hb.le
  have w := (differs_asymmetry h (na := na) (nb := nb) hd.le).square h
  have p := (((ad.mul h ab).mul h (agrees_four h)).differs h).mono h (show _ ≤ 3 + 3 + 2 by omega) le_rfl
  have S := w.add h p
  have sq : |na.val - nb.val| * |na.val - nb.val| = (na.val - nb.val) * (na.val - nb.val) := abs_mul_abs_self _
  have S2 := S.agrees h (κ := 2) (by
    push_cast
    have k1 := sq_nonneg (d.val * |na.val - nb.val| - 1)
    have k2 : 0 < d.val * na.val := by positivity
    have k3 : d.val * d.val * (|na.val - nb.val| * |na.val - nb.val|)
        = d.val * d.val * ((na.val - nb.val) * (na.val - nb.val)) := by rw [sq]
    linarith) (by positivity) (by push_cast; linarith)
  have R := (S2.sqrt h).differs h
  rw [massActionAB_root hd.le ha.le hb.le hx hm] at R
  have N := R.sub h ((differs_asymmetry h (na := nb) (nb := na) hd.le).mono h (show 3 ≤ _ by omega) le_rfl)
  rw [add_sub_cancel_right] at N
  have Q := N.div h ((ad.mul h aa).mul h (agrees_two h)) (by positivity)
  have e : 2 * (d.val * na.val) * x / (d.val * na.val * 2) = x := by field_simp
  rw [e] at Q
  have hroot : 2 * (d.val * na.val) * x + (d.val * (nb.val - na.val) + 1) ≤ 1 + d.val * (na.val + nb.val) := by
    rw [← massActionAB_root hd.le ha.le hb.le hx hm, Real.sqrt_le_left (by positivity)]
    have : 0 < d.val * d.val * (na.val * nb.val) := by positivity
    nlinarith
  rw [assocSiteFracAB, show DualNum.re d = d from rfl, if_pos hlt]
  refine Q.mono h (by omega) ?_
  have hle' : |nb.val - na.val| ≤ na.val + nb.val := abs_le.2 ⟨by linarith, by linarith⟩
  have k1 : d.val * |nb.val - na.val| ≤ d.val * (na.val + nb.val) := mul_le_mul_of_nonneg_left hle' hd.le
  have e3 : 1 / (d.val * na.val) + 1 + nb.val / na.val = 2 * (1 + d.val * (na.val + nb.val)) / (d.val * na.val * 2) := by
    field_simp
    ring
  rw [e3]
  gcongr
  linarith

/-- a small change of the exact value -/
theorem _root_.PcSaft.Spec.Differs.shift {k : ℕ} {s x y : ℝ} {x' : Rd a} (hx : Differs a k s x x') (hy : |y| ≤ s)
    (hs : |x - y| ≤ a.u * s) : Differs a (k + 1) s y x' := by
  refine ⟨hy, ?_⟩
  have t := abs_sub_le x'.val x y
  have e := hx.error
  have g := growth_pow h k
  have g1 := growth_ge h
  have s0 := hx.size_nonneg
  have h1 : a.u * s ≤ (Growth a - 1) * s := mul_le_mul_of_nonneg_right (by linarith) s0
  have h2 : 1 * ((Growth a - 1) * s) ≤ Growth a ^ k * ((Growth a - 1) * s) :=
    mul_le_mul_of_nonneg_right g (mul_nonneg (by linarith [a.u_nonneg]) s0)
  rw [pow_succ]
  linarith

/-- the series -/
theorem differs_fraction_below {d na nb : Rd a} {x y : ℝ} (hd : 0 ≤ d.val) (ha : 0 < na.val) (hb : 0 < nb.val)
    (hlt : F64.lt (F64.sqrt f64EPSILON) d = false) (hx : 0 < x) (hy : 0 < y) (hm : MassActionAB d.val na.val nb.val x y)
    (h4 : d.val * (na.val + nb.val) ≤ 1 / 4) (h3 : 4 * (d.val * (na.val + nb.val)) ^ 3 ≤ a.u) (hg : Growth a ^ 2 ≤ 3) :
    Differs a 42 2 x (assocSiteFracAB d na nb) := by
  have ad : Agrees a 0 d.val d := .exact hd
  have aa : Agrees a 0 na.val na := .exact ha.le
  have ab : Agrees a 0 nb.val nb := .exact hb.le
  have w := (ad.mul h (ab.add h aa)).one_sub_quarter h (by linarith) hg
  have v := (((ad.mul h ab).mul_neg h w).differs h).neg
  have t := ((Agrees.one h).differs h |>.mono h (show 0 ≤ 5 by omega) le_rfl).add h v
  have p0 : 0 ≤ d.val * na.val := by positivity
  have q0 : 0 ≤ d.val * nb.val := by positivity
  have hx1 := (hm.le_one hd ha.le hb.le hx hy).1
  have t2 := t.mono h (le_refl _) (show _ ≤ (2 : ℝ) by nlinarith)
  have er := series_error p0 q0 (by linarith) (by linarith) hx hm.quadratic
  have t3 := t2.shift h (y := x) (by rw [abs_of_pos hx]; linarith) (by
    have e1 : 1 + -(d.val * nb.val * (1 - d.val * (nb.val + na.val))) - x
        = 1 - d.val * nb.val + d.val * nb.val * (d.val * na.val + d.val * nb.val) - x := by ring
    rw [e1]
    refine er.trans ?_
    rw [div_le_iff₀ (by linarith)]
    rw [mul_add] at h3 h4
    have p1 : 0 ≤ (d.val * na.val) ^ 3 := by positivity
    have p2 : 0 ≤ (d.val * nb.val) ^ 3 := by positivity
    have p3 : 0 ≤ (d.val * na.val) ^ 2 * (d.val * nb.val) := by positivity
    have p4 : 0 ≤ (d.val * na.val) * (d.val * nb.val) ^ 2 := by positivity
    have u0 := a.u_nonneg
    have u1 : a.u ≤ a.u * 2 * (1 - d.val * na.val) := by nlinarith
    nlinarith)
  rw [assocSiteFracAB, show DualNum.re d = d from rfl, hlt]
  have e2 : (-(-(d * c nb * (d * c (nb + na) - c (1.0 : Rd a)))) : Rd a) = d * c nb * (d * c (nb + na) - c (1.0 : Rd a)) :=
    Rd.ext (neg_neg _)
  change Differs a _ _ x (c (1.0 : Rd a) + d * c nb * (d * c (nb + na) - c (1.0 : Rd a)))
  rw [← e2]
  exact t3.mono h (by omega) le_rfl

/-- the second fraction, computed from the first one -/
theorem differs_second {k : ℕ} {d s x y : ℝ} {na nb x' : Rd a} (hx' : Differs a k s x x') (ha : 0 < na.val) (hb : 0 < nb.val)
    (hx : 0 < x) (hm : MassActionAB d na.val nb.val x y) :
    Differs a (k + 4) ((s + 1) * (na.val / nb.val) + 1) y ((x' - c (1.0 : Rd a)) * c (na / nb) + c (1.0 : Rd a)) := by
  have aa : Agrees a 0 na.val na := .exact ha.le
  have ab : Agrees a 0 nb.val nb := .exact hb.le
  have q := (aa.div h ab hb).differs h
  have t := ((hx'.sub h ((Agrees.one h).differs h |>.mono h (show 0 ≤ k by omega) le_rfl)).mul h q).add h
    ((Agrees.one h).differs h |>.mono h (show 0 ≤ _ by omega) le_rfl)
  rw [← hm.xb_eq hb.ne' hx.ne'] at t
  exact t.mono h (by omega) le_rfl

/-! ### Relative errors with the precision of `f64` -/

omit h in
/-- size of the errors of the first fraction compared to the fraction, above the threshold -/
theorem fraction_condition {d na nb x y : ℝ} (hd : (2 ^ 26 + 1 : ℝ)⁻¹ ≤ d) (ha : 1 ≤ na) (hb : 1 ≤ nb) (hb2 : nb ≤ 100)
    (hx : 9e-7 ≤ x) (hy1 : y ≤ 1) (hm : MassActionAB d na nb x y) :
    1 / (d * na) + 1 + nb / na ≤ 1.2e8 * x := by
  have d0 : 0 < d := lt_of_lt_of_le (by positivity) hd
  have p0 : (2 ^ 26 + 1 : ℝ)⁻¹ ≤ d * na := hd.trans (le_mul_of_one_le_right d0.le ha)
  have pp : 0 < d * na := by positivity
  have r0 : nb / na ≤ 100 := by
    rw [div_le_iff₀ (by linarith)]
    nlinarith
  rcases le_or_gt 1 (d * na) with h1 | h1
  · have : 1 / (d * na) ≤ 1 := by rw [div_le_one pp]; exact h1
    have h2 : (102 : ℝ) ≤ 1.2e8 * 9e-7 := by norm_num
    have h3 : (1.2e8 : ℝ) * 9e-7 ≤ 1.2e8 * x := mul_le_mul_of_nonneg_left hx (by norm_num)
    linarith
  · -- most sites are free
    have i0 : 1 / (d * na) ≤ 2 ^ 26 + 1 := by
      have := one_div_le_one_div_of_le (by positivity) p0
      rwa [one_div (2 ^ 26 + 1 : ℝ)⁻¹, inv_inv] at this
    have hx0 : 0 < x := lt_of_lt_of_le (by norm_num) hx
    have e : d * nb = nb / na * (d * na) := by field_simp
    have b1 : d * nb * y ≤ 100 * (d * na) := by
      have : d * nb * y ≤ d * nb * 1 := mul_le_mul_of_nonneg_left hy1 (by positivity)
      have : nb / na * (d * na) ≤ 100 * (d * na) := mul_le_mul_of_nonneg_right r0 pp.le
      linarith
    have k : 1 ≤ x * (1 + 100 * (d * na)) := by
      have := hm.1
      have h2 : x * (1 + d * nb * y) ≤ x * (1 + 100 * (d * na)) := mul_le_mul_of_nonneg_left (by linarith) hx0.le
      linarith
    set i := 1 / (d * na) with hi
    have hip : i * (d * na) = 1 := by rw [hi]; field_simp
    have ip : 0 < i := by positivity
    have k2 : (i + 101) * 1 ≤ (i + 101) * (x * (1 + 100 * (d * na))) := mul_le_mul_of_nonneg_left k (by linarith)
    have k3 : (i + 101) * (x * (1 + 100 * (d * na))) = x * (i + 101 + 100 * (i * (d * na)) + 10100 * (d * na)) := by ring
    rw [k3, hip] at k2
    have k4 : x * (i + 101 + 100 * 1 + 10100 * (d * na)) ≤ x * 1.2e8 :=
      mul_le_mul_of_nonneg_left (by norm_num at i0 ⊢; linarith) hx0.le
    linarith

/-- both fractions -/
theorem agrees_fractions (hu : a.u = (2 ^ 53)⁻¹) {d na nb : Rd a} {x y : ℝ} (hd : 0 ≤ d.val) (ha : 1 ≤ na.val)
    (ha2 : na.val ≤ 100) (hb : 1 ≤ nb.val) (hb2 : nb.val ≤ 100) (hx : 9e-7 ≤ x) (hy : 9e-7 ≤ y)
    (hm : MassActionAB d.val na.val nb.val x y) :
    Agrees a (10080000000) x (assocSiteFracAB d na nb)
      ∧ Agrees a (23000000000) y ((assocSiteFracAB d na nb - c (1.0 : Rd a)) * c (na / nb) + c (1.0 : Rd a)) := by
  have g : ∀ k : ℕ, Growth a ^ k * (1 - k * (2 ^ 53)⁻¹) ≤ 1 := fun k => by
    rw [← hu]
    exact growth_le h k
  have g2 := g 2
  have g9 := g 9
  have g42 := g 42
  have g46 := g 46
  have th := agrees_threshold h
  have hx0 : 0 < x := lt_of_lt_of_le (by norm_num) hx
  have hy0 : 0 < y := lt_of_lt_of_le (by norm_num) hy
  obtain ⟨hx1, hy1⟩ := hm.le_one hd (by linarith) (by linarith) hx0 hy0
  have ha0 : 0 < na.val := by linarith
  have hb0 : 0 < nb.val := by linarith
  have r0 : na.val / nb.val ≤ 100 := by
    rw [div_le_iff₀ hb0]
    nlinarith
  have e42 : Growth a ^ 42 ≤ 1 + 1e-14 := by norm_num at g42 ⊢; linarith
  have e46 : Growth a ^ 46 ≤ 1 + 1e-14 := by norm_num at g46 ⊢; linarith
  obtain ⟨s, t, s1, s2⟩ : ∃ s, Differs a 42 s x (assocSiteFracAB d na nb) ∧ s ≤ 1.2e8 * x
      ∧ (s + 1) * (na.val / nb.val) + 1 ≤ 2.5e8 * y := by
    rcases hlt : F64.lt (F64.sqrt f64EPSILON) d with _ | _
    · have hle : d.val ≤ (F64.sqrt (f64EPSILON : Rd a)).val := by
        have : ¬ (F64.sqrt (f64EPSILON : Rd a)).val < d.val := by
          simpa [F64.lt] using hlt
        exact not_lt.1 this
      have h1 := hle.trans th.upper
      have h2 : d.val ≤ 1.5e-8 := by
        have : Growth a ^ 2 ≤ 1.000001 := by norm_num at g2 ⊢; linarith
        norm_num at h1 this ⊢
        linarith
      have h3 : d.val * (na.val + nb.val) ≤ 3e-6 :=
        (mul_le_mul h2 (show na.val + nb.val ≤ 200 by linarith) (by linarith) (by norm_num)).trans (by norm_num)
      have h0 : 0 ≤ d.val * (na.val + nb.val) := by positivity
      refine ⟨2, differs_fraction_below h hd ha0 hb0 hlt hx0 hy0 hm (h3.trans (by norm_num)) ?_
        (by norm_num at g2 ⊢; linarith), ?_, ?_⟩
      · rw [hu]
        have := pow_le_pow_left₀ h0 h3 3
        norm_num at this ⊢
        linarith
      · norm_num at hx ⊢
        linarith
      · have : 1 / 2 ≤ y := by
          have h5 : d.val * na.val ≤ 1 := by nlinarith
          have h6 : d.val * na.val * x ≤ 1 * 1 := mul_le_mul h5 hx1 hx0.le zero_le_one
          have := hm.2
          nlinarith
        norm_num
        linarith
    · have hlt' : (F64.sqrt (f64EPSILON : Rd a)).val < d.val := by simpa [F64.lt] using hlt
      have h1 := th.lower
      have hd0 : (2 ^ 26 + 1 : ℝ)⁻¹ ≤ d.val := by
        have e : Growth a ^ 2 ≤ 1 + 1e-15 := by norm_num at g2 ⊢; linarith
        have h2 : d.val * Growth a ^ 2 ≤ d.val * (1 + 1e-15) := mul_le_mul_of_nonneg_left e hd
        have h3 : (F64.sqrt (f64EPSILON : Rd a)).val * Growth a ^ 2 ≤ d.val * Growth a ^ 2 :=
          mul_le_mul_of_nonneg_right hlt'.le (growth_pos h 2).le
        norm_num at h1 h2 h3 ⊢
        linarith
      have hd1 : 0 < d.val := lt_of_lt_of_le (by positivity) hd0
      refine ⟨_, differs_fraction_above h hd1 ha0 hb0 hlt hx0 hm (by norm_num at g9 ⊢; linarith),
        fraction_condition hd0 ha hb hb2 hx hy1 hm, ?_⟩
      have := fraction_condition hd0 hb ha ha2 hy hx1 hm.swap
      have e : (1 / (d.val * na.val) + 1 + nb.val / na.val + 1) * (na.val / nb.val) + 1
          = 1 / (d.val * nb.val) + 1 + na.val / nb.val + (na.val / nb.val + 1) := by
        field_simp
        ring
      rw [e]
      norm_num at hy this ⊢
      linarith
  constructor
  · exact (t.agrees h (κ := 12 * 10 ^ 7) (by push_cast; norm_num at s1 ⊢; linarith) hx0.le
      (by push_cast; norm_num at e42 ⊢; linarith)).mono h (by norm_num)
  · exact ((differs_second h t ha0 hb0 hx0 hm).agrees h (κ := 25 * 10 ^ 7) (by push_cast; norm_num at s2 ⊢; linarith) hy0.le
      (by push_cast; norm_num at e46 ⊢; linarith)).mono h (by norm_num)

/-- the contribution of one component with sites of both kinds -/
theorem differs_assocSingle_ab {k : ℕ} {d moles na nb : Rd a} {x y : ℝ} (hx : Agrees a k x (assocSiteFracAB d na nb))
    (hy : Agrees a k y ((assocSiteFracAB d na nb - c (1.0 : Rd a)) * c (na / nb) + c (1.0 : Rd a)))
    (x0 : 0 < x) (x1 : x ≤ 1) (y0 : 0 < y) (y1 : y ≤ 1) (ha : 0 < na.val) (hb : 0 < nb.val) (hN : 0 ≤ moles.val) :
    Differs a (k + 7) (moles.val * (na.val * (2 + |Real.log x|) + nb.val * (2 + |Real.log y|)))
      (moles.val * (na.val * (Real.log x - x / 2 + 1 / 2) + nb.val * (Real.log y - y / 2 + 1 / 2)))
      (assocSingle d moles na nb) := by
  have aa : Agrees a 0 na.val na := .exact ha.le
  have ab : Agrees a 0 nb.val nb := .exact hb.le
  have f1 := ((differs_assocF h hx x0 x1).mul h (aa.differs h)).mono h (show _ ≤ k + 5 by omega) le_rfl
  have f2 := ((differs_assocF h hy y0 y1).mul h (ab.differs h)).mono h (show _ ≤ k + 5 by omega) le_rfl
  have t := ((Agrees.exact (a := a) hN).differs h).mul h (f1.add h f2)
  have z : (0.0 : Rd a) = ⟨0⟩ := Rd.ext (a.lit_zero _ _)
  have hlt : F64.lt (0.0 : Rd a) nb = true := by
    rw [z]
    simpa [F64.lt] using hb
  rw [assocSingle, if_pos hlt]
  have e : moles.val * ((Real.log x - x / 2 + 1 / 2) * na.val + (Real.log y - y / 2 + 1 / 2) * nb.val)
      = moles.val * (na.val * (Real.log x - x / 2 + 1 / 2) + nb.val * (Real.log y - y / 2 + 1 / 2)) := by ring
  rw [e] at t
  exact t.mono h (by omega) (le_of_eq (by ring))

end

end PcSaft
