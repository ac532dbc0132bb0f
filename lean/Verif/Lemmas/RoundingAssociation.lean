import Verif.Lemmas.RoundingInputs
import Verif.Lemmas.SiteFraction
import Verif.Props.Association

/-!
# Rounding errors of the association contribution
-/

namespace PcSaft
open Spec Props
variable {a : Arithmetic} {n : ℕ}

/-! ### The mass-action law of sites that occur in pairs -/

theorem massActionA_le_one {d nu x : ℝ} (hd : 0 ≤ d) (hn : 0 ≤ nu) (hx : 0 < x) (h : MassActionA d nu x) : x ≤ 1 := by
  rw [MassActionA] at h
  have : 0 ≤ x * (d * nu * x) := by positivity
  nlinarith

theorem massActionA_exists {d nu : ℝ} (hd : 0 ≤ d) (hn : 0 < nu) : ∃ x, 0 < x ∧ MassActionA d nu x := by
  obtain ⟨x, y, hx, _, h1, h2⟩ := massActionAB_exists hd hn hn
  have e : x = y := by linear_combination h1 - h2
  rw [← e] at h1
  exact ⟨x, hx, h1⟩

/-- the root taken in the code -/
theorem massActionA_root {d nu x : ℝ} (hd : 0 ≤ d) (hn : 0 ≤ nu) (hx : 0 < x) (h : MassActionA d nu x) :
    Real.sqrt (1 + d * nu * 4) = 2 * (d * nu) * x + 1 := by
  rw [Real.sqrt_eq_iff_mul_self_eq (by positivity) (by positivity)]
  rw [MassActionA] at h
  linear_combination (-4 * (d * nu)) * h

/-- a relative error of the strength gives at most the same relative error of the fraction -/
theorem massActionA_mono {d d' nu x x' Q : ℝ} (hd : 0 ≤ d) (hn : 0 ≤ nu) (hx' : 0 < x')
    (h : MassActionA d nu x) (h' : MassActionA d' nu x') (hQ : 1 ≤ Q) (hdQ : d' ≤ d * Q) : x ≤ x' * Q := by
  rw [MassActionA] at h h'
  by_contra hc
  push Not at hc
  have hx0 : 0 < x' * Q := by positivity
  have e1 : x' * Q * (1 + d * nu * (x' * Q)) < x * (1 + d * nu * x) := by
    have p : 0 ≤ d * nu := mul_nonneg hd hn
    have p2 : d * nu * (x' * Q) ≤ d * nu * x := mul_le_mul_of_nonneg_left hc.le p
    have p3 : 0 ≤ d * nu * (x' * Q) := by positivity
    nlinarith
  have e2 : d' * nu * x' ≤ d * Q * nu * x' := by gcongr
  have e3 : x' * (1 + d' * nu * x') * Q ≤ x' * (1 + d * Q * nu * x') * Q := by gcongr
  rw [h', h] at *
  nlinarith

section
variable (h : Relative a)
include h

theorem agrees_massAction {k : ℕ} {d nu x y : ℝ} {d' : Rd a} (hd : Agrees a k d d') (hn : 0 ≤ nu) (hx : 0 < x) (hy : 0 < y)
    (hm : MassActionA d nu x) (hm' : MassActionA d'.val nu y) : Agrees a k x ⟨y⟩ :=
  ⟨hx.le, massActionA_mono hd.nonneg hn hy hm hm' (growth_pow h k) hd.upper,
    massActionA_mono (hd.val_nonneg h) hn hx hm' hm (growth_pow h k) hd.lower⟩

/-- the explicit formula, with the cancellation of the square root -/
theorem agrees_fraction_above {d nu : Rd a} {x : ℝ} (hd : 0 < d.val) (hn : 0 < nu.val)
    (hlt : F64.lt (F64.sqrt f64EPSILON) d = true) (hx : 0 < x) (hm : MassActionA d.val nu.val x) {κ : ℕ}
    (hκ : 1 / (d.val * nu.val) + 2 ≤ κ) (hg : κ * (Growth a ^ 7 - 1) ≤ 1 / 2) :
    Agrees a (14 * κ + 3) x (assocSiteFracAB d nu nu) := by
  have z : (nu - nu : Rd a) = ⟨0⟩ := Rd.ext (by
    have := h.sub nu.val nu.val
    rw [sub_self, abs_zero, mul_zero, sub_zero] at this
    exact abs_nonpos_iff.1 this)
  have zm : d * (⟨0⟩ : Rd a) = ⟨0⟩ := Rd.ext (a.mul_zero _)
  have ad : Agrees a 0 d.val d := .exact hd.le
  have an : Agrees a 0 nu.val nu := .exact hn.le
  have z1 : Agrees a 1 1 ((⟨0⟩ : Rd a) + c (1.0 : Rd a)) := by
    have := (Agrees.exact (a := a) (le_refl 0)).add h (Agrees.one h)
    rwa [zero_add, zero_add] at this
  have t := ((((z1.powi h 2).add h (((ad.mul h an).mul h (agrees_four h)).mono h (show _ ≤ 4 by omega))).sqrt h).differs
    h).sub h ((z1.differs h).mono h (show 1 ≤ 6 by omega) le_rfl)
  have hx1 := massActionA_le_one hd.le hn.le hx hm
  rw [one_pow, massActionA_root hd.le hn.le hx hm, add_sub_cancel_right] at t
  have hy : 0 < d.val * nu.val := mul_pos hd hn
  have t2 := t.agrees h (κ := κ) (by
    have e : 1 / (d.val * nu.val) * (d.val * nu.val) = 1 := by field_simp
    rw [MassActionA] at hm
    have h1 := mul_le_mul_of_nonneg_right hκ (show 0 ≤ 2 * (d.val * nu.val) * x by positivity)
    have h2 : (1 / (d.val * nu.val) + 2) * (2 * (d.val * nu.val) * x) = 2 * x * (1 / (d.val * nu.val) * (d.val * nu.val))
      + 4 * (d.val * nu.val) * x := by ring
    rw [h2, e] at h1
    have h3 : 0 ≤ (d.val * nu.val) * x * (1 - x) := mul_nonneg (by positivity) (by linarith)
    nlinarith) (by positivity) hg
  have t3 := t2.div h ((ad.mul h an).mul h (agrees_two h)) (by positivity)
  have e : 2 * (d.val * nu.val) * x / (d.val * nu.val * 2) = x := by field_simp
  rw [e] at t3
  rw [assocSiteFracAB, show DualNum.re d = d from rfl, if_pos hlt, z]
  change Agrees a _ x ((DualNum.sqrt (DualNum.powi (d * (⟨0⟩ : Rd a) + c (1.0 : Rd a)) 2 + d * c nu * c (4.0 : Rd a))
    - (d * (⟨0⟩ : Rd a) + c (1.0 : Rd a))) / (d * c nu * c (2.0 : Rd a)))
  rw [zm]
  exact t3.mono h (by omega)

/-- the series -/
theorem agrees_fraction_below {d nu : Rd a} {x : ℝ} (hd : 0 ≤ d.val) (hn : 0 < nu.val)
    (hlt : F64.lt (F64.sqrt f64EPSILON) d = false) (hx : 0 < x) (hm : MassActionA d.val nu.val x)
    (h8 : d.val * nu.val ≤ 1 / 8) (h3 : 6 * (d.val * nu.val) ^ 3 ≤ a.u) (hg : Growth a ^ 6 ≤ 5 / 4) :
    Agrees a 25 x (assocSiteFracAB d nu nu) := by
  have ad : Agrees a 0 d.val d := .exact hd
  have an : Agrees a 0 nu.val nu := .exact hn.le
  have g2 : Growth a ^ 2 ≤ 3 := (growth_mono h (show 2 ≤ 6 by omega)).trans (hg.trans (by norm_num))
  have w := (ad.mul h (an.add h an)).one_sub_quarter h (by nlinarith) g2
  have v := (((ad.mul h an).mul_neg h w).differs h).neg
  have t := ((Agrees.one h).differs h |>.mono h (show 0 ≤ 5 by omega) le_rfl).add h v
  set y := d.val * nu.val with hy
  have y0 : 0 ≤ y := by positivity
  have e1 : d.val * (nu.val + nu.val) = 2 * y := by rw [hy]; ring
  rw [e1] at t
  have t2 := t.agrees h (κ := 2) (by push_cast; nlinarith) (by nlinarith) (by push_cast; linarith)
  -- the truncation
  set P := 1 + -(y * (1 - 2 * y)) with hP
  have hm' : x + y * x ^ 2 = 1 := by
    rw [MassActionA, ← hy] at hm
    linear_combination hm
  have hx1 := massActionA_le_one hd hn.le hx hm
  have hPx : (P - x) * (1 + y * (P + x)) = 5 * y ^ 3 - 4 * y ^ 4 + 4 * y ^ 5 := by
    rw [hP]
    linear_combination (-1 : ℝ) * hm'
  have P0 : 0 ≤ P := by rw [hP]; nlinarith
  have hD : 1 ≤ 1 + y * (P + x) := by
    have : 0 ≤ y * (P + x) := by positivity
    linarith
  have y3 : 0 ≤ y ^ 3 := by positivity
  have r1 : 0 ≤ 5 * y ^ 3 - 4 * y ^ 4 + 4 * y ^ 5 := by
    have : 5 * y ^ 3 - 4 * y ^ 4 + 4 * y ^ 5 = y ^ 3 * (5 - 4 * y + 4 * y ^ 2) := by ring
    rw [this]
    exact mul_nonneg y3 (by nlinarith)
  have r2 : 5 * y ^ 3 - 4 * y ^ 4 + 4 * y ^ 5 ≤ 5 * y ^ 3 := by
    have : 4 * y ^ 4 - 4 * y ^ 5 = 4 * y ^ 4 * (1 - y) := by ring
    have : 0 ≤ 4 * y ^ 4 * (1 - y) := mul_nonneg (by positivity) (by linarith)
    linarith
  have l1 : x ≤ P := by
    by_contra hc
    push Not at hc
    nlinarith
  have l2 : P - x ≤ 5 * y ^ 3 := by nlinarith
  have l3 : 5 / 6 ≤ x := by nlinarith
  have tr : Agrees a 1 x ⟨P⟩ := .round h (by
    rw [abs_of_nonneg (by linarith), abs_of_pos hx]
    nlinarith [a.u_nonneg]) hx.le
  have t3 := tr.trans h t2
  rw [assocSiteFracAB, show DualNum.re d = d from rfl, hlt]
  have e2 : (-(-(d * c nu * (d * c (nu + nu) - c (1.0 : Rd a)))) : Rd a) = d * c nu * (d * c (nu + nu) - c (1.0 : Rd a)) :=
    Rd.ext (neg_neg _)
  change Agrees a _ x (c (1.0 : Rd a) + d * c nu * (d * c (nu + nu) - c (1.0 : Rd a)))
  rw [← e2]
  exact t3.mono h (by omega)

/-- the threshold -/
theorem agrees_threshold : Agrees a 2 (2 ^ 26)⁻¹ (F64.sqrt (f64EPSILON : Rd a)) := by
  have := (Agrees.lit h 2220446049250313080847263336181640625 true 52).sqrt h
  have e : Real.sqrt (OfScientific.ofScientific 2220446049250313080847263336181640625 true 52 : ℝ) = (2 ^ 26)⁻¹ :=
    sqrt_epsilon
  rw [e] at this
  exact this

/-- any strength, in an arithmetic with the precision of `f64` -/
theorem agrees_fraction (hu : a.u = (2 ^ 53)⁻¹) {d nu : Rd a} {x : ℝ} (hd : 0 ≤ d.val) (hn : 1 ≤ nu.val)
    (hn2 : nu.val ≤ 100) (hx : 0 < x) (hm : MassActionA d.val nu.val x) :
    Agrees a (10 ^ 9) x (assocSiteFracAB d nu nu) := by
  have g : ∀ k : ℕ, Growth a ^ k * (1 - k * (2 ^ 53)⁻¹) ≤ 1 := fun k => by
    rw [← hu]
    exact growth_le h k
  have g2 := g 2
  have g6 := g 6
  have g7 := g 7
  have th := agrees_threshold h
  rcases hlt : F64.lt (F64.sqrt f64EPSILON) d with _ | _
  · have hle : d.val ≤ (F64.sqrt (f64EPSILON : Rd a)).val := by
      have : ¬ (F64.sqrt (f64EPSILON : Rd a)).val < d.val := by
        simpa [F64.lt] using hlt
      exact not_lt.1 this
    have h1 := hle.trans th.upper
    have h2 : d.val * nu.val ≤ 1.6e-6 := by
      have : Growth a ^ 2 ≤ 1.0001 := by norm_num at g2 ⊢; linarith
      have h3 : d.val ≤ 1.6e-8 := by norm_num at h1 this ⊢; linarith
      exact (mul_le_mul h3 hn2 (by linarith) (by norm_num)).trans (by norm_num)
    have h0 : 0 ≤ d.val * nu.val := mul_nonneg hd (by linarith)
    refine (agrees_fraction_below h hd (by linarith) hlt hx hm (h2.trans (by norm_num)) ?_
      (by norm_num at g6 ⊢; linarith)).mono h (by norm_num)
    rw [hu]
    have := pow_le_pow_left₀ h0 h2 3
    norm_num at this ⊢
    linarith
  · have hlt' : (F64.sqrt (f64EPSILON : Rd a)).val < d.val := by simpa [F64.lt] using hlt
    have h1 := th.lower
    have hd0 : (2 ^ 26 + 1 : ℝ)⁻¹ ≤ d.val := by
      have e : Growth a ^ 2 ≤ 1 + 1e-15 := by norm_num at g2 ⊢; linarith
      have h2 : d.val * Growth a ^ 2 ≤ d.val * (1 + 1e-15) := mul_le_mul_of_nonneg_left e hd
      have h3 : (F64.sqrt (f64EPSILON : Rd a)).val * Growth a ^ 2 ≤ d.val * Growth a ^ 2 :=
        mul_le_mul_of_nonneg_right hlt'.le (growth_pos h 2).le
      norm_num at h1 h2 h3 ⊢
      linarith
    have hd1 : 0 < d.val := lt_of_lt_of_le (by positivity) hd0
    refine (agrees_fraction_above h (κ := 2 ^ 26 + 3) hd1 (by linarith) hlt hx hm ?_ ?_).mono h (by norm_num)
    · have h2 : (2 ^ 26 + 1 : ℝ)⁻¹ ≤ d.val * nu.val := hd0.trans (le_mul_of_one_le_right hd hn)
      have h3 := one_div_le_one_div_of_le (by positivity) h2
      rw [one_div (2 ^ 26 + 1 : ℝ)⁻¹, inv_inv] at h3
      push_cast
      linarith
    · have e : Growth a ^ 7 ≤ 1 + 1e-15 := by norm_num at g7 ⊢; linarith
      push_cast
      norm_num at e ⊢
      linarith

/-- logarithms of positive numbers -/
theorem differs_ln {k : ℕ} {x : ℝ} {x' : Rd a} (hx : Agrees a k x x') (h0 : 0 < x) :
    Differs a (k + 1) (1 + |Real.log x|) (Real.log x) (DualNum.ln x') := by
  have g := growth_pow h k
  have hx' := hx.val_pos h h0
  have hl := abs_nonneg (Real.log x)
  have e : Differs a k (1 + |Real.log x|) (Real.log x) ⟨Real.log x'.val⟩ := by
    refine ⟨by linarith, ?_⟩
    have u1 : Real.log x'.val ≤ Real.log x + Real.log (Growth a ^ k) := by
      rw [← Real.log_mul h0.ne' (by positivity)]
      exact Real.log_le_log hx' hx.upper
    have u2 : Real.log x ≤ Real.log x'.val + Real.log (Growth a ^ k) := by
      rw [← Real.log_mul hx'.ne' (by positivity)]
      exact Real.log_le_log h0 hx.lower
    have u3 := Real.log_le_sub_one_of_pos (growth_pos h k)
    change |Real.log x'.val - Real.log x| ≤ _
    rw [abs_le]
    constructor <;> nlinarith
  exact e.round h (h.ln _ hx')

/-- the energy of a site -/
theorem differs_assocF {k : ℕ} {x : ℝ} {x' : Rd a} (hx : Agrees a k x x') (h0 : 0 < x) (h1 : x ≤ 1) :
    Differs a (k + 4) (2 + |Real.log x|) (Real.log x - x / 2 + 1 / 2) (assocF x') := by
  have l := (differs_ln h hx h0).mono h (show k + 1 ≤ k + 2 by omega) le_rfl
  have m := (hx.mul h (Agrees.lit h 5 true 1)).differs h |>.mono h (show k + 1 + 1 ≤ k + 2 by omega) le_rfl
  have t := (l.sub h m).add h ((Agrees.lit h 5 true 1).differs h |>.mono h (show 1 ≤ k + 2 + 1 by omega) le_rfl)
  have e1 : (OfScientific.ofScientific 5 true 1 : ℝ) = 1 / 2 := by norm_num
  rw [e1] at t
  have e2 : Real.log x - x * (1 / 2) + 1 / 2 = Real.log x - x / 2 + 1 / 2 := by ring
  rw [e2] at t
  exact t.mono h (by omega) (by linarith)

/-- the second fraction, computed from the first one -/
theorem agrees_second {nu x' : Rd a} (hn : 0 < nu.val) (hx : 0 ≤ x'.val) (hx2 : x'.val ≤ 2) {κ : ℕ} (hκ : 4 ≤ κ * x'.val)
    (hg : κ * (Growth a ^ 4 - 1) ≤ 1 / 2) :
    Agrees a (8 * κ) x'.val ((x' - c (1.0 : Rd a)) * c (nu / nu) + c (1.0 : Rd a)) := by
  have an : Agrees a 0 nu.val nu := .exact hn.le
  have q := an.div h an hn
  rw [div_self hn.ne'] at q
  have t := (((((Agrees.exact (a := a) hx).differs h).sub h ((Agrees.one h).differs h)).mul h (q.differs h)).add h
    ((Agrees.one h).differs h |>.mono h (show 0 ≤ 3 by omega) le_rfl))
  have e : (x'.val - 1) * 1 + 1 = x'.val := by ring
  rw [e] at t
  have := (t.mono h (show _ ≤ 4 by omega) (show _ ≤ (4 : ℝ) by linarith)).agrees h (κ := κ) hκ hx hg
  exact this.mono h (by omega)

/-- the contribution of one component with as many sites of one kind as of the other -/
theorem differs_assocSingle {k κ : ℕ} {d moles nu : Rd a} {x : ℝ} (hx : Agrees a k x (assocSiteFracAB d nu nu))
    (h0 : 0 < x) (h1 : x ≤ 1) (hn : 0 < nu.val) (hN : 0 ≤ moles.val) (hk : Growth a ^ k ≤ 2) (hκ : 8 ≤ κ * x)
    (hg : κ * (Growth a ^ 4 - 1) ≤ 1 / 2) :
    Differs a (k + 8 * κ + 7) (moles.val * (2 * nu.val * (2 + |Real.log x|)))
      (moles.val * (2 * nu.val * (Real.log x - x / 2 + 1 / 2))) (assocSingle d moles nu nu) := by
  have hlo := hx.lower
  have hup := hx.upper
  have hv := hx.val_nonneg h
  have an : Agrees a 0 nu.val nu := .exact hn.le
  have s := hx.trans h (agrees_second h hn hv (by nlinarith) (κ := κ) (by nlinarith [(Nat.cast_nonneg κ : (0 : ℝ) ≤ κ)]) hg)
  have f1 := ((differs_assocF h hx h0 h1).mul h (an.differs h)).mono h (show _ ≤ k + 8 * κ + 5 by omega) le_rfl
  have f2 := ((differs_assocF h s h0 h1).mul h (an.differs h)).mono h (show _ ≤ k + 8 * κ + 5 by omega) le_rfl
  have t := ((Agrees.exact (a := a) hN).differs h).mul h (f1.add h f2)
  have z : (0.0 : Rd a) = ⟨0⟩ := Rd.ext (a.lit_zero _ _)
  have hlt : F64.lt (0.0 : Rd a) nu = true := by
    rw [z]
    simpa [F64.lt] using hn
  rw [assocSingle, if_pos hlt]
  have e : moles.val * ((Real.log x - x / 2 + 1 / 2) * nu.val + (Real.log x - x / 2 + 1 / 2) * nu.val)
      = moles.val * (2 * nu.val * (Real.log x - x / 2 + 1 / 2)) := by ring
  rw [e] at t
  exact t.mono h (by omega) (le_of_eq (by ring))

/-! ### The association strength -/

/-- `exp(y) - 1` -/
theorem agrees_expm1 {k M : ℕ} {y : ℝ} {y' : Rd a} (hy : Agrees a k y y') (hM : y ≤ M) (hg : Growth a ^ k - 1 ≤ 2 * k * a.u)
    (hg2 : Growth a ^ k ≤ 2) :
    Agrees a (k + 4 * k * M + 1) (Real.exp y - 1) (DualNum.expm1 y') := by
  have g := growth_pow h k
  -- `exp(t z) - 1 ≤ t exp((t - 1) z) (exp(z) - 1)`
  have key : ∀ {t z w : ℝ}, 0 ≤ z → 1 ≤ t → w ≤ z * t → Real.exp w - 1 ≤ (Real.exp z - 1) * (t * Real.exp (z * (t - 1))) := by
    intro t z w hz ht hw
    have h1 : Real.exp w ≤ Real.exp (z * t) := Real.exp_le_exp.2 hw
    have h2 : Real.exp (z * t) = Real.exp z * Real.exp (z * (t - 1)) := by
      rw [← Real.exp_add]
      congr 1
      ring
    set E := Real.exp z
    set B := Real.exp (z * (t - 1)) with hB
    have E1 : z + 1 ≤ E := Real.add_one_le_exp z
    have b0 : 0 ≤ z * (t - 1) := mul_nonneg hz (by linarith)
    -- `exp(-b) ≥ 1 - b`
    have B1 : B - 1 ≤ z * (t - 1) * B := by
      have := Real.add_one_le_exp (-(z * (t - 1)))
      rw [Real.exp_neg, ← hB] at this
      have B0 : 0 < B := Real.exp_pos _
      have h3 := mul_le_mul_of_nonneg_right this B0.le
      rw [inv_mul_cancel₀ B0.ne'] at h3
      linarith
    have B0 : 0 < B := Real.exp_pos _
    have h4 : z * (t - 1) * B ≤ (E - 1) * (t - 1) * B := by
      have : 0 ≤ (t - 1) * B := mul_nonneg (by linarith) B0.le
      nlinarith
    rw [h2] at h1
    nlinarith
  have hpow : ∀ {z : ℝ}, 0 ≤ z → z ≤ 2 * M → Growth a ^ k * Real.exp (z * (Growth a ^ k - 1)) ≤ Growth a ^ (k + 4 * k * M) := by
    intro z hz hzM
    have h1 : z * (Growth a ^ k - 1) ≤ (4 * k * M : ℕ) * a.u := by
      push_cast
      calc z * (Growth a ^ k - 1) ≤ 2 * M * (2 * k * a.u) := mul_le_mul hzM hg (by linarith) (by positivity)
        _ = _ := by ring
    have h2 : Real.exp a.u ≤ Growth a := by
      have h3 := Real.add_one_le_exp (-a.u)
      rw [Real.exp_neg] at h3
      rw [Growth, ← inv_inv (Real.exp a.u)]
      exact inv_anti₀ (by linarith [h.unit]) (by linarith)
    rw [pow_add]
    refine mul_le_mul_of_nonneg_left ?_ (by linarith)
    calc Real.exp (z * (Growth a ^ k - 1)) ≤ Real.exp ((4 * k * M : ℕ) * a.u) := Real.exp_le_exp.2 h1
      _ = Real.exp a.u ^ (4 * k * M) := Real.exp_nat_mul _ _
      _ ≤ _ := pow_le_pow_left₀ (Real.exp_pos _).le h2 _
  have pos : ∀ {z : ℝ}, 0 ≤ z → 0 ≤ Real.exp z - 1 := fun {z} hz => by
    linarith [Real.add_one_le_exp z]
  have hy' := hy.val_nonneg h
  have hyM : y'.val ≤ 2 * M := by
    have := hy.upper
    have h0 := hy.nonneg
    nlinarith
  have e : Agrees a (k + 4 * k * M) (Real.exp y - 1) ⟨Real.exp y'.val - 1⟩ :=
    ⟨pos hy.nonneg, (key hy' g hy.lower).trans (mul_le_mul_of_nonneg_left (hpow hy' hyM) (pos hy')),
      (key hy.nonneg g hy.upper).trans (mul_le_mul_of_nonneg_left (hpow hy.nonneg (by linarith [(Nat.cast_nonneg M : (0 : ℝ) ≤ M)]))
        (pos hy.nonneg))⟩
  exact e.trans h (.round h (h.expm1 _) (e.val_nonneg h))

/-- the product of association strength and density -/
theorem agrees_deltarho {p : PcSaftParameters n ℝ} {p' : PcSaftParameters n (Rd a)} (hp : ParametersAgree a p p')
    {s : StateHD n ℝ} {s' : StateHD n (Rd a)} (hs : StateAgrees a s s') (hT0 : 0 < s.temperature) {j : Fin n} {M : ℕ}
    (hd0 : 0 < hsDiameter p s.temperature j)
    (hk : Agrees a 19 (p.kappa_aibj j j) (p'.kappa_aibj j j))
    (he : Agrees a 3 (p.epsilon_k_aibj j j) (p'.epsilon_k_aibj j j)) (hM : s.temperature⁻¹ * p.epsilon_k_aibj j j ≤ M)
    (h2 : zeta p.m s.partial_density (hsDiameter p s.temperature) 3 ≤ 1 / 2) (hg : Growth a ^ (39 + n) ≤ 3 / 2)
    (hg5 : Growth a ^ 5 - 1 ≤ 10 * a.u) :
    Agrees a (414 + 8 * n + 20 * M) (stateStrength p s j j * s.partial_density j) (codeDeltaRho p' s' j) := by
  have hg3 : Growth a ^ 3 ≤ 3 := (growth_mono h (show 3 ≤ 39 + n by omega)).trans (hg.trans (by norm_num))
  have hd := agrees_hsDiameter h hp hs.temperature hT0 hg3
  have hr := fun i => (hd i).mul h (Agrees.lit h 5 true 1)
  have hn2 := ((Agrees.sumFin h fun i => (((hs.partial_density i).mul h (hp.m i)).mul h (hr i)).mul h (hr i)).mul h
    (agrees_four h)).mul h (Agrees.pi h)
  have hn3 := agrees_packing h hp.m hs.partial_density hd
  have hw : 0 < 1 - zeta p.m s.partial_density (hsDiameter p s.temperature) 3 := by linarith
  have hn3i := (hn3.neg_add_half h h2 hg).recip h hw
  have l5 : (OfScientific.ofScientific 5 true 1 : ℝ) = 1 / 2 := by norm_num
  have l18 : Agrees a 0 18 (18.0 : Rd a) := by
    simpa using agrees_nat h (m := 180) (s := true) (e := 1) 18 (by norm_num) (by norm_num)
  have hrj : 0 < hsDiameter p s.temperature j * (OfScientific.ofScientific 5 true 1 : ℝ) := by
    rw [l5]
    linarith
  have hkk := (((hr j).mul h (hr j)).div h ((hr j).add h (hr j)) (by linarith)).mul h ((hn2.mul h hn3i).mul h (agrees_two h))
  have hb := hn3i.mul h (((hkk.mul h (Agrees.one h)).mul h ((hkk.div h l18 (by norm_num)).add h
    ((Agrees.lit h 5 true 1).mono h (by omega)))).add h ((Agrees.one h).mono h (by omega)))
  have hsg := ((Agrees.lit h 5 true 1).mul h ((hp.sigma j).add h (hp.sigma j))).powi h 3
  have hx := agrees_expm1 h ((hs.temperature.recip h hT0).mul h he) hM (by push_cast; linarith)
    ((growth_mono h (show 0 + 1 + 3 + 1 ≤ 39 + n by omega)).trans (hg.trans (by norm_num)))
  have t := (((hb.mul h hsg).mul h hk).mul h hx).mul h (hs.partial_density j)
  have e2 : assocN2 p.m s.partial_density (fun i => hsDiameter p s.temperature i * c (0.5 : ℝ))
      = (∑ i, s.partial_density i * p.m i * (hsDiameter p s.temperature i * (OfScientific.ofScientific 5 true 1 : ℝ))
        * (hsDiameter p s.temperature i * (OfScientific.ofScientific 5 true 1 : ℝ))) * 4 * Real.pi := by
    rw [assocN2_real, Finset.mul_sum, Finset.sum_mul, Finset.sum_mul]
    refine Finset.sum_congr rfl fun i _ => ?_
    simp only [c, ofF_real]
    ring
  have e3 : packingFraction p.m s.partial_density (fun i => hsDiameter p s.temperature i * c (0.5 : ℝ))
      = zeta p.m s.partial_density (hsDiameter p s.temperature) 3 := packingFraction_eq_zeta ..
  have c1 : (1.0 : ℝ) = 1 := by norm_num
  have c2 : (2.0 : ℝ) = 2 := by norm_num
  have c18 : (18.0 : ℝ) = 18 := by norm_num
  have e4 : DualNum.recip (-(packingFraction p.m s.partial_density (fun i => hsDiameter p s.temperature i * c (0.5 : ℝ)))
      + c (1.0 : ℝ)) = (1 - zeta p.m s.partial_density (hsDiameter p s.temperature) 3)⁻¹ := by
    rw [e3, recip_real]
    simp only [c, ofF_real, c1]
    congr 1
    ring
  refine Eq.mp (congrArg₂ (Agrees a _) ?_ rfl) (t.mono h (show _ ≤ 414 + 8 * n + 20 * M by omega))
  rw [← e2]
  unfold stateStrength associationStrength
  dsimp only
  rw [e4]
  simp only [c, ofF_real, c1, c2, c18, recip_real, powi_real, dexpm1_real]

end

/-! ### Numbers that can be computed by hand -/

/-- rounding to the nearest number with 53 binary digits -/
theorem roundBits_eq {x : ℝ} {z m : ℤ} (h1 : (2 : ℝ) ^ z ≤ |x|) (h2 : |x| < 2 ^ (z + 1))
    (hm : |x * 2 ^ 52 / 2 ^ z - m| < 1 / 2) : roundBits 52 x = m * 2 ^ z / 2 ^ 52 := by
  have h0 : 0 < |x| := lt_of_lt_of_le (by positivity) h1
  have hl : Int.log 2 |x| = z := by
    have a1 := (Int.zpow_le_iff_le_log (b := 2) (by norm_num) (x := z) h0).1 (by exact_mod_cast h1)
    have a2 := (Int.lt_zpow_iff_log_lt (b := 2) (by norm_num) (x := z + 1) h0).1 (by exact_mod_cast h2)
    omega
  have hr : round (x * 2 ^ 52 / 2 ^ z) = m := by
    rw [round_eq, Int.floor_eq_iff]
    rw [abs_lt] at hm
    constructor <;> linarith
  rw [roundBits, hl, hr]

end PcSaft
