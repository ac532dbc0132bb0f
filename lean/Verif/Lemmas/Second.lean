import Verif.Props.Derivatives

/-! # Second-order dual numbers that vanish to first or second order -/

namespace PcSaft
abbrev Dual2 := Dual (Dual ℝ)

namespace Dual2
/-- value -/
def val (d : Dual2) : ℝ := d.re.re

/-- vanishing value, first derivatives `a` in both directions -/
structure First (a : ℝ) (d : Dual2) : Prop where
  re : d.re.re = 0
  e1 : d.re.eps = a
  e2 : d.eps.re = a

/-- vanishing value and first derivatives, mixed second derivative `b` -/
structure Second (b : ℝ) (d : Dual2) : Prop where
  re : d.re.re = 0
  e1 : d.re.eps = 0
  e2 : d.eps.re = 0
  e12 : d.eps.eps = b

theorem val_mul (x y : Dual2) : (x * y).val = x.val * y.val := rfl
theorem val_add (x y : Dual2) : (x + y).val = x.val + y.val := rfl
theorem val_sub (x y : Dual2) : (x - y).val = x.val - y.val := rfl
theorem val_neg (x : Dual2) : (-x).val = -x.val := rfl
theorem val_c (a : ℝ) : (c a : Dual2).val = a := rfl
theorem val_recip (x : Dual2) : (DualNum.recip x).val = x.val⁻¹ := recip_real _
theorem val_powi (x : Dual2) (k : ℕ) : (DualNum.powi x k).val = x.val ^ k := by
  match k with
  | 0 =>
    change (1.0 : ℝ) = _
    norm_num
  | 1 => exact (pow_one _).symm
  | _ + 2 => rfl
theorem val_div (x y : Dual2) : (x / y).val = x.val * y.val⁻¹ := by
  change x.re.re * DualNum.recip y.re.re = _
  rw [recip_real]; rfl
theorem val_sumFin {k : ℕ} (x : Fin k → Dual2) : (sumFin x).val = ∑ i, (x i).val := by
  unfold sumFin
  induction k with
  | zero => norm_num [val_c]
  | succ k ih => rw [Fin.foldl_succ_last, Fin.sum_univ_castSucc, val_add, ih]

variable {a b : ℝ} {x y w : Dual2}

theorem c_second : (c (0.0 : ℝ) : Dual2) = ⟨⟨0, 0⟩, ⟨0, 0⟩⟩ := by
  have h : (0.0 : ℝ) = 0 := by norm_num
  change (⟨⟨(0.0 : ℝ), (0.0 : ℝ)⟩, ⟨(0.0 : ℝ), (0.0 : ℝ)⟩⟩ : Dual2) = _
  rw [h]

theorem c_eq (a : ℝ) : (c a : Dual2) = ⟨⟨a, 0⟩, ⟨0, 0⟩⟩ := by
  have h : (0.0 : ℝ) = 0 := by norm_num
  change (⟨⟨a, (0.0 : ℝ)⟩, ⟨(0.0 : ℝ), (0.0 : ℝ)⟩⟩ : Dual2) = _
  rw [h]

theorem mul_eq (x y : Dual2) : x * y = ⟨⟨x.re.re * y.re.re, x.re.eps * y.re.re + y.re.eps * x.re.re⟩,
    ⟨x.eps.re * y.re.re + y.eps.re * x.re.re,
      (x.eps.eps * y.re.re + y.re.eps * x.eps.re) + (y.eps.eps * x.re.re + x.re.eps * y.eps.re)⟩⟩ := rfl

theorem First.mul_val (h : First a x) (w : Dual2) : First (a * w.val) (x * w) := by
  rw [mul_eq]
  constructor <;> simp [h.re, h.e1, h.e2, val]

theorem First.val_mul (h : First a x) (w : Dual2) : First (w.val * a) (w * x) := by
  rw [mul_eq]
  constructor <;> simp [h.re, h.e1, h.e2, val, mul_comm]

theorem First.mul (h : First a x) (h' : First b y) : Second (2 * a * b) (x * y) := by
  rw [mul_eq]
  constructor <;> simp [h.re, h.e1, h.e2, h'.re, h'.e1, h'.e2]
  ring

theorem First.add (h : First a x) (h' : First b y) : First (a + b) (x + y) :=
  ⟨by change x.re.re + y.re.re = 0; rw [h.re, h'.re, add_zero], by change x.re.eps + y.re.eps = _; rw [h.e1, h'.e1],
   by change x.eps.re + y.eps.re = _; rw [h.e2, h'.e2]⟩

theorem First.sub (h : First a x) (h' : First b y) : First (a - b) (x - y) :=
  ⟨by change x.re.re - y.re.re = 0; rw [h.re, h'.re, sub_zero], by change x.re.eps - y.re.eps = _; rw [h.e1, h'.e1],
   by change x.eps.re - y.eps.re = _; rw [h.e2, h'.e2]⟩

theorem First.neg (h : First a x) : First (-a) (-x) :=
  ⟨by change -x.re.re = 0; rw [h.re, neg_zero], by change -x.re.eps = _; rw [h.e1],
   by change -x.eps.re = _; rw [h.e2]⟩

theorem Second.first (h : Second b x) : First 0 x := ⟨h.re, h.e1, h.e2⟩

theorem Second.mul_val (h : Second b x) (w : Dual2) : Second (b * w.val) (x * w) := by
  rw [mul_eq]
  constructor <;> simp [h.re, h.e1, h.e2, h.e12, val]

theorem Second.val_mul (h : Second b x) (w : Dual2) : Second (w.val * b) (w * x) := by
  rw [mul_eq]
  constructor <;> simp [h.re, h.e1, h.e2, h.e12, val, mul_comm]

theorem First.sq (h : First a x) : Second (2 * a * a) (DualNum.powi x 2) := by
  have h2 : (OfScientific.ofScientific 2 false 0 : ℝ) = 2 := by norm_num
  have h0 : (0.0 : ℝ) = 0 := by norm_num
  constructor
  · change x.re.re ^ 2 = 0
    rw [h.re]; norm_num
  · change x.re.eps * (x.re.re ^ 1 * (OfScientific.ofScientific 2 false 0 : ℝ)) = 0
    rw [h.re]; norm_num
  · change x.eps.re * (x.re.re * (OfScientific.ofScientific 2 false 0 : ℝ)) = 0
    rw [h.re]; norm_num
  · change x.eps.eps * (x.re.re * (OfScientific.ofScientific 2 false 0 : ℝ))
      + (x.re.eps * (OfScientific.ofScientific 2 false 0 : ℝ) + (0.0 : ℝ) * x.re.re) * x.eps.re = _
    rw [h.re, h.e1, h.e2, h2, h0]
    ring

theorem Second.add (h : Second a x) (h' : Second b y) : Second (a + b) (x + y) :=
  ⟨by change x.re.re + y.re.re = 0; rw [h.re, h'.re, add_zero],
   by change x.re.eps + y.re.eps = _; rw [h.e1, h'.e1, add_zero],
   by change x.eps.re + y.eps.re = _; rw [h.e2, h'.e2, add_zero],
   by change x.eps.eps + y.eps.eps = _; rw [h.e12, h'.e12]⟩

theorem Second.sub (h : Second a x) (h' : Second b y) : Second (a - b) (x - y) :=
  ⟨by change x.re.re - y.re.re = 0; rw [h.re, h'.re, sub_zero],
   by change x.re.eps - y.re.eps = _; rw [h.e1, h'.e1, sub_zero],
   by change x.eps.re - y.eps.re = _; rw [h.e2, h'.e2, sub_zero],
   by change x.eps.eps - y.eps.eps = _; rw [h.e12, h'.e12]⟩

theorem Second.neg (h : Second a x) : Second (-a) (-x) :=
  ⟨by change -x.re.re = 0; rw [h.re, neg_zero], by change -x.re.eps = _; rw [h.e1, neg_zero],
   by change -x.eps.re = _; rw [h.e2, neg_zero], by change -x.eps.eps = _; rw [h.e12]⟩

theorem second_zero : Second 0 (c (0.0 : ℝ) : Dual2) := by
  rw [c_second]
  exact ⟨rfl, rfl, rfl, rfl⟩

theorem first_zero : First 0 (c (0.0 : ℝ) : Dual2) := second_zero.first

theorem First.sumFin {k : ℕ} {a : Fin k → ℝ} {x : Fin k → Dual2} (h : ∀ i, First (a i) (x i)) :
    First (∑ i, a i) (sumFin x) := by
  unfold PcSaft.sumFin
  induction k with
  | zero => simpa using first_zero
  | succ k ih =>
    rw [Fin.foldl_succ_last, Fin.sum_univ_castSucc]
    exact (ih (a := fun i => a i.castSucc) (x := fun i => x i.castSucc) fun i => h _).add (h _)

theorem Second.sumFin {k : ℕ} {a : Fin k → ℝ} {x : Fin k → Dual2} (h : ∀ i, Second (a i) (x i)) :
    Second (∑ i, a i) (sumFin x) := by
  unfold PcSaft.sumFin
  induction k with
  | zero => simpa using second_zero
  | succ k ih =>
    rw [Fin.foldl_succ_last, Fin.sum_univ_castSucc]
    exact (ih (a := fun i => a i.castSucc) (x := fun i => x i.castSucc) fun i => h _).add (h _)

theorem Second.sumFin2 {k l : ℕ} {a : Fin k → Fin l → ℝ} {x : Fin k → Fin l → Dual2}
    (h : ∀ i j, Second (a i j) (x i j)) : Second (∑ i, ∑ j, a i j) (sumFin2 x) := by
  have inner : ∀ {l : ℕ} {b : ℝ} {y : Dual2} {a : Fin l → ℝ} {x : Fin l → Dual2}, Second b y →
      (∀ j, Second (a j) (x j)) → Second (b + ∑ j, a j) (Fin.foldl l (fun acc j => acc + x j) y) := by
    intro l b y a x hy hx
    induction l with
    | zero => simpa using hy
    | succ l ih =>
      rw [Fin.foldl_succ_last, Fin.sum_univ_castSucc, ← add_assoc]
      exact (ih (a := fun i => a i.castSucc) (x := fun i => x i.castSucc) fun i => hx _).add (hx _)
  unfold PcSaft.sumFin2
  induction k with
  | zero => simpa using second_zero
  | succ k ih =>
    rw [Fin.foldl_succ_last, Fin.sum_univ_castSucc]
    exact inner (ih (a := fun i => a i.castSucc) (x := fun i => x i.castSucc) fun i j => h _ _) (h _)

theorem First.add_sub (h : First a x) (b : ℝ) : First a (x + c b - c b) := by
  have h0 : (0.0 : ℝ) = 0 := by norm_num
  constructor
  · change x.re.re + b - b = 0
    rw [h.re]; ring
  · change x.re.eps + (0.0 : ℝ) - (0.0 : ℝ) = a
    rw [h.e1, h0]; ring
  · change x.eps.re + (0.0 : ℝ) - (0.0 : ℝ) = a
    rw [h.e2, h0]; ring

theorem First.add_sub' (h : First a x) (b : ℝ) : First a (c b + x - c b) := by
  have h0 : (0.0 : ℝ) = 0 := by norm_num
  constructor
  · change b + x.re.re - b = 0
    rw [h.re]; ring
  · change (0.0 : ℝ) + x.re.eps - (0.0 : ℝ) = a
    rw [h.e1, h0]; ring
  · change (0.0 : ℝ) + x.eps.re - (0.0 : ℝ) = a
    rw [h.e2, h0]; ring

/-- `1 / (1 - x)` near one -/
theorem First.frac (h : First a x) : First a (-(DualNum.recip (x - c 1.0)) - c 1.0) := by
  have h0 : (0.0 : ℝ) = 0 := by norm_num
  constructor
  · change -(DualNum.recip (x.re.re - (1.0 : ℝ))) - (1.0 : ℝ) = 0
    rw [h.re, recip_real]; norm_num
  · change -((x.re.eps - (0.0 : ℝ)) * (-(DualNum.recip (x.re.re - (1.0 : ℝ)) * DualNum.recip (x.re.re - (1.0 : ℝ)))))
      - (0.0 : ℝ) = a
    rw [h.re, h.e1, h0, recip_real]; norm_num
  · change -((x.eps.re - (0.0 : ℝ)) * (-(DualNum.recip (x.re.re - (1.0 : ℝ)) * DualNum.recip (x.re.re - (1.0 : ℝ)))))
      - (0.0 : ℝ) = a
    rw [h.re, h.e2, h0, recip_real]; norm_num

theorem First.shift {b a' : ℝ} {u : Dual2} (h : First a (w - u)) (hx : First b x) (hy : First a' y) :
    First (a + b - a') (w + x - y - u) := by
  have e := h.re
  have e1 := h.e1
  have e2 := h.e2
  change w.re.re - u.re.re = 0 at e
  change w.re.eps - u.re.eps = a at e1
  change w.eps.re - u.eps.re = a at e2
  constructor
  · change w.re.re + x.re.re - y.re.re - u.re.re = 0
    rw [hx.re, hy.re]; linarith
  · change w.re.eps + x.re.eps - y.re.eps - u.re.eps = _
    rw [hx.e1, hy.e1]; linarith
  · change w.eps.re + x.eps.re - y.eps.re - u.eps.re = _
    rw [hx.e2, hy.e2]; linarith

/-- the logarithm near one -/
theorem First.ln (h : First a (x - c 1.0)) : First a (DualNum.ln x) := by
  have h1 : (1.0 : ℝ) = 1 := by norm_num
  have h0 : (0.0 : ℝ) = 0 := by norm_num
  have e := h.re
  have e1 := h.e1
  have e2 := h.e2
  change x.re.re - (1.0 : ℝ) = 0 at e
  change x.re.eps - (0.0 : ℝ) = a at e1
  change x.eps.re - (0.0 : ℝ) = a at e2
  rw [h1, sub_eq_zero] at e
  rw [h0, sub_zero] at e1 e2
  constructor
  · change Real.log x.re.re = 0
    rw [e, Real.log_one]
  · change x.re.eps * ((1.0 : ℝ) / x.re.re) = a
    rw [e, e1, h1]
    simp
  · change x.eps.re * ((1.0 : ℝ) / x.re.re) = a
    rw [e, e2, h1]
    simp

theorem First.ln1p (h : First a x) : First a (DualNum.ln1p x) := by
  have h1 : (1.0 : ℝ) = 1 := by norm_num
  constructor
  · change Real.log (1 + x.re.re) = 0
    rw [h.re, add_zero, Real.log_one]
  · change x.re.eps * ((1.0 : ℝ) / (x.re.re + (1.0 : ℝ))) = a
    rw [h.re, h.e1, h1]
    simp
  · change x.eps.re * ((1.0 : ℝ) / (x.re.re + (1.0 : ℝ))) = a
    rw [h.re, h.e2, h1]
    simp

/-- the function `ln x - x/2 + 1/2` of the association energy near one -/
theorem First.assocF (h : First a (x - c 1.0)) : First (a / 2) (assocF x) := by
  have h5 : (0.5 : ℝ) = 1 / 2 := by norm_num
  have h1 : (1.0 : ℝ) = 1 := by norm_num
  have h0 : (0.0 : ℝ) = 0 := by norm_num
  have hl := h.ln
  have e := h.re
  have e1 := h.e1
  have e2 := h.e2
  change x.re.re - (1.0 : ℝ) = 0 at e
  change x.re.eps - (0.0 : ℝ) = a at e1
  change x.eps.re - (0.0 : ℝ) = a at e2
  rw [h1, sub_eq_zero] at e
  rw [h0, sub_zero] at e1 e2
  constructor
  · change (DualNum.ln x).re.re - x.re.re * 0.5 + 0.5 = 0
    rw [hl.re, e, h5]
    norm_num
  · change (DualNum.ln x).re.eps - (x.re.eps * 0.5 + 0.0 * x.re.re) + 0.0 = _
    rw [hl.e1, e1, h5, h0]
    ring
  · change (DualNum.ln x).eps.re - (x.eps.re * 0.5 + 0.0 * x.re.re) + 0.0 = _
    rw [hl.e2, e2, h5, h0]
    ring

end Dual2
end PcSaft
