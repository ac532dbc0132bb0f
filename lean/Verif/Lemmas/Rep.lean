import Verif.Model.Dual
import Verif.Model.XReal
import Mathlib.Analysis.SpecialFunctions.Log.Deriv
import Mathlib.Analysis.SpecialFunctions.ExpDeriv
import Mathlib.Analysis.SpecialFunctions.Sqrt
import Mathlib.Analysis.Calculus.Deriv.Inv
import Mathlib.Analysis.Calculus.Deriv.Pow

/-!
# Number types that represent real functions

`Rep x0 emb D` collects what it means that an element of a number type `D` carries the information about a
real function near a point `x0`: a relation between functions and elements that is preserved by the
operations of the number type wherever these are defined in the usual sense (non-zero divisor, positive
argument of a logarithm or a square root). The parameter `emb` says which constants of the number type stand
for a real number: exactly one in exact arithmetic, many if operations round.

Instances: real numbers represent the value of a function; `XReal` represents the value and certifies that
no operation was undefined; `Dual D` represents the function and its derivative.
-/

open Filter Topology

namespace PcSaft
variable {F D X : Type} [F64 F] [DualNum F D] [TopologicalSpace X]

/-- a relation between real numbers and the constants of a number type that stand for them, preserved by the
operations on constants -/
structure LawfulEmb (emb : ℝ → F → Prop) : Prop where
  add : ∀ {a b a' b'}, emb a a' → emb b b' → emb (a + b) (a' + b')
  sub : ∀ {a b a' b'}, emb a a' → emb b b' → emb (a - b) (a' - b')
  mul : ∀ {a b a' b'}, emb a a' → emb b b' → emb (a * b) (a' * b')
  neg : ∀ {a a'}, emb a a' → emb (-a) (-a')
  div : ∀ {a b a' b'}, emb a a' → emb b b' → b ≠ 0 → emb (a / b) (a' / b')
  sci : ∀ m s e, emb (OfScientific.ofScientific m s e) (OfScientific.ofScientific m s e)
  powi : ∀ {a a'}, emb a a' → ∀ k, emb (a ^ k) (F64.powi a' k)
  pi : emb Real.pi F64.pi
  sqrt : ∀ {a a'}, emb a a' → 0 < a → emb (Real.sqrt a) (F64.sqrt a')
  cbrt : ∀ {a : ℝ} {a'}, emb a a' → 0 < a → emb (F64.cbrt a) (F64.cbrt a')
  min : ∀ {a b a' b'}, emb a a' → emb b b' → emb (min a b) (F64.min a' b')
  lt : ∀ {a b a' b'}, emb a a' → emb b b' → a ≠ b → F64.lt a' b' = decide (a < b)
  isNan : ∀ {a a'}, emb a a' → F64.isNan a' = false

/-- a relation between real functions near `x0` and elements of a number type -/
structure Rep (x0 : X) (emb : ℝ → F → Prop) (D : Type) [DualNum F D] where
  R : (X → ℝ) → D → Prop
  continuousAt : ∀ {f d}, R f d → ContinuousAt f x0
  congr : ∀ {f g d}, R f d → f =ᶠ[𝓝 x0] g → R g d
  constRel : ∀ {a a'}, emb a a' → R (fun _ => a) (c a')
  add : ∀ {f g a b}, R f a → R g b → R (fun x => f x + g x) (a + b)
  sub : ∀ {f g a b}, R f a → R g b → R (fun x => f x - g x) (a - b)
  mul : ∀ {f g a b}, R f a → R g b → R (fun x => f x * g x) (a * b)
  neg : ∀ {f a}, R f a → R (fun x => -f x) (-a)
  div : ∀ {f g a b}, R f a → R g b → g x0 ≠ 0 → R (fun x => f x / g x) (a / b)
  recip : ∀ {f a}, R f a → f x0 ≠ 0 → R (fun x => (f x)⁻¹) (DualNum.recip a)
  powi : ∀ {f a}, R f a → ∀ k, R (fun x => f x ^ k) (DualNum.powi a k)
  sqrt : ∀ {f a}, R f a → 0 < f x0 → R (fun x => Real.sqrt (f x)) (DualNum.sqrt a)
  ln : ∀ {f a}, R f a → 0 < f x0 → R (fun x => Real.log (f x)) (DualNum.ln a)
  exp : ∀ {f a}, R f a → R (fun x => Real.exp (f x)) (DualNum.exp a)
  expm1 : ∀ {f a}, R f a → R (fun x => Real.exp (f x) - 1) (DualNum.expm1 a)
  ln1p : ∀ {f a}, R f a → 0 < 1 + f x0 → R (fun x => Real.log (1 + f x)) (DualNum.ln1p a)
  re : ∀ {f a}, R f a → emb (f x0) (DualNum.re a)
  /-- if only the value at the point counts, then ties in comparisons are decided as for real numbers -/
  sharp : 𝓝 x0 = pure x0 → ∀ {a b a' b'}, emb a a' → emb b b' → F64.lt a' b' = decide (a < b)

/-! ### Real numbers: the value -/

/-- in exact arithmetic, a number stands for itself -/
abbrev Same (a a' : ℝ) : Prop := a' = a

theorem lawfulEmb_id : LawfulEmb Same where
  add h h' := by rw [h, h']
  sub h h' := by rw [h, h']
  mul h h' := by rw [h, h']
  neg h := by rw [h]
  div h h' _ := by rw [h, h']
  sci _ _ _ := rfl
  powi h _ := by rw [h, powi_real]
  pi := rfl
  sqrt h _ := by rw [h, sqrt_real]
  cbrt h _ := by rw [h]
  min h h' := by rw [h, h', min_real]
  lt h h' _ := by rw [h, h', lt_real]
  isNan _ := rfl

/-- constants of exact arithmetic -/
theorem Rep.const {D X : Type} [DualNum ℝ D] [TopologicalSpace X] {x0 : X} (ρ : Rep x0 Same D) (a : ℝ) :
    ρ.R (fun _ => a) (c a) := ρ.constRel rfl

/-- a real number represents the value of a continuous function -/
noncomputable def repReal (x0 : X) : Rep x0 Same ℝ where
  R f d := ContinuousAt f x0 ∧ d = f x0
  continuousAt h := h.1
  congr := fun {f g d} h e => ⟨h.1.congr e, by rw [h.2, e.eq_of_nhds]⟩
  constRel h := ⟨continuousAt_const, h⟩
  add h h' := ⟨h.1.add h'.1, by rw [h.2, h'.2]⟩
  sub h h' := ⟨h.1.sub h'.1, by rw [h.2, h'.2]⟩
  mul h h' := ⟨h.1.mul h'.1, by rw [h.2, h'.2]⟩
  neg h := ⟨h.1.neg, by rw [h.2]⟩
  div h h' hne := ⟨h.1.div h'.1 hne, by rw [h.2, h'.2]⟩
  recip h hne := ⟨h.1.inv₀ hne, by rw [h.2, recip_real]⟩
  powi h k := ⟨h.1.pow k, by rw [h.2, dpowi_real]⟩
  sqrt h _ := ⟨h.1.sqrt, by rw [h.2, dsqrt_real]⟩
  ln h hp := ⟨h.1.log hp.ne', by rw [h.2, dln_real]⟩
  exp h := ⟨h.1.rexp, by rw [h.2, dexp_real]⟩
  expm1 h := ⟨h.1.rexp.sub continuousAt_const, by rw [h.2, dexpm1_real]⟩
  ln1p h hp := ⟨(continuousAt_const.add h.1).log hp.ne', by rw [h.2, dln1p_real]⟩
  re h := h.2
  sharp _ := fun h h' => by rw [h, h', lt_real]

/-! ### Reals with infinities and NaN: the value, finite -/

namespace XReal
theorem fin_add (a b : ℝ) : (fin a + fin b : XReal) = fin (a + b) := rfl
theorem fin_sub (a b : ℝ) : (fin a - fin b : XReal) = fin (a - b) := by
  rw [sub_eq_add_neg]; rfl
theorem fin_mul (a b : ℝ) : (fin a * fin b : XReal) = fin (a * b) := rfl
theorem fin_neg (a : ℝ) : (-fin a : XReal) = fin (-a) := rfl
theorem fin_div (a b : ℝ) (h : b ≠ 0) : (fin a / fin b : XReal) = fin (a / b) := if_neg h
theorem fin_powi (a : ℝ) (k : ℕ) : F64.powi (fin a) k = fin (a ^ k) := by
  induction k with
  | zero => simp [F64.powi, XReal.powi]
  | succ k ih =>
    change XReal.mul (XReal.powi (fin a) k) (fin a) = _
    have : XReal.powi (fin a) k = fin (a ^ k) := ih
    rw [this, pow_succ]
    rfl
theorem fin_sqrt (a : ℝ) (h : 0 ≤ a) : F64.sqrt (fin a) = fin (Real.sqrt a) := if_neg (not_lt.mpr h)
theorem fin_ln (a : ℝ) (h : 0 < a) : F64.ln (fin a) = fin (Real.log a) := if_pos h

/-- the same rules as equations, read from the operation on real numbers -/
structure Equations : Prop where
  add : ∀ a b, fin (a + b) = fin a + fin b
  sub : ∀ a b, fin (a - b) = fin a - fin b
  mul : ∀ a b, fin (a * b) = fin a * fin b
  div : ∀ a b, b ≠ 0 → fin (a / b) = fin a / fin b
  sci : ∀ m s e, fin (OfScientific.ofScientific m s e) = OfScientific.ofScientific m s e
  powi : ∀ a k, fin (a ^ k) = F64.powi (fin a) k
  sqrt : ∀ a, 0 ≤ a → fin (Real.sqrt a) = F64.sqrt (fin a)

theorem equations : Equations where
  add _ _ := rfl
  sub a b := (fin_sub a b).symm
  mul _ _ := rfl
  div a b h := (fin_div a b h).symm
  sci _ _ _ := rfl
  powi a k := (fin_powi a k).symm
  sqrt a h := (fin_sqrt a h).symm

/-- a real number is stood for by the finite number with its value -/
abbrev IsFin (a : ℝ) (a' : XReal) : Prop := a' = fin a

theorem fin_lt (a b : ℝ) : F64.lt (fin a) (fin b) = decide (a < b) := by
  change decide _ = _
  congr

theorem lawfulEmb : LawfulEmb IsFin where
  add h h' := by rw [h, h']; rfl
  sub h h' := by rw [h, h']; exact fin_sub _ _
  mul h h' := by rw [h, h']; rfl
  neg h := by rw [h]; rfl
  div h h' hb := by rw [h, h']; exact fin_div _ _ hb
  sci _ _ _ := rfl
  powi h k := by rw [h]; exact fin_powi _ k
  pi := rfl
  sqrt h hp := by rw [h]; exact fin_sqrt _ hp.le
  cbrt h _ := by rw [h]; rfl
  min := fun {a b a' b'} h h' => by
    rw [h, h']
    change (if decide (b < a) = true then fin b else fin a) = fin (Min.min a b)
    by_cases h : b < a
    · simp [h, min_eq_right h.le]
    · simp [h, min_eq_left (not_lt.mp h)]
  lt h h' _ := by rw [h, h', fin_lt]
  isNan h := by rw [h]; rfl

/-- a finite number represents the value of a continuous function -/
noncomputable def rep (x0 : X) : Rep x0 IsFin XReal where
  R f d := ContinuousAt f x0 ∧ d = fin (f x0)
  continuousAt h := h.1
  congr := fun {f g d} h e => ⟨h.1.congr e, by rw [h.2, e.eq_of_nhds]⟩
  constRel h := ⟨continuousAt_const, h⟩
  add h h' := ⟨h.1.add h'.1, by rw [h.2, h'.2]; rfl⟩
  sub h h' := ⟨h.1.sub h'.1, by rw [h.2, h'.2]; exact fin_sub _ _⟩
  mul h h' := ⟨h.1.mul h'.1, by rw [h.2, h'.2]; rfl⟩
  neg h := ⟨h.1.neg, by rw [h.2]; rfl⟩
  div h h' hne := ⟨h.1.div h'.1 hne, by rw [h.2, h'.2]; exact fin_div _ _ hne⟩
  recip := fun {f a} h hne => ⟨h.1.inv₀ hne, by
    rw [h.2]
    change (fin (1.0 : ℝ) / fin (f x0) : XReal) = _
    rw [fin_div _ _ hne]
    norm_num⟩
  powi h k := ⟨h.1.pow k, by rw [h.2]; exact fin_powi _ _⟩
  sqrt h hp := ⟨h.1.sqrt, by rw [h.2]; exact fin_sqrt _ hp.le⟩
  ln h hp := ⟨h.1.log hp.ne', by rw [h.2]; exact fin_ln _ hp⟩
  exp h := ⟨h.1.rexp, by rw [h.2]; rfl⟩
  expm1 h := ⟨h.1.rexp.sub continuousAt_const, by
    rw [h.2]
    change _ = fin (_ - 1)
    rw [sub_eq_add_neg]
    rfl⟩
  ln1p h hp := ⟨(continuousAt_const.add h.1).log hp.ne', by rw [h.2]; exact fin_ln _ hp⟩
  re h := h.2
  sharp _ := fun h h' => by rw [h, h', fin_lt]
end XReal

/-! ### Dual numbers: function and derivative -/

/-- A dual number over `D` represents a function of one more variable if its first component represents the
function at `t0` and its second component represents the derivative with respect to the new variable at
`t0`, for all nearby values of the old variables. -/
def DualR {x0 : X} {emb : ℝ → F → Prop} (ρ : Rep x0 emb D) (t0 : ℝ) (f : X × ℝ → ℝ) (d : Dual D) : Prop :=
  ContinuousAt f (x0, t0) ∧ ρ.R (fun x => f (x, t0)) d.re
    ∧ ∃ f' : X → ℝ, (∀ᶠ x in 𝓝 x0, HasDerivAt (fun t => f (x, t)) (f' x) t0) ∧ ρ.R f' d.eps

theorem Rep.eventually_ne {x0 : X} {emb : ℝ → F → Prop} (ρ : Rep x0 emb D) {f : X → ℝ} {d : D} (h : ρ.R f d)
    (hne : f x0 ≠ 0) : ∀ᶠ x in 𝓝 x0, f x ≠ 0 := (ρ.continuousAt h).eventually_ne hne

theorem Rep.eventually_pos {x0 : X} {emb : ℝ → F → Prop} (ρ : Rep x0 emb D) {f : X → ℝ} {d : D} (h : ρ.R f d)
    (hp : 0 < f x0) : ∀ᶠ x in 𝓝 x0, 0 < f x := (ρ.continuousAt h).eventually (lt_mem_nhds hp)

/-- elementary functions applied to a dual number -/
theorem DualR.chain {x0 : X} {emb : ℝ → F → Prop} {ρ : Rep x0 emb D} {t0 : ℝ} {f : X × ℝ → ℝ} {d : Dual D}
    (h : DualR ρ t0 f d) (φ φ' : ℝ → ℝ) (f0 f1 : D) (hc : ContinuousAt φ (f (x0, t0)))
    (hd : ∀ᶠ x in 𝓝 x0, HasDerivAt φ (φ' (f (x, t0))) (f (x, t0)))
    (h0 : ρ.R (fun x => φ (f (x, t0))) f0) (h1 : ρ.R (fun x => φ' (f (x, t0))) f1) :
    DualR ρ t0 (fun x => φ (f x)) (Dual.chain f0 f1 d) := by
  obtain ⟨hcont, hre, f', hf', heps⟩ := h
  refine ⟨ContinuousAt.comp (f := f) hc hcont, h0, fun x => f' x * φ' (f (x, t0)), ?_, ρ.mul heps h1⟩
  filter_upwards [hf', hd] with x h1 h2
  rw [mul_comm]
  exact h2.comp t0 h1

theorem eventually_fst {x0 : X} {t0 : ℝ} {f g : X × ℝ → ℝ} (h : f =ᶠ[𝓝 (x0, t0)] g) :
    ∀ᶠ x in 𝓝 x0, (fun t => f (x, t)) =ᶠ[𝓝 t0] fun t => g (x, t) := by
  rw [nhds_prod_eq] at h
  exact Filter.Eventually.curry h

/-- dual numbers represent a function and its derivative -/
noncomputable def repDual {x0 : X} {emb : ℝ → F → Prop} (le : LawfulEmb emb) (ρ : Rep x0 emb D) (t0 : ℝ) :
    Rep (x0, t0) emb (Dual D) where
  R := DualR ρ t0
  continuousAt h := h.1
  congr := by
    rintro f g d ⟨hc, hre, f', hf', heps⟩ e
    have e' := eventually_fst e
    refine ⟨hc.congr e, ρ.congr hre (e'.mono fun x h => h.eq_of_nhds), f', ?_, heps⟩
    filter_upwards [hf', e'] with x h1 h2
    exact h1.congr_of_eventuallyEq h2.symm
  constRel h := ⟨continuousAt_const, ρ.constRel h, fun _ => 0, .of_forall fun x => hasDerivAt_const _ _, by
    have := ρ.constRel (le.sci 0 true 1)
    have e : (OfScientific.ofScientific 0 true 1 : ℝ) = 0 := by norm_num
    rw [e] at this
    exact this⟩
  add := by
    rintro f g a b ⟨hc, hre, f', hf', heps⟩ ⟨hc2, hre2, g', hg', heps2⟩
    refine ⟨hc.add hc2, ρ.add hre hre2, fun x => f' x + g' x, ?_, ρ.add heps heps2⟩
    filter_upwards [hf', hg'] with x h1 h2
    exact h1.add h2
  sub := by
    rintro f g a b ⟨hc, hre, f', hf', heps⟩ ⟨hc2, hre2, g', hg', heps2⟩
    refine ⟨hc.sub hc2, ρ.sub hre hre2, fun x => f' x - g' x, ?_, ρ.sub heps heps2⟩
    filter_upwards [hf', hg'] with x h1 h2
    exact h1.sub h2
  mul := by
    rintro f g a b ⟨hc, hre, f', hf', heps⟩ ⟨hc2, hre2, g', hg', heps2⟩
    refine ⟨hc.mul hc2, ρ.mul hre hre2, fun x => f' x * g (x, t0) + g' x * f (x, t0), ?_,
      ρ.add (ρ.mul heps hre2) (ρ.mul heps2 hre)⟩
    filter_upwards [hf', hg'] with x h1 h2
    rw [mul_comm (g' x)]
    exact h1.mul h2
  neg := by
    rintro f a ⟨hc, hre, f', hf', heps⟩
    refine ⟨hc.neg, ρ.neg hre, fun x => -f' x, ?_, ρ.neg heps⟩
    filter_upwards [hf'] with x h1
    exact h1.neg
  div := by
    rintro f g a b ⟨hc, hre, f', hf', heps⟩ ⟨hc2, hre2, g', hg', heps2⟩ hne
    refine ⟨hc.div hc2 hne, ?_, fun x => (f' x * g (x, t0) - g' x * f (x, t0)) * (g (x, t0))⁻¹ * (g (x, t0))⁻¹,
      ?_, ρ.mul (ρ.mul (ρ.sub (ρ.mul heps hre2) (ρ.mul heps2 hre)) (ρ.recip hre2 hne)) (ρ.recip hre2 hne)⟩
    · exact ρ.congr (ρ.mul hre (ρ.recip hre2 hne)) (.of_forall fun x => (div_eq_mul_inv _ _).symm)
    filter_upwards [hf', hg', ρ.eventually_ne hre2 hne] with x h1 h2 h3
    refine (h1.div h2 h3).congr_deriv ?_
    field_simp
  recip := by
    intro f a h hne
    refine h.chain (fun y => y⁻¹) (fun y => -(y⁻¹ * y⁻¹)) _ _ (continuousAt_inv₀ hne) ?_ (ρ.recip h.2.1 hne)
      (ρ.neg (ρ.mul (ρ.recip h.2.1 hne) (ρ.recip h.2.1 hne)))
    filter_upwards [ρ.eventually_ne h.2.1 hne] with x h3
    refine (hasDerivAt_inv h3).congr_deriv ?_
    rw [sq, mul_inv]
  powi := by
    intro f a h k
    match k with
    | 0 =>
      have h1 := ρ.constRel (le.sci 10 true 1)
      have h0 := ρ.constRel (le.sci 0 true 1)
      have e0 : (OfScientific.ofScientific 0 true 1 : ℝ) = 0 := by norm_num
      have e1 : (OfScientific.ofScientific 10 true 1 : ℝ) = 1 := by norm_num
      rw [e0] at h0
      rw [e1] at h1
      refine ⟨by simpa using continuousAt_const, ?_, fun _ => 0,
        .of_forall fun x => by simpa using hasDerivAt_const _ _, h0⟩
      simp only [pow_zero]
      exact h1
    | 1 =>
      simp only [pow_one]
      exact h
    | k + 2 =>
      have hk := ρ.constRel (le.sci (k + 2) false 0)
      refine h.chain (fun y => y ^ (k + 2)) (fun y => y ^ (k + 1) * OfScientific.ofScientific (k + 2) false 0) _ _
        (continuousAt_id.pow _) ?_ (ρ.powi h.2.1 _) (ρ.mul (ρ.powi h.2.1 _) hk)
      refine .of_forall fun x => ?_
      have e : (OfScientific.ofScientific (k + 2) false 0 : ℝ) = (k + 2 : ℕ) := by
        rw [NNRatCast.ofScientific_eq_ite]
        simp
      refine (hasDerivAt_pow (k + 2) _).congr_deriv ?_
      rw [e, mul_comm]
      rfl
  sqrt := by
    intro f a h hp
    have hh := ρ.constRel (le.sci 5 true 1)
    refine h.chain Real.sqrt (fun y => y⁻¹ * Real.sqrt y * 0.5) _ _ Real.continuous_sqrt.continuousAt ?_
      (ρ.sqrt h.2.1 hp) (ρ.mul (ρ.mul (ρ.recip h.2.1 hp.ne') (ρ.sqrt h.2.1 hp)) hh)
    filter_upwards [ρ.eventually_pos h.2.1 hp] with x h3
    refine (Real.hasDerivAt_sqrt h3.ne').congr_deriv ?_
    have hs := Real.sqrt_pos.mpr h3
    have h4 : f (x, t0) = Real.sqrt (f (x, t0)) * Real.sqrt (f (x, t0)) := (Real.mul_self_sqrt h3.le).symm
    generalize Real.sqrt (f (x, t0)) = s at *
    rw [h4]
    field_simp
    norm_num
  ln := by
    intro f a h hp
    refine h.chain Real.log (fun y => y⁻¹) _ _ (Real.continuousAt_log hp.ne') ?_ (ρ.ln h.2.1 hp)
      (ρ.recip h.2.1 hp.ne')
    filter_upwards [ρ.eventually_pos h.2.1 hp] with x h3
    exact Real.hasDerivAt_log h3.ne'
  exp := by
    intro f a h
    exact h.chain Real.exp Real.exp _ _ Real.continuous_exp.continuousAt
      (.of_forall fun x => Real.hasDerivAt_exp _) (ρ.exp h.2.1) (ρ.exp h.2.1)
  expm1 := by
    intro f a h
    exact h.chain (fun y => Real.exp y - 1) Real.exp _ _ (Real.continuous_exp.continuousAt.sub continuousAt_const)
      (.of_forall fun x => (Real.hasDerivAt_exp _).sub_const 1) (ρ.expm1 h.2.1) (ρ.exp h.2.1)
  ln1p := by
    intro f a h hp
    have h1 := ρ.constRel (le.sci 10 true 1)
    have h2 : ρ.R (fun x => f (x, t0) + 1.0) (a.re + c (1.0 : F)) := ρ.add h.2.1 h1
    have e : (1.0 : ℝ) = 1 := by norm_num
    have hp' : 0 < f (x0, t0) + 1.0 := by rw [e]; linarith
    refine h.chain (fun y => Real.log (1 + y)) (fun y => (y + 1.0)⁻¹) _ _
      ((continuousAt_const.add continuousAt_id).log hp.ne') ?_ (ρ.ln1p h.2.1 hp) (ρ.recip h2 hp'.ne')
    filter_upwards [ρ.eventually_pos h2 hp'] with x h3
    have h4 : (1 : ℝ) + f (x, t0) ≠ 0 := by rw [e] at h3; linarith
    refine (((hasDerivAt_id _).const_add 1).log h4).congr_deriv ?_
    rw [e, add_comm]
    simp
  re h := ρ.re h.2.1
  sharp h := ρ.sharp (by
    have := congrArg (Filter.map Prod.fst) h
    rwa [map_fst_nhds, Filter.map_pure] at this)

end PcSaft
