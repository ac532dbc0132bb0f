import Verif.Lemmas.Rep
import Verif.Lemmas.Hom
import Verif.Model.Rounding
import Mathlib.Analysis.SpecialFunctions.Pow.Deriv
import Mathlib.Analysis.SpecialFunctions.Sqrt

/-!
# Families of numbers in arithmetics of increasing precision

A family assigns to every member `i` of an index type a number of the arithmetic `ar i`. It stands for a real
number if the error is bounded by a constant times the rounding unit, for all sufficiently fine arithmetics.
The operations preserve this relation, so that families represent the values of continuous functions.
-/

open Filter Topology Asymptotics

namespace PcSaft
variable {ι : Type}

/-- arithmetics with a rounding unit that tends to zero -/
def fine (ar : ι → Arithmetic) : Filter ι := comap (fun i => (ar i).u) (𝓝 0)

/-- a number in every arithmetic -/
def Fam (ar : ι → Arithmetic) : Type := (i : ι) → Rd (ar i)

open Classical in
@[reducible] noncomputable instance Fam.instF64 (ar : ι → Arithmetic) : F64 (Fam ar) where
  add x y := fun i => x i + y i
  sub x y := fun i => x i - y i
  mul x y := fun i => x i * y i
  div x y := fun i => x i / y i
  neg x := fun i => -x i
  ofScientific m s e := fun _ => OfScientific.ofScientific m s e
  powi x k := fun i => F64.powi (x i) k
  powf x y := fun i => F64.powf (x i) (y i)
  sqrt x := fun i => F64.sqrt (x i)
  cbrt x := fun i => F64.cbrt (x i)
  ln x := fun i => F64.ln (x i)
  exp x := fun i => F64.exp (x i)
  sin x := fun i => F64.sin (x i)
  abs x := fun i => F64.abs (x i)
  min x y := fun i => F64.min (x i) (y i)
  lt x y := decide (∀ᶠ i in fine ar, F64.lt (x i) (y i) = true)
  eq x y := decide (∀ᶠ i in fine ar, F64.eq (x i) (y i) = true)
  isNan _ := false
  pi := fun _ => F64.pi
  expm1 x := fun i => F64.expm1 (x i)
  ln1p x := fun i => F64.ln1p (x i)

variable {ar : ι → Arithmetic}

/-- selecting one member commutes with all operations -/
theorem Fam.hom (i : ι) : FHom (fun x : Fam ar => x i) where
  add _ _ := rfl
  sub _ _ := rfl
  mul _ _ := rfl
  div _ _ := rfl
  neg _ := rfl
  sci _ _ _ := rfl
  powi _ _ := rfl
  powf _ _ := rfl
  sqrt _ := rfl
  cbrt _ := rfl
  ln _ := rfl
  exp _ := rfl
  expm1 _ := rfl
  ln1p _ := rfl
  abs _ := rfl
  min _ _ := rfl
  pi := rfl
  isNan _ := rfl

/-- numbers that differ from a real number by at most a multiple of the rounding unit -/
def NearV (ar : ι → Arithmetic) (a : ℝ) (v : ι → ℝ) : Prop :=
  (fun i => v i - a) =O[fine ar] (fun i => (ar i).u)

/-- a family stands for a real number -/
def Near (ar : ι → Arithmetic) (a : ℝ) (x : Fam ar) : Prop := NearV ar a (fun i => (x i).val)

theorem unit_tendsto : Tendsto (fun i => (ar i).u) (fine ar) (𝓝 0) := tendsto_comap

theorem NearV.tendsto {a : ℝ} {v : ι → ℝ} (h : NearV ar a v) : Tendsto v (fine ar) (𝓝 a) := by
  have h1 := h.trans_tendsto unit_tendsto
  simpa using h1.add_const a

theorem NearV.accurate {a : ℝ} {e v : ι → ℝ} (h : NearV ar a e)
    (hv : ∀ᶠ i in fine ar, Accurate (ar i).u (e i) (v i)) : NearV ar a v := by
  have hb : ∀ᶠ i in fine ar, |e i| ≤ |a| + 1 := by
    have := (h.tendsto.abs).eventually (eventually_le_nhds (show |a| < |a| + 1 by linarith))
    exact this
  have hu : ∀ᶠ i in fine ar, (ar i).u * (|a| + 1) ≤ 1 := by
    have h1 : Tendsto (fun i => (ar i).u * (|a| + 1)) (fine ar) (𝓝 (0 * (|a| + 1))) :=
      unit_tendsto.mul_const _
    rw [zero_mul] at h1
    exact h1.eventually (eventually_le_nhds zero_lt_one)
  have h1 : (fun i => v i - e i) =O[fine ar] (fun i => (ar i).u) := by
    refine IsBigO.of_bound (|a| + 2) ?_
    filter_upwards [hb, hu, hv] with i h1 h2 h3
    have hu0 := (ar i).u_nonneg
    rw [Real.norm_eq_abs, Real.norm_eq_abs, abs_of_nonneg hu0]
    refine (h3 ?_).trans ?_
    · exact (mul_le_mul_of_nonneg_left h1 hu0).trans h2
    · nlinarith
  have := h1.add h
  simpa [NearV] using this

theorem NearV.map {f : ℝ → ℝ} {a : ℝ} {v : ι → ℝ} (h : NearV ar a v) (hf : DifferentiableAt ℝ f a) :
    NearV ar (f a) (fun i => f (v i)) :=
  (hf.isBigO_sub.comp_tendsto h.tendsto).trans h

theorem NearV.map2 {f : ℝ × ℝ → ℝ} {a b : ℝ} {v w : ι → ℝ} (h : NearV ar a v) (h' : NearV ar b w)
    (hf : DifferentiableAt ℝ f (a, b)) : NearV ar (f (a, b)) (fun i => f (v i, w i)) :=
  (hf.isBigO_sub.comp_tendsto (h.tendsto.prodMk_nhds h'.tendsto)).trans (IsBigO.prod_left h h')

theorem NearV.const (a : ℝ) : NearV ar a (fun _ => a) := by
  simpa [NearV] using isBigO_zero _ _

theorem cbrt_eq_rpow {x : ℝ} (h : 0 < x) : F64.cbrt x = x ^ (1 / 3 : ℝ) := by
  rw [cbrt_real, sign_pos h, abs_of_pos h]
  simp

theorem differentiableAt_cbrt {a : ℝ} (h : 0 < a) : DifferentiableAt ℝ (fun x : ℝ => F64.cbrt x) a := by
  have h1 : DifferentiableAt ℝ (fun x : ℝ => x ^ (1 / 3 : ℝ)) a :=
    (Real.hasDerivAt_rpow_const (Or.inl h.ne')).differentiableAt
  refine h1.congr_of_eventuallyEq ?_
  filter_upwards [eventually_gt_nhds h] with x hx
  exact cbrt_eq_rpow hx

namespace Near
variable {a b : ℝ} {x y : Fam ar}

theorem add (h : Near ar a x) (h' : Near ar b y) : Near ar (a + b) (x + y) :=
  (NearV.map2 (f := fun p => p.1 + p.2) h h' (by fun_prop)).accurate
    (.of_forall fun i => (ar i).add_acc _ _)

theorem sub (h : Near ar a x) (h' : Near ar b y) : Near ar (a - b) (x - y) :=
  (NearV.map2 (f := fun p => p.1 - p.2) h h' (by fun_prop)).accurate
    (.of_forall fun i => (ar i).sub_acc _ _)

theorem mul (h : Near ar a x) (h' : Near ar b y) : Near ar (a * b) (x * y) :=
  (NearV.map2 (f := fun p => p.1 * p.2) h h' (by fun_prop)).accurate
    (.of_forall fun i => (ar i).mul_acc _ _)

theorem div (h : Near ar a x) (h' : Near ar b y) (hb : b ≠ 0) : Near ar (a / b) (x / y) := by
  refine (NearV.map2 (f := fun p => p.1 / p.2) h h' ?_).accurate ?_
  · simp only [div_eq_mul_inv]
    exact differentiableAt_fst.mul (DifferentiableAt.inv differentiableAt_snd hb)
  · filter_upwards [h'.tendsto.eventually_ne hb] with i hi
    exact (ar i).div_acc _ _ hi

theorem neg (h : Near ar a x) : Near ar (-a) (-x) :=
  NearV.map (f := fun p => -p) h (by fun_prop)

theorem sci (m : ℕ) (s : Bool) (e : ℕ) :
    Near ar (OfScientific.ofScientific m s e) (OfScientific.ofScientific m s e) :=
  (NearV.const _).accurate (.of_forall fun i => (ar i).lit_acc m s e)

theorem pi : Near ar Real.pi F64.pi :=
  (NearV.const _).accurate (.of_forall fun i => (ar i).pi_acc)

theorem powi (h : Near ar a x) (k : ℕ) : Near ar (a ^ k) (F64.powi x k) := by
  have h1 : NearV ar (a ^ k) (fun i => (x i).val ^ k) := NearV.map (f := fun p => p ^ k) h (by fun_prop)
  have hk : ∀ᶠ i in fine ar, (k : ℝ) * (ar i).u ≤ 1 := by
    have h1 : Tendsto (fun i => (k : ℝ) * (ar i).u) (fine ar) (𝓝 (k * 0)) := unit_tendsto.const_mul _
    rw [mul_zero] at h1
    exact h1.eventually (eventually_le_nhds zero_lt_one)
  have hb : ∀ᶠ i in fine ar, |(x i).val ^ k| ≤ |a ^ k| + 1 :=
    (h1.tendsto.abs).eventually (eventually_le_nhds (show |a ^ k| < |a ^ k| + 1 by linarith))
  have hu : ∀ᶠ i in fine ar, (ar i).u * (|a ^ k| + 1) ≤ 1 := by
    have h1 : Tendsto (fun i => (ar i).u * (|a ^ k| + 1)) (fine ar) (𝓝 (0 * (|a ^ k| + 1))) :=
      unit_tendsto.mul_const _
    rw [zero_mul] at h1
    exact h1.eventually (eventually_le_nhds zero_lt_one)
  have h2 : (fun i => (F64.powi x k i).val - (x i).val ^ k) =O[fine ar] (fun i => (ar i).u) := by
    refine IsBigO.of_bound (2 * k * (|a ^ k| + 2)) ?_
    filter_upwards [hk, hb, hu] with i h1 h2 h3
    have hu0 := (ar i).u_nonneg
    rw [Real.norm_eq_abs, Real.norm_eq_abs, abs_of_nonneg hu0]
    refine ((ar i).powi_acc (x i).val k h1 ((mul_le_mul_of_nonneg_left h2 hu0).trans h3)).trans ?_
    have : 0 ≤ 2 * (k : ℝ) * (ar i).u := by positivity
    nlinarith
  have := h2.add h1
  simpa [Near, NearV] using this

theorem sqrt (h : Near ar a x) (ha : 0 < a) : Near ar (Real.sqrt a) (F64.sqrt x) := by
  refine (NearV.map (f := Real.sqrt) h (Real.hasDerivAt_sqrt ha.ne').differentiableAt).accurate ?_
  filter_upwards [h.tendsto.eventually (eventually_gt_nhds ha)] with i hi
  exact (ar i).sqrt_acc _ hi.le

theorem cbrt (h : Near ar a x) (ha : 0 < a) : Near ar (F64.cbrt a) (F64.cbrt x) :=
  (NearV.map (f := fun p : ℝ => F64.cbrt p) h (differentiableAt_cbrt ha)).accurate
    (.of_forall fun i => (ar i).cbrt_acc _)

theorem powf (h : Near ar a x) (h' : Near ar b y) (ha : 0 < a) : Near ar (a ^ b) (F64.powf x y) := by
  refine (NearV.map2 (f := fun p => p.1 ^ p.2) h h'
    (Real.hasStrictFDerivAt_rpow_of_pos (a, b) ha).hasFDerivAt.differentiableAt).accurate ?_
  filter_upwards [h.tendsto.eventually (eventually_gt_nhds ha)] with i hi
  exact (ar i).powf_acc _ _ hi

theorem ln (h : Near ar a x) (ha : 0 < a) : Near ar (Real.log a) (F64.ln x) := by
  refine (NearV.map (f := Real.log) h (Real.differentiableAt_log ha.ne')).accurate ?_
  filter_upwards [h.tendsto.eventually (eventually_gt_nhds ha)] with i hi
  exact (ar i).ln_acc _ hi

theorem exp (h : Near ar a x) : Near ar (Real.exp a) (F64.exp x) :=
  (NearV.map (f := Real.exp) h Real.differentiableAt_exp).accurate (.of_forall fun i => (ar i).exp_acc _)

theorem sin (h : Near ar a x) : Near ar (Real.sin a) (F64.sin x) :=
  (NearV.map (f := Real.sin) h Real.differentiableAt_sin).accurate (.of_forall fun i => (ar i).sin_acc _)

theorem expm1 (h : Near ar a x) : Near ar (Real.exp a - 1) (F64.expm1 x) :=
  (NearV.map (f := fun p => Real.exp p - 1) h (by fun_prop)).accurate
    (.of_forall fun i => (ar i).expm1_acc _)

theorem ln1p (h : Near ar a x) (ha : 0 < 1 + a) : Near ar (Real.log (1 + a)) (F64.ln1p x) := by
  refine (NearV.map (f := fun p => Real.log (1 + p)) h ?_).accurate ?_
  · exact DifferentiableAt.log (by fun_prop) ha.ne'
  · filter_upwards [(h.tendsto.const_add 1).eventually (eventually_gt_nhds ha)] with i hi
    exact (ar i).ln1p_acc _ hi

theorem min (h : Near ar a x) (h' : Near ar b y) : Near ar (min a b) (F64.min x y) := by
  refine IsBigO.trans (g := fun i => |(x i).val - a| + |(y i).val - b|) (IsBigO.of_bound 1 ?_)
    (h.norm_left.add h'.norm_left)
  refine .of_forall fun i => ?_
  have h0 : 0 ≤ |(x i).val - a| + |(y i).val - b| := by positivity
  rw [one_mul, Real.norm_eq_abs, Real.norm_of_nonneg h0]
  exact (abs_min_sub_min_le_max _ _ _ _).trans
    (max_le (le_add_of_nonneg_right (abs_nonneg _)) (le_add_of_nonneg_left (abs_nonneg _)))

/-- a strict comparison is decided correctly by all sufficiently fine arithmetics -/
theorem eventually_lt (h : Near ar a x) (h' : Near ar b y) (hab : a ≠ b) :
    ∀ᶠ i in fine ar, F64.lt (x i) (y i) = decide (a < b) := by
  rcases lt_or_gt_of_ne hab with hlt | hlt
  · filter_upwards [h.tendsto.eventually_lt h'.tendsto hlt] with i hi
    rw [decide_eq_true hlt]
    exact decide_eq_true hi
  · filter_upwards [h'.tendsto.eventually_lt h.tendsto hlt] with i hi
    rw [decide_eq_false (not_lt.mpr hlt.le)]
    exact decide_eq_false (not_lt.mpr hi.le)

theorem lt [(fine ar).NeBot] (h : Near ar a x) (h' : Near ar b y) (hab : a ≠ b) :
    F64.lt x y = decide (a < b) := by
  classical
  have he := eventually_lt h h' hab
  have h1 : F64.lt x y = decide (∀ᶠ i in fine ar, F64.lt (x i) (y i) = true) := rfl
  rw [h1]
  by_cases hlt : a < b
  · rw [decide_eq_true hlt] at he
    rw [decide_eq_true he, decide_eq_true hlt]
  · rw [decide_eq_false hlt] at he
    rw [decide_eq_false hlt]
    refine decide_eq_false fun ht => ?_
    obtain ⟨i, h1, h2⟩ := (he.and ht).exists
    rw [h1] at h2
    exact Bool.false_ne_true h2

end Near

theorem lawfulEmb_near (ar : ι → Arithmetic) [(fine ar).NeBot] : LawfulEmb (Near ar) where
  add := Near.add
  sub := Near.sub
  mul := Near.mul
  neg := Near.neg
  div := Near.div
  sci := Near.sci
  powi := Near.powi
  pi := Near.pi
  sqrt := Near.sqrt
  cbrt := Near.cbrt
  min := Near.min
  lt := Near.lt
  isNan _ := rfl

/-- a family of numbers represents the value of a continuous function -/
noncomputable def repNear {X : Type} [TopologicalSpace X] (ar : ι → Arithmetic) (x0 : X)
    [(𝓝[≠] x0).NeBot] : Rep x0 (Near ar) (Fam ar) where
  R f d := ContinuousAt f x0 ∧ Near ar (f x0) d
  continuousAt h := h.1
  congr := fun {f g d} h e => ⟨h.1.congr e, by rw [← e.eq_of_nhds]; exact h.2⟩
  constRel h := ⟨continuousAt_const, h⟩
  add h h' := ⟨h.1.add h'.1, h.2.add h'.2⟩
  sub h h' := ⟨h.1.sub h'.1, h.2.sub h'.2⟩
  mul h h' := ⟨h.1.mul h'.1, h.2.mul h'.2⟩
  neg h := ⟨h.1.neg, h.2.neg⟩
  div h h' hne := ⟨h.1.div h'.1 hne, h.2.div h'.2 hne⟩
  recip h hne := ⟨h.1.inv₀ hne, by
    have := (Near.sci (ar := ar) 10 true 1).div h.2 hne
    have e : (OfScientific.ofScientific 10 true 1 : ℝ) = 1 := by norm_num
    rw [e, one_div] at this
    exact this⟩
  powi h k := ⟨h.1.pow k, h.2.powi k⟩
  sqrt h hp := ⟨h.1.sqrt, h.2.sqrt hp⟩
  ln h hp := ⟨h.1.log hp.ne', h.2.ln hp⟩
  exp h := ⟨h.1.rexp, h.2.exp⟩
  expm1 h := ⟨h.1.rexp.sub continuousAt_const, h.2.expm1⟩
  ln1p h hp := ⟨(continuousAt_const.add h.1).log hp.ne', h.2.ln1p hp⟩
  re h := h.2
  sharp h := by
    exfalso
    have : 𝓝[≠] x0 = ⊥ := by
      rw [nhdsWithin, h, ← principal_singleton, inf_principal]
      simp
    exact NeBot.ne inferInstance this

end PcSaft
