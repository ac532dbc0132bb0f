import Verif.Lemmas.RepRounding
import Verif.Spec.Rounding

/-!
# Derivatives computed with rounding

For dual numbers nested any number of times: exact elements and families of rounded elements that represent
the same function agree up to the rounding unit in every component, and any two such elements represent a
common function.
-/

open Filter Topology Asymptotics

namespace PcSaft
open Spec
variable {ι : Type} {ar : ι → Arithmetic}

/-- `ρ` and `ρ'` represent the same functions by elements that are related -/
structure Compare {X D E F : Type} [TopologicalSpace X] [F64 F] [DualNum ℝ D] [DualNum F E] {x0 : X}
    {emb : ℝ → F → Prop} (ρ : Rep x0 Same D) (ρ' : Rep x0 emb E) (P : D → E → Prop) : Prop where
  cmp : ∀ {f d e}, ρ.R f d → ρ'.R f e → P d e
  seed : ∀ {d e}, P d e → ∃ f, ρ.R f d ∧ ρ'.R f e
  val : ∀ {f d}, ρ.R f d → f x0 = DualNum.re d

/-- the base case: values -/
theorem compare_near (ar : ι → Arithmetic) {X : Type} [TopologicalSpace X] (x0 : X) [(𝓝[≠] x0).NeBot] :
    Compare (repReal x0) (repNear ar x0) (Near ar) where
  cmp := fun h h' => by rw [h.2]; exact h'.2
  seed := fun {d e} h => ⟨fun _ => d, ⟨continuousAt_const, rfl⟩, continuousAt_const, h⟩
  val h := h.2.symm

/-- one more derivative -/
theorem Compare.dual {X D E F : Type} [TopologicalSpace X] [F64 F] [DualNum ℝ D] [DualNum F E] {x0 : X}
    {emb : ℝ → F → Prop} {ρ : Rep x0 Same D} {ρ' : Rep x0 emb E} {P : D → E → Prop} (h : Compare ρ ρ' P)
    (le : LawfulEmb emb) :
    Compare (repDual lawfulEmb_id ρ 0) (repDual le ρ' 0) (fun x y => P x.re y.re ∧ P x.eps y.eps) where
  cmp := by
    rintro f d e ⟨_, h0, f', hf', h1⟩ ⟨_, k0, g', hg', k1⟩
    refine ⟨h.cmp h0 k0, h.cmp h1 (ρ'.congr k1 ?_)⟩
    filter_upwards [hf', hg'] with x a b
    exact b.unique a
  seed := by
    rintro d e ⟨h0, h1⟩
    obtain ⟨f, hf, kf⟩ := h.seed h0
    obtain ⟨g, hg, kg⟩ := h.seed h1
    have hc : ContinuousAt (fun x : X × ℝ => f x.1 + x.2 * g x.1) (x0, 0) := by
      have h1 : ContinuousAt (fun x : X × ℝ => f x.1) (x0, 0) :=
        ContinuousAt.comp (f := Prod.fst) (x := (x0, (0 : ℝ))) (ρ.continuousAt hf) continuousAt_fst
      have h2 : ContinuousAt (fun x : X × ℝ => g x.1) (x0, 0) :=
        ContinuousAt.comp (f := Prod.fst) (x := (x0, (0 : ℝ))) (ρ.continuousAt hg) continuousAt_fst
      exact h1.add (continuousAt_snd.mul h2)
    have hd : ∀ᶠ x in 𝓝 x0, HasDerivAt (fun t => f x + t * g x) (g x) 0 := by
      refine .of_forall fun x => ?_
      simpa using ((hasDerivAt_id (0 : ℝ)).mul_const (g x)).const_add (f x)
    refine ⟨fun x => f x.1 + x.2 * g x.1, ⟨hc, by simpa using hf, g, hd, hg⟩, hc, by simpa using kf, g, hd, kg⟩
  val := by
    rintro f d ⟨_, h0, _⟩
    exact h.val h0

/-- any number of derivatives -/
theorem compare_nest (ar : ι → Arithmetic) [(fine ar).NeBot] (k : ℕ) :
    ∃ (X : Type) (_ : TopologicalSpace X) (x0 : X) (ρ : Rep x0 Same (Nest ℝ k))
      (ρ' : Rep x0 (Near ar) (Nest (Fam ar) k)), Compare ρ ρ' (Componentwise (Near ar) k) := by
  induction k with
  | zero => exact ⟨ℝ, inferInstance, 0, repReal 0, repNear ar 0, compare_near ar 0⟩
  | succ k ih =>
    obtain ⟨X, _, x0, ρ, ρ', h⟩ := ih
    exact ⟨X × ℝ, inferInstance, (x0, 0), repDual lawfulEmb_id ρ 0, repDual (lawfulEmb_near ar) ρ' 0,
      h.dual (lawfulEmb_near ar)⟩

/-! ### Members of nested families -/

/-- a map of the components -/
def Nest.map {D E : Type} (φ : D → E) : (k : ℕ) → Nest D k → Nest E k
  | 0 => φ
  | k + 1 => Dual.map (Nest.map φ k)

theorem NumHom.nest {F G D E : Type} [F64 F] [F64 G] [DualNum F D] [DualNum G E] {ψ : F → G} {φ : D → E}
    (h : NumHom ψ φ) (k : ℕ) : NumHom ψ (Nest.map φ k) := by
  induction k with
  | zero => exact h
  | succ k ih => exact ih.dual

/-- the member of a nested family in one arithmetic -/
abbrev Fam.at (ar : ι → Arithmetic) (k : ℕ) (i : ι) : Nest (Fam ar) k → Nest (Rd (ar i)) k :=
  Nest.map (fun x => x i) k

theorem Fam.at_hom (k : ℕ) (i : ι) : NumHom (fun x : Fam ar => x i) (Fam.at ar k i) := (Fam.hom i).self.nest k

/-- a nested family from its members -/
def Fam.of (ar : ι → Arithmetic) : (k : ℕ) → ((i : ι) → Nest (Rd (ar i)) k) → Nest (Fam ar) k
  | 0 => fun x => x
  | k + 1 => fun x => ⟨Fam.of ar k (fun i => (x i).re), Fam.of ar k (fun i => (x i).eps)⟩

theorem Fam.at_of (k : ℕ) (x : (i : ι) → Nest (Rd (ar i)) k) (i : ι) : Fam.at ar k i (Fam.of ar k x) = x i := by
  induction k with
  | zero => rfl
  | succ k ih =>
    show (⟨Fam.at ar k i (Fam.of ar k (fun i => (x i).re)), Fam.at ar k i (Fam.of ar k (fun i => (x i).eps))⟩ : Dual _)
      = x i
    rw [ih, ih]
    rfl

theorem _root_.PcSaft.Spec.Componentwise.mono {D E : Type} {P Q : D → E → Prop} (hPQ : ∀ x y, P x y → Q x y) :
    ∀ {k : ℕ} {x : Nest D k} {y : Nest E k}, Componentwise P k x y → Componentwise Q k x y
  | 0, _, _, h => hPQ _ _ h
  | _ + 1, _, _, h => ⟨Componentwise.mono hPQ h.1, Componentwise.mono hPQ h.2⟩

theorem near_of_input {x : ℝ} {x' : Fam ar} (h : ∀ i, |(x' i).val - x| ≤ (ar i).u * (1 + |x|)) : Near ar x x' := by
  refine IsBigO.of_bound (1 + |x|) (.of_forall fun i => ?_)
  rw [Real.norm_eq_abs, Real.norm_of_nonneg (ar i).u_nonneg, mul_comm]
  exact h i

theorem componentwise_near {k : ℕ} {x : Nest ℝ k} {x' : (i : ι) → Nest (Rd (ar i)) k}
    (h : ∀ i, Componentwise (fun (y : ℝ) (y' : Rd (ar i)) => |y'.val - y| ≤ (ar i).u * (1 + |y|)) k x (x' i)) :
    Componentwise (Near ar) k x (Fam.of ar k x') := by
  induction k with
  | zero => exact near_of_input h
  | succ k ih => exact ⟨ih fun i => (h i).1, ih fun i => (h i).2⟩

/-- the error of every component is at most a multiple of the rounding unit -/
theorem componentwise_bound {k : ℕ} {x : Nest ℝ k} {x' : Nest (Fam ar) k} (h : Componentwise (Near ar) k x x') :
    ∃ K, ∀ᶠ i in fine ar, Componentwise (fun (y : ℝ) (y' : Rd (ar i)) => |y'.val - y| ≤ K * (ar i).u) k x
      (Fam.at ar k i x') := by
  induction k with
  | zero =>
    obtain ⟨K, hK⟩ := h.bound
    refine ⟨K, hK.mono fun i hi => ?_⟩
    rw [Real.norm_eq_abs, Real.norm_of_nonneg (ar i).u_nonneg] at hi
    exact hi
  | succ k ih =>
    obtain ⟨K1, h1⟩ := ih h.1
    obtain ⟨K2, h2⟩ := ih h.2
    have mono : ∀ {i : ι} {K K' : ℝ}, K ≤ K' → ∀ {k : ℕ} {y : Nest ℝ k} {y' : Nest (Rd (ar i)) k},
        Componentwise (fun (y : ℝ) (y' : Rd (ar i)) => |y'.val - y| ≤ K * (ar i).u) k y y'
        → Componentwise (fun (y : ℝ) (y' : Rd (ar i)) => |y'.val - y| ≤ K' * (ar i).u) k y y' := by
      intro i K K' hK k
      induction k with
      | zero => exact fun hh => hh.trans (mul_le_mul_of_nonneg_right hK (ar i).u_nonneg)
      | succ k ih => exact fun hh => ⟨ih hh.1, ih hh.2⟩
    refine ⟨max K1 K2, ?_⟩
    filter_upwards [h1, h2] with i a b
    exact ⟨mono (le_max_left _ _) a, mono (le_max_right _ _) b⟩

/-- statements about all sufficiently fine arithmetics -/
theorem eventually_fine {P : ι → Prop} (h : ∀ᶠ i in fine ar, P i) : ∃ u0, 0 < u0 ∧ ∀ i, (ar i).u ≤ u0 → P i := by
  rw [fine, eventually_comap] at h
  obtain ⟨ε, hε, he⟩ := Metric.eventually_nhds_iff.1 h
  refine ⟨ε / 2, by positivity, fun i hi => he (y := (ar i).u) ?_ i rfl⟩
  rw [Real.dist_eq, sub_zero, abs_of_nonneg (ar i).u_nonneg]
  linarith

end PcSaft
