import Verif.Lemmas.Rep
import Mathlib.Analysis.Calculus.ContDiff.Operations
import Mathlib.Analysis.Calculus.ContDiff.Basic
import Mathlib.Analysis.Calculus.Deriv.Prod

/-!
# Order of vanishing

For the real numbers and for dual numbers nested `N` times over them: every element represents some function, a
represented function determines its element, represented functions are closed under smooth maps, and products
of functions that vanish to orders `i` and `j` vanish to order `i + j`. A function that vanishes to order `N + 1`
is represented by zero.
-/

open Filter Topology
open scoped ContDiff

namespace PcSaft
variable {D X : Type} [DualNum ℝ D] [TopologicalSpace X]

structure Tower {x0 : X} (ρ : Rep x0 Same D) (N : ℕ) where
  /-- the function is represented and vanishes to the given order -/
  O : ℕ → (X → ℝ) → Prop
  zero_iff : ∀ {f}, O 0 f ↔ ∃ d, ρ.R f d
  mono : ∀ {j f}, O (j + 1) f → O j f
  congr : ∀ {j f g}, O j f → f =ᶠ[𝓝 x0] g → O j g
  null : ∀ j, O j (fun _ => 0)
  add : ∀ {j f g}, O j f → O j g → O j (fun x => f x + g x)
  mul : ∀ {i j f g}, O i f → O j g → O (i + j) (fun x => f x * g x)
  first : ∀ {f}, O 0 f → f x0 = 0 → O 1 f
  value : ∀ {f}, O 1 f → f x0 = 0
  full : ∀ d, ∃ f, ρ.R f d
  detect : ∀ {f g d e}, O (N + 1) (fun x => f x - g x) → ρ.R f d → ρ.R g e → d = e
  comp : ∀ {ι : Type} [Fintype ι] (φ : (ι → ℝ) → ℝ) (f : ι → X → ℝ), (∀ i, O 0 (f i)) →
    ContDiffAt ℝ ∞ φ (fun i => f i x0) → O 0 (fun x => φ (fun i => f i x))

/-- real numbers -/
noncomputable def towerReal (x0 : X) : Tower (repReal x0) 0 where
  O j f := ContinuousAt f x0 ∧ (j ≠ 0 → f x0 = 0)
  zero_iff {f} := ⟨fun h => ⟨f x0, h.1, rfl⟩, fun ⟨_, h⟩ => ⟨h.1, fun h0 => (h0 rfl).elim⟩⟩
  mono h := ⟨h.1, fun _ => h.2 (Nat.succ_ne_zero _)⟩
  congr h e := ⟨h.1.congr e, fun hj => by rw [← e.eq_of_nhds]; exact h.2 hj⟩
  null j := ⟨continuousAt_const, fun _ => rfl⟩
  add h h' := ⟨h.1.add h'.1, fun hj => by simp [h.2 hj, h'.2 hj]⟩
  mul {i j f g} h h' := ⟨h.1.mul h'.1, fun hij => by
    rcases Nat.eq_zero_or_pos i with hi | hi
    · simp [h'.2 (by omega)]
    · simp [h.2 (by omega)]⟩
  first h h0 := ⟨h.1, fun _ => h0⟩
  value h := h.2 one_ne_zero
  full d := ⟨fun _ => d, continuousAt_const, rfl⟩
  detect h hf hg := by
    have := h.2 one_ne_zero
    rw [hf.2, hg.2]
    linarith
  comp φ f hf hφ := ⟨ContinuousAt.comp (f := fun x i => f i x) hφ.continuousAt
    (continuousAt_pi.mpr fun i => (hf i).1), fun h => (h rfl).elim⟩

theorem Tower.unique {x0 : X} {ρ : Rep x0 Same D} {N : ℕ} (T : Tower ρ N) {f : X → ℝ} {d e : D}
    (h : ρ.R f d) (h' : ρ.R f e) : d = e :=
  T.detect (T.congr (T.null _) (.of_forall fun x => (sub_self (f x)).symm)) h h'

theorem Tower.mono_le {x0 : X} {ρ : Rep x0 Same D} {N : ℕ} (T : Tower ρ N) {i j : ℕ} (hij : i ≤ j)
    {f : X → ℝ} (h : T.O j f) : T.O i f := by
  induction hij with
  | refl => exact h
  | step _ ih => exact ih (T.mono h)

theorem Tower.sum {x0 : X} {ρ : Rep x0 Same D} {N : ℕ} (T : Tower ρ N) {j : ℕ} {ι : Type}
    (s : Finset ι) {f : ι → X → ℝ} (h : ∀ i, T.O j (f i)) : T.O j (fun x => ∑ i ∈ s, f i x) := by
  classical
  induction s using Finset.induction_on with
  | empty => simpa using T.null j
  | insert a s ha ih => simpa [Finset.sum_insert ha] using T.add (h a) ih

/-- dual numbers -/
noncomputable def towerDual {x0 : X} {ρ : Rep x0 Same D} {N : ℕ} (T : Tower ρ N) (t0 : ℝ) :
    Tower (repDual lawfulEmb_id ρ t0) (N + 1) where
  O j f := ContinuousAt f (x0, t0) ∧ T.O j (fun x => f (x, t0))
    ∧ ∃ f' : X → ℝ, (∀ᶠ x in 𝓝 x0, HasDerivAt (fun t => f (x, t)) (f' x) t0) ∧ T.O (j - 1) f'
  zero_iff {f} := by
    constructor
    · rintro ⟨hc, h0, f', hf', h1⟩
      obtain ⟨d, hd⟩ := T.zero_iff.mp h0
      obtain ⟨e, he⟩ := T.zero_iff.mp h1
      exact ⟨⟨d, e⟩, hc, hd, f', hf', he⟩
    · rintro ⟨d, hc, h0, f', hf', h1⟩
      exact ⟨hc, T.zero_iff.mpr ⟨_, h0⟩, f', hf', T.zero_iff.mpr ⟨_, h1⟩⟩
  mono {j f} := by
    rintro ⟨hc, h0, f', hf', h1⟩
    exact ⟨hc, T.mono h0, f', hf', T.mono_le (by omega) h1⟩
  congr := by
    rintro j f g ⟨hc, h0, f', hf', h1⟩ e
    have e' := eventually_fst e
    refine ⟨hc.congr e, T.congr h0 (e'.mono fun x h => h.eq_of_nhds), f', ?_, h1⟩
    filter_upwards [hf', e'] with x h1 h2
    exact h1.congr_of_eventuallyEq h2.symm
  null j := ⟨continuousAt_const, T.null j, fun _ => 0, .of_forall fun _ => hasDerivAt_const _ _, T.null _⟩
  add := by
    rintro j f g ⟨hc, h0, f', hf', h1⟩ ⟨kc, k0, g', hg', k1⟩
    refine ⟨hc.add kc, T.add h0 k0, fun x => f' x + g' x, ?_, T.add h1 k1⟩
    filter_upwards [hf', hg'] with x a b
    exact a.add b
  mul := by
    rintro i j f g ⟨hc, h0, f', hf', h1⟩ ⟨kc, k0, g', hg', k1⟩
    refine ⟨hc.mul kc, T.mul h0 k0, fun x => f' x * g (x, t0) + f (x, t0) * g' x, ?_, T.add ?_ ?_⟩
    · filter_upwards [hf', hg'] with x a b
      exact a.mul b
    · exact T.mono_le (by omega) (T.mul h1 k0)
    · exact T.mono_le (by omega) (T.mul h0 k1)
  first := by
    rintro f ⟨hc, h0, f', hf', h1⟩ hv
    exact ⟨hc, T.first h0 hv, f', hf', h1⟩
  value h := T.value h.2.1
  full d := by
    obtain ⟨f, hf⟩ := T.full d.re
    obtain ⟨g, hg⟩ := T.full d.eps
    refine ⟨fun x => f x.1 + (x.2 - t0) * g x.1, ?_, by simpa using hf, g, ?_, hg⟩
    · have h1 : ContinuousAt (fun x : X × ℝ => f x.1) (x0, t0) :=
        ContinuousAt.comp (f := Prod.fst) (x := (x0, t0)) (ρ.continuousAt hf) continuousAt_fst
      have h2 : ContinuousAt (fun x : X × ℝ => g x.1) (x0, t0) :=
        ContinuousAt.comp (f := Prod.fst) (x := (x0, t0)) (ρ.continuousAt hg) continuousAt_fst
      exact h1.add ((continuousAt_snd.sub continuousAt_const).mul h2)
    · refine .of_forall fun x => ?_
      simpa using (((hasDerivAt_id t0).sub_const t0).mul_const (g x)).const_add (f x)
  detect := by
    rintro f g d e ⟨-, h0, h', hh', h1⟩ ⟨-, f0, f', hf', f1⟩ ⟨-, g0, g', hg', g1⟩
    have e1 := T.detect (T.mono h0) f0 g0
    have e2 := T.detect (T.congr h1 (by
      filter_upwards [hh', hf', hg'] with x a b c
      exact a.unique (b.sub c))) f1 g1
    exact Dual.ext e1 e2
  comp := by
    intro ι _ φ f hf hφ
    classical
    choose hc h0 f' hf' h1 using hf
    have hcf : ContinuousAt (fun x i => f i x) (x0, t0) := continuousAt_pi.mpr hc
    refine ⟨ContinuousAt.comp (f := fun x i => f i x) hφ.continuousAt hcf,
      T.comp φ (fun i x => f i (x, t0)) h0 hφ,
      fun x => ∑ i, fderiv ℝ φ (fun i => f i (x, t0)) (Pi.single i 1) * f' i x, ?_, ?_⟩
    · have hd : ∀ᶠ z in 𝓝 (fun i => f i (x0, t0)), DifferentiableAt ℝ φ z := by
        have h := (hφ.of_le (m := 1) (by exact_mod_cast le_top)).eventually (by simp)
        filter_upwards [h] with z hz
        exact hz.differentiableAt one_ne_zero
      have hx : Tendsto (fun x i => f i (x, t0)) (𝓝 x0) (𝓝 fun i => f i (x0, t0)) := by
        have : Tendsto (fun x : X => (x, t0)) (𝓝 x0) (𝓝 (x0, t0)) := (Continuous.prodMk_left t0).tendsto x0
        exact hcf.tendsto.comp this
      filter_upwards [hx.eventually hd, eventually_all.mpr hf'] with x hx hfx
      have hpi : HasDerivAt (fun t i => f i (x, t)) (fun i => f' i x) t0 := hasDerivAt_pi.mpr hfx
      have := hx.hasFDerivAt.comp_hasDerivAt t0 hpi
      refine this.congr_deriv ?_
      conv_lhs => rw [pi_eq_sum_univ' (fun i => f' i x)]
      rw [map_sum]
      refine Finset.sum_congr rfl fun i _ => ?_
      rw [map_smul, smul_eq_mul, mul_comm]
    · refine T.sum _ fun i => ?_
      refine T.mul (i := 0) (j := 0) ?_ (h1 i)
      refine T.comp (fun z => fderiv ℝ φ z (Pi.single i 1)) (fun i x => f i (x, t0)) h0 ?_
      exact (hφ.fderiv_right (m := ∞) (by simp)).clm_apply contDiffAt_const
end PcSaft
