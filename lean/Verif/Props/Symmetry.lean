import Verif.Lemmas.MergeRegular
import Verif.Lemmas.Transfer
import Verif.Props.Units

/-!
# C85: the symmetries of the residual energy hold for its derivatives of every order

The code computes derivatives by evaluating the same functions with dual numbers.  The theorems are stated for every number
type that represents derivatives (`Derivatives D`), in particular for real dual numbers nested any number of times.
-/

open Filter Topology

namespace PcSaft.Spec
variable {n : ℕ}

/-- number types that represent values and derivatives: every number belongs to a function, and functions that agree near a
point have the same number -/
def Derivatives (D : Type) [DualNum ℝ D] : Prop :=
  ∃ (X : Type) (_ : TopologicalSpace X) (x0 : X) (ρ : Rep x0 Same D), Complete ρ

end PcSaft.Spec

namespace PcSaft.Props
open Spec
variable {n n' : ℕ}

/-- C85: real numbers and dual numbers nested to any depth represent derivatives. -/
theorem C85_number_types : Derivatives ℝ ∧ ∀ (D : Type) [DualNum ℝ D], Derivatives D → Derivatives (Dual D) := by
  refine ⟨⟨Unit, inferInstance, (), _, complete_rho0⟩, ?_⟩
  rintro D _ ⟨X, _, x0, ρ, hρ⟩
  exact ⟨X × ℝ, inferInstance, (x0, 0), _, hρ.dual⟩

theorem derivatives_dual1 : Derivatives (Dual ℝ) := C85_number_types.2 _ C85_number_types.1
theorem derivatives_dual2 : Derivatives (Dual (Dual ℝ)) := C85_number_types.2 _ derivatives_dual1
theorem derivatives_dual3 : Derivatives (Dual (Dual (Dual ℝ))) := C85_number_types.2 _ derivatives_dual2

section generic
variable {D : Type} [DualNum ℝ D]

theorem nassoc_le_of_regular {p : PcSaftParameters n ℝ} {o : PcSaftOptions ℝ} {T V : ℝ} {N : Fin n → ℝ}
    (hr : ∀ ct ∈ buildContributions p o, Regular p T V N ct) : p.nassoc ≤ 1 := by
  by_contra hcon
  obtain ⟨m, hm⟩ := Nat.exists_eq_add_of_le' (not_le.1 hcon)
  refine hr (.crossAssociation o.max_iter_cross_assoc o.tol_cross_assoc) ?_
  simp [buildContributions, hm]

/-- C85: scaling volume and amounts by a constant factor scales the energy with all its derivatives. -/
theorem C85_extensive (hD : Derivatives D) (laD : LinAlg ℝ D) (pr : Fin n → PureRecord ℝ) (k : Fin n → Fin n → ℝ)
    (o : PcSaftOptions ℝ) (T V : D) (N : Fin n → D) {l : ℝ} (hl : 0 < l)
    (h : Admissible (fromRecords pr k) (DualNum.re T) (DualNum.re V) (fun i => DualNum.re (N i)))
    (hr : ∀ ct ∈ buildContributions (fromRecords pr k) o,
      Regular (fromRecords pr k) (DualNum.re T) (DualNum.re V) (fun i => DualNum.re (N i)) ct) :
    ∃ d, (Eos.withOptions (fromRecords pr k) o).residualHelmholtz laD (StateHD.new T V N) = .ok d
      ∧ (Eos.withOptions (fromRecords pr k) o).residualHelmholtz laD (StateHD.new T (c l * V) (fun i => c l * N i))
        = .ok (c l * d) := by
  obtain ⟨X, _, x0, ρ, hρ⟩ := hD
  obtain ⟨Tf, hT⟩ := hρ.exists_function T
  obtain ⟨Vf, hV⟩ := hρ.exists_function V
  choose Nf hN using fun i => hρ.exists_function (N i)
  rw [ρ.re hT, ρ.re hV] at h hr
  simp only [fun i => ρ.re (hN i)] at h hr
  have hden : ∀ i, l * Nf i x0 / (l * Vf x0) = Nf i x0 / Vf x0 := fun i => mul_div_mul_left _ _ hl.ne'
  have hpk : ∀ p : PcSaftParameters n ℝ, Spec.packingFraction p (Tf x0) (l * Vf x0) (fun i => l * Nf i x0)
      = Spec.packingFraction p (Tf x0) (Vf x0) (fun i => Nf i x0) := by
    intro p
    rw [← packing_density, ← packing_density p (Tf x0) (Vf x0)]
    simp only [hden]
  have h' : Admissible (fromRecords pr k) (Tf x0) (l * Vf x0) (fun i => l * Nf i x0) := by
    refine ⟨h.temperature, mul_pos hl h.volume, h.m_pos, h.sigma_pos, h.epsilon_nonneg,
      fun i => mul_nonneg hl.le (h.moles_nonneg i), ?_, ?_⟩
    · obtain ⟨i, hi⟩ := h.moles_ne_zero
      exact ⟨i, mul_ne_zero hl.ne' hi⟩
    · rw [hpk]
      exact h.packing
  refine residual_transfer hρ anyLinAlg laD o hT hV hN hT (ρ.mul (ρ.const l) hV) (fun i => ρ.mul (ρ.const l) (hN i))
    h hr h' ?_ (ρ.const l) (.of_forall fun x => C14_residual_extensive anyLinAlg _ (Tf x) (Vf x) (fun i => Nf i x) l hl)
  intro ct hct
  have hreg := hr ct hct
  have hs := new_scale (Tf x0) (Vf x0) (fun i => Nf i x0) hl.ne'
  cases ct with
  | hardSphere => trivial
  | hardChain => trivial
  | dispersion => trivial
  | dipole => simp only [Regular] at hreg ⊢; rw [hs]; exact hreg
  | quadrupole => simp only [Regular] at hreg ⊢; rw [hs]; exact hreg
  | dipoleQuadrupole v => simp only [Regular] at hreg ⊢; rw [hs]; exact hreg
  | association =>
    obtain ⟨a, ha, h1, h2, h3, h4, h5⟩ := hreg
    refine ⟨a, ha, h1, h2, h3, h4, ?_⟩
    rw [← stateDeltaRho_eq h' a [] ha, hs]
    rw [← stateDeltaRho_eq h a [] ha] at h5
    exact h5
  | crossAssociation m tol => exact hreg.elim

/-- components merged according to `φ`, functions and numbers -/
theorem merge_transfer {X : Type} [TopologicalSpace X] {x0 : X} {ρ : Rep x0 Same D} (hρ : Complete ρ)
    (laD : LinAlg ℝ D) (pr : Fin n → PureRecord ℝ) (k : Fin n → Fin n → ℝ)
    (o : PcSaftOptions ℝ) (φ : Fin n' → Fin n) (hb : AssocBijective φ (fromRecords pr k))
    (hq : Monotone φ ∨ ∀ i j, (fromRecords pr k).q2 i ≠ 0 → (fromRecords pr k).q2 j ≠ 0 →
      (pr i).model_record.sigma = (pr j).model_record.sigma)
    {T V : X → ℝ} {N : Fin n' → X → ℝ} {Td Vd : D} {Nd : Fin n' → D} {Md : Fin n → D}
    (hT : ρ.R T Td) (hV : ρ.R V Vd) (hN : ∀ i, ρ.R (N i) (Nd i))
    (hM : ∀ i, ρ.R (fun x => merge φ (fun j => N j x) i) (Md i)) (hw : ∀ i, 0 ≤ N i x0)
    (h : Admissible (fromRecords pr k) (T x0) (V x0) (merge φ fun j => N j x0))
    (hr : ∀ ct ∈ buildContributions (fromRecords pr k) o,
      Regular (fromRecords pr k) (T x0) (V x0) (merge φ fun j => N j x0) ct) :
    ∃ d, (Eos.withOptions (fromRecords pr k) o).residualHelmholtz laD (StateHD.new Td Vd Md) = .ok d
      ∧ (Eos.withOptions (fromRecords (fun i => pr (φ i)) (fun i j => k (φ i) (φ j))) o).residualHelmholtz laD
        (StateHD.new Td Vd Nd) = .ok d :=
  residual_transfer_eq hρ exactLinAlg laD o hT hV hM hT hV hN h hr (admissible_merge h hw)
    (regular_merge hb hq h hw o hr)
    (.of_forall fun x => residual_merge exactLinAlg rfl (fun _ => exactSolver_exact) o pr k
      (fun i => (h.m_pos i).le) φ hb hq (T x) (V x) (fun j => N j x))

/-- C85: renumbering the components changes no derivative. -/
theorem C85_permutation (hD : Derivatives D) (laD : LinAlg ℝ D) (pr : Fin n → PureRecord ℝ) (k : Fin n → Fin n → ℝ)
    (o : PcSaftOptions ℝ) (T V : D) (N : Fin n → D) (σ : Equiv.Perm (Fin n))
    (hq : ∀ i j, (fromRecords pr k).q2 i ≠ 0 → (fromRecords pr k).q2 j ≠ 0 →
      (pr i).model_record.sigma = (pr j).model_record.sigma)
    (h : Admissible (fromRecords pr k) (DualNum.re T) (DualNum.re V) (fun i => DualNum.re (N i)))
    (hr : ∀ ct ∈ buildContributions (fromRecords pr k) o,
      Regular (fromRecords pr k) (DualNum.re T) (DualNum.re V) (fun i => DualNum.re (N i)) ct) :
    ∃ d, (Eos.withOptions (fromRecords pr k) o).residualHelmholtz laD (StateHD.new T V N) = .ok d
      ∧ (Eos.withOptions (fromRecords (fun i => pr (σ i)) (fun i j => k (σ i) (σ j))) o).residualHelmholtz laD
        (StateHD.new T V (fun i => N (σ i))) = .ok d := by
  obtain ⟨X, _, x0, ρ, hρ⟩ := hD
  obtain ⟨Tf, hT⟩ := hρ.exists_function T
  obtain ⟨Vf, hV⟩ := hρ.exists_function V
  choose Nf hN using fun i => hρ.exists_function (N i)
  rw [ρ.re hT, ρ.re hV] at h hr
  simp only [fun i => ρ.re (hN i)] at h hr
  have hmer : ∀ x, merge σ (fun j => Nf (σ j) x) = fun i => Nf i x := fun x => merge_comp_equiv σ fun i => Nf i x
  refine merge_transfer hρ laD pr k o σ ⟨fun i j _ hij => σ.injective hij, fun a _ => σ.surjective a⟩ (Or.inr hq)
    (N := fun j => Nf (σ j)) hT hV (fun i => hN (σ i)) (fun i => ?_) (fun i => h.moles_nonneg (σ i)) ?_ ?_
  · simp only [hmer]
    exact hN i
  · rw [hmer]
    exact h
  · rw [hmer]
    exact hr

/-- C85: components that are absent (amount zero, not varied) and do not associate can be removed without changing any
derivative. -/
theorem C85_absent_components (hD : Derivatives D) (laD : LinAlg ℝ D) (pr : Fin n → PureRecord ℝ) (k : Fin n → Fin n → ℝ)
    (o : PcSaftOptions ℝ) (T V : D) (N : Fin n → D) (φ : Fin n' → Fin n) (hφ : StrictMono φ)
    (hw : ∀ i, (∀ j, φ j ≠ i) → N i = c (0 : ℝ) ∧ (fromRecords pr k).kappa_ab i = 0)
    (h : Admissible (fromRecords pr k) (DualNum.re T) (DualNum.re V) (fun i => DualNum.re (N i)))
    (hr : ∀ ct ∈ buildContributions (fromRecords pr k) o,
      Regular (fromRecords pr k) (DualNum.re T) (DualNum.re V) (fun i => DualNum.re (N i)) ct) :
    ∃ d, (Eos.withOptions (fromRecords pr k) o).residualHelmholtz laD (StateHD.new T V N) = .ok d
      ∧ (Eos.withOptions (fromRecords (fun i => pr (φ i)) (fun i j => k (φ i) (φ j))) o).residualHelmholtz laD
        (StateHD.new T V (fun i => N (φ i))) = .ok d := by
  obtain ⟨X, _, x0, ρ, hρ⟩ := hD
  obtain ⟨Tf, hT⟩ := hρ.exists_function T
  obtain ⟨Vf, hV⟩ := hρ.exists_function V
  have hex : ∀ i, ∃ f : X → ℝ, ρ.R f (N i) ∧ ((∀ j, φ j ≠ i) → f = fun _ => 0) := by
    intro i
    by_cases hi : ∀ j, φ j ≠ i
    · refine ⟨fun _ => 0, ?_, fun _ => rfl⟩
      rw [(hw i hi).1]
      exact ρ.const 0
    · obtain ⟨f, hf⟩ := hρ.exists_function (N i)
      exact ⟨f, hf, fun h => absurd h hi⟩
  choose Nf hN hN0 using hex
  rw [ρ.re hT, ρ.re hV] at h hr
  simp only [fun i => ρ.re (hN i)] at h hr
  have hmer : ∀ x, merge φ (fun j => Nf (φ j) x) = fun i => Nf i x := fun x =>
    merge_comp_injective hφ.injective (fun i => Nf i x) fun i hi => by rw [hN0 i hi]
  refine merge_transfer hρ laD pr k o φ ⟨fun i j _ hij => hφ.injective hij, fun a ha => ?_⟩ (Or.inl hφ.monotone)
    (N := fun j => Nf (φ j)) hT hV (fun i => hN (φ i)) (fun i => ?_) (fun i => h.moles_nonneg (φ i)) ?_ ?_
  · by_contra hne
    push Not at hne
    exact ha (hw a hne).2
  · simp only [hmer]
    exact hN i
  · rw [hmer]
    exact h
  · rw [hmer]
    exact hr

/-- C85: splitting components that do not associate into pseudo-components changes no derivative: the mixture with the
amounts `N` of the pseudo-components has the energy of the mixture with the total amounts. -/
theorem C85_pseudo_components (hD : Derivatives D) (laD : LinAlg ℝ D) (pr : Fin n → PureRecord ℝ) (k : Fin n → Fin n → ℝ)
    (o : PcSaftOptions ℝ) (T V : D) (N : Fin n' → D) (φ : Fin n' → Fin n) (hφ : Monotone φ)
    (hsur : Function.Surjective φ)
    (hsplit : ∀ i j, i ≠ j → φ i = φ j → (fromRecords pr k).kappa_ab (φ i) = 0)
    (hw : ∀ i, 0 ≤ (DualNum.re (N i) : ℝ))
    (h : Admissible (fromRecords pr k) (DualNum.re T) (DualNum.re V)
      (fun i => ∑ j, if φ j = i then DualNum.re (N j) else 0))
    (hr : ∀ ct ∈ buildContributions (fromRecords pr k) o, Regular (fromRecords pr k) (DualNum.re T) (DualNum.re V)
      (fun i => ∑ j, if φ j = i then DualNum.re (N j) else 0) ct) :
    ∃ d, (Eos.withOptions (fromRecords pr k) o).residualHelmholtz laD
        (StateHD.new T V (fun i => sumFin fun j => if φ j = i then N j else c (0 : ℝ))) = .ok d
      ∧ (Eos.withOptions (fromRecords (fun i => pr (φ i)) (fun i j => k (φ i) (φ j))) o).residualHelmholtz laD
        (StateHD.new T V N) = .ok d := by
  obtain ⟨X, _, x0, ρ, hρ⟩ := hD
  obtain ⟨Tf, hT⟩ := hρ.exists_function T
  obtain ⟨Vf, hV⟩ := hρ.exists_function V
  choose Nf hN using fun i => hρ.exists_function (N i)
  rw [ρ.re hT, ρ.re hV] at h hr
  simp only [fun i => ρ.re (hN i)] at h hr hw
  refine merge_transfer hρ laD pr k o φ ⟨fun i j hi hij => ?_, fun a _ => hsur a⟩ (Or.inl hφ)
    hT hV hN (fun i => ?_) hw h hr
  · by_contra hne
    exact hi (hsplit i j hne hij)
  · have hterm : ∀ j, ρ.R (fun x => if φ j = i then Nf j x else 0) (if φ j = i then N j else c (0 : ℝ)) := by
      intro j
      split_ifs
      · exact hN j
      · exact ρ.const 0
    have := ρ.sumFin lawfulEmb_id hterm
    simp only [sumFin_real] at this
    exact this

/-- C85: the choice of units changes no derivative, see C84. -/
theorem C85_units (hD : Derivatives D) {l u : ℝ} (hl : 0 < l) (hu : 0 < u) (laD : LinAlg ℝ D)
    (pr : Fin n → PureRecord ℝ) (k : Fin n → Fin n → ℝ) (o : PcSaftOptions ℝ) (T V : D) (N : Fin n → D)
    (h : Admissible (fromRecords pr k) (DualNum.re T) (DualNum.re V) (fun i => DualNum.re (N i)))
    (hr : ∀ ct ∈ buildContributions (fromRecords pr k) o,
      Regular (fromRecords pr k) (DualNum.re T) (DualNum.re V) (fun i => DualNum.re (N i)) ct) :
    ∃ d, (Eos.withOptions (fromRecords pr k) o).residualHelmholtz laD (StateHD.new T V N) = .ok d
      ∧ (Eos.withOptions (fromRecords (fun i => inUnits l u (pr i)) k) o).residualHelmholtz laD
        (StateHD.new (c u * T) (c (l ^ 3) * V) N) = .ok d := by
  obtain ⟨X, _, x0, ρ, hρ⟩ := hD
  exact units_dual hρ hl hu laD pr k o T V N h hr

end generic

/-! ## Examples -/

section examples

/-- scaling, second derivatives -/
example (laD : LinAlg ℝ (Dual (Dual ℝ))) (t1 v1 : Dual ℝ) (x1 : Fin 2 → Dual ℝ) (t0 v0 : ℝ) (x0 : Fin 2 → ℝ) :=
  C85_extensive derivatives_dual2 laD assocRecords (fun _ _ => 0) PcSaftOptions.default ⟨⟨300, t0⟩, t1⟩ ⟨⟨1000, v0⟩, v1⟩
    (fun i => ⟨⟨1, x0 i⟩, x1 i⟩) two_pos assocRecords_admissible (assocRecords_regular _)

/-- exchange of the two components, first derivatives -/
example (laD : LinAlg ℝ (Dual ℝ)) (T' V' : ℝ) (N' : Fin 2 → ℝ) :=
  C85_permutation derivatives_dual1 laD assocRecords (fun _ _ => 0) PcSaftOptions.default ⟨300, T'⟩ ⟨1000, V'⟩
    (fun i => ⟨1, N' i⟩) (Equiv.swap 0 1) (fun i _ hi => by
      have := assocRecords_moments.2
      have hm := (mem_nonzeroComp (fromRecords assocRecords (fun _ _ => 0)).q2 i).2 hi
      exact absurd (List.length_pos_of_mem hm) (not_lt.2 this.le))
    assocRecords_admissible (assocRecords_regular _)

/-- molecules without moments and association sites -/
noncomputable def plainRecords (i : Fin n) : PureRecord ℝ := pureOf (plainRecord 1 (3 + (i : ℕ) / 10) 200)

theorem plainRecords_regular (k : Fin n → Fin n → ℝ) (o : PcSaftOptions ℝ) (T V : ℝ) (N : Fin n → ℝ) :
    ∀ ct ∈ buildContributions (fromRecords plainRecords k) o, Regular (fromRecords plainRecords k) T V N ct := by
  intro ct hct
  have e0 : (0.0 : ℝ) = 0 := by norm_num
  have h1 : (fromRecords (plainRecords (n := n)) k).dipole_comp = [] := by
    refine List.eq_nil_iff_forall_not_mem.2 fun i hi => (mem_nonzeroComp _ i).1 hi ?_
    simp [plainRecords, pureOf, plainRecord, e0]
  have h2 : (fromRecords (plainRecords (n := n)) k).quadpole_comp = [] := by
    refine List.eq_nil_iff_forall_not_mem.2 fun i hi => (mem_nonzeroComp _ i).1 hi ?_
    simp [plainRecords, pureOf, plainRecord, e0]
  have h3 : (fromRecords (plainRecords (n := n)) k).assoc_comp = [] := by
    refine List.eq_nil_iff_forall_not_mem.2 fun i hi => (mem_nonzeroComp _ i).1 hi ?_
    simp [plainRecords, pureOf, plainRecord, e0]
  simp [buildContributions, PcSaftParameters.ndipole, PcSaftParameters.nquadpole, PcSaftParameters.nassoc, h1, h2, h3] at hct
  rcases hct with rfl | rfl | rfl <;> trivial

theorem plainRecords_admissible (k : Fin 2 → Fin 2 → ℝ) {x y : ℝ} (hx : 0 < x) (hy : 0 ≤ y) (hx1 : x ≤ 1) (hy1 : y ≤ 1) :
    Admissible (fromRecords plainRecords k) 300 1000 ![x, y] where
  temperature := by norm_num
  volume := by norm_num
  m_pos _ := one_pos
  sigma_pos i := by
    change (0 : ℝ) < 3 + (i : ℕ) / 10
    positivity
  epsilon_nonneg _ := by
    change (0 : ℝ) ≤ 200
    norm_num
  moles_nonneg i := by fin_cases i <;> simp [hx.le, hy]
  moles_ne_zero := ⟨0, hx.ne'⟩
  packing := by
    have hd : ∀ s : ℝ, 0 ≤ s → s ≤ 4 → Spec.diameter s 200 300 ^ 3 ≤ 64 := by
      intro s h0 h4
      have he := Real.exp_pos (-3 * 200 / 300)
      have he1 : Real.exp (-3 * 200 / 300) ≤ 1 := Real.exp_le_one_iff.2 (by norm_num)
      have h1 : Spec.diameter s 200 300 ≤ 4 := by
        unfold Spec.diameter
        norm_num at he he1 ⊢
        nlinarith
      have h2 : 0 ≤ Spec.diameter s 200 300 := by
        unfold Spec.diameter
        refine mul_nonneg h0 ?_
        linarith
      calc _ ≤ (4 : ℝ) ^ 3 := pow_le_pow_left₀ h2 h1 3
        _ = 64 := by norm_num
    have hpi := Real.pi_lt_four
    have hpi0 := Real.pi_pos
    unfold Spec.packingFraction
    rw [Fin.sum_univ_two]
    change x * 1 * (Real.pi / 6 * Spec.diameter (3 + (0 : ℕ) / 10) 200 300 ^ 3) / 1000
      + y * 1 * (Real.pi / 6 * Spec.diameter (3 + (1 : ℕ) / 10) 200 300 ^ 3) / 1000 < 1
    have h1 := hd (3 + (0 : ℕ) / 10) (by norm_num) (by norm_num)
    have h2 := hd (3 + (1 : ℕ) / 10) (by norm_num) (by norm_num)
    generalize Spec.diameter (3 + (0 : ℕ) / 10) 200 300 ^ 3 = a at h1
    generalize Spec.diameter (3 + (1 : ℕ) / 10) 200 300 ^ 3 = b at h2
    have ha : x * 1 * (Real.pi / 6 * a) ≤ 43 := by
      have : Real.pi / 6 * a ≤ 43 := by nlinarith
      rcases le_or_gt 0 (Real.pi / 6 * a) with h | h <;> nlinarith
    have hb : y * 1 * (Real.pi / 6 * b) ≤ 43 := by
      have : Real.pi / 6 * b ≤ 43 := by nlinarith
      rcases le_or_gt 0 (Real.pi / 6 * b) with h | h <;> nlinarith
    linarith

/-- the second component is absent: third derivative in the volume -/
example (laD : LinAlg ℝ (Dual (Dual (Dual ℝ)))) (k : Fin 2 → Fin 2 → ℝ) :=
  C85_absent_components derivatives_dual3 laD plainRecords k PcSaftOptions.default (c 300)
    ⟨⟨⟨1000, 1⟩, ⟨1, 0⟩⟩, ⟨⟨1, 0⟩, ⟨0, 0⟩⟩⟩ ![c 1, c 0] (fun _ : Fin 1 => (0 : Fin 2)) (Subsingleton.strictMono _)
    (fun i hi => by
      fin_cases i
      · exact absurd rfl (hi 0)
      · refine ⟨rfl, ?_⟩
        change (0.0 : ℝ) = 0
        norm_num)
    (by
      have e : (fun i => DualNum.re ((![c 1, c 0] : Fin 2 → Dual (Dual (Dual ℝ))) i)) = (![1, 0] : Fin 2 → ℝ) := by
        funext i
        fin_cases i <;> rfl
      rw [e]
      exact plainRecords_admissible k one_pos le_rfl le_rfl zero_le_one)
    (plainRecords_regular _ _ _ _ _)

/-- the first component split in two, in all directions of the amounts -/
example (laD : LinAlg ℝ (Dual ℝ)) (k : Fin 2 → Fin 2 → ℝ) (T' V' : ℝ) (N' : Fin 3 → ℝ) :=
  C85_pseudo_components derivatives_dual1 laD plainRecords k PcSaftOptions.default ⟨300, T'⟩ ⟨1000, V'⟩
    (fun i => ⟨1 / 2, N' i⟩) (![0, 0, 1] : Fin 3 → Fin 2) (by decide) (by decide) (fun i j _ _ => by
      change (0.0 : ℝ) = 0
      norm_num) (fun _ => by
      change (0 : ℝ) ≤ 1 / 2
      norm_num)
    (by
      have e : (fun i : Fin 2 => ∑ j : Fin 3, if (![0, 0, 1] : Fin 3 → Fin 2) j = i then
          DualNum.re (⟨1 / 2, N' j⟩ : Dual ℝ) else 0) = ![1, 1 / 2] := by
        funext i
        have hre : ∀ j, (DualNum.re (⟨1 / 2, N' j⟩ : Dual ℝ) : ℝ) = 1 / 2 := fun _ => rfl
        simp only [hre]
        fin_cases i <;> simp [Fin.sum_univ_three]
        norm_num
      rw [e]
      exact plainRecords_admissible k one_pos (by norm_num) le_rfl (by norm_num))
    (plainRecords_regular _ _ _ _ _)

/-- nanometres and millikelvin -/
example (laD : LinAlg ℝ (Dual ℝ)) (T' V' : ℝ) (N' : Fin 2 → ℝ) :=
  C85_units derivatives_dual1 (l := 1 / 10) (u := 1000) (by norm_num) (by norm_num) laD assocRecords (fun _ _ => 0)
    PcSaftOptions.default ⟨300, T'⟩ ⟨1000, V'⟩ (fun i => ⟨1, N' i⟩) assocRecords_admissible (assocRecords_regular _)

end examples

end PcSaft.Props
