import Verif.Lemmas.MergeInv
import Verif.Props.Construction
import Verif.Props.HardSphere
import Mathlib.Tactic.NormNum

/-!
# Properties C14–C18, C22 and C48 (variants): mixtures
-/

namespace PcSaft.Props
open PcSaft
variable {n n' : ℕ}

/-- the records of the components selected by `φ` (with repetitions or in another order) -/
def selectRecords (φ : Fin n' → Fin n) (pr : Fin n → PureRecord ℝ) : Fin n' → PureRecord ℝ :=
  fun j => pr (φ j)

/-- the corresponding block of the k_ij matrix -/
def selectKij (φ : Fin n' → Fin n) (k : Fin n → Fin n → ℝ) : Fin n' → Fin n' → ℝ :=
  fun i j => k (φ i) (φ j)

theorem select_eq_subset (φ : Fin n' → Fin n) (pr : Fin n → PureRecord ℝ) (k : Fin n → Fin n → ℝ) :
    fromRecords (selectRecords φ pr) (selectKij φ k) = (fromRecords pr k).subset φ := rfl

theorem merge_comp_equiv (σ : Equiv.Perm (Fin n)) (w : Fin n → ℝ) : merge σ (fun j => w (σ j)) = w := by
  funext i
  obtain ⟨j, rfl⟩ := σ.surjective i
  exact merge_apply_injective σ.injective _ j

theorem merge_comp_injective {φ : Fin n' → Fin n} (hφ : Function.Injective φ) (w : Fin n → ℝ)
    (hw : ∀ i, (∀ j, φ j ≠ i) → w i = 0) : merge φ (fun j => w (φ j)) = w := by
  funext i
  by_cases h : ∃ j, φ j = i
  · obtain ⟨j, rfl⟩ := h
    exact merge_apply_injective hφ _ j
  · push Not at h
    rw [merge_of_not_range _ _ h, hw i h]

/-! ## C14 -/

theorem new_scale (T V : ℝ) (w : Fin n → ℝ) {l : ℝ} (hl : l ≠ 0) :
    StateHD.new T (l * V) (fun i => l * w i)
      = { StateHD.new T V w with volume := l * V, moles := fun i => l * w i } := by
  simp only [StateHD.new, sumFin_real, StateHD.mk.injEq, true_and]
  constructor
  · funext i
    rw [← Finset.mul_sum, mul_div_mul_left _ _ hl]
  · funext i
    rw [mul_div_mul_left _ _ hl]

/-- C14 for each contribution of every list an equation of state can contain. -/
theorem C14_contribution_extensive (la : LinAlg ℝ ℝ) (p : PcSaftParameters n ℝ) (ct : Contribution ℝ)
    (T V : ℝ) (w : Fin n → ℝ) (l : ℝ) (hl : 0 < l) :
    ct.helmholtzEnergy la p (StateHD.new T (l * V) (fun i => l * w i))
      = (ct.helmholtzEnergy la p (StateHD.new T V w)).map (fun a => l * a) := by
  rw [new_scale T V w hl.ne']
  cases ct with
  | hardSphere =>
    simp only [Contribution.helmholtzEnergy, Except.map, hardSphere, StateHD.new_volume]
    congr 1
    simp only [mul_assoc, mul_div_assoc]
  | hardChain =>
    simp only [Contribution.helmholtzEnergy, Except.map, hardChain, StateHD.new_volume]
    congr 1
    ring
  | dispersion =>
    simp only [Contribution.helmholtzEnergy, Except.map, dispersion, StateHD.new_volume]
    congr 1
    ring
  | dipole =>
    simp only [Contribution.helmholtzEnergy, Except.map, dipole, padeVolume, isNan_real,
      Bool.false_eq_true, if_false, StateHD.new_volume]
    congr 1
    ring
  | quadrupole =>
    simp only [Contribution.helmholtzEnergy, Except.map, quadrupole, padeVolume, isNan_real,
      Bool.false_eq_true, if_false, StateHD.new_volume]
    congr 1
    ring
  | dipoleQuadrupole v =>
    simp only [Contribution.helmholtzEnergy, Except.map, dipoleQuadrupole, padeVolume, isNan_real,
      Bool.false_eq_true, if_false, StateHD.new_volume]
    congr 1
    ring
  | association =>
    simp only [Contribution.helmholtzEnergy, association, StateHD.new_moles]
    split
    · rfl
    · simp only [Except.map]
      congr 1
      unfold assocSingle
      split <;> ring
  | crossAssociation mi tol =>
    simp only [Contribution.helmholtzEnergy, crossAssociation, StateHD.new_volume]
    split
    · rfl
    · simp only [Except.map]
      congr 1
      ring

/-- C14: the residual Helmholtz energy of every equation of state is extensive. -/
theorem C14_residual_extensive (la : LinAlg ℝ ℝ) (e : Eos n ℝ) (T V : ℝ) (w : Fin n → ℝ) (l : ℝ)
    (hl : 0 < l) :
    e.residualHelmholtz la (StateHD.new T (l * V) (fun i => l * w i))
      = (e.residualHelmholtz la (StateHD.new T V w)).map (fun a => l * a) := by
  unfold Eos.residualHelmholtz
  have h : ∀ (f g : ℝ → Contribution ℝ → Except Panic ℝ),
      (∀ acc ct, f (l * acc) ct = (g acc ct).map (fun a => l * a)) →
      ∀ (cs : List (Contribution ℝ)) (acc : ℝ),
        cs.foldlM f (l * acc) = (cs.foldlM g acc).map (fun a => l * a) := by
    intro f g hfg cs
    induction cs with
    | nil => intro acc; rfl
    | cons ct cs ih =>
      intro acc
      simp only [List.foldlM_cons, hfg]
      cases g acc ct with
      | error err => rfl
      | ok a => exact ih a
  have h0 : (c (0.0 : ℝ) : ℝ) = l * c (0.0 : ℝ) := by
    simp only [c, ofF_real]
    norm_num
  conv_lhs => rw [h0]
  refine h _ _ (fun acc ct => ?_) _ _
  rw [C14_contribution_extensive la e.parameters ct T V w l hl]
  cases ct.helmholtzEnergy la e.parameters (StateHD.new T V w) with
  | error err => rfl
  | ok a => simp only [Except.map, mul_add]

example : hardSphere onePure (StateHD.new (300 : ℝ) (2 * 100) (fun _ => 2 * 1)) = 2 *
    hardSphere onePure (StateHD.new (300 : ℝ) 100 (fun _ => 1)) := by
  have := C14_contribution_extensive ⟨fun _ _ _ => none, fun _ _ _ => none, 0⟩ onePure .hardSphere 300 100
    (fun _ => 1) 2 two_pos
  simpa [Contribution.helmholtzEnergy, Except.map] using this

/-! ## The residual energy with at most one associating component -/

theorem nassoc_of {p : PcSaftParameters n ℝ} {l : List (Fin n)} (h : p.assoc_comp = l) :
    p.nassoc = l.length := congrArg List.length h

/-- energy of the explicit association term; zero without associating components -/
noncomputable def assocEnergy (p : PcSaftParameters n ℝ) (s : StateHD n ℝ) : ℝ :=
  match p.assoc_comp with
  | [] => 0
  | a :: _ => assocSingle (stateStrength p s a a * s.partial_density a) (s.moles a) (p.na a) (p.nb a)

/-- sum of all contributions with at most one associating component -/
noncomputable def residualSum (v : DQVariants) (p : PcSaftParameters n ℝ) (s : StateHD n ℝ) : ℝ :=
  hardSphere p s + hardChain p s + dispersion p s + dipole p s + quadrupole p s
    + dipoleQuadrupole v p s + assocEnergy p s

theorem dipole_eq_zero {p : PcSaftParameters n ℝ} (h : p.ndipole = 0) (s : StateHD n ℝ) :
    dipole p s = 0 := by
  have h' : p.dipole_comp = [] := List.length_eq_zero_iff.mp h
  have h0 : (0.0 : ℝ) = 0 := by norm_num
  simp only [dipole, dipolePhi2, dipolePhi3, padeVolume, h', List.length_nil, Fin.foldl_zero, c, ofF_real,
    isNan_real, Bool.false_eq_true, if_false, h0]
  ring

theorem quadrupole_eq_zero {p : PcSaftParameters n ℝ} (h : p.nquadpole = 0) (s : StateHD n ℝ) :
    quadrupole p s = 0 := by
  have h' : p.quadpole_comp = [] := List.length_eq_zero_iff.mp h
  have h0 : (0.0 : ℝ) = 0 := by norm_num
  simp only [quadrupole, quadrupolePhi2, quadrupolePhi3, padeVolume, h', List.length_nil, Fin.foldl_zero, c,
    ofF_real, isNan_real, Bool.false_eq_true, if_false, h0]
  simp

theorem foldl_id {S : Type} (q : ℕ) (a : S) : Fin.foldl q (fun (acc : S) (_ : Fin q) => acc) a = a := by
  induction q with
  | zero => simp
  | succ q ih => rw [Fin.foldl_succ]; exact ih

theorem dipoleQuadrupole_eq_zero {p : PcSaftParameters n ℝ} (h : p.ndipole = 0 ∨ p.nquadpole = 0)
    (v : DQVariants) (s : StateHD n ℝ) : dipoleQuadrupole v p s = 0 := by
  have h0 : (0.0 : ℝ) = 0 := by norm_num
  rcases h with h | h
  · have h' : p.dipole_comp = [] := List.length_eq_zero_iff.mp h
    simp only [dipoleQuadrupole, dipoleQuadrupolePhi2, dipoleQuadrupolePhi3, padeVolume, h',
      List.length_nil, Fin.foldl_zero, c, ofF_real, isNan_real, Bool.false_eq_true, if_false, h0]
    simp
  · have h' : p.quadpole_comp = [] := List.length_eq_zero_iff.mp h
    simp only [dipoleQuadrupole, dipoleQuadrupolePhi2, dipoleQuadrupolePhi3, padeVolume, h',
      List.length_nil, Fin.foldl_zero, foldl_id, c, ofF_real, isNan_real, Bool.false_eq_true, if_false, h0]
    simp

/-- With at most one associating component the residual energy is the sum of all contributions; the
polar ones are zero if they are not present. -/
theorem residual_of_nassoc_le_one (la : LinAlg ℝ ℝ) (p : PcSaftParameters n ℝ) (o : PcSaftOptions ℝ)
    (s : StateHD n ℝ) (h : p.nassoc ≤ 1) :
    (Eos.withOptions p o).residualHelmholtz la s = .ok (residualSum o.dq_variant p s) := by
  have h0 : (0.0 : ℝ) = 0 := by norm_num
  have hd : p.ndipole = 0 ∨ 0 < p.ndipole := Nat.eq_zero_or_pos _
  have hq : p.nquadpole = 0 ∨ 0 < p.nquadpole := Nat.eq_zero_or_pos _
  unfold residualSum assocEnergy
  match ha : p.assoc_comp, h with
  | [], _ =>
    have hn : p.nassoc = 0 := nassoc_of ha
    rcases hd with hd | hd <;> rcases hq with hq | hq <;>
    simp [Eos.residualHelmholtz, Eos.withOptions, buildContributions, hd, hq, hn, dipole_eq_zero,
      quadrupole_eq_zero, dipoleQuadrupole_eq_zero, bind, Except.bind, Contribution.helmholtzEnergy, h0, pure,
      Except.pure]
  | [a], _ =>
    have hn : p.nassoc = 1 := nassoc_of ha
    rcases hd with hd | hd <;> rcases hq with hq | hq <;>
    simp [Eos.residualHelmholtz, Eos.withOptions, buildContributions, hd, hq, hn, dipole_eq_zero,
      quadrupole_eq_zero, dipoleQuadrupole_eq_zero, bind, Except.bind, Contribution.helmholtzEnergy, h0, pure,
      Except.pure, association_eq p s a [] ha]
  | a :: b :: l, h =>
    rw [nassoc_of ha] at h
    simp at h

/-! ## C15 -/

/-- C15: every contribution that is symmetric in the components keeps its value when the components,
their moles and the k_ij matrix are renumbered. -/
theorem C15_permutation (pr : Fin n → PureRecord ℝ) (k : Fin n → Fin n → ℝ)
    (hm : ∀ i, 0 ≤ (pr i).model_record.m) (σ : Equiv.Perm (Fin n)) (T V : ℝ) (w : Fin n → ℝ) :
    let p := fromRecords pr k
    let p' := fromRecords (fun i => pr (σ i)) (fun i j => k (σ i) (σ j))
    let s := StateHD.new T V w
    let s' := StateHD.new T V (fun i => w (σ i))
    hardSphere p' s' = hardSphere p s ∧ hardChain p' s' = hardChain p s
    ∧ dispersion p' s' = dispersion p s ∧ dipole p' s' = dipole p s
    ∧ (∀ v, dipoleQuadrupole v p' s' = dipoleQuadrupole v p s)
    ∧ (p.nassoc = 1 → association p' s' = association p s) := by
  intro p p' s s'
  have h : SubsetOf σ p' p := subsetOf_fromRecords pr k σ
  have hp : PolarOk p := polarOk_fromRecords pr k hm
  have hp' : PolarOk p' := polarOk_fromRecords _ _ (fun i => hm (σ i))
  have hw := merge_comp_equiv σ w
  refine ⟨?_, ?_, ?_, ?_, ?_, ?_⟩
  · simp only [s', h.hardSphere, hw, s]
  · simp only [s', h.hardChain, hw, s]
  · simp only [s', h.dispersion, hw, s]
  · simp only [s', h.dipole hp hp', hw, s]
  · intro v
    simp only [s', h.dipoleQuadrupole hp hp', hw, s]
  · intro hn
    obtain ⟨a, ha⟩ := List.length_eq_one_iff.mp hn
    obtain ⟨j, rfl⟩ := σ.surjective a
    have ha' : p'.assoc_comp = [j] := nonzeroComp_comp σ _ j σ.injective ha
    rw [association_eq p' s' j [] ha', association_eq p s (σ j) [] ha]
    have e := stateStrength_merge pr k σ T V (fun i => w (σ i)) j j
    rw [hw] at e
    change stateStrength p' s' j j = stateStrength p s (σ j) (σ j) at e
    rw [e]
    rfl

/-- C15 for the total residual energy of an equation of state with at most one associating component
whose quadrupolar components have equal diameters. -/
theorem C15_residual (la : LinAlg ℝ ℝ) (o : PcSaftOptions ℝ) (pr : Fin n → PureRecord ℝ)
    (k : Fin n → Fin n → ℝ) (hm : ∀ i, 0 ≤ (pr i).model_record.m) (σ : Equiv.Perm (Fin n))
    (ha : (fromRecords pr k).nassoc ≤ 1)
    (hq : ∀ i j, (fromRecords pr k).q2 i ≠ 0 → (fromRecords pr k).q2 j ≠ 0 →
      (pr i).model_record.sigma = (pr j).model_record.sigma) (T V : ℝ) (w : Fin n → ℝ) :
    (Eos.withOptions (fromRecords (fun i => pr (σ i)) (fun i j => k (σ i) (σ j))) o).residualHelmholtz la
        (StateHD.new T V (fun i => w (σ i)))
      = (Eos.withOptions (fromRecords pr k) o).residualHelmholtz la (StateHD.new T V w) := by
  have h : SubsetOf σ (fromRecords (fun i => pr (σ i)) (fun i j => k (σ i) (σ j))) (fromRecords pr k) :=
    subsetOf_fromRecords pr k σ
  have hp := polarOk_fromRecords pr k hm
  have hp' : PolarOk (fromRecords (fun i => pr (σ i)) (fun i j => k (σ i) (σ j))) :=
    polarOk_fromRecords _ _ (fun i => hm (σ i))
  obtain ⟨h1, h2, h3, h4, h5, h6⟩ := C15_permutation pr k hm σ T V w
  have h7 := h.quadrupole hp hp' (Or.inr hq) T V (fun i => w (σ i))
  rw [merge_comp_equiv σ w] at h7
  have hass : (fromRecords (fun i => pr (σ i)) (fun i j => k (σ i) (σ j))).nassoc ≤ 1 ∧
      assocEnergy (fromRecords (fun i => pr (σ i)) (fun i j => k (σ i) (σ j)))
        (StateHD.new T V (fun i => w (σ i))) = assocEnergy (fromRecords pr k) (StateHD.new T V w) := by
    match hl : (fromRecords pr k).assoc_comp, ha with
    | [], _ =>
      have hz : ∀ i, (fromRecords pr k).kappa_ab i = 0 := by
        intro i
        by_contra hi
        have := (mem_nonzeroComp _ i).mpr hi
        change i ∈ (fromRecords pr k).assoc_comp at this
        simp [hl] at this
      have hl' : (fromRecords (fun i => pr (σ i)) (fun i j => k (σ i) (σ j))).assoc_comp = [] := by
        rw [List.eq_nil_iff_forall_not_mem]
        intro i hi
        exact (mem_nonzeroComp _ i).mp hi (hz (σ i))
      exact ⟨(nassoc_of hl').trans_le zero_le_one, by simp only [assocEnergy, hl, hl']⟩
    | [a], _ =>
      obtain ⟨j, rfl⟩ := σ.surjective a
      have hl' : (fromRecords (fun i => pr (σ i)) (fun i j => k (σ i) (σ j))).assoc_comp = [j] :=
        nonzeroComp_comp σ _ j σ.injective hl
      refine ⟨(nassoc_of hl').le, ?_⟩
      have := h6 (nassoc_of hl)
      rw [association_eq _ _ j [] hl', association_eq _ _ (σ j) [] hl] at this
      simp only [assocEnergy, hl, hl']
      exact Except.ok.inj this
    | a :: b :: l, h =>
      rw [nassoc_of hl] at h
      simp at h
  rw [residual_of_nassoc_le_one la _ o _ ha, residual_of_nassoc_le_one la _ o _ hass.1]
  simp only [residualSum]
  rw [h1, h2, h3, h4, h5, h7, hass.2]

/-! ## C16 -/

/-- C16, the part that holds: the quadrupole contribution keeps its value if all quadrupolar components
have the same diameter.  Missing: components with different diameters, see `C16_counterexample`. -/
theorem C16_quadrupole_permutation_partial (pr : Fin n → PureRecord ℝ) (k : Fin n → Fin n → ℝ)
    (hm : ∀ i, 0 ≤ (pr i).model_record.m) (σ : Equiv.Perm (Fin n))
    (hq : ∀ i j, (fromRecords pr k).q i ≠ 0 → (fromRecords pr k).q j ≠ 0 →
      (pr i).model_record.sigma = (pr j).model_record.sigma) (T V : ℝ) (w : Fin n → ℝ) :
    quadrupole (fromRecords (fun i => pr (σ i)) (fun i j => k (σ i) (σ j)))
        (StateHD.new T V (fun i => w (σ i)))
      = quadrupole (fromRecords pr k) (StateHD.new T V w) := by
  have h : SubsetOf σ (fromRecords (fun i => pr (σ i)) (fun i j => k (σ i) (σ j))) (fromRecords pr k) :=
    subsetOf_fromRecords pr k σ
  have hq2 : ∀ i, (fromRecords pr k).q2 i ≠ 0 → (fromRecords pr k).q i ≠ 0 := by
    intro i hi h0
    apply hi
    change (fromRecords pr k).q i * (fromRecords pr k).q i / _ * _ * _ = (0 : ℝ)
    rw [h0]
    simp
  have h7 := h.quadrupole (polarOk_fromRecords pr k hm) (polarOk_fromRecords _ _ (fun i => hm (σ i)))
    (Or.inr (fun i j hi hj => hq i j (hq2 i hi) (hq2 j hj))) T V (fun i => w (σ i))
  rwa [merge_comp_equiv σ w] at h7

/-- two quadrupolar components that differ only in the segment diameter (3 Å and 4 Å) -/
noncomputable def twoQuadrupoles (i : Fin 2) : PureRecord ℝ :=
  ⟨⟨none, ""⟩, 44, ⟨1, if i = 0 then 3 else 4, 100, none, some 4, none, none, none, none, none, none, none⟩,
    none⟩

theorem pade_ne {x y c : ℝ} (hx : x < 0) (hy : y < 0) (hc : 0 < c) (hxy : x ≠ y) :
    x * x / (x - c) ≠ y * y / (y - c) := by
  intro h
  rw [div_eq_div_iff (by linarith) (by linarith)] at h
  have h2 : (x - y) * (x * y - c * (x + y)) = 0 := by linarith
  rcases mul_eq_zero.mp h2 with h3 | h3
  · exact hxy (by linarith)
  · nlinarith [mul_pos_of_neg_of_neg hx hy]

/-- C16 fails: exchanging two quadrupolar components of different size changes the quadrupole
contribution, at an admissible state (packing fraction 0.2). -/
theorem C16_counterexample : ∃ V : ℝ,
    Spec.Admissible (fromRecords twoQuadrupoles (fun _ _ => 0)) 100 V (fun _ => 1)
    ∧ quadrupole (fromRecords (fun i => twoQuadrupoles (Equiv.swap 0 1 i)) (fun _ _ => 0))
        (StateHD.new (100 : ℝ) V (fun _ => 1))
      ≠ quadrupole (fromRecords twoQuadrupoles (fun _ _ => 0)) (StateHD.new (100 : ℝ) V (fun _ => 1)) := by
  set p := fromRecords twoQuadrupoles (fun _ _ => (0 : ℝ)) with hpdef
  set p' := fromRecords (fun i => twoQuadrupoles (Equiv.swap 0 1 i)) (fun _ _ => (0 : ℝ)) with hp'def
  have hd : ∀ i, 0 < hsDiameter p (100 : ℝ) i := by
    intro i
    rw [hsDiameter_real]
    have h1 : 0 < p.sigma i := by fin_cases i <;> norm_num [p, fromRecords, twoQuadrupoles]
    have h2 : p.epsilon_k i = 100 := rfl
    have := exp_le_one_of (e := 100) (T := 100) (by norm_num) (by norm_num)
    rw [h2]
    apply mul_pos h1
    linarith
  set V0 := Spec.packingFraction p 100 1 (fun _ => 1) with hV0
  have hV0pos : 0 < V0 := by
    simp only [hV0, Spec.packingFraction, Fin.sum_univ_two]
    have h0 := hd 0
    have h1 := hd 1
    rw [hsDiameter_eq_spec] at h0 h1
    have hm0 : p.m 0 = 1 := rfl
    have hm1 : p.m 1 = 1 := rfl
    have := Real.pi_pos
    rw [hm0, hm1]
    positivity
  have hpack : ∀ V : ℝ, Spec.packingFraction p 100 V (fun _ => 1) = V0 / V := by
    intro V
    simp only [hV0, Spec.packingFraction, Finset.sum_div, div_one]
  refine ⟨5 * V0, ?_, ?_⟩
  · refine ⟨by norm_num, by linarith, fun i => ?_, fun i => ?_, fun i => ?_, fun _ => zero_le_one,
      ⟨0, one_ne_zero⟩, ?_⟩
    · fin_cases i <;> norm_num [p, fromRecords, twoQuadrupoles]
    · fin_cases i <;> norm_num [p, fromRecords, twoQuadrupoles]
    · fin_cases i <;> norm_num [p, fromRecords, twoQuadrupoles]
    · rw [hpack, div_lt_one (by linarith)]
      linarith
  -- both mixtures have the same packing fraction
  have hsub : SubsetOf (Equiv.swap 0 1) p' p := subsetOf_fromRecords twoQuadrupoles (fun _ _ => 0) _
  have hp : PolarOk p := polarOk_fromRecords _ _ (fun i => by norm_num [twoQuadrupoles])
  have hp' : PolarOk p' := polarOk_fromRecords _ _ (fun i => by norm_num [twoQuadrupoles])
  have hmerge := merge_comp_equiv (Equiv.swap (0 : Fin 2) 1) (fun _ => (1 : ℝ))
  have heta : zeta p.m (StateHD.new (100 : ℝ) (5 * V0) (fun _ => (1 : ℝ))).partial_density (hsDiameter p (100 : ℝ)) 3
      = 1 / 5 := by
    rw [zeta3_eq_packing, hpack]
    field_simp
  have heta' : zeta p'.m (StateHD.new (100 : ℝ) (5 * V0) (fun _ => (1 : ℝ))).partial_density
      (hsDiameter p' (100 : ℝ)) 3 = 1 / 5 := by
    rw [hsub.zeta, ← new_merge_density, hmerge, heta]
  -- the strength of the quadrupoles
  have hq2 : ∀ i, 0 < p.q2 i := by
    intro i
    have h := (C01_reduced_moments twoQuadrupoles (fun _ _ => 0) i (by norm_num [twoQuadrupoles])
      (by fin_cases i <;> norm_num [twoQuadrupoles]) (by norm_num [twoQuadrupoles]))
    refine lt_of_le_of_ne h.2.2.1 (Ne.symm (fun h0 => ?_))
    have := h.2.2.2.1.mp h0
    norm_num [fromRecords, twoQuadrupoles] at this
  have ht : ∀ i, 0 < quadrupoleTerm p (100⁻¹ : ℝ) i := by
    intro i
    have h1 : 0 < p.sigma i := by fin_cases i <;> norm_num [p, fromRecords, twoQuadrupoles]
    have h2 : p.epsilon_k i = 100 := rfl
    have h3 := hq2 i
    simp only [quadrupoleTerm, c, ofF_real, powi_real, h2]
    positivity
  have ht' : ∀ i, quadrupoleTerm p' (100⁻¹ : ℝ) i = quadrupoleTerm p (100⁻¹ : ℝ) (Equiv.swap 0 1 i) := by
    intro i
    simp only [quadrupoleTerm, hsub.sigma, hsub.epsilon_k, hsub.q2]
  -- mean segment numbers are one
  have hpair : ∀ i j, mdqPair p i j = 1 := by
    intro i j
    have : ∀ i, p.m i = 1 := fun _ => rfl
    have h12 : min (1 : ℝ) 2.0 = 1 := by norm_num
    simp [mdqPair, this, h12]
  have htrip : ∀ i j l, mdqTriplet p i j l = 1 := by
    intro i j l
    have : ∀ i, p.m i = 1 := fun _ => rfl
    have h12 : min (1 : ℝ) 2.0 = 1 := by norm_num
    simp [mdqTriplet, this, h12]
  have he : ∀ i j, p.e_k_ij i j = 100 := by
    intro i j
    have h2 : p.e_k_ij i j = Real.sqrt (100 * 100) := rfl
    rw [h2, Real.sqrt_mul_self (by norm_num)]
  have hs1 : meanSeg1 (1 : ℝ) = 0 := by norm_num [meanSeg1]
  have hs2 : meanSeg2 (1 : ℝ) = 0 := by norm_num [meanSeg2, meanSeg1]
  obtain ⟨P, hP, hPpos⟩ : ∃ P, (∀ i j, pairI (by decide) AQ BQ p 100 (1 / 5) i j = P) ∧ 0 < P := by
    refine ⟨pairIntegral (by decide) 0 0 (1 / 5) AQ BQ (100⁻¹ * 100), fun i j => ?_, ?_⟩
    · simp only [pairI, hpair, hs1, hs2, he]
    · simp [pairIntegral, etas, AQ, BQ, Fin.sum_univ_five, Fin.castLE]
      norm_num
  obtain ⟨J, hJ, hJpos⟩ : ∃ J, (∀ i j l, tripI CQ p (1 / 5) i j l = J) ∧ 0 < J := by
    refine ⟨tripletIntegral 0 0 (1 / 5) CQ, fun i j l => ?_, ?_⟩
    · simp only [tripI, htrip, hs1, hs2]
    · simp [tripletIntegral, etas, CQ, Fin.sum_univ_four, Fin.castLE]
      norm_num
  have hpi := Real.pi_pos
  have hsig : ∀ i j, 0 < p.sigma_ij i j := by
    intro i j
    fin_cases i <;> fin_cases j <;> norm_num [p, fromRecords, twoQuadrupoles]
  -- the triplet terms agree and are positive
  have hK3 : ∀ i j l, 0 < quadK3 p 100 (1 / 5) i j l := by
    intro i j l
    unfold quadK3
    rw [hJ]
    have h1 := ht i
    have h2 := ht j
    have h3 := ht l
    have h4 := hsig i j
    have h5 := hsig i l
    have h6 := hsig j l
    positivity
  have hK3' : ∀ i j l, quadK3 p' 100 (1 / 5) i j l = quadK3 p 100 (1 / 5) (Equiv.swap 0 1 i)
      (Equiv.swap 0 1 j) (Equiv.swap 0 1 l) := by
    intro i j l
    simp only [quadK3, hsub.tripI, ht', hsub.sigma_ij]
  rw [quadrupole_real p' hp', quadrupole_real p hp]
  simp only [StateHD.new_temperature, StateHD.new_volume, heta, heta']
  intro hcontra
  have hcontra := mul_right_cancel₀ (show (5 * V0) ≠ 0 by positivity) hcontra
  have e1 : ∑ i, ∑ j, ∑ l, (StateHD.new (100 : ℝ) (5 * V0) fun _ : Fin 2 => (1 : ℝ)).partial_density i
      * (StateHD.new (100 : ℝ) (5 * V0) fun _ : Fin 2 => (1 : ℝ)).partial_density j
      * (StateHD.new (100 : ℝ) (5 * V0) fun _ : Fin 2 => (1 : ℝ)).partial_density l * quadK3 p' 100 (1 / 5) i j l
      = ∑ i, ∑ j, ∑ l, (StateHD.new (100 : ℝ) (5 * V0) fun _ : Fin 2 => (1 : ℝ)).partial_density i
      * (StateHD.new (100 : ℝ) (5 * V0) fun _ : Fin 2 => (1 : ℝ)).partial_density j
      * (StateHD.new (100 : ℝ) (5 * V0) fun _ : Fin 2 => (1 : ℝ)).partial_density l * quadK3 p 100 (1 / 5) i j l := by
    simp only [hK3', StateHD.new_density, Fin.sum_univ_two, Equiv.swap_apply_left, Equiv.swap_apply_right]
    ring
  rw [e1] at hcontra
  have hc3 : 0 < (∑ i, ∑ j, ∑ l, (StateHD.new (100 : ℝ) (5 * V0) fun _ : Fin 2 => (1 : ℝ)).partial_density i
      * (StateHD.new (100 : ℝ) (5 * V0) fun _ : Fin 2 => (1 : ℝ)).partial_density j
      * (StateHD.new (100 : ℝ) (5 * V0) fun _ : Fin 2 => (1 : ℝ)).partial_density l * quadK3 p 100 (1 / 5) i j l)
      * (Real.pi * Real.pi * 0.5625) := by
    apply mul_pos _ (by positivity)
    refine Finset.sum_pos (fun i _ => Finset.sum_pos (fun j _ => Finset.sum_pos (fun l _ => ?_)
      Finset.univ_nonempty) Finset.univ_nonempty) Finset.univ_nonempty
    have := hK3 i j l
    simp only [StateHD.new_density]
    positivity
  generalize (∑ i, ∑ j, ∑ l, (StateHD.new (100 : ℝ) (5 * V0) fun _ : Fin 2 => (1 : ℝ)).partial_density i
      * (StateHD.new (100 : ℝ) (5 * V0) fun _ : Fin 2 => (1 : ℝ)).partial_density j
      * (StateHD.new (100 : ℝ) (5 * V0) fun _ : Fin 2 => (1 : ℝ)).partial_density l * quadK3 p 100 (1 / 5) i j l)
      * (Real.pi * Real.pi * 0.5625) = c3 at hcontra hc3
  have hs0 : p.sigma 0 = 3 := by norm_num [p, fromRecords, twoQuadrupoles]
  have hs1' : p.sigma 1 = 4 := by norm_num [p, fromRecords, twoQuadrupoles]
  have hsp0 : p'.sigma 0 = 4 := by rw [hsub.sigma]; exact hs1'
  have hsp1 : p'.sigma 1 = 3 := by rw [hsub.sigma]; exact hs0
  have hm01 : min (0 : Fin 2) 1 = 0 := rfl
  have hm10 : min (1 : Fin 2) 0 = 0 := rfl
  have t0 := ht 0
  have t1 := ht 1
  refine pade_ne ?_ ?_ hc3 ?_ hcontra
  all_goals simp only [StateHD.new_density, Fin.sum_univ_two, quadK2, hsub.pairI, hP, ht', min_self, hm01, hm10,
    hs0, hs1', hsp0, hsp1, Equiv.swap_apply_left, Equiv.swap_apply_right]
  · rw [neg_mul, neg_lt_zero]
    positivity
  · rw [neg_mul, neg_lt_zero]
    positivity
  · have hpos : 0 < 1 / (5 * V0) * (1 / (5 * V0)) * (quadrupoleTerm p (100⁻¹ : ℝ) 0 * quadrupoleTerm p (100⁻¹ : ℝ) 1 * P) := by
      positivity
    have hf : (Real.pi * 0.5625) ≠ 0 := by positivity
    intro h
    have h := neg_injective (mul_right_cancel₀ hf h)
    have h2 : 1 / (5 * V0) * (1 / (5 * V0)) * (quadrupoleTerm p (100⁻¹ : ℝ) 0 * quadrupoleTerm p (100⁻¹ : ℝ) 1 * P) / 4 ^ 7
      = 1 / (5 * V0) * (1 / (5 * V0)) * (quadrupoleTerm p (100⁻¹ : ℝ) 0 * quadrupoleTerm p (100⁻¹ : ℝ) 1 * P) / 3 ^ 7 := by
      linear_combination (1 / 2) * h
    generalize 1 / (5 * V0) * (1 / (5 * V0)) * (quadrupoleTerm p (100⁻¹ : ℝ) 0 * quadrupoleTerm p (100⁻¹ : ℝ) 1 * P) = z
      at hpos h2
    norm_num at h2
    linarith

/-! ## C17 -/

/-- C17: components with zero moles can be removed from the mixture.  `φ` lists the remaining
components in their order. -/
theorem C17_absent_components (pr : Fin n → PureRecord ℝ) (k : Fin n → Fin n → ℝ)
    (hm : ∀ i, 0 ≤ (pr i).model_record.m) (φ : Fin n' → Fin n) (hφ : StrictMono φ) (T V : ℝ)
    (w : Fin n → ℝ) (hw : ∀ i, (∀ j, φ j ≠ i) → w i = 0) :
    let p := fromRecords pr k
    let p' := fromRecords (fun i => pr (φ i)) (fun i j => k (φ i) (φ j))
    let s := StateHD.new T V w
    let s' := StateHD.new T V (fun i => w (φ i))
    hardSphere p s = hardSphere p' s' ∧ hardChain p s = hardChain p' s'
    ∧ dispersion p s = dispersion p' s' ∧ dipole p s = dipole p' s' ∧ quadrupole p s = quadrupole p' s'
    ∧ (∀ v, dipoleQuadrupole v p s = dipoleQuadrupole v p' s')
    ∧ (∀ a, p.assoc_comp = [a] → (∀ j, φ j ≠ a) → association p s = .ok 0 ∧ p'.nassoc = 0)
    ∧ (∀ j, p.assoc_comp = [φ j] → p'.assoc_comp = [j] ∧ association p s = association p' s') := by
  intro p p' s s'
  have h : SubsetOf φ p' p := subsetOf_fromRecords pr k φ
  have hp : PolarOk p := polarOk_fromRecords pr k hm
  have hp' : PolarOk p' := polarOk_fromRecords _ _ (fun i => hm (φ i))
  have hmw := merge_comp_injective hφ.injective w hw
  refine ⟨?_, ?_, ?_, ?_, ?_, ?_, ?_, ?_⟩
  · simp only [s', h.hardSphere, hmw, s]
  · simp only [s', h.hardChain, hmw, s]
  · simp only [s', h.dispersion, hmw, s]
  · simp only [s', h.dipole hp hp', hmw, s]
  · simp only [s', h.quadrupole hp hp' (Or.inl hφ.monotone), hmw, s]
  · intro v
    simp only [s', h.dipoleQuadrupole hp hp', hmw, s]
  · intro a ha hna
    have h0 : s.moles a = 0 := hw a hna
    rw [association_eq p s a [] ha, h0, assocSingle_zero_moles]
    refine ⟨rfl, ?_⟩
    have : p'.assoc_comp = [] := nonzeroComp_comp_nil φ _ a ha hna
    simp [this]
  · intro j ha
    have ha' : p'.assoc_comp = [j] := nonzeroComp_comp φ _ j hφ.injective ha
    refine ⟨ha', ?_⟩
    rw [association_eq p' s' j [] ha', association_eq p s (φ j) [] ha]
    have e := stateStrength_merge pr k φ T V (fun i => w (φ i)) j j
    rw [hmw] at e
    change stateStrength p' s' j j = stateStrength p s (φ j) (φ j) at e
    rw [e]
    rfl

/-- C17 for the total residual energy with at most one associating component: removing component `i`
with zero moles changes nothing. -/
theorem C17_residual (la : LinAlg ℝ ℝ) (o : PcSaftOptions ℝ) (pr : Fin (n + 1) → PureRecord ℝ)
    (k : Fin (n + 1) → Fin (n + 1) → ℝ) (hm : ∀ i, 0 ≤ (pr i).model_record.m)
    (ha : (fromRecords pr k).nassoc ≤ 1) (i : Fin (n + 1)) (T V : ℝ) (w : Fin (n + 1) → ℝ)
    (hw : w i = 0) :
    (Eos.withOptions (fromRecords pr k) o).residualHelmholtz la (StateHD.new T V w)
      = (Eos.withOptions (fromRecords (fun j => pr (i.succAbove j))
          (fun j l => k (i.succAbove j) (i.succAbove l))) o).residualHelmholtz la
          (StateHD.new T V (fun j => w (i.succAbove j))) := by
  have hw' : ∀ l, (∀ j, i.succAbove j ≠ l) → w l = 0 := by
    intro l hl
    by_cases hli : l = i
    · rw [hli, hw]
    · obtain ⟨j, hj⟩ := Fin.exists_succAbove_eq hli
      exact absurd hj (hl j)
  obtain ⟨h1, h2, h3, h4, h5, h6, h7, h8⟩ :=
    C17_absent_components pr k hm i.succAbove (Fin.strictMono_succAbove i) T V w hw'
  have hass : (fromRecords (fun j => pr (i.succAbove j))
      (fun j l => k (i.succAbove j) (i.succAbove l))).nassoc ≤ 1 ∧
      assocEnergy (fromRecords pr k) (StateHD.new T V w)
      = assocEnergy (fromRecords (fun j => pr (i.succAbove j))
          (fun j l => k (i.succAbove j) (i.succAbove l))) (StateHD.new T V (fun j => w (i.succAbove j))) := by
    match hl : (fromRecords pr k).assoc_comp, ha with
    | [], _ =>
      have hl' : (fromRecords (fun j => pr (i.succAbove j))
          (fun j l => k (i.succAbove j) (i.succAbove l))).assoc_comp = [] := by
        rw [List.eq_nil_iff_forall_not_mem]
        intro j hj
        have hj' := (mem_nonzeroComp _ j).mp hj
        have := (mem_nonzeroComp (fromRecords pr k).kappa_ab (i.succAbove j)).mpr hj'
        change i.succAbove j ∈ (fromRecords pr k).assoc_comp at this
        simp [hl] at this
      exact ⟨(nassoc_of hl').trans_le zero_le_one, by simp only [assocEnergy, hl, hl']⟩
    | [a], _ =>
      by_cases hai : ∀ j, i.succAbove j ≠ a
      · obtain ⟨e1, e2⟩ := h7 a hl hai
        have hl' := List.length_eq_zero_iff.mp e2
        refine ⟨by rw [e2]; exact zero_le_one, ?_⟩
        rw [association_eq _ _ a [] hl] at e1
        simp only [assocEnergy, hl, hl']
        exact Except.ok.inj e1
      · push Not at hai
        obtain ⟨j, rfl⟩ := hai
        obtain ⟨hl', e⟩ := h8 j hl
        refine ⟨(nassoc_of hl').le, ?_⟩
        rw [association_eq _ _ _ [] hl, association_eq _ _ j [] hl'] at e
        simp only [assocEnergy, hl, hl']
        exact Except.ok.inj e
    | a :: b :: l, h =>
      rw [nassoc_of hl] at h
      simp at h
  rw [residual_of_nassoc_le_one la _ o _ ha, residual_of_nassoc_le_one la _ o _ hass.1]
  simp only [residualSum]
  rw [h1, h2, h3, h4, h5, h6, hass.2]

/-! ## C18 -/

/-- C18: a mixture in which component `j` has the record of component `φ j` of a smaller mixture has
the energy of the smaller mixture in which the moles of equal components are added up. -/
theorem C18_pseudo_components (pr : Fin n → PureRecord ℝ) (k : Fin n → Fin n → ℝ)
    (hm : ∀ i, 0 ≤ (pr i).model_record.m) (φ : Fin n' → Fin n) (T V : ℝ) (w : Fin n' → ℝ) :
    let p := fromRecords pr k
    let p' := fromRecords (fun i => pr (φ i)) (fun i j => k (φ i) (φ j))
    let s := StateHD.new T V (fun i => ∑ j, if φ j = i then w j else 0)
    let s' := StateHD.new T V w
    hardSphere p' s' = hardSphere p s ∧ hardChain p' s' = hardChain p s
    ∧ dispersion p' s' = dispersion p s ∧ dipole p' s' = dipole p s
    ∧ (∀ v, dipoleQuadrupole v p' s' = dipoleQuadrupole v p s)
    ∧ (Monotone φ → quadrupole p' s' = quadrupole p s) := by
  intro p p' s s'
  have h : SubsetOf φ p' p := subsetOf_fromRecords pr k φ
  have hp : PolarOk p := polarOk_fromRecords pr k hm
  have hp' : PolarOk p' := polarOk_fromRecords _ _ (fun i => hm (φ i))
  exact ⟨h.hardSphere T V w, h.hardChain T V w, h.dispersion T V w, h.dipole hp hp' T V w,
    fun v => h.dipoleQuadrupole hp hp' v T V w, fun hφ => h.quadrupole hp hp' (Or.inl hφ) T V w⟩

/-- C18 in the form of the statement: `x` of the moles of component `i` are moved to a new component
with the same record. -/
theorem C18_split_one_component (pr : Fin n → PureRecord ℝ) (k : Fin n → Fin n → ℝ)
    (hm : ∀ i, 0 ≤ (pr i).model_record.m) (i : Fin n) (x T V : ℝ) (w : Fin n → ℝ) :
    let sel : Fin (n + 1) → Fin n := Fin.cons i id
    let p := fromRecords pr k
    let p' := fromRecords (fun j => pr (sel j)) (fun j l => k (sel j) (sel l))
    let s := StateHD.new T V w
    let s' := StateHD.new T V (Fin.cons x (Function.update w i (w i - x)) : Fin (n + 1) → ℝ)
    hardSphere p' s' = hardSphere p s ∧ hardChain p' s' = hardChain p s
    ∧ dispersion p' s' = dispersion p s ∧ dipole p' s' = dipole p s
    ∧ (∀ v, dipoleQuadrupole v p' s' = dipoleQuadrupole v p s) := by
  intro sel p p' s s'
  obtain ⟨h1, h2, h3, h4, h5, -⟩ := C18_pseudo_components pr k hm sel T V
    (Fin.cons x (Function.update w i (w i - x)) : Fin (n + 1) → ℝ)
  have e : (fun l => ∑ j, if sel j = l
      then (Fin.cons x (Function.update w i (w i - x)) : Fin (n + 1) → ℝ) j else 0) = w := by
    funext l
    rw [Fin.sum_univ_succ]
    simp only [sel, Fin.cons_zero, Fin.cons_succ, id]
    rw [Finset.sum_ite_eq' Finset.univ l]
    simp only [Finset.mem_univ, if_true]
    by_cases hl : i = l
    · subst hl
      simp
    · rw [if_neg hl, Function.update_of_ne (Ne.symm hl), zero_add]
  rw [e] at h1 h2 h3 h4 h5
  exact ⟨h1, h2, h3, h4, h5⟩

/-! ## C22 -/

/-- C22: at zero density of all components (in particular for the state used for virial coefficients)
every contribution is exactly zero, whatever the composition, the volume and the solver options. -/
theorem C22_zero_density (la : LinAlg ℝ ℝ) (pr : Fin n → PureRecord ℝ) (k : Fin n → Fin n → ℝ)
    (o : PcSaftOptions ℝ) (s : StateHD n ℝ) (hrho : ∀ i, s.partial_density i = 0)
    (hmoles : ∀ i, s.moles i = 0) :
    (∀ ct ∈ (Eos.withOptions (fromRecords pr k) o).contributions,
      ct.helmholtzEnergy la (fromRecords pr k) s = .ok 0)
    ∧ (Eos.withOptions (fromRecords pr k) o).residualHelmholtz la s = .ok 0 := by
  have h0 : (0.0 : ℝ) = 0 := by norm_num
  have hz : ∀ q : Fin 4, zeta (fromRecords pr k).m s.partial_density
      (hsDiameter (fromRecords pr k) s.temperature) q = 0 := by
    intro q
    rw [zeta_real]
    simp [hrho]
  have foldl_stay : ∀ (q : ℕ) (g : ℝ → Fin q → ℝ), (∀ i, g 0 i = 0) → Fin.foldl q g 0 = 0 := by
    intro q
    induction q with
    | zero => intro g _; simp
    | succ q ih =>
      intro g hg
      rw [Fin.foldl_succ, hg]
      exact ih _ (fun i => hg i.succ)
  have foldU_stay : ∀ (q : ℕ) (i : Fin q) (g : ℝ → Fin q → ℝ), (∀ j, g 0 j = 0) →
      foldUpper i g 0 = 0 := by
    intro q i g hg
    unfold foldUpper
    apply foldl_stay
    intro j
    split
    · exact hg j
    · rfl
  have hpade : ∀ a b V : ℝ, padeVolume (0 * a) (0 * b) V = 0 := by
    intro a b V
    simp [padeVolume]
  have hall : ∀ ct ∈ (Eos.withOptions (fromRecords pr k) o).contributions,
      ct.helmholtzEnergy la (fromRecords pr k) s = .ok 0 := by
    intro ct hct
    cases ct with
    | hardSphere =>
      simp only [Contribution.helmholtzEnergy, hardSphere_real, hz, hsForm]
      congr 1
      simp
    | hardChain =>
      simp only [Contribution.helmholtzEnergy, hardChain_real, hrho]
      congr 1
      simp
    | dispersion =>
      simp only [Contribution.helmholtzEnergy, dispersion_real, rho1mix_real, rho2mix_real, hrho, dispForm]
      congr 1
      simp
    | dipole =>
      simp only [Contribution.helmholtzEnergy, dipole]
      congr 1
      have e2 : ∀ eta, dipolePhi2 (fromRecords pr k) s.temperature s.partial_density eta = 0 := by
        intro eta
        unfold dipolePhi2
        simp only [hrho, c, ofF_real, h0]
        apply foldl_stay
        intro i
        simp only [zero_mul, zero_div, sub_zero]
        exact foldU_stay _ _ _ (fun _ => rfl)
      have e3 : ∀ eta, dipolePhi3 (fromRecords pr k) s.temperature s.partial_density eta = 0 := by
        intro eta
        unfold dipolePhi3
        simp only [hrho, c, ofF_real, h0]
        apply foldl_stay
        intro i
        simp only [zero_mul, zero_div, sub_zero]
        exact foldU_stay _ _ _ (fun j => foldU_stay _ _ _ (fun _ => rfl))
      rw [e2, e3, hpade]
    | quadrupole =>
      simp only [Contribution.helmholtzEnergy, quadrupole]
      congr 1
      have e2 : ∀ eta, quadrupolePhi2 (fromRecords pr k) s.temperature s.partial_density eta = 0 := by
        intro eta
        unfold quadrupolePhi2
        simp only [hrho, c, ofF_real, h0]
        apply foldl_stay
        intro i
        simp only [zero_mul, zero_div, sub_zero]
        exact foldU_stay _ _ _ (fun _ => rfl)
      have e3 : ∀ eta, quadrupolePhi3 (fromRecords pr k) s.temperature s.partial_density eta = 0 := by
        intro eta
        unfold quadrupolePhi3
        simp only [hrho, c, ofF_real, h0]
        apply foldl_stay
        intro i
        simp only [zero_mul, zero_div, add_zero]
        exact foldU_stay _ _ _ (fun j => foldU_stay _ _ _ (fun _ => rfl))
      rw [e2, e3, hpade]
    | dipoleQuadrupole v =>
      simp only [Contribution.helmholtzEnergy, dipoleQuadrupole]
      congr 1
      have e2 : ∀ eta, dipoleQuadrupolePhi2 v (fromRecords pr k) s.temperature s.partial_density eta = 0 := by
        intro eta
        unfold dipoleQuadrupolePhi2
        simp only [hrho, c, ofF_real, h0]
        apply foldl_stay
        intro i
        simp only [zero_mul, zero_div, sub_zero]
        exact foldl_stay _ _ (fun _ => rfl)
      have e3 : ∀ eta, dipoleQuadrupolePhi3 (fromRecords pr k) s.temperature s.partial_density eta = 0 := by
        intro eta
        unfold dipoleQuadrupolePhi3
        simp only [hrho, c, ofF_real, h0]
        apply foldl_stay
        intro i
        simp only [zero_mul, zero_div, add_zero]
        apply foldl_stay
        intro j
        simp only [foldl_id]
      rw [e2, e3, hpade]
    | association =>
      have hlen : (fromRecords pr k).assoc_comp.length = 1 := by
        have hct : Contribution.association ∈ buildContributions (fromRecords pr k) o := hct
        unfold buildContributions at hct
        generalize hc : (fromRecords pr k).nassoc = q at hct
        rcases q with _ | _ | q
        · simp at hct
        · exact hc
        · simp at hct
      obtain ⟨a, ha⟩ := List.length_eq_one_iff.mp hlen
      simp only [Contribution.helmholtzEnergy]
      rw [association_eq _ s a [] ha, hmoles, assocSingle_zero_moles]
    | crossAssociation it tol =>
      have hlt : F64.lt (DualNum.re (sumFin s.partial_density)) (f64EPSILON : ℝ) = true := by
        simp only [sumFin_real, hrho, re_real, lt_real, Finset.sum_const_zero, decide_eq_true_eq]
        norm_num [f64EPSILON]
      simp only [Contribution.helmholtzEnergy, crossAssociation, crossAssociationDensity, hlt, if_true, c,
        ofF_real, h0, zero_mul]
  refine ⟨hall, ?_⟩
  have loop : ∀ (g : ℝ → Contribution ℝ → Except Panic ℝ) (cs : List (Contribution ℝ)),
      (∀ ct ∈ cs, g 0 ct = .ok 0) → cs.foldlM g 0 = Except.ok 0 := by
    intro g cs
    induction cs with
    | nil => intro _; rfl
    | cons ct cs ih =>
      intro h
      rw [List.foldlM_cons, h ct (by simp)]
      exact ih (fun c hc => h c (by simp [hc]))
  unfold Eos.residualHelmholtz
  simp only [c, ofF_real, h0]
  refine loop _ _ (fun ct hct => ?_)
  have := hall ct hct
  have e : (Eos.withOptions (fromRecords pr k) o).parameters = fromRecords pr k := rfl
  simp only [e, this, add_zero]

/-! ## C48 -/

/-- C48: the two dipole-quadrupole variants agree if all diameters are equal. -/
theorem C48_dq_variants_agree (pr : Fin n → PureRecord ℝ) (k : Fin n → Fin n → ℝ)
    (hs : ∀ i, 0 < (pr i).model_record.sigma)
    (heq : ∀ i j, (pr i).model_record.sigma = (pr j).model_record.sigma) (s : StateHD n ℝ) :
    dipoleQuadrupole .DQ35 (fromRecords pr k) s = dipoleQuadrupole .DQ44 (fromRecords pr k) s := by
  have e : ∀ (t : ℝ) (i j : Fin n), muQTerm .DQ35 (fromRecords pr k) t i j
      = muQTerm .DQ44 (fromRecords pr k) t i j := by
    intro t i j
    simp only [muQTerm, c, ofF_real]
    have h1 : (fromRecords pr k).sigma i = (fromRecords pr k).sigma j := heq i j
    have h2 : (fromRecords pr k).sigma j ≠ 0 := (hs j).ne'
    rw [h1]
    field_simp
  have e2 : ∀ (T eta : ℝ) (rho : Fin n → ℝ), dipoleQuadrupolePhi2 .DQ35 (fromRecords pr k) T rho eta
      = dipoleQuadrupolePhi2 .DQ44 (fromRecords pr k) T rho eta := by
    intro T eta rho
    unfold dipoleQuadrupolePhi2
    simp only [e]
  unfold dipoleQuadrupole
  simp only [e2]

/-! ## Non-vacuity -/

/-- C15 and C16 for three components, two of them quadrupolar with the same diameter -/
noncomputable def threeComponents (i : Fin 3) : PureRecord ℝ :=
  ⟨⟨none, ""⟩, 44, ⟨2, 3, 100, some 1, if i = 0 then none else some 4, none, none, none, none, none, none,
    none⟩, none⟩

example (T V : ℝ) (w : Fin 3 → ℝ) (σ : Equiv.Perm (Fin 3)) :
    quadrupole (fromRecords (fun i => threeComponents (σ i)) (fun _ _ => 0))
      (StateHD.new T V (fun i => w (σ i)))
    = quadrupole (fromRecords threeComponents (fun _ _ => 0)) (StateHD.new T V w) :=
  C16_quadrupole_permutation_partial threeComponents (fun _ _ => 0) (fun _ => by norm_num [threeComponents]) σ
    (fun _ _ _ _ => rfl) T V w

/-- in this mixture the quadrupole list is not empty, so the statement is not about zero -/
example : (fromRecords threeComponents (fun _ _ => 0)).nquadpole ≠ 0 := by
  have h : (1 : Fin 3) ∈ (fromRecords threeComponents (fun _ _ => 0)).quadpole_comp := by
    refine (mem_nonzeroComp _ 1).mpr ?_
    norm_num [fromRecords, threeComponents, jouleKelvinKB]
  exact (List.length_pos_of_mem h).ne'

example (T V : ℝ) (w : Fin 3 → ℝ) (h0 : w 2 = 0) (la : LinAlg ℝ ℝ) :
    (Eos.new (fromRecords threeComponents (fun _ _ => 0))).residualHelmholtz la (StateHD.new T V w)
    = (Eos.new (fromRecords (fun j : Fin 2 => threeComponents ((2 : Fin 3).succAbove j))
        (fun _ _ => 0))).residualHelmholtz la (StateHD.new T V (fun j => w ((2 : Fin 3).succAbove j))) := by
  refine C17_residual la PcSaftOptions.default threeComponents (fun _ _ => 0)
    (fun _ => by norm_num [threeComponents]) ?_ 2 T V w h0
  have : (fromRecords threeComponents (fun _ _ => 0)).assoc_comp = [] := by
    rw [List.eq_nil_iff_forall_not_mem]
    intro i hi
    have := (mem_nonzeroComp (fromRecords threeComponents (fun _ _ => 0)).kappa_ab i).mp hi
    norm_num [fromRecords, threeComponents] at this
  rw [nassoc_of this]
  exact zero_le_one

example (T : ℝ) (la : LinAlg ℝ ℝ) (o : PcSaftOptions ℝ) :
    (Eos.withOptions (fromRecords threeComponents (fun _ _ => 0)) o).residualHelmholtz la
      (StateHD.newVirial T 0 (fun _ => 1 / 3)) = .ok 0 :=
  (C22_zero_density la threeComponents _ o _ (fun _ => by simp [StateHD.newVirial])
    (fun _ => by simp [StateHD.newVirial])).2

end PcSaft.Props
