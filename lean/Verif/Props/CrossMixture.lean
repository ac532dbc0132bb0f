import Verif.Lemmas.NewtonPerm
import Verif.Props.Mixture
import Verif.Props.CrossResidual

/-!
# Properties C15, C17 and C18 with several associating components
-/

namespace PcSaft.Props
open PcSaft Spec
variable {n n' : ℕ}

/-- the cross-association contribution evaluated with real numbers -/
theorem crossAssociation_real (p : PcSaftParameters n ℝ) (max_iter : ℕ) (tol : ℝ)
    (solveF solveD : Solver p.assoc_comp.length ℝ) (s : StateHD n ℝ) :
    crossAssociation p max_iter tol 0 solveF solveD s =
      if ∑ i, s.partial_density i < f64EPSILON then .ok 0
      else match stateLoop p max_iter tol solveF s with
        | .error _ => .error .unwrapErr
        | .ok x => .ok (specEnergy (assocNa p) (assocNb p) (assocRho p s.partial_density) x * s.volume) := by
  have h0 : (0.0 : ℝ) = 0 := by norm_num
  unfold crossAssociation crossAssociationDensity
  simp only [lt_real, re_real, sumFin_real, decide_eq_true_eq, Option.getD_none, newtonDual]
  by_cases hcut : ∑ i, s.partial_density i < f64EPSILON
  · simp only [hcut, if_true, c, ofF_real, h0, zero_mul]
  · simp only [hcut, if_false]
    have hl : newtonLoop (newtonStep solveF (fun i j => associationStrength p s.temperature
        (fun i => hsDiameter p s.temperature i * c (0.5 : ℝ))
        (assocN2 p.m s.partial_density fun i => hsDiameter p s.temperature i * c (0.5 : ℝ))
        (DualNum.recip ((-packingFraction p.m s.partial_density fun i => hsDiameter p s.temperature i * c (0.5 : ℝ))
          + c (1.0 : ℝ))) (c (1.0 : ℝ)) (p.assoc_comp.get i) (p.assoc_comp.get j))
        (fun i => p.na (p.assoc_comp.get i)) (fun i => p.nb (p.assoc_comp.get i))
        (fun i => s.partial_density (p.assoc_comp.get i)) tol) max_iter (fun _ => (0.2 : ℝ))
        = stateLoop p max_iter tol solveF s := rfl
    rw [hl]
    cases stateLoop p max_iter tol solveF s with
    | error e => rfl
    | ok x =>
      have := energyOf_real p s.partial_density x
      simp only [energyOf, sumFin_real] at this
      simp only
      rw [← this]
      rfl

/-- everything but association -/
noncomputable def nonAssocSum (v : DQVariants) (p : PcSaftParameters n ℝ) (s : StateHD n ℝ) : ℝ :=
  hardSphere p s + hardChain p s + dispersion p s + dipole p s + quadrupole p s
    + dipoleQuadrupole v p s

/-- the residual energy with several associating components -/
theorem residual_of_two_le_nassoc (la : LinAlg ℝ ℝ) (p : PcSaftParameters n ℝ) (o : PcSaftOptions ℝ)
    (s : StateHD n ℝ) (h : 2 ≤ p.nassoc) :
    (Eos.withOptions p o).residualHelmholtz la s =
      (crossAssociation p o.max_iter_cross_assoc o.tol_cross_assoc la.nderiv (la.solveF _) (la.solveD _) s).map
        (fun a => nonAssocSum o.dq_variant p s + a) := by
  have h0 : (0.0 : ℝ) = 0 := by norm_num
  have hd : p.ndipole = 0 ∨ 0 < p.ndipole := Nat.eq_zero_or_pos _
  have hq : p.nquadpole = 0 ∨ 0 < p.nquadpole := Nat.eq_zero_or_pos _
  unfold nonAssocSum
  obtain ⟨m, hm⟩ := Nat.exists_eq_add_of_le' h
  generalize hc : crossAssociation p o.max_iter_cross_assoc o.tol_cross_assoc la.nderiv (la.solveF _) (la.solveD _) s
    = out
  rcases hd with hd | hd <;> rcases hq with hq | hq <;> cases out <;>
    simp [Eos.residualHelmholtz, Eos.withOptions, buildContributions, hd, hq, hm, dipole_eq_zero,
      quadrupole_eq_zero, dipoleQuadrupole_eq_zero, Bind.bind, Except.bind, Contribution.helmholtzEnergy, h0, pure,
      Except.pure, hc, Except.map]

/-- `φ` maps the associating components of the selection one to one to those of the mixture. -/
structure AssocBijective (φ : Fin n' → Fin n) (p : PcSaftParameters n ℝ) : Prop where
  injective : ∀ i j, p.kappa_ab (φ i) ≠ 0 → φ i = φ j → i = j
  surjective : ∀ a, p.kappa_ab a ≠ 0 → ∃ i, φ i = a

theorem assoc_equiv (pr : Fin n → PureRecord ℝ) (k : Fin n → Fin n → ℝ) (φ : Fin n' → Fin n)
    (h : AssocBijective φ (fromRecords pr k)) :
    ∃ e : Fin ((fromRecords pr k).subset φ).assoc_comp.length ≃ Fin (fromRecords pr k).assoc_comp.length,
      ∀ i, (fromRecords pr k).assoc_comp.get (e i) = φ (((fromRecords pr k).subset φ).assoc_comp.get i) := by
  have hmem : ∀ i, i ∈ ((fromRecords pr k).subset φ).assoc_comp ↔ (fromRecords pr k).kappa_ab (φ i) ≠ 0 :=
    fun i => mem_nonzeroComp ((fromRecords pr k).subset φ).kappa_ab i
  refine exists_listEquiv (nonzeroComp_sorted _).nodup (nonzeroComp_sorted _).nodup φ (fun i hi => ?_)
    (fun i hi j _ => h.injective i j ((hmem i).1 hi)) (fun a ha => ?_)
  · exact (mem_assoc_iff pr k (φ i)).2 ((hmem i).1 hi)
  · have ha' := (mem_assoc_iff pr k a).1 ha
    obtain ⟨i, rfl⟩ := h.surjective a ha'
    exact ⟨i, (hmem i).2 ha', rfl⟩

/-- The cross-association contribution of a selection of components that contains each associating component
exactly once, in any order. -/
theorem crossAssociation_merge (pr : Fin n → PureRecord ℝ) (k : Fin n → Fin n → ℝ) (φ : Fin n' → Fin n)
    (h : AssocBijective φ (fromRecords pr k)) (max_iter : ℕ) (tol : ℝ)
    {solve : (k : ℕ) → Solver k ℝ} (hs : ∀ k, ExactSolver (solve k))
    (solveD : (k : ℕ) → Solver k ℝ) (T V : ℝ) (w : Fin n' → ℝ) :
    crossAssociation ((fromRecords pr k).subset φ) max_iter tol 0 (solve _) (solveD _) (StateHD.new T V w)
      = crossAssociation (fromRecords pr k) max_iter tol 0 (solve _) (solveD _) (StateHD.new T V (merge φ w)) := by
  have key := assoc_equiv pr k φ h
  have hst := stateStrength_merge pr k φ T V w
  have hmem : ∀ i, ((fromRecords pr k).subset φ).kappa_ab (((fromRecords pr k).subset φ).assoc_comp.get i) ≠ 0 :=
    fun i => (mem_nonzeroComp ((fromRecords pr k).subset φ).kappa_ab _).1 (List.get_mem _ _)
  have hκ : ∀ i, ((fromRecords pr k).subset φ).kappa_ab i = (fromRecords pr k).kappa_ab (φ i) := fun _ => rfl
  have hN : ∀ i, ((fromRecords pr k).subset φ).na i = (fromRecords pr k).na (φ i)
    ∧ ((fromRecords pr k).subset φ).nb i = (fromRecords pr k).nb (φ i) := fun _ => ⟨rfl, rfl⟩
  generalize (fromRecords pr k).subset φ = p' at key hst hmem hκ hN ⊢
  generalize fromRecords pr k = p at key hst hκ hN h ⊢
  obtain ⟨e, he⟩ := key
  have hrho : ∀ i, (StateHD.new T V w).partial_density (p'.assoc_comp.get i)
      = (StateHD.new T V (merge φ w)).partial_density (p.assoc_comp.get (e i)) := by
    intro i
    rw [StateHD.new_density, StateHD.new_density, he]
    refine congrArg (· / V) ?_
    unfold merge
    rw [Finset.sum_eq_single (p'.assoc_comp.get i)]
    · rw [if_pos rfl]
    · intro j _ hj
      exact if_neg fun hji => hj (h.injective _ _ (hκ _ ▸ hmem i) hji.symm).symm
    · simp
  have hdel : ∀ i j, stateStrength p' (StateHD.new T V w) (p'.assoc_comp.get i) (p'.assoc_comp.get j)
      = stateStrength p (StateHD.new T V (merge φ w)) (p.assoc_comp.get (e i)) (p.assoc_comp.get (e j)) := by
    intro i j
    rw [he, he]
    exact hst _ _
  have hna : ∀ i, assocNa p' i = assocNa p (e i) := fun i => by unfold assocNa; rw [he]; exact (hN _).1
  have hnb : ∀ i, assocNb p' i = assocNb p (e i) := fun i => by unfold assocNb; rw [he]; exact (hN _).2
  have hloop : stateLoop p' max_iter tol (solve _) (StateHD.new T V w)
      = (stateLoop p max_iter tol (solve _) (StateHD.new T V (merge φ w))).map (fun x s => x (siteEquiv e s)) := by
    unfold stateLoop
    rw [← newtonLoop_perm e _ _ _ _ (hs _) (hs _)]
    have e1 := funext fun i => funext (hdel i)
    have e2 := funext hna
    have e3 := funext hnb
    have e4 : assocRho p' (StateHD.new T V w).partial_density
        = fun i => assocRho p (StateHD.new T V (merge φ w)).partial_density (e i) := funext hrho
    rw [e1, e2, e3, e4]
  have hcut : ∑ i, (StateHD.new T V (merge φ w)).partial_density i = ∑ i, (StateHD.new T V w).partial_density i := by
    rw [new_merge_density, sum_merge_one]
  rw [crossAssociation_real, crossAssociation_real, hcut, hloop]
  by_cases hlt : ∑ i, (StateHD.new T V w).partial_density i < f64EPSILON
  · simp [hlt]
  · simp only [hlt, if_false]
    cases stateLoop p max_iter tol (solve _) (StateHD.new T V (merge φ w)) with
    | error _ => rfl
    | ok x =>
      simp only [Except.map, StateHD.new_volume]
      congr 2
      unfold specEnergy
      rw [← Equiv.sum_comp e]
      refine Finset.sum_congr rfl fun i _ => ?_
      rw [hna, hnb]
      have := hrho i
      simp only [assocRho, this]
      rfl

/-- The whole residual energy of a selection that contains each associating component exactly once. -/
theorem residual_merge (la : LinAlg ℝ ℝ) (h0 : la.nderiv = 0) (hs : ∀ k, ExactSolver (la.solveF k))
    (o : PcSaftOptions ℝ) (pr : Fin n → PureRecord ℝ) (k : Fin n → Fin n → ℝ)
    (hm : ∀ i, 0 ≤ (pr i).model_record.m) (φ : Fin n' → Fin n) (h : AssocBijective φ (fromRecords pr k))
    (hq : Monotone φ ∨ ∀ i j, (fromRecords pr k).q2 i ≠ 0 → (fromRecords pr k).q2 j ≠ 0 →
      (pr i).model_record.sigma = (pr j).model_record.sigma) (T V : ℝ) (w : Fin n' → ℝ) :
    (Eos.withOptions (fromRecords (fun i => pr (φ i)) (fun i j => k (φ i) (φ j))) o).residualHelmholtz la
        (StateHD.new T V w)
      = (Eos.withOptions (fromRecords pr k) o).residualHelmholtz la (StateHD.new T V (merge φ w)) := by
  obtain ⟨h1, h2, h3, h4, h5, -⟩ := C18_pseudo_components pr k hm φ T V w
  have h6 := (subsetOf_fromRecords pr k φ).quadrupole (polarOk_fromRecords pr k hm)
    (polarOk_fromRecords _ (fun i j => k (φ i) (φ j)) (fun i => hm (φ i))) hq T V w
  obtain ⟨e, he⟩ := assoc_equiv pr k φ h
  have hlen : ((fromRecords pr k).subset φ).nassoc = (fromRecords pr k).nassoc := by
    have := Fintype.card_congr e
    simpa only [Fintype.card_fin] using this
  change (Eos.withOptions ((fromRecords pr k).subset φ) o).residualHelmholtz la _ = _
  have hcross := crossAssociation_merge pr k φ h o.max_iter_cross_assoc o.tol_cross_assoc hs la.solveD T V w
  have hst := stateStrength_merge pr k φ T V w
  change hardSphere ((fromRecords pr k).subset φ) _ = hardSphere _ (StateHD.new T V (merge φ w)) at h1
  change hardChain ((fromRecords pr k).subset φ) _ = hardChain _ (StateHD.new T V (merge φ w)) at h2
  change dispersion ((fromRecords pr k).subset φ) _ = dispersion _ (StateHD.new T V (merge φ w)) at h3
  change dipole ((fromRecords pr k).subset φ) _ = dipole _ (StateHD.new T V (merge φ w)) at h4
  change ∀ v, dipoleQuadrupole v ((fromRecords pr k).subset φ) _
    = dipoleQuadrupole v _ (StateHD.new T V (merge φ w)) at h5
  by_cases ha : (fromRecords pr k).nassoc ≤ 1
  · rw [residual_of_nassoc_le_one la _ o _ ha, residual_of_nassoc_le_one la _ o _ (hlen.trans_le ha)]
    simp only [residualSum]
    rw [h1, h2, h3, h4, h5, h6]
    congr 2
    match hl : (fromRecords pr k).assoc_comp, hl' : ((fromRecords pr k).subset φ).assoc_comp with
    | [], [] => simp only [assocEnergy, hl, hl']
    | [a], [j] =>
      have hφ : φ j = a := by
        have hj : j ∈ ((fromRecords pr k).subset φ).assoc_comp := by rw [hl']; simp
        have hj' := (mem_nonzeroComp ((fromRecords pr k).subset φ).kappa_ab j).1 hj
        have := (mem_assoc_iff pr k (φ j)).2 hj'
        rw [hl] at this
        simpa using this
      subst hφ
      have hka : (fromRecords pr k).kappa_ab (φ j) ≠ 0 := (mem_assoc_iff pr k _).1 (by rw [hl]; simp)
      have hw : merge φ w (φ j) = w j := by
        unfold merge
        rw [Finset.sum_eq_single j]
        · rw [if_pos rfl]
        · intro i _ hi
          exact if_neg fun hij => hi (h.injective _ _ hka hij.symm).symm
        · simp
      simp only [assocEnergy, hl, hl', hst, StateHD.new_density, StateHD.new_moles, hw]
      rfl
    | [], _ :: _ => rw [nassoc_of hl, nassoc_of hl'] at hlen; simp at hlen
    | _ :: _, [] => rw [nassoc_of hl, nassoc_of hl'] at hlen; simp at hlen
    | _ :: _ :: _, _ => rw [nassoc_of hl] at ha; simp at ha
    | [_], _ :: _ :: _ => rw [nassoc_of hl, nassoc_of hl'] at hlen; simp at hlen
  · have ha2 : 2 ≤ (fromRecords pr k).nassoc := by omega
    rw [residual_of_two_le_nassoc la _ o _ ha2, residual_of_two_le_nassoc la _ o _ (ha2.trans_eq hlen.symm), h0,
      hcross]
    simp only [nonAssocSum]
    rw [h1, h2, h3, h4, h5, h6]

/-- C15 for the whole residual energy with any number of associating components, given a linear solver that is
exact.  Quadrupolar components must have equal diameters, see C16. -/
theorem C15_residual_cross (la : LinAlg ℝ ℝ) (h0 : la.nderiv = 0) (hs : ∀ k, ExactSolver (la.solveF k))
    (o : PcSaftOptions ℝ) (pr : Fin n → PureRecord ℝ) (k : Fin n → Fin n → ℝ)
    (hm : ∀ i, 0 ≤ (pr i).model_record.m) (σ : Equiv.Perm (Fin n))
    (hq : ∀ i j, (fromRecords pr k).q2 i ≠ 0 → (fromRecords pr k).q2 j ≠ 0 →
      (pr i).model_record.sigma = (pr j).model_record.sigma) (T V : ℝ) (w : Fin n → ℝ) :
    (Eos.withOptions (fromRecords (fun i => pr (σ i)) (fun i j => k (σ i) (σ j))) o).residualHelmholtz la
        (StateHD.new T V (fun i => w (σ i)))
      = (Eos.withOptions (fromRecords pr k) o).residualHelmholtz la (StateHD.new T V w) := by
  rw [residual_merge la h0 hs o pr k hm σ ⟨fun i j _ hij => σ.injective hij, fun a _ => σ.surjective a⟩ (Or.inr hq),
    merge_comp_equiv]

/-- C17 for the whole residual energy with any number of associating components: absent components that do not
associate can be removed. -/
theorem C17_residual_cross (la : LinAlg ℝ ℝ) (h0 : la.nderiv = 0) (hs : ∀ k, ExactSolver (la.solveF k))
    (o : PcSaftOptions ℝ) (pr : Fin n → PureRecord ℝ) (k : Fin n → Fin n → ℝ)
    (hm : ∀ i, 0 ≤ (pr i).model_record.m) (φ : Fin n' → Fin n) (hφ : StrictMono φ) (T V : ℝ)
    (w : Fin n → ℝ) (hw : ∀ i, (∀ j, φ j ≠ i) → w i = 0 ∧ (fromRecords pr k).kappa_ab i = 0) :
    (Eos.withOptions (fromRecords pr k) o).residualHelmholtz la (StateHD.new T V w)
      = (Eos.withOptions (fromRecords (fun i => pr (φ i)) (fun i j => k (φ i) (φ j))) o).residualHelmholtz la
        (StateHD.new T V (fun i => w (φ i))) := by
  rw [residual_merge la h0 hs o pr k hm φ ⟨fun i j _ hij => hφ.injective hij, fun a ha => ?_⟩ (Or.inl hφ.monotone),
    merge_comp_injective hφ.injective w (fun i hi => (hw i hi).1)]
  by_contra hne
  push Not at hne
  exact ha (hw a hne).2

/-- C18 for the whole residual energy with any number of associating components: components that do not associate
can be split. -/
theorem C18_residual_cross (la : LinAlg ℝ ℝ) (h0 : la.nderiv = 0) (hs : ∀ k, ExactSolver (la.solveF k))
    (o : PcSaftOptions ℝ) (pr : Fin n → PureRecord ℝ) (k : Fin n → Fin n → ℝ)
    (hm : ∀ i, 0 ≤ (pr i).model_record.m) (φ : Fin n' → Fin n) (hφ : Monotone φ) (hsur : Function.Surjective φ)
    (hsplit : ∀ i j, i ≠ j → φ i = φ j → (fromRecords pr k).kappa_ab (φ i) = 0) (T V : ℝ) (w : Fin n' → ℝ) :
    (Eos.withOptions (fromRecords (fun i => pr (φ i)) (fun i j => k (φ i) (φ j))) o).residualHelmholtz la
        (StateHD.new T V w)
      = (Eos.withOptions (fromRecords pr k) o).residualHelmholtz la
        (StateHD.new T V (fun i => ∑ j, if φ j = i then w j else 0)) :=
  residual_merge la h0 hs o pr k hm φ ⟨fun i j hi hij => by
    by_contra hne
    exact hi (hsplit i j hne hij), fun a _ => hsur a⟩ (Or.inl hφ) T V w

/-! ## Examples: two associating components and an inert one -/

/-- the linear algebra of the examples -/
noncomputable def exactLinAlg : LinAlg ℝ ℝ := ⟨fun _ => exactSolver, fun _ => exactSolver, 0⟩

/-- two associating components and an inert one -/
noncomputable def brineRecords (i : Fin 3) : PureRecord ℝ :=
  if i = 2 then ⟨⟨none, ""⟩, 16, ⟨1, 3.7, 150, none, none, none, none, none, none, none, none, none⟩, none⟩
  else ⟨⟨none, ""⟩, 18, ⟨1 + (i : ℕ), 3, 200, none, none, some 0.03, some 2500, some 1, some 1, none, none, none⟩, none⟩

theorem brineRecords_m (i : Fin 3) : 0 ≤ (brineRecords i).model_record.m := by
  unfold brineRecords
  split_ifs
  · exact zero_le_one
  · change (0 : ℝ) ≤ 1 + ((i : ℕ) : ℝ)
    positivity

theorem brineRecords_kappa (k : Fin 3 → Fin 3 → ℝ) (i : Fin 3) :
    (fromRecords brineRecords k).kappa_ab i = if i = 2 then 0 else 0.03 := by
  change ((brineRecords i).model_record.kappa_ab.getD 0.0 : ℝ) = _
  unfold brineRecords
  split_ifs
  · norm_num
  · rfl

theorem brineRecords_q2 (k : Fin 3 → Fin 3 → ℝ) (i : Fin 3) : (fromRecords brineRecords k).q2 i = 0 := by
  have hq : (fromRecords brineRecords k).q i = 0 := by
    change ((brineRecords i).model_record.q.getD 0.0 : ℝ) = _
    unfold brineRecords
    split_ifs <;> norm_num
  change (fromRecords brineRecords k).q i * (fromRecords brineRecords k).q i / _ * _ * _ = (0 : ℝ)
  rw [hq]
  simp

/-- renumbering -/
example (o : PcSaftOptions ℝ) (k : Fin 3 → Fin 3 → ℝ) (T V : ℝ) (w : Fin 3 → ℝ) :
    (Eos.withOptions (fromRecords (fun i => brineRecords (Equiv.swap 0 2 i))
        (fun i j => k (Equiv.swap 0 2 i) (Equiv.swap 0 2 j))) o).residualHelmholtz exactLinAlg
        (StateHD.new T V (fun i => w (Equiv.swap 0 2 i)))
      = (Eos.withOptions (fromRecords brineRecords k) o).residualHelmholtz exactLinAlg (StateHD.new T V w) :=
  C15_residual_cross exactLinAlg rfl (fun _ => exactSolver_exact) o brineRecords k brineRecords_m _
    (fun i _ hi => absurd (brineRecords_q2 k i) hi) T V w

/-- without the absent inert component -/
example (o : PcSaftOptions ℝ) (k : Fin 3 → Fin 3 → ℝ) (T V : ℝ) :
    (Eos.withOptions (fromRecords brineRecords k) o).residualHelmholtz exactLinAlg (StateHD.new T V ![3, 4, 0])
      = (Eos.withOptions (fromRecords (fun i : Fin 2 => brineRecords i.castSucc)
        (fun i j => k i.castSucc j.castSucc)) o).residualHelmholtz exactLinAlg
        (StateHD.new T V (fun i => ![3, 4, 0] i.castSucc)) :=
  C17_residual_cross exactLinAlg rfl (fun _ => exactSolver_exact) o brineRecords k brineRecords_m Fin.castSucc
    (Fin.strictMono_castSucc) T V ![3, 4, 0] (fun i hi => by
      have : i = 2 := by
        fin_cases i
        · exact absurd rfl (hi 0)
        · exact absurd rfl (hi 1)
        · rfl
      subst this
      exact ⟨rfl, by rw [brineRecords_kappa, if_pos rfl]⟩)

/-- the inert component split in two -/
example (o : PcSaftOptions ℝ) (k : Fin 3 → Fin 3 → ℝ) (T V : ℝ) (w : Fin 4 → ℝ) :
    (Eos.withOptions (fromRecords (fun i : Fin 4 => brineRecords (![0, 1, 2, 2] i))
        (fun i j => k (![0, 1, 2, 2] i) (![0, 1, 2, 2] j))) o).residualHelmholtz exactLinAlg (StateHD.new T V w)
      = (Eos.withOptions (fromRecords brineRecords k) o).residualHelmholtz exactLinAlg
        (StateHD.new T V (fun i => ∑ j, if (![0, 1, 2, 2] : Fin 4 → Fin 3) j = i then w j else 0)) :=
  C18_residual_cross exactLinAlg rfl (fun _ => exactSolver_exact) o brineRecords k brineRecords_m ![0, 1, 2, 2]
    (by decide) (by decide) (fun i j hij h => by
      rw [brineRecords_kappa, if_pos]
      revert h hij
      revert i j
      decide) T V w

end PcSaft.Props
