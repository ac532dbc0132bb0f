import Verif.Props.Parameters
import Verif.Model.DftPure
import Mathlib.Data.Fintype.Card

/-!
# Properties C10, C11, C12, C48, C56, C57: construction of equations of state and functionals
-/

namespace PcSaft.Props
open PcSaft

section
variable {n : ℕ} (pr : Fin n → PureRecord ℝ) (k : Fin n → Fin n → ℝ)

/-- records with non-zero m, sigma and epsilon_k -/
def NonzeroRecords (pr : Fin n → PureRecord ℝ) : Prop :=
  (∀ i, (pr i).model_record.m ≠ 0) ∧ (∀ i, (pr i).model_record.sigma ≠ 0)
    ∧ ∀ i, (pr i).model_record.epsilon_k ≠ 0

/-! ## C10 -/

/-- C10: Joback exactly if every component has an ideal gas record (in component order), QSPR, or for
functionals default records, otherwise. -/
theorem C10_ideal_gas_selection (o : PcSaftOptions ℝ) (v : FMTVersion) :
    let p := fromRecords pr k
    (∀ recs, (Eos.withOptions p o).ideal_gas = .joback recs
      ↔ ∀ i, (pr i).ideal_gas_record = some (recs i))
    ∧ ((Eos.withOptions p o).ideal_gas = .qspr ↔ ∃ i, (pr i).ideal_gas_record = none)
    ∧ (∀ recs, (Functional.withOptions p v o).joback = .joback recs
      ↔ ∀ i, (pr i).ideal_gas_record = some (recs i))
    ∧ ((Functional.withOptions p v o).joback = .default n
      ↔ ∃ i, (pr i).ideal_gas_record = none) := by
  intro p
  have hj : p.joback_records = collectOption (fun i => (pr i).ideal_gas_record) := rfl
  have hnone : collectOption (fun i => (pr i).ideal_gas_record) = none
      ↔ ∃ i, (pr i).ideal_gas_record = none := by
    rw [← Option.not_isSome_iff_eq_none, collectOption_isSome]
    push Not
    simp
  simp only [Eos.withOptions, Functional.withOptions, hj]
  cases hc : collectOption (fun i => (pr i).ideal_gas_record) with
  | none =>
    have h1 := hnone.mp hc
    have h2 : ∀ recs : Fin n → JobackRecord ℝ, ¬ ∀ i, (pr i).ideal_gas_record = some (recs i) := by
      intro recs h
      obtain ⟨i, hi⟩ := h1
      rw [h i] at hi
      exact Option.some_ne_none _ hi
    refine ⟨fun recs => ⟨fun h => by simp at h, fun h => absurd h (h2 recs)⟩, ⟨fun _ => h1, fun _ => rfl⟩,
      fun recs => ⟨fun h => by simp at h, fun h => absurd h (h2 recs)⟩, ⟨fun _ => h1, fun _ => rfl⟩⟩
  | some w =>
    have hw := (collectOption_get _ _).mp hc
    have h1 : ¬ ∃ i, (pr i).ideal_gas_record = none := by
      rintro ⟨i, hi⟩
      rw [hw i] at hi
      exact Option.some_ne_none _ hi
    have h2 : ∀ recs : Fin n → JobackRecord ℝ, w = recs
        ↔ ∀ i, (pr i).ideal_gas_record = some (recs i) := by
      intro recs
      constructor
      · rintro rfl; exact hw
      · intro h
        funext i
        have := (h i).symm.trans (hw i)
        exact (Option.some.inj this).symm
    refine ⟨fun recs => ?_, ?_, fun recs => ?_, ?_⟩
    · simpa using h2 recs
    · simpa using h1
    · simpa using h2 recs
    · simpa using h1

/-! ## C11 -/

theorem ndipole_pos (h : NonzeroRecords pr) :
    0 < (fromRecords pr k).ndipole ↔ ∃ i, (fromRecords pr k).mu i ≠ 0 := by
  have := (C03_component_lists pr k h.1 h.2.1 h.2.2).1
  rw [List.length_pos_iff_exists_mem]
  exact exists_congr this

theorem nquadpole_pos (h : NonzeroRecords pr) :
    0 < (fromRecords pr k).nquadpole ↔ ∃ i, (fromRecords pr k).q i ≠ 0 := by
  have := (C03_component_lists pr k h.1 h.2.1 h.2.2).2.1
  rw [List.length_pos_iff_exists_mem]
  exact exists_congr this

theorem nassoc_zero : (fromRecords pr k).nassoc = 0 ↔ ∀ i, (fromRecords pr k).kappa_ab i = 0 := by
  rw [List.length_eq_zero_iff, List.eq_nil_iff_forall_not_mem]
  simp only [mem_assoc_comp, not_not]

theorem assoc_nodup : (fromRecords pr k).assoc_comp.Nodup := by
  have : (fromRecords pr k).assoc_comp.Pairwise (· < ·) := (nonzeroComp_sorted _).pairwise
  exact this.imp (fun h => h.ne)

theorem nassoc_one : (fromRecords pr k).nassoc = 1 ↔ ∃! i, (fromRecords pr k).kappa_ab i ≠ 0 := by
  rw [List.length_eq_one_iff]
  constructor
  · rintro ⟨a, ha⟩
    refine ⟨a, ?_, ?_⟩
    · refine (mem_assoc_comp pr k a).mp ?_
      rw [ha]; simp
    · intro b hb
      rw [← mem_assoc_comp, ha] at hb
      simpa using hb
  · rintro ⟨a, ha, hu⟩
    refine ⟨a, ?_⟩
    have nd := assoc_nodup pr k
    have hu' : ∀ b ∈ (fromRecords pr k).assoc_comp, b = a :=
      fun b hb => hu b ((mem_assoc_comp pr k b).mp hb)
    have hmem := (mem_assoc_comp pr k a).mpr ha
    generalize (fromRecords pr k).assoc_comp = l at nd hu' hmem
    match l with
    | [] => simp at hmem
    | [x] => rw [hu' x (by simp)]
    | x :: y :: t =>
      have h1 := hu' x (by simp)
      have h2 := hu' y (by simp)
      subst h1 h2
      simp at nd

theorem nassoc_ge_two : 2 ≤ (fromRecords pr k).nassoc
    ↔ ∃ i j, i ≠ j ∧ (fromRecords pr k).kappa_ab i ≠ 0 ∧ (fromRecords pr k).kappa_ab j ≠ 0 := by
  have h0 := nassoc_zero pr k
  have h1 := nassoc_one pr k
  constructor
  · intro h
    have a : ¬ ∀ i, (fromRecords pr k).kappa_ab i = 0 := fun h' => by
      have := h0.mpr h'; omega
    have b : ¬ ∃! i, (fromRecords pr k).kappa_ab i ≠ 0 := fun h' => by
      have := h1.mpr h'; omega
    push Not at a
    obtain ⟨i, hi⟩ := a
    have : ∃ j, (fromRecords pr k).kappa_ab j ≠ 0 ∧ j ≠ i := by
      by_contra hc
      push Not at hc
      exact b ⟨i, hi, fun j hj => hc j hj⟩
    obtain ⟨j, hj, hji⟩ := this
    exact ⟨i, j, hji.symm, hi, hj⟩
  · rintro ⟨i, j, hij, hi, hj⟩
    have a : (fromRecords pr k).nassoc ≠ 0 := fun h' => hi (h0.mp h' i)
    have b : (fromRecords pr k).nassoc ≠ 1 := fun h' => by
      obtain ⟨a, -, hu⟩ := h1.mp h'
      exact hij ((hu i hi).trans (hu j hj).symm)
    omega

/-- C11: which contributions an equation of state contains. -/
theorem C11_contributions (h : NonzeroRecords pr) (o : PcSaftOptions ℝ) :
    let p := fromRecords pr k
    let cs := (Eos.withOptions p o).contributions
    Contribution.hardSphere ∈ cs ∧ Contribution.hardChain ∈ cs ∧ Contribution.dispersion ∈ cs
    ∧ (Contribution.dipole ∈ cs ↔ ∃ i, p.mu i ≠ 0)
    ∧ (Contribution.quadrupole ∈ cs ↔ ∃ i, p.q i ≠ 0)
    ∧ (∀ v, Contribution.dipoleQuadrupole v ∈ cs
        ↔ v = o.dq_variant ∧ (∃ i, p.mu i ≠ 0) ∧ ∃ i, p.q i ≠ 0)
    ∧ (Contribution.association ∈ cs ↔ ∃! i, p.kappa_ab i ≠ 0)
    ∧ (∀ it tol, Contribution.crossAssociation it tol ∈ cs
        ↔ it = o.max_iter_cross_assoc ∧ tol = o.tol_cross_assoc
          ∧ ∃ i j, i ≠ j ∧ p.kappa_ab i ≠ 0 ∧ p.kappa_ab j ≠ 0)
    ∧ cs.Nodup := by
  intro p cs
  have hd := ndipole_pos pr k h
  have hq := nquadpole_pos pr k h
  have h1 := nassoc_one pr k
  have h2 := nassoc_ge_two pr k
  have hcs : cs = buildContributions p o := rfl
  clear_value cs
  subst hcs
  simp only [p]
  rw [← hd, ← hq, ← h1, ← h2]
  unfold buildContributions
  generalize (fromRecords pr k).ndipole = a
  generalize (fromRecords pr k).nquadpole = b
  generalize (fromRecords pr k).nassoc = c
  rcases Nat.eq_zero_or_pos a with ha | ha <;> rcases Nat.eq_zero_or_pos b with hb | hb <;>
    rcases c with _ | _ | c <;> simp [ha, hb]

/-! ## C56 -/

/-- C56: which contributions a functional contains. -/
theorem C56_functional_contributions (o : PcSaftOptions ℝ) (v : FMTVersion) :
    let p := fromRecords pr k
    let cs := (Functional.withOptions p v o).contributions
    (n = 1 → v = .WhiteBear ∨ v = .AntiSymWhiteBear →
      cs = [.pureFmtAssoc v] ++ (if ∃ i, 1 < p.m i then [.pureChain] else []) ++ [.pureAtt])
    ∧ (n ≠ 1 ∨ v = .KierlikRosinberg →
      cs = [.fmt v] ++ (if ∃ i, p.m i ≠ 1 then [.chain] else []) ++ [.attractive]
        ++ (if ∃ i, p.kappa_ab i ≠ 0 then [.association o.max_iter_cross_assoc o.tol_cross_assoc]
            else [])) := by
  classical
  intro p cs
  have hcs : cs = buildFunctionalContributions p v o := rfl
  have one : (1.0 : ℝ) = 1 := by norm_num
  have hm1 : ((List.finRange n).any (fun i => F64.lt 1.0 (p.m i)) = true) ↔ ∃ i, 1 < p.m i := by
    simp [one]
  have hm2 : ((List.finRange n).any (fun i => !(F64.eq (p.m i) 1.0)) = true) ↔ ∃ i, p.m i ≠ 1 := by
    simp [one]
  have ha : 0 < p.nassoc ↔ ∃ i, p.kappa_ab i ≠ 0 := by
    rw [Nat.pos_iff_ne_zero, Ne, nassoc_zero]
    push Not
    rfl
  constructor
  · intro hn hv
    rw [hcs]
    unfold buildFunctionalContributions
    rw [if_pos ⟨hv, hn⟩]
    simp only [hm1]
  · intro hnv
    rw [hcs]
    unfold buildFunctionalContributions
    rw [if_neg]
    · simp only [hm2, ha]
    · rintro ⟨hv, hn⟩
      rcases hnv with h' | h'
      · exact h' hn
      · subst h'; simp at hv

/-! ## C48 -/

/-- C48: subsets keep the options (and FMT version); `new` uses the defaults; the subset's model is the
model built from the subset's parameters with the same options. -/
theorem C48_options_preserved {q : ℕ} (sel : Fin q → Fin n) (o : PcSaftOptions ℝ) (v : FMTVersion) :
    let p := fromRecords pr k
    let e := Eos.withOptions p o
    let f := Functional.withOptions p v o
    (e.subset sel).options = o ∧ (f.subset sel).options = o ∧ (f.subset sel).fmt_version = v
    ∧ e.subset sel = Eos.withOptions
        (fromRecords (fun i => pr (sel i)) (fun i j => k (sel i) (sel j))) o
    ∧ f.subset sel = Functional.withOptions
        (fromRecords (fun i => pr (sel i)) (fun i j => k (sel i) (sel j))) v o
    ∧ (Eos.new p).options = ⟨0.5, 50, 1e-10, .DQ35⟩ ∧ (Functional.new p).options = ⟨0.5, 50, 1e-10, .DQ35⟩
    ∧ (Functional.new p).fmt_version = .WhiteBear
    ∧ (Functional.newFull p v).options = ⟨0.5, 50, 1e-10, .DQ35⟩
    ∧ (Functional.newFull p v).fmt_version = v :=
  ⟨rfl, rfl, rfl, rfl, rfl, rfl, rfl, rfl, rfl, rfl⟩

/-! ## C57 -/

/-- C57: evaluating the residual Helmholtz energy panics only if the cross-association solver does; it
never panics with fewer than two associating components.  The value is the sum of the values of the
contributions. -/
theorem C57_residual_evaluation {D : Type} [DualNum ℝ D] (la : LinAlg ℝ D) (o : PcSaftOptions ℝ)
    (state : StateHD n D) :
    let p := fromRecords pr k
    let e := Eos.withOptions p o
    ((¬ ∃ i j, i ≠ j ∧ p.kappa_ab i ≠ 0 ∧ p.kappa_ab j ≠ 0) → ∃ a, e.residualHelmholtz la state = .ok a)
    ∧ (∀ err, e.residualHelmholtz la state = .error err →
        crossAssociation p o.max_iter_cross_assoc o.tol_cross_assoc la.nderiv (la.solveF _)
          (la.solveD _) state = .error err)
    ∧ (∀ a, e.residualHelmholtz la state = .ok a → ∃ vals : List D,
        List.Forall₂ (fun c v => c.helmholtzEnergy la p state = .ok v) e.contributions vals
        ∧ a = vals.foldl (· + ·) (c (0.0 : ℝ))) := by
  intro p e
  have hcs : e.contributions = buildContributions p o := rfl
  have hep : e.parameters = p := rfl
  -- generic facts about the summation loop
  have loop_err : ∀ (cs : List (Contribution ℝ)) (acc : D) err,
      cs.foldlM (fun acc ct => match ct.helmholtzEnergy la p state with
        | .error err => Except.error err
        | .ok a => Except.ok (acc + a)) acc = .error err →
      ∃ ct ∈ cs, ct.helmholtzEnergy la p state = .error err := by
    intro cs
    induction cs with
    | nil => intro acc err h; simp [pure, Except.pure] at h
    | cons x xs ih =>
      intro acc err h
      rw [List.foldlM_cons] at h
      cases hx : x.helmholtzEnergy la p state with
      | error e' =>
        rw [hx] at h
        exact ⟨x, by simp, by rw [hx]; simpa [bind, Except.bind] using h⟩
      | ok v =>
        rw [hx] at h
        obtain ⟨ct, hct, hh⟩ := ih _ _ h
        exact ⟨ct, by simp [hct], hh⟩
  have loop_ok : ∀ (cs : List (Contribution ℝ)) (acc a : D),
      cs.foldlM (fun acc ct => match ct.helmholtzEnergy la p state with
        | .error err => Except.error err
        | .ok a => Except.ok (acc + a)) acc = .ok a →
      ∃ vals : List D, List.Forall₂ (fun c v => c.helmholtzEnergy la p state = .ok v) cs vals
        ∧ a = vals.foldl (· + ·) acc := by
    intro cs
    induction cs with
    | nil => intro acc a h; exact ⟨[], List.Forall₂.nil, (Except.ok.inj h).symm⟩
    | cons x xs ih =>
      intro acc a h
      rw [List.foldlM_cons] at h
      cases hx : x.helmholtzEnergy la p state with
      | error e' => rw [hx] at h; simp [bind, Except.bind] at h
      | ok v =>
        rw [hx] at h
        obtain ⟨vals, hv, ha⟩ := ih _ _ h
        exact ⟨v :: vals, List.Forall₂.cons hx hv, ha⟩
  -- only the cross association can panic
  have only : ∀ ct ∈ buildContributions p o, ∀ err, ct.helmholtzEnergy la p state = .error err →
      2 ≤ p.nassoc ∧ crossAssociation p o.max_iter_cross_assoc o.tol_cross_assoc la.nderiv
        (la.solveF _) (la.solveD _) state = .error err := by
    intro ct hct err herr
    cases ct with
    | hardSphere => simp [Contribution.helmholtzEnergy] at herr
    | hardChain => simp [Contribution.helmholtzEnergy] at herr
    | dispersion => simp [Contribution.helmholtzEnergy] at herr
    | dipole => simp [Contribution.helmholtzEnergy] at herr
    | quadrupole => simp [Contribution.helmholtzEnergy] at herr
    | dipoleQuadrupole v => simp [Contribution.helmholtzEnergy] at herr
    | association =>
      exfalso
      have hlen : p.assoc_comp.length = 1 := by
        unfold buildContributions at hct
        generalize hc : p.nassoc = q at hct
        rcases q with _ | _ | q
        · simp at hct
        · exact hc
        · simp at hct
      obtain ⟨a, ha⟩ := List.length_eq_one_iff.mp hlen
      simp only [Contribution.helmholtzEnergy, association] at herr
      rw [ha] at herr
      simp at herr
    | crossAssociation it tol =>
      have hlen : 2 ≤ p.nassoc ∧ it = o.max_iter_cross_assoc ∧ tol = o.tol_cross_assoc := by
        unfold buildContributions at hct
        generalize p.nassoc = q at hct
        rcases q with _ | _ | q
        · simp at hct
        · simp at hct
        · simp at hct
          exact ⟨by omega, hct⟩
      obtain ⟨h1, rfl, rfl⟩ := hlen
      exact ⟨h1, herr⟩
  have step : ∀ err, e.residualHelmholtz la state = .error err →
      2 ≤ p.nassoc ∧ crossAssociation p o.max_iter_cross_assoc o.tol_cross_assoc la.nderiv
        (la.solveF _) (la.solveD _) state = .error err := by
    intro err herr
    obtain ⟨ct, hct, h'⟩ := loop_err _ _ _ herr
    exact only ct hct err h'
  refine ⟨?_, fun err herr => (step err herr).2, fun a ha => loop_ok _ _ _ ha⟩
  intro hno
  cases hr : e.residualHelmholtz la state with
  | ok a => exact ⟨a, rfl⟩
  | error err => exact absurd ((nassoc_ge_two pr k).mp (step err hr).1) hno

/-! ## C12 -/

/-- packing fraction of a mixture with number density `rho` and segment diameters `sigma` -/
noncomputable def packing (m sigma x : Fin n → ℝ) (rho : ℝ) : ℝ :=
  Real.pi / 6 * ∑ i, rho * x i * m i * sigma i ^ 3

/-- C12: at the maximum density the packing fraction is `max_eta`, for every composition; the maximum
density is positive and invariant under scaling of the moles; functional and equation of state agree. -/
theorem C12_max_density (hm : ∀ i, 0 < (pr i).model_record.m) (hs : ∀ i, 0 < (pr i).model_record.sigma)
    (o : PcSaftOptions ℝ) (moles : Fin n → ℝ) (hmoles : ∀ i, 0 ≤ moles i) (htot : ∃ i, moles i ≠ 0) :
    let p := fromRecords pr k
    let e := Eos.withOptions p o
    packing p.m p.sigma (fun i => moles i / ∑ j, moles j) (e.maxDensity moles) = o.max_eta
    ∧ (0 < o.max_eta → 0 < e.maxDensity moles)
    ∧ (∀ c : ℝ, c ≠ 0 → e.maxDensity (fun i => c * moles i) = e.maxDensity moles)
    ∧ (∀ v, (Functional.withOptions p v o).maxDensity moles = e.maxDensity moles) := by
  intro p e
  have hsum : 0 < ∑ i, moles i := by
    obtain ⟨i, hi⟩ := htot
    exact Finset.sum_pos' (fun i _ => hmoles i)
      ⟨i, Finset.mem_univ _, lt_of_le_of_ne (hmoles i) (Ne.symm hi)⟩
  have hm' : ∀ i, 0 < p.m i := hm
  have hs' : ∀ i, 0 < p.sigma i := hs
  have hden : 0 < ∑ i, p.m i * p.sigma i ^ 3 * moles i := by
    obtain ⟨i, hi⟩ := htot
    refine Finset.sum_pos' (fun i _ => ?_) ⟨i, Finset.mem_univ _, ?_⟩
    · exact mul_nonneg (mul_pos (hm' i) (pow_pos (hs' i) 3)).le (hmoles i)
    · exact mul_pos (mul_pos (hm' i) (pow_pos (hs' i) 3)) (lt_of_le_of_ne (hmoles i) (Ne.symm hi))
  have e1 : ∀ moles : Fin n → ℝ, e.maxDensity moles
      = o.max_eta * (∑ i, moles i) / (Real.pi / 6 * ∑ i, p.m i * p.sigma i ^ 3 * moles i) := by
    intro moles
    have : e.maxDensity moles = o.max_eta * (∑ i, moles i)
        / ∑ i, Real.pi / 6.0 * p.m i * p.sigma i ^ 3 * moles i := by
      simp [Eos.maxDensity, computeMaxDensity, e, Eos.withOptions]
    rw [this]
    have : ∀ i, Real.pi / 6.0 * p.m i * p.sigma i ^ 3 * moles i
        = Real.pi / 6 * (p.m i * p.sigma i ^ 3 * moles i) := by
      intro i
      norm_num
      ring
    simp only [this, ← Finset.mul_sum]
  have hpi := Real.pi_pos
  refine ⟨?_, ?_, ?_, fun v => rfl⟩
  · have e2 : packing p.m p.sigma (fun i => moles i / ∑ j, moles j) (e.maxDensity moles)
        = Real.pi / 6 * (e.maxDensity moles / (∑ j, moles j)
          * ∑ i, p.m i * p.sigma i ^ 3 * moles i) := by
      unfold packing
      congr 1
      rw [Finset.mul_sum]
      refine Finset.sum_congr rfl (fun i _ => ?_)
      ring
    rw [e2, e1]
    field_simp
  · intro he
    rw [e1]
    positivity
  · intro c hc
    have : ∑ i, p.m i * p.sigma i ^ 3 * (c * moles i)
        = c * ∑ i, p.m i * p.sigma i ^ 3 * moles i := by
      rw [Finset.mul_sum]
      exact Finset.sum_congr rfl (fun i _ => by ring)
    rw [e1, e1, this, ← Finset.mul_sum]
    field_simp
end

/-- a binary mixture: component 0 plain, component 1 dipolar and associating -/
noncomputable def sampleRecords (i : Fin 2) : PureRecord ℝ :=
  pureOf (if i = 0 then plainRecord 2 3.6 208
    else { plainRecord 1 3 300 with mu := some 1.8, kappa_ab := some 0.03, epsilon_k_ab := some 2000 })

/-- the hypotheses of C11 and C12 hold for a concrete binary mixture -/
theorem sampleRecords_ok : NonzeroRecords sampleRecords
    ∧ (∀ i, 0 < (sampleRecords i).model_record.m) ∧ (∀ i, 0 < (sampleRecords i).model_record.sigma) := by
  refine ⟨⟨?_, ?_, ?_⟩, ?_, ?_⟩ <;>
  · intro i
    fin_cases i <;> norm_num [sampleRecords, pureOf, plainRecord]

example : Contribution.dipole ∈
    (Eos.new (fromRecords sampleRecords (fun _ _ => 0))).contributions :=
  (C11_contributions sampleRecords _ sampleRecords_ok.1 _).2.2.2.1.mpr
    ⟨1, by norm_num [fromRecords, sampleRecords, pureOf, plainRecord]⟩

example : Contribution.association ∈
    (Eos.new (fromRecords sampleRecords (fun _ _ => 0))).contributions := by
  refine (C11_contributions sampleRecords _ sampleRecords_ok.1 _).2.2.2.2.2.2.1.mpr ⟨1, ?_, ?_⟩
  · norm_num [fromRecords, sampleRecords, pureOf, plainRecord]
  · intro i hi
    fin_cases i
    · norm_num [fromRecords, sampleRecords, pureOf, plainRecord] at hi
    · rfl

example : 0 < (Eos.new (fromRecords sampleRecords (fun _ _ => 0))).maxDensity (fun _ => 1) := by
  refine (C12_max_density sampleRecords (fun _ _ => 0) sampleRecords_ok.2.1 sampleRecords_ok.2.2
    PcSaftOptions.default (fun _ => 1) (fun _ => zero_le_one) ⟨0, one_ne_zero⟩).2.1 ?_
  norm_num [PcSaftOptions.default]

end PcSaft.Props
