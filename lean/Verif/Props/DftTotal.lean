import Verif.Props.DftViolations
import Verif.Props.DftPureFmt
import Verif.Props.CrossAssociationRoot

/-!
# C60: the whole functional for pure components in a homogeneous fluid
-/

namespace PcSaft.Props
open PcSaft Spec

theorem pureFmt_value (p : PcSaftParameters 1 ℝ) (T V : ℝ) (moles : Fin 1 → ℝ) (h : Admissible p T V moles)
    (v : FMTVersion) (hv : v ≠ .KierlikRosinberg) (dim : ℕ) (hη : 1e-5 ≤ Spec.packingFraction p T V moles)
    (hn : p.nassoc ≤ 1) :
    pureFmtAssocFunctional p v T [(pureFmtWeightFunctions p T).bulkRows dim (fun i => moles i / V)]
      = .ok (.ok [(hardSphere p (StateHD.new T V moles) + assocEnergy p (StateHD.new T V moles)) / V]) := by
  have hV := h.volume
  have hmoles : moles = fun _ => V * (moles 0 / V) := by
    funext i
    rw [Subsingleton.elim i 0]
    field_simp
  have hadm : Admissible p T 1 (fun _ => moles 0 / V) := by
    refine ⟨h.temperature, one_pos, h.m_pos, h.sigma_pos, h.epsilon_nonneg, fun i => div_nonneg (h.moles_nonneg 0) hV.le,
      ?_, ?_⟩
    · obtain ⟨i, hi⟩ := h.moles_ne_zero
      rw [Subsingleton.elim i 0] at hi
      exact ⟨i, div_ne_zero hi hV.ne'⟩
    · have := h.packing
      simp only [Spec.packingFraction, Fin.sum_univ_one] at this ⊢
      convert this using 1
      field_simp
  obtain ⟨f, hf, hval⟩ := C34_pure_fmt_bulk p T v hv dim [moles 0 / V] (by simpa using hadm)
  obtain ⟨a, ha1, ha0, hex, _⟩ := hval (moles 0 / V) (by simp) V hV
  rw [← hmoles] at ha1 hex
  have hval := hex hη
  have e : (fun i => moles i / V) = fun _ => moles 0 / V := by
    funext i
    rw [Subsingleton.elim i 0]
  simp only [List.map_cons, List.map_nil] at hf
  rw [e, hf]
  have hassoc : a = assocEnergy p (StateHD.new T V moles) := by
    unfold assocEnergy
    match hl : p.assoc_comp, hn with
    | [], _ => exact ha0 (nassoc_of hl)
    | [b], _ =>
      have := ha1 (nassoc_of hl)
      rw [association_eq p _ b [] hl] at this
      exact (Except.ok.inj this).symm
    | a :: b :: l, h =>
      rw [nassoc_of hl] at h
      simp at h
  rw [← hassoc, ← hval]
  congr 3
  field_simp

/-- C60: for a pure component with at least one segment that is not both dipolar and quadrupolar, the
contributions of the functional in a homogeneous fluid add up, together with the ideal chain term, to
the residual Helmholtz energy of the equation of state built from the same parameters and options: for
both versions that use the pure component implementation and in every space dimension. -/
theorem C60_pure_functional_total (la : LinAlg ℝ ℝ) (pr : Fin 1 → PureRecord ℝ) (k : Fin 1 → Fin 1 → ℝ)
    (hk : k 0 0 = 0) (T V : ℝ) (moles : Fin 1 → ℝ) (h : Admissible (fromRecords pr k) T V moles)
    (hm : 1 ≤ (pr 0).model_record.m) (v : FMTVersion) (hv : v ≠ .KierlikRosinberg) (o : PcSaftOptions ℝ)
    (hη : 1e-5 ≤ Spec.packingFraction (fromRecords pr k) T V moles)
    (hpol : (fromRecords pr k).ndipole = 0 ∨ (fromRecords pr k).nquadpole = 0) (dim : ℕ) :
    let p := fromRecords pr k
    let rho := fun i => moles i / V
    ∃ phis : List ℝ,
      (Functional.withOptions p v o).contributions.map (fun ct => ct.pureBulk p dim T rho)
        = phis.map (fun phi => some (.ok (.ok [phi])))
      ∧ (Eos.withOptions p o).residualHelmholtz la (StateHD.new T V moles)
        = .ok (V * (phis.sum + idealChainTerm p.m f64EPSILON rho)) := by
  intro p rho
  have hV := h.volume
  have hn : p.nassoc ≤ 1 := by
    have hnd := (nonzeroComp_sorted p.kappa_ab).nodup.length_le_card
    rw [Fintype.card_fin] at hnd
    exact hnd
  set s := StateHD.new T V moles with hs
  have hfmt : pureFmtAssocFunctional p v T [(pureFmtWeightFunctions p T).bulkRows dim rho]
      = .ok (.ok [(hardSphere p s + assocEnergy p s) / V]) := pureFmt_value p T V moles h v hv dim hη hn
  have hdip : (if 0 < p.ndipole then dipole p s else 0) = dipole p s := by
    rcases Nat.eq_zero_or_pos p.ndipole with h0 | h0
    · rw [dipole_eq_zero h0]
      simp
    · rw [if_pos h0]
  have hquad : (if 0 < p.nquadpole then quadrupole p s else 0) = quadrupole p s := by
    rcases Nat.eq_zero_or_pos p.nquadpole with h0 | h0
    · rw [quadrupole_eq_zero h0]
      simp
    · rw [if_pos h0]
  have hatt : pureAttFunctional p T ((pureAttWeightFunctions p PSI_DFT T).bulkRows dim rho)
      = .ok ((dispersion p s + dipole p s + quadrupole p s) / V) := by
    have := pureAttractive_value pr k moles h hk PSI_DFT (by norm_num [PSI_DFT]) dim
    rw [← hdip, ← hquad]
    exact this
  obtain ⟨phic, hc1, _, hc3, _⟩ := C36_chain_bulk h dim f64EPSILON
  rw [← C36_pure_chain_bulk (fromRecords pr k) moles h dim] at hc1
  have hc1 : pureChainFunctional p ((pureChainWeightFunctions p T).bulkRows dim rho) = .ok phic := hc1
  have hchain : V * (phic + idealChainTerm p.m f64EPSILON rho) = hardChain p s := hc3 rfl
  have hv' : (v = .WhiteBear ∨ v = .AntiSymWhiteBear) ∧ (1 : ℕ) = 1 := by
    refine ⟨?_, rfl⟩
    cases v <;> simp_all
  have hres := residual_of_nassoc_le_one la p o s hn
  have hdq := dipoleQuadrupole_eq_zero hpol o.dq_variant s
  rw [hres]
  have h1 : (1.0 : ℝ) = 1 := by norm_num
  have hm0 : p.m 0 = (pr 0).model_record.m := rfl
  have hany : (List.finRange 1).any (fun i => F64.lt (1.0 : ℝ) (p.m i)) = decide (1 < p.m 0) := by
    rw [h1, Bool.eq_iff_iff, List.any_eq_true]
    simp only [decide_eq_true_eq, lt_real]
    constructor
    · rintro ⟨i, _, hi⟩
      rwa [Subsingleton.elim i 0] at hi
    · exact fun h => ⟨0, by simp, h⟩
  have hcontr : (Functional.withOptions p v o).contributions
      = [.pureFmtAssoc v] ++ (if decide (1 < p.m 0) = true then [.pureChain] else []) ++ [.pureAtt] := by
    rw [← hany]
    exact if_pos hv'
  rw [hcontr, residualSum, show dipoleQuadrupole o.dq_variant p s = 0 from hdq]
  have hVne := hV.ne'
  by_cases hlt : 1 < p.m 0
  · refine ⟨[(hardSphere p s + assocEnergy p s) / V, phic, (dispersion p s + dipole p s + quadrupole p s) / V], ?_, ?_⟩
    · rw [decide_eq_true hlt, if_pos rfl]
      simp only [List.map_append, List.map_cons, List.map_nil, FunctionalContribution.pureBulk]
      rw [hfmt, hatt, hc1]
      rfl
    · congr 1
      rw [← hchain]
      simp only [List.sum_cons, List.sum_nil]
      field_simp
      ring
  · have hm1 : p.m 0 = 1 := le_antisymm (not_lt.mp hlt) (hm0 ▸ hm)
    refine ⟨[(hardSphere p s + assocEnergy p s) / V, (dispersion p s + dipole p s + quadrupole p s) / V], ?_, ?_⟩
    · rw [decide_eq_false hlt, if_neg (by simp)]
      simp only [List.map_append, List.map_cons, List.map_nil, FunctionalContribution.pureBulk]
      rw [hfmt, hatt]
      rfl
    · congr 1
      have e1 : idealChainTerm p.m f64EPSILON rho = 0 := by
        simp [idealChainTerm, hm1]
      have e2 : hardChain p s = 0 := by
        rw [hardChain_real]
        simp [hm1]
      rw [e1, e2]
      simp only [List.sum_cons, List.sum_nil]
      field_simp
      ring

/-! ### Concrete cases -/

/-- a dipolar chain molecule of 5/2 segments -/
noncomputable def chainMolecule (_ : Fin 1) : PureRecord ℝ := testRecord (5 / 2) 3 (some 4) none

theorem chainMolecule_state : ∃ V, Admissible (fromRecords chainMolecule (fun _ _ => 0)) 100 V (fun _ => 1)
    ∧ Spec.packingFraction (fromRecords chainMolecule (fun _ _ => 0)) 100 V (fun _ => 1) = 1 / 5
    ∧ f64EPSILON < ∑ _i : Fin 1, 1 / V := by
  obtain ⟨V, h1, h2, h3⟩ := exists_test_state (fromRecords chainMolecule (fun _ _ => 0)) one_pos
    (fun _ => by change (0 : ℝ) < 5 / 2 ∧ (5 / 2 : ℝ) ≤ 10; norm_num) (fun _ => rfl)
    (fun _ => by change (3 : ℝ) ≤ 3 ∧ (3 : ℝ) ≤ 4; norm_num)
  exact ⟨V, h1, by rw [← h2, zeta3_eq_packing], h3⟩

theorem chainMolecule_moments : 0 < (fromRecords chainMolecule (fun _ _ => 0)).ndipole
    ∧ (fromRecords chainMolecule (fun _ _ => 0)).nquadpole = 0 := by
  obtain ⟨h1, h2, h3, h4, _⟩ := C01_reduced_moments chainMolecule (fun _ _ => 0) 0
    (by norm_num [chainMolecule, testRecord]) (by norm_num [chainMolecule, testRecord])
    (by norm_num [chainMolecule, testRecord])
  constructor
  · refine (length_nonzeroComp_pos _).mpr ⟨0, fun h => ?_⟩
    have : (4 : ℝ) = 0 := h2.mp h
    norm_num at this
  · refine Nat.eq_zero_of_not_pos fun h => ?_
    obtain ⟨i, hi⟩ := (length_nonzeroComp_pos _).mp h
    rw [Subsingleton.elim i 0] at hi
    apply hi
    refine h4.mpr ?_
    change (0.0 : ℝ) = 0
    norm_num

/-- C60, C34, C36, C37, C38, C41 and C42 apply to this molecule: three contributions, a value for each -/
example (la : LinAlg ℝ ℝ) (dim : ℕ) : ∃ V : ℝ, ∃ phi1 phi2 phi3 : ℝ,
    let p := fromRecords chainMolecule (fun _ _ => 0)
    (Functional.new p).contributions.map (fun ct => ct.pureBulk p dim 100 (fun _ => 1 / V))
      = [some (.ok (.ok [phi1])), some (.ok (.ok [phi2])), some (.ok (.ok [phi3]))]
    ∧ (Eos.new p).residualHelmholtz la (StateHD.new (100 : ℝ) V (fun _ => 1))
        = .ok (V * (phi1 + phi2 + phi3 + idealChainTerm p.m f64EPSILON (fun _ => 1 / V))) := by
  obtain ⟨V, h1, h2, _⟩ := chainMolecule_state
  have hm : (1 : ℝ) ≤ (chainMolecule 0).model_record.m := by norm_num [chainMolecule, testRecord]
  obtain ⟨phis, h3, h4⟩ := C60_pure_functional_total la chainMolecule (fun _ _ => 0) rfl 100 V (fun _ => 1) h1 hm
    .WhiteBear (by simp) PcSaftOptions.default (by rw [h2]; norm_num) (Or.inr chainMolecule_moments.2) dim
  have hc : FunctionalContribution.pureChain ∈ (Functional.new (fromRecords chainMolecule (fun _ _ => 0))).contributions := by
    refine ((C42_chain_contribution_partial _ _ _).1 ⟨rfl, by simp⟩ (fun i => ?_)).mpr ⟨0, ?_⟩
    · rw [Subsingleton.elim i 0]
      exact hm
    · change (5 / 2 : ℝ) ≠ 1
      norm_num
  have hlen : (Functional.new (fromRecords chainMolecule (fun _ _ => 0))).contributions.length = 3 := by
    simp only [Functional.new, Functional.withOptions, buildFunctionalContributions] at hc ⊢
    split_ifs at hc ⊢ <;> simp_all
  have hl : phis.length = 3 := by
    have := congrArg List.length h3
    rw [List.length_map, List.length_map] at this
    rw [← this]
    exact hlen
  obtain ⟨a, b, d, rfl⟩ := List.length_eq_three.mp hl
  refine ⟨V, a, b, d, h3, ?_⟩
  simp only [List.sum_cons, List.sum_nil] at h4
  rw [show a + b + d = a + (b + (d + 0)) by ring]
  exact h4

/-- C34 for an associating fluid -/
example (v : FMTVersion) (hv : v ≠ .KierlikRosinberg) (dim : ℕ) : ∃ phi a,
    let p := (fromRecords assocRecords (fun _ _ => 0)).subset (fun _ : Fin 1 => 0)
    pureFmtAssocFunctional p v 300 [(pureFmtWeightFunctions p (300 : ℝ)).bulkRows dim (fun _ => 1 / 100)] = .ok (.ok [phi])
    ∧ association p (StateHD.new (300 : ℝ) 100 (fun _ => 100 * (1 / 100))) = .ok a
    ∧ 100 * phi = hardSphere p (StateHD.new (300 : ℝ) 100 (fun _ => 100 * (1 / 100))) + a := by
  set p := (fromRecords assocRecords (fun _ _ => 0)).subset (fun _ : Fin 1 => 0) with hp
  have hm : p.m 0 = 1 := rfl
  have hs : p.sigma 0 = 3 := rfl
  have he : p.epsilon_k 0 = 200 := rfl
  have hlow : 2 ≤ Spec.diameter 3 200 300 := by
    unfold Spec.diameter
    have := exp_le_one_of (e := 200) (T := 300) (by norm_num) (by norm_num)
    linarith
  obtain ⟨hd0, hd3⟩ := diameter_le_three
  have hpack : ∀ V : ℝ, V ≠ 0 → Spec.packingFraction p 300 V (fun _ => V * (1 / 100))
      = Real.pi / 600 * Spec.diameter 3 200 300 ^ 3 := by
    intro V hV
    simp only [Spec.packingFraction, Fin.sum_univ_one, hm, hs, he]
    field_simp
    norm_num
  have hd8 : 8 ≤ Spec.diameter 3 200 300 ^ 3 := by
    calc (8 : ℝ) = 2 ^ 3 := by norm_num
      _ ≤ Spec.diameter 3 200 300 ^ 3 := pow_le_pow_left₀ (by norm_num) hlow 3
  have hpi := Real.pi_gt_three
  have hpi4 := Real.pi_lt_four
  have hadm : Admissible p 300 1 (fun _ => 1 / 100) := by
    refine ⟨by norm_num, one_pos, fun i => ?_, fun i => ?_, fun i => ?_, fun _ => by norm_num, ⟨0, by norm_num⟩, ?_⟩
    · rw [Subsingleton.elim i 0, hm]
      norm_num
    · rw [Subsingleton.elim i 0, hs]
      norm_num
    · rw [Subsingleton.elim i 0, he]
      norm_num
    · have := hpack 1 one_ne_zero
      simp only [one_mul] at this
      rw [this]
      nlinarith
  obtain ⟨f, hf, hval⟩ := C34_pure_fmt_bulk p 300 v hv dim [1 / 100] (by simpa using hadm)
  obtain ⟨a, ha, _, hex, _⟩ := hval (1 / 100) (by simp) 100 (by norm_num)
  refine ⟨f (1 / 100), a, hf, ha ?_, hex ?_⟩
  · have : p.kappa_ab = fun _ => (0.03 : ℝ) := by
      funext i
      rfl
    change (nonzeroComp p.kappa_ab).length = 1
    rw [this]
    simp [nonzeroComp, List.finRange_succ, List.finRange_zero]
    norm_num
  · rw [hpack 100 (by norm_num)]
    nlinarith

/-- C35 for the mixture with one associating component -/
example (la : LinAlg ℝ ℝ) (dim : ℕ) (rhos : List (Fin 2 → ℝ)) :
    ∃ f : (Fin 2 → ℝ) → ℝ, associationFunctional la (fromRecords assocRecords (fun _ _ => 0)) 50 1e-10 300
      (rhos.map ((associationWeightFunctions (fromRecords assocRecords (fun _ _ => 0)) 300).bulkRows dim))
        = .ok (.ok (rhos.map f)) :=
  (C35_association_bulk _ 300 (fun i => (assocRecords_admissible.diameter_pos i).ne') 0 assocRecords_comp la 50 1e-10
    dim rhos).imp fun _ h => h.1

/-- C35 for two associating components -/
example (la : LinAlg ℝ ℝ) (dim : ℕ) (phi : ℝ)
    (h : crossAssociation (fromRecords (rootRecords 1) (fun _ _ => 0)) 50 1e-10 la.nderiv (la.solveF _) (la.solveD _)
      (StateHD.new (300 : ℝ) 1000 (fun _ => 1000 * (1 / 200))) = .ok phi) :
    associationFunctional la (fromRecords (rootRecords 1) (fun _ _ => 0)) 50 1e-10 300
      [(associationWeightFunctions (fromRecords (rootRecords 1) (fun _ _ => 0)) (300 : ℝ)).bulkRows dim
        (fun _ => 1 / 200)] = .ok (.ok [phi / 1000]) :=
  (C35_cross_association_bulk _ 300 two_pos
    (fun i => ((rootRecords_admissible 1 (fun _ _ => 0)).diameter_pos i).ne') la 50 1e-10 dim _ 1000 (by norm_num)
    (by rw [rootRecords_comp one_pos]; simp)).1 phi h

/-- C37, C38, C40 for a dipolar and a quadrupolar component: all four attractive contributions -/
example (dim : ℕ) : ∃ V : ℝ,
    let p := fromRecords dipoleAndQuadrupole (fun _ _ => 0)
    let s := StateHD.new (100 : ℝ) V (fun _ => 1)
    attractiveFunctional p 100 ((attWeightFunctions p PSI_DFT 100).bulkRows dim (fun _ => 1 / V))
      = .ok ((dispersion p s + dipole p s + quadrupole p s + dipoleQuadrupole .DQ35 p s) / V) := by
  set p := fromRecords dipoleAndQuadrupole (fun _ _ => (0 : ℝ)) with hpdef
  obtain ⟨V, hadm, _, hrho⟩ := exists_test_state p two_pos
    (fun i => by fin_cases i <;> (change (0 : ℝ) < 1 ∧ (1 : ℝ) ≤ 10; norm_num))
    (fun i => by fin_cases i <;> rfl)
    (fun i => by
      fin_cases i
      · change (3 : ℝ) ≤ 3 ∧ (3 : ℝ) ≤ 4
        norm_num
      · change (3 : ℝ) ≤ 4 ∧ (4 : ℝ) ≤ 4
        norm_num)
  have hq1 : 0 < p.q2 1 := test_q2_pos 4 (by norm_num) _ _ 1 none rfl
  have hq0 : p.q2 0 = 0 := test_q2_zero 3 _ _ 0 (some 4) rfl
  have hm0 : 0 < p.mu2 0 := test_mu2_pos 3 (by norm_num) _ _ 0 none rfl
  have hnd : 0 < p.ndipole := (length_nonzeroComp_pos p.mu2).mpr ⟨0, hm0.ne'⟩
  have hnq : 0 < p.nquadpole := (length_nonzeroComp_pos p.q2).mpr ⟨1, hq1.ne'⟩
  have hnq1 : p.nquadpole ≤ 1 := length_nonzeroComp_le_one p.q2 1 (fun i hi => by
    fin_cases i
    · exact absurd hq0 hi
    · rfl)
  have := C40_variant_bulk_partial dipoleAndQuadrupole (fun _ _ => 0) (fun _ => 1) hadm hnq1
    (PcSaftOptions.default) rfl dim hrho
  simp only [← hpdef, if_pos hnd, if_pos hnq, if_pos (And.intro hnd hnq)] at this
  exact ⟨V, this⟩

/-- C55 in a region without fluid but with non-zero vector density -/
example : assocRho0 onePure (fun _ => (1 : ℝ)) ⟨fun _ => 0, [fun _ => 5], 0⟩ 0 = 0
    ∧ assocXi onePure (fun _ => (1 : ℝ)) ⟨fun _ => 0, [fun _ => 5], 0⟩ = 1 := by
  have hcut : (0 : ℝ) < N0_CUTOFF := by norm_num [N0_CUTOFF]
  have h := C55_empty_regions onePure (fun _ => (1 : ℝ)) ⟨fun _ => 0, [fun _ => 5], 0⟩
    (fun _ => two_pos) (fun _ => one_pos) (fun _ => le_refl 0)
  exact ⟨h.1 0 hcut, h.2.1 (by simpa using hcut)⟩

end PcSaft.Props
