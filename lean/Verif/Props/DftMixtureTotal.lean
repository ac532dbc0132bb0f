import Verif.Model.Interface
import Verif.Props.DftTotal
import Verif.Props.CrossMixture

/-!
# C72: the whole mixture functional in a homogeneous fluid
-/

namespace PcSaft.Props
open PcSaft Spec
variable {n : ℕ}

/-- C72: with the chain lengths and diameters this crate hands to `feos_dft`, the bulk value of fundamental
measure theory is the hard sphere contribution of the equation of state. -/
theorem C72_fmt_bulk {p : PcSaftParameters n ℝ} {T V : ℝ} {moles : Fin n → ℝ} (h : Admissible p T V moles) :
    V * fmtBulk p.chainLength (p.fmtDiameter T) (fun i => moles i / V) = hardSphere p (StateHD.new T V moles) := by
  have hpi := Real.pi_ne_zero
  have hz : zeta p.m (StateHD.new T V moles).partial_density (hsDiameter p T) 3 ≠ 0 := by
    rw [zeta3_real, StateHD.new_density]
    refine mul_ne_zero (by positivity) (ne_of_gt ?_)
    obtain ⟨i, hi⟩ := h.moles_ne_zero
    refine Finset.sum_pos' (fun j _ => ?_) ⟨i, Finset.mem_univ _, ?_⟩
    · exact mul_nonneg (div_nonneg (h.moles_nonneg j) h.volume.le)
        (mul_nonneg (h.m_pos j).le (pow_nonneg (h.diameter_pos j).le _))
    · exact mul_pos (div_pos (lt_of_le_of_ne (h.moles_nonneg i) (Ne.symm hi)) h.volume)
        (mul_pos (h.m_pos i) (pow_pos (h.diameter_pos i) _))
  have h3 : zeta p.m (StateHD.new T V moles).partial_density (hsDiameter p T) 3 < 1 := h.zeta3_lt_one
  rw [hardSphere_real, StateHD.new_temperature, zeta23_new p T V moles h.volume.ne' h.total_pos.ne',
    StateHD.new_volume]
  have e0 : sumFin (fun i => moles i / V * c (p.chainLength i)) = 6 / Real.pi
      * zeta p.m (StateHD.new T V moles).partial_density (hsDiameter p T) 0 := by
    rw [zeta0_real, StateHD.new_density]
    simp only [sumFin_real, c, ofF_real, PcSaftParameters.chainLength]
    field_simp
  have e1 : sumFin (fun i => moles i / V * (p.fmtDiameter T i * c (0.5 : ℝ)) * c (p.chainLength i)) = 3 / Real.pi
      * zeta p.m (StateHD.new T V moles).partial_density (hsDiameter p T) 1 := by
    rw [zeta1_real, StateHD.new_density]
    simp only [sumFin_real, c, ofF_real, PcSaftParameters.chainLength, PcSaftParameters.fmtDiameter]
    rw [Finset.mul_sum, Finset.mul_sum]
    refine Finset.sum_congr rfl fun i _ => ?_
    norm_num
    field_simp
    ring
  have e2 : sumFin (fun i => moles i / V * DualNum.powi (p.fmtDiameter T i * c (0.5 : ℝ)) 2
        * c (4.0 * F64.pi * p.chainLength i))
      = 6 * zeta p.m (StateHD.new T V moles).partial_density (hsDiameter p T) 2 := by
    rw [zeta2_real, StateHD.new_density]
    simp only [sumFin_real, c, ofF_real, dpowi_real, pi_real, PcSaftParameters.chainLength,
      PcSaftParameters.fmtDiameter]
    rw [Finset.mul_sum, Finset.mul_sum]
    refine Finset.sum_congr rfl fun i _ => ?_
    norm_num
    ring
  have e3 : sumFin (fun i => moles i / V * DualNum.powi (p.fmtDiameter T i * c (0.5 : ℝ)) 3
        * c (4.0 / 3.0 * F64.pi * p.chainLength i))
      = zeta p.m (StateHD.new T V moles).partial_density (hsDiameter p T) 3 := by
    rw [zeta3_real, StateHD.new_density]
    simp only [sumFin_real, c, ofF_real, dpowi_real, pi_real, PcSaftParameters.chainLength,
      PcSaftParameters.fmtDiameter]
    rw [Finset.mul_sum]
    refine Finset.sum_congr rfl fun i _ => ?_
    norm_num
    ring
  unfold fmtBulk
  simp only [e0, e1, e2, e3]
  generalize zeta p.m (StateHD.new T V moles).partial_density (hsDiameter p T) 0 = z0
  generalize zeta p.m (StateHD.new T V moles).partial_density (hsDiameter p T) 1 = z1
  generalize zeta p.m (StateHD.new T V moles).partial_density (hsDiameter p T) 2 = z2
  generalize zeta p.m (StateHD.new T V moles).partial_density (hsDiameter p T) 3 = z3 at hz h3 ⊢
  have hw : 1 - z3 ≠ 0 := by linarith
  have e : -z3 + c (1.0 : ℝ) = 1 - z3 := by
    simp only [c, ofF_real]
    norm_num
    ring
  have el : DualNum.ln1p (-z3) = Real.log (1 - z3) := by
    rw [dln1p_real]
    congr 1
  rw [e, el]
  simp only [hsForm, dpowi_real, c, ofF_real, pi_real]
  norm_num
  field_simp
  ring

theorem residual_parts (la : LinAlg ℝ ℝ) (p : PcSaftParameters n ℝ) (o : PcSaftOptions ℝ) {T V : ℝ} (moles : Fin n → ℝ)
    (h : Admissible p T V moles) (dim : ℕ) :
    let s := StateHD.new T V moles
    (p.nassoc = 0 ∧ (Eos.withOptions p o).residualHelmholtz la s = .ok (nonAssocSum o.dq_variant p s))
    ∨ (0 < p.nassoc ∧ (∃ A, (Eos.withOptions p o).residualHelmholtz la s = .ok (nonAssocSum o.dq_variant p s + A)
        ∧ associationFunctional la p o.max_iter_cross_assoc o.tol_cross_assoc T
          [(associationWeightFunctions p T).bulkRows dim (fun i => moles i / V)] = .ok (.ok [A / V])))
    ∨ (0 < p.nassoc ∧ (∃ e, (Eos.withOptions p o).residualHelmholtz la s = .error e)
      ∧ ∃ e, associationFunctional la p o.max_iter_cross_assoc o.tol_cross_assoc T
          [(associationWeightFunctions p T).bulkRows dim (fun i => moles i / V)] = .ok (.error e)) := by
  intro s
  have hV := h.volume.ne'
  have hd : ∀ i, hsDiameter p T i ≠ 0 := fun i => (h.diameter_pos i).ne'
  have hst : (fun i => V * (moles i / V)) = moles := by
    funext i
    field_simp
  match hl : p.assoc_comp with
  | [] =>
    left
    refine ⟨nassoc_of hl, ?_⟩
    rw [residual_of_nassoc_le_one la p o s (by rw [nassoc_of hl]; simp)]
    simp [residualSum, nonAssocSum, assocEnergy, hl]
  | [a] =>
    right; left
    refine ⟨by rw [nassoc_of hl]; simp, assocEnergy p s, ?_, ?_⟩
    · rw [residual_of_nassoc_le_one la p o s (by rw [nassoc_of hl]; simp)]
      rfl
    · obtain ⟨f, h1, h2⟩ := C35_association_bulk p T hd a hl la o.max_iter_cross_assoc o.tol_cross_assoc dim
        [fun i => moles i / V]
      have h3 := h2 (fun i => moles i / V) (by simp) V hV
      rw [hst, association_eq _ _ _ _ hl] at h3
      have h4 := Except.ok.inj h3
      simp only [List.map_cons, List.map_nil] at h1
      rw [h1]
      congr 3
      rw [eq_div_iff hV, mul_comm, ← h4]
      simp only [assocEnergy, hl]
      rfl
  | a :: b :: l =>
    right
    have h2 : 2 ≤ p.nassoc := by
      rw [nassoc_of hl]
      simp
    have hn : 0 < n := lt_of_le_of_lt (Nat.zero_le _) a.2
    have hlen : p.assoc_comp.length ≠ 1 := by
      rw [hl]
      simp
    obtain ⟨c1, c2⟩ := C35_cross_association_bulk p T hn hd la o.max_iter_cross_assoc o.tol_cross_assoc dim
      (fun i => moles i / V) V hV hlen
    rw [hst] at c1 c2
    rw [residual_of_two_le_nassoc la p o s h2]
    match hc : crossAssociation p o.max_iter_cross_assoc o.tol_cross_assoc la.nderiv (la.solveF _) (la.solveD _) s with
    | .ok A => exact Or.inl ⟨by omega, A, rfl, c1 A hc⟩
    | .error e =>
      refine Or.inr ⟨by omega, ⟨e, rfl⟩, ?_⟩
      exact c2 e hc

/-- C72: the contributions of the mixture functional in a homogeneous fluid add up, together with the ideal
chain term, to the residual Helmholtz energy of the equation of state built from the same parameters and
options, whenever the latter is defined; and if it is not, the functional reports an error as well. Restrictions:
at most one quadrupolar component (C39), and variant DQ35 if there are both kinds of moments (C40). -/
theorem C72_mixture_functional_total (la : LinAlg ℝ ℝ) (pr : Fin n → PureRecord ℝ) (k : Fin n → Fin n → ℝ)
    (T V : ℝ) (moles : Fin n → ℝ) (h : Admissible (fromRecords pr k) T V moles) (v : FMTVersion)
    (o : PcSaftOptions ℝ) (hv : n ≠ 1 ∨ v = .KierlikRosinberg) (hq : (fromRecords pr k).nquadpole ≤ 1)
    (hdq : o.dq_variant = .DQ35 ∨ (fromRecords pr k).ndipole = 0 ∨ (fromRecords pr k).nquadpole = 0)
    (hrho : f64EPSILON < ∑ i, moles i / V) (dim : ℕ) :
    let p := fromRecords pr k
    let rho := fun i => moles i / V
    let bulk := (Functional.withOptions p v o).contributions.map (fun ct => ct.mixtureBulk la p dim T rho)
    (∀ a, (Eos.withOptions p o).residualHelmholtz la (StateHD.new T V moles) = .ok a →
      ∃ phis : List ℝ, bulk = phis.map (fun phi => some (.ok (.ok [phi])))
        ∧ a = V * (phis.sum + idealChainTerm p.m f64EPSILON rho))
    ∧ (∀ e, (Eos.withOptions p o).residualHelmholtz la (StateHD.new T V moles) = .error e →
      ∃ e', some (.ok (.error e')) ∈ bulk) := by
  intro p rho bulk
  have hV := h.volume
  have hVne := hV.ne'
  set s := StateHD.new T V moles with hs
  have hfmt : V * fmtBulk p.chainLength (p.fmtDiameter T) rho = hardSphere p s := C72_fmt_bulk h
  have hatt : attractiveFunctional p T ((attWeightFunctions p PSI_DFT T).bulkRows dim rho)
      = .ok ((dispersion p s + dipole p s + quadrupole p s + dipoleQuadrupole o.dq_variant p s) / V) := by
    have := C38_attractive_bulk pr k moles h hq PSI_DFT (by norm_num [PSI_DFT]) dim hrho
    refine Eq.trans this ?_
    have d1 : (if 0 < p.ndipole then dipole p s else 0) = dipole p s := by
      rcases Nat.eq_zero_or_pos p.ndipole with h0 | h0
      · rw [dipole_eq_zero h0]
        simp
      · rw [if_pos h0]
    have d2 : (if 0 < p.nquadpole then quadrupole p s else 0) = quadrupole p s := by
      rcases Nat.eq_zero_or_pos p.nquadpole with h0 | h0
      · rw [quadrupole_eq_zero h0]
        simp
      · rw [if_pos h0]
    have d3 : (if 0 < p.ndipole ∧ 0 < p.nquadpole then dipoleQuadrupole .DQ35 p s else 0)
        = dipoleQuadrupole o.dq_variant p s := by
      by_cases hpol : p.ndipole = 0 ∨ p.nquadpole = 0
      · rw [dipoleQuadrupole_eq_zero hpol o.dq_variant s, if_neg]
        rcases hpol with h0 | h0
        · exact fun hh : _ ∧ _ => Nat.not_lt.2 (le_of_eq h0) hh.1
        · exact fun hh : _ ∧ _ => Nat.not_lt.2 (le_of_eq h0) hh.2
      · rw [hdq.resolve_right hpol, if_pos]
        rw [not_or] at hpol
        exact ⟨Nat.pos_of_ne_zero hpol.1, Nat.pos_of_ne_zero hpol.2⟩
    change Except.ok ((dispersion p s + (if 0 < p.ndipole then dipole p s else 0)
          + (if 0 < p.nquadpole then quadrupole p s else 0)
          + (if 0 < p.ndipole ∧ 0 < p.nquadpole then dipoleQuadrupole .DQ35 p s else 0)) / V) = _
    rw [d1, d2, d3]
  obtain ⟨phic, hc1, _, hc3, _⟩ := C36_chain_bulk h dim f64EPSILON
  have hc1 : chainFunctional p T ((hardChainWeightFunctions p T true).bulkRows dim rho) = .ok phic := hc1
  have hchain : V * (phic + idealChainTerm p.m f64EPSILON rho) = hardChain p s := hc3 rfl
  have hnot : ¬ ((v = .WhiteBear ∨ v = .AntiSymWhiteBear) ∧ n = 1) := by
    rintro ⟨h1, h2⟩
    rcases hv with hv | hv
    · exact hv h2
    · rw [hv] at h1
      simp at h1
  have h1 : (1.0 : ℝ) = 1 := by norm_num
  have hall : (List.finRange n).any (fun i => !(F64.eq (p.m i) (1.0 : ℝ))) = false →
      hardChain p s = 0 ∧ idealChainTerm p.m f64EPSILON rho = 0 := by
    intro hne
    rw [List.any_eq_false] at hne
    have hm1 : ∀ i, p.m i = 1 := by
      intro i
      have := hne i (List.mem_finRange i)
      rw [h1] at this
      simpa using this
    constructor
    · rw [hardChain_real]
      simp [hm1]
    · simp [idealChainTerm, hm1]
  have hcontr : (Functional.withOptions p v o).contributions = [.fmt v]
      ++ (if (List.finRange n).any (fun i => !(F64.eq (p.m i) (1.0 : ℝ))) then [.chain] else [])
      ++ [.attractive]
      ++ (if 0 < p.nassoc then [.association o.max_iter_cross_assoc o.tol_cross_assoc] else []) := if_neg hnot
  have hbulk : bulk = [some (.ok (.ok [fmtBulk p.chainLength (p.fmtDiameter T) rho]))]
      ++ (if (List.finRange n).any (fun i => !(F64.eq (p.m i) (1.0 : ℝ))) then [some (.ok (.ok [phic]))] else [])
      ++ [some (.ok (.ok [(dispersion p s + dipole p s + quadrupole p s + dipoleQuadrupole o.dq_variant p s) / V]))]
      ++ (if 0 < p.nassoc then [some (associationFunctional la p o.max_iter_cross_assoc o.tol_cross_assoc T
          [(associationWeightFunctions p T).bulkRows dim rho])] else []) := by
    change (Functional.withOptions p v o).contributions.map _ = _
    rw [hcontr]
    split_ifs <;> simp only [List.map_append, List.map_cons, List.map_nil, FunctionalContribution.mixtureBulk,
      hatt, hc1, Bind.bind, Except.bind]
  have hsum : ∀ A, nonAssocSum o.dq_variant p s + A
      = V * (fmtBulk p.chainLength (p.fmtDiameter T) rho + (dispersion p s + dipole p s + quadrupole p s
          + dipoleQuadrupole o.dq_variant p s) / V + A / V) + hardChain p s := by
    intro A
    unfold nonAssocSum
    rw [← hfmt]
    field_simp
    ring
  rcases residual_parts la p o moles h dim with ⟨hn, hres⟩ | ⟨hn, A, hres, hA⟩ | ⟨hn, ⟨e, hres⟩, e', he'⟩
  · have hres : (Eos.withOptions p o).residualHelmholtz la s = .ok (nonAssocSum o.dq_variant p s) := hres
    rw [hres, hbulk]
    refine ⟨fun a ha => ?_, fun e he => by cases he⟩
    obtain rfl := Except.ok.inj ha
    have := hsum 0
    rw [add_zero] at this
    rw [this, if_neg (by omega : ¬ 0 < p.nassoc)]
    by_cases hm : (List.finRange n).any (fun i => !(F64.eq (p.m i) (1.0 : ℝ))) = true
    · refine ⟨[fmtBulk p.chainLength (p.fmtDiameter T) rho, phic, (dispersion p s + dipole p s + quadrupole p s
          + dipoleQuadrupole o.dq_variant p s) / V], ?_, ?_⟩
      · rw [if_pos hm]
        rfl
      · rw [← hchain]
        simp only [List.sum_cons, List.sum_nil]
        ring
    · refine ⟨[fmtBulk p.chainLength (p.fmtDiameter T) rho, (dispersion p s + dipole p s + quadrupole p s
          + dipoleQuadrupole o.dq_variant p s) / V], ?_, ?_⟩
      · rw [if_neg hm]
        rfl
      · obtain ⟨e1, e2⟩ := hall (by simpa using hm)
        rw [e1, e2]
        simp only [List.sum_cons, List.sum_nil]
        ring
  · have hres : (Eos.withOptions p o).residualHelmholtz la s = .ok (nonAssocSum o.dq_variant p s + A) := hres
    have hA : associationFunctional la p o.max_iter_cross_assoc o.tol_cross_assoc T
          [(associationWeightFunctions p T).bulkRows dim rho] = .ok (.ok [A / V]) := hA
    rw [hres, hbulk, hA]
    refine ⟨fun a ha => ?_, fun e he => by cases he⟩
    obtain rfl := Except.ok.inj ha
    rw [hsum A, if_pos hn]
    by_cases hm : (List.finRange n).any (fun i => !(F64.eq (p.m i) (1.0 : ℝ))) = true
    · refine ⟨[fmtBulk p.chainLength (p.fmtDiameter T) rho, phic, (dispersion p s + dipole p s + quadrupole p s
          + dipoleQuadrupole o.dq_variant p s) / V, A / V], ?_, ?_⟩
      · rw [if_pos hm]
        rfl
      · rw [← hchain]
        simp only [List.sum_cons, List.sum_nil]
        ring
    · refine ⟨[fmtBulk p.chainLength (p.fmtDiameter T) rho, (dispersion p s + dipole p s + quadrupole p s
          + dipoleQuadrupole o.dq_variant p s) / V, A / V], ?_, ?_⟩
      · rw [if_neg hm]
        rfl
      · obtain ⟨e1, e2⟩ := hall (by simpa using hm)
        rw [e1, e2]
        simp only [List.sum_cons, List.sum_nil]
        ring
  · have hres : (Eos.withOptions p o).residualHelmholtz la s = .error e := hres
    have he' : associationFunctional la p o.max_iter_cross_assoc o.tol_cross_assoc T
          [(associationWeightFunctions p T).bulkRows dim rho] = .ok (.error e') := he'
    rw [hres, hbulk, he', if_pos hn]
    refine ⟨fun a ha => (by cases ha), fun _ _ => ⟨e', ?_⟩⟩
    simp

/-- records without quadrupole moments -/
theorem nquadpole_of_none (pr : Fin n → PureRecord ℝ) (k : Fin n → Fin n → ℝ)
    (h : ∀ i, (pr i).model_record.q = none) : (fromRecords pr k).nquadpole = 0 := by
  refine Nat.eq_zero_of_not_pos fun hpos => ?_
  obtain ⟨i, hi⟩ := (length_nonzeroComp_pos _).mp hpos
  apply hi
  have hq : (fromRecords pr k).q i = 0 := by
    change ((pr i).model_record.q.getD 0.0 : ℝ) = _
    rw [h i]
    norm_num
  change (fromRecords pr k).q i * (fromRecords pr k).q i / _ * _ * _ = (0 : ℝ)
  rw [hq]
  simp

/-- C72 on a mixture of an associating and an inert component -/
example (la : LinAlg ℝ ℝ) (dim : ℕ) : ∃ phis : List ℝ,
    let p := fromRecords assocRecords (fun _ _ => 0)
    (Functional.new p).contributions.map (fun ct => ct.mixtureBulk la p dim 300 (fun _ => 1 / 1000))
      = phis.map (fun phi => some (.ok (.ok [phi])))
    ∧ (Eos.new p).residualHelmholtz la (StateHD.new (300 : ℝ) 1000 (fun _ => 1))
        = .ok (1000 * (phis.sum + idealChainTerm p.m f64EPSILON (fun _ => 1 / 1000))) := by
  have hq : (fromRecords assocRecords (fun _ _ => (0 : ℝ))).nquadpole = 0 :=
    nquadpole_of_none _ _ (fun i => by fin_cases i <;> rfl)
  obtain ⟨h1, -⟩ := C72_mixture_functional_total la assocRecords (fun _ _ => 0) 300 1000 (fun _ => 1)
    assocRecords_admissible .WhiteBear PcSaftOptions.default (Or.inl (by norm_num)) (by rw [hq]; norm_num)
    (Or.inr (Or.inr hq)) (by rw [f64EPSILON]; norm_num [Fin.sum_univ_two]) dim
  obtain ⟨phis, h2, h3⟩ := h1 _ (residual_of_nassoc_le_one la _ _ _ (by rw [nassoc_of assocRecords_comp]; simp))
  refine ⟨phis, h2, ?_⟩
  rw [← h3]
  exact residual_of_nassoc_le_one la _ _ _ (by rw [nassoc_of assocRecords_comp]; simp)

/-- C72 on a mixture of two associating components: the value of the functional if Newton's method converges -/
example (la : LinAlg ℝ ℝ) (dim : ℕ) (a : ℝ)
    (ha : (Eos.new (fromRecords (rootRecords 1) (fun _ _ => 0))).residualHelmholtz la
      (StateHD.new (300 : ℝ) 1000 ![3, 11]) = .ok a) :
    ∃ phis : List ℝ,
    let p := fromRecords (rootRecords 1) (fun _ _ => 0)
    (Functional.new p).contributions.map (fun ct => ct.mixtureBulk la p dim 300 (fun i => ![3, 11] i / 1000))
      = phis.map (fun phi => some (.ok (.ok [phi])))
    ∧ a = 1000 * (phis.sum + idealChainTerm p.m f64EPSILON (fun i => ![3, 11] i / 1000)) := by
  have hq : (fromRecords (rootRecords 1) (fun _ _ => (0 : ℝ))).nquadpole = 0 :=
    nquadpole_of_none _ _ (fun _ => rfl)
  exact (C72_mixture_functional_total la (rootRecords 1) (fun _ _ => 0) 300 1000 ![3, 11]
    (rootRecords_admissible 1 _) .WhiteBear PcSaftOptions.default (Or.inl (by norm_num)) (by rw [hq]; norm_num)
    (Or.inr (Or.inr hq)) (by rw [f64EPSILON]; norm_num [Fin.sum_univ_two]) dim).1 a ha

end PcSaft.Props
