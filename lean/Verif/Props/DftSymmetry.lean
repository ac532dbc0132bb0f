import Verif.Props.DftInhomogeneous
import Verif.Props.DftPolar
import Verif.Lemmas.MergeInv
import Verif.Props.CrossMixture
import Verif.Props.DftCrossGrid

/-!
# C105: how the functionals treat the list of components in an inhomogeneous fluid

Renumbering the components, adding components that are absent from the whole profile, and describing one component as
several identical ones.
-/

namespace PcSaft.Spec
variable {n n' : ℕ}

/-- The profiles `g'` and `g` describe the same fluid: component `j` of `g'` consists of molecules of kind `φ j`, and
the amount of kind `i` in `g` is what all components of that kind hold together in `g'`. -/
structure SameFluid (φ : Fin n' → Fin n) (g' : ProfileAt n') (g : ProfileAt n) : Prop where
  density : ∀ i, g.density i = ∑ j, if φ j = i then g'.density j else 0
  ball : ∀ R i, g.ball R i = ∑ j, if φ j = i then g'.ball R j else 0
  sphere : ∀ R i, g.sphere R i = ∑ j, if φ j = i then g'.sphere R j else 0
  flux : ∀ R d i, g.flux R d i = ∑ j, if φ j = i then g'.flux R d j else 0

end PcSaft.Spec

namespace PcSaft.Props
open PcSaft Spec
variable {n n' : ℕ} {φ : Fin n' → Fin n} {p' : PcSaftParameters n' ℝ} {p : PcSaftParameters n ℝ}

theorem merge_scale (φ : Fin n' → Fin n) (w : Fin n' → ℝ) (f : Fin n → ℝ) (i : Fin n) :
    merge φ (fun j => f (φ j) * w j) i = f i * merge φ w i := by
  simp only [merge, Finset.mul_sum]
  refine Finset.sum_congr rfl fun j _ => ?_
  split_ifs with h
  · rw [h]
  · ring

/-- sums over components of a quantity taken at a radius that depends on the component -/
theorem merge_radius (φ : Fin n' → Fin n) (b' : ℝ → Fin n' → ℝ) (b : ℝ → Fin n → ℝ)
    (h : ∀ R i, b R i = ∑ j, if φ j = i then b' R j else 0) (R : Fin n → ℝ) (i : Fin n) :
    b (R i) i = merge φ (fun j => b' (R (φ j)) j) i := by
  rw [h]
  refine Finset.sum_congr rfl fun j _ => ?_
  split_ifs with hj
  · subst hj; rfl
  · rfl

theorem segmentDiameter_subset (h : SubsetOf φ p' p) (T : ℝ) (j : Fin n') :
    segmentDiameter p' T j = segmentDiameter p T (φ j) := by
  simp only [segmentDiameter, h.sigma, h.epsilon_k]

/-! ## Attraction -/

/-- what the attractive functional reads -/
theorem attractive_profile (p : PcSaftParameters n ℝ) (psi T : ℝ) (dim : ℕ) (g : ProfileAt n) :
    attractiveFunctional p T ((attWeightFunctions p psi T).rows dim g.values)
      = .ok (dftDispersion p T (fun i => (shapeIntegral .Theta (hsDiameter p T i * psi))⁻¹
            * g.ball (hsDiameter p T i * psi) i)
          + dftPolar p T (fun i => (shapeIntegral .Theta (hsDiameter p T i * psi))⁻¹
            * g.ball (hsDiameter p T i * psi) i)) := by
  have h1 : (attWeightFunctions p psi T).rows dim g.values
      = List.ofFn (fun i => (shapeIntegral .Theta (hsDiameter p T i * psi))⁻¹ * g.ball (hsDiameter p T i * psi) i)
        ++ [] := by
    simp [attWeightFunctions, WeightFunctionInfo.rows, WeightFunctionInfo.add, WeightFunctionInfo.new,
      WeightFunction.newScaled, ProfileAt.values, c]
    rfl
  unfold attractiveFunctional
  rw [h1, rowSlice_head]
  rfl

theorem dftEta_merge (h : SubsetOf φ p' p) (T : ℝ) (w : Fin n' → ℝ) : dftEta p' T w = dftEta p T (merge φ w) := by
  simp only [dftEta, sumFin_real]
  rw [sum_merge]
  simp only [h.m, h.diameter]

theorem dftDispersion_merge (h : SubsetOf φ p' p) (T : ℝ) (w : Fin n' → ℝ) :
    dftDispersion p' T w = dftDispersion p T (merge φ w) := by
  have hM : dftMBar p' w = dftMBar p (merge φ w) := by
    simp only [dftMBar, sumFin_real, sum_merge_one]
    rw [sum_merge]
    simp only [h.m]
  unfold dftDispersion
  simp only [dftEta_merge h, hM, sumFin2_real]
  rw [sum_merge2, sum_merge2]
  simp only [h.m, h.epsilon_k_ij, h.sigma_ij]

theorem dftDipole_merge (h : SubsetOf φ p' p) (hp : PolarOk p) (hp' : PolarOk p')
    (he : ∀ i, p.e_k_ij i i = p.epsilon_k i) (T eta : ℝ) (w : Fin n' → ℝ) :
    dftDipole p' T w eta = dftDipole p T (merge φ w) eta := by
  have he' : ∀ i, p'.e_k_ij i i = p'.epsilon_k i := fun i => by rw [h.e_k_ij, h.epsilon_k, he]
  unfold dftDipole
  rw [dftDipolePhi2_eq he', dftDipolePhi2_eq he, dftDipolePhi3_eq he', dftDipolePhi3_eq he, dipolePhi2_real hp,
    dipolePhi2_real hp', dipolePhi3_real hp, dipolePhi3_real hp']
  simp only [sum_merge2, sum_merge3]
  simp only [dipK2, dipK3, h.pairI, h.tripI, dipoleTerm, h.sigma_ij, h.epsilon_k, h.mu2]

theorem dftDipoleQuadrupole_merge (h : SubsetOf φ p' p) (hp : PolarOk p) (hp' : PolarOk p')
    (he : ∀ i, p.e_k_ij i i = p.epsilon_k i) (T eta : ℝ) (w : Fin n' → ℝ) :
    dftDipoleQuadrupole p' T w eta = dftDipoleQuadrupole p T (merge φ w) eta := by
  have he' : ∀ i, p'.e_k_ij i i = p'.epsilon_k i := fun i => by rw [h.e_k_ij, h.epsilon_k, he]
  unfold dftDipoleQuadrupole
  rw [dftDipoleQuadrupolePhi2_eq he', dftDipoleQuadrupolePhi2_eq he, dftDipoleQuadrupolePhi3_eq he',
    dftDipoleQuadrupolePhi3_eq he, dipoleQuadrupolePhi2_real hp,
    dipoleQuadrupolePhi2_real hp', dipoleQuadrupolePhi3_real hp, dipoleQuadrupolePhi3_real hp']
  simp only [sum_merge2, sum_merge3]
  simp only [dqK2, dqK3d, dqK3q, dqI3, mdqTriplet, h.pairI, muQTerm, dqTerm, h.sigma_ij, h.sigma, h.epsilon_k,
    h.mu2, h.q2, h.m]

theorem dftQuadrupole_merge (h : SubsetOf φ p' p) (hp : PolarOk p) (hp' : PolarOk p')
    (he : ∀ i, p.e_k_ij i i = p.epsilon_k i) (T eta : ℝ) (w : Fin n' → ℝ)
    (hφ : ∀ i j, p.q2 (φ i) ≠ 0 → φ i = φ j → i = j) :
    dftQuadrupole p' T w eta = dftQuadrupole p T (merge φ w) eta := by
  have he' : ∀ i, p'.e_k_ij i i = p'.epsilon_k i := fun i => by rw [h.e_k_ij, h.epsilon_k, he]
  have et : ∀ i, quadrupoleTerm p' T⁻¹ i = quadrupoleTerm p T⁻¹ (φ i) := by
    intro i
    simp only [quadrupoleTerm, h.sigma, h.epsilon_k, h.q2]
  have e2 : ∀ i j, dftQuadK2 p' T eta i j = dftQuadK2 p T eta (φ i) (φ j) := by
    intro i j
    by_cases hq : p.q2 (φ i) = 0
    · have : quadrupoleTerm p T⁻¹ (φ i) = 0 := by simp [quadrupoleTerm, hq]
      simp [dftQuadK2, et, this]
    · have hij : (i = j) = (φ i = φ j) := propext ⟨fun h => by rw [h], hφ i j hq⟩
      simp only [dftQuadK2, h.pairI, et, h.sigma_ij, hij]
  unfold dftQuadrupole
  rw [dftQuadrupolePhi2_real hp he, dftQuadrupolePhi2_real hp' he', dftQuadrupolePhi3_eq he', dftQuadrupolePhi3_eq he,
    quadrupolePhi3_real hp, quadrupolePhi3_real hp']
  simp only [sum_merge2, sum_merge3, e2]
  simp only [quadK3, h.tripI, quadrupoleTerm, h.sigma, h.sigma_ij, h.epsilon_k, h.q2]

/-- the guards on the numbers of polar components do not matter -/
theorem dftPolar_real (hp : PolarOk p) (he : ∀ i, p.e_k_ij i i = p.epsilon_k i) (T : ℝ) (w : Fin n → ℝ) :
    dftPolar p T w = dftDipole p T w (dftEta p T w) + dftQuadrupole p T w (dftEta p T w)
      + dftDipoleQuadrupole p T w (dftEta p T w) := by
  have h0 : (0.0 : ℝ) = 0 := by norm_num
  have hd : ¬ 0 < p.ndipole → dftDipole p T w (dftEta p T w) = 0 ∧ dftDipoleQuadrupole p T w (dftEta p T w) = 0 := by
    intro h
    have hl : p.dipole_comp = [] := List.eq_nil_of_length_eq_zero (Nat.eq_zero_of_not_pos h)
    have hmu : ∀ i, p.mu2 i = 0 := fun i => hp.dip_mem i (by rw [hl]; exact List.not_mem_nil)
    constructor
    · simp only [dftDipole, dftDipolePhi2_eq he, dipolePhi2_real hp, dftPade_real, dipK2, dipoleTerm, hmu]
      simp [c]
    · simp only [dftDipoleQuadrupole, dftDipoleQuadrupolePhi2_eq he, dipoleQuadrupolePhi2_real hp, dftPade_real, dqK2,
        muQTerm, dqTerm, hmu]
      simp [c]
  have hq : ¬ 0 < p.nquadpole → dftQuadrupole p T w (dftEta p T w) = 0
      ∧ dftDipoleQuadrupole p T w (dftEta p T w) = 0 := by
    intro h
    have hl : p.quadpole_comp = [] := List.eq_nil_of_length_eq_zero (Nat.eq_zero_of_not_pos h)
    have hmu : ∀ i, p.q2 i = 0 := fun i => hp.quad_mem i (by rw [hl]; exact List.not_mem_nil)
    constructor
    · simp only [dftQuadrupole, dftQuadrupolePhi2_real hp he, dftPade_real, dftQuadK2, quadrupoleTerm, hmu]
      simp [c]
    · simp only [dftDipoleQuadrupole, dftDipoleQuadrupolePhi2_eq he, dipoleQuadrupolePhi2_real hp, dftPade_real, dqK2,
        muQTerm, dqTerm, hmu]
      simp [c]
  unfold dftPolar
  by_cases h1 : 0 < p.ndipole <;> by_cases h2 : 0 < p.nquadpole <;> simp only [h1, h2, if_true, if_false, and_true,
    and_false, and_self, c, ofF_real, h0, zero_add]
  · rw [(hq h2).1, (hq h2).2]
    ring
  · rw [(hd h1).1, (hd h1).2]
    ring
  · rw [(hd h1).1, (hd h1).2, (hq h2).1]
    ring

theorem dftPolar_merge (h : SubsetOf φ p' p) (hp : PolarOk p) (hp' : PolarOk p')
    (he : ∀ i, p.e_k_ij i i = p.epsilon_k i) (T : ℝ) (w : Fin n' → ℝ)
    (hφ : ∀ i j, p.q2 (φ i) ≠ 0 → φ i = φ j → i = j) : dftPolar p' T w = dftPolar p T (merge φ w) := by
  have he' : ∀ i, p'.e_k_ij i i = p'.epsilon_k i := fun i => by rw [h.e_k_ij, h.epsilon_k, he]
  rw [dftPolar_real hp he, dftPolar_real hp' he', dftEta_merge h, dftDipole_merge h hp hp' he,
    dftDipoleQuadrupole_merge h hp hp' he, dftQuadrupole_merge h hp hp' he _ _ _ hφ]

/-- C105, attraction: describing one component of the profile as several identical ones, renumbering the components,
and adding components that occur nowhere, does not change the attractive part of the functional, as long as no
quadrupolar component is split.  Missing: splitting quadrupolar components, see `C105_counterexample`. -/
theorem C105_attraction_partial (pr : Fin n → PureRecord ℝ) (k : Fin n → Fin n → ℝ) (hm : ∀ i, 0 ≤ (pr i).model_record.m)
    (he : ∀ i, 0 ≤ (pr i).model_record.epsilon_k) (φ : Fin n' → Fin n)
    (hφ : ∀ i j, (fromRecords pr k).q2 (φ i) ≠ 0 → φ i = φ j → i = j) (psi T : ℝ) (dim : ℕ) (g' : ProfileAt n')
    (g : ProfileAt n) (hg : SameFluid φ g' g) :
    let p := fromRecords pr k
    let p' := fromRecords (fun j => pr (φ j)) (fun i j => k (φ i) (φ j))
    attractiveFunctional p' T ((attWeightFunctions p' psi T).rows dim g'.values)
      = attractiveFunctional p T ((attWeightFunctions p psi T).rows dim g.values) := by
  intro p p'
  have h : SubsetOf φ p' p := subsetOf_fromRecords pr k φ
  rw [attractive_profile, attractive_profile]
  have e : (fun i => (shapeIntegral .Theta (hsDiameter p T i * psi))⁻¹ * g.ball (hsDiameter p T i * psi) i)
      = merge φ (fun j => (shapeIntegral .Theta (hsDiameter p' T j * psi))⁻¹ * g'.ball (hsDiameter p' T j * psi) j) := by
    funext i
    rw [merge_radius φ g'.ball g.ball hg.ball (fun i => hsDiameter p T i * psi), ← merge_scale φ _
      (fun i => (shapeIntegral .Theta (hsDiameter p T i * psi))⁻¹)]
    simp only [h.diameter]
  rw [e, dftDispersion_merge h, dftPolar_merge h (polarOk_fromRecords pr k hm) (polarOk_fromRecords _ _ fun j => hm _)
    (fromRecords_e_diag pr k he) _ _ hφ]

/-- a homogeneous fluid -/
noncomputable def bulkProfile (rho : Fin n → ℝ) : ProfileAt n where
  density := rho
  ball := fun R i => shapeIntegral .Theta R * rho i
  sphere := fun R i => shapeIntegral .Delta R * rho i
  flux := fun _ _ _ => 0

theorem bulkProfile_attraction (p : PcSaftParameters n ℝ) (psi T : ℝ) (dim : ℕ) (rho : Fin n → ℝ) :
    (attWeightFunctions p psi T).rows dim (bulkProfile rho).values = (attWeightFunctions p psi T).bulkRows dim rho := by
  simp [attWeightFunctions, WeightFunctionInfo.bulkRows, WeightFunctionInfo.rows, WeightFunctionInfo.add,
    WeightFunctionInfo.new, WeightFunction.newScaled, bulkValues, WeightFunction.bulkWeight, ProfileAt.values,
    bulkProfile, c]
  funext i
  exact (mul_assoc _ _ _).symm

/-- C105 fails for quadrupoles: in a homogeneous fluid of quadrupolar spheres the attractive part of the functional
changes when the fluid is described as an equimolar mixture of two identical components. -/
theorem C105_counterexample : ∃ (g' : ProfileAt 2) (g : ProfileAt 1), SameFluid (fun _ => 0) g' g ∧
    let p := fromRecords (fun _ : Fin 1 => testRecord 1 3 none (some 4)) (fun _ _ => 0)
    let p' := fromRecords (fun _ : Fin 2 => testRecord 1 3 none (some 4)) (fun _ _ => 0)
    ∀ dim, attractiveFunctional p' 100 ((attWeightFunctions p' PSI_DFT 100).rows dim g'.values)
      ≠ attractiveFunctional p 100 ((attWeightFunctions p PSI_DFT 100).rows dim g.values) := by
  obtain ⟨V, hadm, hnd, hnq, hrho, h⟩ := C39_counterexample
  set φ : Fin 2 → Fin 1 := fun _ => 0 with hφ
  refine ⟨bulkProfile (fun _ => 1 / V), bulkProfile (fun _ => 2 / V), ⟨?_, ?_, ?_, ?_⟩, ?_⟩
  · intro i
    rw [Subsingleton.elim i 0]
    simp only [bulkProfile, Fin.sum_univ_two, hφ, if_true]
    ring
  · intro R i
    rw [Subsingleton.elim i 0]
    simp only [bulkProfile, Fin.sum_univ_two, hφ, if_true]
    ring
  · intro R i
    rw [Subsingleton.elim i 0]
    simp only [bulkProfile, Fin.sum_univ_two, hφ, if_true]
    ring
  · intro R d i
    simp [bulkProfile]
  intro p p' dim heq
  obtain ⟨phi, h1, h2⟩ := h dim
  have hsub : SubsetOf φ p' p := subsetOf_fromRecords (fun _ : Fin 1 => testRecord 1 3 none (some 4)) (fun _ _ => 0) φ
  have hok : PolarOk p := polarOk_fromRecords _ _ fun _ => by norm_num [testRecord]
  have hok' : PolarOk p' := polarOk_fromRecords _ _ fun _ => by norm_num [testRecord]
  have hadm' : Admissible p' 100 V (fun _ => 1) := hadm
  have hV := hadm.volume
  have hmerge : merge φ (fun _ => (1 : ℝ) / V) = fun _ => 2 / V := by
    funext i
    rw [Subsingleton.elim i 0]
    simp only [merge, hφ, if_true, Fin.sum_univ_two]
    ring
  have hmerge' : merge φ (fun _ => (1 : ℝ)) = fun _ => 2 := by
    funext i
    rw [Subsingleton.elim i 0]
    simp only [merge, hφ, if_true, Fin.sum_univ_two]
    norm_num
  have hd : ∀ i, 0 < hsDiameter p (100 : ℝ) i := fun i => by
    rw [Subsingleton.elim i (φ 0), ← hsub.diameter]
    exact hadm'.diameter_pos 0
  have hval : ∀ rho : Fin 1 → ℝ, attractiveFunctional p 100 ((attWeightFunctions p PSI_DFT 100).bulkRows dim rho)
      = .ok (dftDispersion p 100 rho + dftPolar p 100 rho) := by
    intro rho
    have hl : List.ofFn rho = List.ofFn rho ++ [] := by simp
    rw [attractive_rows hd _ (by norm_num [PSI_DFT]), attractiveFunctional, hl, rowSlice_head]
    rfl
  have hval' : ∀ rho : Fin 2 → ℝ, attractiveFunctional p' 100 ((attWeightFunctions p' PSI_DFT 100).bulkRows dim rho)
      = .ok (dftDispersion p' 100 rho + dftPolar p' 100 rho) := by
    intro rho
    have hl : List.ofFn rho = List.ofFn rho ++ [] := by simp
    rw [attractive_rows (fun i => hadm'.diameter_pos i) _ (by norm_num [PSI_DFT]), attractiveFunctional, hl,
      rowSlice_head]
    rfl
  have h1 : attractiveFunctional p' 100 ((attWeightFunctions p' PSI_DFT 100).bulkRows dim (fun _ => 1 / V)) = .ok phi := h1
  have h2 : V * phi ≠ dispersion p' (StateHD.new (100 : ℝ) V (fun _ => 1))
    + quadrupole p' (StateHD.new (100 : ℝ) V (fun _ => 1)) := h2
  rw [bulkProfile_attraction, bulkProfile_attraction] at heq
  have hv' := attractive_value p' hadm' dim hrho
  rw [h1] at heq
  rw [h1, Except.ok.injEq] at hv'
  rw [hval, ← hmerge, ← dftDispersion_merge hsub] at heq
  have h3 := hval' (fun _ => 1 / V)
  rw [h1, Except.ok.injEq] at h3
  have hpol : dftPolar p' 100 (fun _ => 1 / V) = dftPolar p 100 (merge φ (fun _ => 1 / V)) := by
    have := Except.ok.inj heq
    linarith
  have hmu : ∀ i, p.mu2 i = 0 := fun i => test_mu2_zero 3 _ _ i (some 4) rfl
  have hn0 : p.ndipole = 0 := by
    by_contra hc
    obtain ⟨i, hi⟩ := (length_nonzeroComp_pos p.mu2).mp (Nat.pos_of_ne_zero hc)
    exact hi (hmu i)
  have hn1 : 0 < p.nquadpole := (length_nonzeroComp_pos p.q2).mpr ⟨0, (test_q2_pos 3 (by norm_num) _ _ 0 none rfl).ne'⟩
  have hn2 : p.nquadpole ≤ 1 := length_nonzeroComp_le_one p.q2 0 fun i _ => Subsingleton.elim i 0
  have hq := C39_quadrupole_bulk_partial (fun _ : Fin 1 => testRecord 1 3 none (some 4)) (fun _ _ => 0)
    (fun _ => by norm_num [testRecord]) hn2 100 V (fun _ => 2)
  have h0 : (0.0 : ℝ) = 0 := by norm_num
  have he : dftPolar p 100 (fun _ => 2 / V)
      = dftQuadrupole p 100 (fun _ => 2 / V) (dftEta p 100 (fun _ => 2 / V)) := by
    simp [dftPolar, hn0, hn1, c, h0]
  refine h2 ?_
  rw [hv', hpol, hmerge, he, mul_add, mul_div_cancel₀ _ hV.ne']
  congr 1
  refine hq.trans ?_
  rw [hsub.quadrupole hok hok' (Or.inl fun _ _ _ => le_rfl), hmerge']

/-! ## Chains -/

/-- what the chain functional computes -/
theorem chain_profile (p : PcSaftParameters n ℝ) (T : ℝ) (dim : ℕ) (g : ProfileAt n) :
    chainFunctional p T ((hardChainWeightFunctions p T true).rows dim g.values)
      = .ok (-∑ i, chainTerm (hsDiameter p T i) (p.m i) (g.density i)
          (chainLambda ((shapeIntegral .Delta (hsDiameter p T i))⁻¹ * g.sphere (hsDiameter p T i) i))
          (∑ i, p.m i / (hsDiameter p T i * 8) * g.ball (hsDiameter p T i) i)
          (DualNum.recip (-(∑ i, p.m i / 8 * g.ball (hsDiameter p T i) i) + c (1.0 : ℝ)))) := by
  have h8 : (8.0 : ℝ) = 8 := by norm_num
  have h0 : (0.0 : ℝ) = 0 := by norm_num
  obtain ⟨wl, w2, w3, s0, s2, s3, r0, r2, r3, p0, p2, p3, h⟩ := C55_chain_rows p T dim g.values
  rw [h, foldl_sub]
  simp only [ProfileAt.values, ProfileAt.weighted, s0, s2, s3, r0, r2, r3, p0, p2, p3, recip_real, c, ofF_real, h8, h0,
    zero_sub]

/-- C105, chains: renumbering the components of the profile, and adding components that occur nowhere, does not change
the chain part of the functional; nor does it matter whether a component of single spheres is described as several
identical ones. -/
theorem C105_chains (pr : Fin n → PureRecord ℝ) (k : Fin n → Fin n → ℝ) (φ : Fin n' → Fin n)
    (hφ : ∀ i j, (pr (φ i)).model_record.m ≠ 1 → φ i = φ j → i = j) (T : ℝ) (dim : ℕ) (g' : ProfileAt n')
    (g : ProfileAt n) (hg : SameFluid φ g' g) :
    let p := fromRecords pr k
    let p' := fromRecords (fun j => pr (φ j)) (fun i j => k (φ i) (φ j))
    chainFunctional p' T ((hardChainWeightFunctions p' T true).rows dim g'.values)
      = chainFunctional p T ((hardChainWeightFunctions p T true).rows dim g.values) := by
  intro p p'
  have h : SubsetOf φ p' p := subsetOf_fromRecords pr k φ
  rw [chain_profile, chain_profile]
  have hsum : ∀ f : Fin n → ℝ, ∑ i, f i * g.ball (hsDiameter p T i) i
      = ∑ j, f (φ j) * g'.ball (hsDiameter p' T j) j := by
    intro f
    simp only [fun i => merge_radius φ g'.ball g.ball hg.ball (fun i => hsDiameter p T i) i]
    simp only [mul_comm (f _)]
    rw [sum_merge]
    simp only [h.diameter]
  rw [hsum (fun i => p.m i / (hsDiameter p T i * 8)), hsum (fun i => p.m i / 8)]
  simp only [h.m, h.diameter]
  generalize ∑ j, p.m (φ j) / (hsDiameter p T (φ j) * 8) * g'.ball (hsDiameter p T (φ j)) j = z2
  generalize (DualNum.recip (-(∑ j, p.m (φ j) / 8 * g'.ball (hsDiameter p T (φ j)) j) + c (1.0 : ℝ)) : ℝ) = z3
  have hlin : ∀ d m rho l : ℝ, chainTerm d m rho l z2 z3 = rho * chainTerm d m 1 l z2 z3 := by
    intro d m rho l
    simp only [chainTerm]
    ring
  congr 2
  have hd : ∀ i, g.density i = merge φ g'.density i := hg.density
  rw [Finset.sum_congr rfl fun i _ => hlin (hsDiameter p T i) (p.m i) (g.density i) _]
  simp only [hd]
  rw [sum_merge]
  refine Finset.sum_congr rfl fun j _ => ?_
  rw [hlin _ _ (g'.density j)]
  by_cases hm : (pr (φ j)).model_record.m = 1
  · have hm' : p.m (φ j) = 1 := hm
    have h1 : (1.0 : ℝ) = 1 := by norm_num
    simp [chainTerm, hm', c, h1]
  · have : g.sphere (hsDiameter p T (φ j)) (φ j) = g'.sphere (hsDiameter p T (φ j)) j := by
      rw [hg.sphere, Finset.sum_eq_single j]
      · simp
      · intro b _ hb
        exact if_neg fun h => hb (hφ j b hm h.symm).symm
      · simp
    rw [this]

/-! ## Association -/

theorem nonzeroComp_comp' (φ : Fin n' → Fin n) (v : Fin n → ℝ) (j : Fin n') (hφ : ∀ i, φ i = φ j → i = j)
    (h : nonzeroComp v = [φ j]) : nonzeroComp (fun i => v (φ i)) = [j] := by
  have hm : ∀ i, i ∈ nonzeroComp (fun i => v (φ i)) ↔ i = j := by
    intro i
    rw [mem_nonzeroComp, ← mem_nonzeroComp, h, List.mem_singleton]
    exact ⟨hφ i, fun h => by rw [h]⟩
  have hnd := (nonzeroComp_sorted (fun i => v (φ i))).nodup
  match hl : nonzeroComp (fun i => v (φ i)) with
  | [] => simpa [hl] using (hm j).mpr rfl
  | [a] => rw [hl] at hm; simpa using (hm a).mp (by simp)
  | a :: b :: l =>
    rw [hl] at hm hnd
    have h1 := (hm a).mp (by simp)
    have h2 := (hm b).mp (by simp)
    simp [h1, h2] at hnd

/-- what the association functional reads of a profile -/
noncomputable def assocAt (p : PcSaftParameters n ℝ) (T : ℝ) (dim : ℕ) (g : ProfileAt n) : AssocDensities n ℝ :=
  ⟨fun i => g.sphere (segmentDiameter p T i / 2) i / (4 * Real.pi * (segmentDiameter p T i / 2) ^ 2),
    (List.range dim).map (g.n2v p T), g.n3 p T⟩

theorem assocAt_merge (h : SubsetOf φ p' p) (T : ℝ) (dim : ℕ) {g' : ProfileAt n'} {g : ProfileAt n}
    (hg : SameFluid φ g' g) :
    (assocAt p T dim g).n0i = merge φ (assocAt p' T dim g').n0i
      ∧ (∀ d, g.n2v p T d = merge φ (g'.n2v p' T d)) ∧ (assocAt p T dim g).n3 = (assocAt p' T dim g').n3 := by
  refine ⟨?_, ?_, ?_⟩
  · funext i
    simp only [assocAt]
    rw [merge_radius φ g'.sphere g.sphere hg.sphere (fun i => segmentDiameter p T i / 2), div_eq_inv_mul,
      ← merge_scale φ _ (fun i => (4 * Real.pi * (segmentDiameter p T i / 2) ^ 2)⁻¹)]
    simp only [segmentDiameter_subset h, div_eq_inv_mul]
  · intro d
    funext i
    simp only [ProfileAt.n2v]
    rw [merge_radius φ (fun R => g'.flux R d) (fun R => g.flux R d) (fun R => hg.flux R d)
      (fun i => segmentDiameter p T i / 2), ← merge_scale φ _ p.m]
    congr 1
    funext j
    rw [ProfileAt.n2v, segmentDiameter_subset h, h.m]
  · simp only [assocAt, ProfileAt.n3]
    rw [Finset.sum_congr rfl fun i _ => by
      rw [merge_radius φ g'.ball g.ball hg.ball (fun i => segmentDiameter p T i / 2) i, mul_comm], sum_merge]
    refine Finset.sum_congr rfl fun j _ => ?_
    rw [segmentDiameter_subset h, h.m, mul_comm]

/-- surface densities, their correction, and the bondable densities -/
theorem assocParts_merge (h : SubsetOf φ p' p) (T : ℝ) (dim : ℕ) {g' : ProfileAt n'} {g : ProfileAt n}
    (hg : SameFluid φ g' g) :
    assocN2Total p (fun i => hsDiameter p T i * c (0.5 : ℝ)) (assocAt p T dim g)
        = assocN2Total p' (fun i => hsDiameter p' T i * c (0.5 : ℝ)) (assocAt p' T dim g')
      ∧ assocXi p (fun i => hsDiameter p T i * c (0.5 : ℝ)) (assocAt p T dim g)
        = assocXi p' (fun i => hsDiameter p' T i * c (0.5 : ℝ)) (assocAt p' T dim g')
      ∧ (∀ a, (∀ i, φ i = φ a → i = a) → assocRho0 p (fun i => hsDiameter p T i * c (0.5 : ℝ)) (assocAt p T dim g) (φ a)
        = assocRho0 p' (fun i => hsDiameter p' T i * c (0.5 : ℝ)) (assocAt p' T dim g') a)
      ∧ ∀ i, (∀ j, φ j ≠ i) → assocRho0 p (fun i => hsDiameter p T i * c (0.5 : ℝ)) (assocAt p T dim g) i = 0 := by
  obtain ⟨e0, ev, e3⟩ := assocAt_merge h T dim hg
  have hr : ∀ j, hsDiameter p' T j * c (0.5 : ℝ) = hsDiameter p T (φ j) * c (0.5 : ℝ) := fun j => by rw [h.diameter]
  have hn2i : ∀ i, assocN2i p (fun i => hsDiameter p T i * c (0.5 : ℝ)) (assocAt p T dim g) i
      = merge φ (assocN2i p' (fun i => hsDiameter p' T i * c (0.5 : ℝ)) (assocAt p' T dim g')) i := by
    intro i
    rw [assocN2i, e0, mul_comm, ← merge_scale φ _ (fun i => DualNum.powi (hsDiameter p T i * c (0.5 : ℝ)) 2
      * c (p.m i * 4.0 * F64.pi))]
    congr 1
    funext j
    rw [assocN2i, hr, h.m, mul_comm]
  have hn2 : assocN2Total p (fun i => hsDiameter p T i * c (0.5 : ℝ)) (assocAt p T dim g)
      = assocN2Total p' (fun i => hsDiameter p' T i * c (0.5 : ℝ)) (assocAt p' T dim g') := by
    simp only [assocN2Total, sumFin_real, hn2i]
    exact sum_merge_one φ _
  refine ⟨hn2, ?_, fun a hφ => ?_, fun i hi => ?_⟩
  · have e : (assocAt p T dim g).n2v.foldl (fun acc v => acc + sumFin v * sumFin v) (c (0.0 : ℝ))
        = (assocAt p' T dim g').n2v.foldl (fun acc v => acc + sumFin v * sumFin v) (c (0.0 : ℝ)) := by
      rw [foldl_sq (fun v => sumFin v), foldl_sq (fun v => sumFin v)]
      simp only [assocAt, List.map_map, Function.comp_def, sumFin_real, ev, sum_merge_one]
    simp only [assocXi, hn2, e]
    rw [e0]
    simp only [sumFin_real, sum_merge_one]
  · have hat : ∀ w : Fin n' → ℝ, merge φ w (φ a) = w a := by
      intro w
      simp only [merge]
      rw [Finset.sum_eq_single a]
      · simp
      · intro b _ hb
        exact if_neg fun h => hb (hφ b h)
      · simp
    have e : (assocAt p T dim g).n2v.foldl (fun acc v => acc + v (φ a) * v (φ a)) (c (0.0 : ℝ))
        = (assocAt p' T dim g').n2v.foldl (fun acc v => acc + v a * v a) (c (0.0 : ℝ)) := by
      rw [foldl_sq (fun v => v (φ a)), foldl_sq (fun v => v a)]
      simp only [assocAt, List.map_map, Function.comp_def, ev, hat]
    simp only [assocRho0, e, hn2i, hat]
    rw [e0, hat]
  · simp only [assocRho0, e0, merge_of_not_range _ i hi, mul_zero, ite_self]

theorem assocSingle_merge (pr : Fin n → PureRecord ℝ) (k : Fin n → Fin n → ℝ) (φ : Fin n' → Fin n) (a : Fin n')
    (hφ : ∀ i, φ i = φ a → i = a) (T : ℝ) (dim : ℕ) {g' : ProfileAt n'} {g : ProfileAt n} (hg : SameFluid φ g' g) :
    let p := fromRecords pr k
    let p' := fromRecords (fun j => pr (φ j)) (fun i j => k (φ i) (φ j))
    assocFunctionalSingle p' T a (assocAt p' T dim g') = assocFunctionalSingle p T (φ a) (assocAt p T dim g) := by
  intro p p'
  have h : SubsetOf φ p' p := subsetOf_fromRecords pr k φ
  obtain ⟨hn2, hxi, hrho, -⟩ := assocParts_merge h T dim hg
  obtain ⟨-, -, e3⟩ := assocAt_merge h T dim hg
  have hk : p'.kappa_aibj a a = p.kappa_aibj (φ a) (φ a) := kappa_aibj_subset pr k φ a a
  have hek : p'.epsilon_k_aibj a a = p.epsilon_k_aibj (φ a) (φ a) := epsilon_k_aibj_subset pr k φ a a
  have hna : p'.na a = p.na (φ a) := rfl
  have hnb : p'.nb a = p.nb (φ a) := rfl
  simp only [assocFunctionalSingle]
  rw [hrho a hφ, hn2, hxi, e3, hk, hek, hna, hnb, h.sigma, h.diameter]

/-- C105, association: with one associating component that is not split, renumbering the components of the profile,
adding components that occur nowhere, and describing other components as several identical ones does not change the
association part of the functional on any grid. -/
theorem C105_association (pr : Fin n → PureRecord ℝ) (k : Fin n → Fin n → ℝ) (φ : Fin n' → Fin n) (a : Fin n')
    (hφ : ∀ i, φ i = φ a → i = a) (ha : (fromRecords pr k).assoc_comp = [φ a]) (la : LinAlg ℝ ℝ) (N : ℕ) (tol T : ℝ)
    (dim : ℕ) {γ : Type} (G : List γ) (g' : γ → ProfileAt n') (g : γ → ProfileAt n)
    (hg : ∀ x ∈ G, SameFluid φ (g' x) (g x)) :
    let p := fromRecords pr k
    let p' := fromRecords (fun j => pr (φ j)) (fun i j => k (φ i) (φ j))
    p'.assoc_comp = [a] ∧
    associationFunctional la p' N tol T (G.map fun x => (associationWeightFunctions p' T).rows dim (g' x).values)
      = associationFunctional la p N tol T (G.map fun x => (associationWeightFunctions p T).rows dim (g x).values) := by
  intro p p'
  have ha' : p'.assoc_comp = [a] := nonzeroComp_comp' φ _ a hφ ha
  refine ⟨ha', ?_⟩
  have e1 := association_profile p' T a ha' la N tol dim (G.map g')
  have e2 := association_profile p T (φ a) ha la N tol dim (G.map g)
  simp only [List.map_map, Function.comp_def] at e1 e2
  rw [e1, e2]
  congr 2
  exact List.map_congr_left fun x hx => assocSingle_merge pr k φ a hφ T dim (hg x hx)

/-- C105: where the only associating component does not occur, the association functional is zero, as without the
component. -/
theorem C105_association_absent (pr : Fin n → PureRecord ℝ) (k : Fin n → Fin n → ℝ) (φ : Fin n' → Fin n) (a : Fin n)
    (hφ : ∀ i, φ i ≠ a) (ha : (fromRecords pr k).assoc_comp = [a]) (la : LinAlg ℝ ℝ) (N : ℕ) (tol T : ℝ)
    (dim : ℕ) {γ : Type} (G : List γ) (g' : γ → ProfileAt n') (g : γ → ProfileAt n)
    (hg : ∀ x ∈ G, SameFluid φ (g' x) (g x)) :
    let p := fromRecords pr k
    let p' := fromRecords (fun j => pr (φ j)) (fun i j => k (φ i) (φ j))
    p'.assoc_comp = [] ∧
    associationFunctional la p N tol T (G.map fun x => (associationWeightFunctions p T).rows dim (g x).values)
      = .ok (.ok (G.map fun _ => 0)) := by
  intro p p'
  refine ⟨nonzeroComp_comp_nil φ _ a ha hφ, ?_⟩
  have e2 := association_profile p T a ha la N tol dim (G.map g)
  simp only [List.map_map, Function.comp_def] at e2
  rw [e2]
  congr 2
  refine List.map_congr_left fun x hx => ?_
  have h0 : (g x).sphere (segmentDiameter p T a / 2) a = 0 := by
    rw [(hg x hx).sphere]
    exact Finset.sum_eq_zero fun j _ => if_neg (hφ j)
  have hrho : assocRho0 p (fun i => hsDiameter p T i * c (0.5 : ℝ)) (assocAt p T dim (g x)) a = 0 := by
    simp only [assocRho0, assocAt, h0, zero_div, mul_zero, ite_self]
  change assocFunctionalSingle p T a (assocAt p T dim (g x)) = 0
  simp only [assocFunctionalSingle, hrho, mul_zero, ite_self]

/-- one point of the grid with several associating components, in plain numbers -/
theorem crossPoint_real {m : ℕ} (la : LinAlg ℝ ℝ) (h0 : la.nderiv = 0) (max_iter : ℕ) (tol T : ℝ)
    (q : PcSaftParameters m ℝ) (w : AssocDensities m ℝ) (x : Fin q.assoc_comp.length ⊕ Fin q.assoc_comp.length → ℝ) :
    assocFunctionalCrossPoint la q max_iter tol T w x
      = show Except EosError ℝ × Option (Fin q.assoc_comp.length ⊕ Fin q.assoc_comp.length → ℝ) from
        if ∑ i, pointDensity q T w i < f64EPSILON then (.ok 0, some fun _ => 1)
        else match newtonLoop (newtonStep (la.solveF _) (pointStrength q T w) (assocNa q) (assocNb q)
            (assocRho q (pointDensity q T w)) tol) max_iter x with
          | .error e => (.error e, some x)
          | .ok y => (.ok (specEnergy (assocNa q) (assocNb q) (assocRho q (pointDensity q T w)) y), some y) := by
  have hz : (0.0 : ℝ) = 0 := by norm_num
  have h1 : (1.0 : ℝ) = 1 := by norm_num
  unfold assocFunctionalCrossPoint crossAssociationDensity
  simp only [lt_real, re_real, sumFin_real, decide_eq_true_eq, Option.getD_some, Option.map_some, h0, newtonDual, c,
    ofF_real, hz, h1]
  change (if ∑ i, pointDensity q T w i < f64EPSILON then _ else _) = _
  by_cases hlt : ∑ i, pointDensity q T w i < f64EPSILON
  · simp only [hlt, if_true]
  · simp only [hlt, if_false]
    have hl : newtonLoop (newtonStep (la.solveF _) (fun i j => associationStrength q T
        (fun i => hsDiameter q T i * (0.5 : ℝ)) (assocN2Total q (fun i => hsDiameter q T i * (0.5 : ℝ)) w)
        (DualNum.recip (-w.n3 + 1)) (assocXi q (fun i => hsDiameter q T i * (0.5 : ℝ)) w) (q.assoc_comp.get i)
        (q.assoc_comp.get j)) (fun i => q.na (q.assoc_comp.get i)) (fun i => q.nb (q.assoc_comp.get i))
        (fun i => assocRho0 q (fun i => hsDiameter q T i * (0.5 : ℝ)) w (q.assoc_comp.get i)) tol) max_iter x
        = newtonLoop (newtonStep (la.solveF _) (pointStrength q T w) (assocNa q) (assocNb q)
            (assocRho q (pointDensity q T w)) tol) max_iter x := by
      have : pointStrength q T w = fun i j => associationStrength q T
        (fun i => hsDiameter q T i * (0.5 : ℝ)) (assocN2Total q (fun i => hsDiameter q T i * (0.5 : ℝ)) w)
        (DualNum.recip (-w.n3 + 1)) (assocXi q (fun i => hsDiameter q T i * (0.5 : ℝ)) w) (q.assoc_comp.get i)
        (q.assoc_comp.get j) := by
        rw [← h1]
        rfl
      rw [this]
      rfl
    rw [hl]
    cases newtonLoop (newtonStep (la.solveF _) (pointStrength q T w) (assocNa q) (assocNb q)
            (assocRho q (pointDensity q T w)) tol) max_iter x with
    | error e => rfl
    | ok y =>
      simp only
      rw [← energyOf_real]
      simp only [energyOf, sumFin_real, c, ofF_real]
      rfl

/-- one point of the grid with several associating components: the site fractions are renumbered, too -/
theorem crossPoint_merge (la : LinAlg ℝ ℝ) (hs : ∀ k, ExactSolver (la.solveF k)) (h0 : la.nderiv = 0) (max_iter : ℕ)
    (tol T : ℝ) {wd' : AssocDensities n' ℝ} {wd : AssocDensities n ℝ}
    (e : Fin p'.assoc_comp.length ≃ Fin p.assoc_comp.length)
    (hna : ∀ i, assocNa p' i = assocNa p (e i)) (hnb : ∀ i, assocNb p' i = assocNb p (e i))
    (hstr : ∀ i j, pointStrength p' T wd' i j = pointStrength p T wd (e i) (e j))
    (hrho : ∀ i, assocRho p' (pointDensity p' T wd') i = assocRho p (pointDensity p T wd) (e i))
    (hsum : ∑ i, pointDensity p' T wd' i = ∑ i, pointDensity p T wd i)
    (x : Fin p.assoc_comp.length ⊕ Fin p.assoc_comp.length → ℝ) :
    assocFunctionalCrossPoint la p' max_iter tol T wd' (fun s => x (siteEquiv e s))
      = ((assocFunctionalCrossPoint la p max_iter tol T wd x).1,
        (assocFunctionalCrossPoint la p max_iter tol T wd x).2.map fun y s => y (siteEquiv e s)) := by
  rw [crossPoint_real la h0, crossPoint_real la h0, hsum]
  by_cases hlt : ∑ i, pointDensity p T wd i < f64EPSILON
  · simp [hlt]
  · simp only [hlt, if_false]
    have e1 := funext fun i => funext (hstr i)
    have e2 := funext hna
    have e3 := funext hnb
    have e4 : assocRho p' (pointDensity p' T wd') = fun i => assocRho p (pointDensity p T wd) (e i) := funext hrho
    rw [e1, e2, e3, e4, newtonLoop_perm e _ _ _ _ (hs _) (hs _)]
    cases newtonLoop (newtonStep (la.solveF _) (pointStrength p T wd) (assocNa p) (assocNb p)
              (assocRho p (pointDensity p T wd)) tol) max_iter x with
    | error _ => rfl
    | ok y =>
      simp only [Except.map, Option.map_some]
      congr 2
      unfold specEnergy
      rw [← Equiv.sum_comp e]
      rfl

theorem pointStrength_merge (pr : Fin n → PureRecord ℝ) (k : Fin n → Fin n → ℝ) (φ : Fin n' → Fin n) (T : ℝ) (dim : ℕ)
    {g' : ProfileAt n'} {g : ProfileAt n} (hg : SameFluid φ g' g) :
    let p := fromRecords pr k
    let p' := fromRecords (fun j => pr (φ j)) (fun i j => k (φ i) (φ j))
    ∀ (e : Fin p'.assoc_comp.length ≃ Fin p.assoc_comp.length)
      (_ : ∀ i, p.assoc_comp.get (e i) = φ (p'.assoc_comp.get i)) (i j : Fin p'.assoc_comp.length),
    pointStrength p' T (assocAt p' T dim g') i j = pointStrength p T (assocAt p T dim g) (e i) (e j) := by
  intro p p' e he i j
  have h : SubsetOf φ p' p := subsetOf_fromRecords pr k φ
  obtain ⟨hn2, hxi, -, -⟩ := assocParts_merge h T dim hg
  obtain ⟨-, -, e3⟩ := assocAt_merge h T dim hg
  have hk : ∀ i j, p'.kappa_aibj i j = p.kappa_aibj (φ i) (φ j) := kappa_aibj_subset pr k φ
  have hek : ∀ i j, p'.epsilon_k_aibj i j = p.epsilon_k_aibj (φ i) (φ j) := epsilon_k_aibj_subset pr k φ
  unfold pointStrength strengths
  simp only [associationStrength]
  rw [← hn2, ← hxi, ← e3, he, he, hk, hek, h.diameter, h.diameter, h.sigma, h.sigma]

/-- C105, several associating components: renumbering the components of the profile, and adding components that occur
nowhere and do not associate, does not change the association part of the functional on any grid, including whether the
iteration at some point fails; linear equations are taken to be solved exactly. -/
theorem C105_cross_association (pr : Fin n → PureRecord ℝ) (k : Fin n → Fin n → ℝ) (φ : Fin n' → Fin n)
    (hφ : Function.Injective φ) (ha : ∀ a, (fromRecords pr k).kappa_ab a ≠ 0 → ∃ j, φ j = a)
    (h2 : 2 ≤ (fromRecords pr k).nassoc) (la : LinAlg ℝ ℝ) (h0 : la.nderiv = 0) (hs : ∀ k, ExactSolver (la.solveF k))
    (N : ℕ) (tol T : ℝ) (dim : ℕ) {γ : Type} (G : List γ) (g' : γ → ProfileAt n') (g : γ → ProfileAt n)
    (hg : ∀ x ∈ G, SameFluid φ (g' x) (g x)) :
    let p := fromRecords pr k
    let p' := fromRecords (fun j => pr (φ j)) (fun i j => k (φ i) (φ j))
    associationFunctional la p' N tol T (G.map fun x => (associationWeightFunctions p' T).rows dim (g' x).values)
      = associationFunctional la p N tol T (G.map fun x => (associationWeightFunctions p T).rows dim (g x).values) := by
  intro p p'
  have h : SubsetOf φ p' p := subsetOf_fromRecords pr k φ
  obtain ⟨e, he⟩ := assoc_equiv pr k φ ⟨fun i j _ hij => hφ hij, ha⟩
  change Fin p'.assoc_comp.length ≃ Fin p.assoc_comp.length at e
  change ∀ i, p.assoc_comp.get (e i) = φ (p'.assoc_comp.get i) at he
  have hlen : p'.assoc_comp.length = p.assoc_comp.length := by
    have := Fintype.card_congr e
    simpa using this
  have h2' : 2 ≤ p.assoc_comp.length := h2
  have hn' : 0 < n' := by
    have := (p'.assoc_comp.get ⟨0, by omega⟩).2
    omega
  have hn : 0 < n := by
    have := (p.assoc_comp.get ⟨0, by omega⟩).2
    omega
  have hgrid : ∀ {m : ℕ} (q : PcSaftParameters m ℝ) (hm : 0 < m) (hq : 2 ≤ q.assoc_comp.length) (f : γ → ProfileAt m),
      associationFunctional la q N tol T (G.map fun x => (associationWeightFunctions q T).rows dim (f x).values)
        = .ok (assocFunctionalCrossGrid la q N tol T (fun _ => 0.2) (G.map fun x => assocAt q T dim (f x))) := by
    intro m q hm hq f
    have hdec := mapM_total (assocDecode m ∘ fun x : γ => (associationWeightFunctions q T).rows dim (f x).values) _ G
      (fun x _ => assoc_profile_rows q T hm dim (f x))
    unfold associationFunctional
    rw [List.mapM_map, hdec]
    simp only [bind, Except.bind]
    split
    · rename_i b hb
      rw [hb] at hq
      simp at hq
    · rfl
  rw [hgrid p' hn' (by omega) g', hgrid p hn h2' g]
  congr 1
  have key : ∀ x : Fin p.assoc_comp.length ⊕ Fin p.assoc_comp.length → ℝ,
      assocFunctionalCrossGrid la p' N tol T (fun s => x (siteEquiv e s)) (G.map fun x => assocAt p' T dim (g' x))
        = assocFunctionalCrossGrid la p N tol T x (G.map fun x => assocAt p T dim (g x)) := by
    clear hgrid
    induction G with
    | nil => intro x; rfl
    | cons y G ih =>
      intro x
      have ih := ih fun z hz => hg z (List.mem_cons_of_mem _ hz)
      obtain ⟨hn2, hxi, hrho, habs⟩ := assocParts_merge h T dim (hg y List.mem_cons_self)
      obtain ⟨-, -, e3⟩ := assocAt_merge h T dim (hg y List.mem_cons_self)
      have hd : ∀ j, pointDensity p' T (assocAt p' T dim (g' y)) j = pointDensity p T (assocAt p T dim (g y)) (φ j) :=
        fun j => (hrho j fun i hi => hφ hi).symm
      have hpt := crossPoint_merge la hs h0 N tol T e
        (wd' := assocAt p' T dim (g' y)) (wd := assocAt p T dim (g y))
        (fun i => by unfold assocNa; rw [he]; rfl) (fun i => by unfold assocNb; rw [he]; rfl)
        (fun i j => pointStrength_merge pr k φ T dim (hg y List.mem_cons_self) e he i j)
        (fun i => by unfold assocRho; rw [he, hd])
        (by
          have : ∀ i, pointDensity p T (assocAt p T dim (g y)) i
              = merge φ (pointDensity p' T (assocAt p' T dim (g' y))) i := by
            intro i
            by_cases hi : ∃ j, φ j = i
            · obtain ⟨j, rfl⟩ := hi
              rw [merge_apply_injective hφ, hd]
            · push Not at hi
              rw [merge_of_not_range _ i hi]
              exact habs i hi
          simp only [this, sum_merge_one]) x
      simp only [List.map_cons, assocFunctionalCrossGrid, hpt]
      match assocFunctionalCrossPoint la p N tol T (assocAt p T dim (g y)) x with
      | (.error _, _) => rfl
      | (.ok phi, o) =>
        simp only
        have : ((o.map fun y s => y (siteEquiv e s)).getD fun s => x (siteEquiv e s))
            = fun s => (o.getD x) (siteEquiv e s) := by
          cases o <;> rfl
        rw [this, ih]
  exact key (fun _ => 0.2)

/-! ## Cases meeting the hypotheses -/

/-- the profile with identical components taken together -/
noncomputable def mergedProfile (φ : Fin n' → Fin n) (g : ProfileAt n') : ProfileAt n where
  density := merge φ g.density
  ball := fun R => merge φ (g.ball R)
  sphere := fun R => merge φ (g.sphere R)
  flux := fun R d => merge φ (g.flux R d)

theorem mergedProfile_same (φ : Fin n' → Fin n) (g : ProfileAt n') : SameFluid φ g (mergedProfile φ g) :=
  ⟨fun _ => rfl, fun _ _ => rfl, fun _ _ => rfl, fun _ _ _ => rfl⟩

/-- a point of an interface where three components are distributed differently -/
noncomputable def threeProfile : ProfileAt 3 where
  density := fun j => (j + 1) / 1000
  ball := fun R j => 4 / 3 * Real.pi * R ^ 3 * (j + 1) / 1000
  sphere := fun R j => 4 * Real.pi * R ^ 2 * (j + 1) / 1000
  flux := fun R d j => if d = 0 then 4 / 3 * Real.pi * R ^ 3 * (3 - j) / 3000 else 0

/-- the second component of the pair `a`, `b` split in two and all components renumbered -/
def splitSecond (j : Fin 3) : Fin 2 := if j = 1 then 0 else 1

/-- together the two parts hold what the whole holds -/
example : (mergedProfile splitSecond threeProfile).density 1 = 4 / 1000 := by
  simp only [mergedProfile, merge, Fin.sum_univ_three, splitSecond, threeProfile]
  norm_num
  rw [if_neg (by decide)]
  norm_num

/-- the dipolar component split, the quadrupolar one kept -/
example (dim : ℕ) := C105_attraction_partial dipoleAndQuadrupole (fun _ _ => (0.1 : ℝ))
  (fun i => by fin_cases i <;> norm_num [dipoleAndQuadrupole, testRecord])
  (fun i => by fin_cases i <;> norm_num [dipoleAndQuadrupole, testRecord])
  (fun j => 1 - splitSecond j) (fun i j hi hij => by
    have h0 : (fromRecords dipoleAndQuadrupole (fun _ _ => (0.1 : ℝ))).q2 0 = 0 := test_q2_zero 3 _ _ 0 (some 4) rfl
    have key : ∀ i : Fin 3, 1 - splitSecond i ≠ 0 → i = 1 := by decide
    have h1 : 1 - splitSecond i ≠ 0 := fun h => hi (by rw [h]; exact h0)
    rw [key i h1, key j (hij ▸ h1)])
  PSI_DFT 100 dim threeProfile _ (mergedProfile_same _ _)

/-- the chain functional of the mixture with its components exchanged -/
example (dim : ℕ) (g : ProfileAt 2) := C105_chains assocRecords (fun _ _ => (0 : ℝ)) (fun j => 1 - j)
  (fun i j _ h => (by decide : ∀ i j : Fin 2, 1 - i = 1 - j → i = j) i j h) 300 dim g _ (mergedProfile_same _ _)

/-- the inert component split, the associating one kept -/
example (la : LinAlg ℝ ℝ) (dim : ℕ) := C105_association assocRecords (fun _ _ => (0 : ℝ)) splitSecond 1
  (by decide) assocRecords_comp la 50 1e-10 300 dim [threeProfile] id (fun g => mergedProfile splitSecond g)
  (fun _ _ => mergedProfile_same _ _)

/-- a profile without the associating component -/
example (la : LinAlg ℝ ℝ) (dim : ℕ) (g : ProfileAt 1) := C105_association_absent assocRecords (fun _ _ => (0 : ℝ))
  (fun _ : Fin 1 => 1) 0 (by decide) assocRecords_comp la 50 1e-10 300 dim [g] id
  (fun g => mergedProfile (fun _ => 1) g) (fun _ _ => mergedProfile_same _ _)

theorem brine_nassoc (k : Fin 3 → Fin 3 → ℝ) : 2 ≤ (fromRecords brineRecords k).nassoc := by
  have h : ∀ i : Fin 3, i ≠ 2 → i ∈ (fromRecords brineRecords k).assoc_comp := fun i hi =>
    (mem_nonzeroComp (fromRecords brineRecords k).kappa_ab i).mpr (by rw [brineRecords_kappa, if_neg hi]; norm_num)
  have h0 := h 0 (by decide)
  have h1 := h 1 (by decide)
  change 2 ≤ List.length _
  match hl : (fromRecords brineRecords k).assoc_comp with
  | [] => simp [hl] at h0
  | [a] =>
    rw [hl, List.mem_singleton] at h0 h1
    exact absurd (h0.trans h1.symm) (by decide)
  | _ :: _ :: _ => simp

/-- two associating components in another order, the inert one left out, on a grid with two points -/
example (dim : ℕ) (g₁ g₂ : ProfileAt 2) := C105_cross_association brineRecords (fun _ _ => (0 : ℝ))
  (fun j : Fin 2 => ![1, 0] j) (by decide) (fun a ha => by
    rw [brineRecords_kappa] at ha
    fin_cases a
    · exact ⟨1, rfl⟩
    · exact ⟨0, rfl⟩
    · exact absurd (if_pos rfl) ha) (brine_nassoc _) exactLinAlg rfl (fun _ => exactSolver_exact) 50 1e-10 300 dim
  [g₁, g₂] id (fun g => mergedProfile _ g) (fun _ _ => mergedProfile_same _ _)

end PcSaft.Props
