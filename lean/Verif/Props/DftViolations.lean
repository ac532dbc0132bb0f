import Verif.Props.DftPolar

/-!
# C39-C42: where the functional and the equation of state disagree
-/

namespace PcSaft.Props
open PcSaft Spec
variable {n : ℕ} {T V : ℝ}

/-- pair kernel of the quadrupole part of the functional -/
noncomputable def dftQuadK2 (p : PcSaftParameters n ℝ) (T eta : ℝ) (i j : Fin n) : ℝ :=
  (if i = j then 1 else 1 / 2) * (quadrupoleTerm p T⁻¹ i * quadrupoleTerm p T⁻¹ j
    * pairI (by decide) AQ BQ p T eta i j / p.sigma_ij i j ^ 7)

theorem dftQuadrupolePhi2_real {p : PcSaftParameters n ℝ} (h : PolarOk p)
    (he : ∀ i, p.e_k_ij i i = p.epsilon_k i) (T : ℝ) (rho : Fin n → ℝ) (eta : ℝ) :
    dftQuadrupolePhi2 p T rho eta = -∑ i, ∑ j, rho i * rho j * dftQuadK2 p T eta i j := by
  have hq : ∀ i, T⁻¹ * p.e_k_ij i i * p.sigma i ^ 5 * p.q2 i = quadrupoleTerm p T⁻¹ i := by
    intro i
    simp only [quadrupoleTerm, c, ofF_real, powi_real, he]
    ring
  rw [← pairLoop_real p.quadpole_comp h.quad_nodup (fun i j => rho i * rho j * dftQuadK2 p T eta i j)]
  · unfold dftQuadrupolePhi2
    simp only [c, ofF_real, recip_real, powi_real, dftPairIntegral_eq, hq]
    have h0 : (0.0 : ℝ) = 0 := by norm_num
    rw [h0]
    congr 1
    funext acc i
    have e : acc - rho (p.quadpole_comp.get i) * rho (p.quadpole_comp.get i)
        * pairIntegral (by decide) ((MeanSegmentNumbers.new p.m p.quadpole_comp).mij1 i i)
          ((MeanSegmentNumbers.new p.m p.quadpole_comp).mij2 i i) eta AQ BQ
          (T⁻¹ * p.e_k_ij (p.quadpole_comp.get i) (p.quadpole_comp.get i))
        * (quadrupoleTerm p T⁻¹ (p.quadpole_comp.get i) * quadrupoleTerm p T⁻¹ (p.quadpole_comp.get i)
          / p.sigma_ij (p.quadpole_comp.get i) (p.quadpole_comp.get i) ^ 7)
        = acc - rho (p.quadpole_comp.get i) * rho (p.quadpole_comp.get i)
          * dftQuadK2 p T eta (p.quadpole_comp.get i) (p.quadpole_comp.get i) := by
      rw [mij1_diag p _ h.m_nonneg, mij2_diag p _ h.m_nonneg]
      simp only [dftQuadK2, pairI, if_true]
      ring
    rw [e]
    apply foldUpper_congr
    intro acc j hij
    rw [mij1_lt p _ hij, mij2_lt p _ hij]
    have hne := (h.quad_get_lt hij).ne
    simp only [dftQuadK2, pairI, if_neg hne]
    ring
  · intro i j
    simp only [dftQuadK2]
    rw [pairI_symm _ _ _ h, h.sigma_symm i j]
    by_cases hij : i = j
    · subst hij
      ring
    · rw [if_neg hij, if_neg (Ne.symm hij)]
      ring
  · intro i j hi
    simp only [dftQuadK2, quadrupoleTerm_zero h _ hi]
    ring

/-! ### a family of examples: spherical molecules with `ε/k = 100 K` at 100 K -/

/-- a record with segment number `m`, diameter `σ`, dipole and quadrupole moment -/
noncomputable def testRecord (m σ : ℝ) (mu q : Option ℝ) : PureRecord ℝ :=
  ⟨⟨none, ""⟩, 44, ⟨m, σ, 100, mu, q, none, none, none, none, none, none, none⟩, none⟩

structure Spheres (p : PcSaftParameters n ℝ) : Prop where
  m : ∀ i, p.m i = 1
  eps : ∀ i, p.epsilon_k i = 100
  e : ∀ i j, p.e_k_ij i j = 100
  sigma : ∀ i, 3 ≤ p.sigma i ∧ p.sigma i ≤ 4
  sigma_ij : ∀ i j, 0 < p.sigma_ij i j
  mu2 : ∀ i, 0 ≤ p.mu2 i
  q2 : ∀ i, 0 ≤ p.q2 i

theorem spheres_of_records (σ : Fin n → ℝ) (mu q : Fin n → Option ℝ) (hσ : ∀ i, 3 ≤ σ i ∧ σ i ≤ 4)
    (k : Fin n → Fin n → ℝ) : Spheres (fromRecords (fun i => testRecord 1 (σ i) (mu i) (q i)) k) := by
  have hm := fun i => C01_reduced_moments (fun i => testRecord 1 (σ i) (mu i) (q i)) k i
    (by norm_num [testRecord]) (by simp only [testRecord]; linarith [(hσ i).1]) (by norm_num [testRecord])
  refine ⟨fun _ => rfl, fun _ => rfl, fun i j => ?_, hσ, fun i j => ?_, fun i => (hm i).1, fun i => (hm i).2.2.1⟩
  · change Real.sqrt (100 * 100) = 100
    exact Real.sqrt_mul_self (by norm_num)
  · change 0 < 0.5 * (σ i + σ j)
    have := (hσ i).1
    have := (hσ j).1
    have h5 : (0.5 : ℝ) = 1 / 2 := by norm_num
    rw [h5]
    linarith

/-- a state with packing fraction 0.2 -/
theorem exists_test_state (p : PcSaftParameters n ℝ) (hn : 0 < n) (hm : ∀ i, 0 < p.m i ∧ p.m i ≤ 10)
    (heps : ∀ i, p.epsilon_k i = 100) (hσ : ∀ i, 3 ≤ p.sigma i ∧ p.sigma i ≤ 4) :
    ∃ V, Admissible p 100 V (fun _ => 1)
      ∧ zeta p.m (StateHD.new (100 : ℝ) V (fun _ => (1 : ℝ))).partial_density (hsDiameter p (100 : ℝ)) 3 = 1 / 5
      ∧ f64EPSILON < ∑ _i : Fin n, 1 / V := by
  have hd : ∀ i, 0 < hsDiameter p (100 : ℝ) i ∧ hsDiameter p (100 : ℝ) i ≤ 4 := by
    intro i
    rw [hsDiameter_real, heps]
    have h1 := exp_le_one_of (e := 100) (T := 100) (by norm_num) (by norm_num)
    have h2 := Real.exp_pos (-3 * 100 / 100)
    have h3 := hσ i
    constructor
    · apply mul_pos (by linarith)
      linarith
    · nlinarith
  set V0 := Spec.packingFraction p 100 1 (fun _ => 1) with hV0
  have hV0e : V0 = ∑ i, Real.pi / 6 * (p.m i * hsDiameter p (100 : ℝ) i ^ 3) := by
    rw [hV0, ← zeta3_eq_packing, zeta3_real, Finset.mul_sum]
    refine Finset.sum_congr rfl fun i _ => ?_
    simp [StateHD.new_density]
  have hne : (Finset.univ : Finset (Fin n)).Nonempty := ⟨⟨0, hn⟩, Finset.mem_univ _⟩
  have hV0pos : 0 < V0 := by
    rw [hV0e]
    refine Finset.sum_pos (fun i _ => ?_) hne
    have := hd i
    have := hm i
    have := Real.pi_pos
    have : 0 < hsDiameter p (100 : ℝ) i := (hd i).1
    have : 0 < p.m i := (hm i).1
    positivity
  have hV0le : V0 ≤ n * 640 := by
    rw [hV0e]
    refine (Finset.sum_le_card_nsmul _ _ 640 fun i _ => ?_).trans (by simp)
    have h1 := hd i
    have h2 := hm i
    have h3 := Real.pi_lt_four
    have h4 := Real.pi_pos
    have h5 : hsDiameter p (100 : ℝ) i ^ 3 ≤ 64 := by
      calc hsDiameter p (100 : ℝ) i ^ 3 ≤ 4 ^ 3 := pow_le_pow_left₀ h1.1.le h1.2 3
        _ = 64 := by norm_num
    have h6 : 0 < hsDiameter p (100 : ℝ) i ^ 3 := pow_pos h1.1 3
    have h7 : p.m i * hsDiameter p (100 : ℝ) i ^ 3 ≤ 640 := by nlinarith
    have h8 : 0 < p.m i * hsDiameter p (100 : ℝ) i ^ 3 := mul_pos h2.1 h6
    nlinarith
  have hpack : ∀ V : ℝ, Spec.packingFraction p 100 V (fun _ => 1) = V0 / V := by
    intro V
    simp only [hV0, Spec.packingFraction, Finset.sum_div, div_one]
  refine ⟨5 * V0, ?_, ?_, ?_⟩
  · refine ⟨by norm_num, by linarith, fun i => (hm i).1, fun i => by linarith [(hσ i).1], fun i => ?_,
      fun _ => zero_le_one, ⟨⟨0, hn⟩, one_ne_zero⟩, ?_⟩
    · rw [heps]
      norm_num
    · rw [hpack, div_lt_one (by linarith)]
      linarith
  · rw [zeta3_eq_packing, hpack]
    field_simp
  · have hnr : (0 : ℝ) < n := by exact_mod_cast hn
    simp only [Finset.sum_const, Finset.card_univ, Fintype.card_fin, nsmul_eq_mul]
    have : (n : ℝ) * (1 / (5 * (n * 640))) ≤ n * (1 / (5 * V0)) := by
      apply mul_le_mul_of_nonneg_left _ hnr.le
      apply one_div_le_one_div_of_le (by linarith)
      linarith
    refine lt_of_lt_of_le ?_ this
    have e : (n : ℝ) * (1 / (5 * (n * 640))) = 1 / 3200 := by
      field_simp
      norm_num
    rw [e]
    norm_num [f64EPSILON]

namespace Spheres
variable {p : PcSaftParameters n ℝ} (h : Spheres p)
include h

theorem pair (i j : Fin n) : mdqPair p i j = 1 := by
  have h12 : min (1 : ℝ) 2.0 = 1 := by norm_num
  simp [mdqPair, h.m, h12]
theorem triplet (i j l : Fin n) : mdqTriplet p i j l = 1 := by
  have h12 : min (1 : ℝ) 2.0 = 1 := by norm_num
  simp [mdqTriplet, h.m, h12]

theorem quad_pair : ∃ P, (∀ i j, pairI (by decide) AQ BQ p 100 (1 / 5) i j = P) ∧ 0 < P := by
  have hs1 : meanSeg1 (1 : ℝ) = 0 := by norm_num [meanSeg1]
  have hs2 : meanSeg2 (1 : ℝ) = 0 := by norm_num [meanSeg2, meanSeg1]
  refine ⟨pairIntegral (by decide) 0 0 (1 / 5) AQ BQ (100⁻¹ * 100), fun i j => ?_, ?_⟩
  · simp only [pairI, h.pair, hs1, hs2, h.e]
  · simp [pairIntegral, etas, AQ, BQ, Fin.sum_univ_five, Fin.castLE]
    norm_num
theorem quad_triplet : ∃ J, (∀ i j l, tripI CQ p (1 / 5) i j l = J) ∧ 0 < J := by
  have hs1 : meanSeg1 (1 : ℝ) = 0 := by norm_num [meanSeg1]
  have hs2 : meanSeg2 (1 : ℝ) = 0 := by norm_num [meanSeg2, meanSeg1]
  refine ⟨tripletIntegral 0 0 (1 / 5) CQ, fun i j l => ?_, ?_⟩
  · simp only [tripI, h.triplet, hs1, hs2]
  · simp [tripletIntegral, etas, CQ, Fin.sum_univ_four, Fin.castLE]
    norm_num
theorem dq_pair : ∃ P, (∀ i j, pairI (by decide) ADQ BDQ p 100 (1 / 5) i j = P) ∧ 0 < P := by
  have hs1 : meanSeg1 (1 : ℝ) = 0 := by norm_num [meanSeg1]
  have hs2 : meanSeg2 (1 : ℝ) = 0 := by norm_num [meanSeg2, meanSeg1]
  refine ⟨pairIntegral (by decide) 0 0 (1 / 5) ADQ BDQ (100⁻¹ * 100), fun i j => ?_, ?_⟩
  · simp only [pairI, h.pair, hs1, hs2, h.e]
  · simp [pairIntegral, etas, ADQ, BDQ, Fin.sum_univ_four, Fin.castLE]
    norm_num
theorem dq_triplet : ∃ J, (∀ i j l, dqI3 p (1 / 5) i j l = J) ∧ 0 < J := by
  have hs1 : meanSeg1 (1 : ℝ) = 0 := by norm_num [meanSeg1]
  refine ⟨tripletIntegralDQ 0 (1 / 5) CDQ, fun i j l => ?_, ?_⟩
  · simp only [dqI3, h.triplet, hs1]
  · simp [tripletIntegralDQ, etas, CDQ, Fin.sum_univ_three, Fin.castLE]
    norm_num

theorem quadTerm_eq (i : Fin n) : quadrupoleTerm p (100⁻¹ : ℝ) i = p.sigma i ^ 5 * p.q2 i := by
  simp only [quadrupoleTerm, c, ofF_real, powi_real, h.eps]
  ring
theorem muTerm_eq (i : Fin n) : dqTerm p p.mu2 (100⁻¹ : ℝ) i = p.sigma i ^ 4 * p.mu2 i := by
  simp only [dqTerm, c, ofF_real, powi_real, h.eps]
  ring
theorem qTerm_eq (i : Fin n) : dqTerm p p.q2 (100⁻¹ : ℝ) i = p.sigma i ^ 4 * p.q2 i := by
  simp only [dqTerm, c, ofF_real, powi_real, h.eps]
  ring
end Spheres

/-- the attractive part of a homogeneous fluid from the functional, with the polar part spelled out -/
theorem attractive_value (p : PcSaftParameters n ℝ) {moles : Fin n → ℝ} (h : Admissible p T V moles)
    (dim : ℕ) (hrho : f64EPSILON < ∑ i, moles i / V) :
    attractiveFunctional p T ((attWeightFunctions p PSI_DFT T).bulkRows dim (fun i => moles i / V))
      = .ok (dispersion p (StateHD.new T V moles) / V + dftPolar p T (fun i => moles i / V)) :=
  C37_dispersion_bulk h _ (by norm_num [PSI_DFT]) dim hrho

/-- two identical quadrupolar components -/
noncomputable def twinQuadrupoles (_ : Fin 2) : PureRecord ℝ := testRecord 1 3 none (some 4)

theorem test_q2_pos (σ : ℝ) (hσ : 0 < σ) (pr : Fin n → PureRecord ℝ) (k : Fin n → Fin n → ℝ) (i : Fin n)
    (mu : Option ℝ) (h : pr i = testRecord 1 σ mu (some 4)) : 0 < (fromRecords pr k).q2 i := by
  have hm := C01_reduced_moments pr k i (by rw [h]; norm_num [testRecord]) (by rw [h]; exact hσ)
    (by rw [h]; norm_num [testRecord])
  refine lt_of_le_of_ne hm.2.2.1 (Ne.symm fun h0 => ?_)
  have h1 := hm.2.2.2.1.mp h0
  have h2 : (fromRecords pr k).q i = ((pr i).model_record.q).getD 0.0 := rfl
  rw [h2, h] at h1
  norm_num [testRecord] at h1

theorem test_mu2_pos (σ : ℝ) (hσ : 0 < σ) (pr : Fin n → PureRecord ℝ) (k : Fin n → Fin n → ℝ) (i : Fin n)
    (q : Option ℝ) (h : pr i = testRecord 1 σ (some 4) q) : 0 < (fromRecords pr k).mu2 i := by
  have hm := C01_reduced_moments pr k i (by rw [h]; norm_num [testRecord]) (by rw [h]; exact hσ)
    (by rw [h]; norm_num [testRecord])
  refine lt_of_le_of_ne hm.1 (Ne.symm fun h0 => ?_)
  have h1 := hm.2.1.mp h0
  have h2 : (fromRecords pr k).mu i = ((pr i).model_record.mu).getD 0.0 := rfl
  rw [h2, h] at h1
  norm_num [testRecord] at h1

theorem test_q2_zero (σ : ℝ) (pr : Fin n → PureRecord ℝ) (k : Fin n → Fin n → ℝ) (i : Fin n)
    (mu : Option ℝ) (h : pr i = testRecord 1 σ mu none) : (fromRecords pr k).q2 i = 0 := by
  have e : (fromRecords pr k).q2 i = ((pr i).model_record.q).getD 0.0 * ((pr i).model_record.q).getD 0.0
    / _ * _ * _ := rfl
  rw [e, h]
  norm_num [testRecord]

theorem test_mu2_zero (σ : ℝ) (pr : Fin n → PureRecord ℝ) (k : Fin n → Fin n → ℝ) (i : Fin n)
    (q : Option ℝ) (h : pr i = testRecord 1 σ none q) : (fromRecords pr k).mu2 i = 0 := by
  have e : (fromRecords pr k).mu2 i = ((pr i).model_record.mu).getD 0.0 * ((pr i).model_record.mu).getD 0.0
    / _ * _ * _ := rfl
  rw [e, h]
  norm_num [testRecord]

theorem length_nonzeroComp_pos (v : Fin n → ℝ) : 0 < (nonzeroComp v).length ↔ ∃ i, v i ≠ 0 := by
  rw [List.length_pos_iff_exists_mem]
  simp only [mem_nonzeroComp]

/-- C39 fails: for two identical quadrupolar components, an admissible state and every dimension the
functional does not give the dispersion and quadrupole contributions of the equation of state (which
are all the attractive contributions of this mixture). -/
theorem C39_counterexample : ∃ V : ℝ,
    let p := fromRecords twinQuadrupoles (fun _ _ => 0)
    let s := StateHD.new (100 : ℝ) V (fun _ => 1)
    Admissible p 100 V (fun _ => 1) ∧ p.ndipole = 0 ∧ 0 < p.nquadpole ∧ f64EPSILON < ∑ _i : Fin 2, 1 / V
    ∧ ∀ dim, ∃ phi, attractiveFunctional p 100 ((attWeightFunctions p PSI_DFT 100).bulkRows dim (fun _ => 1 / V))
        = .ok phi ∧ V * phi ≠ dispersion p s + quadrupole p s := by
  set p := fromRecords twinQuadrupoles (fun _ _ => (0 : ℝ)) with hpdef
  have hS : Spheres p := spheres_of_records (fun _ => 3) (fun _ => none) (fun _ => some 4)
    (fun _ => by norm_num) (fun _ _ => 0)
  have hp : PolarOk p := polarOk_fromRecords _ _ (fun i => by norm_num [twinQuadrupoles, testRecord])
  obtain ⟨V, hadm, heta, hrho⟩ := exists_test_state p (by norm_num) (fun i => by rw [hS.m]; norm_num) hS.eps hS.sigma
  have hq2 : ∀ i, 0 < p.q2 i := fun i => test_q2_pos 3 (by norm_num) _ _ i none rfl
  have hmu2 : ∀ i, p.mu2 i = 0 := fun i => test_mu2_zero 3 _ _ i (some 4) rfl
  have hnd : p.ndipole = 0 := by
    by_contra hc
    obtain ⟨i, hi⟩ := (length_nonzeroComp_pos p.mu2).mp (Nat.pos_of_ne_zero hc)
    exact hi (hmu2 i)
  have hnq : 0 < p.nquadpole := (length_nonzeroComp_pos p.q2).mpr ⟨0, (hq2 0).ne'⟩
  refine ⟨V, hadm, hnd, hnq, hrho, fun dim => ⟨_, attractive_value p hadm dim hrho, ?_⟩⟩
  have hV := hadm.volume
  have h0 : (0.0 : ℝ) = 0 := by norm_num
  have he : dftPolar p 100 (fun _ => 1 / V)
      = dftQuadrupole p 100 (fun _ => 1 / V) (dftEta p 100 (fun _ => 1 / V)) := by
    simp [dftPolar, hnd, hnq, c, h0]
  rw [he, mul_add, mul_div_cancel₀ _ hV.ne']
  intro hcontra
  have hcontra := add_left_cancel hcontra
  have hd := fromRecords_e_diag twinQuadrupoles (fun _ _ => 0) (fun i => by norm_num [twinQuadrupoles, testRecord])
  have heta' : dftEta p 100 (fun _ => 1 / V) = 1 / 5 := by
    rw [dftEta_eq, packingFraction_eq_zeta]
    exact heta
  rw [heta', dftQuadrupole, dftPade_real, dftQuadrupolePhi2_real hp hd, dftQuadrupolePhi3_eq hd,
    quadrupolePhi3_real hp, quadrupole_real p hp] at hcontra
  simp only [StateHD.new_temperature, StateHD.new_volume, heta, c, ofF_real, pi_real] at hcontra
  rw [mul_comm V] at hcontra
  have hcontra := mul_right_cancel₀ hV.ne' hcontra
  simp only [StateHD.new_density] at hcontra
  obtain ⟨P, hP, hPpos⟩ := hS.quad_pair
  obtain ⟨J, hJ, hJpos⟩ := hS.quad_triplet
  have hsig : ∀ i j, p.sigma_ij i j = 3 := by
    intro i j
    change 0.5 * ((3 : ℝ) + 3) = 3
    norm_num
  have hsig1 : ∀ i, p.sigma i = 3 := fun _ => rfl
  have hpi := Real.pi_pos
  have hK3 : ∀ i j l, 0 < quadK3 p 100 (1 / 5) i j l := by
    intro i j l
    unfold quadK3
    rw [hJ, hS.quadTerm_eq, hS.quadTerm_eq, hS.quadTerm_eq, hsig, hsig, hsig, hsig1, hsig1, hsig1]
    have := hq2 i
    have := hq2 j
    have := hq2 l
    positivity
  have hc3 : 0 < (∑ i : Fin 2, ∑ j : Fin 2, ∑ l : Fin 2, 1 / V * (1 / V) * (1 / V) * quadK3 p 100 (1 / 5) i j l)
      * (Real.pi * Real.pi * 0.5625) := by
    apply mul_pos _ (by positivity)
    refine Finset.sum_pos (fun i _ => Finset.sum_pos (fun j _ => Finset.sum_pos (fun l _ => ?_)
      Finset.univ_nonempty) Finset.univ_nonempty) Finset.univ_nonempty
    have := hK3 i j l
    positivity
  have hq01 : p.q2 1 = p.q2 0 := rfl
  generalize (∑ i : Fin 2, ∑ j : Fin 2, ∑ l : Fin 2, 1 / V * (1 / V) * (1 / V) * quadK3 p 100 (1 / 5) i j l)
      * (Real.pi * Real.pi * 0.5625) = c3 at hcontra hc3
  obtain ⟨K, hKp, hK⟩ : ∃ K : ℝ, 0 < K ∧ 1 / V * (1 / V) * (3 ^ 5 * p.q2 0 * (3 ^ 5 * p.q2 0) * P / 3 ^ 7) = K := by
    refine ⟨_, ?_, rfl⟩
    have := hq2 0
    positivity
  have hm01 : min (0 : Fin 2) 1 = 0 := rfl
  have hm10 : min (1 : Fin 2) 0 = 0 := rfl
  have e1 : ∑ i : Fin 2, ∑ j : Fin 2, 1 / V * (1 / V) * dftQuadK2 p 100 (1 / 5) i j = 3 * K := by
    simp only [Fin.sum_univ_two, dftQuadK2, hP, hsig, hS.quadTerm_eq, hsig1, hq01]
    simp only [if_true, Fin.isValue, zero_ne_one, one_ne_zero, if_false]
    rw [← hK]
    ring
  have e2 : ∑ i : Fin 2, ∑ j : Fin 2, 1 / V * (1 / V) * quadK2 p 100 (1 / 5) i j = 4 * K := by
    simp only [Fin.sum_univ_two, quadK2, hP, hS.quadTerm_eq, hsig1, hq01]
    rw [← hK]
    ring
  rw [e1, e2] at hcontra
  refine pade_ne ?_ ?_ hc3 ?_ hcontra
  · rw [neg_mul, neg_lt_zero]
    positivity
  · rw [neg_mul, neg_lt_zero]
    positivity
  · have hf : (Real.pi * 0.5625) ≠ 0 := by positivity
    intro h
    have h := mul_right_cancel₀ hf h
    linarith

/-! ### C40 -/

/-- a dipolar component (3 Å) and a quadrupolar component (4 Å) -/
noncomputable def dipoleAndQuadrupole (i : Fin 2) : PureRecord ℝ :=
  if i = 0 then testRecord 1 3 (some 4) none else testRecord 1 4 none (some 4)

theorem length_nonzeroComp_le_one (v : Fin n → ℝ) (a : Fin n) (h : ∀ i, v i ≠ 0 → i = a) :
    (nonzeroComp v).length ≤ 1 := by
  have hnd := (nonzeroComp_sorted v).nodup
  match hl : nonzeroComp v with
  | [] => simp
  | [_] => simp
  | x :: y :: l =>
    exfalso
    rw [hl] at hnd
    have hx := h x ((mem_nonzeroComp v x).mp (by rw [hl]; simp))
    have hy := h y ((mem_nonzeroComp v y).mp (by rw [hl]; simp))
    simp [hx, hy] at hnd

/-- C40, the part that holds: if the options ask for variant DQ35 (the default) and at most one
component is quadrupolar, the functional gives the attractive contributions of the equation of state
with the same options.  Missing: variant DQ44, see `C40_counterexample`. -/
theorem C40_variant_bulk_partial (pr : Fin n → PureRecord ℝ) (k : Fin n → Fin n → ℝ) (moles : Fin n → ℝ)
    (h : Admissible (fromRecords pr k) T V moles) (h1 : (fromRecords pr k).nquadpole ≤ 1)
    (o : PcSaftOptions ℝ) (ho : o.dq_variant = .DQ35) (dim : ℕ) (hrho : f64EPSILON < ∑ i, moles i / V) :
    let p := fromRecords pr k
    let s := StateHD.new T V moles
    attractiveFunctional p T ((attWeightFunctions p PSI_DFT T).bulkRows dim (fun i => moles i / V))
      = .ok ((dispersion p s + (if 0 < p.ndipole then dipole p s else 0)
          + (if 0 < p.nquadpole then quadrupole p s else 0)
          + (if 0 < p.ndipole ∧ 0 < p.nquadpole then dipoleQuadrupole o.dq_variant p s else 0)) / V) := by
  intro p s
  rw [ho]
  exact C38_attractive_bulk pr k moles h h1 _ (by norm_num [PSI_DFT]) dim hrho

theorem dqK3_nonneg {p : PcSaftParameters n ℝ} (hS : Spheres p) (i j l : Fin n) :
    0 ≤ dqK3d p 100 (1 / 5) i j l ∧ 0 ≤ dqK3q p 100 (1 / 5) i j l := by
  obtain ⟨J, hJ, hJpos⟩ := hS.dq_triplet
  have hal : (0 : ℝ) < ALPHA := by norm_num [ALPHA]
  have s1 := hS.sigma_ij i j
  have s2 := hS.sigma_ij i l
  have s3 := hS.sigma_ij j l
  have t1 := (hS.sigma i).1
  have t2 := (hS.sigma j).1
  have t3 := (hS.sigma l).1
  have t1 : 0 < p.sigma i := by linarith
  have t2 : 0 < p.sigma j := by linarith
  have t3 : 0 < p.sigma l := by linarith
  have m1 := hS.mu2 i
  have q2 := hS.q2 j
  have m3 := hS.mu2 l
  have q3 := hS.q2 l
  simp only [dqK3d, dqK3q, hJ, hS.muTerm_eq, hS.qTerm_eq]
  constructor <;> positivity

theorem dq_phi3_pos {p : PcSaftParameters n ℝ} (hS : Spheres p) {r : ℝ} (hr : 0 < r) (a b : Fin n)
    (ha : 0 < p.mu2 a) (hb : 0 < p.q2 b) :
    0 < (∑ i : Fin n, ∑ j : Fin n, ∑ l : Fin n, r * r * r * (dqK3d p 100 (1 / 5) i j l + dqK3q p 100 (1 / 5) i j l))
      * (Real.pi * Real.pi) := by
  have hpi := Real.pi_pos
  have hnn : ∀ i j l, 0 ≤ r * r * r * (dqK3d p 100 (1 / 5) i j l + dqK3q p 100 (1 / 5) i j l) := by
    intro i j l
    have := dqK3_nonneg hS i j l
    exact mul_nonneg (by positivity) (add_nonneg this.1 this.2)
  apply mul_pos _ (by positivity)
  refine Finset.sum_pos' (fun i _ => Finset.sum_nonneg fun j _ => Finset.sum_nonneg fun l _ => hnn i j l)
    ⟨a, Finset.mem_univ _, ?_⟩
  refine Finset.sum_pos' (fun j _ => Finset.sum_nonneg fun l _ => hnn a j l) ⟨b, Finset.mem_univ _, ?_⟩
  refine Finset.sum_pos' (fun l _ => hnn a b l) ⟨a, Finset.mem_univ _, ?_⟩
  apply mul_pos (by positivity)
  have h1 := (dqK3_nonneg hS a b a).2
  refine add_pos_of_pos_of_nonneg ?_ h1
  obtain ⟨J, hJ, hJpos⟩ := hS.dq_triplet
  have s1 := hS.sigma_ij a b
  have s2 := hS.sigma_ij a a
  have s3 := hS.sigma_ij b a
  have t1 := (hS.sigma a).1
  have t2 := (hS.sigma b).1
  have t1 : 0 < p.sigma a := by linarith
  have t2 : 0 < p.sigma b := by linarith
  simp only [dqK3d, hJ, hS.muTerm_eq, hS.qTerm_eq]
  positivity

/-- C40 fails: with variant DQ44 in the options the functional and the equation of state disagree for
a dipolar and a quadrupolar component of different size. -/
theorem C40_counterexample : ∃ V : ℝ,
    let p := fromRecords dipoleAndQuadrupole (fun _ _ => 0)
    let s := StateHD.new (100 : ℝ) V (fun _ => 1)
    Admissible p 100 V (fun _ => 1) ∧ 0 < p.ndipole ∧ 0 < p.nquadpole
    ∧ ∀ (o : PcSaftOptions ℝ), o.dq_variant = .DQ44 → ∀ dim, ∃ phi,
      attractiveFunctional p 100 ((attWeightFunctions p PSI_DFT 100).bulkRows dim (fun _ => 1 / V)) = .ok phi
      ∧ V * phi ≠ dispersion p s + dipole p s + quadrupole p s + dipoleQuadrupole o.dq_variant p s := by
  set p := fromRecords dipoleAndQuadrupole (fun _ _ => (0 : ℝ)) with hpdef
  have hrec : dipoleAndQuadrupole = fun i => testRecord 1 (if i = 0 then 3 else 4) (if i = 0 then some 4 else none)
      (if i = 0 then none else some 4) := by
    funext i
    fin_cases i <;> simp [dipoleAndQuadrupole]
  have hS : Spheres p := by
    rw [hpdef, hrec]
    exact spheres_of_records (fun i => if i = 0 then 3 else 4) _ _ (fun i => by fin_cases i <;> norm_num) _
  have hp : PolarOk p := polarOk_fromRecords _ _ (fun i => by
    rw [hrec]
    norm_num [testRecord])
  obtain ⟨V, hadm, heta, hrho⟩ := exists_test_state p (by norm_num) (fun i => by rw [hS.m]; norm_num) hS.eps hS.sigma
  have hq1 : 0 < p.q2 1 := test_q2_pos 4 (by norm_num) _ _ 1 none rfl
  have hq0 : p.q2 0 = 0 := test_q2_zero 3 _ _ 0 (some 4) rfl
  have hm0 : 0 < p.mu2 0 := test_mu2_pos 3 (by norm_num) _ _ 0 none rfl
  have hm1 : p.mu2 1 = 0 := test_mu2_zero 4 _ _ 1 (some 4) rfl
  have hnd : 0 < p.ndipole := (length_nonzeroComp_pos p.mu2).mpr ⟨0, hm0.ne'⟩
  have hnq : 0 < p.nquadpole := (length_nonzeroComp_pos p.q2).mpr ⟨1, hq1.ne'⟩
  have hnq1 : p.nquadpole ≤ 1 := length_nonzeroComp_le_one p.q2 1 (fun i hi => by
    fin_cases i
    · exact absurd hq0 hi
    · rfl)
  refine ⟨V, hadm, hnd, hnq, fun o ho dim => ⟨_, C38_attractive_bulk _ _ _ hadm hnq1 _ (by norm_num [PSI_DFT]) dim hrho, ?_⟩⟩
  have hV := hadm.volume
  rw [ho, if_pos hnd, if_pos hnq, if_pos ⟨hnd, hnq⟩, mul_div_cancel₀ _ hV.ne']
  intro hcontra
  have hcontra := add_left_cancel hcontra
  rw [← hpdef, dipoleQuadrupole_real .DQ35 p hp, dipoleQuadrupole_real .DQ44 p hp] at hcontra
  simp only [StateHD.new_temperature, StateHD.new_volume, heta] at hcontra
  have hcontra := mul_right_cancel₀ hV.ne' hcontra
  simp only [StateHD.new_density] at hcontra
  have hc3 := dq_phi3_pos hS (r := 1 / V) (by positivity) 0 1 hm0 hq1
  generalize (∑ i : Fin 2, ∑ j : Fin 2, ∑ l : Fin 2, 1 / V * (1 / V) * (1 / V)
    * (dqK3d p 100 (1 / 5) i j l + dqK3q p 100 (1 / 5) i j l)) * (Real.pi * Real.pi) = c3 at hcontra hc3
  obtain ⟨P, hP, hPpos⟩ := hS.dq_pair
  have hs0 : p.sigma 0 = 3 := rfl
  have hs1 : p.sigma 1 = 4 := rfl
  have hs01 := hS.sigma_ij 0 1
  have hpi := Real.pi_pos
  obtain ⟨K, hKp, hK⟩ : ∃ K : ℝ, 0 < K ∧ 1 / V * (1 / V) * (3 ^ 3 * p.mu2 0 * (4 ^ 4 * p.q2 1) / p.sigma_ij 0 1 ^ 5 * P) = K := by
    refine ⟨_, ?_, rfl⟩
    positivity
  have e1 : ∑ i : Fin 2, ∑ j : Fin 2, 1 / V * (1 / V) * dqK2 .DQ35 p 100 (1 / 5) i j = 4 * K := by
    simp only [Fin.sum_univ_two, dqK2, muQTerm, hP, hS.muTerm_eq, hS.qTerm_eq, hs0, hs1, hq0, hm1, c, ofF_real]
    rw [← hK]
    ring
  have e2 : ∑ i : Fin 2, ∑ j : Fin 2, 1 / V * (1 / V) * dqK2 .DQ44 p 100 (1 / 5) i j = 3 * K := by
    simp only [Fin.sum_univ_two, dqK2, muQTerm, hP, hS.muTerm_eq, hS.qTerm_eq, hs0, hs1, hq0, hm1]
    rw [← hK]
    ring
  rw [e1, e2] at hcontra
  have h225 : (0 : ℝ) < Real.pi * 2.25 := by positivity
  refine pade_ne ?_ ?_ hc3 ?_ hcontra
  · rw [neg_mul, neg_lt_zero]
    positivity
  · rw [neg_mul, neg_lt_zero]
    positivity
  · intro h
    have h := mul_right_cancel₀ h225.ne' h
    linarith

/-! ### C41 -/

/-- value of the functional for pure components in a homogeneous fluid -/
theorem pureAttractive_value (pr : Fin 1 → PureRecord ℝ) (k : Fin 1 → Fin 1 → ℝ)
    (moles : Fin 1 → ℝ) (h : Admissible (fromRecords pr k) T V moles) (hk : k 0 0 = 0) (psi : ℝ)
    (hpsi : psi ≠ 0) (dim : ℕ) :
    let p := fromRecords pr k
    let s := StateHD.new T V moles
    pureAttFunctional p T ((pureAttWeightFunctions p psi T).bulkRows dim (fun i => moles i / V))
      = .ok ((dispersion p s + (if 0 < p.ndipole then dipole p s else 0)
          + (if 0 < p.nquadpole then quadrupole p s else 0)) / V) := by
  intro p s
  have hV := h.volume.ne'
  obtain ⟨a1, a2⟩ := C38_pure_polar_bulk pr k (h.epsilon_nonneg 0) (h.m_pos 0).le T V moles
  change _ = dipole p s at a1
  change _ = quadrupole p s at a2
  have hmol : moles 0 ≠ 0 := by
    obtain ⟨i, hi⟩ := h.moles_ne_zero
    rwa [Subsingleton.elim i 0] at hi
  have hσ : p.sigma_ij 0 0 = p.sigma 0 := (polarOk_fromRecords pr k (fun i => (h.m_pos i).le)).sigma_diag 0
  have he : p.epsilon_k_ij 0 0 = p.epsilon_k 0 := by
    have h1 : (1.0 : ℝ) = 1 := by norm_num
    change (1.0 - k 0 0) * Real.sqrt (p.epsilon_k 0 * p.epsilon_k 0) = p.epsilon_k 0
    rw [hk, Real.sqrt_mul_self (h.epsilon_nonneg 0), h1]
    ring
  have a0 := pureDispersion_eq p T V moles hmol hσ he
  change _ = dispersion p s at a0
  rw [pureAttractive_rows p h.diameter_pos psi hpsi, ← a0, ← a1, ← a2]
  simp only [pureAttFunctional, rowAt, List.getElem?_cons_zero, bind, Except.bind]
  congr 1
  split_ifs <;> (field_simp; try ring)

/-- C41, the part that holds: for a pure component that is not both dipolar and quadrupolar the
functional contains every attractive contribution of the equation of state.  Missing: both moments,
see `C41_counterexample`. -/
theorem C41_pure_attractive_bulk_partial (pr : Fin 1 → PureRecord ℝ) (k : Fin 1 → Fin 1 → ℝ)
    (moles : Fin 1 → ℝ) (h : Admissible (fromRecords pr k) T V moles) (hk : k 0 0 = 0) (psi : ℝ)
    (hpsi : psi ≠ 0) (dim : ℕ) (v : DQVariants)
    (hone : (fromRecords pr k).ndipole = 0 ∨ (fromRecords pr k).nquadpole = 0) :
    let p := fromRecords pr k
    let s := StateHD.new T V moles
    pureAttFunctional p T ((pureAttWeightFunctions p psi T).bulkRows dim (fun i => moles i / V))
      = .ok ((dispersion p s + (if 0 < p.ndipole then dipole p s else 0)
          + (if 0 < p.nquadpole then quadrupole p s else 0)
          + (if 0 < p.ndipole ∧ 0 < p.nquadpole then dipoleQuadrupole v p s else 0)) / V) := by
  intro p s
  rw [pureAttractive_value pr k moles h hk psi hpsi dim, if_neg (c := 0 < p.ndipole ∧ 0 < p.nquadpole), add_zero]
  rintro ⟨h1, h2⟩
  rcases hone with h3 | h3
  · exact absurd h3 h1.ne'
  · exact absurd h3 h2.ne'

/-- C41 fails: for a pure component with both moments the functional misses the dipole-quadrupole
contribution, which is not zero. -/
theorem C41_counterexample : ∃ V : ℝ,
    let p := fromRecords (fun _ : Fin 1 => testRecord 1 3 (some 4) (some 4)) (fun _ _ => 0)
    let s := StateHD.new (100 : ℝ) V (fun _ => 1)
    Admissible p 100 V (fun _ => 1) ∧ 0 < p.ndipole ∧ 0 < p.nquadpole
    ∧ ∀ (v : DQVariants) dim, ∃ phi,
      pureAttFunctional p 100 ((pureAttWeightFunctions p PSI_DFT 100).bulkRows dim (fun _ => 1 / V)) = .ok phi
      ∧ V * phi ≠ dispersion p s + dipole p s + quadrupole p s + dipoleQuadrupole v p s := by
  set p := fromRecords (fun _ : Fin 1 => testRecord 1 3 (some 4) (some 4)) (fun _ _ => (0 : ℝ)) with hpdef
  have hS : Spheres p := spheres_of_records (fun _ => 3) (fun _ => some 4) (fun _ => some 4)
    (fun _ => by norm_num) (fun _ _ => 0)
  have hp : PolarOk p := polarOk_fromRecords _ _ (fun i => by norm_num [testRecord])
  obtain ⟨V, hadm, heta, hrho⟩ := exists_test_state p (by norm_num) (fun i => by rw [hS.m]; norm_num) hS.eps hS.sigma
  have hq : 0 < p.q2 0 := test_q2_pos 3 (by norm_num) _ _ 0 (some 4) rfl
  have hm : 0 < p.mu2 0 := test_mu2_pos 3 (by norm_num) _ _ 0 (some 4) rfl
  have hnd : 0 < p.ndipole := (length_nonzeroComp_pos p.mu2).mpr ⟨0, hm.ne'⟩
  have hnq : 0 < p.nquadpole := (length_nonzeroComp_pos p.q2).mpr ⟨0, hq.ne'⟩
  refine ⟨V, hadm, hnd, hnq, fun v dim => ⟨_, pureAttractive_value _ _ _ hadm rfl _ (by norm_num [PSI_DFT]) dim, ?_⟩⟩
  have hV := hadm.volume
  rw [if_pos hnd, if_pos hnq, mul_div_cancel₀ _ hV.ne']
  intro hcontra
  have hcontra : dipoleQuadrupole v p (StateHD.new (100 : ℝ) V fun _ => 1) = 0 := by linarith
  rw [dipoleQuadrupole_real v p hp] at hcontra
  simp only [StateHD.new_temperature, StateHD.new_volume, heta] at hcontra
  simp only [StateHD.new_density] at hcontra
  have hc3 := dq_phi3_pos hS (r := 1 / V) (by positivity) 0 0 hm hq
  generalize (∑ i : Fin 1, ∑ j : Fin 1, ∑ l : Fin 1, 1 / V * (1 / V) * (1 / V)
    * (dqK3d p 100 (1 / 5) i j l + dqK3q p 100 (1 / 5) i j l)) * (Real.pi * Real.pi) = c3 at hcontra hc3
  obtain ⟨P, hP, hPpos⟩ := hS.dq_pair
  have hs0 : p.sigma 0 = 3 := rfl
  have hs00 := hS.sigma_ij 0 0
  have hpi := Real.pi_pos
  have hpos : 0 < ∑ i : Fin 1, ∑ j : Fin 1, 1 / V * (1 / V) * dqK2 v p 100 (1 / 5) i j := by
    simp only [Finset.univ_unique, Fin.default_eq_zero, Finset.sum_singleton, dqK2, hP]
    have : 0 < muQTerm v p (100⁻¹ : ℝ) 0 0 := by
      cases v
      · simp only [muQTerm, hS.muTerm_eq, hS.qTerm_eq, c, ofF_real]
        rw [hs0]
        positivity
      · simp only [muQTerm, hS.muTerm_eq, hS.qTerm_eq]
        rw [hs0]
        positivity
    positivity
  generalize (∑ i : Fin 1, ∑ j : Fin 1, 1 / V * (1 / V) * dqK2 v p 100 (1 / 5) i j) = K at hcontra hpos
  have h225 : (0 : ℝ) < Real.pi * 2.25 := by positivity
  have hK : 0 < K * (Real.pi * 2.25) := by positivity
  rcases mul_eq_zero.mp hcontra with h | h
  · rcases div_eq_zero_iff.mp h with h | h
    · rcases mul_eq_zero.mp h with h | h <;> linarith
    · linarith
  · exact hV.ne' h

/-! ### C42 -/

/-- C42, the part that holds: for segment numbers of at least one the functional for pure components
contains the chain term exactly if the segment number differs from one, and for every mixture (or with
the Kierlik-Rosinberg functional) it contains it exactly if some segment number differs from one.
Missing: pure components with segment number below one, see `C42_counterexample`. -/
theorem C42_chain_contribution_partial (p : PcSaftParameters n ℝ) (v : FMTVersion) (o : PcSaftOptions ℝ) :
    (n = 1 ∧ v ≠ .KierlikRosinberg → (∀ i, 1 ≤ p.m i) →
      (.pureChain ∈ (Functional.withOptions p v o).contributions ↔ ∃ i, p.m i ≠ 1))
    ∧ (n ≠ 1 ∨ v = .KierlikRosinberg →
      (.chain ∈ (Functional.withOptions p v o).contributions ↔ ∃ i, p.m i ≠ 1)) := by
  have h1 : (1.0 : ℝ) = 1 := by norm_num
  constructor
  · rintro ⟨hn, hv⟩ hm
    have hv' : (v = .WhiteBear ∨ v = .AntiSymWhiteBear) ∧ n = 1 := by
      refine ⟨?_, hn⟩
      cases v <;> simp_all
    simp only [Functional.withOptions, buildFunctionalContributions, if_pos hv']
    have e : (List.finRange n).any (fun i => F64.lt 1.0 (p.m i)) = true ↔ ∃ i, p.m i ≠ 1 := by
      simp only [List.any_eq_true, List.mem_finRange, true_and, lt_real, decide_eq_true_eq, h1]
      exact exists_congr fun i => ⟨fun h => h.ne', fun h => lt_of_le_of_ne (hm i) (Ne.symm h)⟩
    rw [← e]
    by_cases hb : (List.finRange n).any (fun i => F64.lt 1.0 (p.m i)) = true
    · simp [hb]
    · simp [hb]
  · intro hn
    have hv' : ¬((v = .WhiteBear ∨ v = .AntiSymWhiteBear) ∧ n = 1) := by
      rintro ⟨h2, h3⟩
      rcases hn with h | h
      · exact h h3
      · simp [h] at h2
    simp only [Functional.withOptions, buildFunctionalContributions, if_neg hv']
    have e : (List.finRange n).any (fun i => !(F64.eq (p.m i) 1.0)) = true ↔ ∃ i, p.m i ≠ 1 := by
      simp only [List.any_eq_true, List.mem_finRange, true_and, h1]
      exact exists_congr fun i => by simp
    rw [← e]
    by_cases hb : (List.finRange n).any (fun i => !(F64.eq (p.m i) 1.0)) = true
    · by_cases ha : 0 < p.nassoc <;> simp [hb, ha]
    · by_cases ha : 0 < p.nassoc <;> simp [hb, ha]

/-- C42 fails: for a pure component with segment number 1/2 the functional (in both versions that use
the pure component implementation) has no chain term, although the hard chain contribution of the
equation of state, which is part of it, is not zero. -/
theorem C42_counterexample : ∃ V : ℝ,
    let p := fromRecords (fun _ : Fin 1 => testRecord (1 / 2) 3 none none) (fun _ _ => 0)
    let s := StateHD.new (100 : ℝ) V (fun _ => 1)
    Admissible p 100 V (fun _ => 1) ∧ hardChain p s ≠ 0
    ∧ (∀ o : PcSaftOptions ℝ, .hardChain ∈ (Eos.withOptions p o).contributions)
    ∧ ∀ (v : FMTVersion) (o : PcSaftOptions ℝ), v ≠ .KierlikRosinberg →
      (Functional.withOptions p v o).contributions = [.pureFmtAssoc v, .pureAtt] := by
  set p := fromRecords (fun _ : Fin 1 => testRecord (1 / 2) 3 none none) (fun _ _ => (0 : ℝ)) with hpdef
  have hm : ∀ i, p.m i = 1 / 2 := fun _ => rfl
  obtain ⟨V, hadm, heta, hrho⟩ := exists_test_state p (by norm_num) (fun i => by rw [hm]; norm_num) (fun _ => rfl)
    (fun _ => by change (3 : ℝ) ≤ 3 ∧ (3 : ℝ) ≤ 4; norm_num)
  have hV := hadm.volume
  refine ⟨V, hadm, ?_, fun o => by simp [Eos.withOptions, buildContributions], fun v o hv => ?_⟩
  · rw [hardChain_real]
    simp only [StateHD.new_temperature, StateHD.new_volume]
    have hz2 := hadm.zeta_pos 2
    rw [heta]
    generalize zeta p.m (StateHD.new (100 : ℝ) V fun _ => 1).partial_density (hsDiameter p (100 : ℝ)) 2 = z2 at *
    simp only [StateHD.new_density, Finset.univ_unique, Fin.default_eq_zero, Finset.sum_singleton, hm]
    have hd := hadm.diameter_pos 0
    rw [gHs_real _ _ _ (by norm_num)]
    have hg : 1 < gForm z2 (1 / 5) (hsDiameter p (100 : ℝ) 0) := by
      unfold gForm
      have h1 : (0 : ℝ) < 3 / 2 * hsDiameter p (100 : ℝ) 0 * z2 / (1 - 1 / 5) ^ 2 := by positivity
      have h2 : (0 : ℝ) < 1 / 2 * hsDiameter p (100 : ℝ) 0 ^ 2 * z2 ^ 2 / (1 - 1 / 5) ^ 3 := by positivity
      have h3 : (1 : ℝ) / (1 - 1 / 5) = 5 / 4 := by norm_num
      linarith
    have hlog := Real.log_pos hg
    have : 0 < V * (1 / V * ((1 - 1 / 2) * Real.log (gForm z2 (1 / 5) (hsDiameter p (100 : ℝ) 0)))) := by
      have : (0 : ℝ) < 1 - 1 / 2 := by norm_num
      positivity
    exact this.ne'
  · have hv' : (v = .WhiteBear ∨ v = .AntiSymWhiteBear) ∧ (1 : ℕ) = 1 := by
      refine ⟨?_, rfl⟩
      cases v <;> simp_all
    simp only [Functional.withOptions, buildFunctionalContributions, if_pos hv']
    have e : (List.finRange 1).any (fun i => F64.lt 1.0 (p.m i)) = false := by
      simp [List.any_eq_false, hm]
      norm_num
    rw [e]
    rcases hv'.1 with h | h <;> simp [h]

end PcSaft.Props
