import Verif.Lemmas.PolarForms
import Verif.Lemmas.Admissible
import Verif.Props.Parameters

/-! # Invariance of the contributions under merging of identical components -/

namespace PcSaft
variable {n n' : ℕ}

/-- component `j` of `p'` has the parameters of component `φ j` of `p` -/
structure SubsetOf (φ : Fin n' → Fin n) (p' : PcSaftParameters n' ℝ) (p : PcSaftParameters n ℝ) : Prop where
  m : ∀ j, p'.m j = p.m (φ j)
  sigma : ∀ j, p'.sigma j = p.sigma (φ j)
  epsilon_k : ∀ j, p'.epsilon_k j = p.epsilon_k (φ j)
  mu2 : ∀ j, p'.mu2 j = p.mu2 (φ j)
  q2 : ∀ j, p'.q2 j = p.q2 (φ j)
  sigma_ij : ∀ i j, p'.sigma_ij i j = p.sigma_ij (φ i) (φ j)
  e_k_ij : ∀ i j, p'.e_k_ij i j = p.e_k_ij (φ i) (φ j)
  epsilon_k_ij : ∀ i j, p'.epsilon_k_ij i j = p.epsilon_k_ij (φ i) (φ j)

theorem subsetOf_fromRecords (pr : Fin n → PureRecord ℝ) (k : Fin n → Fin n → ℝ) (φ : Fin n' → Fin n) :
    SubsetOf φ ((fromRecords pr k).subset φ) (fromRecords pr k) where
  m _ := rfl
  sigma _ := rfl
  epsilon_k _ := rfl
  mu2 _ := rfl
  q2 _ := rfl
  sigma_ij _ _ := rfl
  e_k_ij _ _ := rfl
  epsilon_k_ij _ _ := rfl

theorem polarOk_fromRecords (pr : Fin n → PureRecord ℝ) (k : Fin n → Fin n → ℝ)
    (hm : ∀ i, 0 ≤ (pr i).model_record.m) : PolarOk (fromRecords pr k) where
  dip_nodup := (Props.nonzeroComp_sorted _).nodup
  dip_mem := fun i hi => by
    by_contra h
    exact hi ((Props.mem_nonzeroComp _ i).mpr h)
  quad_sorted := (Props.nonzeroComp_sorted (fromRecords pr k).q2).pairwise
  quad_mem := fun i hi => by
    by_contra h
    exact hi ((Props.mem_nonzeroComp _ i).mpr h)
  sigma_symm := fun i j => by simp only [fromRecords]; ring
  sigma_diag := fun i => by
    simp only [fromRecords]
    have : (0.5 : ℝ) = 1 / 2 := by norm_num
    rw [this]
    ring
  e_symm := fun i j => by simp only [fromRecords, mul_comm]
  m_nonneg := hm

section
variable {φ : Fin n' → Fin n} {p' : PcSaftParameters n' ℝ} {p : PcSaftParameters n ℝ}

theorem SubsetOf.diameter (h : SubsetOf φ p' p) (T : ℝ) (j : Fin n') :
    hsDiameter p' T j = hsDiameter p T (φ j) := by
  rw [hsDiameter_real, hsDiameter_real, h.sigma, h.epsilon_k]

theorem SubsetOf.zeta (h : SubsetOf φ p' p) (T : ℝ) (rho : Fin n' → ℝ) (k : Fin 4) :
    zeta p'.m rho (hsDiameter p' T) k = zeta p.m (merge φ rho) (hsDiameter p T) k := by
  rw [zeta_real, zeta_real, sum_merge]
  simp only [h.m, h.diameter]

theorem SubsetOf.zeta23 (h : SubsetOf φ p' p) (T : ℝ) (x : Fin n' → ℝ) :
    zeta23 p'.m x (hsDiameter p' T) = zeta23 p.m (merge φ x) (hsDiameter p T) := by
  rw [zeta23_real, zeta23_real, sum_merge, sum_merge]
  simp only [h.m, h.diameter]

theorem new_merge_density (T V : ℝ) (w : Fin n' → ℝ) :
    (StateHD.new T V (merge φ w)).partial_density = merge φ (StateHD.new T V w).partial_density := by
  rw [StateHD.new_density, StateHD.new_density, merge_div]

theorem new_merge_molefracs (T V : ℝ) (w : Fin n' → ℝ) :
    (StateHD.new T V (merge φ w)).molefracs = merge φ (StateHD.new T V w).molefracs := by
  rw [StateHD.new_molefracs, StateHD.new_molefracs, merge_div, sum_merge_one]

theorem SubsetOf.hardSphere (h : SubsetOf φ p' p) (T V : ℝ) (w : Fin n' → ℝ) :
    hardSphere p' (StateHD.new T V w) = hardSphere p (StateHD.new T V (merge φ w)) := by
  rw [hardSphere_real, hardSphere_real]
  simp only [StateHD.new_temperature, StateHD.new_volume, h.zeta, h.zeta23]
  rw [new_merge_density, new_merge_molefracs]

theorem SubsetOf.hardChain (h : SubsetOf φ p' p) (T V : ℝ) (w : Fin n' → ℝ) :
    hardChain p' (StateHD.new T V w) = hardChain p (StateHD.new T V (merge φ w)) := by
  rw [hardChain_real, hardChain_real]
  simp only [StateHD.new_temperature, StateHD.new_volume]
  rw [new_merge_density, sum_merge]
  simp only [h.m, h.diameter, h.zeta]

theorem SubsetOf.dispersion (h : SubsetOf φ p' p) (T V : ℝ) (w : Fin n' → ℝ) :
    dispersion p' (StateHD.new T V w) = dispersion p (StateHD.new T V (merge φ w)) := by
  rw [dispersion_real, dispersion_real]
  simp only [StateHD.new_temperature, StateHD.new_volume, rho1mix_real, rho2mix_real]
  rw [new_merge_density, new_merge_molefracs, sum_merge, sum_merge2, sum_merge2, h.zeta]
  simp only [h.m, h.epsilon_k_ij, h.sigma_ij]

theorem SubsetOf.pairI (h : SubsetOf φ p' p) {q : ℕ} (hq : q ≤ 5) (a b : Fin q → Fin 3 → ℝ) (T eta : ℝ)
    (i j : Fin n') : pairI hq a b p' T eta i j = pairI hq a b p T eta (φ i) (φ j) := by
  simp only [PcSaft.pairI, mdqPair, h.m, h.e_k_ij]

theorem SubsetOf.tripI (h : SubsetOf φ p' p) (cc : Fin 4 → Fin 3 → ℝ) (eta : ℝ) (i j k : Fin n') :
    tripI cc p' eta i j k = tripI cc p eta (φ i) (φ j) (φ k) := by
  simp only [PcSaft.tripI, mdqTriplet, h.m]

theorem dipole_real (p : PcSaftParameters n ℝ) (hp : PolarOk p) (s : StateHD n ℝ) :
    dipole p s =
      let eta := zeta p.m s.partial_density (hsDiameter p s.temperature) 3
      let phi2 := -(∑ i, ∑ j, s.partial_density i * s.partial_density j
        * dipK2 p s.temperature eta i j) * Real.pi
      let phi3 := -(∑ i, ∑ j, ∑ k, s.partial_density i * s.partial_density j * s.partial_density k
        * dipK3 p s.temperature eta i j k) * PI_SQ_43
      phi2 * phi2 / (phi2 - phi3) * s.volume := by
  unfold dipole
  simp only [packingFraction_eq_zeta]
  simp only [padeVolume, dipolePhi2_real hp, dipolePhi3_real hp, c,
    ofF_real, pi_real, isNan_real, Bool.false_eq_true, if_false]

theorem quadrupole_real (p : PcSaftParameters n ℝ) (hp : PolarOk p) (s : StateHD n ℝ) :
    quadrupole p s =
      let eta := zeta p.m s.partial_density (hsDiameter p s.temperature) 3
      let phi2 := -(∑ i, ∑ j, s.partial_density i * s.partial_density j
        * quadK2 p s.temperature eta i j) * (Real.pi * 0.5625)
      let phi3 := (∑ i, ∑ j, ∑ k, s.partial_density i * s.partial_density j * s.partial_density k
        * quadK3 p s.temperature eta i j k) * (Real.pi * Real.pi * 0.5625)
      phi2 * phi2 / (phi2 - phi3) * s.volume := by
  unfold quadrupole
  simp only [packingFraction_eq_zeta]
  simp only [padeVolume, quadrupolePhi2_real hp,
    quadrupolePhi3_real hp, c, ofF_real, pi_real, isNan_real, Bool.false_eq_true, if_false]

theorem dipoleQuadrupole_real (v : DQVariants) (p : PcSaftParameters n ℝ) (hp : PolarOk p)
    (s : StateHD n ℝ) :
    dipoleQuadrupole v p s =
      let eta := zeta p.m s.partial_density (hsDiameter p s.temperature) 3
      let phi2 := -(∑ i, ∑ j, s.partial_density i * s.partial_density j
        * dqK2 v p s.temperature eta i j) * (Real.pi * 2.25)
      let phi3 := (∑ i, ∑ j, ∑ k, s.partial_density i * s.partial_density j * s.partial_density k
        * (dqK3d p s.temperature eta i j k + dqK3q p s.temperature eta i j k)) * (Real.pi * Real.pi)
      phi2 * phi2 / (phi2 - phi3) * s.volume := by
  unfold dipoleQuadrupole
  simp only [packingFraction_eq_zeta]
  simp only [padeVolume, dipoleQuadrupolePhi2_real hp,
    dipoleQuadrupolePhi3_real hp, c, ofF_real, pi_real, isNan_real, Bool.false_eq_true, if_false]

theorem SubsetOf.dipole (h : SubsetOf φ p' p) (hp : PolarOk p) (hp' : PolarOk p') (T V : ℝ)
    (w : Fin n' → ℝ) :
    dipole p' (StateHD.new T V w) = dipole p (StateHD.new T V (merge φ w)) := by
  rw [dipole_real p' hp', dipole_real p hp]
  simp only [StateHD.new_temperature, StateHD.new_volume]
  rw [new_merge_density]
  simp only [sum_merge2, sum_merge3, h.zeta]
  simp only [dipK2, dipK3, h.pairI, h.tripI, dipoleTerm, h.sigma_ij, h.epsilon_k, h.mu2]

theorem SubsetOf.dipoleQuadrupole (h : SubsetOf φ p' p) (hp : PolarOk p) (hp' : PolarOk p')
    (v : DQVariants) (T V : ℝ) (w : Fin n' → ℝ) :
    dipoleQuadrupole v p' (StateHD.new T V w) = dipoleQuadrupole v p (StateHD.new T V (merge φ w)) := by
  rw [dipoleQuadrupole_real v p' hp', dipoleQuadrupole_real v p hp]
  simp only [StateHD.new_temperature, StateHD.new_volume]
  rw [new_merge_density]
  simp only [sum_merge2, sum_merge3, h.zeta]
  have e : ∀ i j (t : ℝ), muQTerm v p' t i j = muQTerm v p t (φ i) (φ j) := by
    intro i j t
    cases v <;> simp only [muQTerm, dqTerm, h.sigma, h.epsilon_k, h.mu2, h.q2]
  simp only [dqK2, dqK3d, dqK3q, dqI3, mdqTriplet, h.pairI, e, dqTerm, h.sigma_ij, h.sigma, h.epsilon_k,
    h.mu2, h.q2, h.m]

/-- The quadrupole term needs the order of the components to be kept, or equal diameters of all
quadrupolar components. -/
theorem SubsetOf.quadrupole (h : SubsetOf φ p' p) (hp : PolarOk p) (hp' : PolarOk p')
    (hφ : Monotone φ ∨ ∀ i j, p.q2 i ≠ 0 → p.q2 j ≠ 0 → p.sigma i = p.sigma j) (T V : ℝ)
    (w : Fin n' → ℝ) :
    quadrupole p' (StateHD.new T V w) = quadrupole p (StateHD.new T V (merge φ w)) := by
  rw [quadrupole_real p' hp', quadrupole_real p hp]
  simp only [StateHD.new_temperature, StateHD.new_volume]
  rw [new_merge_density]
  simp only [sum_merge2, sum_merge3, h.zeta]
  have e3 : ∀ eta i j k, quadK3 p' T eta i j k = quadK3 p T eta (φ i) (φ j) (φ k) := by
    intro eta i j k
    simp only [quadK3, h.tripI, quadrupoleTerm, h.sigma, h.sigma_ij, h.epsilon_k, h.q2]
  have e2 : ∀ eta i j, quadK2 p' T eta i j = quadK2 p T eta (φ i) (φ j) := by
    intro eta i j
    have et : ∀ i, quadrupoleTerm p' T⁻¹ i = quadrupoleTerm p T⁻¹ (φ i) := by
      intro i
      simp only [quadrupoleTerm, h.sigma, h.epsilon_k, h.q2]
    unfold quadK2
    rw [h.pairI, et, et, h.sigma]
    rcases hφ with hφ | hφ
    · rw [hφ.map_min]
    · by_cases hi : p.q2 (φ i) = 0
      · have : quadrupoleTerm p T⁻¹ (φ i) = 0 := by simp [quadrupoleTerm, hi]
        rw [this]
        ring
      by_cases hj : p.q2 (φ j) = 0
      · have : quadrupoleTerm p T⁻¹ (φ j) = 0 := by simp [quadrupoleTerm, hj]
        rw [this]
        ring
      have hq : p.q2 (φ (min i j)) ≠ 0 := by
        rcases min_choice i j with h' | h' <;> rw [h'] <;> assumption
      have hq' : p.q2 (min (φ i) (φ j)) ≠ 0 := by
        rcases min_choice (φ i) (φ j) with h' | h' <;> rw [h'] <;> assumption
      rw [hφ _ _ hq hq']
  simp only [e2, e3]

end

end PcSaft

/-! ### Association -/

namespace PcSaft
variable {n n' : ℕ} (pr : Fin n → PureRecord ℝ) (k : Fin n → Fin n → ℝ) (φ : Fin n' → Fin n)

theorem kappa_aibj_subset (i j : Fin n') :
    ((fromRecords pr k).subset φ).kappa_aibj i j = (fromRecords pr k).kappa_aibj (φ i) (φ j) := by
  simp only [PcSaftParameters.subset, fromRecords, Props.mem_nonzeroComp]

theorem epsilon_k_aibj_subset (i j : Fin n') :
    ((fromRecords pr k).subset φ).epsilon_k_aibj i j = (fromRecords pr k).epsilon_k_aibj (φ i) (φ j) := by
  simp only [PcSaftParameters.subset, fromRecords, Props.mem_nonzeroComp]

theorem associationStrength_subset (T : ℝ) (r : Fin n → ℝ) (n2 n3i xi : ℝ) (i j : Fin n') :
    associationStrength ((fromRecords pr k).subset φ) T (fun i => r (φ i)) n2 n3i xi i j
      = associationStrength (fromRecords pr k) T r n2 n3i xi (φ i) (φ j) := by
  simp only [associationStrength, kappa_aibj_subset, epsilon_k_aibj_subset]
  rfl

theorem assocN2_real (m rho r : Fin n → ℝ) :
    assocN2 m rho r = 4 * Real.pi * ∑ i, rho i * (m i * r i ^ 2) := by
  simp only [assocN2, c, ofF_real, sumFin_real, pi_real]
  rw [Finset.sum_mul, Finset.sum_mul, Finset.mul_sum]
  have h4 : (4.0 : ℝ) = 4 := by norm_num
  rw [h4]
  refine Finset.sum_congr rfl (fun i _ => ?_)
  ring

theorem SubsetOf.assocN2 {φ : Fin n' → Fin n} {p' : PcSaftParameters n' ℝ} {p : PcSaftParameters n ℝ}
    (h : SubsetOf φ p' p) (rho : Fin n' → ℝ) (r : Fin n → ℝ) :
    assocN2 p'.m rho (fun j => r (φ j)) = assocN2 p.m (merge φ rho) r := by
  rw [assocN2_real, assocN2_real, sum_merge]
  simp only [h.m]

/-- the association strength of two components at a state of the equation of state -/
noncomputable def stateStrength (p : PcSaftParameters n ℝ) (s : StateHD n ℝ) (i j : Fin n) : ℝ :=
  let r := fun i => hsDiameter p s.temperature i * c (0.5 : ℝ)
  associationStrength p s.temperature r (assocN2 p.m s.partial_density r)
    (DualNum.recip (-(packingFraction p.m s.partial_density r) + c (1.0 : ℝ))) (c (1.0 : ℝ)) i j

theorem stateStrength_merge (T V : ℝ) (w : Fin n' → ℝ) (i j : Fin n') :
    stateStrength ((fromRecords pr k).subset φ) (StateHD.new T V w) i j
      = stateStrength (fromRecords pr k) (StateHD.new T V (merge φ w)) (φ i) (φ j) := by
  have h := subsetOf_fromRecords pr k φ
  unfold stateStrength
  rw [new_merge_density]
  simp only [StateHD.new_temperature]
  rw [packingFraction_eq_zeta, packingFraction_eq_zeta, h.zeta, ← associationStrength_subset]
  have e : (fun i => hsDiameter ((fromRecords pr k).subset φ) T i * c (0.5 : ℝ))
      = fun i => (fun i => hsDiameter (fromRecords pr k) T i * c (0.5 : ℝ)) (φ i) := by
    funext i
    rw [h.diameter]
  rw [e, h.assocN2 _ (fun i => hsDiameter (fromRecords pr k) T i * c (0.5 : ℝ))]

theorem association_eq (p : PcSaftParameters n ℝ) (s : StateHD n ℝ) (a : Fin n) (l : List (Fin n))
    (ha : p.assoc_comp = a :: l) :
    association p s = .ok (assocSingle (stateStrength p s a a * s.partial_density a) (s.moles a)
      (p.na a) (p.nb a)) := by
  unfold association
  rw [ha]
  rfl

theorem assocSingle_zero_moles (x na nb : ℝ) : assocSingle x 0 na nb = 0 := by
  unfold assocSingle
  split <;> simp

theorem nonzeroComp_comp (v : Fin n → ℝ) (j : Fin n') (hφ : Function.Injective φ)
    (h : nonzeroComp v = [φ j]) : nonzeroComp (fun i => v (φ i)) = [j] := by
  have hm : ∀ i, i ∈ nonzeroComp (fun i => v (φ i)) ↔ i = j := by
    intro i
    rw [Props.mem_nonzeroComp, ← Props.mem_nonzeroComp, h, List.mem_singleton]
    exact hφ.eq_iff
  have hnd := (Props.nonzeroComp_sorted (fun i => v (φ i))).nodup
  match hl : nonzeroComp (fun i => v (φ i)) with
  | [] => simpa [hl] using (hm j).mpr rfl
  | [a] => rw [hl] at hm; simpa using (hm a).mp (by simp)
  | a :: b :: l =>
    rw [hl] at hm hnd
    have h1 := (hm a).mp (by simp)
    have h2 := (hm b).mp (by simp)
    simp [h1, h2] at hnd

theorem nonzeroComp_comp_nil (v : Fin n → ℝ) (a : Fin n) (h : nonzeroComp v = [a])
    (ha : ∀ j, φ j ≠ a) : nonzeroComp (fun i => v (φ i)) = [] := by
  rw [List.eq_nil_iff_forall_not_mem]
  intro i
  rw [Props.mem_nonzeroComp, ← Props.mem_nonzeroComp, h, List.mem_singleton]
  exact ha i

end PcSaft
