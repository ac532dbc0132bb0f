import Verif.Props.CrossMixture
import Verif.Props.Symmetry
import Verif.Lemmas.DispersionSign

/-!
# Property C87: dispersion attracts, and less so with larger binary interaction parameters
-/

namespace PcSaft.Spec
open PcSaft
variable {n : ℕ}

/-- States up to the default maximum packing fraction, with chains of at least four fifths of a segment on average and
binary interaction parameters that leave an attraction. -/
structure Attractive (p : PcSaftParameters n ℝ) (T V : ℝ) (N : Fin n → ℝ) : Prop where
  admissible : Admissible p T V N
  packing : packingFraction p T V N ≤ 1 / 2
  segments : 4 / 5 * ∑ i, N i ≤ ∑ i, N i * p.m i
  k_le_one : ∀ i j, p.k_ij i j ≤ 1

end PcSaft.Spec

namespace PcSaft.Props
open PcSaft Spec
variable {n : ℕ}

/-- C87: signs of the perturbation integrals and of the compressibility term. -/
theorem C87_integrals {m eta : ℝ} (hm : 4 / 5 ≤ m) (h0 : 0 ≤ eta) (h1 : eta ≤ 1 / 2) :
    0 < dispersionIntegral A0 A1 A2 m eta ∧ 0 < dispersionIntegral B0 B1 B2 m eta ∧ 0 < dispersionC1 m eta := by
  rw [dispersionIntegral_real, dispersionIntegral_real, dispersionC1_real]
  exact ⟨int1_pos hm h0 h1, int2_pos hm h0 h1, c1_pos (by linarith) h0 (by linarith)⟩

section
variable {pr : Fin n → PureRecord ℝ} {k k' : Fin n → Fin n → ℝ} {T V : ℝ} {N : Fin n → ℝ}

theorem le_meanSegments {p : PcSaftParameters n ℝ} (h : Attractive p T V N) :
    4 / 5 ≤ ∑ i, (StateHD.new T V N).molefracs i * p.m i := by
  have hN := h.admissible.total_pos
  have e : ∑ i, (StateHD.new T V N).molefracs i * p.m i = (∑ i, N i * p.m i) / ∑ i, N i := by
    rw [Finset.sum_div]
    exact Finset.sum_congr rfl fun i _ => by rw [StateHD.new_molefracs]; ring
  rw [e, le_div_iff₀ hN]
  exact h.segments

theorem epsilon_ij_nonneg (h : Attractive (fromRecords pr k) T V N) (i j : Fin n) :
    0 ≤ (fromRecords pr k).epsilon_k_ij i j := by
  have e : (fromRecords pr k).epsilon_k_ij i j = (1.0 - k i j) * Real.sqrt ((fromRecords pr k).epsilon_k i
    * (fromRecords pr k).epsilon_k j) := rfl
  have h1 : k i j ≤ 1 := h.k_le_one i j
  rw [e]
  exact mul_nonneg (by norm_num; exact h1) (Real.sqrt_nonneg _)

theorem sigma_ij_pos (h : Admissible (fromRecords pr k) T V N) (i j : Fin n) :
    0 < (fromRecords pr k).sigma_ij i j := by
  have e : (fromRecords pr k).sigma_ij i j = 0.5 * ((fromRecords pr k).sigma i + (fromRecords pr k).sigma j) := rfl
  have := h.sigma_pos i
  have := h.sigma_pos j
  rw [e]
  norm_num
  positivity

/-- C87: up to the default maximum packing fraction the dispersion contribution is attractive, and it vanishes
only without any pair of molecules that attract each other. -/
theorem C87_attractive (h : Attractive (fromRecords pr k) T V N) :
    dispersion (fromRecords pr k) (StateHD.new T V N) ≤ 0
    ∧ (dispersion (fromRecords pr k) (StateHD.new T V N) < 0 ↔
      ∃ i j, 0 < N i ∧ 0 < N j ∧ 0 < (fromRecords pr k).epsilon_k i ∧ 0 < (fromRecords pr k).epsilon_k j
        ∧ k i j < 1) := by
  have hA := h.admissible
  have hV := hA.volume
  have hT := hA.temperature
  have hm := le_meanSegments h
  have hη : zeta (fromRecords pr k).m (StateHD.new T V N).partial_density (hsDiameter (fromRecords pr k) T) 3 ≤ 1 / 2 := by
    rw [zeta3_eq_packing]
    exact h.packing
  have hη0 := (hA.zeta_pos 3).le
  rw [dispersion_real, StateHD.new_volume, StateHD.new_temperature]
  have i1 := int1_pos hm hη0 hη
  have i2 := int2_pos hm hη0 hη
  have hc := c1_pos (lt_of_lt_of_le (by norm_num) hm) hη0 (by linarith)
  revert i1 i2 hc hm
  generalize zeta (fromRecords pr k).m (StateHD.new T V N).partial_density (hsDiameter (fromRecords pr k) T) 3 = η
  generalize ∑ i, (StateHD.new T V N).molefracs i * (fromRecords pr k).m i = mm
  intro hm i1 i2 hc
  have ht1 : ∀ i j, 0 ≤ N i / V * (N j / V) * ((fromRecords pr k).m i * (fromRecords pr k).m j
      * ((fromRecords pr k).epsilon_k_ij i j / T) * (fromRecords pr k).sigma_ij i j ^ 3) := fun i j => by
    have := hA.moles_nonneg i
    have := hA.moles_nonneg j
    have := hA.m_pos i
    have := hA.m_pos j
    have := epsilon_ij_nonneg h i j
    have := sigma_ij_pos hA i j
    positivity
  have ht2 : ∀ i j, 0 ≤ N i / V * (N j / V) * ((fromRecords pr k).m i * (fromRecords pr k).m j
      * ((fromRecords pr k).epsilon_k_ij i j / T) ^ 2 * (fromRecords pr k).sigma_ij i j ^ 3) := fun i j => by
    have := hA.moles_nonneg i
    have := hA.moles_nonneg j
    have := hA.m_pos i
    have := hA.m_pos j
    have := sigma_ij_pos hA i j
    positivity
  have hr1 : 0 ≤ rho1mix (fromRecords pr k) T (StateHD.new T V N).partial_density := by
    rw [rho1mix_real]
    exact Finset.sum_nonneg fun i _ => Finset.sum_nonneg fun j _ => ht1 i j
  have hr2 : 0 ≤ rho2mix (fromRecords pr k) T (StateHD.new T V N).partial_density := by
    rw [rho2mix_real]
    exact Finset.sum_nonneg fun i _ => Finset.sum_nonneg fun j _ => ht2 i j
  have hπ := Real.pi_pos
  have hmm : 0 < mm := by linarith
  have hnonneg : 0 ≤ Real.pi * V * (2 * rho1mix (fromRecords pr k) T (StateHD.new T V N).partial_density
      * intForm A0 A1 A2 mm η + rho2mix (fromRecords pr k) T (StateHD.new T V N).partial_density * mm * c1Form mm η
        * intForm B0 B1 B2 mm η) := by positivity
  unfold dispForm
  refine ⟨by linarith, ?_, ?_⟩
  · intro hlt
    by_contra hne
    push Not at hne
    have hz : ∀ i j, N i = 0 ∨ N j = 0 ∨ (fromRecords pr k).epsilon_k_ij i j = 0 := by
      intro i j
      by_cases h1 : N i = 0
      · exact .inl h1
      by_cases h2 : N j = 0
      · exact .inr (.inl h2)
      refine .inr (.inr ?_)
      have e : (fromRecords pr k).epsilon_k_ij i j = (1.0 - k i j) * Real.sqrt ((fromRecords pr k).epsilon_k i
        * (fromRecords pr k).epsilon_k j) := rfl
      have e1 : (1.0 : ℝ) = 1 := by norm_num
      rw [e, e1]
      by_cases h3 : (fromRecords pr k).epsilon_k i = 0
      · rw [h3, zero_mul, Real.sqrt_zero, mul_zero]
      by_cases h4 : (fromRecords pr k).epsilon_k j = 0
      · rw [h4, mul_zero, Real.sqrt_zero, mul_zero]
      have := hne i j (lt_of_le_of_ne (hA.moles_nonneg i) (Ne.symm h1)) (lt_of_le_of_ne (hA.moles_nonneg j) (Ne.symm h2))
        (lt_of_le_of_ne (hA.epsilon_nonneg i) (Ne.symm h3)) (lt_of_le_of_ne (hA.epsilon_nonneg j) (Ne.symm h4))
      have h5 : k i j ≤ 1 := h.k_le_one i j
      rw [le_antisymm h5 this, sub_self, zero_mul]
    have z1 : rho1mix (fromRecords pr k) T (StateHD.new T V N).partial_density = 0 := by
      rw [rho1mix_real]
      refine Finset.sum_eq_zero fun i _ => Finset.sum_eq_zero fun j _ => ?_
      rw [StateHD.new_density]
      dsimp only
      rcases hz i j with e | e | e <;> rw [e] <;> ring
    have z2 : rho2mix (fromRecords pr k) T (StateHD.new T V N).partial_density = 0 := by
      rw [rho2mix_real]
      refine Finset.sum_eq_zero fun i _ => Finset.sum_eq_zero fun j _ => ?_
      rw [StateHD.new_density]
      dsimp only
      rcases hz i j with e | e | e <;> rw [e] <;> ring
    rw [z1, z2] at hlt
    norm_num at hlt
  · rintro ⟨i, j, h1, h2, h3, h4, h5⟩
    have hpos : 0 < rho1mix (fromRecords pr k) T (StateHD.new T V N).partial_density := by
      rw [rho1mix_real]
      refine Finset.sum_pos' (fun i _ => Finset.sum_nonneg fun j _ => ht1 i j) ⟨i, Finset.mem_univ _,
        Finset.sum_pos' (fun j _ => ht1 i j) ⟨j, Finset.mem_univ _, ?_⟩⟩
      have := hA.m_pos i
      have := hA.m_pos j
      have := sigma_ij_pos hA i j
      have hε : 0 < (fromRecords pr k).epsilon_k_ij i j := by
        have e : (fromRecords pr k).epsilon_k_ij i j = (1.0 - k i j) * Real.sqrt ((fromRecords pr k).epsilon_k i
          * (fromRecords pr k).epsilon_k j) := rfl
        rw [e]
        exact mul_pos (by norm_num; exact h5) (Real.sqrt_pos.2 (mul_pos h3 h4))
      rw [StateHD.new_density]
      positivity
    have : 0 < Real.pi * V * (2 * rho1mix (fromRecords pr k) T (StateHD.new T V N).partial_density
        * intForm A0 A1 A2 mm η + rho2mix (fromRecords pr k) T (StateHD.new T V N).partial_density * mm * c1Form mm η
          * intForm B0 B1 B2 mm η) := by positivity
    linarith

/-- C87: raising binary interaction parameters never lowers the dispersion energy. -/
theorem C87_binary_interaction (h : Attractive (fromRecords pr k) T V N) (hk : ∀ i j, k i j ≤ k' i j)
    (hk' : ∀ i j, k' i j ≤ 1) :
    dispersion (fromRecords pr k) (StateHD.new T V N) ≤ dispersion (fromRecords pr k') (StateHD.new T V N) := by
  have hA := h.admissible
  have hV := hA.volume
  have hT := hA.temperature
  have hm := le_meanSegments h
  have hη : zeta (fromRecords pr k).m (StateHD.new T V N).partial_density (hsDiameter (fromRecords pr k) T) 3 ≤ 1 / 2 := by
    rw [zeta3_eq_packing]
    exact h.packing
  have hη0 := (hA.zeta_pos 3).le
  rw [dispersion_real, dispersion_real, StateHD.new_volume, StateHD.new_temperature]
  have i1 := int1_pos hm hη0 hη
  have i2 := int2_pos hm hη0 hη
  have hc := c1_pos (lt_of_lt_of_le (by norm_num) hm) hη0 (by linarith)
  change dispForm _ _ _ _ _ ≤ dispForm _ _ _ (∑ i, (StateHD.new T V N).molefracs i * (fromRecords pr k).m i)
    (zeta (fromRecords pr k).m (StateHD.new T V N).partial_density (hsDiameter (fromRecords pr k) T) 3)
  revert i1 i2 hc hm
  generalize zeta (fromRecords pr k).m (StateHD.new T V N).partial_density (hsDiameter (fromRecords pr k) T) 3 = η
  generalize ∑ i, (StateHD.new T V N).molefracs i * (fromRecords pr k).m i = mm
  intro hm i1 i2 hc
  have e1 : (1.0 : ℝ) = 1 := by norm_num
  have he : ∀ i j, 0 ≤ (fromRecords pr k').epsilon_k_ij i j
      ∧ (fromRecords pr k').epsilon_k_ij i j ≤ (fromRecords pr k).epsilon_k_ij i j := fun i j => by
    have e : ∀ k : Fin n → Fin n → ℝ, (fromRecords pr k).epsilon_k_ij i j
      = (1.0 - k i j) * Real.sqrt ((fromRecords pr k).epsilon_k i * (fromRecords pr k).epsilon_k j) := fun _ => rfl
    rw [e, e, e1]
    exact ⟨mul_nonneg (sub_nonneg.2 (hk' i j)) (Real.sqrt_nonneg _),
      mul_le_mul_of_nonneg_right (sub_le_sub_left (hk i j) 1) (Real.sqrt_nonneg _)⟩
  have hr1 : rho1mix (fromRecords pr k') T (StateHD.new T V N).partial_density
      ≤ rho1mix (fromRecords pr k) T (StateHD.new T V N).partial_density := by
    rw [rho1mix_real, rho1mix_real]
    refine Finset.sum_le_sum fun i _ => Finset.sum_le_sum fun j _ => ?_
    have := hA.moles_nonneg i
    have := hA.moles_nonneg j
    have h1 := hA.m_pos i
    have h2 := hA.m_pos j
    have h3 := sigma_ij_pos hA i j
    have h4 := (he i j).2
    change _ * ((fromRecords pr k).m i * (fromRecords pr k).m j * _ * (fromRecords pr k).sigma_ij i j ^ 3) ≤ _
    rw [StateHD.new_density]
    gcongr
  have hr2 : rho2mix (fromRecords pr k') T (StateHD.new T V N).partial_density
      ≤ rho2mix (fromRecords pr k) T (StateHD.new T V N).partial_density := by
    rw [rho2mix_real, rho2mix_real]
    refine Finset.sum_le_sum fun i _ => Finset.sum_le_sum fun j _ => ?_
    have := hA.moles_nonneg i
    have := hA.moles_nonneg j
    have h1 := hA.m_pos i
    have h2 := hA.m_pos j
    have h3 := sigma_ij_pos hA i j
    have h4 := (he i j).2
    have h5 := (he i j).1
    change _ * ((fromRecords pr k).m i * (fromRecords pr k).m j * _ * (fromRecords pr k).sigma_ij i j ^ 3) ≤ _
    rw [StateHD.new_density]
    gcongr
  have hπ := Real.pi_pos
  have hmm : 0 < mm := by linarith
  unfold dispForm
  simp only [neg_mul]
  rw [neg_le_neg_iff]
  gcongr

/-- the same parameters with other interactions between unlike molecules -/
abbrev otherPairs (p : PcSaftParameters n ℝ) (kij eij br : Fin n → Fin n → ℝ) : PcSaftParameters n ℝ :=
  { p with k_ij := kij, epsilon_k_ij := eij, binary_records := br }

theorem crossAssociationDensity_otherPairs (p : PcSaftParameters n ℝ) (kij eij br : Fin n → Fin n → ℝ) (nd : ℕ)
    (solveF solveD : Solver p.assoc_comp.length ℝ) (T : ℝ) (d r : Fin n → ℝ) (n2 n3 xi : ℝ) (N : ℕ) (tol : ℝ)
    (x0 : Option (Fin p.assoc_comp.length ⊕ Fin p.assoc_comp.length → ℝ)) :
    crossAssociationDensity (otherPairs p kij eij br) nd solveF solveD T d r n2 n3 xi N tol x0
      = crossAssociationDensity p nd solveF solveD T d r n2 n3 xi N tol x0 := by
  unfold crossAssociationDensity
  split_ifs
  · rfl
  · dsimp only
    have e : associationStrength (F := ℝ) (D := ℝ) (otherPairs p kij eij br) = associationStrength p := rfl
    rw [e]
    cases newtonLoop (newtonStep solveF
        (fun i j => DualNum.re (associationStrength p T r n2 n3 xi (p.assoc_comp.get i) (p.assoc_comp.get j)))
        (fun i => p.na (p.assoc_comp.get i)) (fun i => p.nb (p.assoc_comp.get i))
        (fun i => DualNum.re (d (p.assoc_comp.get i))) tol) N (x0.getD fun _ => 0.2) with
    | error e => rfl
    | ok x =>
      dsimp only
      cases newtonDual (newtonStep solveD (fun i j => associationStrength p T r n2 n3 xi (p.assoc_comp.get i)
          (p.assoc_comp.get j)) (fun i => p.na (p.assoc_comp.get i)) (fun i => p.nb (p.assoc_comp.get i))
          (fun i => d (p.assoc_comp.get i)) tol) nd fun s => c (x s) with
      | error e => rfl
      | ok x => rfl

theorem crossAssociation_otherPairs (p : PcSaftParameters n ℝ) (kij eij br : Fin n → Fin n → ℝ) (N : ℕ) (tol : ℝ)
    (nd : ℕ) (solveF solveD : Solver p.assoc_comp.length ℝ) (s : StateHD n ℝ) :
    crossAssociation (otherPairs p kij eij br) N tol nd solveF solveD s
      = crossAssociation p N tol nd solveF solveD s := by
  unfold crossAssociation
  dsimp only
  have := crossAssociationDensity_otherPairs p kij eij br nd solveF solveD s.temperature s.partial_density
    (fun i => hsDiameter p s.temperature i * c 0.5)
  rw [show hsDiameter (otherPairs p kij eij br) s.temperature = hsDiameter p s.temperature from rfl, this]

/-- C87: binary interaction parameters act on the dispersion contribution only, so the residual Helmholtz energy
rises with them; failures of the association solver are unaffected. -/
theorem C87_residual (h : Attractive (fromRecords pr k) T V N) (hk : ∀ i j, k i j ≤ k' i j)
    (hk' : ∀ i j, k' i j ≤ 1) (o : PcSaftOptions ℝ) (la : LinAlg ℝ ℝ) :
    ∃ δ : ℝ, 0 ≤ δ ∧ (Eos.withOptions (fromRecords pr k') o).residualHelmholtz la (StateHD.new T V N)
      = ((Eos.withOptions (fromRecords pr k) o).residualHelmholtz la (StateHD.new T V N)).map (· + δ) := by
  have hd := C87_binary_interaction h hk hk'
  refine ⟨_, sub_nonneg.2 hd, ?_⟩
  by_cases hn : (fromRecords pr k).nassoc ≤ 1
  · rw [residual_of_nassoc_le_one la (fromRecords pr k) o _ hn, residual_of_nassoc_le_one la (fromRecords pr k') o _ hn]
    simp only [Except.map]
    congr 1
    have : residualSum o.dq_variant (fromRecords pr k') (StateHD.new T V N)
        = hardSphere (fromRecords pr k) (StateHD.new T V N) + hardChain (fromRecords pr k) (StateHD.new T V N)
          + dispersion (fromRecords pr k') (StateHD.new T V N) + dipole (fromRecords pr k) (StateHD.new T V N)
          + quadrupole (fromRecords pr k) (StateHD.new T V N)
          + dipoleQuadrupole o.dq_variant (fromRecords pr k) (StateHD.new T V N)
          + assocEnergy (fromRecords pr k) (StateHD.new T V N) := rfl
    rw [this, residualSum]
    ring
  · have hn2 : 2 ≤ (fromRecords pr k).nassoc := by omega
    rw [residual_of_two_le_nassoc la (fromRecords pr k) o _ hn2, residual_of_two_le_nassoc la (fromRecords pr k') o _ hn2]
    have e : crossAssociation (fromRecords pr k') o.max_iter_cross_assoc o.tol_cross_assoc la.nderiv (la.solveF _)
        (la.solveD _) (StateHD.new T V N) = crossAssociation (fromRecords pr k) o.max_iter_cross_assoc
          o.tol_cross_assoc la.nderiv (la.solveF _) (la.solveD _) (StateHD.new T V N) :=
      crossAssociation_otherPairs (fromRecords pr k) k' (fromRecords pr k').epsilon_k_ij k' _ _ _ _ _ _
    rw [e]
    cases crossAssociation (fromRecords pr k) o.max_iter_cross_assoc o.tol_cross_assoc la.nderiv (la.solveF _)
      (la.solveD _) (StateHD.new T V N) with
    | error e => rfl
    | ok a =>
      simp only [Except.map]
      congr 1
      have : nonAssocSum o.dq_variant (fromRecords pr k') (StateHD.new T V N)
          = hardSphere (fromRecords pr k) (StateHD.new T V N) + hardChain (fromRecords pr k) (StateHD.new T V N)
            + dispersion (fromRecords pr k') (StateHD.new T V N) + dipole (fromRecords pr k) (StateHD.new T V N)
            + quadrupole (fromRecords pr k) (StateHD.new T V N)
            + dipoleQuadrupole o.dq_variant (fromRecords pr k) (StateHD.new T V N) := rfl
      rw [this, nonAssocSum]
      ring

end

/-! ## Cases that meet the hypotheses -/

example := C87_integrals (m := 2.5) (eta := 0.4) (by norm_num) (by norm_num) (by norm_num)

theorem plainRecords_attractive {k : Fin 2 → Fin 2 → ℝ} (hk : ∀ i j, k i j ≤ 1) :
    Attractive (fromRecords plainRecords k) 300 1000 ![1, 1] where
  admissible := plainRecords_admissible k one_pos zero_le_one le_rfl le_rfl
  packing := by
    have hd : ∀ s : ℝ, 0 ≤ s → s ≤ 4 → Spec.diameter s 200 300 ^ 3 ≤ 64 := by
      intro s h0 h4
      have he := Real.exp_pos (-3 * 200 / 300)
      have he1 : Real.exp (-3 * 200 / 300) ≤ 1 := Real.exp_le_one_iff.2 (by norm_num)
      have h1 : Spec.diameter s 200 300 ≤ 4 := by
        unfold Spec.diameter
        norm_num at he he1 ⊢
        nlinarith
      have h2 : 0 ≤ Spec.diameter s 200 300 := by
        unfold Spec.diameter
        refine mul_nonneg h0 ?_
        linarith
      calc _ ≤ (4 : ℝ) ^ 3 := pow_le_pow_left₀ h2 h1 3
        _ = 64 := by norm_num
    have hpi := Real.pi_lt_four
    have hpi0 := Real.pi_pos
    unfold Spec.packingFraction
    rw [Fin.sum_univ_two]
    change 1 * 1 * (Real.pi / 6 * Spec.diameter (3 + (0 : ℕ) / 10) 200 300 ^ 3) / 1000
      + 1 * 1 * (Real.pi / 6 * Spec.diameter (3 + (1 : ℕ) / 10) 200 300 ^ 3) / 1000 ≤ 1 / 2
    have a := hd (3 + (0 : ℕ) / 10) (by norm_num) (by norm_num)
    have b := hd (3 + (1 : ℕ) / 10) (by norm_num) (by norm_num)
    nlinarith
  segments := by
    change 4 / 5 * ∑ i, _ ≤ ∑ i : Fin 2, (![1, 1] : Fin 2 → ℝ) i * (1 : ℝ)
    simp
    norm_num
  k_le_one := hk

example : dispersion (fromRecords plainRecords fun _ _ => 0) (StateHD.new 300 1000 (![1, 1] : Fin 2 → ℝ)) < 0 :=
  (C87_attractive (plainRecords_attractive fun _ _ => zero_le_one)).2.2 ⟨0, 1, by
    change (0 : ℝ) < 1 ∧ (0 : ℝ) < 1 ∧ (0 : ℝ) < 200 ∧ (0 : ℝ) < 200 ∧ (0 : ℝ) < 1
    norm_num⟩

example (o : PcSaftOptions ℝ) (la : LinAlg ℝ ℝ) :=
  C87_residual (k := fun _ _ => -0.01) (k' := fun _ _ => 0.05) (plainRecords_attractive fun _ _ => by norm_num)
    (fun _ _ => by norm_num) (fun _ _ => by norm_num) o la

end PcSaft.Props
