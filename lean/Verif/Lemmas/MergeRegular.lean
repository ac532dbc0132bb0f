import Verif.Lemmas.MergeInv
import Verif.Lemmas.RepEos
import Verif.Props.CrossMixture

/-!
# A selection of components is regular where the whole mixture is
-/

namespace PcSaft
open Spec Props
variable {n n' : ℕ} {φ : Fin n' → Fin n} {p' : PcSaftParameters n' ℝ} {p : PcSaftParameters n ℝ}

theorem SubsetOf.dipolePhis (h : SubsetOf φ p' p) (hp : PolarOk p) (hp' : PolarOk p') (T V : ℝ) (w : Fin n' → ℝ) :
    dipolePhis p' (StateHD.new T V w) = dipolePhis p (StateHD.new T V (merge φ w)) := by
  unfold PcSaft.dipolePhis stateEta
  simp only [packingFraction_eq_zeta]
  simp only [dipolePhi2_real hp, dipolePhi3_real hp, dipolePhi2_real hp', dipolePhi3_real hp', StateHD.new_temperature]
  rw [new_merge_density]
  simp only [sum_merge2, sum_merge3, h.zeta]
  simp only [dipK2, dipK3, h.pairI, h.tripI, dipoleTerm, h.sigma_ij, h.epsilon_k, h.mu2]

theorem SubsetOf.dipoleQuadrupolePhis (h : SubsetOf φ p' p) (hp : PolarOk p) (hp' : PolarOk p') (v : DQVariants)
    (T V : ℝ) (w : Fin n' → ℝ) :
    dipoleQuadrupolePhis v p' (StateHD.new T V w) = dipoleQuadrupolePhis v p (StateHD.new T V (merge φ w)) := by
  unfold PcSaft.dipoleQuadrupolePhis stateEta
  simp only [packingFraction_eq_zeta]
  simp only [dipoleQuadrupolePhi2_real hp, dipoleQuadrupolePhi3_real hp, dipoleQuadrupolePhi2_real hp',
    dipoleQuadrupolePhi3_real hp', StateHD.new_temperature]
  rw [new_merge_density]
  simp only [sum_merge2, sum_merge3, h.zeta]
  have e : ∀ i j (t : ℝ), muQTerm v p' t i j = muQTerm v p t (φ i) (φ j) := by
    intro i j t
    cases v <;> simp only [muQTerm, dqTerm, h.sigma, h.epsilon_k, h.mu2, h.q2]
  simp only [dqK2, dqK3d, dqK3q, dqI3, mdqTriplet, h.pairI, e, dqTerm, h.sigma_ij, h.sigma, h.epsilon_k,
    h.mu2, h.q2, h.m]

theorem SubsetOf.quadrupolePhis (h : SubsetOf φ p' p) (hp : PolarOk p) (hp' : PolarOk p')
    (hφ : Monotone φ ∨ ∀ i j, p.q2 i ≠ 0 → p.q2 j ≠ 0 → p.sigma i = p.sigma j) (T V : ℝ) (w : Fin n' → ℝ) :
    quadrupolePhis p' (StateHD.new T V w) = quadrupolePhis p (StateHD.new T V (merge φ w)) := by
  unfold PcSaft.quadrupolePhis stateEta
  simp only [packingFraction_eq_zeta]
  simp only [quadrupolePhi2_real hp, quadrupolePhi3_real hp, quadrupolePhi2_real hp', quadrupolePhi3_real hp',
    StateHD.new_temperature]
  rw [new_merge_density]
  simp only [sum_merge2, sum_merge3, h.zeta]
  have e3 : ∀ eta i j k, quadK3 p' T eta i j k = quadK3 p T eta (φ i) (φ j) (φ k) := by
    intro eta i j k
    simp only [quadK3, h.tripI, quadrupoleTerm, h.sigma, h.sigma_ij, h.epsilon_k, h.q2]
  have e2 : ∀ eta i j, quadK2 p' T eta i j = quadK2 p T eta (φ i) (φ j) := by
    intro eta i j
    have et : ∀ i, quadrupoleTerm p' T⁻¹ i = quadrupoleTerm p T⁻¹ (φ i) := by
      intro i
      simp only [quadrupoleTerm, h.sigma, h.epsilon_k, h.q2]
    unfold quadK2
    rw [h.pairI, et, et, h.sigma]
    rcases hφ with hφ | hφ
    · rw [hφ.map_min]
    · by_cases hi : p.q2 (φ i) = 0
      · have : quadrupoleTerm p T⁻¹ (φ i) = 0 := by simp [quadrupoleTerm, hi]
        rw [this]
        ring
      by_cases hj : p.q2 (φ j) = 0
      · have : quadrupoleTerm p T⁻¹ (φ j) = 0 := by simp [quadrupoleTerm, hj]
        rw [this]
        ring
      have hq : p.q2 (φ (min i j)) ≠ 0 := by
        rcases min_choice i j with h' | h' <;> rw [h'] <;> assumption
      have hq' : p.q2 (min (φ i) (φ j)) ≠ 0 := by
        rcases min_choice (φ i) (φ j) with h' | h' <;> rw [h'] <;> assumption
      rw [hφ _ _ hq hq']
  simp only [e2, e3]

theorem packing_merge (pr : Fin n → PureRecord ℝ) (k : Fin n → Fin n → ℝ) (φ : Fin n' → Fin n) (T V : ℝ) (w : Fin n' → ℝ) :
    Spec.packingFraction ((fromRecords pr k).subset φ) T V w = Spec.packingFraction (fromRecords pr k) T V (merge φ w) := by
  rw [← zeta3_eq_packing, ← zeta3_eq_packing, (subsetOf_fromRecords pr k φ).zeta, new_merge_density]

theorem admissible_merge {pr : Fin n → PureRecord ℝ} {k : Fin n → Fin n → ℝ} {φ : Fin n' → Fin n} {T V : ℝ} {w : Fin n' → ℝ}
    (h : Admissible (fromRecords pr k) T V (merge φ w)) (hw : ∀ i, 0 ≤ w i) :
    Admissible ((fromRecords pr k).subset φ) T V w where
  temperature := h.temperature
  volume := h.volume
  m_pos i := h.m_pos (φ i)
  sigma_pos i := h.sigma_pos (φ i)
  epsilon_nonneg i := h.epsilon_nonneg (φ i)
  moles_nonneg := hw
  moles_ne_zero := by
    by_contra hcon
    push Not at hcon
    obtain ⟨i, hi⟩ := h.moles_ne_zero
    exact hi (by simp [merge, hcon])
  packing := by
    rw [packing_merge]
    exact h.packing

theorem merge_at {pr : Fin n → PureRecord ℝ} {k : Fin n → Fin n → ℝ} {φ : Fin n' → Fin n}
    (h : AssocBijective φ (fromRecords pr k)) (w : Fin n' → ℝ) (j : Fin n') (hj : (fromRecords pr k).kappa_ab (φ j) ≠ 0) :
    merge φ w (φ j) = w j := by
  unfold merge
  rw [Finset.sum_eq_single j]
  · rw [if_pos rfl]
  · intro i _ hi
    exact if_neg fun hij => hi (h.injective _ _ hj hij.symm).symm
  · simp

theorem regular_merge {pr : Fin n → PureRecord ℝ} {k : Fin n → Fin n → ℝ} {φ : Fin n' → Fin n}
    (hb : AssocBijective φ (fromRecords pr k))
    (hq : Monotone φ ∨ ∀ i j, (fromRecords pr k).q2 i ≠ 0 → (fromRecords pr k).q2 j ≠ 0 →
      (pr i).model_record.sigma = (pr j).model_record.sigma) {T V : ℝ} {w : Fin n' → ℝ}
    (h : Admissible (fromRecords pr k) T V (merge φ w)) (hw : ∀ i, 0 ≤ w i) (o : PcSaftOptions ℝ)
    (hr : ∀ ct ∈ buildContributions (fromRecords pr k) o, Regular (fromRecords pr k) T V (merge φ w) ct)
    (ct : Contribution ℝ) (hct : ct ∈ buildContributions ((fromRecords pr k).subset φ) o) :
    Regular ((fromRecords pr k).subset φ) T V w ct := by
  have hm : ∀ i, 0 ≤ (pr i).model_record.m := fun i => (h.m_pos i).le
  have hs := subsetOf_fromRecords pr k φ
  have hp := polarOk_fromRecords pr k hm
  have hp' : PolarOk ((fromRecords pr k).subset φ) :=
    polarOk_fromRecords _ (fun i j => k (φ i) (φ j)) (fun i => hm (φ i))
  have hdip : 0 < ((fromRecords pr k).subset φ).ndipole → 0 < (fromRecords pr k).ndipole := by
    intro h0
    obtain ⟨j, hj⟩ := List.exists_mem_of_length_pos h0
    have hj' := (mem_nonzeroComp ((fromRecords pr k).subset φ).mu2 j).1 hj
    exact List.length_pos_of_mem ((mem_nonzeroComp (fromRecords pr k).mu2 (φ j)).2 hj')
  have hquad : 0 < ((fromRecords pr k).subset φ).nquadpole → 0 < (fromRecords pr k).nquadpole := by
    intro h0
    obtain ⟨j, hj⟩ := List.exists_mem_of_length_pos h0
    have hj' := (mem_nonzeroComp ((fromRecords pr k).subset φ).q2 j).1 hj
    exact List.length_pos_of_mem ((mem_nonzeroComp (fromRecords pr k).q2 (φ j)).2 hj')
  obtain ⟨e, he⟩ := assoc_equiv pr k φ hb
  have hlen : ((fromRecords pr k).subset φ).nassoc = (fromRecords pr k).nassoc := by
    have := Fintype.card_congr e
    simpa only [Fintype.card_fin] using this
  have hct' : ct ∈ buildContributions (fromRecords pr k) o := by
    unfold buildContributions at hct ⊢
    rw [hlen] at hct
    simp only [List.mem_append] at hct ⊢
    rcases hct with (((h1 | h1) | h1) | h1) | h1
    · exact Or.inl (Or.inl (Or.inl (Or.inl h1)))
    · split_ifs at h1 with h2
      · rw [if_pos (hdip h2)]
        exact Or.inl (Or.inl (Or.inl (Or.inr h1)))
      · simp at h1
    · split_ifs at h1 with h2
      · rw [if_pos (hquad h2)]
        exact Or.inl (Or.inl (Or.inr h1))
      · simp at h1
    · split_ifs at h1 with h2
      · rw [if_pos (⟨hdip h2.1, hquad h2.2⟩ : _ ∧ _)]
        exact Or.inl (Or.inr h1)
      · simp at h1
    · exact Or.inr h1
  have hreg := hr ct hct'
  cases ct with
  | hardSphere => trivial
  | hardChain => trivial
  | dispersion => trivial
  | dipole =>
    simp only [Regular] at hreg ⊢
    rw [hs.dipolePhis hp hp']
    exact hreg
  | quadrupole =>
    simp only [Regular] at hreg ⊢
    rw [hs.quadrupolePhis hp hp' hq]
    exact hreg
  | dipoleQuadrupole v =>
    simp only [Regular] at hreg ⊢
    rw [hs.dipoleQuadrupolePhis hp hp']
    exact hreg
  | association =>
    obtain ⟨a, ha, h1, h2, h3, h4, h5⟩ := hreg
    have hone : ((fromRecords pr k).subset φ).assoc_comp.length = 1 := hlen.trans (by rw [nassoc_of ha]; rfl)
    obtain ⟨j, hj⟩ := List.length_eq_one_iff.1 hone
    have hjm : j ∈ ((fromRecords pr k).subset φ).assoc_comp := by rw [hj]; simp
    have hj' := (mem_nonzeroComp ((fromRecords pr k).subset φ).kappa_ab j).1 hjm
    have hφ : φ j = a := by
      have := (mem_assoc_iff pr k (φ j)).2 hj'
      rw [ha] at this
      simpa using this
    subst hφ
    have hadm := admissible_merge h hw
    refine ⟨j, hj, h1, h2, h3, h4, ?_⟩
    have e1 : stateDeltaRho ((fromRecords pr k).subset φ) (StateHD.new T V w) j
        = specStrength ((fromRecords pr k).subset φ) T V w j j * (w j / V) :=
      stateDeltaRho_eq (pr := fun i => pr (φ i)) (k := fun i j => k (φ i) (φ j)) hadm j [] hj
    have e2 := stateDeltaRho_eq h (φ j) [] ha
    rw [← e1]
    rw [← e2] at h5
    have e3 : stateDeltaRho ((fromRecords pr k).subset φ) (StateHD.new T V w) j
        = stateDeltaRho (fromRecords pr k) (StateHD.new T V (merge φ w)) (φ j) := by
      change stateStrength ((fromRecords pr k).subset φ) (StateHD.new T V w) j j * (StateHD.new T V w).partial_density j
        = stateStrength (fromRecords pr k) (StateHD.new T V (merge φ w)) (φ j) (φ j)
          * (StateHD.new T V (merge φ w)).partial_density (φ j)
      rw [stateStrength_merge, StateHD.new_density, StateHD.new_density]
      dsimp only
      rw [merge_at hb w j hj']
    rw [e3]
    exact h5
  | crossAssociation m tol => exact hreg.elim

end PcSaft
