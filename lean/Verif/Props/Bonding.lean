import Verif.Props.CrossConvergence
import Verif.Props.Construction
import Verif.Lemmas.Bonding

/-!
# Property C86: stronger hydrogen bonds lower the energy

A mixture is compared with the same mixture after association volumes, association energies or numbers of sites
have been raised.
-/

namespace PcSaft.Spec
open PcSaft
variable {n : ℕ}

/-- the same records with other association parameters -/
noncomputable def withBonds (pr : Fin n → PureRecord ℝ) (kappa epsilon na nb : Fin n → ℝ) (i : Fin n) :
    PureRecord ℝ :=
  { pr i with model_record := { (pr i).model_record with
      kappa_ab := some (kappa i), epsilon_k_ab := some (epsilon i), na := some (na i), nb := some (nb i) } }

/-- None of the association parameters of the second mixture is smaller. -/
structure StrongerBonds (p p' : PcSaftParameters n ℝ) : Prop where
  kappa_nonneg : ∀ i, 0 ≤ p.kappa_ab i
  kappa : ∀ i, p.kappa_ab i ≤ p'.kappa_ab i
  epsilon : ∀ i, p.epsilon_k_ab i ≤ p'.epsilon_k_ab i
  na : ∀ i, p.na i ≤ p'.na i
  nb : ∀ i, p.nb i ≤ p'.nb i

end PcSaft.Spec

namespace PcSaft.Props
open PcSaft Spec
variable {n k : ℕ}

/-! ## Mass-action equations -/

/-- C86: for all fractions `y` of unbonded A sites, the function below does not exceed the association energy; the
energy is its maximum. -/
theorem C86_maximum {delta : Fin k → Fin k → ℝ} {na nb rho : Fin k → ℝ} (hd : ∀ i j, 0 ≤ delta i j)
    (hsym : ∀ i j, delta i j = delta j i) (hna : ∀ i, 0 ≤ na i) (hnb : ∀ i, 0 ≤ nb i) (hrho : ∀ i, 0 ≤ rho i)
    {x : Fin k ⊕ Fin k → ℝ} (hx : ∀ s, 0 < x s) (hsol : MassAction (siteMatrix delta na nb rho) x) :
    IsGreatest {q | ∃ y : Fin k → ℝ, (∀ i, 0 < y i) ∧ q = ∑ i, rho i * na i * (Real.log (y i) - y i + 1)
      - ∑ j, rho j * nb j * Real.log (1 + ∑ i, delta j i * (rho i * na i) * y i)}
      (specEnergy na nb rho x) := by
  have e := bondingFunction_at hsym hsol
  refine ⟨⟨fun i => x (.inl i), fun i => hx _, e.symm⟩, ?_⟩
  rintro q ⟨y, hy, rfl⟩
  exact (bondingFunction_le hd hsym hna hnb hrho hsol hx hy).trans e.le

/-- C86: at the solutions of the mass-action equations, the energy falls when strengths or numbers of sites rise. -/
theorem C86_strengths {delta delta' : Fin k → Fin k → ℝ} {na nb na' nb' rho : Fin k → ℝ}
    (hd : ∀ i j, 0 ≤ delta i j) (hsym : ∀ i j, delta i j = delta j i) (hsym' : ∀ i j, delta' i j = delta' j i)
    (hna : ∀ i, 0 ≤ na i) (hnb : ∀ i, 0 ≤ nb i) (hrho : ∀ i, 0 ≤ rho i) (hdd : ∀ i j, delta i j ≤ delta' i j)
    (hna' : ∀ i, na i ≤ na' i) (hnb' : ∀ i, nb i ≤ nb' i) {x x' : Fin k ⊕ Fin k → ℝ} (hx : ∀ s, 0 < x s)
    (hx' : ∀ s, 0 < x' s) (hsol : MassAction (siteMatrix delta na nb rho) x)
    (hsol' : MassAction (siteMatrix delta' na' nb' rho) x') :
    specEnergy na' nb' rho x' ≤ specEnergy na nb rho x := by
  have e := bondingFunction_at hsym hsol
  have e' := bondingFunction_at hsym' hsol'
  have h1 := bondingFunction_mono hd hna hnb hrho hdd hna' hnb' (y := fun i => x' (.inl i)) (fun i => hx' _)
  have h2 := bondingFunction_le hd hsym hna hnb hrho hsol hx (y := fun i => x' (.inl i)) (fun i => hx' _)
  unfold specEnergy
  linarith

/-! ## Strengths of a mixture -/

section mixture
variable {pr : Fin n → PureRecord ℝ} {kij : Fin n → Fin n → ℝ} {kappa epsilon na nb : Fin n → ℝ}

theorem specStrength_symm (p : PcSaftParameters n ℝ) (T V : ℝ) (N : Fin n → ℝ) (i j : Fin n) :
    specStrength p T V N i j = specStrength p T V N j i := by
  unfold specStrength contactPair
  rw [mul_comm (p.kappa_ab i), mul_comm (p.sigma i), add_comm (p.epsilon_k_ab i),
    mul_comm (Spec.diameter (p.sigma i) (p.epsilon_k i) T), add_comm (Spec.diameter (p.sigma i) (p.epsilon_k i) T)]

theorem admissible_withBonds {T V : ℝ} {N : Fin n → ℝ} (h : Admissible (fromRecords pr kij) T V N) :
    Admissible (fromRecords (withBonds pr kappa epsilon na nb) kij) T V N :=
  ⟨h.temperature, h.volume, h.m_pos, h.sigma_pos, h.epsilon_nonneg, h.moles_nonneg, h.moles_ne_zero, h.packing⟩

theorem assocNonneg_withBonds (hn : AssocNonneg (fromRecords pr kij))
    (hs : StrongerBonds (fromRecords pr kij) (fromRecords (withBonds pr kappa epsilon na nb) kij)) :
    AssocNonneg (fromRecords (withBonds pr kappa epsilon na nb) kij) :=
  ⟨fun i => (hn.epsilon i).trans (hs.epsilon i), fun i => (hn.na i).trans (hs.na i),
    fun i => (hn.nb i).trans (hs.nb i)⟩

/-- C86: the association strength grows with the association volumes and energies. -/
theorem C86_association_strength {T V : ℝ} {N : Fin n → ℝ} (h : Admissible (fromRecords pr kij) T V N)
    (hn : AssocNonneg (fromRecords pr kij))
    (hs : StrongerBonds (fromRecords pr kij) (fromRecords (withBonds pr kappa epsilon na nb) kij)) (i j : Fin n) :
    specStrength (fromRecords pr kij) T V N i j
      ≤ specStrength (fromRecords (withBonds pr kappa epsilon na nb) kij) T V N i j := by
  have di := h.diameter_pos i
  have dj := h.diameter_pos j
  rw [hsDiameter_eq_spec] at di dj
  have hg := contactPair_pos (moment2_nonneg h) h.packing di dj
  have hT := h.temperature
  set p := fromRecords pr kij with hp
  set p' := fromRecords (withBonds pr kappa epsilon na nb) kij with hp'
  have he0 : 0 ≤ Real.exp ((p.epsilon_k_ab i + p.epsilon_k_ab j) / 2 / T) - 1 := by
    have : 0 ≤ (p.epsilon_k_ab i + p.epsilon_k_ab j) / 2 / T := by
      have := hn.epsilon i
      have := hn.epsilon j
      positivity
    have := Real.add_one_le_exp ((p.epsilon_k_ab i + p.epsilon_k_ab j) / 2 / T)
    linarith
  have he : Real.exp ((p.epsilon_k_ab i + p.epsilon_k_ab j) / 2 / T) - 1
      ≤ Real.exp ((p'.epsilon_k_ab i + p'.epsilon_k_ab j) / 2 / T) - 1 := by
    refine sub_le_sub_right (Real.exp_le_exp.2 ?_) 1
    have := hs.epsilon i
    have := hs.epsilon j
    gcongr
  have hk : Real.sqrt (p.kappa_ab i * p.kappa_ab j) ≤ Real.sqrt (p'.kappa_ab i * p'.kappa_ab j) :=
    Real.sqrt_le_sqrt (mul_le_mul (hs.kappa i) (hs.kappa j) (hs.kappa_nonneg j)
      ((hs.kappa_nonneg i).trans (hs.kappa i)))
  have e : specStrength p' T V N i j = contactPair (moment2 p T V N) (Spec.packingFraction p T V N)
      (Spec.diameter (p.sigma i) (p.epsilon_k i) T) (Spec.diameter (p.sigma j) (p.epsilon_k j) T)
    * Real.sqrt (p'.kappa_ab i * p'.kappa_ab j) * Real.sqrt (p.sigma i * p.sigma j) ^ 3
    * (Real.exp ((p'.epsilon_k_ab i + p'.epsilon_k_ab j) / 2 / T) - 1) := rfl
  rw [e, specStrength]
  exact mul_le_mul (mul_le_mul_of_nonneg_right (mul_le_mul_of_nonneg_left hk hg.le) (by positivity)) he he0
    (by positivity)

/-- C86: the exact association energy of a mixture does not rise when bonds become stronger or sites are added. -/
theorem C86_exact {T V : ℝ} {N : Fin n → ℝ} (h : Admissible (fromRecords pr kij) T V N)
    (hn : AssocNonneg (fromRecords pr kij))
    (hs : StrongerBonds (fromRecords pr kij) (fromRecords (withBonds pr kappa epsilon na nb) kij)) {a a' : ℝ}
    (ha : ExactAssociation (fromRecords pr kij) T V N a)
    (ha' : ExactAssociation (fromRecords (withBonds pr kappa epsilon na nb) kij) T V N a') : a' ≤ a := by
  obtain ⟨x, hx, hsol, rfl⟩ := ha
  obtain ⟨x', hx', hsol', rfl⟩ := ha'
  refine mul_le_mul_of_nonneg_right ?_ h.volume.le
  exact C86_strengths (fun i j => specStrength_nonneg h i j (add_nonneg (hn.epsilon i) (hn.epsilon j)))
    (specStrength_symm _ T V N) (specStrength_symm _ T V N) hn.na hn.nb
    (fun i => div_nonneg (h.moles_nonneg i) h.volume.le) (C86_association_strength h hn hs) hs.na hs.nb hx hx' hsol hsol'

theorem nonAssocSum_withBonds (v : DQVariants) (s : StateHD n ℝ) :
    nonAssocSum v (fromRecords (withBonds pr kappa epsilon na nb) kij) s = nonAssocSum v (fromRecords pr kij) s := rfl

theorem nassoc_mono {pr pr' : Fin n → PureRecord ℝ} {kij kij' : Fin n → Fin n → ℝ}
    (h : ∀ i, (fromRecords pr kij).kappa_ab i ≠ 0 → (fromRecords pr' kij').kappa_ab i ≠ 0) :
    (fromRecords pr kij).nassoc ≤ (fromRecords pr' kij').nassoc := by
  exact (List.subperm_of_subset (assoc_nodup pr kij) fun i hi =>
    (mem_assoc_iff pr' kij' i).2 (h i ((mem_assoc_iff pr kij i).1 hi))).length_le

/-- a list without repetitions whose only possible member is `i` -/
theorem list_of_all_eq {l : List (Fin n)} (hnd : l.Nodup) {i : Fin n} (h : ∀ j ∈ l, j = i) : l = [] ∨ l = [i] := by
  rcases l with _ | ⟨a, _ | ⟨b, l⟩⟩
  · exact .inl rfl
  · exact .inr (by rw [h a (by simp)])
  · have := (List.nodup_cons.1 hnd).1
    rw [h a (by simp), h b (by simp)] at this
    simp at this

/-! ## One associating component -/

/-- C86: with one component, both fractions of unbonded sites and the energy fall when the strength rises, across
the switch between the explicit formula and the series. -/
theorem C86_single {d d' moles na nb : ℝ} (hd : 0 ≤ d) (hdd : d ≤ d') (hm : 0 ≤ moles) (hna : 0 < na) (hnb : 0 < nb)
    (hsmall : na + nb ≤ 2 ^ 25) :
    assocSiteFracAB d' na nb ≤ assocSiteFracAB d na nb ∧ assocSiteFracAB d' nb na ≤ assocSiteFracAB d nb na
      ∧ assocSingle d' moles na nb ≤ assocSingle d moles na nb := by
  have h1 := assocSiteFracAB_anti hdd hna hnb hsmall
  refine ⟨h1, assocSiteFracAB_anti hdd hnb hna (by linarith), ?_⟩
  obtain ⟨p1, p2⟩ := fracs_all (hd.trans hdd) hna hnb (by linarith : na + nb < 2 ^ 26)
  have hone : assocSiteFracAB d na nb ≤ 1 := by
    have := assocSiteFracAB_anti hd hna hnb hsmall
    rwa [assocSiteFracAB_below (d := 0) (by positivity), zero_mul, zero_mul, sub_zero, add_zero] at this
  rw [assocSingle_ab hnb, assocSingle_ab hnb]
  have h2 : (assocSiteFracAB d' na nb - 1) * (na / nb) + 1 ≤ (assocSiteFracAB d na nb - 1) * (na / nb) + 1 := by
    gcongr
  have h3 : (assocSiteFracAB d na nb - 1) * (na / nb) + 1 ≤ 1 := by
    have := mul_nonneg (sub_nonneg.2 hone) (div_pos hna hnb).le
    linarith
  refine mul_le_mul_of_nonneg_left (add_le_add ?_ ?_) hm
  · exact mul_le_mul_of_nonneg_left (assocF_mono p1 h1 hone) hna.le
  · exact mul_le_mul_of_nonneg_left (assocF_mono p2 h2 h3) hnb.le

/-- C86: the residual Helmholtz energy of a mixture with at most one associating component does not rise when its
bonds become stronger, or when a component without bonds receives them. -/
theorem C86_residual {T V : ℝ} {N : Fin n → ℝ} (h : Admissible (fromRecords pr kij) T V N)
    (hn : AssocNonneg (fromRecords pr kij))
    (hs : StrongerBonds (fromRecords pr kij) (fromRecords (withBonds pr kappa epsilon na nb) kij)) {i : Fin n}
    (hi : (fromRecords (withBonds pr kappa epsilon na nb) kij).assoc_comp = [i])
    (hna : 0 < (fromRecords pr kij).na i) (hnb : 0 < (fromRecords pr kij).nb i)
    (hna' : na i = (fromRecords pr kij).na i) (hnb' : nb i = (fromRecords pr kij).nb i)
    (hsmall : na i + nb i ≤ 2 ^ 25) (o : PcSaftOptions ℝ) (la : LinAlg ℝ ℝ) :
    ∃ A A', (Eos.withOptions (fromRecords pr kij) o).residualHelmholtz la (StateHD.new T V N) = .ok A
      ∧ (Eos.withOptions (fromRecords (withBonds pr kappa epsilon na nb) kij) o).residualHelmholtz la
          (StateHD.new T V N) = .ok A'
      ∧ A' ≤ A := by
  have h' : Admissible (fromRecords (withBonds pr kappa epsilon na nb) kij) T V N := admissible_withBonds h
  have hn' := assocNonneg_withBonds hn hs
  have hmem : ∀ j ∈ (fromRecords pr kij).assoc_comp, j = i := by
    intro j hj
    have h1 := (mem_assoc_iff pr kij j).1 hj
    have h2 := lt_of_le_of_ne (hs.kappa_nonneg j) (Ne.symm h1)
    have h3 := (mem_assoc_iff (withBonds pr kappa epsilon na nb) kij j).2 (h2.trans_le (hs.kappa j)).ne'
    rw [hi] at h3
    simpa using h3
  have hka' : (fromRecords (withBonds pr kappa epsilon na nb) kij).kappa_ab i ≠ 0 :=
    (mem_assoc_iff _ kij i).1 (by rw [hi]; simp)
  have hrho := div_nonneg (h.moles_nonneg i) h.volume.le
  have hd' := specStrength_nonneg h' i i (add_nonneg (hn'.epsilon i) (hn'.epsilon i))
  have e' : residualSum o.dq_variant (fromRecords (withBonds pr kappa epsilon na nb) kij) (StateHD.new T V N)
      = nonAssocSum o.dq_variant (fromRecords pr kij) (StateHD.new T V N)
        + assocSingle (specStrength (fromRecords (withBonds pr kappa epsilon na nb) kij) T V N i i * (N i / V)) (N i)
          (na i) (nb i) := by
    rw [← nonAssocSum_withBonds (kappa := kappa) (epsilon := epsilon) (na := na) (nb := nb), residualSum, nonAssocSum]
    congr 1
    unfold assocEnergy
    rw [hi]
    dsimp only
    rw [C58_association_strength _ kij T V N h' i i hka' hka', StateHD.new_density, StateHD.new_moles]
    rfl
  refine ⟨_, _, residual_of_nassoc_le_one la _ o _ ?_, residual_of_nassoc_le_one la _ o _ (by
    rw [PcSaftParameters.nassoc, hi]; rfl), ?_⟩
  · rw [PcSaftParameters.nassoc]
    rcases list_of_all_eq (assoc_nodup pr kij) hmem with e | e <;> simp [e]
  · rw [e']
    by_cases hka : (fromRecords pr kij).kappa_ab i = 0
    · have hnil : (fromRecords pr kij).assoc_comp = [] := List.eq_nil_iff_forall_not_mem.2 fun j hj =>
        (mem_assoc_iff pr kij j).1 hj (by rw [hmem j hj]; exact hka)
      have e : residualSum o.dq_variant (fromRecords pr kij) (StateHD.new T V N)
          = nonAssocSum o.dq_variant (fromRecords pr kij) (StateHD.new T V N) + 0 := by
        unfold residualSum assocEnergy nonAssocSum
        rw [hnil]
      rw [e]
      refine add_le_add_right ?_ _
      rw [hna', hnb'] at hsmall ⊢
      exact (C26_single (mul_nonneg hd' hrho) (h.moles_nonneg i) hna hnb (lt_of_le_of_lt hsmall (by norm_num))).1
    · have hi0 : (fromRecords pr kij).assoc_comp = [i] := by
        refine (list_of_all_eq (assoc_nodup pr kij) hmem).resolve_left fun e => ?_
        have := (mem_assoc_iff pr kij i).2 hka
        simp [e] at this
      have e : residualSum o.dq_variant (fromRecords pr kij) (StateHD.new T V N)
          = nonAssocSum o.dq_variant (fromRecords pr kij) (StateHD.new T V N)
            + assocSingle (specStrength (fromRecords pr kij) T V N i i * (N i / V)) (N i)
              ((fromRecords pr kij).na i) ((fromRecords pr kij).nb i) := by
        unfold residualSum assocEnergy nonAssocSum
        rw [hi0]
        dsimp only
        rw [C58_association_strength _ kij T V N h i i hka hka, StateHD.new_density, StateHD.new_moles]
      rw [e]
      refine add_le_add_right ?_ _
      rw [hna', hnb'] at hsmall ⊢
      exact (C86_single (mul_nonneg (specStrength_nonneg h i i (add_nonneg (hn.epsilon i) (hn.epsilon i))) hrho)
        (mul_le_mul_of_nonneg_right (C86_association_strength h hn hs i i) hrho) (h.moles_nonneg i) hna hnb hsmall).2.2

/-! ## Several associating components -/

/-- C86: the iteration for several associating components preserves the order up to its tolerance. -/
theorem C86_cross {p p' : PcSaftParameters n ℝ} (hp : p = fromRecords pr kij)
    (hp' : p' = fromRecords (withBonds pr kappa epsilon na nb) kij) {T V : ℝ} {N : Fin n → ℝ}
    (h : Admissible p T V N) (hn : AssocNonneg p) (hst : StrongerBonds p p')
    {max_iter : ℕ} (hmax : 0 < max_iter) {tol : ℝ} (htol0 : 0 ≤ tol) (htol : tol ≤ 1 / 8)
    {solveF solveD : Solver p.assoc_comp.length ℝ} (hs : CorrectSolver solveF)
    {solveF' solveD' : Solver p'.assoc_comp.length ℝ} (hs' : CorrectSolver solveF')
    (hcut : (f64EPSILON : ℝ) ≤ ∑ i, N i / V) {a a' : ℝ}
    (hok : crossAssociation p max_iter tol 0 solveF solveD (StateHD.new T V N) = .ok a)
    (hpos : PositiveRun p max_iter tol solveF (StateHD.new T V N))
    (hok' : crossAssociation p' max_iter tol 0 solveF' solveD' (StateHD.new T V N) = .ok a')
    (hpos' : PositiveRun p' max_iter tol solveF' (StateHD.new T V N)) :
    a' ≤ a + 20 * tol * ∑ i, N i * (p'.na i + p'.nb i) := by
  have hn' : AssocNonneg p' := by
    subst hp hp'
    exact assocNonneg_withBonds hn hst
  have h' : Admissible p' T V N := by
    subst hp hp'
    exact admissible_withBonds h
  obtain ⟨b, hb, -⟩ := C71_exact_unique h hn
  obtain ⟨b', hb', -⟩ := C71_exact_unique h' hn'
  have hle : b' ≤ b := by
    subst hp hp'
    exact C86_exact h hn hst hb hb'
  have e1 := abs_le.1 (C71_accuracy hp h hn hmax htol0 htol hs hcut hok hpos hb)
  have e2 := abs_le.1 (C71_accuracy hp' h' hn' hmax htol0 htol hs' hcut hok' hpos' hb')
  have hsum : ∑ i, N i * (p.na i + p.nb i) ≤ ∑ i, N i * (p'.na i + p'.nb i) :=
    Finset.sum_le_sum fun i _ => mul_le_mul_of_nonneg_left (add_le_add (hst.na i) (hst.nb i)) (h.moles_nonneg i)
  have := mul_le_mul_of_nonneg_left hsum htol0
  linarith [e1.1, e2.2]

/-- C86: with weak association the residual energies exist and are in order up to the tolerance. -/
theorem C86_cross_residual {p p' : PcSaftParameters n ℝ} (hp : p = fromRecords pr kij)
    (hp' : p' = fromRecords (withBonds pr kappa epsilon na nb) kij) {T V : ℝ} {N : Fin n → ℝ}
    (h : Admissible p T V N) (hn : AssocNonneg p) (hst : StrongerBonds p p') (hw : WeakAssociation p' T V N 1)
    (ha : 2 ≤ p.nassoc) (hk : p'.nassoc ≤ 10 ^ 6) {o : PcSaftOptions ℝ} (hmax : 10 ≤ o.max_iter_cross_assoc)
    (htol : 1e-10 ≤ o.tol_cross_assoc) (htol' : o.tol_cross_assoc ≤ 1 / 8) {la : LinAlg ℝ ℝ} (h0 : la.nderiv = 0)
    (hs : ∀ k, CorrectSolver (la.solveF k)) (hcut : (f64EPSILON : ℝ) ≤ ∑ i, N i / V) :
    ∃ A A', (Eos.withOptions p o).residualHelmholtz la (StateHD.new T V N) = .ok A
      ∧ (Eos.withOptions p' o).residualHelmholtz la (StateHD.new T V N) = .ok A'
      ∧ A' ≤ A + 20 * o.tol_cross_assoc * ∑ i, N i * (p'.na i + p'.nb i) := by
  have hn' : AssocNonneg p' := by
    subst hp hp'
    exact assocNonneg_withBonds hn hst
  have h' : Admissible p' T V N := by
    subst hp hp'
    exact admissible_withBonds h
  have hrho : ∀ i, 0 ≤ N i / V := fun i => div_nonneg (h.moles_nonneg i) h.volume.le
  have hd : ∀ i j, specStrength p T V N i j ≤ specStrength p' T V N i j := by
    subst hp hp'
    exact C86_association_strength h hn hst
  have hd0 : ∀ i j, 0 ≤ specStrength p T V N i j := fun i j =>
    specStrength_nonneg h i j (add_nonneg (hn.epsilon i) (hn.epsilon j))
  have hw0 : WeakAssociation p T V N 1 := fun i =>
    ⟨le_trans (Finset.sum_le_sum fun j _ => mul_le_mul (mul_le_mul_of_nonneg_right (hd i j) (hrho j)) (hst.nb j)
      (hn.nb j) (mul_nonneg ((hd0 i j).trans (hd i j)) (hrho j))) (hw i).1,
    le_trans (Finset.sum_le_sum fun j _ => mul_le_mul (mul_le_mul_of_nonneg_right (hd i j) (hrho j)) (hst.na j)
      (hn.na j) (mul_nonneg ((hd0 i j).trans (hd i j)) (hrho j))) (hw i).2⟩
  have hlen : p.nassoc ≤ p'.nassoc := by
    subst hp hp'
    exact nassoc_mono (fun i hi => ((lt_of_le_of_ne (hst.kappa_nonneg i) (Ne.symm hi)).trans_le (hst.kappa i)).ne')
  obtain ⟨a, ha1, ha2⟩ := C79_residual hp h hn hw0 ha (hlen.trans hk) hmax htol htol' h0 (hs _)
  obtain ⟨a', ha1', ha2'⟩ := C79_residual hp' h' hn' hw (ha.trans hlen) hk hmax htol htol' h0 (hs _)
  refine ⟨_, _, ha1, ha1', ?_⟩
  have hnon : nonAssocSum o.dq_variant p' (StateHD.new T V N) = nonAssocSum o.dq_variant p (StateHD.new T V N) := by
    subst hp hp'
    rfl
  obtain ⟨b, hb, -⟩ := C71_exact_unique h hn
  obtain ⟨b', hb', -⟩ := C71_exact_unique h' hn'
  have hle : b' ≤ b := by
    subst hp hp'
    exact C86_exact h hn hst hb hb'
  have e1 := abs_le.1 (ha2 hcut b hb)
  have e2 := abs_le.1 (ha2' hcut b' hb')
  have hsum : ∑ i, N i * (p.na i + p.nb i) ≤ ∑ i, N i * (p'.na i + p'.nb i) :=
    Finset.sum_le_sum fun i _ => mul_le_mul_of_nonneg_left (add_le_add (hst.na i) (hst.nb i)) (h.moles_nonneg i)
  have := mul_le_mul_of_nonneg_left hsum (le_trans (by norm_num) htol)
  rw [hnon]
  linarith [e1.1, e2.2]

end mixture

/-! ## Cases that meet the hypotheses -/

/-- one component, half of the sites bonded -/
theorem half_bonded : MassAction (siteMatrix (fun _ _ : Fin 1 => (2 : ℝ)) (fun _ => 1) (fun _ => 1) (fun _ => 1))
    (fun _ => 1 / 2) := by
  rintro (i | i)
  · rw [(siteMatrix_sum _ _ _ _ _ _).1]
    norm_num
  · rw [(siteMatrix_sum _ _ _ _ _ _).2]
    norm_num

/-- the same component with stronger bonds, two thirds of the sites bonded -/
theorem two_thirds_bonded :
    MassAction (siteMatrix (fun _ _ : Fin 1 => (6 : ℝ)) (fun _ => 1) (fun _ => 1) (fun _ => 1)) (fun _ => 1 / 3) := by
  rintro (i | i)
  · rw [(siteMatrix_sum _ _ _ _ _ _).1]
    norm_num
  · rw [(siteMatrix_sum _ _ _ _ _ _).2]
    norm_num

example := C86_maximum (fun _ _ => by norm_num) (fun _ _ => rfl) (fun _ => zero_le_one) (fun _ => zero_le_one)
  (fun _ => zero_le_one) (fun _ => by norm_num) half_bonded

example := C86_strengths (fun _ _ => by norm_num) (fun _ _ => rfl) (fun _ _ => rfl) (fun _ => zero_le_one)
  (fun _ => zero_le_one) (fun _ => zero_le_one) (fun _ _ => by norm_num) (fun _ => le_rfl) (fun _ => le_rfl)
  (fun _ => by norm_num) (fun _ => by norm_num) half_bonded two_thirds_bonded

/-- from the series to the explicit formula -/
example := C86_single (d := 1e-9) (d' := 3) (moles := 2) (na := 1) (nb := 2) (by norm_num) (by norm_num) (by norm_num)
  one_pos two_pos (by norm_num)

/-- a component with bonds of one kind, and the second component without -/
theorem assocRecords_stronger : StrongerBonds (fromRecords assocRecords (fun _ _ => 0))
    (fromRecords (withBonds assocRecords ![0.05, 0] ![3000, 0] (fun _ => 1) (fun _ => 1)) (fun _ _ => 0)) := by
  constructor <;> intro i <;> fin_cases i <;>
    simp [fromRecords, withBonds, assocRecords] <;> norm_num

example := C86_residual (pr := assocRecords) (kij := fun _ _ => 0) (kappa := ![0.05, 0]) (epsilon := ![3000, 0])
  (na := fun _ => 1) (nb := fun _ => 1) (i := 0) assocRecords_admissible
  (by constructor <;> intro i <;> fin_cases i <;> simp [fromRecords, assocRecords] <;> norm_num)
  assocRecords_stronger
  (by
    have h : (fromRecords (withBonds assocRecords ![0.05, 0] ![3000, 0] (fun _ => 1) (fun _ => 1))
        (fun _ _ => (0 : ℝ))).kappa_ab = fun i => if i = 0 then 0.05 else 0.0 := by
      funext i
      fin_cases i <;> simp [fromRecords, withBonds]
      norm_num
    have e : (fromRecords (withBonds assocRecords ![0.05, 0] ![3000, 0] (fun _ => 1) (fun _ => 1))
        (fun _ _ => (0 : ℝ))).assoc_comp = nonzeroComp (fromRecords (withBonds assocRecords ![0.05, 0] ![3000, 0]
          (fun _ => 1) (fun _ => 1)) (fun _ _ => (0 : ℝ))).kappa_ab := rfl
    rw [e, h]
    simp only [nonzeroComp, List.finRange_succ, List.finRange_zero, List.map_nil, List.map_cons]
    norm_num [lt_real])
  (by simp [fromRecords, assocRecords]; norm_num) (by simp [fromRecords, assocRecords]; norm_num)
  (by simp [fromRecords, assocRecords]; norm_num) (by simp [fromRecords, assocRecords]; norm_num) (by norm_num)

/-- two associating components whose association volumes are doubled -/
example : ∃ K : ℝ, 0 < K ∧
    let p := fromRecords (twinRecords (K / 2)) (fun _ _ => 0)
    let p' := fromRecords (twinRecords K) (fun _ _ => 0)
    ∃ A A', (Eos.new p).residualHelmholtz (⟨fun _ => exactSolver, fun _ => exactSolver, 0⟩ : LinAlg ℝ ℝ)
        (StateHD.new 300 1000 ![3, 11]) = .ok A
      ∧ (Eos.new p').residualHelmholtz (⟨fun _ => exactSolver, fun _ => exactSolver, 0⟩ : LinAlg ℝ ℝ)
        (StateHD.new 300 1000 ![3, 11]) = .ok A'
      ∧ A' ≤ A + 20 * 1e-10 * ∑ i, ![3, 11] i * (p'.na i + p'.nb i) := by
  obtain ⟨K, hK, hw⟩ := twin_weak
  refine ⟨K, hK, ?_⟩
  intro p p'
  have hna : ∀ K, 0 < K → (fromRecords (twinRecords K) (fun _ _ => 0)).nassoc = 2 := fun K hK => by
    rw [PcSaftParameters.nassoc, twinRecords_comp hK]
    rfl
  exact C86_cross_residual (pr := twinRecords (K / 2)) (kij := fun _ _ => 0) (kappa := fun _ => K)
    (epsilon := fun _ => 2500) (na := fun _ => 1) (nb := fun _ => 1) (p := p) (p' := p')
    (o := PcSaftOptions.default) (la := ⟨fun _ => exactSolver, fun _ => exactSolver, 0⟩) rfl rfl
    (twinRecords_admissible (K / 2) (fun _ _ => 0) (V := 1000) (by norm_num))
    ⟨fun _ => by change (0 : ℝ) ≤ 2500; norm_num, fun _ => zero_le_one, fun _ => zero_le_one⟩
    ⟨fun _ => by change 0 ≤ K / 2; positivity, fun _ => by change K / 2 ≤ K; linarith, fun _ => le_rfl,
      fun _ => le_rfl, fun _ => le_rfl⟩
    (hw 1 (by norm_num)) (hna _ (by positivity)).ge (by rw [hna K hK]; norm_num)
    (by norm_num [PcSaftOptions.default]) (by norm_num [PcSaftOptions.default]) (by norm_num [PcSaftOptions.default])
    rfl (fun _ => exactSolver_correct) (by
      simp only [Fin.sum_univ_two, f64EPSILON]
      norm_num)

end PcSaft.Props
