import Verif.Props.CrossDerivatives
import Verif.Props.CrossAssociationRoot

/-!
# C32: a mixture of two associating components that meets the hypotheses
-/

open Filter Topology PcSaft.Spec

namespace PcSaft.Props

/-- two associating components with the same parameters, `m = 1`, `σ = 3 Å`, `ε = 200 K`, association energy
2500 K and association volume `K` -/
noncomputable def twinRecords (K : ℝ) (_ : Fin 2) : PureRecord ℝ :=
  ⟨⟨none, ""⟩, 18, ⟨1, 3, 200, none, none, some K, some 2500, some 1, some 1, none, none, none⟩, none⟩

theorem twinRecords_comp {K : ℝ} (hK : 0 < K) (k : Fin 2 → Fin 2 → ℝ) :
    (fromRecords (twinRecords K) k).assoc_comp = [0, 1] := by
  have h : (fromRecords (twinRecords K) k).kappa_ab = fun _ => K := rfl
  have e : (fromRecords (twinRecords K) k).assoc_comp
      = nonzeroComp (fromRecords (twinRecords K) k).kappa_ab := rfl
  rw [e, h]
  have h1 : F64.lt (0.0 : ℝ) (F64.abs K) = true := by
    rw [lt_real, abs_real]
    have : (0.0 : ℝ) = 0 := by norm_num
    simp [this, hK.ne']
  rw [lt_real, decide_eq_true_eq] at h1
  simp only [abs_real] at h1
  simp [nonzeroComp, List.finRange_succ, List.finRange_zero, h1]

theorem twinRecords_admissible (K : ℝ) (k : Fin 2 → Fin 2 → ℝ) {V : ℝ} (hV : 500 < V) :
    Admissible (fromRecords (twinRecords K) k) 300 V ![3, 11] where
  temperature := by norm_num
  volume := by linarith
  m_pos := fun i => one_pos
  sigma_pos := fun i => three_pos
  epsilon_nonneg := fun i => by
    change (0 : ℝ) ≤ 200
    norm_num
  moles_nonneg := fun i => by fin_cases i <;> norm_num
  moles_ne_zero := ⟨0, by norm_num⟩
  packing := by
    have hm : ∀ i, (fromRecords (twinRecords K) k).m i = 1 := fun _ => rfl
    have hs : ∀ i, (fromRecords (twinRecords K) k).sigma i = 3 := fun _ => rfl
    have he : ∀ i, (fromRecords (twinRecords K) k).epsilon_k i = 200 := fun _ => rfl
    simp only [Spec.packingFraction, Fin.sum_univ_two, hm, hs, he]
    obtain ⟨hd0, hd3⟩ := diameter_le_three
    have hpi := Real.pi_lt_d2
    have hpi0 := Real.pi_pos
    have h1 : Real.pi / 6 * Spec.diameter 3 200 300 ^ 3 ≤ 4 / 6 * 27 := by
      apply mul_le_mul _ hd3 (by positivity) (by norm_num)
      linarith
    have h2 : 3 / V + 11 / V ≤ 14 / 500 := by
      rw [← add_div]
      norm_num
      rw [div_le_div_iff₀ (by linarith) (by norm_num)]
      linarith
    have h3 : 0 ≤ 3 / V + 11 / V := by
      have : 0 < V := by linarith
      positivity
    have h4 : Real.pi / 6 * Spec.diameter 3 200 300 ^ 3 * (3 / V + 11 / V) ≤ 4 / 6 * 27 * (14 / 500) :=
      mul_le_mul h1 h2 h3 (by norm_num)
    have h5 : (4 / 6 * 27 * (14 / 500) : ℝ) < 1 := by norm_num
    refine lt_of_le_of_lt (le_of_eq ?_) (lt_of_le_of_lt h4 h5)
    simp
    ring

/-- all the site fractions of the twins are 1/5 if the strength is 10000/7 -/
theorem twin_solution (l : List (Fin 2)) (hl : l = [0, 1]) (delta : Fin l.length → Fin l.length → ℝ)
    (na nb rho : Fin l.length → ℝ) (hd : ∀ i j, delta i j = 10000 / 7) (hna : ∀ i, na i = 1) (hnb : ∀ i, nb i = 1)
    (hrho : ∀ i, rho i = ![3, 11] (l.get i) / 1000) : MassAction (siteMatrix delta na nb rho) (fun _ => 0.2) := by
  subst hl
  have e : ∀ r : Fin 2 → ℝ, ∑ i : Fin [(0 : Fin 2), 1].length, r i = r 0 + r 1 := fun r => Fin.sum_univ_two r
  have e2 : ∑ i : Fin [(0 : Fin 2), 1].length, rho i = 14 / 1000 := by
    rw [e, hrho, hrho]
    change (3 : ℝ) / 1000 + 11 / 1000 = _
    norm_num
  have e3 : ∑ i : Fin [(0 : Fin 2), 1].length, (10000 / 7 : ℝ) * (rho i * 1) * 0.2 = 4 := by
    simp only [mul_one]
    rw [← Finset.sum_mul, ← Finset.mul_sum, e2]
    norm_num
  rintro (i | i)
  · rw [(siteMatrix_sum _ _ _ _ _ i).1]
    simp only [hd, hnb]
    rw [e3]
    norm_num
  · rw [(siteMatrix_sum _ _ _ _ _ i).2]
    simp only [hd, hna]
    rw [e3]
    norm_num

/-- For a suitable association volume the association strength of the twins is 10000/7. -/
theorem twin_strength : ∃ K : ℝ, 0 < K ∧ K < 1 / 10 ∧ ∀ i j : Fin 2,
    specStrength (fromRecords (twinRecords K) (fun _ _ => 0)) 300 1000 ![3, 11] i j = 10000 / 7 := by
  set d := Spec.diameter 3 200 300 with hd
  have hz : ∀ K, Spec.packingFraction (fromRecords (twinRecords K) fun _ _ => 0) 300 1000 ![3, 11]
      = Spec.packingFraction (fromRecords (twinRecords 1) fun _ _ => 0) 300 1000 ![3, 11] := fun K => rfl
  have hz2 : ∀ K, moment2 (fromRecords (twinRecords K) fun _ _ => 0) 300 1000 ![3, 11]
      = moment2 (fromRecords (twinRecords 1) fun _ _ => 0) 300 1000 ![3, 11] := fun K => rfl
  have ha := twinRecords_admissible 1 (fun _ _ => 0) (V := 1000) (by norm_num)
  have hη := ha.packing
  have hζ := moment2_nonneg ha
  have hdpos : 0 < d := by
    have := ha.diameter_pos 0
    rwa [hsDiameter_eq_spec] at this
  set η := Spec.packingFraction (fromRecords (twinRecords 1) fun _ _ => 0) 300 1000 ![3, 11] with hηdef
  set ζ := moment2 (fromRecords (twinRecords 1) fun _ _ => 0) 300 1000 ![3, 11] with hζdef
  have hη0 : 0 < η := by
    rw [hηdef, ← zeta3_eq_packing]
    exact ha.zeta_pos 3
  set g := contactPair ζ η d d with hg
  have hg1 : 1 ≤ g := by
    have h1 : 0 < 1 - η := by linarith
    have h2 : 1 ≤ 1 / (1 - η) := by
      rw [le_div_iff₀ h1]; linarith
    have h3 : 0 ≤ 3 * (d * d / (d + d)) * ζ / (1 - η) ^ 2 := by positivity
    have h4 : 0 ≤ 2 * (d * d / (d + d)) ^ 2 * ζ ^ 2 / (1 - η) ^ 3 := by positivity
    rw [hg, contactPair]
    linarith
  set E := Real.exp ((2500 + 2500) / 2 / 300) - 1 with hE
  have hE1 : 1000 ≤ E := by
    have h1 : Real.exp 8 ≤ Real.exp ((2500 + 2500) / 2 / 300) := Real.exp_le_exp.2 (by norm_num)
    have h2 : Real.exp 8 = Real.exp 1 ^ 8 := by
      rw [← Real.exp_nat_mul]; norm_num
    have h3 : (2.7 : ℝ) ^ 8 ≤ Real.exp 1 ^ 8 :=
      pow_le_pow_left₀ (by norm_num) (by have := Real.exp_one_gt_d9; linarith) 8
    have h4 : (1001 : ℝ) ≤ 2.7 ^ 8 := by norm_num
    rw [hE]
    linarith
  have hgE : 1000 ≤ g * E := by nlinarith
  have hgE0 : g * E ≠ 0 := by linarith
  refine ⟨10000 / 7 / (27 * (g * E)), by positivity, ?_, ?_⟩
  · rw [div_lt_iff₀ (by positivity)]
    linarith
  set K := 10000 / 7 / (27 * (g * E)) with hKdef
  have hK : 0 < K := by positivity
  have hKgE : K * (27 * (g * E)) = 10000 / 7 := by
    rw [hKdef]
    field_simp
  intro i j
  set p := fromRecords (twinRecords K) (fun _ _ => 0) with hp
  have hκ : ∀ i, p.kappa_ab i = K := fun _ => rfl
  have hσ : ∀ i, p.sigma i = 3 := fun _ => rfl
  have hε : ∀ i, p.epsilon_k i = 200 := fun _ => rfl
  have hεab : ∀ i, p.epsilon_k_ab i = 2500 := fun _ => rfl
  have h9 : Real.sqrt (3 * 3) = 3 := Real.sqrt_mul_self (by norm_num)
  rw [specStrength, hσ, hσ, hε, hε, hεab, hεab, h9, hκ, hκ, Real.sqrt_mul_self hK.le]
  change contactPair ζ η d d * _ * _ * E = _
  linear_combination hKgE

/-- Two associating components at 300 K in a volume that changes: for a suitable association volume
`0 < K < 1/10` the iteration with real numbers stops at the exact solution 1/5. -/
theorem twin_loop : ∃ K : ℝ, 0 < K ∧ K < 1 / 10 ∧
    let p := fromRecords (twinRecords K) (fun _ _ => 0)
    p.assoc_comp = [0, 1] ∧ (∀ t, -500 < t → Admissible p 300 (1000 + t) ![3, 11]) ∧
    ∃ (S : Fin p.assoc_comp.length ⊕ Fin p.assoc_comp.length → ℝ → ℝ), (∀ s, S s 0 = 0.2) ∧
    (∀ t, -500 < t → (∀ s, 0 < S s t) ∧ MassAction (siteMatrix
      (fun i j => specStrength p 300 (1000 + t) ![3, 11] (p.assoc_comp.get i) (p.assoc_comp.get j))
      (assocNa p) (assocNb p) (fun i => ![3, 11] (p.assoc_comp.get i) / (1000 + t))) (fun s => S s t)) ∧
    stateLoop p 50 1e-10 exactSolver (StateHD.new 300 (1000 + 0) ![3, 11]) = .ok (fun s => S s 0) := by
  obtain ⟨K, hK, hK', hstr⟩ := twin_strength
  refine ⟨K, hK, hK', ?_⟩
  intro p
  have hadm : ∀ t, -500 < t → Admissible p 300 (1000 + t) ![3, 11] := fun t ht =>
    twinRecords_admissible K _ (by linarith)
  set l := p.assoc_comp with hl
  have hl2 : l = [0, 1] := twinRecords_comp hK _
  have hna : ∀ i, p.na i = 1 := fun _ => rfl
  have hnb : ∀ i, p.nb i = 1 := fun _ => rfl
  have hnn : ∀ t, -500 < t → ∀ s r, 0 ≤ siteMatrix
      (fun i j => specStrength p 300 (1000 + t) ![3, 11] (p.assoc_comp.get i) (p.assoc_comp.get j))
      (assocNa p) (assocNb p) (fun i => ![3, 11] (p.assoc_comp.get i) / (1000 + t)) s r := fun t ht =>
    siteMatrix_nonneg (fun i j => specStrength_nonneg (hadm t ht) _ _ (by
      change (0 : ℝ) ≤ 2500 + 2500
      norm_num)) (fun i => (zero_le_one' ℝ).trans (hna _).ge) (fun i => (zero_le_one' ℝ).trans (hnb _).ge)
      (fun i => div_nonneg ((hadm t ht).moles_nonneg _) (hadm t ht).volume.le)
  have hex : ∀ t, ∃ x : Fin p.assoc_comp.length ⊕ Fin p.assoc_comp.length → ℝ, -500 < t → (∀ s, 0 < x s)
      ∧ MassAction (siteMatrix
      (fun i j => specStrength p 300 (1000 + t) ![3, 11] (p.assoc_comp.get i) (p.assoc_comp.get j))
      (assocNa p) (assocNb p) (fun i => ![3, 11] (p.assoc_comp.get i) / (1000 + t))) x := by
    intro t
    by_cases ht : -500 < t
    · obtain ⟨x, hx⟩ := MassAction.exists (hnn t ht)
      exact ⟨x, fun _ => hx⟩
    · exact ⟨0, fun h => absurd h ht⟩
  choose S hS using hex
  have hsol : MassAction (siteMatrix
      (fun i j => specStrength p 300 (1000 + 0) ![3, 11] (p.assoc_comp.get i) (p.assoc_comp.get j))
      (assocNa p) (assocNb p) (fun i => ![3, 11] (p.assoc_comp.get i) / (1000 + 0))) (fun _ => 0.2) := by
    refine twin_solution p.assoc_comp hl2 _ _ _ _ (fun i j => ?_) (fun i => hna _) (fun i => hnb _) (fun i => ?_)
    · rw [add_zero]
      exact hstr _ _
    · rw [add_zero]
  have hS0 : S 0 = fun _ => 0.2 :=
    MassAction.unique (hnn 0 (by norm_num)) (hS 0 (by norm_num)).1 (fun _ => by norm_num) (hS 0 (by norm_num)).2 hsol
  refine ⟨hl2, hadm, fun s t => S t s, fun s => congrFun hS0 s, hS, ?_⟩
  have hst : ∀ i j : Fin 2, stateStrength p (StateHD.new (300 : ℝ) (1000 + 0) ![3, 11]) i j = 10000 / 7 := by
    intro i j
    rw [C58_association_strength (twinRecords K) (fun _ _ => 0) 300 (1000 + 0) ![3, 11] (hadm 0 (by norm_num)) i j
      hK.ne' hK.ne', add_zero]
    exact hstr i j
  have hrho : ∀ i, assocRho p (StateHD.new (300 : ℝ) (1000 + 0) ![3, 11]).partial_density i
      = ![3, 11] (p.assoc_comp.get i) / 1000 := by
    intro i
    rw [add_zero]
    rfl
  obtain ⟨x', b, h1, h2, h3⟩ := C28_newton_step exactSolver exactSolver_correct
    (fun i j => stateStrength p (StateHD.new (300 : ℝ) (1000 + 0) ![3, 11]) (p.assoc_comp.get i) (p.assoc_comp.get j))
    (assocNa p) (assocNb p) (assocRho p (StateHD.new (300 : ℝ) (1000 + 0) ![3, 11]).partial_density)
    (fun i j => by rw [hst]; norm_num) (fun i => (zero_le_one' ℝ).trans (hna _).ge)
    (fun i => (zero_le_one' ℝ).trans (hnb _).ge) (fun i => by
      rw [hrho]
      exact div_nonneg ((hadm 0 (by norm_num)).moles_nonneg _) (by norm_num)) 1e-10 (fun _ => 0.2)
    (fun _ => by norm_num)
  have hma := twin_solution p.assoc_comp hl2 (fun i j => stateStrength p (StateHD.new (300 : ℝ) (1000 + 0) ![3, 11])
    (p.assoc_comp.get i) (p.assoc_comp.get j)) (assocNa p) (assocNb p)
    (assocRho p (StateHD.new (300 : ℝ) (1000 + 0) ![3, 11]).partial_density) (fun i j => hst _ _) (fun i => hna _)
    (fun i => hnb _) hrho
  have hb : b = true := by
    rw [h3]
    have : ∀ s, ((0.2 : ℝ)⁻¹ - (1 + ∑ t, siteMatrix (fun i j => stateStrength p
        (StateHD.new (300 : ℝ) (1000 + 0) ![3, 11]) (p.assoc_comp.get i) (p.assoc_comp.get j)) (assocNa p)
        (assocNb p) (assocRho p (StateHD.new (300 : ℝ) (1000 + 0) ![3, 11]).partial_density) s t * 0.2)) = 0 := by
      intro s
      rw [sub_eq_zero]
      exact inv_eq_of_mul_eq_one_right (hma s)
    simp only [this]
    norm_num
  rw [h2.2 hma, hb] at h1
  change newtonLoop (newtonStep exactSolver _ _ _ _ _) (49 + 1) _ = .ok (fun s => S 0 s)
  rw [newtonLoop]
  erw [h1]
  simp [hS0]

/-- The dual part of the contribution is the derivative of the exact energy with respect to the volume (minus
the pressure). -/
example : ∃ K : ℝ, 0 < K ∧ K < 1 / 10 ∧
    let p := fromRecords (twinRecords K) (fun _ _ => 0)
    ∃ (S : Fin p.assoc_comp.length ⊕ Fin p.assoc_comp.length → ℝ → ℝ)
      (solveD : Solver p.assoc_comp.length (Dual ℝ)), CorrectDualSolver solveD ∧ (∀ s, S s 0 = 0.2) ∧
    (∀ t, -500 < t → (∀ s, 0 < S s t) ∧ MassAction (siteMatrix
      (fun i j => specStrength p 300 (1000 + t) ![3, 11] (p.assoc_comp.get i) (p.assoc_comp.get j))
      (assocNa p) (assocNb p) (fun i => ![3, 11] (p.assoc_comp.get i) / (1000 + t))) (fun s => S s t)) ∧
    ∃ a, crossAssociation p 50 1e-10 1 exactSolver solveD
        (StateHD.new (⟨300, 0⟩ : Dual ℝ) ⟨1000, 1⟩ (fun i => ⟨![3, 11] i, 0⟩)) = .ok a
      ∧ HasDerivAt (fun t => specEnergy (assocNa p) (assocNb p)
        (fun i => ![3, 11] (p.assoc_comp.get i) / (1000 + t)) (fun s => S s t) * (1000 + t)) a.eps 0 := by
  obtain ⟨K, hK, hK', hl, hadm, S, hS0, hS, hloop⟩ := twin_loop
  refine ⟨K, hK, hK', ?_⟩
  intro p
  obtain ⟨solveD, hs⟩ := exists_correctDualSolver (towerDual (towerReal ()) 0) p.assoc_comp.length
  refine ⟨S, solveD, hs, hS0, hS, ?_⟩
  have hnear : ∀ᶠ t : ℝ in 𝓝 0, -500 < t := lt_mem_nhds (by norm_num)
  obtain ⟨a, h1, -, h2⟩ := C32_energy_along_curve (p := p) rfl (T := fun _ => 300) (V := fun t => 1000 + t)
    (M := fun i _ => ![3, 11] i) (T' := 0) (V' := 1) (M' := fun _ => 0) (t0 := 0)
    (hasDerivAt_const _ _) ((hasDerivAt_id 0).const_add 1000) (fun i => hasDerivAt_const _ _)
    (hnear.mono fun t ht => hadm t ht) (by
      simp only [Fin.sum_univ_two, f64EPSILON]
      norm_num) (fun _ => by change (0 : ℝ) ≤ 2500; norm_num) (fun _ => zero_le_one' ℝ) (fun _ => zero_le_one' ℝ)
    (S := S) (hnear.mono fun t ht => hS t ht) (max_iter := 50) (tol := 1e-10) (solveF := exactSolver) hs hloop
  simp only [add_zero] at h1
  exact ⟨a, h1, h2⟩

end PcSaft.Props
