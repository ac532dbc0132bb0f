import Verif.Lemmas.NewtonBalanced
import Verif.Props.CrossConvergenceDual

/-!
# Property C120: the cross-association iteration converges at any strength if all sites associate equally strongly
-/

open Filter Topology PcSaft.Spec

namespace PcSaft.Props
open PcSaft Spec
variable {n n' k : ℕ}

/-- At every site the association strengths times the densities of the partner sites add up to the same number. -/
def BalancedSites (delta : Fin k → Fin k → ℝ) (na nb rho : Fin k → ℝ) (D : ℝ) : Prop :=
  ∀ i, ∑ j, delta i j * rho j * nb j = D ∧ ∑ j, delta i j * rho j * na j = D

theorem BalancedSites.row {delta : Fin k → Fin k → ℝ} {na nb rho : Fin k → ℝ} {D : ℝ}
    (h : BalancedSites delta na nb rho D) (s : Fin k ⊕ Fin k) : ∑ t, siteMatrix delta na nb rho s t = D := by
  rcases s with i | i
  · have := (siteMatrix_sum delta na nb rho (fun _ => 1) i).1
    simp only [mul_one] at this
    rw [this, ← (h i).1]
    exact Finset.sum_congr rfl fun j _ => by ring
  · have := (siteMatrix_sum delta na nb rho (fun _ => 1) i).2
    simp only [mul_one] at this
    rw [this, ← (h i).2]
    exact Finset.sum_congr rfl fun j _ => by ring

theorem BalancedSites.weak {delta : Fin k → Fin k → ℝ} {na nb rho : Fin k → ℝ} {D : ℝ}
    (h : BalancedSites delta na nb rho D) : WeakSites delta na nb rho D :=
  fun i => ⟨(h i).1.le, (h i).2.le⟩

section step
variable {solve : Solver k ℝ} {delta : Fin k → Fin k → ℝ} {na nb rho : Fin k → ℝ} {tol : ℝ}

/-- The loop returns a result if all iterates are positive and the one after `m` steps has a small gradient. -/
theorem loop_converges_after (hs : CorrectSolver solve) (hM : ∀ s t, 0 ≤ siteMatrix delta na nb rho s t)
    {x0 : Fin k ⊕ Fin k → ℝ}
    (hpos : ∀ j z, Reach (newtonStep solve delta na nb rho tol) j x0 z → ∀ s, 0 < z s) {m : ℕ} {b : ℝ} (hb : 0 ≤ b)
    (hb' : b ≤ 1e-15)
    (hsmall : ∀ z, Reach (newtonStep solve delta na nb rho tol) m x0 z →
      ∀ s, |(z s)⁻¹ - (1 + ∑ t, siteMatrix delta na nb rho s t * z t)| ≤ b)
    (hk : k ≤ 10 ^ 6) (htol : 1e-10 ≤ tol) {N : ℕ} (hN : m < N) :
    ∃ x, newtonLoop (newtonStep solve delta na nb rho tol) N x0 = .ok x := by
  match hl : newtonLoop (newtonStep solve delta na nb rho tol) N x0 with
  | .ok x => exact ⟨x, rfl⟩
  | .error e =>
    exfalso
    rcases (C30_loop_error _ N x0 e).1 hl with ⟨j, z, -, hr, hz⟩ | ⟨-, -, z, hr⟩
    · have htot := hs.total (newtonH delta na nb rho z) (newtonG delta na nb rho z)
        (newtonH_injective hM (hpos j z hr))
      obtain ⟨y, hy⟩ := Option.isSome_iff_exists.1 htot
      unfold newtonStep at hz
      simp only [hy] at hz
      cases hz
    · obtain ⟨z', z'', h1, h2⟩ := hr.earlier hN
      have h3 := (newtonStep_ok hs h2).2
      have h4 : normRe (newtonG delta na nb rho z') < tol := by
        refine normRe_lt (b := b) (fun s => by rw [newtonG_real]; exact hsmall z' h1 s) hb (lt_of_lt_of_le ?_ htol)
        have h5 : Real.sqrt (2 * k) ≤ 2000 := by
          rw [Real.sqrt_le_left (by norm_num)]
          have : (k : ℝ) ≤ 10 ^ 6 := by exact_mod_cast hk
          linarith
        calc Real.sqrt (2 * k) * b ≤ 2000 * 1e-15 := mul_le_mul h5 hb' hb (by norm_num)
          _ < 1e-10 := by norm_num
      simp [h4] at h3

theorem reach_balanced (hs : CorrectSolver solve) (hM : ∀ s t, 0 ≤ siteMatrix delta na nb rho s t) {D : ℝ}
    (hw : BalancedSites delta na nb rho D) (h1 : 2 / 3 ≤ D) (h2 : D ≤ 2 ^ 80) {z : Fin k ⊕ Fin k → ℝ} {j : ℕ}
    (h : Reach (newtonStep solve delta na nb rho tol) j (fun _ => 0.2) z) : ∃ t, HeronRun D j t ∧ ∀ s, z s = t := by
  have := h.invariant (P := fun j x => ∃ t, HeronRun D j t ∧ ∀ s, x s = t) ?_ 0
    ⟨1 / 5, HeronRun.zero D, fun _ => by norm_num⟩
  · rwa [Nat.zero_add] at this
  · rintro j x z b ⟨t, ht, hx⟩ hst
    exact ⟨_, ht.next h1 h2, fun s => StepEq.balanced hM hw.row (by linarith) ht.pos hx
      (newtonStep_stepEq hs (fun s => by rw [hx]; exact ht.pos) hst) s⟩

/-- every iterate is positive and at most one, and all sites have the same value -/
theorem reach_balanced_fractions (hs : CorrectSolver solve) (hM : ∀ s t, 0 ≤ siteMatrix delta na nb rho s t) {D : ℝ}
    (hw : BalancedSites delta na nb rho D) (hD : 0 ≤ D) {z : Fin k ⊕ Fin k → ℝ} {j : ℕ}
    (h : Reach (newtonStep solve delta na nb rho tol) j (fun _ => 0.2) z) : ∃ t, 0 < t ∧ t ≤ 1 ∧ ∀ s, z s = t := by
  have := h.invariant (P := fun _ x => ∃ t : ℝ, 0 < t ∧ t ≤ 1 ∧ ∀ s, x s = t) ?_ 0
    ⟨1 / 5, by norm_num, by norm_num, fun _ => by norm_num⟩
  · exact this
  · rintro j x z b ⟨t, ht, ht1, hx⟩ hst
    refine ⟨_, ?_, ?_, fun s => StepEq.balanced hM hw.row hD ht hx
      (newtonStep_stepEq hs (fun s => by rw [hx]; exact ht) hst) s⟩
    · positivity
    · rw [div_le_one (by positivity)]
      nlinarith [mul_nonneg hD ht.le]

end step

/-- the exact fraction: the positive solution of `D x² + x = 1` -/
theorem balanced_solution {delta : Fin k → Fin k → ℝ} {na nb rho : Fin k → ℝ} {D : ℝ} (hD : 0 ≤ D)
    (hw : BalancedSites delta na nb rho D) :
    MassAction (siteMatrix delta na nb rho) (fun _ => 2 / (1 + Real.sqrt (1 + 4 * D))) := by
  intro s
  rw [← Finset.sum_mul, hw.row]
  have hR2 : Real.sqrt (1 + 4 * D) ^ 2 = 1 + 4 * D := Real.sq_sqrt (by linarith)
  have hR := Real.sqrt_nonneg (1 + 4 * D)
  set R := Real.sqrt (1 + 4 * D)
  have : D = (R ^ 2 - 1) / 4 := by linarith
  rw [this]
  field_simp
  ring

/-- C59, a part that holds for any number of components: if every site has the same total association strength, every
result of the iteration, for any tolerance and iteration limit, consists of equal fractions in (0, 1]. -/
theorem C59_balanced_partial (solve : Solver k ℝ) (hs : CorrectSolver solve) (delta : Fin k → Fin k → ℝ)
    (na nb rho : Fin k → ℝ) (hd : ∀ i j, 0 ≤ delta i j) (hna : ∀ i, 0 ≤ na i) (hnb : ∀ i, 0 ≤ nb i)
    (hrho : ∀ i, 0 ≤ rho i) {D : ℝ} (hD : 0 ≤ D) (hw : BalancedSites delta na nb rho D) (tol : ℝ) (N : ℕ)
    {x : Fin k ⊕ Fin k → ℝ} (h : newtonLoop (newtonStep solve delta na nb rho tol) N (fun _ => 0.2) = .ok x) :
    ∃ t, 0 < t ∧ t ≤ 1 ∧ ∀ s, x s = t := by
  have hM := siteMatrix_nonneg hd hna hnb hrho
  rcases (C30_loop_ok _ N _ x).1 h with ⟨-, rfl⟩ | ⟨j, z, -, hr, hz⟩
  · exact ⟨0.2, by norm_num, by norm_num, fun _ => rfl⟩
  · obtain ⟨t, h1, h2, h3⟩ := reach_balanced_fractions hs hM hw hD hr
    refine ⟨_, ?_, ?_, fun s => StepEq.balanced hM hw.row hD h1 h3
      (newtonStep_stepEq hs (fun s => by rw [h3]; exact h1) hz) s⟩
    · positivity
    · rw [div_le_one (by positivity)]
      nlinarith [mul_nonneg hD h1.le]

/-- C120: if every site has the same total association strength `D`, up to `2^80`, the iteration of the code converges
within its 50 steps to fractions that are within the tolerance of `2 / (1 + √(1 + 4 D))`. -/
theorem C120_default_start (solve : Solver k ℝ) (hs : CorrectSolver solve) (delta : Fin k → Fin k → ℝ)
    (na nb rho : Fin k → ℝ) (hd : ∀ i j, 0 ≤ delta i j) (hna : ∀ i, 0 ≤ na i) (hnb : ∀ i, 0 ≤ nb i)
    (hrho : ∀ i, 0 ≤ rho i) {D : ℝ} (hD : 0 ≤ D) (hD' : D ≤ 2 ^ 80) (hw : BalancedSites delta na nb rho D)
    (hk : k ≤ 10 ^ 6) {tol : ℝ} (htol : 1e-10 ≤ tol) (htol' : tol ≤ 1 / 2) {N : ℕ} (hN : 50 ≤ N) :
    ∃ x, newtonLoop (newtonStep solve delta na nb rho tol) N (fun _ => 0.2) = .ok x
      ∧ (∀ s, 0 < x s ∧ x s ≤ 1)
      ∧ ∀ s, |x s - 2 / (1 + Real.sqrt (1 + 4 * D))| ≤ 4 * tol * (2 / (1 + Real.sqrt (1 + 4 * D))) := by
  have hM := siteMatrix_nonneg hd hna hnb hrho
  have hpos : ∀ j z, Reach (newtonStep solve delta na nb rho tol) j (fun _ => 0.2) z → ∀ s, 0 < z s ∧ z s ≤ 1 :=
    fun j z h s => by
      obtain ⟨t, h1, h2, h3⟩ := reach_balanced_fractions hs hM hw hD h
      rw [h3]
      exact ⟨h1, h2⟩
  have hex : ∃ x, newtonLoop (newtonStep solve delta na nb rho tol) N (fun _ => 0.2) = .ok x := by
    rcases le_total D 1 with h1 | h1
    · obtain ⟨x, hx, -⟩ := C79_default_start solve hs delta na nb rho hd hna hnb hrho (hw.weak.mono h1) hk htol htol'
        (N := N) (by omega)
      exact ⟨x, hx⟩
    · refine loop_converges_after hs hM (fun j z h s => (hpos j z h s).1) (m := 46) (b := 1 / 2 ^ 80) (by positivity)
        (by norm_num) (fun z h s => ?_) hk htol (by omega)
      obtain ⟨t, ht, hz⟩ := reach_balanced hs hM hw (by linarith) hD' h
      simp only [hz]
      rw [← Finset.sum_mul, hw.row]
      exact ht.gradient (by linarith) hD'
  obtain ⟨x, hx⟩ := hex
  refine ⟨x, hx, ?_⟩
  rcases (C30_loop_ok _ N _ x).1 hx with ⟨h0, _⟩ | ⟨j, z, hj, hr, hz⟩
  · omega
  · have hr' := C59_balanced_partial solve hs delta na nb rho hd hna hnb hrho hD hw tol N hx
    obtain ⟨t, ht, ht1, hxt⟩ := hr'
    exact ⟨fun s => by rw [hxt]; exact ⟨ht, ht1⟩, fun s =>
      (converged_step hs hM htol' (fun s => (hpos j z hr s).1) hz (y := fun _ => 2 / (1 + Real.sqrt (1 + 4 * D)))
        (fun _ => by positivity) (balanced_solution hD hw) s).2⟩

/-! ## States -/

/-- every association site of the mixture has the same total association strength, with the strengths of the theory -/
def BalancedAssociation (p : PcSaftParameters n ℝ) (T V : ℝ) (N : Fin n → ℝ) (D : ℝ) : Prop :=
  ∀ i, p.kappa_ab i ≠ 0 → ∑ j, specStrength p T V N i j * (N j / V) * p.nb j = D
    ∧ ∑ j, specStrength p T V N i j * (N j / V) * p.na j = D

/-- components that differ in their chain length, their polar moments or not at all as far as association is concerned -/
structure SameSites (p : PcSaftParameters n ℝ) : Prop where
  sigma : ∀ i j, p.kappa_ab i ≠ 0 → p.kappa_ab j ≠ 0 → p.sigma i = p.sigma j
  epsilon_k : ∀ i j, p.kappa_ab i ≠ 0 → p.kappa_ab j ≠ 0 → p.epsilon_k i = p.epsilon_k j
  kappa_ab : ∀ i j, p.kappa_ab i ≠ 0 → p.kappa_ab j ≠ 0 → p.kappa_ab i = p.kappa_ab j
  epsilon_k_ab : ∀ i j, p.kappa_ab i ≠ 0 → p.kappa_ab j ≠ 0 → p.epsilon_k_ab i = p.epsilon_k_ab j
  sites : ∀ i, p.kappa_ab i ≠ 0 → p.na i = p.nb i

/-- C120: mixtures whose associating components have equal segments and association parameters, and as many donor as
acceptor sites each, are balanced in every state. -/
theorem C120_same_sites {p : PcSaftParameters n ℝ} (h : SameSites p) (T V : ℝ) (N : Fin n → ℝ) {l : Fin n}
    (hl : p.kappa_ab l ≠ 0) :
    BalancedAssociation p T V N (specStrength p T V N l l * ∑ j, if p.kappa_ab j = 0 then 0 else N j / V * p.na j) := by
  intro i hi
  have key : ∀ j, p.kappa_ab j ≠ 0 → specStrength p T V N i j = specStrength p T V N l l := fun j hj => by
    unfold specStrength
    rw [h.sigma i l hi hl, h.sigma j l hj hl, h.epsilon_k i l hi hl, h.epsilon_k j l hj hl, h.kappa_ab i l hi hl,
      h.kappa_ab j l hj hl, h.epsilon_k_ab i l hi hl, h.epsilon_k_ab j l hj hl]
  constructor
  · rw [Finset.mul_sum]
    refine Finset.sum_congr rfl fun j _ => ?_
    split_ifs with hj
    · rw [specStrength_zero T V N (.inr hj)]
      ring
    · rw [key j hj, h.sites j hj]
      ring
  · rw [Finset.mul_sum]
    refine Finset.sum_congr rfl fun j _ => ?_
    split_ifs with hj
    · rw [specStrength_zero T V N (.inr hj)]
      ring
    · rw [key j hj]
      ring

theorem balancedSites_state {pr : Fin n → PureRecord ℝ} {kij : Fin n → Fin n → ℝ} {p : PcSaftParameters n ℝ}
    (hp : p = fromRecords pr kij) {T V : ℝ} {N : Fin n → ℝ} (h : Admissible p T V N) {D : ℝ}
    (hw : BalancedAssociation p T V N D) :
    BalancedSites (fun i j => stateStrength p (StateHD.new T V N) (p.assoc_comp.get i) (p.assoc_comp.get j)) (assocNa p)
      (assocNb p) (assocRho p (StateHD.new T V N).partial_density) D := by
  subst hp
  have hst : ∀ i j, stateStrength (fromRecords pr kij) (StateHD.new T V N) ((fromRecords pr kij).assoc_comp.get i)
      ((fromRecords pr kij).assoc_comp.get j) = specStrength (fromRecords pr kij) T V N
        ((fromRecords pr kij).assoc_comp.get i) ((fromRecords pr kij).assoc_comp.get j) := fun i j =>
    C58_association_strength pr kij T V N h _ _ ((mem_assoc_iff pr kij _).1 (List.get_mem _ _))
      ((mem_assoc_iff pr kij _).1 (List.get_mem _ _))
  have hz : ∀ (nn : Fin n → ℝ) (i j : Fin n), (fromRecords pr kij).kappa_ab j = 0 →
      specStrength (fromRecords pr kij) T V N i j * (N j / V) * nn j = 0 := fun nn i j hj => by
    rw [specStrength_zero T V N (.inr hj)]
    simp
  intro i
  simp only [hst]
  have h1 := hw ((fromRecords pr kij).assoc_comp.get i) ((mem_assoc_iff pr kij _).1 (List.get_mem _ _))
  rw [← h1.1]
  constructor
  · exact sum_assoc pr kij (fun j => specStrength (fromRecords pr kij) T V N ((fromRecords pr kij).assoc_comp.get i) j
      * (N j / V) * (fromRecords pr kij).nb j) (hz _ _)
  · rw [h1.1, ← h1.2]
    exact sum_assoc pr kij (fun j => specStrength (fromRecords pr kij) T V N ((fromRecords pr kij).assoc_comp.get i) j
      * (N j / V) * (fromRecords pr kij).na j) (hz _ _)

theorem assocRho_nonneg {p : PcSaftParameters n ℝ} {T V : ℝ} {N : Fin n → ℝ} (h : Admissible p T V N)
    (i : Fin p.assoc_comp.length) : 0 ≤ assocRho p (StateHD.new T V N).partial_density i := by
  change 0 ≤ (StateHD.new T V N).partial_density _
  rw [StateHD.new_density]
  exact div_nonneg (h.moles_nonneg _) h.volume.le

/-- what the iteration of the code does at a balanced state -/
theorem stateLoop_balanced {pr : Fin n → PureRecord ℝ} {kij : Fin n → Fin n → ℝ} {p : PcSaftParameters n ℝ}
    (hp : p = fromRecords pr kij) {T V : ℝ} {N : Fin n → ℝ} (h : Admissible p T V N) (hn : AssocNonneg p) {D : ℝ}
    (hD : 0 ≤ D) (hD' : D ≤ 2 ^ 80)
    (hw : BalancedAssociation p T V N D) (hk : p.nassoc ≤ 10 ^ 6) {max_iter : ℕ} (hmax : 50 ≤ max_iter) {tol : ℝ}
    (htol : 1e-10 ≤ tol) (htol' : tol ≤ 1 / 2) {solve : Solver p.assoc_comp.length ℝ} (hs : CorrectSolver solve) :
    (∃ x, stateLoop p max_iter tol solve (StateHD.new T V N) = .ok x ∧ ∃ t, 0 < t ∧ t ≤ 1 ∧ ∀ s, x s = t)
    ∧ PositiveRun p max_iter tol solve (StateHD.new T V N) := by
  have hst := stateStrength_nonneg hp h hn
  have hrho := assocRho_nonneg h
  have hw' := balancedSites_state hp h hw
  have hM := siteMatrix_nonneg (na := assocNa p) (nb := assocNb p) hst (fun i => hn.na _) (fun i => hn.nb _) hrho
  constructor
  · obtain ⟨x, hx, hx1, -⟩ := C120_default_start solve hs _ (assocNa p) (assocNb p) _ hst (fun i => hn.na _)
      (fun i => hn.nb _) hrho hD hD' hw' hk htol htol' hmax
    exact ⟨x, hx, C59_balanced_partial solve hs _ (assocNa p) (assocNb p) _ hst (fun i => hn.na _) (fun i => hn.nb _) hrho
      hD hw' tol max_iter hx⟩
  · rintro z ⟨j, -, hr, -⟩ t
    obtain ⟨t', h1, -, h3⟩ := reach_balanced_fractions hs hM hw' hD hr
    rw [h3]
    exact h1

theorem crossAssociation_balanced {pr : Fin n → PureRecord ℝ} {kij : Fin n → Fin n → ℝ} {p : PcSaftParameters n ℝ}
    (hp : p = fromRecords pr kij) {T V : ℝ} {N : Fin n → ℝ} (h : Admissible p T V N) (hn : AssocNonneg p) {D : ℝ}
    (hD : 0 ≤ D) (hD' : D ≤ 2 ^ 80) (hw : BalancedAssociation p T V N D) (hk : p.nassoc ≤ 10 ^ 6)
    {max_iter : ℕ} (hmax : 50 ≤ max_iter) {tol : ℝ} (htol : 1e-10 ≤ tol) (htol' : tol ≤ 1 / 2)
    {solveF solveD : Solver p.assoc_comp.length ℝ} (hs : CorrectSolver solveF) :
    ∃ a, crossAssociation p max_iter tol 0 solveF solveD (StateHD.new T V N) = .ok a := by
  obtain ⟨⟨x, hx, -⟩, -⟩ := stateLoop_balanced hp h hn hD hD' hw hk hmax htol htol' hs
  have hc := crossAssociation_real p max_iter tol solveF solveD (StateHD.new T V N)
  rw [hx] at hc
  rw [hc]
  split_ifs
  · exact ⟨_, rfl⟩
  · exact ⟨_, rfl⟩

/-- C120: at a balanced state evaluating the residual Helmholtz energy never panics, and the association energy is
within the tolerance of the exact one. -/
theorem C120_residual {pr : Fin n → PureRecord ℝ} {kij : Fin n → Fin n → ℝ} {p : PcSaftParameters n ℝ}
    (hp : p = fromRecords pr kij) {T V : ℝ} {N : Fin n → ℝ} (h : Admissible p T V N) (hn : AssocNonneg p) {D : ℝ}
    (hD : 0 ≤ D) (hD' : D ≤ 2 ^ 80)
    (hw : BalancedAssociation p T V N D) (ha : 2 ≤ p.nassoc) (hk : p.nassoc ≤ 10 ^ 6) {o : PcSaftOptions ℝ}
    (hmax : 50 ≤ o.max_iter_cross_assoc) (htol : 1e-10 ≤ o.tol_cross_assoc) (htol' : o.tol_cross_assoc ≤ 1 / 8)
    {la : LinAlg ℝ ℝ} (h0 : la.nderiv = 0) (hs : CorrectSolver (la.solveF p.assoc_comp.length)) :
    ∃ a, (Eos.withOptions p o).residualHelmholtz la (StateHD.new T V N)
        = .ok (nonAssocSum o.dq_variant p (StateHD.new T V N) + a)
      ∧ ((f64EPSILON : ℝ) ≤ ∑ i, N i / V → ∀ b, ExactAssociation p T V N b →
        |a - b| ≤ 10 * o.tol_cross_assoc * ∑ i, N i * (p.na i + p.nb i)) := by
  have ht : o.tol_cross_assoc ≤ 1 / 2 := htol'.trans (by norm_num)
  obtain ⟨-, hrun⟩ := stateLoop_balanced hp h hn hD hD' hw hk hmax htol ht hs
  obtain ⟨a, ha'⟩ := crossAssociation_balanced hp h hn hD hD' hw hk hmax htol ht (solveD := la.solveD _) hs
  refine ⟨a, ?_, fun hcut b hb => ?_⟩
  · rw [residual_of_two_le_nassoc la p o _ ha, h0, ha']
    rfl
  · exact C71_accuracy hp h hn (by omega) (le_trans (by norm_num) htol) htol' hs hcut ha' hrun hb

theorem residual_withoutAssociation (la : LinAlg ℝ ℝ) (p : PcSaftParameters n ℝ) (o : PcSaftOptions ℝ)
    (s : StateHD n ℝ) (h : 2 ≤ p.nassoc) :
    (Eos.withoutAssociation p o).residualHelmholtz la s = .ok (nonAssocSum o.dq_variant p s) := by
  have h0 : (0.0 : ℝ) = 0 := by norm_num
  have hd : p.ndipole = 0 ∨ 0 < p.ndipole := Nat.eq_zero_or_pos _
  have hq : p.nquadpole = 0 ∨ 0 < p.nquadpole := Nat.eq_zero_or_pos _
  unfold nonAssocSum
  obtain ⟨m, hm⟩ := Nat.exists_eq_add_of_le' h
  rcases hd with hd | hd <;> rcases hq with hq | hq <;>
    simp [Eos.residualHelmholtz, Eos.withoutAssociation, Eos.withOptions, buildContributions, hd, hq, hm, dipole_eq_zero,
      quadrupole_eq_zero, dipoleQuadrupole_eq_zero, Bind.bind, Except.bind, Contribution.helmholtzEnergy, h0, pure,
      Except.pure, Contribution.notAssociation, List.filter_cons]

/-- C120 with the options that the code uses unless told otherwise. -/
theorem C120_default_options {pr : Fin n → PureRecord ℝ} {kij : Fin n → Fin n → ℝ} {p : PcSaftParameters n ℝ}
    (hp : p = fromRecords pr kij) {T V : ℝ} {N : Fin n → ℝ} (h : Admissible p T V N) (hn : AssocNonneg p) {D : ℝ}
    (hD : 0 ≤ D) (hD' : D ≤ 2 ^ 80) (hw : BalancedAssociation p T V N D) (ha : 2 ≤ p.nassoc) (hk : p.nassoc ≤ 10 ^ 6)
    {la : LinAlg ℝ ℝ} (h0 : la.nderiv = 0) (hs : CorrectSolver (la.solveF p.assoc_comp.length))
    (hcut : (f64EPSILON : ℝ) ≤ ∑ i, N i / V) {b : ℝ} (hb : ExactAssociation p T V N b) :
    ∃ a A, (Eos.withoutAssociation p PcSaftOptions.default).residualHelmholtz la (StateHD.new T V N) = .ok A
      ∧ (Eos.new p).residualHelmholtz la (StateHD.new T V N) = .ok (A + a)
      ∧ |a - b| ≤ 1e-9 * ∑ i, N i * (p.na i + p.nb i) := by
  obtain ⟨a, h1, h2⟩ := C120_residual (o := PcSaftOptions.default) hp h hn hD hD' hw ha hk (le_refl (50 : ℕ))
    (le_refl (1e-10 : ℝ)) (by norm_num [PcSaftOptions.default]) h0 hs
  refine ⟨a, _, ?_, h1, (h2 hcut b hb).trans (le_of_eq ?_)⟩
  · exact residual_withoutAssociation la p PcSaftOptions.default _ ha
  · have : (PcSaftOptions.default : PcSaftOptions ℝ).tol_cross_assoc = 1e-10 := rfl
    rw [this]
    norm_num

/-- C120: listing the only associating component, with as many donor as acceptor sites, several times: the iteration
that is used then converges, to the energy of the explicit formula that is used for one. -/
theorem C120_split {pr : Fin n → PureRecord ℝ} {k : Fin n → Fin n → ℝ} {φ : Fin n' → Fin n}
    {p : PcSaftParameters n ℝ} {p' : PcSaftParameters n' ℝ} (hp : p = fromRecords pr k)
    (hp' : p' = fromRecords (fun i => pr (φ i)) (fun i j => k (φ i) (φ j)))
    {T V : ℝ} {w : Fin n' → ℝ} {N : Fin n → ℝ} (hN : N = fun i => ∑ j, if φ j = i then w j else 0)
    (h : Admissible p T V N) (h' : Admissible p' T V w) (hn : AssocNonneg p)
    {i : Fin n} (hi : p.assoc_comp = [i]) (hna : 0 < p.na i) (hab : p.na i = p.nb i)
    (hd : Real.sqrt (f64EPSILON : ℝ) < specStrength p T V N i i * (N i / V))
    (hd' : specStrength p T V N i i * (N i / V) * p.na i ≤ 2 ^ 80)
    {max_iter : ℕ} (hmax : 50 ≤ max_iter) {tol : ℝ} (htol : 1e-10 ≤ tol) (htol' : tol ≤ 1 / 8)
    (hk : p'.nassoc ≤ 10 ^ 6) {solveF' solveD' : Solver p'.assoc_comp.length ℝ} (hs' : CorrectSolver solveF')
    (hcut : (f64EPSILON : ℝ) ≤ ∑ i, w i / V) :
    ∃ a a', association p (StateHD.new T V N) = .ok a
      ∧ crossAssociation p' max_iter tol 0 solveF' solveD' (StateHD.new T V w) = .ok a'
      ∧ |a' - a| ≤ 10 * tol * ∑ i, w i * (p'.na i + p'.nb i) := by
  have hfield : ∀ i, p'.na i = p.na (φ i) ∧ p'.nb i = p.nb (φ i) ∧ p'.epsilon_k_ab i = p.epsilon_k_ab (φ i)
      ∧ p'.kappa_ab i = p.kappa_ab (φ i) := by
    subst hp hp'
    exact fun i => ⟨rfl, rfl, rfl, rfl⟩
  have hn' : AssocNonneg p' :=
    ⟨fun i => (hfield i).2.2.1 ▸ hn.epsilon _, fun i => (hfield i).1 ▸ hn.na _, fun i => (hfield i).2.1 ▸ hn.nb _⟩
  have hκ : ∀ j, p.kappa_ab j ≠ 0 ↔ j = i := fun j => by
    have : j ∈ p.assoc_comp ↔ p.kappa_ab j ≠ 0 := by
      subst hp
      exact mem_assoc_iff pr k j
    rw [← this, hi]
    simp
  have hstr : ∀ a b, specStrength p' T V w a b = specStrength p T V N (φ a) (φ b) := fun a b => by
    subst hp hp' hN
    exact specStrength_merge pr k φ T V w a b
  have hbal : BalancedAssociation p' T V w (specStrength p T V N i i * (N i / V) * p.na i) := by
    intro a hia
    rw [(hfield a).2.2.2, hκ] at hia
    have hsum : ∀ nn : Fin n → ℝ, ∑ b, specStrength p T V N i (φ b) * (w b / V) * nn (φ b)
        = specStrength p T V N i i * (N i / V) * nn i := fun nn => by
      have e : N i = ∑ j, if φ j = i then w j else 0 := by rw [hN]
      rw [e, Finset.sum_div, Finset.mul_sum, Finset.sum_mul]
      refine Finset.sum_congr rfl fun b _ => ?_
      split_ifs with hb
      · rw [hb]
      · have : p.kappa_ab (φ b) = 0 := by
          by_contra hne
          exact hb ((hκ _).1 hne)
        rw [specStrength_zero T V N (.inr this)]
        ring
    simp only [hstr, hia, (hfield _).1, (hfield _).2.1]
    exact ⟨by rw [hsum, hab], hsum _⟩
  have hD : 0 ≤ specStrength p T V N i i * (N i / V) * p.na i := by
    have : 0 ≤ Real.sqrt (f64EPSILON : ℝ) := Real.sqrt_nonneg _
    exact mul_nonneg (by linarith) hna.le
  have ht : tol ≤ 1 / 2 := htol'.trans (by norm_num)
  obtain ⟨-, hrun⟩ := stateLoop_balanced hp' h' hn' hD hd' hbal hk hmax htol ht hs'
  obtain ⟨a', ha'⟩ := crossAssociation_balanced hp' h' hn' hD hd' hbal hk hmax htol ht (solveD := solveD') hs'
  obtain ⟨a, ha, hdiff⟩ := C71_single_split hp hp' hN h h' hn hi hna (hab ▸ hna) hd (by omega)
    (le_trans (by norm_num) htol) htol' hs' hcut ha' hrun
  exact ⟨a, a', ha, ha', hdiff⟩

/-! ## Derivatives -/

section dual
variable {R X : Type} [DualNum ℝ R] [TopologicalSpace X] {x0 : X} {ρ : Rep x0 Same R} {L : ℕ}

/-- Steps with dual numbers from equal fractions in (0, 1] never fail, and the real parts stay so. -/
theorem newtonDual_balanced (T : Tower ρ L) {delta : Fin k → Fin k → X → ℝ} {deltad : Fin k → Fin k → R}
    {rho : Fin k → X → ℝ} {rhod : Fin k → R} {na nb : Fin k → ℝ}
    (hdelta : ∀ i j, ρ.R (delta i j) (deltad i j)) (hrho : ∀ i, ρ.R (rho i) (rhod i))
    (hM : ∀ s t, 0 ≤ siteMatrixAt delta na nb rho x0 s t) {D : ℝ} (hD : 0 ≤ D)
    (hm : ∀ s, ∑ t, siteMatrixAt delta na nb rho x0 s t = D)
    {solve : Solver k R} (hs : CorrectDualSolver solve) (tol : ℝ) (r : ℕ) :
    ∀ {x : Fin k ⊕ Fin k → X → ℝ} {xd : Fin k ⊕ Fin k → R}, (∀ s, ρ.R (x s) (xd s)) →
      (∃ t, 0 < t ∧ t ≤ 1 ∧ ∀ s, x s x0 = t) → ∃ (xd' : Fin k ⊕ Fin k → R) (x' : Fin k ⊕ Fin k → X → ℝ),
        newtonDual (newtonStep solve deltad na nb rhod tol) r xd = .ok xd'
        ∧ (∀ s, ρ.R (x' s) (xd' s)) ∧ ∃ t, 0 < t ∧ t ≤ 1 ∧ ∀ s, x' s x0 = t := by
  induction r with
  | zero => exact fun {x xd} h1 h2 => ⟨xd, x, rfl, h1, h2⟩
  | succ r ih =>
    rintro x xd h1 ⟨t, ht, ht1, hx⟩
    have hx0 : ∀ s, 0 < x s x0 := fun s => by rw [hx]; exact ht
    obtain ⟨hdet, xd', b, hok, hrep⟩ := newtonStep_rep T hdelta hrho hM hs tol h1 hx0
    obtain ⟨xd'', x'', h3, h4, h5⟩ := ih hrep ⟨_, by positivity, by
        rw [div_le_one (by positivity)]
        nlinarith [mul_nonneg hD ht.le], fun s => StepEq.balanced hM hm hD ht hx (stepMatrix_stepEq hdet hx0) s⟩
    refine ⟨xd'', x'', ?_, h4, h5⟩
    unfold newtonDual
    rw [hok]
    exact h3

theorem rep_balanced_residual (Tw : Tower ρ L) {pr : Fin n → PureRecord ℝ} {kij : Fin n → Fin n → ℝ}
    {o : PcSaftOptions ℝ} {p : PcSaftParameters n ℝ} (hp : p = fromRecords pr kij) (ha : 2 ≤ p.nassoc)
    {T V : X → ℝ} {M : Fin n → X → ℝ} {Td Vd : R}
    {Md : Fin n → R} (hT : ρ.R T Td) (hV : ρ.R V Vd) (hM : ∀ i, ρ.R (M i) (Md i))
    (h : Admissible p (T x0) (V x0) (fun i => M i x0))
    (hr : ∀ ct ∈ (Eos.withoutAssociation p o).contributions, Regular p (T x0) (V x0) (fun i => M i x0) ct)
    (hn : AssocNonneg p) {D : ℝ} (hD : 0 ≤ D) (hD' : D ≤ 2 ^ 80)
    (hw : BalancedAssociation p (T x0) (V x0) (fun i => M i x0) D) (hk : p.nassoc ≤ 10 ^ 6)
    (hmax : 50 ≤ o.max_iter_cross_assoc) (htol : 1e-10 ≤ o.tol_cross_assoc) (htol' : o.tol_cross_assoc ≤ 1 / 2)
    {laD : LinAlg ℝ R} (hsF : CorrectSolver (laD.solveF p.assoc_comp.length))
    (hs : CorrectDualSolver (laD.solveD p.assoc_comp.length)) :
    ∃ d, (Eos.withOptions p o).residualHelmholtz laD (StateHD.new Td Vd Md) = .ok d := by
  have hst := rep_state lawfulEmb_id hT hV hM h
  have hd := fun i j => rep_stateStrength (p := p) hst h.temperature.ne' (stateEta_lt_one h).ne h.diameter_pos
    (p.assoc_comp.get i) (p.assoc_comp.get j)
  have hrho := fun i => hst.partial_density (p.assoc_comp.get i)
  obtain ⟨⟨x, hloop, hx⟩, -⟩ := stateLoop_balanced hp h hn hD hD' hw hk hmax htol htol' hsF
  have hsites : ∀ s t, 0 ≤ stateSites p (StateHD.new (T x0) (V x0) (fun i => M i x0)) s t :=
    siteMatrix_nonneg (stateStrength_nonneg hp h hn) (fun i => hn.na _) (fun i => hn.nb _) (assocRho_nonneg h)
  obtain ⟨xd, x', hok, hx', t, ht, -, hx1⟩ := newtonDual_balanced Tw (na := assocNa p) (nb := assocNb p) hd hrho hsites
    hD (balancedSites_state hp h hw).row hs o.tol_cross_assoc laD.nderiv (x := fun s _ => x s)
    (xd := fun s => c (x s)) (fun s => ρ.const (x s)) hx
  obtain ⟨a, -, ha1, -⟩ := cross_derivatives_of_run hT hV hM h hloop hok hx' fun s => by rw [hx1]; exact ht
  exact rep_residual_of_cross hp ha hT hV hM h hr ha1

end dual

/-- C120: first derivatives of the residual energy in any direction: no panic. -/
theorem C120_first_derivatives {pr : Fin n → PureRecord ℝ} {kij : Fin n → Fin n → ℝ} {o : PcSaftOptions ℝ}
    {p : PcSaftParameters n ℝ} (hp : p = fromRecords pr kij) (ha : 2 ≤ p.nassoc) {T V : ℝ} {M : Fin n → ℝ}
    (T' V' : ℝ) (M' : Fin n → ℝ) (h : Admissible p T V M)
    (hr : ∀ ct ∈ (Eos.withoutAssociation p o).contributions, Regular p T V M ct) (hn : AssocNonneg p)
    {D : ℝ} (hD : 0 ≤ D) (hD' : D ≤ 2 ^ 80)
    (hw : BalancedAssociation p T V M D) (hk : p.nassoc ≤ 10 ^ 6) (hmax : 50 ≤ o.max_iter_cross_assoc)
    (htol : 1e-10 ≤ o.tol_cross_assoc) (htol' : o.tol_cross_assoc ≤ 1 / 2) {laD : LinAlg ℝ (Dual ℝ)}
    (hsF : CorrectSolver (laD.solveF p.assoc_comp.length)) (hs : CorrectDualSolver (laD.solveD p.assoc_comp.length)) :
    ∃ d, (Eos.withOptions p o).residualHelmholtz laD
      (StateHD.new (⟨T, T'⟩ : Dual ℝ) ⟨V, V'⟩ (fun i => ⟨M i, M' i⟩)) = .ok d := by
  have hline : ∀ a a' : ℝ, HasDerivAt (fun t => a + t * a') a' 0 := fun a a' => by
    simpa using ((hasDerivAt_id (0 : ℝ)).mul_const a').const_add a
  have hseed : ∀ a a' : ℝ, (repDual lawfulEmb_id rho0 (0 : ℝ)).R (fun y => a + y.2 * a') (⟨a, a'⟩ : Dual ℝ) :=
    fun a a' => by simpa using rho1_curve (hline a a')
  exact rep_balanced_residual (ρ := repDual lawfulEmb_id rho0 (0 : ℝ)) (towerDual (towerReal ()) 0) hp ha (hseed T T')
    (hseed V V') (fun i => hseed (M i) (M' i)) (by simpa using h) (by simpa using hr) hn hD hD' (by simpa using hw) hk
    hmax htol htol' hsF hs

/-- C120: second derivatives of the residual energy in any two directions: no panic. -/
theorem C120_second_derivatives {pr : Fin n → PureRecord ℝ} {kij : Fin n → Fin n → ℝ} {o : PcSaftOptions ℝ}
    {p : PcSaftParameters n ℝ} (hp : p = fromRecords pr kij) (ha : 2 ≤ p.nassoc) {T V : ℝ} {M : Fin n → ℝ}
    (Tu Tw Vu Vw : ℝ) (Mu Mw : Fin n → ℝ) (h : Admissible p T V M)
    (hr : ∀ ct ∈ (Eos.withoutAssociation p o).contributions, Regular p T V M ct) (hn : AssocNonneg p)
    {D : ℝ} (hD : 0 ≤ D) (hD' : D ≤ 2 ^ 80)
    (hw : BalancedAssociation p T V M D) (hk : p.nassoc ≤ 10 ^ 6) (hmax : 50 ≤ o.max_iter_cross_assoc)
    (htol : 1e-10 ≤ o.tol_cross_assoc) (htol' : o.tol_cross_assoc ≤ 1 / 2) {laD : LinAlg ℝ (Dual (Dual ℝ))}
    (hsF : CorrectSolver (laD.solveF p.assoc_comp.length)) (hs : CorrectDualSolver (laD.solveD p.assoc_comp.length)) :
    ∃ d, (Eos.withOptions p o).residualHelmholtz laD
      (StateHD.new (⟨⟨T, Tu⟩, ⟨Tw, 0⟩⟩ : Dual (Dual ℝ)) ⟨⟨V, Vu⟩, ⟨Vw, 0⟩⟩ (fun i => ⟨⟨M i, Mu i⟩, ⟨Mw i, 0⟩⟩)) = .ok d :=
  rep_balanced_residual (ρ := rho2) (towerDual (towerDual (towerReal ()) 0) 0) hp ha (rho2_seed T Tu Tw)
    (rho2_seed V Vu Vw) (fun i => rho2_seed (M i) (Mu i) (Mw i)) (by simpa using h) (by simpa using hr) hn hD hD'
    (by simpa using hw) hk hmax htol htol' hsF hs

/-- C120: third derivatives of the residual energy in any three directions: no panic. -/
theorem C120_third_derivatives {pr : Fin n → PureRecord ℝ} {kij : Fin n → Fin n → ℝ} {o : PcSaftOptions ℝ}
    {p : PcSaftParameters n ℝ} (hp : p = fromRecords pr kij) (ha : 2 ≤ p.nassoc) {T V : ℝ} {M : Fin n → ℝ}
    (Tu Tv Tw Vu Vv Vw : ℝ) (Mu Mv Mw : Fin n → ℝ) (h : Admissible p T V M)
    (hr : ∀ ct ∈ (Eos.withoutAssociation p o).contributions, Regular p T V M ct) (hn : AssocNonneg p)
    {D : ℝ} (hD : 0 ≤ D) (hD' : D ≤ 2 ^ 80)
    (hw : BalancedAssociation p T V M D) (hk : p.nassoc ≤ 10 ^ 6) (hmax : 50 ≤ o.max_iter_cross_assoc)
    (htol : 1e-10 ≤ o.tol_cross_assoc) (htol' : o.tol_cross_assoc ≤ 1 / 2) {laD : LinAlg ℝ (Dual (Dual (Dual ℝ)))}
    (hsF : CorrectSolver (laD.solveF p.assoc_comp.length)) (hs : CorrectDualSolver (laD.solveD p.assoc_comp.length)) :
    ∃ d, (Eos.withOptions p o).residualHelmholtz laD
      (StateHD.new (⟨⟨⟨T, Tu⟩, ⟨Tv, 0⟩⟩, ⟨⟨Tw, 0⟩, ⟨0, 0⟩⟩⟩ : Dual (Dual (Dual ℝ)))
        ⟨⟨⟨V, Vu⟩, ⟨Vv, 0⟩⟩, ⟨⟨Vw, 0⟩, ⟨0, 0⟩⟩⟩ (fun i => ⟨⟨⟨M i, Mu i⟩, ⟨Mv i, 0⟩⟩, ⟨⟨Mw i, 0⟩, ⟨0, 0⟩⟩⟩)) = .ok d :=
  rep_balanced_residual (ρ := rho3) (towerDual (towerDual (towerDual (towerReal ()) 0) 0) 0) hp ha
    (rho3_seed T Tu Tv Tw) (rho3_seed V Vu Vv Vw) (fun i => rho3_seed (M i) (Mu i) (Mv i) (Mw i)) (by simpa using h)
    (by simpa using hr) hn hD hD' (by simpa using hw) hk hmax htol htol' hsF hs

/-! ## Cases that meet the hypotheses -/

/-- a million at every site, far outside the range of C79 -/
example :=
  C120_default_start exactSolver exactSolver_correct (fun _ _ => 10 ^ 7) (fun _ => 1) (fun _ => 1) ![0.04, 0.06]
    (fun _ _ => by norm_num) (fun _ => zero_le_one) (fun _ => zero_le_one)
    (fun i => by fin_cases i <;> norm_num) (D := 10 ^ 6) (by norm_num) (by norm_num)
    (fun i => by simp only [Fin.sum_univ_two]; norm_num) (by norm_num) (tol := 1e-10) le_rfl (by norm_num) (N := 50) le_rfl

/-- unequal strengths that balance: 20·0.04·2 + 5·0.04·2 = 2 at every site -/
example :=
  C120_default_start exactSolver exactSolver_correct ![![20, 5], ![5, 20]] (fun _ => 2) (fun _ => 2) ![0.04, 0.04]
    (fun i j => by fin_cases i <;> fin_cases j <;> norm_num) (fun _ => zero_le_two) (fun _ => zero_le_two)
    (fun i => by fin_cases i <;> norm_num) (D := 2) (by norm_num) (by norm_num)
    (fun i => by fin_cases i <;> simp only [Fin.sum_univ_two] <;> norm_num) (by norm_num) (tol := 1e-10) le_rfl
    (by norm_num) (N := 50) le_rfl

theorem twin_same (K : ℝ) : SameSites (fromRecords (twinRecords K) (fun _ _ => 0)) :=
  ⟨fun _ _ _ _ => rfl, fun _ _ _ _ => rfl, fun _ _ _ _ => rfl, fun _ _ _ _ => rfl, fun _ _ => rfl⟩

/-- twins whose strengths add up to 20 at every site -/
theorem twin_balanced : ∃ K : ℝ, 0 < K ∧
    BalancedAssociation (fromRecords (twinRecords K) (fun _ _ => 0)) 300 1000 ![3, 11] 20 := by
  obtain ⟨K, hK, -, hstr⟩ := twin_strength
  refine ⟨K, hK, ?_⟩
  have hκ : ∀ j, (fromRecords (twinRecords K) (fun _ _ => 0)).kappa_ab j ≠ 0 := fun _ => hK.ne'
  have := C120_same_sites (twin_same K) 300 1000 ![3, 11] (l := 0) (hκ 0)
  have hna : ∀ j, (fromRecords (twinRecords K) (fun _ _ => 0)).na j = 1 := fun _ => rfl
  simp only [hκ, if_false, Fin.sum_univ_two, hna, hstr] at this
  norm_num at this
  exact this

example : ∃ K : ℝ, 0 < K ∧ ∃ a, (Eos.new (fromRecords (twinRecords K) (fun _ _ => 0))).residualHelmholtz
    (⟨fun _ => exactSolver, fun _ => exactSolver, 0⟩ : LinAlg ℝ ℝ) (StateHD.new 300 1000 ![3, 11]) = .ok a := by
  obtain ⟨K, hK, hw⟩ := twin_balanced
  have hna : (fromRecords (twinRecords K) (fun _ _ => 0)).nassoc = 2 := by
    rw [PcSaftParameters.nassoc, twinRecords_comp hK]
    rfl
  obtain ⟨a, ha, -⟩ := C120_residual (o := PcSaftOptions.default) rfl
    (twinRecords_admissible K (fun _ _ => 0) (V := 1000) (by norm_num))
    ⟨fun _ => by change (0 : ℝ) ≤ 2500; norm_num, fun _ => zero_le_one, fun _ => zero_le_one⟩ (by norm_num) (by norm_num)
    hw hna.ge (by rw [hna]; norm_num) (by norm_num [PcSaftOptions.default]) (by norm_num [PcSaftOptions.default])
    (by norm_num [PcSaftOptions.default])
    (la := ⟨fun _ => exactSolver, fun _ => exactSolver, 0⟩) rfl exactSolver_correct
  exact ⟨K, hK, _, ha⟩

example : ∃ K : ℝ, 0 < K ∧ ∃ a, (Eos.new (fromRecords (twinRecords K) (fun _ _ => 0))).residualHelmholtz
    (⟨fun _ => exactSolver, fun _ => exactSolver, 0⟩ : LinAlg ℝ ℝ) (StateHD.new 300 1000 ![3, 11]) = .ok a := by
  obtain ⟨K, hK, hw⟩ := twin_balanced
  have hna : (fromRecords (twinRecords K) (fun _ _ => 0)).nassoc = 2 := by
    rw [PcSaftParameters.nassoc, twinRecords_comp hK]
    rfl
  have hadm := twinRecords_admissible K (fun _ _ => 0) (V := 1000) (by norm_num)
  have hn : AssocNonneg (fromRecords (twinRecords K) (fun _ _ => 0)) :=
    ⟨fun _ => by change (0 : ℝ) ≤ 2500; norm_num, fun _ => zero_le_one, fun _ => zero_le_one⟩
  obtain ⟨b, hb, -⟩ := C71_exact_unique hadm hn
  obtain ⟨a, A, -, h, -⟩ := C120_default_options rfl hadm hn (by norm_num) (by norm_num) hw hna.ge
    (by rw [hna]; norm_num) (la := ⟨fun _ => exactSolver, fun _ => exactSolver, 0⟩) rfl exactSolver_correct (by
      simp only [Fin.sum_univ_two, f64EPSILON]
      norm_num) hb
  exact ⟨K, hK, _, h⟩

/-- One associating component with 14 molecules, and the same component written as two twins. -/
example : ∃ K : ℝ, 0 < K ∧ K < 1 / 10 ∧
    let p := fromRecords (fun _ : Fin 1 => twinRecords K 0) (fun _ _ => 0)
    let p' := fromRecords (twinRecords K) (fun _ _ => 0)
    ∃ a a', association p (StateHD.new 300 1000 ![14]) = .ok a
      ∧ crossAssociation p' 50 1e-10 0 exactSolver exactSolver (StateHD.new 300 1000 ![3, 11]) = .ok a'
      ∧ |a' - a| ≤ 10 * 1e-10 * ∑ i, ![3, 11] i * (p'.na i + p'.nb i) := by
  obtain ⟨K, hK, hK', hstr⟩ := twin_strength
  refine ⟨K, hK, hK', ?_⟩
  intro p p'
  have hN : (![14] : Fin 1 → ℝ) = fun i => ∑ j : Fin 2, if (fun _ => 0 : Fin 2 → Fin 1) j = i then
      (![3, 11] : Fin 2 → ℝ) j else 0 := by
    funext i
    fin_cases i
    simp
    norm_num
  have h' : Admissible p' 300 1000 ![3, 11] := twinRecords_admissible K _ (by norm_num)
  have hp' : p' = fromRecords (fun _ : Fin 2 => twinRecords K 0) (fun _ _ => 0) := rfl
  have hstr0 : specStrength p 300 1000 ![14] 0 0 = 10000 / 7 := by
    have := specStrength_merge (fun _ : Fin 1 => twinRecords K 0) (fun _ _ => 0) (fun _ : Fin 2 => 0) 300 1000
      ![3, 11] 0 0
    refine Eq.trans ?_ (this.symm.trans (hstr 0 0))
    change specStrength p 300 1000 _ _ _ = specStrength p 300 1000 (fun i => ∑ j : Fin 2,
      if (fun _ => 0 : Fin 2 → Fin 1) j = i then (![3, 11] : Fin 2 → ℝ) j else 0) _ _
    rw [← hN]
  have h : Admissible p 300 1000 ![14] := by
    refine ⟨by norm_num, by norm_num, fun _ => one_pos, fun _ => three_pos, fun _ => ?_, fun i => ?_, ⟨0, ?_⟩, ?_⟩
    · change (0 : ℝ) ≤ 200
      norm_num
    · fin_cases i; norm_num
    · norm_num
    · refine lt_of_eq_of_lt ?_ h'.packing
      unfold Spec.packingFraction
      have e1 : ∀ i, p'.m i = 1 := fun _ => rfl
      have e2 : ∀ i, p'.sigma i = 3 := fun _ => rfl
      have e3 : ∀ i, p'.epsilon_k i = 200 := fun _ => rfl
      have e4 : ∀ i, p.m i = 1 := fun _ => rfl
      have e5 : ∀ i, p.sigma i = 3 := fun _ => rfl
      have e6 : ∀ i, p.epsilon_k i = 200 := fun _ => rfl
      simp only [e1, e2, e3, e4, e5, e6, Fin.sum_univ_one, Fin.sum_univ_two]
      simp
      ring
  have hcut : (f64EPSILON : ℝ) ≤ ∑ i, (![3, 11] : Fin 2 → ℝ) i / 1000 := by
    simp only [Fin.sum_univ_two, f64EPSILON]
    norm_num
  have hn : AssocNonneg p := ⟨fun _ => by change (0 : ℝ) ≤ 2500; norm_num, fun _ => zero_le_one, fun _ => zero_le_one⟩
  have hi : p.assoc_comp = [0] := by
    have hne : K ≠ 0 := hK.ne'
    simp [p, fromRecords, twinRecords, nonzeroComp, List.finRange_succ]
    norm_num [hne]
  have hna' : p'.nassoc = 2 := by
    rw [PcSaftParameters.nassoc, twinRecords_comp hK]
    rfl
  exact C120_split (p := p) (p' := p') rfl hp' hN h h' hn hi one_pos rfl
    (by
      rw [hstr0]
      refine lt_of_lt_of_le (b := 1) ?_ (by norm_num)
      rw [Real.sqrt_lt' one_pos]
      norm_num [f64EPSILON])
    (by
      have : p.na 0 = 1 := rfl
      rw [hstr0, this]
      norm_num)
    le_rfl le_rfl (by norm_num) (by rw [hna']; norm_num) exactSolver_correct hcut

end PcSaft.Props
