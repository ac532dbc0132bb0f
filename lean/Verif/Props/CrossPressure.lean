import Verif.Lemmas.InexactEnergy
import Verif.Lemmas.RelativeDerivative
import Verif.Props.CrossBalanced

/-!
# Property C121: first derivatives with several associating components are accurate to the tolerance
-/

open Filter Topology PcSaft.Spec

namespace PcSaft.Props
open PcSaft Spec
variable {n k : ℕ}

/-! ## The energy as a function of the site fractions -/

/-- derivative of the association energy along a curve of mole numbers and site fractions -/
noncomputable def energyDerivative (na nb M M' : Fin k → ℝ) (x x' : Fin k ⊕ Fin k → ℝ) : ℝ :=
  ∑ i, (M' i * (na i * (Real.log (x (.inl i)) - x (.inl i) / 2 + 1 / 2)
      + nb i * (Real.log (x (.inr i)) - x (.inr i) / 2 + 1 / 2))
    + M i * (na i * ((1 / x (.inl i) - 1 / 2) * x' (.inl i)) + nb i * ((1 / x (.inr i) - 1 / 2) * x' (.inr i))))

theorem specEnergy_volume (na nb M : Fin k → ℝ) {V : ℝ} (hV : V ≠ 0) (x : Fin k ⊕ Fin k → ℝ) :
    specEnergy na nb (fun i => M i / V) x * V
      = ∑ i, M i * (na i * (Real.log (x (.inl i)) - x (.inl i) / 2 + 1 / 2)
        + nb i * (Real.log (x (.inr i)) - x (.inr i) / 2 + 1 / 2)) := by
  unfold specEnergy
  rw [Finset.sum_mul]
  refine Finset.sum_congr rfl fun i _ => ?_
  field_simp

theorem specEnergy_hasDerivAt (na nb : Fin k → ℝ) {V : ℝ → ℝ} {M : Fin k → ℝ → ℝ} {M' : Fin k → ℝ}
    {S : Fin k ⊕ Fin k → ℝ → ℝ} {S' : Fin k ⊕ Fin k → ℝ} {t0 : ℝ} (hV : ∀ᶠ t in 𝓝 t0, V t ≠ 0)
    (hM : ∀ i, HasDerivAt (M i) (M' i) t0) (hS : ∀ s, HasDerivAt (S s) (S' s) t0) (hS0 : ∀ s, 0 < S s t0) :
    HasDerivAt (fun t => specEnergy na nb (fun i => M i t / V t) (fun s => S s t) * V t)
      (energyDerivative na nb (fun i => M i t0) M' (fun s => S s t0) S') t0 := by
  have hf : ∀ s, HasDerivAt (fun t => Real.log (S s t) - S s t / 2 + 1 / 2) ((1 / S s t0 - 1 / 2) * S' s) t0 :=
    fun s => by
      have := (((hS s).log (hS0 s).ne').sub ((hS s).div_const 2)).add_const (1 / 2)
      exact this.congr_deriv (by ring)
  have h1 : HasDerivAt (fun t => ∑ i, M i t * (na i * (Real.log (S (.inl i) t) - S (.inl i) t / 2 + 1 / 2)
      + nb i * (Real.log (S (.inr i) t) - S (.inr i) t / 2 + 1 / 2)))
      (energyDerivative na nb (fun i => M i t0) M' (fun s => S s t0) S') t0 :=
    HasDerivAt.fun_sum fun i _ => (hM i).mul (((hf _).const_mul (na i)).add ((hf _).const_mul (nb i)))
  exact h1.congr_of_eventuallyEq (hV.mono fun t ht => specEnergy_volume na nb _ ht _)

/-- value and derivative of the energy at approximate fractions -/
theorem energy_perturbation {na nb M M' : Fin k → ℝ} (hna : ∀ i, 0 ≤ na i) (hnb : ∀ i, 0 ≤ nb i)
    (hM : ∀ i, 0 ≤ M i) {z y z' y' : Fin k ⊕ Fin k → ℝ} {a b : ℝ}
    (h1 : ∀ s, |(Real.log (z s) - z s / 2 + 1 / 2) - (Real.log (y s) - y s / 2 + 1 / 2)| ≤ a)
    (h2 : ∀ s, |(1 / z s - 1 / 2) * z' s - (1 / y s - 1 / 2) * y' s| ≤ b) {V : ℝ} (hV : V ≠ 0) :
    |specEnergy na nb (fun i => M i / V) z * V - specEnergy na nb (fun i => M i / V) y * V|
      ≤ a * ∑ i, M i * (na i + nb i)
    ∧ |energyDerivative na nb M M' z z' - energyDerivative na nb M M' y y'|
      ≤ ∑ i, (a * |M' i| + b * M i) * (na i + nb i) := by
  have two : ∀ (i : Fin k) (u v c : ℝ), |u| ≤ c → |v| ≤ c → |na i * u + nb i * v| ≤ c * (na i + nb i) := by
    intro i u v c hu hv
    refine (abs_add_le _ _).trans ?_
    rw [abs_mul, abs_mul, abs_of_nonneg (hna i), abs_of_nonneg (hnb i)]
    nlinarith [hna i, hnb i]
  constructor
  · rw [specEnergy_volume na nb M hV, specEnergy_volume na nb M hV, ← Finset.sum_sub_distrib, Finset.mul_sum]
    refine (Finset.abs_sum_le_sum_abs _ _).trans (Finset.sum_le_sum fun i _ => ?_)
    rw [← mul_sub, abs_mul, abs_of_nonneg (hM i)]
    have := two i _ _ a (h1 (.inl i)) (h1 (.inr i))
    have h3 := mul_le_mul_of_nonneg_left this (hM i)
    refine le_trans (le_of_eq ?_) (h3.trans (le_of_eq (by ring)))
    congr 2
    ring
  · unfold energyDerivative
    rw [← Finset.sum_sub_distrib]
    refine (Finset.abs_sum_le_sum_abs _ _).trans (Finset.sum_le_sum fun i _ => ?_)
    have t1 := two i _ _ a (h1 (.inl i)) (h1 (.inr i))
    have t2 := two i _ _ b (h2 (.inl i)) (h2 (.inr i))
    have t3 := mul_le_mul_of_nonneg_left t1 (abs_nonneg (M' i))
    have t4 := mul_le_mul_of_nonneg_left t2 (hM i)
    rw [← abs_mul] at t3
    rw [← abs_of_nonneg (hM i), ← abs_mul, abs_of_nonneg (hM i)] at t4
    refine le_trans (le_of_eq ?_) ((abs_add_le _ _).trans ((add_le_add t3 t4).trans (le_of_eq (by ring))))
    congr 1
    ring

/-! ## The contribution of the code -/

/-- If the iteration with real numbers returns `x` and the steps with dual numbers that follow return `xd`, the result of
the contribution represents the energy at the fractions represented by `xd`. -/
theorem cross_energy_of_run {D X : Type} [DualNum ℝ D] [TopologicalSpace X] {x0 : X} {ρ : Rep x0 Same D}
    {p : PcSaftParameters n ℝ} {T V : X → ℝ} {M : Fin n → X → ℝ} {Td Vd : D}
    {Md : Fin n → D} (hT : ρ.R T Td) (hV : ρ.R V Vd) (hM : ∀ i, ρ.R (M i) (Md i))
    (h : Admissible p (T x0) (V x0) (fun i => M i x0)) (hcut : (f64EPSILON : ℝ) ≤ ∑ i, M i x0 / V x0)
    {max_iter : ℕ} {tol : ℝ} {nderiv : ℕ}
    {solveF : Solver p.assoc_comp.length ℝ} {solveD : Solver p.assoc_comp.length D}
    {x : Fin p.assoc_comp.length ⊕ Fin p.assoc_comp.length → ℝ}
    (hloop : stateLoop p max_iter tol solveF (StateHD.new (T x0) (V x0) (fun i => M i x0)) = .ok x)
    {xd : Fin p.assoc_comp.length ⊕ Fin p.assoc_comp.length → D}
    {x' : Fin p.assoc_comp.length ⊕ Fin p.assoc_comp.length → X → ℝ}
    (hok : newtonDual (newtonStep solveD (fun i j => associationStrength p (StateHD.new Td Vd Md).temperature
      (fun i => hsDiameter p (StateHD.new Td Vd Md).temperature i * c (0.5 : ℝ))
      (assocN2 p.m (StateHD.new Td Vd Md).partial_density
        (fun i => hsDiameter p (StateHD.new Td Vd Md).temperature i * c (0.5 : ℝ)))
      (DualNum.recip (-packingFraction p.m (StateHD.new Td Vd Md).partial_density
        (fun i => hsDiameter p (StateHD.new Td Vd Md).temperature i * c (0.5 : ℝ)) + c (1.0 : ℝ))) (c (1.0 : ℝ))
      (p.assoc_comp.get i) (p.assoc_comp.get j))
      (assocNa p) (assocNb p) (fun i => (StateHD.new Td Vd Md).partial_density (p.assoc_comp.get i)) tol) nderiv
      (fun s => c (x s)) = .ok xd)
    (hx' : ∀ s, ρ.R (x' s) (xd s)) (hx1 : ∀ s, 0 < x' s x0) :
    ∃ a : D, crossAssociation p max_iter tol nderiv solveF solveD (StateHD.new Td Vd Md) = .ok a
      ∧ ρ.R (fun y => specEnergy (assocNa p) (assocNb p) (fun i => M (p.assoc_comp.get i) y / V y) (fun s => x' s y)
        * V y) a := by
  have hst := rep_state lawfulEmb_id hT hV hM h
  have hd := fun i j => rep_stateStrength (p := p) hst h.temperature.ne' (stateEta_lt_one h).ne h.diameter_pos
    (p.assoc_comp.get i) (p.assoc_comp.get j)
  have hrho := fun i => hst.partial_density (p.assoc_comp.get i)
  set sd := StateHD.new Td Vd Md with hsd
  have hlt : F64.lt (DualNum.re (sumFin sd.partial_density)) (f64EPSILON : ℝ) = false := by
    have := ρ.re (ρ.sumFin lawfulEmb_id hst.partial_density)
    rw [this, lt_real, sumFin_real]
    simp only [StateHD.new_density]
    exact decide_eq_false (not_lt.mpr hcut)
  refine ⟨energyOf p sd.partial_density xd * sd.volume, ?_, ?_⟩
  · unfold crossAssociation crossAssociationDensity
    simp only [hlt, Bool.false_eq_true, if_false, Option.getD_none]
    have e1 : ∀ i j, DualNum.re (associationStrength p sd.temperature
        (fun i => hsDiameter p sd.temperature i * c (0.5 : ℝ))
        (assocN2 p.m sd.partial_density (fun i => hsDiameter p sd.temperature i * c (0.5 : ℝ)))
        (DualNum.recip (-packingFraction p.m sd.partial_density (fun i => hsDiameter p sd.temperature i * c (0.5 : ℝ))
          + c (1.0 : ℝ))) (c (1.0 : ℝ)) (p.assoc_comp.get i) (p.assoc_comp.get j))
        = stateStrength p (StateHD.new (T x0) (V x0) (fun i => M i x0)) (p.assoc_comp.get i) (p.assoc_comp.get j) :=
      fun i j => ρ.re (hd i j)
    have e2 : ∀ i, DualNum.re (sd.partial_density (p.assoc_comp.get i))
        = (StateHD.new (T x0) (V x0) (fun i => M i x0)).partial_density (p.assoc_comp.get i) :=
      fun i => ρ.re (hrho i)
    simp only [e1, e2]
    have hl : newtonLoop (newtonStep solveF (fun i j => stateStrength p
        (StateHD.new (T x0) (V x0) (fun i => M i x0)) (p.assoc_comp.get i) (p.assoc_comp.get j))
        (fun i => p.na (p.assoc_comp.get i)) (fun i => p.nb (p.assoc_comp.get i))
        (fun i => (StateHD.new (T x0) (V x0) (fun i => M i x0)).partial_density (p.assoc_comp.get i)) tol)
        max_iter (fun _ => 0.2) = .ok x := hloop
    rw [hl]
    simp only
    have hok' : newtonDual (newtonStep solveD (fun i j => associationStrength p sd.temperature
        (fun i => hsDiameter p sd.temperature i * c (0.5 : ℝ))
        (assocN2 p.m sd.partial_density (fun i => hsDiameter p sd.temperature i * c (0.5 : ℝ)))
        (DualNum.recip (-packingFraction p.m sd.partial_density (fun i => hsDiameter p sd.temperature i * c (0.5 : ℝ))
          + c (1.0 : ℝ))) (c (1.0 : ℝ)) (p.assoc_comp.get i) (p.assoc_comp.get j))
        (fun i => p.na (p.assoc_comp.get i)) (fun i => p.nb (p.assoc_comp.get i))
        (fun i => sd.partial_density (p.assoc_comp.get i)) tol) nderiv (fun s => c (x s)) = .ok xd := hok
    rw [hok']
    rfl
  · have hsum := ρ.sumFin lawfulEmb_id (fun i => ρ.mul (hrho i) (ρ.add
      (ρ.mul (rep_assocF lawfulEmb_id (hx' (.inl i)) (hx1 _)) (ρ.constOf (a := assocNa p i) rfl))
      (ρ.mul (rep_assocF lawfulEmb_id (hx' (.inr i)) (hx1 _)) (ρ.constOf (a := assocNb p i) rfl))))
    refine ρ.congr (ρ.mul hsum hst.volume) (.of_forall fun y => ?_)
    exact congrArg (· * V y)
      (energyOf_real p (StateHD.new (T y) (V y) (fun i => M i y)).partial_density (fun s => x' s y))

/-- the fractions that the iteration returns are within four times the tolerance of the exact ones -/
theorem stateLoop_accuracy {pr : Fin n → PureRecord ℝ} {kij : Fin n → Fin n → ℝ} {p : PcSaftParameters n ℝ}
    (hp : p = fromRecords pr kij) {T V : ℝ} {N : Fin n → ℝ} (h : Admissible p T V N) (hn : AssocNonneg p)
    {max_iter : ℕ} (hmax : 0 < max_iter) {tol : ℝ} (htol : tol ≤ 1 / 2) {solve : Solver p.assoc_comp.length ℝ}
    (hs : CorrectSolver solve) {x : Fin p.assoc_comp.length ⊕ Fin p.assoc_comp.length → ℝ}
    (hloop : stateLoop p max_iter tol solve (StateHD.new T V N) = .ok x)
    (hrun : PositiveRun p max_iter tol solve (StateHD.new T V N))
    {y : Fin p.assoc_comp.length ⊕ Fin p.assoc_comp.length → ℝ} (hy : ∀ s, 0 < y s)
    (hsol : MassAction (stateSites p (StateHD.new T V N)) y) (s : Fin p.assoc_comp.length ⊕ Fin p.assoc_comp.length) :
    0 < x s ∧ |x s - y s| ≤ 4 * tol * y s := by
  have hM := siteMatrix_nonneg (na := assocNa p) (nb := assocNb p) (stateStrength_nonneg hp h hn) (fun i => hn.na _)
    (fun i => hn.nb _) (assocRho_nonneg h)
  rcases (C30_loop_ok _ max_iter _ x).1 hloop with ⟨h0, _⟩ | ⟨j, z, hj, hr, hz⟩
  · omega
  · exact converged_step hs hM htol (hrun z ⟨j, hj, hr, _, hz⟩) hz hy hsol s

/-- the site matrix of the code is the one of the theory -/
theorem stateSites_spec {pr : Fin n → PureRecord ℝ} {kij : Fin n → Fin n → ℝ} {p : PcSaftParameters n ℝ}
    (hp : p = fromRecords pr kij) {T V : ℝ} {N : Fin n → ℝ} (h : Admissible p T V N) :
    stateSites p (StateHD.new T V N) = siteMatrix
      (fun i j => specStrength p T V N (p.assoc_comp.get i) (p.assoc_comp.get j)) (assocNa p) (assocNb p)
      (fun i => N (p.assoc_comp.get i) / V) := by
  subst hp
  have e : (fun i j => stateStrength (fromRecords pr kij) (StateHD.new T V N) ((fromRecords pr kij).assoc_comp.get i)
      ((fromRecords pr kij).assoc_comp.get j)) = fun i j => specStrength (fromRecords pr kij) T V N
        ((fromRecords pr kij).assoc_comp.get i) ((fromRecords pr kij).assoc_comp.get j) := by
    funext i j
    exact C58_association_strength pr kij T V N h _ _ ((mem_assoc_iff pr kij _).1 (List.get_mem _ _))
      ((mem_assoc_iff pr kij _).1 (List.get_mem _ _))
  unfold stateSites
  rw [e]
  rfl

theorem sum_assoc_le {pr : Fin n → PureRecord ℝ} {kij : Fin n → Fin n → ℝ} {p : PcSaftParameters n ℝ}
    (hp : p = fromRecords pr kij) (f : Fin n → ℝ) (hf : ∀ i, 0 ≤ f i) :
    ∑ i, f (p.assoc_comp.get i) ≤ ∑ i, f i := by
  have hinj : Function.Injective p.assoc_comp.get := by
    subst hp
    exact List.nodup_iff_injective_get.1 (nonzeroComp_sorted _).nodup
  have := Finset.sum_map Finset.univ ⟨p.assoc_comp.get, hinj⟩ f
  simp only [Function.Embedding.coeFn_mk] at this
  rw [← this]
  exact Finset.sum_le_sum_of_subset_of_nonneg (Finset.subset_univ _) fun i _ _ => hf i

/-- C121: first derivatives of the cross-association contribution along a curve of states. `R` bounds the association
strengths at every site, `μ` the relative derivatives of the strengths times densities. -/
theorem C121_cross_association {pr : Fin n → PureRecord ℝ} {kij : Fin n → Fin n → ℝ}
    {p : PcSaftParameters n ℝ} (hp : p = fromRecords pr kij) {T V : ℝ → ℝ}
    {M : Fin n → ℝ → ℝ} {T' V' : ℝ} {M' : Fin n → ℝ} {t0 : ℝ}
    (hT : HasDerivAt T T' t0) (hV : HasDerivAt V V' t0) (hM : ∀ i, HasDerivAt (M i) (M' i) t0)
    (h : ∀ᶠ t in 𝓝 t0, Admissible p (T t) (V t) (fun i => M i t))
    (hcut : (f64EPSILON : ℝ) ≤ ∑ i, M i t0 / V t0) (hn : AssocNonneg p) {R μ : ℝ} (hμ0 : 0 ≤ μ)
    (hR : WeakAssociation p (T t0) (V t0) (fun i => M i t0) R)
    (hμ : ∀ i j, p.kappa_ab i ≠ 0 → p.kappa_ab j ≠ 0 →
      |deriv (fun t => specStrength p (T t) (V t) (fun i => M i t) i j * (M j t / V t)) t0|
        ≤ μ * (specStrength p (T t0) (V t0) (fun i => M i t0) i j * (M j t0 / V t0)))
    {max_iter : ℕ} (hmax : 0 < max_iter) {tol : ℝ} (htol0 : 0 ≤ tol) (htol : 25 * tol * (1 + R) ≤ 1)
    {solveF : Solver p.assoc_comp.length ℝ} (hsF : CorrectSolver solveF)
    {solveD : Solver p.assoc_comp.length (Dual ℝ)} (hs : CorrectDualSolver solveD)
    {x : Fin p.assoc_comp.length ⊕ Fin p.assoc_comp.length → ℝ}
    (hloop : stateLoop p max_iter tol solveF (StateHD.new (T t0) (V t0) (fun i => M i t0)) = .ok x)
    (hrun : PositiveRun p max_iter tol solveF (StateHD.new (T t0) (V t0) (fun i => M i t0)))
    {A : ℝ → ℝ} (hA : ∀ᶠ t in 𝓝 t0, ExactAssociation p (T t) (V t) (fun i => M i t) (A t)) :
    ∃ (a : Dual ℝ) (A' : ℝ), crossAssociation p max_iter tol 1 solveF solveD
        (StateHD.new (⟨T t0, T'⟩ : Dual ℝ) ⟨V t0, V'⟩ (fun i => ⟨M i t0, M' i⟩)) = .ok a
      ∧ HasDerivAt A A' t0
      ∧ |a.re - A t0| ≤ 4 * tol * ∑ i, M i t0 * (p.na i + p.nb i)
      ∧ |a.eps - A'| ≤ 100 * tol * ∑ i, (|M' i| + μ * (1 + R) ^ 2 * M i t0) * (p.na i + p.nb i) := by
  have h0 := h.self_of_nhds
  have hV0 : ∀ᶠ t in 𝓝 t0, V t ≠ 0 := h.mono fun t ht => ht.volume.ne'
  -- the exact fractions along the curve
  have hex : ∀ᶠ t in 𝓝 t0, ∃ y : Fin p.assoc_comp.length ⊕ Fin p.assoc_comp.length → ℝ, (∀ s, 0 < y s)
      ∧ MassAction (stateSites p (StateHD.new (T t) (V t) (fun i => M i t))) y
      ∧ A t = specEnergy (assocNa p) (assocNb p)
          (assocRho p (StateHD.new (T t) (V t) (fun i => M i t)).partial_density) y * V t := by
    subst hp
    filter_upwards [h, hA] with t h1 h2
    exact exact_restrict pr kij h1 h2
  obtain ⟨F, hF⟩ := hex.choice
  set S : Fin p.assoc_comp.length ⊕ Fin p.assoc_comp.length → ℝ → ℝ := fun s t => F t s with hSdef
  obtain ⟨hmat, hnn, hS', hb⟩ := solution_along_curve (S := S) hp hT hV hM h hn.epsilon hn.na hn.nb (by
    filter_upwards [h, hF] with t h1 h2
    rw [← stateSites_spec hp h1]
    exact ⟨h2.1, h2.2.1⟩)
  obtain ⟨hS0, hS1⟩ := hS'.self_of_nhds
  have hsites := hnn t0 h0
  -- the dual numbers
  have Tw := towerDual (towerReal ()) t0
  have hst := rep_state lawfulEmb_id (rho1_curve hT) (rho1_curve hV) (fun i => rho1_curve (hM i)) h0
  have hd := fun i j => rep_stateStrength (p := p) hst h0.temperature.ne' (stateEta_lt_one h0).ne h0.diameter_pos
    (p.assoc_comp.get i) (p.assoc_comp.get j)
  have hrho := fun i => hst.partial_density (p.assoc_comp.get i)
  obtain ⟨xe, -, -, hSrep⟩ := C32_exact_solution Tw (na := assocNa p) (nb := assocNb p) hd hrho hsites hS0 hS1 hs tol
    (r := 1) (by norm_num)
  have hSd : ∀ s, HasDerivAt (S s) (xe s).eps t0 := fun s => (curve_of (hSrep _ hb s)).2
  have hdd := fun i j => curve_of (hd i j)
  have hrd := fun i => curve_of (hrho i)
  -- bounds
  have hR' := (weakSites_state hp h0 hR).row
  have hlow := massAction_lower hsites hS1 hS0 hR'
  have hle1 := hS1.le_one hsites hS0
  have hR0 : 0 ≤ R := by
    have hne : n ≠ 0 := by
      rintro rfl
      simp only [Finset.univ_eq_empty, Finset.sum_empty] at hcut
      have : (0 : ℝ) < f64EPSILON := by norm_num [f64EPSILON]
      linarith
    have i0 : Fin n := ⟨0, Nat.pos_of_ne_zero hne⟩
    refine le_trans (Finset.sum_nonneg fun j _ => ?_) (hR i0).1
    exact mul_nonneg (mul_nonneg (specStrength_nonneg h0 _ _ (add_nonneg (hn.epsilon _) (hn.epsilon _)))
      (div_nonneg (h0.moles_nonneg _) h0.volume.le)) (hn.nb _)
  have ht25 : 25 * tol ≤ 1 := by nlinarith
  have hacc := stateLoop_accuracy hp h0 hn hmax (by linarith) hsF hloop hrun hS0 hS1
  have hxpos : ∀ s, 0 < x s := fun s => (hacc s).1
  have hrel : ∀ s, |x s - S s t0| ≤ 5 * tol * x s := fun s => by
    have h1 := (hacc s).2
    obtain ⟨h2, h3⟩ := abs_le.1 h1
    have h4 := hS0 s
    have h5 := hxpos s
    refine h1.trans ?_
    change 4 * tol * S s t0 ≤ _
    have h6 : S s t0 ≤ x s + 4 * tol * S s t0 := by
      change -(4 * tol * S s t0) ≤ x s - S s t0 at h2
      linarith
    have h7 : S s t0 * (1 - 4 * tol) ≤ x s := by linarith
    have h8 : S s t0 * 4 ≤ 5 * x s := by nlinarith
    nlinarith
  have hsum : ∀ s, 1 + ∑ r, stateSites p (StateHD.new (T t0) (V t0) (fun i => M i t0)) s r * S r t0 ≤ 1 + R := fun s => by
    have h1 := hS1 s
    have h2 := hlow s
    have h3 := hS0 s
    by_contra hc
    rw [not_le] at hc
    change S s t0 * (1 + ∑ r, stateSites p (StateHD.new (T t0) (V t0) (fun i => M i t0)) s r * S r t0) = 1 at h1
    have : S s t0 * (1 + R) < S s t0 * (1 + ∑ r, stateSites p (StateHD.new (T t0) (V t0) (fun i => M i t0)) s r * S r t0) :=
      mul_lt_mul_of_pos_left hc h3
    rw [h1] at this
    linarith
  have hsumx : ∀ s, 1 + ∑ r, stateSites p (StateHD.new (T t0) (V t0) (fun i => M i t0)) s r * x r ≤ 5 / 4 * (1 + R) :=
    fun s => by
      have h1 : ∑ r, stateSites p (StateHD.new (T t0) (V t0) (fun i => M i t0)) s r * x r
          ≤ 5 / 4 * ∑ r, stateSites p (StateHD.new (T t0) (V t0) (fun i => M i t0)) s r * S r t0 := by
        rw [Finset.mul_sum]
        refine Finset.sum_le_sum fun r _ => ?_
        have h2 := (abs_le.1 (hacc r).2).2
        have h3 := hS0 r
        have h4 : x r ≤ 5 / 4 * S r t0 := by
          change x r - S r t0 ≤ 4 * tol * S r t0 at h2
          nlinarith
        have := mul_le_mul_of_nonneg_left h4 (hsites s r)
        linarith
      have := hsum s
      linarith
  -- derivatives of the site matrix
  have hμ' : ∀ s r, |deriv (fun t => stateSites p (StateHD.new (T t) (V t) (fun i => M i t)) s r) t0|
      ≤ μ * stateSites p (StateHD.new (T t0) (V t0) (fun i => M i t0)) s r := by
    have hκ : ∀ i, p.kappa_ab (p.assoc_comp.get i) ≠ 0 := by
      subst hp
      exact fun i => (mem_assoc_iff pr kij _).1 (List.get_mem _ _)
    have hent : ∀ (nn : Fin n → ℝ), (∀ i, 0 ≤ nn i) → ∀ i j,
        |deriv (fun t => specStrength p (T t) (V t) (fun i => M i t) (p.assoc_comp.get i) (p.assoc_comp.get j)
          * (M (p.assoc_comp.get j) t / V t * nn (p.assoc_comp.get j))) t0|
        ≤ μ * (specStrength p (T t0) (V t0) (fun i => M i t0) (p.assoc_comp.get i) (p.assoc_comp.get j)
          * (M (p.assoc_comp.get j) t0 / V t0 * nn (p.assoc_comp.get j))) := by
      intro nn hnn' i j
      simp only [← mul_assoc]
      rw [deriv_mul_const_field, abs_mul, abs_of_nonneg (hnn' _)]
      have := mul_le_mul_of_nonneg_right (hμ _ _ (hκ i) (hκ j)) (hnn' (p.assoc_comp.get j))
      linarith
    intro s r
    have hev : (fun t => stateSites p (StateHD.new (T t) (V t) (fun i => M i t)) s r) =ᶠ[𝓝 t0] fun t => siteMatrix
        (fun i j => specStrength p (T t) (V t) (fun i => M i t) (p.assoc_comp.get i) (p.assoc_comp.get j))
        (assocNa p) (assocNb p) (fun i => M (p.assoc_comp.get i) t / V t) s r := by
      filter_upwards [h] with t ht
      rw [hmat t ht]
    rw [hev.deriv_eq, hmat t0 h0]
    rcases s with i | i <;> rcases r with j | j
    · simp [siteMatrix]
    · exact hent p.nb hn.nb i j
    · exact hent p.na hn.na i j
    · simp [siteMatrix]
  have hMd : ∀ s r, HasDerivAt (fun t => stateSites p (StateHD.new (T t) (V t) (fun i => M i t)) s r)
      (deriv (fun t => stateSites p (StateHD.new (T t) (V t) (fun i => M i t)) s r) t0) t0 := by
    intro s r
    apply DifferentiableAt.hasDerivAt
    have h1 : ∀ (nn : Fin p.assoc_comp.length → ℝ) i j, DifferentiableAt ℝ (fun t => stateStrength p
        (StateHD.new (T t) (V t) (fun i => M i t)) (p.assoc_comp.get i) (p.assoc_comp.get j)
        * ((StateHD.new (T t) (V t) (fun i => M i t)).partial_density (p.assoc_comp.get j) * nn j)) t0 := fun nn i j =>
      (hdd i j).2.differentiableAt.mul ((hrd j).2.differentiableAt.mul_const _)
    rcases s with i | i <;> rcases r with j | j
    · exact differentiableAt_const _
    · exact h1 (assocNb p) i j
    · exact h1 (assocNa p) i j
    · exact differentiableAt_const _
  have hσ : ∀ s, |(xe s).eps| ≤ 2 * μ * (1 + R) * x s := fun s => by
    have h1 := fractions_derivative_bound hMd hSd (hS'.mono fun t ht => ht.2) hsites hS0 hμ0 hμ' hsum s
    have h2 := (abs_le.1 (hrel s)).1
    have h3 := hxpos s
    have h4 : S s t0 ≤ 2 * x s := by nlinarith
    have h5 : 0 ≤ μ * (1 + R) := by positivity
    nlinarith
  -- the step with dual numbers
  obtain ⟨xd, b, hok, hxd⟩ := C32_inexact_start (delta := fun i j t => stateStrength p
      (StateHD.new (T t) (V t) (fun i => M i t)) (p.assoc_comp.get i) (p.assoc_comp.get j))
    (rho := fun i t => (StateHD.new (T t) (V t) (fun i => M i t)).partial_density (p.assoc_comp.get i))
    (na := assocNa p) (nb := assocNb p) (fun i j => (hdd i j).2) (fun i => (hrd i).2)
    (h.mono fun t ht => hnn t ht) hS' hSd hs tol hxpos (ε := 5 * tol) (μ := μ) (σ := 2 * μ * (1 + R))
    (P := 5 / 4 * (1 + R)) (by positivity) hμ0 (by positivity) hrel hμ' hσ hsumx
  choose z hz using fun s => Tw.full (xd s)
  have hzd := fun s => curve_of (hz s)
  have q1 : 0 ≤ 1 - 25 * tol * (1 + R) := by linarith
  have he1 : 5 / 4 * (1 + R) * (5 * tol) ^ 2 ≤ 5 / 4 * tol := by nlinarith
  have hQ : 1 ≤ 1 + R := by linarith
  have he2 : 5 / 4 * (1 + R) * (2 * (2 * μ * (1 + R)) * (5 * tol) + μ * (5 * tol) ^ 2
      + 2 * μ * (5 / 4 * (1 + R) * (5 * tol) ^ 2)) ≤ 30 * μ * (1 + R) ^ 2 * tol := by
    have hmt : 0 ≤ μ * tol := mul_nonneg hμ0 htol0
    have a1 : μ * (5 * tol) ^ 2 ≤ μ * tol * (1 + R) := by
      have : μ * (5 * tol) ^ 2 = μ * tol * (25 * tol) := by ring
      rw [this]
      exact mul_le_mul_of_nonneg_left (by linarith) hmt
    have a2 : 2 * μ * (5 / 4 * (1 + R) * (5 * tol) ^ 2) ≤ 5 / 2 * (μ * tol) * (1 + R) := by
      have h1 := mul_le_mul_of_nonneg_left he1 (by positivity : 0 ≤ 2 * μ)
      have h2 := mul_le_mul_of_nonneg_left hQ (by positivity : 0 ≤ 5 / 2 * (μ * tol))
      linarith
    have a3 : 2 * (2 * μ * (1 + R)) * (5 * tol) + μ * (5 * tol) ^ 2 + 2 * μ * (5 / 4 * (1 + R) * (5 * tol) ^ 2)
        ≤ 47 / 2 * (μ * tol) * (1 + R) := by linarith
    have h1 := mul_le_mul_of_nonneg_left a3 (by positivity : 0 ≤ 5 / 4 * (1 + R))
    have h2 : 0 ≤ μ * tol * (1 + R) ^ 2 := by positivity
    linarith
  have hterm := fun s => site_term_bound (hxpos s) (by
      have h1 := (abs_le.1 (hacc s).2).2
      have h2 := hle1 s
      have h3 := hS0 s
      change x s - S s t0 ≤ 4 * tol * S s t0 at h1
      change S s t0 ≤ 1 at h2
      nlinarith) (by linarith : 5 * tol ≤ 1 / 4)
    (by linarith : 5 / 4 * (1 + R) * (5 * tol) ^ 2 ≤ 1 / 4) (by positivity : 0 ≤ 2 * μ * (1 + R)) (hrel s) (hxd s).1 (hxd s).2
    (hσ s)
  have hdel : (fun i j => (⟨stateStrength p (StateHD.new (T t0) (V t0) (fun i => M i t0)) (p.assoc_comp.get i)
      (p.assoc_comp.get j), _⟩ : Dual ℝ)) = _ := funext fun i => funext fun j => Dual.ext (hdd i j).1.symm rfl
  have hden : (fun i => (⟨(StateHD.new (T t0) (V t0) (fun i => M i t0)).partial_density (p.assoc_comp.get i), _⟩ : Dual ℝ))
      = _ := funext fun i => Dual.ext (hrd i).1.symm rfl
  rw [hdel, hden] at hok
  obtain ⟨a, ha, harep⟩ := cross_energy_of_run (ρ := repDual lawfulEmb_id rho0 t0) (nderiv := 1) (solveD := solveD)
    (rho1_curve hT) (rho1_curve hV) (fun i => rho1_curve (hM i)) h0 hcut hloop (xd := xd) (x' := z) (by
      unfold newtonDual
      rw [hok]
      rfl) hz (fun s => by
      rw [← (hzd s).1]
      exact (hterm s).1)
  obtain ⟨hare, haeps⟩ := curve_of harep
  have hzpos : ∀ s, 0 < z s ((), t0) := fun s => by
    rw [← (hzd s).1]
    exact (hterm s).1
  have hdz := specEnergy_hasDerivAt (assocNa p) (assocNb p) hV0 (fun i => hM (p.assoc_comp.get i)) (fun s => (hzd s).2) hzpos
  have hdS := specEnergy_hasDerivAt (assocNa p) (assocNb p) hV0 (fun i => hM (p.assoc_comp.get i)) hSd hS0
  have hAeq : A =ᶠ[𝓝 t0] fun t => specEnergy (assocNa p) (assocNb p) (fun i => M (p.assoc_comp.get i) t / V t)
      (fun s => S s t) * V t := by
    filter_upwards [hF] with t ht
    exact ht.2.2
  have hpert := energy_perturbation (na := assocNa p) (nb := assocNb p) (M := fun i => M (p.assoc_comp.get i) t0)
    (M' := fun i => M' (p.assoc_comp.get i)) (fun i => hn.na _) (fun i => hn.nb _) (fun i => h0.moles_nonneg _)
    (z := fun s => (xd s).re) (z' := fun s => (xd s).eps) (fun s => (hterm s).2.1) (fun s => (hterm s).2.2)
    h0.volume.ne'
  have hzre : (fun s => z s ((), t0)) = fun s => (xd s).re := funext fun s => (hzd s).1.symm
  refine ⟨a, _, ha, hdS.congr_of_eventuallyEq hAeq, ?_, ?_⟩
  · rw [hare, hAeq.self_of_nhds, hzre]
    refine hpert.1.trans ?_
    have hle := sum_assoc_le hp (fun i => M i t0 * (p.na i + p.nb i)) fun i =>
      mul_nonneg (h0.moles_nonneg i) (add_nonneg (hn.na i) (hn.nb i))
    have hnn' : 0 ≤ ∑ i, M (p.assoc_comp.get i) t0 * (assocNa p i + assocNb p i) := Finset.sum_nonneg fun i _ =>
      mul_nonneg (h0.moles_nonneg _) (add_nonneg (hn.na _) (hn.nb _))
    refine (mul_le_mul_of_nonneg_right (by linarith : 3 * (5 / 4 * (1 + R) * (5 * tol) ^ 2) ≤ 4 * tol) hnn').trans ?_
    exact mul_le_mul_of_nonneg_left hle (by positivity)
  · rw [haeps.unique hdz, hzre]
    refine hpert.2.trans ?_
    have hle := sum_assoc_le hp (fun i => (|M' i| + μ * (1 + R) ^ 2 * M i t0) * (p.na i + p.nb i)) fun i =>
      mul_nonneg (add_nonneg (abs_nonneg _) (mul_nonneg (by positivity) (h0.moles_nonneg i)))
        (add_nonneg (hn.na i) (hn.nb i))
    refine le_trans ?_ (mul_le_mul_of_nonneg_left hle (by positivity))
    rw [Finset.mul_sum]
    refine Finset.sum_le_sum fun i _ => ?_
    have hb : 2 * (5 / 4 * (1 + R) * (2 * (2 * μ * (1 + R)) * (5 * tol) + μ * (5 * tol) ^ 2
        + 2 * μ * (5 / 4 * (1 + R) * (5 * tol) ^ 2))) + 3 * (5 / 4 * (1 + R) * (5 * tol) ^ 2) * (2 * μ * (1 + R))
        ≤ 100 * tol * (μ * (1 + R) ^ 2) := by
      have h1 : 3 * (5 / 4 * (1 + R) * (5 * tol) ^ 2) * (2 * μ * (1 + R)) ≤ 3 * (5 / 4 * tol) * (2 * μ * (1 + R)) :=
        mul_le_mul_of_nonneg_right (by linarith) (by positivity)
      have h2 : 3 * (5 / 4 * tol) * (2 * μ * (1 + R)) * 1 ≤ 3 * (5 / 4 * tol) * (2 * μ * (1 + R)) * (1 + R) :=
        mul_le_mul_of_nonneg_left hQ (by positivity)
      have h3 : 0 ≤ tol * (μ * (1 + R) ^ 2) := by positivity
      linarith
    have hnn' : 0 ≤ assocNa p i + assocNb p i := add_nonneg (hn.na _) (hn.nb _)
    have h1 := mul_le_mul_of_nonneg_right (by linarith : 3 * (5 / 4 * (1 + R) * (5 * tol) ^ 2) ≤ 100 * tol)
      (abs_nonneg (M' (p.assoc_comp.get i)))
    have h2 := mul_le_mul_of_nonneg_right hb (h0.moles_nonneg (p.assoc_comp.get i))
    have h3 := mul_le_mul_of_nonneg_right (add_le_add h1 h2) hnn'
    refine h3.trans (le_of_eq ?_)
    change _ = 100 * tol * ((|M' (p.assoc_comp.get i)| + μ * (1 + R) ^ 2 * M (p.assoc_comp.get i) t0)
      * (assocNa p i + assocNb p i))
    ring

/-! ## Relative derivatives of the association strengths -/

/-- bound of the relative derivative of association strength times density in a direction that changes temperature and
volume by `T'` and `V'` and no mole number by more than `γ` times itself, if no association energy exceeds `E` -/
noncomputable def relativeChange (p : PcSaftParameters n ℝ) (T V : ℝ) (N : Fin n → ℝ) (T' V' γ E : ℝ) : ℝ :=
  3 * (|V'| / V + γ) / (1 - Spec.packingFraction p T V N)
    + |T'| / T * (2 / (1 - Spec.packingFraction p T V N) + E / T)

theorem relativeChange_nonneg {p : PcSaftParameters n ℝ} {T V : ℝ} {N : Fin n → ℝ} (h : Admissible p T V N)
    (T' V' : ℝ) {γ E : ℝ} (hγ : 0 ≤ γ) (hE : 0 ≤ E) : 0 ≤ relativeChange p T V N T' V' γ E := by
  have h1 := h.temperature
  have h2 := h.volume
  have h3 : 0 < 1 - Spec.packingFraction p T V N := by linarith [h.packing]
  unfold relativeChange
  positivity

theorem strength_relBound {p : PcSaftParameters n ℝ} {T V : ℝ → ℝ} {M : Fin n → ℝ → ℝ} {T' V' : ℝ} {M' : Fin n → ℝ}
    {t0 : ℝ} (hT : HasDerivAt T T' t0) (hV : HasDerivAt V V' t0) (hM : ∀ i, HasDerivAt (M i) (M' i) t0)
    (h : Admissible p (T t0) (V t0) (fun i => M i t0)) (hn : AssocNonneg p) {γ E : ℝ} (hγ0 : 0 ≤ γ)
    (hγ : ∀ i, |M' i| ≤ γ * M i t0) (hE : ∀ i, p.epsilon_k_ab i ≤ E) (i j : Fin n) :
    RelBound (fun t => specStrength p (T t) (V t) (fun i => M i t) i j * (M j t / V t)) t0
      (relativeChange p (T t0) (V t0) (fun i => M i t0) T' V' γ E) := by
  have hT0 := h.temperature
  have hV0 := h.volume
  set τ := |T'| / T t0 / 10 with hτ
  set ν := |V'| / V t0 with hν
  have hτ0 : 0 ≤ τ := by positivity
  have hν0 : 0 ≤ ν := by positivity
  have hd : ∀ i, RelBound (fun t => Spec.diameter (p.sigma i) (p.epsilon_k i) (T t)) t0 τ := fun i =>
    RelBound.diameter hT hT0 (h.sigma_pos i).le (h.epsilon_nonneg i)
  have hd0 : ∀ i, 0 < Spec.diameter (p.sigma i) (p.epsilon_k i) (T t0) := fun i => by
    have := h.diameter_pos i
    rwa [hsDiameter_eq_spec] at this
  have hVb : RelBound V t0 ν := ⟨hV0.le, V', hV, by rw [hν]; field_simp; exact le_rfl⟩
  have hMb : ∀ i, RelBound (M i) t0 γ := fun i => ⟨h.moles_nonneg i, M' i, hM i, hγ i⟩
  have hρ : ∀ i, RelBound (fun t => M i t / V t) t0 (γ + ν) := fun i => (hMb i).div hVb hV0.ne'
  have hm : ∀ i, RelBound (fun _ : ℝ => p.m i) t0 0 := fun i => RelBound.const (h.m_pos i).le t0
  have hπ : (0 : ℝ) ≤ Real.pi / 6 := by positivity
  have hζ : RelBound (fun t => moment2 p (T t) (V t) (fun i => M i t)) t0 (γ + ν + 2 * τ) :=
    RelBound.sum _ (fun i => (((hρ i).mul (hm i)).mul (((hd i).pow 2).const_mul hπ)).mono
      (le_of_eq (by push_cast; ring))) (by positivity)
  have hη : RelBound (fun t => Spec.packingFraction p (T t) (V t) (fun i => M i t)) t0 (γ + ν + 3 * τ) :=
    RelBound.sum _ (fun i => ((((hMb i).mul (hm i)).mul (((hd i).pow 3).const_mul hπ)).div hVb hV0.ne').mono
      (le_of_eq (by push_cast; ring))) (by positivity)
  have hw := hη.one_sub h.packing
  set η := Spec.packingFraction p (T t0) (V t0) (fun i => M i t0) with hηdef
  have hη1 : 0 < 1 - η := by linarith [h.packing]
  have hη0 : 0 ≤ η := hη.1
  set cw := (γ + ν + 3 * τ) * (η / (1 - η)) with hcw
  have hcw0 : 0 ≤ cw := by positivity
  have hr : RelBound (fun t => Spec.diameter (p.sigma i) (p.epsilon_k i) (T t)
      * Spec.diameter (p.sigma j) (p.epsilon_k j) (T t) / (Spec.diameter (p.sigma i) (p.epsilon_k i) (T t)
        + Spec.diameter (p.sigma j) (p.epsilon_k j) (T t))) t0 (3 * τ) :=
    (((hd i).mul (hd j)).div ((hd i).add (hd j)) (add_pos (hd0 i) (hd0 j)).ne').mono (le_of_eq (by ring))
  have hg : RelBound (fun t => contactPair (moment2 p (T t) (V t) (fun i => M i t))
      (Spec.packingFraction p (T t) (V t) (fun i => M i t)) (Spec.diameter (p.sigma i) (p.epsilon_k i) (T t))
      (Spec.diameter (p.sigma j) (p.epsilon_k j) (T t))) t0 (3 * cw + 2 * (γ + ν) + 10 * τ) := by
    unfold contactPair
    refine ((((RelBound.const zero_le_one t0).div hw hη1.ne').mono (by linarith)).add
      ((((hr.const_mul (by norm_num : (0 : ℝ) ≤ 3)).mul hζ).div (hw.pow 2) (pow_pos hη1 2).ne').mono ?_)).add
      (((((hr.pow 2).const_mul (by norm_num : (0 : ℝ) ≤ 2)).mul (hζ.pow 2)).div (hw.pow 3) (pow_pos hη1 3).ne').mono ?_)
    · push_cast
      linarith
    · push_cast
      linarith
  have hE0 : 0 ≤ (p.epsilon_k_ab i + p.epsilon_k_ab j) / 2 := by linarith [hn.epsilon i, hn.epsilon j]
  have he := RelBound.exp_div_sub_one hT hT0 hE0
  have h1 := ((((hg.mul (RelBound.const (Real.sqrt_nonneg (p.kappa_ab i * p.kappa_ab j)) t0)).mul
    (RelBound.const (pow_nonneg (Real.sqrt_nonneg (p.sigma i * p.sigma j)) 3) t0)).mul he).mul (hρ j))
  refine h1.mono ?_
  unfold relativeChange
  rw [← hηdef, ← hν]
  have k1 : (p.epsilon_k_ab i + p.epsilon_k_ab j) / 2 / T t0 ≤ E / T t0 :=
    div_le_div_of_nonneg_right (by linarith [hE i, hE j]) hT0.le
  have k2 : |T'| / T t0 * (1 + (p.epsilon_k_ab i + p.epsilon_k_ab j) / 2 / T t0) ≤ |T'| / T t0 * (1 + E / T t0) :=
    mul_le_mul_of_nonneg_left (by linarith) (by positivity)
  have e1 : |T'| / T t0 = 10 * τ := by rw [hτ]; ring
  rw [e1] at k2 ⊢
  have e2 : 3 * (ν + γ) / (1 - η) = 3 * (ν + γ) * (1 + η / (1 - η)) := by field_simp; ring
  have e3 : 2 / (1 - η) = 2 * (1 + η / (1 - η)) := by field_simp; ring
  rw [e2, e3, hcw]
  have k3 : 0 ≤ τ * (η / (1 - η)) := by positivity
  nlinarith

/-- C121: first derivatives of the residual energy, with everything that the bound depends on written out. -/
theorem C121_residual {pr : Fin n → PureRecord ℝ} {kij : Fin n → Fin n → ℝ} {o : PcSaftOptions ℝ}
    {p : PcSaftParameters n ℝ} (hp : p = fromRecords pr kij) (ha : 2 ≤ p.nassoc) {T V : ℝ → ℝ}
    {M : Fin n → ℝ → ℝ} {T' V' : ℝ} {M' : Fin n → ℝ} {t0 : ℝ}
    (hT : HasDerivAt T T' t0) (hV : HasDerivAt V V' t0) (hM : ∀ i, HasDerivAt (M i) (M' i) t0)
    (h : ∀ᶠ t in 𝓝 t0, Admissible p (T t) (V t) (fun i => M i t))
    (hr : ∀ ct ∈ (Eos.withoutAssociation p o).contributions, Regular p (T t0) (V t0) (fun i => M i t0) ct)
    (hcut : (f64EPSILON : ℝ) ≤ ∑ i, M i t0 / V t0) (hn : AssocNonneg p) {R γ E : ℝ} (hγ0 : 0 ≤ γ)
    (hγ : ∀ i, |M' i| ≤ γ * M i t0) (hE : ∀ i, p.epsilon_k_ab i ≤ E)
    (hR : WeakAssociation p (T t0) (V t0) (fun i => M i t0) R)
    (hmax : 0 < o.max_iter_cross_assoc) (htol0 : 0 ≤ o.tol_cross_assoc) (htol : 25 * o.tol_cross_assoc * (1 + R) ≤ 1)
    (la : LinAlg ℝ ℝ) {laD : LinAlg ℝ (Dual ℝ)} (hder : laD.nderiv = 1)
    (hsF : CorrectSolver (laD.solveF p.assoc_comp.length)) (hs : CorrectDualSolver (laD.solveD p.assoc_comp.length))
    {x : Fin p.assoc_comp.length ⊕ Fin p.assoc_comp.length → ℝ}
    (hloop : stateLoop p o.max_iter_cross_assoc o.tol_cross_assoc (laD.solveF p.assoc_comp.length)
      (StateHD.new (T t0) (V t0) (fun i => M i t0)) = .ok x)
    (hrun : PositiveRun p o.max_iter_cross_assoc o.tol_cross_assoc (laD.solveF p.assoc_comp.length)
      (StateHD.new (T t0) (V t0) (fun i => M i t0)))
    {A : ℝ → ℝ} (hA : ∀ᶠ t in 𝓝 t0, ExactAssociation p (T t) (V t) (fun i => M i t) (A t)) :
    ∃ (A0 : ℝ → ℝ) (d : Dual ℝ) (B : ℝ),
      (∀ t, (Eos.withoutAssociation p o).residualHelmholtz la (StateHD.new (T t) (V t) (fun i => M i t)) = .ok (A0 t))
      ∧ (Eos.withOptions p o).residualHelmholtz laD
        (StateHD.new (⟨T t0, T'⟩ : Dual ℝ) ⟨V t0, V'⟩ (fun i => ⟨M i t0, M' i⟩)) = .ok d
      ∧ HasDerivAt (fun t => A0 t + A t) B t0
      ∧ |d.re - (A0 t0 + A t0)| ≤ 4 * o.tol_cross_assoc * ∑ i, M i t0 * (p.na i + p.nb i)
      ∧ |d.eps - B| ≤ 100 * o.tol_cross_assoc * ∑ i, (|M' i|
        + relativeChange p (T t0) (V t0) (fun i => M i t0) T' V' γ E * (1 + R) ^ 2 * M i t0) * (p.na i + p.nb i) := by
  have h0 := h.self_of_nhds
  have hE0 : 0 ≤ E := by
    obtain ⟨i, -⟩ := h0.moles_ne_zero
    exact (hn.epsilon i).trans (hE i)
  obtain ⟨a, A', ha1, hA', hre, heps⟩ := C121_cross_association hp hT hV hM h hcut hn
    (relativeChange_nonneg h0 T' V' hγ0 hE0) hR (fun i j _ _ => (strength_relBound hT hV hM h0 hn hγ0 hγ hE i j).deriv_le)
    hmax htol0 htol hsF hs hloop hrun hA
  have hrel : ∀ ct ∈ (Eos.withoutAssociation p o).contributions, ContributionRel (repDual lawfulEmb_id rho0 t0)
      (fun x => x) la laD p p (fun y => StateHD.new (T y.2) (V y.2) (fun i => M i y.2))
      (StateHD.new (⟨T t0, T'⟩ : Dual ℝ) ⟨V t0, V'⟩ (fun i => ⟨M i t0, M' i⟩)) ct := by
    subst hp
    intro ct hct
    exact rep_contribution (g := fun x => x) lawfulEmb_id (ParamRel.refl _) (rho1_curve hT) (rho1_curve hV)
      (fun i => rho1_curve (hM i)) h0 la laD ct (hr ct hct)
  obtain ⟨A0, d0, h1, h2, h3⟩ := rep_sum la laD _ hrel (fun _ => c (0.0 : ℝ)) (c (0.0 : ℝ))
    ((repDual lawfulEmb_id rho0 t0).const _)
  have hmap : ∀ ct : Contribution ℝ, ct.map (fun x => x) = ct := fun ct => by cases ct <;> rfl
  rw [show Contribution.map (fun x : ℝ => x) = id from funext hmap, List.map_id] at h2
  obtain ⟨hre0, heps0⟩ := curve_of h3
  refine ⟨fun t => A0 ((), t), d0 + a, d0.eps + A', fun t => ?_, ?_, heps0.add hA', ?_, ?_⟩
  · exact (congrArg (fun f => List.foldlM f _ _) (by
      funext acc ct
      simp only [Eos.withoutAssociation, Eos.withOptions]
      cases ct.helmholtzEnergy la p (StateHD.new (T t) (V t) (fun i => M i t)) <;> rfl)).trans (h1 ((), t))
  · have e : (Eos.withOptions p o).contributions = (Eos.withoutAssociation p o).contributions
        ++ [.crossAssociation o.max_iter_cross_assoc o.tol_cross_assoc] := buildContributions_cross o ha
    have hd : (Eos.withoutAssociation p o).residualHelmholtz laD
        (StateHD.new (⟨T t0, T'⟩ : Dual ℝ) ⟨V t0, V'⟩ (fun i => ⟨M i t0, M' i⟩)) = .ok d0 :=
      (congrArg (fun f => List.foldlM f _ _) (by
        funext acc ct
        simp only [Eos.withoutAssociation, Eos.withOptions]
        cases ct.helmholtzEnergy laD p (StateHD.new (⟨T t0, T'⟩ : Dual ℝ) ⟨V t0, V'⟩ (fun i => ⟨M i t0, M' i⟩))
          <;> rfl)).trans h2
    unfold Eos.residualHelmholtz at hd ⊢
    rw [e, List.foldlM_append]
    erw [hd]
    have hc : (Contribution.crossAssociation o.max_iter_cross_assoc o.tol_cross_assoc).helmholtzEnergy laD
        (Eos.withOptions p o).parameters (StateHD.new (⟨T t0, T'⟩ : Dual ℝ) ⟨V t0, V'⟩ (fun i => ⟨M i t0, M' i⟩))
        = .ok a := by
      rw [← hder] at ha1
      exact ha1
    simp only [Bind.bind, Except.bind, List.foldlM_cons, List.foldlM_nil, hc]
    rfl
  · have : (d0 + a).re - (A0 ((), t0) + A t0) = a.re - A t0 := by
      rw [← hre0]
      change d0.re + a.re - _ = _
      ring
    rw [this]
    exact hre
  · have : (d0 + a).eps - (d0.eps + A') = a.eps - A' := by
      change d0.eps + a.eps - _ = _
      ring
    rw [this]
    exact heps

/-! ## Mixtures for which the iteration is known to converge -/

/-- what the bounds say about the residual energy `A0 + A` along a curve and the dual number `d` of the code: the value is
within `4 tol` and the derivative within `tol` times a multiple of the number of association sites -/
def AccurateDerivative (p : PcSaftParameters n ℝ) (o : PcSaftOptions ℝ) (la : LinAlg ℝ ℝ) (laD : LinAlg ℝ (Dual ℝ))
    (T V : ℝ → ℝ) (M : Fin n → ℝ → ℝ) (A : ℝ → ℝ) (T' V' : ℝ) (M' : Fin n → ℝ) (t0 e₀ e₁ : ℝ) : Prop :=
  ∃ (A0 : ℝ → ℝ) (d : Dual ℝ) (B : ℝ),
    (∀ t, (Eos.withoutAssociation p o).residualHelmholtz la (StateHD.new (T t) (V t) (fun i => M i t)) = .ok (A0 t))
    ∧ (Eos.withOptions p o).residualHelmholtz laD
      (StateHD.new (⟨T t0, T'⟩ : Dual ℝ) ⟨V t0, V'⟩ (fun i => ⟨M i t0, M' i⟩)) = .ok d
    ∧ HasDerivAt (fun t => A0 t + A t) B t0 ∧ |d.re - (A0 t0 + A t0)| ≤ e₀ ∧ |d.eps - B| ≤ e₁

theorem admissible_nhds {p : PcSaftParameters n ℝ} {T V : ℝ → ℝ} {M : Fin n → ℝ → ℝ} {t0 : ℝ} (hT : ContinuousAt T t0)
    (hV : ContinuousAt V t0) (hM : ∀ i, ContinuousAt (M i) t0) (hN : ∀ᶠ t in 𝓝 t0, ∀ i, 0 ≤ M i t)
    (h : Admissible p (T t0) (V t0) (fun i => M i t0)) :
    ∀ᶠ t in 𝓝 t0, Admissible p (T t) (V t) (fun i => M i t) := by
  have hT0 := h.temperature.ne'
  have hV0 := h.volume.ne'
  have hc : ContinuousAt (fun t => Spec.packingFraction p (T t) (V t) (fun i => M i t)) t0 := by
    unfold Spec.packingFraction Spec.diameter
    refine tendsto_finsetSum _ fun i _ => ?_
    exact (((hM i).mul continuousAt_const).mul (continuousAt_const.mul ((continuousAt_const.mul (continuousAt_const.sub
      (continuousAt_const.mul (continuousAt_const.div hT hT0).rexp))).pow 3))).div hV hV0
  obtain ⟨i, hi⟩ := h.moles_ne_zero
  filter_upwards [hN, hT.eventually (lt_mem_nhds h.temperature), hV.eventually (lt_mem_nhds h.volume),
    hc.eventually (gt_mem_nhds h.packing), (hM i).eventually_ne hi] with t h1 h2 h3 h4 h5
  exact ⟨h2, h3, h.m_pos, h.sigma_pos, h.epsilon_nonneg, h1, ⟨i, h5⟩, h4⟩

/-- There is an exact association energy along every curve of admissible states. -/
theorem exists_exact_curve {p : PcSaftParameters n ℝ} (hn : AssocNonneg p) {T V : ℝ → ℝ} {M : Fin n → ℝ → ℝ} {t0 : ℝ}
    (h : ∀ᶠ t in 𝓝 t0, Admissible p (T t) (V t) (fun i => M i t)) :
    ∃ A : ℝ → ℝ, ∀ᶠ t in 𝓝 t0, ExactAssociation p (T t) (V t) (fun i => M i t) (A t) :=
  (h.mono fun _ ht => (C71_exact_unique ht hn).exists).choice

/-- C121 for weakly associating mixtures: no assumption about the iteration. -/
theorem C121_weak {pr : Fin n → PureRecord ℝ} {kij : Fin n → Fin n → ℝ} {o : PcSaftOptions ℝ}
    {p : PcSaftParameters n ℝ} (hp : p = fromRecords pr kij) (ha : 2 ≤ p.nassoc) (hk : p.nassoc ≤ 10 ^ 6) {T V : ℝ → ℝ}
    {M : Fin n → ℝ → ℝ} {T' V' : ℝ} {M' : Fin n → ℝ} {t0 : ℝ}
    (hT : HasDerivAt T T' t0) (hV : HasDerivAt V V' t0) (hM : ∀ i, HasDerivAt (M i) (M' i) t0)
    (hN : ∀ᶠ t in 𝓝 t0, ∀ i, 0 ≤ M i t) (h : Admissible p (T t0) (V t0) (fun i => M i t0))
    (hr : ∀ ct ∈ (Eos.withoutAssociation p o).contributions, Regular p (T t0) (V t0) (fun i => M i t0) ct)
    (hcut : (f64EPSILON : ℝ) ≤ ∑ i, M i t0 / V t0) (hn : AssocNonneg p) {γ E : ℝ} (hγ0 : 0 ≤ γ)
    (hγ : ∀ i, |M' i| ≤ γ * M i t0) (hE : ∀ i, p.epsilon_k_ab i ≤ E)
    (hw : WeakAssociation p (T t0) (V t0) (fun i => M i t0) 1)
    (hmax : 10 ≤ o.max_iter_cross_assoc) (htol : 1e-10 ≤ o.tol_cross_assoc) (htol' : o.tol_cross_assoc ≤ 1 / 50)
    (la : LinAlg ℝ ℝ) {laD : LinAlg ℝ (Dual ℝ)} (hder : laD.nderiv = 1)
    (hsF : CorrectSolver (laD.solveF p.assoc_comp.length)) (hs : CorrectDualSolver (laD.solveD p.assoc_comp.length))
    {A : ℝ → ℝ} (hA : ∀ᶠ t in 𝓝 t0, ExactAssociation p (T t) (V t) (fun i => M i t) (A t)) :
    AccurateDerivative p o la laD T V M A T' V' M' t0 (4 * o.tol_cross_assoc * ∑ i, M i t0 * (p.na i + p.nb i))
      (100 * o.tol_cross_assoc * ∑ i, (|M' i|
        + relativeChange p (T t0) (V t0) (fun i => M i t0) T' V' γ E * 4 * M i t0) * (p.na i + p.nb i)) := by
  obtain ⟨⟨x, hloop, -⟩, hrun⟩ := stateLoop_weak hp h hn hw hk hmax htol (htol'.trans (by norm_num)) hsF
  have := C121_residual (R := 1) hp ha hT hV hM (admissible_nhds hT.continuousAt hV.continuousAt
    (fun i => (hM i).continuousAt) hN h) hr hcut hn hγ0 hγ hE hw (by omega) (le_trans (by norm_num) htol) (by linarith) la
    hder hsF hs hloop hrun hA
  rwa [show ((1 : ℝ) + 1) ^ 2 = 4 by norm_num] at this

theorem balanced_weak {p : PcSaftParameters n ℝ} {T V : ℝ} {N : Fin n → ℝ} {D : ℝ} (hD : 0 ≤ D)
    (hw : BalancedAssociation p T V N D) : WeakAssociation p T V N D := fun i => by
  by_cases hi : p.kappa_ab i = 0
  · simp only [specStrength_zero T V N (.inl hi), zero_mul, Finset.sum_const_zero]
    exact ⟨hD, hD⟩
  · exact ⟨(hw i hi).1.le, (hw i hi).2.le⟩

/-- C121 for mixtures with equally strong sites, at any strength `D` up to 1/(25 tol) - 1. -/
theorem C121_balanced {pr : Fin n → PureRecord ℝ} {kij : Fin n → Fin n → ℝ} {o : PcSaftOptions ℝ}
    {p : PcSaftParameters n ℝ} (hp : p = fromRecords pr kij) (ha : 2 ≤ p.nassoc) (hk : p.nassoc ≤ 10 ^ 6) {T V : ℝ → ℝ}
    {M : Fin n → ℝ → ℝ} {T' V' : ℝ} {M' : Fin n → ℝ} {t0 : ℝ}
    (hT : HasDerivAt T T' t0) (hV : HasDerivAt V V' t0) (hM : ∀ i, HasDerivAt (M i) (M' i) t0)
    (hN : ∀ᶠ t in 𝓝 t0, ∀ i, 0 ≤ M i t) (h : Admissible p (T t0) (V t0) (fun i => M i t0))
    (hr : ∀ ct ∈ (Eos.withoutAssociation p o).contributions, Regular p (T t0) (V t0) (fun i => M i t0) ct)
    (hcut : (f64EPSILON : ℝ) ≤ ∑ i, M i t0 / V t0) (hn : AssocNonneg p) {γ E : ℝ} (hγ0 : 0 ≤ γ)
    (hγ : ∀ i, |M' i| ≤ γ * M i t0) (hE : ∀ i, p.epsilon_k_ab i ≤ E) {D : ℝ} (hD : 0 ≤ D)
    (hw : BalancedAssociation p (T t0) (V t0) (fun i => M i t0) D) (hmax : 50 ≤ o.max_iter_cross_assoc)
    (htol : 1e-10 ≤ o.tol_cross_assoc) (htol' : 25 * o.tol_cross_assoc * (1 + D) ≤ 1)
    (la : LinAlg ℝ ℝ) {laD : LinAlg ℝ (Dual ℝ)} (hder : laD.nderiv = 1)
    (hsF : CorrectSolver (laD.solveF p.assoc_comp.length)) (hs : CorrectDualSolver (laD.solveD p.assoc_comp.length))
    {A : ℝ → ℝ} (hA : ∀ᶠ t in 𝓝 t0, ExactAssociation p (T t) (V t) (fun i => M i t) (A t)) :
    AccurateDerivative p o la laD T V M A T' V' M' t0 (4 * o.tol_cross_assoc * ∑ i, M i t0 * (p.na i + p.nb i))
      (100 * o.tol_cross_assoc * ∑ i, (|M' i|
        + relativeChange p (T t0) (V t0) (fun i => M i t0) T' V' γ E * (1 + D) ^ 2 * M i t0) * (p.na i + p.nb i)) := by
  have ht0 : 0 ≤ o.tol_cross_assoc := le_trans (by norm_num) htol
  have hD' : D ≤ 2 ^ 80 := by nlinarith
  have ht1 : o.tol_cross_assoc ≤ 1 / 2 := by nlinarith
  obtain ⟨⟨x, hloop, -⟩, hrun⟩ := stateLoop_balanced hp h hn hD hD' hw hk hmax htol ht1 hsF
  exact C121_residual hp ha hT hV hM (admissible_nhds hT.continuousAt hV.continuousAt (fun i => (hM i).continuousAt) hN h)
    hr hcut hn hγ0 hγ hE (balanced_weak hD hw) (by omega) ht0 htol' la hder hsF hs hloop hrun hA

section default
variable {pr : Fin n → PureRecord ℝ} {kij : Fin n → Fin n → ℝ} {p : PcSaftParameters n ℝ} (hp : p = fromRecords pr kij)
  (ha : 2 ≤ p.nassoc) (hk : p.nassoc ≤ 10 ^ 6) {T V : ℝ} {N : Fin n → ℝ} (h : Admissible p T V N)
  (hr : ∀ ct ∈ (Eos.withoutAssociation p PcSaftOptions.default).contributions, Regular p T V N ct)
  (hcut : (f64EPSILON : ℝ) ≤ ∑ i, N i / V) (hn : AssocNonneg p) (hw : WeakAssociation p T V N 1)
  (la : LinAlg ℝ ℝ) {laD : LinAlg ℝ (Dual ℝ)} (hder : laD.nderiv = 1)
  (hsF : CorrectSolver (laD.solveF p.assoc_comp.length)) (hs : CorrectDualSolver (laD.solveD p.assoc_comp.length))
include hp ha hk h hr hcut hn hw hder hsF hs

/-- C121: the pressure of a weakly associating mixture, computed with the default options. -/
theorem C121_pressure {A : ℝ → ℝ} (hA : ∀ᶠ v in 𝓝 V, ExactAssociation p T v N (A v)) :
    ∃ (A0 : ℝ → ℝ) (d : Dual ℝ) (B : ℝ),
      (∀ v, (Eos.withoutAssociation p PcSaftOptions.default).residualHelmholtz la (StateHD.new T v N) = .ok (A0 v))
      ∧ (Eos.new p).residualHelmholtz laD (StateHD.new (⟨T, 0⟩ : Dual ℝ) ⟨V, 1⟩ (fun i => ⟨N i, 0⟩)) = .ok d
      ∧ HasDerivAt (fun v => A0 v + A v) B V
      ∧ |d.eps - B| ≤ 1.2e-7 / ((1 - Spec.packingFraction p T V N) * V) * ∑ i, N i * (p.na i + p.nb i) := by
  have hV := h.volume
  have hη : 0 < 1 - Spec.packingFraction p T V N := by linarith [h.packing]
  obtain ⟨A0, d, B, h1, h2, h3, -, h5⟩ := C121_weak (o := PcSaftOptions.default) hp ha hk (T := fun _ => T) (V := fun v => v)
    (M := fun i _ => N i) (hasDerivAt_const V T) (hasDerivAt_id' V) (fun i => hasDerivAt_const V (N i))
    (.of_forall fun _ => h.moles_nonneg) h hr hcut hn (γ := 0) (E := ∑ i, p.epsilon_k_ab i) le_rfl
    (fun i => by simp) (fun i => Finset.single_le_sum (fun j _ => hn.epsilon j) (Finset.mem_univ i)) hw
    (by norm_num [PcSaftOptions.default]) (by norm_num [PcSaftOptions.default]) (by norm_num [PcSaftOptions.default]) la hder
    hsF hs hA
  refine ⟨A0, d, B, h1, h2, h3, h5.trans (le_of_eq ?_)⟩
  have ht : (PcSaftOptions.default : PcSaftOptions ℝ).tol_cross_assoc = 1e-10 := rfl
  simp only [relativeChange, ht, abs_zero, zero_div, zero_mul, add_zero, abs_one, zero_add]
  rw [Finset.mul_sum, Finset.mul_sum]
  refine Finset.sum_congr rfl fun i _ => ?_
  field_simp
  ring

/-- C121: a chemical potential of a weakly associating mixture, computed with the default options. -/
theorem C121_chemical_potential (j : Fin n) (hj : 0 < N j) {A : ℝ → ℝ}
    (hA : ∀ᶠ x in 𝓝 (N j), ExactAssociation p T V (Function.update N j x) (A x)) :
    ∃ (A0 : ℝ → ℝ) (d : Dual ℝ) (B : ℝ),
      (∀ x, (Eos.withoutAssociation p PcSaftOptions.default).residualHelmholtz la
        (StateHD.new T V (Function.update N j x)) = .ok (A0 x))
      ∧ (Eos.new p).residualHelmholtz laD
        (StateHD.new (⟨T, 0⟩ : Dual ℝ) ⟨V, 0⟩ (fun i => ⟨N i, if i = j then 1 else 0⟩)) = .ok d
      ∧ HasDerivAt (fun x => A0 x + A x) B (N j)
      ∧ |d.eps - B| ≤ 1e-8 * (p.na j + p.nb j)
        + 1.2e-7 / ((1 - Spec.packingFraction p T V N) * N j) * ∑ i, N i * (p.na i + p.nb i) := by
  have hV := h.volume
  have hη : 0 < 1 - Spec.packingFraction p T V N := by linarith [h.packing]
  have hup : (fun i => Function.update N j (N j) i) = N := by rw [Function.update_eq_self]
  have hup' : ∀ i, Function.update N j (N j) i = N i := fun i => congrFun hup i
  obtain ⟨A0, d, B, h1, h2, h3, -, h5⟩ := C121_weak (o := PcSaftOptions.default) hp ha hk (T := fun _ => T) (V := fun _ => V)
    (M := fun i x => Function.update N j x i) (M' := fun i => if i = j then 1 else 0) (t0 := N j)
    (hasDerivAt_const _ T) (hasDerivAt_const _ V)
    (fun i => by
      by_cases hij : i = j
      · subst hij
        simpa using hasDerivAt_id' (N i)
      · simpa [hij, Function.update_of_ne hij] using hasDerivAt_const (N j) (N i))
    ((lt_mem_nhds hj).mono fun x hx i => by
      by_cases hij : i = j
      · subst hij
        simpa using le_of_lt hx
      · simpa [Function.update_of_ne hij] using h.moles_nonneg i)
    (by rw [hup]; exact h) (by rw [hup]; exact hr) (by simpa only [hup'] using hcut) hn (γ := 1 / N j)
    (E := ∑ i, p.epsilon_k_ab i) (by positivity)
    (fun i => by
      rw [hup']
      by_cases hij : i = j
      · subst hij
        simp only [if_true, abs_one]
        rw [one_div, inv_mul_cancel₀ hj.ne']
      · simp only [hij, if_false, abs_zero]
        exact mul_nonneg (by positivity) (h.moles_nonneg i))
    (fun i => Finset.single_le_sum (fun j _ => hn.epsilon j) (Finset.mem_univ i)) (by rw [hup]; exact hw)
    (by norm_num [PcSaftOptions.default]) (by norm_num [PcSaftOptions.default]) (by norm_num [PcSaftOptions.default]) la hder
    hsF hs hA
  simp only [hup'] at h2 h5
  refine ⟨A0, d, B, h1, h2, h3, h5.trans (le_of_eq ?_)⟩
  have ht : (PcSaftOptions.default : PcSaftOptions ℝ).tol_cross_assoc = 1e-10 := rfl
  simp only [relativeChange, ht, abs_zero, zero_div, zero_mul, add_zero, zero_add]
  have e : ∀ i, (|if i = j then (1 : ℝ) else 0| + 3 * (1 / N j) / (1 - Spec.packingFraction p T V N) * 4 * N i)
      * (p.na i + p.nb i) = (if i = j then p.na i + p.nb i else 0)
        + 12 / ((1 - Spec.packingFraction p T V N) * N j) * (N i * (p.na i + p.nb i)) := fun i => by
    by_cases hij : i = j
    · simp only [hij, if_true, abs_one]
      field_simp
      ring
    · simp only [hij, if_false, abs_zero]
      field_simp
      ring
  simp only [e]
  rw [Finset.sum_add_distrib, Finset.sum_ite_eq' Finset.univ j, if_pos (Finset.mem_univ j), ← Finset.mul_sum]
  generalize ∑ i, N i * (p.na i + p.nb i) = Q
  field_simp
  norm_num
  ring

/-- C121: the entropy of a weakly associating mixture, computed with the default options. -/
theorem C121_entropy {E : ℝ} (hE : ∀ i, p.epsilon_k_ab i ≤ E) {A : ℝ → ℝ}
    (hA : ∀ᶠ t in 𝓝 T, ExactAssociation p t V N (A t)) :
    ∃ (A0 : ℝ → ℝ) (d : Dual ℝ) (B : ℝ),
      (∀ t, (Eos.withoutAssociation p PcSaftOptions.default).residualHelmholtz la (StateHD.new t V N) = .ok (A0 t))
      ∧ (Eos.new p).residualHelmholtz laD (StateHD.new (⟨T, 1⟩ : Dual ℝ) ⟨V, 0⟩ (fun i => ⟨N i, 0⟩)) = .ok d
      ∧ HasDerivAt (fun t => A0 t + A t) B T
      ∧ |d.eps - B| ≤ 4e-8 / T * (2 / (1 - Spec.packingFraction p T V N) + E / T) * ∑ i, N i * (p.na i + p.nb i) := by
  have hT := h.temperature
  have hη : 0 < 1 - Spec.packingFraction p T V N := by linarith [h.packing]
  obtain ⟨A0, d, B, h1, h2, h3, -, h5⟩ := C121_weak (o := PcSaftOptions.default) hp ha hk (T := fun t => t) (V := fun _ => V)
    (M := fun i _ => N i) (hasDerivAt_id' T) (hasDerivAt_const T V) (fun i => hasDerivAt_const T (N i))
    (.of_forall fun _ => h.moles_nonneg) h hr hcut hn (γ := 0) (E := E) le_rfl
    (fun i => by simp) hE hw
    (by norm_num [PcSaftOptions.default]) (by norm_num [PcSaftOptions.default]) (by norm_num [PcSaftOptions.default]) la hder
    hsF hs hA
  refine ⟨A0, d, B, h1, h2, h3, h5.trans (le_of_eq ?_)⟩
  have ht : (PcSaftOptions.default : PcSaftOptions ℝ).tol_cross_assoc = 1e-10 := rfl
  simp only [relativeChange, ht, abs_zero, zero_div, add_zero, abs_one, zero_add, mul_zero]
  rw [Finset.mul_sum, Finset.mul_sum]
  refine Finset.sum_congr rfl fun i _ => ?_
  field_simp
  ring

end default

end PcSaft.Props
