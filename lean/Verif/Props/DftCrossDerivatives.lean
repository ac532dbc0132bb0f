import Verif.Props.CrossPressure
import Verif.Props.DftBalancedGrid

/-!
# Property C123: functional derivatives with several associating components are accurate to the tolerance
-/

open Filter Topology PcSaft.Spec

namespace PcSaft.Props
open PcSaft Spec
variable {n k : ℕ}

theorem energyDerivative_density (na nb : Fin k → ℝ) {rho : Fin k → ℝ → ℝ} {rho' : Fin k → ℝ}
    {S : Fin k ⊕ Fin k → ℝ → ℝ} {S' : Fin k ⊕ Fin k → ℝ} {t0 : ℝ}
    (hrho : ∀ i, HasDerivAt (rho i) (rho' i) t0) (hS : ∀ s, HasDerivAt (S s) (S' s) t0) (hS0 : ∀ s, 0 < S s t0) :
    HasDerivAt (fun t => specEnergy na nb (fun i => rho i t) (fun s => S s t))
      (energyDerivative na nb (fun i => rho i t0) rho' (fun s => S s t0) S') t0 := by
  have := specEnergy_hasDerivAt na nb (V := fun _ => 1) (.of_forall fun _ => one_ne_zero) hrho hS hS0
  simpa only [div_one, mul_one] using this

/-- One step with dual numbers from fractions that are accurate to the tolerance: value and derivative of the energy. `R`
bounds the association strengths at every site, `μ` the relative derivatives of the strengths times densities. -/
theorem inexact_energy {delta : Fin k → Fin k → ℝ → ℝ} {delta' : Fin k → Fin k → ℝ} {rho : Fin k → ℝ → ℝ}
    {rho' : Fin k → ℝ} {na nb : Fin k → ℝ} {t0 : ℝ}
    (hdelta : ∀ i j, HasDerivAt (delta i j) (delta' i j) t0) (hrho : ∀ i, HasDerivAt (rho i) (rho' i) t0)
    (hna : ∀ i, 0 ≤ na i) (hnb : ∀ i, 0 ≤ nb i)
    (hnn : ∀ᶠ t in 𝓝 t0, (∀ i j, 0 ≤ delta i j t) ∧ ∀ i, 0 ≤ rho i t) {R μ tol : ℝ} (hR0 : 0 ≤ R) (hμ0 : 0 ≤ μ)
    (hR : ∀ s, ∑ r, siteMatrix (fun i j => delta i j t0) na nb (fun i => rho i t0) s r ≤ R)
    (hμ : ∀ i j, |deriv (fun t => delta i j t * rho j t) t0| ≤ μ * (delta i j t0 * rho j t0))
    (htol0 : 0 ≤ tol) (htol : 25 * tol * (1 + R) ≤ 1) {solve : Solver k (Dual ℝ)} (hs : CorrectDualSolver solve)
    {x : Fin k ⊕ Fin k → ℝ} (hxpos : ∀ s, 0 < x s)
    (hacc : ∀ y, (∀ s, 0 < y s) → MassAction (siteMatrix (fun i j => delta i j t0) na nb (fun i => rho i t0)) y →
      ∀ s, |x s - y s| ≤ 4 * tol * y s) :
    ∃ (S : Fin k ⊕ Fin k → ℝ → ℝ) (S' : Fin k ⊕ Fin k → ℝ) (xd : Fin k ⊕ Fin k → Dual ℝ) (b : Bool),
      (∀ᶠ t in 𝓝 t0, (∀ s, 0 < S s t)
        ∧ MassAction (siteMatrix (fun i j => delta i j t) na nb (fun i => rho i t)) (fun s => S s t))
      ∧ (∀ s, HasDerivAt (S s) (S' s) t0)
      ∧ newtonStep solve (fun i j => ⟨delta i j t0, delta' i j⟩) na nb (fun i => ⟨rho i t0, rho' i⟩) tol
          (fun s => c (x s)) = .ok (xd, b)
      ∧ (∀ s, 0 < (xd s).re)
      ∧ |specEnergy na nb (fun i => rho i t0) (fun s => (xd s).re) - specEnergy na nb (fun i => rho i t0) (fun s => S s t0)|
        ≤ 4 * tol * ∑ i, rho i t0 * (na i + nb i)
      ∧ |energyDerivative na nb (fun i => rho i t0) rho' (fun s => (xd s).re) (fun s => (xd s).eps)
          - energyDerivative na nb (fun i => rho i t0) rho' (fun s => S s t0) S'|
        ≤ 100 * tol * ∑ i, (|rho' i| + μ * (1 + R) ^ 2 * rho i t0) * (na i + nb i) := by
  set M : ℝ → Fin k ⊕ Fin k → Fin k ⊕ Fin k → ℝ := fun t => siteMatrix (fun i j => delta i j t) na nb (fun i => rho i t)
    with hMdef
  have hM : ∀ᶠ t in 𝓝 t0, ∀ s r, 0 ≤ M t s r := hnn.mono fun t ht => siteMatrix_nonneg ht.1 hna hnb ht.2
  have hsites := hM.self_of_nhds
  obtain ⟨hd0, hr0⟩ := hnn.self_of_nhds
  -- the exact fractions along the curve
  obtain ⟨F, hF⟩ := (hM.mono fun t ht => MassAction.exists ht).choice
  set S : Fin k ⊕ Fin k → ℝ → ℝ := fun s t => F t s with hSdef
  have hS' : ∀ᶠ t in 𝓝 t0, (∀ s, 0 < S s t) ∧ MassAction (M t) (fun s => S s t) := hF
  obtain ⟨hS0, hS1⟩ := hS'.self_of_nhds
  have hcurve : ∀ {P : ℝ → Prop}, (∀ᶠ t in 𝓝 t0, P t) → ∀ᶠ y : Unit × ℝ in 𝓝 ((), t0), P y.2 := fun h =>
    (continuous_snd.tendsto ((), t0)).eventually h
  have hb : SolutionBranch (fun y : Unit × ℝ => M y.2) ((), t0) (fun s => S s t0) (fun s y => S s y.2) := by
    have hdc : ∀ i j, ContinuousAt (fun y : Unit × ℝ => delta i j y.2) ((), t0) := fun i j =>
      ContinuousAt.comp (f := Prod.snd) (hdelta i j).continuousAt continuousAt_snd
    have hrc : ∀ i, ContinuousAt (fun y : Unit × ℝ => rho i y.2) ((), t0) := fun i =>
      ContinuousAt.comp (f := Prod.snd) (hrho i).continuousAt continuousAt_snd
    refine branch_of_positive ?_ (hcurve hM) hS0 hS1 (hcurve hS')
    rintro (i | i) (j | j)
    · exact continuousAt_const
    · exact (hdc i j).mul ((hrc j).mul continuousAt_const)
    · exact (hdc i j).mul ((hrc j).mul continuousAt_const)
    · exact continuousAt_const
  have Tw := towerDual (towerReal ()) t0
  obtain ⟨xe, -, -, hSrep⟩ := C32_exact_solution Tw (na := na) (nb := nb) (fun i j => rho1_curve (hdelta i j))
    (fun i => rho1_curve (hrho i)) hsites hS0 hS1 hs tol (r := 1) (by norm_num)
  have hSd : ∀ s, HasDerivAt (S s) (xe s).eps t0 := fun s => (curve_of (hSrep _ hb s)).2
  -- bounds
  have hlow := massAction_lower hsites hS1 hS0 hR
  have hle1 := hS1.le_one hsites hS0
  have ht25 : 25 * tol ≤ 1 := by nlinarith
  have hacc' : ∀ s, |x s - S s t0| ≤ 4 * tol * S s t0 := hacc _ hS0 hS1
  have hrel : ∀ s, |x s - S s t0| ≤ 5 * tol * x s := fun s => by
    have h1 := hacc' s
    obtain ⟨h2, h3⟩ := abs_le.1 h1
    have h4 := hS0 s
    have h5 := hxpos s
    refine h1.trans ?_
    have h7 : S s t0 * (1 - 4 * tol) ≤ x s := by linarith
    have h8 : S s t0 * 4 ≤ 5 * x s := by nlinarith
    nlinarith
  have hsum : ∀ s, 1 + ∑ r, M t0 s r * S r t0 ≤ 1 + R := fun s => by
    have h1 := hS1 s
    have h2 := hlow s
    have h3 := hS0 s
    by_contra hc
    rw [not_le] at hc
    have : S s t0 * (1 + R) < S s t0 * (1 + ∑ r, M t0 s r * S r t0) := mul_lt_mul_of_pos_left hc h3
    rw [h1] at this
    linarith
  have hsumx : ∀ s, 1 + ∑ r, M t0 s r * x r ≤ 5 / 4 * (1 + R) := fun s => by
    have h1 : ∑ r, M t0 s r * x r ≤ 5 / 4 * ∑ r, M t0 s r * S r t0 := by
      rw [Finset.mul_sum]
      refine Finset.sum_le_sum fun r _ => ?_
      have h2 := (abs_le.1 (hacc' r)).2
      have h3 := hS0 r
      have h4 : x r ≤ 5 / 4 * S r t0 := by nlinarith
      have := mul_le_mul_of_nonneg_left h4 (hsites s r)
      linarith
    have := hsum s
    linarith
  -- derivatives of the site matrix
  have hMd : ∀ s r, HasDerivAt (fun t => M t s r) (deriv (fun t => M t s r) t0) t0 := by
    intro s r
    apply DifferentiableAt.hasDerivAt
    have h1 : ∀ (nn : Fin k → ℝ) i j, DifferentiableAt ℝ (fun t => delta i j t * (rho j t * nn j)) t0 := fun nn i j =>
      (hdelta i j).differentiableAt.mul ((hrho j).differentiableAt.mul_const _)
    rcases s with i | i <;> rcases r with j | j
    · exact differentiableAt_const _
    · exact h1 nb i j
    · exact h1 na i j
    · exact differentiableAt_const _
  have hμ' : ∀ s r, |deriv (fun t => M t s r) t0| ≤ μ * M t0 s r := by
    have hent : ∀ (nn : Fin k → ℝ), (∀ i, 0 ≤ nn i) → ∀ i j,
        |deriv (fun t => delta i j t * (rho j t * nn j)) t0| ≤ μ * (delta i j t0 * (rho j t0 * nn j)) := by
      intro nn hnn' i j
      simp only [← mul_assoc]
      rw [deriv_mul_const_field, abs_mul, abs_of_nonneg (hnn' _)]
      have := mul_le_mul_of_nonneg_right (hμ i j) (hnn' j)
      linarith
    intro s r
    rcases s with i | i <;> rcases r with j | j
    · simp [hMdef, siteMatrix]
    · exact hent nb hnb i j
    · exact hent na hna i j
    · simp [hMdef, siteMatrix]
  have hσ : ∀ s, |(xe s).eps| ≤ 2 * μ * (1 + R) * x s := fun s => by
    have h1 := fractions_derivative_bound hMd hSd (hS'.mono fun t ht => ht.2) hsites hS0 hμ0 hμ' hsum s
    have h2 := (abs_le.1 (hrel s)).1
    have h3 := hxpos s
    have h4 : S s t0 ≤ 2 * x s := by nlinarith
    have h5 : 0 ≤ μ * (1 + R) := by positivity
    nlinarith
  -- the step with dual numbers
  obtain ⟨xd, b, hok, hxd⟩ := C32_inexact_start hdelta hrho hM hS' hSd hs tol hxpos (ε := 5 * tol) (μ := μ)
    (σ := 2 * μ * (1 + R)) (P := 5 / 4 * (1 + R)) (by positivity) hμ0 (by positivity) hrel hμ' hσ hsumx
  have q1 : 0 ≤ 1 - 25 * tol * (1 + R) := by linarith
  have he1 : 5 / 4 * (1 + R) * (5 * tol) ^ 2 ≤ 5 / 4 * tol := by nlinarith
  have hQ : 1 ≤ 1 + R := by linarith
  have he2 : 5 / 4 * (1 + R) * (2 * (2 * μ * (1 + R)) * (5 * tol) + μ * (5 * tol) ^ 2
      + 2 * μ * (5 / 4 * (1 + R) * (5 * tol) ^ 2)) ≤ 30 * μ * (1 + R) ^ 2 * tol := by
    have hmt : 0 ≤ μ * tol := mul_nonneg hμ0 htol0
    have a1 : μ * (5 * tol) ^ 2 ≤ μ * tol * (1 + R) := by
      have : μ * (5 * tol) ^ 2 = μ * tol * (25 * tol) := by ring
      rw [this]
      exact mul_le_mul_of_nonneg_left (by linarith) hmt
    have a2 : 2 * μ * (5 / 4 * (1 + R) * (5 * tol) ^ 2) ≤ 5 / 2 * (μ * tol) * (1 + R) := by
      have h1 := mul_le_mul_of_nonneg_left he1 (by positivity : 0 ≤ 2 * μ)
      have h2 := mul_le_mul_of_nonneg_left hQ (by positivity : 0 ≤ 5 / 2 * (μ * tol))
      linarith
    have a3 : 2 * (2 * μ * (1 + R)) * (5 * tol) + μ * (5 * tol) ^ 2 + 2 * μ * (5 / 4 * (1 + R) * (5 * tol) ^ 2)
        ≤ 47 / 2 * (μ * tol) * (1 + R) := by linarith
    have h1 := mul_le_mul_of_nonneg_left a3 (by positivity : 0 ≤ 5 / 4 * (1 + R))
    have h2 : 0 ≤ μ * tol * (1 + R) ^ 2 := by positivity
    linarith
  have hterm := fun s => site_term_bound (hxpos s) (by
      have h1 := (abs_le.1 (hacc' s)).2
      have h2 : S s t0 ≤ 1 := hle1 s
      have h3 := hS0 s
      nlinarith) (by linarith : 5 * tol ≤ 1 / 4)
    (by linarith : 5 / 4 * (1 + R) * (5 * tol) ^ 2 ≤ 1 / 4) (by positivity : 0 ≤ 2 * μ * (1 + R)) (hrel s) (hxd s).1 (hxd s).2
    (hσ s)
  have hpert := energy_perturbation (na := na) (nb := nb) (M := fun i => rho i t0) (M' := rho') hna hnb hr0
    (z := fun s => (xd s).re) (z' := fun s => (xd s).eps) (fun s => (hterm s).2.1) (fun s => (hterm s).2.2)
    (V := 1) one_ne_zero
  simp only [div_one, mul_one] at hpert
  refine ⟨S, fun s => (xe s).eps, xd, b, hS', hSd, hok, fun s => (hterm s).1, hpert.1.trans ?_, hpert.2.trans ?_⟩
  · have hnn' : 0 ≤ ∑ i, rho i t0 * (na i + nb i) := Finset.sum_nonneg fun i _ =>
      mul_nonneg (hr0 _) (add_nonneg (hna _) (hnb _))
    exact mul_le_mul_of_nonneg_right (by linarith : 3 * (5 / 4 * (1 + R) * (5 * tol) ^ 2) ≤ 4 * tol) hnn'
  · rw [Finset.mul_sum]
    refine Finset.sum_le_sum fun i _ => ?_
    have hb : 2 * (5 / 4 * (1 + R) * (2 * (2 * μ * (1 + R)) * (5 * tol) + μ * (5 * tol) ^ 2
        + 2 * μ * (5 / 4 * (1 + R) * (5 * tol) ^ 2))) + 3 * (5 / 4 * (1 + R) * (5 * tol) ^ 2) * (2 * μ * (1 + R))
        ≤ 100 * tol * (μ * (1 + R) ^ 2) := by
      have h1 : 3 * (5 / 4 * (1 + R) * (5 * tol) ^ 2) * (2 * μ * (1 + R)) ≤ 3 * (5 / 4 * tol) * (2 * μ * (1 + R)) :=
        mul_le_mul_of_nonneg_right (by linarith) (by positivity)
      have h2 : 3 * (5 / 4 * tol) * (2 * μ * (1 + R)) * 1 ≤ 3 * (5 / 4 * tol) * (2 * μ * (1 + R)) * (1 + R) :=
        mul_le_mul_of_nonneg_left hQ (by positivity)
      have h3 : 0 ≤ tol * (μ * (1 + R) ^ 2) := by positivity
      linarith
    have hnn' : 0 ≤ na i + nb i := add_nonneg (hna _) (hnb _)
    have h1 := mul_le_mul_of_nonneg_right (by linarith : 3 * (5 / 4 * (1 + R) * (5 * tol) ^ 2) ≤ 100 * tol)
      (abs_nonneg (rho' i))
    have h2 := mul_le_mul_of_nonneg_right hb (hr0 i)
    have h3 := mul_le_mul_of_nonneg_right (add_le_add h1 h2) hnn'
    exact h3.trans (le_of_eq (by ring))

/-! ## Weighted densities with dual numbers -/

/-- the line through the real part of a dual number in its direction -/
noncomputable def lineAt (a : Dual ℝ) (t : ℝ) : ℝ := a.re + t * a.eps

theorem lineAt_hasDerivAt (a : Dual ℝ) : HasDerivAt (lineAt a) a.eps 0 := by
  have := ((hasDerivAt_id (0 : ℝ)).mul_const a.eps).const_add a.re
  rw [one_mul] at this
  exact this

theorem lineAt_zero (a : Dual ℝ) : lineAt a 0 = a.re := by
  unfold lineAt
  ring

theorem rep_line (a : Dual ℝ) : (repDual lawfulEmb_id rho0 (0 : ℝ)).R (fun y : Unit × ℝ => lineAt a y.2) a := by
  have := rho1_curve (lineAt_hasDerivAt a)
  rwa [lineAt_zero] at this

/-- weighted densities along the direction of the dual numbers -/
noncomputable def along (wd : AssocDensities n (Dual ℝ)) (t : ℝ) : AssocDensities n ℝ :=
  ⟨fun i => lineAt (wd.n0i i) t, wd.n2v.map (fun v i => lineAt (v i) t), lineAt wd.n3 t⟩

theorem densitiesRel_along (wd : AssocDensities n (Dual ℝ)) :
    DensitiesRel (repDual lawfulEmb_id rho0 (0 : ℝ)) (fun y : Unit × ℝ => along wd y.2) wd where
  n0i i := rep_line _
  n3 := rep_line _
  n2v := by
    refine ⟨List.range wd.n2v.length, fun d i y => lineAt (wd.n2v.getD d (fun _ => ⟨0, 0⟩) i) y.2, 
      fun d => wd.n2v.getD d (fun _ => ⟨0, 0⟩), fun y => ?_, ?_, fun d i => rep_line _⟩
    · refine List.ext_getElem (by simp [along]) fun d h1 h2 => ?_
      have : d < wd.n2v.length := by simpa [along] using h1
      simp [along, this]
    · refine List.ext_getElem (by simp) fun d h1 h2 => ?_
      simp [h1]

/-- the energy density that the functional approximates: the one at the fractions that satisfy the law of mass action -/
def ExactPoint (p : PcSaftParameters n ℝ) (T : ℝ) (wd : AssocDensities n ℝ) (a : ℝ) : Prop :=
  ∃ y, (∀ s, 0 < y s)
    ∧ MassAction (siteMatrix (pointStrength p T wd) (assocNa p) (assocNb p) (assocRho p (pointDensity p T wd))) y
    ∧ a = specEnergy (assocNa p) (assocNb p) (assocRho p (pointDensity p T wd)) y

/-- weighted densities of physical density profiles, also next to the point in the direction of the derivative, and away
from the densities below which the code takes another branch; `μ` bounds the relative derivatives of the strengths times
densities -/
structure RegularPoint (p : PcSaftParameters n ℝ) (T : Dual ℝ) (μ : ℝ) (wd : AssocDensities n (Dual ℝ)) : Prop where
  physical : ∀ᶠ t in 𝓝 (0 : ℝ), PhysicalPoint p (lineAt T t) (along wd t)
  component : ∀ i, (wd.n0i i).re ≠ N0_CUTOFF
  total : ∑ i, (wd.n0i i).re ≠ N0_CUTOFF
  relative : ∀ i j, |deriv (fun t => pointStrength p (lineAt T t) (along wd t) i j
      * assocRho p (pointDensity p (lineAt T t) (along wd t)) j) 0|
    ≤ μ * (pointStrength p T.re (along wd 0) i j * assocRho p (pointDensity p T.re (along wd 0)) j)

/-- What the energy density with dual numbers has to be: zero below the cutoff, otherwise value and derivative of the
exact energy density within the tolerance. -/
def DerivativeAccurate (p : PcSaftParameters n ℝ) (T : Dual ℝ) (tol R μ : ℝ) (wd : AssocDensities n (Dual ℝ))
    (phi : Dual ℝ) : Prop :=
  (∑ i, pointDensity p T.re (along wd 0) i < f64EPSILON → phi.re = 0 ∧ phi.eps = 0)
  ∧ ((f64EPSILON : ℝ) ≤ ∑ i, pointDensity p T.re (along wd 0) i → ∃ (A : ℝ → ℝ) (A' : ℝ),
    (∀ᶠ t in 𝓝 (0 : ℝ), ExactPoint p (lineAt T t) (along wd t) (A t)) ∧ HasDerivAt A A' 0
    ∧ |phi.re - A 0| ≤ 4 * tol * ∑ i, assocRho p (pointDensity p T.re (along wd 0)) i * (assocNa p i + assocNb p i)
    ∧ |phi.eps - A'| ≤ 100 * tol * ∑ i, (|deriv (fun t => assocRho p (pointDensity p (lineAt T t) (along wd t)) i) 0|
        + μ * (1 + R) ^ 2 * assocRho p (pointDensity p T.re (along wd 0)) i) * (assocNa p i + assocNb p i))

/-- no negative strengths and densities at physical points -/
theorem physical_nonneg {pr : Fin n → PureRecord ℝ} {kij : Fin n → Fin n → ℝ} {p : PcSaftParameters n ℝ}
    (hp : p = fromRecords pr kij) (hn : AssocNonneg p) (hmol : Molecules p)
    {T : ℝ} (hT : 0 < T) {wd : AssocDensities n ℝ} (hw : PhysicalPoint p T wd) :
    (∀ i j, 0 ≤ pointStrength p T wd i j) ∧ ∀ i, 0 ≤ pointDensity p T wd i := by
  have hκ : ∀ i j, 0 ≤ p.kappa_aibj i j := fun i j => by
    subst hp
    change 0 ≤ ite _ (Real.sqrt ((fromRecords pr kij).kappa_ab i * (fromRecords pr kij).kappa_ab j)
      * (2.0 * Real.sqrt ((fromRecords pr kij).sigma i * (fromRecords pr kij).sigma j)
        / ((fromRecords pr kij).sigma i + (fromRecords pr kij).sigma j)) ^ (3.0 : ℝ)) (0.0 : ℝ)
    have := hmol.sigma_pos i
    have := hmol.sigma_pos j
    split_ifs
    · positivity
    · norm_num
  have he : ∀ i j, 0 ≤ p.epsilon_k_aibj i j := fun i j => by
    subst hp
    change 0 ≤ ite _ (0.5 * ((fromRecords pr kij).epsilon_k_ab i + (fromRecords pr kij).epsilon_k_ab j)) (0.0 : ℝ)
    have := hn.epsilon i
    have := hn.epsilon j
    split_ifs
    · positivity
    · norm_num
  exact point_nonneg hT hmol.m_pos (hmol.diameter_pos hT) (fun i => (hmol.sigma_pos i).le) hκ he hw.density hw.packing
    hw.vector hw.vector_total

/-- the exact energy density is unique -/
theorem C123_exact_unique {pr : Fin n → PureRecord ℝ} {kij : Fin n → Fin n → ℝ} {p : PcSaftParameters n ℝ}
    (hp : p = fromRecords pr kij) (hn : AssocNonneg p) (hmol : Molecules p)
    {T : ℝ} (hT : 0 < T) {wd : AssocDensities n ℝ} (hw : PhysicalPoint p T wd) : ∃! a, ExactPoint p T wd a := by
  obtain ⟨h1, h2⟩ := physical_nonneg hp hn hmol hT hw
  have hM := siteMatrix_nonneg (na := assocNa p) (nb := assocNb p) h1 (fun i => hn.na _) (fun i => hn.nb _)
    (fun i => h2 (p.assoc_comp.get i))
  obtain ⟨y, hy, hsol⟩ := MassAction.exists hM
  refine ⟨_, ⟨y, hy, hsol, rfl⟩, ?_⟩
  rintro a ⟨z, hz, hsol', rfl⟩
  rw [MassAction.unique hM hz hy hsol' hsol]

section point
variable {p : PcSaftParameters n ℝ} {T : Dual ℝ} {wd : AssocDensities n (Dual ℝ)}

/-- strengths and densities with dual numbers are those of the real functional and their derivatives along the line -/
theorem point_rep (hmol : Molecules p) (hT : 0 < T.re) {μ : ℝ} (h : RegularPoint p T μ wd) :
    (∀ i, (repDual lawfulEmb_id rho0 (0 : ℝ)).R (fun y : Unit × ℝ => pointDensity p (lineAt T y.2) (along wd y.2) i)
      (assocRho0 p (fun i => hsDiameter p T i * c (0.5 : ℝ)) wd i))
    ∧ ∀ i j, (repDual lawfulEmb_id rho0 (0 : ℝ)).R
      (fun y : Unit × ℝ => pointStrength p (lineAt T y.2) (along wd y.2) i j)
      (associationStrength p T (fun i => hsDiameter p T i * c (0.5 : ℝ))
        (assocN2Total p (fun i => hsDiameter p T i * c (0.5 : ℝ)) wd) (DualNum.recip (-wd.n3 + c (1.0 : ℝ)))
        (assocXi p (fun i => hsDiameter p T i * c (0.5 : ℝ)) wd) (p.assoc_comp.get i) (p.assoc_comp.get j)) := by
  have hp := ParamRel.refl p
  have hphys := h.physical.self_of_nhds
  have hT0 : 0 < lineAt T 0 := by rwa [lineAt_zero]
  have hrad := rep_radius lawfulEmb_id hp (rep_line T) hT0.ne'
  have hr0 : ∀ i, 0 < hsDiameter p (lineAt T 0) i * (c 0.5 : ℝ) := fun i =>
    mul_pos (hmol.diameter_pos hT0 i) (by norm_num [c])
  have hw := densitiesRel_along wd
  have hcomp : ∀ i, Apart ((), (0 : ℝ)) ((along wd 0).n0i i) N0_CUTOFF := fun i =>
    .inl (by
      have := h.component i
      rwa [← lineAt_zero] at this)
  have htot : Apart ((), (0 : ℝ)) (∑ i, (along wd 0).n0i i) N0_CUTOFF :=
    .inl (by
      have := h.total
      simp only [← lineAt_zero] at this
      exact this)
  refine ⟨fun i => rep_assocRho0 lawfulEmb_id hp hrad hw i (hmol.m_pos i).ne' (hr0 i).ne' (hcomp i), fun i j => ?_⟩
  have h2 := rep_assocN2Total lawfulEmb_id hp hrad hw
  have h3 := (repDual lawfulEmb_id rho0 (0 : ℝ)).recip' ((repDual lawfulEmb_id rho0 (0 : ℝ)).add
    ((repDual lawfulEmb_id rho0 (0 : ℝ)).neg hw.n3)
    ((repDual lawfulEmb_id rho0 (0 : ℝ)).constOf (CR.sci lawfulEmb_id 10 true 1))) (by
      have := hphys.packing
      simp only [c, ofF_real]
      norm_num
      intro h
      linarith)
  have hxi := rep_assocXi lawfulEmb_id hp hrad hw hmol.m_pos hr0 hphys.density htot
  exact rep_associationStrength lawfulEmb_id hp (rep_line T) hT0.ne' h2 h3 hxi hrad _ _ (add_pos (hr0 _) (hr0 _)).ne'

/-- one point with dual numbers -/
theorem point_dual {pr : Fin n → PureRecord ℝ} {kij : Fin n → Fin n → ℝ} (hp : p = fromRecords pr kij)
    (hn : AssocNonneg p) (hmol : Molecules p) (hT : 0 < T.re) {R μ : ℝ} (hR0 : 0 ≤ R) (hμ0 : 0 ≤ μ)
    (h : RegularPoint p T μ wd)
    (hR : ∀ s, ∑ r, siteMatrix (pointStrength p T.re (along wd 0)) (assocNa p) (assocNb p)
      (assocRho p (pointDensity p T.re (along wd 0))) s r ≤ R)
    {la : LinAlg ℝ (Dual ℝ)} (h1 : la.nderiv = 1) (hs : CorrectDualSolver (la.solveD p.assoc_comp.length)) {tol : ℝ}
    (htol0 : 0 ≤ tol) (htol : 25 * tol * (1 + R) ≤ 1) {N : ℕ}
    {x x' : Fin p.assoc_comp.length ⊕ Fin p.assoc_comp.length → ℝ}
    (hloop : newtonLoop (newtonStep (la.solveF p.assoc_comp.length) (pointStrength p T.re (along wd 0)) (assocNa p)
      (assocNb p) (assocRho p (pointDensity p T.re (along wd 0))) tol) N x = .ok x') (hpos : ∀ s, 0 < x' s)
    (hacc : ∀ y, (∀ s, 0 < y s) → MassAction (siteMatrix (pointStrength p T.re (along wd 0)) (assocNa p) (assocNb p)
      (assocRho p (pointDensity p T.re (along wd 0)))) y → ∀ s, |x' s - y s| ≤ 4 * tol * y s) :
    ∃ phi, assocFunctionalCrossPoint la p N tol T wd x
        = (.ok phi, some (if ∑ i, pointDensity p T.re (along wd 0) i < f64EPSILON then fun _ => 1 else x'))
      ∧ DerivativeAccurate p T tol R μ wd phi := by
  obtain ⟨hrd, hst⟩ := point_rep hmol hT h
  have hrd' := fun i => curve_of (hrd i)
  have hst' := fun i j => curve_of (hst i j)
  simp only [lineAt_zero] at hrd' hst'
  set r := fun i => hsDiameter p T i * c (0.5 : ℝ) with hr
  have hsumre : DualNum.re (sumFin (assocRho0 p r wd)) = ∑ i, pointDensity p T.re (along wd 0) i := by
    have := (repDual lawfulEmb_id rho0 (0 : ℝ)).re ((repDual lawfulEmb_id rho0 (0 : ℝ)).sumFin lawfulEmb_id hrd)
    rw [this, sumFin_real, lineAt_zero]
  by_cases hcut : ∑ i, pointDensity p T.re (along wd 0) i < f64EPSILON
  · have e0 : (0.0 : ℝ) = 0 := by norm_num
    have e1 : (1.0 : ℝ) = 1 := by norm_num
    have hc : F64.lt (DualNum.re (sumFin (assocRho0 p r wd))) (f64EPSILON : ℝ) = true := by
      rw [hsumre, lt_real]
      exact decide_eq_true hcut
    refine ⟨c (0.0 : ℝ), ?_, fun _ => ⟨e0, e0⟩, fun h => absurd hcut (not_lt.2 h)⟩
    unfold assocFunctionalCrossPoint crossAssociationDensity
    simp only [← hr, hc, if_true, Option.map_some, if_pos hcut, e1]
  · have hc : F64.lt (DualNum.re (sumFin (assocRho0 p r wd))) (f64EPSILON : ℝ) = false := by
      rw [hsumre, lt_real]
      exact decide_eq_false hcut
    have hTev : ∀ᶠ t in 𝓝 (0 : ℝ), 0 < lineAt T t := by
      have := (lineAt_hasDerivAt T).continuousAt
      exact this.eventually (lt_mem_nhds (by rwa [lineAt_zero]))
    obtain ⟨S, S', xd, b, hS, hSd, hok, hxd, hval, hder⟩ := inexact_energy
      (delta := fun i j t => pointStrength p (lineAt T t) (along wd t) i j)
      (rho := fun i t => assocRho p (pointDensity p (lineAt T t) (along wd t)) i)
      (na := assocNa p) (nb := assocNb p) (t0 := 0) (fun i j => (hst' i j).2) (fun i => (hrd' (p.assoc_comp.get i)).2)
      (fun i => hn.na _) (fun i => hn.nb _) (by
        filter_upwards [h.physical, hTev] with t h1 h2
        obtain ⟨h3, h4⟩ := physical_nonneg hp hn hmol h2 h1
        exact ⟨h3, fun i => h4 _⟩) hR0 hμ0 (by simpa only [lineAt_zero] using hR)
      (by simpa only [lineAt_zero] using h.relative) htol0 htol hs hpos (by simpa only [lineAt_zero] using hacc)
    simp only [lineAt_zero] at hok hval hder
    have hdel : (fun i j => (⟨pointStrength p T.re (along wd 0) i j, _⟩ : Dual ℝ)) = _ :=
      funext fun i => funext fun j => Dual.ext (hst' i j).1.symm rfl
    have hden : (fun i => (⟨assocRho p (pointDensity p T.re (along wd 0)) i, _⟩ : Dual ℝ)) = _ :=
      funext fun i => Dual.ext (hrd' (p.assoc_comp.get i)).1.symm rfl
    rw [hdel, hden] at hok
    have Tw := towerDual (towerReal ()) (0 : ℝ)
    choose z hz using fun s => Tw.full (xd s)
    have hzd := fun s => curve_of (hz s)
    have hz0 : ∀ s, 0 < z s ((), 0) := fun s => by
      rw [← (hzd s).1]
      exact hxd s
    have hpt : assocFunctionalCrossPoint la p N tol T wd x
        = (.ok (energyOf p (assocRho0 p r wd) xd), some x') := by
      unfold assocFunctionalCrossPoint crossAssociationDensity
      simp only [← hr, hc, Bool.false_eq_true, if_false, Option.getD_some, h1, Option.map_some]
      have e1 : ∀ i j, DualNum.re (associationStrength p T r (assocN2Total p r wd) (DualNum.recip (-wd.n3 + c (1.0 : ℝ)))
          (assocXi p r wd) (p.assoc_comp.get i) (p.assoc_comp.get j)) = pointStrength p T.re (along wd 0) i j :=
        fun i j => (hst' i j).1
      have e2 : ∀ i, DualNum.re (assocRho0 p r wd (p.assoc_comp.get i))
          = assocRho p (pointDensity p T.re (along wd 0)) i := fun i => (hrd' (p.assoc_comp.get i)).1
      simp only [e1, e2]
      have hl : newtonLoop (newtonStep (la.solveF p.assoc_comp.length) (fun i j => pointStrength p T.re (along wd 0) i j)
          (fun i => p.na (p.assoc_comp.get i)) (fun i => p.nb (p.assoc_comp.get i))
          (fun i => assocRho p (pointDensity p T.re (along wd 0)) i) tol) N x = .ok x' := hloop
      rw [hl]
      simp only
      have hok' : newtonDual (newtonStep (la.solveD p.assoc_comp.length) (fun i j => associationStrength p T r
          (assocN2Total p r wd) (DualNum.recip (-wd.n3 + c (1.0 : ℝ))) (assocXi p r wd) (p.assoc_comp.get i)
          (p.assoc_comp.get j)) (fun i => p.na (p.assoc_comp.get i)) (fun i => p.nb (p.assoc_comp.get i))
          (fun i => assocRho0 p r wd (p.assoc_comp.get i)) tol) 1 (fun s => c (x' s)) = .ok xd := by
        unfold newtonDual
        have hok'' : newtonStep (la.solveD p.assoc_comp.length) (fun i j => associationStrength p T r
          (assocN2Total p r wd) (DualNum.recip (-wd.n3 + c (1.0 : ℝ))) (assocXi p r wd) (p.assoc_comp.get i)
          (p.assoc_comp.get j)) (fun i => p.na (p.assoc_comp.get i)) (fun i => p.nb (p.assoc_comp.get i))
          (fun i => assocRho0 p r wd (p.assoc_comp.get i)) tol (fun s => c (x' s)) = .ok (xd, b) := hok
        rw [hok'']
        rfl
      rw [hok']
      rfl
    rw [if_neg hcut]
    refine ⟨_, hpt, fun h => absurd h hcut, fun _ => ?_⟩
    have hsum := (repDual lawfulEmb_id rho0 (0 : ℝ)).sumFin lawfulEmb_id (fun i : Fin p.assoc_comp.length =>
      (repDual lawfulEmb_id rho0 (0 : ℝ)).mul (hrd (p.assoc_comp.get i)) ((repDual lawfulEmb_id rho0 (0 : ℝ)).add
      ((repDual lawfulEmb_id rho0 (0 : ℝ)).mul (rep_assocF lawfulEmb_id (hz (.inl i)) (hz0 _))
        ((repDual lawfulEmb_id rho0 (0 : ℝ)).constOf (a := assocNa p i) rfl))
      ((repDual lawfulEmb_id rho0 (0 : ℝ)).mul (rep_assocF lawfulEmb_id (hz (.inr i)) (hz0 _))
        ((repDual lawfulEmb_id rho0 (0 : ℝ)).constOf (a := assocNb p i) rfl))))
    have harep : (repDual lawfulEmb_id rho0 (0 : ℝ)).R (fun y : Unit × ℝ => specEnergy (assocNa p) (assocNb p)
        (assocRho p (pointDensity p (lineAt T y.2) (along wd y.2))) (fun s => z s y))
        (energyOf p (assocRho0 p r wd) xd) :=
      (repDual lawfulEmb_id rho0 (0 : ℝ)).congr hsum (.of_forall fun y =>
        energyOf_real p (pointDensity p (lineAt T y.2) (along wd y.2)) (fun s => z s y))
    obtain ⟨hare, haeps⟩ := curve_of harep
    have hzre : (fun s => z s ((), 0)) = fun s => (xd s).re := funext fun s => (hzd s).1.symm
    have hdz := energyDerivative_density (assocNa p) (assocNb p) (t0 := 0)
      (rho := fun i t => assocRho p (pointDensity p (lineAt T t) (along wd t)) i)
      (fun i => (hrd' (p.assoc_comp.get i)).2) (fun s => (hzd s).2) hz0
    have hdS := energyDerivative_density (assocNa p) (assocNb p) (t0 := 0)
      (rho := fun i t => assocRho p (pointDensity p (lineAt T t) (along wd t)) i)
      (fun i => (hrd' (p.assoc_comp.get i)).2) hSd hS.self_of_nhds.1
    refine ⟨_, _, hS.mono fun t ht => ⟨_, ht.1, ht.2, rfl⟩, hdS, ?_, ?_⟩
    · rw [hare, hzre, lineAt_zero]
      exact hval
    · rw [haeps.unique hdz, hzre]
      simp only [lineAt_zero]
      have hde : ∀ i, deriv (fun t => assocRho p (pointDensity p (lineAt T t) (along wd t)) i) 0 = _ :=
        fun i => (hrd' (p.assoc_comp.get i)).2.deriv
      simp only [hde]
      exact hder

end point

/-! ## Grids -/

section grid
variable {pr : Fin n → PureRecord ℝ} {kij : Fin n → Fin n → ℝ} {p : PcSaftParameters n ℝ} {T : Dual ℝ}
  {la : LinAlg ℝ (Dual ℝ)} {tol μ : ℝ} {N : ℕ}

theorem grid_weak (hp : p = fromRecords pr kij) (hn : AssocNonneg p) (hmol : Molecules p) (hk : p.nassoc ≤ 10 ^ 6)
    (hT : 0 < T.re) (h1 : la.nderiv = 1) (hsF : CorrectSolver (la.solveF p.assoc_comp.length))
    (hsD : CorrectDualSolver (la.solveD p.assoc_comp.length)) (htol : 1e-10 ≤ tol) (htol' : 50 * tol ≤ 1) (hN : 10 ≤ N)
    (hμ0 : 0 ≤ μ) (pts : List (AssocDensities n (Dual ℝ))) (hreg : ∀ wd ∈ pts, RegularPoint p T μ wd)
    (hw : ∀ wd ∈ pts, WeakSites (pointStrength p T.re (along wd 0)) (assocNa p) (assocNb p)
      (assocRho p (pointDensity p T.re (along wd 0))) (2 / 3))
    {x : Fin p.assoc_comp.length ⊕ Fin p.assoc_comp.length → ℝ} (hx : ∀ s, 0 < x s ∧ x s ≤ 1) :
    ∃ phis, assocFunctionalCrossGrid la p N tol T x pts = .ok phis
      ∧ List.Forall₂ (DerivativeAccurate p T tol (2 / 3) μ) pts phis := by
  induction pts generalizing x with
  | nil => exact ⟨[], rfl, .nil⟩
  | cons wd rest ih =>
    have hr := hreg wd (by simp)
    have hws := hw wd (by simp)
    have hphys := hr.physical.self_of_nhds
    rw [lineAt_zero] at hphys
    obtain ⟨hst, hrho⟩ := physical_nonneg hp hn hmol hT hphys
    obtain ⟨x', hloop, hx', hacc⟩ := C79_warm_start _ hsF _ _ _ _ hst (fun i => hn.na _) (fun i => hn.nb _)
      (fun i => hrho _) hws hk htol (by linarith) hN hx
    obtain ⟨phi, h2, h3⟩ := point_dual hp hn hmol hT (R := 2 / 3) (by norm_num) hμ0 hr hws.row h1 hsD (by linarith)
      (by linarith) hloop (fun s => (hx' s).1) hacc
    have hnext : ∀ s, 0 < (if ∑ i, pointDensity p T.re (along wd 0) i < f64EPSILON then fun _ => 1 else x') s
        ∧ (if ∑ i, pointDensity p T.re (along wd 0) i < f64EPSILON then fun _ => 1 else x') s ≤ 1 := fun s => by
      split_ifs
      · exact ⟨one_pos, le_rfl⟩
      · exact hx' s
    obtain ⟨phis, h4, h5⟩ := ih (fun wd' h => hreg wd' (by simp [h])) (fun wd' h => hw wd' (by simp [h])) hnext
    refine ⟨phi :: phis, ?_, .cons h3 h5⟩
    unfold assocFunctionalCrossGrid
    rw [h2]
    simp only [Option.getD_some, h4]

theorem grid_equal (hp : p = fromRecords pr kij) (hn : AssocNonneg p) (hmol : Molecules p) (hk : p.nassoc ≤ 10 ^ 6)
    (hT : 0 < T.re) (h1 : la.nderiv = 1) (hsF : CorrectSolver (la.solveF p.assoc_comp.length))
    (hsD : CorrectDualSolver (la.solveD p.assoc_comp.length)) (htol : 1e-10 ≤ tol) {R : ℝ}
    (htol' : 25 * tol * (1 + R) ≤ 1) (hN : 50 ≤ N)
    (hμ0 : 0 ≤ μ) (pts : List (AssocDensities n (Dual ℝ))) (hreg : ∀ wd ∈ pts, RegularPoint p T μ wd)
    (hw : ∀ wd ∈ pts, ∃ D, 0 ≤ D ∧ D ≤ R ∧ BalancedSites (pointStrength p T.re (along wd 0)) (assocNa p) (assocNb p)
      (assocRho p (pointDensity p T.re (along wd 0))) D) {t : ℝ} (ht : 0 < t) (ht1 : t ≤ 1) :
    ∃ phis, assocFunctionalCrossGrid la p N tol T (fun _ => t) pts = .ok phis
      ∧ List.Forall₂ (DerivativeAccurate p T tol R μ) pts phis := by
  induction pts generalizing t with
  | nil => exact ⟨[], rfl, .nil⟩
  | cons wd rest ih =>
    have hr := hreg wd (by simp)
    obtain ⟨D, hD, hDR, hbal⟩ := hw wd (by simp)
    have hphys := hr.physical.self_of_nhds
    rw [lineAt_zero] at hphys
    obtain ⟨hst, hrho⟩ := physical_nonneg hp hn hmol hT hphys
    have htolh : tol ≤ 1 / 2 := by nlinarith
    have hD' : D ≤ 2 ^ 76 := by nlinarith
    have hM := siteMatrix_nonneg (na := assocNa p) (nb := assocNb p) hst (fun i => hn.na _) (fun i => hn.nb _)
      (fun i => hrho (p.assoc_comp.get i))
    obtain ⟨t', ht', ht1', hloop, hacc⟩ := C122_warm_start hsF hst (fun i => hn.na _) (fun i => hn.nb _)
      (fun i => hrho (p.assoc_comp.get i)) hD hD' hbal hk htol htolh hN ht ht1
    obtain ⟨phi, h2, h3⟩ := point_dual hp hn hmol hT (R := R) (by linarith) hμ0 hr
      (fun s => (hbal.row s).le.trans hDR) h1 hsD (by linarith) htol' hloop (fun _ => ht') (fun y hy hsol s => by
        have hk0 : 0 < p.assoc_comp.length := by
          rcases s with i | i <;> exact i.pos
        have := hacc hk0
        rwa [← congrFun (MassAction.unique hM (fun _ => by positivity) hy (balanced_solution hD hbal) hsol) s])
    have hnext : (if ∑ i, pointDensity p T.re (along wd 0) i < f64EPSILON then fun _ => (1 : ℝ) else fun _ => t')
        = fun _ : Fin p.assoc_comp.length ⊕ Fin p.assoc_comp.length =>
          if ∑ i, pointDensity p T.re (along wd 0) i < f64EPSILON then (1 : ℝ) else t' := by
      split_ifs <;> rfl
    obtain ⟨phis, h4, h5⟩ := ih (fun wd' h => hreg wd' (by simp [h])) (fun wd' h => hw wd' (by simp [h]))
      (t := if ∑ i, pointDensity p T.re (along wd 0) i < f64EPSILON then (1 : ℝ) else t') (by split_ifs <;> positivity)
      (by split_ifs <;> linarith)
    refine ⟨phi :: phis, ?_, .cons h3 h5⟩
    unfold assocFunctionalCrossGrid
    rw [h2]
    simp only [Option.getD_some, hnext, h4]

theorem associationFunctional_cross (ha : 2 ≤ p.nassoc) {grid : List (List (Dual ℝ))}
    {pts : List (AssocDensities n (Dual ℝ))} (hgrid : grid.mapM (assocDecode n) = .ok pts) {phis : List (Dual ℝ)}
    (h : assocFunctionalCrossGrid la p N tol T (fun _ => 0.2) pts = .ok phis) :
    associationFunctional la p N tol T grid = .ok (.ok phis) := by
  have hlen : p.assoc_comp.length ≠ 1 := by
    have : p.assoc_comp.length = p.nassoc := rfl
    omega
  unfold associationFunctional
  rw [hgrid]
  simp only [Bind.bind, Except.bind]
  split
  · rename_i b hb
    exact absurd (by rw [hb]; rfl) hlen
  · rw [h]

/-- C123: first derivatives of the association functional at weakly associating grid points. -/
theorem C123_weak (hp : p = fromRecords pr kij) (hn : AssocNonneg p) (hmol : Molecules p) (ha : 2 ≤ p.nassoc)
    (hk : p.nassoc ≤ 10 ^ 6) (hT : 0 < T.re) (h1 : la.nderiv = 1) (hsF : CorrectSolver (la.solveF p.assoc_comp.length))
    (hsD : CorrectDualSolver (la.solveD p.assoc_comp.length)) (htol : 1e-10 ≤ tol) (htol' : 50 * tol ≤ 1) (hN : 10 ≤ N)
    (hμ0 : 0 ≤ μ) {grid : List (List (Dual ℝ))} {pts : List (AssocDensities n (Dual ℝ))}
    (hgrid : grid.mapM (assocDecode n) = .ok pts) (hreg : ∀ wd ∈ pts, RegularPoint p T μ wd)
    (hw : ∀ wd ∈ pts, WeakSites (pointStrength p T.re (along wd 0)) (assocNa p) (assocNb p)
      (assocRho p (pointDensity p T.re (along wd 0))) (2 / 3)) :
    ∃ phis, associationFunctional la p N tol T grid = .ok (.ok phis)
      ∧ List.Forall₂ (DerivativeAccurate p T tol (2 / 3) μ) pts phis := by
  obtain ⟨phis, h2, h3⟩ := grid_weak hp hn hmol hk hT h1 hsF hsD htol htol' hN hμ0 pts hreg hw (x := fun _ => 0.2)
    (fun _ => by norm_num)
  exact ⟨phis, associationFunctional_cross ha hgrid h2, h3⟩

/-- C123: first derivatives of the association functional of mixtures whose associating components have the same segments
and association parameters and as many donor as acceptor sites. -/
theorem C123_equal_sites (hp : p = fromRecords pr kij) (hsame : SameSites p) (hn : AssocNonneg p) (hmol : Molecules p)
    (ha : 2 ≤ p.nassoc) (hk : p.nassoc ≤ 10 ^ 6) (hT : 0 < T.re) (h1 : la.nderiv = 1)
    (hsF : CorrectSolver (la.solveF p.assoc_comp.length)) (hsD : CorrectDualSolver (la.solveD p.assoc_comp.length))
    (htol : 1e-10 ≤ tol) {R : ℝ} (htol' : 25 * tol * (1 + R) ≤ 1) (hN : 50 ≤ N) (hμ0 : 0 ≤ μ)
    {grid : List (List (Dual ℝ))} {pts : List (AssocDensities n (Dual ℝ))}
    (hgrid : grid.mapM (assocDecode n) = .ok pts) (hreg : ∀ wd ∈ pts, RegularPoint p T μ wd)
    (hw : ∀ wd ∈ pts, ∀ l, pointTotal p T.re (along wd 0) l ≤ R) :
    ∃ phis, associationFunctional la p N tol T grid = .ok (.ok phis)
      ∧ List.Forall₂ (DerivativeAccurate p T tol R μ) pts phis := by
  obtain ⟨phis, h2, h3⟩ := grid_equal hp hn hmol hk hT h1 hsF hsD htol htol' hN hμ0 pts hreg (fun wd hwd => by
    have hphys := (hreg wd hwd).physical.self_of_nhds
    rw [lineAt_zero] at hphys
    obtain ⟨h4, h5⟩ := physical_nonneg hp hn hmol hT hphys
    let l : Fin p.assoc_comp.length := ⟨0, by change 0 < p.nassoc; omega⟩
    exact ⟨_, mul_nonneg (h4 l l) (Finset.sum_nonneg fun j _ => mul_nonneg (h5 _) (hn.na _)), hw wd hwd l,
      sameSites_point hp hsame T.re _ l⟩) (t := 0.2) (by norm_num) (by norm_num)
  exact ⟨phis, associationFunctional_cross ha hgrid h2, h3⟩

end grid

/-! ## Interior points -/

/-- a point where all components are present and the vector densities are strictly smaller than the scalar ones -/
structure InteriorPoint (p : PcSaftParameters n ℝ) (T : ℝ) (wd : AssocDensities n ℝ) : Prop where
  density : ∀ i, 0 < wd.n0i i
  packing : wd.n3 < 1
  vector : ∀ i, (wd.n2v.map (fun v => v i ^ 2)).sum
    < (wd.n0i i * (4 * Real.pi * p.m i * (hsDiameter p T i / 2) ^ 2)) ^ 2
  vector_total : (wd.n2v.map (fun v => (∑ i, v i) ^ 2)).sum
    < (∑ i, wd.n0i i * (4 * Real.pi * p.m i * (hsDiameter p T i / 2) ^ 2)) ^ 2

theorem InteriorPoint.physical {p : PcSaftParameters n ℝ} {T : ℝ} {wd : AssocDensities n ℝ} (h : InteriorPoint p T wd) :
    PhysicalPoint p T wd :=
  ⟨fun i => (h.density i).le, h.packing, fun i => (h.vector i).le, h.vector_total.le⟩

/-- strengths and densities of associating components are positive at such points -/
theorem point_pos {pr : Fin n → PureRecord ℝ} {kij : Fin n → Fin n → ℝ} {p : PcSaftParameters n ℝ}
    (hp : p = fromRecords pr kij) (hκ : ∀ i, p.kappa_ab i ≠ 0 → 0 < p.kappa_ab i)
    (hε : ∀ i, p.kappa_ab i ≠ 0 → 0 < p.epsilon_k_ab i) (hmol : Molecules p)
    {T : ℝ} (hT : 0 < T) {wd : AssocDensities n ℝ} (hw : InteriorPoint p T wd) :
    (∀ i j, 0 < pointStrength p T wd i j) ∧ ∀ i, 0 < pointDensity p T wd i := by
  have hd := hmol.diameter_pos hT
  have hm := hmol.m_pos
  have hhalf : ∀ i, hsDiameter p T i * c (0.5 : ℝ) = hsDiameter p T i / 2 := fun i => by
    have h5 : (0.5 : ℝ) = 1 / 2 := by norm_num
    simp only [c, ofF_real, h5]
    ring
  have hr : ∀ i, 0 < hsDiameter p T i * c (0.5 : ℝ) := fun i => by
    rw [hhalf]
    linarith [hd i]
  obtain ⟨g1, g2, g3, g4⟩ := C55_empty_regions p (fun i => hsDiameter p T i * c (0.5 : ℝ)) wd hm hr
    (fun i => (hw.density i).le)
  simp only [hhalf] at g3 g4
  have hxi : 0 ≤ assocXi p (fun i => hsDiameter p T i * c (0.5 : ℝ)) wd := by
    rcases lt_or_ge (∑ i, wd.n0i i) (N0_CUTOFF : ℝ) with h | h
    · rw [g2 h]
      exact zero_le_one
    · have := (g4 h).2
      simp only [hhalf] at this ⊢
      rw [this, sub_nonneg]
      exact div_le_one_of_le₀ hw.vector_total.le (sq_nonneg _)
  have hn2 : 0 ≤ assocN2Total p (fun i => hsDiameter p T i * c (0.5 : ℝ)) wd := by
    have h4 : (4.0 : ℝ) = 4 := by norm_num
    simp only [assocN2Total, sumFin_real, assocN2i, c, ofF_real, dpowi_real, pi_real, h4]
    refine Finset.sum_nonneg fun i _ => ?_
    have := (hw.density i).le
    have := (hm i).le
    have := Real.pi_pos.le
    positivity
  have hκ0 : ∀ i : Fin p.assoc_comp.length, p.kappa_ab (p.assoc_comp.get i) ≠ 0 := fun i => by
    subst hp
    exact (mem_assoc_iff pr kij _).1 (List.get_mem _ _)
  refine ⟨fun i j => ?_, fun i => ?_⟩
  · have hk : 0 < p.kappa_aibj (p.assoc_comp.get i) (p.assoc_comp.get j) := by
      have e : p.kappa_aibj (p.assoc_comp.get i) (p.assoc_comp.get j)
          = Real.sqrt (p.kappa_ab (p.assoc_comp.get i) * p.kappa_ab (p.assoc_comp.get j))
            * (2.0 * Real.sqrt (p.sigma (p.assoc_comp.get i) * p.sigma (p.assoc_comp.get j))
              / (p.sigma (p.assoc_comp.get i) + p.sigma (p.assoc_comp.get j))) ^ (3.0 : ℝ) := by
        subst hp
        exact if_pos ⟨List.get_mem _ _, List.get_mem _ _⟩
      rw [e]
      have h1 := hκ _ (hκ0 i)
      have h2 := hκ _ (hκ0 j)
      have h3 := hmol.sigma_pos (p.assoc_comp.get i)
      have h4 := hmol.sigma_pos (p.assoc_comp.get j)
      positivity
    have he : 0 < p.epsilon_k_aibj (p.assoc_comp.get i) (p.assoc_comp.get j) := by
      have e : p.epsilon_k_aibj (p.assoc_comp.get i) (p.assoc_comp.get j)
          = 0.5 * (p.epsilon_k_ab (p.assoc_comp.get i) + p.epsilon_k_ab (p.assoc_comp.get j)) := by
        subst hp
        exact if_pos ⟨List.get_mem _ _, List.get_mem _ _⟩
      rw [e]
      have h1 := hε _ (hκ0 i)
      have h2 := hε _ (hκ0 j)
      positivity
    unfold pointStrength strengths associationStrength
    have h1 : 0 < DualNum.recip (-wd.n3 + c (1.0 : ℝ)) := by
      have e1 : (1.0 : ℝ) = 1 := by norm_num
      simp only [c, ofF_real, recip_real, e1]
      exact inv_pos.2 (by linarith [hw.packing])
    have h2 : 0 < DualNum.expm1 (DualNum.recip T * c (p.epsilon_k_aibj (p.assoc_comp.get i) (p.assoc_comp.get j))) := by
      simp only [c, ofF_real, recip_real, dexpm1_real]
      have h3 : 0 < T⁻¹ * p.epsilon_k_aibj (p.assoc_comp.get i) (p.assoc_comp.get j) :=
        mul_pos (inv_pos.2 hT) he
      linarith [Real.add_one_le_exp (T⁻¹ * p.epsilon_k_aibj (p.assoc_comp.get i) (p.assoc_comp.get j))]
    have hri := hr (p.assoc_comp.get i)
    have hrj := hr (p.assoc_comp.get j)
    have h5 : (0.5 : ℝ) = 1 / 2 := by norm_num
    have e2 : (2.0 : ℝ) = 2 := by norm_num
    have e18 : (18.0 : ℝ) = 18 := by norm_num
    have e1 : (1.0 : ℝ) = 1 := by norm_num
    have hσi := hmol.sigma_pos (p.assoc_comp.get i)
    have hσj := hmol.sigma_pos (p.assoc_comp.get j)
    generalize DualNum.expm1 (DualNum.recip T * c (p.epsilon_k_aibj (p.assoc_comp.get i) (p.assoc_comp.get j))) = E at h2 ⊢
    generalize DualNum.recip (-wd.n3 + c (1.0 : ℝ)) = n3i at h1 ⊢
    simp only [c, ofF_real, powi_real, h5, e2, e18, e1] at hri hrj hxi hn2 ⊢
    generalize assocXi p (fun i => hsDiameter p T i * (1 / 2)) wd = xi at hxi ⊢
    generalize assocN2Total p (fun i => hsDiameter p T i * (1 / 2)) wd = n2 at hn2 ⊢
    generalize hsDiameter p T (p.assoc_comp.get i) * (1 / 2) = ri at hri ⊢
    generalize hsDiameter p T (p.assoc_comp.get j) * (1 / 2) = rj at hrj ⊢
    generalize p.sigma (p.assoc_comp.get i) = si at hσi ⊢
    generalize p.sigma (p.assoc_comp.get j) = sj at hσj ⊢
    generalize p.kappa_aibj (p.assoc_comp.get i) (p.assoc_comp.get j) = ka at hk ⊢
    positivity
  · rcases lt_or_ge (wd.n0i i) (N0_CUTOFF : ℝ) with h | h
    · exact lt_of_lt_of_eq (hw.density i) (g1 i h).symm
    · have := (g3 i h).2
      unfold pointDensity
      simp only [hhalf] at this ⊢
      rw [this]
      refine mul_pos (hw.density i) (sub_pos.2 ((div_lt_one ?_).2 (hw.vector i)))
      have h1 := hw.density i
      have h2 := hm i
      have h3 := hd i
      positivity

theorem continuousAt_along_sum {L : List (Fin n → Dual ℝ)} (f : (Fin n → ℝ) → ℝ) (hf : Continuous f) :
    ContinuousAt (fun t : ℝ => ((L.map (fun v i => lineAt (v i) t)).map f).sum) 0 := by
  have hline : ∀ a : Dual ℝ, Continuous (lineAt a) := fun a => by
    unfold lineAt
    fun_prop
  refine Continuous.continuousAt ?_
  induction L with
  | nil => exact continuous_const
  | cons v L ih =>
    simp only [List.map_cons, List.sum_cons] at ih ⊢
    exact (hf.comp (continuous_pi fun i => hline _)).add ih

/-- C123: every point where all components are present, away from the branch points of the code, is regular with some
bound on the relative derivatives, whatever the direction. -/
theorem C123_interior {pr : Fin n → PureRecord ℝ} {kij : Fin n → Fin n → ℝ} {p : PcSaftParameters n ℝ}
    (hp : p = fromRecords pr kij) (hκ : ∀ i, p.kappa_ab i ≠ 0 → 0 < p.kappa_ab i)
    (hε : ∀ i, p.kappa_ab i ≠ 0 → 0 < p.epsilon_k_ab i) (hmol : Molecules p) {T : Dual ℝ} (hT : 0 < T.re)
    {wd : AssocDensities n (Dual ℝ)} (hw : InteriorPoint p T.re (along wd 0)) (hcomp : ∀ i, (wd.n0i i).re ≠ N0_CUTOFF)
    (htot : ∑ i, (wd.n0i i).re ≠ N0_CUTOFF) : ∃ μ, 0 ≤ μ ∧ RegularPoint p T μ wd := by
  have hline : ∀ a : Dual ℝ, ContinuousAt (lineAt a) 0 := fun a => (lineAt_hasDerivAt a).continuousAt
  have hdia : ∀ i, ContinuousAt (fun t => hsDiameter p (lineAt T t) i) 0 := fun i => by
    simp only [hsDiameter_real]
    have h0 : lineAt T 0 ≠ 0 := by
      rw [lineAt_zero]
      exact hT.ne'
    have h1 : ContinuousAt (fun t => -3 * p.epsilon_k i / lineAt T t) 0 := continuousAt_const.div (hline T) h0
    exact continuousAt_const.mul (continuousAt_const.sub (continuousAt_const.mul h1.rexp))
  have harea : ∀ i, ContinuousAt (fun t => (along wd t).n0i i
      * (4 * Real.pi * p.m i * (hsDiameter p (lineAt T t) i / 2) ^ 2)) 0 := fun i =>
    (hline _).mul (continuousAt_const.mul (((hdia i).div_const 2).pow 2))
  have hsum : ContinuousAt (fun t => ∑ i, (along wd t).n0i i
      * (4 * Real.pi * p.m i * (hsDiameter p (lineAt T t) i / 2) ^ 2)) 0 :=
    tendsto_finsetSum (f := fun i t => (along wd t).n0i i
      * (4 * Real.pi * p.m i * (hsDiameter p (lineAt T t) i / 2) ^ 2)) _ fun i _ => harea i
  have hphys : ∀ᶠ t in 𝓝 (0 : ℝ), PhysicalPoint p (lineAt T t) (along wd t) := by
    have e1 : ∀ᶠ t in 𝓝 (0 : ℝ), ∀ i, 0 < (along wd t).n0i i :=
      Filter.eventually_all.2 fun i => (hline (wd.n0i i)).eventually (lt_mem_nhds (hw.density i))
    have e2 : ∀ᶠ t in 𝓝 (0 : ℝ), (along wd t).n3 < 1 := (hline wd.n3).eventually (gt_mem_nhds hw.packing)
    have e3 : ∀ᶠ t in 𝓝 (0 : ℝ), ∀ i, ((along wd t).n2v.map (fun v => v i ^ 2)).sum
        < ((along wd t).n0i i * (4 * Real.pi * p.m i * (hsDiameter p (lineAt T t) i / 2) ^ 2)) ^ 2 :=
      Filter.eventually_all.2 fun i =>
        (continuousAt_along_sum (fun v => v i ^ 2) (by fun_prop)).eventually_lt ((harea i).pow 2) (by
          have := hw.vector i
          rwa [← lineAt_zero T] at this)
    have e4 : ∀ᶠ t in 𝓝 (0 : ℝ), ((along wd t).n2v.map (fun v => (∑ i, v i) ^ 2)).sum
        < (∑ i, (along wd t).n0i i * (4 * Real.pi * p.m i * (hsDiameter p (lineAt T t) i / 2) ^ 2)) ^ 2 :=
      (continuousAt_along_sum (fun v => (∑ i, v i) ^ 2) (by fun_prop)).eventually_lt
        (hsum.pow 2) (by
          have := hw.vector_total
          rwa [← lineAt_zero T] at this)
    filter_upwards [e1, e2, e3, e4] with t h1 h2 h3 h4
    exact ⟨fun i => (h1 i).le, h2, fun i => (h3 i).le, h4.le⟩
  obtain ⟨hst, hrho⟩ := point_pos hp hκ hε hmol hT hw
  set f : Fin p.assoc_comp.length × Fin p.assoc_comp.length → ℝ := fun ij =>
    |deriv (fun t => pointStrength p (lineAt T t) (along wd t) ij.1 ij.2
      * assocRho p (pointDensity p (lineAt T t) (along wd t)) ij.2) 0| with hf
  set g : Fin p.assoc_comp.length × Fin p.assoc_comp.length → ℝ := fun ij =>
    pointStrength p T.re (along wd 0) ij.1 ij.2 * assocRho p (pointDensity p T.re (along wd 0)) ij.2 with hg
  have hg0 : ∀ ij, 0 < g ij := fun ij => mul_pos (hst _ _) (hrho _)
  have hfg : ∀ ij, 0 ≤ f ij / g ij := fun ij => div_nonneg (abs_nonneg _) (hg0 ij).le
  refine ⟨∑ ij, f ij / g ij, Finset.sum_nonneg fun ij _ => hfg ij, hphys, hcomp, htot, fun i j => ?_⟩
  change f (i, j) ≤ _ * g (i, j)
  rw [← div_le_iff₀ (hg0 _)]
  exact Finset.single_le_sum (f := fun ij => f ij / g ij) (fun ij _ => hfg ij) (Finset.mem_univ (i, j))

/-! ## An example -/

theorem edgePoint_interior (K : ℝ) : InteriorPoint (fromRecords (twinRecords K) (fun _ _ => 0)) 300 edgePoint := by
  have hd : ∀ i, 2 ≤ hsDiameter (fromRecords (twinRecords K) (fun _ _ => 0)) (300 : ℝ) i := fun i => by
    have := ((C13_diameter (fromRecords (twinRecords K) (fun _ _ => 0)) i (by change (0 : ℝ) < 3; norm_num)
      (by change (0 : ℝ) < 200; norm_num)).1 300 (by norm_num)).1
    change 0.88 * (3 : ℝ) < _ at this
    norm_num at this
    linarith
  have hm : ∀ i, (fromRecords (twinRecords K) (fun _ _ => 0)).m i = 1 := fun _ => rfl
  have hs : ∀ i, 12 ≤ 4 * Real.pi * (fromRecords (twinRecords K) (fun _ _ => 0)).m i
      * (hsDiameter (fromRecords (twinRecords K) (fun _ _ => 0)) (300 : ℝ) i / 2) ^ 2 := fun i => by
    rw [hm]
    have h1 := Real.pi_gt_three
    have h2 : 1 ≤ (hsDiameter (fromRecords (twinRecords K) (fun _ _ => 0)) (300 : ℝ) i / 2) ^ 2 := by
      nlinarith [hd i]
    nlinarith
  have e0 : edgePoint.n0i 0 = 0.003 := rfl
  have e1 : edgePoint.n0i 1 = 0.011 := rfl
  have v : edgePoint.n2v = [![0.01, 0.02]] := rfl
  refine ⟨fun i => ?_, ?_, fun i => ?_, ?_⟩
  · fin_cases i
    · exact e0.symm ▸ (by norm_num)
    · exact e1.symm ▸ (by norm_num)
  · change (0.2 : ℝ) < 1
    norm_num
  · rw [v]
    simp only [List.map_cons, List.map_nil, List.sum_cons, List.sum_nil, add_zero]
    refine pow_lt_pow_left₀ ?_ ?_ two_ne_zero
    · have := hs i
      fin_cases i
      · change (0.01 : ℝ) < 0.003 * _
        norm_num at this ⊢
        linarith
      · change (0.02 : ℝ) < 0.011 * _
        norm_num at this ⊢
        linarith
    · fin_cases i <;> norm_num
  · rw [v]
    simp only [List.map_cons, List.map_nil, List.sum_cons, List.sum_nil, add_zero, Fin.sum_univ_two, e0, e1]
    refine pow_lt_pow_left₀ ?_ (by norm_num) two_ne_zero
    have := hs 0
    have := hs 1
    change (0.01 + 0.02 : ℝ) < _
    norm_num at *
    linarith

/-- the point of the example of C122 with a direction in which the temperature and all densities change -/
noncomputable def edgeRow : List (Dual ℝ) := [⟨0.003, 1⟩, ⟨0.011, 2⟩, ⟨0.01, 1⟩, ⟨0.02, -1⟩, ⟨0.2, 3⟩]

/-- the decoded row -/
noncomputable def edgeDual : AssocDensities 2 (Dual ℝ) :=
  ⟨![⟨0.003, 1⟩, ⟨0.011, 2⟩], [![⟨0.01, 1⟩, ⟨0.02, -1⟩]], ⟨0.2, 3⟩⟩

theorem edgeDual_decode : assocDecode 2 edgeRow = .ok edgeDual := by
  have h : ∀ a b : Dual ℝ, (Fin.cons a (Fin.cons b Fin.elim0) : Fin 2 → Dual ℝ) = ![a, b] := fun a b => by
    funext i
    fin_cases i <;> rfl
  have h1 : (rowSlice edgeRow 0 2 : Except Panic (Fin 2 → Dual ℝ)) = .ok ![⟨0.003, 1⟩, ⟨0.011, 2⟩] :=
    congrArg Except.ok (h _ _)
  have h2 : (rowSlice edgeRow 2 2 : Except Panic (Fin 2 → Dual ℝ)) = .ok ![⟨0.01, 1⟩, ⟨0.02, -1⟩] :=
    congrArg Except.ok (h _ _)
  have h3 : ((List.range 1).mapM fun i => (rowSlice edgeRow (2 * (i + 1)) 2 : Except Panic (Fin 2 → Dual ℝ)))
      = .ok [![⟨0.01, 1⟩, ⟨0.02, -1⟩]] := by
    rw [List.range_succ, List.range_zero, List.nil_append, List.mapM_cons]
    simp only [zero_add, mul_one, h2]
    rfl
  unfold assocDecode
  have hlen : edgeRow.length = 5 := rfl
  rw [hlen, if_neg (by norm_num), h1]
  simp only [Bind.bind, Except.bind, Nat.reduceSub, Nat.reduceDiv, h3]
  rfl

theorem edgeDual_value : along edgeDual 0 = edgePoint := by
  have h : ∀ a b : Dual ℝ, (fun i => lineAt ((![a, b] : Fin 2 → Dual ℝ) i) 0) = ![a.re, b.re] := fun a b => by
    funext i
    fin_cases i <;> exact lineAt_zero _
  unfold along edgeDual edgePoint
  rw [h]
  simp only [List.map_cons, List.map_nil, lineAt_zero]
  rw [← h ⟨0.01, 1⟩ ⟨0.02, -1⟩]
  simp only [lineAt_zero]

theorem edgeDual_regular {K : ℝ} (hK : 0 < K) :
    ∃ μ, 0 ≤ μ ∧ RegularPoint (fromRecords (twinRecords K) (fun _ _ => 0)) ⟨300, 1⟩ μ edgeDual := by
  have hadm := twinRecords_admissible K (fun _ _ => 0) (V := 1000) (by norm_num)
  have hmol : Molecules (fromRecords (twinRecords K) (fun _ _ => 0)) :=
    ⟨hadm.m_pos, hadm.sigma_pos, hadm.epsilon_nonneg⟩
  have h0 : ∀ i, (edgeDual.n0i i).re = edgePoint.n0i i := fun i => by
    rw [← edgeDual_value]
    exact (lineAt_zero _).symm
  have e0 : edgePoint.n0i 0 = 0.003 := rfl
  have e1 : edgePoint.n0i 1 = 0.011 := rfl
  exact C123_interior (p := fromRecords (twinRecords K) (fun _ _ => 0)) rfl (fun _ _ => hK)
    (fun _ _ => by change (0 : ℝ) < 2500; norm_num) hmol (T := ⟨300, 1⟩) (by norm_num) (wd := edgeDual)
    (by rw [edgeDual_value]; exact edgePoint_interior K)
    (fun i => by
      rw [h0]
      fin_cases i
      · exact e0.symm ▸ (by norm_num [N0_CUTOFF])
      · exact e1.symm ▸ (by norm_num [N0_CUTOFF]))
    (by
      simp only [h0, Fin.sum_univ_two, e0, e1]
      norm_num [N0_CUTOFF])

example : ∃ (K μ : ℝ) (la : LinAlg ℝ (Dual ℝ)) (phi : Dual ℝ), 0 < K ∧ 0 ≤ μ ∧
    associationFunctional la (fromRecords (twinRecords K) (fun _ _ => 0)) 50 1e-10 ⟨300, 1⟩ [edgeRow] = .ok (.ok [phi])
    ∧ DerivativeAccurate (fromRecords (twinRecords K) (fun _ _ => 0)) ⟨300, 1⟩ 1e-10 1 μ edgeDual phi := by
  obtain ⟨K, hK, hl⟩ := edgePoint_total
  have hna := twinGrid_nassoc hK
  have hadm := twinRecords_admissible K (fun _ _ => 0) (V := 1000) (by norm_num)
  have hmol : Molecules (fromRecords (twinRecords K) (fun _ _ => 0)) :=
    ⟨hadm.m_pos, hadm.sigma_pos, hadm.epsilon_nonneg⟩
  obtain ⟨μ, hμ0, hreg⟩ := edgeDual_regular hK
  choose sD hsD using fun k : ℕ => exists_correctDualSolver (towerDual (towerReal ()) (0 : ℝ)) k
  obtain ⟨phis, h1, h2⟩ := C123_equal_sites (p := fromRecords (twinRecords K) (fun _ _ => 0)) rfl (twin_same K)
    (twinGrid_nonneg K) hmol hna.ge (by rw [hna]; norm_num) (T := ⟨300, 1⟩)
    (by norm_num) (la := ⟨fun _ => exactSolver, sD, 1⟩) rfl exactSolver_correct (hsD _) (tol := 1e-10) le_rfl (R := 1)
    (by norm_num) (N := 50) le_rfl hμ0 (grid := [edgeRow]) (pts := [edgeDual]) (by
      rw [List.mapM_cons, edgeDual_decode]
      rfl) (by simpa using hreg) (by
        simpa [edgeDual_value] using fun l => (hl l).trans (by norm_num : (1 / 2 : ℝ) ≤ 1))
  obtain ⟨phi, rest, h3, h4, rfl⟩ := List.forall₂_cons_left_iff.1 h2
  obtain rfl := List.forall₂_nil_left_iff.1 h4
  exact ⟨K, μ, _, phi, hK, hμ0, h1, h3⟩

example : ∃ (K μ : ℝ) (la : LinAlg ℝ (Dual ℝ)) (phi : Dual ℝ), 0 < K ∧ 0 ≤ μ ∧
    associationFunctional la (fromRecords (twinRecords K) (fun _ _ => 0)) 50 1e-10 ⟨300, 1⟩ [edgeRow] = .ok (.ok [phi])
    ∧ DerivativeAccurate (fromRecords (twinRecords K) (fun _ _ => 0)) ⟨300, 1⟩ 1e-10 (2 / 3) μ edgeDual phi := by
  obtain ⟨K, hK, hl⟩ := edgePoint_total
  have hna := twinGrid_nassoc hK
  have hadm := twinRecords_admissible K (fun _ _ => 0) (V := 1000) (by norm_num)
  have hmol : Molecules (fromRecords (twinRecords K) (fun _ _ => 0)) :=
    ⟨hadm.m_pos, hadm.sigma_pos, hadm.epsilon_nonneg⟩
  obtain ⟨μ, hμ0, hreg⟩ := edgeDual_regular hK
  choose sD hsD using fun k : ℕ => exists_correctDualSolver (towerDual (towerReal ()) (0 : ℝ)) k
  have hn := twinGrid_nonneg K
  have hphys := hreg.physical.self_of_nhds
  rw [lineAt_zero, edgeDual_value] at hphys
  obtain ⟨phis, h1, h2⟩ := C123_weak (p := fromRecords (twinRecords K) (fun _ _ => 0)) rfl hn hmol hna.ge
    (by rw [hna]; norm_num) (T := ⟨300, 1⟩)
    (by norm_num) (la := ⟨fun _ => exactSolver, sD, 1⟩) rfl exactSolver_correct (hsD _) (tol := 1e-10) le_rfl
    (by norm_num) (N := 50) (by norm_num) hμ0 (grid := [edgeRow]) (pts := [edgeDual]) (by
      rw [List.mapM_cons, edgeDual_decode]
      rfl) (by simpa using hreg) (by
        simp only [List.mem_singleton, forall_eq, edgeDual_value]
        intro i
        have hb := sameSites_point (p := fromRecords (twinRecords K) (fun _ _ => 0)) rfl (twin_same K) 300 edgePoint i
        have hi := (hl i).trans (by norm_num : (1 / 2 : ℝ) ≤ 2 / 3)
        have h3 := (hb i).1.trans_le hi
        have h4 := (hb i).2.trans_le hi
        exact ⟨h3, h4⟩)
  obtain ⟨phi, rest, h3, h4, rfl⟩ := List.forall₂_cons_left_iff.1 h2
  obtain rfl := List.forall₂_nil_left_iff.1 h4
  exact ⟨K, μ, _, phi, hK, hμ0, h1, h3⟩

end PcSaft.Props
