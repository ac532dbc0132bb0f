import Verif.Lemmas.NewtonTower
import Verif.Props.CrossAssociation
import Verif.Props.Derivatives

/-!
# Derivatives of the cross-association energy (C32)

`helmholtz_energy_density_cross_association` solves the mass-action equations with real numbers and then
repeats the Newton step with generalized dual numbers, once per order of derivative. If the real solution is
exact, the result carries the exact derivatives of the solution.
-/

open Filter Topology
open scoped ContDiff

namespace PcSaft.Spec

/-- a continuous family of solutions of the mass-action equations through the solution `x` at `x0` -/
structure SolutionBranch {X ι : Type} [TopologicalSpace X] [Fintype ι] (M : X → ι → ι → ℝ) (x0 : X) (x : ι → ℝ)
    (S : ι → X → ℝ) : Prop where
  continuousAt : ∀ s, ContinuousAt (S s) x0
  value : ∀ s, S s x0 = x s
  solves : ∀ᶠ y in 𝓝 x0, MassAction (M y) (fun s => S s y)

end PcSaft.Spec

namespace PcSaft.Props
open PcSaft Spec
variable {D X : Type} [DualNum ℝ D] [TopologicalSpace X] {x0 : X} {ρ : Rep x0 Same D} {N k n : ℕ}

/-! ## Helpers -/

/-- the family of positive solutions is a branch, and there is only one branch -/
theorem branch_of_positive {ι : Type} [Fintype ι] {M : X → ι → ι → ℝ} {x : ι → ℝ}
    (hc : ∀ s t, ContinuousAt (fun y => M y s t) x0) (hM : ∀ᶠ y in 𝓝 x0, ∀ s t, 0 ≤ M y s t)
    (hx : ∀ s, 0 < x s) (hsol : MassAction (M x0) x) {S : ι → X → ℝ}
    (hS : ∀ᶠ y in 𝓝 x0, (∀ s, 0 < S s y) ∧ MassAction (M y) (fun s => S s y)) : SolutionBranch M x0 x S := by
  obtain ⟨φ, hφ, hφ0, hiff⟩ := solution_branch hM.self_of_nhds hx hsol
  have hMc : ContinuousAt (fun y => (fun st => M y st.1 st.2 : ι × ι → ℝ)) x0 :=
    continuousAt_pi.mpr fun st => hc st.1 st.2
  have hφc : ContinuousAt (fun y => φ (fun st => M y st.1 st.2)) x0 :=
    ContinuousAt.comp (f := fun y => (fun st => M y st.1 st.2 : ι × ι → ℝ)) hφ.continuousAt hMc
  have ht : Tendsto (fun y => ((fun st => M y st.1 st.2 : ι × ι → ℝ), φ (fun st => M y st.1 st.2))) (𝓝 x0)
      (𝓝 ((fun st => M x0 st.1 st.2), x)) := by
    have := hMc.prodMk hφc
    unfold ContinuousAt at this
    beta_reduce at this
    rwa [hφ0] at this
  have hpos : ∀ᶠ y in 𝓝 x0, ∀ s, 0 < φ (fun st => M y st.1 st.2) s := by
    refine eventually_all.mpr fun s => ?_
    have : ContinuousAt (fun y => φ (fun st => M y st.1 st.2) s) x0 := (continuousAt_pi.mp hφc) s
    exact this.eventually (lt_mem_nhds (by beta_reduce; rw [hφ0]; exact hx s))
  have heq : ∀ᶠ y in 𝓝 x0, (fun s => S s y) = φ (fun st => M y st.1 st.2) := by
    filter_upwards [hS, hM, hpos, ht.eventually hiff] with y h1 h2 h3 h4
    exact MassAction.unique h2 h1.1 h3 h1.2 (h4.mpr rfl)
  have heq' : ∀ s, (fun y => φ (fun st => M y st.1 st.2) s) =ᶠ[𝓝 x0] S s := fun s =>
    heq.mono fun y hy => (congrFun hy s).symm
  refine ⟨fun s => ((continuousAt_pi.mp hφc) s).congr (heq' s), fun s => ?_, hS.mono fun y hy => hy.2⟩
  rw [← (heq' s).eq_of_nhds, hφ0]

/-- Correct solvers exist: every system whose real part is non-singular has a solution in the dual algebra. -/
theorem exists_correctDualSolver (T : Tower ρ N) (k : ℕ) :
    ∃ solve : Solver k D, CorrectDualSolver solve := by
  classical
  refine ⟨fun h g => if e : ∃ y : Fin k ⊕ Fin k → D, ∀ s, sumFin (fun j => h s (.inl j) * y (.inl j))
      + sumFin (fun j => h s (.inr j) * y (.inr j)) = g s then some e.choose else none, ⟨?_, ?_⟩⟩
  · intro h g y hy
    split_ifs at hy with e
    rw [← Option.some.inj hy]
    exact e.choose_spec
  · intro h g hinj
    choose hf hhf using fun s t => T.full (h s t)
    choose gf hgf using fun s => T.full (g s)
    let A : X → Matrix (Fin k ⊕ Fin k) (Fin k ⊕ Fin k) ℝ := fun y => Matrix.of fun s t => hf s t y
    have hA : ∀ s t, T.O 0 (fun y => A y s t) := fun s t => T.of_rep (hhf s t)
    have hdet : (A x0).det ≠ 0 := by
      intro h0
      obtain ⟨v, hv0, hv1⟩ := Matrix.exists_mulVec_eq_zero_iff.2 h0
      refine hv0 (hinj v fun s => ?_)
      have h2 := congrFun hv1 s
      simp only [A, Matrix.mulVec, dotProduct, Matrix.of_apply, Pi.zero_apply] at h2
      rw [← h2]
      exact Finset.sum_congr rfl fun t _ => by rw [ρ.re (hhf s t)]
    choose y hy using fun s => T.zero_iff.mp (T.matInv_mulVec hA hdet (fun t => T.of_rep (hgf t)) s)
    have hex : ∃ y : Fin k ⊕ Fin k → D, ∀ s, sumFin (fun j => h s (.inl j) * y (.inl j))
        + sumFin (fun j => h s (.inr j) * y (.inr j)) = g s := by
      refine ⟨y, fun s => ?_⟩
      have h1 := rep_sumSites ρ (f := fun t x => hf s t x * ((A x)⁻¹.mulVec (fun t => gf t x)) t)
        (d := fun t => h s t * y t) (fun t => ρ.mul (hhf s t) (hy t))
      refine T.unique h1 (ρ.congr (hgf s) ?_)
      filter_upwards [T.eventually_det_ne hA hdet] with x hx
      have : (A x).mulVec ((A x)⁻¹.mulVec (fun t => gf t x)) = fun t => gf t x := by
        rw [Matrix.mulVec_mulVec, Matrix.mul_nonsing_inv _ (isUnit_iff_ne_zero.2 hx), Matrix.one_mulVec]
      exact (congrFun this s).symm
    simp only [dif_pos hex, Option.isSome_some]

/-! ## The solution in the dual algebra -/

/-- For dual numbers nested `N` times and at least `log₂ (N + 1)` steps (the code takes `N`): starting from the
exact solution for the real parts, no step fails and the result represents the solution as a function of
everything that the association strengths and densities depend on, for every number of components. -/
theorem C32_exact_solution (T : Tower ρ N) {delta : Fin k → Fin k → X → ℝ} {deltad : Fin k → Fin k → D}
    {rho : Fin k → X → ℝ} {rhod : Fin k → D} {na nb : Fin k → ℝ}
    (hdelta : ∀ i j, ρ.R (delta i j) (deltad i j)) (hrho : ∀ i, ρ.R (rho i) (rhod i))
    (hM : ∀ s t, 0 ≤ siteMatrixAt delta na nb rho x0 s t)
    {x : Fin k ⊕ Fin k → ℝ} (hx : ∀ s, 0 < x s) (hsol : MassAction (siteMatrixAt delta na nb rho x0) x)
    {solve : Solver k D} (hs : CorrectDualSolver solve) (tol : ℝ) {r : ℕ} (hr : N < 2 ^ r) :
    ∃ xd, newtonDual (newtonStep solve deltad na nb rhod tol) r (fun s => c (x s)) = .ok xd
      ∧ (∃ S, SolutionBranch (siteMatrixAt delta na nb rho) x0 x S)
      ∧ ∀ S, SolutionBranch (siteMatrixAt delta na nb rho) x0 x S → ∀ s, ρ.R (S s) (xd s) := by
  obtain ⟨φ, hφ, hφ0, hiff⟩ := solution_branch hM hx hsol
  set M := siteMatrixAt delta na nb rho with hMdef
  have hrepM : ∀ st : (Fin k ⊕ Fin k) × (Fin k ⊕ Fin k), T.O 0 (fun y => M y st.1 st.2) := fun st =>
    siteMatrixAt_rep T hdelta hrho st.1 st.2
  let S0 : Fin k ⊕ Fin k → X → ℝ := fun s y => φ (fun st => M y st.1 st.2) s
  have hS0 : ∀ s, T.O 0 (S0 s) := fun s =>
    T.comp (fun z => φ z s) (fun st y => M y st.1 st.2) hrepM (contDiffAt_pi.mp hφ s)
  have hval : ∀ s, S0 s x0 = x s := fun s => congrFun hφ0 s
  have hMc : ContinuousAt (fun y => (fun st => M y st.1 st.2 : (Fin k ⊕ Fin k) × (Fin k ⊕ Fin k) → ℝ)) x0 :=
    continuousAt_pi.mpr fun st => T.continuousAt (hrepM st)
  have hlim : ∀ S : Fin k ⊕ Fin k → X → ℝ, (∀ s, ContinuousAt (S s) x0) → (∀ s, S s x0 = x s) →
      Tendsto (fun y => ((fun st => M y st.1 st.2 : (Fin k ⊕ Fin k) × (Fin k ⊕ Fin k) → ℝ), (fun s => S s y)))
        (𝓝 x0) (𝓝 ((fun st => M x0 st.1 st.2), x)) := by
    intro S hc hv
    have h1 : ContinuousAt (fun y => fun s => S s y) x0 := continuousAt_pi.mpr hc
    have h2 := hMc.prodMk h1
    unfold ContinuousAt at h2
    beta_reduce at h2
    rwa [funext hv] at h2
  have hbr : SolutionBranch M x0 x S0 := by
    refine ⟨fun s => T.continuousAt (hS0 s), hval, ?_⟩
    filter_upwards [(hlim S0 (fun s => T.continuousAt (hS0 s)) hval).eventually hiff] with y hy
    exact hy.mpr rfl
  obtain ⟨xd, hok, x', hx', hord⟩ := newtonDual_rep T hdelta hrho hM hs tol (S := S0)
    (fun s => by rw [hval]; exact hx s) hbr.solves r le_rfl (x := fun s _ => x s) (xd := fun s => c (x s))
    (fun s => ρ.const (x s)) (fun s => T.first (T.sub (T.const _) (hS0 s)) (by rw [hval]; exact sub_self _))
  refine ⟨xd, hok, ⟨S0, hbr⟩, fun S hS s => ?_⟩
  obtain ⟨d, hd⟩ := T.zero_iff.mp (hS0 s)
  have hdx : xd s = d := T.detect (T.mono_le (by omega) (hord s)) (hx' s) hd
  rw [hdx]
  refine ρ.congr hd ?_
  filter_upwards [(hlim S hS.continuousAt hS.value).eventually hiff, hS.solves] with y h1 h2
  exact congrFun (h1.mp h2) s

/-- First derivatives along a curve: one step with dual numbers gives the derivative of every site fraction. -/
theorem C32_first_derivative {delta : Fin k → Fin k → ℝ → ℝ} {delta' : Fin k → Fin k → ℝ} {rho : Fin k → ℝ → ℝ}
    {rho' : Fin k → ℝ} {na nb : Fin k → ℝ} {t0 : ℝ}
    (hdelta : ∀ i j, HasDerivAt (delta i j) (delta' i j) t0) (hrho : ∀ i, HasDerivAt (rho i) (rho' i) t0)
    (hM : ∀ᶠ t in 𝓝 t0, ∀ s r, 0 ≤ siteMatrix (fun i j => delta i j t) na nb (fun i => rho i t) s r)
    {S : Fin k ⊕ Fin k → ℝ → ℝ} (hS : ∀ᶠ t in 𝓝 t0, (∀ s, 0 < S s t)
      ∧ MassAction (siteMatrix (fun i j => delta i j t) na nb (fun i => rho i t)) (fun s => S s t))
    {solve : Solver k (Dual ℝ)} (hs : CorrectDualSolver solve) (tol : ℝ) :
    ∃ xd b, newtonStep solve (fun i j => ⟨delta i j t0, delta' i j⟩) na nb (fun i => ⟨rho i t0, rho' i⟩) tol
        (fun s => ⟨S s t0, 0⟩) = .ok (xd, b)
      ∧ ∀ s, (xd s).re = S s t0 ∧ HasDerivAt (S s) (xd s).eps t0 := by
  have hT := towerDual (towerReal ()) t0
  have h0 := hS.self_of_nhds
  have hcurve : ∀ {P : ℝ → Prop}, (∀ᶠ t in 𝓝 t0, P t) → ∀ᶠ y : Unit × ℝ in 𝓝 ((), t0), P y.2 := fun h =>
    (continuous_snd.tendsto ((), t0)).eventually h
  obtain ⟨xd, hok, -, hrep⟩ := C32_exact_solution (ρ := repDual lawfulEmb_id rho0 t0) hT
    (delta := fun i j y => delta i j y.2) (rho := fun i y => rho i y.2) (na := na) (nb := nb)
    (fun i j => rho1_curve (hdelta i j)) (fun i => rho1_curve (hrho i)) hM.self_of_nhds h0.1 h0.2 hs tol (r := 1)
    (by norm_num)
  have e0 : (0.0 : ℝ) = 0 := by norm_num
  have hc : (fun s => (c (S s t0) : Dual ℝ)) = fun s => ⟨S s t0, 0⟩ := by
    funext s
    change (⟨S s t0, (0.0 : ℝ)⟩ : Dual ℝ) = _
    rw [e0]
  rw [hc] at hok
  simp only [newtonDual] at hok
  match hstep : newtonStep solve (fun i j => (⟨delta i j t0, delta' i j⟩ : Dual ℝ)) na nb
      (fun i => ⟨rho i t0, rho' i⟩) tol (fun s => ⟨S s t0, 0⟩) with
  | .error e => rw [hstep] at hok; simp at hok
  | .ok (x', b) =>
    rw [hstep] at hok
    simp only [Except.ok.injEq] at hok
    subst hok
    refine ⟨x', b, rfl, fun s => ?_⟩
    have hdc : ∀ i j, ContinuousAt (fun y : Unit × ℝ => delta i j y.2) ((), t0) := fun i j =>
      ContinuousAt.comp (f := Prod.snd) (x := ((), t0)) (hdelta i j).continuousAt continuousAt_snd
    have hrc : ∀ i, ContinuousAt (fun y : Unit × ℝ => rho i y.2) ((), t0) := fun i =>
      ContinuousAt.comp (f := Prod.snd) (x := ((), t0)) (hrho i).continuousAt continuousAt_snd
    have hb : SolutionBranch (siteMatrixAt (fun i j (y : Unit × ℝ) => delta i j y.2) na nb (fun i y => rho i y.2))
        ((), t0) (fun s => S s t0) (fun s y => S s y.2) := by
      refine branch_of_positive ?_ (hcurve hM) h0.1 h0.2 (hcurve hS)
      rintro (i | i) (j | j)
      · exact continuousAt_const
      · exact (hdc i j).mul ((hrc j).mul continuousAt_const)
      · exact (hdc i j).mul ((hrc j).mul continuousAt_const)
      · exact continuousAt_const
    exact curve_of (hrep _ hb s)

/-! ## The energy -/

theorem rep_stateStrength {p : PcSaftParameters n ℝ} {sf : X → StateHD n ℝ} {sd : StateHD n D}
    (hs : StateRel ρ sf sd) (hT : (sf x0).temperature ≠ 0) (heta1 : stateEta p (sf x0) ≠ 1)
    (hr : ∀ a, 0 < hsDiameter p (sf x0).temperature a) (a b : Fin n) :
    ρ.R (fun x => stateStrength p (sf x) a b)
      (associationStrength p sd.temperature (fun i => hsDiameter p sd.temperature i * c (0.5 : ℝ))
        (assocN2 p.m sd.partial_density (fun i => hsDiameter p sd.temperature i * c (0.5 : ℝ)))
        (DualNum.recip (-packingFraction p.m sd.partial_density (fun i => hsDiameter p sd.temperature i * c (0.5 : ℝ))
          + c (1.0 : ℝ))) (c (1.0 : ℝ)) a b) := by
  have hp := ParamRel.refl p
  have hrad := rep_radius lawfulEmb_id hp hs.temperature hT
  have heta := rep_eta lawfulEmb_id hp hs hT
  have h2 := rep_assocN2 lawfulEmb_id hp.m hs.partial_density hrad
  have h3 := ρ.recip' (ρ.add (ρ.neg heta) (ρ.constOf (CR.sci lawfulEmb_id 10 true 1))) (by
    simp only [c, ofF_real]
    norm_num
    intro h
    exact heta1 (by linarith))
  refine rep_associationStrength lawfulEmb_id hp hs.temperature hT h2 h3 (ρ.constOf (CR.sci lawfulEmb_id _ _ _))
    hrad a b ?_
  simp only [c, ofF_real]
  norm_num
  have h1 := hr a
  have h2 := hr b
  positivity

/-- site matrix of the associating components at a state -/
noncomputable def stateSites (p : PcSaftParameters n ℝ) (s : StateHD n ℝ) :
    Fin p.assoc_comp.length ⊕ Fin p.assoc_comp.length → Fin p.assoc_comp.length ⊕ Fin p.assoc_comp.length → ℝ :=
  siteMatrix (fun i j => stateStrength p s (p.assoc_comp.get i) (p.assoc_comp.get j)) (assocNa p) (assocNb p)
    (assocRho p s.partial_density)

/-- the iteration with real numbers at a state, from the default starting point -/
noncomputable def stateLoop (p : PcSaftParameters n ℝ) (max_iter : ℕ) (tol : ℝ)
    (solve : Solver p.assoc_comp.length ℝ) (s : StateHD n ℝ) :
    Except EosError (Fin p.assoc_comp.length ⊕ Fin p.assoc_comp.length → ℝ) :=
  newtonLoop (newtonStep solve (fun i j => stateStrength p s (p.assoc_comp.get i) (p.assoc_comp.get j)) (assocNa p)
    (assocNb p) (assocRho p s.partial_density) tol) max_iter (fun _ => 0.2)

/-- The cross-association contribution evaluated with dual numbers nested `N` times represents the energy
`V Σ ρ_i (n_A f(X_A) + n_B f(X_B))` at the exact site fractions of the states around the given one. -/
theorem C32_energy (Tw : Tower ρ N) {p : PcSaftParameters n ℝ} {T V : X → ℝ} {M : Fin n → X → ℝ} {Td Vd : D}
    {Md : Fin n → D} (hT : ρ.R T Td) (hV : ρ.R V Vd) (hM : ∀ i, ρ.R (M i) (Md i))
    (h : Admissible p (T x0) (V x0) (fun i => M i x0))
    (hcut : (f64EPSILON : ℝ) ≤ ∑ i, M i x0 / V x0)
    (hsites : ∀ s t, 0 ≤ stateSites p (StateHD.new (T x0) (V x0) (fun i => M i x0)) s t)
    {max_iter nderiv : ℕ} (hder : N < 2 ^ nderiv) {tol : ℝ} {solveF : Solver p.assoc_comp.length ℝ}
    {solveD : Solver p.assoc_comp.length D} (hs : CorrectDualSolver solveD)
    {x : Fin p.assoc_comp.length ⊕ Fin p.assoc_comp.length → ℝ}
    (hloop : stateLoop p max_iter tol solveF (StateHD.new (T x0) (V x0) (fun i => M i x0)) = .ok x)
    (hx : ∀ s, 0 < x s)
    (hsol : MassAction (stateSites p (StateHD.new (T x0) (V x0) (fun i => M i x0))) x) :
    ∃ a, crossAssociation p max_iter tol nderiv solveF solveD (StateHD.new Td Vd Md) = .ok a
      ∧ (∃ S, SolutionBranch (fun y => stateSites p (StateHD.new (T y) (V y) (fun i => M i y))) x0 x S)
      ∧ ∀ S, SolutionBranch (fun y => stateSites p (StateHD.new (T y) (V y) (fun i => M i y))) x0 x S →
        ρ.R (fun y => specEnergy (assocNa p) (assocNb p) (fun i => M (p.assoc_comp.get i) y / V y) (fun s => S s y)
          * V y) a := by
  have hst := rep_state lawfulEmb_id hT hV hM h
  have hd := fun i j => rep_stateStrength (p := p) hst h.temperature.ne' (stateEta_lt_one h).ne h.diameter_pos
    (p.assoc_comp.get i) (p.assoc_comp.get j)
  have hrho := fun i => hst.partial_density (p.assoc_comp.get i)
  obtain ⟨xd, hok, hex, hrep⟩ := C32_exact_solution Tw (na := assocNa p) (nb := assocNb p) hd hrho hsites hx hsol hs
    tol hder
  set sd := StateHD.new Td Vd Md with hsd
  have hlt : F64.lt (DualNum.re (sumFin sd.partial_density)) (f64EPSILON : ℝ) = false := by
    have := ρ.re (ρ.sumFin lawfulEmb_id hst.partial_density)
    rw [this, lt_real, sumFin_real]
    simp only [StateHD.new_density]
    exact decide_eq_false (not_lt.mpr hcut)
  have hres : crossAssociation p max_iter tol nderiv solveF solveD sd
      = .ok (energyOf p sd.partial_density xd * sd.volume) := by
    unfold crossAssociation crossAssociationDensity
    simp only [hlt, Bool.false_eq_true, if_false, Option.getD_none]
    have e1 : ∀ i j, DualNum.re (associationStrength p sd.temperature
        (fun i => hsDiameter p sd.temperature i * c (0.5 : ℝ))
        (assocN2 p.m sd.partial_density (fun i => hsDiameter p sd.temperature i * c (0.5 : ℝ)))
        (DualNum.recip (-packingFraction p.m sd.partial_density (fun i => hsDiameter p sd.temperature i * c (0.5 : ℝ))
          + c (1.0 : ℝ))) (c (1.0 : ℝ)) (p.assoc_comp.get i) (p.assoc_comp.get j))
        = stateStrength p (StateHD.new (T x0) (V x0) (fun i => M i x0)) (p.assoc_comp.get i) (p.assoc_comp.get j) :=
      fun i j => ρ.re (hd i j)
    have e2 : ∀ i, DualNum.re (sd.partial_density (p.assoc_comp.get i))
        = (StateHD.new (T x0) (V x0) (fun i => M i x0)).partial_density (p.assoc_comp.get i) :=
      fun i => ρ.re (hrho i)
    simp only [e1, e2]
    have hl : newtonLoop (newtonStep solveF (fun i j => stateStrength p
        (StateHD.new (T x0) (V x0) (fun i => M i x0)) (p.assoc_comp.get i) (p.assoc_comp.get j))
        (fun i => p.na (p.assoc_comp.get i)) (fun i => p.nb (p.assoc_comp.get i))
        (fun i => (StateHD.new (T x0) (V x0) (fun i => M i x0)).partial_density (p.assoc_comp.get i)) tol)
        max_iter (fun _ => 0.2) = .ok x := hloop
    rw [hl]
    simp only
    have hok' : newtonDual (newtonStep solveD (fun i j => associationStrength p sd.temperature
        (fun i => hsDiameter p sd.temperature i * c (0.5 : ℝ))
        (assocN2 p.m sd.partial_density (fun i => hsDiameter p sd.temperature i * c (0.5 : ℝ)))
        (DualNum.recip (-packingFraction p.m sd.partial_density (fun i => hsDiameter p sd.temperature i * c (0.5 : ℝ))
          + c (1.0 : ℝ))) (c (1.0 : ℝ)) (p.assoc_comp.get i) (p.assoc_comp.get j))
        (fun i => p.na (p.assoc_comp.get i)) (fun i => p.nb (p.assoc_comp.get i))
        (fun i => sd.partial_density (p.assoc_comp.get i)) tol) nderiv (fun s => c (x s)) = .ok xd := hok
    rw [hok']
    rfl
  refine ⟨_, hres, hex, fun S hS => ?_⟩
  have hSx := hrep S hS
  have hpos : ∀ s, 0 < S s x0 := fun s => by rw [hS.value]; exact hx s
  have hsum := ρ.sumFin lawfulEmb_id (fun i => ρ.mul (hrho i) (ρ.add
    (ρ.mul (rep_assocF lawfulEmb_id (hSx (.inl i)) (hpos _)) (ρ.constOf (a := assocNa p i) rfl))
    (ρ.mul (rep_assocF lawfulEmb_id (hSx (.inr i)) (hpos _)) (ρ.constOf (a := assocNb p i) rfl))))
  have hmul := ρ.mul hsum hst.volume
  refine ρ.congr hmul (.of_forall fun y => ?_)
  exact congrArg (· * V y)
    (energyOf_real p (StateHD.new (T y) (V y) (fun i => M i y)).partial_density (fun s => S s y))

/-- the exact solution along a curve of admissible states is a branch in the sense of `SolutionBranch` -/
theorem solution_along_curve {pr : Fin n → PureRecord ℝ} {kij : Fin n → Fin n → ℝ}
    {p : PcSaftParameters n ℝ} (hp : p = fromRecords pr kij) {T V : ℝ → ℝ}
    {M : Fin n → ℝ → ℝ} {T' V' : ℝ} {M' : Fin n → ℝ} {t0 : ℝ}
    (hT : HasDerivAt T T' t0) (hV : HasDerivAt V V' t0) (hM : ∀ i, HasDerivAt (M i) (M' i) t0)
    (h : ∀ᶠ t in 𝓝 t0, Admissible p (T t) (V t) (fun i => M i t))
    (hε : ∀ i, 0 ≤ p.epsilon_k_ab i) (hna : ∀ i, 0 ≤ p.na i)
    (hnb : ∀ i, 0 ≤ p.nb i)
    {S : Fin p.assoc_comp.length ⊕ Fin p.assoc_comp.length → ℝ → ℝ}
    (hS : ∀ᶠ t in 𝓝 t0, (∀ s, 0 < S s t) ∧ MassAction (siteMatrix
      (fun i j => specStrength p (T t) (V t) (fun i => M i t)
        (p.assoc_comp.get i) (p.assoc_comp.get j))
      (assocNa p) (assocNb p)
      (fun i => M (p.assoc_comp.get i) t / V t)) (fun s => S s t)) :
    (∀ t, Admissible p (T t) (V t) (fun i => M i t) →
      stateSites p (StateHD.new (T t) (V t) (fun i => M i t)) = siteMatrix
        (fun i j => specStrength p (T t) (V t) (fun i => M i t) (p.assoc_comp.get i) (p.assoc_comp.get j))
        (assocNa p) (assocNb p) (fun i => M (p.assoc_comp.get i) t / V t))
    ∧ (∀ t, Admissible p (T t) (V t) (fun i => M i t) →
      ∀ s r, 0 ≤ stateSites p (StateHD.new (T t) (V t) (fun i => M i t)) s r)
    ∧ (∀ᶠ t in 𝓝 t0, (∀ s, 0 < S s t)
      ∧ MassAction (stateSites p (StateHD.new (T t) (V t) (fun i => M i t))) (fun s => S s t))
    ∧ SolutionBranch (fun y : Unit × ℝ => stateSites p (StateHD.new (T y.2) (V y.2) (fun i => M i y.2)))
      ((), t0) (fun s => S s t0) (fun s y => S s y.2) := by
  have hcurve : ∀ {P : ℝ → Prop}, (∀ᶠ t in 𝓝 t0, P t) → ∀ᶠ y : Unit × ℝ in 𝓝 ((), t0), P y.2 := fun h =>
    (continuous_snd.tendsto ((), t0)).eventually h
  have hspec : ∀ t, Admissible p (T t) (V t) (fun i => M i t) → ∀ i ∈ p.assoc_comp, ∀ j ∈ p.assoc_comp,
      stateStrength p (StateHD.new (T t) (V t) (fun i => M i t)) i j
        = specStrength p (T t) (V t) (fun i => M i t) i j := by
    subst hp
    intro t ht i hi j hj
    exact C58_association_strength pr kij _ _ _ ht _ _ ((mem_assoc_iff pr kij _).1 hi) ((mem_assoc_iff pr kij _).1 hj)
  have hmat : ∀ t, Admissible p (T t) (V t) (fun i => M i t) →
      stateSites p (StateHD.new (T t) (V t) (fun i => M i t)) = siteMatrix
        (fun i j => specStrength p (T t) (V t) (fun i => M i t) (p.assoc_comp.get i) (p.assoc_comp.get j))
        (assocNa p) (assocNb p) (fun i => M (p.assoc_comp.get i) t / V t) := by
    intro t ht
    have e : (fun i j => stateStrength p (StateHD.new (T t) (V t) (fun i => M i t)) (p.assoc_comp.get i)
        (p.assoc_comp.get j)) = fun i j => specStrength p (T t) (V t) (fun i => M i t) (p.assoc_comp.get i)
          (p.assoc_comp.get j) := by
      funext i j
      exact hspec t ht _ (List.get_mem _ _) _ (List.get_mem _ _)
    unfold stateSites
    rw [e]
    rfl
  have hnn : ∀ t, Admissible p (T t) (V t) (fun i => M i t) →
      ∀ s r, 0 ≤ stateSites p (StateHD.new (T t) (V t) (fun i => M i t)) s r := by
    intro t ht
    rw [hmat t ht]
    exact siteMatrix_nonneg (fun i j => specStrength_nonneg ht _ _ (add_nonneg (hε _) (hε _))) (fun i => hna _)
      (fun i => hnb _) (fun i => div_nonneg (ht.moles_nonneg _) ht.volume.le)
  have hS' : ∀ᶠ t in 𝓝 t0, (∀ s, 0 < S s t)
      ∧ MassAction (stateSites p (StateHD.new (T t) (V t) (fun i => M i t))) (fun s => S s t) := by
    filter_upwards [h, hS] with t h1 h2
    rw [hmat t h1]
    exact h2
  have h0 := h.self_of_nhds
  obtain ⟨hS0, hS1⟩ := hS'.self_of_nhds
  have hst := rep_state lawfulEmb_id (rho1_curve hT) (rho1_curve hV) (fun i => rho1_curve (hM i)) h0
  have hdc := fun i j => (repDual lawfulEmb_id rho0 t0).continuousAt
    (rep_stateStrength (p := p) hst h0.temperature.ne' (stateEta_lt_one h0).ne h0.diameter_pos
      (p.assoc_comp.get i) (p.assoc_comp.get j))
  have hrc := fun i => (repDual lawfulEmb_id rho0 t0).continuousAt (hst.partial_density (p.assoc_comp.get i))
  have hb : SolutionBranch (fun y : Unit × ℝ => stateSites p (StateHD.new (T y.2) (V y.2) (fun i => M i y.2)))
      ((), t0) (fun s => S s t0) (fun s y => S s y.2) := by
    refine branch_of_positive ?_ (hcurve (h.mono fun t ht => hnn t ht)) hS0 hS1 (hcurve hS')
    rintro (i | i) (j | j)
    · exact continuousAt_const
    · exact (hdc i j).mul ((hrc j).mul continuousAt_const)
    · exact (hdc i j).mul ((hrc j).mul continuousAt_const)
    · exact continuousAt_const
  exact ⟨hmat, hnn, hS', hb⟩

/-- First derivatives of the cross-association energy along a curve of admissible states (pressure, entropy,
chemical potentials), with the association strengths of the theory and the unique positive site fractions. -/
theorem C32_energy_along_curve {pr : Fin n → PureRecord ℝ} {kij : Fin n → Fin n → ℝ} 
    {p : PcSaftParameters n ℝ} (hp : p = fromRecords pr kij) {T V : ℝ → ℝ}
    {M : Fin n → ℝ → ℝ} {T' V' : ℝ} {M' : Fin n → ℝ} {t0 : ℝ}
    (hT : HasDerivAt T T' t0) (hV : HasDerivAt V V' t0) (hM : ∀ i, HasDerivAt (M i) (M' i) t0)
    (h : ∀ᶠ t in 𝓝 t0, Admissible p (T t) (V t) (fun i => M i t))
    (hcut : (f64EPSILON : ℝ) ≤ ∑ i, M i t0 / V t0)
    (hε : ∀ i, 0 ≤ p.epsilon_k_ab i) (hna : ∀ i, 0 ≤ p.na i)
    (hnb : ∀ i, 0 ≤ p.nb i)
    {S : Fin p.assoc_comp.length ⊕ Fin p.assoc_comp.length → ℝ → ℝ}
    (hS : ∀ᶠ t in 𝓝 t0, (∀ s, 0 < S s t) ∧ MassAction (siteMatrix
      (fun i j => specStrength p (T t) (V t) (fun i => M i t)
        (p.assoc_comp.get i) (p.assoc_comp.get j))
      (assocNa p) (assocNb p)
      (fun i => M (p.assoc_comp.get i) t / V t)) (fun s => S s t))
    {max_iter : ℕ} {tol : ℝ} {solveF : Solver p.assoc_comp.length ℝ}
    {solveD : Solver p.assoc_comp.length (Dual ℝ)} (hs : CorrectDualSolver solveD)
    (hloop : stateLoop p max_iter tol solveF (StateHD.new (T t0) (V t0) (fun i => M i t0))
      = .ok (fun s => S s t0)) :
    ∃ a, crossAssociation p max_iter tol 1 solveF solveD
        (StateHD.new (⟨T t0, T'⟩ : Dual ℝ) ⟨V t0, V'⟩ (fun i => ⟨M i t0, M' i⟩)) = .ok a
      ∧ a.re = specEnergy (assocNa p) (assocNb p)
        (fun i => M (p.assoc_comp.get i) t0 / V t0) (fun s => S s t0) * V t0
      ∧ HasDerivAt (fun t => specEnergy (assocNa p) (assocNb p)
        (fun i => M (p.assoc_comp.get i) t / V t) (fun s => S s t) * V t) a.eps t0 := by
  obtain ⟨hmat, hnn, hS', hb⟩ := solution_along_curve hp hT hV hM h hε hna hnb hS
  have h0 := h.self_of_nhds
  obtain ⟨hS0, hS1⟩ := hS'.self_of_nhds
  obtain ⟨a, h1, -, h2⟩ := C32_energy (ρ := repDual lawfulEmb_id rho0 t0) (towerDual (towerReal ()) t0) (p := p)
    (rho1_curve hT) (rho1_curve hV) (fun i => rho1_curve (hM i)) h0 hcut (hnn t0 h0) (nderiv := 1)
    (by norm_num) hs hloop hS0 hS1
  exact ⟨a, h1, curve_of (h2 _ hb)⟩

/-- Second derivatives of the cross-association energy in two independent directions. -/
theorem C32_energy_second_order {p : PcSaftParameters n ℝ} {T V : ℝ} {M : Fin n → ℝ} (Tu Tw Vu Vw : ℝ)
    (Mu Mw : Fin n → ℝ) (h : Admissible p T V M) (hcut : (f64EPSILON : ℝ) ≤ ∑ i, M i / V)
    (hsites : ∀ s t, 0 ≤ stateSites p (StateHD.new T V M) s t)
    {max_iter : ℕ} {tol : ℝ} {solveF : Solver p.assoc_comp.length ℝ}
    {solveD : Solver p.assoc_comp.length (Dual (Dual ℝ))} (hs : CorrectDualSolver solveD)
    {x : Fin p.assoc_comp.length ⊕ Fin p.assoc_comp.length → ℝ}
    (hloop : stateLoop p max_iter tol solveF (StateHD.new T V M) = .ok x)
    (hx : ∀ s, 0 < x s) (hsol : MassAction (stateSites p (StateHD.new T V M)) x) :
    ∃ a, crossAssociation p max_iter tol 2 solveF solveD
        (StateHD.new (⟨⟨T, Tu⟩, ⟨Tw, 0⟩⟩ : Dual (Dual ℝ)) ⟨⟨V, Vu⟩, ⟨Vw, 0⟩⟩ (fun i => ⟨⟨M i, Mu i⟩, ⟨Mw i, 0⟩⟩))
          = .ok a
      ∧ ∃ S : Fin p.assoc_comp.length ⊕ Fin p.assoc_comp.length → (Unit × ℝ) × ℝ → ℝ,
        SolutionBranch (fun y => stateSites p (StateHD.new (T + y.1.2 * Tu + y.2 * Tw) (V + y.1.2 * Vu + y.2 * Vw)
          (fun i => M i + y.1.2 * Mu i + y.2 * Mw i))) (((), 0), 0) x S
        ∧ Jet2 (fun u w => specEnergy (assocNa p) (assocNb p)
          (fun i => (M (p.assoc_comp.get i) + u * Mu (p.assoc_comp.get i) + w * Mw (p.assoc_comp.get i))
            / (V + u * Vu + w * Vw)) (fun s => S s (((), u), w)) * (V + u * Vu + w * Vw)) a := by
  obtain ⟨a, h1, ⟨S, hS⟩, h2⟩ := C32_energy (ρ := rho2) (towerDual (towerDual (towerReal ()) 0) 0) (p := p)
    (rho2_seed T Tu Tw) (rho2_seed V Vu Vw) (fun i => rho2_seed (M i) (Mu i) (Mw i)) (by simpa using h)
    (by simpa using hcut) (by simpa using hsites) (nderiv := 2) (by norm_num) hs (by simpa using hloop) hx
    (by simpa using hsol)
  exact ⟨a, h1, S, hS, jet2_of (h2 S hS)⟩

/-- Third derivatives of the cross-association energy in three independent directions. -/
theorem C32_energy_third_order {p : PcSaftParameters n ℝ} {T V : ℝ} {M : Fin n → ℝ} (Tu Tv Tw Vu Vv Vw : ℝ)
    (Mu Mv Mw : Fin n → ℝ) (h : Admissible p T V M) (hcut : (f64EPSILON : ℝ) ≤ ∑ i, M i / V)
    (hsites : ∀ s t, 0 ≤ stateSites p (StateHD.new T V M) s t)
    {max_iter : ℕ} {tol : ℝ} {solveF : Solver p.assoc_comp.length ℝ}
    {solveD : Solver p.assoc_comp.length (Dual (Dual (Dual ℝ)))} (hs : CorrectDualSolver solveD)
    {x : Fin p.assoc_comp.length ⊕ Fin p.assoc_comp.length → ℝ}
    (hloop : stateLoop p max_iter tol solveF (StateHD.new T V M) = .ok x)
    (hx : ∀ s, 0 < x s) (hsol : MassAction (stateSites p (StateHD.new T V M)) x) :
    ∃ a, crossAssociation p max_iter tol 3 solveF solveD
        (StateHD.new (⟨⟨⟨T, Tu⟩, ⟨Tv, 0⟩⟩, ⟨⟨Tw, 0⟩, ⟨0, 0⟩⟩⟩ : Dual (Dual (Dual ℝ)))
          ⟨⟨⟨V, Vu⟩, ⟨Vv, 0⟩⟩, ⟨⟨Vw, 0⟩, ⟨0, 0⟩⟩⟩
          (fun i => ⟨⟨⟨M i, Mu i⟩, ⟨Mv i, 0⟩⟩, ⟨⟨Mw i, 0⟩, ⟨0, 0⟩⟩⟩)) = .ok a
      ∧ ∃ S : Fin p.assoc_comp.length ⊕ Fin p.assoc_comp.length → ((Unit × ℝ) × ℝ) × ℝ → ℝ,
        SolutionBranch (fun y => stateSites p (StateHD.new (T + y.1.1.2 * Tu + y.1.2 * Tv + y.2 * Tw)
          (V + y.1.1.2 * Vu + y.1.2 * Vv + y.2 * Vw)
          (fun i => M i + y.1.1.2 * Mu i + y.1.2 * Mv i + y.2 * Mw i))) ((((), 0), 0), 0) x S
        ∧ Jet3 (fun u v w => specEnergy (assocNa p) (assocNb p)
          (fun i => (M (p.assoc_comp.get i) + u * Mu (p.assoc_comp.get i) + v * Mv (p.assoc_comp.get i)
            + w * Mw (p.assoc_comp.get i)) / (V + u * Vu + v * Vv + w * Vw))
          (fun s => S s ((((), u), v), w)) * (V + u * Vu + v * Vv + w * Vw)) a := by
  obtain ⟨a, h1, ⟨S, hS⟩, h2⟩ := C32_energy (ρ := rho3) (towerDual (towerDual (towerDual (towerReal ()) 0) 0) 0)
    (p := p) (rho3_seed T Tu Tv Tw) (rho3_seed V Vu Vv Vw) (fun i => rho3_seed (M i) (Mu i) (Mv i) (Mw i))
    (by simpa using h) (by simpa using hcut) (by simpa using hsites) (nderiv := 3) (by norm_num) hs
    (by simpa using hloop) hx (by simpa using hsol)
  exact ⟨a, h1, S, hS, jet3_of (h2 S hS)⟩

/-! ## Inexact real solution -/

/-- derivative of the error after one step from a fixed vector `x` -/
theorem inexact_derivative {ι : Type} [Fintype ι] {M : ι → ι → ℝ → ℝ} {M' : ι → ι → ℝ} {x : ι → ℝ}
    {z S : ι → ℝ → ℝ} {z' S' : ι → ℝ} {t0 ε μ σ P : ℝ}
    (hM : ∀ s t, HasDerivAt (M s t) (M' s t) t0) (hz : ∀ s, HasDerivAt (z s) (z' s) t0)
    (hS : ∀ s, HasDerivAt (S s) (S' s) t0)
    (hid : ∀ᶠ t in 𝓝 t0, ∀ s, (1 + ∑ r, M s r t * x r) / x s * (z s t - S s t)
      + ∑ r, M s r t * (z r t - S r t) = (x s)⁻¹ * ((x s - S s t) * ∑ r, M s r t * (x r - S r t)))
    (hM0 : ∀ s r, 0 ≤ M s r t0) (hx : ∀ s, 0 < x s) (hε0 : 0 ≤ ε) (hμ0 : 0 ≤ μ) (hσ0 : 0 ≤ σ)
    (hε : ∀ s, |x s - S s t0| ≤ ε * x s) (hμ : ∀ s r, |M' s r| ≤ μ * M s r t0) (hσ : ∀ s, |S' s| ≤ σ * x s)
    (hP : ∀ s, 1 + ∑ r, M s r t0 * x r ≤ P) (s : ι) :
    |z s t0 - S s t0| ≤ P * ε ^ 2 * x s
    ∧ |z' s - S' s| ≤ P * (2 * σ * ε + μ * ε ^ 2 + 2 * μ * (P * ε ^ 2)) * x s := by
  have hsum : ∀ (v : ι → ℝ) (b : ℝ), (∀ r, |v r| ≤ b * x r) → ∀ s, |∑ r, M s r t0 * v r| ≤ b * ∑ r, M s r t0 * x r := by
    intro v b hv s
    refine (Finset.abs_sum_le_sum_abs _ _).trans ?_
    rw [Finset.mul_sum]
    refine Finset.sum_le_sum fun r _ => ?_
    rw [abs_mul, abs_of_nonneg (hM0 s r)]
    nlinarith [hM0 s r, hv r]
  have hsum' : ∀ (v : ι → ℝ) (b : ℝ), 0 ≤ b → (∀ r, |v r| ≤ b * x r) →
      ∀ s, |∑ r, M' s r * v r| ≤ μ * b * ∑ r, M s r t0 * x r := by
    intro v b hb hv s
    refine (Finset.abs_sum_le_sum_abs _ _).trans ?_
    rw [Finset.mul_sum]
    refine Finset.sum_le_sum fun r _ => ?_
    rw [abs_mul]
    have := mul_le_mul (hμ s r) (hv r) (abs_nonneg _) (mul_nonneg hμ0 (hM0 s r))
    nlinarith
  have hQ0 : ∀ s, 0 ≤ ∑ r, M s r t0 * x r := fun s => sum_mul_nonneg hM0 (fun r => (hx r).le) s
  have hP0 : 0 ≤ P := by linarith [hQ0 s, hP s]
  have hQ : ∀ s, ∑ r, M s r t0 * x r ≤ P := fun s => by linarith [hP s]
  -- the error itself
  have he' : ∀ s, |z s t0 - S s t0| ≤ P * ε ^ 2 * x s := by
    refine newton_step_bound hM0 hx (fun s => ?_) (fun s => hid.self_of_nhds s)
    rw [abs_mul, abs_mul, abs_of_pos (inv_pos.mpr (hx s))]
    have h1 := hε s
    have h2 := hsum (fun r => x r - S r t0) ε hε s
    have h3 : |∑ r, M s r t0 * (x r - S r t0)| ≤ ε * P := h2.trans (mul_le_mul_of_nonneg_left (hQ s) hε0)
    calc (x s)⁻¹ * (|x s - S s t0| * |∑ r, M s r t0 * (x r - S r t0)|)
        ≤ (x s)⁻¹ * ((ε * x s) * (ε * P)) := by
          refine mul_le_mul_of_nonneg_left ?_ (inv_pos.mpr (hx s)).le
          exact mul_le_mul h1 h3 (abs_nonneg _) (mul_nonneg hε0 (hx s).le)
      _ = P * ε ^ 2 := by
          have := (hx s).ne'
          field_simp
  -- the differentiated equation
  have hder : ∀ s, (1 + ∑ r, M s r t0 * x r) / x s * (z' s - S' s) + ∑ r, M s r t0 * (z' r - S' r)
      = (x s)⁻¹ * (-S' s * ∑ r, M s r t0 * (x r - S r t0)
          + (x s - S s t0) * (∑ r, M' s r * (x r - S r t0) - ∑ r, M s r t0 * S' r))
        - (∑ r, M' s r * x r) / x s * (z s t0 - S s t0) - ∑ r, M' s r * (z r t0 - S r t0) := by
    intro s
    have hzS : ∀ r, HasDerivAt (fun t => z r t - S r t) (z' r - S' r) t0 := fun r => (hz r).sub (hS r)
    have hxS : ∀ r, HasDerivAt (fun t => x r - S r t) (-S' r) t0 := fun r => by
      simpa using (hS r).const_sub (x r)
    have h1 : HasDerivAt (fun t => 1 + ∑ r, M s r t * x r) (∑ r, M' s r * x r) t0 :=
      (HasDerivAt.fun_sum fun r _ => (hM s r).mul_const (x r)).const_add 1
    have h2 : HasDerivAt (fun t => ∑ r, M s r t * (z r t - S r t))
        (∑ r, (M' s r * (z r t0 - S r t0) + M s r t0 * (z' r - S' r))) t0 :=
      HasDerivAt.fun_sum fun r _ => (hM s r).mul (hzS r)
    have h3 : HasDerivAt (fun t => ∑ r, M s r t * (x r - S r t))
        (∑ r, (M' s r * (x r - S r t0) + M s r t0 * (-S' r))) t0 :=
      HasDerivAt.fun_sum fun r _ => (hM s r).mul (hxS r)
    have hL := ((h1.div_const (x s)).mul (hzS s)).add h2
    have hR := ((hxS s).mul h3).const_mul (x s)⁻¹
    have := hL.unique (hR.congr_of_eventuallyEq (hid.mono fun t ht => ht s))
    simp only [Finset.sum_add_distrib, mul_neg, Finset.sum_neg_distrib] at this
    linear_combination this
  refine ⟨he' s, newton_step_bound hM0 hx (fun s => ?_) hder s⟩
  have hxs := hx s
  have hx' := inv_pos.mpr hxs
  have hPe : 0 ≤ P * ε ^ 2 := by positivity
  have b1 : |-S' s * ∑ r, M s r t0 * (x r - S r t0)| ≤ σ * x s * (ε * P) := by
    rw [abs_mul, abs_neg]
    exact mul_le_mul (hσ s) ((hsum _ ε hε s).trans (mul_le_mul_of_nonneg_left (hQ s) hε0)) (abs_nonneg _)
      (mul_nonneg hσ0 hxs.le)
  have b2 : |∑ r, M' s r * (x r - S r t0)| ≤ μ * ε * P :=
    (hsum' _ ε hε0 hε s).trans (mul_le_mul_of_nonneg_left (hQ s) (mul_nonneg hμ0 hε0))
  have b3 : |∑ r, M s r t0 * S' r| ≤ σ * P := (hsum _ σ hσ s).trans (mul_le_mul_of_nonneg_left (hQ s) hσ0)
  have b4 : |(x s - S s t0) * (∑ r, M' s r * (x r - S r t0) - ∑ r, M s r t0 * S' r)|
      ≤ ε * x s * (μ * ε * P + σ * P) := by
    rw [abs_mul]
    exact mul_le_mul (hε s) ((abs_sub _ _).trans (add_le_add b2 b3)) (abs_nonneg _) (mul_nonneg hε0 hxs.le)
  have b5 : |(∑ r, M' s r * x r) / x s * (z s t0 - S s t0)| ≤ μ * P * (P * ε ^ 2) := by
    rw [abs_mul, abs_div, abs_of_pos hxs]
    have h1 : |∑ r, M' s r * x r| ≤ μ * P := by
      have := hsum' x 1 zero_le_one (fun r => by rw [one_mul, abs_of_pos (hx r)]) s
      rw [mul_one] at this
      exact this.trans (mul_le_mul_of_nonneg_left (hQ s) hμ0)
    calc |∑ r, M' s r * x r| / x s * |z s t0 - S s t0| ≤ μ * P / x s * (P * ε ^ 2 * x s) :=
          mul_le_mul (div_le_div_of_nonneg_right h1 hxs.le) (he' s) (abs_nonneg _) (by positivity)
      _ = _ := by field_simp
  have b6 : |∑ r, M' s r * (z r t0 - S r t0)| ≤ μ * (P * ε ^ 2) * P :=
    (hsum' _ _ hPe he' s).trans (mul_le_mul_of_nonneg_left (hQ s) (mul_nonneg hμ0 hPe))
  refine (abs_sub _ _).trans ?_
  refine (add_le_add ((abs_sub _ _).trans (add_le_add ?_ b5)) b6).trans
    (b := (x s)⁻¹ * (σ * x s * (ε * P) + ε * x s * (μ * ε * P + σ * P)) + μ * P * (P * ε ^ 2)
      + μ * (P * ε ^ 2) * P) ?_
  · rw [abs_mul, abs_of_pos hx']
    exact mul_le_mul_of_nonneg_left ((abs_add_le _ _).trans (add_le_add b1 b4)) hx'.le
  · apply le_of_eq
    have := hxs.ne'
    field_simp
    ring

/-- With a real solution that is only accurate to a relative error `ε` (the code stops at its tolerance), the
derivatives after the step with dual numbers have a relative error proportional to `ε`. `μ` and `σ` bound the
relative derivatives of the association strengths times densities and of the site fractions, `P` the inverse
site fractions. -/
theorem C32_inexact_start {delta : Fin k → Fin k → ℝ → ℝ} {delta' : Fin k → Fin k → ℝ} {rho : Fin k → ℝ → ℝ}
    {rho' : Fin k → ℝ} {na nb : Fin k → ℝ} {t0 : ℝ}
    (hdelta : ∀ i j, HasDerivAt (delta i j) (delta' i j) t0) (hrho : ∀ i, HasDerivAt (rho i) (rho' i) t0)
    (hM : ∀ᶠ t in 𝓝 t0, ∀ s r, 0 ≤ siteMatrix (fun i j => delta i j t) na nb (fun i => rho i t) s r)
    {S : Fin k ⊕ Fin k → ℝ → ℝ} (hS : ∀ᶠ t in 𝓝 t0, (∀ s, 0 < S s t)
      ∧ MassAction (siteMatrix (fun i j => delta i j t) na nb (fun i => rho i t)) (fun s => S s t))
    {S' : Fin k ⊕ Fin k → ℝ} (hS' : ∀ s, HasDerivAt (S s) (S' s) t0)
    {solve : Solver k (Dual ℝ)} (hs : CorrectDualSolver solve) (tol : ℝ)
    {x : Fin k ⊕ Fin k → ℝ} (hx : ∀ s, 0 < x s) {ε μ σ P : ℝ} (hε0 : 0 ≤ ε) (hμ0 : 0 ≤ μ) (hσ0 : 0 ≤ σ)
    (hε : ∀ s, |x s - S s t0| ≤ ε * x s)
    (hμ : ∀ s r, |deriv (fun t => siteMatrix (fun i j => delta i j t) na nb (fun i => rho i t) s r) t0|
      ≤ μ * siteMatrix (fun i j => delta i j t0) na nb (fun i => rho i t0) s r)
    (hσ : ∀ s, |S' s| ≤ σ * x s)
    (hP : ∀ s, 1 + ∑ r, siteMatrix (fun i j => delta i j t0) na nb (fun i => rho i t0) s r * x r ≤ P) :
    ∃ xd b, newtonStep solve (fun i j => ⟨delta i j t0, delta' i j⟩) na nb (fun i => ⟨rho i t0, rho' i⟩) tol
        (fun s => c (x s)) = .ok (xd, b)
      ∧ ∀ s, |(xd s).re - S s t0| ≤ P * ε ^ 2 * x s
        ∧ |(xd s).eps - S' s| ≤ P * (2 * σ * ε + μ * ε ^ 2 + 2 * μ * (P * ε ^ 2)) * x s := by
  have hTw := towerDual (towerReal ()) t0
  have hd := fun i j => rho1_curve (hdelta i j)
  have hr := fun i => rho1_curve (hrho i)
  obtain ⟨hdet, xd, b, hok, hrep⟩ := newtonStep_rep (ρ := repDual lawfulEmb_id rho0 t0) hTw
    (delta := fun i j y => delta i j y.2) (rho := fun i y => rho i y.2) (na := na) (nb := nb) hd hr hM.self_of_nhds hs
    tol (x := fun s _ => x s) (fun s => (repDual lawfulEmb_id rho0 t0).const (x s)) hx
  refine ⟨xd, b, hok, fun s => ?_⟩
  set z : Fin k ⊕ Fin k → ℝ → ℝ := fun s t => x s - ((stepMatrix (fun i j (y : Unit × ℝ) => delta i j y.2) na nb
    (fun i y => rho i y.2) (fun s _ => x s) ((), t))⁻¹.mulVec
      (newtonG (fun i j => delta i j t) na nb (fun i => rho i t) x)) s with hz
  have hzd : ∀ s, (xd s).re = z s t0 ∧ HasDerivAt (z s) (xd s).eps t0 := fun s => curve_of (hrep s)
  rw [(hzd s).1]
  have hMd : ∀ s r, HasDerivAt (fun t => siteMatrix (fun i j => delta i j t) na nb (fun i => rho i t) s r)
      (deriv (fun t => siteMatrix (fun i j => delta i j t) na nb (fun i => rho i t) s r) t0) t0 := by
    intro s r
    apply DifferentiableAt.hasDerivAt
    have h : ∀ (nn : Fin k → ℝ) i j, DifferentiableAt ℝ (fun t => delta i j t * (rho j t * nn j)) t0 := fun nn i j =>
      (hdelta i j).differentiableAt.mul ((hrho j).differentiableAt.mul_const _)
    rcases s with i | i <;> rcases r with j | j
    · exact differentiableAt_const _
    · exact h nb i j
    · exact h na i j
    · exact differentiableAt_const _
  have hHrep := rep_newtonH (ρ := repDual lawfulEmb_id rho0 t0) (na := na) (nb := nb) hd hr
    (x := fun s _ => x s) (fun s => (repDual lawfulEmb_id rho0 t0).const (x s)) (fun s => (hx s).ne')
  have hdet' : ∀ᶠ t in 𝓝 t0, (stepMatrix (fun i j (y : Unit × ℝ) => delta i j y.2) na nb
      (fun i y => rho i y.2) (fun s _ => x s) ((), t)).det ≠ 0 := by
    have h1 := hTw.eventually_det_ne (A := stepMatrix (fun i j (y : Unit × ℝ) => delta i j y.2) na nb
      (fun i y => rho i y.2) (fun s _ => x s)) (fun s t => hTw.of_rep (hHrep s t)) hdet
    have h2 : Tendsto (fun t : ℝ => ((), t)) (𝓝 t0) (𝓝 ((), t0)) := (Continuous.prodMk_right ()).tendsto t0
    exact h2.eventually h1
  refine inexact_derivative hMd (fun s => (hzd s).2) hS' ?_ hM.self_of_nhds hx hε0 hμ0 hσ0 hε hμ hσ hP s
  filter_upwards [hdet', hS] with t ht hSt s
  set A := stepMatrix (fun i j (y : Unit × ℝ) => delta i j y.2) na nb (fun i y => rho i y.2) (fun s _ => x s)
    ((), t) with hA
  set g := newtonG (fun i j => delta i j t) na nb (fun i => rho i t) x with hg
  set Mt := siteMatrix (fun i j => delta i j t) na nb (fun i => rho i t) with hMt
  have hAw : A.mulVec (A⁻¹.mulVec g) = g := by
    rw [Matrix.mulVec_mulVec, Matrix.mul_nonsing_inv _ (isUnit_iff_ne_zero.2 ht), Matrix.one_mulVec]
  have h1 : ∑ r, newtonH (fun i j => delta i j t) na nb (fun i => rho i t) x s r * (A⁻¹.mulVec g) r = g s :=
    congrFun hAw s
  rw [newtonH_real, hg, newtonG_real] at h1
  have hms : S s t * (1 + ∑ r, Mt s r * S r t) = 1 := hSt.2 s
  have hS0 : S s t ≠ 0 := (hSt.1 s).ne'
  have hxs := (hx s).ne'
  have e1 : ∑ r, Mt s r * (z r t - S r t)
      = ∑ r, Mt s r * x r - ∑ r, Mt s r * (A⁻¹.mulVec g) r - ∑ r, Mt s r * S r t := by
    rw [← Finset.sum_sub_distrib, ← Finset.sum_sub_distrib]
    exact Finset.sum_congr rfl fun r _ => by simp only [hz]; ring
  have e2 : ∑ r, Mt s r * (x r - S r t) = ∑ r, Mt s r * x r - ∑ r, Mt s r * S r t := by
    rw [← Finset.sum_sub_distrib]
    exact Finset.sum_congr rfl fun r _ => by ring
  rw [e1, e2]
  have e3 : z s t = x s - (A⁻¹.mulVec g) s := rfl
  rw [e3]
  have hQ : ∑ r, Mt s r * S r t = (S s t)⁻¹ - 1 := by field_simp; linarith
  rw [hQ]
  have e4 : (1 + ∑ r, Mt s r * x r) / x s * (A⁻¹.mulVec g) s + ∑ r, Mt s r * (A⁻¹.mulVec g) r
      = (1 + ∑ r, Mt s r * x r) - (x s)⁻¹ := by linarith
  generalize (A⁻¹.mulVec g) s = w at *
  generalize ∑ r, Mt s r * (A⁻¹.mulVec g) r = W at *
  generalize ∑ r, Mt s r * x r = Q at *
  have hW : W = (1 + Q) - (x s)⁻¹ - (1 + Q) / x s * w := by linarith
  rw [hW]
  field_simp
  ring

/-! ## Non-vacuity -/

/-- fraction of a donor or acceptor site at the density `1 + t` if the association strength is 2 -/
noncomputable def exampleFraction (t : ℝ) : ℝ := (Real.sqrt (1 + 8 * (1 + t)) - 1) / (4 * (1 + t))

theorem exampleFraction_solves (t : ℝ) (ht : -1 < t) :
    0 < exampleFraction t ∧ exampleFraction t * (1 + 2 * (1 + t) * exampleFraction t) = 1 := by
  have h1 : 0 < 1 + t := by linarith
  have h2 : 0 ≤ 1 + 8 * (1 + t) := by linarith
  have h3 := Real.sq_sqrt h2
  have h4 : 1 < Real.sqrt (1 + 8 * (1 + t)) := by
    rw [Real.lt_sqrt (by norm_num)]
    linarith
  refine ⟨div_pos (by linarith) (by linarith), ?_⟩
  simp only [exampleFraction]
  generalize Real.sqrt (1 + 8 * (1 + t)) = q at *
  field_simp
  nlinarith

theorem exampleFraction_zero : exampleFraction 0 = 1 / 2 := by
  have : Real.sqrt 9 = 3 := by
    rw [show (9 : ℝ) = 3 ^ 2 by norm_num]
    exact Real.sqrt_sq (by norm_num)
  norm_num [exampleFraction, this]

theorem exampleSites (t : ℝ) (f : Fin 1 ⊕ Fin 1 → ℝ) (s : Fin 1 ⊕ Fin 1) :
    ∑ r, siteMatrix (fun _ _ : Fin 1 => (2 : ℝ)) (fun _ => 1) (fun _ => 1) (fun _ => 1 + t) s r * f r
      = 2 * (1 + t) * f (Sum.swap s) := by
  rcases s with i | i <;> fin_cases i <;> simp [siteMatrix, Fintype.sum_sum_type]

theorem exampleBranch : (∀ᶠ t : ℝ in 𝓝 0, ∀ s r, 0 ≤ siteMatrix (fun _ _ : Fin 1 => (2 : ℝ)) (fun _ => 1) (fun _ => 1)
      (fun _ => 1 + t) s r)
    ∧ ∀ᶠ t : ℝ in 𝓝 0, (∀ _ : Fin 1 ⊕ Fin 1, 0 < exampleFraction t)
      ∧ MassAction (siteMatrix (fun _ _ : Fin 1 => (2 : ℝ)) (fun _ => 1) (fun _ => 1) (fun _ => 1 + t))
        (fun _ => exampleFraction t) := by
  have hnear : ∀ᶠ t : ℝ in 𝓝 0, -1 < t := lt_mem_nhds (by norm_num)
  exact ⟨hnear.mono fun t ht => siteMatrix_nonneg (fun _ _ => by norm_num) (fun _ => zero_le_one)
      (fun _ => zero_le_one) (fun _ => by linarith), hnear.mono fun t ht =>
    ⟨fun _ => (exampleFraction_solves t ht).1, fun s => by rw [exampleSites]; exact (exampleFraction_solves t ht).2⟩⟩

/-- one component with one donor and one acceptor, association strength 2 and density `1 + t`: the fraction 1/2
has the derivative -1/6, and the step with dual numbers finds it -/
theorem exampleStep : ∃ (solve : Solver 1 (Dual ℝ)) (xd : Fin 1 ⊕ Fin 1 → Dual ℝ) (b : Bool), CorrectDualSolver solve
    ∧ newtonStep solve (fun _ _ => ⟨2, 0⟩) (fun _ => 1) (fun _ => 1) (fun _ => ⟨1, 1⟩) 1e-10 (fun _ => ⟨1 / 2, 0⟩)
      = .ok (xd, b)
    ∧ (∀ s, xd s = ⟨1 / 2, -1 / 6⟩) ∧ HasDerivAt exampleFraction (-1 / 6) 0 := by
  obtain ⟨solve, hs⟩ := exists_correctDualSolver (towerDual (towerReal ()) 0) 1
  have hnear : ∀ᶠ t : ℝ in 𝓝 0, -1 < t := lt_mem_nhds (by norm_num)
  obtain ⟨xd, b, h1, h2⟩ := C32_first_derivative (k := 1) (delta := fun _ _ _ => 2) (delta' := fun _ _ => 0)
    (rho := fun _ t => 1 + t) (rho' := fun _ => 1) (na := fun _ => 1) (nb := fun _ => 1) (t0 := 0)
    (fun _ _ => hasDerivAt_const _ _) (fun _ => (hasDerivAt_id 0).const_add 1) exampleBranch.1
    (S := fun _ => exampleFraction) exampleBranch.2 hs 1e-10
  have key : ∀ s, (xd s).eps = -1 / 6 := by
    intro s
    obtain ⟨e1, e2⟩ := h2 s
    have e3 := (e2.mul ((((hasDerivAt_id (0 : ℝ)).const_add 1).const_mul 2).mul e2 |>.const_add 1)).unique
      ((hasDerivAt_const (0 : ℝ) (1 : ℝ)).congr_of_eventuallyEq
        (hnear.mono fun t ht => (exampleFraction_solves t ht).2))
    simp only [id, exampleFraction_zero, Pi.mul_apply] at e3
    linarith
  refine ⟨solve, xd, b, hs, ?_, fun s => ?_, ?_⟩
  · simpa [exampleFraction_zero] using h1
  · exact Dual.ext (by rw [(h2 s).1, exampleFraction_zero]) (key s)
  · have := (h2 (.inl 0)).2
    rwa [key] at this

/-- the same from the inexact real solution 0.51 instead of 1/2: the derivative is wrong by 0.04 at most -/
example : ∃ (solve : Solver 1 (Dual ℝ)) (xd : Fin 1 ⊕ Fin 1 → Dual ℝ) (b : Bool),
    newtonStep solve (fun _ _ => ⟨2, 0⟩) (fun _ => 1) (fun _ => 1) (fun _ => ⟨1, 1⟩) 1e-10 (fun _ => c (0.51 : ℝ))
      = .ok (xd, b)
    ∧ ∀ s, |(xd s).eps - -1 / 6| ≤ 0.04 := by
  obtain ⟨solve, -, -, hs, -, -, hd⟩ := exampleStep
  obtain ⟨xd, b, h1, h2⟩ := C32_inexact_start (k := 1) (delta := fun _ _ _ => 2) (delta' := fun _ _ => 0)
    (rho := fun _ t => 1 + t) (rho' := fun _ => 1) (na := fun _ => 1) (nb := fun _ => 1) (t0 := 0)
    (fun _ _ => hasDerivAt_const _ _) (fun _ => (hasDerivAt_id 0).const_add 1) exampleBranch.1
    (S := fun _ => exampleFraction) exampleBranch.2 (S' := fun _ => -1 / 6) (fun _ => hd) hs 1e-10
    (x := fun _ => 0.51) (fun _ => by norm_num) (ε := 0.02) (μ := 1) (σ := 1 / 3) (P := 2.02) (by norm_num)
    (by norm_num) (by norm_num) (fun s => by rw [exampleFraction_zero]; norm_num [abs_of_pos])
    (fun s r => by
      rcases s with i | i <;> rcases r with j | j <;> simp [siteMatrix])
    (fun s => by norm_num [abs_of_neg])
    (fun s => by rw [exampleSites]; norm_num)
  refine ⟨solve, xd, b, by rwa [add_zero] at h1, fun s => (h2 s).2.trans ?_⟩
  norm_num

end PcSaft.Props
