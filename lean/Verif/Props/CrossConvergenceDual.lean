import Verif.Props.CrossConvergence
import Verif.Props.CrossResidual

/-!
# Property C79 for derivatives: with dual numbers evaluation cannot panic either when association is weak
-/

open Filter Topology PcSaft.Spec
open scoped ContDiff

namespace PcSaft.Props
open PcSaft Spec
variable {D X : Type} [DualNum ℝ D] [TopologicalSpace X] {x0 : X} {ρ : Rep x0 Same D} {N k n : ℕ}

omit [TopologicalSpace X] in
/-- the exact step at the point itself -/
theorem stepMatrix_stepEq {delta : Fin k → Fin k → X → ℝ} {na nb : Fin k → ℝ} {rho : Fin k → X → ℝ}
    {x : Fin k ⊕ Fin k → X → ℝ} {y : X} (hdet : (stepMatrix delta na nb rho x y).det ≠ 0) (hx : ∀ s, 0 < x s y) :
    StepEq (siteMatrixAt delta na nb rho y) (fun s => x s y) (fun s => x s y
      - ((stepMatrix delta na nb rho x y)⁻¹.mulVec
        (newtonG (fun i j => delta i j y) na nb (fun i => rho i y) (fun s => x s y))) s) := by
  set g := newtonG (fun i j => delta i j y) na nb (fun i => rho i y) (fun s => x s y) with hg
  set v := (stepMatrix delta na nb rho x y)⁻¹.mulVec g with hv
  have h1 : (stepMatrix delta na nb rho x y).mulVec v = g := by
    rw [hv, Matrix.mulVec_mulVec, Matrix.mul_nonsing_inv _ (isUnit_iff_ne_zero.2 hdet), Matrix.one_mulVec]
  let solve : Solver k ℝ := fun h r => if h = newtonH (fun i j => delta i j y) na nb (fun i => rho i y) (fun s => x s y)
    ∧ r = g then some v else exactSolver h r
  have hs : CorrectSolver solve := by
    refine ⟨fun h r w hw => ?_, fun h r hinj => ?_⟩
    · simp only [solve] at hw
      split_ifs at hw with hc
      · rw [← Option.some.inj hw, hc.1, hc.2]
        intro s
        exact congrFun h1 s
      · exact exactSolver_correct.solves h r w hw
    · simp only [solve]
      split_ifs
      · rfl
      · exact exactSolver_correct.total h r hinj
  refine newtonStep_stepEq (solve := solve) (tol := 0) hs hx (b := F64.lt (normRe g) 0) ?_
  unfold newtonStep
  simp only [solve, ← hg, and_self, if_true]

/-- Steps with dual numbers from fractions in (0, 1] never fail, and the real parts stay in (0, 1]. -/
theorem newtonDual_weak (T : Tower ρ N) {delta : Fin k → Fin k → X → ℝ} {deltad : Fin k → Fin k → D}
    {rho : Fin k → X → ℝ} {rhod : Fin k → D} {na nb : Fin k → ℝ}
    (hdelta : ∀ i j, ρ.R (delta i j) (deltad i j)) (hrho : ∀ i, ρ.R (rho i) (rhod i))
    (hM : ∀ s t, 0 ≤ siteMatrixAt delta na nb rho x0 s t) (hm : ∀ s, ∑ t, siteMatrixAt delta na nb rho x0 s t ≤ 1)
    {solve : Solver k D} (hs : CorrectDualSolver solve) (tol : ℝ) (r : ℕ) :
    ∀ {x : Fin k ⊕ Fin k → X → ℝ} {xd : Fin k ⊕ Fin k → D}, (∀ s, ρ.R (x s) (xd s)) →
      (∀ s, 0 < x s x0 ∧ x s x0 ≤ 1) → ∃ (xd' : Fin k ⊕ Fin k → D) (x' : Fin k ⊕ Fin k → X → ℝ),
        newtonDual (newtonStep solve deltad na nb rhod tol) r xd = .ok xd'
        ∧ (∀ s, ρ.R (x' s) (xd' s)) ∧ ∀ s, 0 < x' s x0 ∧ x' s x0 ≤ 1 := by
  induction r with
  | zero => exact fun {x xd} h1 h2 => ⟨xd, x, rfl, h1, h2⟩
  | succ r ih =>
    intro x xd h1 h2
    obtain ⟨hdet, xd', b, hok, hrep⟩ := newtonStep_rep T hdelta hrho hM hs tol h1 (fun s => (h2 s).1)
    obtain ⟨xd'', x'', h3, h4, h5⟩ := ih hrep (fun s => StepEq.fractions hM hm (fun s => (h2 s).1) (fun s => (h2 s).2)
      (stepMatrix_stepEq hdet fun s => (h2 s).1) s)
    refine ⟨xd'', x'', ?_, h4, h5⟩
    unfold newtonDual
    rw [hok]
    exact h3

/-- If the iteration of the code converges for real numbers and the steps with dual numbers that follow do not fail and
end at positive values, the cross-association contribution returns a result. -/
theorem cross_derivatives_of_run {p : PcSaftParameters n ℝ} {T V : X → ℝ} {M : Fin n → X → ℝ} {Td Vd : D}
    {Md : Fin n → D} (hT : ρ.R T Td) (hV : ρ.R V Vd) (hM : ∀ i, ρ.R (M i) (Md i))
    (h : Admissible p (T x0) (V x0) (fun i => M i x0)) {max_iter : ℕ} {tol : ℝ} {nderiv : ℕ}
    {solveF : Solver p.assoc_comp.length ℝ} {solveD : Solver p.assoc_comp.length D}
    {x : Fin p.assoc_comp.length ⊕ Fin p.assoc_comp.length → ℝ}
    (hloop : stateLoop p max_iter tol solveF (StateHD.new (T x0) (V x0) (fun i => M i x0)) = .ok x)
    {xd : Fin p.assoc_comp.length ⊕ Fin p.assoc_comp.length → D}
    {x' : Fin p.assoc_comp.length ⊕ Fin p.assoc_comp.length → X → ℝ}
    (hok : newtonDual (newtonStep solveD (fun i j => associationStrength p (StateHD.new Td Vd Md).temperature
      (fun i => hsDiameter p (StateHD.new Td Vd Md).temperature i * c (0.5 : ℝ))
      (assocN2 p.m (StateHD.new Td Vd Md).partial_density
        (fun i => hsDiameter p (StateHD.new Td Vd Md).temperature i * c (0.5 : ℝ)))
      (DualNum.recip (-packingFraction p.m (StateHD.new Td Vd Md).partial_density
        (fun i => hsDiameter p (StateHD.new Td Vd Md).temperature i * c (0.5 : ℝ)) + c (1.0 : ℝ))) (c (1.0 : ℝ))
      (p.assoc_comp.get i) (p.assoc_comp.get j))
      (assocNa p) (assocNb p) (fun i => (StateHD.new Td Vd Md).partial_density (p.assoc_comp.get i)) tol) nderiv
      (fun s => c (x s)) = .ok xd)
    (hx' : ∀ s, ρ.R (x' s) (xd s)) (hx1 : ∀ s, 0 < x' s x0) :
    ∃ (a : D) (f : X → ℝ), crossAssociation p max_iter tol nderiv solveF solveD (StateHD.new Td Vd Md) = .ok a
      ∧ ρ.R f a := by
  have hst := rep_state lawfulEmb_id hT hV hM h
  have hd := fun i j => rep_stateStrength (p := p) hst h.temperature.ne' (stateEta_lt_one h).ne h.diameter_pos
    (p.assoc_comp.get i) (p.assoc_comp.get j)
  have hrho := fun i => hst.partial_density (p.assoc_comp.get i)
  set sd := StateHD.new Td Vd Md with hsd
  by_cases hcut : F64.lt (DualNum.re (sumFin sd.partial_density)) (f64EPSILON : ℝ) = true
  · refine ⟨c (0.0 : ℝ) * sd.volume, _, ?_, ρ.mul (ρ.const _) hst.volume⟩
    unfold crossAssociation crossAssociationDensity
    simp only [hcut, if_true]
  · refine ⟨energyOf p sd.partial_density xd * sd.volume, _, ?_, ρ.mul (ρ.sumFin lawfulEmb_id (fun i => ρ.mul (hrho i)
      (ρ.add (ρ.mul (rep_assocF lawfulEmb_id (hx' (.inl i)) (hx1 _)) (ρ.constOf (a := assocNa p i) rfl))
        (ρ.mul (rep_assocF lawfulEmb_id (hx' (.inr i)) (hx1 _)) (ρ.constOf (a := assocNb p i) rfl))))) hst.volume⟩
    unfold crossAssociation crossAssociationDensity
    simp only [hcut, Bool.false_eq_true, if_false, Option.getD_none]
    have e1 : ∀ i j, DualNum.re (associationStrength p sd.temperature
        (fun i => hsDiameter p sd.temperature i * c (0.5 : ℝ))
        (assocN2 p.m sd.partial_density (fun i => hsDiameter p sd.temperature i * c (0.5 : ℝ)))
        (DualNum.recip (-packingFraction p.m sd.partial_density (fun i => hsDiameter p sd.temperature i * c (0.5 : ℝ))
          + c (1.0 : ℝ))) (c (1.0 : ℝ)) (p.assoc_comp.get i) (p.assoc_comp.get j))
        = stateStrength p (StateHD.new (T x0) (V x0) (fun i => M i x0)) (p.assoc_comp.get i) (p.assoc_comp.get j) :=
      fun i j => ρ.re (hd i j)
    have e2 : ∀ i, DualNum.re (sd.partial_density (p.assoc_comp.get i))
        = (StateHD.new (T x0) (V x0) (fun i => M i x0)).partial_density (p.assoc_comp.get i) :=
      fun i => ρ.re (hrho i)
    simp only [e1, e2]
    have hl : newtonLoop (newtonStep solveF (fun i j => stateStrength p
        (StateHD.new (T x0) (V x0) (fun i => M i x0)) (p.assoc_comp.get i) (p.assoc_comp.get j))
        (fun i => p.na (p.assoc_comp.get i)) (fun i => p.nb (p.assoc_comp.get i))
        (fun i => (StateHD.new (T x0) (V x0) (fun i => M i x0)).partial_density (p.assoc_comp.get i)) tol)
        max_iter (fun _ => 0.2) = .ok x := hloop
    rw [hl]
    simp only
    have hok' : newtonDual (newtonStep solveD (fun i j => associationStrength p sd.temperature
        (fun i => hsDiameter p sd.temperature i * c (0.5 : ℝ))
        (assocN2 p.m sd.partial_density (fun i => hsDiameter p sd.temperature i * c (0.5 : ℝ)))
        (DualNum.recip (-packingFraction p.m sd.partial_density (fun i => hsDiameter p sd.temperature i * c (0.5 : ℝ))
          + c (1.0 : ℝ))) (c (1.0 : ℝ)) (p.assoc_comp.get i) (p.assoc_comp.get j))
        (fun i => p.na (p.assoc_comp.get i)) (fun i => p.nb (p.assoc_comp.get i))
        (fun i => sd.partial_density (p.assoc_comp.get i)) tol) nderiv (fun s => c (x s)) = .ok xd := hok
    rw [hok']
    rfl

/-- C79 for derivatives of any order: at a weakly associating state the cross-association contribution evaluated
with dual numbers returns a result. -/
theorem C79_cross_association_derivatives (Tw : Tower ρ N) {pr : Fin n → PureRecord ℝ} {kij : Fin n → Fin n → ℝ}
    {p : PcSaftParameters n ℝ} (hp : p = fromRecords pr kij) {T V : X → ℝ} {M : Fin n → X → ℝ} {Td Vd : D}
    {Md : Fin n → D} (hT : ρ.R T Td) (hV : ρ.R V Vd) (hM : ∀ i, ρ.R (M i) (Md i))
    (h : Admissible p (T x0) (V x0) (fun i => M i x0)) (hn : AssocNonneg p)
    (hw : WeakAssociation p (T x0) (V x0) (fun i => M i x0) 1) (hk : p.nassoc ≤ 10 ^ 6)
    {max_iter : ℕ} (hmax : 10 ≤ max_iter) {tol : ℝ} (htol : 1e-10 ≤ tol) (htol' : tol ≤ 1 / 2) (nderiv : ℕ)
    {solveF : Solver p.assoc_comp.length ℝ} (hsF : CorrectSolver solveF)
    {solveD : Solver p.assoc_comp.length D} (hs : CorrectDualSolver solveD) :
    ∃ (a : D) (f : X → ℝ), crossAssociation p max_iter tol nderiv solveF solveD (StateHD.new Td Vd Md) = .ok a
      ∧ ρ.R f a := by
  have hst := rep_state lawfulEmb_id hT hV hM h
  have hd := fun i j => rep_stateStrength (p := p) hst h.temperature.ne' (stateEta_lt_one h).ne h.diameter_pos
    (p.assoc_comp.get i) (p.assoc_comp.get j)
  have hrho := fun i => hst.partial_density (p.assoc_comp.get i)
  obtain ⟨⟨x, hloop, hx⟩, -⟩ := stateLoop_weak hp h hn hw hk hmax htol htol' hsF
  have hsites : ∀ s t, 0 ≤ stateSites p (StateHD.new (T x0) (V x0) (fun i => M i x0)) s t :=
    siteMatrix_nonneg (stateStrength_nonneg hp h hn) (fun i => hn.na _) (fun i => hn.nb _) (fun i => by
      change 0 ≤ (StateHD.new (T x0) (V x0) (fun i => M i x0)).partial_density _
      rw [StateHD.new_density]
      exact div_nonneg (h.moles_nonneg _) h.volume.le)
  obtain ⟨xd, x', hok, hx', hx1⟩ := newtonDual_weak Tw (na := assocNa p) (nb := assocNb p) hd hrho hsites
    (weakSites_state hp h hw).row hs tol nderiv (x := fun s _ => x s) (xd := fun s => c (x s)) (fun s => ρ.const (x s)) hx
  exact cross_derivatives_of_run hT hV hM h hloop hok hx' fun s => (hx1 s).1

/-- With a result of the cross-association contribution there is one of the residual energy. -/
theorem rep_residual_of_cross {pr : Fin n → PureRecord ℝ} {kij : Fin n → Fin n → ℝ}
    {o : PcSaftOptions ℝ} {p : PcSaftParameters n ℝ} (hp : p = fromRecords pr kij) (ha : 2 ≤ p.nassoc)
    {T V : X → ℝ} {M : Fin n → X → ℝ} {Td Vd : D}
    {Md : Fin n → D} (hT : ρ.R T Td) (hV : ρ.R V Vd) (hM : ∀ i, ρ.R (M i) (Md i))
    (h : Admissible p (T x0) (V x0) (fun i => M i x0))
    (hr : ∀ ct ∈ (Eos.withoutAssociation p o).contributions, Regular p (T x0) (V x0) (fun i => M i x0) ct)
    {laD : LinAlg ℝ D} {a : D} (ha1 : crossAssociation p o.max_iter_cross_assoc o.tol_cross_assoc laD.nderiv
      (laD.solveF p.assoc_comp.length) (laD.solveD p.assoc_comp.length) (StateHD.new Td Vd Md) = .ok a) :
    ∃ d, (Eos.withOptions p o).residualHelmholtz laD (StateHD.new Td Vd Md) = .ok d := by
  let la : LinAlg ℝ ℝ := ⟨fun _ _ _ => none, fun _ _ _ => none, 0⟩
  have hrel : ∀ ct ∈ (Eos.withoutAssociation p o).contributions, ContributionRel ρ (fun x => x) la laD p p
      (fun y => StateHD.new (T y) (V y) (fun i => M i y)) (StateHD.new Td Vd Md) ct := by
    subst hp
    intro ct hct
    exact rep_contribution (g := fun x => x) lawfulEmb_id (ParamRel.refl _) hT hV hM h la laD ct (hr ct hct)
  obtain ⟨A0, d0, -, h2, -⟩ := rep_sum la laD _ hrel (fun _ => c (0.0 : ℝ)) (c (0.0 : ℝ)) (ρ.const _)
  have hmap : ∀ ct : Contribution ℝ, ct.map (fun x => x) = ct := fun ct => by cases ct <;> rfl
  rw [show Contribution.map (fun x : ℝ => x) = id from funext hmap, List.map_id] at h2
  refine ⟨d0 + a, ?_⟩
  have e : (Eos.withOptions p o).contributions = (Eos.withoutAssociation p o).contributions
      ++ [.crossAssociation o.max_iter_cross_assoc o.tol_cross_assoc] := buildContributions_cross o ha
  have hd : (Eos.withoutAssociation p o).residualHelmholtz laD (StateHD.new Td Vd Md) = .ok d0 :=
    (congrArg (fun f => List.foldlM f _ _) (by
      funext acc ct
      simp only [Eos.withoutAssociation, Eos.withOptions]
      cases ct.helmholtzEnergy laD p (StateHD.new Td Vd Md) <;> rfl)).trans h2
  unfold Eos.residualHelmholtz at hd ⊢
  rw [e, List.foldlM_append]
  erw [hd]
  have hc : (Contribution.crossAssociation o.max_iter_cross_assoc o.tol_cross_assoc).helmholtzEnergy laD
      (Eos.withOptions p o).parameters (StateHD.new Td Vd Md) = .ok a := ha1
  simp only [Bind.bind, Except.bind, List.foldlM_cons, List.foldlM_nil, hc]
  rfl

theorem rep_weak_residual (Tw : Tower ρ N) {pr : Fin n → PureRecord ℝ} {kij : Fin n → Fin n → ℝ}
    {o : PcSaftOptions ℝ} {p : PcSaftParameters n ℝ} (hp : p = fromRecords pr kij) (ha : 2 ≤ p.nassoc)
    {T V : X → ℝ} {M : Fin n → X → ℝ} {Td Vd : D}
    {Md : Fin n → D} (hT : ρ.R T Td) (hV : ρ.R V Vd) (hM : ∀ i, ρ.R (M i) (Md i))
    (h : Admissible p (T x0) (V x0) (fun i => M i x0))
    (hr : ∀ ct ∈ (Eos.withoutAssociation p o).contributions, Regular p (T x0) (V x0) (fun i => M i x0) ct)
    (hn : AssocNonneg p) (hw : WeakAssociation p (T x0) (V x0) (fun i => M i x0) 1) (hk : p.nassoc ≤ 10 ^ 6)
    (hmax : 10 ≤ o.max_iter_cross_assoc) (htol : 1e-10 ≤ o.tol_cross_assoc) (htol' : o.tol_cross_assoc ≤ 1 / 2)
    {laD : LinAlg ℝ D} (hsF : CorrectSolver (laD.solveF p.assoc_comp.length))
    (hs : CorrectDualSolver (laD.solveD p.assoc_comp.length)) :
    ∃ d, (Eos.withOptions p o).residualHelmholtz laD (StateHD.new Td Vd Md) = .ok d := by
  obtain ⟨a, -, ha1, -⟩ := C79_cross_association_derivatives Tw hp hT hV hM h hn hw hk hmax htol htol' laD.nderiv hsF hs
  exact rep_residual_of_cross hp ha hT hV hM h hr ha1

/-- C79: first derivatives of the residual energy in any direction: no panic. -/
theorem C79_first_derivatives {pr : Fin n → PureRecord ℝ} {kij : Fin n → Fin n → ℝ} {o : PcSaftOptions ℝ}
    {p : PcSaftParameters n ℝ} (hp : p = fromRecords pr kij) (ha : 2 ≤ p.nassoc) {T V : ℝ} {M : Fin n → ℝ}
    (T' V' : ℝ) (M' : Fin n → ℝ) (h : Admissible p T V M)
    (hr : ∀ ct ∈ (Eos.withoutAssociation p o).contributions, Regular p T V M ct) (hn : AssocNonneg p)
    (hw : WeakAssociation p T V M 1) (hk : p.nassoc ≤ 10 ^ 6) (hmax : 10 ≤ o.max_iter_cross_assoc)
    (htol : 1e-10 ≤ o.tol_cross_assoc) (htol' : o.tol_cross_assoc ≤ 1 / 2) {laD : LinAlg ℝ (Dual ℝ)}
    (hsF : CorrectSolver (laD.solveF p.assoc_comp.length)) (hs : CorrectDualSolver (laD.solveD p.assoc_comp.length)) :
    ∃ d, (Eos.withOptions p o).residualHelmholtz laD
      (StateHD.new (⟨T, T'⟩ : Dual ℝ) ⟨V, V'⟩ (fun i => ⟨M i, M' i⟩)) = .ok d := by
  have hline : ∀ a a' : ℝ, HasDerivAt (fun t => a + t * a') a' 0 := fun a a' => by
    simpa using ((hasDerivAt_id (0 : ℝ)).mul_const a').const_add a
  have hseed : ∀ a a' : ℝ, (repDual lawfulEmb_id rho0 (0 : ℝ)).R (fun y => a + y.2 * a') (⟨a, a'⟩ : Dual ℝ) :=
    fun a a' => by simpa using rho1_curve (hline a a')
  exact rep_weak_residual (ρ := repDual lawfulEmb_id rho0 (0 : ℝ)) (towerDual (towerReal ()) 0) hp ha (hseed T T')
    (hseed V V') (fun i => hseed (M i) (M' i)) (by simpa using h) (by simpa using hr) hn (by simpa using hw) hk hmax
    htol htol' hsF hs

/-- C79: second derivatives of the residual energy in any two directions: no panic. -/
theorem C79_second_derivatives {pr : Fin n → PureRecord ℝ} {kij : Fin n → Fin n → ℝ} {o : PcSaftOptions ℝ}
    {p : PcSaftParameters n ℝ} (hp : p = fromRecords pr kij) (ha : 2 ≤ p.nassoc) {T V : ℝ} {M : Fin n → ℝ}
    (Tu Tw Vu Vw : ℝ) (Mu Mw : Fin n → ℝ) (h : Admissible p T V M)
    (hr : ∀ ct ∈ (Eos.withoutAssociation p o).contributions, Regular p T V M ct) (hn : AssocNonneg p)
    (hw : WeakAssociation p T V M 1) (hk : p.nassoc ≤ 10 ^ 6) (hmax : 10 ≤ o.max_iter_cross_assoc)
    (htol : 1e-10 ≤ o.tol_cross_assoc) (htol' : o.tol_cross_assoc ≤ 1 / 2) {laD : LinAlg ℝ (Dual (Dual ℝ))}
    (hsF : CorrectSolver (laD.solveF p.assoc_comp.length)) (hs : CorrectDualSolver (laD.solveD p.assoc_comp.length)) :
    ∃ d, (Eos.withOptions p o).residualHelmholtz laD
      (StateHD.new (⟨⟨T, Tu⟩, ⟨Tw, 0⟩⟩ : Dual (Dual ℝ)) ⟨⟨V, Vu⟩, ⟨Vw, 0⟩⟩ (fun i => ⟨⟨M i, Mu i⟩, ⟨Mw i, 0⟩⟩)) = .ok d :=
  rep_weak_residual (ρ := rho2) (towerDual (towerDual (towerReal ()) 0) 0) hp ha (rho2_seed T Tu Tw)
    (rho2_seed V Vu Vw) (fun i => rho2_seed (M i) (Mu i) (Mw i)) (by simpa using h) (by simpa using hr) hn
    (by simpa using hw) hk hmax htol htol' hsF hs

/-- C79: third derivatives of the residual energy in any three directions: no panic. -/
theorem C79_third_derivatives {pr : Fin n → PureRecord ℝ} {kij : Fin n → Fin n → ℝ} {o : PcSaftOptions ℝ}
    {p : PcSaftParameters n ℝ} (hp : p = fromRecords pr kij) (ha : 2 ≤ p.nassoc) {T V : ℝ} {M : Fin n → ℝ}
    (Tu Tv Tw Vu Vv Vw : ℝ) (Mu Mv Mw : Fin n → ℝ) (h : Admissible p T V M)
    (hr : ∀ ct ∈ (Eos.withoutAssociation p o).contributions, Regular p T V M ct) (hn : AssocNonneg p)
    (hw : WeakAssociation p T V M 1) (hk : p.nassoc ≤ 10 ^ 6) (hmax : 10 ≤ o.max_iter_cross_assoc)
    (htol : 1e-10 ≤ o.tol_cross_assoc) (htol' : o.tol_cross_assoc ≤ 1 / 2) {laD : LinAlg ℝ (Dual (Dual (Dual ℝ)))}
    (hsF : CorrectSolver (laD.solveF p.assoc_comp.length)) (hs : CorrectDualSolver (laD.solveD p.assoc_comp.length)) :
    ∃ d, (Eos.withOptions p o).residualHelmholtz laD
      (StateHD.new (⟨⟨⟨T, Tu⟩, ⟨Tv, 0⟩⟩, ⟨⟨Tw, 0⟩, ⟨0, 0⟩⟩⟩ : Dual (Dual (Dual ℝ)))
        ⟨⟨⟨V, Vu⟩, ⟨Vv, 0⟩⟩, ⟨⟨Vw, 0⟩, ⟨0, 0⟩⟩⟩ (fun i => ⟨⟨⟨M i, Mu i⟩, ⟨Mv i, 0⟩⟩, ⟨⟨Mw i, 0⟩, ⟨0, 0⟩⟩⟩)) = .ok d :=
  rep_weak_residual (ρ := rho3) (towerDual (towerDual (towerDual (towerReal ()) 0) 0) 0) hp ha (rho3_seed T Tu Tv Tw)
    (rho3_seed V Vu Vv Vw) (fun i => rho3_seed (M i) (Mu i) (Mv i) (Mw i)) (by simpa using h) (by simpa using hr) hn
    (by simpa using hw) hk hmax htol htol' hsF hs

end PcSaft.Props
