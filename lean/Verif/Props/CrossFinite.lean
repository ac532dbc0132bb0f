import Verif.Lemmas.NewtonLift
import Verif.Props.CrossConvergenceDual
import Verif.Props.Finite

/-!
# Property C21 for several associating components

The iteration evaluated with `XReal` gives finite numbers, the ones it gives over the reals, as long as the iterates
are positive. At weakly associating states this is the case, and energy and derivatives are finite.
-/

open Filter Topology

namespace PcSaft.Props
open PcSaft Spec
variable {n k : ℕ}

/-! ## The iteration over the reals -/

theorem CorrectSolver.dual {solve : Solver k ℝ} (hs : CorrectSolver solve) : CorrectDualSolver solve where
  solves h g y hy s := by
    rw [sumFin_real, sumFin_real, ← Fintype.sum_sum_type fun t => h s t * y t]
    exact hs.solves h g y hy s
  total h g hi := hs.total h g hi

theorem sumFin_fin (f : Fin k → ℝ) : sumFin (fun i => XReal.fin (f i)) = XReal.fin (sumFin f) :=
  ((rhoX.sumFin XReal.lawfulEmb (f := fun i _ => f i) fun i => rhoX_const (f i))).2

theorem normRe_fin (g : Fin k ⊕ Fin k → ℝ) : normRe (fun s => XReal.fin (g s)) = XReal.fin (normRe g) := by
  have le := XReal.equations
  have h : ∀ f : Fin k → ℝ, sumFin (fun i => XReal.fin (f i) * XReal.fin (f i)) = XReal.fin (sumFin fun i => f i * f i) :=
    fun f => by
      rw [← sumFin_fin]
      simp only [le.mul]
  have hn : ∀ f : Fin k → ℝ, 0 ≤ sumFin fun i => f i * f i := fun f => by
    rw [sumFin_real]
    exact Finset.sum_nonneg fun i _ => mul_self_nonneg _
  change F64.sqrt (sumFin (fun i => XReal.fin (g (.inl i)) * XReal.fin (g (.inl i)))
    + sumFin (fun i => XReal.fin (g (.inr i)) * XReal.fin (g (.inr i)))) = _
  rw [h fun i => g (.inl i), h fun i => g (.inr i), ← le.add, ← le.sqrt _ (add_nonneg (hn _) (hn _))]
  rfl

section loop
variable {delta : Fin k → Fin k → ℝ} {na nb rho : Fin k → ℝ} {solve : Solver k ℝ} {solveX : Solver k XReal}

/-- One step from positive fractions -/
theorem newtonStep_fin (hs : CorrectSolver solve) (hX : FiniteSolver XReal.fin solveX)
    (hM : ∀ s t, 0 ≤ siteMatrix delta na nb rho s t) (tol : ℝ) {x : Fin k ⊕ Fin k → ℝ} (hx : ∀ s, 0 < x s) :
    ∃ x' b, newtonStep solve delta na nb rho tol x = .ok (x', b)
      ∧ newtonStep solveX (fun i j => XReal.fin (delta i j)) (fun i => XReal.fin (na i)) (fun i => XReal.fin (nb i))
          (fun i => XReal.fin (rho i)) (XReal.fin tol) (fun s => XReal.fin (x s)) = .ok (fun s => XReal.fin (x' s), b) := by
  obtain ⟨hG, x', b, bX, h1, h2, h3, -⟩ := newtonStep_lift (x0 := ()) (towerReal ()) (liftReal ()) XReal.lawfulEmb
    (delta := fun i j _ => delta i j) (rho := fun i _ => rho i) (deltad := delta) (rhod := rho) (na := na) (nb := nb)
    (nax := fun i => XReal.fin (na i)) (nbx := fun i => XReal.fin (nb i))
    (fun _ _ => ⟨continuousAt_const, rfl⟩) (fun _ => ⟨continuousAt_const, rfl⟩) hM (fun _ => rfl) (fun _ => rfl)
    (CorrectSolver.dual hs) hX tol (XReal.fin tol) (x := fun s _ => x s) (xd := x)
    (fun _ => ⟨continuousAt_const, rfl⟩) hx
  refine ⟨x', b, h1, ?_⟩
  rw [h2, h3, funext hG, normRe_fin, XReal.fin_lt]
  have hb : b = F64.lt (normRe (newtonG delta na nb rho x)) tol := by
    unfold newtonStep at h1
    simp only at h1
    split at h1
    · cases h1
    · exact (congrArg Prod.snd (Except.ok.inj h1)).symm
  rw [hb]
  rfl

/-- C21 for the iteration: if the iterates over the reals are positive, the iteration with infinities and NaN gives
the same result, the same error, after the same number of steps. -/
theorem C21_iteration (hs : CorrectSolver solve) (hX : FiniteSolver XReal.fin solveX)
    (hM : ∀ s t, 0 ≤ siteMatrix delta na nb rho s t) (tol : ℝ) (N : ℕ) {x : Fin k ⊕ Fin k → ℝ}
    (hpos : ∀ j z, Reach (newtonStep solve delta na nb rho tol) j x z → ∀ s, 0 < z s) :
    newtonLoop (newtonStep solveX (fun i j => XReal.fin (delta i j)) (fun i => XReal.fin (na i))
        (fun i => XReal.fin (nb i)) (fun i => XReal.fin (rho i)) (XReal.fin tol)) N (fun s => XReal.fin (x s))
      = (newtonLoop (newtonStep solve delta na nb rho tol) N x).map fun z s => XReal.fin (z s) := by
  induction N generalizing x with
  | zero => rfl
  | succ N ih =>
    obtain ⟨x', b, h1, h2⟩ := newtonStep_fin hs hX hM tol (hpos 0 x (.start x))
    unfold newtonLoop
    rw [h1, h2]
    simp only
    cases b with
    | true => rfl
    | false =>
      simp only [Bool.false_eq_true, if_false]
      by_cases hN : N = 0
      · simp only [hN, if_true]
        rfl
      · simp only [hN, if_false]
        exact ih fun j z h => hpos (j + 1) z (.next h1 h)

end loop

/-! ## Steps with dual numbers -/

section dual
variable {DX DR X : Type} [DualNum XReal DX] [DualNum ℝ DR] [TopologicalSpace X] {x0 : X}
  {ρR : Rep x0 Same DR} {ρX : Rep x0 XReal.IsFin DX} {lift : DR → DX} {N : ℕ}

theorem newtonDual_lift (T : Tower ρR N) (L : Lift ρR ρX lift)
    {delta : Fin k → Fin k → X → ℝ} {deltad : Fin k → Fin k → DR} {rho : Fin k → X → ℝ} {rhod : Fin k → DR}
    {na nb : Fin k → ℝ}
    (hdelta : ∀ i j, ρR.R (delta i j) (deltad i j)) (hrho : ∀ i, ρR.R (rho i) (rhod i))
    (hM : ∀ s t, 0 ≤ siteMatrixAt delta na nb rho x0 s t) (hm : ∀ s, ∑ t, siteMatrixAt delta na nb rho x0 s t ≤ 1)
    {solve : Solver k DR} (hs : CorrectDualSolver solve) {solveX : Solver k DX} (hX : FiniteSolver lift solveX)
    (tol : ℝ) (r : ℕ) :
    ∀ {x : Fin k ⊕ Fin k → X → ℝ} {xd : Fin k ⊕ Fin k → DR}, (∀ s, ρR.R (x s) (xd s)) →
      (∀ s, 0 < x s x0 ∧ x s x0 ≤ 1) → ∃ (xd' : Fin k ⊕ Fin k → DR) (x' : Fin k ⊕ Fin k → X → ℝ),
        newtonDual (newtonStep solve deltad na nb rhod tol) r xd = .ok xd'
        ∧ newtonDual (newtonStep solveX (fun i j => lift (deltad i j)) (fun i => XReal.fin (na i))
            (fun i => XReal.fin (nb i)) (fun i => lift (rhod i)) (XReal.fin tol)) r (fun s => lift (xd s))
          = .ok (fun s => lift (xd' s))
        ∧ (∀ s, ρR.R (x' s) (xd' s)) ∧ ∀ s, 0 < x' s x0 ∧ x' s x0 ≤ 1 := by
  induction r with
  | zero => exact fun {x xd} h1 h2 => ⟨xd, x, rfl, rfl, h1, h2⟩
  | succ r ih =>
    intro x xd h1 h2
    obtain ⟨-, xd', b, bX, hok, hokX, -, hrep⟩ := newtonStep_lift T L XReal.lawfulEmb
      (nax := fun i => XReal.fin (na i)) (nbx := fun i => XReal.fin (nb i)) hdelta hrho hM (fun _ => rfl) (fun _ => rfl)
      hs hX tol (XReal.fin tol) h1 (fun s => (h2 s).1)
    have hdet := (newtonStep_rep T hdelta hrho hM hs tol h1 (fun s => (h2 s).1)).1
    obtain ⟨xd'', x'', h3, h3X, h4, h5⟩ := ih hrep (fun s => StepEq.fractions hM hm (fun s => (h2 s).1)
      (fun s => (h2 s).2) (stepMatrix_stepEq hdet fun s => (h2 s).1) s)
    refine ⟨xd'', x'', ?_, ?_, h4, h5⟩
    · unfold newtonDual
      rw [hok]
      exact h3
    · unfold newtonDual
      rw [hokX]
      exact h3X

end dual

/-! ## The association strength -/

section state
variable {F D X : Type} [F64 F] [DualNum F D] [TopologicalSpace X] {x0 : X} {emb : ℝ → F → Prop} {ρ : Rep x0 emb D}

theorem emb_stateStrength (le : LawfulEmb emb) {p : PcSaftParameters n ℝ} {q : PcSaftParameters n F}
    (hp : ParamRel emb p q) {sf : X → StateHD n ℝ} {sd : StateHD n D}
    (hs : StateRel ρ sf sd) (hT : (sf x0).temperature ≠ 0) (heta1 : stateEta p (sf x0) ≠ 1)
    (hr : ∀ a, 0 < hsDiameter p (sf x0).temperature a) (a b : Fin n) :
    ρ.R (fun x => stateStrength p (sf x) a b)
      (associationStrength q sd.temperature (fun i => hsDiameter q sd.temperature i * c (0.5 : F))
        (assocN2 q.m sd.partial_density (fun i => hsDiameter q sd.temperature i * c (0.5 : F)))
        (DualNum.recip (-packingFraction q.m sd.partial_density (fun i => hsDiameter q sd.temperature i * c (0.5 : F))
          + c (1.0 : F))) (c (1.0 : F)) a b) := by
  have hrad := rep_radius le hp hs.temperature hT
  have heta := rep_eta le hp hs hT
  have h2 := rep_assocN2 le hp.m hs.partial_density hrad
  have h3 := ρ.recip' (ρ.add (ρ.neg heta) (ρ.constOf (CR.sci le 10 true 1))) (by
    simp only [c, ofF_real]
    norm_num
    intro h
    exact heta1 (by linarith))
  refine rep_associationStrength le hp hs.temperature hT h2 h3 (ρ.constOf (CR.sci le _ _ _)) hrad a b ?_
  simp only [c, ofF_real]
  norm_num
  have h1 := hr a
  have h2 := hr b
  positivity

end state

/-- The contribution as the loop, the steps with dual numbers and the energy, for a given list of associating
components. -/
theorem crossAssociation_eq {F D : Type} [F64 F] [DualNum F D] (q : PcSaftParameters n F) {l : List (Fin n)}
    (hl : q.assoc_comp = l) (max_iter : ℕ) (tol : F) (nderiv : ℕ) (sF : ∀ k, Solver k F) (sD : ∀ k, Solver k D)
    (s : StateHD n D) {delta : Fin n → Fin n → D}
    (hdelta : ∀ i j, associationStrength q s.temperature (fun i => hsDiameter q s.temperature i * c (0.5 : F))
        (assocN2 q.m s.partial_density (fun i => hsDiameter q s.temperature i * c (0.5 : F)))
        (DualNum.recip (-packingFraction q.m s.partial_density (fun i => hsDiameter q s.temperature i * c (0.5 : F))
          + c (1.0 : F))) (c (1.0 : F)) i j = delta i j)
    (hcut : F64.lt (DualNum.re (sumFin s.partial_density)) (f64EPSILON : F) = false)
    {x : Fin l.length ⊕ Fin l.length → F} {xd : Fin l.length ⊕ Fin l.length → D}
    (hloop : newtonLoop (newtonStep (sF l.length) (fun i j => DualNum.re (delta (l.get i) (l.get j)))
      (fun i => q.na (l.get i)) (fun i => q.nb (l.get i)) (fun i => DualNum.re (s.partial_density (l.get i))) tol)
      max_iter (fun _ => 0.2) = .ok x)
    (hdual : newtonDual (newtonStep (sD l.length) (fun i j => delta (l.get i) (l.get j))
      (fun i => q.na (l.get i)) (fun i => q.nb (l.get i)) (fun i => s.partial_density (l.get i)) tol)
      nderiv (fun s => c (x s)) = .ok xd) :
    crossAssociation q max_iter tol nderiv (sF _) (sD _) s
      = .ok (sumFin (fun i => s.partial_density (l.get i) * (assocF (xd (.inl i)) * c (q.na (l.get i))
        + assocF (xd (.inr i)) * c (q.nb (l.get i)))) * s.volume) := by
  subst hl
  unfold crossAssociation crossAssociationDensity
  simp only [hcut, Bool.false_eq_true, if_false, Option.getD_none, hdelta, hloop, hdual]

/-- The contribution at vanishing density -/
theorem crossAssociation_dilute {F D : Type} [F64 F] [DualNum F D] (q : PcSaftParameters n F) (max_iter : ℕ) (tol : F)
    (nderiv : ℕ) (sF : Solver q.assoc_comp.length F) (sD : Solver q.assoc_comp.length D) (s : StateHD n D)
    (hcut : F64.lt (DualNum.re (sumFin s.partial_density)) (f64EPSILON : F) = true) :
    crossAssociation q max_iter tol nderiv sF sD s = .ok (c (0.0 : F) * s.volume) := by
  unfold crossAssociation crossAssociationDensity
  simp only [hcut, if_true]

/-! ## The contribution -/

section contribution
variable {DX DR X : Type} [DualNum XReal DX] [DualNum ℝ DR] [TopologicalSpace X] {x0 : X}
  {ρR : Rep x0 Same DR} {ρX : Rep x0 XReal.IsFin DX} {lift : DR → DX} {N : ℕ}

/-- C21 for the contribution of several associating components, at every number type: at a weakly associating state
the contribution evaluated with infinities and NaN is finite, and it is the one evaluated over the reals. -/
theorem C21_cross_association (Tw : Tower ρR N) (L : Lift ρR ρX lift) {pr : Fin n → PureRecord ℝ}
    {kij : Fin n → Fin n → ℝ} {p : PcSaftParameters n ℝ} (hp : p = fromRecords pr kij) {q : PcSaftParameters n XReal}
    (hq : ParamRel XReal.IsFin p q) {T V : X → ℝ} {M : Fin n → X → ℝ} {Td Vd : DR}
    {Md : Fin n → DR} (hT : ρR.R T Td) (hV : ρR.R V Vd) (hM : ∀ i, ρR.R (M i) (Md i))
    (h : Admissible p (T x0) (V x0) (fun i => M i x0)) (hn : AssocNonneg p)
    (hw : WeakAssociation p (T x0) (V x0) (fun i => M i x0) 1) (hk : p.nassoc ≤ 10 ^ 6)
    {max_iter : ℕ} (hmax : 10 ≤ max_iter) {tol : ℝ} (htol : 1e-10 ≤ tol) (htol' : tol ≤ 1 / 2) (nderiv : ℕ)
    {solveF : ∀ k, Solver k ℝ} (hsF : ∀ k, CorrectSolver (solveF k))
    {solveD : ∀ k, Solver k DR} (hs : ∀ k, CorrectDualSolver (solveD k))
    {solveFX : ∀ k, Solver k XReal} (hsFX : ∀ k, FiniteSolver XReal.fin (solveFX k))
    {solveDX : ∀ k, Solver k DX} (hsX : ∀ k, FiniteSolver lift (solveDX k)) :
    ∃ (a : DR) (f : X → ℝ), ρR.R f a
      ∧ crossAssociation p max_iter tol nderiv (solveF _) (solveD _) (StateHD.new Td Vd Md) = .ok a
      ∧ crossAssociation q max_iter (XReal.fin tol) nderiv (solveFX _) (solveDX _)
          (StateHD.new (lift Td) (lift Vd) (fun i => lift (Md i))) = .ok (lift a) := by
  have le := XReal.lawfulEmb
  have hst := rep_state lawfulEmb_id hT hV hM h
  have hstX := rep_state le (L.link hT) (L.link hV) (fun i => L.link (hM i)) h
  have hd := fun i j => rep_stateStrength (p := p) hst h.temperature.ne' (stateEta_lt_one h).ne h.diameter_pos i j
  have hdX := fun i j => emb_stateStrength le hq hstX h.temperature.ne' (stateEta_lt_one h).ne h.diameter_pos i j
  have hrho := fun i => hst.partial_density i
  have hrhoX := fun i => hstX.partial_density i
  have eD := fun i j => L.unique (hdX i j) (L.link (hd i j))
  have eR := fun i => L.unique (hrhoX i) (L.link (hrho i))
  obtain ⟨⟨x, hloop, hx⟩, -⟩ := stateLoop_weak hp h hn hw hk hmax htol htol' (hsF _)
  have hsites : ∀ s t, 0 ≤ stateSites p (StateHD.new (T x0) (V x0) (fun i => M i x0)) s t :=
    siteMatrix_nonneg (stateStrength_nonneg hp h hn) (fun i => hn.na _) (fun i => hn.nb _) (fun i => by
      change 0 ≤ (StateHD.new (T x0) (V x0) (fun i => M i x0)).partial_density _
      rw [StateHD.new_density]
      exact div_nonneg (h.moles_nonneg _) h.volume.le)
  have hweak := weakSites_state hp h hw
  have hloopX := C21_iteration (hsF p.assoc_comp.length) (hsFX _) hsites tol max_iter (x := fun _ => 0.2)
    fun j z hr s => (reach_fractions (hsF _) hsites hweak (fun _ => by norm_num) hr s).1
  obtain ⟨xd, x', hok, hokX, hx', hx1⟩ := newtonDual_lift Tw L (na := assocNa p) (nb := assocNb p)
    (fun i j => hd (p.assoc_comp.get i) (p.assoc_comp.get j)) (fun i => hrho (p.assoc_comp.get i)) hsites
    hweak.row (hs _) (hsX p.assoc_comp.length) tol nderiv (x := fun s _ => x s) (xd := fun s => c (x s))
    (fun s => ρR.const (x s)) hx
  have hL : newtonLoop (newtonStep (solveF p.assoc_comp.length) (fun i j => stateStrength p
      (StateHD.new (T x0) (V x0) (fun i => M i x0)) (p.assoc_comp.get i) (p.assoc_comp.get j)) (assocNa p) (assocNb p)
      (assocRho p (StateHD.new (T x0) (V x0) (fun i => M i x0)).partial_density) tol) max_iter (fun _ => 0.2) = .ok x :=
    hloop
  rw [hL] at hloopX
  have hvol := L.unique hstX.volume (L.link hst.volume)
  have hdens := ρR.sumFin lawfulEmb_id hrho
  have hdensX := ρX.sumFin le hrhoX
  have hcutX : F64.lt (DualNum.re (sumFin (StateHD.new (lift Td) (lift Vd) (fun i => lift (Md i))).partial_density))
      (f64EPSILON : XReal) = F64.lt (DualNum.re (sumFin (StateHD.new Td Vd Md).partial_density)) (f64EPSILON : ℝ) := by
    rw [ρX.re hdensX, ρR.re hdens]
    exact XReal.fin_lt _ _
  have hconst : ∀ a : ℝ, (c (XReal.fin a) : DX) = lift (c a) := fun a =>
    L.unique (ρX.constRel rfl) (L.link (ρR.const a))
  have hrepF : ∀ s, ρR.R (fun y => assocF (x' s y)) (assocF (xd s)) := fun s =>
    rep_assocF lawfulEmb_id (hx' s) (hx1 s).1
  have hrepFX : ∀ s, ρX.R (fun y => assocF (x' s y)) (assocF (lift (xd s))) := fun s =>
    rep_assocF le (L.link (hx' s)) (hx1 s).1
  have hE := fun i : Fin p.assoc_comp.length => ρR.mul (hrho (p.assoc_comp.get i))
      (ρR.add (ρR.mul (hrepF (.inl i)) (ρR.constOf (a := p.na (p.assoc_comp.get i)) rfl))
        (ρR.mul (hrepF (.inr i)) (ρR.constOf (a := p.nb (p.assoc_comp.get i)) rfl)))
  have hEX := fun i : Fin p.assoc_comp.length => ρX.mul (hrhoX (p.assoc_comp.get i))
      (ρX.add (ρX.mul (hrepFX (.inl i)) (ρX.constOf (hq.na (p.assoc_comp.get i))))
        (ρX.mul (hrepFX (.inr i)) (ρX.constOf (hq.nb (p.assoc_comp.get i)))))
  cases hcut : F64.lt (DualNum.re (sumFin (StateHD.new Td Vd Md).partial_density)) (f64EPSILON : ℝ) with
  | true =>
    refine ⟨_, _, ρR.mul (ρR.constOf (CR.sci lawfulEmb_id _ _ _)) hst.volume,
      crossAssociation_dilute p max_iter tol nderiv _ _ _ hcut, ?_⟩
    rw [crossAssociation_dilute q max_iter _ nderiv _ _ _ (hcutX.trans hcut)]
    exact congrArg Except.ok (L.unique (ρX.mul (ρX.constOf (CR.sci le _ _ _)) hstX.volume)
      (L.link (ρR.mul (ρR.constOf (CR.sci lawfulEmb_id _ _ _)) hst.volume)))
  | false =>
    refine ⟨_, _, ρR.mul (ρR.sumFin lawfulEmb_id hE) hst.volume, ?_, ?_⟩
    · refine crossAssociation_eq p rfl max_iter tol nderiv solveF solveD _ (fun _ _ => rfl) hcut (x := x) ?_ hok
      refine Eq.trans ?_ hL
      congr 2
      · funext i j
        exact ρR.re (hd _ _)
      · funext i
        exact ρR.re (hrho _)
    · refine (crossAssociation_eq q hq.assoc_comp max_iter _ nderiv solveFX solveDX _ (fun i j => eD i j)
        (hcutX.trans hcut) (x := fun s => XReal.fin (x s)) (xd := fun s => lift (xd s)) ?_ ?_).trans ?_
      · refine Eq.trans ?_ hloopX
        congr 2
        · funext i j
          exact ρX.re (L.link (hd _ _))
        · funext i
          exact hq.na _
        · funext i
          exact hq.nb _
        · funext i
          exact ρX.re (hrhoX _)
      · refine Eq.trans ?_ hokX
        congr 2
        · funext i
          exact hq.na _
        · funext i
          exact hq.nb _
        · funext i
          exact eR _
        · funext s
          exact hconst _
      · exact congrArg Except.ok (L.unique (ρX.mul (ρX.sumFin le hEX) hstX.volume)
          (L.link (ρR.mul (ρR.sumFin lawfulEmb_id hE) hst.volume)))

omit [DualNum XReal DX] in
/-- a finite solver exists -/
theorem exists_finiteSolver {solve : Solver k DR} (hs : CorrectDualSolver solve) (hl : Function.Injective lift) :
    ∃ solveX : Solver k DX, FiniteSolver lift solveX := by
  classical
  refine ⟨fun hX gX => if hc : ∃ hg : (Fin k ⊕ Fin k → Fin k ⊕ Fin k → DR) × (Fin k ⊕ Fin k → DR),
      hX = (fun s t => lift (hg.1 s t)) ∧ gX = fun s => lift (hg.2 s)
    then (solve hc.choose.1 hc.choose.2).map fun w s => lift (w s) else none, fun h g hi => ?_⟩
  have hc : ∃ hg : (Fin k ⊕ Fin k → Fin k ⊕ Fin k → DR) × (Fin k ⊕ Fin k → DR),
      (fun s t => lift (h s t)) = (fun s t => lift (hg.1 s t)) ∧ (fun s => lift (g s)) = fun s => lift (hg.2 s) :=
    ⟨(h, g), rfl, rfl⟩
  have e1 : hc.choose.1 = h := funext fun s => funext fun t => hl (congrFun (congrFun hc.choose_spec.1 s) t).symm
  have e2 : hc.choose.2 = g := funext fun s => hl (congrFun hc.choose_spec.2 s).symm
  obtain ⟨w, hw⟩ := Option.isSome_iff_exists.1 (hs.total h g hi)
  refine ⟨w, ?_, hs.solves h g w hw⟩
  simp only [dif_pos hc]
  rw [e1, e2, hw]
  rfl

/-! ## The residual energy -/

theorem buildContributions_map {p : PcSaftParameters n ℝ} {q : PcSaftParameters n XReal} (hp : ParamRel XReal.IsFin p q)
    (o : PcSaftOptions ℝ) : buildContributions q (o.map XReal.fin)
      = (buildContributions p o).map (Contribution.map XReal.fin) := by
  have e1 : q.ndipole = p.ndipole := by
    simp only [PcSaftParameters.ndipole, hp.dipole_comp]
  have e2 : q.nquadpole = p.nquadpole := by
    simp only [PcSaftParameters.nquadpole, hp.quadpole_comp]
  have e3 : q.nassoc = p.nassoc := by
    simp only [PcSaftParameters.nassoc, hp.assoc_comp]
  unfold buildContributions
  rw [e1, e2, e3]
  simp only [List.map_append]
  congr 1
  · congr 1
    · congr 1
      · congr 1
        split_ifs <;> rfl
      · split_ifs <;> rfl
    · split_ifs <;> rfl
  · generalize p.nassoc = na
    match na with
    | 0 => rfl
    | 1 => rfl
    | (_ + 2) => rfl

/-- sums over contributions that agree -/
theorem lift_sum (L : Lift ρR ρX lift) {p : PcSaftParameters n ℝ} {q : PcSaftParameters n XReal} (laD : LinAlg ℝ DR)
    (laX : LinAlg XReal DX) (sd : StateHD n DR) (sX : StateHD n DX) (cts : List (Contribution ℝ))
    (hr : ∀ ct ∈ cts, ∃ (a : DR) (f : X → ℝ), ρR.R f a ∧ ct.helmholtzEnergy laD p sd = .ok a
      ∧ (ct.map XReal.fin).helmholtzEnergy laX q sX = .ok (lift a)) :
    ∀ (f0 : X → ℝ) (d0 : DR), ρR.R f0 d0 → ∃ (d : DR) (f : X → ℝ), ρR.R f d
      ∧ cts.foldlM (fun acc ct =>
          match ct.helmholtzEnergy laD p sd with
          | .error err => .error err
          | .ok a => .ok (acc + a)) d0 = (.ok d : Except Panic DR)
      ∧ (cts.map (Contribution.map XReal.fin)).foldlM (fun acc ct =>
          match ct.helmholtzEnergy laX q sX with
          | .error err => .error err
          | .ok a => .ok (acc + a)) (lift d0) = (.ok (lift d) : Except Panic DX) := by
  induction cts with
  | nil => exact fun f0 d0 h0 => ⟨d0, f0, h0, rfl, rfl⟩
  | cons ct cts ih =>
    intro f0 d0 h0
    obtain ⟨a, f, h1, h2, h3⟩ := hr ct (by simp)
    have e : lift d0 + lift a = lift (d0 + a) := L.unique (ρX.add (L.link h0) (L.link h1)) (L.link (ρR.add h0 h1))
    obtain ⟨d, f', h4, h5, h6⟩ := ih (fun c hc => hr c (by simp [hc])) _ _ (ρR.add h0 h1)
    refine ⟨d, f', h4, ?_, ?_⟩
    · rw [List.foldlM_cons]
      simp only [h2]
      exact h5
    · rw [List.map_cons, List.foldlM_cons]
      simp only [h3]
      rw [← e] at h6
      exact h6

/-- C21 for the residual energy and its derivatives of any order, several associating components, at weakly
associating states: evaluated with infinities and NaN it is the finite number that it is over the reals. -/
theorem C21_weak_residual (Tw : Tower ρR N) (L : Lift ρR ρX lift) {pr : Fin n → PureRecord ℝ}
    {kij : Fin n → Fin n → ℝ} {o : PcSaftOptions ℝ} {p : PcSaftParameters n ℝ} (hp : p = fromRecords pr kij)
    (ha : 2 ≤ p.nassoc) {T V : X → ℝ} {M : Fin n → X → ℝ} {Td Vd : DR}
    {Md : Fin n → DR} (hT : ρR.R T Td) (hV : ρR.R V Vd) (hM : ∀ i, ρR.R (M i) (Md i))
    (h : Admissible p (T x0) (V x0) (fun i => M i x0)) (he : ∀ i, 0 < (pr i).model_record.epsilon_k)
    (hka : ∀ i, 0 ≤ p.kappa_ab i)
    (hr : ∀ ct ∈ (Eos.withoutAssociation p o).contributions, Regular p (T x0) (V x0) (fun i => M i x0) ct)
    (hn : AssocNonneg p) (hw : WeakAssociation p (T x0) (V x0) (fun i => M i x0) 1) (hk : p.nassoc ≤ 10 ^ 6)
    (hmax : 10 ≤ o.max_iter_cross_assoc) (htol : 1e-10 ≤ o.tol_cross_assoc) (htol' : o.tol_cross_assoc ≤ 1 / 2)
    {laD : LinAlg ℝ DR} (hsF : ∀ k, CorrectSolver (laD.solveF k)) (hs : ∀ k, CorrectDualSolver (laD.solveD k))
    {laX : LinAlg XReal DX} (hsFX : ∀ k, FiniteSolver XReal.fin (laX.solveF k))
    (hsX : ∀ k, FiniteSolver lift (laX.solveD k)) (hnd : laX.nderiv = laD.nderiv) :
    ∃ (d : DR) (f : X → ℝ), ρR.R f d ∧ (Eos.withOptions p o).residualHelmholtz laD (StateHD.new Td Vd Md) = .ok d
      ∧ (Eos.withOptions (xParameters pr kij) (o.map XReal.fin)).residualHelmholtz laX
          (StateHD.new (lift Td) (lift Vd) (fun i => lift (Md i))) = .ok (lift d) := by
  have le := XReal.lawfulEmb
  subst hp
  have hq := xParameters_rel pr kij h.m_pos h.sigma_pos he hka
  let la : LinAlg ℝ ℝ := ⟨fun _ _ _ => none, fun _ _ _ => none, 0⟩
  have hrel : ∀ ct ∈ buildContributions (fromRecords pr kij) o, ∃ (a : DR) (f : X → ℝ), ρR.R f a
      ∧ ct.helmholtzEnergy laD (fromRecords pr kij) (StateHD.new Td Vd Md) = .ok a
      ∧ (ct.map XReal.fin).helmholtzEnergy laX (xParameters pr kij)
        (StateHD.new (lift Td) (lift Vd) (fun i => lift (Md i))) = .ok (lift a) := by
    intro ct hct
    rw [buildContributions_cross o ha, List.mem_append] at hct
    rcases hct with hct | hct
    · obtain ⟨A, d, h1, h2, h3⟩ := rep_contribution (g := fun x => x) lawfulEmb_id (ParamRel.refl _) hT hV hM h la laD ct (hr ct hct)
      obtain ⟨A', d', h1', h2', h3'⟩ := rep_contribution (g := XReal.fin) le hq (L.link hT) (L.link hV) (fun i => L.link (hM i)) h la laX
        ct (hr ct hct)
      have e : A' = A := funext fun x => by
        have := (h1' x).symm.trans (h1 x)
        exact Except.ok.inj this
      refine ⟨d, A, h3, ?_, ?_⟩
      · have hmap : ct.map (fun x : ℝ => x) = ct := by cases ct <;> rfl
        rwa [hmap] at h2
      · rw [h2', L.unique h3' (e ▸ L.link h3)]
    · rw [List.mem_singleton] at hct
      subst hct
      obtain ⟨a, f, h1, h2, h3⟩ := C21_cross_association Tw L rfl hq hT hV hM h hn hw hk hmax htol htol' laD.nderiv hsF hs
        hsFX hsX
      refine ⟨a, f, h1, h2, ?_⟩
      rw [← hnd] at h3
      exact h3
  obtain ⟨d, f, h1, h2, h3⟩ := lift_sum L laD laX _ _ _ hrel (fun _ => (0.0 : ℝ)) (c (0.0 : ℝ))
    (ρR.constOf (CR.sci lawfulEmb_id _ _ _))
  refine ⟨d, f, h1, (congrArg (fun f => List.foldlM f _ _) (by
    funext acc ct
    simp only [Eos.withOptions]
    cases ct.helmholtzEnergy laD (fromRecords pr kij) (StateHD.new Td Vd Md) <;> rfl)).trans h2, ?_⟩
  have hb : buildContributions (xParameters pr kij) (o.map XReal.fin)
      = (buildContributions (fromRecords pr kij) o).map (Contribution.map XReal.fin) := buildContributions_map hq o
  have e0 : lift (c (0.0 : ℝ)) = c (0.0 : XReal) := L.unique (f := fun _ => (0.0 : ℝ))
    (L.link (ρR.constOf (CR.sci lawfulEmb_id _ _ _))) (ρX.constOf (CR.sci le _ _ _))
  rw [← hb, e0] at h3
  exact (congrArg (fun f => List.foldlM f _ _) (by
    funext acc ct
    simp only [Eos.withOptions]
    cases ct.helmholtzEnergy laX (xParameters pr kij) (StateHD.new (lift Td) (lift Vd) (fun i => lift (Md i)))
      <;> rfl)).trans h3

end contribution

/-- C21: the residual energy with several associating components at a weakly associating state is finite. -/
theorem C21_weak_energy {pr : Fin n → PureRecord ℝ} {kij : Fin n → Fin n → ℝ} {o : PcSaftOptions ℝ}
    {p : PcSaftParameters n ℝ} (hp : p = fromRecords pr kij) (ha : 2 ≤ p.nassoc) {T V : ℝ} {M : Fin n → ℝ}
    (h : Admissible p T V M)
    (he : ∀ i, 0 < (pr i).model_record.epsilon_k) (hka : ∀ i, 0 ≤ p.kappa_ab i)
    (hr : ∀ ct ∈ (Eos.withoutAssociation p o).contributions, Regular p T V M ct) (hn : AssocNonneg p)
    (hw : WeakAssociation p T V M 1) (hk : p.nassoc ≤ 10 ^ 6) (hmax : 10 ≤ o.max_iter_cross_assoc)
    (htol : 1e-10 ≤ o.tol_cross_assoc) (htol' : o.tol_cross_assoc ≤ 1 / 2)
    {la : LinAlg ℝ ℝ} (hsF : ∀ k, CorrectSolver (la.solveF k)) (hs : ∀ k, CorrectDualSolver (la.solveD k))
    {laX : LinAlg XReal XReal} (hsFX : ∀ k, FiniteSolver XReal.fin (laX.solveF k))
    (hsX : ∀ k, FiniteSolver XReal.fin (laX.solveD k)) (hnd : laX.nderiv = la.nderiv) :
    ∃ a, (Eos.withOptions p o).residualHelmholtz la (StateHD.new T V M) = .ok a
      ∧ (Eos.withOptions (xParameters pr kij) (o.map XReal.fin)).residualHelmholtz laX
        (StateHD.new (XReal.fin T) (XReal.fin V) (fun i => XReal.fin (M i))) = .ok (XReal.fin a) := by
  obtain ⟨d, -, -, h1, h2⟩ := C21_weak_residual (ρR := rho0) (towerReal ()) (liftReal ()) hp ha
    (rho0_const T) (rho0_const V) (fun i => rho0_const (M i))
    (by simpa using h) he hka (by simpa using hr) hn (by simpa using hw) hk hmax htol htol' hsF hs hsFX hsX hnd
  exact ⟨d, h1, h2⟩

/-- C21: its first derivatives in any direction are finite as well. -/
theorem C21_weak_first_derivatives {pr : Fin n → PureRecord ℝ} {kij : Fin n → Fin n → ℝ} {o : PcSaftOptions ℝ}
    {p : PcSaftParameters n ℝ} (hp : p = fromRecords pr kij) (ha : 2 ≤ p.nassoc) {T V : ℝ} {M : Fin n → ℝ}
    (T' V' : ℝ) (M' : Fin n → ℝ) (h : Admissible p T V M)
    (he : ∀ i, 0 < (pr i).model_record.epsilon_k) (hka : ∀ i, 0 ≤ p.kappa_ab i)
    (hr : ∀ ct ∈ (Eos.withoutAssociation p o).contributions, Regular p T V M ct) (hn : AssocNonneg p)
    (hw : WeakAssociation p T V M 1) (hk : p.nassoc ≤ 10 ^ 6) (hmax : 10 ≤ o.max_iter_cross_assoc)
    (htol : 1e-10 ≤ o.tol_cross_assoc) (htol' : o.tol_cross_assoc ≤ 1 / 2)
    {la : LinAlg ℝ (Dual ℝ)} (hsF : ∀ k, CorrectSolver (la.solveF k)) (hs : ∀ k, CorrectDualSolver (la.solveD k))
    {laX : LinAlg XReal (Dual XReal)} (hsFX : ∀ k, FiniteSolver XReal.fin (laX.solveF k))
    (hsX : ∀ k, FiniteSolver (Dual.embed XReal.fin) (laX.solveD k)) (hnd : laX.nderiv = la.nderiv) :
    ∃ a, (Eos.withOptions p o).residualHelmholtz la (StateHD.new (⟨T, T'⟩ : Dual ℝ) ⟨V, V'⟩ (fun i => ⟨M i, M' i⟩)) = .ok a
      ∧ (Eos.withOptions (xParameters pr kij) (o.map XReal.fin)).residualHelmholtz laX
        (StateHD.new (⟨XReal.fin T, XReal.fin T'⟩ : Dual XReal) ⟨XReal.fin V, XReal.fin V'⟩
          (fun i => ⟨XReal.fin (M i), XReal.fin (M' i)⟩)) = .ok ⟨XReal.fin a.re, XReal.fin a.eps⟩ := by
  obtain ⟨d, -, -, h1, h2⟩ := C21_weak_residual (ρR := rho1) (towerDual (towerReal ()) 0) (Lift.dual XReal.lawfulEmb (liftReal ()) 0) hp ha
    (rho1_seed T T') (rho1_seed V V') (fun i => rho1_seed (M i) (M' i))
    (by simpa using h) he hka (by simpa using hr) hn (by simpa using hw) hk hmax htol htol' hsF hs hsFX hsX hnd
  exact ⟨d, h1, h2⟩

/-- C21: its second derivatives in any two directions are finite as well. -/
theorem C21_weak_second_derivatives {pr : Fin n → PureRecord ℝ} {kij : Fin n → Fin n → ℝ} {o : PcSaftOptions ℝ}
    {p : PcSaftParameters n ℝ} (hp : p = fromRecords pr kij) (ha : 2 ≤ p.nassoc) {T V : ℝ} {M : Fin n → ℝ}
    (Tu Tw Vu Vw : ℝ) (Mu Mw : Fin n → ℝ) (h : Admissible p T V M)
    (he : ∀ i, 0 < (pr i).model_record.epsilon_k) (hka : ∀ i, 0 ≤ p.kappa_ab i)
    (hr : ∀ ct ∈ (Eos.withoutAssociation p o).contributions, Regular p T V M ct) (hn : AssocNonneg p)
    (hw : WeakAssociation p T V M 1) (hk : p.nassoc ≤ 10 ^ 6) (hmax : 10 ≤ o.max_iter_cross_assoc)
    (htol : 1e-10 ≤ o.tol_cross_assoc) (htol' : o.tol_cross_assoc ≤ 1 / 2)
    {la : LinAlg ℝ (Dual (Dual ℝ))} (hsF : ∀ k, CorrectSolver (la.solveF k)) (hs : ∀ k, CorrectDualSolver (la.solveD k))
    {laX : LinAlg XReal (Dual (Dual XReal))} (hsFX : ∀ k, FiniteSolver XReal.fin (laX.solveF k))
    (hsX : ∀ k, FiniteSolver (Dual.embed (Dual.embed XReal.fin)) (laX.solveD k)) (hnd : laX.nderiv = la.nderiv) :
    ∃ a, (Eos.withOptions p o).residualHelmholtz la (StateHD.new (⟨⟨T, Tu⟩, ⟨Tw, 0⟩⟩ : Dual (Dual ℝ)) ⟨⟨V, Vu⟩, ⟨Vw, 0⟩⟩
        (fun i => ⟨⟨M i, Mu i⟩, ⟨Mw i, 0⟩⟩)) = .ok a
      ∧ (Eos.withOptions (xParameters pr kij) (o.map XReal.fin)).residualHelmholtz laX
        (StateHD.new (⟨⟨XReal.fin T, XReal.fin Tu⟩, ⟨XReal.fin Tw, XReal.fin 0⟩⟩ : Dual (Dual XReal))
          ⟨⟨XReal.fin V, XReal.fin Vu⟩, ⟨XReal.fin Vw, XReal.fin 0⟩⟩
          (fun i => ⟨⟨XReal.fin (M i), XReal.fin (Mu i)⟩, ⟨XReal.fin (Mw i), XReal.fin 0⟩⟩)) = .ok ⟨⟨XReal.fin a.re.re, XReal.fin a.re.eps⟩, ⟨XReal.fin a.eps.re, XReal.fin a.eps.eps⟩⟩ := by
  obtain ⟨d, -, -, h1, h2⟩ := C21_weak_residual (ρR := rho2) (towerDual (towerDual (towerReal ()) 0) 0) (Lift.dual XReal.lawfulEmb (Lift.dual XReal.lawfulEmb (liftReal ()) 0) 0) hp ha
    (rho2_seed T Tu Tw) (rho2_seed V Vu Vw) (fun i => rho2_seed (M i) (Mu i) (Mw i))
    (by simpa using h) he hka (by simpa using hr) hn (by simpa using hw) hk hmax htol htol' hsF hs hsFX hsX hnd
  exact ⟨d, h1, h2⟩

/-! ## A case that meets the hypotheses -/

theorem fin_injective : Function.Injective XReal.fin := fun _ _ h => XReal.fin.inj h

theorem embed_injective {DX DR : Type} {lift : DR → DX} (h : Function.Injective lift) :
    Function.Injective (Dual.embed lift) := fun a b e => by
  have e1 := congrArg Dual.re e
  have e2 := congrArg Dual.eps e
  exact Dual.ext (h e1) (h e2)

/-- solvers that meet the assumptions -/
theorem exists_finite_solvers : ∃ (la : LinAlg ℝ (Dual ℝ)) (laX : LinAlg XReal (Dual XReal)),
    (∀ k, CorrectSolver (la.solveF k)) ∧ (∀ k, CorrectDualSolver (la.solveD k))
    ∧ (∀ k, FiniteSolver XReal.fin (laX.solveF k)) ∧ (∀ k, FiniteSolver (Dual.embed XReal.fin) (laX.solveD k))
    ∧ la.nderiv = 1 ∧ laX.nderiv = 1 := by
  have h1 := fun k => exists_correctDualSolver (towerDual (towerReal ()) 0) k
  have h2 := fun k => exists_finiteSolver (k := k) (CorrectSolver.dual exactSolver_correct) fin_injective
  have h3 := fun k => exists_finiteSolver (h1 k).choose_spec (embed_injective fin_injective)
  exact ⟨⟨fun _ => exactSolver, fun k => (h1 k).choose, 1⟩, ⟨fun k => (h2 k).choose, fun k => (h3 k).choose, 1⟩,
    fun _ => exactSolver_correct, fun k => (h1 k).choose_spec, fun k => (h2 k).choose_spec, fun k => (h3 k).choose_spec,
    rfl, rfl⟩

end PcSaft.Props
