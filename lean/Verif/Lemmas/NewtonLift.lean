import Verif.Lemmas.NewtonTower
import Verif.Lemmas.NewtonWeak

/-!
# Newton steps over numbers with infinities and NaN

A number type `DX` over `F` (reals with infinities and NaN, dual numbers over them) contains the finite numbers, the
image of a number type `DR` over the reals. A Newton step from positive finite fractions gives finite fractions,
those of the step over the reals.
-/

open Filter Topology

namespace PcSaft
open Spec

namespace Spec

/-- What is assumed about the external LU solver at a number type with infinities and NaN: for a finite system with
a matrix whose real parts are non-singular it returns a finite solution. `lift` embeds the finite numbers. -/
def FiniteSolver {k : ℕ} {DR DX : Type} [DualNum ℝ DR] (lift : DR → DX)
    (solve : (Fin k ⊕ Fin k → Fin k ⊕ Fin k → DX) → (Fin k ⊕ Fin k → DX) → Option (Fin k ⊕ Fin k → DX)) : Prop :=
  ∀ (h : Fin k ⊕ Fin k → Fin k ⊕ Fin k → DR) (g : Fin k ⊕ Fin k → DR),
    (∀ v : Fin k ⊕ Fin k → ℝ, (∀ s, ∑ t, DualNum.re (h s t) * v t = 0) → v = 0) →
    ∃ w : Fin k ⊕ Fin k → DR, solve (fun s t => lift (h s t)) (fun s => lift (g s)) = some (fun s => lift (w s))
      ∧ ∀ s, sumFin (fun j => h s (.inl j) * w (.inl j)) + sumFin (fun j => h s (.inr j) * w (.inr j)) = g s

end Spec

variable {F DX DR X : Type} [F64 F] [DualNum F DX] [DualNum ℝ DR] [TopologicalSpace X] {x0 : X} {emb : ℝ → F → Prop}
  {ρR : Rep x0 Same DR} {ρX : Rep x0 emb DX} {lift : DR → DX} {N k : ℕ}

/-- The numbers that represent a function over `DX` are the images of those that represent it over `DR`. -/
structure Lift (ρR : Rep x0 Same DR) (ρX : Rep x0 emb DX) (lift : DR → DX) : Prop where
  link : ∀ {f d}, ρR.R f d → ρX.R f (lift d)
  unique : ∀ {f d e}, ρX.R f d → ρX.R f e → d = e

theorem liftReal (x0 : X) : Lift (repReal x0) (XReal.rep x0) XReal.fin where
  link h := ⟨h.1, by rw [h.2]⟩
  unique h h' := h.2.trans h'.2.symm

/-- embedding of dual numbers -/
def Dual.embed (f : DR → DX) (d : Dual DR) : Dual DX := ⟨f d.re, f d.eps⟩

theorem Lift.dual (le : LawfulEmb emb) (L : Lift ρR ρX lift) (t0 : ℝ) :
    Lift (repDual lawfulEmb_id ρR t0) (repDual le ρX t0) (Dual.embed lift) where
  link h := by
    obtain ⟨h1, h2, f', h3, h4⟩ := h
    exact ⟨h1, L.link h2, f', h3, L.link h4⟩
  unique h h' := by
    obtain ⟨-, h2, f', h3, h4⟩ := h
    obtain ⟨-, h2', f'', h3', h4'⟩ := h'
    refine Dual.ext (L.unique h2 h2') (L.unique h4 (ρX.congr h4' ?_))
    filter_upwards [h3, h3'] with x e1 e2
    exact e2.unique e1

/-! ### The step -/

section emb
variable (le : LawfulEmb emb) {delta : Fin k → Fin k → X → ℝ} {deltax : Fin k → Fin k → DX} {rho : Fin k → X → ℝ}
  {rhox : Fin k → DX} {na nb : Fin k → ℝ} {nax nbx : Fin k → F} {x : Fin k ⊕ Fin k → X → ℝ}
  {xx : Fin k ⊕ Fin k → DX}
  (hdelta : ∀ i j, ρX.R (delta i j) (deltax i j)) (hrho : ∀ i, ρX.R (rho i) (rhox i))
include le hdelta hrho

theorem emb_dnx {nn : Fin k → ℝ} {nnx : Fin k → F} (hn : ∀ i, CR emb (nn i) (nnx i)) {z : Fin k → X → ℝ}
    {zx : Fin k → DX} (hz : ∀ i, ρX.R (z i) (zx i)) (i : Fin k) :
    ρX.R (fun y => dnx (fun i j => delta i j y) (fun i => rho i y) nn (fun i => z i y) i)
      (dnx deltax rhox nnx zx i) := by
  have h := ρX.sumFin le (f := fun j y => z j y * c (nn j) * (delta i j y * rho j y))
    (d := fun j => zx j * c (nnx j) * (deltax i j * rhox j))
    (fun j => ρX.mul (ρX.mul (hz j) (ρX.constOf (hn j))) (ρX.mul (hdelta i j) (hrho j)))
  unfold dnx
  exact ρX.add h (ρX.constOf (CR.sci le _ _ _))

variable (hna : ∀ i, CR emb (na i) (nax i)) (hnb : ∀ i, CR emb (nb i) (nbx i))
  (hx : ∀ s, ρX.R (x s) (xx s)) (hx0 : ∀ s, x s x0 ≠ 0)
include hna hnb hx hx0

theorem emb_newtonG (s : Fin k ⊕ Fin k) :
    ρX.R (fun y => newtonG (fun i j => delta i j y) na nb (fun i => rho i y) (fun s => x s y) s)
      (newtonG deltax nax nbx rhox xx s) := by
  rcases s with i | i
  · exact ρX.sub (ρX.recip' (hx _) (hx0 _)) (emb_dnx le hdelta hrho hnb (fun j => hx (.inr j)) i)
  · exact ρX.sub (ρX.recip' (hx _) (hx0 _)) (emb_dnx le hdelta hrho hna (fun j => hx (.inl j)) i)

theorem emb_newtonH (s t : Fin k ⊕ Fin k) :
    ρX.R (fun y => newtonH (fun i j => delta i j y) na nb (fun i => rho i y) (fun s => x s y) s t)
      (newtonH deltax nax nbx rhox xx s t) := by
  rcases s with i | i <;> rcases t with j | j
  · by_cases hij : i = j
    · simp only [newtonH, hij, if_true]
      exact ρX.div (ρX.neg (emb_dnx le hdelta hrho hnb (fun j => hx (.inr j)) j)) (hx _) (hx0 _)
    · simp only [newtonH, hij, if_false]
      exact ρX.constOf (CR.sci le _ _ _)
  · exact ρX.mul (ρX.mul (hdelta i j) (hrho j)) (ρX.constOf (CR.neg le (hnb j)))
  · exact ρX.mul (ρX.mul (hdelta i j) (hrho j)) (ρX.constOf (CR.neg le (hna j)))
  · by_cases hij : i = j
    · simp only [newtonH, hij, if_true]
      exact ρX.div (ρX.neg (emb_dnx le hdelta hrho hna (fun j => hx (.inl j)) j)) (hx _) (hx0 _)
    · simp only [newtonH, hij, if_false]
      exact ρX.constOf (CR.sci le _ _ _)

end emb

section step
variable (T : Tower ρR N) (L : Lift ρR ρX lift) (le : LawfulEmb emb)
  {delta : Fin k → Fin k → X → ℝ} {deltad : Fin k → Fin k → DR} {rho : Fin k → X → ℝ} {rhod : Fin k → DR}
  {na nb : Fin k → ℝ} {nax nbx : Fin k → F}
  (hdelta : ∀ i j, ρR.R (delta i j) (deltad i j)) (hrho : ∀ i, ρR.R (rho i) (rhod i))
  (hM : ∀ s t, 0 ≤ siteMatrixAt delta na nb rho x0 s t)
  (hna : ∀ i, CR emb (na i) (nax i)) (hnb : ∀ i, CR emb (nb i) (nbx i))
include T L le hdelta hrho hM hna hnb

/-- The step from positive finite fractions is the step over the reals; the gradients are the same as well. -/
theorem newtonStep_lift {solve : Solver k DR} (hs : CorrectDualSolver solve) {solveX : Solver k DX}
    (hX : FiniteSolver lift solveX) (tol : ℝ) (tolX : F) {x : Fin k ⊕ Fin k → X → ℝ} {xd : Fin k ⊕ Fin k → DR}
    (hx : ∀ s, ρR.R (x s) (xd s)) (hx0 : ∀ s, 0 < x s x0) :
    (∀ s, newtonG (fun i j => lift (deltad i j)) nax nbx (fun i => lift (rhod i)) (fun s => lift (xd s)) s
      = lift (newtonG deltad na nb rhod xd s))
    ∧ ∃ xd' b bX, newtonStep solve deltad na nb rhod tol xd = .ok (xd', b)
      ∧ newtonStep solveX (fun i j => lift (deltad i j)) nax nbx (fun i => lift (rhod i)) tolX (fun s => lift (xd s))
        = .ok (fun s => lift (xd' s), bX)
      ∧ bX = F64.lt (normRe (newtonG (fun i j => lift (deltad i j)) nax nbx (fun i => lift (rhod i))
          (fun s => lift (xd s)))) tolX
      ∧ ∀ s, ρR.R (fun y => x s y - ((stepMatrix delta na nb rho x y)⁻¹.mulVec
        (newtonG (fun i j => delta i j y) na nb (fun i => rho i y) (fun s => x s y))) s) (xd' s) := by
  have hx0' : ∀ s, x s x0 ≠ 0 := fun s => (hx0 s).ne'
  have hG := rep_newtonG (na := na) (nb := nb) hdelta hrho hx hx0'
  have hH := rep_newtonH (na := na) (nb := nb) hdelta hrho hx hx0'
  have hlx := fun s => L.link (hx s)
  have hld := fun i j => L.link (hdelta i j)
  have hlr := fun i => L.link (hrho i)
  have eG : ∀ s, newtonG (fun i j => lift (deltad i j)) nax nbx (fun i => lift (rhod i)) (fun s => lift (xd s)) s
      = lift (newtonG deltad na nb rhod xd s) := fun s =>
    L.unique (emb_newtonG le hld hlr hna hnb hlx hx0' s) (L.link (hG s))
  have eH : ∀ s t, newtonH (fun i j => lift (deltad i j)) nax nbx (fun i => lift (rhod i)) (fun s => lift (xd s)) s t
      = lift (newtonH deltad na nb rhod xd s t) := fun s t =>
    L.unique (emb_newtonH le hld hlr hna hnb hlx hx0' s t) (L.link (hH s t))
  refine ⟨eG, ?_⟩
  obtain ⟨-, xd', b, hok, hrep⟩ := newtonStep_rep T hdelta hrho hM hs tol hx hx0
  have hinj := newtonH_injective hM hx0
  obtain ⟨w, hw, hsol⟩ := hX (newtonH deltad na nb rhod xd) (newtonG deltad na nb rhod xd) (fun v hv =>
    hinj v (fun s => by
      rw [← hv s]
      exact Finset.sum_congr rfl fun t _ => by rw [ρR.re (hH s t)]))
  -- the solution is the one of any other solver
  classical
  let solve' : Solver k DR := fun h g =>
    if h = newtonH deltad na nb rhod xd ∧ g = newtonG deltad na nb rhod xd then some w else solve h g
  have hs' : CorrectDualSolver solve' := by
    refine ⟨fun h g y hy => ?_, fun h g hi => ?_⟩
    · simp only [solve'] at hy
      split_ifs at hy with hc
      · rw [← Option.some.inj hy, hc.1, hc.2]
        exact hsol
      · exact hs.solves h g y hy
    · simp only [solve']
      split_ifs
      · rfl
      · exact hs.total h g hi
  obtain ⟨-, xd'', b', hok', hrep'⟩ := newtonStep_rep T hdelta hrho hM hs' tol hx hx0
  have e1 : xd'' = fun s => xd s - w s := by
    unfold newtonStep at hok'
    simp only [solve', and_self, if_true] at hok'
    exact (congrArg Prod.fst (Except.ok.inj hok')).symm
  have e2 : ∀ s, xd' s = xd s - w s := fun s => by
    rw [T.unique (hrep s) (hrep' s), e1]
  have e3 : ∀ s, lift (xd s) - lift (w s) = lift (xd' s) := fun s => by
    obtain ⟨wf, hwf⟩ := T.full (w s)
    refine L.unique (f := fun y => x s y - wf y) (ρX.sub (hlx s) (L.link hwf)) ?_
    rw [e2]
    exact L.link (ρR.sub (hx s) hwf)
  refine ⟨xd', b, _, hok, ?_, rfl, hrep⟩
  unfold newtonStep
  simp only [show newtonH (fun i j => lift (deltad i j)) nax nbx (fun i => lift (rhod i)) (fun s => lift (xd s))
    = fun s t => lift (newtonH deltad na nb rhod xd s t) from funext fun s => funext fun t => eH s t,
    show newtonG (fun i j => lift (deltad i j)) nax nbx (fun i => lift (rhod i)) (fun s => lift (xd s))
    = fun s => lift (newtonG deltad na nb rhod xd s) from funext eG, hw, e3]

end step

end PcSaft
