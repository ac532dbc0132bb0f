import Verif.Lemmas.Newton
import Mathlib.Data.List.NodupEquivFin

/-!
# Renumbering the unknowns of the cross-association iteration
-/

namespace PcSaft
open Spec
variable {k k' : ℕ}

namespace Spec

/-- What is assumed about the LU solver when the numbering of the unknowns must not matter: with exact
arithmetic it fails exactly if the matrix is singular. -/
structure ExactSolver {ι : Type*} [Fintype ι] (solve : (ι → ι → ℝ) → (ι → ℝ) → Option (ι → ℝ)) : Prop
    extends CorrectSolver solve where
  regular : ∀ h g y, solve h g = some y → ∀ v : ι → ℝ, (∀ s, ∑ t, h s t * v t = 0) → v = 0

end Spec

theorem exactSolver_exact {ι : Type*} [Fintype ι] [DecidableEq ι] : ExactSolver (exactSolver (ι := ι)) where
  toCorrectSolver := exactSolver_correct
  regular := by
    intro h g y hy v hv
    unfold exactSolver at hy
    split_ifs at hy with hd
    by_contra hne
    exact hd (Matrix.exists_mulVec_eq_zero_iff.1 ⟨v, hne, funext hv⟩)

/-- two exact solvers agree up to the numbering of the unknowns -/
theorem Spec.ExactSolver.reindex {ι ι' : Type*} [Fintype ι] [Fintype ι']
    {solve : (ι → ι → ℝ) → (ι → ℝ) → Option (ι → ℝ)} {solve' : (ι' → ι' → ℝ) → (ι' → ℝ) → Option (ι' → ℝ)}
    (hs : ExactSolver solve) (hs' : ExactSolver solve') (e : ι' ≃ ι) (h : ι → ι → ℝ) (g : ι → ℝ) :
    solve' (fun s t => h (e s) (e t)) (fun s => g (e s)) = (solve h g).map (fun y s => y (e s)) := by
  have key : ∀ (v : ι → ℝ) (s : ι'), ∑ t, h (e s) (e t) * v (e t) = ∑ t, h (e s) t * v t :=
    fun v s => Equiv.sum_comp e (fun t => h (e s) t * v t)
  have hinj : (∀ v : ι → ℝ, (∀ s, ∑ t, h s t * v t = 0) → v = 0) ↔
      ∀ v : ι' → ℝ, (∀ s, ∑ t, h (e s) (e t) * v t = 0) → v = 0 := by
    constructor
    · intro H v hv
      have := H (fun s => v (e.symm s)) fun s => by
        have h1 := key (fun s => v (e.symm s)) (e.symm s)
        simp only [Equiv.symm_apply_apply, Equiv.apply_symm_apply] at h1
        rw [← h1]
        have h2 := hv (e.symm s)
        simpa only [Equiv.apply_symm_apply] using h2
      funext s
      have := congrFun this (e s)
      simpa using this
    · intro H v hv
      have := H (fun s => v (e s)) fun s => by rw [key]; exact hv (e s)
      funext s
      have := congrFun this (e.symm s)
      simpa using this
  match h1 : solve h g, h2 : solve' (fun s t => h (e s) (e t)) (fun s => g (e s)) with
  | none, none => rfl
  | none, some y =>
    have := hs.total h g (hinj.2 (hs'.regular _ _ _ h2))
    rw [h1] at this
    simp at this
  | some y, none =>
    have := hs'.total _ (fun s => g (e s)) (hinj.1 (hs.regular _ _ _ h1))
    rw [h2] at this
    simp at this
  | some y, some y' =>
    simp only [Option.map_some, Option.some.injEq]
    have h3 := hs.solves _ _ _ h1
    have h4 := hs'.solves _ _ _ h2
    have := hinj.1 (hs.regular _ _ _ h1) (fun s => y' s - y (e s)) fun s => by
      simp only [mul_sub, Finset.sum_sub_distrib]
      rw [h4, key, h3, sub_self]
    funext s
    have := congrFun this s
    simpa [sub_eq_zero] using this

/-- renumbering of the sites of both types -/
def siteEquiv (e : Fin k' ≃ Fin k) : Fin k' ⊕ Fin k' ≃ Fin k ⊕ Fin k := Equiv.sumCongr e e

section
variable (e : Fin k' ≃ Fin k) (delta : Fin k → Fin k → ℝ) (na nb rho : Fin k → ℝ)

theorem dnx_perm (nn x : Fin k → ℝ) (i : Fin k') :
    dnx (fun i j => delta (e i) (e j)) (fun i => rho (e i)) (fun i => nn (e i)) (fun i => x (e i)) i
      = dnx delta rho nn x (e i) := by
  rw [dnx_real, dnx_real, Equiv.sum_comp e (fun j => delta (e i) j * (rho j * nn j) * x j)]

theorem newtonG_perm (x : Fin k ⊕ Fin k → ℝ) (s : Fin k' ⊕ Fin k') :
    newtonG (fun i j => delta (e i) (e j)) (fun i => na (e i)) (fun i => nb (e i)) (fun i => rho (e i))
        (fun s => x (siteEquiv e s)) s
      = newtonG delta na nb rho x (siteEquiv e s) := by
  rcases s with i | i
  · exact congrArg (fun z => DualNum.recip (x (.inl (e i))) - z) (dnx_perm e delta rho nb (fun j => x (.inr j)) i)
  · exact congrArg (fun z => DualNum.recip (x (.inr (e i))) - z) (dnx_perm e delta rho na (fun j => x (.inl j)) i)

theorem newtonH_perm (x : Fin k ⊕ Fin k → ℝ) (s t : Fin k' ⊕ Fin k') :
    newtonH (fun i j => delta (e i) (e j)) (fun i => na (e i)) (fun i => nb (e i)) (fun i => rho (e i))
        (fun s => x (siteEquiv e s)) s t
      = newtonH delta na nb rho x (siteEquiv e s) (siteEquiv e t) := by
  rcases s with i | i <;> rcases t with j | j
  · have := dnx_perm e delta rho nb (fun j => x (.inr j)) i
    simp only [newtonH, siteEquiv, Equiv.sumCongr_apply, Sum.map_inl, Sum.map_inr, e.apply_eq_iff_eq, this]
  · rfl
  · rfl
  · have := dnx_perm e delta rho na (fun j => x (.inl j)) i
    simp only [newtonH, siteEquiv, Equiv.sumCongr_apply, Sum.map_inl, Sum.map_inr, e.apply_eq_iff_eq, this]

theorem normRe_perm (g : Fin k ⊕ Fin k → ℝ) : normRe (fun s => g (siteEquiv e s)) = (normRe g : ℝ) := by
  simp only [normRe, sumFin_real]
  congr 2
  · exact Equiv.sum_comp e (fun i => DualNum.re (g (.inl i)) * DualNum.re (g (.inl i)))
  · exact Equiv.sum_comp e (fun i => DualNum.re (g (.inr i)) * DualNum.re (g (.inr i)))

variable {solve : Solver k ℝ} {solve' : Solver k' ℝ} (hs : ExactSolver solve) (hs' : ExactSolver solve')
include hs hs'

theorem newtonStep_perm (tol : ℝ) (x : Fin k ⊕ Fin k → ℝ) :
    newtonStep solve' (fun i j => delta (e i) (e j)) (fun i => na (e i)) (fun i => nb (e i)) (fun i => rho (e i)) tol
        (fun s => x (siteEquiv e s))
      = (newtonStep solve delta na nb rho tol x).map (fun y => (fun s => y.1 (siteEquiv e s), y.2)) := by
  have hG := funext (newtonG_perm e delta na nb rho x)
  have hH := funext fun s => funext (newtonH_perm e delta na nb rho x s)
  unfold newtonStep
  simp only [hG, hH]
  rw [hs.reindex hs' (siteEquiv e), normRe_perm]
  cases solve (newtonH delta na nb rho x) (newtonG delta na nb rho x) <;> rfl

theorem newtonLoop_perm (tol : ℝ) (N : ℕ) (x : Fin k ⊕ Fin k → ℝ) :
    newtonLoop (newtonStep solve' (fun i j => delta (e i) (e j)) (fun i => na (e i)) (fun i => nb (e i))
        (fun i => rho (e i)) tol) N (fun s => x (siteEquiv e s))
      = (newtonLoop (newtonStep solve delta na nb rho tol) N x).map (fun y s => y (siteEquiv e s)) := by
  induction N generalizing x with
  | zero => rfl
  | succ N ih =>
    simp only [newtonLoop]
    rw [newtonStep_perm e delta na nb rho hs hs']
    match newtonStep solve delta na nb rho tol x with
    | .error _ => rfl
    | .ok (y, true) => simp [Except.map]
    | .ok (y, false) =>
      simp only [Except.map]
      by_cases hN : N = 0
      · simp [hN]
      · simp only [Bool.false_eq_true, if_false, hN]
        exact ih y

end

/-- Two duplicate-free lists of components, one of which is mapped to the other by `φ`. -/
theorem exists_listEquiv {α β : Type*} [DecidableEq α] [DecidableEq β] {l' : List α} {l : List β} (hl' : l'.Nodup)
    (hl : l.Nodup) (φ : α → β) (h1 : ∀ i ∈ l', φ i ∈ l) (h2 : ∀ i ∈ l', ∀ j ∈ l', φ i = φ j → i = j)
    (h3 : ∀ a ∈ l, ∃ i ∈ l', φ i = a) :
    ∃ e : Fin l'.length ≃ Fin l.length, ∀ i, l.get (e i) = φ (l'.get i) := by
  let f : {x // x ∈ l'} → {x // x ∈ l} := fun x => ⟨φ x, h1 x x.2⟩
  have hf : Function.Bijective f := by
    constructor
    · intro x y hxy
      exact Subtype.ext (h2 x x.2 y y.2 (congrArg Subtype.val hxy))
    · rintro ⟨a, ha⟩
      obtain ⟨i, hi, rfl⟩ := h3 a ha
      exact ⟨⟨i, hi⟩, rfl⟩
  refine ⟨((hl'.getEquiv l').trans (Equiv.ofBijective f hf)).trans (hl.getEquiv l).symm, fun i => ?_⟩
  have : ((hl.getEquiv l) ((hl.getEquiv l).symm (f (hl'.getEquiv l' i)))).1 = (f (hl'.getEquiv l' i)).1 := by
    rw [Equiv.apply_symm_apply]
  exact this

end PcSaft
