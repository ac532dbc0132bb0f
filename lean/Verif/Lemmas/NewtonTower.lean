import Verif.Lemmas.Tower
import Verif.Lemmas.SiteBranch
import Verif.Lemmas.Newton
import Verif.Lemmas.RepAssociation

/-!
# Newton steps with dual numbers

The error of the site fractions is a function; every Newton step doubles its order of vanishing.
-/

open Filter Topology
open scoped ContDiff

namespace PcSaft
open Spec

namespace Spec

/-- What is assumed about the external LU solver for dual numbers: a result solves the linear system in the dual
algebra, and there is a result whenever the matrix of real parts is non-singular. -/
structure CorrectDualSolver {k : ℕ} {D : Type} [DualNum ℝ D]
    (solve : (Fin k ⊕ Fin k → Fin k ⊕ Fin k → D) → (Fin k ⊕ Fin k → D) → Option (Fin k ⊕ Fin k → D)) : Prop where
  solves : ∀ h g y, solve h g = some y → ∀ s,
    sumFin (fun j => h s (.inl j) * y (.inl j)) + sumFin (fun j => h s (.inr j) * y (.inr j)) = g s
  total : ∀ h g, (∀ v : Fin k ⊕ Fin k → ℝ, (∀ s, ∑ t, DualNum.re (h s t) * v t = 0) → v = 0) →
    (solve h g).isSome

end Spec

variable {D X : Type} [DualNum ℝ D] [TopologicalSpace X] {x0 : X} {ρ : Rep x0 Same D} {N : ℕ}

namespace Tower
variable (T : Tower ρ N)
include T

theorem const (a : ℝ) : T.O 0 (fun _ => a) := T.zero_iff.mpr ⟨_, ρ.const a⟩
theorem of_rep {f : X → ℝ} {d : D} (h : ρ.R f d) : T.O 0 f := T.zero_iff.mpr ⟨d, h⟩
theorem neg {j : ℕ} {f : X → ℝ} (h : T.O j f) : T.O j (fun x => -f x) := by
  have := T.mul (T.const (-1)) h
  rw [Nat.zero_add] at this
  exact T.congr this (.of_forall fun x => by simp)
theorem sub {j : ℕ} {f g : X → ℝ} (h : T.O j f) (h' : T.O j g) : T.O j (fun x => f x - g x) :=
  T.congr (T.add h (T.neg h')) (.of_forall fun _ => (sub_eq_add_neg _ _).symm)
theorem inv {f : X → ℝ} (h : T.O 0 f) (hne : f x0 ≠ 0) : T.O 0 (fun x => (f x)⁻¹) := by
  obtain ⟨d, hd⟩ := T.zero_iff.mp h
  exact T.of_rep (ρ.recip hd hne)
theorem continuousAt {j : ℕ} {f : X → ℝ} (h : T.O j f) : ContinuousAt f x0 := by
  obtain ⟨d, hd⟩ := T.zero_iff.mp (T.mono_le (Nat.zero_le j) h)
  exact ρ.continuousAt hd
theorem prod {ι : Type} (s : Finset ι) {f : ι → X → ℝ} (h : ∀ i, T.O 0 (f i)) :
    T.O 0 (fun x => ∏ i ∈ s, f i x) := by
  classical
  induction s using Finset.induction_on with
  | empty => simpa using T.const 1
  | insert a s ha ih => simpa [Finset.prod_insert ha] using T.mul (h a) ih

variable {ι : Type} [Fintype ι] [DecidableEq ι]

theorem det {A : X → Matrix ι ι ℝ} (h : ∀ i j, T.O 0 (fun x => A x i j)) : T.O 0 (fun x => (A x).det) := by
  simp only [Matrix.det_apply']
  refine T.sum _ fun σ => ?_
  exact T.mul (T.const _) (T.prod _ fun i => h _ _)

theorem matInv {A : X → Matrix ι ι ℝ} (h : ∀ i j, T.O 0 (fun x => A x i j)) (hne : (A x0).det ≠ 0) (i j : ι) :
    T.O 0 (fun x => (A x)⁻¹ i j) := by
  have h1 : ∀ x, (A x)⁻¹ i j = (A x).det⁻¹ * ((A x).updateRow j (Pi.single i 1)).det := fun x => by
    rw [Matrix.inv_def, Matrix.smul_apply, Matrix.adjugate_apply, smul_eq_mul, Ring.inverse_eq_inv']
  simp only [h1]
  refine T.mul (T.inv (T.det h) hne) (T.det fun a b => ?_)
  by_cases hab : a = j
  · subst hab
    simp only [Matrix.updateRow_self]
    exact T.const _
  · simp only [Matrix.updateRow_ne hab]
    exact h a b

/-- the matrix is invertible near the point -/
theorem eventually_det_ne {A : X → Matrix ι ι ℝ} (h : ∀ i j, T.O 0 (fun x => A x i j)) (hne : (A x0).det ≠ 0) :
    ∀ᶠ x in 𝓝 x0, (A x).det ≠ 0 :=
  (T.continuousAt (T.det h)).eventually_ne hne

/-- multiplication with the inverse matrix keeps the order of vanishing -/
theorem matInv_mulVec {j : ℕ} {A : X → Matrix ι ι ℝ} (h : ∀ i j, T.O 0 (fun x => A x i j)) (hne : (A x0).det ≠ 0)
    {g : ι → X → ℝ} (hg : ∀ i, T.O j (g i)) (i : ι) :
    T.O j (fun x => ((A x)⁻¹.mulVec (fun t => g t x)) i) := by
  simp only [Matrix.mulVec, dotProduct]
  refine T.sum _ fun t => ?_
  have := T.mul (T.matInv h hne i t) (hg t)
  rwa [Nat.zero_add] at this

end Tower

/-! ### Representation of the step -/

theorem rep_sumSites (ρ : Rep x0 Same D) {k : ℕ} {f : Fin k ⊕ Fin k → X → ℝ} {d : Fin k ⊕ Fin k → D}
    (h : ∀ s, ρ.R (f s) (d s)) :
    ρ.R (fun x => ∑ s, f s x) (sumFin (fun j => d (.inl j)) + sumFin (fun j => d (.inr j))) := by
  refine ρ.congr (ρ.add (ρ.sumFin lawfulEmb_id fun j => h (.inl j)) (ρ.sumFin lawfulEmb_id fun j => h (.inr j)))
    (.of_forall fun x => ?_)
  simp only [sumFin_real, Fintype.sum_sum_type]

section rep
variable {k : ℕ} {delta : Fin k → Fin k → X → ℝ} {deltad : Fin k → Fin k → D} {rho : Fin k → X → ℝ}
  {rhod : Fin k → D} {na nb : Fin k → ℝ} {x : Fin k ⊕ Fin k → X → ℝ} {xd : Fin k ⊕ Fin k → D}
  (hdelta : ∀ i j, ρ.R (delta i j) (deltad i j)) (hrho : ∀ i, ρ.R (rho i) (rhod i))

include hdelta hrho

theorem rep_dnx (nn : Fin k → ℝ) {z : Fin k → X → ℝ} {zd : Fin k → D} (hz : ∀ i, ρ.R (z i) (zd i)) (i : Fin k) :
    ρ.R (fun y => dnx (fun i j => delta i j y) (fun i => rho i y) nn (fun i => z i y) i)
      (dnx deltad rhod nn zd i) := by
  have h := ρ.sumFin lawfulEmb_id (f := fun j y => z j y * c (nn j) * (delta i j y * rho j y))
    (d := fun j => zd j * c (nn j) * (deltad i j * rhod j))
    (fun j => ρ.mul (ρ.mul (hz j) (ρ.constOf rfl)) (ρ.mul (hdelta i j) (hrho j)))
  unfold dnx
  exact ρ.add h (ρ.constOf (CR.sci lawfulEmb_id _ _ _))

variable (hx : ∀ s, ρ.R (x s) (xd s)) (hx0 : ∀ s, x s x0 ≠ 0)
include hx hx0

theorem rep_newtonG (s : Fin k ⊕ Fin k) :
    ρ.R (fun y => newtonG (fun i j => delta i j y) na nb (fun i => rho i y) (fun s => x s y) s)
      (newtonG deltad na nb rhod xd s) := by
  rcases s with i | i
  · exact ρ.sub (ρ.recip' (hx _) (hx0 _)) (rep_dnx hdelta hrho nb (fun j => hx (.inr j)) i)
  · exact ρ.sub (ρ.recip' (hx _) (hx0 _)) (rep_dnx hdelta hrho na (fun j => hx (.inl j)) i)

theorem rep_newtonH (s t : Fin k ⊕ Fin k) :
    ρ.R (fun y => newtonH (fun i j => delta i j y) na nb (fun i => rho i y) (fun s => x s y) s t)
      (newtonH deltad na nb rhod xd s t) := by
  rcases s with i | i <;> rcases t with j | j
  · by_cases hij : i = j
    · simp only [newtonH, hij, if_true]
      exact ρ.div (ρ.neg (rep_dnx hdelta hrho nb (fun j => hx (.inr j)) j)) (hx _) (hx0 _)
    · simp only [newtonH, hij, if_false]
      exact ρ.constOf (CR.sci lawfulEmb_id _ _ _)
  · exact ρ.mul (ρ.mul (hdelta i j) (hrho j)) (ρ.constOf rfl)
  · exact ρ.mul (ρ.mul (hdelta i j) (hrho j)) (ρ.constOf rfl)
  · by_cases hij : i = j
    · simp only [newtonH, hij, if_true]
      exact ρ.div (ρ.neg (rep_dnx hdelta hrho na (fun j => hx (.inl j)) j)) (hx _) (hx0 _)
    · simp only [newtonH, hij, if_false]
      exact ρ.constOf (CR.sci lawfulEmb_id _ _ _)

end rep

/-- the matrix of the linear system -/
noncomputable def stepMatrix {k : ℕ} (delta : Fin k → Fin k → X → ℝ) (na nb : Fin k → ℝ) (rho : Fin k → X → ℝ)
    (x : Fin k ⊕ Fin k → X → ℝ) (y : X) : Matrix (Fin k ⊕ Fin k) (Fin k ⊕ Fin k) ℝ :=
  Matrix.of (newtonH (fun i j => delta i j y) na nb (fun i => rho i y) (fun s => x s y))

/-- the site matrix as a function -/
def siteMatrixAt {k : ℕ} (delta : Fin k → Fin k → X → ℝ) (na nb : Fin k → ℝ) (rho : Fin k → X → ℝ) (y : X) :
    Fin k ⊕ Fin k → Fin k ⊕ Fin k → ℝ :=
  siteMatrix (fun i j => delta i j y) na nb (fun i => rho i y)

section newton
variable {k : ℕ} {delta : Fin k → Fin k → X → ℝ} {deltad : Fin k → Fin k → D} {rho : Fin k → X → ℝ}
  {rhod : Fin k → D} {na nb : Fin k → ℝ}
  (T : Tower ρ N) (hdelta : ∀ i j, ρ.R (delta i j) (deltad i j)) (hrho : ∀ i, ρ.R (rho i) (rhod i))
  (hM : ∀ s t, 0 ≤ siteMatrixAt delta na nb rho x0 s t)
include T hdelta hrho

theorem siteMatrixAt_rep (s t : Fin k ⊕ Fin k) : T.O 0 (fun y => siteMatrixAt delta na nb rho y s t) := by
  have h : ∀ (nn : Fin k → ℝ) i j, T.O 0 (fun y => delta i j y * (rho j y * nn j)) := fun nn i j =>
    T.mul (T.of_rep (hdelta i j)) (T.mul (T.of_rep (hrho j)) (T.const _))
  rcases s with i | i <;> rcases t with j | j
  · exact T.const 0
  · exact h nb i j
  · exact h na i j
  · exact T.const 0

include hM

/-- One step at positive fractions: it succeeds, and the result represents the exact Newton step. -/
theorem newtonStep_rep {solve : Solver k D} (hs : CorrectDualSolver solve) (tol : ℝ)
    {x : Fin k ⊕ Fin k → X → ℝ} {xd : Fin k ⊕ Fin k → D} (hx : ∀ s, ρ.R (x s) (xd s)) (hx0 : ∀ s, 0 < x s x0) :
    (stepMatrix delta na nb rho x x0).det ≠ 0 ∧ ∃ xd' b, newtonStep solve deltad na nb rhod tol xd = .ok (xd', b)
      ∧ ∀ s, ρ.R (fun y => x s y - ((stepMatrix delta na nb rho x y)⁻¹.mulVec
        (newtonG (fun i j => delta i j y) na nb (fun i => rho i y) (fun s => x s y))) s) (xd' s) := by
  have hx0' : ∀ s, x s x0 ≠ 0 := fun s => (hx0 s).ne'
  have hG := rep_newtonG (na := na) (nb := nb) hdelta hrho hx hx0'
  have hH := rep_newtonH (na := na) (nb := nb) hdelta hrho hx hx0'
  have hA : ∀ s t, T.O 0 (fun y => stepMatrix delta na nb rho x y s t) := fun s t => T.of_rep (hH s t)
  have hinj := newtonH_injective hM hx0
  have hdet : (stepMatrix delta na nb rho x x0).det ≠ 0 := by
    intro h0
    obtain ⟨v, hv0, hv1⟩ := Matrix.exists_mulVec_eq_zero_iff.2 h0
    exact hv0 (hinj v (fun s => by simpa [stepMatrix, Matrix.mulVec, dotProduct] using congrFun hv1 s))
  refine ⟨hdet, ?_⟩
  have hsome := hs.total (newtonH deltad na nb rhod xd) (newtonG deltad na nb rhod xd) (fun v hv => hinj v (fun s => by
    rw [← hv s]
    exact Finset.sum_congr rfl fun t _ => by rw [ρ.re (hH s t)]))
  obtain ⟨w, hw⟩ := Option.isSome_iff_exists.mp hsome
  refine ⟨fun s => xd s - w s, _, by unfold newtonStep; simp only [hw]; rfl, ?_⟩
  intro s
  refine ρ.sub (hx s) ?_
  choose wf hwf using fun t => T.full (w t)
  choose e he using fun s t => T.zero_iff.mp (T.matInv hA hdet s t)
  have hprod : ∀ t, ρ.R (fun y => ∑ r, stepMatrix delta na nb rho x y t r * wf r y)
      (newtonG deltad na nb rhod xd t) := fun t => by
    rw [← hs.solves _ _ _ hw t]
    exact rep_sumSites ρ (f := fun r y => stepMatrix delta na nb rho x y t r * wf r y)
      (d := fun r => newtonH deltad na nb rhod xd t r * w r) (fun r => ρ.mul (hH t r) (hwf r))
  have h1 := rep_sumSites ρ (fun t => ρ.mul (he s t) (hprod t))
  have h2 := rep_sumSites ρ (fun t => ρ.mul (he s t) (hG t))
  have h3 : ρ.R (wf s) _ := ρ.congr h1 (by
    filter_upwards [T.eventually_det_ne hA hdet] with y hy
    have : (stepMatrix delta na nb rho x y)⁻¹.mulVec ((stepMatrix delta na nb rho x y).mulVec (fun r => wf r y))
        = fun r => wf r y := by
      rw [Matrix.mulVec_mulVec, Matrix.nonsing_inv_mul _ (isUnit_iff_ne_zero.2 hy), Matrix.one_mulVec]
    exact congrFun this s)
  rw [T.unique (hwf s) h3]
  exact h2

/-- A step doubles the order of vanishing of the error. -/
theorem newtonStep_doubles {solve : Solver k D} (hs : CorrectDualSolver solve) (tol : ℝ)
    {S : Fin k ⊕ Fin k → X → ℝ} (hS : ∀ s, 0 < S s x0)
    (hSol : ∀ᶠ y in 𝓝 x0, MassAction (siteMatrixAt delta na nb rho y) (fun s => S s y))
    {j : ℕ} (hj : 1 ≤ j) {x : Fin k ⊕ Fin k → X → ℝ} {xd : Fin k ⊕ Fin k → D}
    (hx : ∀ s, ρ.R (x s) (xd s)) (hord : ∀ s, T.O j (fun y => x s y - S s y)) :
    ∃ xd' b, newtonStep solve deltad na nb rhod tol xd = .ok (xd', b)
      ∧ ∃ x' : Fin k ⊕ Fin k → X → ℝ, (∀ s, ρ.R (x' s) (xd' s)) ∧ ∀ s, T.O (j + j) (fun y => x' s y - S s y) := by
  have hval : ∀ s, x s x0 = S s x0 := fun s => by
    have := T.value (T.mono_le hj (hord s))
    linarith
  have hx0 : ∀ s, 0 < x s x0 := fun s => by rw [hval]; exact hS s
  obtain ⟨hdet, xd', b, hok, hrep⟩ := newtonStep_rep T hdelta hrho hM hs tol hx hx0
  refine ⟨xd', b, hok, _, hrep, fun s => ?_⟩
  have hA : ∀ s t, T.O 0 (fun y => stepMatrix delta na nb rho x y s t) := fun s t =>
    T.of_rep (rep_newtonH (na := na) (nb := nb) hdelta hrho hx (fun s => (hx0 s).ne') s t)
  have hRes : ∀ s, T.O (j + j) (fun y => (x s y)⁻¹ * ((x s y - S s y)
      * ∑ t, siteMatrixAt delta na nb rho y s t * (x t y - S t y))) := fun s => by
    have h2 : T.O j (fun y => ∑ t, siteMatrixAt delta na nb rho y s t * (x t y - S t y)) :=
      T.sum _ fun t => by
        have := T.mul (siteMatrixAt_rep T hdelta hrho (na := na) (nb := nb) s t) (hord t)
        rwa [Nat.zero_add] at this
    have h3 := T.mul (T.inv (T.of_rep (hx s)) (hx0 s).ne') (T.mul (hord s) h2)
    rwa [Nat.zero_add] at h3
  have hErr := T.neg (T.matInv_mulVec hA hdet hRes s)
  refine T.congr hErr ?_
  have hpos : ∀ᶠ y in 𝓝 x0, ∀ s, x s y ≠ 0 := eventually_all.mpr fun s =>
    (ρ.continuousAt (hx s)).eventually_ne (hx0 s).ne'
  filter_upwards [T.eventually_det_ne hA hdet, hSol, hpos] with y hy hm hne
  set A := stepMatrix delta na nb rho x y with hAdef
  set g := newtonG (fun i j => delta i j y) na nb (fun i => rho i y) (fun s => x s y) with hg
  set ev : Fin k ⊕ Fin k → ℝ := fun t => x t y - S t y with hev
  set R : Fin k ⊕ Fin k → ℝ := fun s => (x s y)⁻¹ * (ev s * ∑ t, siteMatrixAt delta na nb rho y s t * ev t) with hR
  -- A e - g = -R
  have key : A.mulVec ev - g = -R := by
    funext s
    have h1 : A.mulVec ev s = _ := newtonH_real (fun i j => delta i j y) na nb (fun i => rho i y)
      (fun s => x s y) ev s
    rw [Pi.sub_apply, h1, hg, newtonG_real, Pi.neg_apply, hR]
    have hms := hm s
    change S s y * (1 + ∑ t, siteMatrixAt delta na nb rho y s t * S t y) = 1 at hms
    have hS0 : S s y ≠ 0 := left_ne_zero_of_mul_eq_one hms
    have hsum : ∑ t, siteMatrixAt delta na nb rho y s t * x t y
        = ∑ t, siteMatrixAt delta na nb rho y s t * S t y + ∑ t, siteMatrixAt delta na nb rho y s t * ev t := by
      rw [← Finset.sum_add_distrib]
      exact Finset.sum_congr rfl fun t _ => by simp only [hev]; ring
    change -((1 + ∑ t, siteMatrixAt delta na nb rho y s t * x t y) / x s y * ev s
        + ∑ t, siteMatrixAt delta na nb rho y s t * ev t)
      - ((x s y)⁻¹ - (1 + ∑ t, siteMatrixAt delta na nb rho y s t * x t y)) = _
    rw [hsum]
    set Q := ∑ t, siteMatrixAt delta na nb rho y s t * S t y
    set E := ∑ t, siteMatrixAt delta na nb rho y s t * ev t
    have hQ : Q = (S s y)⁻¹ - 1 := by field_simp; linarith
    have hxs := hne s
    rw [hQ]
    simp only [hev]
    field_simp
    ring
  have h4 : ev - A⁻¹.mulVec g = A⁻¹.mulVec (-R) := by
    rw [← key, Matrix.mulVec_sub, Matrix.mulVec_mulVec, Matrix.nonsing_inv_mul _ (isUnit_iff_ne_zero.2 hy),
      Matrix.one_mulVec]
  have h5 := congrFun h4 s
  rw [Matrix.mulVec_neg] at h5
  simp only [Pi.sub_apply, Pi.neg_apply, hev] at h5
  rw [hR] at h5
  linarith

/-- Repeated steps. -/
theorem newtonDual_rep {solve : Solver k D} (hs : CorrectDualSolver solve) (tol : ℝ)
    {S : Fin k ⊕ Fin k → X → ℝ} (hS : ∀ s, 0 < S s x0)
    (hSol : ∀ᶠ y in 𝓝 x0, MassAction (siteMatrixAt delta na nb rho y) (fun s => S s y)) (r : ℕ) :
    ∀ {j : ℕ} (_ : 1 ≤ j) {x : Fin k ⊕ Fin k → X → ℝ} {xd : Fin k ⊕ Fin k → D}
    (_ : ∀ s, ρ.R (x s) (xd s)) (_ : ∀ s, T.O j (fun y => x s y - S s y)),
    ∃ xd', newtonDual (newtonStep solve deltad na nb rhod tol) r xd = .ok xd'
      ∧ ∃ x' : Fin k ⊕ Fin k → X → ℝ, (∀ s, ρ.R (x' s) (xd' s)) ∧ ∀ s, T.O (2 ^ r * j) (fun y => x' s y - S s y) := by
  induction r with
  | zero =>
    intro j hj x xd hx hord
    exact ⟨xd, rfl, x, hx, by simpa using hord⟩
  | succ r ih =>
    intro j hj x xd hx hord
    obtain ⟨xd1, b, h1, x1, hx1, ho1⟩ := newtonStep_doubles T hdelta hrho hM hs tol hS hSol hj hx hord
    obtain ⟨xd2, h2, x2, hx2, ho2⟩ := ih (by omega) hx1 ho1
    refine ⟨xd2, ?_, x2, hx2, fun s => ?_⟩
    · simp only [newtonDual, h1, h2]
    · have e : 2 ^ r * (j + j) = 2 ^ (r + 1) * j := by rw [pow_succ]; ring
      rw [← e]
      exact ho2 s

end newton

end PcSaft
