import Verif.Props.CrossAssociation
import Mathlib.Analysis.Complex.ExponentialBounds

/-!
# C59: convergence to a root that is not a vector of fractions

From the default starting point 0.2 and with the default options the Newton iteration of cross
association converges, for an ordinary mixture at an admissible state, to a solution of the equations
with negative entries.
-/

namespace PcSaft.Props
open PcSaft Spec
variable {k : ℕ}

/-- the result of a step at an iterate where the matrix is non-singular -/
theorem newtonStep_eq {solve : Solver k ℝ} (hs : CorrectSolver solve) {delta : Fin k → Fin k → ℝ}
    {na nb rho : Fin k → ℝ} {tol : ℝ} {x x' : Fin k ⊕ Fin k → ℝ}
    (hker : ∀ v : Fin k ⊕ Fin k → ℝ,
      (∀ s, (1 + ∑ t, siteMatrix delta na nb rho s t * x t) / x s * v s
        + ∑ t, siteMatrix delta na nb rho s t * v t = 0) → v = 0)
    (hx' : ∀ s, (1 + ∑ t, siteMatrix delta na nb rho s t * x t) / x s * (x' s - x s)
        + ∑ t, siteMatrix delta na nb rho s t * (x' t - x t)
      = (x s)⁻¹ - (1 + ∑ t, siteMatrix delta na nb rho s t * x t)) :
    newtonStep solve delta na nb rho tol x
      = .ok (x', decide (normRe (newtonG delta na nb rho x) < tol)) := by
  have htot := hs.total (newtonH delta na nb rho x) (newtonG delta na nb rho x) (fun v hv =>
    hker v (fun s => by
      have := hv s
      rw [newtonH_real] at this
      exact neg_eq_zero.1 this))
  obtain ⟨y, hy⟩ := Option.isSome_iff_exists.1 htot
  have hstep : newtonStep solve delta na nb rho tol x
      = .ok (fun s => x s - y s, F64.lt (normRe (newtonG delta na nb rho x)) tol) := by
    unfold newtonStep
    simp only [hy]
  have h2 := (newtonStep_ok hs hstep).1
  have e : (fun s => (x s - y s) - x' s) = 0 := by
    apply hker
    intro s
    have a := h2 s
    have b := hx' s
    have e1 : ∑ t, siteMatrix delta na nb rho s t * ((x t - y t) - x' t)
        = ∑ t, siteMatrix delta na nb rho s t * ((x t - y t) - x t)
          - ∑ t, siteMatrix delta na nb rho s t * (x' t - x t) := by
      rw [← Finset.sum_sub_distrib]
      exact Finset.sum_congr rfl fun t _ => by ring
    rw [e1]
    linear_combination a - b
  rw [hstep]
  have : (fun s => x s - y s) = x' := by
    funext s
    have := congrFun e s
    simp only [Pi.zero_apply] at this
    linarith
  rw [this]
  rfl

/-- values for A and B sites of two components -/
def sites (a0 a1 b0 b1 : ℝ) : Fin 2 ⊕ Fin 2 → ℝ := Sum.elim ![a0, a1] ![b0, b1]

/-- association strengths of the example; both components have the same association energy and the
second one nine times the association volume of the first -/
noncomputable def exDelta : Fin 2 → Fin 2 → ℝ := ![![2000 / 3, 2000], ![2000, 6000]]

/-- numbers of sites: one donor and three acceptors; no donor and one acceptor -/
def exNa : Fin 2 → ℝ := ![1, 0]
@[inherit_doc exNa] def exNb : Fin 2 → ℝ := ![3, 1]
/-- densities -/
noncomputable def exRho : Fin 2 → ℝ := ![3 / 1000, 11 / 1000]

theorem exMatrix (x : Fin 2 ⊕ Fin 2 → ℝ) :
    ∑ t, siteMatrix exDelta exNa exNb exRho (.inl 0) t * x t = 6 * x (.inr 0) + 22 * x (.inr 1)
    ∧ ∑ t, siteMatrix exDelta exNa exNb exRho (.inl 1) t * x t = 18 * x (.inr 0) + 66 * x (.inr 1)
    ∧ ∑ t, siteMatrix exDelta exNa exNb exRho (.inr 0) t * x t = 2 * x (.inl 0)
    ∧ ∑ t, siteMatrix exDelta exNa exNb exRho (.inr 1) t * x t = 6 * x (.inl 0) := by
  refine ⟨?_, ?_, ?_, ?_⟩
  · rw [(siteMatrix_sum _ _ _ _ x 0).1, Fin.sum_univ_two]
    simp [exDelta, exNb, exRho]
    ring
  · rw [(siteMatrix_sum _ _ _ _ x 1).1, Fin.sum_univ_two]
    simp [exDelta, exNb, exRho]
    ring
  · rw [(siteMatrix_sum _ _ _ _ x 0).2, Fin.sum_univ_two]
    simp [exDelta, exNa, exRho]
    left
    norm_num
  · rw [(siteMatrix_sum _ _ _ _ x 1).2, Fin.sum_univ_two]
    simp [exDelta, exNa, exRho]
    left
    norm_num

theorem exStep (solve : Solver 2 ℝ) (hs : CorrectSolver solve)
    (a0 a1 b0 b1 a0' a1' b0' b1' : ℝ)
    (h1 : (1 + (6 * b0 + 22 * b1)) / a0 * (a0' - a0) + (6 * (b0' - b0) + 22 * (b1' - b1))
      = a0⁻¹ - (1 + (6 * b0 + 22 * b1)))
    (h2 : (1 + (18 * b0 + 66 * b1)) / a1 * (a1' - a1) + (18 * (b0' - b0) + 66 * (b1' - b1))
      = a1⁻¹ - (1 + (18 * b0 + 66 * b1)))
    (h3 : (1 + 2 * a0) / b0 * (b0' - b0) + 2 * (a0' - a0) = b0⁻¹ - (1 + 2 * a0))
    (h4 : (1 + 6 * a0) / b1 * (b1' - b1) + 6 * (a0' - a0) = b1⁻¹ - (1 + 6 * a0))
    (hker : ∀ v0 v1 w0 w1 : ℝ,
      (1 + (6 * b0 + 22 * b1)) / a0 * v0 + (6 * w0 + 22 * w1) = 0 →
      (1 + (18 * b0 + 66 * b1)) / a1 * v1 + (18 * w0 + 66 * w1) = 0 →
      (1 + 2 * a0) / b0 * w0 + 2 * v0 = 0 → (1 + 6 * a0) / b1 * w1 + 6 * v0 = 0 →
      v0 = 0 ∧ v1 = 0 ∧ w0 = 0 ∧ w1 = 0) :
    newtonStep solve exDelta exNa exNb exRho 1e-10 (sites a0 a1 b0 b1)
      = .ok (sites a0' a1' b0' b1',
        decide (Real.sqrt ((a0⁻¹ - (1 + (6 * b0 + 22 * b1))) ^ 2
          + (a1⁻¹ - (1 + (18 * b0 + 66 * b1))) ^ 2
        + ((b0⁻¹ - (1 + 2 * a0)) ^ 2 + (b1⁻¹ - (1 + 6 * a0)) ^ 2)) < 1e-10)) := by
  have hcases : ∀ P : Fin 2 ⊕ Fin 2 → Prop, P (.inl 0) → P (.inl 1) → P (.inr 0) → P (.inr 1) → ∀ s, P s := by
    intro P p1 p2 p3 p4 s
    rcases s with i | i <;> fin_cases i <;> assumption
  rw [newtonStep_eq hs (x' := sites a0' a1' b0' b1')]
  · congr 3
    rw [normRe_real]
    have e : ∀ f : Fin 2 ⊕ Fin 2 → ℝ, ∑ s, f s = f (.inl 0) + f (.inl 1) + (f (.inr 0) + f (.inr 1)) := by
      intro f
      rw [Fintype.sum_sum_type, Fin.sum_univ_two, Fin.sum_univ_two]
    rw [e, newtonG_real, newtonG_real, newtonG_real, newtonG_real, (exMatrix _).1, (exMatrix _).2.1,
      (exMatrix _).2.2.1, (exMatrix _).2.2.2]
    simp only [pow_two]
    rfl
  · intro v hv
    have e1 := hv (.inl 0)
    have e2 := hv (.inl 1)
    have e3 := hv (.inr 0)
    have e4 := hv (.inr 1)
    rw [(exMatrix _).1, (exMatrix _).1] at e1
    rw [(exMatrix _).2.1, (exMatrix _).2.1] at e2
    rw [(exMatrix _).2.2.1, (exMatrix _).2.2.1] at e3
    rw [(exMatrix _).2.2.2, (exMatrix _).2.2.2] at e4
    obtain ⟨r1, r2, r3, r4⟩ := hker _ _ _ _ e1 e2 e3 e4
    funext s
    exact hcases (fun s => v s = 0) r1 r2 r3 r4 s
  · refine hcases _ ?_ ?_ ?_ ?_
    · rw [(exMatrix _).1, (exMatrix _).1]
      exact h1
    · rw [(exMatrix _).2.1, (exMatrix _).2.1]
      exact h2
    · rw [(exMatrix _).2.2.1, (exMatrix _).2.2.1]
      exact h3
    · rw [(exMatrix _).2.2.2, (exMatrix _).2.2.2]
      exact h4

/-- the iteration from the default starting point: three steps that do not meet the tolerance and one
that does -/
theorem exReach (solve : Solver 2 ℝ) (hs : CorrectSolver solve) :
    Reach (newtonStep solve exDelta exNa exNb exRho 1e-10) 3 (fun _ => 0.2)
      (sites (-1 / 3) (-1 / 11) 3 (-1))
    ∧ newtonStep solve exDelta exNa exNb exRho 1e-10 (sites (-1 / 3) (-1 / 11) 3 (-1))
      = .ok (sites (-1 / 3) (-1 / 11) 3 (-1), true) := by
  have hcases : ∀ P : Fin 2 ⊕ Fin 2 → Prop, P (.inl 0) → P (.inl 1) → P (.inr 0) → P (.inr 1) → ∀ s, P s := by
    intro P p1 p2 p3 p4 s
    rcases s with i | i <;> fin_cases i <;> assumption
  have h0 : (fun _ => 0.2 : Fin 2 ⊕ Fin 2 → ℝ) = sites (1 / 5) (1 / 5) (1 / 5) (1 / 5) := by
    funext s
    refine hcases (fun s => (0.2 : ℝ) = sites (1 / 5) (1 / 5) (1 / 5) (1 / 5) s) ?_ ?_ ?_ ?_ s <;>
      norm_num [sites]
  have hbig : ∀ t : ℝ, 1 ≤ t → decide (Real.sqrt t < 1e-10) = false := by
    intro t ht
    have : 1 ≤ Real.sqrt t := Real.one_le_sqrt.2 ht
    simp only [decide_eq_false_iff_not, not_lt]
    refine le_trans ?_ this
    norm_num
  have s1 := exStep solve hs (1 / 5) (1 / 5) (1 / 5) (1 / 5) (-1 / 3) (-43 / 89) (13 / 15) (41 / 55)
    (by norm_num) (by norm_num) (by norm_num) (by norm_num)
    (by intro v0 v1 w0 w1 e1 e2 e3 e4; norm_num at e1 e2 e3 e4; refine ⟨?_, ?_, ?_, ?_⟩ <;> linarith)
  have s2 := exStep solve hs (-1 / 3) (-43 / 89) (13 / 15) (41 / 55) (-1 / 3) (-16067 / 29281) 3 (-1)
    (by norm_num) (by norm_num) (by norm_num) (by norm_num)
    (by intro v0 v1 w0 w1 e1 e2 e3 e4; norm_num at e1 e2 e3 e4; refine ⟨?_, ?_, ?_, ?_⟩ <;> linarith)
  have s3 := exStep solve hs (-1 / 3) (-16067 / 29281) 3 (-1) (-1 / 3) (-1 / 11) 3 (-1)
    (by norm_num) (by norm_num) (by norm_num) (by norm_num)
    (by intro v0 v1 w0 w1 e1 e2 e3 e4; norm_num at e1 e2 e3 e4; refine ⟨?_, ?_, ?_, ?_⟩ <;> linarith)
  have s4 := exStep solve hs (-1 / 3) (-1 / 11) 3 (-1) (-1 / 3) (-1 / 11) 3 (-1)
    (by norm_num) (by norm_num) (by norm_num) (by norm_num)
    (by intro v0 v1 w0 w1 e1 e2 e3 e4; norm_num at e1 e2 e3 e4; refine ⟨?_, ?_, ?_, ?_⟩ <;> linarith)
  rw [hbig _ (by norm_num)] at s1 s2 s3
  refine ⟨?_, ?_⟩
  · rw [h0]
    exact .next s1 (.next s2 (.next s3 (.start _)))
  · rw [s4]
    norm_num

/-- the same for the list of associating components -/
theorem exReach_list (l : List (Fin 2)) (hl : l = [0, 1]) (solve : Solver l.length ℝ)
    (hs : CorrectSolver solve) (delta : Fin l.length → Fin l.length → ℝ) (na nb rho : Fin l.length → ℝ)
    (hd : ∀ i j, delta i j = exDelta (l.get i) (l.get j)) (hna : ∀ i, na i = exNa (l.get i))
    (hnb : ∀ i, nb i = exNb (l.get i)) (hrho : ∀ i, rho i = exRho (l.get i)) :
    ∃ z, Reach (newtonStep solve delta na nb rho 1e-10) 3 (fun _ => 0.2) z
      ∧ newtonStep solve delta na nb rho 1e-10 z = .ok (z, true) ∧ ∃ s, z s < 0 := by
  subst hl
  have e : ∀ i : Fin 2, [(0 : Fin 2), 1].get i = i := by
    intro i
    fin_cases i <;> rfl
  have e1 : delta = exDelta := by
    funext i j
    rw [hd]
    exact congrArg₂ exDelta (e i) (e j)
  have e2 : na = exNa := funext fun i => (hna i).trans (congrArg exNa (e i))
  have e3 : nb = exNb := funext fun i => (hnb i).trans (congrArg exNb (e i))
  have e4 : rho = exRho := funext fun i => (hrho i).trans (congrArg exRho (e i))
  subst e1 e2 e3 e4
  refine ⟨_, (exReach solve hs).1, (exReach solve hs).2, .inl (0 : Fin 2), ?_⟩
  norm_num [sites]

/-- two associating components: `m = 1`, `σ = 3 Å`, `ε = 200 K`, association energy 2500 K, association
volumes `K` and `9 K`, one donor and three acceptors or one acceptor only -/
noncomputable def rootRecords (K : ℝ) (i : Fin 2) : PureRecord ℝ :=
  ⟨⟨none, ""⟩, 18, ⟨1, 3, 200, none, none, some (if i = 0 then K else 9 * K), some 2500,
    some (if i = 0 then 1 else 0), some (if i = 0 then 3 else 1), none, none, none⟩, none⟩

theorem rootRecords_comp {K : ℝ} (hK : 0 < K) (k : Fin 2 → Fin 2 → ℝ) :
    (fromRecords (rootRecords K) k).assoc_comp = [0, 1] := by
  have h : (fromRecords (rootRecords K) k).kappa_ab = fun i => if i = 0 then K else 9 * K := rfl
  have e : (fromRecords (rootRecords K) k).assoc_comp
      = nonzeroComp (fromRecords (rootRecords K) k).kappa_ab := rfl
  rw [e, h]
  have h1 : F64.lt (0.0 : ℝ) (F64.abs K) = true := by
    rw [lt_real, abs_real]
    have : (0.0 : ℝ) = 0 := by norm_num
    simp [this, hK.ne']
  have h2 : F64.lt (0.0 : ℝ) (F64.abs (9 * K)) = true := by
    rw [lt_real, abs_real]
    have : (0.0 : ℝ) = 0 := by norm_num
    simp [this, hK.ne']
  rw [lt_real, decide_eq_true_eq] at h1 h2
  simp only [abs_real] at h1 h2
  rw [abs_mul, abs_of_pos (by norm_num : (0 : ℝ) < 9)] at h2
  simp [nonzeroComp, List.finRange_succ, List.finRange_zero, h1, h2]

theorem diameter_le_three : 0 ≤ Spec.diameter 3 200 300 ∧ Spec.diameter 3 200 300 ^ 3 ≤ 27 := by
  have hd : Spec.diameter 3 200 300 ≤ 3 := by
    unfold Spec.diameter
    have := Real.exp_pos (-3 * 200 / 300)
    linarith
  have hd0 : 0 ≤ Spec.diameter 3 200 300 := by
    unfold Spec.diameter
    have := exp_le_one_of (e := 200) (T := 300) (by norm_num) (by norm_num)
    linarith
  refine ⟨hd0, ?_⟩
  calc Spec.diameter 3 200 300 ^ 3 ≤ 3 ^ 3 := pow_le_pow_left₀ hd0 hd 3
    _ = 27 := by norm_num

theorem rootRecords_admissible (K : ℝ) (k : Fin 2 → Fin 2 → ℝ) :
    Admissible (fromRecords (rootRecords K) k) 300 1000 ![3, 11] where
  temperature := by norm_num
  volume := by norm_num
  m_pos := fun i => one_pos
  sigma_pos := fun i => three_pos
  epsilon_nonneg := fun i => by
    change (0 : ℝ) ≤ 200
    norm_num
  moles_nonneg := fun i => by fin_cases i <;> norm_num
  moles_ne_zero := ⟨0, by norm_num⟩
  packing := by
    have hm : ∀ i, (fromRecords (rootRecords K) k).m i = 1 := fun _ => rfl
    have hs : ∀ i, (fromRecords (rootRecords K) k).sigma i = 3 := fun _ => rfl
    have he : ∀ i, (fromRecords (rootRecords K) k).epsilon_k i = 200 := fun _ => rfl
    simp only [Spec.packingFraction, Fin.sum_univ_two, hm, hs, he]
    obtain ⟨hd0, hd3⟩ := diameter_le_three
    have hpi := Real.pi_lt_d2
    have hpi0 := Real.pi_pos
    have : Real.pi / 6 * Spec.diameter 3 200 300 ^ 3 ≤ 4 / 6 * 27 := by
      apply mul_le_mul _ hd3 (by positivity) (by norm_num)
      linarith
    norm_num
    linarith

/-- C59 fails for the code: two ordinary associating components (association volumes `K` and `9 K`
with `0 < K < 1/10`, packing fraction below one), the default options and the default starting point.
The call succeeds, and the array of "fractions of non-bonded sites" it returns contains a negative
number, for every correct linear solver.  (The logarithm of it is NaN in `f64`.) -/
theorem C59_counterexample : ∃ K : ℝ, 0 < K ∧ K < 1 / 10 ∧
    let p := fromRecords (rootRecords K) (fun _ _ => 0)
    Admissible p 300 1000 ![3, 11] ∧
    ∀ solveF solveD : Solver p.assoc_comp.length ℝ, CorrectSolver solveF →
      let s := StateHD.new (300 : ℝ) 1000 ![3, 11]
      let r := fun i => hsDiameter p s.temperature i * c (0.5 : ℝ)
      ∃ a x, crossAssociationDensity p 0 solveF solveD s.temperature s.partial_density r
          (assocN2 p.m s.partial_density r)
          (DualNum.recip (-(packingFraction p.m s.partial_density r) + c (1.0 : ℝ))) (c (1.0 : ℝ)) 50 1e-10
          (some (fun _ => 0.2)) = (.ok a, some x)
        ∧ ∃ site, x site < 0 := by
  set d := Spec.diameter 3 200 300 with hd
  -- neither the diameters nor the density depend on the association volume
  have hz : ∀ K, Spec.packingFraction (fromRecords (rootRecords K) fun _ _ => 0) 300 1000 ![3, 11]
      = Spec.packingFraction (fromRecords (rootRecords 1) fun _ _ => 0) 300 1000 ![3, 11] := fun K => rfl
  have hz2 : ∀ K, moment2 (fromRecords (rootRecords K) fun _ _ => 0) 300 1000 ![3, 11]
      = moment2 (fromRecords (rootRecords 1) fun _ _ => 0) 300 1000 ![3, 11] := fun K => rfl
  have ha := rootRecords_admissible 1 (fun _ _ => 0)
  have hη := ha.packing
  have hζ := moment2_nonneg ha
  have hdpos : 0 < d := by
    have := ha.diameter_pos 0
    rwa [hsDiameter_eq_spec] at this
  set η := Spec.packingFraction (fromRecords (rootRecords 1) fun _ _ => 0) 300 1000 ![3, 11] with hηdef
  set ζ := moment2 (fromRecords (rootRecords 1) fun _ _ => 0) 300 1000 ![3, 11] with hζdef
  have hη0 : 0 < η := by
    rw [hηdef, ← zeta3_eq_packing]
    exact ha.zeta_pos 3
  set g := contactPair ζ η d d with hg
  have hg1 : 1 ≤ g := by
    have h1 : 0 < 1 - η := by linarith
    have h2 : 1 ≤ 1 / (1 - η) := by
      rw [le_div_iff₀ h1]; linarith
    have h3 : 0 ≤ 3 * (d * d / (d + d)) * ζ / (1 - η) ^ 2 := by positivity
    have h4 : 0 ≤ 2 * (d * d / (d + d)) ^ 2 * ζ ^ 2 / (1 - η) ^ 3 := by positivity
    rw [hg, contactPair]
    linarith
  set E := Real.exp ((2500 + 2500) / 2 / 300) - 1 with hE
  have hE1 : 1000 ≤ E := by
    have h1 : Real.exp 8 ≤ Real.exp ((2500 + 2500) / 2 / 300) := Real.exp_le_exp.2 (by norm_num)
    have h2 : Real.exp 8 = Real.exp 1 ^ 8 := by
      rw [← Real.exp_nat_mul]; norm_num
    have h3 : (2.7 : ℝ) ^ 8 ≤ Real.exp 1 ^ 8 :=
      pow_le_pow_left₀ (by norm_num) (by have := Real.exp_one_gt_d9; linarith) 8
    have h4 : (1001 : ℝ) ≤ 2.7 ^ 8 := by norm_num
    rw [hE]
    linarith
  have hgE : 1000 ≤ g * E := by nlinarith
  have hgE0 : g * E ≠ 0 := by linarith
  refine ⟨2000 / 3 / (27 * (g * E)), by positivity, ?_, ?_⟩
  · rw [div_lt_iff₀ (by positivity)]
    linarith
  set K := 2000 / 3 / (27 * (g * E)) with hKdef
  have hK : 0 < K := by positivity
  have hKgE : K * (27 * (g * E)) = 2000 / 3 := by
    rw [hKdef]
    field_simp
  intro p
  have hadm : Admissible p 300 1000 ![3, 11] := rootRecords_admissible K _
  refine ⟨hadm, ?_⟩
  intro solveF solveD hs s r
  have hstr : ∀ i j : Fin 2, stateStrength p s i j = exDelta i j := by
    intro i j
    have hκ : ∀ i, p.kappa_ab i = if i = 0 then K else 9 * K := fun _ => rfl
    have hκ0 : ∀ i, p.kappa_ab i ≠ 0 := by
      intro i
      rw [hκ]
      split <;> positivity
    rw [C58_association_strength (rootRecords K) (fun _ _ => 0) 300 1000 ![3, 11] hadm i j (hκ0 i) (hκ0 j)]
    have hσ : ∀ i, p.sigma i = 3 := fun _ => rfl
    have hε : ∀ i, p.epsilon_k i = 200 := fun _ => rfl
    have hεab : ∀ i, p.epsilon_k_ab i = 2500 := fun _ => rfl
    have h9 : Real.sqrt (3 * 3) = 3 := Real.sqrt_mul_self (by norm_num)
    have hsq : ∀ t u : ℝ, 0 ≤ t → t * t = u → Real.sqrt u = t := by
      intro t u ht h
      rw [← h]
      exact Real.sqrt_mul_self ht
    change specStrength p 300 1000 ![3, 11] i j = _
    rw [specStrength, hσ, hσ, hε, hε, hεab, hεab, h9, hκ, hκ]
    change contactPair ζ η d d * _ * _ * E = _
    fin_cases i <;> fin_cases j
    · rw [hsq K _ hK.le (by simp)]
      simp [exDelta]
      linear_combination hKgE
    · rw [hsq (3 * K) _ (by positivity) (by simp; ring)]
      simp [exDelta]
      linear_combination 3 * hKgE
    · rw [hsq (3 * K) _ (by positivity) (by simp; ring)]
      simp [exDelta]
      linear_combination 3 * hKgE
    · rw [hsq (9 * K) _ (by positivity) (by simp)]
      simp [exDelta]
      linear_combination 9 * hKgE
  have hc : F64.lt (DualNum.re (sumFin s.partial_density)) (f64EPSILON : ℝ) = false := by
    simp only [lt_real, re_real, sumFin_real, decide_eq_false_iff_not, not_lt, s, StateHD.new_density,
      Fin.sum_univ_two, f64EPSILON]
    norm_num
  obtain ⟨z, hz1, hz2, site, hz3⟩ := exReach_list p.assoc_comp (rootRecords_comp hK _) solveF hs
    (fun i j => DualNum.re (strengths p s.temperature r (assocN2 p.m s.partial_density r)
          (DualNum.recip (-(packingFraction p.m s.partial_density r) + c (1.0 : ℝ))) (c (1.0 : ℝ)) i j))
    (assocNa p) (assocNb p) (fun i => DualNum.re (assocRho p s.partial_density i))
    (fun i j => hstr _ _)
    (fun i => by
      unfold assocNa
      generalize p.assoc_comp.get i = i'
      fin_cases i' <;> rfl)
    (fun i => by
      unfold assocNb
      generalize p.assoc_comp.get i = i'
      fin_cases i' <;> rfl)
    (fun i => by
      unfold assocRho
      generalize p.assoc_comp.get i = i'
      simp only [re_real, s, StateHD.new_density]
      fin_cases i' <;> rfl)
  exact ⟨_, z, ((C30_outcomes p 0 solveF solveD s.temperature s.partial_density r _ _ _ 50 1e-10
    (some fun _ => 0.2)).2 hc).2.2.2 3 z z z (by norm_num) hz1 hz2 rfl, site, hz3⟩

end PcSaft.Props
