import Verif.Lemmas.DftRescale

/-!
# Property C124: the functionals do not depend on the choice of units
-/

namespace PcSaft.Spec
variable {n : ℕ}

/-- the same density profiles in units in which lengths are `l` times as large: densities are numbers per volume, their
integrals over spheres numbers per length, their integrals over balls numbers -/
noncomputable def ProfileAt.inUnits (l : ℝ) (g : ProfileAt n) : ProfileAt n where
  density := fun i => g.density i / l ^ 3
  ball := fun R i => g.ball (R / l) i
  sphere := fun R i => g.sphere (R / l) i / l
  flux := fun R d i => g.flux (R / l) d i / l

/-- mean density in a ball around the point -/
noncomputable def ProfileAt.meanInBall (g : ProfileAt n) (R : ℝ) (i : Fin n) : ℝ :=
  g.ball R i / (4 / 3 * Real.pi * R ^ 3)

/-- mean density on a sphere around the point -/
noncomputable def ProfileAt.meanOnSphere (g : ProfileAt n) (R : ℝ) (i : Fin n) : ℝ :=
  g.sphere R i / (4 * Real.pi * R ^ 2)

/-- Helmholtz energy density of the bonds of ideal chains -/
noncomputable def idealBonds (m rho : Fin n → ℝ) : ℝ :=
  ∑ i, (m i - 1) * rho i * (Real.log (rho i) - 1)

end PcSaft.Spec

namespace PcSaft.Props
open PcSaft Spec
variable {n : ℕ}

section
variable {l u : ℝ} (hl : 0 < l) (hu : 0 < u)
include hl hu

omit hl in
theorem segmentDiameter_rescale (pr : Fin n → PureRecord ℝ) (p : PcSaftParameters n ℝ) (T : ℝ) (i : Fin n) :
    segmentDiameter (p.rescale l u pr) (u * T) i = l * segmentDiameter p T i := by
  have h := hsDiameter_rescale (l := l) hu pr p T i
  rw [hsDiameter_eq_spec, hsDiameter_eq_spec] at h
  exact h

omit hl hu in
theorem inv_units (l x y b : ℝ) : ((l * x) ^ 3 * y)⁻¹ * b = (x ^ 3 * y)⁻¹ * b / l ^ 3 := by
  rw [mul_pow, mul_assoc, mul_inv]
  ring

/-- C124, attraction: described in other units of length and energy, the dispersion and polar part of the functional has
the same value at every point of an inhomogeneous fluid, converted as a number per volume (as long as the weighted
density is not between the cutoffs in the two systems of units). -/
theorem C124_attraction (pr : Fin n → PureRecord ℝ) (k : Fin n → Fin n → ℝ) (psi T : ℝ) (dim : ℕ) (g : ProfileAt n)
    (hs : f64EPSILON < ∑ i, g.meanInBall (psi * segmentDiameter (fromRecords pr k) T i) i
      ↔ f64EPSILON < ∑ i, g.meanInBall (psi * segmentDiameter (fromRecords pr k) T i) i / l ^ 3) :
    let p := fromRecords pr k
    let p' := fromRecords (fun i => inUnits l u (pr i)) k
    attractiveFunctional p' (u * T) ((attWeightFunctions p' psi (u * T)).rows dim (g.inUnits l).values)
      = (attractiveFunctional p T ((attWeightFunctions p psi T).rows dim g.values)).map (· / l ^ 3) := by
  intro p p'
  have e : p' = p.rescale l u (fun i => inUnits l u (pr i)) := fromRecords_inUnits hl hu pr k
  rw [attractive_profile, attractive_profile, e]
  have hw : (fun i => (shapeIntegral .Theta (hsDiameter (p.rescale l u fun i => inUnits l u (pr i)) (u * T) i * psi))⁻¹
        * (g.inUnits l).ball (hsDiameter (p.rescale l u fun i => inUnits l u (pr i)) (u * T) i * psi) i)
      = fun i => ((shapeIntegral .Theta (hsDiameter p T i * psi))⁻¹ * g.ball (hsDiameter p T i * psi) i) / l ^ 3 := by
    funext i
    rw [hsDiameter_rescale hu]
    simp only [shapeIntegral, dpowi_real, c, ofF_real, ProfileAt.inUnits]
    rw [show l * hsDiameter p T i * psi / l = hsDiameter p T i * psi by field_simp]
    rw [mul_assoc l]
    exact inv_units _ _ _ _
  have h43 : (4.0 / 3.0 : ℝ) = 4 / 3 := by norm_num
  have hm : ∀ i, (shapeIntegral .Theta (hsDiameter p T i * psi))⁻¹ * g.ball (hsDiameter p T i * psi) i
      = g.meanInBall (psi * segmentDiameter p T i) i := by
    intro i
    rw [hsDiameter_eq_spec]
    simp only [shapeIntegral, dpowi_real, c, ofF_real, ProfileAt.meanInBall, segmentDiameter, pi_real]
    rw [mul_comm psi, h43, mul_comm (4 / 3 * Real.pi)]
    exact (div_eq_inv_mul _ _).symm
  rw [hw, dftDispersion_rescale hl hu _ p T _ (by simp only [hm]; exact hs), dftPolar_rescale hl hu, ← add_div]
  rfl

theorem assocAt_rescale (pr : Fin n → PureRecord ℝ) (p : PcSaftParameters n ℝ) (T : ℝ) (dim : ℕ) (g : ProfileAt n) :
    assocAt (p.rescale l u pr) (u * T) dim (g.inUnits l) = (assocAt p T dim g).inUnits l := by
  have h2 : ∀ i, l * segmentDiameter p T i / 2 / l = segmentDiameter p T i / 2 := fun i => by field_simp
  have e2 : ∀ d, (g.inUnits l).n2v (p.rescale l u pr) (u * T) d = fun i => g.n2v p T d i / l := by
    intro d
    funext i
    simp only [ProfileAt.n2v, ProfileAt.inUnits, segmentDiameter_rescale hu, h2]
    rw [← mul_div_assoc]
    rfl
  have e2' : (g.inUnits l).n2v (p.rescale l u pr) (u * T) = fun d i => g.n2v p T d i / l := funext e2
  simp only [assocAt, AssocDensities.inUnits, List.map_map, Function.comp_def]
  rw [e2']
  congr 1
  · funext i
    simp only [ProfileAt.inUnits, segmentDiameter_rescale hu, h2]
    rw [show 4 * Real.pi * (l * segmentDiameter p T i / 2) ^ 2 = l ^ 2 * (4 * Real.pi * (segmentDiameter p T i / 2) ^ 2) by
      ring, div_div, div_div]
    congr 1
    ring
  · simp only [ProfileAt.n3, ProfileAt.inUnits, segmentDiameter_rescale hu, h2]
    rfl

omit hl hu in
theorem crossGrid_profile {γ : Type} (la : LinAlg ℝ ℝ) (q : PcSaftParameters n ℝ) (hq : 2 ≤ q.assoc_comp.length) (N : ℕ)
    (tol T : ℝ) (dim : ℕ) (G : List γ) (f : γ → ProfileAt n) :
    associationFunctional la q N tol T (G.map fun x => (associationWeightFunctions q T).rows dim (f x).values)
      = .ok (assocFunctionalCrossGrid la q N tol T (fun _ => 0.2) (G.map fun x => assocAt q T dim (f x))) := by
  have hm : 0 < n := by
    match hc : q.assoc_comp, hq with
    | a :: _, _ => exact lt_of_le_of_lt (Nat.zero_le _) a.2
  have hdec := mapM_total (assocDecode n ∘ fun x : γ => (associationWeightFunctions q T).rows dim (f x).values) _ G
    (fun x _ => assoc_profile_rows q T hm dim (f x))
  unfold associationFunctional
  rw [List.mapM_map, hdec]
  simp only [Bind.bind, Except.bind]
  split
  · rename_i b hb
    rw [hb] at hq
    simp at hq
  · rfl

/-- C124, association with one associating component: described in other units, the association part of the functional
has the same values on every grid of an inhomogeneous fluid, converted as numbers per volume (as long as no density is
between the cutoffs in the two systems of units). -/
theorem C124_association (pr : Fin n → PureRecord ℝ) (k : Fin n → Fin n → ℝ) (a : Fin n)
    (ha : (fromRecords pr k).assoc_comp = [a]) (la : LinAlg ℝ ℝ) (N : ℕ) (tol T : ℝ) (dim : ℕ) (G : List (ProfileAt n))
    (hs : ∀ g ∈ G,
      (∀ i, g.meanOnSphere (segmentDiameter (fromRecords pr k) T i / 2) i < N0_CUTOFF
        ↔ g.meanOnSphere (segmentDiameter (fromRecords pr k) T i / 2) i / l ^ 3 < N0_CUTOFF)
      ∧ (∑ i, g.meanOnSphere (segmentDiameter (fromRecords pr k) T i / 2) i < N0_CUTOFF
        ↔ ∑ i, g.meanOnSphere (segmentDiameter (fromRecords pr k) T i / 2) i / l ^ 3 < N0_CUTOFF)) :
    let p := fromRecords pr k
    let p' := fromRecords (fun i => inUnits l u (pr i)) k
    ∃ phi : ProfileAt n → ℝ,
      associationFunctional la p N tol T (G.map fun g => (associationWeightFunctions p T).rows dim g.values)
        = .ok (.ok (G.map phi))
      ∧ associationFunctional la p' N tol (u * T)
          (G.map fun g => (associationWeightFunctions p' (u * T)).rows dim (g.inUnits l).values)
        = .ok (.ok (G.map fun g => phi g / l ^ 3)) := by
  intro p p'
  have e : p' = p.rescale l u (fun i => inUnits l u (pr i)) := fromRecords_inUnits hl hu pr k
  refine ⟨_, association_profile p T a ha la N tol dim G, ?_⟩
  have e1 := association_profile p' (u * T) a (by rw [e]; exact ha) la N tol dim (G.map (ProfileAt.inUnits l))
  simp only [List.map_map, Function.comp_def] at e1
  rw [e1]
  congr 2
  refine List.map_congr_left fun g hg => ?_
  have hA := assocAt_rescale hl hu (fun i => inUnits l u (pr i)) p T dim g
  have h := assocSingle_rescale hl hu (fun i => inUnits l u (pr i)) p T a (assocAt p T dim g) ⟨(hs g hg).1, (hs g hg).2⟩
  rw [← hA, ← e] at h
  exact h

/-- C124, cross association: the same on every grid of an inhomogeneous fluid with several associating components,
whether the iteration succeeds or not. -/
theorem C124_cross_association (pr : Fin n → PureRecord ℝ) (k : Fin n → Fin n → ℝ) (h2 : 2 ≤ (fromRecords pr k).nassoc)
    (la : LinAlg ℝ ℝ) (h0 : la.nderiv = 0) (N : ℕ) (tol T : ℝ) (dim : ℕ) (G : List (ProfileAt n))
    (hs : ∀ g ∈ G,
      (∀ i, g.meanOnSphere (segmentDiameter (fromRecords pr k) T i / 2) i < N0_CUTOFF
        ↔ g.meanOnSphere (segmentDiameter (fromRecords pr k) T i / 2) i / l ^ 3 < N0_CUTOFF)
      ∧ (∑ i, g.meanOnSphere (segmentDiameter (fromRecords pr k) T i / 2) i < N0_CUTOFF
        ↔ ∑ i, g.meanOnSphere (segmentDiameter (fromRecords pr k) T i / 2) i / l ^ 3 < N0_CUTOFF)
      ∧ (∑ i, pointDensity (fromRecords pr k) T (assocAt (fromRecords pr k) T dim g) i < f64EPSILON
        ↔ ∑ i, pointDensity (fromRecords pr k) T (assocAt (fromRecords pr k) T dim g) i / l ^ 3 < f64EPSILON)) :
    let p := fromRecords pr k
    let p' := fromRecords (fun i => inUnits l u (pr i)) k
    associationFunctional la p' N tol (u * T)
        (G.map fun g => (associationWeightFunctions p' (u * T)).rows dim (g.inUnits l).values)
      = (associationFunctional la p N tol T (G.map fun g => (associationWeightFunctions p T).rows dim g.values)).map
          (Except.map (List.map (· / l ^ 3))) := by
  intro p p'
  have e : p' = p.rescale l u (fun i => inUnits l u (pr i)) := fromRecords_inUnits hl hu pr k
  have h2' : 2 ≤ p.assoc_comp.length := h2
  rw [crossGrid_profile la p h2', e]
  refine (crossGrid_profile la (p.rescale l u fun i => inUnits l u (pr i)) h2' N tol (u * T) dim G
    (ProfileAt.inUnits l)).trans ?_
  simp only [assocAt_rescale hl hu]
  have h := crossGrid_rescale hl hu (fun i => inUnits l u (pr i)) p la h0 N tol T (G.map fun g => assocAt p T dim g)
    (fun w hw => by
      obtain ⟨g, hg, rfl⟩ := List.mem_map.1 hw
      exact ⟨(hs g hg).1, (hs g hg).2.1⟩)
    (fun w hw => by
      obtain ⟨g, hg, rfl⟩ := List.mem_map.1 hw
      exact (hs g hg).2.2) (fun _ => 0.2)
  rw [List.map_map] at h
  exact congrArg Except.ok h

omit hl hu in
theorem log_near {a b c : ℝ} (hc : 0 < c) (ha : c ≤ a) (hb : c ≤ b) : |Real.log a - Real.log b| ≤ |a - b| / c := by
  have key : ∀ {a b : ℝ}, c ≤ a → c ≤ b → Real.log a - Real.log b ≤ |a - b| / c := by
    intro a b ha hb
    have hb0 : 0 < b := by linarith
    have ha0 : 0 < a := by linarith
    rw [← Real.log_div ha0.ne' hb0.ne']
    refine (Real.log_le_sub_one_of_pos (div_pos ha0 hb0)).trans ?_
    rw [div_sub_one hb0.ne']
    exact (div_le_div_of_nonneg_right (le_abs_self _) hb0.le).trans (div_le_div_of_nonneg_left (abs_nonneg _) hc hb)
  rw [abs_le]
  constructor
  · have := key hb ha
    rw [abs_sub_comm] at this
    linarith
  · exact key ha hb

omit hu in
theorem chainTerm_units {d rho lam z2 r : ℝ} (hd : 0 < d) (m : ℝ) (hrho : 0 ≤ rho) (hz : 0 ≤ z2) (hr : 0 < r)
    (hlam : rho ≠ 0 → 0 < lam) :
    |l ^ 3 * (-chainTerm (l * d) m (rho / l ^ 3) (chainLambda (lam / l ^ 3)) (z2 / l) r
        + (m - 1) * (rho / l ^ 3) * (Real.log (rho / l ^ 3) - 1))
      - (-chainTerm d m rho (chainLambda lam) z2 r + (m - 1) * rho * (Real.log rho - 1))|
      ≤ |m - 1| * rho * (f64EPSILON * |1 - l ^ 3| / lam) := by
  have heps : (0 : ℝ) < f64EPSILON := f64EPSILON_pos
  have h0 : (0.0 : ℝ) = 0 := by norm_num
  have h1 : (1.0 : ℝ) = 1 := by norm_num
  rcases hrho.eq_or_lt with h | h
  · simp only [← h, chainTerm, zero_div, mul_zero, zero_mul, neg_zero, add_zero, sub_zero, abs_zero, le_refl]
  have hlam := hlam h.ne'
  have hl3 : 0 < l ^ 3 := by positivity
  have hlam' : 0 < lam / l ^ 3 := by positivity
  have ez : z2 / l * (l * d) = z2 * d := by field_simp
  simp only [chainTerm, chainLambda, ez, lt_real, re_real, decide_eq_true_eq, c, ofF_real, h0, not_lt.2 hlam.le,
    not_lt.2 hlam'.le, if_false, h1]
  have hy : 0 < z2 * d * r * r * (z2 * d * r * 0.5 + 1.5) + r := by positivity
  generalize z2 * d * r * r * (z2 * d * r * 0.5 + 1.5) + r = y at hy
  have ln' : ∀ x : ℝ, (DualNum.ln x : ℝ) = Real.log x := fun _ => rfl
  have ea : lam / l ^ 3 + f64EPSILON = (lam + l ^ 3 * f64EPSILON) / l ^ 3 := by field_simp
  have hb : 0 < lam + l ^ 3 * f64EPSILON := by positivity
  rw [ln', ln', ea, Real.log_mul hy.ne' (by positivity), Real.log_mul hy.ne' (by positivity), Real.log_div hb.ne' hl3.ne',
    Real.log_div h.ne' hl3.ne']
  have key := log_near hlam (a := lam + f64EPSILON) (b := lam + l ^ 3 * f64EPSILON) (by linarith)
    (by nlinarith [mul_pos hl3 heps])
  rw [show lam + f64EPSILON - (lam + l ^ 3 * f64EPSILON) = f64EPSILON * (1 - l ^ 3) by ring, abs_mul, abs_of_pos heps] at key
  have e : l ^ 3 * (-((Real.log y + (Real.log (lam + l ^ 3 * f64EPSILON) - Real.log (l ^ 3)) - 1) * (rho / l ^ 3) * (m - 1))
        + (m - 1) * (rho / l ^ 3) * (Real.log rho - Real.log (l ^ 3) - 1))
      - (-((Real.log y + Real.log (lam + f64EPSILON) - 1) * rho * (m - 1)) + (m - 1) * rho * (Real.log rho - 1))
      = (m - 1) * rho * (Real.log (lam + f64EPSILON) - Real.log (lam + l ^ 3 * f64EPSILON)) := by
    field_simp
    ring
  rw [e, abs_mul, abs_mul, abs_of_pos h]
  exact mul_le_mul_of_nonneg_left key (by positivity)

/-- C124, chains: described in other units, the bonds of an inhomogeneous fluid (the chain part of the functional and the
bonds of ideal chains) have the same Helmholtz energy density, converted as a number per volume, up to the effect of the
regularisation of the logarithm. -/
theorem C124_chains (pr : Fin n → PureRecord ℝ) (k : Fin n → Fin n → ℝ) (T : ℝ) (dim : ℕ) (g : ProfileAt n)
    (hm : ∀ i, 0 ≤ (pr i).model_record.m) (hd : ∀ i, 0 < segmentDiameter (fromRecords pr k) T i)
    (hrho : ∀ i, 0 ≤ g.density i) (hball : ∀ i, 0 ≤ g.ball (segmentDiameter (fromRecords pr k) T i) i)
    (hsph : ∀ i, g.density i ≠ 0 → 0 < g.sphere (segmentDiameter (fromRecords pr k) T i) i)
    (heta : ∑ i, (pr i).model_record.m / 8 * g.ball (segmentDiameter (fromRecords pr k) T i) i < 1) :
    let p := fromRecords pr k
    let p' := fromRecords (fun i => inUnits l u (pr i)) k
    ∃ phi phi', chainFunctional p T ((hardChainWeightFunctions p T true).rows dim g.values) = .ok phi
      ∧ chainFunctional p' (u * T) ((hardChainWeightFunctions p' (u * T) true).rows dim (g.inUnits l).values) = .ok phi'
      ∧ |l ^ 3 * (phi' + idealBonds p'.m (g.inUnits l).density) - (phi + idealBonds p.m g.density)|
        ≤ ∑ i, |p.m i - 1| * g.density i * (f64EPSILON * |1 - l ^ 3| / g.meanOnSphere (segmentDiameter p T i) i) := by
  intro p p'
  have e : p' = p.rescale l u (fun i => inUnits l u (pr i)) := fromRecords_inUnits hl hu pr k
  have hl3 : 0 < l ^ 3 := by positivity
  have heps : (0 : ℝ) < f64EPSILON := by
    simp only [f64EPSILON]
    norm_num
  have hds : ∀ i, hsDiameter p T i = segmentDiameter p T i := fun i => hsDiameter_eq_spec p T i
  refine ⟨_, _, chain_profile p T dim g, chain_profile p' (u * T) dim (g.inUnits l), ?_⟩
  set z2 := ∑ i, p.m i / (segmentDiameter p T i * 8) * g.ball (segmentDiameter p T i) i with hz2
  set z3 := ∑ i, p.m i / 8 * g.ball (segmentDiameter p T i) i with hz3
  have hz20 : 0 ≤ z2 := Finset.sum_nonneg fun i _ =>
    mul_nonneg (div_nonneg (hm i) (mul_nonneg (hd i).le (by norm_num))) (hball i)
  have hz31 : 0 < 1 - z3 := sub_pos.2 heta
  have h2 : ∀ i, l * segmentDiameter p T i / l = segmentDiameter p T i := fun i => by field_simp
  have em : p'.m = p.m := by rw [e]; rfl
  have ed : ∀ i, hsDiameter p' (u * T) i = l * segmentDiameter p T i := by
    intro i
    rw [e, hsDiameter_rescale hu, hds]
  have ez2 : ∑ i, p'.m i / (hsDiameter p' (u * T) i * 8) * (g.inUnits l).ball (hsDiameter p' (u * T) i) i = z2 / l := by
    simp only [em, ed, ProfileAt.inUnits, h2, hz2, Finset.sum_div]
    refine Finset.sum_congr rfl fun i _ => ?_
    have := (hd i).ne'
    field_simp
  have ez3 : ∑ i, p'.m i / 8 * (g.inUnits l).ball (hsDiameter p' (u * T) i) i = z3 := by
    simp only [em, ed, ProfileAt.inUnits, h2, hz3]
  have el : ∀ i, (shapeIntegral .Delta (hsDiameter p' (u * T) i))⁻¹ * (g.inUnits l).sphere (hsDiameter p' (u * T) i) i
      = g.meanOnSphere (segmentDiameter p T i) i / l ^ 3 := by
    intro i
    simp only [ed, shapeIntegral, dpowi_real, c, ofF_real, pi_real, ProfileAt.inUnits, h2, ProfileAt.meanOnSphere]
    have := (hd i).ne'
    have := Real.pi_pos.ne'
    norm_num
    field_simp
  have el0 : ∀ i, (shapeIntegral .Delta (hsDiameter p T i))⁻¹ * g.sphere (hsDiameter p T i) i
      = g.meanOnSphere (segmentDiameter p T i) i := by
    intro i
    simp only [hds, shapeIntegral, dpowi_real, c, ofF_real, pi_real, ProfileAt.meanOnSphere]
    have := (hd i).ne'
    have := Real.pi_pos.ne'
    norm_num
    field_simp
  rw [ez2, ez3]
  simp only [el, el0]
  simp only [em, ed, hds, ← hz2, ← hz3, idealBonds]
  have hr : (0 : ℝ) < DualNum.recip (-z3 + c (1.0 : ℝ)) := by
    simp only [recip_real, c, ofF_real]
    have : (0 : ℝ) < -z3 + 1.0 := by norm_num at hz31 ⊢; linarith
    exact inv_pos.2 this
  generalize (DualNum.recip (-z3 + c (1.0 : ℝ)) : ℝ) = r at hr ⊢
  rw [← Finset.sum_neg_distrib, ← Finset.sum_neg_distrib, ← Finset.sum_add_distrib, ← Finset.sum_add_distrib, Finset.mul_sum,
    ← Finset.sum_sub_distrib]
  refine (Finset.abs_sum_le_sum_abs _ _).trans (Finset.sum_le_sum fun i _ => ?_)
  refine chainTerm_units hl (hd i) _ (hrho i) hz20 hr fun h => ?_
  unfold ProfileAt.meanOnSphere
  have := hd i
  have := hsph i h
  positivity

end

/-! ## Examples: a point of an interface, described in nanometres and millikelvin instead of Ångström and kelvin -/

/-- components of different densities, all increasing in the same direction -/
noncomputable def tiltProfile (n : ℕ) : ProfileAt n where
  density := fun j => (j + 1) / 1000
  ball := fun R j => 4 / 3 * Real.pi * R ^ 3 * ((j + 1) / 1000)
  sphere := fun R j => 4 * Real.pi * R ^ 2 * ((j + 1) / 1000)
  flux := fun R d j => if d = 0 then 4 * Real.pi * R ^ 2 * ((j + 1) / 10000) else 0

theorem tilt_ball {R : ℝ} (hR : 0 < R) (j : Fin n) : (tiltProfile n).meanInBall R j = (j + 1) / 1000 := by
  have := Real.pi_pos
  exact mul_div_cancel_left₀ _ (by positivity)

theorem tilt_sphere {R : ℝ} (hR : 0 < R) (j : Fin n) : (tiltProfile n).meanOnSphere R j = (j + 1) / 1000 := by
  have := Real.pi_pos
  exact mul_div_cancel_left₀ _ (by positivity)

theorem below_both {x y : ℝ} (h0 : 0 ≤ x) (h : y ≤ x) : x < y ↔ x / (1 / 10) ^ 3 < y := by
  have : x ≤ x / (1 / 10) ^ 3 := by
    norm_num
    linarith
  exact ⟨fun hx => absurd hx (not_lt.2 h), fun hx => absurd hx (not_lt.2 (h.trans this))⟩

theorem tilt_cutoff (j : Fin n) : (N0_CUTOFF : ℝ) ≤ ((j : ℕ) + 1) / 1000 := by
  simp only [N0_CUTOFF]
  have : (0 : ℝ) ≤ (j : ℕ) := Nat.cast_nonneg _
  norm_num
  linarith

theorem tilt_sum (h : 0 < n) : (1 / 1000 : ℝ) ≤ ∑ j : Fin n, (((j : ℕ) : ℝ) + 1) / 1000 := by
  refine le_trans ?_ (Finset.single_le_sum (f := fun j : Fin n => (((j : ℕ) : ℝ) + 1) / 1000)
    (fun j _ => by positivity) (Finset.mem_univ ⟨0, h⟩))
  norm_num

theorem assocRecords_diameter (i : Fin 2) : 0 < segmentDiameter (fromRecords assocRecords (fun _ _ => 0)) 300 i := by
  have := assocRecords_admissible.diameter_pos i
  rwa [hsDiameter_eq_spec] at this

theorem brineRecords_diameter (i : Fin 3) : 0 < segmentDiameter (fromRecords brineRecords (fun _ _ => 0)) 300 i := by
  have h := ((C13_diameter (fromRecords brineRecords (fun _ _ => 0)) i
    (by
      change (0 : ℝ) < (brineRecords i).model_record.sigma
      unfold brineRecords
      split_ifs <;> norm_num)
    (by
      change (0 : ℝ) < (brineRecords i).model_record.epsilon_k
      unfold brineRecords
      split_ifs <;> norm_num)).1 300 (by norm_num)).1
  rw [hsDiameter_eq_spec] at h
  refine lt_of_le_of_lt ?_ h
  change (0 : ℝ) ≤ 0.88 * (brineRecords i).model_record.sigma
  unfold brineRecords
  split_ifs <;> norm_num

example (dim : ℕ) := C124_attraction (l := 1 / 10) (u := 1000) (by norm_num) (by norm_num) assocRecords (fun _ _ => 0)
  PSI_DFT 300 dim (tiltProfile 2) (by
    have hR : ∀ i, 0 < PSI_DFT * segmentDiameter (fromRecords assocRecords (fun _ _ => 0)) 300 i := fun i =>
      mul_pos (by simp only [PSI_DFT]; norm_num) (assocRecords_diameter i)
    simp only [fun i => tilt_ball (hR i) i, Fin.sum_univ_two, f64EPSILON]
    norm_num)

example (la : LinAlg ℝ ℝ) (dim : ℕ) := C124_association (l := 1 / 10) (u := 1000) (by norm_num) (by norm_num) assocRecords
  (fun _ _ => 0) 0 assocRecords_comp la 50 1e-10 300 dim [tiltProfile 2] (by
    have hR : ∀ i, 0 < segmentDiameter (fromRecords assocRecords (fun _ _ => 0)) 300 i / 2 := fun i =>
      half_pos (assocRecords_diameter i)
    simp only [List.mem_singleton, forall_eq, fun i => tilt_sphere (hR i) i, ← Finset.sum_div]
    refine ⟨fun i => below_both (by positivity) (tilt_cutoff i), below_both (by positivity) ?_⟩
    rw [Finset.sum_div]
    refine le_trans ?_ (tilt_sum (by norm_num))
    simp only [N0_CUTOFF]
    norm_num)

theorem brine_tilt_density (i : Fin 3) : pointDensity (fromRecords brineRecords (fun _ _ => 0)) 300
    (assocAt (fromRecords brineRecords (fun _ _ => 0)) 300 1 (tiltProfile 3)) i = 0.99 * (((i : ℕ) + 1) / 1000) := by
  have hd := brineRecords_diameter i
  have e0 : (assocAt (fromRecords brineRecords (fun _ _ => 0)) 300 1 (tiltProfile 3)).n0i i = ((i : ℕ) + 1) / 1000 :=
    tilt_sphere (half_pos hd) i
  have ed : hsDiameter (fromRecords brineRecords (fun _ _ => 0)) 300 i
    = segmentDiameter (fromRecords brineRecords (fun _ _ => 0)) 300 i := hsDiameter_eq_spec _ _ _
  have hm : 0 < (fromRecords brineRecords (fun _ _ => 0)).m i := by
    change (0 : ℝ) < (brineRecords i).model_record.m
    unfold brineRecords
    split_ifs
    · exact one_pos
    · change (0 : ℝ) < 1 + ((i : ℕ) : ℝ)
      positivity
  have ev : (assocAt (fromRecords brineRecords (fun _ _ => 0)) 300 1 (tiltProfile 3)).n2v
      = [fun j => (fromRecords brineRecords (fun _ _ => 0)).m j
          * (4 * Real.pi * (segmentDiameter (fromRecords brineRecords (fun _ _ => 0)) 300 j / 2) ^ 2 * (((j : ℕ) + 1) / 10000))] :=
    rfl
  simp only [pointDensity, assocRho0, lt_real, re_real, decide_eq_true_eq]
  rw [if_neg (by rw [e0]; exact not_lt.2 (tilt_cutoff i)), ev]
  simp only [List.foldl_cons, List.foldl_nil, assocN2i, e0, ed, c, ofF_real, dpowi_real, pi_real]
  generalize segmentDiameter (fromRecords brineRecords (fun _ _ => 0)) 300 i = d at hd
  generalize (fromRecords brineRecords (fun _ _ => 0)).m i = m at hm
  have hj : (0 : ℝ) < (i : ℕ) + 1 := by positivity
  generalize ((i : ℕ) : ℝ) + 1 = x at hj
  have hpi := Real.pi_pos
  norm_num
  field_simp
  norm_num

example := C124_cross_association (l := 1 / 10) (u := 1000) (by norm_num) (by norm_num) brineRecords (fun _ _ => 0)
  (brine_nassoc _) exactLinAlg rfl 50 1e-10 300 1 [tiltProfile 3] (by
    have hR : ∀ i, 0 < segmentDiameter (fromRecords brineRecords (fun _ _ => 0)) 300 i / 2 := fun i =>
      half_pos (brineRecords_diameter i)
    simp only [List.mem_singleton, forall_eq, fun i => tilt_sphere (hR i) i, ← Finset.sum_div, brine_tilt_density]
    refine ⟨fun i => below_both (by positivity) (tilt_cutoff i), below_both (by positivity) ?_,
      below_both (by positivity) ?_⟩
    · rw [Finset.sum_div]
      refine le_trans ?_ (tilt_sum (by norm_num))
      simp only [N0_CUTOFF]
      norm_num
    · rw [← Finset.mul_sum]
      have := tilt_sum (n := 3) (by norm_num)
      have h : (f64EPSILON : ℝ) ≤ 0.99 * (1 / 1000) := by
        simp only [f64EPSILON]
        norm_num
      refine h.trans (mul_le_mul_of_nonneg_left this (by norm_num)))

theorem assocRecords_diameter_lt (i : Fin 2) : segmentDiameter (fromRecords assocRecords (fun _ _ => 0)) 300 i ≤ 3 := by
  have h := ((C13_diameter (fromRecords assocRecords (fun _ _ => 0)) i (assocRecords_admissible.sigma_pos i)
    (by fin_cases i <;> norm_num [assocRecords, fromRecords])).1 300 (by norm_num)).2
  rw [hsDiameter_eq_spec] at h
  refine le_of_lt (h.trans_eq ?_)
  fin_cases i <;> norm_num [assocRecords, fromRecords]

example (dim : ℕ) := C124_chains (l := 1 / 10) (u := 1000) (by norm_num) (by norm_num) assocRecords (fun _ _ => 0) 300 dim
  (tiltProfile 2) (fun i => (assocRecords_admissible.m_pos i).le) assocRecords_diameter
  (fun i => by
    change (0 : ℝ) ≤ ((i : ℕ) + 1) / 1000
    positivity)
  (fun i => by
    have := assocRecords_diameter i
    have := Real.pi_pos
    change 0 ≤ 4 / 3 * Real.pi * _ ^ 3 * (((i : ℕ) + 1 : ℝ) / 1000)
    positivity)
  (fun i _ => by
    have := assocRecords_diameter i
    have := Real.pi_pos
    change 0 < 4 * Real.pi * _ ^ 2 * (((i : ℕ) + 1 : ℝ) / 1000)
    positivity)
  (by
    have h3 : ∀ i, segmentDiameter (fromRecords assocRecords (fun _ _ => 0)) 300 i ^ 3 ≤ 3 ^ 3 := fun i =>
      pow_le_pow_left₀ (assocRecords_diameter i).le (assocRecords_diameter_lt i) 3
    have h0 := h3 0
    have h1 := h3 1
    rw [Fin.sum_univ_two]
    simp only [tiltProfile]
    have e0 : (assocRecords 0).model_record.m = 1 := by norm_num [assocRecords]
    have e1 : (assocRecords 1).model_record.m = 2 := by norm_num [assocRecords]
    rw [e0, e1]
    have hpi := Real.pi_pos
    have hpi4 := Real.pi_le_four
    have k0 := mul_le_mul hpi4 h0 (pow_nonneg (assocRecords_diameter 0).le 3) (by norm_num)
    have k1 := mul_le_mul hpi4 h1 (pow_nonneg (assocRecords_diameter 1).le 3) (by norm_num)
    norm_num at *
    linarith)

end PcSaft.Props
