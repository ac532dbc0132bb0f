import Verif.Lemmas.Rows
import Verif.Lemmas.Admissible

/-!
# C55: the functionals read the weighted densities they asked for
-/

namespace PcSaft.Props
open PcSaft Spec
variable {n : ℕ} {F D : Type} [F64 F] [DualNum F D]

/-- C55, association functional: for every grid point with arbitrary weighted densities and every
dimension the rows are decoded as the normalised shell density of each component, the vector
densities per direction and component, and the packing fraction. -/
theorem C55_association_rows (p : PcSaftParameters n F) (T : D) (hn : 0 < n) (dim : ℕ)
    (v : WeightedValues n D) :
    ∃ w0 w2 w3 : WeightFunction n D,
      w0.shape = .Delta ∧ w2.shape = .DeltaVec ∧ w3.shape = .Theta
      ∧ (∀ i, w0.kernel_radius i = hsDiameter p T i * c 0.5) ∧ (∀ i, w2.kernel_radius i = hsDiameter p T i * c 0.5)
      ∧ (∀ i, w3.kernel_radius i = hsDiameter p T i * c 0.5)
      ∧ (∀ i, w0.prefactor i = DualNum.recip (shapeIntegral .Delta (hsDiameter p T i * c 0.5)))
      ∧ (∀ i, w2.prefactor i = c (p.m i)) ∧ (∀ i, w3.prefactor i = c (p.m i))
      ∧ assocDecode n ((associationWeightFunctions p T).rows dim v)
        = .ok ⟨v.scalarComponent w0, (List.range dim).map (v.vectorComponent w2), v.scalarFmt w3⟩ := by
  set r := fun i => hsDiameter p T i * c (0.5 : F) with hr
  set w0 : WeightFunction n D := WeightFunction.newScaled r .Delta with hw0
  set w2 : WeightFunction n D := { prefactor := fun i => c (p.m i), kernel_radius := r, shape := .DeltaVec } with hw2
  set w3 : WeightFunction n D := { prefactor := fun i => c (p.m i), kernel_radius := r, shape := .Theta } with hw3
  refine ⟨w0, w2, w3, rfl, rfl, rfl, fun _ => rfl, fun _ => rfl, fun _ => rfl, fun _ => rfl, fun _ => rfl,
    fun _ => rfl, ?_⟩
  have hrows : (associationWeightFunctions p T).rows dim v
      = List.ofFn (v.scalarComponent w0) ++ (List.range dim).flatMap (fun d => List.ofFn (v.vectorComponent w2 d))
        ++ [v.scalarFmt w3] := by
    simp [associationWeightFunctions, WeightFunctionInfo.rows, WeightFunctionInfo.add,
      WeightFunctionInfo.new, WeightFunction.newScaled, ← hr, hw0, hw2, hw3]
    rfl
  have hlen : ((associationWeightFunctions p T).rows dim v).length = n + n * dim + 1 := by
    rw [hrows]
    simp
    ring
  have hdim : (((associationWeightFunctions p T).rows dim v).length - 1) / n - 1 = dim := by
    rw [hlen]
    have : n + n * dim + 1 - 1 = n * (dim + 1) := by ring_nf; omega
    rw [this, Nat.mul_div_cancel_left _ hn]
    rfl
  unfold assocDecode
  rw [if_neg hn.ne', hdim, hrows]
  dsimp only
  have h0 := rowSlice_head (v.scalarComponent w0)
    ((List.range dim).flatMap (fun d => List.ofFn (v.vectorComponent w2 d)) ++ [v.scalarFmt w3])
  have h2 := rowSlice_vectors (List.ofFn (v.scalarComponent w0)) (v.vectorComponent w2) [v.scalarFmt w3] dim
    (by simp)
  have h3 := rowAt_append (List.ofFn (v.scalarComponent w0)
      ++ (List.range dim).flatMap (fun d => List.ofFn (v.vectorComponent w2 d))) (v.scalarFmt w3) []
    (i := n * (dim + 1)) (by simp; ring)
  rw [← List.append_assoc] at h0
  rw [h0, h2, h3]
  rfl

/-- C55, empty regions: where the density of a component is below the cutoff the functional uses it
unmodified, and where the total density is below the cutoff there is no vector correction, whatever
the vector densities are; in particular nothing is divided by the density there.  Elsewhere the
divisor is not zero. -/
theorem C55_empty_regions (p : PcSaftParameters n ℝ) (r : Fin n → ℝ) (wd : AssocDensities n ℝ)
    (hm : ∀ i, 0 < p.m i) (hr : ∀ i, 0 < r i) (hn0 : ∀ i, 0 ≤ wd.n0i i) :
    (∀ i, wd.n0i i < N0_CUTOFF → assocRho0 p r wd i = wd.n0i i)
    ∧ (∑ i, wd.n0i i < N0_CUTOFF → assocXi p r wd = 1)
    ∧ (∀ i, N0_CUTOFF ≤ wd.n0i i → 0 < assocN2i p r wd i * assocN2i p r wd i
        ∧ assocRho0 p r wd i = wd.n0i i * (1 - (wd.n2v.map (fun v => v i ^ 2)).sum
          / (wd.n0i i * (4 * Real.pi * p.m i * r i ^ 2)) ^ 2))
    ∧ (N0_CUTOFF ≤ ∑ i, wd.n0i i → 0 < assocN2Total p r wd * assocN2Total p r wd
        ∧ assocXi p r wd = 1 - (wd.n2v.map (fun v => (∑ i, v i) ^ 2)).sum
          / (∑ i, wd.n0i i * (4 * Real.pi * p.m i * r i ^ 2)) ^ 2) := by
  have hcut : (0 : ℝ) < N0_CUTOFF := by norm_num [N0_CUTOFF]
  have hfold : ∀ (f : (Fin n → ℝ) → ℝ) (L : List (Fin n → ℝ)) (a : ℝ),
      L.foldl (fun acc v => acc + f v * f v) a = a + (L.map (fun v => f v ^ 2)).sum := by
    intro f L
    induction L with
    | nil => simp
    | cons v L ih =>
      intro a
      rw [List.foldl_cons, ih, List.map_cons, List.sum_cons]
      ring
  have hN2 : ∀ i, assocN2i p r wd i = wd.n0i i * (4 * Real.pi * p.m i * r i ^ 2) := by
    intro i
    have h4 : (4.0 : ℝ) = 4 := by norm_num
    simp only [assocN2i, c, ofF_real, dpowi_real, pi_real, h4]
    ring
  have hpi := Real.pi_pos
  have hzero : (0.0 : ℝ) = 0 := by norm_num
  have hone : (1.0 : ℝ) = 1 := by norm_num
  refine ⟨fun i h => ?_, fun h => ?_, fun i h => ?_, fun h => ?_⟩
  · simp only [assocRho0, lt_real, re_real, h, decide_true, if_true]
  · simp only [assocXi, lt_real, re_real, sumFin_real, h, decide_true, if_true, c, ofF_real, hone]
  · have hpos : 0 < assocN2i p r wd i := by
      rw [hN2]
      have := hm i
      have := hr i
      have : 0 < wd.n0i i := lt_of_lt_of_le hcut h
      positivity
    refine ⟨by positivity, ?_⟩
    simp only [assocRho0, lt_real, re_real, not_lt.2 h, decide_false, Bool.false_eq_true, if_false, c,
      ofF_real, hzero, hone]
    rw [hfold (fun v => v i), zero_add, hN2]
    ring
  · have hpos : 0 < assocN2Total p r wd := by
      simp only [assocN2Total, sumFin_real, hN2]
      have : 0 < ∑ i, wd.n0i i := lt_of_lt_of_le hcut h
      obtain ⟨i, _, hi⟩ := Finset.exists_ne_zero_of_sum_ne_zero this.ne'
      refine Finset.sum_pos' (fun j _ => ?_) ⟨i, Finset.mem_univ _, ?_⟩
      · have := hm j
        have := hr j
        have := hn0 j
        positivity
      · have := hm i
        have := hr i
        have : 0 < wd.n0i i := lt_of_le_of_ne (hn0 i) (Ne.symm hi)
        positivity
    refine ⟨by positivity, ?_⟩
    simp only [assocXi, lt_real, re_real, sumFin_real, not_lt.2 h, decide_false, Bool.false_eq_true,
      if_false, c, ofF_real, hzero, hone]
    rw [hfold (fun v => ∑ i, v i), zero_add]
    simp only [assocN2Total, sumFin_real, hN2]
    ring

theorem chainFunctional_of_rows (p : PcSaftParameters n F) (T : D) {wd : List D}
    (hk : (wd.length - 2) / 2 = n) {rho lambda : Fin n → D} {z2 z3 : D} (h0 : rowSlice wd 0 n = .ok rho)
    (h1 : rowSlice wd n n = .ok lambda) (h2 : rowAt wd (2 * n) = .ok z2)
    (h3 : rowAt wd (2 * n + 1) = .ok z3) :
    chainFunctional p T wd = .ok (Fin.foldl n (fun phi i => phi - chainTerm (hsDiameter p T i) (p.m i)
      (rho i) (chainLambda (lambda i)) z2 (DualNum.recip (-z3 + c 1.0))) (c (0.0 : F))) := by
  unfold chainFunctional
  generalize (wd.length - 2) / 2 = k at *
  subst hk
  simp only [le_refl, dite_true]
  rw [h0, h1, h2, h3]
  rfl

/-- C55, chain functional: the rows are the densities, the shell averages, and the two moments, and
the functional never indexes outside of them. -/
theorem C55_chain_rows (p : PcSaftParameters n F) (T : D) (dim : ℕ) (v : WeightedValues n D) :
    ∃ wl w2 w3 : WeightFunction n D,
      wl.shape = .Delta ∧ w2.shape = .Theta ∧ w3.shape = .Theta
      ∧ (∀ i, wl.kernel_radius i = hsDiameter p T i) ∧ (∀ i, w2.kernel_radius i = hsDiameter p T i)
      ∧ (∀ i, w3.kernel_radius i = hsDiameter p T i)
      ∧ (∀ i, wl.prefactor i = DualNum.recip (shapeIntegral .Delta (hsDiameter p T i)))
      ∧ (∀ i, w2.prefactor i = c (p.m i) / (hsDiameter p T i * c 8.0))
      ∧ (∀ i, w3.prefactor i = c (p.m i / 8.0))
      ∧ chainFunctional p T ((hardChainWeightFunctions p T true).rows dim v)
        = .ok (Fin.foldl n (fun phi i => phi - chainTerm (hsDiameter p T i) (p.m i) (v.loc i)
            (chainLambda (v.scalarComponent wl i)) (v.scalarFmt w2)
            (DualNum.recip (-v.scalarFmt w3 + c 1.0))) (c (0.0 : F))) := by
  set d := hsDiameter p T with hd
  set wl : WeightFunction n D := WeightFunction.newScaled d .Delta with hwl
  set w2 : WeightFunction n D := { prefactor := fun i => c (p.m i) / (d i * c 8.0), kernel_radius := d, shape := .Theta } with hw2
  set w3 : WeightFunction n D := { prefactor := fun i => c (p.m i / 8.0), kernel_radius := d, shape := .Theta } with hw3
  refine ⟨wl, w2, w3, rfl, rfl, rfl, fun _ => rfl, fun _ => rfl, fun _ => rfl, fun _ => rfl, fun _ => rfl,
    fun _ => rfl, ?_⟩
  have hrows : (hardChainWeightFunctions p T true).rows dim v
      = List.ofFn v.loc ++ List.ofFn (v.scalarComponent wl) ++ [v.scalarFmt w2, v.scalarFmt w3] := by
    simp [hardChainWeightFunctions, WeightFunctionInfo.rows, WeightFunctionInfo.add,
      WeightFunctionInfo.new, WeightFunction.newScaled, ← hd, hwl, hw2, hw3]
  have hk : (((hardChainWeightFunctions p T true).rows dim v).length - 2) / 2 = n := by
    rw [hrows]
    simp
    omega
  have h0 := rowSlice_head v.loc (List.ofFn (v.scalarComponent wl) ++ [v.scalarFmt w2, v.scalarFmt w3])
  rw [← List.append_assoc] at h0
  have h1 := rowSlice_append (List.ofFn v.loc) (v.scalarComponent wl) [v.scalarFmt w2, v.scalarFmt w3]
    (i := n) (by simp)
  have h2 := rowAt_append (List.ofFn v.loc ++ List.ofFn (v.scalarComponent wl)) (v.scalarFmt w2)
    [v.scalarFmt w3] (i := 2 * n) (by simp; omega)
  have h3 : rowAt (List.ofFn v.loc ++ List.ofFn (v.scalarComponent wl) ++ [v.scalarFmt w2, v.scalarFmt w3])
      (2 * n + 1) = .ok (v.scalarFmt w3) := by
    have := rowAt_append (List.ofFn v.loc ++ List.ofFn (v.scalarComponent wl) ++ [v.scalarFmt w2])
      (v.scalarFmt w3) [] (i := 2 * n + 1) (by simp; omega)
    simpa using this
  rw [← hrows] at h0 h1 h2 h3
  exact chainFunctional_of_rows p T hk h0 h1 h2 h3

end PcSaft.Props
