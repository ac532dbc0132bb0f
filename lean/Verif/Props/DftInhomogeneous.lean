import Verif.Lemmas.DftRegular
import Verif.Props.DftTotal
import Verif.Props.DftViolations
import Mathlib.LinearAlgebra.Matrix.NonsingularInverse

/-!
# C82, C83: the functionals in inhomogeneous fluids

C82: the functional for pure components is the published White Bear functional (or its antisymmetrised
version) plus the association functional of Yu and Wu, with all vector densities, and no result depends
on the orientation of the coordinate system.

C83: at every point of every profile the functional for pure components agrees with the one for mixtures.
-/

namespace PcSaft.Spec
variable {n : ℕ}

/-- What the weight functions see of the density profiles from one grid point: the densities there, and for every
component and radius the density integrated over the ball, over the sphere, and weighted with the components of the
unit normal over the sphere. -/
structure ProfileAt (n : ℕ) where
  density : Fin n → ℝ
  ball : ℝ → Fin n → ℝ
  sphere : ℝ → Fin n → ℝ
  flux : ℝ → ℕ → Fin n → ℝ

/-- convolution with a weight function: linear, with the kernel of the given shape -/
noncomputable def ProfileAt.weighted (g : ProfileAt n) (w : WeightFunction n ℝ) (i : Fin n) : ℝ :=
  w.prefactor i * match w.shape with
    | .Theta => g.ball (w.kernel_radius i) i
    | .Delta => g.sphere (w.kernel_radius i) i
    | .DeltaVec => 0

/-- the weighted densities at the grid point -/
noncomputable def ProfileAt.values (g : ProfileAt n) : WeightedValues n ℝ where
  loc := g.density
  scalarComponent := g.weighted
  vectorComponent := fun w d i => w.prefactor i * g.flux (w.kernel_radius i) d i
  scalarFmt := fun w => ∑ i, g.weighted w i
  vectorFmt := fun w d => ∑ i, w.prefactor i * g.flux (w.kernel_radius i) d i

/-- surface density of the segments of component `i` -/
noncomputable def ProfileAt.n2 (g : ProfileAt n) (p : PcSaftParameters n ℝ) (T : ℝ) (i : Fin n) : ℝ :=
  p.m i * g.sphere (segmentDiameter p T i / 2) i

/-- vector surface density of the segments of component `i` -/
noncomputable def ProfileAt.n2v (g : ProfileAt n) (p : PcSaftParameters n ℝ) (T : ℝ) (d : ℕ) (i : Fin n) : ℝ :=
  p.m i * g.flux (segmentDiameter p T i / 2) d i

/-- local packing fraction -/
noncomputable def ProfileAt.n3 (g : ProfileAt n) (p : PcSaftParameters n ℝ) (T : ℝ) : ℝ :=
  ∑ i, p.m i * g.ball (segmentDiameter p T i / 2) i

/-- square of the vector surface density of a component -/
noncomputable def ProfileAt.n2v2 (g : ProfileAt n) (p : PcSaftParameters n ℝ) (T : ℝ) (dim : ℕ) (i : Fin n) : ℝ :=
  ((List.range dim).map fun d => g.n2v p T d i ^ 2).sum

/-- The White Bear functional of hard spheres of radius `R` (Roth, Evans, Lang, Kahl 2002), with surface density `n2`,
packing fraction `n3` and squared vector surface density `s`; the last summand contains the cubic combination `q` of
the densities of surfaces. -/
noncomputable def fundamentalMeasure (R n2 n3 s q : ℝ) : ℝ :=
  -(n2 / (4 * Real.pi * R ^ 2)) * Real.log (1 - n3) + (n2 * n2 - s) / (4 * Real.pi * R) / (1 - n3)
    + q * whiteBearF3 n3 / (36 * Real.pi)

/-- `q` of the original functional -/
noncomputable def whiteBearCubic (n2 s : ℝ) : ℝ := n2 ^ 3 - 3 * n2 * s

/-- `q` of the antisymmetrised functional (Rosenfeld, Schmidt, Löwen, Tarazona 1997) -/
noncomputable def antiSymCubic (n2 s : ℝ) : ℝ := n2 ^ 3 * (1 - s / n2 ^ 2) ^ 3

/-- the same profile in rotated (or reflected) coordinates -/
noncomputable def ProfileAt.rotate {dim : ℕ} (Q : Matrix (Fin dim) (Fin dim) ℝ) (g : ProfileAt n) : ProfileAt n where
  density := g.density
  ball := g.ball
  sphere := g.sphere
  flux := fun R d i => if h : d < dim then ∑ e : Fin dim, Q ⟨d, h⟩ e * g.flux R e i else g.flux R d i

/-- density of molecules of component `i` seen by its surface -/
noncomputable def ProfileAt.n0 (g : ProfileAt n) (p : PcSaftParameters n ℝ) (T : ℝ) (i : Fin n) : ℝ :=
  g.n2 p T i / surface p T i

/-- density of molecules of component `i` available for association (Yu and Wu 2002), uncorrected in empty regions -/
noncomputable def ProfileAt.bondable (g : ProfileAt n) (p : PcSaftParameters n ℝ) (T : ℝ) (dim : ℕ) (i : Fin n) : ℝ :=
  g.n0 p T i * if g.n0 p T i < 1e-9 then 1 else 1 - g.n2v2 p T dim i / g.n2 p T i ^ 2

end PcSaft.Spec

namespace PcSaft.Props
open PcSaft Spec
variable {n : ℕ}

theorem radius_eq (p : PcSaftParameters n ℝ) (T : ℝ) (i : Fin n) :
    hsDiameter p T i * c (0.5 : ℝ) = segmentDiameter p T i / 2 := by
  have h5 : (0.5 : ℝ) = 1 / 2 := by norm_num
  simp only [segmentDiameter, ← hsDiameter_eq_spec, c, ofF_real, h5]
  ring

theorem radius_eq' (p : PcSaftParameters n ℝ) (T : ℝ) (i : Fin n) :
    hsDiameter p T i * (0.5 : ℝ) = segmentDiameter p T i / 2 := radius_eq p T i

/-- the rows of the functional for pure components -/
theorem pureFmt_profile_rows (p : PcSaftParameters 1 ℝ) (T : ℝ) (dim : ℕ) (g : ProfileAt 1) :
    (pureFmtWeightFunctions p T).rows dim g.values
      = g.n2 p T 0 :: g.n3 p T :: (List.range dim).map (fun d => g.n2v p T d 0) := by
  simp [pureFmtWeightFunctions, WeightFunctionInfo.rows, WeightFunctionInfo.add, WeightFunctionInfo.extend,
    WeightFunctionInfo.new, ProfileAt.values, ProfileAt.weighted, ProfileAt.n2, ProfileAt.n3, ProfileAt.n2v,
    radius_eq', c, ← List.map_eq_flatMap]

/-- what the association functional reads -/
theorem assoc_profile_rows (p : PcSaftParameters n ℝ) (T : ℝ) (hn : 0 < n) (dim : ℕ) (g : ProfileAt n) :
    assocDecode n ((associationWeightFunctions p T).rows dim g.values)
      = .ok ⟨fun i => g.sphere (segmentDiameter p T i / 2) i / (4 * Real.pi * (segmentDiameter p T i / 2) ^ 2),
          (List.range dim).map (g.n2v p T), g.n3 p T⟩ := by
  obtain ⟨w0, w2, w3, s0, s2, s3, r0, r2, r3, p0, p2, p3, h⟩ := C55_association_rows p T hn dim g.values
  have h4 : (4.0 : ℝ) = 4 := by norm_num
  rw [h]
  congr 2
  · funext i
    simp only [ProfileAt.values, ProfileAt.weighted, s0, r0, p0, shapeIntegral, c, ofF_real, recip_real, dpowi_real,
      pi_real, h4, radius_eq']
    rw [mul_comm (4 * Real.pi)]
    exact (div_eq_inv_mul _ _).symm
  · congr 1
    funext d i
    simp only [ProfileAt.values, r2, p2, radius_eq', ProfileAt.n2v, c, ofF_real]
  · simp only [ProfileAt.values, ProfileAt.weighted, s3, r3, p3, radius_eq', ProfileAt.n3, c, ofF_real]

theorem sumSq_map {ι : Type} (f : ι → ℝ) (L : List ι) : sumSq (L.map f) = (L.map fun d => f d ^ 2).sum := by
  have h0 : (0.0 : ℝ) = 0 := by norm_num
  have key : ∀ a : ℝ, (L.map f).foldl (fun acc v => acc + v * v) a = a + (L.map fun d => f d ^ 2).sum := by
    induction L with
    | nil => simp
    | cons x L ih =>
      intro a
      simp only [List.map_cons, List.foldl_cons, List.sum_cons, ih]
      ring
  rw [sumSq, key]
  simp [c, h0]

theorem pureN1n2_map {ι : Type} (f : ι → ℝ) (L : List ι) (r n2 : ℝ) :
    pureN1n2 r n2 (L.map f) = (n2 * n2 - (L.map fun d => f d ^ 2).sum) / (4 * Real.pi * r) := by
  have h0 : (0.0 : ℝ) = 0 := by norm_num
  have h4 : (4.0 : ℝ) = 4 := by norm_num
  have key : ∀ a b : ℝ, (L.map f).foldl (fun acc v => acc + v / b * v) a = a + (L.map fun d => f d ^ 2).sum / b := by
    induction L with
    | nil => simp
    | cons x L ih =>
      intro a b
      simp only [List.map_cons, List.foldl_cons, List.sum_cons, ih]
      ring
  rw [pureN1n2, key]
  simp only [c, ofF_real, pi_real, h0, h4]
  rw [show r * 4 * Real.pi = 4 * Real.pi * r by ring]
  ring

/-- the corrected density and the strength of the functional for pure components are those of the association
functional -/
theorem pure_association_eq (p : PcSaftParameters 1 ℝ) (T : ℝ) (hm : Molecules p) (hT : 0 < T) (dim : ℕ)
    (g : ProfileAt 1) :
    pureAssoc p T (hsDiameter p T 0 * c (0.5 : ℝ)) (g.n2 p T 0) (g.n3 p T)
        ((List.range dim).map fun d => g.n2v p T d 0)
      = assocFunctionalSingle p T 0
        ⟨fun i => g.sphere (segmentDiameter p T i / 2) i / (4 * Real.pi * (segmentDiameter p T i / 2) ^ 2),
          (List.range dim).map (g.n2v p T), g.n3 p T⟩ := by
  have hm0 := hm.m_pos 0
  have hr0 : 0 < segmentDiameter p T 0 / 2 := by
    have := hm.diameter_pos hT 0
    rw [hsDiameter_eq_spec] at this
    unfold segmentDiameter
    positivity
  have hpi := Real.pi_pos
  have e0 : (0.0 : ℝ) = 0 := by norm_num
  have e1 : (1.0 : ℝ) = 1 := by norm_num
  have e4 : (4.0 : ℝ) = 4 := by norm_num
  set r := segmentDiameter p T 0 / 2 with hr
  set v := (List.range dim).map (g.n2v p T) with hv
  set wd : AssocDensities 1 ℝ :=
    ⟨fun i => g.sphere (segmentDiameter p T i / 2) i / (4 * Real.pi * (segmentDiameter p T i / 2) ^ 2), v, g.n3 p T⟩
    with hwd
  have hrad : (fun i => hsDiameter p T i * c (0.5 : ℝ)) = fun _ => r := by
    funext i
    rw [Subsingleton.elim i 0, radius_eq]
  have hn2i : assocN2i p (fun _ => r) wd 0 = g.n2 p T 0 := by
    simp only [assocN2i, hwd, ProfileAt.n2, c, ofF_real, dpowi_real, pi_real, e4, ← hr]
    field_simp
  have hn2 : assocN2Total p (fun _ => r) wd = g.n2 p T 0 := by
    simp only [assocN2Total, sumFin_real, Fin.sum_univ_one, hn2i]
  have hfold : ∀ a : ℝ, v.foldl (fun acc v => acc + v 0 * v 0) a
      = a + ((List.range dim).map fun d => g.n2v p T d 0 ^ 2).sum := by
    rw [hv]
    generalize List.range dim = L
    induction L with
    | nil => simp
    | cons x L ih =>
      intro a
      simp only [List.map_cons, List.foldl_cons, List.sum_cons, ih]
      ring
  have hcut : g.n2 p T 0 < N0_CUTOFF * 4.0 * F64.pi * p.m 0 * F64.powi r 2 ↔ wd.n0i 0 < N0_CUTOFF := by
    generalize (N0_CUTOFF : ℝ) = C
    simp only [hwd, ProfileAt.n2, pi_real, powi_real, e4, ← hr]
    rw [div_lt_iff₀ (by positivity)]
    constructor
    · intro h
      have h' : p.m 0 * g.sphere r 0 < p.m 0 * (C * (4 * Real.pi * r ^ 2)) := by linarith
      exact lt_of_mul_lt_mul_left h' hm0.le
    · intro h
      have := mul_lt_mul_of_pos_left h hm0
      linarith
  have hxi : pureXi p r (g.n2 p T 0) ((List.range dim).map fun d => g.n2v p T d 0) = assocXi p (fun _ => r) wd := by
    simp only [pureXi, assocXi, sumSq_map, lt_real, re_real, sumFin_real, Fin.sum_univ_one, hn2, show wd.n2v = v from rfl, hfold, c, ofF_real,
      decide_eq_true_eq, hcut, e0]
    split_ifs
    · rfl
    · rw [zero_add, div_neg, neg_div]
  have hxi0 : wd.n0i 0 * pureXi p r (g.n2 p T 0) ((List.range dim).map fun d => g.n2v p T d 0)
      = assocRho0 p (fun _ => r) wd 0 := by
    simp only [pureXi, assocRho0, sumSq_map, lt_real, re_real, hn2i, show wd.n2v = v from rfl, hfold, c,
      ofF_real, decide_eq_true_eq, hcut, e0, e1]
    split_ifs
    · rw [mul_one]
    · rw [zero_add, div_neg, neg_div]
      ring
  have hrho : pureRho0 p r (g.n2 p T 0) ((List.range dim).map fun d => g.n2v p T d 0) = assocRho0 p (fun _ => r) wd 0 := by
    rw [← hxi0, pureRho0]
    congr 1
    simp only [hwd, ProfileAt.n2, c, ofF_real, pi_real, e4, ← hr]
    field_simp
  have hdr : pureDeltaRho p T r (g.n2 p T 0) (g.n3 p T) ((List.range dim).map fun d => g.n2v p T d 0)
      = dftDeltaRho p T 0 wd := by
    simp only [pureDeltaRho, dftDeltaRho, hrad, hxi, hrho, hn2]
    rw [radius_eq, ← hr]
  rw [pureAssoc_eq, assocFunctionalSingle_eq, hrad, dftSites, ← hrho, ← hdr, radius_eq, ← hr]
  split_ifs
  · rw [show (assocSiteFracAB (pureDeltaRho p T r (g.n2 p T 0) (g.n3 p T) ((List.range dim).map fun d => g.n2v p T d 0))
        (p.na 0) (p.nb 0) - c 1.0) * c (p.na 0) / c (p.nb 0)
      = (assocSiteFracAB (pureDeltaRho p T r (g.n2 p T 0) (g.n3 p T) ((List.range dim).map fun d => g.n2v p T d 0))
        (p.na 0) (p.nb 0) - c 1.0) * c (p.na 0 / p.nb 0) by
      simp only [c, ofF_real]
      exact mul_div_assoc _ _ _]
    rw [mul_comm]
  · rw [mul_comm]

/-! ## C82: hard spheres -/

/-- the functional for pure components on a grid -/
theorem pureFmt_profile (p : PcSaftParameters 1 ℝ) (T : ℝ) (v : FMTVersion) (dim : ℕ) (G : List (ProfileAt 1))
    (h3 : ∀ g ∈ G, g.n3 p T < 1) (q : ProfileAt 1 → ℝ)
    (hq : ∀ g ∈ G, pureN2n2 v (g.n2 p T 0) ((List.range dim).map fun d => g.n2v p T d 0) = .ok (q g)) :
    pureFmtAssocFunctional p v T (G.map fun g => (pureFmtWeightFunctions p T).rows dim g.values)
      = .ok (.ok (G.map fun g =>
          (-(g.n2 p T 0 / (4 * Real.pi * (segmentDiameter p T 0 / 2) ^ 2)) * Real.log (1 - g.n3 p T)
            + (g.n2 p T 0 * g.n2 p T 0 - g.n2v2 p T dim 0) / (4 * Real.pi * (segmentDiameter p T 0 / 2)) / (1 - g.n3 p T)
            + q g * g.n2 p T 0 * pureF3 (g.n3 p T) / (36 * Real.pi))
          + if p.nassoc = 1 then pureAssoc p T (hsDiameter p T 0 * c (0.5 : ℝ)) (g.n2 p T 0) (g.n3 p T)
              ((List.range dim).map fun d => g.n2v p T d 0) else 0)) := by
  have h1 : (1.0 : ℝ) = 1 := by norm_num
  have h4 : (4.0 : ℝ) = 4 := by norm_num
  have h36 : (36.0 : ℝ) = 36 := by norm_num
  have e2 : ∀ x : ℝ, -x + 1 = 1 - x := fun x => by ring
  have e3 : ∀ x : ℝ, 1 + -x = 1 - x := fun x => by ring
  unfold pureFmtAssocFunctional
  have hdec : (G.map fun g => (pureFmtWeightFunctions p T).rows dim g.values).mapM (fun wd => do
      let n2 ← rowAt wd 0
      let n3 ← rowAt wd 1
      Except.ok (n2, n3, wd.drop 2))
      = (.ok (G.map fun g => (g.n2 p T 0, g.n3 p T, (List.range dim).map fun d => g.n2v p T d 0))
          : Except Panic (List (ℝ × ℝ × List ℝ))) := by
    rw [List.mapM_map]
    apply mapM_total
    intro g _
    simp only [Function.comp, pureFmt_profile_rows]
    rfl
  rw [hdec]
  simp only [bind, Except.bind]
  have hany : (G.map fun g => (g.n2 p T 0, g.n3 p T, (List.range dim).map fun d => g.n2v p T d 0)).any
      (fun q => F64.lt (1.0 : ℝ) (DualNum.re q.2.1)) = false := by
    rw [List.any_eq_false]
    intro q hq
    obtain ⟨g, hg, rfl⟩ := List.mem_map.mp hq
    simp only [lt_real, re_real, h1, decide_eq_true_eq, not_lt]
    exact (h3 g hg).le
  rw [hany]
  simp only [Bool.false_eq_true, if_false]
  rw [List.mapM_map, mapM_total _ _ _ fun g hg => ?_]
  simp only [Function.comp, pureFmtAssocPoint, hq g hg, pureN1n2_map, radius_eq]
  congr 1
  have key : -(g.n2 p T 0 / (segmentDiameter p T 0 / 2 * (segmentDiameter p T 0 / 2) * c (4.0 : ℝ) * c (F64.pi : ℝ))
        * DualNum.ln1p (-g.n3 p T))
      + (g.n2 p T 0 * g.n2 p T 0 - ((List.range dim).map fun d => g.n2v p T d 0 ^ 2).sum)
        / (4 * Real.pi * (segmentDiameter p T 0 / 2)) * DualNum.recip (-g.n3 p T + c (1.0 : ℝ))
      + q g * g.n2 p T 0 * c (PI36M1 : ℝ) * pureF3 (g.n3 p T)
      = (-(g.n2 p T 0 / (4 * Real.pi * (segmentDiameter p T 0 / 2) ^ 2)) * Real.log (1 - g.n3 p T)
            + (g.n2 p T 0 * g.n2 p T 0 - g.n2v2 p T dim 0) / (4 * Real.pi * (segmentDiameter p T 0 / 2)) / (1 - g.n3 p T)
            + q g * g.n2 p T 0 * pureF3 (g.n3 p T) / (36 * Real.pi)) := by
    simp only [c, ofF_real, recip_real, dln1p_real, PI36M1, pi_real, h1, h4, h36, e2, e3, ProfileAt.n2v2]
    rw [show segmentDiameter p T 0 / 2 * (segmentDiameter p T 0 / 2) * 4 * Real.pi
      = 4 * Real.pi * (segmentDiameter p T 0 / 2) ^ 2 by ring]
    ring
  rw [key]
  split_ifs
  · rfl
  · rw [add_zero]

/-- the association functional on a grid with one associating component -/
theorem association_profile (p : PcSaftParameters n ℝ) (T : ℝ) (a : Fin n) (ha : p.assoc_comp = [a]) (la : LinAlg ℝ ℝ)
    (N : ℕ) (tol : ℝ) (dim : ℕ) (G : List (ProfileAt n)) :
    associationFunctional la p N tol T (G.map fun g => (associationWeightFunctions p T).rows dim g.values)
      = .ok (.ok (G.map fun g => assocFunctionalSingle p T a
          ⟨fun i => g.sphere (segmentDiameter p T i / 2) i / (4 * Real.pi * (segmentDiameter p T i / 2) ^ 2),
            (List.range dim).map (g.n2v p T), g.n3 p T⟩)) := by
  have hdec := mapM_total (assocDecode n ∘ fun g : ProfileAt n => (associationWeightFunctions p T).rows dim g.values) _ G
    (fun g _ => assoc_profile_rows p T (by have := a.2; omega) dim g)
  unfold associationFunctional
  rw [List.mapM_map, hdec]
  simp only [bind, Except.bind]
  split
  · rename_i b hb
    rw [ha] at hb
    simp only [List.cons.injEq, and_true] at hb
    subst hb
    rw [List.map_map]
    rfl
  · rename_i hb
    exact absurd ha (hb a)

theorem fmt_deviation {A q x : ℝ} (h0 : 0 < x) (h1 : x < 1e-5) :
    |A + q * pureF3 x / (36 * Real.pi) - (A + q * whiteBearF3 x / (36 * Real.pi))| ≤ |q| * x ^ 5 / (4 * Real.pi) := by
  have hb := (C43_series x (by rwa [abs_of_pos h0]) h0.ne').1
  rw [abs_of_pos h0] at hb
  have hpi := Real.pi_pos
  have e : A + q * pureF3 x / (36 * Real.pi) - (A + q * whiteBearF3 x / (36 * Real.pi))
      = q * (pureF3 x - whiteBearF3 x) / (36 * Real.pi) := by ring
  rw [e, abs_div, abs_mul, abs_of_pos (by positivity : 0 < 36 * Real.pi), div_le_div_iff₀ (by positivity) (by positivity)]
  have := mul_le_mul_of_nonneg_left hb (abs_nonneg q)
  nlinarith

/-- what both versions have in common: the hard sphere functional with the cubic combination `cubic`, plus the
association functional -/
theorem fmt_profile (p : PcSaftParameters 1 ℝ) (hm : Molecules p) (T : ℝ) (hT : 0 < T) (v : FMTVersion) (dim : ℕ)
    (G : List (ProfileAt 1)) (h3 : ∀ g ∈ G, 0 < g.n3 p T ∧ g.n3 p T < 1) (cubic : ℝ → ℝ → ℝ) (q : ProfileAt 1 → ℝ)
    (hq : ∀ g ∈ G, pureN2n2 v (g.n2 p T 0) ((List.range dim).map fun d => g.n2v p T d 0) = .ok (q g)
      ∧ q g * g.n2 p T 0 = cubic (g.n2 p T 0) (g.n2v2 p T dim 0)) :
    ∃ f a : ProfileAt 1 → ℝ,
      pureFmtAssocFunctional p v T (G.map fun g => (pureFmtWeightFunctions p T).rows dim g.values) = .ok (.ok (G.map f))
      ∧ (p.nassoc = 1 → ∀ (la : LinAlg ℝ ℝ) N tol, associationFunctional la p N tol T
          (G.map fun g => (associationWeightFunctions p T).rows dim g.values) = .ok (.ok (G.map a)))
      ∧ (p.nassoc = 0 → ∀ g, a g = 0)
      ∧ ∀ g ∈ G,
        let n2 := g.n2 p T 0
        let n3 := g.n3 p T
        let s := g.n2v2 p T dim 0
        let phi := fundamentalMeasure (segmentDiameter p T 0 / 2) n2 n3 s (cubic n2 s) + a g
        (1e-5 ≤ n3 → f g = phi) ∧ (n3 < 1e-5 → |f g - phi| ≤ |cubic n2 s| * n3 ^ 5 / (4 * Real.pi)) := by
  refine ⟨_, fun g => if p.nassoc = 1 then pureAssoc p T (hsDiameter p T 0 * c (0.5 : ℝ)) (g.n2 p T 0) (g.n3 p T)
    ((List.range dim).map fun d => g.n2v p T d 0) else 0,
    pureFmt_profile p T v dim G (fun g hg => (h3 g hg).2) q (fun g hg => (hq g hg).1), fun hna la N tol => ?_,
    fun hna g => by simp [hna], fun g hg => ?_⟩
  · have ha : p.assoc_comp = [0] := by
      obtain ⟨x, hx⟩ := List.length_eq_one_iff.mp (show p.assoc_comp.length = 1 from hna)
      rw [hx, Subsingleton.elim x 0]
    rw [association_profile p T 0 ha]
    congr 2
    apply List.map_congr_left
    intro g _
    rw [if_pos hna, pure_association_eq p T hm hT]
  · dsimp only
    rw [(hq g hg).2]
    obtain ⟨h0, h1⟩ := h3 g hg
    constructor
    · intro hge
      rw [C43_exact _ hge h1]
      rfl
    · intro hlt
      rw [add_sub_add_right_eq_sub]
      exact fmt_deviation h0 hlt

/-- C82: the functional for pure components is the White Bear functional plus the association functional: on every
grid of every profile with packing fractions between zero and one the evaluation succeeds, and the energy density at
each point is the published one, exactly for packing fractions above the series cutoff and up to a relative error of
`9 n3⁵` in the last summand below it. -/
theorem C82_white_bear (p : PcSaftParameters 1 ℝ) (hm : Molecules p) (T : ℝ) (hT : 0 < T) (dim : ℕ)
    (G : List (ProfileAt 1)) (h3 : ∀ g ∈ G, 0 < g.n3 p T ∧ g.n3 p T < 1) :
    ∃ f a : ProfileAt 1 → ℝ,
      pureFmtAssocFunctional p .WhiteBear T (G.map fun g => (pureFmtWeightFunctions p T).rows dim g.values)
        = .ok (.ok (G.map f))
      ∧ (p.nassoc = 1 → ∀ (la : LinAlg ℝ ℝ) N tol, associationFunctional la p N tol T
          (G.map fun g => (associationWeightFunctions p T).rows dim g.values) = .ok (.ok (G.map a)))
      ∧ (p.nassoc = 0 → ∀ g, a g = 0)
      ∧ ∀ g ∈ G,
        let n2 := g.n2 p T 0
        let n3 := g.n3 p T
        let s := g.n2v2 p T dim 0
        let phi := fundamentalMeasure (segmentDiameter p T 0 / 2) n2 n3 s (whiteBearCubic n2 s) + a g
        (1e-5 ≤ n3 → f g = phi) ∧ (n3 < 1e-5 → |f g - phi| ≤ |whiteBearCubic n2 s| * n3 ^ 5 / (4 * Real.pi)) := by
  have e3 : (3.0 : ℝ) = 3 := by norm_num
  refine fmt_profile p hm T hT .WhiteBear dim G h3 whiteBearCubic
    (fun g => g.n2 p T 0 * g.n2 p T 0 - g.n2v2 p T dim 0 * 3) fun g _ => ⟨?_, ?_⟩
  · simp only [pureN2n2, sumSq_map, c, ofF_real, e3]
    rfl
  · unfold whiteBearCubic
    ring

/-- C82: the same for the antisymmetrised version, wherever there are segments. -/
theorem C82_antisymmetrized (p : PcSaftParameters 1 ℝ) (hm : Molecules p) (T : ℝ) (hT : 0 < T) (dim : ℕ)
    (G : List (ProfileAt 1)) (h3 : ∀ g ∈ G, 0 < g.n3 p T ∧ g.n3 p T < 1)
    (hv : ∀ g ∈ G, 0 < g.n2 p T 0 ∧ g.n2v2 p T dim 0 ≤ g.n2 p T 0 ^ 2) :
    ∃ f a : ProfileAt 1 → ℝ,
      pureFmtAssocFunctional p .AntiSymWhiteBear T (G.map fun g => (pureFmtWeightFunctions p T).rows dim g.values)
        = .ok (.ok (G.map f))
      ∧ (p.nassoc = 1 → ∀ (la : LinAlg ℝ ℝ) N tol, associationFunctional la p N tol T
          (G.map fun g => (associationWeightFunctions p T).rows dim g.values) = .ok (.ok (G.map a)))
      ∧ (p.nassoc = 0 → ∀ g, a g = 0)
      ∧ ∀ g ∈ G,
        let n2 := g.n2 p T 0
        let n3 := g.n3 p T
        let s := g.n2v2 p T dim 0
        let phi := fundamentalMeasure (segmentDiameter p T 0 / 2) n2 n3 s (antiSymCubic n2 s) + a g
        (1e-5 ≤ n3 → f g = phi) ∧ (n3 < 1e-5 → |f g - phi| ≤ |antiSymCubic n2 s| * n3 ^ 5 / (4 * Real.pi)) := by
  have e1 : (1.0 : ℝ) = 1 := by norm_num
  refine fmt_profile p hm T hT .AntiSymWhiteBear dim G h3 antiSymCubic
    (fun g => g.n2 p T 0 * g.n2 p T 0 * (1 - g.n2v2 p T dim 0 / g.n2 p T 0 ^ 2) ^ 3) fun g hg => ⟨?_, ?_⟩
  · obtain ⟨h0, h1⟩ := hv g hg
    have hle : ¬(1 < g.n2v2 p T dim 0 / g.n2 p T 0 ^ 2) := by
      rw [not_lt, div_le_one (by positivity)]
      exact h1
    have hs : sumSq ((List.range dim).map fun d => g.n2v p T d 0) = g.n2v2 p T dim 0 := sumSq_map _ _
    simp only [pureN2n2, hs, c, ofF_real, e1, lt_real, re_real, dpowi_real, decide_eq_true_eq, if_neg hle]
    congr 1
    ring
  · unfold antiSymCubic
    ring

/-! ## C82: association -/

/-- energy of a site -/
theorem siteF_lipschitz {x y e : ℝ} (hx : 1 / 2 ≤ x) (hy : 1 / 2 ≤ y) (h : |x - y| ≤ e) :
    |(Real.log x - x / 2 + 1 / 2) - (Real.log y - y / 2 + 1 / 2)| ≤ 3 * e := by
  have hlog : ∀ a b : ℝ, 1 / 2 ≤ a → 1 / 2 ≤ b → Real.log a - Real.log b ≤ 2 * |a - b| := by
    intro a b ha hb
    have ha0 : 0 < a := by linarith
    have hb0 : 0 < b := by linarith
    rw [← Real.log_div ha0.ne' hb0.ne']
    refine (Real.log_le_sub_one_of_pos (by positivity)).trans ?_
    have e1 : a / b - 1 = (a - b) / b := by field_simp
    rw [e1, div_le_iff₀ hb0]
    have h1 := le_abs_self (a - b)
    have h2 := abs_nonneg (a - b)
    nlinarith
  have h1 := hlog x y hx hy
  have h2 := hlog y x hy hx
  rw [abs_sub_comm y x] at h2
  obtain ⟨h3, h4⟩ := abs_le.mp h
  have h0 := abs_nonneg (x - y)
  rw [abs_le]
  constructor <;> linarith

/-- C82: with one associating component that has sites of both kinds, the association functional evaluated on any
profile gives, at every grid point, the energy density of Yu and Wu: the bondable density times the energy of the sites
whose fractions of free sites solve the mass-action law with the strength of the inhomogeneous contact value.  Exact
above the threshold strength for the series, with an error of `10⁻¹⁹` per site below it. -/
theorem C82_association (p : PcSaftParameters n ℝ) (hm : Molecules p) (T : ℝ) (hT : 0 < T) (a : Fin n)
    (ha : p.assoc_comp = [a]) (hna : 0 < p.na a) (hnb : 0 < p.nb a) (la : LinAlg ℝ ℝ) (N : ℕ) (tol : ℝ) (dim : ℕ)
    (G : List (ProfileAt n)) (h0 : ∀ g ∈ G, ∀ i, 0 ≤ g.n0 p T i) (h3 : ∀ g ∈ G, g.n3 p T < 1) :
    ∃ f : ProfileAt n → ℝ,
      associationFunctional la p N tol T (G.map fun g => (associationWeightFunctions p T).rows dim g.values)
        = .ok (.ok (G.map f))
      ∧ ∀ g ∈ G, ∀ xa xb : ℝ, 0 < xa → 0 < xb →
        let D := inhomStrength p T a (g.n0 p T) ((List.range dim).map (g.n2v p T)) (g.n3 p T)
        MassActionAB D (p.na a) (p.nb a) xa xb →
        let phi := g.bondable p T dim a
          * (p.na a * (Real.log xa - xa / 2 + 1 / 2) + p.nb a * (Real.log xb - xb / 2 + 1 / 2))
        (Real.sqrt f64EPSILON < D → f g = phi)
        ∧ (0 ≤ D → D ≤ Real.sqrt f64EPSILON → p.na a ≤ 10 → p.nb a ≤ 10 →
          |f g - phi| ≤ |g.bondable p T dim a| * (p.na a + p.nb a) * 1e-19) := by
  have e0 : (0.0 : ℝ) = 0 := by norm_num
  have e1 : (1.0 : ℝ) = 1 := by norm_num
  have hlt : F64.lt (0.0 : ℝ) (p.nb a) = true := by rw [lt_real, e0]; exact decide_eq_true hnb
  refine ⟨_, association_profile p T a ha la N tol dim G, fun g hg xa xb hxa hxb => ?_⟩
  have hn0 : (fun i => g.sphere (segmentDiameter p T i / 2) i / (4 * Real.pi * (segmentDiameter p T i / 2) ^ 2))
      = g.n0 p T := by
    funext i
    have := (hm.m_pos i).ne'
    simp only [ProfileAt.n0, ProfileAt.n2, surface]
    rw [show Real.pi * p.m i * segmentDiameter p T i ^ 2 = p.m i * (4 * Real.pi * (segmentDiameter p T i / 2) ^ 2) by ring,
      mul_div_mul_left _ _ this]
  rw [hn0]
  intro D hD phi
  have hD' : dftDeltaRho p T a ⟨g.n0 p T, (List.range dim).map (g.n2v p T), g.n3 p T⟩ = D :=
    dftDeltaRho_eq hm hT (h0 g hg) (h3 g hg)
  have hcut : (N0_CUTOFF : ℝ) = 1e-9 := rfl
  have hrho : assocRho0 p (fun i => hsDiameter p T i * c (0.5 : ℝ))
      ⟨g.n0 p T, (List.range dim).map (g.n2v p T), g.n3 p T⟩ a = g.bondable p T dim a := by
    obtain ⟨r1, _, r3, _⟩ := C55_empty_regions p (fun i => hsDiameter p T i * c (0.5 : ℝ))
      ⟨g.n0 p T, (List.range dim).map (g.n2v p T), g.n3 p T⟩ hm.m_pos
      (fun i => mul_pos (hm.diameter_pos hT i) (by norm_num [c])) (h0 g hg)
    unfold ProfileAt.bondable
    split_ifs with h
    · rw [mul_one]
      exact r1 a h
    · rw [(r3 a (not_lt.mp h)).2, ← surface_eq]
      have hs := (hm.surface_pos hT a).ne'
      have e : g.n0 p T a * surface p T a = g.n2 p T a := by
        unfold ProfileAt.n0
        field_simp
      rw [e, List.map_map]
      rfl
  have hval : assocFunctionalSingle p T a ⟨g.n0 p T, (List.range dim).map (g.n2v p T), g.n3 p T⟩
      = g.bondable p T dim a
        * (p.na a * (Real.log (assocSiteFracAB D (p.na a) (p.nb a)) - assocSiteFracAB D (p.na a) (p.nb a) / 2 + 1 / 2)
          + p.nb a * (Real.log ((assocSiteFracAB D (p.na a) (p.nb a) - 1) * (p.na a / p.nb a) + 1)
            - ((assocSiteFracAB D (p.na a) (p.nb a) - 1) * (p.na a / p.nb a) + 1) / 2 + 1 / 2)) := by
    rw [assocFunctionalSingle_eq, hD', hrho, dftSites, if_pos hlt, assocF_real, assocF_real]
    simp only [c, ofF_real, e1]
    ring
  rw [hval]
  constructor
  · intro hs
    obtain ⟨yb, _, _, _, _, _, _, h2⟩ := C23_site_fractions hs hna hnb
    obtain ⟨e1, e2⟩ := h2 xa xb hxa hxb hD
    rw [← e1, ← hD.xb_eq hnb.ne' hxa.ne']
  · intro hD0 hs h10a h10b
    obtain ⟨d1, d2⟩ := C24_series_error hD0 hs hna hnb h10a h10b hxa hD
    have hs' : D ≤ (2 ^ 26)⁻¹ := by rwa [sqrt_epsilon] at hs
    have hbound : ∀ x y nx : ℝ, 0 < x → 0 < y → 0 ≤ nx → nx ≤ 10 → x * (1 + D * nx * y) = 1 → y ≤ 1 → 3 / 4 ≤ x := by
      intro x y nx hx hy hn0 hn h hy1
      have h1 : D * nx * y ≤ 1 / 4 := by
        have : D * nx * y ≤ (2 ^ 26)⁻¹ * 10 * 1 := by gcongr
        norm_num at this ⊢
        linarith
      nlinarith
    have hle : ∀ x y nx : ℝ, 0 < x → 0 < y → 0 ≤ nx → x * (1 + D * nx * y) = 1 → x ≤ 1 := by
      intro x y nx hx hy hn0 h
      have : 0 ≤ x * (D * nx * y) := by positivity
      nlinarith
    have hxa1 := hle xa xb _ hxa hxb hnb.le hD.1
    have hxb1 := hle xb xa _ hxb hxa hna.le hD.2
    have hxa2 := hbound xa xb _ hxa hxb hnb.le h10b hD.1 hxb1
    have hxb2 := hbound xb xa _ hxb hxa hna.le h10a hD.2 hxa1
    have hya : 1 / 2 ≤ assocSiteFracAB D (p.na a) (p.nb a) := by
      have := (abs_le.mp d1).1
      norm_num at this ⊢
      linarith
    have hyb : 1 / 2 ≤ (assocSiteFracAB D (p.na a) (p.nb a) - 1) * (p.na a / p.nb a) + 1 := by
      have := (abs_le.mp d2).1
      norm_num at this ⊢
      linarith
    have l1 := siteF_lipschitz hya (by linarith : 1 / 2 ≤ xa) d1
    have l2 := siteF_lipschitz hyb (by linarith : 1 / 2 ≤ xb) d2
    rw [← mul_sub, abs_mul, mul_assoc]
    refine mul_le_mul_of_nonneg_left ?_ (abs_nonneg _)
    generalize Real.log (assocSiteFracAB D (p.na a) (p.nb a)) - assocSiteFracAB D (p.na a) (p.nb a) / 2 + 1 / 2 = A at l1 ⊢
    generalize Real.log ((assocSiteFracAB D (p.na a) (p.nb a) - 1) * (p.na a / p.nb a) + 1)
            - ((assocSiteFracAB D (p.na a) (p.nb a) - 1) * (p.na a / p.nb a) + 1) / 2 + 1 / 2 = B at l2 ⊢
    rw [show p.na a * A + p.nb a * B - (p.na a * (Real.log xa - xa / 2 + 1 / 2) + p.nb a * (Real.log xb - xb / 2 + 1 / 2))
      = p.na a * (A - (Real.log xa - xa / 2 + 1 / 2)) + p.nb a * (B - (Real.log xb - xb / 2 + 1 / 2)) by ring]
    refine (abs_add_le _ _).trans ?_
    rw [abs_mul, abs_mul, abs_of_pos hna, abs_of_pos hnb]
    norm_num at l1 l2 ⊢
    nlinarith

/-! ## C82: independence of the orientation of the coordinate system -/

theorem rotate_sumSq {dim : ℕ} {Q : Matrix (Fin dim) (Fin dim) ℝ} (hQ : Q.transpose * Q = 1) (v : ℕ → ℝ) :
    ((List.range dim).map fun d => (if h : d < dim then ∑ e : Fin dim, Q ⟨d, h⟩ e * v e else v d) ^ 2).sum
      = ((List.range dim).map fun d => v d ^ 2).sum := by
  have hl : ∀ f : ℕ → ℝ, ((List.range dim).map f).sum = ∑ d : Fin dim, f d := by
    intro f
    rw [Fin.sum_univ_eq_sum_range (fun d => f d) dim]
    rfl
  rw [hl, hl]
  set w : Fin dim → ℝ := fun e => v e with hw
  have h1 : ∀ d : Fin dim, (if h : (d : ℕ) < dim then ∑ e : Fin dim, Q ⟨d, h⟩ e * v e else v d) = (Q.mulVec w) d := by
    intro d
    rw [dif_pos d.2]
    rfl
  simp only [h1]
  have h2 : (Q.mulVec w) ⬝ᵥ (Q.mulVec w) = w ⬝ᵥ w := by
    rw [Matrix.dotProduct_mulVec, Matrix.vecMul_mulVec, hQ, ← Matrix.dotProduct_mulVec, Matrix.one_mulVec]
  simpa [dotProduct, sq, hw] using h2

theorem foldl_sq (f : (Fin n → ℝ) → ℝ) (L : List (Fin n → ℝ)) (a : ℝ) :
    L.foldl (fun acc v => acc + f v * f v) a = a + (L.map (fun v => f v ^ 2)).sum := by
  induction L generalizing a with
  | nil => simp
  | cons v L ih =>
    rw [List.foldl_cons, ih, List.map_cons, List.sum_cons]
    ring

theorem n2v_rotate {dim : ℕ} (Q : Matrix (Fin dim) (Fin dim) ℝ) (p : PcSaftParameters n ℝ) (T : ℝ) (g : ProfileAt n)
    (d : ℕ) (i : Fin n) :
    (g.rotate Q).n2v p T d i
      = if h : d < dim then ∑ e : Fin dim, Q ⟨d, h⟩ e * g.n2v p T e i else g.n2v p T d i := by
  simp only [ProfileAt.n2v, ProfileAt.rotate]
  split_ifs
  · rw [Finset.mul_sum]
    exact Finset.sum_congr rfl fun e _ => by ring
  · rfl

theorem n2v_rotate_sum {dim : ℕ} (Q : Matrix (Fin dim) (Fin dim) ℝ) (p : PcSaftParameters n ℝ) (T : ℝ) (g : ProfileAt n)
    (d : ℕ) :
    ∑ i, (g.rotate Q).n2v p T d i
      = if h : d < dim then ∑ e : Fin dim, Q ⟨d, h⟩ e * ∑ i, g.n2v p T e i else ∑ i, g.n2v p T d i := by
  simp only [n2v_rotate]
  split_ifs
  · rw [Finset.sum_comm]
    exact Finset.sum_congr rfl fun e _ => by rw [Finset.mul_sum]
  · rfl

/-- what the association functional reads, before and after the rotation -/
theorem assoc_rotate {dim : ℕ} {Q : Matrix (Fin dim) (Fin dim) ℝ} (hQ : Q.transpose * Q = 1) (p : PcSaftParameters n ℝ)
    (T : ℝ) (r n0 : Fin n → ℝ) (n3 : ℝ) (g : ProfileAt n) :
    let wd : AssocDensities n ℝ := ⟨n0, (List.range dim).map (g.n2v p T), n3⟩
    let wd' : AssocDensities n ℝ := ⟨n0, (List.range dim).map ((g.rotate Q).n2v p T), n3⟩
    assocRho0 p r wd' = assocRho0 p r wd ∧ assocXi p r wd' = assocXi p r wd
      ∧ assocN2Total p r wd' = assocN2Total p r wd := by
  intro wd wd'
  refine ⟨?_, ?_, rfl⟩
  · funext i
    have e : wd'.n2v.foldl (fun acc v => acc + v i * v i) (c (0.0 : ℝ))
        = wd.n2v.foldl (fun acc v => acc + v i * v i) (c (0.0 : ℝ)) := by
      rw [foldl_sq (fun v => v i), foldl_sq (fun v => v i)]
      simp only [wd, wd', List.map_map, Function.comp_def, n2v_rotate]
      rw [rotate_sumSq hQ (fun d => g.n2v p T d i)]
    simp only [assocRho0]
    rw [e]
    rfl
  · have e : wd'.n2v.foldl (fun acc v => acc + sumFin v * sumFin v) (c (0.0 : ℝ))
        = wd.n2v.foldl (fun acc v => acc + sumFin v * sumFin v) (c (0.0 : ℝ)) := by
      rw [foldl_sq (fun v => sumFin v), foldl_sq (fun v => sumFin v)]
      simp only [wd, wd', List.map_map, Function.comp_def, sumFin_real, n2v_rotate_sum]
      rw [rotate_sumSq hQ (fun d => ∑ i, g.n2v p T d i)]
    simp only [assocXi]
    rw [e]
    rfl

/-- C82: the association functional, with any number of associating components, does not depend on the orientation of
the coordinate system. -/
theorem C82_association_rotation {dim : ℕ} {Q : Matrix (Fin dim) (Fin dim) ℝ} (hQ : Q.transpose * Q = 1)
    (p : PcSaftParameters n ℝ) (T : ℝ) (la : LinAlg ℝ ℝ) (N : ℕ) (tol : ℝ) (G : List (ProfileAt n)) :
    associationFunctional la p N tol T (G.map fun g => (associationWeightFunctions p T).rows dim (g.rotate Q).values)
      = associationFunctional la p N tol T (G.map fun g => (associationWeightFunctions p T).rows dim g.values) := by
  rcases Nat.eq_zero_or_pos n with rfl | hn
  · cases G <;> rfl
  set wd : ProfileAt n → AssocDensities n ℝ := fun g =>
    ⟨fun i => g.sphere (segmentDiameter p T i / 2) i / (4 * Real.pi * (segmentDiameter p T i / 2) ^ 2),
      (List.range dim).map (g.n2v p T), g.n3 p T⟩ with hwd
  have hdec := mapM_total (assocDecode n ∘ fun g : ProfileAt n => (associationWeightFunctions p T).rows dim g.values) wd G
    (fun g _ => assoc_profile_rows p T hn dim g)
  have hdec' := mapM_total (assocDecode n ∘ fun g : ProfileAt n => (associationWeightFunctions p T).rows dim (g.rotate Q).values)
    (fun g => wd (g.rotate Q)) G (fun g _ => assoc_profile_rows p T hn dim (g.rotate Q))
  have hpt : ∀ g r, assocRho0 p r (wd (g.rotate Q)) = assocRho0 p r (wd g) ∧ assocXi p r (wd (g.rotate Q)) = assocXi p r (wd g)
      ∧ assocN2Total p r (wd (g.rotate Q)) = assocN2Total p r (wd g) :=
    fun g r => assoc_rotate hQ p T r _ _ g
  have hsingle : ∀ a g, assocFunctionalSingle p T a (wd (g.rotate Q)) = assocFunctionalSingle p T a (wd g) := by
    intro a g
    simp only [assocFunctionalSingle, (hpt g _).1, (hpt g _).2.1, (hpt g _).2.2]
    rfl
  have hcross : ∀ x g, assocFunctionalCrossPoint la p N tol T (wd (g.rotate Q)) x
      = assocFunctionalCrossPoint la p N tol T (wd g) x := by
    intro x g
    simp only [assocFunctionalCrossPoint, (hpt g _).1, (hpt g _).2.1, (hpt g _).2.2]
    rfl
  have hgrid : ∀ (L : List (ProfileAt n)) x, assocFunctionalCrossGrid la p N tol T x (L.map fun g => wd (g.rotate Q))
      = assocFunctionalCrossGrid la p N tol T x (L.map wd) := by
    intro L
    induction L with
    | nil => intro x; rfl
    | cons g L ih =>
      intro x
      simp only [List.map_cons, assocFunctionalCrossGrid, hcross, ih]
  unfold associationFunctional
  rw [List.mapM_map, List.mapM_map, hdec, hdec']
  simp only [bind, Except.bind]
  split
  · rw [List.map_map, List.map_map]
    congr 2
    exact List.map_congr_left fun g _ => hsingle _ g
  · rw [hgrid]

/-- C82: the same for the hard sphere and association functional of pure components. -/
theorem C82_pure_rotation {dim : ℕ} {Q : Matrix (Fin dim) (Fin dim) ℝ} (hQ : Q.transpose * Q = 1)
    (p : PcSaftParameters 1 ℝ) (v : FMTVersion) (T : ℝ) (G : List (ProfileAt 1)) :
    pureFmtAssocFunctional p v T (G.map fun g => (pureFmtWeightFunctions p T).rows dim (g.rotate Q).values)
      = pureFmtAssocFunctional p v T (G.map fun g => (pureFmtWeightFunctions p T).rows dim g.values) := by
  have hs : ∀ g : ProfileAt 1, (g.rotate Q).n2v2 p T dim 0 = g.n2v2 p T dim 0 := by
    intro g
    simp only [ProfileAt.n2v2, n2v_rotate]
    exact rotate_sumSq hQ (fun d => g.n2v p T d 0)
  have hS : ∀ g : ProfileAt 1, sumSq ((List.range dim).map fun d => (g.rotate Q).n2v p T d 0)
      = sumSq ((List.range dim).map fun d => g.n2v p T d 0) := by
    intro g
    rw [sumSq_map, sumSq_map]
    exact hs g
  have hN1 : ∀ (g : ProfileAt 1) r n2, pureN1n2 r n2 ((List.range dim).map fun d => (g.rotate Q).n2v p T d 0)
      = pureN1n2 r n2 ((List.range dim).map fun d => g.n2v p T d 0) := by
    intro g r n2
    rw [pureN1n2_map, pureN1n2_map]
    congr 2
    exact hs g
  have hpt : ∀ g : ProfileAt 1, pureFmtAssocPoint p v T (g.n2 p T 0) (g.n3 p T)
        ((List.range dim).map fun d => (g.rotate Q).n2v p T d 0)
      = pureFmtAssocPoint p v T (g.n2 p T 0) (g.n3 p T) ((List.range dim).map fun d => g.n2v p T d 0) := by
    intro g
    have h2 : pureN2n2 v (g.n2 p T 0) ((List.range dim).map fun d => (g.rotate Q).n2v p T d 0)
        = pureN2n2 v (g.n2 p T 0) ((List.range dim).map fun d => g.n2v p T d 0) := by
      cases v <;> simp only [pureN2n2, hS]
    simp only [pureFmtAssocPoint, h2, hN1, pureAssoc, hS]
  have hdec : ∀ g : ProfileAt 1 → ProfileAt 1, (G.map fun x => (pureFmtWeightFunctions p T).rows dim (g x).values).mapM
      (fun wd => do
        let n2 ← rowAt wd 0
        let n3 ← rowAt wd 1
        Except.ok (n2, n3, wd.drop 2))
      = (.ok (G.map fun x => ((g x).n2 p T 0, (g x).n3 p T, (List.range dim).map fun d => (g x).n2v p T d 0))
          : Except Panic (List (ℝ × ℝ × List ℝ))) := by
    intro g
    rw [List.mapM_map]
    apply mapM_total
    intro x _
    simp only [Function.comp, pureFmt_profile_rows]
    rfl
  have h1 := hdec (fun g => g.rotate Q)
  have h2 := hdec (fun g => g)
  unfold pureFmtAssocFunctional
  rw [h1, h2]
  simp only [bind, Except.bind, List.any_map, List.mapM_map, Function.comp_def]
  have e2 : ∀ g : ProfileAt 1, (g.rotate Q).n2 p T 0 = g.n2 p T 0 := fun _ => rfl
  have e3 : ∀ g : ProfileAt 1, (g.rotate Q).n3 p T = g.n3 p T := fun _ => rfl
  simp only [e2, e3, hpt]

/-! ## C83: pure components and mixtures -/

/-- C83, chains: at every point of every profile below close packing the chain functional for pure components is that
for mixtures. -/
theorem C83_chain (p : PcSaftParameters 1 ℝ) (hm : Molecules p) (T : ℝ) (hT : 0 < T) (dim : ℕ) (g : ProfileAt 1)
    (h1 : p.m 0 / 8 * g.ball (segmentDiameter p T 0) 0 < 1) :
    pureChainFunctional p ((pureChainWeightFunctions p T).rows dim g.values)
      = chainFunctional p T ((hardChainWeightFunctions p T true).rows dim g.values) := by
  obtain ⟨wl, w2, w3, sl, s2, s3, rl, r2, r3, pl, p2, p3, h⟩ := C55_chain_rows p T dim g.values
  rw [h]
  have hd := hm.diameter_pos hT 0
  have hd' : hsDiameter p T 0 = segmentDiameter p T 0 := hsDiameter_eq_spec p T 0
  have e0 : (0.0 : ℝ) = 0 := by norm_num
  have e1 : (1.0 : ℝ) = 1 := by norm_num
  have e5 : (0.5 : ℝ) = 1 / 2 := by norm_num
  have e15 : (1.5 : ℝ) = 3 / 2 := by norm_num
  have e8 : (8.0 : ℝ) = 8 := by norm_num
  rw [← hd'] at h1
  set d := hsDiameter p T 0 with hdd
  have hz3 : g.values.scalarFmt w3 = p.m 0 / 8 * g.ball d 0 := by
    simp only [ProfileAt.values, ProfileAt.weighted, s3, r3, p3, Fin.sum_univ_one, ← hdd, c, ofF_real, e8]
  have hz2 : g.values.scalarFmt w2 * d = p.m 0 / 8 * g.ball d 0 := by
    simp only [ProfileAt.values, ProfileAt.weighted, s2, r2, p2, Fin.sum_univ_one, ← hdd, c, ofF_real, e8]
    field_simp
  have hl : g.values.scalarComponent wl 0 = (shapeIntegral .Delta d)⁻¹ * g.sphere d 0 := by
    simp only [ProfileAt.values, ProfileAt.weighted, sl, rl, pl, ← hdd, recip_real]
  have hrows : (pureChainWeightFunctions p T).rows dim g.values
      = [g.density 0, (shapeIntegral .Delta d)⁻¹ * g.sphere d 0, p.m 0 / 8 * g.ball d 0] := by
    simp [pureChainWeightFunctions, WeightFunctionInfo.rows, WeightFunctionInfo.add, WeightFunctionInfo.new,
      ProfileAt.values, ProfileAt.weighted, WeightFunction.newScaled, recip_real, c, e8, ← hdd]
  have hfold : ∀ (f : ℝ → Fin 1 → ℝ) (a : ℝ), Fin.foldl 1 f a = f a 0 := by
    intro f a
    rw [Fin.foldl_succ, Fin.foldl_zero]
  rw [hrows, hfold]
  simp only [pureChainFunctional, rowAt, List.getElem?_cons_zero, List.getElem?_cons_succ, bind, Except.bind, chainTerm,
    hz2, hz3, hl, ← hdd, c, ofF_real, e0, e1, e5, e15, dpowi_real, recip_real]
  congr 1
  have hu : 1 - p.m 0 / 8 * g.ball d 0 ≠ 0 := by linarith
  generalize p.m 0 / 8 * g.ball d 0 = x at hu ⊢
  have hy : (x * (1 / 2) - 1) / (x - 1) ^ 3
      = x * (-x + 1)⁻¹ * (-x + 1)⁻¹ * (x * (-x + 1)⁻¹ * (1 / 2) + 3 / 2) + (-x + 1)⁻¹ := by
    have h2 : x - 1 ≠ 0 := by
      intro h
      apply hu
      linarith
    have h3 : -x + 1 ≠ 0 := by
      intro h
      apply hu
      linarith
    rw [show -x + 1 = -(x - 1) by ring, inv_neg]
    field_simp
    ring
  rw [hy]
  change (-((DualNum.ln _ - 1) * (p.m 0 - 1)) * g.density 0 : ℝ) = 0 - (DualNum.ln _ - 1) * g.density 0 * (p.m 0 - 1)
  ring

/-- C83, attraction: at every point of every profile where the weighted density is above machine epsilon, the
attractive functional for pure components that are not both dipolar and quadrupolar is that for mixtures. -/
theorem C83_attractive (pr : Fin 1 → PureRecord ℝ) (k : Fin 1 → Fin 1 → ℝ) (hk : k 0 0 = 0)
    (hm : Molecules (fromRecords pr k)) (T : ℝ) (hT : 0 < T) (psi : ℝ) (dim : ℕ) (g : ProfileAt 1)
    (hpol : (fromRecords pr k).ndipole = 0 ∨ (fromRecords pr k).nquadpole = 0)
    (hrho : f64EPSILON < g.ball (psi * segmentDiameter (fromRecords pr k) T 0) 0
      / (4 / 3 * Real.pi * (psi * segmentDiameter (fromRecords pr k) T 0) ^ 3))
    (hη : Spec.packingFraction (fromRecords pr k) T 1 (fun _ => g.ball (psi * segmentDiameter (fromRecords pr k) T 0) 0
      / (4 / 3 * Real.pi * (psi * segmentDiameter (fromRecords pr k) T 0) ^ 3)) < 1) :
    let p := fromRecords pr k
    ∃ phi, pureAttFunctional p T ((pureAttWeightFunctions p psi T).rows dim g.values) = .ok phi
      ∧ attractiveFunctional p T ((attWeightFunctions p psi T).rows dim g.values) = .ok phi := by
  intro p
  set rho : ℝ := g.ball (psi * segmentDiameter p T 0) 0 / (4 / 3 * Real.pi * (psi * segmentDiameter p T 0) ^ 3) with hr
  have h3 : (3.0 : ℝ) = 3 := by norm_num
  have h4 : (4.0 : ℝ) = 4 := by norm_num
  have hd' : hsDiameter p T 0 = segmentDiameter p T 0 := hsDiameter_eq_spec p T 0
  have heps : (0 : ℝ) < f64EPSILON := by
    unfold f64EPSILON
    norm_num
  have hrows : (attWeightFunctions p psi T).rows dim g.values = [rho] := by
    simp [attWeightFunctions, WeightFunctionInfo.rows, WeightFunctionInfo.add, WeightFunctionInfo.new,
      ProfileAt.values, ProfileAt.weighted, WeightFunction.newScaled, recip_real, c, shapeIntegral, h3, h4, hd', hr]
    rw [mul_comm (segmentDiameter p T 0) psi]
    generalize psi * segmentDiameter p T 0 = y
    rw [div_eq_mul_inv]
    ring
  have hadm : Admissible p T 1 (fun _ => rho) :=
    ⟨hT, one_pos, hm.m_pos, hm.sigma_pos, hm.epsilon_nonneg, fun _ => (heps.trans hrho).le,
      ⟨0, (heps.trans hrho).ne'⟩, hη⟩
  have hq1 : p.nquadpole ≤ 1 := by
    have hnd := (nonzeroComp_sorted p.q2).nodup.length_le_card
    rw [Fintype.card_fin] at hnd
    exact hnd
  have hP := C41_pure_attractive_bulk_partial pr k _ hadm hk 1 one_ne_zero 0 .DQ35 hpol
  have hM := C38_attractive_bulk pr k (fun _ : Fin 1 => rho) hadm hq1 1 one_ne_zero 0 (by simpa using hrho)
  have hb := attractive_rows hadm.diameter_pos 1 one_ne_zero 0 (fun _ : Fin 1 => rho / 1)
  have eL : List.ofFn (fun _ : Fin 1 => rho / 1) = [rho] := by simp
  rw [eL] at hb
  simp only at hP hM
  rw [show pureAttWeightFunctions (fromRecords pr k) 1 T = attWeightFunctions (fromRecords pr k) 1 T from rfl, hb] at hP
  rw [hb] at hM
  rw [← hrows] at hP hM
  exact ⟨_, hP, hM⟩

end PcSaft.Props
