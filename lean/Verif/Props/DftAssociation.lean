import Verif.Props.DftRows
import Verif.Props.CrossAssociation

/-!
# C35: the association functional of a homogeneous fluid
-/

namespace PcSaft.Props
open PcSaft Spec
variable {n : ℕ}

/-- the weighted densities of a homogeneous fluid as the association functional reads them -/
theorem assocDecode_bulk (p : PcSaftParameters n ℝ) (T : ℝ) (hn : 0 < n)
    (hd : ∀ i, hsDiameter p T i ≠ 0) (dim : ℕ) (rho : Fin n → ℝ) :
    assocDecode n ((associationWeightFunctions p T).bulkRows dim rho)
      = .ok ⟨rho, List.replicate dim 0, packingFraction p.m rho (fun i => hsDiameter p T i * c (0.5 : ℝ))⟩ := by
  obtain ⟨w0, w2, w3, s0, s2, s3, r0, r2, r3, p0, p2, p3, h⟩ :=
    C55_association_rows p T hn dim (bulkValues rho)
  unfold WeightFunctionInfo.bulkRows
  rw [h]
  have h4 : (4.0 : ℝ) = 4 := by norm_num
  have h3 : (3.0 : ℝ) = 3 := by norm_num
  have h5 : (0.5 : ℝ) = 1 / 2 := by norm_num
  have h0 : (0.0 : ℝ) = 0 := by norm_num
  congr 2
  · funext i
    simp only [bulkValues, WeightFunction.bulkWeight, s0, r0, p0, shapeIntegral, c, ofF_real, dpowi_real,
      recip_real, pi_real, h4, h5]
    have := hd i
    have := Real.pi_ne_zero
    field_simp
  · simp only [bulkValues, c, ofF_real, h0]
    rw [List.map_const', List.length_range]
    rfl
  · simp only [bulkValues, WeightFunction.bulkWeight, s3, r3, p3, shapeIntegral, packingFraction,
      sumFin_real, c, ofF_real, dpowi_real, pi_real, h4, h3, h5]
    rw [Finset.sum_mul, Finset.sum_mul]
    exact Finset.sum_congr rfl fun i _ => by ring

/-- the modified densities of a homogeneous fluid are the densities -/
theorem assoc_bulk_densities (p : PcSaftParameters n ℝ) (r rho : Fin n → ℝ) (dim : ℕ) (n3 : ℝ) :
    assocRho0 p r ⟨rho, List.replicate dim 0, n3⟩ = rho
    ∧ assocXi p r ⟨rho, List.replicate dim 0, n3⟩ = c (1.0 : ℝ)
    ∧ assocN2Total p r ⟨rho, List.replicate dim 0, n3⟩ = assocN2 p.m rho r := by
  have hf : ∀ (f : (Fin n → ℝ) → ℝ) (_ : f 0 = 0) (k : ℕ) (a : ℝ),
      (List.replicate k (0 : Fin n → ℝ)).foldl (fun acc v => acc + f v * f v) a = a := by
    intro f h0 k
    induction k with
    | zero => simp
    | succ k ih =>
      intro a
      rw [List.replicate_succ, List.foldl_cons, ih, h0]
      ring
  have h0 : (0.0 : ℝ) = 0 := by norm_num
  have h1 : (1.0 : ℝ) = 1 := by norm_num
  refine ⟨?_, ?_, ?_⟩
  · funext i
    simp only [assocRho0]
    split
    · rfl
    · rw [hf (fun v => v i) rfl]
      simp [c, h0, h1]
  · simp only [assocXi]
    split
    · rfl
    · rw [hf (fun v => sumFin v) (by simp)]
      simp [c, h0]
  · have h4 : (4.0 : ℝ) = 4 := by norm_num
    simp only [assocN2Total, assocN2, assocN2i, sumFin_real, c, ofF_real, dpowi_real, pi_real, h4]
    rw [Finset.sum_mul, Finset.sum_mul]
    exact Finset.sum_congr rfl fun i _ => by ring

theorem state_of_density (T V : ℝ) (hV : V ≠ 0) (rho : Fin n → ℝ) :
    (StateHD.new T V (fun i => V * rho i)).partial_density = rho := by
  rw [StateHD.new_density]
  funext i
  field_simp

/-- C35: one associating component.  On every grid of homogeneous points, in every dimension, the
functional succeeds and gives the association energy of the equation of state per volume. -/
theorem C35_association_bulk (p : PcSaftParameters n ℝ) (T : ℝ) (hd : ∀ i, hsDiameter p T i ≠ 0)
    (a : Fin n) (ha : p.assoc_comp = [a]) (la : LinAlg ℝ ℝ) (N : ℕ)
    (tol : ℝ) (dim : ℕ) (rhos : List (Fin n → ℝ)) :
    ∃ f : (Fin n → ℝ) → ℝ,
      associationFunctional la p N tol T (rhos.map ((associationWeightFunctions p T).bulkRows dim))
        = .ok (.ok (rhos.map f))
      ∧ ∀ rho ∈ rhos, ∀ V, V ≠ 0 →
        association p (StateHD.new T V (fun i => V * rho i)) = .ok (V * f rho) := by
  set r := fun i => hsDiameter p T i * c (0.5 : ℝ) with hr
  refine ⟨fun rho => assocFunctionalSingle p T a ⟨rho, List.replicate dim 0, packingFraction p.m rho r⟩,
    ?_, fun rho _ V hV => ?_⟩
  · have hm : (rhos.map ((associationWeightFunctions p T).bulkRows dim)).mapM (assocDecode n)
        = (.ok (rhos.map fun rho => ⟨rho, List.replicate dim 0, packingFraction p.m rho r⟩) :
          Except Panic (List (AssocDensities n ℝ))) := by
      induction rhos with
      | nil => rfl
      | cons rho rhos ih =>
        rw [List.map_cons, List.mapM_cons, ih, assocDecode_bulk p T (by have := a.2; omega) hd]
        rfl
    unfold associationFunctional
    rw [hm]
    simp only [bind, Except.bind]
    split
    · rename_i b hb
      rw [ha] at hb
      simp only [List.cons.injEq, and_true] at hb
      subst hb
      rw [List.map_map]
      rfl
    · rename_i hb
      exact absurd ha (hb a)
  · rw [association_eq _ _ _ _ ha, state_of_density _ _ hV]
    congr 1
    obtain ⟨e1, e2, e3⟩ := assoc_bulk_densities p r rho dim (packingFraction p.m rho r)
    have hra : r a ≠ 0 := by
      have := hd a
      have h5 : (0.5 : ℝ) = 1 / 2 := by norm_num
      simp only [hr, c, ofF_real, h5]
      positivity
    have hstr : stateStrength p (StateHD.new T V fun i => V * rho i) a a * rho a
        = (((assocN2 p.m rho r * (DualNum.recip (-packingFraction p.m rho r + c (1.0 : ℝ))) * r a) / c (18.0 : ℝ)
              + c (0.5 : ℝ)) * (assocN2 p.m rho r * (DualNum.recip (-packingFraction p.m rho r + c (1.0 : ℝ))) * r a)
              * c (1.0 : ℝ) + c (1.0 : ℝ)) * (DualNum.recip (-packingFraction p.m rho r + c (1.0 : ℝ)))
          * (DualNum.expm1 (DualNum.recip T * c (p.epsilon_k_aibj a a))
            * c (F64.powi (p.sigma a) 3 * p.kappa_aibj a a)) * rho a := by
      unfold stateStrength
      rw [state_of_density _ _ hV, StateHD.new_temperature, ← hr]
      simp only [associationStrength]
      generalize assocN2 p.m rho r = n2
      generalize packingFraction p.m rho r = n3
      have h5 : (0.5 : ℝ) = 1 / 2 := by norm_num
      have h2 : (2.0 : ℝ) = 2 := by norm_num
      have h1 : (1.0 : ℝ) = 1 := by norm_num
      have h18 : (18.0 : ℝ) = 18 := by norm_num
      simp only [c, ofF_real, recip_real, powi_real, dexpm1_real, h5, h2, h1, h18]
      have ek : r a * r a / (r a + r a) * (n2 * (-n3 + 1)⁻¹ * 2) = n2 * (-n3 + 1)⁻¹ * r a := by
        field_simp
        ring
      have es : 1 / 2 * (p.sigma a + p.sigma a) = p.sigma a := by ring
      rw [ek, es]
      ring
    rw [hstr]
    simp only [assocFunctionalSingle]
    rw [← hr, e1, e2, e3, StateHD.new_moles]
    generalize (_ : ℝ) * rho a = X
    unfold assocSingle
    split
    · simp only [c, ofF_real]
      ring
    · simp only [c, ofF_real]
      ring

theorem cross_start {F D : Type} [F64 F] [DualNum F D] (p : PcSaftParameters n F) (nderiv : ℕ)
    (solveF : Solver p.assoc_comp.length F) (solveD : Solver p.assoc_comp.length D) (T : D)
    (density r : Fin n → D) (n2 n3i xi : D) (N : ℕ) (tol : F) :
    (crossAssociationDensity p nderiv solveF solveD T density r n2 n3i xi N tol (some fun _ => 0.2)).1
      = (crossAssociationDensity p nderiv solveF solveD T density r n2 n3i xi N tol none).1 := by
  unfold crossAssociationDensity
  split
  · rfl
  · simp only [Option.getD_some, Option.getD_none]
    split
    · rfl
    · split <;> rfl

/-- C35: several associating components.  At the first point of the grid the functional's solver is
called with the arguments of the equation of state, so the energies (or the errors) agree. -/
theorem C35_cross_association_bulk (p : PcSaftParameters n ℝ) (T : ℝ) (hn : 0 < n)
    (hd : ∀ i, hsDiameter p T i ≠ 0) (la : LinAlg ℝ ℝ) (N : ℕ) (tol : ℝ) (dim : ℕ) (rho : Fin n → ℝ)
    (V : ℝ) (hV : V ≠ 0) (hl : p.assoc_comp.length ≠ 1) :
    let s := StateHD.new T V (fun i => V * rho i)
    (∀ phi, crossAssociation p N tol la.nderiv (la.solveF _) (la.solveD _) s = .ok phi →
      associationFunctional la p N tol T [(associationWeightFunctions p T).bulkRows dim rho]
        = .ok (.ok [phi / V]))
    ∧ (∀ e, crossAssociation p N tol la.nderiv (la.solveF _) (la.solveD _) s = .error e →
      ∃ e', associationFunctional la p N tol T [(associationWeightFunctions p T).bulkRows dim rho]
        = .ok (.error e')) := by
  intro s
  set r := fun i => hsDiameter p T i * c (0.5 : ℝ) with hr
  obtain ⟨e1, e2, e3⟩ := assoc_bulk_densities p r rho dim (packingFraction p.m rho r)
  have hfun : associationFunctional la p N tol T [(associationWeightFunctions p T).bulkRows dim rho]
      = .ok (assocFunctionalCrossGrid la p N tol T (fun _ => 0.2)
        [⟨rho, List.replicate dim 0, packingFraction p.m rho r⟩]) := by
    unfold associationFunctional
    rw [List.mapM_cons, List.mapM_nil, assocDecode_bulk p T hn hd]
    simp only [bind, Except.bind, pure, Except.pure]
    split
    · rename_i b hb
      exact absurd (by rw [hb]; rfl) hl
    · rfl
  rw [hfun]
  have hpt : (assocFunctionalCrossPoint la p N tol T ⟨rho, List.replicate dim 0, packingFraction p.m rho r⟩
      (fun _ => 0.2)).1 = (crossAssociationDensity p la.nderiv (la.solveF _) (la.solveD _) T rho r
        (assocN2 p.m rho r) (DualNum.recip (-(packingFraction p.m rho r) + c (1.0 : ℝ))) (c (1.0 : ℝ)) N tol
        none).1 := by
    rw [← cross_start]
    unfold assocFunctionalCrossPoint
    simp only
    rw [← hr, e1, e2, e3]
  have hgrid : ∀ (q : AssocDensities n ℝ), (∀ phi, (assocFunctionalCrossPoint la p N tol T q (fun _ => 0.2)).1 = .ok phi →
      assocFunctionalCrossGrid la p N tol T (fun _ => 0.2) [q] = .ok [phi])
      ∧ (∀ e, (assocFunctionalCrossPoint la p N tol T q (fun _ => 0.2)).1 = .error e →
      assocFunctionalCrossGrid la p N tol T (fun _ => 0.2) [q] = .error e) := by
    intro q
    constructor
    · intro phi h
      unfold assocFunctionalCrossGrid
      generalize assocFunctionalCrossPoint la p N tol T q (fun _ => 0.2) = out at *
      obtain ⟨o1, o2⟩ := out
      simp only at h
      subst h
      simp [assocFunctionalCrossGrid]
    · intro e h
      unfold assocFunctionalCrossGrid
      generalize assocFunctionalCrossPoint la p N tol T q (fun _ => 0.2) = out at *
      obtain ⟨o1, o2⟩ := out
      simp only at h
      subst h
      simp
  have hp := C30_panic p N tol la.nderiv (la.solveF _) (la.solveD _) s
  simp only at hp
  have hsd : s.partial_density = rho := state_of_density T V hV rho
  have hst : s.temperature = T := rfl
  have hsv : s.volume = V := rfl
  rw [hsd, hst, hsv, ← hr, ← hpt] at hp
  match hq : (assocFunctionalCrossPoint la p N tol T ⟨rho, List.replicate dim 0, packingFraction p.m rho r⟩
      (fun _ => 0.2)).1 with
  | .ok a =>
    have h1 := hp.1 a hq
    rw [(hgrid _).1 a hq, h1]
    refine ⟨fun phi h => ?_, fun e h => ?_⟩
    · simp only [Except.ok.injEq] at h
      rw [← h]
      field_simp
    · simp at h
  | .error e =>
    have h1 := hp.2.1 ⟨e, hq⟩
    rw [(hgrid _).2 e hq, h1]
    refine ⟨fun phi h => ?_, fun e' _ => ⟨e, rfl⟩⟩
    simp at h

end PcSaft.Props
