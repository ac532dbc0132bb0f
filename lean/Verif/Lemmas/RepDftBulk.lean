import Verif.Props.DftDerivatives
import Verif.Props.DftMixtureTotal

/-! # The functional in a homogeneous fluid preserves representations -/

open Filter Topology

namespace PcSaft
open Props Spec
variable {F D X : Type} [F64 F] [DualNum F D] [TopologicalSpace X] {n : ℕ}

/-! ### Rows of the weighted densities in a homogeneous fluid, for all number types -/

/-- normalised weight times density -/
def normalised (s : WeightFunctionShape) (r rho : D) : D :=
  DualNum.recip (shapeIntegral s r) * shapeIntegral s r * rho

theorem chain_bulkRows (p : PcSaftParameters n F) (T : D) (dim : ℕ) (rho : Fin n → D) :
    (hardChainWeightFunctions p T true).bulkRows dim rho
      = chainRows rho (fun i => normalised .Delta (hsDiameter p T i) (rho i))
          (sumFin fun i => c (p.m i) / (hsDiameter p T i * c 8.0) * shapeIntegral .Theta (hsDiameter p T i) * rho i)
          (sumFin fun i => c (p.m i / 8.0) * shapeIntegral .Theta (hsDiameter p T i) * rho i) := by
  simp [WeightFunctionInfo.bulkRows, WeightFunctionInfo.rows, hardChainWeightFunctions, WeightFunctionInfo.add,
    WeightFunctionInfo.new, WeightFunction.newScaled, bulkValues, WeightFunction.bulkWeight, chainRows, normalised]

theorem attractive_bulkRows (p : PcSaftParameters n F) (psi : F) (T : D) (dim : ℕ) (rho : Fin n → D) :
    (attWeightFunctions p psi T).bulkRows dim rho
      = List.ofFn (fun i => normalised .Theta (hsDiameter p T i * c psi) (rho i)) := by
  simp [WeightFunctionInfo.bulkRows, WeightFunctionInfo.rows, attWeightFunctions, WeightFunctionInfo.add,
    WeightFunctionInfo.new, WeightFunction.newScaled, bulkValues, WeightFunction.bulkWeight, normalised]

theorem association_bulkRows (p : PcSaftParameters n F) (T : D) (dim : ℕ) (rho : Fin n → D) :
    (associationWeightFunctions p T).bulkRows dim rho
      = assocRows dim (fun i => normalised .Delta (hsDiameter p T i * c 0.5) (rho i)) (fun _ _ => c (0.0 : F))
          (sumFin fun i => c (p.m i) * shapeIntegral .Theta (hsDiameter p T i * c 0.5) * rho i) := by
  simp [WeightFunctionInfo.bulkRows, WeightFunctionInfo.rows, associationWeightFunctions, WeightFunctionInfo.add,
    WeightFunctionInfo.new, WeightFunction.newScaled, bulkValues, WeightFunction.bulkWeight, normalised, assocRows]

theorem shapeIntegral_pos {s : WeightFunctionShape} (hs : s ≠ .DeltaVec) {r : ℝ} (hr : 0 < r) :
    (0 : ℝ) < shapeIntegral s r := by
  have hpi := Real.pi_pos
  cases s with
  | Theta =>
    simp only [shapeIntegral, c, ofF_real, dpowi_real, pi_real]
    positivity
  | Delta =>
    simp only [shapeIntegral, c, ofF_real, dpowi_real, pi_real]
    positivity
  | DeltaVec => exact absurd rfl hs

theorem normalised_real {s : WeightFunctionShape} (hs : s ≠ .DeltaVec) {r : ℝ} (hr : 0 < r) (rho : ℝ) :
    normalised s r rho = rho := by
  rw [normalised, recip_real, inv_mul_cancel₀ (shapeIntegral_pos hs hr).ne', one_mul]

section model
variable {x0 : X} {emb : ℝ → F → Prop} {ρ : Rep x0 emb D} (le : LawfulEmb emb)
include le

theorem rep_shapeIntegral (s : WeightFunctionShape) {r : X → ℝ} {rd : D} (hr : ρ.R r rd) :
    ρ.R (fun x => shapeIntegral s (r x)) (shapeIntegral s rd) := by
  cases s with
  | Theta =>
    have := CR.div le (CR.sci le 40 true 1) (CR.sci le 30 true 1) (by norm_num)
    unfold shapeIntegral
    rep
  | Delta =>
    unfold shapeIntegral
    rep
  | DeltaVec => exact ρ.constOf (CR.sci le _ _ _)

theorem rep_normalised {s : WeightFunctionShape} (hs : s ≠ .DeltaVec) {r rho : X → ℝ} {rd rhod : D} (hr : ρ.R r rd)
    (hrho : ρ.R rho rhod) (h0 : 0 < r x0) : ρ.R (fun x => normalised s (r x) (rho x)) (normalised s rd rhod) := by
  have h := rep_shapeIntegral le s hr
  exact ρ.mul (ρ.mul (ρ.recip' h (shapeIntegral_pos hs h0).ne') h) hrho

variable {p : PcSaftParameters n ℝ} {q : PcSaftParameters n F} (hp : ParamRel emb p q) {T : X → ℝ} {Td : D}
  (hT : ρ.R T Td) (hT0 : T x0 ≠ 0) {rho : Fin n → X → ℝ} {rhod : Fin n → D} (hrho : ∀ i, ρ.R (rho i) (rhod i))
  (hd : ∀ i, 0 < hsDiameter p (T x0) i)
include hp hT hT0 hrho hd

theorem rep_chain_bulk (dim : ℕ) (hm : ∀ i, 0 < p.m i) (h0 : ∀ i, 0 < rho i x0)
    (h1 : Spec.packingFraction p (T x0) 1 (fun i => rho i x0) < 1) :
    ∃ (A : X → ℝ) (d : D),
      (∀ x, chainFunctional p (T x) ((hardChainWeightFunctions p (T x) true).bulkRows dim (fun i => rho i x)) = .ok (A x))
      ∧ chainFunctional q Td ((hardChainWeightFunctions q Td true).bulkRows dim rhod) = .ok d ∧ ρ.R A d := by
  have hdd := rep_hsDiameter le hp hT hT0
  simp only [chain_bulkRows]
  refine rep_chainFunctional le hp hT hT0 hrho (fun i => rep_normalised le (by simp) (hdd i) (hrho i) (hd i))
    (ρ.sumFin le fun i => ?_) (ρ.sumFin le fun i => ?_) hd (fun i => Or.inl ?_) ?_ ?_
  · have h1 := rep_shapeIntegral le .Theta (hdd i)
    have h2 := hrho i
    have h3 := hp.m i
    refine ρ.mul (ρ.mul (ρ.div (ρ.constOf h3) (ρ.mul (hdd i) (ρ.constOf (CR.sci le 80 true 1))) ?_) h1) h2
    exact mul_ne_zero (hd i).ne' (by norm_num [c])
  · have h1 := rep_shapeIntegral le .Theta (hdd i)
    have h2 := hrho i
    exact ρ.mul (ρ.mul (ρ.constOf (CR.div le (hp.m i) (CR.sci le 80 true 1) (by norm_num))) h1) h2
  · rw [normalised_real (by simp) (hd i)]
    exact (h0 i).ne'
  · rw [sumFin_real]
    refine Finset.sum_nonneg fun i _ => ?_
    have h2 := shapeIntegral_pos (s := .Theta) (by simp) (hd i)
    have h3 := (hm i).le
    have h4 := (h0 i).le
    have h5 := (hd i).le
    simp only [c, ofF_real]
    positivity
  · refine lt_of_eq_of_lt ?_ h1
    have e4 : (4.0 : ℝ) = 4 := by norm_num
    have e3 : (3.0 : ℝ) = 3 := by norm_num
    have e8 : (8.0 : ℝ) = 8 := by norm_num
    simp only [sumFin_real, Spec.packingFraction, shapeIntegral, c, ofF_real, dpowi_real, pi_real, hsDiameter_eq_spec,
      e4, e3, e8]
    refine Finset.sum_congr rfl fun i _ => ?_
    ring

theorem rep_attractive_bulk (dim : ℕ) (hm : ∀ i, 0 < p.m i) (hs : ∀ i j, p.sigma_ij i j ≠ 0)
    (hs1 : ∀ i, p.sigma i ≠ 0) (h0 : ∀ i, 0 ≤ rho i x0) (hne : Apart x0 (∑ i, rho i x0) f64EPSILON)
    (h1 : Spec.packingFraction p (T x0) 1 (fun i => rho i x0) < 1) {cond : ℝ → ℝ → Prop} (hpade : PadeRule ρ cond)
    (hreg : DftPolarRegular cond p (T x0) (fun i => rho i x0)) :
    ∃ (A : X → ℝ) (d : D),
      (∀ x, attractiveFunctional p (T x) ((attWeightFunctions p PSI_DFT (T x)).bulkRows dim (fun i => rho i x))
        = .ok (A x))
      ∧ attractiveFunctional q Td ((attWeightFunctions q PSI_DFT Td).bulkRows dim rhod) = .ok d ∧ ρ.R A d := by
  have hpsi : (0 : ℝ) < PSI_DFT := by norm_num [PSI_DFT]
  have hr0 : ∀ i, 0 < hsDiameter p (T x0) i * (c PSI_DFT : ℝ) := fun i => mul_pos (hd i) hpsi
  have hr : ∀ i, ρ.R (fun x => hsDiameter p (T x) i * (c PSI_DFT : ℝ)) (hsDiameter q Td i * c PSI_DFT) := fun i =>
    ρ.mul (rep_hsDiameter le hp hT hT0 i) (ρ.constOf (CR.sci le _ _ _))
  simp only [attractive_bulkRows]
  have e : ∀ i, normalised .Theta (hsDiameter p (T x0) i * (c PSI_DFT : ℝ)) (rho i x0) = rho i x0 := fun i =>
    normalised_real (by simp) (hr0 i) _
  refine rep_attractiveFunctional le hp hT hT0 (fun i => rep_normalised le (by simp) (hr i) (hrho i) (hr0 i)) hm hs hs1
    hd ?_ ?_ ?_ hpade ?_
  · simpa only [e] using h0
  · simpa only [e] using hne
  · simp only [e]
    rw [dftEta_packing]
    exact h1
  · simpa only [e] using hreg

omit [F64 F] [DualNum F D] [TopologicalSpace X] le hp hT hT0 hrho hd in
theorem zero_fold (f : (Fin n → ℝ) → ℝ) (h0 : f (fun _ => c (0.0 : ℝ)) = 0) (dim : ℕ) :
    ((List.range dim).map (fun _ _ => (c (0.0 : ℝ) : ℝ))).foldl (fun acc v => acc + f v * f v) (c (0.0 : ℝ)) = 0 := by
  have : ∀ (k : ℕ) (a : ℝ), (List.replicate k (fun _ : Fin n => (c (0.0 : ℝ) : ℝ))).foldl
      (fun acc v => acc + f v * f v) a = a := by
    intro k
    induction k with
    | zero => simp
    | succ k ih =>
      intro a
      rw [List.replicate_succ, List.foldl_cons, ih, h0]
      ring
  rw [List.map_const', this]
  norm_num [c]

/-- one associating component: the branches for dilute regions do not matter in a homogeneous fluid -/
theorem rep_association_bulk (dim : ℕ) (a : Fin n) (hm : ∀ i, 0 < p.m i) (h0 : ∀ i, 0 ≤ rho i x0)
    (h1 : Spec.packingFraction p (T x0) 1 (fun i => rho i x0) < 1)
    (hstr : Apart x0 (dftDeltaRho p (T x0) a ⟨fun i => rho i x0, List.replicate dim 0,
      Spec.packingFraction p (T x0) 1 (fun i => rho i x0)⟩) (Real.sqrt f64EPSILON))
    (hsites : SitesPos (dftDeltaRho p (T x0) a ⟨fun i => rho i x0, List.replicate dim 0,
      Spec.packingFraction p (T x0) 1 (fun i => rho i x0)⟩) (p.na a) (p.nb a)) (ha : p.assoc_comp = [a])
    (la : LinAlg ℝ ℝ) (laD : LinAlg F D) (max_iter : ℕ) (tol : ℝ) (tol' : F) :
    ∃ (A : X → ℝ) (d : D),
      (∀ x, associationFunctional la p max_iter tol (T x)
        [(associationWeightFunctions p (T x)).bulkRows dim (fun i => rho i x)] = .ok (.ok [A x]))
      ∧ associationFunctional laD q max_iter tol' Td [(associationWeightFunctions q Td).bulkRows dim rhod]
        = .ok (.ok [d]) ∧ ρ.R A d := by
  have hr := rep_radius le hp hT hT0
  have hr0 : ∀ i, 0 < hsDiameter p (T x0) i * (c 0.5 : ℝ) := fun i => mul_pos (hd i) (by norm_num [c])
  have hn0 := fun i => rep_normalised le (s := .Delta) (by simp) (hr i) (hrho i) (hr0 i)
  have hn3 : ρ.R (fun x => sumFin fun i => c (p.m i) * shapeIntegral .Theta (hsDiameter p (T x) i * c 0.5) * rho i x)
      (sumFin fun i => c (q.m i) * shapeIntegral .Theta (hsDiameter q Td i * c 0.5) * rhod i) :=
    ρ.sumFin le fun i => ρ.mul (ρ.mul (ρ.constOf (hp.m i)) (rep_shapeIntegral le .Theta (hr i))) (hrho i)
  have e0 : (fun i => normalised .Delta (hsDiameter p (T x0) i * (c 0.5 : ℝ)) (rho i x0)) = fun i => rho i x0 :=
    funext fun i => normalised_real (by simp) (hr0 i) _
  have e3 : (sumFin fun i => c (p.m i) * shapeIntegral .Theta (hsDiameter p (T x0) i * (c 0.5 : ℝ)) * rho i x0)
      = Spec.packingFraction p (T x0) 1 (fun i => rho i x0) := by
    have e4 : (4.0 : ℝ) = 4 := by norm_num
    have e3 : (3.0 : ℝ) = 3 := by norm_num
    have e8 : (0.5 : ℝ) = 1 / 2 := by norm_num
    simp only [sumFin_real, Spec.packingFraction, shapeIntegral, c, ofF_real, dpowi_real, pi_real, hsDiameter_eq_spec,
      e4, e3, e8]
    refine Finset.sum_congr rfl fun i _ => ?_
    ring
  have ev : (List.range dim).map (fun _ _ => (c (0.0 : ℝ) : ℝ)) = List.replicate dim (0 : Fin n → ℝ) := by
    rw [List.map_const', List.length_range]
    congr 1
    funext i
    norm_num [c]
  set wf : X → AssocDensities n ℝ := fun x => ⟨fun i => normalised .Delta (hsDiameter p (T x) i * c 0.5) (rho i x),
    (List.range dim).map (fun _ _ => c (0.0 : ℝ)),
    sumFin fun i => c (p.m i) * shapeIntegral .Theta (hsDiameter p (T x) i * c 0.5) * rho i x⟩ with hwf
  set wd : AssocDensities n D := ⟨fun i => normalised .Delta (hsDiameter q Td i * c 0.5) (rhod i),
    (List.range dim).map (fun _ _ => c (0.0 : F)),
    sumFin fun i => c (q.m i) * shapeIntegral .Theta (hsDiameter q Td i * c 0.5) * rhod i⟩ with hwd
  have hw : DensitiesRel ρ wf wd := ⟨hn0, ⟨List.range dim, fun _ _ _ => c (0.0 : ℝ), fun _ _ => c (0.0 : F),
    fun _ => rfl, rfl, fun _ _ => ρ.constOf (CR.sci le _ _ _)⟩, hn3⟩
  have hwf0 : wf x0 = ⟨fun i => rho i x0, List.replicate dim 0, Spec.packingFraction p (T x0) 1 (fun i => rho i x0)⟩ := by
    rw [hwf]
    dsimp only
    rw [e0, e3, ev]
  have hwf' : ∀ x, wf x = ⟨(wf x).n0i, List.replicate dim 0, (wf x).n3⟩ := fun x => by
    rw [hwf]
    dsimp only
    rw [ev]
  have hn2 := rep_assocN2Total le hp hr hw
  have hcut : CR emb (N0_CUTOFF : ℝ) (N0_CUTOFF : F) := CR.sci le _ _ _
  have hxi : ρ.R (fun x => assocXi p (fun i => hsDiameter p (T x) i * c 0.5) (wf x))
      (assocXi q (fun i => hsDiameter q Td i * c 0.5) wd) := by
    have hone : ρ.R (fun _ => (c (1.0 : ℝ) : ℝ)) (assocXi q (fun i => hsDiameter q Td i * c 0.5) wd) := by
      have hs := ρ.sumFin le hw.n0i
      have hlt : ∑ i, rho i x0 < (N0_CUTOFF : ℝ) → F64.lt (DualNum.re (sumFin wd.n0i)) N0_CUTOFF = true := by
        intro h
        have h' : sumFin (fun i => (wf x0).n0i i) < (N0_CUTOFF : ℝ) := by
          rw [sumFin_real, hwf0]
          exact h
        rw [le.lt (ρ.re hs) hcut h'.ne]
        exact decide_eq_true h'
      unfold assocXi
      dsimp only
      split_ifs with hc
      · exact ρ.constOf (CR.sci le _ _ _)
      · have hc' : (N0_CUTOFF : ℝ) ≤ ∑ i, (wf x0).n0i i := by
          rw [hwf0]
          exact not_lt.mp fun h => hc (hlt h)
        have hpos := ((C55_empty_regions p (fun i => hsDiameter p (T x0) i * (c 0.5 : ℝ)) (wf x0) hm hr0
          (by rw [hwf0]; exact h0)).2.2.2 hc').1
        have hsum : ρ.R (fun _ => (0 : ℝ)) (wd.n2v.foldl (fun acc v => acc + sumFin v * sumFin v) (c (0.0 : F))) := by
          have := foldl_rel ρ.R (fun (_ : ℕ) (_ : X) acc => acc + sumFin (fun _ : Fin n => (c (0.0 : ℝ) : ℝ))
              * sumFin (fun _ : Fin n => (c (0.0 : ℝ) : ℝ)))
            (fun _ acc => acc + sumFin (fun _ : Fin n => (c (0.0 : F) : D)) * sumFin (fun _ : Fin n => (c (0.0 : F) : D)))
            (fun d f e hh => ρ.add hh (ρ.mul (ρ.sumFin le fun _ => ρ.constOf (CR.sci le _ _ _))
              (ρ.sumFin le fun _ => ρ.constOf (CR.sci le _ _ _)))) (List.range dim) _ _ (ρ.constOf (CR.sci le 0 true 1))
          rw [hwd]
          simp only [List.foldl_map]
          refine ρ.congr this (.of_forall fun x => ?_)
          have hz := zero_fold (n := n) (fun v => sumFin v) (by simp [c]; norm_num) dim
          rw [List.foldl_map] at hz
          exact hz
        refine ρ.congr (ρ.add (ρ.div hsum (ρ.neg (ρ.mul hn2 hn2)) (neg_ne_zero.mpr hpos.ne'))
          (ρ.constOf (CR.sci le 10 true 1))) (.of_forall fun x => ?_)
        simp
    refine ρ.congr hone (.of_forall fun x => ?_)
    dsimp only
    rw [hwf' x]
    exact ((assoc_bulk_densities p _ _ dim _).2.1).symm
  have hrho0 : ρ.R (fun x => assocRho0 p (fun i => hsDiameter p (T x) i * c 0.5) (wf x) a)
      (assocRho0 q (fun i => hsDiameter q Td i * c 0.5) wd a) := by
    have hone : ρ.R (fun x => (wf x).n0i a) (assocRho0 q (fun i => hsDiameter q Td i * c 0.5) wd a) := by
      have hs := hw.n0i a
      have hlt : rho a x0 < (N0_CUTOFF : ℝ) → F64.lt (DualNum.re (wd.n0i a)) N0_CUTOFF = true := by
        intro h
        have h' : (wf x0).n0i a < (N0_CUTOFF : ℝ) := by
          rw [hwf0]
          exact h
        rw [le.lt (ρ.re hs) hcut h'.ne]
        exact decide_eq_true h'
      unfold assocRho0
      dsimp only
      split_ifs with hc
      · exact hs
      · have hc' : (N0_CUTOFF : ℝ) ≤ (wf x0).n0i a := by
          rw [hwf0]
          exact not_lt.mp fun h => hc (hlt h)
        have hpos := ((C55_empty_regions p (fun i => hsDiameter p (T x0) i * (c 0.5 : ℝ)) (wf x0) hm hr0
          (by rw [hwf0]; exact h0)).2.2.1 a hc').1
        have hsum : ρ.R (fun _ => (0 : ℝ)) (wd.n2v.foldl (fun acc v => acc + v a * v a) (c (0.0 : F))) := by
          have := foldl_rel ρ.R (fun (_ : ℕ) (_ : X) acc => acc + (c (0.0 : ℝ) : ℝ) * (c (0.0 : ℝ) : ℝ))
            (fun _ acc => acc + (c (0.0 : F) : D) * (c (0.0 : F) : D))
            (fun d f e hh => ρ.add hh (ρ.mul (ρ.constOf (CR.sci le _ _ _)) (ρ.constOf (CR.sci le _ _ _))))
              (List.range dim) _ _ (ρ.constOf (CR.sci le 0 true 1))
          rw [hwd]
          simp only [List.foldl_map]
          refine ρ.congr this (.of_forall fun x => ?_)
          have hz := zero_fold (n := n) (fun v => v a) (by norm_num [c]) dim
          rw [List.foldl_map] at hz
          exact hz
        have hn2a := rep_assocN2i le hp hr hw a
        refine ρ.congr (ρ.mul (ρ.add (ρ.div hsum (ρ.neg (ρ.mul hn2a hn2a)) (neg_ne_zero.mpr hpos.ne'))
          (ρ.constOf (CR.sci le 10 true 1))) hs) (.of_forall fun x => ?_)
        norm_num [c]
    refine ρ.congr hone (.of_forall fun x => ?_)
    dsimp only
    conv_rhs => rw [hwf' x]
    exact (congrFun (assoc_bulk_densities p _ _ dim _).1 a).symm
  have hdelta := rep_dftDeltaRho_of le hp hT hT0 hw a hxi hrho0 (by rw [hwf0]; exact h1.ne)
  have key := rep_dftSites le hdelta hrho0 (hp.na a) (hp.nb a) (hp.nb_pos a)
    (by rw [hwf0]; exact hstr) (by rw [hwf0]; exact hsites)
  refine ⟨_, _, fun x => ?_, ?_, key⟩
  · rw [association_bulkRows]
    exact associationFunctional_rows la p ha max_iter tol (T x) [()] dim (fun _ => _) (fun _ => _) (fun _ => _)
  · rw [association_bulkRows]
    exact associationFunctional_rows laD q (hp.assoc_comp.trans ha) max_iter tol' Td [()] dim (fun _ => _) (fun _ => _)
      (fun _ => _)

omit hd in
/-- fundamental measure theory -/
theorem rep_fmtBulk (h0 : 0 < Spec.packingFraction p (T x0) 1 (fun i => rho i x0))
    (h1 : Spec.packingFraction p (T x0) 1 (fun i => rho i x0) < 1) :
    ρ.R (fun x => fmtBulk p.chainLength (p.fmtDiameter (T x)) (fun i => rho i x))
      (fmtBulk q.chainLength (q.fmtDiameter Td) rhod) := by
  have hr := rep_radius le hp hT hT0
  have hm : ∀ i, CR emb (p.chainLength i) (q.chainLength i) := hp.m
  have hn0 := ρ.sumFin le fun i => ρ.mul (hrho i) (ρ.constOf (hm i))
  have hn1 := ρ.sumFin le fun i => ρ.mul (ρ.mul (hrho i) (hr i)) (ρ.constOf (hm i))
  have hn2 : ρ.R (fun x => sumFin fun i => rho i x * DualNum.powi (hsDiameter p (T x) i * (c 0.5 : ℝ)) 2
        * c (4.0 * F64.pi * p.chainLength i))
      (sumFin fun i => rhod i * DualNum.powi (hsDiameter q Td i * c 0.5) 2 * c (4.0 * F64.pi * q.chainLength i)) :=
    ρ.sumFin le fun i => ρ.mul (ρ.mul (hrho i) (ρ.powi (hr i) 2))
      (ρ.constOf (CR.mul le (CR.mul le (CR.sci le _ _ _) (CR.pi le)) (hm i)))
  have hn3 : ρ.R (fun x => sumFin fun i => rho i x * DualNum.powi (hsDiameter p (T x) i * (c 0.5 : ℝ)) 3
        * c (4.0 / 3.0 * F64.pi * p.chainLength i))
      (sumFin fun i => rhod i * DualNum.powi (hsDiameter q Td i * c 0.5) 3 * c (4.0 / 3.0 * F64.pi * q.chainLength i)) :=
    ρ.sumFin le fun i => ρ.mul (ρ.mul (hrho i) (ρ.powi (hr i) 3))
      (ρ.constOf (CR.mul le (CR.mul le (CR.div le (CR.sci le _ _ _) (CR.sci le 30 true 1) (by norm_num)) (CR.pi le)) (hm i)))
  have e3 : (sumFin fun i => rho i x0 * DualNum.powi (hsDiameter p (T x0) i * (c 0.5 : ℝ)) 3
        * c (4.0 / 3.0 * F64.pi * p.chainLength i)) = Spec.packingFraction p (T x0) 1 (fun i => rho i x0) := by
    have e4 : (4.0 : ℝ) = 4 := by norm_num
    have e3 : (3.0 : ℝ) = 3 := by norm_num
    have e8 : (0.5 : ℝ) = 1 / 2 := by norm_num
    simp only [sumFin_real, Spec.packingFraction, PcSaftParameters.chainLength, c, ofF_real, dpowi_real, pi_real,
      hsDiameter_eq_spec, e4, e3, e8]
    refine Finset.sum_congr rfl fun i _ => ?_
    ring
  have e1 : (1.0 : ℝ) = 1 := by norm_num
  have hw := ρ.add (ρ.neg hn3) (ρ.constOf (CR.sci le 10 true 1))
  have hw0 : -(sumFin fun i => rho i x0 * DualNum.powi (hsDiameter p (T x0) i * (c 0.5 : ℝ)) 3
        * c (4.0 / 3.0 * F64.pi * p.chainLength i)) + (c 1.0 : ℝ) ≠ 0 := by
    rw [e3]
    simp only [c, ofF_real, e1]
    intro h
    linarith
  have hl : ρ.R (fun x => DualNum.ln1p (-(sumFin fun i => rho i x * DualNum.powi (hsDiameter p (T x) i * (c 0.5 : ℝ)) 3
        * c (4.0 / 3.0 * F64.pi * p.chainLength i))))
      (DualNum.ln1p (-(sumFin fun i => rhod i * DualNum.powi (hsDiameter q Td i * c 0.5) 3
        * c (4.0 / 3.0 * F64.pi * q.chainLength i)))) :=
    ρ.ln1p (ρ.neg hn3) (by rw [e3]; linarith)
  refine ρ.add (ρ.sub (ρ.div (ρ.mul hn1 hn2) hw hw0) (ρ.mul hn0 hl))
    (ρ.div (ρ.mul (ρ.powi hn2 3) (ρ.add hn3 (ρ.mul (ρ.powi hw 2) hl)))
      (ρ.mul (ρ.mul (ρ.powi hn3 2) (ρ.powi hw 2)) (ρ.constOf (CR.mul le (CR.sci le _ _ _) (CR.pi le)))) ?_)
  refine mul_ne_zero (mul_ne_zero (pow_ne_zero _ ?_) (pow_ne_zero _ hw0)) ?_
  · refine ne_of_eq_of_ne e3 h0.ne'
  · have := Real.pi_ne_zero
    simp only [c, ofF_real, pi_real]
    norm_num

end model

end PcSaft
