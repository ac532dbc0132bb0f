import Verif.Lemmas.RepDftBulk
import Verif.Props.DftTotal

/-! # The functional for pure components in a homogeneous fluid preserves representations -/

open Filter Topology

namespace PcSaft
open Props Spec
variable {F D X : Type} [F64 F] [DualNum F D] [TopologicalSpace X]

theorem pureFmt_bulkRows (p : PcSaftParameters 1 F) (T : D) (dim : ℕ) (rho : Fin 1 → D) :
    (pureFmtWeightFunctions p T).bulkRows dim rho
      = c (p.m 0) * shapeIntegral .Delta (hsDiameter p T 0 * c 0.5) * rho 0
        :: c (p.m 0) * shapeIntegral .Theta (hsDiameter p T 0 * c 0.5) * rho 0
        :: (List.range dim).map (fun _ => c (0.0 : F)) := by
  simp [WeightFunctionInfo.bulkRows, WeightFunctionInfo.rows, pureFmtWeightFunctions, WeightFunctionInfo.extend,
    WeightFunctionInfo.new, WeightFunctionInfo.add, bulkValues, WeightFunction.bulkWeight]
  rw [← List.map_eq_flatMap, List.map_const', List.length_range]

theorem pureChain_bulkRows (p : PcSaftParameters 1 F) (T : D) (dim : ℕ) (rho : Fin 1 → D) :
    (pureChainWeightFunctions p T).bulkRows dim rho
      = [rho 0, normalised .Delta (hsDiameter p T 0) (rho 0),
          c (p.m 0 / 8.0) * shapeIntegral .Theta (hsDiameter p T 0) * rho 0] := by
  simp [WeightFunctionInfo.bulkRows, WeightFunctionInfo.rows, pureChainWeightFunctions, WeightFunctionInfo.add,
    WeightFunctionInfo.new, WeightFunction.newScaled, bulkValues, WeightFunction.bulkWeight, normalised]

theorem pureAtt_bulkRows (p : PcSaftParameters 1 F) (psi : F) (T : D) (dim : ℕ) (rho : Fin 1 → D) :
    (pureAttWeightFunctions p psi T).bulkRows dim rho
      = [normalised .Theta (hsDiameter p T 0 * c psi) (rho 0)] := by
  simp [WeightFunctionInfo.bulkRows, WeightFunctionInfo.rows, pureAttWeightFunctions, WeightFunctionInfo.add,
    WeightFunctionInfo.new, WeightFunction.newScaled, bulkValues, WeightFunction.bulkWeight, normalised]

theorem sumSq_range (dim : ℕ) : sumSq ((List.range dim).map fun _ => (c (0.0 : ℝ) : ℝ)) = 0 := by
  rw [List.map_const', List.length_range, show (c (0.0 : ℝ) : ℝ) = 0 by norm_num [c]]
  exact sumSq_zero dim

theorem pureEta_packing (p : PcSaftParameters 1 ℝ) (T : ℝ) (rho : Fin 1 → ℝ) :
    pureEta p T (rho 0) = Spec.packingFraction p T 1 rho := by
  have e6 : (6.0 : ℝ) = 6 := by norm_num
  simp only [pureEta, Spec.packingFraction, c, ofF_real, dpowi_real, pi_real, hsDiameter_eq_spec, e6, Fin.sum_univ_one]
  ring

/-- the association strength of the functional for pure components in a homogeneous fluid -/
theorem pure_bulk_strength (p : PcSaftParameters 1 ℝ) (T : ℝ) (rho : Fin 1 → ℝ) (hd : 0 < hsDiameter p T 0)
    (hm : 0 < p.m 0) (dim : ℕ) :
    pureDeltaRho p T (hsDiameter p T 0 * c 0.5) (c (p.m 0) * shapeIntegral .Delta (hsDiameter p T 0 * c (0.5 : ℝ)) * rho 0)
        (c (p.m 0) * shapeIntegral .Theta (hsDiameter p T 0 * c (0.5 : ℝ)) * rho 0)
        ((List.range dim).map fun _ => c (0.0 : ℝ))
      = stateDeltaRho p (StateHD.new T 1 rho) 0 := by
  have hpi := Real.pi_ne_zero
  have h5 : (0.5 : ℝ) = 1 / 2 := by norm_num
  have h2 : (2.0 : ℝ) = 2 := by norm_num
  have h1 : (1.0 : ℝ) = 1 := by norm_num
  have h18 : (18.0 : ℝ) = 18 := by norm_num
  have h4 : (4.0 : ℝ) = 4 := by norm_num
  have h3 : (3.0 : ℝ) = 3 := by norm_num
  have hm0 := hm.ne'
  set r := hsDiameter p T 0 * c (0.5 : ℝ) with hr
  have hr0 : r ≠ 0 := by
    simp only [hr, c, ofF_real, h5]
    positivity
  have hn2 : assocN2 p.m rho (fun i => hsDiameter p T i * c (0.5 : ℝ)) = c (p.m 0) * shapeIntegral .Delta r * rho 0 := by
    simp only [assocN2, sumFin_real, Finset.univ_unique, Fin.default_eq_zero, Finset.sum_singleton, c, ofF_real, pi_real,
      h4, shapeIntegral, dpowi_real, show hsDiameter p T 0 * (0.5 : ℝ) = r from rfl]
    ring
  have hn3 : stateEta p (StateHD.new T 1 rho) = c (p.m 0) * shapeIntegral .Theta r * rho 0 := by
    have : stateEta p (StateHD.new T 1 rho)
        = packingFraction p.m (StateHD.new T 1 rho).partial_density (fun i => hsDiameter p T i * c (0.5 : ℝ)) := rfl
    rw [this, StateHD.new_density]
    simp only [packingFraction, sumFin_real, Finset.univ_unique, Fin.default_eq_zero, Finset.sum_singleton, c, ofF_real,
      pi_real, h4, h3, shapeIntegral, dpowi_real, div_one, show hsDiameter p T 0 * (0.5 : ℝ) = r from rfl]
    ring
  have hxi : ∀ n2 : ℝ, pureXi p r n2 ((List.range dim).map fun _ => c (0.0 : ℝ)) = 1 := by
    intro n2
    unfold pureXi
    rw [sumSq_range]
    split_ifs <;> norm_num [c]
  have hrho0 : pureRho0 p r (c (p.m 0) * shapeIntegral .Delta r * rho 0) ((List.range dim).map fun _ => c (0.0 : ℝ))
      = rho 0 := by
    unfold pureRho0
    rw [hxi]
    simp only [c, ofF_real, pi_real, h4, shapeIntegral, dpowi_real]
    field_simp
  unfold pureDeltaRho stateDeltaRho
  dsimp only
  rw [hrho0, hxi, hn3, StateHD.new_density, StateHD.new_temperature]
  simp only [div_one]
  rw [hn2]
  generalize c (p.m 0) * shapeIntegral .Delta r * rho 0 = n2
  generalize c (p.m 0) * shapeIntegral .Theta r * rho 0 = n3
  simp only [associationStrength]
  rw [← hr]
  simp only [c, ofF_real, recip_real, powi_real, dexpm1_real, h5, h2, h1, h18]
  have ek : r * r / (r + r) * (n2 * (-n3 + 1)⁻¹ * 2) = n2 * (-n3 + 1)⁻¹ * r := by
    field_simp
    ring
  have es : 1 / 2 * (p.sigma 0 + p.sigma 0) = p.sigma 0 := by ring
  rw [ek, es]
  ring

section model
variable {x0 : X} {emb : ℝ → F → Prop} {ρ : Rep x0 emb D} (le : LawfulEmb emb)
include le
variable {p : PcSaftParameters 1 ℝ} {q : PcSaftParameters 1 F} (hp : ParamRel emb p q) {T : X → ℝ} {Td : D}
  (hT : ρ.R T Td) (hT0 : T x0 ≠ 0) {rho : Fin 1 → X → ℝ} {rhod : Fin 1 → D} (hrho : ∀ i, ρ.R (rho i) (rhod i))
  (hd : 0 < hsDiameter p (T x0) 0)
include hp hT hT0 hrho hd

theorem rep_pureChain_bulk (dim : ℕ) (h0 : 0 < rho 0 x0)
    (h1 : Spec.packingFraction p (T x0) 1 (fun i => rho i x0) < 1) :
    ∃ (A : X → ℝ) (d : D),
      (∀ x, pureChainFunctional p ((pureChainWeightFunctions p (T x)).bulkRows dim (fun i => rho i x)) = .ok (A x))
      ∧ pureChainFunctional q ((pureChainWeightFunctions q Td).bulkRows dim rhod) = .ok d ∧ ρ.R A d := by
  have hdd := rep_hsDiameter le hp hT hT0 0
  simp only [pureChain_bulkRows]
  refine rep_pureChainFunctional le hp (hrho 0) (rep_normalised le (by simp) hdd (hrho 0) hd)
    (ρ.mul (ρ.mul (ρ.constOf (CR.div le (hp.m 0) (CR.sci le 80 true 1) (by norm_num))) (rep_shapeIntegral le .Theta hdd))
      (hrho 0)) (Or.inl ?_) (lt_of_eq_of_lt ?_ h1)
  · rw [normalised_real (by simp) hd]
    exact h0.ne'
  · have e4 : (4.0 : ℝ) = 4 := by norm_num
    have e3 : (3.0 : ℝ) = 3 := by norm_num
    have e8 : (8.0 : ℝ) = 8 := by norm_num
    simp only [Spec.packingFraction, shapeIntegral, c, ofF_real, dpowi_real, pi_real, hsDiameter_eq_spec,
      e4, e3, e8, Fin.sum_univ_one]
    ring

theorem rep_pureAtt_bulk (dim : ℕ) (hm : 0 < p.m 0) (hs : p.sigma 0 ≠ 0) 
    (h0 : 0 ≤ Spec.packingFraction p (T x0) 1 (fun i => rho i x0))
    (h1 : Spec.packingFraction p (T x0) 1 (fun i => rho i x0) < 1) {cond : ℝ → ℝ → Prop} (hpade : PadeRule ρ cond)
    (hreg : PurePolarRegular cond p (T x0) (rho 0 x0)) :
    ∃ (A : X → ℝ) (d : D),
      (∀ x, pureAttFunctional p (T x) ((pureAttWeightFunctions p PSI_DFT (T x)).bulkRows dim (fun i => rho i x))
        = .ok (A x))
      ∧ pureAttFunctional q Td ((pureAttWeightFunctions q PSI_DFT Td).bulkRows dim rhod) = .ok d ∧ ρ.R A d := by
  have hpsi : (0 : ℝ) < PSI_DFT := by norm_num [PSI_DFT]
  have hr0 : 0 < hsDiameter p (T x0) 0 * (c PSI_DFT : ℝ) := mul_pos hd hpsi
  have hr := ρ.mul (rep_hsDiameter le hp hT hT0 0) (ρ.constOf (CR.sci le _ _ _ : CR emb PSI_DFT PSI_DFT))
  simp only [pureAtt_bulkRows]
  have e : normalised .Theta (hsDiameter p (T x0) 0 * (c PSI_DFT : ℝ)) (rho 0 x0) = rho 0 x0 :=
    normalised_real (by simp) hr0 _
  refine rep_pureAttFunctional le hp hT hT0 (rep_normalised le (by simp) hr (hrho 0) hr0) hm hs ?_ ?_ hpade ?_
  · rw [e]
    exact (pureEta_packing p (T x0) fun i => rho i x0).ge.trans' h0
  · rw [e]
    exact (pureEta_packing p (T x0) fun i => rho i x0).trans_lt h1
  · rw [e]
    exact hreg

theorem rep_pureFmt_bulk (v : FMTVersion) (hv : v ≠ .KierlikRosinberg) (dim : ℕ) (hm : 0 < p.m 0) (h0 : 0 < rho 0 x0)
    (hη : Apart x0 (Spec.packingFraction p (T x0) 1 (fun i => rho i x0)) N3_CUTOFF)
    (h1 : Spec.packingFraction p (T x0) 1 (fun i => rho i x0) < 1)
    (hstr : p.nassoc = 1 → Apart x0 (stateDeltaRho p (StateHD.new (T x0) 1 (fun i => rho i x0)) 0) (Real.sqrt f64EPSILON))
    (hsites : p.nassoc = 1 → SitesPos (stateDeltaRho p (StateHD.new (T x0) 1 (fun i => rho i x0)) 0) (p.na 0) (p.nb 0)) :
    ∃ (A : X → ℝ) (d : D),
      (∀ᶠ x in 𝓝 x0, pureFmtAssocFunctional p v (T x) [(pureFmtWeightFunctions p (T x)).bulkRows dim (fun i => rho i x)]
        = .ok (.ok [A x]))
      ∧ pureFmtAssocFunctional q v Td [(pureFmtWeightFunctions q Td).bulkRows dim rhod] = .ok (.ok [d]) ∧ ρ.R A d := by
  have e1 : (1.0 : ℝ) = 1 := by norm_num
  have hr := rep_radius le hp hT hT0 0
  have hr0 : 0 < hsDiameter p (T x0) 0 * (c 0.5 : ℝ) := mul_pos hd (by norm_num [c])
  have h2 := ρ.mul (ρ.mul (ρ.constOf (hp.m 0)) (rep_shapeIntegral le .Delta hr)) (hrho 0)
  have h3 := ρ.mul (ρ.mul (ρ.constOf (hp.m 0)) (rep_shapeIntegral le .Theta hr)) (hrho 0)
  have en3 : c (p.m 0) * shapeIntegral .Theta (hsDiameter p (T x0) 0 * c (0.5 : ℝ)) * rho 0 x0
      = Spec.packingFraction p (T x0) 1 (fun i => rho i x0) := by
    have e4 : (4.0 : ℝ) = 4 := by norm_num
    have e3 : (3.0 : ℝ) = 3 := by norm_num
    have e8 : (0.5 : ℝ) = 1 / 2 := by norm_num
    simp only [Spec.packingFraction, shapeIntegral, c, ofF_real, dpowi_real, pi_real, hsDiameter_eq_spec,
      e4, e3, e8, Fin.sum_univ_one]
    ring
  have hn2pos : 0 < c (p.m 0) * shapeIntegral .Delta (hsDiameter p (T x0) 0 * c (0.5 : ℝ)) * rho 0 x0 :=
    mul_pos (mul_pos hm (shapeIntegral_pos (by simp) hr0)) h0
  have hz : ∀ _ : ℕ, ρ.R (fun _ => (c (0.0 : ℝ) : ℝ)) (c (0.0 : F)) := fun _ => ρ.constOf (CR.sci le _ _ _)
  have hversion : N2Regular x0 v (c (p.m 0) * shapeIntegral .Delta (hsDiameter p (T x0) 0 * c (0.5 : ℝ)) * rho 0 x0)
      ((List.range dim).map fun _ => c (0.0 : ℝ)) := by
    cases v with
    | WhiteBear => trivial
    | AntiSymWhiteBear =>
      refine ⟨hn2pos.ne', Or.inl ?_⟩
      rw [sumSq_range]
      norm_num
    | KierlikRosinberg => exact absurd rfl hv
  have hxi : ρ.R (fun x => pureXi p (hsDiameter p (T x) 0 * c 0.5)
        (c (p.m 0) * shapeIntegral .Delta (hsDiameter p (T x) 0 * c (0.5 : ℝ)) * rho 0 x)
        ((List.range dim).map fun _ => c (0.0 : ℝ)))
      (pureXi q (hsDiameter q Td 0 * c 0.5) (c (q.m 0) * shapeIntegral .Delta (hsDiameter q Td 0 * c (0.5 : F)) * rhod 0)
        ((List.range dim).map fun _ => c (0.0 : F))) := by
    have hs := rep_sumSq le (List.range dim) hz
    have h1' : ρ.R (fun _ => (1 : ℝ)) (c (1.0 : F)) := by
      have := ρ.constOf (CR.sci le 10 true 1)
      refine ρ.congr this (.of_forall fun x => ?_)
      norm_num [c]
    have hone : ρ.R (fun _ => (1 : ℝ)) (pureXi q (hsDiameter q Td 0 * c 0.5)
        (c (q.m 0) * shapeIntegral .Delta (hsDiameter q Td 0 * c (0.5 : F)) * rhod 0)
        ((List.range dim).map fun _ => c (0.0 : F))) := by
      unfold pureXi
      split_ifs
      · exact h1'
      · refine ρ.congr (ρ.add (ρ.div (ρ.neg hs) (ρ.mul h2 h2) (mul_self_ne_zero.mpr hn2pos.ne')) h1')
          (.of_forall fun x => ?_)
        dsimp only
        rw [sumSq_range]
        simp
    refine ρ.congr hone (.of_forall fun x => ?_)
    dsimp only
    unfold pureXi
    rw [sumSq_range]
    split_ifs <;> norm_num [c]
  obtain ⟨A, d, hA, hd2, hAd⟩ := rep_pureFmtAssocPoint_of le hp v (List.range dim) hT hT0 h2 h3 hz hd
    (en3.trans_lt h1) (by rw [en3]; exact hη) hversion (fun ha =>
      rep_pureAssoc_of le hp (List.range dim) hT hT0 h2 h3 hm hd (en3.trans_lt h1) hxi
        (by rw [pure_bulk_strength p (T x0) (fun i => rho i x0) hd hm dim]; exact hstr ha)
        (by rw [pure_bulk_strength p (T x0) (fun i => rho i x0) hd hm dim]; exact hsites ha))
  refine ⟨A, d, ?_, ?_, hAd⟩
  · filter_upwards [(ρ.continuousAt h3).eventually (gt_mem_nhds (en3.trans_lt h1))] with x hx
    rw [pureFmt_bulkRows]
    have hlt : F64.lt (1.0 : ℝ) (DualNum.re
        (c (p.m 0) * shapeIntegral .Theta (hsDiameter p (T x) 0 * c (0.5 : ℝ)) * rho 0 x)) = false := by
      rw [lt_real, e1, re_real]
      exact decide_eq_false (not_lt.mpr hx.le)
    simp only [pureFmtAssocFunctional, List.mapM_cons, List.mapM_nil, rowAt, List.getElem?_cons_zero,
      List.getElem?_cons_succ, Bind.bind, Except.bind, Pure.pure, Except.pure, List.any_cons, List.any_nil, hlt, Bool.or_false,
      Bool.false_eq_true, if_false, List.drop_succ_cons, List.drop_zero, hA x]
  · rw [pureFmt_bulkRows]
    have hlt : F64.lt (1.0 : F) (DualNum.re
        (c (q.m 0) * shapeIntegral .Theta (hsDiameter q Td 0 * c (0.5 : F)) * rhod 0)) = false := by
      have h10 : emb 1.0 (1.0 : F) := CR.sci le 10 true 1
      have hne : (1.0 : ℝ) ≠ c (p.m 0) * shapeIntegral .Theta (hsDiameter p (T x0) 0 * c (0.5 : ℝ)) * rho 0 x0 := by
        rw [en3, e1]
        exact h1.ne'
      rw [le.lt h10 (ρ.re h3) hne, en3, e1]
      exact decide_eq_false (not_lt.mpr h1.le)
    simp only [pureFmtAssocFunctional, List.mapM_cons, List.mapM_nil, rowAt, List.getElem?_cons_zero,
      List.getElem?_cons_succ, Bind.bind, Except.bind, Pure.pure, Except.pure, List.any_cons, List.any_nil, hlt, Bool.or_false,
      Bool.false_eq_true, if_false, List.drop_succ_cons, List.drop_zero, hd2]

end model

end PcSaft
