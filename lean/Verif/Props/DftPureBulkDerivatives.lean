import Verif.Lemmas.RepDftPureBulk
import Verif.Props.DftBulkDerivatives
import Verif.Props.DftProfileExamples

/-!
# C77 for the functionals of pure components
-/

open Filter Topology

namespace PcSaft.Props
open Spec

theorem purePolarRegular_of {pr : Fin 1 → PureRecord ℝ} {k : Fin 1 → Fin 1 → ℝ} {T V : ℝ} {N : Fin 1 → ℝ}
    (h : Admissible (fromRecords pr k) T V N) {o : PcSaftOptions ℝ}
    (hr : ∀ ct ∈ buildContributions (fromRecords pr k) o, Regular (fromRecords pr k) T V N ct) :
    PurePolarRegular (· ≠ ·) (fromRecords pr k) T (N 0 / V) := by
  have hp : PolarOk (fromRecords pr k) := polarOk_fromRecords pr k fun i => (h.m_pos i).le
  have hd : (fromRecords pr k).e_k_ij 0 0 = (fromRecords pr k).epsilon_k 0 := fromRecords_e_diag pr k h.epsilon_nonneg 0
  set p := fromRecords pr k with hpdef
  have hs := hp.sigma_diag 0
  have hz : stateEta p (StateHD.new T V N) = pureEta p T (N 0 / V) :=
    (pureEta_eq p T (fun i => N i / V)).symm
  have hm2 : F64.min (p.m 0) 2.0 = mdqPair p 0 0 := (mdqPair_self p 0 (h.m_pos 0).le).symm
  have hm3 : F64.min (p.m 0) 2.0 = mdqTriplet p 0 0 0 := (mdqTriplet_self p 0).symm
  constructor
  · intro h1
    have hreg : Regular p T V N .dipole := hr _ (by simp [buildContributions, h1])
    simp only [Regular, dipolePhis, hz, dipolePhi2_real hp, dipolePhi3_real hp, StateHD.new_temperature,
      StateHD.new_density, Finset.univ_unique, Fin.default_eq_zero, Finset.sum_singleton] at hreg
    have hI : pairIntegral (by decide) ((F64.min (p.m 0) 2.0 - 1.0) / F64.min (p.m 0) 2.0)
        ((F64.min (p.m 0) 2.0 - 1.0) / F64.min (p.m 0) 2.0 * (F64.min (p.m 0) 2.0 - 2.0) / F64.min (p.m 0) 2.0)
        (pureEta p T (N 0 / V)) AD BD (DualNum.recip T * c (p.epsilon_k 0))
        = pairI (by decide) AD BD p T (pureEta p T (N 0 / V)) 0 0 := by
      rw [hm2, ← hd, recip_real]
      rfl
    have hJ : tripletIntegral ((F64.min (p.m 0) 2.0 - 1.0) / F64.min (p.m 0) 2.0)
        ((F64.min (p.m 0) 2.0 - 1.0) / F64.min (p.m 0) 2.0 * (F64.min (p.m 0) 2.0 - 2.0) / F64.min (p.m 0) 2.0)
        (pureEta p T (N 0 / V)) CD
        = tripI CD p (pureEta p T (N 0 / V)) 0 0 0 := by
      rw [hm3]
      rfl
    have hK2 : dipK2 p T (pureEta p T (N 0 / V)) 0 0
        = pairI (by decide) AD BD p T (pureEta p T (N 0 / V)) 0 0
          * (T⁻¹ * p.epsilon_k 0 * p.sigma 0 ^ 3 * p.mu2 0) ^ 2 / p.sigma 0 ^ 3 := by
      simp only [dipK2, dipoleTerm, hs, c, ofF_real, powi_real]
      ring
    have hK3 : dipK3 p T (pureEta p T (N 0 / V)) 0 0 0
        = tripI CD p (pureEta p T (N 0 / V)) 0 0 0
          * (T⁻¹ * p.epsilon_k 0 * p.sigma 0 ^ 3 * p.mu2 0) ^ 3 / p.sigma 0 ^ 3 := by
      simp only [dipK3, dipoleTerm, hs, c, ofF_real, powi_real]
      ring
    rw [hK2, hK3] at hreg
    intro e s3 t m m1 m2
    simp only [e, s3, t, m, m1, m2, dftPairIntegral_eq, dftTripletIntegral_eq]
    rw [hI, hJ]
    simp only [c, ofF_real, powi_real, recip_real, pi_real] at hreg ⊢
    convert hreg using 1 <;> ring
  · intro h1
    have hreg : Regular p T V N .quadrupole := hr _ (by simp [buildContributions, h1])
    simp only [Regular, quadrupolePhis, hz, quadrupolePhi2_real hp, quadrupolePhi3_real hp, StateHD.new_temperature,
      StateHD.new_density, Finset.univ_unique, Fin.default_eq_zero, Finset.sum_singleton] at hreg
    have hI : pairIntegral (by decide) ((F64.min (p.m 0) 2.0 - 1.0) / F64.min (p.m 0) 2.0)
        ((F64.min (p.m 0) 2.0 - 1.0) / F64.min (p.m 0) 2.0 * (F64.min (p.m 0) 2.0 - 2.0) / F64.min (p.m 0) 2.0)
        (pureEta p T (N 0 / V)) AQ BQ (DualNum.recip T * c (p.epsilon_k 0))
        = pairI (by decide) AQ BQ p T (pureEta p T (N 0 / V)) 0 0 := by
      rw [hm2, ← hd, recip_real]
      rfl
    have hJ : tripletIntegral ((F64.min (p.m 0) 2.0 - 1.0) / F64.min (p.m 0) 2.0)
        ((F64.min (p.m 0) 2.0 - 1.0) / F64.min (p.m 0) 2.0 * (F64.min (p.m 0) 2.0 - 2.0) / F64.min (p.m 0) 2.0)
        (pureEta p T (N 0 / V)) CQ
        = tripI CQ p (pureEta p T (N 0 / V)) 0 0 0 := by
      rw [hm3]
      rfl
    have hK2 : quadK2 p T (pureEta p T (N 0 / V)) 0 0
        = pairI (by decide) AQ BQ p T (pureEta p T (N 0 / V)) 0 0
          * (T⁻¹ * p.epsilon_k 0 * p.sigma 0 ^ 5 * p.q2 0) ^ 2 / p.sigma 0 ^ 7 := by
      simp only [quadK2, quadrupoleTerm, min_self, c, ofF_real, powi_real]
      ring
    have hK3 : quadK3 p T (pureEta p T (N 0 / V)) 0 0 0
        = tripI CQ p (pureEta p T (N 0 / V)) 0 0 0
          * (T⁻¹ * p.epsilon_k 0 * p.sigma 0 ^ 5 * p.q2 0) ^ 3 / (p.sigma 0 ^ 3) ^ 3 := by
      simp only [quadK3, quadrupoleTerm, hs, c, ofF_real, powi_real]
      ring
    rw [hK2, hK3] at hreg
    intro e s3 t m m1 m2
    simp only [e, s3, t, m, m1, m2, dftPairIntegral_eq, dftTripletIntegral_eq]
    rw [hI, hJ]
    simp only [c, ofF_real, powi_real, recip_real, pi_real] at hreg ⊢
    have h9 : (0.5625 : ℝ) = 9 / 16 := by norm_num
    rw [h9] at hreg ⊢
    convert hreg using 1 <;> ring

section generic
variable {D X : Type} [DualNum ℝ D] [TopologicalSpace X] {x0 : X} {ρ : Rep x0 Same D}

/-- a list of values is represented if each of them is, near the point -/
theorem rep_value_list {ι A B : Type} (f : ι → X → A) (g : ι → B) (wr : ℝ → A) (wd : D → B) (l : List ι)
    (h : ∀ ct ∈ l, ∃ (b : X → ℝ) (d : D), (∀ᶠ x in 𝓝 x0, f ct x = wr (b x)) ∧ g ct = wd d ∧ ρ.R b d) :
    ∃ (bs : X → List ℝ) (ds : List D), (∀ᶠ x in 𝓝 x0, l.map (fun ct => f ct x) = (bs x).map wr)
      ∧ l.map g = ds.map wd ∧ ρ.R (fun x => (bs x).sum) (total ds) := by
  induction l with
  | nil => exact ⟨fun _ => [], [], .of_forall fun _ => rfl, rfl, ρ.const 0⟩
  | cons ct cts ih =>
    obtain ⟨b, d, h1, h2, h3⟩ := h ct (by simp)
    obtain ⟨bs, ds, h4, h5, h6⟩ := ih fun ct hct => h ct (by simp [hct])
    refine ⟨fun x => b x :: bs x, d :: ds, ?_, ?_, ?_⟩
    · filter_upwards [h1, h4] with x h1 h4
      rw [List.map_cons, List.map_cons, h1, h4]
    · rw [List.map_cons, List.map_cons, h2, h5]
    · simp only [List.sum_cons]
      exact ρ.add h3 h6

/-- In every number type whose elements represent functions, the contributions of the functional for pure components add
up to the equation of state. -/
theorem pure_bulk_total (hρ : Complete ρ) (la : LinAlg ℝ ℝ) (laD : LinAlg ℝ D) (pr : Fin 1 → PureRecord ℝ)
    (k : Fin 1 → Fin 1 → ℝ) (hk : k 0 0 = 0) (T V : D) (N : Fin 1 → D) (v : FMTVersion) (hv : v ≠ .KierlikRosinberg)
    (o : PcSaftOptions ℝ)
    (h : Admissible (fromRecords pr k) (DualNum.re T) (DualNum.re V) (fun i => DualNum.re (N i)))
    (hm : 1 ≤ (pr 0).model_record.m)
    (hη : 1e-5 < Spec.packingFraction (fromRecords pr k) (DualNum.re T) (DualNum.re V) (fun i => DualNum.re (N i)))
    (hpol : (fromRecords pr k).ndipole = 0 ∨ (fromRecords pr k).nquadpole = 0)
    (hr : ∀ ct ∈ buildContributions (fromRecords pr k) o,
      Regular (fromRecords pr k) (DualNum.re T) (DualNum.re V) (fun i => DualNum.re (N i)) ct) (dim : ℕ) :
    ∃ (d : D) (phis : List D),
      (Eos.withOptions (fromRecords pr k) o).residualHelmholtz laD (StateHD.new T V N) = .ok d
      ∧ (Functional.withOptions (fromRecords pr k) v o).contributions.map
          (fun ct => ct.pureBulk (fromRecords pr k) dim T (fun i => N i / V))
        = phis.map (fun phi => some (.ok (.ok [phi])))
      ∧ d = V * (total phis + idealChain (fromRecords pr k).m f64EPSILON (fun i => N i / V)) := by
  obtain ⟨Tf, hT⟩ := hρ.exists_function T
  obtain ⟨Vf, hV⟩ := hρ.exists_function V
  choose Nf hN using fun i => hρ.exists_function (N i)
  rw [ρ.re hT, ρ.re hV] at h hr hη
  simp only [fun i => ρ.re (hN i)] at h hr hη
  have hVne := h.volume.ne'
  have hpos : ∀ i, 0 < Nf i x0 := by
    intro i
    obtain ⟨j, hj⟩ := h.moles_ne_zero
    rw [Subsingleton.elim i j]
    exact lt_of_le_of_ne (h.moles_nonneg j) (Ne.symm hj)
  obtain ⟨A, d, hA, hd, hAd⟩ := rep_residual (g := fun x => x) lawfulEmb_id (ParamRel.refl (fromRecords pr k)) hT hV hN h o la laD hr
  set p := fromRecords pr k with hp
  have hrep := fun i => ρ.div (hN i) hV hVne
  have hpk : Spec.packingFraction p (Tf x0) 1 (fun i => Nf i x0 / Vf x0) < 1 := by
    rw [packing_density]
    exact h.packing
  have hpk0 : (1e-5 : ℝ) < Spec.packingFraction p (Tf x0) 1 (fun i => Nf i x0 / Vf x0) := by
    rw [packing_density]
    exact hη
  have hrp : ∀ i, 0 < Nf i x0 / Vf x0 := fun i => div_pos (hpos i) h.volume
  have hstate : stateDeltaRho p (StateHD.new (Tf x0) 1 (fun i => Nf i x0 / Vf x0)) 0
      = stateDeltaRho p (StateHD.new (Tf x0) (Vf x0) (fun i => Nf i x0)) 0 := by
    have e : (StateHD.new (Tf x0) 1 (fun i => Nf i x0 / Vf x0)).partial_density
        = (StateHD.new (Tf x0) (Vf x0) (fun i => Nf i x0)).partial_density := by
      rw [StateHD.new_density, StateHD.new_density]
      simp only [div_one]
    unfold stateDeltaRho stateEta
    rw [e]
    rfl
  have hassoc : p.nassoc = 1 → p.assoc_comp = [0] ∧ 0 ≤ p.epsilon_k_ab 0 ∧ 0 < p.na 0 ∧ 0 < p.nb 0
      ∧ p.na 0 + p.nb 0 < 2 ^ 26
      ∧ specStrength p (Tf x0) (Vf x0) (fun i => Nf i x0) 0 0 * (Nf 0 x0 / Vf x0) ≠ Real.sqrt f64EPSILON := by
    intro h1
    have hmem : Contribution.association ∈ buildContributions p o := by simp [buildContributions, h1]
    obtain ⟨a, ha, hrest⟩ := hr _ hmem
    rw [Subsingleton.elim a 0] at ha hrest
    exact ⟨ha, hrest⟩
  have hlist : ∀ ct ∈ (Functional.withOptions p v o).contributions, ∃ (B : X → ℝ) (d : D),
      (∀ᶠ x in 𝓝 x0, ct.pureBulk p dim (Tf x) (fun i => Nf i x / Vf x) = some (.ok (.ok [B x])))
      ∧ ct.pureBulk p dim T (fun i => N i / V) = some (.ok (.ok [d])) ∧ ρ.R B d := by
    have hv' : (v = .WhiteBear ∨ v = .AntiSymWhiteBear) ∧ (1 : ℕ) = 1 := by
      refine ⟨?_, rfl⟩
      cases v <;> simp_all
    have hcontr : (Functional.withOptions p v o).contributions = [.pureFmtAssoc v]
        ++ (if (List.finRange 1).any (fun i => F64.lt (1.0 : ℝ) (p.m i)) then [.pureChain] else []) ++ [.pureAtt] :=
      if_pos hv'
    intro ct hct
    have hct' : ct = .pureFmtAssoc v ∨ ct = .pureChain ∨ ct = .pureAtt := by
      rw [hcontr] at hct
      simp only [List.mem_append, List.mem_singleton] at hct
      rcases hct with (h | h) | h
      · exact Or.inl h
      · split_ifs at h
        · exact Or.inr (Or.inl (by simpa using h))
        · simp at h
      · exact Or.inr (Or.inr h)
    rcases hct' with rfl | rfl | rfl
    · have hcut : (N3_CUTOFF : ℝ) = 1e-5 := rfl
      obtain ⟨B, e, h1, h2, h3⟩ := rep_pureFmt_bulk lawfulEmb_id (ParamRel.refl p) hT h.temperature.ne' hrep
        (h.diameter_pos 0) v hv dim (h.m_pos 0) (hrp 0) (Or.inl (by rw [hcut]; exact hpk0.ne')) hpk
        (fun ha => Or.inl (by
          obtain ⟨h1, -, -, -, -, h2⟩ := hassoc ha
          rw [hstate, stateDeltaRho_eq h 0 [] h1]
          exact h2))
        (fun ha => by
          obtain ⟨h1, h2, h3, h4, h5, h6⟩ := hassoc ha
          rw [hstate, stateDeltaRho_eq h 0 [] h1]
          exact sitesPos_of (mul_nonneg (specStrength_nonneg h 0 0 (by linarith)) (hrp 0).le) h3 h5)
      refine ⟨B, e, ?_, ?_, h3⟩
      · filter_upwards [h1] with x hx
        simp only [FunctionalContribution.pureBulk, hx]
      · simp only [FunctionalContribution.pureBulk, h2]
    · obtain ⟨B, e, h1, h2, h3⟩ := rep_pureChain_bulk lawfulEmb_id (ParamRel.refl p) hT h.temperature.ne' hrep
        (h.diameter_pos 0) dim (hrp 0) hpk
      refine ⟨B, e, .of_forall fun x => ?_, ?_, h3⟩
      · simp only [FunctionalContribution.pureBulk, h1]
        rfl
      · simp only [FunctionalContribution.pureBulk, h2]
        rfl
    · obtain ⟨B, e, h1, h2, h3⟩ := rep_pureAtt_bulk lawfulEmb_id (ParamRel.refl p) hT h.temperature.ne' hrep
        (h.diameter_pos 0) dim (h.m_pos 0) (h.sigma_pos 0).ne' (hpk0.le.trans' (by norm_num)) hpk
        (rep_dftPade lawfulEmb_id) (purePolarRegular_of h hr)
      refine ⟨B, e, .of_forall fun x => ?_, ?_, h3⟩
      · simp only [FunctionalContribution.pureBulk, h1]
        rfl
      · simp only [FunctionalContribution.pureBulk, h2]
        rfl
  obtain ⟨Bs, ds, h1, h2, h3⟩ := rep_value_list (ρ := ρ) _ _
    (fun phi => some (Except.ok (Except.ok [phi]) : Except Panic (Except EosError (List ℝ))))
    (fun phi => some (Except.ok (Except.ok [phi]) : Except Panic (Except EosError (List D)))) _ hlist
  refine ⟨d, ds, hd, h2, ?_⟩
  have hideal := rep_idealChain p.m f64EPSILON f64EPSILON_pos hrep fun i => (hrp i).le
  refine hρ.unique (ρ.congr hAd ?_) (ρ.mul hV (ρ.add h3 hideal))
  have heta := ρ.continuousAt (rep_pureEta lawfulEmb_id (ParamRel.refl p) hT h.temperature.ne' (hrep 0))
  have hη' : (1e-5 : ℝ) < pureEta p (Tf x0) (Nf 0 x0 / Vf x0) :=
    hpk0.trans_eq (_root_.PcSaft.pureEta_packing p (Tf x0) fun i => Nf i x0 / Vf x0).symm
  filter_upwards [eventually_admissible hT hV hN h hpos, h1, heta.eventually (lt_mem_nhds hη')] with x hx hx1 hx2
  have hx2' : (1e-5 : ℝ) < Spec.packingFraction p (Tf x) 1 (fun i => Nf i x / Vf x) :=
    hx2.trans_eq (_root_.PcSaft.pureEta_packing p (Tf x) fun i => Nf i x / Vf x)
  rw [packing_density] at hx2'
  obtain ⟨phis, e1, e2⟩ := C60_pure_functional_total la pr k hk (Tf x) (Vf x) (fun i => Nf i x) hx hm v hv o hx2'.le
    hpol dim
  have : Bs x = phis := map_ok_injective (hx1.symm.trans e1)
  rw [this]
  exact Except.ok.inj ((hA x).symm.trans e2)

end generic

/-- C77 for the functionals of pure components, first order dual numbers: pressure, entropy and chemical potential of a
homogeneous fluid are those of the equation of state. -/
theorem C77_pure_first_order (laD : LinAlg ℝ (Dual ℝ)) (pr : Fin 1 → PureRecord ℝ) (k : Fin 1 → Fin 1 → ℝ)
    (hk : k 0 0 = 0) (T V : Dual ℝ) (N : Fin 1 → Dual ℝ) (v : FMTVersion) (hv : v ≠ .KierlikRosinberg) (o : PcSaftOptions ℝ)
    (h : Admissible (fromRecords pr k) T.re V.re (fun i => (N i).re)) (hm : 1 ≤ (pr 0).model_record.m)
    (hη : 1e-5 < Spec.packingFraction (fromRecords pr k) T.re V.re (fun i => (N i).re))
    (hpol : (fromRecords pr k).ndipole = 0 ∨ (fromRecords pr k).nquadpole = 0)
    (hr : ∀ ct ∈ buildContributions (fromRecords pr k) o,
      Regular (fromRecords pr k) T.re V.re (fun i => (N i).re) ct) (dim : ℕ) :
    ∃ (d : Dual ℝ) (phis : List (Dual ℝ)),
      (Eos.withOptions (fromRecords pr k) o).residualHelmholtz laD (StateHD.new T V N) = .ok d
      ∧ (Functional.withOptions (fromRecords pr k) v o).contributions.map
          (fun ct => ct.pureBulk (fromRecords pr k) dim T (fun i => N i / V))
        = phis.map (fun phi => some (.ok (.ok [phi])))
      ∧ d = V * (total phis + idealChain (fromRecords pr k).m f64EPSILON (fun i => N i / V)) :=
  pure_bulk_total complete_rho1 anyLinAlg laD pr k hk T V N v hv o h hm hη hpol hr dim

/-- C77 for the functionals of pure components, second derivatives -/
theorem C77_pure_second_order (laD : LinAlg ℝ (Dual (Dual ℝ))) (pr : Fin 1 → PureRecord ℝ) (k : Fin 1 → Fin 1 → ℝ)
    (hk : k 0 0 = 0) (T V : Dual (Dual ℝ)) (N : Fin 1 → Dual (Dual ℝ)) (v : FMTVersion) (hv : v ≠ .KierlikRosinberg) (o : PcSaftOptions ℝ)
    (h : Admissible (fromRecords pr k) T.re.re V.re.re (fun i => (N i).re.re)) (hm : 1 ≤ (pr 0).model_record.m)
    (hη : 1e-5 < Spec.packingFraction (fromRecords pr k) T.re.re V.re.re (fun i => (N i).re.re))
    (hpol : (fromRecords pr k).ndipole = 0 ∨ (fromRecords pr k).nquadpole = 0)
    (hr : ∀ ct ∈ buildContributions (fromRecords pr k) o,
      Regular (fromRecords pr k) T.re.re V.re.re (fun i => (N i).re.re) ct) (dim : ℕ) :
    ∃ (d : Dual (Dual ℝ)) (phis : List (Dual (Dual ℝ))),
      (Eos.withOptions (fromRecords pr k) o).residualHelmholtz laD (StateHD.new T V N) = .ok d
      ∧ (Functional.withOptions (fromRecords pr k) v o).contributions.map
          (fun ct => ct.pureBulk (fromRecords pr k) dim T (fun i => N i / V))
        = phis.map (fun phi => some (.ok (.ok [phi])))
      ∧ d = V * (total phis + idealChain (fromRecords pr k).m f64EPSILON (fun i => N i / V)) :=
  pure_bulk_total complete_rho2 anyLinAlg laD pr k hk T V N v hv o h hm hη hpol hr dim

/-- C77 for the functionals of pure components, third derivatives -/
theorem C77_pure_third_order (laD : LinAlg ℝ (Dual (Dual (Dual ℝ)))) (pr : Fin 1 → PureRecord ℝ) (k : Fin 1 → Fin 1 → ℝ)
    (hk : k 0 0 = 0) (T V : Dual (Dual (Dual ℝ))) (N : Fin 1 → Dual (Dual (Dual ℝ))) (v : FMTVersion) (hv : v ≠ .KierlikRosinberg) (o : PcSaftOptions ℝ)
    (h : Admissible (fromRecords pr k) T.re.re.re V.re.re.re (fun i => (N i).re.re.re)) (hm : 1 ≤ (pr 0).model_record.m)
    (hη : 1e-5 < Spec.packingFraction (fromRecords pr k) T.re.re.re V.re.re.re (fun i => (N i).re.re.re))
    (hpol : (fromRecords pr k).ndipole = 0 ∨ (fromRecords pr k).nquadpole = 0)
    (hr : ∀ ct ∈ buildContributions (fromRecords pr k) o,
      Regular (fromRecords pr k) T.re.re.re V.re.re.re (fun i => (N i).re.re.re) ct) (dim : ℕ) :
    ∃ (d : Dual (Dual (Dual ℝ))) (phis : List (Dual (Dual (Dual ℝ)))),
      (Eos.withOptions (fromRecords pr k) o).residualHelmholtz laD (StateHD.new T V N) = .ok d
      ∧ (Functional.withOptions (fromRecords pr k) v o).contributions.map
          (fun ct => ct.pureBulk (fromRecords pr k) dim T (fun i => N i / V))
        = phis.map (fun phi => some (.ok (.ok [phi])))
      ∧ d = V * (total phis + idealChain (fromRecords pr k).m f64EPSILON (fun i => N i / V)) :=
  pure_bulk_total complete_rho3 anyLinAlg laD pr k hk T V N v hv o h hm hη hpol hr dim

/-! ## A pure associating chain molecule -/

theorem assocPure_admissible : Admissible assocPure 300 1000 (fun _ => 1) where
  temperature := by norm_num
  volume := by norm_num
  m_pos := assocPure_molecules.m_pos
  sigma_pos := assocPure_molecules.sigma_pos
  epsilon_nonneg := assocPure_molecules.epsilon_nonneg
  moles_nonneg := fun _ => zero_le_one
  moles_ne_zero := ⟨0, one_ne_zero⟩
  packing := by
    rw [← packing_density]
    exact assocPure_packing

theorem assocPure_dense : 1e-5 < Spec.packingFraction assocPure 300 1000 (fun _ => 1) := by
  have h := assocPure_surface.1
  have hd := (C13_diameter assocPure 0 (assocPure_molecules.sigma_pos 0) (assocPure_positive 0)).1 300 (by norm_num)
  have hσ : assocPure.sigma 0 = 3 := rfl
  rw [hsDiameter_eq_spec, hσ] at hd
  have hd2 : 2 < segmentDiameter assocPure 300 0 := by
    unfold segmentDiameter
    rw [hσ]
    norm_num at hd ⊢
    linarith
  have e : Spec.packingFraction assocPure 300 1000 (fun _ => 1)
      = surface assocPure 300 0 * segmentDiameter assocPure 300 0 / 6000 := by
    unfold Spec.packingFraction surface segmentDiameter
    rw [Fin.sum_univ_one]
    ring
  rw [e]
  norm_num
  nlinarith

theorem assocPure_moments : assocPure.ndipole = 0 ∧ assocPure.nquadpole = 0 := by
  constructor
  · refine Nat.eq_zero_of_not_pos fun h => ?_
    obtain ⟨i, hi⟩ := (length_nonzeroComp_pos _).mp h
    refine absurd ?_ hi
    norm_num [assocChain, fromRecords]
  · exact nquadpole_of_none _ _ fun i => rfl

theorem assocPure_strength_lt : Real.sqrt f64EPSILON < specStrength assocPure 300 1000 (fun _ => 1) 0 0 * (1 / 1000) := by
  have h := assocPure_admissible
  have d0 := h.diameter_pos 0
  rw [hsDiameter_eq_spec] at d0
  have hη := h.packing
  have hη0 := h.zeta_pos 3
  rw [zeta3_eq_packing] at hη0
  have h2 := moment2_nonneg h
  rw [sqrt_epsilon]
  unfold specStrength
  have hκ : assocPure.kappa_ab 0 = 0.03 := rfl
  have hσ : assocPure.sigma 0 = 3 := rfl
  have he : assocPure.epsilon_k_ab 0 = 2500 := rfl
  rw [hκ, hσ, he, Real.sqrt_mul_self (by norm_num), Real.sqrt_mul_self (by norm_num)]
  have hg : 1 ≤ contactPair (moment2 assocPure 300 1000 (fun _ => 1))
      (Spec.packingFraction assocPure 300 1000 (fun _ => 1)) (Spec.diameter 3 (assocPure.epsilon_k 0) 300)
      (Spec.diameter 3 (assocPure.epsilon_k 0) 300) := by
    rw [hσ] at d0
    have hu : 0 < 1 - Spec.packingFraction assocPure 300 1000 (fun _ => 1) := by linarith
    have h1 : 1 ≤ 1 / (1 - Spec.packingFraction assocPure 300 1000 (fun _ => 1)) := by
      rw [le_div_iff₀ hu]
      linarith
    unfold contactPair
    refine h1.trans ?_
    rw [add_assoc]
    exact le_add_of_nonneg_right (by positivity)
  have hx := Real.add_one_le_exp (((2500 : ℝ) + 2500) / 2 / 300)
  have hx8 : (8 : ℝ) ≤ Real.exp ((2500 + 2500) / 2 / 300) - 1 := by
    norm_num at hx ⊢
    linarith
  have : (1 : ℝ) * 0.03 * 3 ^ 3 * 8 * (1 / 1000) ≤ _ :=
    mul_le_mul_of_nonneg_right (mul_le_mul (mul_le_mul_of_nonneg_right (mul_le_mul_of_nonneg_right hg
      (by norm_num)) (by norm_num)) hx8 (by norm_num) (by positivity)) (by norm_num : (0 : ℝ) ≤ 1 / 1000)
  refine lt_of_lt_of_le ?_ this
  norm_num

theorem assocPure_regular (o : PcSaftOptions ℝ) :
    ∀ ct ∈ buildContributions assocPure o, Regular assocPure 300 1000 (fun _ => 1) ct := by
  intro ct hct
  obtain ⟨h1, h2⟩ := assocPure_moments
  simp only [buildContributions, h1, h2, nassoc_of assocPure_comp] at hct
  simp at hct
  rcases hct with rfl | rfl | rfl | rfl
  · trivial
  · trivial
  · trivial
  · refine ⟨0, assocPure_comp, ?_, ?_, ?_, ?_, assocPure_strength_lt.ne'⟩ <;>
      norm_num [fromRecords, assocChain]

/-- C77 for this molecule, seeded in any direction -/
example (laD : LinAlg ℝ (Dual ℝ)) (T' V' : ℝ) (N' : Fin 1 → ℝ) (o : PcSaftOptions ℝ) (dim : ℕ) :=
  C77_pure_first_order laD assocChain (fun _ _ => 0) rfl ⟨300, T'⟩ ⟨1000, V'⟩ (fun i => ⟨1, N' i⟩) .WhiteBear (by simp) o
    assocPure_admissible (by norm_num [assocChain]) assocPure_dense (Or.inl assocPure_moments.1) (assocPure_regular o) dim

/-- second order, the other version -/
example (laD : LinAlg ℝ (Dual (Dual ℝ))) (t1 v1 : Dual ℝ) (x1 : Fin 1 → Dual ℝ) (t0 v0 : ℝ) (x0 : Fin 1 → ℝ)
    (o : PcSaftOptions ℝ) (dim : ℕ) :=
  C77_pure_second_order laD assocChain (fun _ _ => 0) rfl ⟨⟨300, t0⟩, t1⟩ ⟨⟨1000, v0⟩, v1⟩ (fun i => ⟨⟨1, x0 i⟩, x1 i⟩)
    .AntiSymWhiteBear (by simp) o assocPure_admissible (by norm_num [assocChain]) assocPure_dense
    (Or.inl assocPure_moments.1) (assocPure_regular o) dim

/-- third order, the third derivative in the volume -/
example (laD : LinAlg ℝ (Dual (Dual (Dual ℝ)))) (o : PcSaftOptions ℝ) (dim : ℕ) :=
  C77_pure_third_order laD assocChain (fun _ _ => 0) rfl (c 300) ⟨⟨⟨1000, 1⟩, ⟨1, 0⟩⟩, ⟨⟨1, 0⟩, ⟨0, 0⟩⟩⟩ (fun _ => c 1)
    .WhiteBear (by simp) o assocPure_admissible (by norm_num [assocChain]) assocPure_dense (Or.inl assocPure_moments.1)
    (assocPure_regular o) dim

end PcSaft.Props
