import Verif.Lemmas.RepDftBulk
import Verif.Lemmas.RepComplete
import Verif.Props.Examples

/-!
# C77: derivatives of the functional in a homogeneous fluid are those of the equation of state
-/

open Filter Topology

namespace PcSaft.Spec
variable {D : Type} [DualNum ℝ D] {n : ℕ}

/-- ideal chain term of the density functional theory in any number type (`e` is the regularisation) -/
noncomputable def idealChain (m : Fin n → ℝ) (e : ℝ) (rho : Fin n → D) : D :=
  sumFin fun i => rho i * c (m i - 1) * (DualNum.ln (rho i + c e) - c (1 : ℝ))

/-- sum of a list in any number type -/
noncomputable def total (l : List D) : D := l.foldr (· + ·) (c (0 : ℝ))

end PcSaft.Spec

namespace PcSaft.Props
open Spec
variable {n : ℕ}

theorem idealChain_real (m : Fin n → ℝ) (e : ℝ) (rho : Fin n → ℝ) : idealChain m e rho = idealChainTerm m e rho := by
  simp [idealChain, idealChainTerm, c]

theorem total_real (l : List ℝ) : total l = l.sum := by
  induction l with
  | nil => rfl
  | cons a l ih => rw [List.sum_cons, ← ih]; rfl

section generic
variable {D X : Type} [DualNum ℝ D] [TopologicalSpace X] {x0 : X} {ρ : Rep x0 Same D}

theorem rep_idealChain (m : Fin n → ℝ) (e : ℝ) (he : 0 < e) {rho : Fin n → X → ℝ} {rhod : Fin n → D}
    (hrho : ∀ i, ρ.R (rho i) (rhod i)) (h0 : ∀ i, 0 ≤ rho i x0) :
    ρ.R (fun x => idealChainTerm m e (fun i => rho i x)) (idealChain m e rhod) := by
  refine ρ.congr (ρ.sumFin lawfulEmb_id fun i => ρ.mul (ρ.mul (hrho i) (ρ.const (m i - 1)))
    (ρ.sub (ρ.ln (ρ.add (hrho i) (ρ.const e)) (add_pos_of_nonneg_of_pos (h0 i) he)) (ρ.const 1)))
    (.of_forall fun x => ?_)
  dsimp only
  rw [sumFin_real]
  rfl

/-- a list of contributions is represented if each of them is -/
theorem rep_bulk_list (la : LinAlg ℝ ℝ) (laD : LinAlg ℝ D) (p : PcSaftParameters n ℝ) (dim : ℕ) (T : X → ℝ) (Td : D)
    (rho : Fin n → X → ℝ) (rhod : Fin n → D) (cts : List (FunctionalContribution ℝ))
    (h : ∀ ct ∈ cts, ∃ (B : X → ℝ) (d : D),
      (∀ x, ct.mixtureBulk la p dim (T x) (fun i => rho i x) = some (.ok (.ok [B x])))
      ∧ ct.mixtureBulk laD p dim Td rhod = some (.ok (.ok [d])) ∧ ρ.R B d) :
    ∃ (Bs : X → List ℝ) (ds : List D),
      (∀ x, cts.map (fun ct => ct.mixtureBulk la p dim (T x) (fun i => rho i x))
        = (Bs x).map (fun phi => some (.ok (.ok [phi]))))
      ∧ cts.map (fun ct => ct.mixtureBulk laD p dim Td rhod) = ds.map (fun phi => some (.ok (.ok [phi])))
      ∧ ρ.R (fun x => (Bs x).sum) (total ds) := by
  induction cts with
  | nil => exact ⟨fun _ => [], [], fun _ => rfl, rfl, ρ.const 0⟩
  | cons ct cts ih =>
    obtain ⟨B, d, h1, h2, h3⟩ := h ct (by simp)
    obtain ⟨Bs, ds, h4, h5, h6⟩ := ih fun ct hct => h ct (by simp [hct])
    refine ⟨fun x => B x :: Bs x, d :: ds, fun x => ?_, ?_, ?_⟩
    · rw [List.map_cons, List.map_cons, h1, h4]
    · rw [List.map_cons, List.map_cons, h2, h5]
    · simp only [List.sum_cons]
      exact ρ.add h3 h6

theorem map_ok_injective {A : Type} : Function.Injective
    (List.map fun phi : A => some (Except.ok (Except.ok [phi]) : Except Panic (Except EosError (List A)))) := by
  refine List.map_injective_iff.mpr fun a b h => ?_
  simpa using h

theorem packing_density (p : PcSaftParameters n ℝ) (T V : ℝ) (N : Fin n → ℝ) :
    Spec.packingFraction p T 1 (fun i => N i / V) = Spec.packingFraction p T V N := by
  unfold Spec.packingFraction
  refine Finset.sum_congr rfl fun i _ => ?_
  ring

/-- the states near an admissible state in which every component is present are admissible -/
theorem eventually_admissible {p : PcSaftParameters n ℝ} {T V : X → ℝ} {N : Fin n → X → ℝ} {Td Vd : D} {Nd : Fin n → D}
    (hT : ρ.R T Td) (hV : ρ.R V Vd) (hN : ∀ i, ρ.R (N i) (Nd i))
    (h : Admissible p (T x0) (V x0) (fun i => N i x0)) (hpos : ∀ i, 0 < N i x0) :
    ∀ᶠ x in 𝓝 x0, Admissible p (T x) (V x) (fun i => N i x) := by
  have hrho := fun i => ρ.div (hN i) hV h.volume.ne'
  have heta := ρ.continuousAt (rep_dftEta lawfulEmb_id (ParamRel.refl p) hT h.temperature.ne' hrho)
  have h1 : dftEta p (T x0) (fun i => N i x0 / V x0) < 1 := by
    rw [dftEta_packing, packing_density]
    exact h.packing
  filter_upwards [ρ.eventually_pos hT h.temperature, ρ.eventually_pos hV h.volume,
    eventually_all.mpr fun i => ρ.eventually_pos (hN i) (hpos i), heta.eventually (gt_mem_nhds h1)] with x h2 h3 h4 h5
  refine ⟨h2, h3, h.m_pos, h.sigma_pos, h.epsilon_nonneg, fun i => (h4 i).le, ?_, ?_⟩
  · obtain ⟨i, _⟩ := h.moles_ne_zero
    exact ⟨i, (h4 i).ne'⟩
  · rw [dftEta_packing, packing_density] at h5
    exact h5

theorem _root_.PcSaft.Spec.Admissible.molecules {p : PcSaftParameters n ℝ} {T V : ℝ} {N : Fin n → ℝ} (h : Admissible p T V N) :
    Molecules p := ⟨h.m_pos, h.sigma_pos, h.epsilon_nonneg⟩

/-- the polar terms of the functional are regular where those of the equation of state are -/
theorem polarRegular_of {pr : Fin n → PureRecord ℝ} {k : Fin n → Fin n → ℝ} {T V : ℝ} {N : Fin n → ℝ}
    (h : Admissible (fromRecords pr k) T V N) {o : PcSaftOptions ℝ} (hq : (fromRecords pr k).nquadpole ≤ 1)
    (hdq : o.dq_variant = .DQ35 ∨ (fromRecords pr k).ndipole = 0 ∨ (fromRecords pr k).nquadpole = 0)
    (hr : ∀ ct ∈ buildContributions (fromRecords pr k) o, Regular (fromRecords pr k) T V N ct) :
    DftPolarRegular (· ≠ ·) (fromRecords pr k) T (fun i => N i / V) := by
  have hd := fromRecords_e_diag pr k h.epsilon_nonneg
  set p := fromRecords pr k with hp
  constructor
  · intro h1
    have : Regular p T V N .dipole := hr _ (by simp [buildContributions, h1])
    rw [dftEta_eq, dftDipolePhi2_eq hd, dftDipolePhi3_eq hd]
    exact this
  · intro h2
    have : Regular p T V N .quadrupole := hr _ (by simp [buildContributions, h2])
    rw [dftEta_eq, dftQuadrupolePhi2_eq_of_single hd hq, dftQuadrupolePhi3_eq hd]
    exact this
  · intro h1 h2
    have hv : o.dq_variant = .DQ35 := by
      rcases hdq with e | e | e
      · exact e
      · omega
      · omega
    have : Regular p T V N (.dipoleQuadrupole o.dq_variant) := hr _ (by simp [buildContributions, h1, h2])
    rw [hv] at this
    rw [dftEta_eq, dftDipoleQuadrupolePhi2_eq hd, dftDipoleQuadrupolePhi3_eq hd]
    exact this

theorem bulk_strength (p : PcSaftParameters n ℝ) {T V : ℝ} {N : Fin n → ℝ} (a : Fin n) (hd : hsDiameter p T a ≠ 0)
    (dim : ℕ) :
    dftDeltaRho p T a ⟨fun i => N i / V, List.replicate dim 0, Spec.packingFraction p T 1 (fun i => N i / V)⟩
      = stateDeltaRho p (StateHD.new T V N) a := by
  set r := fun i => hsDiameter p T i * c (0.5 : ℝ) with hr
  obtain ⟨e1, e2, e3⟩ := assoc_bulk_densities p r (fun i => N i / V) dim
    (Spec.packingFraction p T 1 (fun i => N i / V))
  have hra : r a ≠ 0 := by
    have h5 : (0.5 : ℝ) = 1 / 2 := by norm_num
    simp only [hr, c, ofF_real, h5]
    positivity
  unfold dftDeltaRho stateDeltaRho
  dsimp only
  rw [← hr, e1, e2, e3, StateHD.new_density, StateHD.new_temperature, ← hr]
  have eta : stateEta p (StateHD.new T V N) = packingFraction p.m (fun i => N i / V) r := rfl
  rw [← dftEta_packing, dftEta_eq, ← hr, eta, show hsDiameter p T a * c (0.5 : ℝ) = r a from rfl]
  simp only [associationStrength]
  generalize assocN2 p.m (fun i => N i / V) r = n2
  generalize packingFraction p.m (fun i => N i / V) r = n3
  have h5 : (0.5 : ℝ) = 1 / 2 := by norm_num
  have h2 : (2.0 : ℝ) = 2 := by norm_num
  have h1 : (1.0 : ℝ) = 1 := by norm_num
  have h18 : (18.0 : ℝ) = 18 := by norm_num
  simp only [c, ofF_real, recip_real, powi_real, dexpm1_real, h5, h2, h1, h18]
  have ek : r a * r a / (r a + r a) * (n2 * (-n3 + 1)⁻¹ * 2) = n2 * (-n3 + 1)⁻¹ * r a := by
    field_simp
    ring
  have es : 1 / 2 * (p.sigma a + p.sigma a) = p.sigma a := by ring
  rw [ek, es]
  ring

/-- In every number type whose elements represent functions (dual numbers of all orders), the contributions of the
functional add up to the equation of state. -/
theorem bulk_total (hρ : Complete ρ) (la : LinAlg ℝ ℝ) (laD : LinAlg ℝ D) (pr : Fin n → PureRecord ℝ)
    (k : Fin n → Fin n → ℝ) (T V : D) (N : Fin n → D) (v : FMTVersion) (o : PcSaftOptions ℝ)
    (h : Admissible (fromRecords pr k) (DualNum.re T) (DualNum.re V) (fun i => DualNum.re (N i)))
    (hpos : ∀ i, 0 < (DualNum.re (N i) : ℝ)) (hv : n ≠ 1 ∨ v = .KierlikRosinberg)
    (hq : (fromRecords pr k).nquadpole ≤ 1)
    (hdq : o.dq_variant = .DQ35 ∨ (fromRecords pr k).ndipole = 0 ∨ (fromRecords pr k).nquadpole = 0)
    (hrho : f64EPSILON < ∑ i, (DualNum.re (N i) : ℝ) / DualNum.re V)
    (hr : ∀ ct ∈ buildContributions (fromRecords pr k) o,
      Regular (fromRecords pr k) (DualNum.re T) (DualNum.re V) (fun i => DualNum.re (N i)) ct) (dim : ℕ) :
    ∃ (d : D) (phis : List D),
      (Eos.withOptions (fromRecords pr k) o).residualHelmholtz laD (StateHD.new T V N) = .ok d
      ∧ (Functional.withOptions (fromRecords pr k) v o).contributions.map
          (fun ct => ct.mixtureBulk laD (fromRecords pr k) dim T (fun i => N i / V))
        = phis.map (fun phi => some (.ok (.ok [phi])))
      ∧ d = V * (total phis + idealChain (fromRecords pr k).m f64EPSILON (fun i => N i / V)) := by
  obtain ⟨Tf, hT⟩ := hρ.exists_function T
  obtain ⟨Vf, hV⟩ := hρ.exists_function V
  choose Nf hN using fun i => hρ.exists_function (N i)
  rw [ρ.re hT, ρ.re hV] at h hr
  rw [ρ.re hV] at hrho
  simp only [fun i => ρ.re (hN i)] at h hr hrho hpos
  have hVne := h.volume.ne'
  obtain ⟨A, d, hA, hd, hAd⟩ := rep_residual (g := fun x => x) lawfulEmb_id (ParamRel.refl (fromRecords pr k)) hT hV hN h o la laD hr
  set p := fromRecords pr k with hp
  have hrep := fun i => ρ.div (hN i) hV hVne
  have hpk : Spec.packingFraction p (Tf x0) 1 (fun i => Nf i x0 / Vf x0) < 1 := by
    rw [packing_density]
    exact h.packing
  have hpk0 : 0 < Spec.packingFraction p (Tf x0) 1 (fun i => Nf i x0 / Vf x0) := by
    rw [packing_density, ← zeta3_eq_packing]
    exact h.zeta_pos 3
  have hrp : ∀ i, 0 < Nf i x0 / Vf x0 := fun i => div_pos (hpos i) h.volume
  have hchainlist : ∀ ct ∈ (Functional.withOptions p v o).contributions, ∃ (B : X → ℝ) (d : D),
      (∀ x, ct.mixtureBulk la p dim (Tf x) (fun i => Nf i x / Vf x) = some (.ok (.ok [B x])))
      ∧ ct.mixtureBulk laD p dim T (fun i => N i / V) = some (.ok (.ok [d])) ∧ ρ.R B d := by
    have hnot : ¬ ((v = .WhiteBear ∨ v = .AntiSymWhiteBear) ∧ n = 1) := by
      rintro ⟨h1, h2⟩
      rcases hv with hv | hv
      · exact hv h2
      · rw [hv] at h1
        simp at h1
    have hcontr : (Functional.withOptions p v o).contributions = [.fmt v]
        ++ (if (List.finRange n).any (fun i => !(F64.eq (p.m i) (1.0 : ℝ))) then [.chain] else [])
        ++ [.attractive]
        ++ (if 0 < p.nassoc then [.association o.max_iter_cross_assoc o.tol_cross_assoc] else []) := if_neg hnot
    intro ct hct
    have hct' : ct = .fmt v ∨ ct = .chain ∨ ct = .attractive
        ∨ (0 < p.nassoc ∧ ct = .association o.max_iter_cross_assoc o.tol_cross_assoc) := by
      rw [hcontr] at hct
      simp only [List.mem_append, List.mem_singleton] at hct
      rcases hct with ((h | h) | h) | h
      · exact Or.inl h
      · split_ifs at h
        · exact Or.inr (Or.inl (by simpa using h))
        · simp at h
      · exact Or.inr (Or.inr (Or.inl h))
      · split_ifs at h with h0
        · exact Or.inr (Or.inr (Or.inr ⟨h0, by simpa using h⟩))
        · simp at h
    rcases hct' with rfl | rfl | rfl | ⟨h0, rfl⟩
    · exact ⟨_, _, fun _ => rfl, rfl, rep_fmtBulk lawfulEmb_id (ParamRel.refl p) hT h.temperature.ne' hrep hpk0 hpk⟩
    · obtain ⟨B, e, h1, h2, h3⟩ := rep_chain_bulk lawfulEmb_id (ParamRel.refl p) hT h.temperature.ne' hrep h.diameter_pos
        dim h.m_pos hrp hpk
      refine ⟨B, e, fun x => ?_, ?_, h3⟩
      · simp only [FunctionalContribution.mixtureBulk, h1]
        rfl
      · simp only [FunctionalContribution.mixtureBulk, h2]
        rfl
    · obtain ⟨B, e, h1, h2, h3⟩ := rep_attractive_bulk lawfulEmb_id (ParamRel.refl p) hT h.temperature.ne' hrep
        h.diameter_pos dim h.m_pos (sigma_ij_ne h.molecules) (fun i => (h.sigma_pos i).ne') (fun i => (hrp i).le)
        (Or.inl hrho.ne') hpk (rep_dftPade lawfulEmb_id) (polarRegular_of h hq hdq hr)
      refine ⟨B, e, fun x => ?_, ?_, h3⟩
      · simp only [FunctionalContribution.mixtureBulk, h1]
        rfl
      · simp only [FunctionalContribution.mixtureBulk, h2]
        rfl
    · have hassoc : ∃ a, p.assoc_comp = [a] ∧ 0 ≤ p.epsilon_k_ab a ∧ 0 < p.na a ∧ 0 < p.nb a
          ∧ p.na a + p.nb a < 2 ^ 26
          ∧ specStrength p (Tf x0) (Vf x0) (fun i => Nf i x0) a a * (Nf a x0 / Vf x0) ≠ Real.sqrt f64EPSILON := by
        match hl : p.assoc_comp with
        | [] =>
          rw [nassoc_of hl] at h0
          simp at h0
        | [b] =>
          have hmem : Contribution.association ∈ buildContributions p o := by
            simp [buildContributions, nassoc_of hl]
          have := hr _ hmem
          obtain ⟨a, ha, hrest⟩ := this
          rw [hl] at ha
          exact ⟨a, ha, hrest⟩
        | b :: b' :: l =>
          have hmem : Contribution.crossAssociation o.max_iter_cross_assoc o.tol_cross_assoc ∈ buildContributions p o := by
            simp [buildContributions, nassoc_of hl]
          exact (hr _ hmem).elim
      obtain ⟨a, ha, he, hna, hnb, hfew, hne⟩ := hassoc
      have e1 := bulk_strength p (T := Tf x0) (V := Vf x0) (N := fun i => Nf i x0) a (h.diameter_pos a).ne' dim
      have e2 := stateDeltaRho_eq h a [] ha
      have hnn : 0 ≤ specStrength p (Tf x0) (Vf x0) (fun i => Nf i x0) a a * (Nf a x0 / Vf x0) :=
        mul_nonneg (specStrength_nonneg h a a (by linarith)) (hrp a).le
      obtain ⟨B, e, h1, h2, h3⟩ := rep_association_bulk lawfulEmb_id (ParamRel.refl p) hT h.temperature.ne' hrep
        h.diameter_pos dim a h.m_pos (fun i => (hrp i).le) hpk (Or.inl (by rw [e1, e2]; exact hne))
        (by rw [e1, e2]; exact sitesPos_of hnn hna hfew) ha la laD o.max_iter_cross_assoc o.tol_cross_assoc
        o.tol_cross_assoc
      refine ⟨B, e, fun x => ?_, ?_, h3⟩
      · simp only [FunctionalContribution.mixtureBulk, h1]
      · simp only [FunctionalContribution.mixtureBulk, h2]
  obtain ⟨Bs, ds, h1, h2, h3⟩ := rep_bulk_list la laD p dim Tf T (fun i x => Nf i x / Vf x) (fun i => N i / V) _
    hchainlist
  refine ⟨d, ds, hd, h2, ?_⟩
  have hideal := rep_idealChain p.m f64EPSILON f64EPSILON_pos hrep fun i => (hrp i).le
  refine hρ.unique (ρ.congr hAd ?_) (ρ.mul hV (ρ.add h3 hideal))
  have hsum : ContinuousAt (fun x => ∑ i, Nf i x / Vf x) x0 := by
    have := ρ.continuousAt (ρ.sumFin lawfulEmb_id hrep)
    simpa only [sumFin_real] using this
  filter_upwards [eventually_admissible hT hV hN h hpos, hsum.eventually (lt_mem_nhds hrho)] with x hx hx2
  obtain ⟨phis, e1, e2⟩ := (C72_mixture_functional_total la pr k (Tf x) (Vf x) (fun i => Nf i x) hx v o hv hq hdq hx2
    dim).1 (A x) (hA x)
  have : Bs x = phis := map_ok_injective ((h1 x).symm.trans e1)
  rw [this]
  exact e2

end generic

/-- linear algebra over the real numbers that is not used by the theorems below -/
noncomputable def anyLinAlg : LinAlg ℝ ℝ := ⟨fun _ _ _ => none, fun _ _ _ => none, 0⟩

/-- C77: in first order dual numbers, with temperature, volume and amounts seeded in any direction, the contributions of
the functional for a homogeneous fluid and the ideal chain term add up to the residual Helmholtz energy of the equation of
state: pressure, entropy and chemical potentials computed from the functional in the bulk are those of the equation of
state. -/
theorem C77_bulk_first_order (laD : LinAlg ℝ (Dual ℝ)) (pr : Fin n → PureRecord ℝ) (k : Fin n → Fin n → ℝ)
    (T V : Dual ℝ) (N : Fin n → Dual ℝ) (v : FMTVersion) (o : PcSaftOptions ℝ)
    (h : Admissible (fromRecords pr k) T.re V.re (fun i => (N i).re)) (hpos : ∀ i, 0 < (N i).re)
    (hv : n ≠ 1 ∨ v = .KierlikRosinberg) (hq : (fromRecords pr k).nquadpole ≤ 1)
    (hdq : o.dq_variant = .DQ35 ∨ (fromRecords pr k).ndipole = 0 ∨ (fromRecords pr k).nquadpole = 0)
    (hrho : f64EPSILON < ∑ i, (N i).re / V.re)
    (hr : ∀ ct ∈ buildContributions (fromRecords pr k) o,
      Regular (fromRecords pr k) T.re V.re (fun i => (N i).re) ct) (dim : ℕ) :
    ∃ (d : Dual ℝ) (phis : List (Dual ℝ)),
      (Eos.withOptions (fromRecords pr k) o).residualHelmholtz laD (StateHD.new T V N) = .ok d
      ∧ (Functional.withOptions (fromRecords pr k) v o).contributions.map
          (fun ct => ct.mixtureBulk laD (fromRecords pr k) dim T (fun i => N i / V))
        = phis.map (fun phi => some (.ok (.ok [phi])))
      ∧ d = V * (total phis + idealChain (fromRecords pr k).m f64EPSILON (fun i => N i / V)) :=
  bulk_total complete_rho1 anyLinAlg laD pr k T V N v o h hpos hv hq hdq hrho hr dim

/-- C77 in second order dual numbers: all second derivatives, mixed ones included, agree. -/
theorem C77_bulk_second_order (laD : LinAlg ℝ (Dual (Dual ℝ))) (pr : Fin n → PureRecord ℝ) (k : Fin n → Fin n → ℝ)
    (T V : Dual (Dual ℝ)) (N : Fin n → Dual (Dual ℝ)) (v : FMTVersion) (o : PcSaftOptions ℝ)
    (h : Admissible (fromRecords pr k) T.re.re V.re.re (fun i => (N i).re.re)) (hpos : ∀ i, 0 < (N i).re.re)
    (hv : n ≠ 1 ∨ v = .KierlikRosinberg) (hq : (fromRecords pr k).nquadpole ≤ 1)
    (hdq : o.dq_variant = .DQ35 ∨ (fromRecords pr k).ndipole = 0 ∨ (fromRecords pr k).nquadpole = 0)
    (hrho : f64EPSILON < ∑ i, (N i).re.re / V.re.re)
    (hr : ∀ ct ∈ buildContributions (fromRecords pr k) o,
      Regular (fromRecords pr k) T.re.re V.re.re (fun i => (N i).re.re) ct) (dim : ℕ) :
    ∃ (d : Dual (Dual ℝ)) (phis : List (Dual (Dual ℝ))),
      (Eos.withOptions (fromRecords pr k) o).residualHelmholtz laD (StateHD.new T V N) = .ok d
      ∧ (Functional.withOptions (fromRecords pr k) v o).contributions.map
          (fun ct => ct.mixtureBulk laD (fromRecords pr k) dim T (fun i => N i / V))
        = phis.map (fun phi => some (.ok (.ok [phi])))
      ∧ d = V * (total phis + idealChain (fromRecords pr k).m f64EPSILON (fun i => N i / V)) :=
  bulk_total complete_rho2 anyLinAlg laD pr k T V N v o h hpos hv hq hdq hrho hr dim

/-- C77 in third order dual numbers: all third derivatives, mixed ones included, agree. -/
theorem C77_bulk_third_order (laD : LinAlg ℝ (Dual (Dual (Dual ℝ)))) (pr : Fin n → PureRecord ℝ) (k : Fin n → Fin n → ℝ)
    (T V : Dual (Dual (Dual ℝ))) (N : Fin n → Dual (Dual (Dual ℝ))) (v : FMTVersion) (o : PcSaftOptions ℝ)
    (h : Admissible (fromRecords pr k) T.re.re.re V.re.re.re (fun i => (N i).re.re.re)) (hpos : ∀ i, 0 < (N i).re.re.re)
    (hv : n ≠ 1 ∨ v = .KierlikRosinberg) (hq : (fromRecords pr k).nquadpole ≤ 1)
    (hdq : o.dq_variant = .DQ35 ∨ (fromRecords pr k).ndipole = 0 ∨ (fromRecords pr k).nquadpole = 0)
    (hrho : f64EPSILON < ∑ i, (N i).re.re.re / V.re.re.re)
    (hr : ∀ ct ∈ buildContributions (fromRecords pr k) o,
      Regular (fromRecords pr k) T.re.re.re V.re.re.re (fun i => (N i).re.re.re) ct) (dim : ℕ) :
    ∃ (d : Dual (Dual (Dual ℝ))) (phis : List (Dual (Dual (Dual ℝ)))),
      (Eos.withOptions (fromRecords pr k) o).residualHelmholtz laD (StateHD.new T V N) = .ok d
      ∧ (Functional.withOptions (fromRecords pr k) v o).contributions.map
          (fun ct => ct.mixtureBulk laD (fromRecords pr k) dim T (fun i => N i / V))
        = phis.map (fun phi => some (.ok (.ok [phi])))
      ∧ d = V * (total phis + idealChain (fromRecords pr k).m f64EPSILON (fun i => N i / V)) :=
  bulk_total complete_rho3 anyLinAlg laD pr k T V N v o h hpos hv hq hdq hrho hr dim

theorem sumFin_eps (f : Fin n → Dual ℝ) : (sumFin f).eps = ∑ i, (f i).eps := by
  have key : ∀ (n : ℕ) (f : Fin n → Dual ℝ) (a : Dual ℝ),
      (Fin.foldl n (fun acc i => acc + f i) a).eps = a.eps + ∑ i, (f i).eps := by
    intro n
    induction n with
    | zero => intro f a; simp
    | succ n ih =>
      intro f a
      rw [Fin.foldl_succ, ih, Fin.sum_univ_succ, ← add_assoc]
      rfl
  rw [sumFin, key]
  norm_num [c, DualNum.ofF]

theorem total_eps (l : List (Dual ℝ)) : (total l).eps = (l.map Dual.eps).sum := by
  induction l with
  | nil => norm_num [total, c, DualNum.ofF]
  | cons a l ih =>
    rw [List.map_cons, List.sum_cons, ← ih]
    rfl

/-- C77: the residual chemical potential of component `j` is the derivative of the contributions of the functional with
respect to its density plus the chemical potential of the ideal chain. -/
theorem C77_chemical_potential (laD : LinAlg ℝ (Dual ℝ)) (pr : Fin n → PureRecord ℝ) (k : Fin n → Fin n → ℝ)
    (T V : ℝ) (N : Fin n → ℝ) (v : FMTVersion) (o : PcSaftOptions ℝ)
    (h : Admissible (fromRecords pr k) T V N) (hpos : ∀ i, 0 < N i)
    (hv : n ≠ 1 ∨ v = .KierlikRosinberg) (hq : (fromRecords pr k).nquadpole ≤ 1)
    (hdq : o.dq_variant = .DQ35 ∨ (fromRecords pr k).ndipole = 0 ∨ (fromRecords pr k).nquadpole = 0)
    (hrho : f64EPSILON < ∑ i, N i / V)
    (hr : ∀ ct ∈ buildContributions (fromRecords pr k) o, Regular (fromRecords pr k) T V N ct) (dim : ℕ) (j : Fin n) :
    ∃ (d : Dual ℝ) (phis : List (Dual ℝ)),
      (Eos.withOptions (fromRecords pr k) o).residualHelmholtz laD
        (StateHD.new ⟨T, 0⟩ ⟨V, 0⟩ (fun i => ⟨N i, if i = j then 1 else 0⟩)) = .ok d
      ∧ (Functional.withOptions (fromRecords pr k) v o).contributions.map
          (fun ct => ct.mixtureBulk laD (fromRecords pr k) dim ⟨T, 0⟩ (fun i => ⟨N i / V, if i = j then 1 / V else 0⟩))
        = phis.map (fun phi => some (.ok (.ok [phi])))
      ∧ d.eps = V * (phis.map Dual.eps).sum
          + ((pr j).model_record.m - 1)
            * (Real.log (N j / V + f64EPSILON) - 1 + N j / V / (N j / V + f64EPSILON)) := by
  have hVne := h.volume.ne'
  have erho : (fun i => (⟨N i, if i = j then 1 else 0⟩ / ⟨V, 0⟩ : Dual ℝ))
      = fun i => ⟨N i / V, if i = j then 1 / V else 0⟩ := by
    funext i
    refine Dual.ext ?_ ?_
    · show N i * DualNum.recip V = N i / V
      rw [recip_real, div_eq_mul_inv]
    · show ((if i = j then 1 else 0) * V - 0 * N i) * DualNum.recip V * DualNum.recip V = if i = j then 1 / V else 0
      rw [recip_real]
      split_ifs <;> field_simp <;> simp
  obtain ⟨d, phis, h1, h2, h3⟩ := C77_bulk_first_order laD pr k ⟨T, 0⟩ ⟨V, 0⟩ (fun i => ⟨N i, if i = j then 1 else 0⟩)
    v o h hpos hv hq hdq hrho hr dim
  rw [erho] at h2 h3
  refine ⟨d, phis, h1, h2, ?_⟩
  have e0 : (0.0 : ℝ) = 0 := by norm_num
  have hterm : ∀ i, ((⟨N i / V, if i = j then 1 / V else 0⟩ : Dual ℝ) * c ((fromRecords pr k).m i - 1)
      * (DualNum.ln ((⟨N i / V, if i = j then 1 / V else 0⟩ : Dual ℝ) + c f64EPSILON) - c (1 : ℝ))).eps
      = if i = j then 1 / V * (((pr j).model_record.m - 1)
        * (Real.log (N j / V + f64EPSILON) - 1 + N j / V / (N j / V + f64EPSILON))) else 0 := by
    intro i
    show (((if i = j then 1 / V else 0) * ((fromRecords pr k).m i - 1) + 0.0 * (N i / V))
        * (Real.log (N i / V + f64EPSILON) - 1)
      + (((if i = j then 1 / V else 0) + 0.0) * DualNum.recip (N i / V + f64EPSILON) - 0.0) * (N i / V * ((fromRecords pr k).m i - 1))) = _
    rw [e0, recip_real]
    split_ifs with hi
    · subst hi
      show ((1 / V) * ((pr i).model_record.m - 1) + 0 * (N i / V)) * _ + _ * (N i / V * ((pr i).model_record.m - 1)) = _
      ring
    · ring
  rw [h3]
  show 0 * _ + (_ + _) * V = _
  rw [total_eps, idealChain, sumFin_eps, Finset.sum_congr rfl fun i _ => hterm i, Finset.sum_ite_eq' Finset.univ j]
  simp only [Finset.mem_univ, if_true]
  field_simp
  ring

/-- C77 on a mixture of an associating and an inert component, seeded in any direction -/
example (laD : LinAlg ℝ (Dual ℝ)) (T' V' : ℝ) (N' : Fin 2 → ℝ) (v : FMTVersion) (dim : ℕ) :=
  C77_bulk_first_order laD assocRecords (fun _ _ => 0) ⟨300, T'⟩ ⟨1000, V'⟩ (fun i => ⟨1, N' i⟩) v PcSaftOptions.default
    assocRecords_admissible (fun _ => one_pos) (Or.inl (by norm_num)) (by rw [assocRecords_moments.2]; norm_num)
    (Or.inr (Or.inr assocRecords_moments.2)) assocRecords_density (assocRecords_regular _) dim

/-- second order -/
example (laD : LinAlg ℝ (Dual (Dual ℝ))) (t1 v1 : Dual ℝ) (x1 : Fin 2 → Dual ℝ) (t0 v0 : ℝ) (x0 : Fin 2 → ℝ)
    (v : FMTVersion) (dim : ℕ) :=
  C77_bulk_second_order laD assocRecords (fun _ _ => 0) ⟨⟨300, t0⟩, t1⟩ ⟨⟨1000, v0⟩, v1⟩ (fun i => ⟨⟨1, x0 i⟩, x1 i⟩)
    v PcSaftOptions.default assocRecords_admissible (fun _ => one_pos) (Or.inl (by norm_num))
    (by rw [assocRecords_moments.2]; norm_num) (Or.inr (Or.inr assocRecords_moments.2)) assocRecords_density
    (assocRecords_regular _) dim

/-- third order: the third derivative in the volume -/
example (laD : LinAlg ℝ (Dual (Dual (Dual ℝ)))) (v : FMTVersion) (dim : ℕ) :=
  C77_bulk_third_order laD assocRecords (fun _ _ => 0) (c 300) ⟨⟨⟨1000, 1⟩, ⟨1, 0⟩⟩, ⟨⟨1, 0⟩, ⟨0, 0⟩⟩⟩ (fun _ => c 1)
    v PcSaftOptions.default assocRecords_admissible (fun _ => one_pos) (Or.inl (by norm_num))
    (by rw [assocRecords_moments.2]; norm_num) (Or.inr (Or.inr assocRecords_moments.2)) assocRecords_density
    (assocRecords_regular _) dim

/-- chemical potential of the associating component -/
example (laD : LinAlg ℝ (Dual ℝ)) (v : FMTVersion) (dim : ℕ) :=
  C77_chemical_potential laD assocRecords (fun _ _ => 0) 300 1000 (fun _ => 1) v PcSaftOptions.default
    assocRecords_admissible (fun _ => one_pos) (Or.inl (by norm_num)) (by rw [assocRecords_moments.2]; norm_num)
    (Or.inr (Or.inr assocRecords_moments.2)) assocRecords_density (assocRecords_regular _) dim 0

end PcSaft.Props
