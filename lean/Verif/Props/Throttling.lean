import Verif.Lemmas.Throttling
import Verif.Props.Boyle
import Verif.Props.DiluteStability
import Verif.Props.VirialTemperature

/-!
# Properties C112 and C113: energy and enthalpy of the dilute gas, and the inversion temperature

`feos_core` takes energies from the temperature derivative of the Helmholtz energy.  Here they are compared with the
second virial coefficient and its temperature derivative, which the code computes by a different evaluation, at zero
density.
-/

open Filter Topology
open scoped ContDiff

namespace PcSaft
variable {n : ℕ}

/-- `u` is the residual internal energy over `k_B T` at given temperature and volume, `-T ∂(A / k_B T)/∂T` for the
residual Helmholtz energy `A` -/
def Spec.IsResidualEnergy (p : PcSaftParameters n ℝ) (o : PcSaftOptions ℝ) (laD : LinAlg ℝ (Dual ℝ)) (T V : ℝ)
    (N : Fin n → ℝ) (u : ℝ) : Prop :=
  ∃ d : Dual ℝ, (Eos.withOptions p o).residualHelmholtz laD (StateHD.new ⟨T, 1⟩ ⟨V, 0⟩ (fun i => ⟨N i, 0⟩)) = .ok d
    ∧ u = -(T * d.eps)

/-- `h` is the residual enthalpy over `k_B T`: the residual energy and `P V` less that of the ideal gas -/
def Spec.IsResidualEnthalpy (p : PcSaftParameters n ℝ) (o : PcSaftOptions ℝ) (laD : LinAlg ℝ (Dual ℝ)) (T V : ℝ)
    (N : Fin n → ℝ) (h : ℝ) : Prop :=
  ∃ u P, Spec.IsResidualEnergy p o laD T V N u ∧ Spec.IsPressure p o laD T V N P ∧ h = u + (P * V - ∑ i, N i)

namespace Props
open PcSaft Spec Dual2

section
variable {pr : Fin n → PureRecord ℝ} {k : Fin n → Fin n → ℝ} {T : ℝ} {N : Fin n → ℝ} {V₁ : ℝ}

/-- what the polar contributions need holds at neighbouring temperatures as well -/
theorem diluteRegular_eventually (h : Admissible (fromRecords pr k) T V₁ N) (ct : Contribution ℝ)
    (hd : DiluteRegular (fromRecords pr k) T N ct) : ∀ᶠ T' in 𝓝 T, DiluteRegular (fromRecords pr k) T' N ct := by
  have hp := ParamRel.refl (fromRecords pr k)
  have hsij := PcSaft.sigma_ij_ne h
  have hT : (repSmooth T).R (fun x => x) T := ⟨contDiffAt_id, rfl⟩
  have h0 : (repSmooth T).R (fun _ => (0 : ℝ)) 0 := ⟨contDiffAt_const, rfl⟩
  have hN : ∀ i, (repSmooth T).R (fun _ => N i) (N i) := fun i => ⟨contDiffAt_const, rfl⟩
  cases ct with
  | dipole => exact ((repSmooth T).continuousAt (rep_dipolePhi2 lawfulEmb_id hp h.m_pos hsij hT h.temperature.ne' h0
      hN)).eventually_ne hd
  | quadrupole => exact ((repSmooth T).continuousAt (rep_quadrupolePhi2 lawfulEmb_id hp h.m_pos hsij hT h.temperature.ne'
      h0 hN)).eventually_ne hd
  | dipoleQuadrupole v => exact ((repSmooth T).continuousAt (rep_dipoleQuadrupolePhi2 lawfulEmb_id hp v h.m_pos hsij
      (fun i => (h.sigma_pos i).ne') hT h.temperature.ne' h0 hN)).eventually_ne hd
  | hardSphere => exact .of_forall fun _ => trivial
  | hardChain => exact .of_forall fun _ => trivial
  | dispersion => exact .of_forall fun _ => trivial
  | association => exact .of_forall fun _ => hd
  | crossAssociation _ _ => exact .of_forall fun _ => trivial

/-- the energy of the dilute gas as one smooth function, whose second derivative with respect to density is the second
virial coefficient at all neighbouring temperatures -/
theorem dilute_coefficient (hr : PositiveRecords pr) (hk : ∀ i, 0 ≤ (fromRecords pr k).kappa_ab i)
    (h : Admissible (fromRecords pr k) T V₁ N) (o : PcSaftOptions ℝ)
    (hd : ∀ ct ∈ buildContributions (fromRecords pr k) o, DiluteRegular (fromRecords pr k) T N ct)
    (hnb : ∀ a ∈ (fromRecords pr k).assoc_comp, 0 < (fromRecords pr k).nb a) (laX : LinAlg XReal XDual2) {B : ℝ → ℝ}
    (hB : ∀ T, 0 < T → IsSecondVirial pr k o laX T (fun i => N i / ∑ j, N j) (B T)) :
    ∃ F, Dilute F (T, N) ∧ DiluteIntensive F
      ∧ (∀ᶠ T' in 𝓝 T, diluteCurvature F (T', N) = 2 * ((∑ i, N i) ^ 2 * B T'))
      ∧ ∀ᶠ V : ℝ in atTop, ∀ (X D : Type) (_ : TopologicalSpace X) (_ : DualNum ℝ D)
      (x0 : X) (ρ : Rep x0 Same D) (Tf Vf : X → ℝ) (Nf : Fin n → X → ℝ) (Td Vd : D) (Nd : Fin n → D),
      ρ.R Tf Td → ρ.R Vf Vd → (∀ i, ρ.R (Nf i) (Nd i)) → Tf x0 = T → Vf x0 = V → (fun i => Nf i x0) = N →
      ∀ laD : LinAlg ℝ D, ∃ d : D, (Eos.withOptions (fromRecords pr k) o).residualHelmholtz laD (StateHD.new Td Vd Nd)
        = .ok d ∧ ρ.R (fun x => Vf x * F (1 / Vf x, (Tf x, fun i => Nf i x))) d := by
  have hN := h.total_pos
  set ν := ∑ i, N i with hν
  have hx : ∑ i, N i / ν = 1 := by rw [← Finset.sum_div, ← hν, div_self hN.ne']
  have h0 : ∀ i, 0 ≤ N i / ν := fun i => div_nonneg (h.moles_nonneg i) hN.le
  let la : LinAlg ℝ ℝ := noSolver
  obtain ⟨F, hF, hFi, hev⟩ := dilute_rep_residual h o hd
  have hu : ∀ a : ℝ, 0 < a → Tendsto (fun V : ℝ => a / V) atTop (𝓝[≠] 0) := fun a ha =>
    tendsto_nhdsWithin_iff.2 ⟨tendsto_const_nhds.div_atTop tendsto_id, (eventually_gt_atTop 0).mono fun V hV =>
      (div_pos ha hV).ne'⟩
  -- the coefficient at neighbouring temperatures
  have hreg : ∀ᶠ T' in 𝓝 T, ∀ ct ∈ buildContributions (fromRecords pr k) o, DiluteRegular (fromRecords pr k) T' N ct := by
    have : ∀ l : List (Contribution ℝ), (∀ ct ∈ l, DiluteRegular (fromRecords pr k) T N ct) →
        ∀ᶠ T' in 𝓝 T, ∀ ct ∈ l, DiluteRegular (fromRecords pr k) T' N ct := by
      intro l
      induction l with
      | nil => exact fun _ => .of_forall fun _ ct hct => absurd hct List.not_mem_nil
      | cons a l ih =>
        intro hl
        filter_upwards [diluteRegular_eventually h a (hl a (by simp)), ih fun ct hct => hl ct (by simp [hct])]
          with T' h1 h2 ct hct
        rcases List.mem_cons.1 hct with rfl | h3
        · exact h1
        · exact h2 ct h3
    exact this _ hd
  have hdil : ∀ᶠ T' in 𝓝 T, Dilute F (T', N) := by
    have : Tendsto (fun T' : ℝ => (T', N)) (𝓝 T) (𝓝 (T, N)) := (Continuous.prodMk_left N).tendsto T
    exact this.eventually hF.eventually
  have hcoeff : ∀ᶠ T' in 𝓝 T, diluteCurvature F (T', N) = 2 * (ν ^ 2 * B T') := by
    filter_upwards [hreg, hdil, lt_mem_nhds h.temperature] with T' g1 g2 g3
    obtain ⟨b, hb, E, hE, hlim⟩ := virial_total hr hk g3 h0 hx la laX o
      (fun ct hct => diluteRegular_composition hr hN.ne' ct (g1 ct hct)) hnb
    have eb := virial_unique hb (hB T' g3)
    subst eb
    have hFE : ∀ᶠ V : ℝ in atTop, F (1 / V, (T', N)) = E (ν / V) := by
      filter_upwards [hev, (hu ν hN).eventually hE, eventually_gt_atTop 0] with V h1 h2 hV
      have e1 : StateHD.new T' V N = StateHD.new T' (V * 1) (fun i => V * (N i / ν * (ν / V))) := by
        rw [mul_one]
        congr 1
        funext i
        field_simp
      have h3 := h1.1 la T'
      rw [e1, C14_residual_extensive la _ T' 1 _ V hV, h2] at h3
      have h4 : V * E (ν / V) = V * F (1 / V, (T', N)) := Except.ok.inj h3
      exact (mul_left_cancel₀ hV.ne' h4).symm
    have t1 : Tendsto (fun V : ℝ => V ^ 2 * F (1 / V, (T', N))) atTop (𝓝 (diluteCurvature F (T', N) / 2)) := by
      refine (g2.second_curvature.1.comp (hu 1 one_pos)).congr' ?_
      filter_upwards [eventually_gt_atTop 0] with V hV
      simp only [Function.comp_apply]
      field_simp
    have t2 : Tendsto (fun V : ℝ => V ^ 2 * F (1 / V, (T', N))) atTop (𝓝 (ν ^ 2 * B T')) := by
      refine ((hlim.comp (hu ν hN)).const_mul (ν ^ 2)).congr' ?_
      filter_upwards [eventually_gt_atTop 0, hFE] with V hV e
      simp only [Function.comp_apply]
      rw [e]
      field_simp
    have es := tendsto_nhds_unique t1 t2
    linarith
  exact ⟨F, hF, hFi, hcoeff, hev.mono fun V hV => hV.2⟩

/-- the residual energy of the dilute gas -/
theorem dilute_energy (hr : PositiveRecords pr) (hk : ∀ i, 0 ≤ (fromRecords pr k).kappa_ab i)
    (h : Admissible (fromRecords pr k) T V₁ N) (o : PcSaftOptions ℝ)
    (hd : ∀ ct ∈ buildContributions (fromRecords pr k) o, DiluteRegular (fromRecords pr k) T N ct)
    (hnb : ∀ a ∈ (fromRecords pr k).assoc_comp, 0 < (fromRecords pr k).nb a) (laX : LinAlg XReal XDual2)
    (laD : LinAlg ℝ (Dual ℝ)) {B : ℝ → ℝ} {b' : ℝ}
    (hB : ∀ T, 0 < T → IsSecondVirial pr k o laX T (fun i => N i / ∑ j, N j) (B T)) (hB' : HasDerivAt B b' T) :
    ∃ u : ℝ → ℝ, (∀ᶠ V : ℝ in atTop, IsResidualEnergy (fromRecords pr k) o laD T V N (u V))
      ∧ Tendsto (fun V => u V * V / (∑ i, N i) ^ 2) atTop (𝓝 (-(T * b'))) := by
  have hN := h.total_pos
  obtain ⟨F, hF, -, hcoeff, hev⟩ := dilute_coefficient hr hk h o hd hnb laX hB
  set ν := ∑ i, N i with hν
  have hu : ∀ a : ℝ, 0 < a → Tendsto (fun V : ℝ => a / V) atTop (𝓝[≠] 0) := fun a ha =>
    tendsto_nhdsWithin_iff.2 ⟨tendsto_const_nhds.div_atTop tendsto_id, (eventually_gt_atTop 0).mono fun V hV =>
      (div_pos ha hV).ne'⟩
  -- its derivative
  set G : ℝ × (ℝ × (Fin n → ℝ)) → ℝ := fun x => fderiv ℝ F x (0, ((1 : ℝ), (0 : Fin n → ℝ))) with hG
  have hGd : Dilute G (T, N) := hF.derivative _
  have hgs : diluteCurvature G (T, N) = 2 * (ν ^ 2 * b') := by
    have h1 := hF.curvature_derivative ((1 : ℝ), (0 : Fin n → ℝ))
    have h2 : HasDerivAt (fun r : ℝ => 2 * (ν ^ 2 * B (T + r))) (2 * (ν ^ 2 * b')) 0 := by
      have h3 : HasDerivAt (fun r : ℝ => B (T + r)) b' 0 := by
        have := HasDerivAt.comp (0 : ℝ) (h₂ := B) (h := fun r : ℝ => T + r) (by simpa using hB')
          ((hasDerivAt_id (0 : ℝ)).const_add T)
        simpa [Function.comp_def] using this
      exact (h3.const_mul _).const_mul _
    refine h1.unique (h2.congr_of_eventuallyEq ?_)
    have ht : Tendsto (fun r : ℝ => T + r) (𝓝 0) (𝓝 T) := by
      have : Continuous fun r : ℝ => T + r := by fun_prop
      simpa using this.tendsto 0
    filter_upwards [ht.eventually hcoeff] with r hr'
    rw [← hr']
    simp
  refine ⟨fun V => -(T * (V * G (1 / V, (T, N)))), ?_, ?_⟩
  · filter_upwards [hev, eventually_gt_atTop 0, hF.eventually_smooth] with V q hV hs
    obtain ⟨d, h1, h2⟩ := q _ _ _ _ _ rho1 _ _ _ _ _ _ (rho1_seed T 1) (rho1_seed V 0) (fun i => rho1_seed (N i) 0)
      (by simp) (by simp) (by simp) laD
    refine ⟨d, h1, ?_⟩
    have h3 := (jet1_of h2).2
    have h4 := (hasDerivAt_line (u := ((0 : ℝ), ((1 : ℝ), (0 : Fin n → ℝ)))) (hs.differentiableAt (by simp))).const_mul V
    have e : d.eps = V * G (1 / V, (T, N)) := by
      refine h3.unique (h4.congr_of_eventuallyEq (.of_forall fun s => ?_))
      have e2 : ((1 / V, (T, N)) : ℝ × (ℝ × (Fin n → ℝ))) + s • ((0 : ℝ), ((1 : ℝ), (0 : Fin n → ℝ)))
          = (1 / V, (T + s * 1, N)) := by
        simp
      simp only [e2, mul_zero, add_zero]
    rw [e]
  · have t1 := hGd.second_curvature.1.comp (hu 1 one_pos)
    have t2 := (t1.const_mul (-T / ν ^ 2))
    have e : -T / ν ^ 2 * (diluteCurvature G (T, N) / 2) = -(T * b') := by
      rw [hgs]
      have := hN.ne'
      field_simp
    rw [e] at t2
    refine t2.congr' ?_
    filter_upwards [eventually_gt_atTop 0] with V hV
    simp only [Function.comp_apply]
    have := hN.ne'
    field_simp

/-- C112: energy and enthalpy of the dilute gas follow from the virial coefficients that the code returns: at large
volumes the residual energy is `-T b' N² / V` and the residual enthalpy is `(b - T b') N² / V`, in units of `k_B T`, with
the second virial coefficient `b` and its temperature derivative `b'`.  This holds for mixtures, with all
contributions. -/
theorem C112_dilute_enthalpy (hr : PositiveRecords pr) (hk : ∀ i, 0 ≤ (fromRecords pr k).kappa_ab i)
    (h : Admissible (fromRecords pr k) T V₁ N) (o : PcSaftOptions ℝ)
    (hd : ∀ ct ∈ buildContributions (fromRecords pr k) o, DiluteRegular (fromRecords pr k) T N ct)
    (hna : ∀ a ∈ (fromRecords pr k).assoc_comp, 0 < (fromRecords pr k).na a)
    (hnb : ∀ a ∈ (fromRecords pr k).assoc_comp, 0 < (fromRecords pr k).nb a) (laX : LinAlg XReal XDual2)
    (laX' : LinAlg XReal XDual3) (laD : LinAlg ℝ (Dual ℝ)) :
    ∃ b b', IsSecondVirial pr k o laX T (fun i => N i / ∑ j, N j) b
      ∧ IsSecondVirialSlope pr k o laX' T (fun i => N i / ∑ j, N j) b b'
      ∧ ∀ ε, 0 < ε → ∃ V₀, ∀ V, V₀ ≤ V → ∃ u w, IsResidualEnergy (fromRecords pr k) o laD T V N u
        ∧ IsResidualEnthalpy (fromRecords pr k) o laD T V N w
        ∧ |u * (V / (∑ i, N i) ^ 2) - -(T * b')| ≤ ε ∧ |w * (V / (∑ i, N i) ^ 2) - (b - T * b')| ≤ ε := by
  have hN := h.total_pos
  have hx : ∑ i, N i / ∑ j, N j = 1 := by rw [← Finset.sum_div, div_self hN.ne']
  have h0 : ∀ i, 0 ≤ N i / ∑ j, N j := fun i => div_nonneg (h.moles_nonneg i) hN.le
  obtain ⟨B, B', hB⟩ := C110_second hr hk h0 hx o hna hnb laX laX'
  obtain ⟨g1, g2, g3⟩ := hB T h.temperature
  refine ⟨B T, B' T, g1, g2, fun ε hε => ?_⟩
  obtain ⟨u, hu1, hu2⟩ := dilute_energy hr hk h o hd hnb laX laD (fun T hT => (hB T hT).1) g3
  obtain ⟨b, hb, hP⟩ := C97_slope hr hk h o hd hnb laX laD
  rw [virial_unique hb g1] at hP
  obtain ⟨V₂, hV₂⟩ := hP (ε / 2) (by linarith)
  obtain ⟨V₃, hV₃⟩ := eventually_atTop.1 (hu1.and ((hu2.eventually (Metric.closedBall_mem_nhds _ (half_pos hε))).and
    (eventually_gt_atTop 0)))
  refine ⟨max V₂ V₃, fun V hV => ?_⟩
  obtain ⟨P, hP1, hP2⟩ := hV₂ V ((le_max_left _ _).trans hV)
  obtain ⟨f1, f2, hV0⟩ := hV₃ V ((le_max_right _ _).trans hV)
  change dist _ _ ≤ _ at f2
  rw [Real.dist_eq] at f2
  have e1 : u V * V / (∑ i, N i) ^ 2 = u V * (V / (∑ i, N i) ^ 2) := by ring
  rw [e1] at f2
  refine ⟨u V, _, f1, ⟨u V, P, f1, hP1, rfl⟩, by linarith, ?_⟩
  have e2 : (u V + (P * V - ∑ i, N i)) * (V / (∑ i, N i) ^ 2) - (B T - T * B' T)
      = (u V * (V / (∑ i, N i) ^ 2) - -(T * B' T))
        + ((P * V / (∑ i, N i) - 1) * (V / ∑ i, N i) - B T) := by
    have := hN.ne'
    field_simp
    ring
  rw [e2]
  refine (abs_add_le _ _).trans ?_
  linarith

/-- C112, the sign: the residual enthalpy of the dilute gas is negative where `b < T b'`, so that the gas cools when it
is throttled, and positive where `T b' < b`. -/
theorem C112_sign (hr : PositiveRecords pr) (hk : ∀ i, 0 ≤ (fromRecords pr k).kappa_ab i)
    (h : Admissible (fromRecords pr k) T V₁ N) (o : PcSaftOptions ℝ)
    (hd : ∀ ct ∈ buildContributions (fromRecords pr k) o, DiluteRegular (fromRecords pr k) T N ct)
    (hna : ∀ a ∈ (fromRecords pr k).assoc_comp, 0 < (fromRecords pr k).na a)
    (hnb : ∀ a ∈ (fromRecords pr k).assoc_comp, 0 < (fromRecords pr k).nb a)
    (laX' : LinAlg XReal XDual3) (laD : LinAlg ℝ (Dual ℝ)) {b b' : ℝ}
    (hb : IsSecondVirialSlope pr k o laX' T (fun i => N i / ∑ j, N j) b b') :
    (b < T * b' → ∃ V₀, ∀ V, V₀ ≤ V → ∃ w, IsResidualEnthalpy (fromRecords pr k) o laD T V N w ∧ w < 0)
    ∧ (T * b' < b → ∃ V₀, ∀ V, V₀ ≤ V → ∃ w, IsResidualEnthalpy (fromRecords pr k) o laD T V N w ∧ 0 < w) := by
  let laX : LinAlg XReal XDual2 := ⟨fun _ _ _ => none, fun _ _ _ => none, 0⟩
  obtain ⟨b₁, b₁', -, hs, hlim⟩ := C112_dilute_enthalpy hr hk h o hd hna hnb laX laX' laD
  have hN := h.total_pos
  have e : b₁ = b ∧ b₁' = b' := by
    obtain ⟨d, h1, h2, h3⟩ := hb
    obtain ⟨d', h1', h2', h3'⟩ := hs
    have ed : d = d' := Except.ok.inj (h1.symm.trans h1')
    subst ed
    have g1 := XReal.fin.inj (h2'.symm.trans h2)
    have g2 := XReal.fin.inj (h3'.symm.trans h3)
    exact ⟨by linarith, by linarith⟩
  obtain ⟨rfl, rfl⟩ := e
  constructor
  · intro hneg
    obtain ⟨V₀, hV₀⟩ := hlim ((T * b₁' - b₁) / 2) (by linarith)
    refine ⟨max V₀ 1, fun V hV => ?_⟩
    have hV1 : 0 < V := lt_of_lt_of_le one_pos ((le_max_right _ _).trans hV)
    obtain ⟨u, w, -, hw, -, hle⟩ := hV₀ V ((le_max_left _ _).trans hV)
    refine ⟨w, hw, ?_⟩
    have h1 := (abs_le.1 hle).2
    have h3 : 0 < V / (∑ i, N i) ^ 2 := by positivity
    by_contra hc
    have := mul_nonneg (not_lt.1 hc) h3.le
    linarith
  · intro hpos
    obtain ⟨V₀, hV₀⟩ := hlim ((b₁ - T * b₁') / 2) (by linarith)
    refine ⟨max V₀ 1, fun V hV => ?_⟩
    have hV1 : 0 < V := lt_of_lt_of_le one_pos ((le_max_right _ _).trans hV)
    obtain ⟨u, w, -, hw, -, hle⟩ := hV₀ V ((le_max_left _ _).trans hV)
    refine ⟨w, hw, ?_⟩
    have h1 := (abs_le.1 hle).1
    have h3 : 0 < V / (∑ i, N i) ^ 2 := by positivity
    by_contra hc
    have := mul_nonpos_of_nonpos_of_nonneg (not_lt.1 hc) h3.le
    linarith

end

/-! ## Pure substances without moments -/

section
variable {pr : Fin 1 → PureRecord ℝ} {k : Fin 1 → Fin 1 → ℝ} {T : ℝ}

/-- a pure substance at a volume large enough -/
theorem pure_admissible (hr : PositiveRecords pr) (hT : 0 < T) {N : ℝ} (hN : 0 < N) :
    Admissible (fromRecords pr k) T (Real.pi * ((fromRecords pr k).m 0 * hsDiameter (fromRecords pr k) T 0 ^ 3 * N))
      (fun _ => N) := by
  have hd0 := virial_diameter_pos (k := k) hr hT 0
  have hv : 0 < (fromRecords pr k).m 0 * hsDiameter (fromRecords pr k) T 0 ^ 3 * N :=
    mul_pos (mul_pos (hr.m 0) (pow_pos hd0 3)) hN
  refine ⟨hT, by positivity, hr.m, hr.sigma, fun i => (hr.epsilon i).le, fun _ => hN.le, ⟨0, hN.ne'⟩, ?_⟩
  rw [hsDiameter_eq_spec] at hv ⊢
  simp only [Spec.packingFraction, Finset.univ_unique, Fin.default_eq_zero, Finset.sum_singleton]
  rw [div_lt_one (by positivity)]
  nlinarith [Real.pi_pos]

theorem pure_regular (hmu : (fromRecords pr k).mu 0 = 0) (hq : (fromRecords pr k).q 0 = 0)
    (hs : (fromRecords pr k).kappa_ab 0 ≠ 0 → 0 < (fromRecords pr k).na 0) (o : PcSaftOptions ℝ) (N : Fin 1 → ℝ) :
    ∀ ct ∈ buildContributions (fromRecords pr k) o, DiluteRegular (fromRecords pr k) T N ct := by
  intro ct hct
  rcases pure_contributions hmu hq o with ⟨-, hc⟩ | ⟨hkz, hl, hc⟩
  · rw [hc] at hct
    simp only [List.mem_cons, List.not_mem_nil, or_false] at hct
    rcases hct with rfl | rfl | rfl <;> trivial
  · rw [hc] at hct
    simp only [List.mem_cons, List.not_mem_nil, or_false] at hct
    rcases hct with rfl | rfl | rfl | rfl
    · trivial
    · trivial
    · trivial
    · exact ⟨0, hl, hs hkz⟩

/-- the coefficient of the enthalpy as a function of temperature -/
theorem pure_inversion (hr : PositiveRecords pr) (hm : 4 / 5 ≤ (pr 0).model_record.m)
    (hk : 0 ≤ (fromRecords pr k).kappa_ab 0)
    (hs : (fromRecords pr k).kappa_ab 0 ≠ 0 → 0 ≤ (fromRecords pr k).epsilon_k_ab 0 ∧ 0 < (fromRecords pr k).na 0
      ∧ 0 < (fromRecords pr k).nb 0) :
    let B := fun T : ℝ => Real.pi * (pr 0).model_record.m * (pr 0).model_record.sigma ^ 3
          * boyleForm (pr 0).model_record.m ((pr 0).model_record.epsilon_k / T) - bondVirial (fromRecords pr k) T
    ∃ B' : ℝ → ℝ, (∀ T, 0 < T → HasDerivAt B (B' T) T ∧ 0 < B' T)
      ∧ StrictMonoOn (fun T => B T - T * B' T) (Set.Ioi 0) ∧ ∃ TI, 0 < TI ∧ B TI - TI * B' TI = 0 := by
  have h1 := hr.m 0
  have h2 := hr.sigma 0
  have hA : 0 < Real.pi * (pr 0).model_record.m * (pr 0).model_record.sigma ^ 3 := by positivity
  by_cases hkz : (fromRecords pr k).kappa_ab 0 = 0
  · have e : ∀ T, bondVirial (fromRecords pr k) T = 0 * (Real.exp (0 / T) - 1) := fun T => by
      rw [bondVirial, if_pos hkz, zero_mul]
    simp only [e]
    exact inversion_temperature hm (hr.epsilon 0) hA le_rfl le_rfl
  · obtain ⟨s1, s2, s3⟩ := hs hkz
    have h3 : 0 < (fromRecords pr k).sigma 0 := h2
    have e : ∀ T, bondVirial (fromRecords pr k) T = (fromRecords pr k).na 0 * (fromRecords pr k).nb 0
        * (fromRecords pr k).sigma 0 ^ 3 * (fromRecords pr k).kappa_ab 0
          * (Real.exp ((fromRecords pr k).epsilon_k_ab 0 / T) - 1) := fun T => by
      rw [bondVirial, if_neg hkz]
    simp only [e]
    exact inversion_temperature hm (hr.epsilon 0) hA (by positivity) s1

variable (hr : PositiveRecords pr) (hm : 4 / 5 ≤ (pr 0).model_record.m)
  (hk : 0 ≤ (fromRecords pr k).kappa_ab 0) (hmu : (fromRecords pr k).mu 0 = 0) (hq : (fromRecords pr k).q 0 = 0)
  (hs : (fromRecords pr k).kappa_ab 0 ≠ 0 → 0 ≤ (fromRecords pr k).epsilon_k_ab 0 ∧ 0 < (fromRecords pr k).na 0
    ∧ 0 < (fromRecords pr k).nb 0) (h00 : k 0 0 = 0)
include hr hm hk hmu hq hs h00

/-- C113: a pure substance without moments, associating or not, has exactly one inversion temperature, above its Boyle
temperature.  The evaluation that gives the second virial coefficient and its temperature derivative succeeds at every
temperature.  The derivative is positive. -/
theorem C113_inversion_partial (o : PcSaftOptions ℝ) (laX' : LinAlg XReal XDual3) :
    ∃ TB TI, 0 < TB ∧ TB < TI ∧ ∀ T, 0 < T → ∃ b b', IsSecondVirialSlope pr k o laX' T (fun _ => 1) b b' ∧ 0 < b'
      ∧ (b < 0 ↔ T < TB) ∧ (b < T * b' ↔ T < TI) ∧ (b = T * b' ↔ T = TI) ∧ (T * b' < b ↔ TI < T) := by
  let laX : LinAlg XReal XDual2 := ⟨fun _ _ _ => none, fun _ _ _ => none, 0⟩
  have hk' : ∀ i, 0 ≤ (fromRecords pr k).kappa_ab i := fun i => by
    rw [Subsingleton.elim i 0]
    exact hk
  have hsites : ∀ a ∈ (fromRecords pr k).assoc_comp, 0 < (fromRecords pr k).na a ∧ 0 < (fromRecords pr k).nb a :=
    fun a ha => by
      rw [mem_assoc_comp, Subsingleton.elim a 0] at ha
      rw [Subsingleton.elim a 0]
      exact (hs ha).2
  obtain ⟨mono, TB, hTB, hz⟩ := pure_virial_boyle hr hm hk hs
  obtain ⟨B', hB', mono', TI, hTI, hz'⟩ := pure_inversion hr hm hk hs
  set B := fun T : ℝ => Real.pi * (pr 0).model_record.m * (pr 0).model_record.sigma ^ 3
          * boyleForm (pr 0).model_record.m ((pr 0).model_record.epsilon_k / T) - bondVirial (fromRecords pr k) T with hBdef
  obtain ⟨C, C', hC⟩ := C110_second (x := fun _ : Fin 1 => (1 : ℝ)) hr hk' (fun _ => zero_le_one) (by simp) o
    (fun a ha => (hsites a ha).1) (fun a ha => (hsites a ha).2) laX laX'
  have eC : ∀ T, 0 < T → C T = B T := fun T hT =>
    virial_unique (hC T hT).1 (pure_virial hr hk hmu hq hs h00 hT o laX)
  have eC' : ∀ T, 0 < T → C' T = B' T := fun T hT => by
    refine (hC T hT).2.2.unique ((hB' T hT).1.congr_of_eventuallyEq ?_)
    filter_upwards [lt_mem_nhds hT] with t ht
    exact eC t ht
  have hlt : TB < TI := by
    refine (mono'.lt_iff_lt (Set.mem_Ioi.2 hTB) (Set.mem_Ioi.2 hTI)).1 ?_
    change B TB - TB * B' TB < B TI - TI * B' TI
    have h1 : B TB = 0 := hz
    have h2 := mul_pos hTB (hB' TB hTB).2
    rw [hz', h1]
    linarith
  refine ⟨TB, TI, hTB, hlt, fun T hT => ⟨B T, B' T, ?_, (hB' T hT).2, ?_⟩⟩
  · rw [← eC T hT, ← eC' T hT]
    exact (hC T hT).2.1
  have h1 := mono.lt_iff_lt (Set.mem_Ioi.2 hT) (Set.mem_Ioi.2 hTB)
  have h2 := mono'.lt_iff_lt (Set.mem_Ioi.2 hT) (Set.mem_Ioi.2 hTI)
  have h3 := mono'.lt_iff_lt (Set.mem_Ioi.2 hTI) (Set.mem_Ioi.2 hT)
  have h4 := mono'.injOn.eq_iff (Set.mem_Ioi.2 hT) (Set.mem_Ioi.2 hTI)
  beta_reduce at h2 h3 h4
  rw [hz] at h1
  rw [hz'] at h2 h3 h4
  exact ⟨h1, by rw [← h2, sub_neg], by rw [← h4, sub_eq_zero], by rw [← h3, sub_pos]⟩

/-- C113, the enthalpies: below the inversion temperature the residual enthalpy of the dilute gas is negative, above it
is positive. -/
theorem C113_enthalpy_partial (o : PcSaftOptions ℝ) (laD : LinAlg ℝ (Dual ℝ)) : ∃ TI, 0 < TI ∧ ∀ T N, 0 < T → 0 < N →
    (T < TI → ∃ V₀, ∀ V, V₀ ≤ V → ∃ w, IsResidualEnthalpy (fromRecords pr k) o laD T V (fun _ => N) w ∧ w < 0)
    ∧ (TI < T → ∃ V₀, ∀ V, V₀ ≤ V → ∃ w, IsResidualEnthalpy (fromRecords pr k) o laD T V (fun _ => N) w ∧ 0 < w) := by
  let laX' : LinAlg XReal XDual3 := ⟨fun _ _ _ => none, fun _ _ _ => none, 0⟩
  have hk' : ∀ i, 0 ≤ (fromRecords pr k).kappa_ab i := fun i => by
    rw [Subsingleton.elim i 0]
    exact hk
  have hsites : ∀ a ∈ (fromRecords pr k).assoc_comp, 0 < (fromRecords pr k).na a ∧ 0 < (fromRecords pr k).nb a :=
    fun a ha => by
      rw [mem_assoc_comp, Subsingleton.elim a 0] at ha
      rw [Subsingleton.elim a 0]
      exact (hs ha).2
  obtain ⟨TB, TI, hTB, hTI, hI⟩ := C113_inversion_partial hr hm hk hmu hq hs h00 o laX'
  refine ⟨TI, hTB.trans hTI, fun T N hT hN => ?_⟩
  obtain ⟨b, b', hb, -, -, g1, -, g2⟩ := hI T hT
  have hx : (fun i : Fin 1 => N / ∑ _j : Fin 1, N) = fun _ => 1 := by
    funext i
    simp [hN.ne']
  obtain ⟨f1, f2⟩ := C112_sign hr hk' (pure_admissible (k := k) hr hT hN) o
    (pure_regular hmu hq (fun hne => (hs hne).2.1) o _) (fun a ha => (hsites a ha).1) (fun a ha => (hsites a ha).2)
    laX' laD (b := b) (b' := b') (by rw [hx]; exact hb)
  exact ⟨fun hT' => f1 (g1.2 hT'), fun hT' => f2 (g2.2 hT')⟩

/-- C113, the energies: the residual energy of the dilute gas is negative at every temperature. -/
theorem C113_energy_partial (o : PcSaftOptions ℝ) (laD : LinAlg ℝ (Dual ℝ)) {N : ℝ} (hT : 0 < T) (hN : 0 < N) :
    ∃ V₀, ∀ V, V₀ ≤ V → ∃ u, IsResidualEnergy (fromRecords pr k) o laD T V (fun _ => N) u ∧ u < 0 := by
  let laX : LinAlg XReal XDual2 := ⟨fun _ _ _ => none, fun _ _ _ => none, 0⟩
  let laX' : LinAlg XReal XDual3 := ⟨fun _ _ _ => none, fun _ _ _ => none, 0⟩
  have hk' : ∀ i, 0 ≤ (fromRecords pr k).kappa_ab i := fun i => by
    rw [Subsingleton.elim i 0]
    exact hk
  have hsites : ∀ a ∈ (fromRecords pr k).assoc_comp, 0 < (fromRecords pr k).na a ∧ 0 < (fromRecords pr k).nb a :=
    fun a ha => by
      rw [mem_assoc_comp, Subsingleton.elim a 0] at ha
      rw [Subsingleton.elim a 0]
      exact (hs ha).2
  obtain ⟨TB, TI, -, -, hI⟩ := C113_inversion_partial hr hm hk hmu hq hs h00 o laX'
  obtain ⟨b, b', ⟨d, h1, -, h3⟩, hpos, -⟩ := hI T hT
  have hx : (fun i : Fin 1 => N / ∑ _j : Fin 1, N) = fun _ => 1 := by
    funext i
    simp [hN.ne']
  obtain ⟨c₁, c', -, ⟨d', h1', -, h3'⟩, hlim⟩ := C112_dilute_enthalpy hr hk' (pure_admissible (k := k) hr hT hN) o
    (pure_regular hmu hq (fun hne => (hs hne).2.1) o _) (fun a ha => (hsites a ha).1) (fun a ha => (hsites a ha).2)
    laX laX' laD
  rw [hx] at h1'
  have ed : d = d' := Except.ok.inj (h1.symm.trans h1')
  subst ed
  have ec : c' = b' := by
    have := XReal.fin.inj (h3'.symm.trans h3)
    linarith
  subst ec
  have hTb := mul_pos hT hpos
  obtain ⟨V₀, hV₀⟩ := hlim (T * c' / 2) (by linarith)
  refine ⟨max V₀ 1, fun V hV => ?_⟩
  have hV1 : 0 < V := lt_of_lt_of_le one_pos ((le_max_right _ _).trans hV)
  obtain ⟨u, w, hu, -, hle, -⟩ := hV₀ V ((le_max_left _ _).trans hV)
  refine ⟨u, hu, ?_⟩
  have h5 := (abs_le.1 hle).2
  have h6 : 0 < V / (∑ _i : Fin 1, N) ^ 2 := by
    simp only [Finset.univ_unique, Finset.sum_singleton]
    positivity
  by_contra hc
  have := mul_nonneg (not_lt.1 hc) h6.le
  linarith

end

/-- C113 for the shipped files: every substance without moments, associating or not, has exactly one inversion
temperature, above its Boyle temperature; its dilute gas has negative residual enthalpies below the inversion
temperature and positive ones above, and negative residual energies at all temperatures. -/
theorem C113_shipped_partial {pr : Fin 1 → PureRecord ℝ} (hpr : MixtureOf Shipped.substances pr)
    (hmu : (fromRecords pr fun _ _ => 0).mu 0 = 0) (hq : (fromRecords pr fun _ _ => 0).q 0 = 0) (o : PcSaftOptions ℝ)
    (laX' : LinAlg XReal XDual3) (laD : LinAlg ℝ (Dual ℝ)) :
    (∃ TB TI, 0 < TB ∧ TB < TI ∧ ∀ T, 0 < T → ∃ b b', IsSecondVirialSlope pr (fun _ _ => 0) o laX' T (fun _ => 1) b b'
      ∧ 0 < b' ∧ (b < 0 ↔ T < TB) ∧ (b < T * b' ↔ T < TI) ∧ (b = T * b' ↔ T = TI) ∧ (T * b' < b ↔ TI < T))
    ∧ (∃ TI, 0 < TI ∧ ∀ T N, 0 < T → 0 < N →
      (T < TI → ∃ V₀, ∀ V, V₀ ≤ V → ∃ w, IsResidualEnthalpy (fromRecords pr fun _ _ => 0) o laD T V (fun _ => N) w
        ∧ w < 0)
      ∧ (TI < T → ∃ V₀, ∀ V, V₀ ≤ V → ∃ w, IsResidualEnthalpy (fromRecords pr fun _ _ => 0) o laD T V (fun _ => N) w
        ∧ 0 < w))
    ∧ ∀ T N : ℝ, 0 < T → 0 < N → ∃ V₀, ∀ V, V₀ ≤ V → ∃ u,
      IsResidualEnergy (fromRecords pr fun _ _ => 0) o laD T V (fun _ => N) u ∧ u < 0 := by
  have hp := mixture_pos (fun _ _ => 0) hpr
  have hr : PositiveRecords pr := ⟨fun i => by
    have : 4 / 5 ≤ (pr i).model_record.m := (hp i).1
    linarith, fun i => (hp i).2.1, fun i => (hp i).2.2⟩
  have hk := mixture_kappa (fun _ _ => 0) hpr 0
  obtain ⟨r, hr', -, -, -, -, -, -, -, h2, h3, h4, -⟩ := mixture_entry hpr (fun _ _ => 0) 0
  obtain ⟨-, g1, g2, g3, -⟩ := shipped_sites r hr'
  have hs : 0 ≤ (fromRecords pr fun _ _ => 0).epsilon_k_ab 0 ∧ 0 < (fromRecords pr fun _ _ => 0).na 0
      ∧ 0 < (fromRecords pr fun _ _ => 0).nb 0 := by
    rw [h2, h3, h4]
    exact ⟨by exact_mod_cast g1, by exact_mod_cast g2, by exact_mod_cast g3⟩
  exact ⟨C113_inversion_partial hr (hp 0).1 hk hmu hq (fun _ => hs) rfl o laX',
    C113_enthalpy_partial hr (hp 0).1 hk hmu hq (fun _ => hs) rfl o laD,
    fun _ _ hT hN => C113_energy_partial hr (hp 0).1 hk hmu hq (fun _ => hs) rfl o laD hT hN⟩

/-! ## Cases that meet the hypotheses -/

/-- C112 for a polar substance -/
example (laX : LinAlg XReal XDual2) (laX' : LinAlg XReal XDual3) (laD : LinAlg ℝ (Dual ℝ)) :=
  have no : ∀ a ∈ (fromRecords polarSphere (fun _ _ => 0)).assoc_comp, False := fun a ha =>
    absurd (by norm_num [fromRecords, polarSphere]) ((mem_assoc_comp polarSphere (fun _ _ => 0) a).1 ha)
  C112_dilute_enthalpy polarSphere_positive polarSphere_kappa polarSphere_admissible PcSaftOptions.default
    (polarSphere_dilute _) (fun a ha => (no a ha).elim) (fun a ha => (no a ha).elim) laX laX' laD

/-- C113 for ethanol -/
example (laX' : LinAlg XReal XDual3) (laD : LinAlg ℝ (Dual ℝ)) :=
  C113_shipped_partial ethanol_mixture (by change Option.getD none (0.0 : ℝ) = 0; norm_num)
    (by change Option.getD none (0.0 : ℝ) = 0; norm_num) PcSaftOptions.default laX' laD

end Props
end PcSaft
