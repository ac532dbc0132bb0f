import Verif.Lemmas.HeatCapacity
import Verif.Props.ThrottlingPolar

/-!
# Properties C114 and C115: the residual heat capacity of the dilute gas

`feos_core` takes the isochoric heat capacity from second temperature derivatives of the Helmholtz energy.  Here it is
compared with the temperature derivatives of the second virial coefficient, and its sign is determined.
-/

open Filter Topology
open scoped ContDiff

namespace PcSaft
variable {n : ℕ}

/-- `r` is the residual isochoric heat capacity over `k_B`: the temperature derivative `-∂(T² ∂a/∂T)/∂T` of the residual
internal energy over `k_B`, where `a` is the residual Helmholtz energy over `k_B T` -/
def Spec.IsResidualHeatCapacity (p : PcSaftParameters n ℝ) (o : PcSaftOptions ℝ) (laD : LinAlg ℝ (Dual (Dual ℝ))) (T V : ℝ)
    (N : Fin n → ℝ) (r : ℝ) : Prop :=
  ∃ d : Dual (Dual ℝ), (Eos.withOptions p o).residualHelmholtz laD
      (StateHD.new ⟨⟨T, 1⟩, ⟨1, 0⟩⟩ ⟨⟨V, 0⟩, ⟨0, 0⟩⟩ (fun i => ⟨⟨N i, 0⟩, ⟨0, 0⟩⟩)) = .ok d
    ∧ r = -(2 * T * d.re.eps + T ^ 2 * d.eps.eps)

namespace Props
open PcSaft Spec Dual2

section
variable {pr : Fin n → PureRecord ℝ} {k : Fin n → Fin n → ℝ} {T : ℝ} {N : Fin n → ℝ} {V₁ : ℝ}

/-- the residual heat capacity of the dilute gas -/
theorem dilute_heat (hr : PositiveRecords pr) (hk : ∀ i, 0 ≤ (fromRecords pr k).kappa_ab i)
    (h : Admissible (fromRecords pr k) T V₁ N) (o : PcSaftOptions ℝ)
    (hd : ∀ ct ∈ buildContributions (fromRecords pr k) o, DiluteRegular (fromRecords pr k) T N ct)
    (hnb : ∀ a ∈ (fromRecords pr k).assoc_comp, 0 < (fromRecords pr k).nb a) (laX : LinAlg XReal XDual2)
    (laD : LinAlg ℝ (Dual (Dual ℝ))) {B B' : ℝ → ℝ}
    (hB : ∀ T, 0 < T → IsSecondVirial pr k o laX T (fun i => N i / ∑ j, N j) (B T))
    (hB' : ∀ T, 0 < T → HasDerivAt B (B' T) T) :
    ∃ b'', HasDerivAt B' b'' T ∧ ∃ r : ℝ → ℝ,
      (∀ᶠ V : ℝ in atTop, IsResidualHeatCapacity (fromRecords pr k) o laD T V N (r V))
      ∧ Tendsto (fun V => r V * (V / (∑ i, N i) ^ 2)) atTop (𝓝 (-(2 * T * B' T + T ^ 2 * b''))) := by
  have hN := h.total_pos
  obtain ⟨F, hF, -, hcoeff, hev⟩ := dilute_coefficient hr hk h o hd hnb laX hB
  set ν := ∑ i, N i with hν
  have hu : Tendsto (fun V : ℝ => 1 / V) atTop (𝓝[≠] 0) :=
    tendsto_nhdsWithin_iff.2 ⟨tendsto_const_nhds.div_atTop tendsto_id, (eventually_gt_atTop 0).mono fun V hV =>
      (div_pos one_pos hV).ne'⟩
  have hline : ∀ t : ℝ, Tendsto (fun r : ℝ => t + r) (𝓝 0) (𝓝 t) := fun t => by
    have : Continuous fun r : ℝ => t + r := by fun_prop
    simpa using this.tendsto 0
  set e₁ : ℝ × (Fin n → ℝ) := ((1 : ℝ), (0 : Fin n → ℝ)) with he₁
  have hmove : ∀ t r : ℝ, ((t, N) : ℝ × (Fin n → ℝ)) + r • e₁ = (t + r, N) := fun t r => by simp [he₁]
  -- the first and the second derivative with respect to temperature
  set G : ℝ × (ℝ × (Fin n → ℝ)) → ℝ := fun x => fderiv ℝ F x (0, e₁) with hG
  set H : ℝ × (ℝ × (Fin n → ℝ)) → ℝ := fun x => fderiv ℝ G x (0, e₁) with hH
  have hGd : Dilute G (T, N) := hF.derivative _
  have hHd : Dilute H (T, N) := hGd.derivative _
  have hdil : ∀ᶠ T' in 𝓝 T, Dilute F (T', N) := by
    have : Tendsto (fun T' : ℝ => (T', N)) (𝓝 T) (𝓝 (T, N)) := (Continuous.prodMk_left N).tendsto T
    exact this.eventually hF.eventually
  have hshift : ∀ {f : ℝ → ℝ} {f' t : ℝ}, HasDerivAt f f' t → HasDerivAt (fun r : ℝ => f (t + r)) f' 0 := by
    intro f f' t hf
    have := HasDerivAt.comp (0 : ℝ) (h₂ := f) (h := fun r : ℝ => t + r) (by simpa using hf)
      ((hasDerivAt_id (0 : ℝ)).const_add t)
    simpa [Function.comp_def] using this
  have hcG : ∀ᶠ T' in 𝓝 T, diluteCurvature G (T', N) = 2 * (ν ^ 2 * B' T') := by
    filter_upwards [hdil, hcoeff.eventually_nhds, lt_mem_nhds h.temperature] with T' g1 g2 g3
    have h1 := g1.curvature_derivative e₁
    have h2 := ((hshift (hB' T' g3)).const_mul (ν ^ 2)).const_mul 2
    refine h1.unique (h2.congr_of_eventuallyEq ?_)
    filter_upwards [(hline T').eventually g2] with r hr'
    rw [← hr', hmove]
  have hcG0 := hcG.self_of_nhds
  set b'' := diluteCurvature H (T, N) / (2 * ν ^ 2) with hb''
  have hbd : HasDerivAt B' b'' T := by
    have h1 := (hGd.curvature_derivative e₁).div_const (2 * ν ^ 2)
    have h2 : HasDerivAt (fun r : ℝ => B' (T + r)) b'' 0 := by
      refine h1.congr_of_eventuallyEq ?_
      filter_upwards [(hline T).eventually hcG] with r hr'
      rw [hmove, hr']
      have := hN.ne'
      field_simp
    have h3 := HasDerivAt.comp T (h₂ := fun r : ℝ => B' (T + r)) (h := fun t : ℝ => t - T) (by simpa using h2)
      ((hasDerivAt_id T).sub_const T)
    simpa [Function.comp_def] using h3
  refine ⟨b'', hbd, fun V => -(2 * T * (V * G (1 / V, (T, N))) + T ^ 2 * (V * H (1 / V, (T, N)))), ?_, ?_⟩
  · filter_upwards [hev, eventually_gt_atTop 0, hF.eventually_smooth] with V q hV hs
    obtain ⟨d, h1, h2⟩ := q _ _ _ _ _ rho2 _ _ _ _ _ _ (rho2_seed T 1 1) (rho2_seed V 0 0)
      (fun i => rho2_seed (N i) 0 0) (by simp) (by simp) (by simp) laD
    refine ⟨d, h1, ?_⟩
    have hj := jet2_of h2
    have hpt : Tendsto (fun s : ℝ => ((1 / V, (T + s, N)) : ℝ × (ℝ × (Fin n → ℝ)))) (𝓝 0) (𝓝 (1 / V, (T, N))) := by
      have : Continuous fun s : ℝ => ((1 / V, (T + s, N)) : ℝ × (ℝ × (Fin n → ℝ))) := by fun_prop
      simpa using this.tendsto 0
    have hsm : ∀ᶠ s in 𝓝 (0 : ℝ), ContDiffAt ℝ ω F (1 / V, (T + s, N)) := hpt.eventually (hs.eventually (by simp))
    have hmv : ∀ t s : ℝ, ((1 / V, (t, N)) : ℝ × (ℝ × (Fin n → ℝ))) + s • ((0 : ℝ), e₁) = (1 / V, (t + s, N)) :=
      fun t s => by simp [he₁]
    have eA : ∀ s t : ℝ, (V + s * 0 + t * 0) * F (1 / (V + s * 0 + t * 0), (T + s * 1 + t * 1,
        fun i => N i + s * 0 + t * 0)) = V * F (1 / V, (T + s + t, N)) := fun s t => by
      simp only [mul_zero, add_zero, mul_one]
    simp only [eA] at hj
    have f1 : d.re.eps = V * G (1 / V, (T, N)) := by
      refine hj.1.2.unique (((hasDerivAt_line (u := ((0 : ℝ), e₁)) (hs.differentiableAt (by simp))).const_mul
        V).congr_of_eventuallyEq (.of_forall fun s => ?_))
      simp only [hmv, add_zero]
    have f2 : d.eps.eps = V * H (1 / V, (T, N)) := by
      rw [hj.deriv]
      have g1 : (fun s : ℝ => deriv (fun t => V * F (1 / V, (T + s + t, N))) 0) =ᶠ[𝓝 0]
          fun s => V * G (1 / V, (T + s, N)) := by
        filter_upwards [hsm] with s hs'
        have := (hasDerivAt_line (u := ((0 : ℝ), e₁)) (hs'.differentiableAt (by simp))).const_mul V
        simp only [hmv] at this
        exact this.deriv
      rw [g1.deriv_eq]
      have g2 : DifferentiableAt ℝ G (1 / V, (T, N)) :=
        ((hs.fderiv_right (m := ω) (by simp)).clm_apply contDiffAt_const).differentiableAt (by simp)
      have := (hasDerivAt_line (u := ((0 : ℝ), e₁)) g2).const_mul V
      simp only [hmv] at this
      exact this.deriv
    rw [f1, f2]
  · have t1 := (hGd.second_curvature.1.comp hu).const_mul (2 * T)
    have t2 := (hHd.second_curvature.1.comp hu).const_mul (T ^ 2)
    have t3 := ((t1.add t2).neg).div_const (ν ^ 2)
    have e : -(2 * T * (diluteCurvature G (T, N) / 2) + T ^ 2 * (diluteCurvature H (T, N) / 2)) / ν ^ 2
        = -(2 * T * B' T + T ^ 2 * b'') := by
      rw [hcG0, hb'']
      have := hN.ne'
      field_simp
    rw [e] at t3
    refine t3.congr' ?_
    filter_upwards [eventually_gt_atTop 0] with V hV
    simp only [Function.comp_apply]
    have := hN.ne'
    field_simp

/-- C114: the heat capacity of the dilute gas follows from the virial coefficients that the code returns: the slope `B'`
of the second virial coefficient is differentiable with respect to temperature, and at large volumes the residual
isochoric heat capacity is `-(2 T B' + T² B'') N² / V` in units of `k_B`.  This holds for mixtures, with all
contributions. -/
theorem C114_dilute_heat_capacity (hr : PositiveRecords pr) (hk : ∀ i, 0 ≤ (fromRecords pr k).kappa_ab i)
    (h : Admissible (fromRecords pr k) T V₁ N) (o : PcSaftOptions ℝ)
    (hd : ∀ ct ∈ buildContributions (fromRecords pr k) o, DiluteRegular (fromRecords pr k) T N ct)
    (hna : ∀ a ∈ (fromRecords pr k).assoc_comp, 0 < (fromRecords pr k).na a)
    (hnb : ∀ a ∈ (fromRecords pr k).assoc_comp, 0 < (fromRecords pr k).nb a)
    (laX' : LinAlg XReal XDual3) (laD : LinAlg ℝ (Dual (Dual ℝ))) :
    ∃ (B B' : ℝ → ℝ) (b'' : ℝ),
      (∀ T, 0 < T → IsSecondVirialSlope pr k o laX' T (fun i => N i / ∑ j, N j) (B T) (B' T)) ∧ HasDerivAt B' b'' T
      ∧ ∀ ε, 0 < ε → ∃ V₀, ∀ V, V₀ ≤ V → ∃ r, IsResidualHeatCapacity (fromRecords pr k) o laD T V N r
        ∧ |r * (V / (∑ i, N i) ^ 2) - -(2 * T * B' T + T ^ 2 * b'')| ≤ ε := by
  let laX : LinAlg XReal XDual2 := ⟨fun _ _ _ => none, fun _ _ _ => none, 0⟩
  have hN := h.total_pos
  have hx : ∑ i, N i / ∑ j, N j = 1 := by rw [← Finset.sum_div, div_self hN.ne']
  have h0 : ∀ i, 0 ≤ N i / ∑ j, N j := fun i => div_nonneg (h.moles_nonneg i) hN.le
  obtain ⟨B, B', hB⟩ := C110_second hr hk h0 hx o hna hnb laX laX'
  obtain ⟨b'', hb, r, hr1, hr2⟩ := dilute_heat hr hk h o hd hnb laX laD (fun T hT => (hB T hT).1)
    (fun T hT => (hB T hT).2.2)
  refine ⟨B, B', b'', fun T hT => (hB T hT).2.1, hb, fun ε hε => ?_⟩
  obtain ⟨V₀, hV₀⟩ := eventually_atTop.1 (hr1.and (hr2.eventually (Metric.closedBall_mem_nhds _ hε)))
  refine ⟨V₀, fun V hV => ?_⟩
  obtain ⟨f1, f2⟩ := hV₀ V hV
  change dist _ _ ≤ _ at f2
  rw [Real.dist_eq] at f2
  exact ⟨r V, f1, f2⟩

end

/-! ## Pure substances -/

section
variable {m : ℝ} (hm : 1 ≤ m)
include hm

theorem dipole_concave : 0 < pairZero AD m ∧ 0 ≤ pairZero AD m + 3 * pairZero BD m * (10 / 21) := by
  obtain ⟨h1, h2⟩ := min_range hm
  refine ⟨(dipole_range hm).1, ?_⟩
  have hm0 : 0 < m := by linarith
  rw [pairZero_eq _ hm0, pairZero_eq _ hm0]
  generalize (min m 2)⁻¹ = y at h1 h2
  have e0 : (AD 0 0 : ℝ) = 0.30435038064 := rfl
  have e1 : (AD 0 1 : ℝ) = 0.95346405973 := rfl
  have e2 : (AD 0 2 : ℝ) = -1.16100802773 := rfl
  have f0 : (BD 0 0 : ℝ) = 0.21879385627 := rfl
  have f1 : (BD 0 1 : ℝ) = -0.58731641193 := rfl
  have f2 : (BD 0 2 : ℝ) = 3.48695755800 := rfl
  rw [e0, e1, e2, f0, f1, f2]
  have := mul_nonneg (sub_nonneg.2 h1) (sub_nonneg.2 h2)
  nlinarith [sq_nonneg (y - 3 / 4), sq_nonneg (y - 0.8), sq_nonneg (y - 0.7)]

theorem quadrupole_concave : 0 < pairZero AQ m ∧ 0 ≤ pairZero AQ m + 3 * pairZero BQ m * (10 / 21) := by
  obtain ⟨h1, h2⟩ := min_range hm
  refine ⟨(quadrupole_range hm).1, ?_⟩
  have hm0 : 0 < m := by linarith
  rw [pairZero_eq _ hm0, pairZero_eq _ hm0]
  generalize (min m 2)⁻¹ = y at h1 h2
  have e0 : (AQ 0 0 : ℝ) = 1.237830788 := rfl
  have e1 : (AQ 0 1 : ℝ) = 1.285410878 := rfl
  have e2 : (AQ 0 2 : ℝ) = 1.794295401 := rfl
  have f0 : (BQ 0 0 : ℝ) = 0.454271755 := rfl
  have f1 : (BQ 0 1 : ℝ) = -0.813734006 := rfl
  have f2 : (BQ 0 2 : ℝ) = 6.868267516 := rfl
  rw [e0, e1, e2, f0, f1, f2]
  have := mul_nonneg (sub_nonneg.2 h1) (sub_nonneg.2 h2)
  nlinarith [sq_nonneg (y - 3 / 4), sq_nonneg (y - 0.8), sq_nonneg (y - 0.7)]

theorem mixed_concave : 0 < pairZero ADQ m ∧ 0 ≤ pairZero ADQ m + 3 * pairZero BDQ m * (10 / 21) := by
  obtain ⟨h1, h2⟩ := min_range hm
  refine ⟨(mixed_range hm).1, ?_⟩
  have hm0 : 0 < m := by linarith
  rw [pairZero_eq _ hm0, pairZero_eq _ hm0]
  generalize (min m 2)⁻¹ = y at h1 h2
  have e0 : (ADQ 0 0 : ℝ) = 0.697094963 := rfl
  have e1 : (ADQ 0 1 : ℝ) = -0.673459279 := rfl
  have e2 : (ADQ 0 2 : ℝ) = 0.670340770 := rfl
  have f0 : (BDQ 0 0 : ℝ) = -0.484038322 := rfl
  have f1 : (BDQ 0 1 : ℝ) = 0.67651011 := rfl
  have f2 : (BDQ 0 2 : ℝ) = -1.167560146 := rfl
  rw [e0, e1, e2, f0, f1, f2]
  have := mul_nonneg (sub_nonneg.2 h1) (sub_nonneg.2 h2)
  nlinarith [sq_nonneg (y - 3 / 4), sq_nonneg (y - 0.8), sq_nonneg (y - 0.7)]

end

theorem concave_range {a b x : ℝ} (h : 0 < a ∧ 0 ≤ a + 3 * b * (10 / 21)) (hx : 0 ≤ x) (hx' : x ≤ 10 / 21) :
    0 ≤ a + 3 * b * x := by
  obtain ⟨h1, h2⟩ := h
  rcases le_or_gt 0 b with hb | hb
  · positivity
  · nlinarith

variable {pr : Fin 1 → PureRecord ℝ} {k : Fin 1 → Fin 1 → ℝ} {T : ℝ}

/-- the residual heat capacity of a pure dilute gas has the sign opposite to that of `2 T B' + T² B''` -/
theorem pure_heat (hr : PositiveRecords pr) (hk : 0 ≤ (fromRecords pr k).kappa_ab 0)
    (hs : (fromRecords pr k).kappa_ab 0 ≠ 0 → 0 ≤ (fromRecords pr k).epsilon_k_ab 0 ∧ 0 < (fromRecords pr k).na 0
      ∧ 0 < (fromRecords pr k).nb 0)
    (h00 : k 0 0 = 0) (o : PcSaftOptions ℝ) (laD : LinAlg ℝ (Dual (Dual ℝ))) (hT : 0 < T) {N : ℝ} (hN : 0 < N)
    (hd : ∀ ct ∈ buildContributions (fromRecords pr k) o, DiluteRegular (fromRecords pr k) T (fun _ => N) ct)
    {B' : ℝ → ℝ} {b'' : ℝ} (hB' : ∀ T, 0 < T → HasDerivAt (pureVirial pr k) (B' T) T) (hb : HasDerivAt B' b'' T) :
    (2 * T * B' T + T ^ 2 * b'' < 0 →
      ∃ V₀, ∀ V, V₀ ≤ V → ∃ r, IsResidualHeatCapacity (fromRecords pr k) o laD T V (fun _ => N) r ∧ 0 < r)
    ∧ (0 < 2 * T * B' T + T ^ 2 * b'' →
      ∃ V₀, ∀ V, V₀ ≤ V → ∃ r, IsResidualHeatCapacity (fromRecords pr k) o laD T V (fun _ => N) r ∧ r < 0) := by
  let laX : LinAlg XReal XDual2 := ⟨fun _ _ _ => none, fun _ _ _ => none, 0⟩
  have hk' : ∀ i, 0 ≤ (fromRecords pr k).kappa_ab i := fun i => by
    rw [Subsingleton.elim i 0]
    exact hk
  have hnb : ∀ a ∈ (fromRecords pr k).assoc_comp, 0 < (fromRecords pr k).nb a := fun a ha => by
    rw [mem_assoc_comp, Subsingleton.elim a 0] at ha
    rw [Subsingleton.elim a 0]
    exact (hs ha).2.2
  have hx : (fun i : Fin 1 => N / ∑ _j : Fin 1, N) = fun _ => 1 := by
    funext i
    simp [hN.ne']
  obtain ⟨b, hb', r, hr1, hr2⟩ := dilute_heat hr hk' (pure_admissible (k := k) hr hT hN) o hd hnb laX laD
    (B := pureVirial pr k) (B' := B') (fun T hT => by
      rw [hx]
      exact pure_virial_polar hr hk hs h00 hT o laX) hB'
  rw [hb'.unique hb] at hr2
  have hsum : 0 < (∑ _i : Fin 1, N) ^ 2 := by
    simp only [Finset.univ_unique, Finset.sum_singleton]
    positivity
  constructor
  · intro hneg
    obtain ⟨V₀, hV₀⟩ := eventually_atTop.1 (hr1.and ((hr2.eventually (lt_mem_nhds (neg_pos.2 hneg))).and
      (eventually_gt_atTop 0)))
    refine ⟨V₀, fun V hV => ?_⟩
    obtain ⟨f1, f2, f3⟩ := hV₀ V hV
    exact ⟨r V, f1, pos_of_mul_pos_left f2 (div_pos f3 hsum).le⟩
  · intro hpos
    obtain ⟨V₀, hV₀⟩ := eventually_atTop.1 (hr1.and ((hr2.eventually (gt_mem_nhds (neg_neg_of_pos hpos))).and
      (eventually_gt_atTop 0)))
    refine ⟨V₀, fun V hV => ?_⟩
    obtain ⟨f1, f2, f3⟩ := hV₀ V hV
    exact ⟨r V, f1, neg_of_mul_neg_left f2 (div_pos f3 hsum).le⟩

/-- C115: the residual heat capacity of the dilute gas of a pure substance is positive, at all temperatures without
moments, from `2.1 ε` on with moments and at least one segment, with or without sites.  It does not hold at low
temperature with quadrupoles, see `C115_cold_quadrupoles_counterexample`. -/
theorem C115_heat_capacity_partial (hr : PositiveRecords pr) (hm : 4 / 5 ≤ (pr 0).model_record.m)
    (hp : (fromRecords pr k).mu 0 ≠ 0 ∨ (fromRecords pr k).q 0 ≠ 0 → 1 ≤ (pr 0).model_record.m
      ∧ 2.1 * (pr 0).model_record.epsilon_k ≤ T)
    (hk : 0 ≤ (fromRecords pr k).kappa_ab 0)
    (hs : (fromRecords pr k).kappa_ab 0 ≠ 0 → 0 ≤ (fromRecords pr k).epsilon_k_ab 0 ∧ 0 < (fromRecords pr k).na 0
      ∧ 0 < (fromRecords pr k).nb 0)
    (h00 : k 0 0 = 0) (o : PcSaftOptions ℝ) (laD : LinAlg ℝ (Dual (Dual ℝ))) (hT : 0 < T) {N : ℝ} (hN : 0 < N) :
    ∃ V₀, ∀ V, V₀ ≤ V → ∃ r, IsResidualHeatCapacity (fromRecords pr k) o laD T V (fun _ => N) r ∧ 0 < r := by
  have h1 := hr.m 0
  have h2 := hr.sigma 0
  have hε := hr.epsilon 0
  have hA : 0 < Real.pi * (pr 0).model_record.m * (pr 0).model_record.sigma ^ 3 := by positivity
  have hx : 0 < (pr 0).model_record.epsilon_k / T := by positivity
  have hx' : (fromRecords pr k).mu 0 ≠ 0 ∨ (fromRecords pr k).q 0 ≠ 0 → (pr 0).model_record.epsilon_k / T ≤ 10 / 21 :=
    fun h => by
      rw [div_le_iff₀ hT]
      linarith [(hp h).2]
  obtain ⟨C, e, hC, hb⟩ : ∃ C e, 0 ≤ C ∧ ∀ T, bondVirial (fromRecords pr k) T = C * (Real.exp (e / T) - 1) := by
    by_cases hkz : (fromRecords pr k).kappa_ab 0 = 0
    · exact ⟨0, 0, le_rfl, fun T => by rw [bondVirial, if_pos hkz, zero_mul]⟩
    · obtain ⟨s1, s2, s3⟩ := hs hkz
      have h3 : 0 < (fromRecords pr k).sigma 0 := h2
      exact ⟨(fromRecords pr k).na 0 * (fromRecords pr k).nb 0 * (fromRecords pr k).sigma 0 ^ 3
        * (fromRecords pr k).kappa_ab 0, (fromRecords pr k).epsilon_k_ab 0, by positivity, fun T => by
          rw [bondVirial, if_neg hkz]⟩
  have hform := heat_temperature (pr 0).model_record.m (pr 0).model_record.epsilon_k
    (Real.pi * (pr 0).model_record.m * (pr 0).model_record.sigma ^ 3) C e
    (pairZero AD (pr 0).model_record.m) (pairZero BD (pr 0).model_record.m) (pairZero AQ (pr 0).model_record.m)
    (pairZero BQ (pr 0).model_record.m) (pairZero ADQ (pr 0).model_record.m) (pairZero BDQ (pr 0).model_record.m)
    (dipPairStrength pr k) (quadPairStrength pr k) (mixedPairStrength pr k)
  simp only [← hb] at hform
  obtain ⟨B', B'', hBB⟩ : ∃ B' B'' : ℝ → ℝ, ∀ T, 0 < T → HasDerivAt (pureVirial pr k) (B' T) T ∧ HasDerivAt B' (B'' T) T
    ∧ _ := hform
  obtain ⟨-, g2, g3⟩ := hBB T hT
  have hreg : ∀ ct ∈ buildContributions (fromRecords pr k) o, DiluteRegular (fromRecords pr k) T (fun _ => N) ct := by
    by_cases hpol : (fromRecords pr k).mu 0 ≠ 0 ∨ (fromRecords pr k).q 0 ≠ 0
    · exact pure_regular_polar hr (fun h => (hp h).1) (fun h => (hs h).2.1) o (by linarith [(hp hpol).2]) hN
    · push Not at hpol
      exact pure_regular hpol.1 hpol.2 (fun h => (hs h).2.1) o _
  have dip : 0 < dipPairStrength pr k → (fromRecords pr k).mu 0 ≠ 0 := fun h h0 => by
    simp [dipPairStrength, dipoleStrength_zero h0] at h
  have quad : 0 < quadPairStrength pr k → (fromRecords pr k).q 0 ≠ 0 := fun h h0 => by
    simp [quadPairStrength, quadrupoleStrength_zero h0] at h
  have mix : 0 < mixedPairStrength pr k → (fromRecords pr k).mu 0 ≠ 0 := fun h h0 => by
    simp [mixedPairStrength, dipoleStrength_zero h0] at h
  refine (pure_heat hr hk hs h00 o laD hT hN hreg (fun T hT => (hBB T hT).1) g2).1 ?_
  rw [g3]
  exact heat_neg hm hx hA hC (Real.exp_pos _).le (dipPairStrength_nonneg (k := k) hr)
    (quadPairStrength_nonneg (k := k) hr) (mixedPairStrength_nonneg (k := k) hr)
    (fun h => concave_range (dipole_concave (hp (.inl (dip h))).1) hx.le (hx' (.inl (dip h))))
    (fun h => concave_range (quadrupole_concave (hp (.inr (quad h))).1) hx.le (hx' (.inr (quad h))))
    (fun h => concave_range (mixed_concave (hp (.inl (mix h))).1) hx.le (hx' (.inl (mix h))))

/-- C115 for the shipped files: the dilute gas of every substance has positive residual heat capacities, at all
temperatures without moments, from `2.1 ε` on with moments. -/
theorem C115_shipped_partial {pr : Fin 1 → PureRecord ℝ} (hpr : MixtureOf Shipped.substances pr)
    (hpol : (fromRecords pr fun _ _ => 0).mu 0 ≠ 0 ∨ (fromRecords pr fun _ _ => 0).q 0 ≠ 0 →
      2.1 * (pr 0).model_record.epsilon_k ≤ T) (o : PcSaftOptions ℝ) (laD : LinAlg ℝ (Dual (Dual ℝ))) (hT : 0 < T)
    {N : ℝ} (hN : 0 < N) :
    ∃ V₀, ∀ V, V₀ ≤ V → ∃ r, IsResidualHeatCapacity (fromRecords pr fun _ _ => 0) o laD T V (fun _ => N) r ∧ 0 < r := by
  have hp := mixture_pos (fun _ _ => 0) hpr
  have hr : PositiveRecords pr := ⟨fun i => by
    have : 4 / 5 ≤ (pr i).model_record.m := (hp i).1
    linarith, fun i => (hp i).2.1, fun i => (hp i).2.2⟩
  have hk := mixture_kappa (fun _ _ => 0) hpr 0
  obtain ⟨r, hr', hm, -, -, -, hmu, hq, -, h2, h3, h4, -⟩ := mixture_entry hpr (fun _ _ => 0) 0
  obtain ⟨-, g1, g2, g3, -⟩ := shipped_sites r hr'
  have hs : 0 ≤ (fromRecords pr fun _ _ => 0).epsilon_k_ab 0 ∧ 0 < (fromRecords pr fun _ _ => 0).na 0
      ∧ 0 < (fromRecords pr fun _ _ => 0).nb 0 := by
    rw [h2, h3, h4]
    exact ⟨by exact_mod_cast g1, by exact_mod_cast g2, by exact_mod_cast g3⟩
  have hseg : (fromRecords pr fun _ _ => 0).mu 0 ≠ 0 ∨ (fromRecords pr fun _ _ => 0).q 0 ≠ 0 →
      1 ≤ (pr 0).model_record.m := by
    change _ → 1 ≤ (fromRecords pr fun _ _ => 0).m 0
    rw [hm, hmu, hq]
    rintro (h | h)
    · exact_mod_cast (shipped_dipoles r hr' (by exact_mod_cast h)).1
    · exact_mod_cast (shipped_quadrupoles r hr' (by exact_mod_cast h)).1
  exact C115_heat_capacity_partial hr (hp 0).1 (fun h => ⟨hseg h, hpol h⟩) hk (fun _ => hs) rfl o laD hT hN

/-- C115 fails with quadrupoles: for every pure substance with a quadrupole, between 1.1 and 1.9 segments, no dipole and
no sites, the residual heat capacity of the dilute gas is negative at low temperature. -/
theorem C115_cold_quadrupoles_counterexample (hr : PositiveRecords pr) (hm : 11 / 10 ≤ (pr 0).model_record.m)
    (hm' : (pr 0).model_record.m ≤ 19 / 10) (hk : (fromRecords pr k).kappa_ab 0 = 0)
    (hmu : (fromRecords pr k).mu 0 = 0) (hq : (fromRecords pr k).q 0 ≠ 0)
    (h00 : k 0 0 = 0) (o : PcSaftOptions ℝ) (laD : LinAlg ℝ (Dual (Dual ℝ))) :
    ∃ T₀, 0 < T₀ ∧ ∀ T N, 0 < T → T < T₀ → 0 < N →
      ∃ V₀, ∀ V, V₀ ≤ V → ∃ r, IsResidualHeatCapacity (fromRecords pr k) o laD T V (fun _ => N) r ∧ r < 0 := by
  have hm0 := hr.m 0
  have hσ := hr.sigma 0
  have hε := hr.epsilon 0
  have hS := quadrupoleStrength_pos (k := k) hr hq
  set m := (pr 0).model_record.m with hmdef
  set ε := (pr 0).model_record.epsilon_k with hεdef
  set A := Real.pi * m * (pr 0).model_record.sigma ^ 3 with hAdef
  have hA : 0 < A := by positivity
  have hQ : 0 < quadPairStrength pr k := by
    unfold quadPairStrength
    positivity
  have hβ : 0 < -pairZero BQ m := by
    rw [pairZero_eq _ hm0, min_eq_left (by linarith)]
    have h1 : m⁻¹ ≤ 10 / 11 := by
      rw [inv_le_comm₀ hm0 (by norm_num)]
      linarith
    have h2 : 10 / 19 ≤ m⁻¹ := by
      rw [le_inv_comm₀ (by norm_num) hm0]
      linarith
    generalize m⁻¹ = y at h1 h2
    have f0 : (BQ 0 0 : ℝ) = 0.454271755 := rfl
    have f1 : (BQ 0 1 : ℝ) = -0.813734006 := rfl
    have f2 : (BQ 0 2 : ℝ) = 6.868267516 := rfl
    rw [f0, f1, f2]
    nlinarith [mul_nonneg (sub_nonneg.2 h1) (sub_nonneg.2 h2)]
  have z3 : ∀ T, polarVirial pr k T .quadrupole = quadPairStrength pr k * ((ε / T) ^ 2
      * (pairZero AQ m + pairZero BQ m * (ε / T))) := fun T => rfl
  have eB : pureVirial pr k = fun T => A * boyleForm m (ε / T) - 0 * (Real.exp (0 / T) - 1)
      - (0 * ((ε / T) ^ 2 * (0 + 0 * (ε / T)))
        + quadPairStrength pr k * ((ε / T) ^ 2 * (pairZero AQ m + pairZero BQ m * (ε / T)))
        + 0 * ((ε / T) ^ 2 * (0 + 0 * (ε / T)))) := by
    funext T
    have z1 : polarVirial pr k T .dipole = 0 := by simp [polarVirial, dipPairStrength, dipoleStrength_zero hmu]
    have z2 : polarVirial pr k T (.dipoleQuadrupole .DQ35) = 0 := by
      simp [polarVirial, mixedPairStrength, dipoleStrength_zero hmu]
    rw [pureVirial, z1, z2, z3, bondVirial, if_pos hk]
    ring
  obtain ⟨B', B'', hBB⟩ := heat_temperature m ε A 0 0 0 0 (pairZero AQ m) (pairZero BQ m) 0 0 0 (quadPairStrength pr k) 0
  rw [← eB] at hBB
  obtain ⟨X, hX1, hX⟩ := cold_heat (a := pairZero AQ m) hm0 hA hQ hβ
  refine ⟨ε / X, by positivity, fun T N hT hTX hN => ?_⟩
  have hx : X < ε / T := by
    rw [lt_div_iff₀ (by positivity)] at hTX
    rw [lt_div_iff₀ hT]
    linarith
  obtain ⟨q1, q2⟩ := hX _ hx
  rw [neg_neg] at q2
  have hx0 : 0 < ε / T := by positivity
  obtain ⟨-, g2, g3⟩ := hBB T hT
  have hreg : ∀ ct ∈ buildContributions (fromRecords pr k) o, DiluteRegular (fromRecords pr k) T (fun _ => N) ct := by
    intro ct hct
    rcases pure_mem hr hct with rfl | rfl | rfl | ⟨rfl, h⟩ | ⟨rfl, h⟩ | ⟨rfl, h, h'⟩ | ⟨rfl, hkz, hl⟩
    · trivial
    · trivial
    · trivial
    · exact absurd hmu h
    · have e := quadrupole_pure (k := k) hr hT N
      have neg : N ^ 2 * polarVirial pr k T .quadrupole < 0 := by
        rw [z3]
        exact mul_neg_of_pos_of_neg (by positivity) (mul_neg_of_pos_of_neg hQ
          (mul_neg_of_pos_of_neg (by positivity) (by linarith)))
      exact fun h0 => by
        rw [h0, zero_mul] at e
        linarith
    · exact absurd hmu h
    · exact absurd hk hkz
  refine (pure_heat hr hk.ge (fun h => absurd hk h) h00 o laD hT hN hreg (fun T hT => (hBB T hT).1) g2).2 ?_
  rw [g3]
  have := mul_pos (pow_pos hx0 2) q2
  refine this.trans_eq ?_
  ring

/-! ## Cases that meet the hypotheses -/

/-- C114 for a polar substance -/
example (laX' : LinAlg XReal XDual3) (laD : LinAlg ℝ (Dual (Dual ℝ))) :=
  have no : ∀ a ∈ (fromRecords polarSphere (fun _ _ => 0)).assoc_comp, False := fun a ha =>
    absurd (by norm_num [fromRecords, polarSphere]) ((mem_assoc_comp polarSphere (fun _ _ => 0) a).1 ha)
  C114_dilute_heat_capacity polarSphere_positive polarSphere_kappa polarSphere_admissible PcSaftOptions.default
    (polarSphere_dilute _) (fun a ha => (no a ha).elim) (fun a ha => (no a ha).elim) laX' laD

/-- C115 for ethanol, at any temperature -/
example (laD : LinAlg ℝ (Dual (Dual ℝ))) {T : ℝ} (hT : 0 < T) :=
  C115_shipped_partial (T := T) ethanol_mixture (fun h => by
    have h0 : Option.getD none (0.0 : ℝ) = 0 := by norm_num
    exact absurd h (by rintro (h | h) <;> exact h h0)) PcSaftOptions.default laD hT one_pos

/-- C115 for carbon dioxide -/
example (laD : LinAlg ℝ (Dual (Dual ℝ))) :=
  C115_shipped_partial (T := 2.1 * (carbonDioxide 0).model_record.epsilon_k) carbonDioxide_mixture (fun _ => le_rfl)
    PcSaftOptions.default laD (mul_pos (by norm_num) (mixture_pos (fun _ _ => 0) carbonDioxide_mixture 0).2.2) one_pos

/-- a substance with a dipole, a quadrupole and sites -/
example (laD : LinAlg ℝ (Dual (Dual ℝ))) :=
  C115_heat_capacity_partial (T := 2.1 * (everyMoment 0).model_record.epsilon_k) (k := fun _ _ => 0) everyMoment_pos
    (by norm_num [everyMoment]) (fun _ => ⟨by norm_num [everyMoment], le_rfl⟩)
    (by
      change (0 : ℝ) ≤ 0.02
      norm_num)
    (fun _ => by
      change (0 : ℝ) ≤ 2000 ∧ (0 : ℝ) < 1 ∧ (0 : ℝ) < 1
      norm_num) rfl ⟨0.5, 50, 1e-10, .DQ44⟩ laD (mul_pos (by norm_num) (everyMoment_pos.epsilon 0)) one_pos

/-- carbon dioxide -/
example (laD : LinAlg ℝ (Dual (Dual ℝ))) :=
  have hp := mixture_pos (fun _ _ => 0) carbonDioxide_mixture
  have hr : PositiveRecords carbonDioxide := ⟨fun i => by
    have : 4 / 5 ≤ (carbonDioxide i).model_record.m := (hp i).1
    linarith, fun i => (hp i).2.1, fun i => (hp i).2.2⟩
  have em : (carbonDioxide 0).model_record.m = 1.6298 := by
    change (((Shipped.gross2005_fit[0]'(by decide)).model_record.m : ℚ) : ℝ) = _
    norm_num [Shipped.gross2005_fit, Shipped.substance, Shipped.record]
  C115_cold_quadrupoles_counterexample (k := fun _ _ => 0) hr (by rw [em]; norm_num) (by rw [em]; norm_num)
    (by change Option.getD none (0.0 : ℝ) = 0; norm_num) (by change Option.getD none (0.0 : ℝ) = 0; norm_num)
    (by
      change (((Shipped.gross2005_fit[0]'(by decide)).model_record.q.map (Rat.cast : ℚ → ℝ)).getD 0.0) ≠ 0
      norm_num [Shipped.gross2005_fit, Shipped.substance, Shipped.record]) rfl PcSaftOptions.default laD

end Props
end PcSaft
