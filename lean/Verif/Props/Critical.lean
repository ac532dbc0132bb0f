import Verif.Lemmas.CriticalPoint

/-!
# Property C93: the critical point

Above some temperature every isotherm falls strictly and every pressure belongs to one volume. If the molecules attract
each other, the highest temperature at which this fails has a critical point: first and second derivative of the pressure
with respect to the volume vanish.
-/

open Filter Topology

namespace PcSaft
variable {n : ℕ}

/-- The first three derivatives of the residual energy with respect to the volume, from one evaluation with dual numbers of
third order, give the pressure `P`, and its first and second derivatives with respect to the volume are zero. -/
def Spec.IsCriticalPoint (p : PcSaftParameters n ℝ) (o : PcSaftOptions ℝ) (laD : LinAlg ℝ (Dual (Dual (Dual ℝ)))) (T V : ℝ)
    (N : Fin n → ℝ) (P : ℝ) : Prop :=
  ∃ d : Dual (Dual (Dual ℝ)), (Eos.withOptions p o).residualHelmholtz laD
      (StateHD.new ⟨⟨⟨T, 0⟩, ⟨0, 0⟩⟩, ⟨⟨0, 0⟩, ⟨0, 0⟩⟩⟩ ⟨⟨⟨V, 1⟩, ⟨1, 0⟩⟩, ⟨⟨1, 0⟩, ⟨0, 0⟩⟩⟩
        (fun i => ⟨⟨⟨N i, 0⟩, ⟨0, 0⟩⟩, ⟨⟨0, 0⟩, ⟨0, 0⟩⟩⟩)) = .ok d
    ∧ P = (∑ i, N i) / V - d.re.re.eps
    ∧ -(∑ i, N i) / V ^ 2 - d.re.eps.eps = 0
    ∧ 2 * (∑ i, N i) / V ^ 3 - d.eps.eps.eps = 0

/-- Every positive pressure belongs to exactly one volume, and the pressure falls strictly with the volume. -/
def Spec.OnePhase (p : PcSaftParameters n ℝ) (o : PcSaftOptions ℝ) (laD : LinAlg ℝ (Dual ℝ)) (T : ℝ) (N : Fin n → ℝ) : Prop :=
  (∀ P, 0 < P → ∃! V, Admissible p T V N ∧ IsPressure p o laD T V N P)
    ∧ ∀ V W P Q, Admissible p T V N → V < W → IsPressure p o laD T V N P → IsPressure p o laD T W N Q → Q < P

namespace Props
open PcSaft Spec

section
variable {pr : Fin n → PureRecord ℝ} {k : Fin n → Fin n → ℝ} {T V : ℝ} {N : Fin n → ℝ} {o : PcSaftOptions ℝ}

/-- three derivatives with respect to the volume from one evaluation -/
theorem residual_volume_third (ha : (fromRecords pr k).nassoc ≤ 1) (h : Admissible (fromRecords pr k) T V N)
    (hr : ∀ ct ∈ buildContributions (fromRecords pr k) o, Regular (fromRecords pr k) T V N ct)
    (laD : LinAlg ℝ (Dual (Dual (Dual ℝ)))) :
    ∃ d : Dual (Dual (Dual ℝ)), (Eos.withOptions (fromRecords pr k) o).residualHelmholtz laD
      (StateHD.new ⟨⟨⟨T, 0⟩, ⟨0, 0⟩⟩, ⟨⟨0, 0⟩, ⟨0, 0⟩⟩⟩ ⟨⟨⟨V, 1⟩, ⟨1, 0⟩⟩, ⟨⟨1, 0⟩, ⟨0, 0⟩⟩⟩
        (fun i => ⟨⟨⟨N i, 0⟩, ⟨0, 0⟩⟩, ⟨⟨0, 0⟩, ⟨0, 0⟩⟩⟩)) = .ok d
      ∧ d.re.re.eps = deriv (fun W => residualSum o.dq_variant (fromRecords pr k) (StateHD.new T W N)) V
      ∧ d.re.eps.eps = deriv (deriv fun W => residualSum o.dq_variant (fromRecords pr k) (StateHD.new T W N)) V
      ∧ d.eps.eps.eps = deriv (deriv (deriv fun W => residualSum o.dq_variant (fromRecords pr k) (StateHD.new T W N))) V := by
  obtain ⟨A, d, h1, h2, h3, h4⟩ := C53_third_order (la := ⟨fun _ _ _ => none, fun _ _ _ => none, 0⟩) (o := o) laD 0 0 0 1 1 1
    (fun _ => 0) (fun _ => 0) (fun _ => 0) h hr
  set g := fun W => residualSum o.dq_variant (fromRecords pr k) (StateHD.new T W N) with hg
  have e : ∀ r s t, A r s t = g (V + r + s + t) := fun r s t => by
    have := h1 r s t
    rw [residual_of_nassoc_le_one _ _ o _ ha] at this
    rw [← Except.ok.inj this, hg]
    simp only [mul_zero, mul_one, add_zero]
  have e1 : ∀ r s, deriv (A r s) 0 = deriv g (V + r + s) := fun r s => by
    have : A r s = fun t => g (V + r + s + t) := funext (e r s)
    rw [this, deriv_comp_const_add, add_zero]
  have e2 : ∀ r, deriv (fun s => A r s 0) 0 = deriv g (V + r) := fun r => by
    have : (fun s => A r s 0) = fun s => g (V + r + s) := funext fun s => by rw [e, add_zero]
    rw [this, deriv_comp_const_add, add_zero]
  refine ⟨d, h2, ?_, ?_, ?_⟩
  · rw [← h3.1.1.2.deriv]
    have : (fun s => A s 0 0) = fun s => g (V + s) := funext fun s => by rw [e, add_zero, add_zero]
    rw [this, deriv_comp_const_add, add_zero]
  · rw [h3.1.deriv]
    simp only [e2]
    rw [deriv_comp_const_add, add_zero]
  · rw [h4]
    simp only [e1]
    have : (fun r => deriv (fun s => deriv g (V + r + s)) 0) = fun r => deriv (deriv g) (V + r) := funext fun r => by
      rw [deriv_comp_const_add, add_zero]
    rw [this, deriv_comp_const_add, add_zero]

theorem totalEnergy_third (hp : Plain (fromRecords pr k)) (h : Admissible (fromRecords pr k) T V N) :
    deriv (totalEnergy o (fromRecords pr k) T N) V
        = deriv (fun W => residualSum o.dq_variant (fromRecords pr k) (StateHD.new T W N)) V - (∑ i, N i) / V
      ∧ deriv (deriv (totalEnergy o (fromRecords pr k) T N)) V
        = deriv (deriv fun W => residualSum o.dq_variant (fromRecords pr k) (StateHD.new T W N)) V + (∑ i, N i) / V ^ 2
      ∧ deriv (deriv (deriv (totalEnergy o (fromRecords pr k) T N))) V
        = deriv (deriv (deriv fun W => residualSum o.dq_variant (fromRecords pr k) (StateHD.new T W N))) V
          - 2 * (∑ i, N i) / V ^ 3 := by
  set p := fromRecords pr k
  set g := fun W => residualSum o.dq_variant p (StateHD.new T W N) with hg
  have hlt := closeVolume_lt h
  have hA : ∀ W, closeVolume p T N < W → AnalyticAt ℝ g W ∧ 0 < W := fun W hW => by
    have hW' : Admissible p T W N := admissible_volume h (by rwa [closeVolume_eq] at hW)
    exact ⟨(residual_volume_derivative (o := o) (by rw [hp.association]; exact Nat.zero_le _) hW'
      (fun ct hct => (hp.regular T W N ct hct).2.1) ⟨fun _ _ _ => none, fun _ _ _ => none, 0⟩).1, hW'.volume⟩
  have e1 : ∀ W, closeVolume p T N < W → deriv (totalEnergy o p T N) W = deriv g W - (∑ i, N i) / W := fun W hW => by
    obtain ⟨a, b⟩ := hA W hW
    have : HasDerivAt (totalEnergy o p T N) (deriv g W - (∑ i, N i) * W⁻¹) W :=
      a.differentiableAt.hasDerivAt.sub ((Real.hasDerivAt_log b.ne').const_mul (∑ i, N i))
    rw [this.deriv, div_eq_mul_inv]
  have e2 : ∀ W, closeVolume p T N < W →
      deriv (deriv (totalEnergy o p T N)) W = deriv (deriv g) W + (∑ i, N i) / W ^ 2 := fun W hW => by
    obtain ⟨a, b⟩ := hA W hW
    have ev : deriv (totalEnergy o p T N) =ᶠ[𝓝 W] fun W => deriv g W - (∑ i, N i) * W⁻¹ := by
      filter_upwards [lt_mem_nhds hW] with U hU
      rw [e1 U hU, div_eq_mul_inv]
    have := a.deriv.differentiableAt.hasDerivAt.sub ((hasDerivAt_inv b.ne').const_mul (∑ i, N i))
    rw [ev.deriv_eq]
    refine this.deriv.trans ?_
    ring
  refine ⟨e1 V hlt, e2 V hlt, ?_⟩
  obtain ⟨a, b⟩ := hA V hlt
  have ev : deriv (deriv (totalEnergy o p T N)) =ᶠ[𝓝 V] fun W => deriv (deriv g) W + (∑ i, N i) * (W ^ 2)⁻¹ := by
    filter_upwards [lt_mem_nhds hlt] with U hU
    rw [e2 U hU, div_eq_mul_inv]
  have := a.deriv.deriv.differentiableAt.hasDerivAt.add
    ((((hasDerivAt_pow 2 V).inv (pow_ne_zero 2 b.ne'))).const_mul (∑ i, N i))
  rw [ev.deriv_eq]
  refine this.deriv.trans ?_
  push_cast
  field_simp
  ring

/-- strictly falling isotherms have one volume for every pressure -/
theorem onePhase_of_slope (hp : Plain (fromRecords pr k)) (h : Admissible (fromRecords pr k) T V N) (laD : LinAlg ℝ (Dual ℝ))
    (hs : ∀ W, closeVolume (fromRecords pr k) T N < W → -deriv (deriv (totalEnergy o (fromRecords pr k) T N)) W < 0) :
    OnePhase (fromRecords pr k) o laD T N := by
  set p := fromRecords pr k with hpd
  have hr1 : ∀ V, closeVolume p T N ≤ V → ∀ ct ∈ buildContributions p o, PolarRegular p T V N ct :=
    fun V _ ct hct => (hp.regular T V N ct hct).1
  have hanti : StrictAntiOn (fun W => -deriv (totalEnergy o p T N) W) (Set.Ioi (closeVolume p T N)) := by
    have han : ∀ W, closeVolume p T N < W → AnalyticAt ℝ (totalEnergy o p T N) W := fun W hW =>
      totalEnergy_analytic hp (admissible_volume h (by rwa [closeVolume_eq] at hW))
    refine strictAntiOn_of_deriv_neg (convex_Ioi _) (fun W hW => (han W hW).deriv.continuousAt.neg.continuousWithinAt) ?_
    intro W hW
    rw [interior_Ioi] at hW
    have := (han W hW).deriv.differentiableAt.hasDerivAt.neg
    exact (show deriv (fun W => -deriv (totalEnergy o p T N) W) W = _ from this.deriv).trans_lt (hs W hW)
  have hfall : ∀ V W P Q, Admissible p T V N → V < W → IsPressure p o laD T V N P → IsPressure p o laD T W N Q → Q < P := by
    intro V W P Q hV hVW hP hQ
    have h1 := closeVolume_lt hV
    rw [((totalEnergy_deriv h hp.association hr1 laD h1).2 P).1 hP,
      ((totalEnergy_deriv h hp.association hr1 laD (h1.trans hVW)).2 Q).1 hQ]
    exact hanti h1 (h1.trans hVW) hVW
  refine ⟨fun P hP => ?_, hfall⟩
  obtain ⟨W, -, hA, hW⟩ := C88_every_pressure (o := o) h hp.association (fun ct hct => (hp.regular T V N ct hct).2.2)
    hr1 laD hP
  refine ⟨W, ⟨hA, hW⟩, ?_⟩
  rintro W' ⟨hA', hW'⟩
  rcases lt_trichotomy W' W with hl | hl | hl
  · exact absurd (hfall _ _ _ _ hA' hl hW' hW) (lt_irrefl _)
  · exact hl
  · exact absurd (hfall _ _ _ _ hA hl hW hW') (lt_irrefl _)

theorem admissible_temperature (h : Admissible (fromRecords pr k) T V N) {t W : ℝ} (ht : 0 < t)
    (hW : closeVolume (fromRecords pr k) t N < W) : Admissible (fromRecords pr k) t W N := by
  set p := fromRecords pr k
  obtain ⟨b, hb, hle⟩ := exists_closeVolume_ge h
  have hW0 : 0 < W := (hb.trans_le (hle t ht)).trans hW
  refine ⟨ht, hW0, h.m_pos, h.sigma_pos, h.epsilon_nonneg, h.moles_nonneg, h.moles_ne_zero, ?_⟩
  rw [packing_eq, one_div_mul_eq_div, div_lt_one hW0, ← closeVolume_eq]
  exact hW

/-- C93: above some temperature the pressure falls strictly with the volume and every positive pressure belongs to exactly
one volume. -/
theorem C93_supercritical (hp : Plain (fromRecords pr k)) (h : Admissible (fromRecords pr k) T V N)
    (laD : LinAlg ℝ (Dual ℝ)) : ∃ T₁, 0 < T₁ ∧ ∀ t, T₁ < t → OnePhase (fromRecords pr k) o laD t N := by
  obtain ⟨A, B, hA, hB, hb⟩ := slope_bound (o := o) hp h
  have hN := h.total_pos
  have ht : Tendsto (fun T : ℝ => A / T + B / T ^ 2) atTop (𝓝 0) := by
    have := (tendsto_const_nhds (x := A).div_atTop tendsto_id).add
      (tendsto_const_nhds (x := B).div_atTop (tendsto_pow_atTop two_ne_zero))
    simpa using this
  obtain ⟨T₁, h1⟩ := (ht.eventually (gt_mem_nhds hN)).exists_forall_of_atTop
  refine ⟨max T₁ 1, by positivity, fun t htT => ?_⟩
  have ht0 : 0 < t := (lt_max_of_lt_right one_pos).trans htT
  have hcv : 0 < closeVolume (fromRecords pr k) t N := by
    obtain ⟨b, hb, hle⟩ := exists_closeVolume_ge h
    exact hb.trans_le (hle t ht0)
  have hAd : Admissible (fromRecords pr k) t (closeVolume (fromRecords pr k) t N + 1) N :=
    admissible_temperature h ht0 (by linarith)
  refine onePhase_of_slope hp hAd laD fun W hW => ?_
  have hAW := admissible_temperature h ht0 hW
  have hW0 := hAW.volume
  have h2 := hb t W hAW
  set x := closeVolume (fromRecords pr k) t N / W
  have hx0 : 0 < x := div_pos hcv hW0
  have hx1 : x < 1 := (div_lt_one hW0).2 hW
  have h3 := h1 t ((le_max_left _ _).trans htT.le)
  have h4 : (∑ i, N i) ≤ (∑ i, N i) / (1 - x) ^ 2 := by
    refine le_div_self hN.le (by have : 0 < 1 - x := by linarith
                                 positivity) ?_
    exact pow_le_one₀ (by linarith) (by linarith)
  have h5 : x * (A / t + B / t ^ 2) ≤ 1 * (A / t + B / t ^ 2) := by
    gcongr
  have h6 : -deriv (deriv (totalEnergy o (fromRecords pr k) t N)) W * W ^ 2 < 0 := by linarith
  exact neg_of_mul_neg_left h6 (sq_nonneg W)

theorem _root_.PcSaft.Spec.Attracting.plain (hat : Attracting (fromRecords pr k) N) : Plain (fromRecords pr k) :=
  ⟨hat.dipole, hat.quadrupole, hat.association⟩

/-- C93: molecules that attract each other have a critical point: at the highest temperature at which the isotherm is not
strictly falling, first and second derivative of the (positive) pressure with respect to the volume vanish at some volume.
At this temperature the pressure does not rise anywhere; at all higher temperatures it falls strictly and every positive
pressure belongs to one volume. -/
theorem C93_critical_point (hat : Attracting (fromRecords pr k) N) (h : Admissible (fromRecords pr k) T V N)
    (laD : LinAlg ℝ (Dual ℝ)) (laD3 : LinAlg ℝ (Dual (Dual (Dual ℝ)))) :
    ∃ Tc Vc Pc, 0 < Pc ∧ Admissible (fromRecords pr k) Tc Vc N ∧ IsPressure (fromRecords pr k) o laD Tc Vc N Pc
      ∧ IsCriticalPoint (fromRecords pr k) o laD3 Tc Vc N Pc
      ∧ (∀ V W P Q, Admissible (fromRecords pr k) Tc V N → V ≤ W → IsPressure (fromRecords pr k) o laD Tc V N P →
        IsPressure (fromRecords pr k) o laD Tc W N Q → Q ≤ P)
      ∧ ∀ t, Tc < t → OnePhase (fromRecords pr k) o laD t N := by
  have hp := hat.plain
  obtain ⟨A, B, hA, hB, hb⟩ := slope_bound (o := o) hp h
  obtain ⟨T₀, hT₀, hloop⟩ := C92_loop (o := o) hat h laD
  obtain ⟨U, W, PU, PW, hU, hUW, hPU, hPW, hrise⟩ := hloop (T₀ / 2) (by linarith) (by linarith)
  set p := fromRecords pr k with hpd
  have hreg : ∀ t V, closeVolume p t N ≤ V → ∀ ct ∈ buildContributions p o, PolarRegular p t V N ct :=
    fun t V _ ct hct => (hp.regular t V N ct hct).1
  have hcU := closeVolume_lt hU
  -- a state in which the isotherm rises
  have han : ∀ t V, Admissible p t V N → AnalyticAt ℝ (totalEnergy o p t N) V := fun t V hV => totalEnergy_analytic hp hV
  obtain ⟨Z, hZ, hZs⟩ : ∃ Z ∈ Set.Ioo U W, -deriv (deriv (totalEnergy o p (T₀ / 2) N)) Z
      = (PW - PU) / (W - U) := by
    have hAd : ∀ V ∈ Set.Icc U W, AnalyticAt ℝ (totalEnergy o p (T₀ / 2) N) V := fun V hV =>
      han _ _ (admissible_volume hU (by rw [← closeVolume_eq]; exact hcU.trans_le hV.1))
    obtain ⟨Z, hZ, e⟩ := exists_hasDerivAt_eq_slope (fun V => -deriv (totalEnergy o p (T₀ / 2) N) V)
      (fun V => -deriv (deriv (totalEnergy o p (T₀ / 2) N)) V) hUW
      (fun V hV => (hAd V hV).deriv.continuousAt.neg.continuousWithinAt)
      (fun V hV => (hAd V (Set.Ioo_subset_Icc_self hV)).deriv.differentiableAt.hasDerivAt.neg)
    refine ⟨Z, hZ, e.trans ?_⟩
    rw [((totalEnergy_deriv hU hp.association (hreg _) laD hcU).2 PU).1 hPU,
      ((totalEnergy_deriv hU hp.association (hreg _) laD (hcU.trans hUW)).2 PW).1 hPW]
  have hpos : 0 ≤ -deriv (deriv (totalEnergy o p (T₀ / 2) N)) Z := by
    rw [hZs]
    exact (div_pos (by linarith) (by linarith)).le
  have hcpos : ∀ t, 0 < t → 0 < closeVolume p t N := fun t ht => by
    obtain ⟨b, hb, hle⟩ := exists_closeVolume_ge h
    exact hb.trans_le (hle t ht)
  obtain ⟨Tc, Vc, hTc, hVc, hz, hat0, habove⟩ := exists_critical (c := fun t => closeVolume p t N)
    (s := fun t V => -deriv (deriv (totalEnergy o p t N)) V) h.total_pos hA hB
    (fun t ht => continuousAt_closeVolume p N ht) hcpos
    (fun t V ht hV => continuousAt_slope hp (admissible_temperature h ht hV))
    (fun t V ht hV => hb t V (admissible_temperature h ht hV)) (T₀ := T₀ / 2) (V₀ := Z) (by linarith) (hcU.trans hZ.1) hpos
  have hTc0 : 0 < Tc := lt_of_lt_of_le (by linarith) hTc
  have hAc : Admissible p Tc Vc N := admissible_temperature h hTc0 hVc
  have hAt : ∀ V, closeVolume p Tc N < V → Admissible p Tc V N := fun V hV => admissible_temperature h hTc0 hV
  -- the slope is largest at the critical volume
  have hthird : deriv (deriv (deriv (totalEnergy o p Tc N))) Vc = 0 := by
    have hmax : IsLocalMin (deriv (deriv (totalEnergy o p Tc N))) Vc := by
      filter_upwards [lt_mem_nhds hVc] with V hV
      have := hat0 V hV
      linarith
    exact hmax.deriv_eq_zero
  -- the pressure does not rise
  have hanti : AntitoneOn (fun V => -deriv (totalEnergy o p Tc N) V) (Set.Ioi (closeVolume p Tc N)) := by
    refine antitoneOn_of_deriv_nonpos (convex_Ioi _)
      (fun V hV => (han _ _ (hAt V hV)).deriv.continuousAt.neg.continuousWithinAt) ?_ ?_
    · intro V hV
      rw [interior_Ioi] at hV
      exact (han _ _ (hAt V hV)).deriv.differentiableAt.neg.differentiableWithinAt
    · intro V hV
      rw [interior_Ioi] at hV
      have := (han _ _ (hAt V hV)).deriv.differentiableAt.hasDerivAt.neg
      exact (show deriv (fun V => -deriv (totalEnergy o p Tc N) V) V = _ from this.deriv).trans_le (hat0 V hV)
  have hpr : ∀ V P, closeVolume p Tc N < V → (IsPressure p o laD Tc V N P ↔ P = -deriv (totalEnergy o p Tc N) V) :=
    fun V P hV => (totalEnergy_deriv hAc hp.association (hreg _) laD hV).2 P
  obtain ⟨d, d1, d2, d3, d4⟩ := residual_volume_third (o := o) (by rw [hp.association]; exact Nat.zero_le _) hAc
    (fun ct hct => (hp.regular Tc Vc N ct hct).2.1) laD3
  obtain ⟨t1, t2, t3⟩ := totalEnergy_third (o := o) hp hAc
  rw [← hpd] at t1 t2 t3 d2 d3 d4
  -- dilute states have a positive pressure
  have hPpos : 0 < -deriv (totalEnergy o p Tc N) Vc := by
    have hm := meanSegments_pos h
    set cv := closeVolume p Tc N with hcv
    have hcv0 : 0 < cv := hcpos Tc hTc0
    have hJ : Tendsto (fun V => deriv (dispJ p N Tc) (cv / V) / V) atTop (𝓝 0) := by
      have a1 : Tendsto (fun V => cv / V) atTop (𝓝 0) := tendsto_const_nhds.div_atTop tendsto_id
      have a2 : ContinuousAt (deriv (dispJ p N Tc)) 0 := (deriv_dispJ hm le_rfl zero_le_one).1.deriv.continuousAt
      exact (a2.tendsto.comp a1).div_atTop tendsto_id
    obtain ⟨V, hV1, hV2⟩ := ((hJ.eventually (gt_mem_nhds h.total_pos)).and (eventually_gt_atTop Vc)).exists
    have hVa := hAt V (hVc.trans hV2)
    have hV0 := hVa.volume
    have h1 := hanti (show Vc ∈ Set.Ioi cv from hVc) (show V ∈ Set.Ioi cv from hVc.trans hV2) hV2.le
    refine lt_of_lt_of_le ?_ h1
    dsimp only
    rw [(plain_pressure hp hVa).deriv, ← hpd, ← hcv]
    have hτ : 0 < V - cv := sub_pos.2 (hVc.trans hV2)
    have h2 := le_refPressure (c2 := zeta p.m N (hsDiameter p Tc) 2) (c3 := zeta p.m N (hsDiameter p Tc) 3) (N := N)
      (m := p.m) (d := hsDiameter p Tc) (τ := 1 / (V - cv)) (zeta_pos_moles hVa 2).le (zeta_pos_moles hVa 3)
      (fun i => (hVa.diameter_pos i).le) (fun i => (h.m_pos i).le) h.moles_nonneg (by positivity)
    have h3 : (∑ i, N i) * (1 / V) ≤ (∑ i, N i) * (1 / (V - cv)) :=
      mul_le_mul_of_nonneg_left (one_div_le_one_div_of_le hτ (by linarith)) h.total_pos.le
    have h4 : deriv (dispJ p N Tc) (cv / V) / V ^ 2 < (∑ i, N i) * (1 / V) := by
      have e : deriv (dispJ p N Tc) (cv / V) / V ^ 2 = deriv (dispJ p N Tc) (cv / V) / V * (1 / V) := by
        field_simp
      rw [e]
      exact mul_lt_mul_of_pos_right hV1 (by positivity)
    linarith
  refine ⟨Tc, Vc, _, hPpos, hAc, (hpr Vc _ hVc).2 rfl, ⟨d, d1, ?_, ?_, ?_⟩, ?_, fun t ht => ?_⟩
  · rw [d2, t1]
    ring
  · rw [d3]
    rw [t2] at hz
    rw [neg_div]
    linarith
  · rw [d4]
    rw [t3] at hthird
    linarith
  · intro V W P Q hV hVW hP hQ
    have h1 := closeVolume_lt hV
    rw [(hpr V P h1).1 hP, (hpr W Q (h1.trans_le hVW)).1 hQ]
    exact hanti h1 (h1.trans_le hVW) hVW
  · have ht0 := hTc0.trans ht
    exact onePhase_of_slope hp (admissible_temperature h ht0 (lt_add_one _)) laD fun W hW => habove t W ht hW

/-- C93: where every pressure belongs to one volume, no two phases of different volume coexist. -/
theorem C93_no_coexistence {p : PcSaftParameters n ℝ} {la : LinAlg ℝ ℝ} {laD : LinAlg ℝ (Dual ℝ)} (hone : OnePhase p o laD T N)
    {P Vl Vv : ℝ} (hl : IsStable p o la laD T Vl N P) (hv : IsStable p o la laD T Vv N P) : Vl = Vv := by
  rcases lt_trichotomy Vl Vv with h | h | h
  · exact absurd (hone.2 _ _ _ _ hl.1 h hl.2.1 hv.2.1) (lt_irrefl _)
  · exact h
  · exact absurd (hone.2 _ _ _ _ hv.1 h hv.2.1 hl.2.1) (lt_irrefl _)

end

/-! ## Cases that meet the hypotheses -/

/-- a pure substance -/
example (o : PcSaftOptions ℝ) (laD : LinAlg ℝ (Dual ℝ)) (laD3 : LinAlg ℝ (Dual (Dual (Dual ℝ)))) :=
  C93_critical_point (o := o) (plainRecords_attracting (k := fun _ _ => 0) (i := 0) (fun _ => zero_le_one) one_pos zero_ne_one)
    (plainPure_admissible _) laD laD3

/-- a mixture of two components -/
example (o : PcSaftOptions ℝ) (laD : LinAlg ℝ (Dual ℝ)) :=
  C93_supercritical (o := o)
    (plainRecords_attracting (k := fun _ _ => 0.05) (N := ![1, 1]) (i := 0) (by intro j; fin_cases j <;> simp) one_pos (by norm_num)).plain
    (plainRecords_admissible _ one_pos zero_le_one le_rfl le_rfl) laD

end Props
end PcSaft
