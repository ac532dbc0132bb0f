import Verif.Lemmas.Supercritical

/-!
# The highest temperature at which an isotherm is not strictly falling
-/

open Filter Topology

namespace PcSaft
open Spec Props
variable {n : ℕ}

/-- partial derivative of an analytic function of two variables -/
theorem analyticAt_partial {B : ℝ × ℝ → ℝ} {z : ℝ × ℝ} (h : AnalyticAt ℝ B z) :
    AnalyticAt ℝ (fun z : ℝ × ℝ => deriv (fun v => B (z.1, v)) z.2) z := by
  have h1 : AnalyticAt ℝ (fun z : ℝ × ℝ => fderiv ℝ B z (0, 1)) z := 
    ((ContinuousLinearMap.apply ℝ ℝ ((0, 1) : ℝ × ℝ)).analyticAt _).comp h.fderiv
  refine h1.congr ?_
  filter_upwards [h.eventually_analyticAt] with w hw
  have hline : HasDerivAt (fun v : ℝ => ((w.1, v) : ℝ × ℝ)) (0, 1) w.2 :=
    (hasDerivAt_const w.2 w.1).prodMk (hasDerivAt_id w.2)
  exact (hw.differentiableAt.hasFDerivAt.comp_hasDerivAt (f := fun v : ℝ => ((w.1, v) : ℝ × ℝ)) w.2 hline).deriv.symm

/-- If the slopes `s T V` of the isotherms are bounded like those of a repulsive fluid with an attraction that falls with
temperature, and some isotherm is not strictly falling, then there is a highest temperature with this property, at which
the largest slope is zero. -/
theorem exists_critical {c : ℝ → ℝ} {s : ℝ → ℝ → ℝ} {N A B T₀ V₀ : ℝ} (hN : 0 < N) (hA : 0 ≤ A) (hB : 0 ≤ B)
    (hc : ∀ T, 0 < T → ContinuousAt c T) (hc0 : ∀ T, 0 < T → 0 < c T)
    (hs : ∀ T V, 0 < T → c T < V → ContinuousAt (fun z : ℝ × ℝ => s z.1 z.2) (T, V))
    (hb : ∀ T V, 0 < T → c T < V → s T V * V ^ 2 ≤ -(N / (1 - c T / V) ^ 2) + c T / V * (A / T + B / T ^ 2))
    (hT₀ : 0 < T₀) (hV₀ : c T₀ < V₀) (h0 : 0 ≤ s T₀ V₀) :
    ∃ Tc Vc, T₀ ≤ Tc ∧ c Tc < Vc ∧ s Tc Vc = 0 ∧ (∀ V, c Tc < V → s Tc V ≤ 0) ∧ ∀ T V, Tc < T → c T < V → s T V < 0 := by
  set M := A / T₀ + B / T₀ ^ 2 with hM
  -- packing fractions of states that are not stable
  have hx : ∀ T V, T₀ ≤ T → c T < V → 0 ≤ s T V →
      N ≤ (A / T + B / T ^ 2) ∧ 0 < M ∧ N / M ≤ c T / V ∧ c T / V ≤ 1 - N / M := by
    intro T V hT hV hsv
    have hT0 := hT₀.trans_le hT
    have hcT := hc0 T hT0
    have hV0 := hcT.trans hV
    have hx0 : 0 < c T / V := div_pos hcT hV0
    have hx1 : c T / V < 1 := (div_lt_one hV0).2 hV
    have h1 := hb T V hT0 hV
    set x := c T / V
    have h2 : 0 ≤ s T V * V ^ 2 := mul_nonneg hsv (sq_nonneg V)
    have h3 : N / (1 - x) ^ 2 ≤ x * (A / T + B / T ^ 2) := by linarith
    have h4 : A / T + B / T ^ 2 ≤ M := by
      rw [hM]
      gcongr
    have h5 : 0 ≤ A / T + B / T ^ 2 := by positivity
    have hy : 0 < 1 - x := by linarith
    have h6 : N ≤ x * (A / T + B / T ^ 2) * (1 - x) ^ 2 := (div_le_iff₀ (by positivity)).1 h3
    have h7 : (1 - x) ^ 2 ≤ 1 - x := by nlinarith
    have h8 : N ≤ x * (A / T + B / T ^ 2) * (1 - x) := h6.trans (mul_le_mul_of_nonneg_left h7 (by positivity))
    have h9 : x * (A / T + B / T ^ 2) * (1 - x) ≤ x * M * (1 - x) := by gcongr
    have h10 : x * (A / T + B / T ^ 2) * (1 - x) ≤ 1 * (A / T + B / T ^ 2) * 1 := by
      gcongr
      linarith
    have hM0 : 0 ≤ M := h5.trans h4
    have hMp : 0 < M := by
      rcases hM0.eq_or_lt with h | h
      · rw [← h] at h9
        linarith
      · exact h
    refine ⟨by linarith, hMp, ?_, ?_⟩
    · rw [div_le_iff₀ hMp]
      have : x * M * (1 - x) ≤ x * M * 1 := by
        gcongr
        linarith
      linarith
    · have : N / M ≤ 1 - x := by
        rw [div_le_iff₀ hMp]
        have : x * M * (1 - x) ≤ 1 * M * (1 - x) := by gcongr
        linarith
      linarith
  obtain ⟨-, hMp, -, -⟩ := hx T₀ V₀ le_rfl hV₀ h0
  have hNM : 0 < N / M := div_pos hN hMp
  obtain ⟨T₁, hT₁⟩ : ∃ T₁, ∀ T, T₀ ≤ T → N ≤ A / T + B / T ^ 2 → T ≤ T₁ := by
    have ht : Tendsto (fun T : ℝ => A / T + B / T ^ 2) atTop (𝓝 0) := by
      have := (tendsto_const_nhds (x := A).div_atTop tendsto_id).add
        (tendsto_const_nhds (x := B).div_atTop (tendsto_pow_atTop two_ne_zero))
      simpa using this
    obtain ⟨T₁, h1⟩ := (ht.eventually (gt_mem_nhds hN)).exists_forall_of_atTop
    refine ⟨T₁, fun T _ h2 => ?_⟩
    by_contra hcon
    exact absurd (h1 T (not_le.1 hcon).le) (not_lt.2 h2)
  -- the unstable states form a compact set
  have hcont : ContinuousOn (fun z : ℝ × ℝ => s z.1 (c z.1 / z.2)) (Set.Icc T₀ T₁ ×ˢ Set.Icc (N / M) (1 - N / M)) := by
    rintro ⟨T, x⟩ ⟨⟨h1, -⟩, h3, h4⟩
    dsimp only at h1 h3 h4
    have hT := hT₀.trans_le h1
    have hx0 : 0 < x := hNM.trans_le h3
    have hlt : c T < c T / x := (lt_div_iff₀ hx0).2 (by nlinarith [hc0 T hT])
    have h5 : ContinuousAt (fun z : ℝ × ℝ => (z.1, c z.1 / z.2)) (T, x) :=
      continuousAt_fst.prodMk ((ContinuousAt.comp (x := (T, x)) (f := Prod.fst) (hc T hT) continuousAt_fst).div
        continuousAt_snd hx0.ne')
    exact (ContinuousAt.comp (f := fun z : ℝ × ℝ => (z.1, c z.1 / z.2)) (x := (T, x)) (hs T _ hT hlt) h5).continuousWithinAt
  have hK : IsCompact ((Set.Icc T₀ T₁ ×ˢ Set.Icc (N / M) (1 - N / M)) ∩ (fun z : ℝ × ℝ => s z.1 (c z.1 / z.2)) ⁻¹' Set.Ici 0) :=
    (isCompact_Icc.prod isCompact_Icc).of_isClosed_subset
      (hcont.preimage_isClosed_of_isClosed (isClosed_Icc.prod isClosed_Icc) isClosed_Ici) Set.inter_subset_left
  have hmem : ∀ T V, T₀ ≤ T → c T < V → 0 ≤ s T V → (T, c T / V) ∈ ((Set.Icc T₀ T₁ ×ˢ Set.Icc (N / M) (1 - N / M))
      ∩ (fun z : ℝ × ℝ => s z.1 (c z.1 / z.2)) ⁻¹' Set.Ici 0) := by
    intro T V hT hV hsv
    obtain ⟨h1, -, h3, h4⟩ := hx T V hT hV hsv
    refine ⟨⟨⟨hT, hT₁ T hT h1⟩, h3, h4⟩, ?_⟩
    have hcT := (hc0 T (hT₀.trans_le hT)).ne'
    change 0 ≤ s T (c T / (c T / V))
    rwa [div_div_cancel₀ hcT]
  obtain ⟨⟨Tc, xc⟩, ⟨⟨⟨h1, h2⟩, h3, h4⟩, h5⟩, hmax⟩ := hK.exists_isMaxOn ⟨_, hmem T₀ V₀ le_rfl hV₀ h0⟩ continuous_fst.continuousOn
  dsimp only at h1 h2 h3 h4
  have h5 : 0 ≤ s Tc (c Tc / xc) := h5
  have hTc := hT₀.trans_le h1
  have hxc : 0 < xc := hNM.trans_le h3
  have hVc : c Tc < c Tc / xc := (lt_div_iff₀ hxc).2 (by nlinarith [hc0 Tc hTc])
  have habove : ∀ T V, Tc < T → c T < V → s T V < 0 := by
    intro T V hT hV
    by_contra hcon
    have := hmax (hmem T V (h1.trans hT.le) hV (not_lt.1 hcon))
    exact absurd this (not_le.2 hT)
  have hat : ∀ V, c Tc < V → s Tc V ≤ 0 := by
    intro V hV
    have e1 : ContinuousAt (fun T => s T V) Tc :=
      ContinuousAt.comp (f := fun T : ℝ => (T, V)) (x := Tc) (hs Tc V hTc hV) (continuousAt_id.prodMk continuousAt_const)
    refine le_of_tendsto (e1.tendsto.mono_left (nhdsWithin_le_nhds (s := Set.Ioi Tc))) ?_
    have e2 := (hc Tc hTc).tendsto.eventually (gt_mem_nhds hV)
    filter_upwards [nhdsWithin_le_nhds e2, self_mem_nhdsWithin] with T hTV hT
    exact (habove T V hT hTV).le
  exact ⟨Tc, c Tc / xc, h1, hVc, le_antisymm (hat _ hVc) h5, hat, habove⟩

section
variable {pr : Fin n → PureRecord ℝ} {k : Fin n → Fin n → ℝ} {T V : ℝ} {N : Fin n → ℝ} {o : PcSaftOptions ℝ}

theorem continuousAt_closeVolume (p : PcSaftParameters n ℝ) (N : Fin n → ℝ) (hT : 0 < T) :
    ContinuousAt (fun T => closeVolume p T N) T := by
  simp only [closeVolume_eq]
  have h1 : ContinuousAt (fun T => hsDiameter p T) T := by
    refine continuousAt_pi.2 fun i => ?_
    simp only [hsDiameter_real]
    exact continuousAt_const.mul (continuousAt_const.sub (continuousAt_const.mul
      ((continuousAt_const.div continuousAt_id hT.ne').rexp)))
  exact ContinuousAt.comp (f := fun T => hsDiameter p T) (x := T) (continuous_zeta p.m N 3).continuousAt h1

theorem continuousAt_slope (hp : Plain (fromRecords pr k)) (h : Admissible (fromRecords pr k) T V N) :
    ContinuousAt (fun z : ℝ × ℝ => -deriv (deriv (totalEnergy o (fromRecords pr k) z.1 N)) z.2) (T, V) := by
  obtain ⟨A, hA, han⟩ := C68_residual_analytic (o := o) ⟨fun _ _ _ => none, fun _ _ _ => none, 0⟩ h
    (fun ct hct => (hp.regular T V N ct hct).2.1)
  have e : ∀ x, A x = residualSum o.dq_variant (fromRecords pr k) (StateHD.new x.1 x.2.1 x.2.2) := fun x => by
    have := hA x
    rw [residual_of_nassoc_le_one _ _ o _ (by rw [hp.association]; exact Nat.zero_le _)] at this
    exact (Except.ok.inj this).symm
  have hl : AnalyticAt ℝ (fun z : ℝ × ℝ => ((z.1, z.2, N) : ℝ × ℝ × (Fin n → ℝ))) (T, V) :=
    AnalyticAt.prod analyticAt_fst (AnalyticAt.prod analyticAt_snd analyticAt_const)
  have h1 : AnalyticAt ℝ (fun z : ℝ × ℝ => A (z.1, z.2, N)) (T, V) :=
    AnalyticAt.comp (f := fun z : ℝ × ℝ => ((z.1, z.2, N) : ℝ × ℝ × (Fin n → ℝ))) han hl
  have h2 : AnalyticAt ℝ (fun z : ℝ × ℝ => totalEnergy o (fromRecords pr k) z.1 N z.2) (T, V) := by
    have hlog : AnalyticAt ℝ (fun z : ℝ × ℝ => Real.log z.2) (T, V) :=
      AnalyticAt.comp (f := fun z : ℝ × ℝ => z.2) (x := (T, V)) (analyticAt_id.log h.volume) analyticAt_snd
    have h3 := h1.sub ((analyticAt_const (v := ∑ i, N i)).mul hlog)
    refine h3.congr (.of_forall fun z => ?_)
    change A (z.1, z.2, N) - _ = _
    rw [e]
    rfl
  exact (analyticAt_partial (analyticAt_partial h2)).continuousAt.neg

end

end PcSaft
