import Verif.Props.Critical

/-!
# Property C94: one vapour and one liquid

On an isotherm with one unstable range of volumes every pressure belongs to at most one vapour and one liquid. This holds
from the critical temperature upwards, but not at low temperatures: the polynomial in the second-order dispersion term
produces a second unstable range at densities the density iteration of the code visits.
-/

open Filter Topology

namespace PcSaft
variable {n : ℕ}

/-- The pressure does not fall with the volume between two ranges in which it rises: the isotherm has at most one van der
Waals loop. -/
def Spec.OneLoop (p : PcSaftParameters n ℝ) (o : PcSaftOptions ℝ) (laD : LinAlg ℝ (Dual ℝ)) (T : ℝ) (N : Fin n → ℝ) : Prop :=
  ∀ V₁ V₂ V₃ V₄ V₅ V₆ P₁ P₂ P₃ P₄ P₅ P₆, Admissible p T V₁ N → V₁ < V₂ → V₂ < V₃ → V₃ < V₄ → V₄ < V₅ → V₅ < V₆ →
    IsPressure p o laD T V₁ N P₁ → IsPressure p o laD T V₂ N P₂ → IsPressure p o laD T V₃ N P₃ →
    IsPressure p o laD T V₄ N P₄ → IsPressure p o laD T V₅ N P₅ → IsPressure p o laD T V₆ N P₆ →
    P₁ < P₂ → P₅ < P₆ → P₃ ≤ P₄

namespace Props
open PcSaft Spec

section
variable {pr : Fin n → PureRecord ℝ} {k : Fin n → Fin n → ℝ} {T V : ℝ} {N : Fin n → ℝ} {o : PcSaftOptions ℝ}

/-- C94, the part that holds: from the critical temperature of C93 upwards there is no loop at all. -/
theorem C94_one_loop_partial (hat : Attracting (fromRecords pr k) N) (h : Admissible (fromRecords pr k) T V N)
    (laD : LinAlg ℝ (Dual ℝ)) (laD3 : LinAlg ℝ (Dual (Dual (Dual ℝ)))) :
    ∃ Tc Vc Pc, IsCriticalPoint (fromRecords pr k) o laD3 Tc Vc N Pc
      ∧ ∀ t, Tc ≤ t → OneLoop (fromRecords pr k) o laD t N := by
  obtain ⟨Tc, Vc, Pc, -, -, -, hcr, hat0, habove⟩ := C93_critical_point (o := o) hat h laD laD3
  refine ⟨Tc, Vc, Pc, hcr, fun t ht => ?_⟩
  intro V₁ V₂ V₃ V₄ V₅ V₆ P₁ P₂ P₃ P₄ P₅ P₆ hA h12 _ _ _ _ i1 i2 _ _ _ _ hr _
  exfalso
  rcases ht.eq_or_lt with rfl | hlt
  · exact absurd (hat0 _ _ _ _ hA h12.le i1 i2) (not_le.2 hr)
  · exact lt_asymm ((habove t hlt).2 _ _ _ _ hA h12 i1 i2) hr

/-- At low temperature the slope of the isotherm between three volumes follows from the limit of the energy. -/
theorem cold_slopes (hat : Attracting (fromRecords pr k) N) (h : Admissible (fromRecords pr k) T V N) (laD : LinAlg ℝ (Dual ℝ))
    {a b c s : ℝ} (hac : coldVolume (fromRecords pr k) N < a) (hab : a < b) (hbc : b < c)
    (hch : 0 < s * ((c - b) * coldEnergy (fromRecords pr k) N a + (b - a) * coldEnergy (fromRecords pr k) N c
      - (c - a) * coldEnergy (fromRecords pr k) N b)) :
    ∀ᶠ t in 𝓝[>] (0 : ℝ), ∃ U W P Q, a < U ∧ U < b ∧ b < W ∧ W < c ∧ IsPressure (fromRecords pr k) o laD t U N P
      ∧ IsPressure (fromRecords pr k) o laD t W N Q ∧ 0 < s * (Q - P) := by
  set p := fromRecords pr k with hpd
  have hbc' := hac.trans hab
  have hcc := hbc'.trans hbc
  have hlim : ∀ W, coldVolume p N < W → Tendsto (fun t => t ^ 2 * totalEnergy o p t N W) (𝓝[>] 0) (𝓝 (-coldEnergy p N W)) :=
    fun W hW => by
      have h1 := plain_cold h hW
      have h2 := tendsto_sq_zero.mul_const ((∑ i, N i) * Real.log W)
      have h3 := h1.sub h2
      rw [zero_mul, sub_zero] at h3
      refine h3.congr fun t => ?_
      unfold totalEnergy
      rw [hat.residual]
      ring
  have hlim3 : Tendsto (fun t => s * ((c - a) * (t ^ 2 * totalEnergy o p t N b) - (c - b) * (t ^ 2 * totalEnergy o p t N a)
      - (b - a) * (t ^ 2 * totalEnergy o p t N c))) (𝓝[>] 0)
      (𝓝 (s * ((c - a) * (-coldEnergy p N b) - (c - b) * (-coldEnergy p N a) - (b - a) * (-coldEnergy p N c)))) :=
    ((((hlim b hbc').const_mul _).sub ((hlim a hac).const_mul _)).sub ((hlim c hcc).const_mul _)).const_mul s
  have hpos : 0 < s * ((c - a) * (-coldEnergy p N b) - (c - b) * (-coldEnergy p N a) - (b - a) * (-coldEnergy p N c)) := by
    refine hch.trans_eq ?_
    ring
  filter_upwards [hlim3.eventually (lt_mem_nhds hpos), self_mem_nhdsWithin] with t ht ht0
  have ht0 : (0 : ℝ) < t := ht0
  have hAt : Admissible p t a N := admissible_cold h ht0 hac
  have hr1 : ∀ V, closeVolume p t N ≤ V → ∀ ct ∈ buildContributions p o, PolarRegular p t V N ct :=
    fun V _ ct hct => (hat.regular t V N ct hct).1
  have hca := closeVolume_lt hAt
  have hd := fun V hV => totalEnergy_deriv (o := o) hAt hat.association hr1 laD (V := V) hV
  obtain ⟨U, hU, eU⟩ := exists_hasDerivAt_eq_slope (totalEnergy o p t N) (deriv (totalEnergy o p t N)) hab
    (fun V hV => (hd V (hca.trans_le hV.1)).1.continuousAt.continuousWithinAt) fun V hV => (hd V (hca.trans hV.1)).1
  obtain ⟨W, hW, eW⟩ := exists_hasDerivAt_eq_slope (totalEnergy o p t N) (deriv (totalEnergy o p t N)) hbc
    (fun V hV => (hd V ((hca.trans hab).trans_le hV.1)).1.continuousAt.continuousWithinAt)
    fun V hV => (hd V ((hca.trans hab).trans hV.1)).1
  refine ⟨U, W, _, _, hU.1, hU.2, hW.1, hW.2, ((hd U (hca.trans hU.1)).2 _).2 rfl,
    ((hd W ((hca.trans hab).trans hW.1)).2 _).2 rfl, ?_⟩
  rw [eU, eW]
  have h1 : 0 < b - a := sub_pos.2 hab
  have h2 : 0 < c - b := sub_pos.2 hbc
  have ht2 : 0 < t ^ 2 := by positivity
  have e : s * (-((totalEnergy o p t N c - totalEnergy o p t N b) / (c - b))
      - -((totalEnergy o p t N b - totalEnergy o p t N a) / (b - a)))
      = s * ((c - a) * (t ^ 2 * totalEnergy o p t N b) - (c - b) * (t ^ 2 * totalEnergy o p t N a)
        - (b - a) * (t ^ 2 * totalEnergy o p t N c)) / (t ^ 2 * ((c - b) * (b - a))) := by
    field_simp
    ring
  rw [e]
  positivity

end

/-! ## A chain of three segments -/

/-- a molecule of three segments -/
noncomputable def chainRecords (σ ε : ℝ) : Fin 1 → PureRecord ℝ := fun _ => pureOf (plainRecord 3 σ ε)

section
variable {σ ε : ℝ}

theorem chainRecords_lists (σ ε : ℝ) (k : Fin n → Fin n → ℝ) :
    (fromRecords (fun _ : Fin n => pureOf (plainRecord 3 σ ε)) k).dipole_comp = []
    ∧ (fromRecords (fun _ : Fin n => pureOf (plainRecord 3 σ ε)) k).quadpole_comp = []
    ∧ (fromRecords (fun _ : Fin n => pureOf (plainRecord 3 σ ε)) k).assoc_comp = [] := by
  have e0 : (0.0 : ℝ) = 0 := by norm_num
  refine ⟨?_, ?_, ?_⟩ <;>
  · refine List.eq_nil_iff_forall_not_mem.2 fun i hi => (mem_nonzeroComp _ i).1 hi ?_
    simp [pureOf, plainRecord, e0]

theorem chainRecords_attracting (hε : 0 < ε) : Attracting (fromRecords (chainRecords σ ε) fun _ _ => 0) (fun _ => 1) where
  dipole := congrArg List.length (chainRecords_lists σ ε _).1
  quadrupole := congrArg List.length (chainRecords_lists σ ε _).2.1
  association := congrArg List.length (chainRecords_lists σ ε _).2.2
  segments := by
    change 4 / 5 * ∑ i : Fin 1, (1 : ℝ) ≤ ∑ i : Fin 1, 1 * (3 : ℝ)
    norm_num
  pair := ⟨0, 0, one_pos, one_pos, by
    change (1.0 - 0) * Real.sqrt (ε * ε) ≠ 0
    exact mul_ne_zero (by norm_num) (Real.sqrt_ne_zero'.2 (by positivity))⟩

theorem chain_coldVolume (hε : 0 < ε) :
    coldVolume (fromRecords (chainRecords σ ε) fun _ _ => 0) (fun _ => 1) = Real.pi / 6 * (3 * σ ^ 3) := by
  unfold coldVolume
  rw [zeta_real]
  simp only [Fin.sum_univ_one]
  have e : coldDiameter (fromRecords (chainRecords σ ε) fun _ _ => 0) 0 = σ := by
    change σ * (1 - 3 / 25 * (if ε = 0 then 1 else 0)) = σ
    rw [if_neg hε.ne']
    ring
  rw [e]
  change Real.pi / 6 * (1 * ((3 : ℝ) * σ ^ 3)) = _
  ring

theorem chain_admissible (hσ : 0 < σ) (hε : 0 < ε) {t V : ℝ} (ht : 0 < t) (hV : Real.pi / 6 * (3 * σ ^ 3) < V) :
    Admissible (fromRecords (chainRecords σ ε) fun _ _ => 0) t V (fun _ => 1) := by
  have hV0 : 0 < V := lt_trans (by positivity) hV
  refine ⟨ht, hV0, fun _ => ?_, fun _ => hσ, fun _ => hε.le, fun _ => zero_le_one, ⟨0, one_ne_zero⟩, ?_⟩
  · change (0 : ℝ) < 3
    norm_num
  rw [packing_eq, one_div_mul_eq_div, div_lt_one hV0]
  refine lt_of_le_of_lt ?_ hV
  rw [zeta_real]
  simp only [Fin.sum_univ_one]
  have hd : hsDiameter (fromRecords (chainRecords σ ε) fun _ _ => 0) t 0 = σ * (1 - 3 / 25 * Real.exp (-3 * ε / t)) :=
    hsDiameter_real _ _ _
  have he := Real.exp_pos (-3 * ε / t)
  have he1 : Real.exp (-3 * ε / t) ≤ 1 := Real.exp_le_one_iff.2 (div_nonpos_of_nonpos_of_nonneg (by linarith) ht.le)
  have h1 : hsDiameter (fromRecords (chainRecords σ ε) fun _ _ => 0) t 0 ≤ σ := by
    rw [hd]
    nlinarith
  have h0 : 0 ≤ hsDiameter (fromRecords (chainRecords σ ε) fun _ _ => 0) t 0 := by
    rw [hd]
    refine mul_nonneg hσ.le ?_
    linarith
  have h3 := pow_le_pow_left₀ h0 h1 3
  change Real.pi / 6 * (1 * ((3 : ℝ) * hsDiameter (fromRecords (chainRecords σ ε) fun _ _ => 0) t 0 ^ 3)) ≤ _
  have := Real.pi_pos
  refine mul_le_mul_of_nonneg_left ?_ (by positivity)
  linarith

/-- second-order dispersion of the chain as a function of the packing fraction -/
noncomputable def chainTerm (x : ℝ) : ℝ := x * (c1Form 3 x * intForm B0 B1 B2 3 x)

theorem chain_coldEnergy (hσ : 0 < σ) (hε : 0 < ε) : ∃ K, 0 < K ∧ ∀ v : ℝ, 0 < v →
    coldEnergy (fromRecords (chainRecords σ ε) fun _ _ => 0) (fun _ => 1) (v * (Real.pi / 6 * (3 * σ ^ 3)))
      = K * chainTerm (1 / v) := by
  have hpi := Real.pi_pos
  have hc : 0 < Real.pi / 6 * (3 * σ ^ 3) := by positivity
  have h2 : (0 : ℝ) < rho2mix (fromRecords (chainRecords σ ε) fun _ _ => 0) 1 (fun _ => (1 : ℝ)) :=
    (chainRecords_attracting hε).rho2_pos (chain_admissible hσ hε one_pos (lt_add_one _))
  refine ⟨Real.pi * (rho2mix (fromRecords (chainRecords σ ε) fun _ _ => 0) 1 (fun _ => (1 : ℝ)) * 3) / (Real.pi / 6 * (3 * σ ^ 3)),
    by positivity, fun v hv => ?_⟩
  have em : (∑ i : Fin 1, (1 : ℝ) * (fromRecords (chainRecords σ ε) fun _ _ => 0).m i) / ∑ i : Fin 1, (1 : ℝ) = 3 := by
    change (∑ i : Fin 1, (1 : ℝ) * 3) / ∑ i : Fin 1, (1 : ℝ) = 3
    norm_num
  unfold coldEnergy chainTerm
  rw [em, chain_coldVolume hε]
  have e : Real.pi / 6 * (3 * σ ^ 3) / (v * (Real.pi / 6 * (3 * σ ^ 3))) = 1 / v := by
    field_simp
  rw [e]
  field_simp

theorem chain_chords : 0 < (21 / 5 - 19 / 5) * chainTerm (1 / (7 / 2)) + (19 / 5 - 7 / 2) * chainTerm (1 / (21 / 5))
        - (21 / 5 - 7 / 2) * chainTerm (1 / (19 / 5))
    ∧ (10 - 7) * chainTerm (1 / 5) + (7 - 5) * chainTerm (1 / 10) - (10 - 5) * chainTerm (1 / 7) < 0
    ∧ 0 < (60 - 30) * chainTerm (1 / 14) + (30 - 14) * chainTerm (1 / 60) - (60 - 14) * chainTerm (1 / 30) := by
  unfold chainTerm c1Form intForm
  simp only [Fin.sum_univ_succ, Fin.sum_univ_zero, B0, B1, B2]
  refine ⟨?_, ?_, ?_⟩ <;> norm_num [Fin.succ]

/-- C94 is violated: for a molecule of three segments, whatever its size and its dispersion energy, the isotherm at every
temperature below some temperature has two separate unstable ranges, at densities below the maximum density of the code. -/
theorem C94_one_loop_counterexample (hσ : 0 < σ) (hε : 0 < ε) (laD : LinAlg ℝ (Dual ℝ)) :
    ∃ T₀, 0 < T₀ ∧ ∀ t, 0 < t → t < T₀ →
      (∃ V₁ V₂ V₃ V₄ V₅ V₆ P₁ P₂ P₃ P₄ P₅ P₆,
        Admissible (fromRecords (chainRecords σ ε) fun _ _ => 0) t V₁ (fun _ => 1)
        ∧ 1 / V₁ < (Eos.withOptions (fromRecords (chainRecords σ ε) fun _ _ => 0) .default).maxDensity (fun _ => 1)
        ∧ V₁ < V₂ ∧ V₂ < V₃ ∧ V₃ < V₄ ∧ V₄ < V₅ ∧ V₅ < V₆
        ∧ IsPressure (fromRecords (chainRecords σ ε) fun _ _ => 0) .default laD t V₁ (fun _ => 1) P₁
        ∧ IsPressure (fromRecords (chainRecords σ ε) fun _ _ => 0) .default laD t V₂ (fun _ => 1) P₂
        ∧ IsPressure (fromRecords (chainRecords σ ε) fun _ _ => 0) .default laD t V₃ (fun _ => 1) P₃
        ∧ IsPressure (fromRecords (chainRecords σ ε) fun _ _ => 0) .default laD t V₄ (fun _ => 1) P₄
        ∧ IsPressure (fromRecords (chainRecords σ ε) fun _ _ => 0) .default laD t V₅ (fun _ => 1) P₅
        ∧ IsPressure (fromRecords (chainRecords σ ε) fun _ _ => 0) .default laD t V₆ (fun _ => 1) P₆
        ∧ P₁ < P₂ ∧ P₄ < P₃ ∧ P₅ < P₆)
      ∧ ¬ OneLoop (fromRecords (chainRecords σ ε) fun _ _ => 0) .default laD t (fun _ => 1) := by
  set p := fromRecords (chainRecords σ ε) fun _ _ => 0 with hp
  set q := Real.pi / 6 * (3 * σ ^ 3) with hq
  have hpi := Real.pi_pos
  have hq0 : 0 < q := by positivity
  have hat := chainRecords_attracting (σ := σ) hε
  have hA := chain_admissible hσ hε one_pos (lt_add_one q)
  have hcv := chain_coldVolume (σ := σ) hε
  obtain ⟨K, hK, hE⟩ := chain_coldEnergy hσ hε
  rw [← hp, ← hq] at hcv
  rw [← hp, ← hq] at hE
  obtain ⟨c1, c2, c3⟩ := chain_chords
  have hkq : 0 < K * q := by positivity
  have s1 := cold_slopes (o := .default) hat hA laD (a := 7 / 2 * q) (b := 19 / 5 * q) (c := 21 / 5 * q) (s := 1)
    (by rw [← hp, hcv]; linarith) (by linarith) (by linarith) (by
      rw [← hp, hE _ (by norm_num), hE _ (by norm_num), hE _ (by norm_num)]
      nlinarith [mul_pos hkq c1])
  have s2 := cold_slopes (o := .default) hat hA laD (a := 5 * q) (b := 7 * q) (c := 10 * q) (s := -1)
    (by rw [← hp, hcv]; linarith) (by linarith) (by linarith) (by
      rw [← hp, hE _ (by norm_num), hE _ (by norm_num), hE _ (by norm_num)]
      nlinarith [mul_neg_of_pos_of_neg hkq c2])
  have s3 := cold_slopes (o := .default) hat hA laD (a := 14 * q) (b := 30 * q) (c := 60 * q) (s := 1)
    (by rw [← hp, hcv]; linarith) (by linarith) (by linarith) (by
      rw [← hp, hE _ (by norm_num), hE _ (by norm_num), hE _ (by norm_num)]
      nlinarith [mul_pos hkq c3])
  obtain ⟨T₀, hT₀, hsub⟩ := mem_nhdsGT_iff_exists_Ioo_subset.1 ((s1.and s2).and s3)
  refine ⟨T₀, hT₀, fun t ht htT => ?_⟩
  obtain ⟨⟨⟨V₁, V₂, P₁, P₂, a1, a2, a3, a4, a5, a6, a7⟩, V₃, V₄, P₃, P₄, b1, b2, b3, b4, b5, b6, b7⟩, V₅, V₆, P₅, P₆,
    d1, d2, d3, d4, d5, d6, d7⟩ := hsub ⟨ht, htT⟩
  have hV₁ : Admissible p t V₁ (fun _ => 1) := chain_admissible hσ hε ht (by rw [← hq]; linarith)
  have h12 : V₁ < V₂ := by linarith
  have h23 : V₂ < V₃ := by linarith
  have h34 : V₃ < V₄ := by linarith
  have h45 : V₄ < V₅ := by linarith
  have h56 : V₅ < V₆ := by linarith
  refine ⟨⟨V₁, V₂, V₃, V₄, V₅, V₆, P₁, P₂, P₃, P₄, P₅, P₆, hV₁, ?_, h12, h23, h34, h45, h56, a5, a6, b5, b6, d5, d6,
    by linarith, by linarith, by linarith⟩, fun hone => ?_⟩
  · have e : (Eos.withOptions p .default).maxDensity (fun _ => 1) = 1 / 2 / q := by
      have e1 : (Eos.withOptions p .default).maxDensity (fun _ => 1)
          = 0.5 * sumFin (fun _ : Fin 1 => (1 : ℝ)) / sumFin (fun _ : Fin 1 => Real.pi / 6.0 * 3 * F64.powi σ 3 * 1) := rfl
      rw [e1, sumFin_real, sumFin_real, hq]
      simp only [Fin.sum_univ_one, powi_real]
      norm_num
      ring
    rw [e, div_div, div_lt_div_iff_of_pos_left one_pos hV₁.volume (by positivity)]
    linarith
  · have := hone V₁ V₂ V₃ V₄ V₅ V₆ P₁ P₂ P₃ P₄ P₅ P₆ hV₁ h12 h23 h34 h45 h56 a5 a6 b5 b6 d5 d6 (by linarith) (by linarith)
    linarith

end

/-! ## Cases that meet the hypotheses -/

example (laD : LinAlg ℝ (Dual ℝ)) := C94_one_loop_counterexample (σ := 3.7) (ε := 220) (by norm_num) (by norm_num) laD

example (laD : LinAlg ℝ (Dual ℝ)) (laD3 : LinAlg ℝ (Dual (Dual (Dual ℝ)))) :=
  C94_one_loop_partial (o := .default) (chainRecords_attracting (σ := 3.7) (ε := 220) (by norm_num))
    (chain_admissible (by norm_num) (by norm_num) one_pos (lt_add_one _)) laD laD3

end Props
end PcSaft
