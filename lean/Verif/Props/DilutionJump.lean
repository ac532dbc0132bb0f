import Verif.Props.InfiniteDilution

/-!
# Dipoles at infinite dilution in quadrupoles (C108)

With only the dipoles (or only the quadrupoles) absent, second- and third-order term of the dipole-quadrupole
contribution vanish in proportion to the missing amount. The code replaces the quotient 0/0 by the second-order
term alone, whose slope is not the limit of the slopes of the quotient.
-/

open Filter Topology

namespace PcSaft.Spec

/-- The slope at amount zero lies below the limit of the slopes at small amounts. -/
def JumpsAtZero (code : ℝ → Except Panic (Dual XReal)) : Prop :=
  ∃ (slope : ℝ → ℝ) (limit : ℝ), (∀ᶠ t in 𝓝[≥] 0, ∃ a, code t = .ok ⟨XReal.fin a, XReal.fin (slope t)⟩)
    ∧ Tendsto slope (𝓝[>] 0) (𝓝 limit) ∧ slope 0 < limit

/-- A dipolar solute in a quadrupolar solvent: component 0 has a dipole only, component 1 a quadrupole only, and
component 0 is absent. The correlation integrals are positive. -/
structure DipoleInQuadrupoles (pr : Fin 2 → PureRecord ℝ) (k : Fin 2 → Fin 2 → ℝ) (T V N1 : ℝ) : Prop where
  admissible : Admissible (fromRecords pr k) T V ![0, N1]
  energy_pos : ∀ i, 0 < (pr i).model_record.epsilon_k
  dipole : (fromRecords pr k).mu 0 ≠ 0
  no_quadrupole : (fromRecords pr k).q 0 = 0
  no_dipole : (fromRecords pr k).mu 1 = 0
  quadrupole : (fromRecords pr k).q 1 ≠ 0
  pair : 0 < (Props.fluidOf pr k).j2 T ADQ BDQ (packingFraction (fromRecords pr k) T V ![0, N1]) 0 1
  triplet : 0 < (Props.fluidOf pr k).j3 (fun r => ![CDQ r 0, CDQ r 1, 0]) (packingFraction (fromRecords pr k) T V ![0, N1]) 0 1 1

/-- A quadrupolar solute in a dipolar solvent. -/
structure QuadrupoleInDipoles (pr : Fin 2 → PureRecord ℝ) (k : Fin 2 → Fin 2 → ℝ) (T V N1 : ℝ) : Prop where
  admissible : Admissible (fromRecords pr k) T V ![0, N1]
  energy_pos : ∀ i, 0 < (pr i).model_record.epsilon_k
  quadrupole : (fromRecords pr k).q 0 ≠ 0
  no_dipole : (fromRecords pr k).mu 0 = 0
  no_quadrupole : (fromRecords pr k).q 1 = 0
  dipole : (fromRecords pr k).mu 1 ≠ 0
  pair : 0 < (Props.fluidOf pr k).j2 T ADQ BDQ (packingFraction (fromRecords pr k) T V ![0, N1]) 1 0
  triplet : 0 < (Props.fluidOf pr k).j3 (fun r => ![CDQ r 0, CDQ r 1, 0]) (packingFraction (fromRecords pr k) T V ![0, N1]) 1 0 1

end PcSaft.Spec

namespace PcSaft.Props
open Spec

section jump
variable {pr : Fin 2 → PureRecord ℝ} {k : Fin 2 → Fin 2 → ℝ} {T V N1 : ℝ}

/-- the state with a given amount of the solute -/
noncomputable def solutePoint (T V N1 t : ℝ) : StatePoint 2 := (T, V, ![t, N1])

theorem continuous_solutePoint : Continuous (solutePoint T V N1) := by
  refine continuous_const.prodMk (continuous_const.prodMk (continuous_pi fun i => ?_))
  fin_cases i
  · exact continuous_id
  · exact continuous_const

theorem lineState_solute (t s : ℝ) : lineState 0 0 ![1, 0] (solutePoint T V N1 t, s) = StateHD.new T V ![t + s, N1] := by
  have : (fun i => ![t, N1] i + s * ![(1 : ℝ), 0] i) = ![t + s, N1] := by
    funext i
    fin_cases i <;> simp
  simp only [lineState, solutePoint, mul_zero, add_zero, this]

variable (h : Admissible (fromRecords pr k) T V ![0, N1])
include h

theorem admissible_solute : ∀ᶠ t in 𝓝[≥] (0 : ℝ), solutePoint T V N1 t ∈ admissiblePoints (fromRecords pr k) := by
  have hN : 0 < N1 := by
    obtain ⟨i, hi⟩ := h.moles_ne_zero
    have := h.moles_nonneg i
    fin_cases i
    · simp at hi
    · exact lt_of_le_of_ne this (Ne.symm hi)
  have hc : ContinuousAt (fun t => Spec.packingFraction (fromRecords pr k) T V ![t, N1]) 0 := by
    simp only [Spec.packingFraction, Fin.sum_univ_two, Matrix.cons_val_zero, Matrix.cons_val_one]
    fun_prop
  have := hc.eventually_lt (continuousAt_const (y := (1 : ℝ))) h.packing
  filter_upwards [self_mem_nhdsWithin, nhdsWithin_le_nhds this] with t ht hp
  refine ⟨h.temperature, h.volume, h.m_pos, h.sigma_pos, h.epsilon_nonneg, ?_, ⟨1, hN.ne'⟩, hp⟩
  intro i
  fin_cases i
  · exact ht
  · exact hN.le

theorem tendsto_solute : Tendsto (solutePoint T V N1) (𝓝[≥] 0) (𝓝[admissiblePoints (fromRecords pr k)] (solutePoint T V N1 0)) :=
  tendsto_nhdsWithin_iff.2 ⟨continuous_solutePoint.continuousAt.tendsto.mono_left nhdsWithin_le_nhds, admissible_solute h⟩

/-- a polar contribution whose second- and third-order term vanish in proportion to the amount -/
theorem polar_jump (hpx : ParamRel XReal.IsFin (fromRecords pr k) (xParameters pr k)) (la : LinAlg XReal (Dual XReal))
    {ct : Contribution ℝ} (hct : IsPolar ct) {al be : ℝ → ℝ} (ca : ContinuousAt al 0) (cb : ContinuousAt be 0)
    (hP : ∀ t, (polarPhis (fromRecords pr k) (StateHD.new T V ![t, N1]) ct).1 = t * al t)
    (hQ : ∀ t, (polarPhis (fromRecords pr k) (StateHD.new T V ![t, N1]) ct).2 = t * be t) (ha : al 0 < 0) (hb : 0 < be 0) :
    JumpsAtZero fun t => (ct.map XReal.fin).helmholtzEnergy la (xParameters pr k) (pointX 0 0 ![1, 0] (solutePoint T V N1 t)) := by
  have hsij : ∀ i j, (fromRecords pr k).sigma_ij i j ≠ 0 := fun i j => (sigma_ij_pos h i j).ne'
  have hsig : ∀ i, (fromRecords pr k).sigma i ≠ 0 := fun i => (h.sigma_pos i).ne'
  set x0 := solutePoint T V N1 0 with hx0
  have hl : StateRel (rhoE x0) (fun x => lineState 0 0 ![1, 0] x) (StateHD.new ⟨x0.1, 0⟩ ⟨x0.2.1, 0⟩ fun i => ⟨x0.2.2 i, (![1, 0] : Fin 2 → ℝ) i⟩) :=
    rep_state lawfulEmb_id (ρ := rhoE x0) (p := fromRecords pr k)
      (T := fun x => x.1.1 + x.2 * 0) (V := fun x => x.1.2.1 + x.2 * 0) (N := fun i x => x.1.2.2 i + x.2 * (![1, 0] : Fin 2 → ℝ) i)
      (seedE (f := fun y => y.1) (by fun_prop) 0) (seedE (f := fun y => y.2.1) (by fun_prop) 0)
      (fun i => seedE (f := fun y => y.2.2 i) (by fun_prop) _) (by simpa using (show Admissible _ x0.1 x0.2.1 x0.2.2 from h))
  have hT0 : (lineState 0 0 ![1, 0] (x0, 0)).temperature ≠ 0 := by
    rw [lineState_zero]
    exact h.temperature.ne'
  obtain ⟨⟨_, ⟨-, -⟩, P', d2, c2, -⟩, ⟨_, ⟨-, -⟩, Q', d3, c3, -⟩⟩ :=
    rep_polarPhis lawfulEmb_id (ParamRel.refl (fromRecords pr k)) h.m_pos hsij hsig hl hT0 ct
  have htend := tendsto_solute h
  have hcont := (continuous_solutePoint (T := T) (V := V) (N1 := N1)).continuousAt (x := 0)
  have slope0 : ∀ {f : ℝ → ℝ}, ContinuousAt f 0 → HasDerivAt (fun s => s * f s) (f 0) 0 := by
    intro f hf
    rw [hasDerivAt_iff_tendsto_slope_zero]
    refine (hf.tendsto.mono_left (nhdsWithin_le_nhds (s := {0}ᶜ))).congr' ?_
    filter_upwards [self_mem_nhdsWithin] with s hs
    have : s ≠ 0 := hs
    simp [this]
  have e2 : P' x0 = al 0 := by
    refine d2.self_of_nhds.unique ?_
    simp only [hx0, lineState_solute, hP, zero_add]
    exact slope0 ca
  have e3 : Q' x0 = be 0 := by
    refine d3.self_of_nhds.unique ?_
    simp only [hx0, lineState_solute, hQ, zero_add]
    exact slope0 cb
  have hne : ∀ᶠ t in 𝓝 (0 : ℝ), al t - be t ≠ 0 := (ca.sub cb).eventually_ne (by
    have : al 0 - be 0 < 0 := by linarith
    exact this.ne)
  classical
  refine ⟨fun t => if t = 0 then al 0 * V else padeSlope (t * al t) (P' (solutePoint T V N1 t)) (t * be t) (Q' (solutePoint T V N1 t)) V 0,
    al 0 ^ 2 / (al 0 - be 0) * V, ?_, ?_, ?_⟩
  · filter_upwards [admissible_solute h, nhdsWithin_le_nhds (hcont.eventually d2), nhdsWithin_le_nhds (hcont.eventually d3),
      nhdsWithin_le_nhds hne] with t hy k2 k3 hn
    replace hy : Admissible (fromRecords pr k) T V ![t, N1] := hy
    set y := solutePoint T V N1 t with hyd
    have hst := rep_state XReal.lawfulEmb (ρ := repDual XReal.lawfulEmb rhoX 0) (p := fromRecords pr k)
      (seedX y.1 0) (seedX y.2.1 0) (fun i => seedX (y.2.2 i) ((![1, 0] : Fin 2 → ℝ) i)) (by simpa using (show Admissible _ y.1 y.2.1 y.2.2 from hy))
    obtain ⟨u2, u3⟩ := rep_polarPhis XReal.lawfulEmb hpx hy.m_pos hsij hsig hst (by
      change y.1 + 0 * 0 ≠ 0
      simpa using (show y.1 ≠ 0 from hy.temperature.ne')) ct
    obtain ⟨w1, w2⟩ := pade_point (T' := 0) (V' := 0) (N' := ![1, 0]) (y := y) (P := fun s => (polarPhis (fromRecords pr k) s ct).1)
      (Q := fun s => (polarPhis (fromRecords pr k) s ct).2) u2 u3 k2 k3
    rw [polar_energy la _ _ ((isPolar_map _ ct).2 hct), polarPhis_map]
    simp only [hyd, lineState_solute, add_zero, hP, hQ] at w1 w2
    by_cases h0 : t = 0
    · subst h0
      refine ⟨0, congrArg Except.ok ((w2 (by simp) (by simp)).trans ?_)⟩
      rw [if_pos rfl, ← hx0, e2]
      rfl
    · refine ⟨(t * al t) ^ 2 / (t * al t - t * be t) * V, congrArg Except.ok ((w1 fun e => ?_).trans ?_)⟩
      · exact hn (by
          have := mul_left_cancel₀ h0 e
          linarith)
      · rw [if_neg h0]
        rfl
  · have cP : ContinuousAt (fun t => P' (solutePoint T V N1 t)) 0 := ContinuousAt.comp (f := solutePoint T V N1) c2 hcont
    have cQ : ContinuousAt (fun t => Q' (solutePoint T V N1 t)) 0 := ContinuousAt.comp (f := solutePoint T V N1) c3 hcont
    have h0 : al 0 - be 0 ≠ 0 := by
      have : al 0 - be 0 < 0 := by linarith
      exact this.ne
    have hlim : ContinuousAt (fun t => (2 * al t * P' (solutePoint T V N1 t) / (al t - be t)
        - al t ^ 2 * (P' (solutePoint T V N1 t) - Q' (solutePoint T V N1 t)) / (al t - be t) ^ 2) * V) 0 := by
      have := pow_ne_zero 2 h0
      fun_prop (disch := assumption)
    have hval : (2 * al 0 * P' (solutePoint T V N1 0) / (al 0 - be 0)
        - al 0 ^ 2 * (P' (solutePoint T V N1 0) - Q' (solutePoint T V N1 0)) / (al 0 - be 0) ^ 2) * V
        = al 0 ^ 2 / (al 0 - be 0) * V := by
      rw [← hx0, e2, e3]
      field_simp
      ring
    have := hlim.tendsto.mono_left (nhdsWithin_le_nhds (s := Set.Ioi 0))
    rw [hval] at this
    refine this.congr' ?_
    filter_upwards [self_mem_nhdsWithin, nhdsWithin_le_nhds hne] with t ht hn
    have ht0 : t ≠ 0 := ne_of_gt ht
    have hd : t * al t - t * be t ≠ 0 := by
      rw [← mul_sub]
      exact mul_ne_zero ht0 hn
    rw [if_neg ht0]
    unfold padeSlope
    have e : t * al t - t * be t = t * (al t - be t) := by ring
    rw [e]
    generalize al t - be t = D at *
    field_simp
    ring
  · beta_reduce
    rw [if_pos rfl]
    refine mul_lt_mul_of_pos_right ?_ h.volume
    rw [lt_div_iff_of_neg (by linarith)]
    nlinarith

omit h in
/-- the remaining contributions do not hide the jump -/
theorem jump_add {S : Set (StatePoint 2)} {f : StatePoint 2 → Except Panic (Dual XReal)} {g code : ℝ → Except Panic (Dual XReal)}
    (hS : Tendsto (solutePoint T V N1) (𝓝[≥] 0) (𝓝[S] (solutePoint T V N1 0)))
    (hf : ContinuousSlope S (solutePoint T V N1 0) f) (hg : JumpsAtZero g)
    (hc : ∀ t a b, f (solutePoint T V N1 t) = .ok a → g t = .ok b → code t = .ok (a + b)) : JumpsAtZero code := by
  obtain ⟨a, a', h1, -, h3⟩ := hf
  obtain ⟨m, l, k1, k2, k3⟩ := hg
  refine ⟨fun t => a' (solutePoint T V N1 t) + m t, a' (solutePoint T V N1 0) + l, ?_, ?_, by linarith⟩
  · filter_upwards [hS.eventually h1, k1] with t ht ⟨b, hb⟩
    exact ⟨_, (hc t _ _ ht hb).trans (congrArg Except.ok (xdual_add _ _ _ _))⟩
  · exact (h3.tendsto.comp (hS.mono_left (nhdsWithin_mono _ Set.Ioi_subset_Ici_self))).add k2

end jump

section mixtures
variable {pr : Fin 2 → PureRecord ℝ} {k : Fin 2 → Fin 2 → ℝ} {T V N1 : ℝ}

theorem dqTerm_mu_zero {i : Fin 2} (hi : (fromRecords pr k).mu i = 0) (t : ℝ) : dqTerm (fromRecords pr k) (fromRecords pr k).mu2 t i = 0 := by
  simp [dqTerm, mu2_zero hi]

theorem dqTerm_q_zero {i : Fin 2} (hi : (fromRecords pr k).q i = 0) (t : ℝ) : dqTerm (fromRecords pr k) (fromRecords pr k).q2 t i = 0 := by
  simp [dqTerm, q2_zero hi]

theorem muQ_zero {i j : Fin 2} (v : DQVariants) (hi : (fromRecords pr k).mu i = 0 ∨ (fromRecords pr k).q j = 0) (t : ℝ) :
    muQTerm v (fromRecords pr k) t i j = 0 := by
  rcases hi with h | h
  · cases v <;> simp [muQTerm, dqTerm_mu_zero h]
  · cases v <;> simp [muQTerm, dqTerm_q_zero h]

theorem eta_solute (h : Admissible (fromRecords pr k) T V ![0, N1]) :
    ContinuousAt (fun t => stateEta (fromRecords pr k) (StateHD.new T V ![t, N1])) 0 :=
  ContinuousAt.comp (f := solutePoint T V N1) (x := 0) (eta_near (x0 := solutePoint T V N1 0) h) continuous_solutePoint.continuousAt

theorem alpha_pos : (0 : ℝ) < ALPHA := by
  unfold ALPHA
  norm_num

/-- C108: in the dipole-quadrupole contribution, the residual chemical potential of a dipolar solute at infinite
dilution in a quadrupolar solvent lies below its limit. -/
theorem C108_dipole_in_quadrupoles (h : DipoleInQuadrupoles pr k T V N1) (v : DQVariants) (la : LinAlg XReal (Dual XReal))
    (hk : ∀ i, 0 ≤ (fromRecords pr k).kappa_ab i) :
    JumpsAtZero fun t => Contribution.helmholtzEnergy la (xParameters pr k)
      (StateHD.new ⟨XReal.fin T, XReal.fin 0⟩ ⟨XReal.fin V, XReal.fin 0⟩
        fun i => ⟨XReal.fin ((![t, N1] : Fin 2 → ℝ) i), XReal.fin ((![1, 0] : Fin 2 → ℝ) i)⟩) (.dipoleQuadrupole v) := by
  have ha := h.admissible
  have hok := polarOk_fromRecords pr k fun i => (ha.m_pos i).le
  have hpx := xParameters_rel pr k ha.m_pos ha.sigma_pos h.energy_pos hk
  obtain ⟨ck2, ck3⟩ := continuousAt_polarK (Y := ℝ) (y0 := 0) (t := fun _ => T) (fromRecords pr k) continuousAt_const ha.temperature.ne'
    (eta_solute ha) (.dipoleQuadrupole v : Contribution ℝ)
  have hmu := fun t => dqTerm_mu_zero h.no_dipole t
  have hq := fun t => dqTerm_q_zero h.no_quadrupole t
  have hT := ha.temperature
  have hV := ha.volume
  have hN : 0 < N1 := by
    obtain ⟨i, hi⟩ := ha.moles_ne_zero
    have := ha.moles_nonneg i
    fin_cases i
    · simp at hi
    · exact lt_of_le_of_ne this (Ne.symm hi)
  have p1 := mu2_pos ha h.dipole (h.energy_pos 0)
  have p2 := q2_pos ha h.quadrupole (h.energy_pos 1)
  have e0 : 0 < (fromRecords pr k).epsilon_k 0 := h.energy_pos 0
  have e1 : 0 < (fromRecords pr k).epsilon_k 1 := h.energy_pos 1
  have s0 := ha.sigma_pos 0
  have s1 := ha.sigma_pos 1
  have s01 := sigma_ij_pos ha 0 1
  have s11 := sigma_ij_pos ha 1 1
  have hpi := Real.pi_pos
  have hal := alpha_pos
  have hpair := h.pair
  have htrip := h.triplet
  rw [← pairI_theory pr k (by decide), ← stateEta_new] at hpair
  rw [← dqI3_theory pr k ha.m_pos, ← stateEta_new] at htrip
  refine polar_jump ha hpx la (ct := .dipoleQuadrupole v) trivial
    (al := fun t => -(Real.pi * 2.25) * (1 / V * (N1 / V)) * dqK2 v (fromRecords pr k) T (stateEta (fromRecords pr k) (StateHD.new T V ![t, N1])) 0 1)
    (be := fun t => Real.pi * Real.pi * (1 / V * (N1 / V)) *
      (t / V * dqK3d (fromRecords pr k) T (stateEta (fromRecords pr k) (StateHD.new T V ![t, N1])) 0 1 0
        + N1 / V * dqK3q (fromRecords pr k) T (stateEta (fromRecords pr k) (StateHD.new T V ![t, N1])) 0 1 1)) ?_ ?_ ?_ ?_ ?_ ?_
  · exact continuousAt_const.mul (ck2 0 1)
  · refine continuousAt_const.mul (ContinuousAt.add (ContinuousAt.mul (by fun_prop) ?_) (continuousAt_const.mul ?_))
    · exact continuousAt_dqK3d _ continuousAt_const ha.temperature.ne' (eta_solute ha) 0 1 0
    · exact continuousAt_dqK3q _ continuousAt_const ha.temperature.ne' (eta_solute ha) 0 1 1
  · intro t
    rw [(polarPhis_real hok _ _).1]
    simp only [polarC2, polarK2, Fin.sum_univ_two, StateHD.new, Matrix.cons_val_zero, Matrix.cons_val_one, dqK2,
      muQ_zero v (Or.inr h.no_quadrupole), muQ_zero v (Or.inl h.no_dipole), zero_div, zero_mul, mul_zero, add_zero, zero_add]
    ring
  · intro t
    rw [(polarPhis_real hok _ _).2]
    simp only [polarC3, polarK3, Fin.sum_univ_two, StateHD.new, Matrix.cons_val_zero, Matrix.cons_val_one, dqK3d, dqK3q,
      hmu, hq, zero_div, zero_mul, mul_zero, add_zero, zero_add]
    ring
  · have : 0 < dqK2 v (fromRecords pr k) T (stateEta (fromRecords pr k) (StateHD.new T V ![0, N1])) 0 1 := by
      cases v <;> simp only [dqK2, muQTerm, dqTerm, c, ofF_real, powi_real] <;> positivity
    have : 0 < Real.pi * 2.25 * (1 / V * (N1 / V)) * dqK2 v (fromRecords pr k) T (stateEta (fromRecords pr k) (StateHD.new T V ![0, N1])) 0 1 := by
      positivity
    linarith
  · have : 0 < dqK3q (fromRecords pr k) T (stateEta (fromRecords pr k) (StateHD.new T V ![0, N1])) 0 1 1 := by
      simp only [dqK3q, dqTerm, c, ofF_real, powi_real]
      positivity
    simp only [zero_div, zero_mul, zero_add]
    positivity

/-- C108: in the dipole-quadrupole contribution, the residual chemical potential of a quadrupolar solute at infinite
dilution in a dipolar solvent lies below its limit. -/
theorem C108_quadrupole_in_dipoles (h : QuadrupoleInDipoles pr k T V N1) (v : DQVariants) (la : LinAlg XReal (Dual XReal))
    (hk : ∀ i, 0 ≤ (fromRecords pr k).kappa_ab i) :
    JumpsAtZero fun t => Contribution.helmholtzEnergy la (xParameters pr k)
      (StateHD.new ⟨XReal.fin T, XReal.fin 0⟩ ⟨XReal.fin V, XReal.fin 0⟩
        fun i => ⟨XReal.fin ((![t, N1] : Fin 2 → ℝ) i), XReal.fin ((![1, 0] : Fin 2 → ℝ) i)⟩) (.dipoleQuadrupole v) := by
  have ha := h.admissible
  have hok := polarOk_fromRecords pr k fun i => (ha.m_pos i).le
  have hpx := xParameters_rel pr k ha.m_pos ha.sigma_pos h.energy_pos hk
  obtain ⟨ck2, ck3⟩ := continuousAt_polarK (Y := ℝ) (y0 := 0) (t := fun _ => T) (fromRecords pr k) continuousAt_const ha.temperature.ne'
    (eta_solute ha) (.dipoleQuadrupole v : Contribution ℝ)
  have hmu := fun t => dqTerm_mu_zero h.no_dipole t
  have hq := fun t => dqTerm_q_zero h.no_quadrupole t
  have hT := ha.temperature
  have hV := ha.volume
  have hN : 0 < N1 := by
    obtain ⟨i, hi⟩ := ha.moles_ne_zero
    have := ha.moles_nonneg i
    fin_cases i
    · simp at hi
    · exact lt_of_le_of_ne this (Ne.symm hi)
  have p1 := mu2_pos ha h.dipole (h.energy_pos 1)
  have p2 := q2_pos ha h.quadrupole (h.energy_pos 0)
  have e0 : 0 < (fromRecords pr k).epsilon_k 0 := h.energy_pos 0
  have e1 : 0 < (fromRecords pr k).epsilon_k 1 := h.energy_pos 1
  have s0 := ha.sigma_pos 0
  have s1 := ha.sigma_pos 1
  have s01 := sigma_ij_pos ha 1 0
  have s01' := sigma_ij_pos ha 0 1
  have s11 := sigma_ij_pos ha 1 1
  have hpi := Real.pi_pos
  have hal := alpha_pos
  have hpair := h.pair
  have htrip := h.triplet
  rw [← pairI_theory pr k (by decide), ← stateEta_new] at hpair
  rw [← dqI3_theory pr k ha.m_pos, ← stateEta_new] at htrip
  refine polar_jump ha hpx la (ct := .dipoleQuadrupole v) trivial
    (al := fun t => -(Real.pi * 2.25) * (1 / V * (N1 / V)) * dqK2 v (fromRecords pr k) T (stateEta (fromRecords pr k) (StateHD.new T V ![t, N1])) 1 0)
    (be := fun t => Real.pi * Real.pi * (1 / V * (N1 / V)) *
      (N1 / V * dqK3d (fromRecords pr k) T (stateEta (fromRecords pr k) (StateHD.new T V ![t, N1])) 1 0 1
        + t / V * dqK3q (fromRecords pr k) T (stateEta (fromRecords pr k) (StateHD.new T V ![t, N1])) 1 0 0)) ?_ ?_ ?_ ?_ ?_ ?_
  · exact continuousAt_const.mul (ck2 1 0)
  · refine continuousAt_const.mul (ContinuousAt.add (continuousAt_const.mul ?_) (ContinuousAt.mul (by fun_prop) ?_))
    · exact continuousAt_dqK3d _ continuousAt_const ha.temperature.ne' (eta_solute ha) 1 0 1
    · exact continuousAt_dqK3q _ continuousAt_const ha.temperature.ne' (eta_solute ha) 1 0 0
  · intro t
    rw [(polarPhis_real hok _ _).1]
    simp only [polarC2, polarK2, Fin.sum_univ_two, StateHD.new, Matrix.cons_val_zero, Matrix.cons_val_one, dqK2,
      muQ_zero v (Or.inr h.no_quadrupole), muQ_zero v (Or.inl h.no_dipole), zero_div, zero_mul, mul_zero, add_zero, zero_add]
    ring
  · intro t
    rw [(polarPhis_real hok _ _).2]
    simp only [polarC3, polarK3, Fin.sum_univ_two, StateHD.new, Matrix.cons_val_zero, Matrix.cons_val_one, dqK3d, dqK3q,
      hmu, hq, zero_div, zero_mul, mul_zero, add_zero, zero_add]
    ring
  · have : 0 < dqK2 v (fromRecords pr k) T (stateEta (fromRecords pr k) (StateHD.new T V ![0, N1])) 1 0 := by
      cases v <;> simp only [dqK2, muQTerm, dqTerm, c, ofF_real, powi_real] <;> positivity
    have : 0 < Real.pi * 2.25 * (1 / V * (N1 / V)) * dqK2 v (fromRecords pr k) T (stateEta (fromRecords pr k) (StateHD.new T V ![0, N1])) 1 0 := by
      positivity
    linarith
  · have : 0 < dqK3d (fromRecords pr k) T (stateEta (fromRecords pr k) (StateHD.new T V ![0, N1])) 1 0 1 := by
      simp only [dqK3d, dqTerm, c, ofF_real, powi_real]
      positivity
    simp only [zero_div, zero_mul, add_zero]
    positivity


/-- the jump of the dipole-quadrupole contribution is one of the whole residual energy -/
theorem residual_jump (ha : Admissible (fromRecords pr k) T V ![0, N1]) (o : PcSaftOptions ℝ) (la : LinAlg XReal (Dual XReal))
    (he : ∀ i, 0 < (pr i).model_record.epsilon_k) (hassoc : (fromRecords pr k).assoc_comp = [])
    (hd : (fromRecords pr k).dipole_comp ≠ []) (hq : (fromRecords pr k).quadpole_comp ≠ [])
    (hr : ∀ ct ∈ [Contribution.dipole, .quadrupole], Regular (fromRecords pr k) T V ![0, N1] ct ∨ AbsentPolar pr k T V ![0, N1] ct)
    (hj : JumpsAtZero fun t => Contribution.helmholtzEnergy la (xParameters pr k)
      (StateHD.new ⟨XReal.fin T, XReal.fin 0⟩ ⟨XReal.fin V, XReal.fin 0⟩
        fun i => ⟨XReal.fin ((![t, N1] : Fin 2 → ℝ) i), XReal.fin ((![1, 0] : Fin 2 → ℝ) i)⟩) (.dipoleQuadrupole o.dq_variant)) :
    JumpsAtZero fun t => (Eos.withOptions (xParameters pr k) (o.map XReal.fin)).residualHelmholtz la
      (StateHD.new ⟨XReal.fin T, XReal.fin 0⟩ ⟨XReal.fin V, XReal.fin 0⟩
        fun i => ⟨XReal.fin ((![t, N1] : Fin 2 → ℝ) i), XReal.fin ((![1, 0] : Fin 2 → ℝ) i)⟩) := by
  have hk : ∀ i, 0 ≤ (fromRecords pr k).kappa_ab i := by
    intro i
    by_contra hne
    have : i ∈ (fromRecords pr k).assoc_comp := (mem_assoc_iff pr k i).2 (by intro e; exact hne e.ge)
    simp [hassoc] at this
  have hpx := xParameters_rel pr k ha.m_pos ha.sigma_pos he hk
  set rest : List (Contribution ℝ) := [.hardSphere, .hardChain, .dispersion, .dipole, .quadrupole] with hrest
  have hb : buildContributions (xParameters pr k) (o.map XReal.fin)
      = rest.map (Contribution.map XReal.fin) ++ [.dipoleQuadrupole o.dq_variant] := by
    have h1 : 0 < (xParameters pr k).ndipole := by
      rw [PcSaftParameters.ndipole, hpx.dipole_comp]
      exact List.length_pos_iff.2 hd
    have h2 : 0 < (xParameters pr k).nquadpole := by
      rw [PcSaftParameters.nquadpole, hpx.quadpole_comp]
      exact List.length_pos_iff.2 hq
    have h3 : (xParameters pr k).nassoc = 0 := by
      rw [PcSaftParameters.nassoc, hpx.assoc_comp, hassoc]
      rfl
    unfold buildContributions
    rw [if_pos h1, if_pos h2, if_pos ⟨h1, h2⟩, h3]
    rfl
  have hf := continuousSlope_fold (S := admissiblePoints (fromRecords pr k)) (q := xParameters pr k) (st := pointX 0 0 ![1, 0]) la
    (rest.map (Contribution.map XReal.fin)) (x0 := solutePoint T V N1 0) (fun ct' hct' => by
      obtain ⟨ct, hct, rfl⟩ := List.mem_map.1 hct'
      have : Regular (fromRecords pr k) T V ![0, N1] ct ∨ AbsentPolar pr k T V ![0, N1] ct := by
        simp only [hrest, List.mem_cons, List.not_mem_nil, or_false] at hct
        rcases hct with rfl | rfl | rfl | rfl | rfl
        · exact Or.inl trivial
        · exact Or.inl trivial
        · exact Or.inl trivial
        · exact hr _ (by simp)
        · exact hr _ (by simp)
      rcases this with h | h
      · exact continuousSlope_regular (x0 := solutePoint T V N1 0) ha hpx la ct h
      · exact continuousSlope_absent (x0 := solutePoint T V N1 0) ha hpx la he ct h) (fun _ => c (0.0 : XReal))
    ⟨fun _ => 0, fun _ => 0, .of_forall fun _ => congrArg Except.ok (Dual.ext (by
      change XReal.fin (0.0 : ℝ) = _
      norm_num) (by
      change XReal.fin (0.0 : ℝ) = _
      norm_num)), continuousWithinAt_const, continuousWithinAt_const⟩
  refine jump_add (tendsto_solute ha) hf hj ?_
  intro t a b h1 h2
  refine (residual_foldFrom la _ _ _).trans ?_
  change foldFrom la (xParameters pr k) (pointX 0 0 ![1, 0] (solutePoint T V N1 t)) _ _ = _
  rw [foldFrom] at h1 ⊢
  rw [hb, List.foldlM_append, h1]
  replace h2 : Contribution.helmholtzEnergy la (xParameters pr k) (pointX 0 0 ![1, 0] (solutePoint T V N1 t)) (.dipoleQuadrupole o.dq_variant) = .ok b := h2
  have e : ∀ (g : Dual XReal → Contribution XReal → Except Panic (Dual XReal)) (x : Contribution XReal) (r : Dual XReal), g a x = .ok r →
      (Except.ok a >>= fun y => List.foldlM g y [x]) = Except.ok r := by
    intro g x r hg
    change (g a x >>= fun s => List.foldlM g s []) = _
    rw [hg]
    rfl
  refine e _ _ _ ?_
  rw [h2]

theorem mem_dipole {i : Fin 2} (ha : Admissible (fromRecords pr k) T V ![0, N1]) (he : ∀ i, 0 < (pr i).model_record.epsilon_k)
    (h : (fromRecords pr k).mu i ≠ 0) : (fromRecords pr k).dipole_comp ≠ [] :=
  List.ne_nil_of_mem ((mem_nonzeroComp (fromRecords pr k).mu2 i).2 (mu2_pos ha h (he i)).ne')

theorem mem_quadrupole {i : Fin 2} (ha : Admissible (fromRecords pr k) T V ![0, N1]) (he : ∀ i, 0 < (pr i).model_record.epsilon_k)
    (h : (fromRecords pr k).q i ≠ 0) : (fromRecords pr k).quadpole_comp ≠ [] :=
  List.ne_nil_of_mem ((mem_nonzeroComp (fromRecords pr k).q2 i).2 (q2_pos ha h (he i)).ne')

/-- C108 is wrong for a dipolar solute in a quadrupolar solvent: its residual chemical potential at infinite dilution
lies below the limit of the values for vanishing amounts. -/
theorem C108_dipole_in_quadrupoles_counterexample (h : DipoleInQuadrupoles pr k T V N1) (o : PcSaftOptions ℝ) (la : LinAlg XReal (Dual XReal))
    (hassoc : (fromRecords pr k).assoc_comp = []) (hd : AbsentPolar pr k T V ![0, N1] .dipole)
    (hq : Regular (fromRecords pr k) T V ![0, N1] .quadrupole) :
    JumpsAtZero fun t => (Eos.withOptions (xParameters pr k) (o.map XReal.fin)).residualHelmholtz la
      (StateHD.new ⟨XReal.fin T, XReal.fin 0⟩ ⟨XReal.fin V, XReal.fin 0⟩
        fun i => ⟨XReal.fin ((![t, N1] : Fin 2 → ℝ) i), XReal.fin ((![1, 0] : Fin 2 → ℝ) i)⟩) := by
  refine residual_jump h.admissible o la h.energy_pos hassoc (mem_dipole h.admissible h.energy_pos h.dipole)
    (mem_quadrupole h.admissible h.energy_pos h.quadrupole) (fun ct hct => ?_) (C108_dipole_in_quadrupoles h _ la fun i => ?_)
  · simp only [List.mem_cons, List.not_mem_nil, or_false] at hct
    rcases hct with rfl | rfl
    · exact Or.inr hd
    · exact Or.inl hq
  · by_contra hne
    have : i ∈ (fromRecords pr k).assoc_comp := (mem_assoc_iff pr k i).2 (by intro e; exact hne e.ge)
    simp [hassoc] at this

/-- C108 is wrong for a quadrupolar solute in a dipolar solvent. -/
theorem C108_quadrupole_in_dipoles_counterexample (h : QuadrupoleInDipoles pr k T V N1) (o : PcSaftOptions ℝ) (la : LinAlg XReal (Dual XReal))
    (hassoc : (fromRecords pr k).assoc_comp = []) (hd : Regular (fromRecords pr k) T V ![0, N1] .dipole)
    (hq : AbsentPolar pr k T V ![0, N1] .quadrupole) :
    JumpsAtZero fun t => (Eos.withOptions (xParameters pr k) (o.map XReal.fin)).residualHelmholtz la
      (StateHD.new ⟨XReal.fin T, XReal.fin 0⟩ ⟨XReal.fin V, XReal.fin 0⟩
        fun i => ⟨XReal.fin ((![t, N1] : Fin 2 → ℝ) i), XReal.fin ((![1, 0] : Fin 2 → ℝ) i)⟩) := by
  refine residual_jump h.admissible o la h.energy_pos hassoc (mem_dipole h.admissible h.energy_pos h.dipole)
    (mem_quadrupole h.admissible h.energy_pos h.quadrupole) (fun ct hct => ?_) (C108_quadrupole_in_dipoles h _ la fun i => ?_)
  · simp only [List.mem_cons, List.not_mem_nil, or_false] at hct
    rcases hct with rfl | rfl
    · exact Or.inl hd
    · exact Or.inr hq
  · by_contra hne
    have : i ∈ (fromRecords pr k).assoc_comp := (mem_assoc_iff pr k i).2 (by intro e; exact hne e.ge)
    simp [hassoc] at this

/-! ### Examples -/

/-- spheres of the same size and dispersion energy -/
structure EqualSpheres (pr : Fin 2 → PureRecord ℝ) : Prop where
  m : ∀ i, (pr i).model_record.m = 1
  sigma : ∀ i, (pr i).model_record.sigma = 3
  epsilon : ∀ i, (pr i).model_record.epsilon_k = 100

theorem EqualSpheres.packing (h : EqualSpheres pr) : 0 ≤ Spec.packingFraction (fromRecords pr k) 300 100000 ![0, 1]
    ∧ Spec.packingFraction (fromRecords pr k) 300 100000 ![0, 1] ≤ 1 / 1000 := by
  have hs : (fromRecords pr k).sigma 1 = 3 := h.sigma 1
  have he : (fromRecords pr k).epsilon_k 1 = 100 := h.epsilon 1
  have hm : (fromRecords pr k).m 1 = 1 := h.m 1
  have h1 : Real.exp (-3 * 100 / 300) ≤ 1 := Real.exp_le_one_iff.2 (by norm_num)
  have h0 := Real.exp_pos (-3 * 100 / 300)
  have hpi := Real.pi_pos
  have hpi4 := Real.pi_lt_four
  have d0 : 0 ≤ diameter 3 100 300 := by
    unfold diameter
    nlinarith
  have d1 : diameter 3 100 300 ≤ 3 := by
    unfold diameter
    nlinarith
  have d2 : diameter 3 100 300 ^ 3 ≤ 3 ^ 3 := pow_le_pow_left₀ d0 d1 3
  have d3 : 0 ≤ diameter 3 100 300 ^ 3 := by positivity
  simp only [Spec.packingFraction, Fin.sum_univ_two, Matrix.cons_val_zero, Matrix.cons_val_one, hs, he, hm, zero_mul, zero_div, zero_add, one_mul]
  constructor
  · positivity
  · rw [div_le_iff₀ (by norm_num)]
    nlinarith

theorem EqualSpheres.admissible (h : EqualSpheres pr) : Admissible (fromRecords pr k) 300 100000 ![0, 1] := by
  refine ⟨by norm_num, by norm_num, fun i => ?_, fun i => ?_, fun i => ?_, fun i => ?_, ⟨1, by simp⟩, ?_⟩
  · exact lt_of_lt_of_eq one_pos (h.m i).symm
  · exact lt_of_lt_of_eq (by norm_num) (h.sigma i).symm
  · exact le_of_le_of_eq (by norm_num) (h.epsilon i).symm
  · fin_cases i <;> simp
  · have := (EqualSpheres.packing (k := k) h).2
    linarith

theorem EqualSpheres.j2 (h : EqualSpheres pr) {q : ℕ} (a b : Fin q → Fin 3 → ℝ) (eta : ℝ) (i j : Fin 2) :
    (fluidOf pr k).j2 300 a b eta i j = ∑ r, (a r 0 + b r 0 / 3) * eta ^ (r : ℕ) := by
  have hm : (fluidOf pr k).mPair i j = 1 := by
    simp [Spec.Fluid.mPair, Spec.Fluid.mP, fluidOf, h.m]
  have he : (fluidOf pr k).energyIJ i j = 100 := by
    simp only [Spec.Fluid.energyIJ, fluidOf, h.epsilon]
    exact Real.sqrt_mul_self (by norm_num)
  simp only [Spec.Fluid.j2, hm, he, Spec.Fluid.coeff]
  exact Finset.sum_congr rfl fun r _ => by ring

theorem EqualSpheres.j3 (h : EqualSpheres pr) {q : ℕ} (a : Fin q → Fin 3 → ℝ) (eta : ℝ) (i j l : Fin 2) :
    (fluidOf pr k).j3 a eta i j l = ∑ r, a r 0 * eta ^ (r : ℕ) := by
  have hm : (fluidOf pr k).mTriplet i j l = 1 := by
    simp [Spec.Fluid.mTriplet, Spec.Fluid.mP, fluidOf, h.m]
  simp only [Spec.Fluid.j3, hm, Spec.Fluid.coeff]
  norm_num

theorem EqualSpheres.pair_pos (h : EqualSpheres pr) (i j : Fin 2) :
    0 < (fluidOf pr k).j2 300 AD BD (Spec.packingFraction (fromRecords pr k) 300 100000 ![0, 1]) i j
    ∧ 0 < (fluidOf pr k).j2 300 AQ BQ (Spec.packingFraction (fromRecords pr k) 300 100000 ![0, 1]) i j
    ∧ 0 < (fluidOf pr k).j2 300 ADQ BDQ (Spec.packingFraction (fromRecords pr k) 300 100000 ![0, 1]) i j := by
  obtain ⟨h0, h1⟩ := EqualSpheres.packing (k := k) h
  simp only [h.j2]
  generalize Spec.packingFraction (fromRecords pr k) 300 100000 ![0, 1] = y at *
  have h2 : y ^ 2 ≤ y := by nlinarith
  have h3 : y ^ 3 ≤ y := by nlinarith [pow_nonneg h0 2]
  have h4 : y ^ 4 ≤ y := by nlinarith [pow_nonneg h0 3]
  have n2 := pow_nonneg h0 2
  have n3 := pow_nonneg h0 3
  have n4 := pow_nonneg h0 4
  refine ⟨?_, ?_, ?_⟩
  · simp only [Fin.sum_univ_five, AD, BD, Matrix.cons_val_zero, Matrix.cons_val_one, Matrix.cons_val]
    norm_num
    linarith
  · simp only [Fin.sum_univ_five, AQ, BQ, Matrix.cons_val_zero, Matrix.cons_val_one, Matrix.cons_val]
    norm_num
    linarith
  · simp only [Fin.sum_univ_four, ADQ, BDQ, Matrix.cons_val_zero, Matrix.cons_val_one, Matrix.cons_val]
    norm_num
    linarith

theorem EqualSpheres.triplet_pos (h : EqualSpheres pr) (i j l : Fin 2) :
    0 < (fluidOf pr k).j3 (fun r => ![CDQ r 0, CDQ r 1, 0]) (Spec.packingFraction (fromRecords pr k) 300 100000 ![0, 1]) i j l := by
  obtain ⟨h0, h1⟩ := EqualSpheres.packing (k := k) h
  simp only [h.j3]
  generalize Spec.packingFraction (fromRecords pr k) 300 100000 ![0, 1] = y at *
  simp only [Fin.sum_univ_three, CDQ, Matrix.cons_val_zero, Matrix.cons_val_one, Matrix.cons_val]
  norm_num
  positivity

/-- a sphere with a dipole or a quadrupole -/
noncomputable def polarSphereOf (mu q : Option ℝ) : PureRecord ℝ :=
  ⟨⟨some "sphere", ""⟩, 44, ⟨1, 3, 100, mu, q, none, none, none, none, none, none, none⟩, none⟩

/-- dipole in quadrupoles -/
noncomputable def soluteDipole : Fin 2 → PureRecord ℝ := ![polarSphereOf (some 1) none, polarSphereOf none (some 1)]

/-- quadrupole in dipoles -/
noncomputable def soluteQuadrupole : Fin 2 → PureRecord ℝ := ![polarSphereOf none (some 1), polarSphereOf (some 1) none]

theorem soluteDipole_equal : EqualSpheres soluteDipole := by
  constructor <;> intro i <;> fin_cases i <;> simp [soluteDipole, polarSphereOf]

theorem soluteQuadrupole_equal : EqualSpheres soluteQuadrupole := by
  constructor <;> intro i <;> fin_cases i <;> simp [soluteQuadrupole, polarSphereOf]

/-- C108 and its violation for one mixture -/
theorem soluteDipole_case : DipoleInQuadrupoles soluteDipole 0 300 100000 1
    ∧ (fromRecords soluteDipole 0).assoc_comp = []
    ∧ AbsentPolar soluteDipole 0 300 100000 ![0, 1] .dipole
    ∧ Regular (fromRecords soluteDipole 0) 300 100000 ![0, 1] .quadrupole := by
  have h := soluteDipole_equal
  have hp := EqualSpheres.packing (k := 0) h
  have ha := EqualSpheres.admissible (k := 0) h
  have hw : WarmQuadrupole (fromRecords soluteDipole 0) 300 100000 ![0, 1] 1 := by
    refine ⟨ha, by linarith, fun i => ?_, le_of_eq (h.m 1).symm, lt_of_lt_of_eq (by norm_num) (h.epsilon 1).symm,
      le_of_eq_of_le (h.epsilon 1) (by norm_num), ?_⟩
    · fin_cases i <;> norm_num [fromRecords, soluteDipole, polarSphereOf]
    · norm_num [fromRecords, soluteDipole, polarSphereOf, jouleKelvinKB]
  refine ⟨⟨ha, fun i => lt_of_lt_of_eq (by norm_num) (h.epsilon i).symm, ?_, ?_, ?_, ?_, (h.pair_pos 0 1).2.2, h.triplet_pos 0 1 1⟩, ?_,
    ⟨fun i hi => ?_, fun i j _ _ => (h.pair_pos i j).1⟩, (C95_quadrupole_no_pole hw).2 (by simp)⟩
  · norm_num [fromRecords, soluteDipole, polarSphereOf]
  · norm_num [fromRecords, soluteDipole, polarSphereOf]
  · norm_num [fromRecords, soluteDipole, polarSphereOf]
  · norm_num [fromRecords, soluteDipole, polarSphereOf]
  · refine List.eq_nil_iff_forall_not_mem.2 fun i hi => (mem_assoc_iff _ _ i).1 hi ?_
    fin_cases i <;> simp [fromRecords, soluteDipole, polarSphereOf] <;> norm_num
  · fin_cases i
    · simp
    · exact (hi (by norm_num [fromRecords, soluteDipole, polarSphereOf])).elim

example (o : PcSaftOptions ℝ) (la : LinAlg XReal (Dual XReal)) :=
  C108_dipole_in_quadrupoles_counterexample soluteDipole_case.1 o la soluteDipole_case.2.1 soluteDipole_case.2.2.1 soluteDipole_case.2.2.2

example (v : DQVariants) (la : LinAlg XReal (Dual XReal)) :=
  C108_dipole_in_quadrupoles soluteDipole_case.1 v la fun i => by
    fin_cases i <;> simp [fromRecords, soluteDipole, polarSphereOf] <;> norm_num

theorem soluteQuadrupole_case : QuadrupoleInDipoles soluteQuadrupole 0 300 100000 1
    ∧ (fromRecords soluteQuadrupole 0).assoc_comp = []
    ∧ Regular (fromRecords soluteQuadrupole 0) 300 100000 ![0, 1] .dipole
    ∧ AbsentPolar soluteQuadrupole 0 300 100000 ![0, 1] .quadrupole := by
  have h := soluteQuadrupole_equal
  have hp := EqualSpheres.packing (k := 0) h
  have ha := EqualSpheres.admissible (k := 0) h
  have hw : WarmDipoles (fromRecords soluteQuadrupole 0) 300 100000 ![0, 1] := by
    refine ⟨ha, by linarith, fun i _ => le_of_eq (h.m i).symm, fun i _ => lt_of_lt_of_eq (by norm_num) (h.epsilon i).symm,
      fun i _ => le_of_eq_of_le (h.epsilon i) (by norm_num)⟩
  refine ⟨⟨ha, fun i => lt_of_lt_of_eq (by norm_num) (h.epsilon i).symm, ?_, ?_, ?_, ?_, (h.pair_pos 1 0).2.2, h.triplet_pos 1 0 1⟩, ?_,
    (C95_dipole_no_pole hw).2 ⟨1, ?_, by simp⟩, ⟨fun i hi => ?_, fun i j _ _ => (h.pair_pos i j).2.1⟩⟩
  · norm_num [fromRecords, soluteQuadrupole, polarSphereOf]
  · norm_num [fromRecords, soluteQuadrupole, polarSphereOf]
  · norm_num [fromRecords, soluteQuadrupole, polarSphereOf]
  · norm_num [fromRecords, soluteQuadrupole, polarSphereOf]
  · refine List.eq_nil_iff_forall_not_mem.2 fun i hi => (mem_assoc_iff _ _ i).1 hi ?_
    fin_cases i <;> simp [fromRecords, soluteQuadrupole, polarSphereOf] <;> norm_num
  · norm_num [fromRecords, soluteQuadrupole, polarSphereOf]
  · fin_cases i
    · simp
    · exact (hi (by norm_num [fromRecords, soluteQuadrupole, polarSphereOf])).elim

example (o : PcSaftOptions ℝ) (la : LinAlg XReal (Dual XReal)) :=
  C108_quadrupole_in_dipoles_counterexample soluteQuadrupole_case.1 o la soluteQuadrupole_case.2.1 soluteQuadrupole_case.2.2.1
    soluteQuadrupole_case.2.2.2

example (v : DQVariants) (la : LinAlg XReal (Dual XReal)) :=
  C108_quadrupole_in_dipoles soluteQuadrupole_case.1 v la fun i => by
    fin_cases i <;> simp [fromRecords, soluteQuadrupole, polarSphereOf] <;> norm_num

/-- a dipole in a plain fluid -/
noncomputable def dipoleInPlain : Fin 2 → PureRecord ℝ := ![polarSphereOf (some 1) none, polarSphereOf none none]

theorem dipoleInPlain_equal : EqualSpheres dipoleInPlain := by
  constructor <;> intro i <;> fin_cases i <;> simp [dipoleInPlain, polarSphereOf]

theorem dipoleInPlain_warm : WarmDipoles (fromRecords dipoleInPlain 0) 300 100000 ![0, 1] := by
  have h := dipoleInPlain_equal
  have hp := EqualSpheres.packing (k := 0) h
  exact ⟨EqualSpheres.admissible (k := 0) h, by linarith, fun i _ => le_of_eq (h.m i).symm, fun i _ => lt_of_lt_of_eq (by norm_num) (h.epsilon i).symm,
    fun i _ => le_of_eq_of_le (h.epsilon i) (by norm_num)⟩

/-- C108 for the chemical potential of the absent dipole -/
example (o : PcSaftOptions ℝ) (la : LinAlg XReal (Dual XReal)) :=
  C108_dipolar_fluids (x0 := (300, 100000, ![0, 1])) dipoleInPlain_warm o la
    (fun i => lt_of_lt_of_eq (by norm_num) (dipoleInPlain_equal.epsilon i).symm) (by
      refine List.eq_nil_iff_forall_not_mem.2 fun i hi => q_of_mem hi ?_
      fin_cases i <;> simp [fromRecords, dipoleInPlain, polarSphereOf] <;> norm_num) (by
      refine List.eq_nil_iff_forall_not_mem.2 fun i hi => (mem_assoc_iff _ _ i).1 hi ?_
      fin_cases i <;> simp [fromRecords, dipoleInPlain, polarSphereOf] <;> norm_num) 0 0 ![1, 0]

/-- a molecule with a dipole and a quadrupole in a plain fluid -/
noncomputable def polarInPlain : Fin 2 → PureRecord ℝ := ![polarSphereOf (some 1) (some 1), polarSphereOf none none]

theorem polarInPlain_equal : EqualSpheres polarInPlain := by
  constructor <;> intro i <;> fin_cases i <;> simp [polarInPlain, polarSphereOf]

theorem polarInPlain_case (o : PcSaftOptions ℝ) (ct : Contribution ℝ) (hct : ct ∈ buildContributions (fromRecords polarInPlain 0) o) :
    Regular (fromRecords polarInPlain 0) 300 100000 ![0, 1] ct ∨ AbsentPolar polarInPlain 0 300 100000 ![0, 1] ct := by
  have h := polarInPlain_equal
  have hmu : ∀ i, (fromRecords polarInPlain 0).mu i ≠ 0 → (![0, 1] : Fin 2 → ℝ) i = 0 := by
    intro i hi
    fin_cases i
    · simp
    · exact (hi (by norm_num [fromRecords, polarInPlain, polarSphereOf])).elim
  have hq : ∀ i, (fromRecords polarInPlain 0).q i ≠ 0 → (![0, 1] : Fin 2 → ℝ) i = 0 := by
    intro i hi
    fin_cases i
    · simp
    · exact (hi (by norm_num [fromRecords, polarInPlain, polarSphereOf])).elim
  have ha : (fromRecords polarInPlain 0).nassoc = 0 := by
    refine List.length_eq_zero_iff.2 (List.eq_nil_iff_forall_not_mem.2 fun i hi => (mem_assoc_iff _ _ i).1 hi ?_)
    fin_cases i <;> simp [fromRecords, polarInPlain, polarSphereOf] <;> norm_num
  cases ct with
  | hardSphere => exact Or.inl trivial
  | hardChain => exact Or.inl trivial
  | dispersion => exact Or.inl trivial
  | dipole => exact Or.inr ⟨hmu, fun i j _ _ => (h.pair_pos i j).1⟩
  | quadrupole => exact Or.inr ⟨hq, fun i j _ _ => (h.pair_pos i j).2.1⟩
  | dipoleQuadrupole v => exact Or.inr ⟨hmu, hq, fun i j _ _ => (h.pair_pos i j).2.2⟩
  | association =>
    unfold buildContributions at hct
    rw [ha] at hct
    split_ifs at hct <;> simp at hct
  | crossAssociation _ _ =>
    unfold buildContributions at hct
    rw [ha] at hct
    split_ifs at hct <;> simp at hct

/-- C108 with all polar molecules absent -/
example (o : PcSaftOptions ℝ) (la : LinAlg XReal (Dual XReal)) :=
  C108_infinite_dilution_partial (x0 := (300, 100000, ![0, 1])) (EqualSpheres.admissible (k := 0) polarInPlain_equal) o la
    (fun i => lt_of_lt_of_eq (by norm_num) (polarInPlain_equal.epsilon i).symm) (fun i => by
      fin_cases i <;> simp [fromRecords, polarInPlain, polarSphereOf] <;> norm_num) (polarInPlain_case o) 0 0 ![1, 0]

end mixtures

end PcSaft.Props
