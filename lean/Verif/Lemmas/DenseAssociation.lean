import Verif.Lemmas.Dense
import Verif.Props.Bonding

/-!
# Association and polar contributions near the highest density
-/

open Filter Topology

namespace PcSaft
open Spec Props
variable {n : ℕ}

/-- associating components have sites of both kinds, not too many, and bonds that are not repulsive -/
def Spec.ProperSites (p : PcSaftParameters n ℝ) : Prop :=
  ∀ i ∈ p.assoc_comp, 0 ≤ p.epsilon_k_ab i ∧ 0 < p.na i ∧ 0 < p.nb i ∧ p.na i + p.nb i ≤ 2 ^ 25

/-- lower bounds of both fractions of unbonded sites -/
theorem fracForm_ge {a b : ℝ} (ha : 0 < a) (hb : 0 < b) :
    1 / (1 + b) ≤ fracForm a b ∧ 1 / (1 + a) ≤ (fracForm a b - 1) * (a / b) + 1
      ∧ (fracForm a b - 1) * (a / b) + 1 ≤ 1 := by
  have hX := fracForm_pos (b := b) ha
  have h1 := fracForm_le_one ha hb.le
  have hq := fracForm_quadratic ha hb.le
  set X := fracForm a b
  set Y := (X - 1) * (a / b) + 1 with hY
  have hbY : b * Y = a * (X - 1) + b := by rw [hY]; field_simp
  have hY1 : Y ≤ 1 := by
    have : (X - 1) * (a / b) ≤ 0 := mul_nonpos_of_nonpos_of_nonneg (by linarith) (by positivity)
    linarith
  have e1 : X * (1 + b * Y) = 1 := by rw [hbY]; linear_combination hq
  have e2 : b * (Y * (1 + a * X)) = b := by
    rw [← mul_assoc, hbY]
    linear_combination a * hq
  have e3 : Y * (1 + a * X) = 1 := mul_left_cancel₀ hb.ne' (by rw [e2, mul_one])
  have hYp : 0 < Y := pos_of_mul_pos_left (by rw [e3]; exact one_pos) (by positivity)
  refine ⟨?_, ?_, hY1⟩
  · rw [div_le_iff₀ (by positivity), ← e1]
    have : b * Y ≤ b := by nlinarith
    nlinarith
  · rw [div_le_iff₀ (by positivity), ← e3]
    have : a * X ≤ a := by nlinarith
    nlinarith

/-- the association energy falls at most logarithmically with the strength -/
theorem assocSingle_ge {d D moles na nb : ℝ} (hd : 0 ≤ d) (hdD : d ≤ D) (hm : 0 ≤ moles) (hna : 0 < na) (hnb : 0 < nb)
    (hsmall : na + nb ≤ 2 ^ 25) :
    -(moles * (na * Real.log (1 + (D + 1) * nb) + nb * Real.log (1 + (D + 1) * na))) ≤ assocSingle d moles na nb := by
  have hD : 0 < D + 1 := by linarith
  refine le_trans ?_ (C86_single hd (hdD.trans (le_add_of_nonneg_right zero_le_one)) hm hna hnb hsmall).2.2
  have hbig : (2 ^ 26 : ℝ)⁻¹ < D + 1 := by
    have : (2 ^ 26 : ℝ)⁻¹ < 1 := by norm_num
    linarith
  rw [assocSingle_ab hnb, assocSiteFracAB_above hbig]
  have ha : 0 < (D + 1) * na := by positivity
  have hb : 0 < (D + 1) * nb := by positivity
  obtain ⟨g1, g2, g3⟩ := fracForm_ge ha hb
  have h1 := fracForm_le_one ha hb.le
  have e : (D + 1) * na / ((D + 1) * nb) = na / nb := by field_simp
  rw [e] at g2 g3
  rw [← mul_neg]
  refine mul_le_mul_of_nonneg_left ?_ hm
  have key : ∀ {x b : ℝ}, 0 < b → 1 / (1 + b) ≤ x → x ≤ 1 → -Real.log (1 + b) ≤ assocF x := fun {x b} hb hx hx1 => by
    have hx0 : 0 < 1 / (1 + b) := by positivity
    have := Real.log_le_log hx0 hx
    rw [one_div, Real.log_inv] at this
    rw [assocF_real]
    linarith
  have k1 := mul_le_mul_of_nonneg_left (key hb g1 h1) hna.le
  have k2 := mul_le_mul_of_nonneg_left (key ha g2 g3) hnb.le
  linarith

section
variable {pr : Fin n → PureRecord ℝ} {k : Fin n → Fin n → ℝ} {T V : ℝ} {N : Fin n → ℝ}

/-- the volume at which the packing fraction is one -/
theorem packing_eq (p : PcSaftParameters n ℝ) (T V : ℝ) (N : Fin n → ℝ) :
    Spec.packingFraction p T V N = 1 / V * zeta p.m N (hsDiameter p T) 3 := by
  rw [← zeta3_eq_packing, new_density_dilute]
  exact zeta_smul _ _ _ _ _

theorem admissible_volume {p : PcSaftParameters n ℝ} (h : Admissible p T V N) {W : ℝ}
    (hW : zeta p.m N (hsDiameter p T) 3 < W) : Admissible p T W N where
  temperature := h.temperature
  volume := (zeta_pos_moles h 3).trans hW
  m_pos := h.m_pos
  sigma_pos := h.sigma_pos
  epsilon_nonneg := h.epsilon_nonneg
  moles_nonneg := h.moles_nonneg
  moles_ne_zero := h.moles_ne_zero
  packing := by
    rw [packing_eq, one_div_mul_eq_div, div_lt_one ((zeta_pos_moles h 3).trans hW)]
    exact hW

/-- inverse volumes -/
theorem tendsto_inverse_volume {c : ℝ} (hc : 0 < c) : Tendsto (fun V : ℝ => 1 / V) (𝓝[>] c) (𝓝[<] (1 / c)) := by
  refine tendsto_nhdsWithin_iff.2 ⟨?_, ?_⟩
  · have : ContinuousAt (fun V : ℝ => 1 / V) c := continuousAt_const.div continuousAt_id hc.ne'
    exact this.tendsto.mono_left nhdsWithin_le_nhds
  · filter_upwards [self_mem_nhdsWithin] with V hV
    exact one_div_lt_one_div_of_lt hc hV

/-- the association strength has a pole of third order -/
theorem strength_le {p : PcSaftParameters n ℝ} (h : Admissible p T V N) (a : Fin n)
    (he : 0 ≤ p.epsilon_k_ab a) :
    ∃ C, 0 < C ∧ ∀ W, zeta p.m N (hsDiameter p T) 3 < W →
      0 ≤ specStrength p T W N a a * (N a / W)
      ∧ specStrength p T W N a a * (N a / W) ≤ C / (1 - 1 / W * zeta p.m N (hsDiameter p T) 3) ^ 3 := by
  have h3 := zeta_pos_moles h 3
  have h2 := zeta_pos_moles h 2
  set c3 := zeta p.m N (hsDiameter p T) 3 with hc3
  set c2 := zeta p.m N (hsDiameter p T) 2 with hc2
  have hd := h.diameter_pos a
  rw [hsDiameter_eq_spec] at hd
  set d := Spec.diameter (p.sigma a) (p.epsilon_k a) T with hdd
  set e := d * d / (d + d) with hee
  have he0 : 0 < e := by positivity
  set K := Real.sqrt (p.kappa_ab a * p.kappa_ab a) * Real.sqrt (p.sigma a * p.sigma a) ^ 3
    * (Real.exp ((p.epsilon_k_ab a + p.epsilon_k_ab a) / 2 / T) - 1) with hK
  have hT := h.temperature
  have hK0 : 0 ≤ K := by
    have : 1 ≤ Real.exp ((p.epsilon_k_ab a + p.epsilon_k_ab a) / 2 / T) :=
      Real.one_le_exp (div_nonneg (by linarith) hT.le)
    exact mul_nonneg (by positivity) (by linarith)
  have hNa := h.moles_nonneg a
  refine ⟨(1 + 3 * e * (c2 / c3) + 2 * e ^ 2 * (c2 / c3) ^ 2) * (K + 1) * ((N a + 1) / c3), by positivity, fun W hW => ?_⟩
  have hW0 : 0 < W := h3.trans hW
  have hA := admissible_volume h hW
  have em : moment2 p T W N = 1 / W * c2 := by
    rw [← zeta2_eq_moment2, new_density_dilute]
    exact zeta_smul _ _ _ _ _
  have es : specStrength p T W N a a = contactPair (1 / W * c2) (1 / W * c3) d d * K := by
    rw [specStrength, em, packing_eq, hK]
    ring
  have hx : 1 / W * c3 < 1 := by
    rw [one_div_mul_eq_div, div_lt_one hW0]
    exact hW
  set δ := 1 - 1 / W * c3 with hδ
  have hδ0 : 0 < δ := by linarith
  have hδ1 : δ ≤ 1 := by
    have : 0 < 1 / W * c3 := by positivity
    linarith
  have hz : 1 / W * c2 ≤ c2 / c3 := by
    rw [one_div_mul_eq_div]
    exact div_le_div_of_nonneg_left h2.le h3 hW.le
  have hz0 : 0 < 1 / W * c2 := by positivity
  have hr : N a / W ≤ (N a + 1) / c3 := by
    refine (div_le_div_of_nonneg_left hNa h3 hW.le).trans ?_
    gcongr
    linarith
  have hr0 : 0 ≤ N a / W := by positivity
  have hg0 : 0 < contactPair (1 / W * c2) (1 / W * c3) d d := by
    unfold contactPair
    rw [← hee, ← hδ]
    positivity
  have hg : contactPair (1 / W * c2) (1 / W * c3) d d ≤ (1 + 3 * e * (c2 / c3) + 2 * e ^ 2 * (c2 / c3) ^ 2) / δ ^ 3 := by
    unfold contactPair
    rw [← hee, ← hδ, add_div, add_div]
    have p1 : δ ^ 3 ≤ δ := by
      calc δ ^ 3 ≤ δ ^ 1 := pow_le_pow_of_le_one hδ0.le hδ1 (by norm_num)
        _ = δ := pow_one δ
    have p2 : δ ^ 3 ≤ δ ^ 2 := pow_le_pow_of_le_one hδ0.le hδ1 (by norm_num)
    gcongr
  rw [es]
  refine ⟨by positivity, ?_⟩
  calc contactPair (1 / W * c2) (1 / W * c3) d d * K * (N a / W)
      ≤ (1 + 3 * e * (c2 / c3) + 2 * e ^ 2 * (c2 / c3) ^ 2) / δ ^ 3 * (K + 1) * ((N a + 1) / c3) := by
        gcongr
        linarith
    _ = _ := by ring

/-- lower bound of the association energy that does not matter near the highest density -/
theorem association_dense {p : PcSaftParameters n ℝ} (hp : p = fromRecords pr k) (h : Admissible p T V N)
    (hsites : ProperSites p) :
    ∃ B : ℝ → ℝ, Tendsto (fun W => (1 - 1 / W * zeta p.m N (hsDiameter p T) 3) ^ 2 * B W)
        (𝓝[>] (zeta p.m N (hsDiameter p T) 3)) (𝓝 0)
      ∧ ∀ W, zeta p.m N (hsDiameter p T) 3 < W → B W ≤ assocEnergy p (StateHD.new T W N) := by
  have h3 := zeta_pos_moles h 3
  set c3 := zeta p.m N (hsDiameter p T) 3 with hc3
  rcases hl : p.assoc_comp with _ | ⟨a, l⟩
  · refine ⟨fun _ => 0, by simp, fun W _ => ?_⟩
    unfold assocEnergy
    rw [hl]
  have ha : a ∈ p.assoc_comp := by rw [hl]; exact List.mem_cons_self
  obtain ⟨he, hna, hnb, hsmall⟩ := hsites a ha
  obtain ⟨C, hC, hle⟩ := strength_le h a he
  rw [← hc3] at hle
  have hlog : ∀ b : ℝ, 0 < b → Tendsto (fun W : ℝ => (1 - 1 / W * c3) ^ 2
      * Real.log (1 + (C / (1 - 1 / W * c3) ^ 3 + 1) * b)) (𝓝[>] c3) (𝓝 0) := fun b hb => by
    have := tendsto_sq_mul_log_pole h3 (g := fun u => 1 + (C / (1 - u * c3) ^ 3 + 1) * b)
      (h := fun u => (1 - u * c3) ^ 3 * (1 + b) + C * b) (by fun_prop) (by
        have e : 1 - 1 / c3 * c3 = 0 := by field_simp; ring
        simp only [e]
        simp only [ne_eq, OfNat.ofNat_ne_zero, not_false_eq_true, zero_pow, zero_mul, zero_add]
        positivity) (fun u hu => by field_simp; ring)
    exact this.comp (tendsto_inverse_volume h3)
  refine ⟨fun W => -(N a * (p.na a * Real.log (1 + (C / (1 - 1 / W * c3) ^ 3 + 1) * p.nb a)
    + p.nb a * Real.log (1 + (C / (1 - 1 / W * c3) ^ 3 + 1) * p.na a))), ?_, fun W hW => ?_⟩
  · have := ((((hlog _ hnb).const_mul (p.na a)).add ((hlog _ hna).const_mul (p.nb a))).const_mul (N a)).neg
    rw [mul_zero, mul_zero, add_zero, mul_zero, neg_zero] at this
    refine this.congr fun W => ?_
    ring
  · have hA := admissible_volume h (by rw [← hc3]; exact hW)
    have hκ : p.kappa_ab a ≠ 0 := by
      subst hp
      exact (mem_assoc_iff pr k a).1 ha
    have es : stateStrength p (StateHD.new T W N) a a = specStrength p T W N a a := by
      subst hp
      exact C58_association_strength pr k T W N hA a a hκ hκ
    have ea : assocEnergy p (StateHD.new T W N) = assocSingle (specStrength p T W N a a * (N a / W)) (N a) (p.na a) (p.nb a) := by
      unfold assocEnergy
      rw [hl]
      simp only
      rw [es, StateHD.new_density, StateHD.new_moles]
    rw [ea]
    exact assocSingle_ge (hle W hW).1 (hle W hW).2 (h.moles_nonneg a) hna hnb hsmall

/-! ## Polar contributions -/

theorem diluteState_rel_at (u : ℝ) :
    StateRel (repSmooth u) (fun u => diluteState (u, (T, N))) (diluteState (u, (T, N))) :=
  ⟨⟨contDiffAt_const, rfl⟩, ⟨contDiffAt_const, rfl⟩, fun _ => ⟨contDiffAt_id.mul contDiffAt_const, rfl⟩,
    fun i => ⟨(contDiffAt_const : ContDiffAt ℝ ⊤ (fun _ : ℝ => N i / ∑ j, N j) u), rfl⟩,
    fun _ => ⟨contDiffAt_id.mul contDiffAt_const, rfl⟩⟩

theorem tendsto_smooth {f : ℝ → ℝ} {c : ℝ} (hc : 0 < c) (hf : ContinuousAt f (1 / c)) :
    Tendsto (fun u : ℝ => (1 - u * c) ^ 2 * f u) (𝓝[<] (1 / c)) (𝓝 0) := by
  have := ((tendsto_free' hc).pow 2).mul (tendsto_of_continuousAt hf)
  simpa using this

theorem dipole_dense (h : Admissible (fromRecords pr k) T V N)
    (hr : (dipolePhis (fromRecords pr k) (diluteState (1 / zeta (fromRecords pr k).m N (hsDiameter (fromRecords pr k) T) 3, (T, N)))).1
      ≠ (dipolePhis (fromRecords pr k) (diluteState (1 / zeta (fromRecords pr k).m N (hsDiameter (fromRecords pr k) T) 3, (T, N)))).2) :
    Tendsto (fun u : ℝ => (1 - u * zeta (fromRecords pr k).m N (hsDiameter (fromRecords pr k) T) 3) ^ 2
      * dipole (fromRecords pr k) (diluteState (u, (T, N)))) (𝓝[<] (1 / zeta (fromRecords pr k).m N (hsDiameter (fromRecords pr k) T) 3)) (𝓝 0) :=
  tendsto_smooth (zeta_pos_moles h 3) (rep_dipole lawfulEmb_id (ParamRel.refl _) h.m_pos (sigma_ij_ne h)
    (diluteState_rel_at _) h.temperature.ne' hr).1.continuousAt

theorem quadrupole_dense (h : Admissible (fromRecords pr k) T V N)
    (hr : (quadrupolePhis (fromRecords pr k) (diluteState (1 / zeta (fromRecords pr k).m N (hsDiameter (fromRecords pr k) T) 3, (T, N)))).1
      ≠ (quadrupolePhis (fromRecords pr k) (diluteState (1 / zeta (fromRecords pr k).m N (hsDiameter (fromRecords pr k) T) 3, (T, N)))).2) :
    Tendsto (fun u : ℝ => (1 - u * zeta (fromRecords pr k).m N (hsDiameter (fromRecords pr k) T) 3) ^ 2
      * quadrupole (fromRecords pr k) (diluteState (u, (T, N)))) (𝓝[<] (1 / zeta (fromRecords pr k).m N (hsDiameter (fromRecords pr k) T) 3)) (𝓝 0) :=
  tendsto_smooth (zeta_pos_moles h 3) (rep_quadrupole lawfulEmb_id (ParamRel.refl _) h.m_pos (sigma_ij_ne h)
    (diluteState_rel_at _) h.temperature.ne' hr).1.continuousAt

theorem dipoleQuadrupole_dense (v : DQVariants) (h : Admissible (fromRecords pr k) T V N)
    (hr : (dipoleQuadrupolePhis v (fromRecords pr k) (diluteState (1 / zeta (fromRecords pr k).m N (hsDiameter (fromRecords pr k) T) 3, (T, N)))).1
      ≠ (dipoleQuadrupolePhis v (fromRecords pr k) (diluteState (1 / zeta (fromRecords pr k).m N (hsDiameter (fromRecords pr k) T) 3, (T, N)))).2) :
    Tendsto (fun u : ℝ => (1 - u * zeta (fromRecords pr k).m N (hsDiameter (fromRecords pr k) T) 3) ^ 2
      * dipoleQuadrupole v (fromRecords pr k) (diluteState (u, (T, N)))) (𝓝[<] (1 / zeta (fromRecords pr k).m N (hsDiameter (fromRecords pr k) T) 3)) (𝓝 0) :=
  tendsto_smooth (zeta_pos_moles h 3) (rep_dipoleQuadrupole lawfulEmb_id (ParamRel.refl _) v h.m_pos (sigma_ij_ne h)
    (fun i => (h.sigma_pos i).ne') (diluteState_rel_at _) h.temperature.ne' hr).1.continuousAt

end

end PcSaft
