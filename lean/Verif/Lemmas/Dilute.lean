import Verif.Lemmas.DiluteCalculus
import Verif.Props.VirialPolar

/-!
# The contributions per volume as functions of the inverse volume
-/

open Filter Topology
open scoped ContDiff

namespace PcSaft
open Spec Props
variable {n : ℕ}

/-- The state of unit volume with the densities of `N` molecules in the volume `1 / u`; for `u = 0` no molecules at
all, but with the composition of `N`. -/
noncomputable def diluteState (x : ℝ × (ℝ × (Fin n → ℝ))) : StateHD n ℝ where
  temperature := x.2.1
  volume := 1
  moles := fun i => x.1 * x.2.2 i
  molefracs := fun i => x.2.2 i / ∑ j, x.2.2 j
  partial_density := fun i => x.1 * x.2.2 i

section point
variable {p : PcSaftParameters n ℝ} {T V : ℝ} {N : Fin n → ℝ}

theorem diluteState_rel (hN : ∑ i, N i ≠ 0) :
    StateRel (repSmooth ((0 : ℝ), (T, N))) diluteState (diluteState (0, (T, N))) := by
  have hi : ∀ i, ContDiffAt ℝ ω (fun x : ℝ × (ℝ × (Fin n → ℝ)) => x.2.2 i) (0, (T, N)) := fun i => by fun_prop
  have hu : ContDiffAt ℝ ω (fun x : ℝ × (ℝ × (Fin n → ℝ)) => x.1) (0, (T, N)) := by fun_prop
  refine ⟨⟨by unfold diluteState; fun_prop, rfl⟩, ⟨contDiffAt_const, rfl⟩, fun i => ⟨hu.mul (hi i), rfl⟩,
    fun i => ⟨(hi i).div (ContDiffAt.sum fun j _ => hi j) hN, rfl⟩, fun i => ⟨hu.mul (hi i), rfl⟩⟩

theorem zeta_smul (m d : Fin n → ℝ) (u : ℝ) (N : Fin n → ℝ) (k : Fin 4) :
    zeta m (fun i => u * N i) d k = u * zeta m N d k := by
  rw [zeta_real, zeta_real, Finset.mul_sum, Finset.mul_sum, Finset.mul_sum]
  exact Finset.sum_congr rfl fun i _ => by ring

theorem zeta_dilute (p : PcSaftParameters n ℝ) (x : ℝ × (ℝ × (Fin n → ℝ))) (k : Fin 4) :
    zeta p.m (diluteState x).partial_density (hsDiameter p (diluteState x).temperature) k
      = x.1 * zeta p.m x.2.2 (hsDiameter p x.2.1) k := zeta_smul _ _ _ _ _

theorem eta_dilute (p : PcSaftParameters n ℝ) (x : ℝ × (ℝ × (Fin n → ℝ))) :
    stateEta p (diluteState x) = x.1 * zeta p.m x.2.2 (hsDiameter p x.2.1) 3 := by
  rw [stateEta, packingFraction_eq_zeta]
  exact zeta_smul _ _ _ _ _

/-- the densities of a state of volume `V` -/
theorem new_density_dilute (T V : ℝ) (N : Fin n → ℝ) :
    (StateHD.new T V N).partial_density = (diluteState (1 / V, (T, N))).partial_density := by
  funext i
  simp only [StateHD.new_density, diluteState]
  ring

theorem new_molefracs_dilute (T V : ℝ) (N : Fin n → ℝ) :
    (StateHD.new T V N).molefracs = (diluteState (1 / V, (T, N))).molefracs := by
  funext i
  simp only [StateHD.new_molefracs, diluteState]

/-! ## Hard spheres, chains, dispersion -/

theorem hardSphere_new (p : PcSaftParameters n ℝ) (T V : ℝ) (N : Fin n → ℝ) :
    hardSphere p (StateHD.new T V N) = V * hardSphere p (diluteState (1 / V, (T, N))) := by
  rw [hardSphere_real, hardSphere_real, new_density_dilute, new_molefracs_dilute]
  simp only [hsForm, diluteState, StateHD.new_volume, StateHD.new_temperature]
  ring

theorem hardChain_new (p : PcSaftParameters n ℝ) (T V : ℝ) (N : Fin n → ℝ) :
    hardChain p (StateHD.new T V N) = V * hardChain p (diluteState (1 / V, (T, N))) := by
  rw [hardChain_real, hardChain_real, new_density_dilute]
  simp only [diluteState, StateHD.new_volume, StateHD.new_temperature, one_mul]

theorem dispersion_new (p : PcSaftParameters n ℝ) (T V : ℝ) (N : Fin n → ℝ) :
    dispersion p (StateHD.new T V N) = V * dispersion p (diluteState (1 / V, (T, N))) := by
  rw [dispersion_real, dispersion_real, new_density_dilute, new_molefracs_dilute]
  simp only [dispForm, diluteState, StateHD.new_volume, StateHD.new_temperature]
  ring

theorem hardSphere_dilute (h : Admissible p T V N) : Dilute (fun x => hardSphere p (diluteState x)) (T, N) where
  smooth := by
    refine (rep_hardSphere lawfulEmb_id (ParamRel.refl p) (diluteState_rel h.total_pos.ne') h.temperature.ne' ?_ ?_).1
    · rw [zeta_dilute, zero_mul]
      exact one_pos
    · have := moment3_pos h
      rw [StateHD.new_molefracs] at this
      exact this.ne'
  zero := .of_forall fun y => by
    rw [hardSphere_real]
    simp only [zeta_dilute, zero_mul, hsForm]
    simp
  slope := .of_forall fun y => by
    set c0 := zeta p.m y.2 (hsDiameter p y.1) 0
    set c1 := zeta p.m y.2 (hsDiameter p y.1) 1
    set c2 := zeta p.m y.2 (hsDiameter p y.1) 2
    set c3 := zeta p.m y.2 (hsDiameter p y.1) 3
    set z := zeta23 p.m (fun i => y.2 i / ∑ j, y.2 j) (hsDiameter p y.1)
    have e : (fun u : ℝ => hardSphere p (diluteState (u, y))) = fun u => u * (6 / Real.pi * (3 * c1 * (u * c2) / (1 - u * c3)
        + c2 * (u * c2) * z / (1 - u * c3) ^ 2 + (c2 * z ^ 2 - c0) * Real.log (1 - u * c3))) := by
      funext u
      rw [hardSphere_real]
      simp only [zeta_dilute, hsForm]
      change 1 * 6 / Real.pi * (3 * (u * c1) * (u * c2) / (1 - u * c3) + (u * c2) ^ 2 * z / (1 - u * c3) ^ 2
        + (u * c2 * z ^ 2 - u * c0) * Real.log (1 - u * c3)) = _
      ring
    rw [e]
    refine hasDerivAt_of_mul ?_ (by simp)
    have h1 : ContinuousAt (fun u : ℝ => 1 - u * c3) 0 := by fun_prop
    have h0 : (1 - 0 * c3) ≠ 0 := by simp
    refine continuousAt_const.mul (((ContinuousAt.div (by fun_prop) h1 h0).add
      (ContinuousAt.div (by fun_prop) (h1.pow 2) (pow_ne_zero 2 h0))).add (continuousAt_const.mul (h1.log h0)))

theorem hardChain_dilute (h : Admissible p T V N) : Dilute (fun x => hardChain p (diluteState x)) (T, N) where
  smooth := by
    refine (rep_hardChain lawfulEmb_id (ParamRel.refl p) (diluteState_rel h.total_pos.ne') h.temperature.ne' ?_ ?_).1
    · rw [zeta_dilute, zero_mul]
      exact zero_ne_one
    · intro i
      rw [zeta_dilute, zeta_dilute, zero_mul, zero_mul, gHs_real _ _ _ zero_ne_one, gForm]
      norm_num
  zero := .of_forall fun y => by
    rw [hardChain_real]
    simp [diluteState]
  slope := .of_forall fun y => by
    set c2 := zeta p.m y.2 (hsDiameter p y.1) 2
    set c3 := zeta p.m y.2 (hsDiameter p y.1) 3
    have e : (fun u : ℝ => hardChain p (diluteState (u, y))) = fun u => u * ∑ i, y.2 i * ((1 - p.m i)
        * Real.log (gHs (u * c2) (u * c3) (hsDiameter p y.1 i))) := by
      funext u
      rw [hardChain_real]
      simp only [zeta_dilute]
      simp only [diluteState, one_mul, Finset.mul_sum]
      exact Finset.sum_congr rfl fun i _ => by ring
    rw [e]
    have e0 : ∀ d : ℝ, gForm 0 0 d = 1 := fun d => by simp [gForm]
    refine hasDerivAt_of_mul (tendsto_finsetSum _ fun i _ => ?_) ?_
    · have hc : ContinuousAt (fun u : ℝ => gForm (u * c2) (u * c3) (hsDiameter p y.1 i)) 0 := by
        have h1 : ContinuousAt (fun u : ℝ => 1 - u * c3) 0 := by fun_prop
        have h0 : (1 - 0 * c3) ≠ 0 := by simp
        exact ((continuousAt_const.div h1 h0).add (ContinuousAt.div (by fun_prop) (h1.pow 2) (pow_ne_zero 2 h0))).add
          (ContinuousAt.div (by fun_prop) (h1.pow 3) (pow_ne_zero 3 h0))
      have he : ∀ᶠ u : ℝ in 𝓝 0, gForm (u * c2) (u * c3) (hsDiameter p y.1 i) = gHs (u * c2) (u * c3) (hsDiameter p y.1 i) := by
        have h1 : ContinuousAt (fun u : ℝ => u * c3) 0 := by fun_prop
        filter_upwards [h1.eventually (gt_mem_nhds (show (0 : ℝ) * c3 < 1 by simp))] with u hu
        rw [gHs_real _ _ _ hu.ne]
      have hc' := hc.congr he
      refine (continuousAt_const.mul (continuousAt_const.mul (hc'.log ?_)))
      rw [zero_mul, zero_mul, gHs_real _ _ _ zero_ne_one, e0]
      exact one_ne_zero
    · simp only [zero_mul]
      refine Finset.sum_eq_zero fun i _ => ?_
      rw [gHs_real _ _ _ zero_ne_one, e0, Real.log_one]
      simp

theorem dispersion_dilute (h : Admissible p T V N) : Dilute (fun x => dispersion p (diluteState x)) (T, N) where
  smooth := by
    have e : stateEta p (diluteState (0, (T, N))) = 0 := by rw [eta_dilute, zero_mul]
    refine (rep_dispersion lawfulEmb_id (ParamRel.refl p) (diluteState_rel h.total_pos.ne') h.temperature.ne' ?_ ?_ ?_
      ?_).1
    · have := meanSegment_pos h
      rw [meanSegment, StateHD.new_molefracs] at this
      exact this.ne'
    · rw [e]; norm_num
    · rw [e]; norm_num
    · rw [e]; norm_num
  zero := .of_forall fun y => by
    rw [dispersion_real, rho1mix_real, rho2mix_real]
    simp [diluteState, dispForm]
  slope := .of_forall fun y => by
    set c3 := zeta p.m y.2 (hsDiameter p y.1) 3
    set m := ∑ i, y.2 i / (∑ j, y.2 j) * p.m i
    set r1 := rho1mix p y.1 y.2 with hr1
    set r2 := rho2mix p y.1 y.2 with hr2
    have e : (fun u : ℝ => dispersion p (diluteState (u, y))) = fun u => u * (u * dispForm 1 r1 r2 m (u * c3)) := by
      funext u
      rw [dispersion_real, zeta_dilute]
      have e1 : rho1mix p (diluteState (u, y)).temperature (diluteState (u, y)).partial_density = u ^ 2 * r1 := by
        rw [hr1, rho1mix_real, rho1mix_real]
        simp only [diluteState, Finset.mul_sum]
        exact Finset.sum_congr rfl fun i _ => Finset.sum_congr rfl fun j _ => by ring
      have e2 : rho2mix p (diluteState (u, y)).temperature (diluteState (u, y)).partial_density = u ^ 2 * r2 := by
        rw [hr2, rho2mix_real, rho2mix_real]
        simp only [diluteState, Finset.mul_sum]
        exact Finset.sum_congr rfl fun i _ => Finset.sum_congr rfl fun j _ => by ring
      rw [e1, e2]
      change dispForm 1 (u ^ 2 * r1) (u ^ 2 * r2) m (u * c3) = _
      simp only [dispForm]
      ring
    rw [e]
    refine hasDerivAt_of_mul (continuousAt_id.mul ?_) (zero_mul _)
    have hI : ∀ a0 a1 a2 : Fin 7 → ℝ, ContinuousAt (fun u : ℝ => intForm a0 a1 a2 m (u * c3)) 0 := fun a0 a1 a2 => by
      unfold intForm
      fun_prop
    have hc : ContinuousAt (fun u : ℝ => c1Form m (u * c3)) 0 := by
      unfold c1Form
      refine ContinuousAt.inv₀ ((continuousAt_const.add (ContinuousAt.div (by fun_prop) (by fun_prop) ?_)).add
        (ContinuousAt.div (by fun_prop) (by fun_prop) ?_)) ?_ <;> norm_num
    unfold dispForm
    exact continuousAt_const.mul ((continuousAt_const.mul (hI _ _ _)).add ((continuousAt_const.mul hc).mul (hI _ _ _)))

end point

/-! ## Polar contributions -/

theorem padeVolume_scale (a b u : ℝ) : padeVolume (u ^ 2 * a) (u ^ 3 * b) 1 = u * (u * padeVolume a (u * b) 1) := by
  rcases eq_or_ne u 0 with rfl | hu
  · simp [padeVolume]
  simp only [padeVolume, isNan_real, Bool.false_eq_true, if_false, mul_one]
  have e1 : u ^ 2 * a - u ^ 3 * b = u ^ 2 * (a - u * b) := by ring
  rw [e1]
  by_cases hd : a - u * b = 0
  · simp [hd]
  · field_simp

theorem padeVolume_volume (a b V : ℝ) : padeVolume a b V = V * padeVolume a b 1 := by
  simp only [padeVolume, isNan_real, Bool.false_eq_true, if_false]
  ring

theorem dilute_of_pade {E : Type} [NormedAddCommGroup E] [NormedSpace ℝ E] {a b : ℝ × E → ℝ} {y0 : E}
    (ha : ContDiffAt ℝ ω a (0, y0)) (hb : ContDiffAt ℝ ω b (0, y0)) (h0 : a (0, y0) ≠ 0) :
    Dilute (fun x => padeVolume (x.1 ^ 2 * a x) (x.1 ^ 3 * b x) 1) y0 := by
  have h1 : ContDiffAt ℝ ω (fun x : ℝ × E => padeVolume (a x) (x.1 * b x) 1) (0, y0) := by
    have := rep_padeVolume lawfulEmb_id (ρ := repSmooth ((0 : ℝ), y0)) (phi2 := a) (phi3 := fun x => x.1 * b x)
      (V := fun _ => 1) (Vd := 1) ⟨ha, rfl⟩ ⟨contDiffAt_fst.mul hb, rfl⟩ ⟨contDiffAt_const, rfl⟩ (by simpa using h0)
    exact this.1
  have h2 := Dilute.of_mul (G := fun x : ℝ × E => x.1 * padeVolume (a x) (x.1 * b x) 1) (contDiffAt_fst.mul h1)
    (.of_forall fun _ => zero_mul _)
  refine (iff_of_eq (congrArg (Dilute · y0) ?_)).1 h2
  funext x
  exact (padeVolume_scale _ _ _).symm

theorem eventually_ne {E : Type} [NormedAddCommGroup E] [NormedSpace ℝ E] {a b : ℝ × E → ℝ} {y0 : E}
    (ha : ContDiffAt ℝ ω a (0, y0)) (hb : ContDiffAt ℝ ω b (0, y0)) (h0 : a (0, y0) ≠ 0) :
    ∀ᶠ V : ℝ in atTop, (1 / V) ^ 2 * a (1 / V, y0) ≠ (1 / V) ^ 3 * b (1 / V, y0) := by
  have hc : ContinuousAt (fun x : ℝ × E => a x - x.1 * b x) (0, y0) :=
    ha.continuousAt.sub (continuousAt_fst.mul hb.continuousAt)
  have hu : Tendsto (fun V : ℝ => ((1 / V, y0) : ℝ × E)) atTop (𝓝 (0, y0)) :=
    Tendsto.prodMk_nhds (tendsto_const_nhds.div_atTop tendsto_id) tendsto_const_nhds
  have h1 := hc.eventually_ne (y := 0) (by simpa using h0)
  filter_upwards [hu.eventually h1, eventually_gt_atTop 0] with V h2 hV h3
  refine h2 ?_
  have h4 : (1 / V) ^ 2 * (a (1 / V, y0) - 1 / V * b (1 / V, y0)) = 0 := by linear_combination h3
  rcases mul_eq_zero.1 h4 with h5 | h5
  · exact absurd h5 (by positivity)
  · exact h5

section polar
variable {pr : Fin n → PureRecord ℝ} {k : Fin n → Fin n → ℝ} {T V : ℝ} {N : Fin n → ℝ}

theorem smooth_mole (i : Fin n) : (repSmooth ((0 : ℝ), (T, N))).R (fun x => x.2.2 i) (N i) :=
  ⟨by fun_prop, rfl⟩

theorem smooth_temperature : (repSmooth ((0 : ℝ), (T, N))).R (fun x => x.2.1) T := ⟨by fun_prop, rfl⟩

theorem sigma_ij_ne (h : Admissible (fromRecords pr k) T V N) (i j : Fin n) : (fromRecords pr k).sigma_ij i j ≠ 0 := by
  have : (fromRecords pr k).sigma_ij i j = 0.5 * ((fromRecords pr k).sigma i + (fromRecords pr k).sigma j) := rfl
  rw [this]
  have h1 := h.sigma_pos i
  have h2 := h.sigma_pos j
  norm_num
  linarith

theorem dipole_new (p : PcSaftParameters n ℝ) (T V : ℝ) (N : Fin n → ℝ) :
    dipole p (StateHD.new T V N) = V * dipole p (diluteState (1 / V, (T, N))) := by
  simp only [dipole]
  rw [new_density_dilute, padeVolume_volume, StateHD.new_volume]
  rfl

theorem quadrupole_new (p : PcSaftParameters n ℝ) (T V : ℝ) (N : Fin n → ℝ) :
    quadrupole p (StateHD.new T V N) = V * quadrupole p (diluteState (1 / V, (T, N))) := by
  simp only [quadrupole]
  rw [new_density_dilute, padeVolume_volume, StateHD.new_volume]
  rfl

theorem dipoleQuadrupole_new (v : DQVariants) (p : PcSaftParameters n ℝ) (T V : ℝ) (N : Fin n → ℝ) :
    dipoleQuadrupole v p (StateHD.new T V N) = V * dipoleQuadrupole v p (diluteState (1 / V, (T, N))) := by
  simp only [dipoleQuadrupole]
  rw [new_density_dilute, padeVolume_volume, StateHD.new_volume]
  rfl

theorem dipole_split (h : Admissible (fromRecords pr k) T V N) (h0 : dipolePhi2 (fromRecords pr k) T N 0 ≠ 0) :
    ∃ a b : ℝ × (ℝ × (Fin n → ℝ)) → ℝ, ContDiffAt ℝ ω a (0, (T, N)) ∧ ContDiffAt ℝ ω b (0, (T, N)) ∧ a (0, (T, N)) ≠ 0
      ∧ ∀ x, dipolePhis (fromRecords pr k) (diluteState x) = (x.1 ^ 2 * a x, x.1 ^ 3 * b x) := by
  have hsij := sigma_ij_ne h
  have hp := ParamRel.refl (fromRecords pr k)
  have heta := rep_eta lawfulEmb_id hp (diluteState_rel (T := T) h.total_pos.ne') h.temperature.ne'
  have h2 := (repSmooth ((0 : ℝ), (T, N))).mul (rep_dipolePhi2 lawfulEmb_id hp h.m_pos hsij smooth_temperature
    h.temperature.ne' heta smooth_mole) (Rep.const _ F64.pi)
  have h3 := (repSmooth ((0 : ℝ), (T, N))).mul (rep_dipolePhi3 lawfulEmb_id hp h.m_pos hsij smooth_temperature
    h.temperature.ne' heta smooth_mole) (Rep.const _ PI_SQ_43)
  refine ⟨_, _, h2.1, h3.1, ?_, fun x => ?_⟩
  · rw [eta_dilute, zero_mul]
    exact mul_ne_zero h0 Real.pi_ne_zero
  · have e2 := dipole_scale2 (k := k) (T := x.2.1) h.m_pos x.2.2 x.1
    have e3 := dipole_scale3 (k := k) (T := x.2.1) h.m_pos x.2.2 x.1
    simp only [mul_comm _ x.1] at e2 e3
    rw [← mul_assoc (x.1 ^ 2), ← mul_assoc (x.1 ^ 3), ← e2, ← e3]
    rfl

theorem dipole_dilute (h : Admissible (fromRecords pr k) T V N) (h0 : dipolePhi2 (fromRecords pr k) T N 0 ≠ 0) :
    Dilute (fun x => dipole (fromRecords pr k) (diluteState x)) (T, N) := by
  obtain ⟨a, b, ha, hb, hne, e⟩ := dipole_split h h0
  refine (iff_of_eq (congrArg (Dilute · (T, N)) ?_)).1 (dilute_of_pade ha hb hne)
  funext x
  change _ = padeVolume (dipolePhis (fromRecords pr k) (diluteState x)).1
    (dipolePhis (fromRecords pr k) (diluteState x)).2 1
  rw [e]

theorem quadrupole_split (h : Admissible (fromRecords pr k) T V N)
    (h0 : quadrupolePhi2 (fromRecords pr k) T N 0 ≠ 0) :
    ∃ a b : ℝ × (ℝ × (Fin n → ℝ)) → ℝ, ContDiffAt ℝ ω a (0, (T, N)) ∧ ContDiffAt ℝ ω b (0, (T, N)) ∧ a (0, (T, N)) ≠ 0
      ∧ ∀ x, quadrupolePhis (fromRecords pr k) (diluteState x) = (x.1 ^ 2 * a x, x.1 ^ 3 * b x) := by
  have hsij := sigma_ij_ne h
  have hp := ParamRel.refl (fromRecords pr k)
  have heta := rep_eta lawfulEmb_id hp (diluteState_rel (T := T) h.total_pos.ne') h.temperature.ne'
  have h2 := (repSmooth ((0 : ℝ), (T, N))).mul (rep_quadrupolePhi2 lawfulEmb_id hp h.m_pos hsij smooth_temperature
    h.temperature.ne' heta smooth_mole) (Rep.const _ (F64.pi * 0.5625))
  have h3 := (repSmooth ((0 : ℝ), (T, N))).mul (rep_quadrupolePhi3 lawfulEmb_id hp h.m_pos hsij smooth_temperature
    h.temperature.ne' heta smooth_mole) (Rep.const _ (F64.pi * F64.pi * 0.5625))
  refine ⟨_, _, h2.1, h3.1, ?_, fun x => ?_⟩
  · rw [eta_dilute, zero_mul]
    exact mul_ne_zero h0 (mul_ne_zero Real.pi_ne_zero (by norm_num))
  · have e2 := quadrupole_scale2 (k := k) (T := x.2.1) h.m_pos x.2.2 x.1
    have e3 := quadrupole_scale3 (k := k) (T := x.2.1) h.m_pos x.2.2 x.1
    simp only [mul_comm _ x.1] at e2 e3
    rw [← mul_assoc (x.1 ^ 2), ← mul_assoc (x.1 ^ 3), ← e2, ← e3]
    rfl

theorem quadrupole_dilute (h : Admissible (fromRecords pr k) T V N)
    (h0 : quadrupolePhi2 (fromRecords pr k) T N 0 ≠ 0) :
    Dilute (fun x => quadrupole (fromRecords pr k) (diluteState x)) (T, N) := by
  obtain ⟨a, b, ha, hb, hne, e⟩ := quadrupole_split h h0
  refine (iff_of_eq (congrArg (Dilute · (T, N)) ?_)).1 (dilute_of_pade ha hb hne)
  funext x
  change _ = padeVolume (quadrupolePhis (fromRecords pr k) (diluteState x)).1
    (quadrupolePhis (fromRecords pr k) (diluteState x)).2 1
  rw [e]

theorem dipoleQuadrupole_split (v : DQVariants) (h : Admissible (fromRecords pr k) T V N)
    (h0 : dipoleQuadrupolePhi2 v (fromRecords pr k) T N 0 ≠ 0) :
    ∃ a b : ℝ × (ℝ × (Fin n → ℝ)) → ℝ, ContDiffAt ℝ ω a (0, (T, N)) ∧ ContDiffAt ℝ ω b (0, (T, N)) ∧ a (0, (T, N)) ≠ 0
      ∧ ∀ x, dipoleQuadrupolePhis v (fromRecords pr k) (diluteState x) = (x.1 ^ 2 * a x, x.1 ^ 3 * b x) := by
  have hsij := sigma_ij_ne h
  have hsig : ∀ i, (fromRecords pr k).sigma i ≠ 0 := fun i => (h.sigma_pos i).ne'
  have hp := ParamRel.refl (fromRecords pr k)
  have heta := rep_eta lawfulEmb_id hp (diluteState_rel (T := T) h.total_pos.ne') h.temperature.ne'
  have h2 := (repSmooth ((0 : ℝ), (T, N))).mul (rep_dipoleQuadrupolePhi2 lawfulEmb_id hp v h.m_pos hsij hsig
    smooth_temperature h.temperature.ne' heta smooth_mole) (Rep.const _ (F64.pi * 2.25))
  have h3 := (repSmooth ((0 : ℝ), (T, N))).mul (rep_dipoleQuadrupolePhi3 lawfulEmb_id hp h.m_pos hsij smooth_temperature
    h.temperature.ne' heta smooth_mole) (Rep.const _ (F64.pi * F64.pi))
  refine ⟨_, _, h2.1, h3.1, ?_, fun x => ?_⟩
  · rw [eta_dilute, zero_mul]
    exact mul_ne_zero h0 (mul_ne_zero Real.pi_ne_zero (by norm_num))
  · have e2 := dipoleQuadrupole_scale2 (k := k) (T := x.2.1) v h.m_pos x.2.2 x.1
    have e3 := dipoleQuadrupole_scale3 (k := k) (T := x.2.1) h.m_pos x.2.2 x.1
    simp only [mul_comm _ x.1] at e2 e3
    rw [← mul_assoc (x.1 ^ 2), ← mul_assoc (x.1 ^ 3), ← e2, ← e3]
    rfl

theorem dipoleQuadrupole_dilute (v : DQVariants) (h : Admissible (fromRecords pr k) T V N)
    (h0 : dipoleQuadrupolePhi2 v (fromRecords pr k) T N 0 ≠ 0) :
    Dilute (fun x => dipoleQuadrupole v (fromRecords pr k) (diluteState x)) (T, N) := by
  obtain ⟨a, b, ha, hb, hne, e⟩ := dipoleQuadrupole_split v h h0
  refine (iff_of_eq (congrArg (Dilute · (T, N)) ?_)).1 (dilute_of_pade ha hb hne)
  funext x
  change _ = padeVolume (dipoleQuadrupolePhis v (fromRecords pr k) (diluteState x)).1
    (dipoleQuadrupolePhis v (fromRecords pr k) (diluteState x)).2 1
  rw [e]

end polar

/-! ## Association of one component -/

theorem assocSingle_mul (d u M na nb : ℝ) : assocSingle d (u * M) na nb = u * assocSingle d M na nb := by
  unfold assocSingle
  split
  · simp only []
    ring
  · simp only []
    ring

theorem assocSingle_zero_strength (M na nb : ℝ) : assocSingle (0 : ℝ) M na nb = 0 := by
  have h : F64.lt (F64.sqrt f64EPSILON : ℝ) (DualNum.re (0 : ℝ)) = false := by
    simp only [re_real, lt_real, decide_eq_false_iff_not, not_lt]
    exact Real.sqrt_nonneg _
  unfold assocSingle assocSiteFracAB assocSiteFracA assocF
  simp only [h, Bool.false_eq_true, if_false, c, ofF_real, dln_real]
  norm_num

section association
variable {p : PcSaftParameters n ℝ} {T V : ℝ} {N : Fin n → ℝ}

theorem deltaRho_zero (p : PcSaftParameters n ℝ) (y : ℝ × (Fin n → ℝ)) (a : Fin n) :
    stateDeltaRho p (diluteState (0, y)) a = 0 := by
  simp [stateDeltaRho, diluteState]

theorem deltaRho_smooth (h : Admissible p T V N) (a : Fin n) :
    ContDiffAt ℝ ω (fun x => stateDeltaRho p (diluteState x) a) (0, (T, N)) :=
  (rep_deltaRho lawfulEmb_id (ParamRel.refl p) (diluteState_rel h.total_pos.ne') h.temperature.ne'
    (by rw [eta_dilute, zero_mul]; exact zero_ne_one) a (h.diameter_pos a).ne').1

theorem association_new (p : PcSaftParameters n ℝ) {a : Fin n} {l : List (Fin n)} (hl : p.assoc_comp = a :: l)
    (T V : ℝ) (N : Fin n → ℝ) (hV : V ≠ 0) :
    association p (StateHD.new T V N) = .ok (V * ((1 / V) * assocSingle (stateDeltaRho p (diluteState (1 / V, (T, N))) a)
      (N a) (p.na a) (p.nb a))) := by
  have e : association p (StateHD.new T V N)
      = .ok (assocSingle (stateDeltaRho p (StateHD.new T V N) a) (N a) (p.na a) (p.nb a)) := by
    unfold association
    rw [hl]
    rfl
  rw [e]
  have e1 : stateDeltaRho p (StateHD.new T V N) a = stateDeltaRho p (diluteState (1 / V, (T, N))) a := by
    simp only [stateDeltaRho, stateEta]
    rw [new_density_dilute]
    rfl
  rw [e1]
  congr 1
  field_simp

theorem frac_zero (na nb : ℝ) : assocSiteFracAB (0 : ℝ) na nb = 1 ∧ assocSiteFracA (0 : ℝ) na = 1 := by
  have h : F64.lt (F64.sqrt f64EPSILON : ℝ) (DualNum.re (0 : ℝ)) = false := by
    simp only [re_real, lt_real, decide_eq_false_iff_not, not_lt]
    exact Real.sqrt_nonneg _
  unfold assocSiteFracAB assocSiteFracA
  simp only [h, Bool.false_eq_true, if_false, c, ofF_real]
  norm_num

theorem sqrtEps_pos : (0 : ℝ) < Real.sqrt f64EPSILON := Real.sqrt_pos.2 (by norm_num [f64EPSILON])

theorem association_dilute (h : Admissible p T V N) {a : Fin n} (ha : 0 < p.na a) :
    Dilute (fun x => x.1 * assocSingle (stateDeltaRho p (diluteState x) a) (x.2.2 a) (p.na a) (p.nb a)) (T, N) := by
  refine Dilute.of_mul (G := fun x => assocSingle (stateDeltaRho p (diluteState x) a) (x.2.2 a) (p.na a) (p.nb a)) ?_
    (.of_forall fun y => ?_)
  · have := rep_assocSingle lawfulEmb_id (ρ := repSmooth ((0 : ℝ), (T, N)))
      (dr := fun x => stateDeltaRho p (diluteState x) a) ⟨deltaRho_smooth h a, rfl⟩ (smooth_mole a)
      (na' := p.na a) (nb' := p.nb a) rfl rfl ha
      ((ParamRel.refl p).nb_pos a) (by rw [deltaRho_zero]; exact Or.inl sqrtEps_pos.ne)
      (fun _ => by rw [deltaRho_zero, (frac_zero _ _).1]; exact one_pos)
      (fun _ => by rw [deltaRho_zero, (frac_zero _ _).1]; norm_num)
      (fun _ => by rw [deltaRho_zero, (frac_zero _ 0).2]; exact one_pos)
    exact this.1
  · simp only [deltaRho_zero]
    exact assocSingle_zero_strength _ _ _

end association
end PcSaft
