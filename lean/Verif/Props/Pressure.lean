import Verif.Lemmas.DenseAssociation
import Verif.Props.DiluteLimit
import Verif.Props.Thermodynamics
import Verif.Props.Symmetry

/-!
# Property C88: a state exists for every pressure

`pressure` divided by `k_B T`, as a user obtains it from the code: the ideal gas part and minus the derivative of the
residual Helmholtz energy with respect to volume, from an evaluation with dual numbers.
-/

open Filter Topology

namespace PcSaft
variable {n : ℕ}

/-- volume of the segments: at this volume the packing fraction is one -/
noncomputable def Spec.closeVolume (p : PcSaftParameters n ℝ) (T : ℝ) (N : Fin n → ℝ) : ℝ :=
  ∑ i, N i * p.m i * (Real.pi / 6 * Spec.diameter (p.sigma i) (p.epsilon_k i) T ^ 3)

/-- the reduced pressure of the code -/
def Spec.IsPressure (p : PcSaftParameters n ℝ) (o : PcSaftOptions ℝ) (laD : LinAlg ℝ (Dual ℝ)) (T V : ℝ) (N : Fin n → ℝ)
    (P : ℝ) : Prop :=
  ∃ d : Dual ℝ, (Eos.withOptions p o).residualHelmholtz laD (StateHD.new ⟨T, 0⟩ ⟨V, 1⟩ (fun i => ⟨N i, 0⟩)) = .ok d
    ∧ P = (∑ i, N i) / V - d.eps

/-- polar contributions are away from the singularity of their Padé approximation -/
def Spec.PolarRegular (p : PcSaftParameters n ℝ) (T V : ℝ) (N : Fin n → ℝ) : Contribution ℝ → Prop
  | .dipole => Spec.Regular p T V N .dipole
  | .quadrupole => Spec.Regular p T V N .quadrupole
  | .dipoleQuadrupole v => Spec.Regular p T V N (.dipoleQuadrupole v)
  | _ => True

namespace Props
open PcSaft Spec

section
variable {pr : Fin n → PureRecord ℝ} {k : Fin n → Fin n → ℝ} {T V₁ : ℝ} {N : Fin n → ℝ} {o : PcSaftOptions ℝ}

theorem closeVolume_eq (p : PcSaftParameters n ℝ) (T : ℝ) (N : Fin n → ℝ) :
    closeVolume p T N = zeta p.m N (hsDiameter p T) 3 := by
  have h := packing_eq p T 1 N
  rw [one_div_one, one_mul] at h
  rw [← h]
  simp [Spec.packingFraction, closeVolume]

theorem tendsto_atTop_of_free {f : ℝ → ℝ} {c L : ℝ} (hc : 0 < c) (hL : 0 < L)
    (h : Tendsto (fun W => (1 - 1 / W * c) ^ 2 * f W) (𝓝[>] c) (𝓝 L)) : Tendsto f (𝓝[>] c) atTop := by
  have h0 : Tendsto (fun W : ℝ => 1 - 1 / W * c) (𝓝[>] c) (𝓝[>] 0) := (tendsto_free hc).comp (tendsto_inverse_volume hc)
  have h1 : Tendsto (fun W : ℝ => ((1 - 1 / W * c)⁻¹) ^ 2) (𝓝[>] c) atTop :=
    (tendsto_pow_atTop two_ne_zero).comp (tendsto_inv_nhdsGT_zero.comp h0)
  refine (h.pos_mul_atTop hL h1).congr' ?_
  filter_upwards [(tendsto_nhdsWithin_iff.1 h0).2] with W hW
  rw [mul_comm, ← mul_assoc, ← mul_pow, inv_mul_cancel₀ (ne_of_gt hW), one_pow, one_mul]

/-- the residual energy grows without bound towards the volume of the segments -/
theorem residual_dense (h : Admissible (fromRecords pr k) T V₁ N)
    (hsites : ProperSites (fromRecords pr k))
    (hr : ∀ ct ∈ buildContributions (fromRecords pr k) o,
      PolarRegular (fromRecords pr k) T (closeVolume (fromRecords pr k) T N) N ct) :
    Tendsto (fun W => residualSum o.dq_variant (fromRecords pr k) (StateHD.new T W N))
      (𝓝[>] (closeVolume (fromRecords pr k) T N)) atTop := by
  set p := fromRecords pr k with hp
  have h3 := zeta_pos_moles h 3
  rw [closeVolume_eq] at hr ⊢
  obtain ⟨L, hL, hhs⟩ := hardSphere_dense h
  have hhc := hardChain_dense h
  have hdi := dispersion_dense h
  have hdp : Tendsto (fun u : ℝ => (1 - u * zeta p.m N (hsDiameter p T) 3) ^ 2 * dipole p (diluteState (u, (T, N))))
      (𝓝[<] (1 / zeta p.m N (hsDiameter p T) 3)) (𝓝 0) := by
    rcases Nat.eq_zero_or_pos p.ndipole with h0 | h0
    · simp only [dipole_eq_zero h0, mul_zero]
      exact tendsto_const_nhds
    · refine dipole_dense h ?_
      have := hr .dipole (by simp [buildContributions, h0])
      simpa only [PolarRegular, Regular, dipolePhis, stateEta, new_density_dilute, StateHD.new_temperature, diluteState] using this
  have hqp : Tendsto (fun u : ℝ => (1 - u * zeta p.m N (hsDiameter p T) 3) ^ 2 * quadrupole p (diluteState (u, (T, N))))
      (𝓝[<] (1 / zeta p.m N (hsDiameter p T) 3)) (𝓝 0) := by
    rcases Nat.eq_zero_or_pos p.nquadpole with h0 | h0
    · simp only [quadrupole_eq_zero h0, mul_zero]
      exact tendsto_const_nhds
    · refine quadrupole_dense h ?_
      have := hr .quadrupole (by simp [buildContributions, h0])
      simpa only [PolarRegular, Regular, quadrupolePhis, stateEta, new_density_dilute, StateHD.new_temperature, diluteState] using this
  have hdq : Tendsto (fun u : ℝ => (1 - u * zeta p.m N (hsDiameter p T) 3) ^ 2
      * dipoleQuadrupole o.dq_variant p (diluteState (u, (T, N)))) (𝓝[<] (1 / zeta p.m N (hsDiameter p T) 3)) (𝓝 0) := by
    by_cases h0 : 0 < p.ndipole ∧ 0 < p.nquadpole
    · refine dipoleQuadrupole_dense _ h ?_
      have := hr (.dipoleQuadrupole o.dq_variant) (by simp [buildContributions, h0])
      simpa only [PolarRegular, Regular, dipoleQuadrupolePhis, stateEta, new_density_dilute, StateHD.new_temperature, diluteState] using this
    · have h0' : p.ndipole = 0 ∨ p.nquadpole = 0 := by omega
      simp only [dipoleQuadrupole_eq_zero h0', mul_zero]
      exact tendsto_const_nhds
  obtain ⟨B, hB, hle⟩ := association_dense hp h hsites
  set c3 := zeta p.m N (hsDiameter p T) 3 with hc3
  have hsum := (((((hhs.add hhc).add hdi).add hdp).add hqp).add hdq).comp (tendsto_inverse_volume h3)
  have hW : Tendsto (fun W : ℝ => W) (𝓝[>] c3) (𝓝 c3) := nhdsWithin_le_nhds
  have hall := (hW.mul hsum).add hB
  simp only [add_zero] at hall
  have hlow := tendsto_atTop_of_free (f := fun W => W * (hardSphere p (diluteState (1 / W, (T, N)))
    + hardChain p (diluteState (1 / W, (T, N))) + dispersion p (diluteState (1 / W, (T, N)))
    + dipole p (diluteState (1 / W, (T, N))) + quadrupole p (diluteState (1 / W, (T, N)))
    + dipoleQuadrupole o.dq_variant p (diluteState (1 / W, (T, N)))) + B W) h3 (mul_pos h3 hL) (hall.congr fun W => by
      simp only [Function.comp]
      ring)
  refine tendsto_atTop_mono' _ ?_ hlow
  filter_upwards [self_mem_nhdsWithin] with W hW'
  have := hle W hW'
  rw [residualSum, hardSphere_new, hardChain_new, dispersion_new, dipole_new, quadrupole_new, dipoleQuadrupole_new]
  linarith

/-- C88: towards the volume of the segments the residual energy exceeds every bound. -/
theorem C88_close_packing (h : Admissible (fromRecords pr k) T V₁ N) (ha : (fromRecords pr k).nassoc ≤ 1)
    (hsites : ProperSites (fromRecords pr k))
    (hr : ∀ ct ∈ buildContributions (fromRecords pr k) o,
      PolarRegular (fromRecords pr k) T (closeVolume (fromRecords pr k) T N) N ct) (la : LinAlg ℝ ℝ) (B : ℝ) :
    ∃ V₂, closeVolume (fromRecords pr k) T N < V₂ ∧ ∀ V, closeVolume (fromRecords pr k) T N < V → V < V₂ →
      ∃ a, (Eos.withOptions (fromRecords pr k) o).residualHelmholtz la (StateHD.new T V N) = .ok a ∧ B ≤ a := by
  have h1 := (residual_dense h hsites hr).eventually (eventually_ge_atTop B)
  obtain ⟨V₂, h2, h3⟩ := mem_nhdsGT_iff_exists_Ioo_subset.1 h1
  exact ⟨V₂, h2, fun V hV hV2 => ⟨_, residual_of_nassoc_le_one la _ o _ ha, h3 ⟨hV, hV2⟩⟩⟩

/-- derivative with respect to the volume, and its evaluation by the code -/
theorem residual_volume_derivative (ha : (fromRecords pr k).nassoc ≤ 1) {V : ℝ}
    (h : Admissible (fromRecords pr k) T V N)
    (hr : ∀ ct ∈ buildContributions (fromRecords pr k) o, Regular (fromRecords pr k) T V N ct) (laD : LinAlg ℝ (Dual ℝ)) :
    AnalyticAt ℝ (fun W => residualSum o.dq_variant (fromRecords pr k) (StateHD.new T W N)) V
      ∧ (Eos.withOptions (fromRecords pr k) o).residualHelmholtz laD (StateHD.new ⟨T, 0⟩ ⟨V, 1⟩ (fun i => ⟨N i, 0⟩))
        = .ok ⟨residualSum o.dq_variant (fromRecords pr k) (StateHD.new T V N),
          deriv (fun W => residualSum o.dq_variant (fromRecords pr k) (StateHD.new T W N)) V⟩ := by
  obtain ⟨A, hA, han⟩ := C68_residual_analytic (o := o) ⟨fun _ _ _ => none, fun _ _ _ => none, 0⟩ h hr
  have e : ∀ x, A x = residualSum o.dq_variant (fromRecords pr k) (StateHD.new x.1 x.2.1 x.2.2) := fun x => by
    have := hA x
    rw [residual_of_nassoc_le_one _ _ o _ ha] at this
    exact (Except.ok.inj this).symm
  have ef : (fun W => residualSum o.dq_variant (fromRecords pr k) (StateHD.new T W N)) = fun W => A (T, W, N) := by
    funext W
    rw [e]
  have hl : AnalyticAt ℝ (fun W : ℝ => ((T, W, N) : ℝ × ℝ × (Fin n → ℝ))) V :=
    AnalyticAt.prod analyticAt_const (AnalyticAt.prod analyticAt_id analyticAt_const)
  have hcomp : AnalyticAt ℝ (fun W : ℝ => A (T, W, N)) V := AnalyticAt.comp (f := fun W : ℝ => (T, W, N)) han hl
  rw [ef]
  refine ⟨hcomp, ?_⟩
  have hs := residual_seed1 h hr hA han.differentiableAt laD 0 1 0
  have hd : HasDerivAt (fun W : ℝ => A (T, W, N)) (fderiv ℝ A (T, V, N) (0, 1, 0)) V := by
    have hline : HasDerivAt (fun W : ℝ => ((T, W, N) : ℝ × ℝ × (Fin n → ℝ))) (0, 1, 0) V :=
      (hasDerivAt_const V T).prodMk ((hasDerivAt_id V).prodMk (hasDerivAt_const V N))
    exact han.differentiableAt.hasFDerivAt.comp_hasDerivAt V hline
  rw [hd.deriv, ← e (T, V, N)]
  exact hs

/-- C88: if the states between the volume of the segments and `V₂` are regular, every pressure above the one at `V₂` is
the pressure of a state in between. -/
theorem C88_higher_pressures (ha : (fromRecords pr k).nassoc ≤ 1)
    (hsites : ProperSites (fromRecords pr k))
    (hr0 : ∀ ct ∈ buildContributions (fromRecords pr k) o,
      PolarRegular (fromRecords pr k) T (closeVolume (fromRecords pr k) T N) N ct)
    {V₂ : ℝ} (h : Admissible (fromRecords pr k) T V₂ N)
    (hr : ∀ V, closeVolume (fromRecords pr k) T N < V → V ≤ V₂ → ∀ ct ∈ buildContributions (fromRecords pr k) o,
      Regular (fromRecords pr k) T V N ct) (laD : LinAlg ℝ (Dual ℝ)) {P₂ P : ℝ}
    (hP₂ : IsPressure (fromRecords pr k) o laD T V₂ N P₂) (hP : P₂ ≤ P) :
    ∃ V, closeVolume (fromRecords pr k) T N < V ∧ V ≤ V₂ ∧ Admissible (fromRecords pr k) T V N
      ∧ IsPressure (fromRecords pr k) o laD T V N P := by
  have h3 := zeta_pos_moles h 3
  have hlt : closeVolume (fromRecords pr k) T N < V₂ := by
    have := h.packing
    rwa [packing_eq, one_div_mul_eq_div, div_lt_one h.volume, ← closeVolume_eq] at this
  have hA : ∀ V, closeVolume (fromRecords pr k) T N < V → Admissible (fromRecords pr k) T V N := fun V hV =>
    admissible_volume h (by rwa [closeVolume_eq] at hV)
  set f : ℝ → ℝ := fun W => residualSum o.dq_variant (fromRecords pr k) (StateHD.new T W N) with hf
  have hreg := fun V (hV : V ∈ Set.Ioc (closeVolume (fromRecords pr k) T N) V₂) =>
    residual_volume_derivative ha (hA V hV.1) (hr V hV.1 hV.2) laD
  obtain ⟨d, hd, rfl⟩ := hP₂
  have h2 := (hreg V₂ ⟨hlt, le_rfl⟩).2
  rw [hd] at h2
  have ed : d.eps = deriv f V₂ := by rw [Except.ok.inj h2]
  rw [ed] at hP
  obtain ⟨V, hV, e⟩ := exists_pressure (f := f) (f' := deriv f) (by rw [closeVolume_eq]; exact h3) hlt h.total_pos.le
    (fun V hV => (hreg V hV).1.differentiableAt.hasDerivAt)
    (fun V hV => (hreg V hV).1.deriv.continuousAt.continuousWithinAt) (residual_dense h hsites hr0) hP
  exact ⟨V, hV.1, hV.2, hA V hV.1, _, (hreg V hV).2, e.symm⟩

/-- C88: without association, every positive pressure is the pressure of a state. -/
theorem C88_every_pressure (h : Admissible (fromRecords pr k) T V₁ N) (ha : (fromRecords pr k).nassoc = 0)
    (hr0 : ∀ ct ∈ buildContributions (fromRecords pr k) o, DiluteRegular (fromRecords pr k) T N ct)
    (hr1 : ∀ V, closeVolume (fromRecords pr k) T N ≤ V → ∀ ct ∈ buildContributions (fromRecords pr k) o,
      PolarRegular (fromRecords pr k) T V N ct) (laD : LinAlg ℝ (Dual ℝ)) {P : ℝ} (hP : 0 < P) :
    ∃ V, closeVolume (fromRecords pr k) T N < V ∧ Admissible (fromRecords pr k) T V N
      ∧ IsPressure (fromRecords pr k) o laD T V N P := by
  have hnil : (fromRecords pr k).assoc_comp = [] := List.length_eq_zero_iff.1 ha
  have hr : ∀ V, closeVolume (fromRecords pr k) T N ≤ V → ∀ ct ∈ buildContributions (fromRecords pr k) o,
      Regular (fromRecords pr k) T V N ct := fun V hV ct hct => by
    have h1 := hr1 V hV ct hct
    cases ct with
    | hardSphere => trivial
    | hardChain => trivial
    | dispersion => trivial
    | dipole => exact h1
    | quadrupole => exact h1
    | dipoleQuadrupole v => exact h1
    | association => simp [buildContributions, ha] at hct
    | crossAssociation a b => simp [buildContributions, ha] at hct
  obtain ⟨W, hW⟩ := C81_pressure laD h o hr0 one_pos
  set V₂ := max (max W ((∑ i, N i + 1) / P)) (closeVolume (fromRecords pr k) T N + 1) with hV₂
  have hlt : closeVolume (fromRecords pr k) T N < V₂ := lt_of_lt_of_le (lt_add_one _) (le_max_right _ _)
  have hA : Admissible (fromRecords pr k) T V₂ N := admissible_volume h (by rwa [closeVolume_eq] at hlt)
  obtain ⟨d, hd, hle⟩ := hW V₂ ((le_max_left _ _).trans (le_max_left _ _))
  have hV := hA.volume
  have hbig : (∑ i, N i + 1) / P ≤ V₂ := (le_max_right _ _).trans (le_max_left _ _)
  have hP₂ : (∑ i, N i) / V₂ - d.eps ≤ P := by
    rw [div_le_iff₀ hP] at hbig
    have h4 := (abs_le.1 hle).1
    have : (∑ i, N i) / V₂ - d.eps = (∑ i, N i - V₂ * d.eps) / V₂ := by field_simp
    rw [this, div_le_iff₀ hV]
    linarith
  have hsites : ProperSites (fromRecords pr k) := fun i hi => by
    rw [hnil] at hi
    exact absurd hi List.not_mem_nil
  obtain ⟨V, h1, -, h2, h3⟩ := C88_higher_pressures (o := o) (by omega) hsites (hr1 _ le_rfl) hA (fun V hV _ => hr V hV.le)
    laD ⟨d, hd, rfl⟩ hP₂
  exact ⟨V, h1, h2, h3⟩

/-- the association strength times the density of the component falls with the volume -/
theorem strength_volume {p : PcSaftParameters n ℝ} {V W : ℝ} (h : Admissible p T V N) (hVW : V ≤ W) (a : Fin n)
    (he : 0 ≤ p.epsilon_k_ab a) :
    specStrength p T W N a a * (N a / W) ≤ specStrength p T V N a a * (N a / V) := by
  have h3 := zeta_pos_moles h 3
  have h2 := zeta_pos_moles h 2
  have hV := h.volume
  have hT := h.temperature
  have hN := h.moles_nonneg a
  have hd := h.diameter_pos a
  rw [hsDiameter_eq_spec] at hd
  have em : ∀ W, moment2 p T W N = 1 / W * zeta p.m N (hsDiameter p T) 2 := fun W => by
    rw [← zeta2_eq_moment2, new_density_dilute]
    exact zeta_smul _ _ _ _ _
  have hp := h.packing
  have hexp : 0 ≤ Real.exp ((p.epsilon_k_ab a + p.epsilon_k_ab a) / 2 / T) - 1 :=
    sub_nonneg.2 (Real.one_le_exp (div_nonneg (by linarith) hT.le))
  unfold specStrength
  rw [em, em, packing_eq, packing_eq]
  rw [packing_eq] at hp
  set c3 := zeta p.m N (hsDiameter p T) 3
  set c2 := zeta p.m N (hsDiameter p T) 2
  set d := Spec.diameter (p.sigma a) (p.epsilon_k a) T
  have hu : 1 / W ≤ 1 / V := one_div_le_one_div_of_le hV hVW
  have hW0 : 0 < 1 / W := one_div_pos.2 (hV.trans_le hVW)
  have hlt : 0 < 1 - 1 / V * c3 := by linarith
  have hle : 1 - 1 / V * c3 ≤ 1 - 1 / W * c3 := by nlinarith
  have hg : contactPair (1 / W * c2) (1 / W * c3) d d ≤ contactPair (1 / V * c2) (1 / V * c3) d d := by
    unfold contactPair
    gcongr
  have hg0 : 0 ≤ contactPair (1 / W * c2) (1 / W * c3) d d := by
    unfold contactPair
    have := hlt.trans_le hle
    positivity
  have hr : N a / W ≤ N a / V := div_le_div_of_nonneg_left hN hV hVW
  have hr0 : 0 ≤ N a / W := div_nonneg hN (hV.le.trans hVW)
  gcongr
  exact mul_nonneg (mul_nonneg (mul_nonneg (hg0.trans hg) (Real.sqrt_nonneg _)) (by positivity)) hexp

/-- C88: with an associating component, every pressure above the one at `V₂` is the pressure of a smaller volume, if
association at `V₂` is strong enough for the explicit solution of the mass-action equations. -/
theorem C88_associating {a : Fin n} (ha : (fromRecords pr k).assoc_comp = [a]) (hsites : ProperSites (fromRecords pr k))
    {V₂ : ℝ} (h : Admissible (fromRecords pr k) T V₂ N)
    (hr : ∀ V, closeVolume (fromRecords pr k) T N ≤ V → V ≤ V₂ → ∀ ct ∈ buildContributions (fromRecords pr k) o,
      PolarRegular (fromRecords pr k) T V N ct)
    (hs : Real.sqrt f64EPSILON < specStrength (fromRecords pr k) T V₂ N a a * (N a / V₂)) (laD : LinAlg ℝ (Dual ℝ))
    {P₂ P : ℝ} (hP₂ : IsPressure (fromRecords pr k) o laD T V₂ N P₂) (hP : P₂ ≤ P) :
    ∃ V, closeVolume (fromRecords pr k) T N < V ∧ V ≤ V₂ ∧ Admissible (fromRecords pr k) T V N
      ∧ IsPressure (fromRecords pr k) o laD T V N P := by
  have hlt : closeVolume (fromRecords pr k) T N < V₂ := by
    have := h.packing
    rwa [packing_eq, one_div_mul_eq_div, div_lt_one h.volume, ← closeVolume_eq] at this
  have hn : (fromRecords pr k).nassoc = 1 := nassoc_of ha
  obtain ⟨s1, s2, s3, s4⟩ := hsites a (by rw [ha]; exact List.mem_singleton.2 rfl)
  refine C88_higher_pressures hn.le hsites (hr _ le_rfl hlt.le) h (fun V hV hV2 ct hct => ?_) laD hP₂ hP
  have h1 := hr V hV.le hV2 ct hct
  cases ct with
  | hardSphere => trivial
  | hardChain => trivial
  | dispersion => trivial
  | dipole => exact h1
  | quadrupole => exact h1
  | dipoleQuadrupole v => exact h1
  | association =>
    refine ⟨a, ha, s1, s2, s3, by linarith, (hs.trans_le ?_).ne'⟩
    exact strength_volume (admissible_volume h (by rwa [closeVolume_eq] at hV)) hV2 a s1
  | crossAssociation x y => simp [buildContributions, hn] at hct

end

/-! ## Cases that meet the hypotheses -/

theorem polarRegular_of_nonpolar {p : PcSaftParameters n ℝ} {T V : ℝ} {N : Fin n → ℝ} {o : PcSaftOptions ℝ}
    (hd : p.dipole_comp = []) (hq : p.quadpole_comp = []) :
    ∀ ct ∈ buildContributions p o, PolarRegular p T V N ct := by
  intro ct hct
  have h1 : p.ndipole = 0 := congrArg List.length hd
  have h2 : p.nquadpole = 0 := congrArg List.length hq
  cases ct with
  | dipole => simp [buildContributions, h1, h2] at hct; split at hct <;> simp at hct
  | quadrupole => simp [buildContributions, h1, h2] at hct; split at hct <;> simp at hct
  | dipoleQuadrupole v => simp [buildContributions, h1, h2] at hct; split at hct <;> simp at hct
  | _ => trivial

theorem plainRecords_lists (k : Fin n → Fin n → ℝ) : (fromRecords (plainRecords (n := n)) k).dipole_comp = []
    ∧ (fromRecords (plainRecords (n := n)) k).quadpole_comp = [] ∧ (fromRecords (plainRecords (n := n)) k).assoc_comp = [] := by
  have e0 : (0.0 : ℝ) = 0 := by norm_num
  refine ⟨?_, ?_, ?_⟩ <;>
  · refine List.eq_nil_iff_forall_not_mem.2 fun i hi => (mem_nonzeroComp _ i).1 hi ?_
    simp [plainRecords, pureOf, plainRecord, e0]

/-- a mixture of two nonpolar components, with any binary interaction parameters -/
example (k : Fin 2 → Fin 2 → ℝ) (o : PcSaftOptions ℝ) (laD : LinAlg ℝ (Dual ℝ)) {P : ℝ} (hP : 0 < P) :=
  C88_every_pressure (o := o) (plainRecords_admissible k one_pos zero_le_one le_rfl le_rfl) (nassoc_of (plainRecords_lists k).2.2)
    (fun ct hct => by
      obtain ⟨h1, h2, h3⟩ := plainRecords_lists k
      simp [buildContributions, PcSaftParameters.ndipole, PcSaftParameters.nquadpole, PcSaftParameters.nassoc, h1, h2, h3] at hct
      rcases hct with rfl | rfl | rfl <;> trivial)
    (fun _ _ => polarRegular_of_nonpolar (plainRecords_lists k).1 (plainRecords_lists k).2.1) laD hP

theorem assocRecords_sites : ProperSites (fromRecords assocRecords (fun _ _ => 0)) := fun i hi => by
  rw [assocRecords_comp, List.mem_singleton] at hi
  subst hi
  norm_num [fromRecords, assocRecords]

example (o : PcSaftOptions ℝ) (la : LinAlg ℝ ℝ) := C88_close_packing (o := o) assocRecords_admissible
  (nassoc_of assocRecords_comp).le assocRecords_sites
  (polarRegular_of_nonpolar assocRecords_dipole assocRecords_quadrupole) la

example (o : PcSaftOptions ℝ) (laD : LinAlg ℝ (Dual ℝ)) {P₂ P : ℝ} := C88_associating (o := o) (P₂ := P₂) (P := P)
  assocRecords_comp assocRecords_sites assocRecords_admissible
  (fun _ _ _ => polarRegular_of_nonpolar assocRecords_dipole assocRecords_quadrupole) assocRecords_strength_lt laD

end Props
end PcSaft
