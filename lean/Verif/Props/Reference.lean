import Verif.Lemmas.ChainPressure

/-!
# Property C89: the repulsive reference fluid

Hard spheres and chains: their pressure (ideal gas part included, divided by `k_B T`), evaluated by the code with dual
numbers, is at least the pressure of an ideal gas in the free volume, and grows with density.
-/

open Filter Topology

namespace PcSaft
variable {n : ℕ}

/-- the pressure of hard spheres and chains, from the contributions of the code evaluated with dual numbers -/
noncomputable def Spec.referencePressure (p : PcSaftParameters n ℝ) (T V : ℝ) (N : Fin n → ℝ) : ℝ :=
  (∑ i, N i) / V - (hardSphere p (StateHD.new (⟨T, 0⟩ : Dual ℝ) ⟨V, 1⟩ (fun i => ⟨N i, 0⟩))).eps
    - (hardChain p (StateHD.new (⟨T, 0⟩ : Dual ℝ) ⟨V, 1⟩ (fun i => ⟨N i, 0⟩))).eps

namespace Props
open PcSaft Spec

section
variable {p : PcSaftParameters n ℝ} {T V W : ℝ} {N : Fin n → ℝ}

theorem closeVolume_lt (h : Admissible p T V N) : closeVolume p T N < V := by
  have := h.packing
  rwa [packing_eq, one_div_mul_eq_div, div_lt_one h.volume, ← closeVolume_eq] at this

theorem moments_eq (p : PcSaftParameters n ℝ) (T : ℝ) (N : Fin n → ℝ) (k : Fin 4) :
    6 / Real.pi * zeta p.m N (hsDiameter p T) k = ∑ i, N i * p.m i * hsDiameter p T i ^ (k : ℕ) := by
  rw [zeta_real, ← mul_assoc, Finset.mul_sum]
  refine Finset.sum_congr rfl fun i _ => ?_
  have := Real.pi_ne_zero
  field_simp

/-- the reference energy as a function of the volume -/
theorem hasDerivAt_reference (h : Admissible p T V N) :
    HasDerivAt (fun W => hardSphere p (StateHD.new T W N) + hardChain p (StateHD.new T W N))
      ((∑ i, N i) / V - refPressure (zeta p.m N (hsDiameter p T) 2) (zeta p.m N (hsDiameter p T) 3) N p.m (hsDiameter p T)
        (1 / (V - closeVolume p T N))) V := by
  have hlt := closeVolume_lt h
  have h3 := zeta_pos_moles h 3
  have h2 := zeta_pos_moles h 2
  rw [closeVolume_eq] at hlt ⊢
  have hpos : 0 < V - zeta p.m N (hsDiameter p T) 3 := sub_pos.2 hlt
  have e := refPressure_eq (τ := 1 / (V - zeta p.m N (hsDiameter p T) 3)) (N := N) (m := p.m) (d := hsDiameter p T) h2.le h3
    (fun i => (h.diameter_pos i).le) (by positivity)
    ((moments_eq p T N 0).trans (by simp)) ((moments_eq p T N 1).trans (by simp)) (moments_eq p T N 2)
  have hd := hasDerivAt_refEnergy (c0 := zeta p.m N (hsDiameter p T) 0) (c1 := zeta p.m N (hsDiameter p T) 1) (N := N)
    (m := p.m) (d := hsDiameter p T) (τ := 1 / (V - zeta p.m N (hsDiameter p T) 3)) h2.le h3
    (fun i => (h.diameter_pos i).le) (by positivity)
  have hτ : HasDerivAt (fun W : ℝ => 1 / (W - zeta p.m N (hsDiameter p T) 3))
      (-(1 / (V - zeta p.m N (hsDiameter p T) 3)) ^ 2) V := by
    have := ((hasDerivAt_id V).sub_const (zeta p.m N (hsDiameter p T) 3)).inv hpos.ne'
    simp only [one_div]
    refine this.congr_deriv ?_
    simp [neg_div]
  have hc := hd.comp V hτ
  have ev : (fun W => hardSphere p (StateHD.new T W N) + hardChain p (StateHD.new T W N)) =ᶠ[𝓝 V]
      (refEnergy (zeta p.m N (hsDiameter p T) 0) (zeta p.m N (hsDiameter p T) 1) (zeta p.m N (hsDiameter p T) 2)
        (zeta p.m N (hsDiameter p T) 3) N p.m (hsDiameter p T)) ∘ fun W : ℝ => 1 / (W - zeta p.m N (hsDiameter p T) 3) := by
    filter_upwards [lt_mem_nhds hlt] with W hW
    exact reference_eq (admissible_volume h hW)
  refine (hc.congr_of_eventuallyEq ev).congr_deriv ?_
  rw [← e]
  have hV := h.volume
  have e2 : 1 / (V - zeta p.m N (hsDiameter p T) 3) / (1 + zeta p.m N (hsDiameter p T) 3 * (1 / (V - zeta p.m N (hsDiameter p T) 3)))
      = 1 / V := by
    field_simp
    ring
  rw [e2]
  ring

theorem referencePressure_eq (h : Admissible p T V N) :
    referencePressure p T V N = refPressure (zeta p.m N (hsDiameter p T) 2) (zeta p.m N (hsDiameter p T) 3) N p.m
      (hsDiameter p T) (1 / (V - closeVolume p T N)) := by
  have h1 := (C53_hard_sphere (T := fun _ => T) (V := fun t => t) (N := fun i _ => N i) (T' := 0) (V' := 1) (N' := fun _ => 0)
    (t0 := V) (hasDerivAt_const _ _) (hasDerivAt_id V) (fun i => hasDerivAt_const _ _) h).2
  have h2 := (C53_hard_chain (T := fun _ => T) (V := fun t => t) (N := fun i _ => N i) (T' := 0) (V' := 1) (N' := fun _ => 0)
    (t0 := V) (hasDerivAt_const _ _) (hasDerivAt_id V) (fun i => hasDerivAt_const _ _) h).2
  have := (h1.add h2).unique (hasDerivAt_reference h)
  unfold referencePressure
  linarith

/-- C89: the reference fluid has at least the pressure of an ideal gas in the free volume. -/
theorem C89_free_volume (h : Admissible p T V N) : (∑ i, N i) / (V - closeVolume p T N) ≤ referencePressure p T V N := by
  have hlt := closeVolume_lt h
  rw [referencePressure_eq h, div_eq_mul_one_div]
  exact le_refPressure (zeta_pos_moles h 2).le (zeta_pos_moles h 3) (fun i => (h.diameter_pos i).le)
    (fun i => (h.m_pos i).le) h.moles_nonneg (one_div_pos.2 (sub_pos.2 hlt))

/-- C89: compressing the reference fluid raises its pressure: it is mechanically stable at every density. -/
theorem C89_compression (h : Admissible p T V N) (hVW : V < W) : referencePressure p T W N < referencePressure p T V N := by
  have hlt := closeVolume_lt h
  have hW : Admissible p T W N := admissible_volume h (by rw [← closeVolume_eq]; exact hlt.trans hVW)
  rw [referencePressure_eq h, referencePressure_eq hW]
  exact refPressure_mono (zeta_pos_moles h 2).le (zeta_pos_moles h 3) (fun i => (h.diameter_pos i).le)
    (fun i => (h.m_pos i).le) h.moles_nonneg h.total_pos (one_div_pos.2 (sub_pos.2 (hlt.trans hVW)))
    (one_div_lt_one_div_of_lt (sub_pos.2 hlt) (by linarith))

end

section
variable {pr : Fin n → PureRecord ℝ} {k : Fin n → Fin n → ℝ} {T V : ℝ} {N : Fin n → ℝ} {o : PcSaftOptions ℝ}

/-- molecules that neither attract each other nor have moments or sites -/
structure _root_.PcSaft.Spec.Repulsive (p : PcSaftParameters n ℝ) : Prop where
  dispersion : ∀ i j, p.epsilon_k_ij i j = 0
  dipole : p.ndipole = 0
  quadrupole : p.nquadpole = 0
  association : p.nassoc = 0

theorem _root_.PcSaft.Spec.Repulsive.residual (hr : Repulsive (fromRecords pr k)) (T V : ℝ) (N : Fin n → ℝ) :
    residualSum o.dq_variant (fromRecords pr k) (StateHD.new T V N)
      = hardSphere (fromRecords pr k) (StateHD.new T V N) + hardChain (fromRecords pr k) (StateHD.new T V N) := by
  have hd : dispersion (fromRecords pr k) (StateHD.new T V N) = 0 := by
    rw [dispersion_real, rho1mix_real, rho2mix_real]
    simp [hr.dispersion, dispForm]
  have ha : assocEnergy (fromRecords pr k) (StateHD.new T V N) = 0 := by
    unfold assocEnergy
    rw [List.length_eq_zero_iff.1 hr.association]
  rw [residualSum, hd, ha, dipole_eq_zero hr.dipole, quadrupole_eq_zero hr.quadrupole,
    dipoleQuadrupole_eq_zero (Or.inl hr.dipole)]
  ring

theorem _root_.PcSaft.Spec.Repulsive.polarRegular (hr : Repulsive (fromRecords pr k)) (V : ℝ) :
    ∀ ct ∈ buildContributions (fromRecords pr k) o, PolarRegular (fromRecords pr k) T V N ct
      ∧ Regular (fromRecords pr k) T V N ct ∧ DiluteRegular (fromRecords pr k) T N ct := by
  intro ct hct
  simp [buildContributions, hr.dipole, hr.quadrupole, hr.association] at hct
  rcases hct with rfl | rfl | rfl <;> exact ⟨trivial, trivial, trivial⟩

/-- C89: the pressure of a fluid of repulsive molecules, as the code computes it, is that of the reference fluid. -/
theorem C89_repulsive (hr : Repulsive (fromRecords pr k)) (h : Admissible (fromRecords pr k) T V N)
    (laD : LinAlg ℝ (Dual ℝ)) (P : ℝ) :
    IsPressure (fromRecords pr k) o laD T V N P ↔ P = referencePressure (fromRecords pr k) T V N := by
  have hd := (residual_volume_derivative (o := o) (by rw [hr.association]; exact Nat.zero_le _) h
    (fun ct hct => (hr.polarRegular V ct hct).2.1) laD).2
  have e : deriv (fun W => residualSum o.dq_variant (fromRecords pr k) (StateHD.new T W N)) V
      = (∑ i, N i) / V - referencePressure (fromRecords pr k) T V N := by
    simp only [hr.residual]
    rw [(hasDerivAt_reference h).deriv, referencePressure_eq h]
  unfold IsPressure
  rw [hd]
  constructor
  · rintro ⟨d, hd', rfl⟩
    rw [← Except.ok.inj hd']
    change _ - deriv _ V = _
    rw [e]
    ring
  · intro hP
    refine ⟨_, rfl, ?_⟩
    change _ = _ - deriv _ V
    rw [e, hP]
    ring

/-- C89: a fluid of repulsive molecules has exactly one volume for every temperature, composition and pressure: it never
splits into phases of different density. -/
theorem C89_unique_volume (hr : Repulsive (fromRecords pr k)) (h : Admissible (fromRecords pr k) T V N)
    (laD : LinAlg ℝ (Dual ℝ)) {P : ℝ} (hP : 0 < P) :
    ∃! W, Admissible (fromRecords pr k) T W N ∧ IsPressure (fromRecords pr k) o laD T W N P := by
  obtain ⟨W, -, hA, hW⟩ := C88_every_pressure (o := o) h hr.association (fun ct hct => (hr.polarRegular V ct hct).2.2)
    (fun V _ ct hct => (hr.polarRegular V ct hct).1) laD hP
  refine ⟨W, ⟨hA, hW⟩, ?_⟩
  rintro W' ⟨hA', hW'⟩
  rw [C89_repulsive hr hA laD] at hW
  rw [C89_repulsive hr hA' laD] at hW'
  by_contra hne
  rcases lt_or_gt_of_ne hne with hl | hl
  · have := C89_compression hA' hl
    linarith
  · have := C89_compression hA hl
    linarith

end

/-! ## Cases that meet the hypotheses -/

example := C89_compression assocRecords_admissible (W := 2000) (by norm_num)

/-- chains without attraction -/
noncomputable def hardRecords (i : Fin n) : PureRecord ℝ := pureOf (plainRecord (1 + (i : ℕ)) (3 + (i : ℕ) / 10) 0)

theorem hardRecords_repulsive (k : Fin n → Fin n → ℝ) : Repulsive (fromRecords (hardRecords (n := n)) k) := by
  have e0 : (0.0 : ℝ) = 0 := by norm_num
  have h : (fromRecords (hardRecords (n := n)) k).dipole_comp = []
      ∧ (fromRecords (hardRecords (n := n)) k).quadpole_comp = [] ∧ (fromRecords (hardRecords (n := n)) k).assoc_comp = [] := by
    refine ⟨?_, ?_, ?_⟩ <;>
    · refine List.eq_nil_iff_forall_not_mem.2 fun i hi => (mem_nonzeroComp _ i).1 hi ?_
      simp [hardRecords, pureOf, plainRecord, e0]
  refine ⟨fun i j => ?_, congrArg List.length h.1, congrArg List.length h.2.1, congrArg List.length h.2.2⟩
  simp [fromRecords, hardRecords, pureOf, plainRecord]

theorem hardRecords_admissible (k : Fin 2 → Fin 2 → ℝ) : Admissible (fromRecords hardRecords k) 300 1000 (fun _ => 1) where
  temperature := by norm_num
  volume := by norm_num
  m_pos i := by
    change (0 : ℝ) < 1 + (i : ℕ)
    positivity
  sigma_pos i := by
    change (0 : ℝ) < 3 + (i : ℕ) / 10
    positivity
  epsilon_nonneg _ := by
    change (0 : ℝ) ≤ 0
    exact le_rfl
  moles_nonneg _ := zero_le_one
  moles_ne_zero := ⟨0, one_ne_zero⟩
  packing := by
    have hd : ∀ s : ℝ, 0 ≤ s → s ≤ 4 → Spec.diameter s 0 300 ^ 3 ≤ 64 := fun s h0 h4 => by
      have h1 : Spec.diameter s 0 300 = s * (1 - 0.12) := by simp [Spec.diameter]
      rw [h1]
      calc (s * (1 - 0.12)) ^ 3 ≤ (4 : ℝ) ^ 3 := pow_le_pow_left₀ (by norm_num; linarith) (by norm_num; linarith) 3
        _ = 64 := by norm_num
    have hpi := Real.pi_lt_four
    have hpi0 := Real.pi_pos
    unfold Spec.packingFraction
    rw [Fin.sum_univ_two]
    change 1 * (1 + ((0 : ℕ) : ℝ)) * (Real.pi / 6 * Spec.diameter (3 + ((0 : ℕ) : ℝ) / 10) 0 300 ^ 3) / 1000
      + 1 * (1 + ((1 : ℕ) : ℝ)) * (Real.pi / 6 * Spec.diameter (3 + ((1 : ℕ) : ℝ) / 10) 0 300 ^ 3) / 1000 < 1
    have a := hd (3 + ((0 : ℕ) : ℝ) / 10) (by norm_num) (by norm_num)
    have b := hd (3 + ((1 : ℕ) : ℝ) / 10) (by norm_num) (by norm_num)
    have a' : Real.pi / 6 * Spec.diameter (3 + ((0 : ℕ) : ℝ) / 10) 0 300 ^ 3 ≤ 4 / 6 * 64 :=
      (mul_le_mul_of_nonneg_left a (by positivity)).trans (by linarith)
    have b' : Real.pi / 6 * Spec.diameter (3 + ((1 : ℕ) : ℝ) / 10) 0 300 ^ 3 ≤ 4 / 6 * 64 :=
      (mul_le_mul_of_nonneg_left b (by positivity)).trans (by linarith)
    push_cast at a' b' ⊢
    linarith

example (k : Fin 2 → Fin 2 → ℝ) (o : PcSaftOptions ℝ) (laD : LinAlg ℝ (Dual ℝ)) {P : ℝ} (hP : 0 < P) :=
  C89_unique_volume (o := o) (hardRecords_repulsive k) (hardRecords_admissible k) laD hP

end Props
end PcSaft
