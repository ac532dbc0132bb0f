import Verif.Lemmas.Boyle
import Verif.Props.VirialPressure
import Verif.Props.ShippedData

/-!
# Property C98: a pure substance has exactly one Boyle temperature

Full statement: the second virial coefficient of a pure substance grows with temperature and has exactly one zero, the
Boyle temperature.  It is proved for substances without moments, associating or not.  It fails for dipoles.
-/

namespace PcSaft
namespace Props
open PcSaft Spec Dual2

variable {pr : Fin 1 → PureRecord ℝ} {k : Fin 1 → Fin 1 → ℝ} {T : ℝ}

/-- the part of the coefficient that comes from the bonds -/
noncomputable def bondVirial (p : PcSaftParameters 1 ℝ) (T : ℝ) : ℝ :=
  if p.kappa_ab 0 = 0 then 0
  else p.na 0 * p.nb 0 * p.sigma 0 ^ 3 * p.kappa_ab 0 * (Real.exp (p.epsilon_k_ab 0 / T) - 1)

theorem residual_three (laX : LinAlg XReal XDual2) (p : PcSaftParameters 1 XReal) (o : PcSaftOptions XReal)
    (s : StateHD 1 XDual2) (h : buildContributions p o = [.hardSphere, .hardChain, .dispersion]) :
    (Eos.withOptions p o).residualHelmholtz laX s
      = .ok (c (0.0 : XReal) + hardSphere p s + hardChain p s + dispersion p s) := by
  simp only [Eos.residualHelmholtz, Eos.withOptions, h]
  rfl

theorem residual_four (laX : LinAlg XReal XDual2) (p : PcSaftParameters 1 XReal) (o : PcSaftOptions XReal)
    (s : StateHD 1 XDual2) (h : buildContributions p o = [.hardSphere, .hardChain, .dispersion, .association])
    {d : XDual2} (hd : Contribution.association.helmholtzEnergy laX p s = .ok d) :
    (Eos.withOptions p o).residualHelmholtz laX s
      = .ok (c (0.0 : XReal) + hardSphere p s + hardChain p s + dispersion p s + d) := by
  simp only [Eos.residualHelmholtz, Eos.withOptions, h, List.foldlM_cons, hd]
  rfl

/-- the contributions of a pure substance without moments -/
theorem pure_contributions (hmu : (fromRecords pr k).mu 0 = 0)
    (hq : (fromRecords pr k).q 0 = 0) (o : PcSaftOptions ℝ) :
    ((fromRecords pr k).kappa_ab 0 = 0
      ∧ buildContributions (fromRecords pr k) o = [.hardSphere, .hardChain, .dispersion])
    ∨ ((fromRecords pr k).kappa_ab 0 ≠ 0 ∧ (fromRecords pr k).assoc_comp = [0]
      ∧ buildContributions (fromRecords pr k) o = [.hardSphere, .hardChain, .dispersion, .association]) := by
  have h0 : (0.0 : ℝ) = 0 := by norm_num
  have hd : (fromRecords pr k).ndipole = 0 := by
    have : (fromRecords pr k).dipole_comp = [] := by
      rw [List.eq_nil_iff_forall_not_mem]
      intro i hi
      rw [Subsingleton.elim i 0] at hi
      have hz : (pr 0).model_record.mu.getD 0.0 = 0 := hmu
      simp [fromRecords, nonzeroComp, h0] at hi
      simp [h0] at hz
      simp [hz] at hi
    simp [PcSaftParameters.ndipole, this]
  have hqu : (fromRecords pr k).nquadpole = 0 := by
    have : (fromRecords pr k).quadpole_comp = [] := by
      rw [List.eq_nil_iff_forall_not_mem]
      intro i hi
      rw [Subsingleton.elim i 0] at hi
      have hz : (pr 0).model_record.q.getD 0.0 = 0 := hq
      simp [fromRecords, nonzeroComp, h0] at hi
      simp [h0] at hz
      simp [hz] at hi
    simp [PcSaftParameters.nquadpole, this]
  by_cases hkz : (fromRecords pr k).kappa_ab 0 = 0
  · have hna : (fromRecords pr k).nassoc = 0 := by
      have : (fromRecords pr k).assoc_comp = [] := by
        rw [List.eq_nil_iff_forall_not_mem]
        intro i hi
        rw [Subsingleton.elim i 0, mem_assoc_comp] at hi
        exact hi hkz
      simp [PcSaftParameters.nassoc, this]
    exact .inl ⟨hkz, by simp [buildContributions, hd, hqu, hna]⟩
  · have hl : (fromRecords pr k).assoc_comp = [0] := by
      have hmem := (mem_assoc_comp pr k 0).2 hkz
      have hnd := assoc_nodup pr k
      have hlen := hnd.length_le_card
      match hll : (fromRecords pr k).assoc_comp with
      | [] => rw [hll] at hmem; exact absurd hmem List.not_mem_nil
      | [a] => rw [Subsingleton.elim a 0]
      | a :: b :: l => rw [hll] at hlen; simp at hlen
    have hna : (fromRecords pr k).nassoc = 1 := by simp [PcSaftParameters.nassoc, hl]
    exact .inr ⟨hkz, hl, by simp [buildContributions, hd, hqu, hna]⟩

/-- chains and dispersion -/
theorem pure_chain_virial (hr : PositiveRecords pr) (hk : 0 ≤ (fromRecords pr k).kappa_ab 0) (h00 : k 0 0 = 0)
    (hT : 0 < T) :
    VirialCoefficient (Real.pi * (pr 0).model_record.m * (pr 0).model_record.sigma ^ 3
        * boyleForm (pr 0).model_record.m ((pr 0).model_record.epsilon_k / T))
      (c (0.0 : XReal) + hardSphere (xParameters pr k) (virialStateX T fun _ => 1)
        + hardChain (xParameters pr k) (virialStateX T fun _ => 1)
        + dispersion (xParameters pr k) (virialStateX T fun _ => 1)) := by
  have hk' : ∀ i, 0 ≤ (fromRecords pr k).kappa_ab i := fun i => by
    rw [Subsingleton.elim i 0]
    exact hk
  have hm := hr.m 0
  have hσ := hr.sigma 0
  have hε := hr.epsilon 0
  set m := (pr 0).model_record.m with hmdef
  set σ := (pr 0).model_record.sigma with hσdef
  set ε := (pr 0).model_record.epsilon_k with hεdef
  have em : (fluidOf pr k).m 0 = m := rfl
  have es : (fluidOf pr k).sigmaIJ 0 0 = σ := by
    change (σ + σ) / 2 = σ
    ring
  have ee : (fluidOf pr k).energyIJ 0 0 = ε := Real.sqrt_mul_self hε.le
  have ek : (fluidOf pr k).k 0 0 = 0 := h00
  have ed : (fluidOf pr k).d T 0 = σ * (1 - 0.12 * Real.exp (-3 * (ε / T))) := by
    change σ * (1 - 0.12 * Real.exp (-3 * ε / T)) = _
    rw [mul_div_assoc]
  have hd0 : 0 < (fluidOf pr k).d T 0 := by
    have := virial_diameter_pos (k := k) hr hT 0
    rwa [hsDiameter_eq_spec] at this
  have v1 := C63_hard_sphere_finite (k := k) hr hT (fun _ => 1) hk' (by
    simp only [Finset.univ_unique, Fin.default_eq_zero, Finset.sum_singleton, one_mul]
    exact (mul_pos hm (pow_pos hd0 3)).ne')
  have v2 := C63_hard_chain_finite (k := k) hr hT (fun _ => 1) hk'
  have v3 := C63_dispersion_finite (k := k) hr hT (fun _ => 1) hk' (by
    simp only [Finset.univ_unique, Fin.default_eq_zero, Finset.sum_singleton, one_mul]
    exact hm.ne')
  have v := ((virial_zero.add v1).add v2).add v3
  have eb : 0 + (∑ i : Fin 1, ∑ j : Fin 1, (1 : ℝ) * 1 * ((fluidOf pr k).m i * (fluidOf pr k).m j) * (2 / 3 * Real.pi
        * (((fluidOf pr k).d T i + (fluidOf pr k).d T j) / 2) ^ 3))
      + (∑ i : Fin 1, (1 : ℝ) * (1 - (fluidOf pr k).m i)
        * (Real.pi / 6 * (∑ j : Fin 1, 1 * (fluidOf pr k).m j * (fluidOf pr k).d T j ^ 3)
          + 3 / 2 * (fluidOf pr k).d T i * (Real.pi / 6 * ∑ j : Fin 1, 1 * (fluidOf pr k).m j * (fluidOf pr k).d T j ^ 2)))
      = Real.pi * m * σ ^ 3 * ((3 * m + 5) / 12 * (1 - 0.12 * Real.exp (-3 * (ε / T))) ^ 3) := by
    simp only [Finset.univ_unique, Fin.default_eq_zero, Finset.sum_singleton, em, ed]
    ring
  rw [eb] at v
  simp only [Finset.univ_unique, Fin.default_eq_zero, Finset.sum_singleton, em, es, ee, ek] at v
  have ev : Real.pi * m * σ ^ 3 * ((3 * m + 5) / 12 * (1 - 0.12 * Real.exp (-3 * (ε / T))) ^ 3)
      + (-(2 * Real.pi * (1 * 1 * (m * m) * ((1 - 0) * ε / T) * σ ^ 3)
          * (0.91056314451539 + (1 * m - 1) / (1 * m) * (-0.30840169182720)
            + (1 * m - 1) / (1 * m) * ((1 * m - 2) / (1 * m)) * (-0.09061483509767))
        + Real.pi * (1 * m) * (1 * 1 * (m * m) * ((1 - 0) * ε / T) ^ 2 * σ ^ 3)
          * (0.72409469413165 + (1 * m - 1) / (1 * m) * (-0.57554980753450)
            + (1 * m - 1) / (1 * m) * ((1 * m - 2) / (1 * m)) * 0.09768831158356)))
      = Real.pi * m * σ ^ 3 * boyleForm m (ε / T) := by
    simp only [boyleForm, int1Zero, int2Zero, one_mul, sub_zero]
    ring
  rw [ev] at v
  exact v

/-- the second virial coefficient of a pure substance without moments -/
theorem pure_virial (hr : PositiveRecords pr) (hk : 0 ≤ (fromRecords pr k).kappa_ab 0)
    (hmu : (fromRecords pr k).mu 0 = 0) (hq : (fromRecords pr k).q 0 = 0)
    (hs : (fromRecords pr k).kappa_ab 0 ≠ 0 → 0 ≤ (fromRecords pr k).epsilon_k_ab 0 ∧ 0 < (fromRecords pr k).na 0
      ∧ 0 < (fromRecords pr k).nb 0)
    (h00 : k 0 0 = 0) (hT : 0 < T) (o : PcSaftOptions ℝ) (laX : LinAlg XReal XDual2) :
    IsSecondVirial pr k o laX T (fun _ => 1)
      (Real.pi * (pr 0).model_record.m * (pr 0).model_record.sigma ^ 3
          * boyleForm (pr 0).model_record.m ((pr 0).model_record.epsilon_k / T)
        - bondVirial (fromRecords pr k) T) := by
  have hk' : ∀ i, 0 ≤ (fromRecords pr k).kappa_ab i := fun i => by
    rw [Subsingleton.elim i 0]
    exact hk
  have v := pure_chain_virial hr hk h00 hT
  rcases pure_contributions hmu hq o with ⟨hkz, hc⟩ | ⟨hkz, hl, hc⟩
  · refine ⟨_, ?_, by rw [bondVirial, if_pos hkz, sub_zero]; exact v⟩
    exact residual_three laX _ _ _ ((buildContributions_fin (xParameters_rel' hr hk') o).trans (by rw [hc]; rfl))
  · obtain ⟨s1, s2, s3⟩ := hs hkz
    let la : LinAlg ℝ ℝ := ⟨fun _ _ _ => none, fun _ _ _ => none, 0⟩
    obtain ⟨⟨d4, w1, w2⟩, -⟩ := virialTerm_association (x := fun _ => 1) hr hk' hT (by simp) la laX hl s2 s3
    obtain ⟨-, -, c3, c4, -⟩ := C02_association_combining_rules pr k hr.sigma hk' 0 0
    refine ⟨c (0.0 : XReal) + hardSphere (xParameters pr k) (virialStateX T fun _ => 1)
      + hardChain (xParameters pr k) (virialStateX T fun _ => 1)
      + dispersion (xParameters pr k) (virialStateX T fun _ => 1) + d4, ?_, ?_⟩
    rotate_left
    · have := v.add w2
      rw [bondVirial, if_neg hkz]
      convert this using 1
      rw [strengthZero, c3, c4 hkz]
      ring
    · exact residual_four laX _ _ _ ((buildContributions_fin (xParameters_rel' hr hk') o).trans (by rw [hc]; rfl)) w1

/-- the coefficient as a function of temperature -/
theorem pure_virial_boyle (hr : PositiveRecords pr) (hm : 4 / 5 ≤ (pr 0).model_record.m)
    (hk : 0 ≤ (fromRecords pr k).kappa_ab 0)
    (hs : (fromRecords pr k).kappa_ab 0 ≠ 0 → 0 ≤ (fromRecords pr k).epsilon_k_ab 0 ∧ 0 < (fromRecords pr k).na 0
      ∧ 0 < (fromRecords pr k).nb 0) :
    let B := fun T : ℝ => Real.pi * (pr 0).model_record.m * (pr 0).model_record.sigma ^ 3
          * boyleForm (pr 0).model_record.m ((pr 0).model_record.epsilon_k / T) - bondVirial (fromRecords pr k) T
    StrictMonoOn B (Set.Ioi 0) ∧ ∃ TB, 0 < TB ∧ B TB = 0 := by
  have h1 := hr.m 0
  have h2 := hr.sigma 0
  have hA : 0 < Real.pi * (pr 0).model_record.m * (pr 0).model_record.sigma ^ 3 := by positivity
  by_cases hkz : (fromRecords pr k).kappa_ab 0 = 0
  · have e : ∀ T, bondVirial (fromRecords pr k) T = 0 * (Real.exp (0 / T) - 1) := fun T => by
      rw [bondVirial, if_pos hkz, zero_mul]
    simp only [e]
    exact boyle_temperature hm (hr.epsilon 0) hA le_rfl le_rfl
  · obtain ⟨s1, s2, s3⟩ := hs hkz
    have h3 : 0 < (fromRecords pr k).sigma 0 := h2
    have e : ∀ T, bondVirial (fromRecords pr k) T = (fromRecords pr k).na 0 * (fromRecords pr k).nb 0
        * (fromRecords pr k).sigma 0 ^ 3 * (fromRecords pr k).kappa_ab 0
          * (Real.exp ((fromRecords pr k).epsilon_k_ab 0 / T) - 1) := fun T => by
      rw [bondVirial, if_neg hkz]
    simp only [e]
    exact boyle_temperature hm (hr.epsilon 0) hA (by positivity) s1

theorem virial_unique {n : ℕ} {pr : Fin n → PureRecord ℝ} {k : Fin n → Fin n → ℝ} {o : PcSaftOptions ℝ}
    {laX : LinAlg XReal XDual2} {T : ℝ} {x : Fin n → ℝ} {b b' : ℝ} (h : IsSecondVirial pr k o laX T x b)
    (h' : IsSecondVirial pr k o laX T x b') : b = b' := by
  obtain ⟨d, h1, h2⟩ := h
  obtain ⟨d', h1', h2'⟩ := h'
  have ed : d = d' := Except.ok.inj (h1.symm.trans h1')
  exact h2.unique (ed ▸ h2')

section
variable (hr : PositiveRecords pr) (hm : 4 / 5 ≤ (pr 0).model_record.m)
  (hk : 0 ≤ (fromRecords pr k).kappa_ab 0) (hmu : (fromRecords pr k).mu 0 = 0) (hq : (fromRecords pr k).q 0 = 0)
  (hs : (fromRecords pr k).kappa_ab 0 ≠ 0 → 0 ≤ (fromRecords pr k).epsilon_k_ab 0 ∧ 0 < (fromRecords pr k).na 0
    ∧ 0 < (fromRecords pr k).nb 0) (h00 : k 0 0 = 0)
include hr hm hk hmu hq hs h00

/-- C98: the second virial coefficient of a pure substance without moments, associating or not, grows with
temperature. -/
theorem C98_increasing_partial (o : PcSaftOptions ℝ) (laX : LinAlg XReal XDual2) {T T' b b' : ℝ} (hT : 0 < T) (hTT : T < T')
    (h : IsSecondVirial pr k o laX T (fun _ => 1) b) (h' : IsSecondVirial pr k o laX T' (fun _ => 1) b') : b < b' := by
  rw [virial_unique h (pure_virial hr hk hmu hq hs h00 hT o laX),
    virial_unique h' (pure_virial hr hk hmu hq hs h00 (hT.trans hTT) o laX)]
  exact (pure_virial_boyle hr hm hk hs).1 (Set.mem_Ioi.2 hT) (Set.mem_Ioi.2 (hT.trans hTT)) hTT

/-- C98: there is exactly one Boyle temperature.  The evaluation at zero density succeeds at every temperature; the
coefficient is negative below the Boyle temperature, zero at it and positive above. -/
theorem C98_boyle_temperature_partial (o : PcSaftOptions ℝ) (laX : LinAlg XReal XDual2) :
    ∃ TB, 0 < TB ∧ ∀ T, 0 < T → ∃ b, IsSecondVirial pr k o laX T (fun _ => 1) b
      ∧ (b < 0 ↔ T < TB) ∧ (b = 0 ↔ T = TB) ∧ (0 < b ↔ TB < T) := by
  obtain ⟨mono, TB, h0, hz⟩ := pure_virial_boyle hr hm hk hs
  refine ⟨TB, h0, fun T hT => ⟨_, pure_virial hr hk hmu hq hs h00 hT o laX, ?_⟩⟩
  have h1 := mono.lt_iff_lt (Set.mem_Ioi.2 hT) (Set.mem_Ioi.2 h0)
  have h2 := mono.lt_iff_lt (Set.mem_Ioi.2 h0) (Set.mem_Ioi.2 hT)
  have h3 := mono.injOn.eq_iff (Set.mem_Ioi.2 hT) (Set.mem_Ioi.2 h0)
  simp only at hz h1 h2 h3
  rw [hz] at h1 h2 h3
  exact ⟨h1, h3, h2⟩

/-- C98, the pressures: below the Boyle temperature a dilute gas has less pressure than the ideal gas, above it has
more. -/
theorem C98_pressure_partial (o : PcSaftOptions ℝ) (laD : LinAlg ℝ (Dual ℝ)) : ∃ TB, 0 < TB ∧ ∀ T N, 0 < T → 0 < N →
    (T < TB → ∃ V₀, ∀ V, V₀ ≤ V → ∃ P, IsPressure (fromRecords pr k) o laD T V (fun _ => N) P ∧ P * V < N)
    ∧ (TB < T → ∃ V₀, ∀ V, V₀ ≤ V → ∃ P, IsPressure (fromRecords pr k) o laD T V (fun _ => N) P ∧ N < P * V) := by
  let laX : LinAlg XReal XDual2 := ⟨fun _ _ _ => none, fun _ _ _ => none, 0⟩
  obtain ⟨TB, h0, hB⟩ := C98_boyle_temperature_partial hr hm hk hmu hq hs h00 o laX
  refine ⟨TB, h0, fun T N hT hN => ?_⟩
  have hk' : ∀ i, 0 ≤ (fromRecords pr k).kappa_ab i := fun i => by
    rw [Subsingleton.elim i 0]
    exact hk
  obtain ⟨b, hb, g1, -, g2⟩ := hB T hT
  have hd0 := virial_diameter_pos (k := k) hr hT 0
  have hv : 0 < (fromRecords pr k).m 0 * hsDiameter (fromRecords pr k) T 0 ^ 3 * N :=
    mul_pos (mul_pos (hr.m 0) (pow_pos hd0 3)) hN
  have hA : Admissible (fromRecords pr k) T (Real.pi * ((fromRecords pr k).m 0 * hsDiameter (fromRecords pr k) T 0 ^ 3 * N))
      (fun _ => N) := by
    refine ⟨hT, by positivity, hr.m, hr.sigma, fun i => (hr.epsilon i).le, fun _ => hN.le, ⟨0, hN.ne'⟩, ?_⟩
    rw [hsDiameter_eq_spec] at hv ⊢
    simp only [Spec.packingFraction, Finset.univ_unique, Fin.default_eq_zero, Finset.sum_singleton]
    rw [div_lt_one (by positivity)]
    nlinarith [Real.pi_pos]
  have hd : ∀ ct ∈ buildContributions (fromRecords pr k) o, DiluteRegular (fromRecords pr k) T (fun _ => N) ct := by
    intro ct hct
    rcases pure_contributions hmu hq o with ⟨-, hc⟩ | ⟨hkz, hl, hc⟩
    · rw [hc] at hct
      simp only [List.mem_cons, List.not_mem_nil, or_false] at hct
      rcases hct with rfl | rfl | rfl <;> trivial
    · rw [hc] at hct
      simp only [List.mem_cons, List.not_mem_nil, or_false] at hct
      rcases hct with rfl | rfl | rfl | rfl
      · trivial
      · trivial
      · trivial
      · exact ⟨0, hl, (hs hkz).2.1⟩
  have hnb : ∀ a ∈ (fromRecords pr k).assoc_comp, 0 < (fromRecords pr k).nb a := fun a ha => by
    rw [mem_assoc_comp, Subsingleton.elim a 0] at ha
    rw [Subsingleton.elim a 0]
    exact (hs ha).2.2
  have hx : (fun i : Fin 1 => N / ∑ _j : Fin 1, N) = fun _ => 1 := by
    funext i
    simp [hN.ne']
  have hsum : ∑ _j : Fin 1, N = N := by simp
  obtain ⟨f1, f2⟩ := C97_sign hr hk' hA o hd hnb laX laD (b := b) (by rw [hx]; exact hb)
  obtain ⟨b', -, hP⟩ := C97_slope hr hk' hA o hd hnb laX laD
  obtain ⟨V₁, hV₁⟩ := hP 1 one_pos
  rw [hsum] at f1 f2
  refine ⟨fun h => ?_, fun h => ?_⟩
  · obtain ⟨V₀, hV₀⟩ := f1 (g1.2 h)
    refine ⟨max V₀ V₁, fun V hV => ?_⟩
    obtain ⟨P, h1, -⟩ := hV₁ V ((le_max_right _ _).trans hV)
    exact ⟨P, h1, hV₀ V ((le_max_left _ _).trans hV) P h1⟩
  · obtain ⟨V₀, hV₀⟩ := f2 (g2.2 h)
    refine ⟨max V₀ V₁, fun V hV => ?_⟩
    obtain ⟨P, h1, -⟩ := hV₁ V ((le_max_right _ _).trans hV)
    exact ⟨P, h1, hV₀ V ((le_max_left _ _).trans hV) P h1⟩

end

/-! ## The shipped files -/

/-- C98 for the shipped files: every substance without moments, associating or not, has exactly one Boyle temperature,
and the pressures of its dilute gas are below those of the ideal gas at lower temperatures and above them at higher
temperatures. -/
theorem C98_shipped_partial {pr : Fin 1 → PureRecord ℝ} (hpr : MixtureOf Shipped.substances pr)
    (hmu : (fromRecords pr fun _ _ => 0).mu 0 = 0) (hq : (fromRecords pr fun _ _ => 0).q 0 = 0) (o : PcSaftOptions ℝ)
    (laX : LinAlg XReal XDual2) (laD : LinAlg ℝ (Dual ℝ)) :
    (∃ TB, 0 < TB ∧ ∀ T, 0 < T → ∃ b, IsSecondVirial pr (fun _ _ => 0) o laX T (fun _ => 1) b
      ∧ (b < 0 ↔ T < TB) ∧ (b = 0 ↔ T = TB) ∧ (0 < b ↔ TB < T))
    ∧ ∃ TB, 0 < TB ∧ ∀ T N, 0 < T → 0 < N →
      (T < TB → ∃ V₀, ∀ V, V₀ ≤ V → ∃ P, IsPressure (fromRecords pr fun _ _ => 0) o laD T V (fun _ => N) P ∧ P * V < N)
      ∧ (TB < T → ∃ V₀, ∀ V, V₀ ≤ V → ∃ P, IsPressure (fromRecords pr fun _ _ => 0) o laD T V (fun _ => N) P
        ∧ N < P * V) := by
  have hp := mixture_pos (fun _ _ => 0) hpr
  have hr : PositiveRecords pr := ⟨fun i => by
    have : 4 / 5 ≤ (pr i).model_record.m := (hp i).1
    linarith, fun i => (hp i).2.1, fun i => (hp i).2.2⟩
  have hk := mixture_kappa (fun _ _ => 0) hpr 0
  obtain ⟨r, hr', -, -, -, -, -, -, -, h2, h3, h4, -⟩ := mixture_entry hpr (fun _ _ => 0) 0
  obtain ⟨-, g1, g2, g3, -⟩ := shipped_sites r hr'
  have hs : 0 ≤ (fromRecords pr fun _ _ => 0).epsilon_k_ab 0 ∧ 0 < (fromRecords pr fun _ _ => 0).na 0
      ∧ 0 < (fromRecords pr fun _ _ => 0).nb 0 := by
    rw [h2, h3, h4]
    exact ⟨by exact_mod_cast g1, by exact_mod_cast g2, by exact_mod_cast g3⟩
  exact ⟨C98_boyle_temperature_partial hr (hp 0).1 hk hmu hq (fun _ => hs) rfl o laX,
    C98_pressure_partial hr (hp 0).1 hk hmu hq (fun _ => hs) rfl o laD⟩

/-! ## Dipoles -/

theorem residual_dipole (laX : LinAlg XReal XDual2) (p : PcSaftParameters 1 XReal) (o : PcSaftOptions XReal)
    (s : StateHD 1 XDual2) (h : buildContributions p o = [.hardSphere, .hardChain, .dispersion, .dipole]) :
    (Eos.withOptions p o).residualHelmholtz laX s
      = .ok (c (0.0 : XReal) + hardSphere p s + hardChain p s + dispersion p s + dipole p s) := by
  simp only [Eos.residualHelmholtz, Eos.withOptions, h]
  rfl

/-- C98 fails with dipoles: the second virial coefficient of every pure substance with a dipole, at least 1.1 segments,
no quadrupole and no sites is positive at low temperature, where molecules should attract each other.  The cause is the
term of the pair integral that is linear in `ε / T`: it is negative at zero density. -/
theorem C98_cold_dipoles_counterexample (hr : PositiveRecords pr) (hm : 11 / 10 ≤ (pr 0).model_record.m)
    (hk : (fromRecords pr k).kappa_ab 0 = 0) (hmu : (fromRecords pr k).mu 0 ≠ 0) (hq : (fromRecords pr k).q 0 = 0)
    (h00 : k 0 0 = 0) (o : PcSaftOptions ℝ) (laX : LinAlg XReal XDual2) :
    ∃ T₀, 0 < T₀ ∧ ∀ T, 0 < T → T < T₀ → ∃ b, IsSecondVirial pr k o laX T (fun _ => 1) b ∧ 0 < b := by
  have hk' : ∀ i, 0 ≤ (fromRecords pr k).kappa_ab i := fun i => by
    rw [Subsingleton.elim i 0, hk]
  have hm0 := hr.m 0
  have hσ := hr.sigma 0
  have hε := hr.epsilon 0
  have hok := polarOk_fromRecords pr k fun i => (hr.m i).le
  have hc : buildContributions (fromRecords pr k) o = [.hardSphere, .hardChain, .dispersion, .dipole] := by
    have h1 : (fromRecords pr k).nassoc = 0 := (nassoc_zero pr k).2 fun i => by rw [Subsingleton.elim i 0, hk]
    have hq' : ∀ i, (fromRecords pr k).q i = 0 := fun i => by rw [Subsingleton.elim i 0, hq]
    have h2 : (fromRecords pr k).nquadpole = 0 := by
      refine List.length_eq_zero_iff.2 (List.eq_nil_iff_forall_not_mem.2 fun i hi => ?_)
      exact (mem_nonzeroComp (fromRecords pr k).q2 i).1 hi (q2_zero (hq' i))
    have h3 : 0 < (fromRecords pr k).ndipole := (ndipole_pos pr k
      ⟨fun i => (hr.m i).ne', fun i => (hr.sigma i).ne', fun i => (hr.epsilon i).ne'⟩).2 ⟨0, hmu⟩
    simp [buildContributions, h1, h2, h3]
  -- the pair integral
  set M := min 2 (pr 0).model_record.m with hM
  have hM0 : 0 < M := by positivity
  have hmp : (fluidOf pr k).mPair 0 0 = M := by
    have h1 : (fluidOf pr k).mP 0 = M := min_comm _ _
    rw [Spec.Fluid.mPair, h1]
    exact Real.sqrt_mul_self hM0.le
  obtain ⟨α, β, hβ, hJ⟩ : ∃ α β : ℝ, 0 < β ∧ ∀ T, (fluidOf pr k).j2 T AD BD 0 0 0
      = α - β * ((pr 0).model_record.epsilon_k / T) := by
    refine ⟨Spec.Fluid.coeff (AD 0 0) (AD 0 1) (AD 0 2) M, -Spec.Fluid.coeff (BD 0 0) (BD 0 1) (BD 0 2) M, ?_, fun T => ?_⟩
    · have h1 : M⁻¹ ≤ 10 / 11 := by
        rw [inv_le_comm₀ hM0 (by norm_num)]
        exact le_min (by norm_num) (by linarith)
      have h2 : 1 / 2 ≤ M⁻¹ := by
        rw [le_inv_comm₀ (by norm_num) hM0]
        exact (min_le_left _ _).trans (by norm_num)
      have e : Spec.Fluid.coeff (BD 0 0) (BD 0 1) (BD 0 2) M = 0.21879385627 + (1 - M⁻¹) * (-0.58731641193)
          + (1 - M⁻¹) * (1 - 2 * M⁻¹) * 3.48695755800 := by
        have u : (M - 1) / M = 1 - M⁻¹ := by field_simp
        have v : (M - 2) / M = 1 - 2 * M⁻¹ := by field_simp
        rw [Spec.Fluid.coeff, u, v]
        rfl
      rw [e]
      nlinarith [mul_nonneg (sub_nonneg.2 h1) (sub_nonneg.2 h2)]
    · have ee : (fluidOf pr k).energyIJ 0 0 = (pr 0).model_record.epsilon_k := Real.sqrt_mul_self hε.le
      rw [Spec.Fluid.j2, hmp, ee, Fin.sum_univ_succ]
      simp
  -- the coefficient
  set m := (pr 0).model_record.m with hmdef
  set σ := (pr 0).model_record.sigma with hσdef
  set ε := (pr 0).model_record.epsilon_k with hεdef
  set S := (fluidOf pr k).dipoleStrength 1 0 with hS
  have hS0 : 0 < S := by
    have hmu' : (fluidOf pr k).mu 0 ≠ 0 := by
      have e0 : (0.0 : ℝ) = 0 := by norm_num
      have h := hmu
      change (pr 0).model_record.mu.getD 0.0 ≠ 0 at h
      rwa [e0] at h
    have h1 : 0 < (fluidOf pr k).mu 0 ^ 2 := lt_of_le_of_ne (sq_nonneg _) (Ne.symm (pow_ne_zero 2 hmu'))
    have h2 : 0 < (fluidOf pr k).m 0 := hm0
    rw [hS]
    unfold Spec.Fluid.dipoleStrength Spec.Fluid.debyeSq Spec.Fluid.kB
    positivity
  have hst : ∀ T, (fluidOf pr k).dipoleStrength T 0 = S / T := fun T => by
    rw [hS]
    unfold Spec.Fluid.dipoleStrength
    rw [mul_one, div_div]
  have hphi : ∀ T, 0 < T → dipolePhi2 (fromRecords pr k) T (fun _ => 1) 0 * c F64.pi
      = Real.pi * S ^ 2 / (ε ^ 2 * σ ^ 3) * (ε / T) ^ 2 * (β * (ε / T) - α) := by
    intro T hT
    have es : (fluidOf pr k).sigmaIJ 0 0 = σ := by
      change (σ + σ) / 2 = σ
      ring
    rw [dipolePhi2_real hok]
    simp only [Finset.univ_unique, Fin.default_eq_zero, Finset.sum_singleton, dipK2,
      dipoleTerm_theory pr k T 0 hm0.ne' hσ.ne' hε.ne' hT.ne', pairI_theory, sigmaIJ_theory, hst, hJ, es, c, ofF_real]
    change -(1 * 1 * (S / T * (S / T) * (α - β * (ε / T)) / σ ^ 3)) * Real.pi = _
    field_simp
    ring
  set A := Real.pi * m * σ ^ 3 with hA
  have hA0 : 0 < A := by positivity
  set D := Real.pi * S ^ 2 / (ε ^ 2 * σ ^ 3) with hD
  have hD0 : 0 < D := by positivity
  set c1 := 2 * (m * int1Zero m) with hc1
  set c2 := m ^ 2 * int2Zero m with hc2
  set X := 1 + (|A * c2 + D * α| + |A * c1|) / (D * β) with hX
  have hX1 : 1 ≤ X := le_add_of_nonneg_right (by positivity)
  refine ⟨ε / X, by positivity, fun T hT hTX => ⟨A * boyleForm m (ε / T) + D * (ε / T) ^ 2 * (β * (ε / T) - α), ?_, ?_⟩⟩
  · have v := (pure_chain_virial hr hk.ge h00 hT).add (dipole_virial hr hk' hT fun _ => 1)
    rw [hphi T hT] at v
    exact ⟨_, residual_dipole laX _ _ _ ((buildContributions_fin (xParameters_rel' hr hk') o).trans (by rw [hc]; rfl)), v⟩
  · have hx : X < ε / T := by
      rw [lt_div_iff₀ (by positivity)] at hTX
      rw [lt_div_iff₀ hT]
      linarith
    set x := ε / T with hxdef
    have hx0 : 0 < x := by linarith
    have hb : -(c1 * x) - c2 * x ^ 2 ≤ boyleForm m x := by
      have t0 : Real.exp (-3 * x) ≤ 1 := Real.exp_le_one_iff.2 (by linarith)
      have t1 : 0 ≤ 1 - 0.12 * Real.exp (-3 * x) := by linarith
      have t2 : 0 ≤ (3 * m + 5) / 12 * (1 - 0.12 * Real.exp (-3 * x)) ^ 3 := by positivity
      unfold boyleForm
      linarith
    have hb' := mul_le_mul_of_nonneg_left hb hA0.le
    have h1 : D * β * X = D * β + (|A * c2 + D * α| + |A * c1|) := by
      rw [hX]
      field_simp
    have h2 : D * β * X < D * β * x := mul_lt_mul_of_pos_left hx (by positivity)
    have h3 : |A * c2 + D * α| + |A * c1| < D * β * x := by
      have : 0 < D * β := by positivity
      linarith
    have h4 := le_abs_self (A * c2 + D * α)
    have h5 := le_abs_self (A * c1)
    have h6 : (A * c2 + D * α) * x + A * c1 < D * β * x ^ 2 := by
      have g1 : (A * c2 + D * α) * x ≤ |A * c2 + D * α| * x := mul_le_mul_of_nonneg_right h4 hx0.le
      have g2 : |A * c1| ≤ |A * c1| * x := le_mul_of_one_le_right (abs_nonneg _) (by linarith)
      have g3 := mul_lt_mul_of_pos_right h3 hx0
      nlinarith
    have h7 := mul_lt_mul_of_pos_right h6 hx0
    have e1 : A * (-(c1 * x) - c2 * x ^ 2) + D * x ^ 2 * (β * x - α)
        = D * β * x ^ 2 * x - ((A * c2 + D * α) * x + A * c1) * x := by ring
    linarith

/-! ## Cases that meet the hypotheses -/

/-- ethanol from gross2002.json, an associating substance -/
noncomputable def ethanol : Fin 1 → PureRecord ℝ := fun _ => (Shipped.gross2002[1]'(by decide)).map (Rat.cast : ℚ → ℝ)

/-- acetone from gross2006.json, a dipolar substance -/
noncomputable def acetone : Fin 1 → PureRecord ℝ := fun _ => (Shipped.gross2006[0]'(by decide)).map (Rat.cast : ℚ → ℝ)

theorem ethanol_mixture : MixtureOf Shipped.substances ethanol := fun _ => ⟨Shipped.gross2002[1]'(by decide), by
  have := List.getElem_mem (l := Shipped.gross2002) (n := 1) (by decide)
  simp only [Shipped.substances, List.mem_append]
  tauto, rfl⟩

theorem acetone_mixture : MixtureOf Shipped.substances acetone := fun _ => ⟨Shipped.gross2006[0]'(by decide), by
  have := List.getElem_mem (l := Shipped.gross2006) (n := 0) (by decide)
  simp only [Shipped.substances, List.mem_append]
  tauto, rfl⟩

example (laX : LinAlg XReal XDual2) (laD : LinAlg ℝ (Dual ℝ)) :=
  C98_shipped_partial ethanol_mixture (by change Option.getD none (0.0 : ℝ) = 0; norm_num)
    (by change Option.getD none (0.0 : ℝ) = 0; norm_num) PcSaftOptions.default laX laD

example (laX : LinAlg XReal XDual2) :=
  have hp := mixture_pos (fun _ _ => 0) acetone_mixture
  have hr : PositiveRecords acetone := ⟨fun i => by
    have : 4 / 5 ≤ (acetone i).model_record.m := (hp i).1
    linarith, fun i => (hp i).2.1, fun i => (hp i).2.2⟩
  C98_cold_dipoles_counterexample (k := fun _ _ => 0) hr
    (by
      change (11 / 10 : ℝ) ≤ ((_ : ℚ) : ℝ)
      have h : ((11 / 10 : ℚ) : ℝ) ≤ (((Shipped.gross2006[0]'(by decide)).model_record.m : ℚ) : ℝ) :=
        Rat.cast_le.2 (by decide +kernel)
      norm_num at h ⊢
      exact h)
    (by change Option.getD none (0.0 : ℝ) = 0; norm_num)
    (by
      change (((Shipped.gross2006[0]'(by decide)).model_record.mu.map (Rat.cast : ℚ → ℝ)).getD 0.0) ≠ 0
      norm_num [Shipped.gross2006, Shipped.substance, Shipped.record])
    (by change Option.getD none (0.0 : ℝ) = 0; norm_num) rfl PcSaftOptions.default laX

end Props
end PcSaft
