import Verif.Lemmas.BoylePolar
import Verif.Props.Boyle

/-!
# Property C98 for polar substances

The second virial coefficient of polar substances grows with temperature from `1.1 ε` on, and there is exactly one Boyle
temperature above `1.1 ε`.  At lower temperature the polar pair integrals change their sign, see
`C98_cold_dipoles_counterexample` and `C98_cold_quadrupoles_counterexample`.
-/

namespace PcSaft
namespace Props
open PcSaft Spec Dual2

/-- the sum over the contributions, each with its own coefficient -/
theorem virial_of_contributions {n : ℕ} {pr : Fin n → PureRecord ℝ} {k : Fin n → Fin n → ℝ} {T : ℝ} {x : Fin n → ℝ}
    (hr : PositiveRecords pr) (hk : ∀ i, 0 ≤ (fromRecords pr k).kappa_ab i) (o : PcSaftOptions ℝ)
    (laX : LinAlg XReal XDual2) (w : Contribution ℝ → ℝ)
    (h : ∀ ct ∈ buildContributions (fromRecords pr k) o, ∃ d,
      (ct.map XReal.fin).helmholtzEnergy laX (xParameters pr k) (virialStateX T x) = .ok d ∧ VirialCoefficient (w ct) d) :
    IsSecondVirial pr k o laX T x (((buildContributions (fromRecords pr k) o).map w).foldl (· + ·) 0) := by
  have fold : ∀ (cts : List (Contribution ℝ)) (b0 : ℝ) (d0 : XDual2), (∀ ct ∈ cts, ∃ d,
      (ct.map XReal.fin).helmholtzEnergy laX (xParameters pr k) (virialStateX T x) = .ok d ∧ VirialCoefficient (w ct) d) →
      VirialCoefficient b0 d0 → ∃ d, (cts.map (Contribution.map XReal.fin)).foldlM (fun acc ct =>
        match ct.helmholtzEnergy laX (xParameters pr k) (virialStateX T x) with
        | .error err => .error err
        | .ok a => .ok (acc + a)) d0 = (.ok d : Except Panic XDual2)
        ∧ VirialCoefficient ((cts.map w).foldl (· + ·) b0) d := by
    intro cts
    induction cts with
    | nil => exact fun b0 d0 _ h => ⟨d0, rfl, h⟩
    | cons ct cts ih =>
      intro b0 d0 h hd0
      obtain ⟨d', g1, g2⟩ := h ct (by simp)
      obtain ⟨d, i1, i2⟩ := ih (b0 + w ct) (d0 + d') (fun ct' h' => h ct' (by simp [h'])) (hd0.add g2)
      refine ⟨d, ?_, i2⟩
      rw [List.map_cons, List.foldlM_cons, g1]
      exact i1
  obtain ⟨d, h1, h2⟩ := fold _ 0 _ h virial_zero
  refine ⟨d, ?_, h2⟩
  rw [← buildContributions_fin (xParameters_rel' hr hk) o] at h1
  rw [← h1]
  exact congrArg (fun f => List.foldlM f _ _) (by
    funext acc ct
    simp only [Eos.withOptions]
    cases ct.helmholtzEnergy laX (xParameters pr k) (virialStateX T x) <;> rfl)

variable {pr : Fin 1 → PureRecord ℝ} {k : Fin 1 → Fin 1 → ℝ} {T : ℝ}

/-- constant part of a pair integral at zero density -/
noncomputable def pairZero {q : ℕ} (a : Fin (q + 1) → Fin 3 → ℝ) (m : ℝ) : ℝ := Fluid.coeff (a 0 0) (a 0 1) (a 0 2) (min m 2)

theorem pure_j2 (hr : PositiveRecords pr) {q : ℕ} (a b : Fin (q + 1) → Fin 3 → ℝ) :
    (fluidOf pr k).j2 T a b 0 0 0 = pairZero a (pr 0).model_record.m
      + pairZero b (pr 0).model_record.m * ((pr 0).model_record.epsilon_k / T) := by
  have hm := hr.m 0
  have hM0 : 0 < min (pr 0).model_record.m 2 := by positivity
  have hmp : (fluidOf pr k).mPair 0 0 = min (pr 0).model_record.m 2 := Real.sqrt_mul_self hM0.le
  have ee : (fluidOf pr k).energyIJ 0 0 = (pr 0).model_record.epsilon_k := Real.sqrt_mul_self (hr.epsilon 0).le
  rw [Spec.Fluid.j2, hmp, ee, Fin.sum_univ_succ]
  simp [pairZero]

/-- strengths of the three polar pair terms, per `(ε / T)²` -/
noncomputable def dipPairStrength (pr : Fin 1 → PureRecord ℝ) (k : Fin 1 → Fin 1 → ℝ) : ℝ :=
  Real.pi * (fluidOf pr k).dipoleStrength 1 0 ^ 2 / ((pr 0).model_record.epsilon_k ^ 2 * (pr 0).model_record.sigma ^ 3)

noncomputable def quadPairStrength (pr : Fin 1 → PureRecord ℝ) (k : Fin 1 → Fin 1 → ℝ) : ℝ :=
  9 / 16 * Real.pi * (fluidOf pr k).quadrupoleStrength 1 0 ^ 2
    / ((pr 0).model_record.epsilon_k ^ 2 * (pr 0).model_record.sigma ^ 7)

noncomputable def mixedPairStrength (pr : Fin 1 → PureRecord ℝ) (k : Fin 1 → Fin 1 → ℝ) : ℝ :=
  9 / 4 * Real.pi * ((fluidOf pr k).dipoleStrength 1 0 * (fluidOf pr k).quadrupoleStrength 1 0)
    / ((pr 0).model_record.epsilon_k ^ 2 * (pr 0).model_record.sigma ^ 5)

theorem dipoleStrength_at (T : ℝ) : (fluidOf pr k).dipoleStrength T 0 = (fluidOf pr k).dipoleStrength 1 0 / T := by
  unfold Spec.Fluid.dipoleStrength
  rw [mul_one, div_div]

theorem quadrupoleStrength_at (T : ℝ) :
    (fluidOf pr k).quadrupoleStrength T 0 = (fluidOf pr k).quadrupoleStrength 1 0 / T := by
  unfold Spec.Fluid.quadrupoleStrength
  rw [mul_one, div_div]

theorem sigmaIJ_pure : (fluidOf pr k).sigmaIJ 0 0 = (pr 0).model_record.sigma := by
  change ((pr 0).model_record.sigma + (pr 0).model_record.sigma) / 2 = _
  ring

/-- value of a polar pair term -/
noncomputable def polarVirial (pr : Fin 1 → PureRecord ℝ) (k : Fin 1 → Fin 1 → ℝ) (T : ℝ) : Contribution ℝ → ℝ
  | .dipole => dipPairStrength pr k * (((pr 0).model_record.epsilon_k / T) ^ 2 * (pairZero AD (pr 0).model_record.m
      + pairZero BD (pr 0).model_record.m * ((pr 0).model_record.epsilon_k / T)))
  | .quadrupole => quadPairStrength pr k * (((pr 0).model_record.epsilon_k / T) ^ 2 * (pairZero AQ (pr 0).model_record.m
      + pairZero BQ (pr 0).model_record.m * ((pr 0).model_record.epsilon_k / T)))
  | .dipoleQuadrupole _ => mixedPairStrength pr k * (((pr 0).model_record.epsilon_k / T) ^ 2 * (pairZero ADQ (pr 0).model_record.m
      + pairZero BDQ (pr 0).model_record.m * ((pr 0).model_record.epsilon_k / T)))
  | _ => 0

section
variable (hr : PositiveRecords pr) (hT : 0 < T)
include hr hT

theorem dipole_pure (N : ℝ) :
    dipolePhi2 (fromRecords pr k) T (fun _ => N) 0 * c F64.pi = -(N ^ 2 * polarVirial pr k T .dipole) := by
  have hok := polarOk_fromRecords pr k fun i => (hr.m i).le
  have hs := (hr.sigma 0).ne'
  have he := (hr.epsilon 0).ne'
  rw [dipolePhi2_real hok]
  simp only [Finset.univ_unique, Fin.default_eq_zero, Finset.sum_singleton, dipK2,
    dipoleTerm_theory pr k T 0 (hr.m 0).ne' hs he hT.ne', pairI_theory, sigmaIJ_theory,
    pure_j2 hr, sigmaIJ_pure, c, ofF_real, polarVirial, dipPairStrength]
  rw [dipoleStrength_at T]
  change -(_) * Real.pi = _
  field_simp

theorem quadrupole_pure (N : ℝ) : quadrupolePhi2 (fromRecords pr k) T (fun _ => N) 0 * c (F64.pi * 0.5625)
    = -(N ^ 2 * polarVirial pr k T .quadrupole) := by
  have hok := polarOk_fromRecords pr k fun i => (hr.m i).le
  have hs := (hr.sigma 0).ne'
  have he := (hr.epsilon 0).ne'
  have h56 : (0.5625 : ℝ) = 9 / 16 := by norm_num
  rw [quadrupolePhi2_real hok]
  have es : (fromRecords pr k).sigma (min 0 0) = (pr 0).model_record.sigma := rfl
  simp only [Finset.univ_unique, Fin.default_eq_zero, Finset.sum_singleton, quadK2, es,
    quadrupoleTerm_theory pr k T 0 (hr.m 0).ne' hs he hT.ne', pairI_theory,
    pure_j2 hr, c, ofF_real, polarVirial, quadPairStrength, h56]
  rw [quadrupoleStrength_at T]
  change -(_) * (Real.pi * (9 / 16)) = _
  field_simp

theorem dipoleQuadrupole_pure (v : DQVariants) (N : ℝ) :
    dipoleQuadrupolePhi2 v (fromRecords pr k) T (fun _ => N) 0 * c (F64.pi * 2.25)
      = -(N ^ 2 * polarVirial pr k T (.dipoleQuadrupole v)) := by
  have hok := polarOk_fromRecords pr k fun i => (hr.m i).le
  have hs := (hr.sigma 0).ne'
  have he := (hr.epsilon 0).ne'
  have h225 : (2.25 : ℝ) = 9 / 4 := by norm_num
  have e1 : muQTerm v (fromRecords pr k) T⁻¹ 0 0
      = (fluidOf pr k).dipoleStrength T 0 * (fluidOf pr k).quadrupoleStrength T 0 := by
    have hσ : (fluidOf pr k).sigma 0 ≠ 0 := hs
    cases v
    · simp only [muQTerm, muTerm_theory pr k T 0 (hr.m 0).ne' hs he hT.ne', qTerm_theory pr k T 0 (hr.m 0).ne' hs he hT.ne',
        c, ofF_real]
      change _ * (fluidOf pr k).sigma 0 / (fluidOf pr k).sigma 0 * (_ / (fluidOf pr k).sigma 0) * (fluidOf pr k).sigma 0 = _
      field_simp
    · simp only [muQTerm, muTerm_theory pr k T 0 (hr.m 0).ne' hs he hT.ne', qTerm_theory pr k T 0 (hr.m 0).ne' hs he hT.ne']
      field_simp
  rw [dipoleQuadrupolePhi2_real hok]
  simp only [Finset.univ_unique, Fin.default_eq_zero, Finset.sum_singleton, dqK2, e1, sigmaIJ_theory, pairI_theory,
    pure_j2 hr, sigmaIJ_pure, c, ofF_real, polarVirial, mixedPairStrength, h225]
  rw [dipoleStrength_at T, quadrupoleStrength_at T]
  change -(_) * (Real.pi * (9 / 4)) = _
  field_simp

end

theorem dipPairStrength_nonneg (hr : PositiveRecords pr) : 0 ≤ dipPairStrength pr k := by
  have := hr.sigma 0
  have := hr.epsilon 0
  unfold dipPairStrength
  positivity

theorem quadPairStrength_nonneg (hr : PositiveRecords pr) : 0 ≤ quadPairStrength pr k := by
  have := hr.sigma 0
  have := hr.epsilon 0
  unfold quadPairStrength
  positivity

theorem mixedPairStrength_nonneg (hr : PositiveRecords pr) : 0 ≤ mixedPairStrength pr k := by
  have := hr.sigma 0
  have := hr.epsilon 0
  have : 0 < (fluidOf pr k).m 0 := hr.m 0
  unfold mixedPairStrength Spec.Fluid.dipoleStrength Spec.Fluid.quadrupoleStrength Spec.Fluid.debyeSq Spec.Fluid.kB
  positivity

theorem moment_mu : (fluidOf pr k).mu 0 = (fromRecords pr k).mu 0 := by
  have e0 : (0.0 : ℝ) = 0 := by norm_num
  change (pr 0).model_record.mu.getD 0 = (pr 0).model_record.mu.getD 0.0
  rw [e0]

theorem moment_q : (fluidOf pr k).q 0 = (fromRecords pr k).q 0 := by
  have e0 : (0.0 : ℝ) = 0 := by norm_num
  change (pr 0).model_record.q.getD 0 = (pr 0).model_record.q.getD 0.0
  rw [e0]

theorem dipoleStrength_zero (h : (fromRecords pr k).mu 0 = 0) : (fluidOf pr k).dipoleStrength 1 0 = 0 := by
  simp [Fluid.dipoleStrength, moment_mu, h]

theorem quadrupoleStrength_zero (h : (fromRecords pr k).q 0 = 0) : (fluidOf pr k).quadrupoleStrength 1 0 = 0 := by
  simp [Fluid.quadrupoleStrength, moment_q, h]

theorem dipoleStrength_pos (hr : PositiveRecords pr) (h : (fromRecords pr k).mu 0 ≠ 0) :
    0 < (fluidOf pr k).dipoleStrength 1 0 := by
  have hmu' : (fluidOf pr k).mu 0 ≠ 0 := by rwa [moment_mu]
  have h1 : 0 < (fluidOf pr k).mu 0 ^ 2 := by positivity
  have h2 : 0 < (fluidOf pr k).m 0 := hr.m 0
  unfold Spec.Fluid.dipoleStrength Spec.Fluid.debyeSq Spec.Fluid.kB
  positivity

theorem quadrupoleStrength_pos (hr : PositiveRecords pr) (h : (fromRecords pr k).q 0 ≠ 0) :
    0 < (fluidOf pr k).quadrupoleStrength 1 0 := by
  have hq' : (fluidOf pr k).q 0 ≠ 0 := by rwa [moment_q]
  have h1 : 0 < (fluidOf pr k).q 0 ^ 2 := by positivity
  have h2 : 0 < (fluidOf pr k).m 0 := hr.m 0
  unfold Spec.Fluid.quadrupoleStrength Spec.Fluid.debyeSq Spec.Fluid.kB
  positivity

/-- the polar contributions of a pure substance are those of its moments -/
theorem pure_lists (hr : PositiveRecords pr) : (0 < (fromRecords pr k).ndipole ↔ (fromRecords pr k).mu 0 ≠ 0)
    ∧ (0 < (fromRecords pr k).nquadpole ↔ (fromRecords pr k).q 0 ≠ 0)
    ∧ ((fromRecords pr k).nassoc = 0 ∧ (fromRecords pr k).kappa_ab 0 = 0
      ∨ (fromRecords pr k).nassoc = 1 ∧ (fromRecords pr k).assoc_comp = [0] ∧ (fromRecords pr k).kappa_ab 0 ≠ 0) := by
  have hn : NonzeroRecords pr := ⟨fun i => (hr.m i).ne', fun i => (hr.sigma i).ne', fun i => (hr.epsilon i).ne'⟩
  refine ⟨?_, ?_, ?_⟩
  · rw [ndipole_pos pr k hn]
    exact ⟨fun ⟨i, hi⟩ => Subsingleton.elim i 0 ▸ hi, fun h => ⟨0, h⟩⟩
  · rw [nquadpole_pos pr k hn]
    exact ⟨fun ⟨i, hi⟩ => Subsingleton.elim i 0 ▸ hi, fun h => ⟨0, h⟩⟩
  · by_cases hkz : (fromRecords pr k).kappa_ab 0 = 0
    · exact .inl ⟨(nassoc_zero pr k).2 fun i => by rw [Subsingleton.elim i 0, hkz], hkz⟩
    · have hl : (fromRecords pr k).assoc_comp = [0] := by
        have hmem := (mem_assoc_comp pr k 0).2 hkz
        have hlen := (assoc_nodup pr k).length_le_card
        match hll : (fromRecords pr k).assoc_comp with
        | [] => rw [hll] at hmem; exact absurd hmem List.not_mem_nil
        | [a] => rw [Subsingleton.elim a 0]
        | a :: b :: l => rw [hll] at hlen; simp at hlen
      exact .inr ⟨by simp [PcSaftParameters.nassoc, hl], hl, hkz⟩

theorem pure_mem (hr : PositiveRecords pr) {o : PcSaftOptions ℝ} {ct : Contribution ℝ}
    (hct : ct ∈ buildContributions (fromRecords pr k) o) :
    ct = .hardSphere ∨ ct = .hardChain ∨ ct = .dispersion ∨ (ct = .dipole ∧ (fromRecords pr k).mu 0 ≠ 0)
      ∨ (ct = .quadrupole ∧ (fromRecords pr k).q 0 ≠ 0)
      ∨ (ct = .dipoleQuadrupole o.dq_variant ∧ (fromRecords pr k).mu 0 ≠ 0 ∧ (fromRecords pr k).q 0 ≠ 0)
      ∨ (ct = .association ∧ (fromRecords pr k).kappa_ab 0 ≠ 0 ∧ (fromRecords pr k).assoc_comp = [0]) := by
  obtain ⟨l1, l2, l3⟩ := pure_lists (k := k) hr
  by_cases hmu : (fromRecords pr k).mu 0 = 0 <;> by_cases hq : (fromRecords pr k).q 0 = 0 <;>
    rcases l3 with ⟨hn, hkz⟩ | ⟨hn, hl, hkz⟩ <;> simp [buildContributions, *] at hct <;> simp [*]

/-- the second virial coefficient of a pure substance -/
noncomputable def pureVirial (pr : Fin 1 → PureRecord ℝ) (k : Fin 1 → Fin 1 → ℝ) (T : ℝ) : ℝ :=
  Real.pi * (pr 0).model_record.m * (pr 0).model_record.sigma ^ 3
      * boyleForm (pr 0).model_record.m ((pr 0).model_record.epsilon_k / T)
    - bondVirial (fromRecords pr k) T
    - (polarVirial pr k T .dipole + polarVirial pr k T .quadrupole + polarVirial pr k T (.dipoleQuadrupole .DQ35))

theorem pure_virial_polar (hr : PositiveRecords pr) (hk : 0 ≤ (fromRecords pr k).kappa_ab 0)
    (hs : (fromRecords pr k).kappa_ab 0 ≠ 0 → 0 ≤ (fromRecords pr k).epsilon_k_ab 0 ∧ 0 < (fromRecords pr k).na 0
      ∧ 0 < (fromRecords pr k).nb 0)
    (h00 : k 0 0 = 0) (hT : 0 < T) (o : PcSaftOptions ℝ) (laX : LinAlg XReal XDual2) :
    IsSecondVirial pr k o laX T (fun _ => 1) (pureVirial pr k T) := by
  have hk' : ∀ i, 0 ≤ (fromRecords pr k).kappa_ab i := fun i => by
    rw [Subsingleton.elim i 0]
    exact hk
  have hd0 : 0 < (fluidOf pr k).d T 0 := by
    have := virial_diameter_pos (k := k) hr hT 0
    rwa [hsDiameter_eq_spec] at this
  obtain ⟨b1, v1⟩ : ∃ b, VirialCoefficient b (hardSphere (xParameters pr k) (virialStateX T fun _ => 1)) :=
    ⟨_, C63_hard_sphere_finite (k := k) hr hT (fun _ => 1) hk' (by
      simp only [Finset.univ_unique, Fin.default_eq_zero, Finset.sum_singleton, one_mul]
      exact (mul_pos (hr.m 0) (pow_pos hd0 3)).ne')⟩
  obtain ⟨b2, v2⟩ : ∃ b, VirialCoefficient b (hardChain (xParameters pr k) (virialStateX T fun _ => 1)) :=
    ⟨_, C63_hard_chain_finite (k := k) hr hT (fun _ => 1) hk'⟩
  obtain ⟨b3, v3⟩ : ∃ b, VirialCoefficient b (dispersion (xParameters pr k) (virialStateX T fun _ => 1)) :=
    ⟨_, C63_dispersion_finite (k := k) hr hT (fun _ => 1) hk' (by
      simp only [Finset.univ_unique, Fin.default_eq_zero, Finset.sum_singleton, one_mul]
      exact (hr.m 0).ne')⟩
  have ev := (((virial_zero.add v1).add v2).add v3).unique (pure_chain_virial hr hk h00 hT)
  obtain ⟨l1, l2, l3⟩ := pure_lists (k := k) hr
  let w : Contribution ℝ → ℝ := fun ct => match ct with
    | .hardSphere => b1
    | .hardChain => b2
    | .dispersion => b3
    | .dipole => -polarVirial pr k T .dipole
    | .quadrupole => -polarVirial pr k T .quadrupole
    | .dipoleQuadrupole _ => -polarVirial pr k T (.dipoleQuadrupole .DQ35)
    | _ => -bondVirial (fromRecords pr k) T
  have z1 : (fromRecords pr k).mu 0 = 0 → polarVirial pr k T .dipole = 0
      ∧ polarVirial pr k T (.dipoleQuadrupole .DQ35) = 0 := fun h => by
    simp [polarVirial, dipPairStrength, mixedPairStrength, dipoleStrength_zero h]
  have z2 : (fromRecords pr k).q 0 = 0 → polarVirial pr k T .quadrupole = 0
      ∧ polarVirial pr k T (.dipoleQuadrupole .DQ35) = 0 := fun h => by
    simp [polarVirial, quadPairStrength, mixedPairStrength, quadrupoleStrength_zero h]
  have z3 : (fromRecords pr k).kappa_ab 0 = 0 → bondVirial (fromRecords pr k) T = 0 := fun h => by
    rw [bondVirial, if_pos h]
  have sum : ((buildContributions (fromRecords pr k) o).map w).foldl (· + ·) 0 = pureVirial pr k T := by
    unfold pureVirial
    rw [← ev]
    by_cases hmu : (fromRecords pr k).mu 0 = 0 <;> by_cases hq : (fromRecords pr k).q 0 = 0 <;>
      rcases l3 with ⟨hn, hkz⟩ | ⟨hn, -, -⟩ <;>
      simp [buildContributions, w, *] <;> ring
  rw [← sum]
  refine virial_of_contributions hr hk' o laX w fun ct hct => ?_
  have assoc : (fromRecords pr k).kappa_ab 0 ≠ 0 → (fromRecords pr k).assoc_comp = [0] → ∃ d,
      ((Contribution.association : Contribution ℝ).map XReal.fin).helmholtzEnergy laX (xParameters pr k)
        (virialStateX T fun _ => 1) = .ok d ∧ VirialCoefficient (-bondVirial (fromRecords pr k) T) d := by
    intro hkz hl
    obtain ⟨s1, s2, s3⟩ := hs hkz
    let la : LinAlg ℝ ℝ := ⟨fun _ _ _ => none, fun _ _ _ => none, 0⟩
    obtain ⟨⟨d4, w1, w2⟩, -⟩ := virialTerm_association (x := fun _ => 1) hr hk' hT (by simp) la laX hl s2 s3
    obtain ⟨-, -, c3, c4, -⟩ := C02_association_combining_rules pr k hr.sigma hk' 0 0
    refine ⟨d4, w1, ?_⟩
    rw [bondVirial, if_neg hkz]
    convert w2 using 1
    rw [strengthZero, c3, c4 hkz]
    ring
  rcases pure_mem hr hct with rfl | rfl | rfl | ⟨rfl, -⟩ | ⟨rfl, -⟩ | ⟨rfl, -⟩ | ⟨rfl, hkz, hl⟩
  · exact ⟨_, rfl, v1⟩
  · exact ⟨_, rfl, v2⟩
  · exact ⟨_, rfl, v3⟩
  · have := dipole_virial hr hk' hT fun _ => 1
    rw [dipole_pure hr hT, one_pow, one_mul] at this
    exact ⟨_, rfl, this⟩
  · have := quadrupole_virial hr hk' hT fun _ => 1
    rw [quadrupole_pure hr hT, one_pow, one_mul] at this
    exact ⟨_, rfl, this⟩
  · have := dipoleQuadrupole_virial o.dq_variant hr hk' hT fun _ => 1
    rw [dipoleQuadrupole_pure hr hT, one_pow, one_mul] at this
    exact ⟨_, rfl, this⟩
  · exact assoc hkz hl

/-! ## The pair integrals at zero density -/

theorem pairZero_eq {q : ℕ} (a : Fin (q + 1) → Fin 3 → ℝ) {m : ℝ} (hm : 0 < m) :
    pairZero a m = a 0 0 + (1 - (min m 2)⁻¹) * a 0 1 + (1 - (min m 2)⁻¹) * (1 - 2 * (min m 2)⁻¹) * a 0 2 := by
  have hM0 : 0 < min m 2 := by positivity
  have u : (min m 2 - 1) / min m 2 = 1 - (min m 2)⁻¹ := by field_simp
  have v : (min m 2 - 2) / min m 2 = 1 - 2 * (min m 2)⁻¹ := by field_simp
  rw [pairZero, Spec.Fluid.coeff, u, v]

section
variable {m : ℝ} (hm : 1 ≤ m)
include hm

theorem min_range : 1 / 2 ≤ (min m 2)⁻¹ ∧ (min m 2)⁻¹ ≤ 1 := by
  have h1 : 1 ≤ min m 2 := le_min hm (by norm_num)
  have h2 : min m 2 ≤ 2 := min_le_right _ _
  refine ⟨?_, inv_le_one_of_one_le₀ h1⟩
  rw [le_inv_comm₀ (by norm_num) (by linarith)]
  linarith

theorem dipole_range : 0 < pairZero AD m ∧ 0 ≤ 2 * pairZero AD m + 3 * pairZero BD m * (10 / 11) := by
  obtain ⟨h1, h2⟩ := min_range hm
  have hm0 : 0 < m := by linarith
  rw [pairZero_eq _ hm0, pairZero_eq _ hm0]
  generalize (min m 2)⁻¹ = y at h1 h2
  have e0 : (AD 0 0 : ℝ) = 0.30435038064 := rfl
  have e1 : (AD 0 1 : ℝ) = 0.95346405973 := rfl
  have e2 : (AD 0 2 : ℝ) = -1.16100802773 := rfl
  have f0 : (BD 0 0 : ℝ) = 0.21879385627 := rfl
  have f1 : (BD 0 1 : ℝ) = -0.58731641193 := rfl
  have f2 : (BD 0 2 : ℝ) = 3.48695755800 := rfl
  rw [e0, e1, e2, f0, f1, f2]
  have := mul_nonneg (sub_nonneg.2 h1) (sub_nonneg.2 h2)
  constructor <;> nlinarith [sq_nonneg (y - 3 / 4), sq_nonneg (y - 0.8), sq_nonneg (y - 0.7)]

theorem quadrupole_range : 0 < pairZero AQ m ∧ 0 ≤ 2 * pairZero AQ m + 3 * pairZero BQ m * (10 / 11) := by
  obtain ⟨h1, h2⟩ := min_range hm
  have hm0 : 0 < m := by linarith
  rw [pairZero_eq _ hm0, pairZero_eq _ hm0]
  generalize (min m 2)⁻¹ = y at h1 h2
  have e0 : (AQ 0 0 : ℝ) = 1.237830788 := rfl
  have e1 : (AQ 0 1 : ℝ) = 1.285410878 := rfl
  have e2 : (AQ 0 2 : ℝ) = 1.794295401 := rfl
  have f0 : (BQ 0 0 : ℝ) = 0.454271755 := rfl
  have f1 : (BQ 0 1 : ℝ) = -0.813734006 := rfl
  have f2 : (BQ 0 2 : ℝ) = 6.868267516 := rfl
  rw [e0, e1, e2, f0, f1, f2]
  have := mul_nonneg (sub_nonneg.2 h1) (sub_nonneg.2 h2)
  constructor <;> nlinarith [sq_nonneg (y - 3 / 4), sq_nonneg (y - 0.8), sq_nonneg (y - 0.7)]

theorem mixed_range : 0 < pairZero ADQ m ∧ 0 ≤ 2 * pairZero ADQ m + 3 * pairZero BDQ m * (10 / 11) := by
  obtain ⟨h1, h2⟩ := min_range hm
  have hm0 : 0 < m := by linarith
  rw [pairZero_eq _ hm0, pairZero_eq _ hm0]
  generalize (min m 2)⁻¹ = y at h1 h2
  have e0 : (ADQ 0 0 : ℝ) = 0.697094963 := rfl
  have e1 : (ADQ 0 1 : ℝ) = -0.673459279 := rfl
  have e2 : (ADQ 0 2 : ℝ) = 0.670340770 := rfl
  have f0 : (BDQ 0 0 : ℝ) = -0.484038322 := rfl
  have f1 : (BDQ 0 1 : ℝ) = 0.67651011 := rfl
  have f2 : (BDQ 0 2 : ℝ) = -1.167560146 := rfl
  rw [e0, e1, e2, f0, f1, f2]
  have := mul_nonneg (sub_nonneg.2 h1) (sub_nonneg.2 h2)
  constructor <;> nlinarith [sq_nonneg (y - 3 / 4), sq_nonneg (y - 0.8), sq_nonneg (y - 0.7)]

end

theorem polar_cases
    (hp : (fromRecords pr k).mu 0 ≠ 0 ∨ (fromRecords pr k).q 0 ≠ 0 → 1 ≤ (pr 0).model_record.m) :
    (0 < dipPairStrength pr k → 1 ≤ (pr 0).model_record.m) ∧ (0 < quadPairStrength pr k → 1 ≤ (pr 0).model_record.m)
      ∧ (0 < mixedPairStrength pr k → 1 ≤ (pr 0).model_record.m) := by
  refine ⟨fun h => hp (.inl fun h0 => ?_), fun h => hp (.inr fun h0 => ?_), fun h => hp (.inl fun h0 => ?_)⟩
  · simp [dipPairStrength, dipoleStrength_zero h0] at h
  · simp [quadPairStrength, quadrupoleStrength_zero h0] at h
  · simp [mixedPairStrength, dipoleStrength_zero h0] at h

/-- the coefficient as a function of temperature -/
theorem pure_virial_polar_boyle (hr : PositiveRecords pr) (hm : 4 / 5 ≤ (pr 0).model_record.m)
    (hp : (fromRecords pr k).mu 0 ≠ 0 ∨ (fromRecords pr k).q 0 ≠ 0 → 1 ≤ (pr 0).model_record.m)
    (hk : 0 ≤ (fromRecords pr k).kappa_ab 0)
    (hs : (fromRecords pr k).kappa_ab 0 ≠ 0 → 0 ≤ (fromRecords pr k).epsilon_k_ab 0 ∧ 0 < (fromRecords pr k).na 0
      ∧ 0 < (fromRecords pr k).nb 0) :
    StrictMonoOn (pureVirial pr k) (Set.Ici (1.1 * (pr 0).model_record.epsilon_k))
      ∧ ∃ TB, 1.1 * (pr 0).model_record.epsilon_k < TB ∧ pureVirial pr k TB = 0 := by
  have h1 := hr.m 0
  have h2 := hr.sigma 0
  have hA : 0 < Real.pi * (pr 0).model_record.m * (pr 0).model_record.sigma ^ 3 := by positivity
  obtain ⟨p1, p2, p3⟩ := polar_cases hp
  obtain ⟨C, e, hC, he, hb⟩ : ∃ C e, 0 ≤ C ∧ 0 ≤ e
      ∧ ∀ T, bondVirial (fromRecords pr k) T = C * (Real.exp (e / T) - 1) := by
    by_cases hkz : (fromRecords pr k).kappa_ab 0 = 0
    · exact ⟨0, 0, le_rfl, le_rfl, fun T => by rw [bondVirial, if_pos hkz, zero_mul]⟩
    · obtain ⟨s1, s2, s3⟩ := hs hkz
      have h3 : 0 < (fromRecords pr k).sigma 0 := h2
      exact ⟨(fromRecords pr k).na 0 * (fromRecords pr k).nb 0 * (fromRecords pr k).sigma 0 ^ 3
        * (fromRecords pr k).kappa_ab 0, (fromRecords pr k).epsilon_k_ab 0, by positivity, s1, fun T => by
          rw [bondVirial, if_neg hkz]⟩
  have := boyle_temperature_polar hm (hr.epsilon 0) hA hC he (dipPairStrength_nonneg (k := k) hr)
    (quadPairStrength_nonneg (k := k) hr) (mixedPairStrength_nonneg (k := k) hr) (fun h => dipole_range (p1 h))
    (fun h => quadrupole_range (p2 h)) (fun h => mixed_range (p3 h))
  simp only [← hb] at this
  exact this

/-! ## The property -/

section
variable (hr : PositiveRecords pr) (hm : 4 / 5 ≤ (pr 0).model_record.m)
  (hp : (fromRecords pr k).mu 0 ≠ 0 ∨ (fromRecords pr k).q 0 ≠ 0 → 1 ≤ (pr 0).model_record.m)
  (hk : 0 ≤ (fromRecords pr k).kappa_ab 0)
  (hs : (fromRecords pr k).kappa_ab 0 ≠ 0 → 0 ≤ (fromRecords pr k).epsilon_k_ab 0 ∧ 0 < (fromRecords pr k).na 0
    ∧ 0 < (fromRecords pr k).nb 0) (h00 : k 0 0 = 0)
include hr hm hp hk hs h00

/-- C98 with moments: above `1.1 ε` the second virial coefficient of a pure substance grows with temperature, whichever
moments and sites it has. -/
theorem C98_polar_increasing_partial (o : PcSaftOptions ℝ) (laX : LinAlg XReal XDual2) {T T' b b' : ℝ}
    (hT : 1.1 * (pr 0).model_record.epsilon_k ≤ T) (hTT : T < T') (h : IsSecondVirial pr k o laX T (fun _ => 1) b)
    (h' : IsSecondVirial pr k o laX T' (fun _ => 1) b') : b < b' := by
  have hT0 : 0 < T := lt_of_lt_of_le (mul_pos (by norm_num) (hr.epsilon 0)) hT
  rw [virial_unique h (pure_virial_polar hr hk hs h00 hT0 o laX),
    virial_unique h' (pure_virial_polar hr hk hs h00 (hT0.trans hTT) o laX)]
  exact (pure_virial_polar_boyle hr hm hp hk hs).1 (Set.mem_Ici.2 hT) (Set.mem_Ici.2 (hT.trans hTT.le)) hTT

/-- C98 with moments: there is exactly one Boyle temperature above `1.1 ε`.  The coefficient is negative between `1.1 ε`
and the Boyle temperature, zero at it and positive above. -/
theorem C98_polar_boyle_temperature_partial (o : PcSaftOptions ℝ) (laX : LinAlg XReal XDual2) :
    ∃ TB, 1.1 * (pr 0).model_record.epsilon_k < TB ∧ ∀ T, 1.1 * (pr 0).model_record.epsilon_k ≤ T →
      ∃ b, IsSecondVirial pr k o laX T (fun _ => 1) b ∧ (b < 0 ↔ T < TB) ∧ (b = 0 ↔ T = TB) ∧ (0 < b ↔ TB < T) := by
  obtain ⟨mono, TB, h0, hz⟩ := pure_virial_polar_boyle hr hm hp hk hs
  refine ⟨TB, h0, fun T hT => ?_⟩
  have hT0 : 0 < T := lt_of_lt_of_le (mul_pos (by norm_num) (hr.epsilon 0)) hT
  refine ⟨_, pure_virial_polar hr hk hs h00 hT0 o laX, ?_⟩
  have h1 := mono.lt_iff_lt (Set.mem_Ici.2 hT) (Set.mem_Ici.2 h0.le)
  have h2 := mono.lt_iff_lt (Set.mem_Ici.2 h0.le) (Set.mem_Ici.2 hT)
  have h3 := mono.injOn.eq_iff (Set.mem_Ici.2 hT) (Set.mem_Ici.2 h0.le)
  rw [hz] at h1 h2 h3
  exact ⟨h1, h3, h2⟩

/-- C98 with moments, the pressures: between `1.1 ε` and the Boyle temperature a dilute gas has less pressure than the
ideal gas, above the Boyle temperature it has more. -/
theorem C98_polar_pressure_partial (o : PcSaftOptions ℝ) (laD : LinAlg ℝ (Dual ℝ)) :
    ∃ TB, 1.1 * (pr 0).model_record.epsilon_k < TB ∧ ∀ T N, 1.1 * (pr 0).model_record.epsilon_k ≤ T → 0 < N →
    (T < TB → ∃ V₀, ∀ V, V₀ ≤ V → ∃ P, IsPressure (fromRecords pr k) o laD T V (fun _ => N) P ∧ P * V < N)
    ∧ (TB < T → ∃ V₀, ∀ V, V₀ ≤ V → ∃ P, IsPressure (fromRecords pr k) o laD T V (fun _ => N) P ∧ N < P * V) := by
  let laX : LinAlg XReal XDual2 := ⟨fun _ _ _ => none, fun _ _ _ => none, 0⟩
  obtain ⟨TB, h0, hB⟩ := C98_polar_boyle_temperature_partial hr hm hp hk hs h00 o laX
  refine ⟨TB, h0, fun T N hTε hN => ?_⟩
  have hε := hr.epsilon 0
  have hσ := hr.sigma 0
  have hT : 0 < T := lt_of_lt_of_le (mul_pos (by norm_num) hε) hTε
  have hk' : ∀ i, 0 ≤ (fromRecords pr k).kappa_ab i := fun i => by
    rw [Subsingleton.elim i 0]
    exact hk
  obtain ⟨b, hb, g1, -, g2⟩ := hB T hTε
  have hd0 := virial_diameter_pos (k := k) hr hT 0
  have hv : 0 < (fromRecords pr k).m 0 * hsDiameter (fromRecords pr k) T 0 ^ 3 * N :=
    mul_pos (mul_pos (hr.m 0) (pow_pos hd0 3)) hN
  have hA : Admissible (fromRecords pr k) T (Real.pi * ((fromRecords pr k).m 0 * hsDiameter (fromRecords pr k) T 0 ^ 3 * N))
      (fun _ => N) := by
    refine ⟨hT, by positivity, hr.m, hr.sigma, fun i => (hr.epsilon i).le, fun _ => hN.le, ⟨0, hN.ne'⟩, ?_⟩
    rw [hsDiameter_eq_spec] at hv ⊢
    simp only [Spec.packingFraction, Finset.univ_unique, Fin.default_eq_zero, Finset.sum_singleton]
    rw [div_lt_one (by positivity)]
    nlinarith [Real.pi_pos]
  have hx0 : 0 < (pr 0).model_record.epsilon_k / T := by positivity
  have hx1 : (pr 0).model_record.epsilon_k / T ≤ 10 / 11 := by
    rw [div_le_iff₀ hT]
    linarith
  have hN2 : 0 < N ^ 2 := by positivity
  have hd : ∀ ct ∈ buildContributions (fromRecords pr k) o, DiluteRegular (fromRecords pr k) T (fun _ => N) ct := by
    intro ct hct
    rcases pure_mem hr hct with rfl | rfl | rfl | ⟨rfl, h⟩ | ⟨rfl, h⟩ | ⟨rfl, h, h'⟩ | ⟨rfl, hkz, hl⟩
    · trivial
    · trivial
    · trivial
    · have e := dipole_pure (k := k) hr hT N
      have hS := dipoleStrength_pos (k := k) hr h
      obtain ⟨r1, r2⟩ := dipole_range (hp (.inl h))
      have := polarForm_pos r1 r2 hx0.le hx1
      have pos : 0 < N ^ 2 * polarVirial pr k T .dipole := by
        unfold polarVirial dipPairStrength
        positivity
      exact fun h0 => by
        rw [h0, zero_mul] at e
        linarith
    · have e := quadrupole_pure (k := k) hr hT N
      have hS := quadrupoleStrength_pos (k := k) hr h
      obtain ⟨r1, r2⟩ := quadrupole_range (hp (.inr h))
      have := polarForm_pos r1 r2 hx0.le hx1
      have pos : 0 < N ^ 2 * polarVirial pr k T .quadrupole := by
        unfold polarVirial quadPairStrength
        positivity
      exact fun h0 => by
        rw [h0, zero_mul] at e
        linarith
    · have e := dipoleQuadrupole_pure (k := k) hr hT o.dq_variant N
      have hS := dipoleStrength_pos (k := k) hr h
      have hS' := quadrupoleStrength_pos (k := k) hr h'
      obtain ⟨r1, r2⟩ := mixed_range (hp (.inl h))
      have := polarForm_pos r1 r2 hx0.le hx1
      have pos : 0 < N ^ 2 * polarVirial pr k T (.dipoleQuadrupole o.dq_variant) := by
        unfold polarVirial mixedPairStrength
        positivity
      exact fun h0 => by
        rw [h0, zero_mul] at e
        linarith
    · exact ⟨0, hl, (hs hkz).2.1⟩
  have hnb : ∀ a ∈ (fromRecords pr k).assoc_comp, 0 < (fromRecords pr k).nb a := fun a ha => by
    rw [mem_assoc_comp, Subsingleton.elim a 0] at ha
    rw [Subsingleton.elim a 0]
    exact (hs ha).2.2
  have hx : (fun i : Fin 1 => N / ∑ _j : Fin 1, N) = fun _ => 1 := by
    funext i
    simp [hN.ne']
  have hsum : ∑ _j : Fin 1, N = N := by simp
  obtain ⟨f1, f2⟩ := C97_sign hr hk' hA o hd hnb laX laD (b := b) (by rw [hx]; exact hb)
  obtain ⟨b', -, hP⟩ := C97_slope hr hk' hA o hd hnb laX laD
  obtain ⟨V₁, hV₁⟩ := hP 1 one_pos
  rw [hsum] at f1 f2
  refine ⟨fun h => ?_, fun h => ?_⟩
  · obtain ⟨V₀, hV₀⟩ := f1 (g1.2 h)
    refine ⟨max V₀ V₁, fun V hV => ?_⟩
    obtain ⟨P, h1, -⟩ := hV₁ V ((le_max_right _ _).trans hV)
    exact ⟨P, h1, hV₀ V ((le_max_left _ _).trans hV) P h1⟩
  · obtain ⟨V₀, hV₀⟩ := f2 (g2.2 h)
    refine ⟨max V₀ V₁, fun V hV => ?_⟩
    obtain ⟨P, h1, -⟩ := hV₁ V ((le_max_right _ _).trans hV)
    exact ⟨P, h1, hV₀ V ((le_max_left _ _).trans hV) P h1⟩

end

/-- C98 for the shipped files: every substance, whichever moments and sites it has, has exactly one Boyle temperature
above `1.1 ε`, and the pressures of its dilute gas are below those of the ideal gas at lower temperatures and above them
at higher temperatures. -/
theorem C98_all_shipped_partial {pr : Fin 1 → PureRecord ℝ} (hpr : MixtureOf Shipped.substances pr) (o : PcSaftOptions ℝ)
    (laX : LinAlg XReal XDual2) (laD : LinAlg ℝ (Dual ℝ)) :
    (∃ TB, 1.1 * (pr 0).model_record.epsilon_k < TB ∧ ∀ T, 1.1 * (pr 0).model_record.epsilon_k ≤ T →
      ∃ b, IsSecondVirial pr (fun _ _ => 0) o laX T (fun _ => 1) b
        ∧ (b < 0 ↔ T < TB) ∧ (b = 0 ↔ T = TB) ∧ (0 < b ↔ TB < T))
    ∧ ∃ TB, 1.1 * (pr 0).model_record.epsilon_k < TB ∧ ∀ T N, 1.1 * (pr 0).model_record.epsilon_k ≤ T → 0 < N →
      (T < TB → ∃ V₀, ∀ V, V₀ ≤ V → ∃ P, IsPressure (fromRecords pr fun _ _ => 0) o laD T V (fun _ => N) P ∧ P * V < N)
      ∧ (TB < T → ∃ V₀, ∀ V, V₀ ≤ V → ∃ P, IsPressure (fromRecords pr fun _ _ => 0) o laD T V (fun _ => N) P
        ∧ N < P * V) := by
  have hp := mixture_pos (fun _ _ => 0) hpr
  have hr : PositiveRecords pr := ⟨fun i => by
    have : 4 / 5 ≤ (pr i).model_record.m := (hp i).1
    linarith, fun i => (hp i).2.1, fun i => (hp i).2.2⟩
  have hk := mixture_kappa (fun _ _ => 0) hpr 0
  obtain ⟨r, hr', hm, -, -, -, hmu, hq, -, h2, h3, h4, -⟩ := mixture_entry hpr (fun _ _ => 0) 0
  obtain ⟨-, g1, g2, g3, -⟩ := shipped_sites r hr'
  have hs : 0 ≤ (fromRecords pr fun _ _ => 0).epsilon_k_ab 0 ∧ 0 < (fromRecords pr fun _ _ => 0).na 0
      ∧ 0 < (fromRecords pr fun _ _ => 0).nb 0 := by
    rw [h2, h3, h4]
    exact ⟨by exact_mod_cast g1, by exact_mod_cast g2, by exact_mod_cast g3⟩
  have hpol : (fromRecords pr fun _ _ => 0).mu 0 ≠ 0 ∨ (fromRecords pr fun _ _ => 0).q 0 ≠ 0 →
      1 ≤ (pr 0).model_record.m := by
    change _ → 1 ≤ (fromRecords pr fun _ _ => 0).m 0
    rw [hm, hmu, hq]
    rintro (h | h)
    · exact_mod_cast (shipped_dipoles r hr' (by exact_mod_cast h)).1
    · exact_mod_cast (shipped_quadrupoles r hr' (by exact_mod_cast h)).1
  exact ⟨C98_polar_boyle_temperature_partial hr (hp 0).1 hpol hk (fun _ => hs) rfl o laX,
    C98_polar_pressure_partial hr (hp 0).1 hpol hk (fun _ => hs) rfl o laD⟩

/-! ## Cold quadrupoles -/

/-- a cubic term in `x` wins over the other terms -/
theorem cold_positive {A D α β m : ℝ} (hm : 0 < m) (hA : 0 < A) (hD : 0 < D) (hβ : 0 < β) :
    ∃ X, 1 ≤ X ∧ ∀ x, X < x → 0 < A * boyleForm m x + D * x ^ 2 * (β * x - α) := by
  set c1 := 2 * (m * int1Zero m) with hc1
  set c2 := m ^ 2 * int2Zero m with hc2
  set X := 1 + (|A * c2 + D * α| + |A * c1|) / (D * β) with hX
  have hX1 : 1 ≤ X := le_add_of_nonneg_right (by positivity)
  refine ⟨X, hX1, fun x hx => ?_⟩
  have hx0 : 0 < x := by linarith
  have hb : -(c1 * x) - c2 * x ^ 2 ≤ boyleForm m x := by
    have t0 : Real.exp (-3 * x) ≤ 1 := Real.exp_le_one_iff.2 (by linarith)
    have t1 : 0 ≤ 1 - 0.12 * Real.exp (-3 * x) := by linarith
    have t2 : 0 ≤ (3 * m + 5) / 12 * (1 - 0.12 * Real.exp (-3 * x)) ^ 3 := by positivity
    unfold boyleForm
    linarith
  have hb' := mul_le_mul_of_nonneg_left hb hA.le
  have h1 : D * β * X = D * β + (|A * c2 + D * α| + |A * c1|) := by
    rw [hX]
    field_simp
  have h2 : D * β * X < D * β * x := mul_lt_mul_of_pos_left hx (by positivity)
  have h3 : |A * c2 + D * α| + |A * c1| < D * β * x := by
    have : 0 < D * β := by positivity
    linarith
  have h4 := le_abs_self (A * c2 + D * α)
  have h5 := le_abs_self (A * c1)
  have h6 : (A * c2 + D * α) * x + A * c1 < D * β * x ^ 2 := by
    have g1 : (A * c2 + D * α) * x ≤ |A * c2 + D * α| * x := mul_le_mul_of_nonneg_right h4 hx0.le
    have g2 : |A * c1| ≤ |A * c1| * x := le_mul_of_one_le_right (abs_nonneg _) (by linarith)
    have g3 := mul_lt_mul_of_pos_right h3 hx0
    nlinarith
  have h7 := mul_lt_mul_of_pos_right h6 hx0
  have e1 : A * (-(c1 * x) - c2 * x ^ 2) + D * x ^ 2 * (β * x - α)
      = D * β * x ^ 2 * x - ((A * c2 + D * α) * x + A * c1) * x := by ring
  linarith

/-- C98 fails with quadrupoles: the second virial coefficient of every pure substance with a quadrupole, between 1.1 and
1.9 segments, no dipole and no sites is positive at low temperature, where molecules should attract each other. -/
theorem C98_cold_quadrupoles_counterexample (hr : PositiveRecords pr) (hm : 11 / 10 ≤ (pr 0).model_record.m)
    (hm' : (pr 0).model_record.m ≤ 19 / 10) (hk : (fromRecords pr k).kappa_ab 0 = 0)
    (hmu : (fromRecords pr k).mu 0 = 0) (hq : (fromRecords pr k).q 0 ≠ 0)
    (h00 : k 0 0 = 0) (o : PcSaftOptions ℝ) (laX : LinAlg XReal XDual2) :
    ∃ T₀, 0 < T₀ ∧ ∀ T, 0 < T → T < T₀ → ∃ b, IsSecondVirial pr k o laX T (fun _ => 1) b ∧ 0 < b := by
  have hm0 := hr.m 0
  have hσ := hr.sigma 0
  have hε := hr.epsilon 0
  have hS := quadrupoleStrength_pos (k := k) hr hq
  have hA : 0 < Real.pi * (pr 0).model_record.m * (pr 0).model_record.sigma ^ 3 := by positivity
  have hQ : 0 < quadPairStrength pr k := by
    unfold quadPairStrength
    positivity
  have hβ : 0 < -pairZero BQ (pr 0).model_record.m := by
    rw [pairZero_eq _ hm0, min_eq_left (by linarith)]
    have h1 : ((pr 0).model_record.m)⁻¹ ≤ 10 / 11 := by
      rw [inv_le_comm₀ hm0 (by norm_num)]
      linarith
    have h2 : 10 / 19 ≤ ((pr 0).model_record.m)⁻¹ := by
      rw [le_inv_comm₀ (by norm_num) hm0]
      linarith
    generalize ((pr 0).model_record.m)⁻¹ = y at h1 h2
    have f0 : (BQ 0 0 : ℝ) = 0.454271755 := rfl
    have f1 : (BQ 0 1 : ℝ) = -0.813734006 := rfl
    have f2 : (BQ 0 2 : ℝ) = 6.868267516 := rfl
    rw [f0, f1, f2]
    nlinarith [mul_nonneg (sub_nonneg.2 h1) (sub_nonneg.2 h2)]
  obtain ⟨X, hX1, hX⟩ := cold_positive (α := pairZero AQ (pr 0).model_record.m) hm0 hA hQ hβ
  refine ⟨(pr 0).model_record.epsilon_k / X, by positivity, fun T hT hTX =>
    ⟨_, pure_virial_polar hr hk.ge (fun h => absurd hk h) h00 hT o laX, ?_⟩⟩
  have hx : X < (pr 0).model_record.epsilon_k / T := by
    rw [lt_div_iff₀ (by positivity)] at hTX
    rw [lt_div_iff₀ hT]
    linarith
  have := hX _ hx
  have z1 : polarVirial pr k T .dipole = 0 := by simp [polarVirial, dipPairStrength, dipoleStrength_zero hmu]
  have z2 : polarVirial pr k T (.dipoleQuadrupole .DQ35) = 0 := by
    simp [polarVirial, mixedPairStrength, dipoleStrength_zero hmu]
  have z3 : polarVirial pr k T .quadrupole = quadPairStrength pr k * (((pr 0).model_record.epsilon_k / T) ^ 2
    * (pairZero AQ (pr 0).model_record.m + pairZero BQ (pr 0).model_record.m * ((pr 0).model_record.epsilon_k / T))) := rfl
  rw [pureVirial, z1, z2, z3, bondVirial, if_pos hk]
  linarith

/-! ## Cases that meet the hypotheses -/

/-- carbon dioxide from gross2005_fit.json -/
noncomputable def carbonDioxide : Fin 1 → PureRecord ℝ :=
  fun _ => (Shipped.gross2005_fit[0]'(by decide)).map (Rat.cast : ℚ → ℝ)

theorem carbonDioxide_mixture : MixtureOf Shipped.substances carbonDioxide :=
  fun _ => ⟨Shipped.gross2005_fit[0]'(by decide), by
    have := List.getElem_mem (l := Shipped.gross2005_fit) (n := 0) (by decide)
    simp only [Shipped.substances, List.mem_append]
    tauto, rfl⟩

example (laX : LinAlg XReal XDual2) (laD : LinAlg ℝ (Dual ℝ)) :=
  C98_all_shipped_partial carbonDioxide_mixture PcSaftOptions.default laX laD

example (laX : LinAlg XReal XDual2) (laD : LinAlg ℝ (Dual ℝ)) :=
  C98_all_shipped_partial acetone_mixture PcSaftOptions.default laX laD

example (laX : LinAlg XReal XDual2) :=
  have hp := mixture_pos (fun _ _ => 0) carbonDioxide_mixture
  have hr : PositiveRecords carbonDioxide := ⟨fun i => by
    have : 4 / 5 ≤ (carbonDioxide i).model_record.m := (hp i).1
    linarith, fun i => (hp i).2.1, fun i => (hp i).2.2⟩
  have em : (carbonDioxide 0).model_record.m = 1.6298 := by
    change (((Shipped.gross2005_fit[0]'(by decide)).model_record.m : ℚ) : ℝ) = _
    norm_num [Shipped.gross2005_fit, Shipped.substance, Shipped.record]
  C98_cold_quadrupoles_counterexample (k := fun _ _ => 0) hr (by rw [em]; norm_num) (by rw [em]; norm_num)
    (by change Option.getD none (0.0 : ℝ) = 0; norm_num) (by change Option.getD none (0.0 : ℝ) = 0; norm_num)
    (by
      change (((Shipped.gross2005_fit[0]'(by decide)).model_record.q.map (Rat.cast : ℚ → ℝ)).getD 0.0) ≠ 0
      norm_num [Shipped.gross2005_fit, Shipped.substance, Shipped.record]) rfl PcSaftOptions.default laX

/-- a substance with a dipole, a quadrupole and sites -/
noncomputable def everyMoment : Fin 1 → PureRecord ℝ := fun _ =>
  { identifier := ⟨some "example", ""⟩
    molarweight := 50
    model_record :=
      { m := 3 / 2, sigma := 3, epsilon_k := 200, mu := some 2, q := some 3, kappa_ab := some 0.02,
        epsilon_k_ab := some 2000, na := some 1, nb := some 1, viscosity := none, diffusion := none,
        thermal_conductivity := none }
    ideal_gas_record := none }

theorem everyMoment_pos : PositiveRecords everyMoment :=
  ⟨fun _ => by norm_num [everyMoment], fun _ => by norm_num [everyMoment], fun _ => by norm_num [everyMoment]⟩

example (laX : LinAlg XReal XDual2) (laD : LinAlg ℝ (Dual ℝ)) :=
  have hm : (4 / 5 : ℝ) ≤ (everyMoment 0).model_record.m := by norm_num [everyMoment]
  have hp : (fromRecords everyMoment fun _ _ => 0).mu 0 ≠ 0 ∨ (fromRecords everyMoment fun _ _ => 0).q 0 ≠ 0 →
      1 ≤ (everyMoment 0).model_record.m := fun _ => by norm_num [everyMoment]
  have hk : 0 ≤ (fromRecords everyMoment fun _ _ => 0).kappa_ab 0 := by
    change (0 : ℝ) ≤ 0.02
    norm_num
  have hs : (fromRecords everyMoment fun _ _ => 0).kappa_ab 0 ≠ 0 →
      0 ≤ (fromRecords everyMoment fun _ _ => 0).epsilon_k_ab 0 ∧ 0 < (fromRecords everyMoment fun _ _ => 0).na 0
        ∧ 0 < (fromRecords everyMoment fun _ _ => 0).nb 0 := fun _ => by
    change (0 : ℝ) ≤ 2000 ∧ (0 : ℝ) < 1 ∧ (0 : ℝ) < 1
    norm_num
  And.intro
    (C98_polar_boyle_temperature_partial everyMoment_pos hm hp hk hs rfl ⟨0.5, 50, 1e-10, .DQ44⟩ laX)
    (C98_polar_pressure_partial everyMoment_pos hm hp hk hs rfl PcSaftOptions.default laD)

example (laX : LinAlg XReal XDual2) (b b' : ℝ) :=
  have hp := mixture_pos (fun _ _ => 0) carbonDioxide_mixture
  have em : (carbonDioxide 0).model_record.m = 1.6298 := by
    change (((Shipped.gross2005_fit[0]'(by decide)).model_record.m : ℚ) : ℝ) = _
    norm_num [Shipped.gross2005_fit, Shipped.substance, Shipped.record]
  have ee : (carbonDioxide 0).model_record.epsilon_k = 163.34 := by
    change (((Shipped.gross2005_fit[0]'(by decide)).model_record.epsilon_k : ℚ) : ℝ) = _
    norm_num [Shipped.gross2005_fit, Shipped.substance, Shipped.record]
  have hk : (fromRecords carbonDioxide fun _ _ => 0).kappa_ab 0 = 0 := by
    change Option.getD none (0.0 : ℝ) = 0
    norm_num
  C98_polar_increasing_partial (k := fun _ _ => 0) (pr := carbonDioxide) (T := 300) (T' := 400) (b := b) (b' := b')
    ⟨fun i => by
      have : 4 / 5 ≤ (carbonDioxide i).model_record.m := (hp i).1
      linarith, fun i => (hp i).2.1, fun i => (hp i).2.2⟩ (hp 0).1 (fun _ => by rw [em]; norm_num) hk.ge
    (fun h => absurd hk h) rfl PcSaftOptions.default laX (by rw [ee]; norm_num) (by norm_num)

end Props
end PcSaft
