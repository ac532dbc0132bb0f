import Verif.Lemmas.RoundingAssociation
import Verif.Props.RoundingBounds

/-!
# C116, C117: rounding errors of the association contribution

The law of mass action for a substance with `ν` sites of each kind, `X (1 + δ ν X) = 1` (`Spec.MassActionA`), is compared with
the number the code computes in `f64` arithmetic.
-/

namespace PcSaft.Props
open Spec
variable {n : ℕ}

/-! ### Parameters -/

section
variable {ar : Arithmetic} (h : Relative ar) (pr : Fin n → PureRecord ℝ) (kij : Fin n → Fin n → ℝ)

theorem rounded_one (h : Relative ar) (o : Option ℝ) :
    (o.map (handOver ar)).getD (1.0 : Rd ar) = handOver ar (o.getD (1.0 : ℝ)) := by
  rcases o with _ | x
  · have e : (1.0 : ℝ) = 1 := by norm_num
    simp only [Option.map_none, Option.getD_none, e]
    exact Rd.ext h.one
  · rfl

theorem rounded_zero (o : Option ℝ) :
    (o.map (handOver ar)).getD (0.0 : Rd ar) = handOver ar (o.getD (0.0 : ℝ)) := by
  rcases o with _ | x
  · have e : (0.0 : ℝ) = 0 := by norm_num
    simp only [Option.map_none, Option.getD_none, e]
    exact Rd.ext (ar.lit_zero _ _)
  · rfl

include h in
theorem rounded_kappa {j : Fin n} (hj : j ∈ (fromRecords pr kij).assoc_comp) (hs : 0 < (fromRecords pr kij).sigma j)
    (hk : 0 ≤ (fromRecords pr kij).kappa_ab j) :
    Agrees ar 19 ((fromRecords pr kij).kappa_aibj j j) ((roundedParameters ar pr kij).kappa_aibj j j) := by
  have hj' : j ∈ (roundedParameters ar pr kij).assoc_comp := by rwa [rounded_assoc_comp]
  have e : (fromRecords pr kij).kappa_aibj j j = F64.sqrt ((fromRecords pr kij).kappa_ab j * (fromRecords pr kij).kappa_ab j)
      * F64.powf (2.0 * F64.sqrt ((fromRecords pr kij).sigma j * (fromRecords pr kij).sigma j)
        / ((fromRecords pr kij).sigma j + (fromRecords pr kij).sigma j)) 3.0 := if_pos ⟨hj, hj⟩
  have e' : (roundedParameters ar pr kij).kappa_aibj j j
      = F64.sqrt ((roundedParameters ar pr kij).kappa_ab j * (roundedParameters ar pr kij).kappa_ab j)
      * F64.powf (2.0 * F64.sqrt ((roundedParameters ar pr kij).sigma j * (roundedParameters ar pr kij).sigma j)
        / ((roundedParameters ar pr kij).sigma j + (roundedParameters ar pr kij).sigma j)) 3.0 := if_pos ⟨hj', hj'⟩
  have k' : (roundedParameters ar pr kij).kappa_ab j = handOver ar ((fromRecords pr kij).kappa_ab j) :=
    rounded_zero (pr j).model_record.kappa_ab
  have s' : (roundedParameters ar pr kij).sigma j = handOver ar ((fromRecords pr kij).sigma j) := rfl
  rw [e, e', k', s']
  have ak := agrees_handOver (a := ar) hk
  have as := agrees_handOver (a := ar) hs.le
  have t := (((agrees_two h).mul h ((as.mul h as).sqrt h)).div h (as.add h as) (by linarith))
  have t3 := t.powE h 3
  have hpos : 0 < 2 * Real.sqrt ((fromRecords pr kij).sigma j * (fromRecords pr kij).sigma j)
      / ((fromRecords pr kij).sigma j + (fromRecords pr kij).sigma j) := by positivity
  have v := t.val_pos h hpos
  have c3 : (3.0 : Rd ar).val = 3 := by
    have := h.int 30 true 1 3 (by norm_num) (by norm_num)
    exact_mod_cast this
  have c3' : (3.0 : ℝ) = ((3 : ℕ) : ℝ) := by norm_num
  have c2 : (2.0 : ℝ) = 2 := by norm_num
  have t4 := t3.trans h (.round (r := ar.powf _ 3) h (by
    have := h.powf _ 3 v
    rw [show (3 : ℝ) = ((3 : ℕ) : ℝ) by norm_num, Real.rpow_natCast] at this
    exact this) (t3.val_nonneg h))
  have t5 := ((ak.mul h ak).sqrt h).mul h t4
  simp only [sqrt_real, powf_real, c3', Real.rpow_natCast, c2]
  refine (Eq.mp (congrArg₂ (Agrees ar _) rfl ?_) t5 : Agrees ar _ _ _).mono h (by omega)
  rw [← c3]
  rfl

include h in
theorem rounded_epsilon {j : Fin n} (hj : j ∈ (fromRecords pr kij).assoc_comp)
    (he : 0 ≤ (fromRecords pr kij).epsilon_k_ab j) :
    Agrees ar 3 ((fromRecords pr kij).epsilon_k_aibj j j) ((roundedParameters ar pr kij).epsilon_k_aibj j j) := by
  have hj' : j ∈ (roundedParameters ar pr kij).assoc_comp := by rwa [rounded_assoc_comp]
  have e : (fromRecords pr kij).epsilon_k_aibj j j
      = 0.5 * ((fromRecords pr kij).epsilon_k_ab j + (fromRecords pr kij).epsilon_k_ab j) := if_pos ⟨hj, hj⟩
  have e' : (roundedParameters ar pr kij).epsilon_k_aibj j j
      = 0.5 * ((roundedParameters ar pr kij).epsilon_k_ab j + (roundedParameters ar pr kij).epsilon_k_ab j) :=
    if_pos ⟨hj', hj'⟩
  have k' : (roundedParameters ar pr kij).epsilon_k_ab j = handOver ar ((fromRecords pr kij).epsilon_k_ab j) :=
    rounded_zero (pr j).model_record.epsilon_k_ab
  rw [e, e', k']
  have ak := agrees_handOver (a := ar) he
  exact (Agrees.lit h 5 true 1).mul h (ak.add h ak)

end

/-! ### C116 -/

/-- the effect of `k` operations in `f64` -/
theorem growth_f64 {k : ℕ} {e : ℝ} (he : 0 ≤ e) (hk : (k : ℝ) * (2 ^ 53)⁻¹ * (1 + e) ≤ e) :
    Growth Arithmetic.binary64 ^ k ≤ 1 + e := by
  have g := growth_le relative_binary64 k
  have hu : Arithmetic.binary64.u = (2 ^ 53)⁻¹ := rfl
  rw [hu] at g
  have h1 : (k : ℝ) * (2 ^ 53)⁻¹ < 1 := by
    by_contra hc
    push Not at hc
    nlinarith
  by_contra hc
  push Not at hc
  nlinarith

/-- C116: the fraction of free sites is computed with a relative error of at most `1.2 · 10⁻⁷`. -/
theorem C116_site_fraction {d nu x : ℝ} (hd : 0 ≤ d) (h1 : 1 ≤ nu) (h2 : nu ≤ 100) (hx : 0 < x) (hm : MassActionA d nu x) :
    |(assocSiteFracAB (handOver .binary64 d) (handOver .binary64 nu) (handOver .binary64 nu)).val - x| ≤ 1.2e-7 * x := by
  have t := agrees_fraction relative_binary64 rfl (d := handOver .binary64 d) (nu := handOver .binary64 nu) hd h1 h2 hx hm
  refine (agrees_abs relative_binary64 t).trans (mul_le_mul_of_nonneg_right ?_ hx.le)
  have := growth_f64 (k := 10 ^ 9) (e := 1.2e-7) (by norm_num) (by norm_num)
  linarith

/-- C116, away from the threshold between series and formula: the relative error is at most `3 · 10⁻¹⁵` for weak association,
where the series is used. -/
theorem C116_weak_site_fraction {d nu x : ℝ} (hd : 0 ≤ d) (hd2 : d ≤ 1.49e-8) (h1 : 1 ≤ nu) (h2 : nu ≤ 100) (hx : 0 < x)
    (hm : MassActionA d nu x) :
    |(assocSiteFracAB (handOver .binary64 d) (handOver .binary64 nu) (handOver .binary64 nu)).val - x| ≤ 3e-15 * x := by
  have h := relative_binary64
  have hlt : F64.lt (F64.sqrt f64EPSILON) (handOver .binary64 d) = false := by
    have := (agrees_threshold h).lower
    have g := growth_f64 (k := 2) (e := 1e-15) (by norm_num) (by norm_num)
    have hg := growth_pow h 2
    have : ¬ (F64.sqrt (f64EPSILON : Rd .binary64)).val < d := by
      intro hc
      have e1 : (F64.sqrt (f64EPSILON : Rd .binary64)).val * Growth .binary64 ^ 2 ≤ 1.49e-8 * (1 + 1e-15) :=
        mul_le_mul (hc.le.trans hd2) g (by linarith) (by norm_num)
      norm_num at this e1
      linarith
    exact decide_eq_false this
  have h0 : 0 ≤ d * nu := mul_nonneg hd (by linarith)
  have h3 : d * nu ≤ 1.5e-6 := (mul_le_mul hd2 h2 (by linarith) (by norm_num)).trans (by norm_num)
  have t := agrees_fraction_below h (d := handOver .binary64 d) (nu := handOver .binary64 nu) hd (show 0 < nu by linarith) hlt hx hm
    (h3.trans (by norm_num)) (by
      have hu : Arithmetic.binary64.u = (2 ^ 53)⁻¹ := rfl
      rw [hu]
      have := pow_le_pow_left₀ h0 h3 3
      change 6 * (d * nu) ^ 3 ≤ _
      norm_num at this ⊢
      linarith)
    ((growth_f64 (e := 1 / 4) (by norm_num) (by norm_num)).trans (by norm_num))
  refine (agrees_abs h t).trans (mul_le_mul_of_nonneg_right ?_ hx.le)
  have := growth_f64 (k := 25) (e := 3e-15) (by norm_num) (by norm_num)
  linarith

/-- C116, away from the threshold: the relative error is at most `6 · 10⁻¹⁵` for strong association. -/
theorem C116_strong_site_fraction {d nu x : ℝ} (hd : 1 ≤ d * nu) (h1 : 1 ≤ nu) (h2 : nu ≤ 100) (hx : 0 < x)
    (hm : MassActionA d nu x) :
    |(assocSiteFracAB (handOver .binary64 d) (handOver .binary64 nu) (handOver .binary64 nu)).val - x| ≤ 6e-15 * x := by
  have h := relative_binary64
  have hd0 : 1e-2 ≤ d := by
    by_contra hc
    push Not at hc
    nlinarith
  have hdp : 0 < d := lt_of_lt_of_le (by norm_num) hd0
  have hlt : F64.lt (F64.sqrt f64EPSILON) (handOver .binary64 d) = true := by
    have := (agrees_threshold h).upper
    have g := growth_f64 (k := 2) (e := 1) (by norm_num) (by norm_num)
    have : (F64.sqrt (f64EPSILON : Rd .binary64)).val < d := by
      norm_num at this hd0 ⊢
      linarith
    exact decide_eq_true this
  have g7 := growth_f64 (k := 7) (e := 1e-15) (by norm_num) (by norm_num)
  have t := agrees_fraction_above h (d := handOver .binary64 d) (nu := handOver .binary64 nu) (κ := 3) hdp
    (show 0 < nu by linarith) hlt hx hm (by
      have : 1 / (d * nu) ≤ 1 := by
        rw [div_le_one (by positivity)]
        exact hd
      push_cast
      change 1 / (d * nu) + 2 ≤ 3
      linarith) (by
      push_cast
      norm_num at g7 ⊢
      linarith)
  refine (agrees_abs h t).trans (mul_le_mul_of_nonneg_right ?_ hx.le)
  have := growth_f64 (k := 14 * 3 + 3) (e := 6e-15) (by norm_num) (by norm_num)
  linarith

theorem association_differs {pr : Fin n → PureRecord ℝ} {kij : Fin n → Fin n → ℝ} {T V : ℝ} {moles : Fin n → ℝ} {j : Fin n}
    {nu x : ℝ} (hn : n ≤ 20) (hk : ∀ i j, kij i j ≤ 1) (ha : Admissible (fromRecords pr kij) T V moles)
    (hp : Spec.packingFraction (fromRecords pr kij) T V moles ≤ 1 / 2) (hj : (fromRecords pr kij).assoc_comp = [j])
    (hκ : 0 ≤ (fromRecords pr kij).kappa_ab j) (hε : 0 ≤ (fromRecords pr kij).epsilon_k_ab j)
    (hε2 : (fromRecords pr kij).epsilon_k_ab j ≤ 1000 * T) (hna : (fromRecords pr kij).na j = nu)
    (hnb : (fromRecords pr kij).nb j = nu) (h1 : 1 ≤ nu) (h2 : nu ≤ 100) (hx : 1e-6 ≤ x)
    (hm : MassActionA (specStrength (fromRecords pr kij) T V moles j j * (moles j / V)) nu x) :
    ∃ A, association (roundedParameters .binary64 pr kij) (roundedState .binary64 T V moles) = .ok A
      ∧ Differs .binary64 (107 * 10 ^ 7) (moles j * (2 * nu * (2 + |Real.log x|)))
        (moles j * (2 * nu * (Real.log x - x / 2 + 1 / 2))) A := by
  have h := relative_binary64
  have hj1 : j ∈ (fromRecords pr kij).assoc_comp := by rw [hj]; simp
  have hka : (fromRecords pr kij).kappa_ab j ≠ 0 := (mem_assoc_iff pr kij j).1 hj1
  obtain ⟨p1, p2⟩ := admissible_agrees h pr kij hk ha
  have hx0 : 0 < x := lt_of_lt_of_le (by norm_num) hx
  have hT := ha.temperature
  have hM : (StateHD.new T V moles).temperature⁻¹ * (fromRecords pr kij).epsilon_k_aibj j j ≤ (1000 : ℕ) := by
    have e : (fromRecords pr kij).epsilon_k_aibj j j
      = 0.5 * ((fromRecords pr kij).epsilon_k_ab j + (fromRecords pr kij).epsilon_k_ab j) := if_pos ⟨hj1, hj1⟩
    rw [e]
    change T⁻¹ * _ ≤ _
    rw [inv_mul_le_iff₀ hT]
    push_cast
    norm_num
    linarith
  have g39 : Growth Arithmetic.binary64 ^ (39 + n) ≤ 3 / 2 :=
    (growth_mono h (show 39 + n ≤ 59 by omega)).trans
      ((growth_f64 (e := 1 / 2) (by norm_num) (by norm_num)).trans (by norm_num))
  have t := agrees_deltarho h p1 p2 hT (j := j) (M := 1000) (ha.diameter_pos j) (rounded_kappa h pr kij hj1 (ha.sigma_pos j) hκ)
    (rounded_epsilon h pr kij hj1 hε) hM (by rw [zeta3_state]; exact hp) g39 (by
      have := growth_f64 (k := 5) (e := 10 * (2 ^ 53)⁻¹) (by norm_num) (by norm_num)
      have hu : Arithmetic.binary64.u = (2 ^ 53)⁻¹ := rfl
      rw [hu]
      linarith)
  rw [C58_association_strength pr kij T V moles ha j j hka hka] at t
  change Agrees _ _ (specStrength (fromRecords pr kij) T V moles j j * (moles j / V)) _ at t
  set d' := codeDeltaRho (roundedParameters .binary64 pr kij) (roundedState .binary64 T V moles) j with hd'
  have hd0 : 0 ≤ d'.val := t.val_nonneg h
  obtain ⟨y, hy0, hy⟩ := massActionA_exists hd0 (by linarith : 0 < nu)
  have t2 := (agrees_massAction h t (by linarith) hx0 hy0 hm hy).trans h
    (agrees_fraction h rfl (d := d') (nu := handOver .binary64 nu) hd0 h1 h2 hy0 hy)
  have t3 := differs_assocSingle h (κ := 8 * 10 ^ 6) (moles := handOver .binary64 (moles j))
    (t2.mono h (show _ ≤ 10 ^ 9 + 10 ^ 5 by omega)) hx0 (massActionA_le_one t.nonneg (by linarith) hx0 hm)
    (show 0 < nu by linarith) (ha.moles_nonneg j)
    ((growth_f64 (e := 1) (by norm_num) (by norm_num)).trans (by norm_num))
    (by push_cast; linarith) (by
      have := growth_f64 (k := 4) (e := 1e-15) (by norm_num) (by norm_num)
      push_cast
      linarith)
  refine ⟨_, ?_, t3.mono h (by norm_num) le_rfl⟩
  have hj' : (roundedParameters .binary64 pr kij).assoc_comp = [j] := by rw [rounded_assoc_comp, hj]
  have na' : (roundedParameters .binary64 pr kij).na j = handOver .binary64 nu := by
    rw [← hna]
    exact rounded_one h (pr j).model_record.na
  have nb' : (roundedParameters .binary64 pr kij).nb j = handOver .binary64 nu := by
    rw [← hnb]
    exact rounded_one h (pr j).model_record.nb
  unfold association
  rw [hj']
  dsimp only
  rw [na', nb']
  rfl

/-- C116: the association contribution of a mixture with one associating component is computed with an error of at most
`1.3 · 10⁻⁷` times the terms of the theory. -/
theorem C116_association_energy {pr : Fin n → PureRecord ℝ} {kij : Fin n → Fin n → ℝ} {T V : ℝ} {moles : Fin n → ℝ}
    {j : Fin n} {nu x : ℝ} (hn : n ≤ 20) (hk : ∀ i j, kij i j ≤ 1) (ha : Admissible (fromRecords pr kij) T V moles)
    (hp : Spec.packingFraction (fromRecords pr kij) T V moles ≤ 1 / 2) (hj : (fromRecords pr kij).assoc_comp = [j])
    (hκ : 0 ≤ (fromRecords pr kij).kappa_ab j) (hε : 0 ≤ (fromRecords pr kij).epsilon_k_ab j)
    (hε2 : (fromRecords pr kij).epsilon_k_ab j ≤ 1000 * T) (hna : (fromRecords pr kij).na j = nu)
    (hnb : (fromRecords pr kij).nb j = nu) (h1 : 1 ≤ nu) (h2 : nu ≤ 100) (hx : 1e-6 ≤ x)
    (hm : MassActionA (specStrength (fromRecords pr kij) T V moles j j * (moles j / V)) nu x) :
    ∃ A, association (roundedParameters .binary64 pr kij) (roundedState .binary64 T V moles) = .ok A
      ∧ |A.val - moles j * (2 * nu * (Real.log x - x / 2 + 1 / 2))|
        ≤ 1.3e-7 * (moles j * (2 * nu * (2 + |Real.log x|))) := by
  obtain ⟨A, hA, e⟩ := association_differs hn hk ha hp hj hκ hε hε2 hna hnb h1 h2 hx hm
  refine ⟨A, hA, e.error.trans (mul_le_mul_of_nonneg_right ?_ e.size_nonneg)⟩
  have := growth_f64 (k := 107 * 10 ^ 7) (e := 1.3e-7) (by norm_num) (by norm_num)
  linarith

/-- C116 for the residual Helmholtz energy of non-polar substances, one of which associates. -/
theorem C116_residual_energy : ∃ a b : Fin 3 → Fin 7 → ℝ,
    (∀ i j, |a i j - Spec.publishedA i j| ≤ 5e-9) ∧ (∀ i j, |b i j - Spec.publishedB i j| ≤ 5e-9)
    ∧ ∀ (n : ℕ) (pr : Fin n → PureRecord ℝ) (kij : Fin n → Fin n → ℝ) (T V : ℝ) (moles : Fin n → ℝ) (j : Fin n) (nu x : ℝ)
      (o : PcSaftOptions (Rd .binary64)) (la : LinAlg (Rd .binary64) (Rd .binary64)), n ≤ 20 →
      (∀ i, (pr i).model_record.mu = none) → (∀ i, (pr i).model_record.q = none) → (∀ i, 1 ≤ (pr i).model_record.m) →
      (∀ i, 0 < (pr i).model_record.epsilon_k) → (∀ i j, kij i j ≤ 1) → Admissible (fromRecords pr kij) T V moles →
      Spec.packingFraction (fromRecords pr kij) T V moles ≤ 1 / 2 → (fromRecords pr kij).assoc_comp = [j] →
      0 ≤ (fromRecords pr kij).kappa_ab j → 0 ≤ (fromRecords pr kij).epsilon_k_ab j →
      (fromRecords pr kij).epsilon_k_ab j ≤ 1000 * T → (fromRecords pr kij).na j = nu → (fromRecords pr kij).nb j = nu →
      1 ≤ nu → nu ≤ 100 → 1e-6 ≤ x → MassActionA (specStrength (fromRecords pr kij) T V moles j j * (moles j / V)) nu x →
      let f := fluidOf pr kij
      let rho := fun i => moles i / V
      ∃ A, (Eos.withOptions (roundedParameters .binary64 pr kij) o).residualHelmholtz la
          (roundedState .binary64 T V moles) = .ok A
        ∧ |A.val - (V * (f.hardSphere T rho + f.chain T rho + f.dispersion T rho a b)
            + moles j * (2 * nu * (Real.log x - x / 2 + 1 / 2)))|
          ≤ 2e-12 * (V * (f.hardSphereSize T rho + f.chainSize T rho + f.dispersionSize T rho a b))
            + 1.4e-7 * (moles j * (2 * nu * (2 + |Real.log x|))) := by
  refine ⟨![A0, A1, A2], ![B0, B1, B2], constants_published.1, constants_published.2, ?_⟩
  intro n pr kij T V moles j nu x o la hn hmu hq hm he hk ha hp hj hκ hε hε2 hna hnb h1 h2 hx hmx f rho
  have h := relative_binary64
  obtain ⟨B, hB, eB⟩ := association_differs hn hk ha hp hj hκ hε hε2 hna hnb h1 h2 hx hmx
  have hg := growth_binary64.1 n hn
  have hg1 : ∀ k ≤ 411 + 12 * n, Growth .binary64 ^ k ≤ 3 / 2 := fun k hk => by linarith [growth_mono h hk]
  have t1 := (Differs.zero (a := .binary64) (k := 5239 + 160 * n + n * n)).add h
    ((hardSphere_differs h pr kij hk ha hp (hg1 _ (by omega))).mono h (by nlinarith) le_rfl)
  have t2 := t1.add h ((hardChain_differs h pr kij hk ha hp (hg1 _ (by omega))).mono h (by nlinarith) le_rfl)
  have t3 := t2.add h ((dispersion_differs h pr kij hk ha hm hp hg).mono h (by omega) le_rfl)
  rw [zero_add, zero_add, ← mul_add, ← mul_add, ← mul_add, ← mul_add] at t3
  obtain ⟨d1, d2⟩ := nonpolar_lists (a := .binary64) h hmu hq kij (fun i => by linarith [hm i]) ha.sigma_pos he
  have hj' : (roundedParameters .binary64 pr kij).assoc_comp = [j] := by rw [rounded_assoc_comp, hj]
  have e : (Eos.withOptions (roundedParameters .binary64 pr kij) o).contributions
      = [.hardSphere, .hardChain, .dispersion, .association] := by
    change buildContributions _ o = _
    simp only [buildContributions, PcSaftParameters.ndipole, PcSaftParameters.nquadpole, PcSaftParameters.nassoc, d1, d2, hj']
    simp
  set C := c (0.0 : Rd .binary64) + hardSphere (roundedParameters .binary64 pr kij) (roundedState .binary64 T V moles)
    + hardChain (roundedParameters .binary64 pr kij) (roundedState .binary64 T V moles)
    + dispersion (roundedParameters .binary64 pr kij) (roundedState .binary64 T V moles) with hC
  refine ⟨C + B, ?_, ?_⟩
  · rw [Eos.residualHelmholtz, e]
    have hB' : Contribution.helmholtzEnergy la (Eos.withOptions (roundedParameters .binary64 pr kij) o).parameters
      (roundedState .binary64 T V moles) .association = .ok B := hB
    simp only [List.foldlM_cons, List.foldlM_nil, hB']
    rfl
  · have k1 : Growth Arithmetic.binary64 ^ (5239 + 160 * n + n * n + 1 + 1 + 1) ≤ 1 + 1e-12 := by
      have := growth_binary64.2 n hn
      rw [show 5242 + 160 * n + n ^ 2 = 5239 + 160 * n + n * n + 1 + 1 + 1 by rw [pow_two]; omega] at this
      linarith
    have k2 := growth_f64 (k := 107 * 10 ^ 7) (e := 1.3e-7) (by norm_num) (by norm_num)
    have u1 := t3.error
    have u2 := eB.error
    have u3 := t3.abs_val
    have u4 := eB.abs_val
    have s1 := t3.size_nonneg
    have s2 := eB.size_nonneg
    have u5 := h.add C.val B.val
    have hu : Arithmetic.binary64.u = (2 ^ 53)⁻¹ := rfl
    rw [hu] at u5
    change |Arithmetic.binary64.add C.val B.val - _| ≤ _
    set W := V * (f.hardSphereSize T rho + f.chainSize T rho + f.dispersionSize T rho ![A0, A1, A2] ![B0, B1, B2])
    set Z := moles j * (2 * nu * (2 + |Real.log x|))
    have v1 := u1.trans (mul_le_mul_of_nonneg_right (sub_le_iff_le_add'.2 k1) s1)
    have v2 := u2.trans (mul_le_mul_of_nonneg_right (sub_le_iff_le_add'.2 k2) s2)
    have v3 := u3.trans (mul_le_mul_of_nonneg_right (k1.trans (show _ ≤ (2 : ℝ) by norm_num)) s1)
    have v4 := u4.trans (mul_le_mul_of_nonneg_right (k2.trans (show _ ≤ (2 : ℝ) by norm_num)) s2)
    have v5 := u5.trans (mul_le_mul_of_nonneg_left (abs_add_le C.val B.val) (by positivity))
    rw [abs_le] at v1 v2 v5 ⊢
    norm_num at v3 v4 v5 ⊢
    constructor <;> linarith

/-! ### C117 -/

/-- C117, what holds: unless association is weak (`δ ν` below `10⁻⁴`), the fraction of bonded sites `1 - X` is computed with a
relative error of at most `10⁻⁶`.  Missing: weak association, where the claim is false (`C117_bonded_counterexample`). -/
theorem C117_bonded_fraction_partial {d nu x : ℝ} (hd : 1e-4 ≤ d * nu) (h1 : 1 ≤ nu) (h2 : nu ≤ 100) (hx : 0 < x)
    (hm : MassActionA d nu x) :
    |(1 - (assocSiteFracAB (handOver .binary64 d) (handOver .binary64 nu) (handOver .binary64 nu)).val) - (1 - x)|
      ≤ 1e-6 * (1 - x) := by
  have h := relative_binary64
  have hd0 : 1e-6 ≤ d := by
    by_contra hc
    push Not at hc
    nlinarith
  have hdp : 0 < d := lt_of_lt_of_le (by norm_num) hd0
  have hlt : F64.lt (F64.sqrt f64EPSILON) (handOver .binary64 d) = true := by
    have := (agrees_threshold h).upper
    have g := growth_f64 (k := 2) (e := 1) (by norm_num) (by norm_num)
    have : (F64.sqrt (f64EPSILON : Rd .binary64)).val < d := by
      norm_num at this hd0 ⊢
      linarith
    exact decide_eq_true this
  have hy : 0 < d * nu := by positivity
  obtain ⟨κ, hκ1, hκ2⟩ : ∃ κ : ℕ, 1 / (d * nu) + 2 ≤ κ ∧ (κ : ℝ) ≤ 1 / (d * nu) + 3 :=
    ⟨_, Nat.le_ceil _, (Nat.ceil_lt_add_one (by positivity)).le.trans (by linarith)⟩
  have hi : 1 / (d * nu) ≤ 1e4 := by
    rw [div_le_iff₀ hy]
    linarith
  have g7 := growth_f64 (k := 7) (e := 1e-15) (by norm_num) (by norm_num)
  have t := agrees_fraction_above h (d := handOver .binary64 d) (nu := handOver .binary64 nu) hdp (by linarith : 0 < nu) hlt hx
    hm hκ1 (by
      have : (κ : ℝ) ≤ 1e4 + 3 := by linarith
      have g0 := growth_pow h 7
      calc (κ : ℝ) * (Growth .binary64 ^ 7 - 1) ≤ (1e4 + 3) * 1e-15 :=
            mul_le_mul this (by linarith) (by linarith) (by norm_num)
        _ ≤ _ := by norm_num)
  have hk : ((14 * κ + 3 : ℕ) : ℝ) ≤ 14 * (1 / (d * nu)) + 45 := by
    push_cast
    linarith
  set i := 1 / (d * nu) with hid
  have hi0 : 0 < i := by positivity
  have g := growth_f64 (k := 14 * κ + 3) (e := 1.2e-16 * (14 * i + 45)) (by positivity) (by
    have e0 : 1.2e-16 * (14 * i + 45) ≤ 1e-10 := by norm_num; linarith
    have : ((14 * κ + 3 : ℕ) : ℝ) * (2 ^ 53)⁻¹ ≤ (14 * i + 45) * (2 ^ 53)⁻¹ := mul_le_mul_of_nonneg_right hk (by positivity)
    calc _ ≤ (14 * i + 45) * (2 ^ 53)⁻¹ * (1 + 1e-10) :=
          mul_le_mul this (by linarith) (by positivity) (by positivity)
      _ ≤ _ := by norm_num; linarith)
  have e := agrees_abs h t
  have e2 : |(1 - (assocSiteFracAB (handOver .binary64 d) (handOver .binary64 nu) (handOver .binary64 nu)).val) - (1 - x)|
      ≤ 1.2e-16 * (14 * i + 45) * x := by
    rw [show ∀ X : ℝ, (1 - X) - (1 - x) = -(X - x) by intro X; ring, abs_neg]
    exact e.trans (mul_le_mul_of_nonneg_right (by linarith) hx.le)
  refine e2.trans ?_
  have hx1 := massActionA_le_one hdp.le (by linarith) hx hm
  have hb : 1 - x = d * nu * x * x := by
    rw [MassActionA] at hm
    linear_combination -hm
  rw [hb]
  have key : 1.2e-16 * (14 * i + 45) ≤ 1e-6 * (d * nu * x) := by
    set y := d * nu with hyd
    have hiy : i * y = 1 := by rw [hid]; field_simp
    rcases le_or_gt y 1 with hy1 | hy1
    · have hx2 : 1 / 2 ≤ x := by
        by_contra hc
        push Not at hc
        have : y * x * x ≤ 1 * x * x := by gcongr
        nlinarith
      have h3 : 1e-6 * (y * (1 / 2)) ≤ 1e-6 * (y * x) := by gcongr
      refine le_trans ?_ h3
      have h4 : i ≤ 1e8 * y := by
        have : i * (1e-4 * 1e-4) ≤ i * (y * y) := mul_le_mul_of_nonneg_left (mul_le_mul hd hd (by norm_num) hy.le) hi0.le
        rw [← mul_assoc i y y, hiy] at this
        linarith
      norm_num at hd ⊢
      linarith
    · have hi1 : i ≤ 1 := by rw [hid, div_le_one hy]; linarith
      have h3 : 1 / 2 ≤ y * x := by
        by_contra hc
        push Not at hc
        have : 2 / 3 < x := by nlinarith
        nlinarith
      norm_num
      linarith
  calc _ ≤ 1e-6 * (d * nu * x) * x := mul_le_mul_of_nonneg_right key hx.le
    _ = _ := by ring

/-- C117 fails for weak association: at a strength `δ` just above the threshold of the code, with one site of each kind, the
fraction of bonded sites computed in `f64` is wrong by more than a fifth. -/
theorem C117_bonded_counterexample :
    let d : ℝ := (2 ^ 26)⁻¹ + (2 ^ 54)⁻¹
    let X := (assocSiteFracAB (handOver .binary64 d) (handOver .binary64 1) (handOver .binary64 1)).val
    ∃ x, 0 < x ∧ MassActionA d 1 x ∧ 1 / 5 * (1 - x) < |(1 - X) - (1 - x)| := by
  intro d X
  have hd : d = (2 ^ 26)⁻¹ + (2 ^ 54)⁻¹ := rfl
  obtain ⟨x, hx, hm⟩ := massActionA_exists (d := d) (nu := 1) (by positivity) one_pos
  refine ⟨x, hx, hm, ?_⟩
  -- the steps of the calculation
  have r0 : roundBits 52 0 = 0 := by simp [roundBits]
  have r1 : roundBits 52 1 = 1 := by
    rw [roundBits_eq (z := 0) (m := 2 ^ 52)] <;> norm_num
  have rd : roundBits 52 d = d := by
    rw [hd, roundBits_eq (z := (-26)) (m := 2 ^ 52 + 2 ^ 24)] <;> norm_num
  have rd4 : roundBits 52 (d * 4) = d * 4 := by
    rw [hd, roundBits_eq (z := (-24)) (m := 2 ^ 52 + 2 ^ 24)] <;> norm_num
  have rd2 : roundBits 52 (d * 2) = d * 2 := by
    rw [hd, roundBits_eq (z := (-25)) (m := 2 ^ 52 + 2 ^ 24)] <;> norm_num
  have rs : roundBits 52 (1 + d * 4) = 1 + d * 4 := by
    rw [hd, roundBits_eq (z := 0) (m := 2 ^ 52 + 2 ^ 28 + 1)] <;> norm_num
  have rq : roundBits 52 (Real.sqrt (1 + d * 4)) = 1 + (2 ^ 25)⁻¹ - (2 ^ 52)⁻¹ := by
    have l1 : 1 + (2 ^ 25)⁻¹ - 3 * (2 ^ 53)⁻¹ < Real.sqrt (1 + d * 4) := by
      apply Real.lt_sqrt_of_sq_lt
      rw [hd]
      norm_num
    have l2 : Real.sqrt (1 + d * 4) < 1 + (2 ^ 25)⁻¹ - (2 ^ 53)⁻¹ := by
      rw [Real.sqrt_lt' (by norm_num), hd]
      norm_num
    norm_num at l1 l2
    have l0 : |Real.sqrt (1 + d * 4)| = Real.sqrt (1 + d * 4) := abs_of_nonneg (Real.sqrt_nonneg _)
    rw [roundBits_eq (z := 0) (m := 2 ^ 52 + 2 ^ 27 - 1)]
    · norm_num
    · rw [l0]; norm_num; linarith
    · rw [l0]; norm_num; linarith
    · rw [abs_lt]; norm_num; constructor <;> linarith
  have rn : roundBits 52 (1 + (2 ^ 25)⁻¹ - (2 ^ 52)⁻¹ - 1) = (2 ^ 25)⁻¹ - (2 ^ 52)⁻¹ := by
    rw [roundBits_eq (z := (-26)) (m := 2 ^ 53 - 2 ^ 26)] <;> norm_num
  have c1 : Arithmetic.binary64.lit 10 true 1 = 1 := relative_binary64.one
  have c2 : Arithmetic.binary64.lit 20 true 1 = 2 := by
    have := relative_binary64.int 20 true 1 2 (by norm_num) (by norm_num)
    exact_mod_cast this
  have c4 : Arithmetic.binary64.lit 40 true 1 = 4 := by
    have := relative_binary64.int 40 true 1 4 (by norm_num) (by norm_num)
    exact_mod_cast this
  have hX : X = roundBits 52 (((2 ^ 25)⁻¹ - (2 ^ 52)⁻¹) / (d * 2)) := by
    have hlt : F64.lt (F64.sqrt f64EPSILON) (handOver .binary64 d) = true := by
      have := (agrees_threshold relative_binary64).upper
      have g := growth_f64 (k := 2) (e := 1e-15) (by norm_num) (by norm_num)
      have : (F64.sqrt (f64EPSILON : Rd .binary64)).val < d := by
        rw [hd]
        norm_num at this g ⊢
        linarith
      exact decide_eq_true this
    change (assocSiteFracAB (handOver .binary64 d) (handOver .binary64 1) (handOver .binary64 1)).val = _
    rw [assocSiteFracAB, show DualNum.re (handOver .binary64 d) = handOver .binary64 d from rfl, if_pos hlt]
    change roundBits 52 (roundBits 52 (roundBits 52 (Real.sqrt (roundBits 52 (roundBits 52 (
        roundBits 52 (roundBits 52 (d * roundBits 52 (1 - 1)) + Arithmetic.binary64.lit 10 true 1)
        * roundBits 52 (roundBits 52 (d * roundBits 52 (1 - 1)) + Arithmetic.binary64.lit 10 true 1))
      + roundBits 52 (roundBits 52 (d * 1) * Arithmetic.binary64.lit 40 true 1))))
      - roundBits 52 (roundBits 52 (d * roundBits 52 (1 - 1)) + Arithmetic.binary64.lit 10 true 1))
      / roundBits 52 (roundBits 52 (d * 1) * Arithmetic.binary64.lit 20 true 1)) = _
    rw [c1, c2, c4, sub_self, r0, mul_zero, r0, zero_add, r1, mul_one, mul_one, r1, rd, rd4, rd2, rs, rq, rn]
  have hq := roundBits_acc 52 (((2 ^ 25)⁻¹ - (2 ^ 52)⁻¹) / (d * 2))
  rw [← hX, hd] at hq
  rw [abs_of_pos (a := ((2 ^ 25)⁻¹ - (2 ^ 52)⁻¹) / (((2 ^ 26)⁻¹ + (2 ^ 54)⁻¹) * 2)) (by norm_num), abs_le] at hq
  have hX1 : 1 - 3.001 * (2 ^ 28)⁻¹ ≤ X := by
    norm_num at hq ⊢
    linarith
  rw [MassActionA, hd] at hm
  have hx1 : x ≤ 1 - 3.99 * (2 ^ 28)⁻¹ := by
    by_contra hc
    push Not at hc
    have : (1 - 3.99 * (2 ^ 28)⁻¹) * (1 - 3.99 * (2 ^ 28)⁻¹) < x * x := mul_self_lt_mul_self (by norm_num) hc
    norm_num at hm hc this
    linarith
  have hx2 : 1 - 4.01 * (2 ^ 28)⁻¹ ≤ x := by
    by_contra hc
    push Not at hc
    have : x * x < (1 - 4.01 * (2 ^ 28)⁻¹) * (1 - 4.01 * (2 ^ 28)⁻¹) := mul_self_lt_mul_self hx.le hc
    norm_num at hm hc this
    linarith
  have : X - x ≤ |(1 - X) - (1 - x)| := by
    rw [abs_sub_comm]
    refine le_trans (le_of_eq ?_) (le_abs_self _)
    ring
  norm_num at hX1 hx1 hx2 this ⊢
  linarith

/-- The other end of the range: with a very strong association (`δ = 2¹¹⁰`) the second fraction, which the code computes as
`(X - 1) ν / ν + 1`, is exactly zero in `f64` arithmetic although the exact fraction is positive; the code takes the logarithm of
this number. -/
theorem C117_strong_association_counterexample :
    let X := assocSiteFracAB (handOver .binary64 (2 ^ 110)) (handOver .binary64 1) (handOver .binary64 1)
    (∀ x, 0 < x → MassActionA (2 ^ 110) 1 x → 0 < x ∧ x < 1e-16)
      ∧ ((X - c (1.0 : Rd .binary64)) * c (handOver .binary64 1 / handOver .binary64 1) + c (1.0 : Rd .binary64)).val = 0 := by
  intro X
  refine ⟨fun x hx hm => ⟨hx, ?_⟩, ?_⟩
  · rw [MassActionA] at hm
    by_contra hc
    push Not at hc
    have : (1e-16 : ℝ) * 1e-16 ≤ x * x := mul_self_le_mul_self (by norm_num) hc
    norm_num at hm this
    linarith
  have r0 : roundBits 52 0 = 0 := by simp [roundBits]
  have r1 : roundBits 52 1 = 1 := by
    rw [roundBits_eq (z := 0) (m := 2 ^ 52)] <;> norm_num
  have rd : roundBits 52 (2 ^ 110) = 2 ^ 110 := by
    rw [roundBits_eq (z := 110) (m := 2 ^ 52)] <;> norm_num
  have rd4 : roundBits 52 (2 ^ 110 * 4) = 2 ^ 112 := by
    rw [roundBits_eq (z := 112) (m := 2 ^ 52)] <;> norm_num
  have rd2 : roundBits 52 (2 ^ 110 * 2) = 2 ^ 111 := by
    rw [roundBits_eq (z := 111) (m := 2 ^ 52)] <;> norm_num
  have rs : roundBits 52 (1 + 2 ^ 112) = 2 ^ 112 := by
    rw [roundBits_eq (z := 112) (m := 2 ^ 52)] <;> norm_num [abs_lt]
  have sq : Real.sqrt (2 ^ 112) = 2 ^ 56 := by
    rw [show (2 : ℝ) ^ 112 = (2 ^ 56) ^ 2 by norm_num]
    exact Real.sqrt_sq (by positivity)
  have rq : roundBits 52 (2 ^ 56) = 2 ^ 56 := by
    rw [roundBits_eq (z := 56) (m := 2 ^ 52)] <;> norm_num
  have rn : roundBits 52 (2 ^ 56 - 1) = 2 ^ 56 := by
    rw [roundBits_eq (z := 55) (m := 2 ^ 53)] <;> norm_num [abs_lt]
  have rx : roundBits 52 (2 ^ 56 / 2 ^ 111) = (2 ^ 55)⁻¹ := by
    rw [roundBits_eq (z := -55) (m := 2 ^ 52)] <;> norm_num
  have r3 : roundBits 52 ((2 ^ 55)⁻¹ - 1) = -1 := by
    rw [roundBits_eq (z := -1) (m := -2 ^ 53)] <;> norm_num [abs_lt]
  have r4 : roundBits 52 (-1) = -1 := by
    rw [roundBits_eq (z := 0) (m := -2 ^ 52)] <;> norm_num
  have c1 : Arithmetic.binary64.lit 10 true 1 = 1 := relative_binary64.one
  have c2 : Arithmetic.binary64.lit 20 true 1 = 2 := by
    have := relative_binary64.int 20 true 1 2 (by norm_num) (by norm_num)
    exact_mod_cast this
  have c4 : Arithmetic.binary64.lit 40 true 1 = 4 := by
    have := relative_binary64.int 40 true 1 4 (by norm_num) (by norm_num)
    exact_mod_cast this
  have hX : X.val = (2 ^ 55)⁻¹ := by
    have hlt : F64.lt (F64.sqrt f64EPSILON) (handOver .binary64 (2 ^ 110)) = true := by
      have := (agrees_threshold relative_binary64).upper
      have g := growth_f64 (k := 2) (e := 1e-15) (by norm_num) (by norm_num)
      have : (F64.sqrt (f64EPSILON : Rd .binary64)).val < 2 ^ 110 := by
        norm_num at this g ⊢
        linarith
      exact decide_eq_true this
    change (assocSiteFracAB (handOver .binary64 (2 ^ 110)) (handOver .binary64 1) (handOver .binary64 1)).val = _
    rw [assocSiteFracAB, show DualNum.re (handOver .binary64 (2 ^ 110)) = handOver .binary64 (2 ^ 110) from rfl, if_pos hlt]
    change roundBits 52 (roundBits 52 (roundBits 52 (Real.sqrt (roundBits 52 (roundBits 52 (
        roundBits 52 (roundBits 52 (2 ^ 110 * roundBits 52 (1 - 1)) + Arithmetic.binary64.lit 10 true 1)
        * roundBits 52 (roundBits 52 (2 ^ 110 * roundBits 52 (1 - 1)) + Arithmetic.binary64.lit 10 true 1))
      + roundBits 52 (roundBits 52 (2 ^ 110 * 1) * Arithmetic.binary64.lit 40 true 1))))
      - roundBits 52 (roundBits 52 (2 ^ 110 * roundBits 52 (1 - 1)) + Arithmetic.binary64.lit 10 true 1))
      / roundBits 52 (roundBits 52 (2 ^ 110 * 1) * Arithmetic.binary64.lit 20 true 1)) = _
    rw [c1, c2, c4, sub_self, r0, mul_zero, r0, zero_add, r1, mul_one, mul_one, r1, rd, rd4, rd2, rs, sq, rq, rn, rx]
  change roundBits 52 (roundBits 52 (roundBits 52 (X.val - Arithmetic.binary64.lit 10 true 1) * roundBits 52 (1 / 1))
    + Arithmetic.binary64.lit 10 true 1) = 0
  rw [c1, hX, r3, div_one, r1, mul_one, r4, neg_add_cancel, r0]

/-! ### Examples -/

/-- half of the sites are bonded -/
example := C116_site_fraction (d := 2) (nu := 1) (x := 1 / 2) (by norm_num) le_rfl (by norm_num) (by norm_num)
  (by norm_num [MassActionA])
example := C116_strong_site_fraction (d := 2) (nu := 1) (x := 1 / 2) (by norm_num) le_rfl (by norm_num) (by norm_num)
  (by norm_num [MassActionA])
example : ∃ x, 0 < x ∧ MassActionA 1e-8 2 x ∧
    |(assocSiteFracAB (handOver .binary64 1e-8) (handOver .binary64 2) (handOver .binary64 2)).val - x| ≤ 3e-15 * x := by
  obtain ⟨x, hx, hm⟩ := massActionA_exists (d := 1e-8) (nu := 2) (by norm_num) (by norm_num)
  exact ⟨x, hx, hm, C116_weak_site_fraction (by norm_num) (by norm_num) (by norm_num) (by norm_num) hx hm⟩
example := C117_bonded_fraction_partial (d := 2) (nu := 1) (x := 1 / 2) (by norm_num) le_rfl (by norm_num) (by norm_num)
  (by norm_num [MassActionA])

theorem assocRecords_packing : Spec.packingFraction (fromRecords assocRecords (fun _ _ => 0)) 300 1000 (fun _ => 1) ≤ 1 / 2
    ∧ 0 ≤ Spec.packingFraction (fromRecords assocRecords (fun _ _ => 0)) 300 1000 (fun _ => 1)
    ∧ 0 < Spec.diameter 3 200 300 ∧ Spec.diameter 3 200 300 ≤ 3 := by
  have hm : (fromRecords assocRecords (fun _ _ => 0)).m 0 = 1
    ∧ (fromRecords assocRecords (fun _ _ => 0)).m 1 = 2 := ⟨rfl, rfl⟩
  have hs : (fromRecords assocRecords (fun _ _ => 0)).sigma 0 = 3
    ∧ (fromRecords assocRecords (fun _ _ => 0)).sigma 1 = 3 := ⟨rfl, rfl⟩
  have he : (fromRecords assocRecords (fun _ _ => 0)).epsilon_k 0 = 200
    ∧ (fromRecords assocRecords (fun _ _ => 0)).epsilon_k 1 = 200 := ⟨rfl, rfl⟩
  have hd : Spec.diameter 3 200 300 ≤ 3 := by
    unfold Spec.diameter
    have := Real.exp_pos (-3 * 200 / 300)
    linarith
  have hd0 : 0 < Spec.diameter 3 200 300 := by
    unfold Spec.diameter
    have := exp_le_one_of (e := 200) (T := 300) (by norm_num) (by norm_num)
    linarith
  have hd3 : Spec.diameter 3 200 300 ^ 3 ≤ 27 := (pow_le_pow_left₀ hd0.le hd 3).trans (by norm_num)
  have hpi := Real.pi_lt_d2
  simp only [Spec.packingFraction, Fin.sum_univ_two, hm.1, hs.1, he.1, hm.2, hs.2, he.2]
  have : Real.pi / 6 * Spec.diameter 3 200 300 ^ 3 ≤ 4 / 6 * 27 :=
    mul_le_mul (by linarith) hd3 (by positivity) (by norm_num)
  exact ⟨by linarith, by positivity, hd0, hd⟩

theorem assocRecords_fraction : ∃ x : ℝ, 1e-6 ≤ x
    ∧ MassActionA (specStrength (fromRecords assocRecords (fun _ _ => 0)) 300 1000 (fun _ => 1) 0 0 * (1 / 1000)) 1 x := by
  obtain ⟨p1, p0, d0, d1⟩ := assocRecords_packing
  have hpi := Real.pi_lt_d2
  have z : moment2 (fromRecords assocRecords (fun _ _ => 0)) 300 1000 (fun _ => 1)
      = 3 / 1000 * (Real.pi / 6 * Spec.diameter 3 200 300 ^ 2) := by
    rw [moment2, Fin.sum_univ_two]
    change 1 / 1000 * 1 * (Real.pi / 6 * Spec.diameter 3 200 300 ^ 2) + 1 / 1000 * 2 * (Real.pi / 6 * Spec.diameter 3 200 300 ^ 2)
      = _
    ring
  have e : specStrength (fromRecords assocRecords (fun _ _ => 0)) 300 1000 (fun _ => 1) 0 0
      = contactPair (3 / 1000 * (Real.pi / 6 * Spec.diameter 3 200 300 ^ 2))
        (Spec.packingFraction (fromRecords assocRecords (fun _ _ => 0)) 300 1000 (fun _ => 1))
        (Spec.diameter 3 200 300) (Spec.diameter 3 200 300) * Real.sqrt (0.03 * 0.03) * Real.sqrt (3 * 3) ^ 3
        * (Real.exp ((2500 + 2500) / 2 / 300) - 1) := by
    rw [← z]
    rfl
  set η := Spec.packingFraction (fromRecords assocRecords (fun _ _ => 0)) 300 1000 (fun _ => 1)
  set d := Spec.diameter 3 200 300
  have hz : 3 / 1000 * (Real.pi / 6 * d ^ 2) ≤ 1 / 10 := by
    have : d ^ 2 ≤ 9 := (pow_le_pow_left₀ d0.le d1 2).trans (by norm_num)
    have : Real.pi / 6 * d ^ 2 ≤ 4 / 6 * 9 := mul_le_mul (by linarith) this (by positivity) (by norm_num)
    linarith
  have hz0 : 0 ≤ 3 / 1000 * (Real.pi / 6 * d ^ 2) := by positivity
  generalize 3 / 1000 * (Real.pi / 6 * d ^ 2) = w at *
  have hc0 := contactPair_pos (d1 := d) (d2 := d) hz0 (show η < 1 by linarith) d0 d0
  have hc : contactPair w η d d ≤ 10 := by
    have hr : d * d / (d + d) = d / 2 := by field_simp; ring
    have hw : 1 / 2 ≤ 1 - η := by linarith
    have i1 : 1 / (1 - η) ≤ 2 := by rw [div_le_iff₀ (by linarith)]; linarith
    have i2 : 3 * (d / 2) * w / (1 - η) ^ 2 ≤ 2 := by
      have h4 : 1 / 4 ≤ (1 - η) ^ 2 := by nlinarith
      have h5 : 3 * (d / 2) * w ≤ 3 * (3 / 2) * (1 / 10) := by gcongr
      rw [div_le_iff₀ (by linarith)]
      linarith
    have i3 : 2 * (d / 2) ^ 2 * w ^ 2 / (1 - η) ^ 3 ≤ 2 := by
      have h4 : (1 / 2) ^ 3 ≤ (1 - η) ^ 3 := pow_le_pow_left₀ (by norm_num) hw 3
      have h5 : 2 * (d / 2) ^ 2 * w ^ 2 ≤ 2 * (3 / 2) ^ 2 * (1 / 10) ^ 2 := by gcongr
      rw [div_le_iff₀ (by linarith)]
      linarith
    rw [contactPair, hr]
    linarith
  have hx : Real.exp ((2500 + 2500) / 2 / 300) - 1 ≤ 20000 := by
    have h1 : Real.exp ((2500 + 2500) / 2 / 300) ≤ Real.exp 9 := Real.exp_le_exp.2 (by norm_num)
    have h2 : Real.exp 9 = Real.exp 1 ^ 9 := by rw [← Real.exp_nat_mul]; norm_num
    have h3 : Real.exp 1 ^ 9 ≤ 3 ^ 9 := pow_le_pow_left₀ (Real.exp_pos 1).le (by linarith [Real.exp_one_lt_d9]) 9
    norm_num at h3
    linarith
  have hx0 : 0 ≤ Real.exp ((2500 + 2500) / 2 / 300) - 1 := by
    linarith [Real.add_one_le_exp ((2500 + 2500) / 2 / 300 : ℝ)]
  rw [e, Real.sqrt_mul_self (by norm_num), Real.sqrt_mul_self (by norm_num)]
  generalize Real.exp ((2500 + 2500) / 2 / 300) - 1 = E at *
  generalize contactPair w η d d = g at *
  have hS : g * 0.03 * 3 ^ 3 * E * (1 / 1000) ≤ 10 * 0.03 * 3 ^ 3 * 20000 * (1 / 1000) := by gcongr
  have hS0 : 0 ≤ g * 0.03 * 3 ^ 3 * E * (1 / 1000) := by positivity
  generalize g * 0.03 * 3 ^ 3 * E * (1 / 1000) = δ at *
  obtain ⟨x, x0, hm⟩ := massActionA_exists hS0 one_pos
  refine ⟨x, ?_, hm⟩
  rw [MassActionA] at hm
  by_contra hc
  push Not at hc
  have : x * x ≤ 1e-6 * 1e-6 := mul_self_le_mul_self x0.le hc.le
  have : δ * (x * x) ≤ (10 * 0.03 * 3 ^ 3 * 20000 * (1 / 1000)) * (1e-6 * 1e-6) := mul_le_mul hS this (by positivity) (by norm_num)
  norm_num at this hc hm
  linarith

/-- the association energy of a mixture in `f64` arithmetic -/
example : ∃ x A, association (roundedParameters .binary64 assocRecords (fun _ _ => 0)) (roundedState .binary64 300 1000 (fun _ => 1))
      = .ok A ∧ |A.val - 1 * (2 * 1 * (Real.log x - x / 2 + 1 / 2))| ≤ 1.3e-7 * (1 * (2 * 1 * (2 + |Real.log x|))) := by
  obtain ⟨x, hx, hm⟩ := assocRecords_fraction
  have one : (1.0 : ℝ) = 1 := by norm_num
  have hna : (fromRecords assocRecords (fun _ _ => 0)).na 0 = 1 := one
  have hnb : (fromRecords assocRecords (fun _ _ => 0)).nb 0 = 1 := one
  have hκ : (fromRecords assocRecords (fun _ _ => 0)).kappa_ab 0 = 0.03 := rfl
  have hε : (fromRecords assocRecords (fun _ _ => 0)).epsilon_k_ab 0 = 2500 := rfl
  exact ⟨x, C116_association_energy (by norm_num) (fun _ _ => zero_le_one) assocRecords_admissible assocRecords_packing.1
    assocRecords_comp (by rw [hκ]; norm_num) (by rw [hε]; norm_num) (by rw [hε]; norm_num) hna hnb le_rfl (by norm_num) hx hm⟩

/-- the residual Helmholtz energy of the mixture -/
example (o : PcSaftOptions (Rd .binary64)) (la : LinAlg (Rd .binary64) (Rd .binary64)) :
    ∃ A, (Eos.withOptions (roundedParameters .binary64 assocRecords (fun _ _ => 0)) o).residualHelmholtz la
      (roundedState .binary64 300 1000 (fun _ => 1)) = .ok A := by
  obtain ⟨a, b, _, _, h3⟩ := C116_residual_energy
  obtain ⟨x, hx, hm⟩ := assocRecords_fraction
  have one : (1.0 : ℝ) = 1 := by norm_num
  have hna : (fromRecords assocRecords (fun _ _ => 0)).na 0 = 1 := one
  have hnb : (fromRecords assocRecords (fun _ _ => 0)).nb 0 = 1 := one
  have hκ : (fromRecords assocRecords (fun _ _ => 0)).kappa_ab 0 = 0.03 := rfl
  have hε : (fromRecords assocRecords (fun _ _ => 0)).epsilon_k_ab 0 = 2500 := rfl
  obtain ⟨A, hA, _⟩ := h3 2 assocRecords (fun _ _ => 0) 300 1000 (fun _ => 1) 0 1 x o la (by norm_num)
    (fun i => by fin_cases i <;> rfl) (fun i => by fin_cases i <;> rfl)
    (fun i => by fin_cases i <;> norm_num [assocRecords]) (fun i => by fin_cases i <;> norm_num [assocRecords])
    (fun _ _ => zero_le_one) assocRecords_admissible assocRecords_packing.1 assocRecords_comp (by rw [hκ]; norm_num)
    (by rw [hε]; norm_num) (by rw [hε]; norm_num) hna hnb le_rfl (by norm_num) hx hm
  exact ⟨A, hA⟩

end PcSaft.Props
