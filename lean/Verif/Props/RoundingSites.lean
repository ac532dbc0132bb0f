import Verif.Lemmas.RoundingSites
import Verif.Props.RoundingPolar

/-!
# C119: rounding errors of association with different numbers of donor and acceptor sites

The law of mass action `X_A (1 + δ n_B X_B) = 1`, `X_B (1 + δ n_A X_A) = 1` (`Spec.MassActionAB`) is compared with the numbers the
code computes in `f64` arithmetic.
-/

namespace PcSaft.Props
open Spec
variable {n : ℕ}

theorem differs_close {k : ℕ} {e s x : ℝ} {x' : Rd .binary64} (hx : Differs .binary64 k s x x') (he : 0 ≤ e)
    (hk : (k : ℝ) * (2 ^ 53)⁻¹ * (1 + e) ≤ e) : |x'.val - x| ≤ e * s ∧ |x'.val| ≤ (1 + e) * s := by
  have g := growth_f64 he hk
  exact ⟨hx.error.trans (mul_le_mul_of_nonneg_right (sub_le_iff_le_add'.2 g) hx.size_nonneg),
    hx.abs_val.trans (mul_le_mul_of_nonneg_right g hx.size_nonneg)⟩

theorem agrees_close {k : ℕ} {e x : ℝ} {x' : Rd .binary64} (hx : Agrees .binary64 k x x') (he : 0 ≤ e)
    (hk : (k : ℝ) * (2 ^ 53)⁻¹ * (1 + e) ≤ e) : |x'.val - x| ≤ e * x ∧ x ≤ x'.val * (1 + e) :=
  ⟨(differs_close (hx.differs relative_binary64) he hk).1,
    hx.lower.trans (mul_le_mul_of_nonneg_left (growth_f64 he hk) (hx.val_nonneg relative_binary64))⟩

/-- the code computes the fraction of the free sites of the second kind from that of the first kind -/
noncomputable def codeSecond (d na nb : ℝ) : Rd .binary64 :=
  (assocSiteFracAB (handOver .binary64 d) (handOver .binary64 na) (handOver .binary64 nb) - c (1.0 : Rd .binary64))
    * c (handOver .binary64 na / handOver .binary64 nb) + c (1.0 : Rd .binary64)

/-- C119: errors of both fractions where the explicit formula is used, for any numbers of sites and any strength. -/
theorem C119_explicit_formula {d na nb x y : ℝ} (hd : 1.5e-8 ≤ d) (ha : 0 < na) (hb : 0 < nb) (hx : 0 < x)
    (hm : MassActionAB d na nb x y) :
    |(assocSiteFracAB (handOver .binary64 d) (handOver .binary64 na) (handOver .binary64 nb)).val - x|
        ≤ 5e-15 * (1 / (d * na) + 1 + nb / na)
      ∧ |(codeSecond d na nb).val - y| ≤ 6e-15 * (1 / (d * nb) + 2 + 2 * (na / nb)) := by
  have h := relative_binary64
  have d0 : 0 < d := lt_of_lt_of_le (by norm_num) hd
  have hlt : F64.lt (F64.sqrt f64EPSILON) (handOver .binary64 d) = true := by
    have := (agrees_threshold h).upper
    have g := growth_f64 (k := 2) (e := 1e-15) (by norm_num) (by norm_num)
    have : (F64.sqrt (f64EPSILON : Rd .binary64)).val < d := by
      norm_num at this hd g ⊢
      linarith
    exact decide_eq_true this
  have t := differs_fraction_above h (d := handOver .binary64 d) (na := handOver .binary64 na) (nb := handOver .binary64 nb)
    d0 ha hb hlt hx hm ((growth_f64 (e := 1 / 4) (by norm_num) (by norm_num)).trans (by norm_num))
  have t2 := differs_second h t (show 0 < (handOver .binary64 na).val from ha) hb hx hm
  have e1 := growth_f64 (k := 42) (e := 5e-15) (by norm_num) (by norm_num)
  have e2 := growth_f64 (k := 46) (e := 6e-15) (by norm_num) (by norm_num)
  constructor
  · exact t.error.trans (mul_le_mul_of_nonneg_right (by linarith) t.size_nonneg)
  · refine t2.error.trans ((mul_le_mul_of_nonneg_right (show _ ≤ (6e-15 : ℝ) by linarith) t2.size_nonneg).trans ?_)
    refine mul_le_mul_of_nonneg_left (le_of_eq ?_) (by norm_num)
    change (1 / (d * na) + 1 + nb / na + 1) * (na / nb) + 1 = _
    field_simp
    ring

/-- C119: both fractions have a relative error of at most `2.6 · 10⁻⁶`, whatever the strength, as long as a millionth of the
sites of each kind is free. -/
theorem C119_site_fractions {d na nb x y : ℝ} (hd : 0 ≤ d) (ha : 1 ≤ na) (ha2 : na ≤ 100) (hb : 1 ≤ nb) (hb2 : nb ≤ 100)
    (hx : 1e-6 ≤ x) (hy : 1e-6 ≤ y) (hm : MassActionAB d na nb x y) :
    |(assocSiteFracAB (handOver .binary64 d) (handOver .binary64 na) (handOver .binary64 nb)).val - x| ≤ 1.2e-6 * x
      ∧ |(codeSecond d na nb).val - y| ≤ 2.6e-6 * y := by
  have h := relative_binary64
  have l : (9e-7 : ℝ) ≤ 1e-6 := by norm_num
  obtain ⟨t1, t2⟩ := agrees_fractions h rfl (d := handOver .binary64 d) (na := handOver .binary64 na)
    (nb := handOver .binary64 nb) hd ha ha2 hb hb2 (l.trans hx) (l.trans hy) hm
  exact ⟨(agrees_close t1 (by norm_num) (by norm_num)).1, (agrees_close t2 (by norm_num) (by norm_num)).1⟩

/-- C119: the condition on the free sites cannot be dropped.  One donor and two acceptors at `δ = 2⁶⁰`: the computed fraction of
free donors is exactly zero, and the code takes the logarithm of this number. -/
theorem C119_strong_association :
    (∃ x y, 0 < x ∧ 0 < y ∧ MassActionAB (2 ^ 60) 1 2 x y)
      ∧ (assocSiteFracAB (handOver .binary64 (2 ^ 60)) (handOver .binary64 1) (handOver .binary64 2)).val = 0 := by
  refine ⟨massActionAB_exists (by positivity) one_pos two_pos, ?_⟩
  have r0 : roundBits 52 0 = 0 := by simp [roundBits]
  have r1 : roundBits 52 1 = 1 := by
    rw [roundBits_eq (z := 0) (m := 2 ^ 52)] <;> norm_num
  have rm : roundBits 52 (-1) = -1 := by
    rw [roundBits_eq (z := 0) (m := -2 ^ 52)] <;> norm_num
  have ra : roundBits 52 (2 ^ 60 * -1) = -2 ^ 60 := by
    rw [roundBits_eq (z := 60) (m := -2 ^ 52)] <;> norm_num
  have ra1 : roundBits 52 (-2 ^ 60 + 1) = -2 ^ 60 := by
    rw [roundBits_eq (z := 59) (m := -2 ^ 53)] <;> norm_num [abs_lt]
  have rsq : roundBits 52 (-2 ^ 60 * -2 ^ 60) = 2 ^ 120 := by
    rw [roundBits_eq (z := 120) (m := 2 ^ 52)] <;> norm_num
  have rb : roundBits 52 (2 ^ 60 * 2) = 2 ^ 61 := by
    rw [roundBits_eq (z := 61) (m := 2 ^ 52)] <;> norm_num
  have rb4 : roundBits 52 (2 ^ 61 * 4) = 2 ^ 63 := by
    rw [roundBits_eq (z := 63) (m := 2 ^ 52)] <;> norm_num
  have rs : roundBits 52 (2 ^ 120 + 2 ^ 63) = 2 ^ 120 := by
    rw [roundBits_eq (z := 120) (m := 2 ^ 52)] <;> norm_num [abs_lt]
  have sq : Real.sqrt (2 ^ 120) = 2 ^ 60 := by
    rw [show (2 : ℝ) ^ 120 = (2 ^ 60) ^ 2 by norm_num]
    exact Real.sqrt_sq (by positivity)
  have rq : roundBits 52 (2 ^ 60) = 2 ^ 60 := by
    rw [roundBits_eq (z := 60) (m := 2 ^ 52)] <;> norm_num
  have rc : roundBits 52 (2 ^ 60 + 1) = 2 ^ 60 := by
    rw [roundBits_eq (z := 60) (m := 2 ^ 52)] <;> norm_num [abs_lt]
  have c1 : Arithmetic.binary64.lit 10 true 1 = 1 := relative_binary64.one
  have c4 : Arithmetic.binary64.lit 40 true 1 = 4 := by
    have := relative_binary64.int 40 true 1 4 (by norm_num) (by norm_num)
    exact_mod_cast this
  have hlt : F64.lt (F64.sqrt f64EPSILON) (handOver .binary64 (2 ^ 60)) = true := by
    have := (agrees_threshold relative_binary64).upper
    have g := growth_f64 (k := 2) (e := 1e-15) (by norm_num) (by norm_num)
    have : (F64.sqrt (f64EPSILON : Rd .binary64)).val < 2 ^ 60 := by
      norm_num at this g ⊢
      linarith
    exact decide_eq_true this
  rw [assocSiteFracAB, show DualNum.re (handOver .binary64 (2 ^ 60)) = handOver .binary64 (2 ^ 60) from rfl, if_pos hlt]
  change roundBits 52 (roundBits 52 (roundBits 52 (Real.sqrt (roundBits 52 (roundBits 52 (
      roundBits 52 (roundBits 52 (2 ^ 60 * roundBits 52 (1 - 2)) + Arithmetic.binary64.lit 10 true 1)
      * roundBits 52 (roundBits 52 (2 ^ 60 * roundBits 52 (1 - 2)) + Arithmetic.binary64.lit 10 true 1))
    + roundBits 52 (roundBits 52 (2 ^ 60 * 2) * Arithmetic.binary64.lit 40 true 1))))
    - roundBits 52 (roundBits 52 (2 ^ 60 * roundBits 52 (2 - 1)) + Arithmetic.binary64.lit 10 true 1))
    / roundBits 52 (roundBits 52 (2 ^ 60 * 1) * Arithmetic.binary64.lit 20 true 1)) = 0
  rw [c1, c4, show (1 : ℝ) - 2 = -1 by norm_num, show (2 : ℝ) - 1 = 1 by norm_num, rm, r1, ra, ra1, rsq, rb, rb4, rs, sq,
    mul_one, rq, rc, sub_self, r0, zero_div, r0]

theorem sites_differs {pr : Fin n → PureRecord ℝ} {kij : Fin n → Fin n → ℝ} {T V : ℝ} {moles : Fin n → ℝ} {j : Fin n}
    {na nb x y : ℝ} (hn : n ≤ 20) (hk : ∀ i j, kij i j ≤ 1) (ha : Admissible (fromRecords pr kij) T V moles)
    (hp : Spec.packingFraction (fromRecords pr kij) T V moles ≤ 1 / 2) (hj : (fromRecords pr kij).assoc_comp = [j])
    (hκ : 0 ≤ (fromRecords pr kij).kappa_ab j) (hε : 0 ≤ (fromRecords pr kij).epsilon_k_ab j)
    (hε2 : (fromRecords pr kij).epsilon_k_ab j ≤ 1000 * T) (hna : (fromRecords pr kij).na j = na)
    (hnb : (fromRecords pr kij).nb j = nb) (a1 : 1 ≤ na) (a2 : na ≤ 100) (b1 : 1 ≤ nb) (b2 : nb ≤ 100) (hx : 1e-6 ≤ x)
    (hy : 1e-6 ≤ y) (hm : MassActionAB (specStrength (fromRecords pr kij) T V moles j j * (moles j / V)) na nb x y) :
    ∃ A, association (roundedParameters .binary64 pr kij) (roundedState .binary64 T V moles) = .ok A
      ∧ Differs .binary64 23001000000 (moles j * (na * (2 + |Real.log x|) + nb * (2 + |Real.log y|)))
        (moles j * (na * (Real.log x - x / 2 + 1 / 2) + nb * (Real.log y - y / 2 + 1 / 2))) A := by
  have h := relative_binary64
  have hj1 : j ∈ (fromRecords pr kij).assoc_comp := by rw [hj]; simp
  have hka : (fromRecords pr kij).kappa_ab j ≠ 0 := (mem_assoc_iff pr kij j).1 hj1
  obtain ⟨p1, p2⟩ := admissible_agrees h pr kij hk ha
  have hx0 : 0 < x := lt_of_lt_of_le (by norm_num) hx
  have hy0 : 0 < y := lt_of_lt_of_le (by norm_num) hy
  have hT := ha.temperature
  have hM : (StateHD.new T V moles).temperature⁻¹ * (fromRecords pr kij).epsilon_k_aibj j j ≤ (1000 : ℕ) := by
    have e : (fromRecords pr kij).epsilon_k_aibj j j
      = 0.5 * ((fromRecords pr kij).epsilon_k_ab j + (fromRecords pr kij).epsilon_k_ab j) := if_pos ⟨hj1, hj1⟩
    rw [e]
    change T⁻¹ * _ ≤ _
    rw [inv_mul_le_iff₀ hT]
    push_cast
    norm_num
    linarith
  have g39 : Growth Arithmetic.binary64 ^ (39 + n) ≤ 3 / 2 :=
    (growth_mono h (show 39 + n ≤ 59 by omega)).trans
      ((growth_f64 (e := 1 / 2) (by norm_num) (by norm_num)).trans (by norm_num))
  have t := agrees_deltarho h p1 p2 hT (j := j) (M := 1000) (ha.diameter_pos j) (rounded_kappa h pr kij hj1 (ha.sigma_pos j) hκ)
    (rounded_epsilon h pr kij hj1 hε) hM (by rw [zeta3_state]; exact hp) g39 (by
      have := growth_f64 (k := 5) (e := 10 * (2 ^ 53)⁻¹) (by norm_num) (by norm_num)
      have hu : Arithmetic.binary64.u = (2 ^ 53)⁻¹ := rfl
      rw [hu]
      linarith)
  rw [C58_association_strength pr kij T V moles ha j j hka hka] at t
  change Agrees _ _ (specStrength (fromRecords pr kij) T V moles j j * (moles j / V)) _ at t
  replace t := t.mono h (show _ ≤ 10 ^ 5 by omega)
  set d' := codeDeltaRho (roundedParameters .binary64 pr kij) (roundedState .binary64 T V moles) j with hd'
  have hd0 : 0 ≤ d'.val := t.val_nonneg h
  have ha0 : 0 < na := by linarith
  have hb0 : 0 < nb := by linarith
  obtain ⟨x', y', hx', hy', hm'⟩ := massActionAB_exists hd0 ha0 hb0
  obtain ⟨r1, r2⟩ := agrees_massActionAB h t ha0 hb0 hx0 hy0 hx' hy' hm hm'
  have lx : 9e-7 ≤ x' := by
    have e : x ≤ x' * (1 + 1 / 100) := (agrees_close r1 (by norm_num) (by norm_num)).2
    norm_num at hx ⊢
    linarith
  have ly : 9e-7 ≤ y' := by
    have e : y ≤ y' * (1 + 1 / 100) := (agrees_close r2 (by norm_num) (by norm_num)).2
    norm_num at hy ⊢
    linarith
  obtain ⟨f1, f2⟩ := agrees_fractions h rfl (d := d') (na := handOver .binary64 na) (nb := handOver .binary64 nb) hd0 a1 a2 b1 b2
    lx ly hm'
  obtain ⟨x1, y1⟩ := hm.le_one t.nonneg ha0.le hb0.le hx0 hy0
  have t3 := differs_assocSingle_ab h (moles := handOver .binary64 (moles j))
    ((r1.trans h f1).mono h (show _ ≤ 10 ^ 5 + 23000000000 by norm_num)) (r2.trans h f2) hx0 x1 hy0 y1 ha0 hb0
    (ha.moles_nonneg j)
  refine ⟨_, ?_, t3.mono h (by norm_num) le_rfl⟩
  have hj' : (roundedParameters .binary64 pr kij).assoc_comp = [j] := by rw [rounded_assoc_comp, hj]
  have na' : (roundedParameters .binary64 pr kij).na j = handOver .binary64 na := by
    rw [← hna]
    exact rounded_one h (pr j).model_record.na
  have nb' : (roundedParameters .binary64 pr kij).nb j = handOver .binary64 nb := by
    rw [← hnb]
    exact rounded_one h (pr j).model_record.nb
  unfold association
  rw [hj']
  dsimp only
  rw [na', nb']
  rfl

/-- C119: the association contribution of a mixture with one associating component. -/
theorem C119_association_energy {pr : Fin n → PureRecord ℝ} {kij : Fin n → Fin n → ℝ} {T V : ℝ} {moles : Fin n → ℝ} {j : Fin n}
    {na nb x y : ℝ} (hn : n ≤ 20) (hk : ∀ i j, kij i j ≤ 1) (ha : Admissible (fromRecords pr kij) T V moles)
    (hp : Spec.packingFraction (fromRecords pr kij) T V moles ≤ 1 / 2) (hj : (fromRecords pr kij).assoc_comp = [j])
    (hκ : 0 ≤ (fromRecords pr kij).kappa_ab j) (hε : 0 ≤ (fromRecords pr kij).epsilon_k_ab j)
    (hε2 : (fromRecords pr kij).epsilon_k_ab j ≤ 1000 * T) (hna : (fromRecords pr kij).na j = na)
    (hnb : (fromRecords pr kij).nb j = nb) (a1 : 1 ≤ na) (a2 : na ≤ 100) (b1 : 1 ≤ nb) (b2 : nb ≤ 100) (hx : 1e-6 ≤ x)
    (hy : 1e-6 ≤ y) (hm : MassActionAB (specStrength (fromRecords pr kij) T V moles j j * (moles j / V)) na nb x y) :
    ∃ A, association (roundedParameters .binary64 pr kij) (roundedState .binary64 T V moles) = .ok A
      ∧ |A.val - moles j * (na * (Real.log x - x / 2 + 1 / 2) + nb * (Real.log y - y / 2 + 1 / 2))|
        ≤ 2.6e-6 * (moles j * (na * (2 + |Real.log x|) + nb * (2 + |Real.log y|))) := by
  obtain ⟨A, hA, e⟩ := sites_differs hn hk ha hp hj hκ hε hε2 hna hnb a1 a2 b1 b2 hx hy hm
  exact ⟨A, hA, (differs_close e (by norm_num) (by norm_num)).1⟩

/-- C119: the residual Helmholtz energy of substances, polar or not, one of which associates. -/
theorem C119_residual_energy : ∃ t : Tables, t.Published
    ∧ ∀ (n : ℕ) (pr : Fin n → PureRecord ℝ) (kij : Fin n → Fin n → ℝ) (T V : ℝ) (moles : Fin n → ℝ) (j : Fin n)
      (na nb x y : ℝ) (o : PcSaftOptions (Rd .binary64)) (la : LinAlg (Rd .binary64) (Rd .binary64)), n ≤ 20 →
      (∀ i, 1 ≤ (pr i).model_record.m) → (∀ i, 0 < (pr i).model_record.epsilon_k) → (∀ i j, kij i j ≤ 1) →
      Admissible (fromRecords pr kij) T V moles →
      Spec.packingFraction (fromRecords pr kij) T V moles ≤ 1 / 2 → (fromRecords pr kij).assoc_comp = [j] →
      0 ≤ (fromRecords pr kij).kappa_ab j → 0 ≤ (fromRecords pr kij).epsilon_k_ab j →
      (fromRecords pr kij).epsilon_k_ab j ≤ 1000 * T → (fromRecords pr kij).na j = na → (fromRecords pr kij).nb j = nb →
      1 ≤ na → na ≤ 100 → 1 ≤ nb → nb ≤ 100 → 1e-6 ≤ x → 1e-6 ≤ y →
      MassActionAB (specStrength (fromRecords pr kij) T V moles j j * (moles j / V)) na nb x y →
      let f := fluidOf pr kij
      let rho := fun i => moles i / V
      PolarRegular 1000 o.dq_variant f T rho t →
      ∃ A, (Eos.withOptions (roundedParameters .binary64 pr kij) o).residualHelmholtz la
          (roundedState .binary64 T V moles) = .ok A
        ∧ |A.val - (V * polarEnergy o.dq_variant f T rho t
              + moles j * (na * (Real.log x - x / 2 + 1 / 2) + nb * (Real.log y - y / 2 + 1 / 2)))|
          ≤ 4.1e-9 * (V * polarSize o.dq_variant f T rho t)
            + 2.7e-6 * (moles j * (na * (2 + |Real.log x|) + nb * (2 + |Real.log y|))) := by
  refine ⟨codeTables, codeTables_published, ?_⟩
  intro n pr kij T V moles j na nb x y o la hn hm he hk ha hp hj hκa hε hε2 hna hnb a1 a2 b1 b2 hx hy hmx f rho hreg
  have h := relative_binary64
  have n2 : n ^ 2 ≤ 20 ^ 2 := Nat.pow_le_pow_left hn 2
  have n3 : n ^ 3 ≤ 20 ^ 3 := Nat.pow_le_pow_left hn 3
  have hN : polarOps n ≤ 17208 := by
    rw [polarOps]
    omega
  have hκ : ((1000 : ℕ) : ℝ) * (Growth Arithmetic.binary64 ^ (polarOps n + 1) - 1) ≤ 1 / 2 := by
    have := growth_mono relative_binary64 (show polarOps n + 1 ≤ 35000000 by omega)
    have := growth_polar.2
    push_cast
    linarith
  obtain ⟨B, hB, eB⟩ := sites_differs hn hk ha hp hj hκa hε hε2 hna hnb a1 a2 b1 b2 hx hy hmx
  have eA := polarSum_differs h hm he hk ha hp (growth_binary64.1 n hn) o.dq_variant hκ hreg
  refine ⟨_, (polar_residual h (positive_of_admissible he ha) kij o la _).2 j B hj hB, ?_⟩
  have k1 : Growth Arithmetic.binary64 ^ (5245 + 160 * n + n ^ 2 + padeOps n 1000) ≤ 1 + 4e-9 := by
    have := growth_mono relative_binary64 (show 5245 + 160 * n + n ^ 2 + padeOps n 1000 ≤ 35000000 by
      rw [padeOps]
      omega)
    linarith [growth_polar.2]
  set C := polarSum pr kij o.dq_variant (roundedState .binary64 T V moles)
  have u1 := eA.error
  obtain ⟨v2, u4⟩ := differs_close eB (e := 2.6e-6) (by norm_num) (by norm_num)
  have u3 := eA.abs_val
  have s1 := eA.size_nonneg
  have s2 := eB.size_nonneg
  have u5 := h.add C.val B.val
  have hu : Arithmetic.binary64.u = (2 ^ 53)⁻¹ := rfl
  rw [hu] at u5
  change |Arithmetic.binary64.add C.val B.val - _| ≤ _
  change |C.val - V * polarEnergy o.dq_variant f T rho codeTables| ≤ _ * (V * polarSize o.dq_variant f T rho codeTables) at u1
  change |C.val| ≤ _ * (V * polarSize o.dq_variant f T rho codeTables) at u3
  change 0 ≤ V * polarSize o.dq_variant f T rho codeTables at s1
  set W := V * polarSize o.dq_variant f T rho codeTables
  set Z := moles j * (na * (2 + |Real.log x|) + nb * (2 + |Real.log y|))
  have v1 := u1.trans (mul_le_mul_of_nonneg_right (sub_le_iff_le_add'.2 k1) s1)
  have v3 := u3.trans (mul_le_mul_of_nonneg_right (k1.trans (show _ ≤ (2 : ℝ) by norm_num)) s1)
  have v4 := u4.trans (mul_le_mul_of_nonneg_right (show _ ≤ (2 : ℝ) by norm_num) s2)
  have v5 := u5.trans (mul_le_mul_of_nonneg_left (abs_add_le C.val B.val) (by positivity))
  rw [abs_le] at v1 v2 v5 ⊢
  norm_num at v3 v4 v5 ⊢
  constructor <;> linarith

/-! ### Examples -/

/-- one donor, two acceptors; half of the donors are free -/
example := C119_site_fractions (d := 2 / 3) (na := 1) (nb := 2) (x := 1 / 2) (y := 3 / 4) (by norm_num) le_rfl (by norm_num)
  (by norm_num) (by norm_num) (by norm_num) (by norm_num) (by norm_num [MassActionAB])
example := C119_explicit_formula (d := 2 / 3) (na := 1) (nb := 2) (x := 1 / 2) (y := 3 / 4) (by norm_num) one_pos two_pos
  (by norm_num) (by norm_num [MassActionAB])

/-- a molecule with a dipole, a quadrupole, one donor and two acceptors -/
noncomputable def polarDonor (_ : Fin 1) : PureRecord ℝ :=
  ⟨⟨none, ""⟩, 44, ⟨1, 3, 100, some 2, some 3, some 0.01, some 1000, some 1, some 2, none, none, none⟩, none⟩

/-- it meets the hypotheses of `C119_association_energy` and `C119_residual_energy` -/
example (v : DQVariants) : ∃ x y : ℝ, (∀ i, 1 ≤ (polarDonor i).model_record.m)
    ∧ (∀ i, 0 < (polarDonor i).model_record.epsilon_k)
    ∧ Admissible (fromRecords polarDonor (fun _ _ => 0)) 100 1000 (fun _ => 1)
    ∧ (fromRecords polarDonor (fun _ _ => 0)).assoc_comp = [0]
    ∧ (fromRecords polarDonor (fun _ _ => 0)).kappa_ab 0 = 0.01 ∧ (fromRecords polarDonor (fun _ _ => 0)).epsilon_k_ab 0 = 1000
    ∧ (fromRecords polarDonor (fun _ _ => 0)).na 0 = 1 ∧ (fromRecords polarDonor (fun _ _ => 0)).nb 0 = 2
    ∧ 1e-6 ≤ x ∧ 1e-6 ≤ y
    ∧ MassActionAB (specStrength (fromRecords polarDonor (fun _ _ => 0)) 100 1000 (fun _ => 1) 0 0 * (1 / 1000)) 1 2 x y
    ∧ PolarRegular 100 v (fluidOf polarDonor (fun _ _ => 0)) 100 (fun _ => 1 / 1000) codeTables := by
  obtain ⟨s0, s1⟩ := polarSites_strength
  have e : specStrength (fromRecords polarDonor (fun _ _ => 0)) 100 1000 (fun _ => 1) 0 0
    = specStrength (fromRecords polarSites (fun _ _ => 0)) 100 1000 (fun _ => 1) 0 0 := rfl
  obtain ⟨x, y, hx, hy, hm⟩ := massActionAB_exists s0 one_pos two_pos
  obtain ⟨x1, y1⟩ := hm.le_one s0 zero_le_one zero_le_two hx hy
  have ha := polarSphere_admissible
  refine ⟨x, y, fun _ => le_rfl, fun _ => by norm_num [polarDonor],
    ⟨ha.temperature, ha.volume, ha.m_pos, ha.sigma_pos, ha.epsilon_nonneg, ha.moles_nonneg, ha.moles_ne_zero, ha.packing⟩,
    ?_, rfl, rfl, rfl, rfl, ?_, ?_, by rw [e]; exact hm, polarSphere_regular v⟩
  · have h : ∀ i, i ∈ (fromRecords polarDonor (fun _ _ => 0)).assoc_comp := fun i =>
      (mem_assoc_iff polarDonor _ i).2 (show (0.01 : ℝ) ≠ 0 by norm_num)
    have hn : (fromRecords polarDonor (fun _ _ => 0)).assoc_comp.Nodup := (nonzeroComp_sorted _).nodup
    have hl : (fromRecords polarDonor (fun _ _ => 0)).assoc_comp.length ≤ 1 := by
      simpa using hn.length_le_card
    match hc : (fromRecords polarDonor (fun _ _ => 0)).assoc_comp, hl with
    | [], _ =>
      have := h 0
      rw [hc] at this
      exact absurd this List.not_mem_nil
    | [i], _ => rw [Subsingleton.elim i 0]
  · have := hm.1
    have k : x * (1 + specStrength (fromRecords polarSites (fun _ _ => 0)) 100 1000 (fun _ => 1) 0 0 * (1 / 1000) * 2 * y)
        ≤ x * (1 + 162 * 2 * 1) := by gcongr
    norm_num at this k ⊢
    linarith
  · have := hm.2
    have k : y * (1 + specStrength (fromRecords polarSites (fun _ _ => 0)) 100 1000 (fun _ => 1) 0 0 * (1 / 1000) * 1 * x)
        ≤ y * (1 + 162 * 1 * 1) := by gcongr
    norm_num at this k ⊢
    linarith

end PcSaft.Props
