import Verif.Lemmas.RoundingBounds
import Verif.Lemmas.RealForms

/-!
# Rounding errors of the hard sphere, chain and dispersion contributions
-/

namespace PcSaft
open Spec Props
variable {a : Arithmetic} {n : ℕ}

/-- parameters of the code with rounding: the numbers of the records and the combining rules of the dispersion term -/
structure ParametersAgree (a : Arithmetic) (p : PcSaftParameters n ℝ) (p' : PcSaftParameters n (Rd a)) : Prop where
  m : ∀ i, Agrees a 0 (p.m i) (p'.m i)
  sigma : ∀ i, Agrees a 0 (p.sigma i) (p'.sigma i)
  epsilon_k : ∀ i, Agrees a 0 (p.epsilon_k i) (p'.epsilon_k i)
  sigma_ij : ∀ i j, Agrees a 3 (p.sigma_ij i j) (p'.sigma_ij i j)
  epsilon_k_ij : ∀ i j, Agrees a 4 (p.epsilon_k_ij i j) (p'.epsilon_k_ij i j)

/-- states of the code with rounding -/
structure StateAgrees (a : Arithmetic) (s : StateHD n ℝ) (s' : StateHD n (Rd a)) : Prop where
  temperature : Agrees a 0 s.temperature s'.temperature
  volume : Agrees a 0 s.volume s'.volume
  molefracs : ∀ i, Agrees a (n + 1) (s.molefracs i) (s'.molefracs i)
  partial_density : ∀ i, Agrees a 1 (s.partial_density i) (s'.partial_density i)

/-- size of the hard sphere contribution -/
noncomputable def hsSizeForm (V z0 z1 z2 z3 z23 : ℝ) : ℝ :=
  V * 6 / Real.pi * (z1 * z2 * (1 - z3)⁻¹ * 3 + z2 ^ 2 * (1 - z3)⁻¹ ^ 2 * z23
    + (z2 * z23 ^ 2 + z0) * -Real.log (1 - z3))

/-- size of a perturbation integral -/
noncomputable def intSizeForm (a0 a1 a2 : Fin 7 → ℝ) (m eta : ℝ) : ℝ :=
  ∑ i, ((m + 1) / m * ((m + 2) / m * |a2 i| + |a1 i|) + |a0 i|) * eta ^ (i : ℕ)

section
variable (h : Relative a)
include h

/-! ### Literals -/

theorem agrees_nat {m : ℕ} {s : Bool} {e : ℕ} (j : ℕ) (hj : j < 2 ^ 53)
    (hm : (OfScientific.ofScientific m s e : ℝ) = j) : Agrees a 0 (j : ℝ) (OfScientific.ofScientific m s e : Rd a) := by
  have : (OfScientific.ofScientific m s e : Rd a) = ⟨(j : ℝ)⟩ := Rd.ext (h.int m s e j hj hm)
  rw [this]
  exact .exact (Nat.cast_nonneg j)

theorem agrees_two : Agrees a 0 2 (2.0 : Rd a) := by
  simpa using agrees_nat h (m := 20) (s := true) (e := 1) 2 (by norm_num) (by norm_num)
theorem agrees_three : Agrees a 0 3 (3.0 : Rd a) := by
  simpa using agrees_nat h (m := 30) (s := true) (e := 1) 3 (by norm_num) (by norm_num)
theorem agrees_four : Agrees a 0 4 (4.0 : Rd a) := by
  simpa using agrees_nat h (m := 40) (s := true) (e := 1) 4 (by norm_num) (by norm_num)
theorem agrees_six : Agrees a 0 6 (6.0 : Rd a) := by
  simpa using agrees_nat h (m := 60) (s := true) (e := 1) 6 (by norm_num) (by norm_num)
theorem agrees_eight : Agrees a 0 8 (8.0 : Rd a) := by
  simpa using agrees_nat h (m := 80) (s := true) (e := 1) 8 (by norm_num) (by norm_num)
theorem agrees_twelve : Agrees a 0 12 (12.0 : Rd a) := by
  simpa using agrees_nat h (m := 120) (s := true) (e := 1) 12 (by norm_num) (by norm_num)
theorem agrees_twenty : Agrees a 0 20 (20.0 : Rd a) := by
  simpa using agrees_nat h (m := 200) (s := true) (e := 1) 20 (by norm_num) (by norm_num)
theorem agrees_twentyseven : Agrees a 0 27 (27.0 : Rd a) := by
  simpa using agrees_nat h (m := 270) (s := true) (e := 1) 27 (by norm_num) (by norm_num)

/-! ### Segment diameters and moments -/

theorem agrees_hsDiameter {p : PcSaftParameters n ℝ} {p' : PcSaftParameters n (Rd a)} (hp : ParametersAgree a p p')
    {T : ℝ} {T' : Rd a} (hT : Agrees a 0 T T') (hT0 : 0 < T) (hg : Growth a ^ 3 ≤ 3) (i : Fin n) :
    Agrees a 8 (hsDiameter p T i) (hsDiameter p' T' i) := by
  have e1 : Agrees a 0 3 (-(-3.0 : Rd a)) := by
    have := agrees_three h
    have e : (-(-3.0 : Rd a)) = 3.0 := Rd.ext (neg_neg _)
    rwa [e]
  have y1 := ((hT.recip h hT0).mul_neg h e1).neg_mul h (hp.epsilon_k i)
  have y2 := diameter_factor h y1
  set z : Rd a := DualNum.recip T' * c (-3.0 : Rd a) * c (p'.epsilon_k i) with hz
  have y3 : Agrees a 3 (1 - 0.12 * Real.exp (-(T⁻¹ * 3 * p.epsilon_k i))) ⟨1 - 0.12 * Real.exp z.val⟩ := by
    have : -((-z : Rd a).val) = z.val := neg_neg _
    rw [← this]
    exact y2
  have hz0 : z.val ≤ 0 := by
    have : 0 ≤ -z.val := y1.val_nonneg h
    linarith
  have y4 := (agrees_exp h z).mul h (Agrees.lit h 12 true 2)
  have hle : Real.exp z.val * (OfScientific.ofScientific 12 true 2 : ℝ) ≤ 1 / 4 := by
    have := Real.exp_le_one_iff.2 hz0
    have e : (OfScientific.ofScientific 12 true 2 : ℝ) = 12 / 100 := by norm_num
    rw [e]
    linarith
  have y5 := y4.one_sub_quarter h hle hg
  have e2 : 1 - Real.exp z.val * (OfScientific.ofScientific 12 true 2 : ℝ) = 1 - 0.12 * Real.exp z.val := by ring
  rw [e2] at y5
  have y6 := (y3.trans h y5).mul h (hp.sigma i)
  have e3 : (1 - 0.12 * Real.exp (-(T⁻¹ * 3 * p.epsilon_k i))) * p.sigma i = hsDiameter p T i := by
    rw [hsDiameter_real]
    have : -(T⁻¹ * 3 * p.epsilon_k i) = -3 * p.epsilon_k i / T := by ring
    rw [this]
    norm_num
    ring
  rw [e3] at y6
  exact y6

/-- the four moments -/
theorem agrees_zeta {m : Fin n → ℝ} {m' : Fin n → Rd a} (hm : ∀ i, Agrees a 0 (m i) (m' i)) {rho d : Fin n → ℝ}
    {rho' d' : Fin n → Rd a} (hr : ∀ i, Agrees a 1 (rho i) (rho' i)) (hd : ∀ i, Agrees a 8 (d i) (d' i)) (k : Fin 4) :
    Agrees a (9 * k + 6 + n) (zeta m rho d k) (zeta m' rho' d' k) := by
  have e : ∀ i, Agrees a (9 * k + 6) (rho i * d i ^ (k : ℕ) * (Real.pi / 6 * m i))
      (rho' i * DualNum.powi (d' i) k * c (F64.pi / 6.0 * m' i)) := fun i =>
    (((hr i).mul h ((hd i).powi h k)).mul h
      (((Agrees.pi h).div h (agrees_six h) (by norm_num)).mul h (hm i))).mono h (by omega)
  have := Agrees.sumFin h e
  rw [zeta_real, Finset.mul_sum]
  have e2 : ∑ i, Real.pi / 6 * (rho i * (m i * d i ^ (k : ℕ))) = ∑ i, rho i * d i ^ (k : ℕ) * (Real.pi / 6 * m i) :=
    Finset.sum_congr rfl fun i _ => by ring
  rw [e2]
  exact this

theorem agrees_zeta23 {m : Fin n → ℝ} {m' : Fin n → Rd a} (hm : ∀ i, Agrees a 0 (m i) (m' i)) {x d : Fin n → ℝ}
    {x' d' : Fin n → Rd a} (hx : ∀ i, Agrees a (n + 1) (x i) (x' i)) (hd : ∀ i, Agrees a 8 (d i) (d' i))
    (h0 : 0 < ∑ i, x i * (m i * d i ^ 3)) : Agrees a (52 + 4 * n) (zeta23 m x d) (zeta23 m' x' d') := by
  have e : ∀ k, Agrees a (n + (9 * k + 21) + n) (∑ i, x i * (m i * d i ^ (k + 2)))
      (sumFin (fun i => x' i * DualNum.powi (d' i) (k + 2) * c (m' i))) := fun k => by
    have := Agrees.sumFin h (k := n + (9 * k + 21)) (x := fun i => x i * d i ^ (k + 2) * m i) fun i =>
      (((hx i).mul h ((hd i).powi h (k + 2))).mul h (hm i)).mono h (by omega)
    have e2 : ∑ i, x i * (m i * d i ^ (k + 2)) = ∑ i, x i * d i ^ (k + 2) * m i :=
      Finset.sum_congr rfl fun i _ => by ring
    rw [e2]
    exact this
  rw [zeta23_real]
  exact ((e 0).div h (e 1) h0).mono h (by omega)

/-- `1 / (1 - ζ₃)` -/
theorem agrees_frac {k : ℕ} {z3 : ℝ} {z3' : Rd a} (hz : Agrees a k z3 z3') (h2 : z3 ≤ 1 / 2) (hg : Growth a ^ k ≤ 3 / 2) :
    Agrees a (2 * k + 2) (1 - z3)⁻¹ (-(DualNum.recip (z3' - c (1.0 : Rd a)))) :=
  (hz.one_sub_half h h2 hg).recip_neg h (by linarith)

/-! ### Contact value and chains -/

theorem agrees_gHs {z2 z3 d : ℝ} {z2' z3' d' : Rd a} (hz2 : Agrees a (24 + n) z2 z2') (hz3 : Agrees a (33 + n) z3 z3')
    (hd : Agrees a 8 d d') (h2 : z3 ≤ 1 / 2) (hg : Growth a ^ (33 + n) ≤ 3 / 2) :
    Agrees a (416 + 12 * n) (gForm z2 z3 d) (gHs z2' z3' d') := by
  have hf := agrees_frac h hz3 h2 hg
  have hw := hz3.one_sub_half h h2 hg
  have hc := (hz2.mul h hf).mul h hf
  have t1 := ((hd.mul h hc).mul h (Agrees.lit h 15 true 1)).mono h (show _ ≤ 173 + 5 * n by omega)
  have t2 := ((hf.mono h (show _ ≤ 173 + 5 * n by omega)).add h t1).mono h (show _ ≤ 415 + 12 * n by omega)
  have t3 := ((((hd.powi h 2).mul h (hc.powi h 2)).mul_neg h hw).neg_mul h (Agrees.lit h 5 true 1)).mono h
    (show _ ≤ 415 + 12 * n by omega)
  have := t2.sub_neg h t3
  have e : gForm z2 z3 d = (1 - z3)⁻¹ + d * (z2 * (1 - z3)⁻¹ * (1 - z3)⁻¹) * (OfScientific.ofScientific 15 true 1 : ℝ)
      + d ^ 2 * (z2 * (1 - z3)⁻¹ * (1 - z3)⁻¹) ^ 2 * (1 - z3) * (OfScientific.ofScientific 5 true 1 : ℝ) := by
    have h3 : (1.5 : ℝ) = 3 / 2 := by norm_num
    have h4 : (0.5 : ℝ) = 1 / 2 := by norm_num
    have h' : 1 - z3 ≠ 0 := by linarith
    rw [gForm, h3, h4]
    field_simp
  rw [e]
  exact this.mono h (by omega)

theorem differs_hardChain {p : PcSaftParameters n ℝ} {p' : PcSaftParameters n (Rd a)} (hp : ParametersAgree a p p')
    {s : StateHD n ℝ} {s' : StateHD n (Rd a)} (hs : StateAgrees a s s') (hT0 : 0 < s.temperature)
    (h2 : zeta p.m s.partial_density (hsDiameter p s.temperature) 3 ≤ 1 / 2) (hg : Growth a ^ (33 + n) ≤ 3 / 2) :
    Differs a (422 + 13 * n) ((∑ i, s.partial_density i * |1 - p.m i| * (1 + Real.log
        (gForm (zeta p.m s.partial_density (hsDiameter p s.temperature) 2)
          (zeta p.m s.partial_density (hsDiameter p s.temperature) 3) (hsDiameter p s.temperature i)))) * s.volume)
      (hardChain p s) (hardChain p' s') := by
  have hg3 : Growth a ^ 3 ≤ 3 := by linarith [growth_mono h (show 3 ≤ 33 + n by omega)]
  have hd := agrees_hsDiameter h hp hs.temperature hT0 hg3
  have hz := agrees_zeta h hp.m hs.partial_density hd
  set d := hsDiameter p s.temperature
  have hz2 : Agrees a (24 + n) (zeta p.m s.partial_density d 2) _ := (hz 2)
  have hz3 : Agrees a (33 + n) (zeta p.m s.partial_density d 3) _ := (hz 3)
  have g1 : ∀ i, 1 ≤ gForm (zeta p.m s.partial_density d 2) (zeta p.m s.partial_density d 3) (d i) := fun i => by
    have h0 := hz3.nonneg
    have h1 := hz2.nonneg
    have h3 := (hd i).nonneg
    have hw : 0 < 1 - zeta p.m s.partial_density d 3 := by linarith
    rw [gForm]
    have k1 : 1 ≤ 1 / (1 - zeta p.m s.partial_density d 3) := by
      rw [le_div_iff₀ hw]
      linarith
    have k2 : 0 ≤ 3 / 2 * d i * zeta p.m s.partial_density d 2 / (1 - zeta p.m s.partial_density d 3) ^ 2 := by positivity
    have k3 : 0 ≤ 1 / 2 * d i ^ 2 * zeta p.m s.partial_density d 2 ^ 2 / (1 - zeta p.m s.partial_density d 3) ^ 3 := by
      positivity
    linarith
  have e : ∀ i, Differs a (421 + 12 * n) (s.partial_density i * |1 - p.m i| * (1 + Real.log
        (gForm (zeta p.m s.partial_density d 2) (zeta p.m s.partial_density d 3) (d i))))
      (s.partial_density i * (1 - p.m i) * Real.log
        (gForm (zeta p.m s.partial_density d 2) (zeta p.m s.partial_density d 3) (d i))) _ := fun i => by
    have hm : Differs a 1 |1 - p.m i| (1 - p.m i) ((1.0 : Rd a) - p'.m i) := by
      have e0 : (1.0 : Rd a).val = 1 := h.one
      have e1 : (p'.m i).val = p.m i := by
        have u := (hp.m i).upper
        have l := (hp.m i).lower
        rw [pow_zero, mul_one] at u l
        exact le_antisymm u l
      have e2 : Differs a 0 |1 - p.m i| (1 - p.m i) (⟨1 - p.m i⟩ : Rd a) := ⟨le_rfl, by simp⟩
      refine e2.round h ?_
      have := h.sub (1.0 : Rd a).val (p'.m i).val
      rw [e0, e1] at this
      change |a.sub (1.0 : Rd a).val (p'.m i).val - _| ≤ _
      rw [e0, e1]
      exact this
    exact ((((hs.partial_density i).differs h).mul h hm).mul h
      (agrees_ln h (agrees_gHs h hz2 hz3 (hd i) h2 hg) (g1 i))).mono h (by omega) le_rfl
  have := ((Differs.sumFin h e).mul h (hs.volume.differs h)).mono h (show _ ≤ 422 + 13 * n by omega) le_rfl
  rw [hardChain_real]
  have e3 : s.volume * ∑ i, s.partial_density i * ((1 - p.m i)
      * Real.log (gHs (zeta p.m s.partial_density d 2) (zeta p.m s.partial_density d 3) (d i)))
      = (∑ i, s.partial_density i * (1 - p.m i) * Real.log
        (gForm (zeta p.m s.partial_density d 2) (zeta p.m s.partial_density d 3) (d i))) * s.volume := by
    rw [mul_comm]
    congr 1
    exact Finset.sum_congr rfl fun i _ => by rw [gHs_real _ _ _ (by linarith)]; ring
  rw [e3]
  exact this

/-! ### Hard spheres -/

theorem differs_hardSphere {p : PcSaftParameters n ℝ} {p' : PcSaftParameters n (Rd a)} (hp : ParametersAgree a p p')
    {s : StateHD n ℝ} {s' : StateHD n (Rd a)} (hs : StateAgrees a s s') (hT0 : 0 < s.temperature)
    (h2 : zeta p.m s.partial_density (hsDiameter p s.temperature) 3 ≤ 1 / 2)
    (h0 : 0 < ∑ i, s.molefracs i * (p.m i * hsDiameter p s.temperature i ^ 3)) (hg : Growth a ^ (34 + n) ≤ 3 / 2) :
    Differs a (275 + 13 * n) (hsSizeForm s.volume (zeta p.m s.partial_density (hsDiameter p s.temperature) 0)
        (zeta p.m s.partial_density (hsDiameter p s.temperature) 1)
        (zeta p.m s.partial_density (hsDiameter p s.temperature) 2)
        (zeta p.m s.partial_density (hsDiameter p s.temperature) 3)
        (zeta23 p.m s.molefracs (hsDiameter p s.temperature)))
      (hardSphere p s) (hardSphere p' s') := by
  have hg3 : Growth a ^ 3 ≤ 3 := by linarith [growth_mono h (show 3 ≤ 34 + n by omega)]
  have hg' : Growth a ^ (33 + n) ≤ 3 / 2 := by linarith [growth_mono h (show 33 + n ≤ 34 + n by omega)]
  have hd := agrees_hsDiameter h hp hs.temperature hT0 hg3
  have hz := agrees_zeta h hp.m hs.partial_density hd
  have hz23 := agrees_zeta23 h hp.m hs.molefracs hd h0
  rw [hardSphere_real]
  set d := hsDiameter p s.temperature
  have hz0 : Agrees a (6 + n) (zeta p.m s.partial_density d 0) _ := (hz 0)
  have hz1 : Agrees a (15 + n) (zeta p.m s.partial_density d 1) _ := (hz 1)
  have hz2 : Agrees a (24 + n) (zeta p.m s.partial_density d 2) _ := (hz 2)
  have hz3 : Agrees a (33 + n) (zeta p.m s.partial_density d 3) _ := (hz 3)
  have hf := agrees_frac h hz3 h2 hg'
  have t1 := (((hz1.mul h hz2).mul h hf).mul h (agrees_three h)).mono h (show _ ≤ 242 + 10 * n by omega)
  have t2 := (((hz2.powi h 2).mul h (hf.powi h 2)).mul h hz23).mono h (show _ ≤ 242 + 10 * n by omega)
  have t3 := ((hz2.mul h (hz23.powi h 2)).differs h |>.mono h (show _ ≤ 131 + 9 * n by omega) le_rfl).sub h
    ((hz0.differs h).mono h (show _ ≤ 131 + 9 * n by omega) le_rfl)
  have e1 : Agrees a 0 1 (-(-1.0 : Rd a)) := by
    have := Agrees.one h
    have e : (-(-1.0 : Rd a)) = 1.0 := Rd.ext (neg_neg _)
    rwa [e]
  have w := hz3.mul_neg h e1
  rw [mul_one] at w
  have t4 := ((agrees_ln1p h (w.mono h (show _ ≤ 34 + n by omega)) h2 hg).differs h).neg
  rw [neg_neg] at t4
  have t5 := (((t1.add h t2).differs h).mono h (show _ ≤ 270 + 13 * n by omega) le_rfl).add h
    ((t3.mul h t4).mono h (show _ ≤ 270 + 13 * n by omega) le_rfl)
  have t6 := ((((hs.volume.mul h (agrees_six h)).div h (Agrees.pi h) Real.pi_pos).differs h).mul h t5).mono h
    (show _ ≤ 275 + 13 * n by omega) le_rfl
  have e2 : ∀ x : Rd a, -(-x) = x := fun x => Rd.ext (neg_neg _)
  rw [e2] at t6
  have e3 : hsForm s.volume (zeta p.m s.partial_density d 0) (zeta p.m s.partial_density d 1)
      (zeta p.m s.partial_density d 2) (zeta p.m s.partial_density d 3) (zeta23 p.m s.molefracs d)
      = s.volume * 6 / Real.pi * (zeta p.m s.partial_density d 1 * zeta p.m s.partial_density d 2
          * (1 - zeta p.m s.partial_density d 3)⁻¹ * 3
        + zeta p.m s.partial_density d 2 ^ 2 * (1 - zeta p.m s.partial_density d 3)⁻¹ ^ 2 * zeta23 p.m s.molefracs d
        + (zeta p.m s.partial_density d 2 * zeta23 p.m s.molefracs d ^ 2 - zeta p.m s.partial_density d 0)
          * Real.log (1 - zeta p.m s.partial_density d 3)) := by
    rw [hsForm]
    generalize 1 - zeta p.m s.partial_density d 3 = w
    ring
  rw [e3]
  exact t6

/-! ### Dispersion -/

theorem differs_lit (m : ℕ) (s : Bool) (e : ℕ) : Differs a 1 |(OfScientific.ofScientific m s e : ℝ)|
    (OfScientific.ofScientific m s e) (OfScientific.ofScientific m s e : Rd a) := by
  have := (Agrees.lit h m s e)
  rw [abs_of_nonneg this.nonneg]
  exact this.differs h

theorem differs_neg_lit (m : ℕ) (s : Bool) (e : ℕ) : Differs a 1 |-(OfScientific.ofScientific m s e : ℝ)|
    (-(OfScientific.ofScientific m s e)) (-(OfScientific.ofScientific m s e : Rd a)) := by
  rw [abs_neg]
  exact (differs_lit h m s e).neg

theorem differs_constants (i : Fin 7) : Differs a 1 |(A0 i : ℝ)| (A0 i) (A0 i) ∧ Differs a 1 |(A1 i : ℝ)| (A1 i) (A1 i)
    ∧ Differs a 1 |(A2 i : ℝ)| (A2 i) (A2 i) ∧ Differs a 1 |(B0 i : ℝ)| (B0 i) (B0 i)
    ∧ Differs a 1 |(B1 i : ℝ)| (B1 i) (B1 i) ∧ Differs a 1 |(B2 i : ℝ)| (B2 i) (B2 i) := by
  fin_cases i <;> refine ⟨?_, ?_, ?_, ?_, ?_, ?_⟩ <;>
    first | exact differs_lit h _ _ _ | exact differs_neg_lit h _ _ _

/-- a loop with a running power -/
theorem differs_powerLoop {L k B : ℕ} (q : ℕ) {s f : Fin q → ℝ} {f' : Fin q → Rd a}
    (hf : ∀ i, Differs a L (s i) (f i) (f' i)) {eta : ℝ} {eta' : Rd a} (he : Agrees a k eta eta')
    (hB : ∀ i : Fin q, L + i * (k + 1) + 1 ≤ B) :
    Differs a (B + q) (∑ i, s i * eta ^ (i : ℕ)) (∑ i, f i * eta ^ (i : ℕ))
      (Fin.foldl q (fun (acc : Rd a × Rd a) i => (acc.1 + f' i * acc.2, acc.2 * eta'))
        (c (0.0 : Rd a), c (1.0 : Rd a))).1
    ∧ Agrees a (q * (k + 1)) (eta ^ q)
      (Fin.foldl q (fun (acc : Rd a × Rd a) i => (acc.1 + f' i * acc.2, acc.2 * eta'))
        (c (0.0 : Rd a), c (1.0 : Rd a))).2 := by
  induction q with
  | zero => exact ⟨by simpa using Differs.zero, by
      rw [Nat.zero_mul, pow_zero]
      exact Agrees.one h⟩
  | succ q ih =>
    obtain ⟨h1, h2⟩ := ih (fun i => hf i.castSucc) (fun i => hB i.castSucc)
    rw [Fin.foldl_succ_last, Fin.sum_univ_castSucc, Fin.sum_univ_castSucc]
    constructor
    · have hq := hB (Fin.last q)
      rw [Fin.val_last] at hq
      exact h1.add h (((hf (Fin.last q)).mul h (h2.differs h)).mono h (hq.trans (Nat.le_add_right B q)) le_rfl)
    · rw [pow_succ]
      exact (h2.mul h he).mono h (by rw [Nat.succ_mul]; omega)

theorem differs_integral {a0 a1 a2 : Fin 7 → ℝ} {a0' a1' a2' : Fin 7 → Rd a} (h0 : ∀ i, Differs a 1 |a0 i| (a0 i) (a0' i))
    (h1 : ∀ i, Differs a 1 |a1 i| (a1 i) (a1' i)) (h2 : ∀ i, Differs a 1 |a2 i| (a2 i) (a2' i)) {j k : ℕ} {m eta : ℝ}
    {m' eta' : Rd a} (hm : Agrees a j m m') (hm0 : 0 < m) (he : Agrees a k eta eta') :
    Differs a (4 * j + 6 * k + 23) (intSizeForm a0 a1 a2 m eta) (dispersionIntegral a0 a1 a2 m eta)
      (dispersionIntegral a0' a1' a2' m' eta') := by
  have b1 := (((hm.differs h).sub h (((Agrees.one h).differs h).mono h (Nat.zero_le j) le_rfl)).div h hm hm0)
  have b2 := (((hm.differs h).sub h (((agrees_two h).differs h).mono h (Nat.zero_le j) le_rfl)).div h hm hm0)
  have t : ∀ i, Differs a (4 * j + 9) ((m + 1) / m * ((m + 2) / m * |a2 i| + |a1 i|) + |a0 i|)
      ((m - 1) / m * ((m - 2) / m * a2 i + a1 i) + a0 i)
      ((m' - c (1.0 : Rd a)) / m' * ((m' - c (2.0 : Rd a)) / m' * c (a2' i) + c (a1' i)) + c (a0' i)) := fun i => by
    have c1 := ((b2.mul h (h2 i)).mono h (show _ ≤ 2 * j + 4 by omega) le_rfl).add h
      ((h1 i).mono h (show _ ≤ 2 * j + 4 by omega) le_rfl)
    exact ((b1.mul h c1).mono h (show _ ≤ 4 * j + 8 by omega) le_rfl).add h
      ((h0 i).mono h (show _ ≤ 4 * j + 8 by omega) le_rfl)
  have := (differs_powerLoop h (B := 4 * j + 6 * k + 16) 7 t he (fun i => by
    have := i.isLt
    have h6 : (i : ℕ) ≤ 6 := by omega
    have := Nat.mul_le_mul_right (k + 1) h6
    omega)).1
  rw [dispersionIntegral_real]
  exact this

theorem agrees_two_sub {k : ℕ} {x : ℝ} {x' : Rd a} (hx : Agrees a k x x') (h2 : x ≤ 1 / 2) (hg : Growth a ^ k ≤ 3) :
    Agrees a (k + 1) (2 - x) (-(x' - 2.0)) := by
  have g := growth_pow h k
  have h0 := hx.nonneg
  have h0' := hx.val_nonneg h
  have hu := hx.upper
  have hl := hx.lower
  have e1 : (2.0 : Rd a).val = 2 := by
    have := agrees_two h
    have u := this.upper
    have l := this.lower
    rw [pow_zero, mul_one] at u l
    exact le_antisymm u l
  have e : Agrees a k (2 - x) ⟨2 - x'.val⟩ := by
    refine ⟨by linarith, ?_, ?_⟩
    · change 2 - x ≤ (2 - x'.val) * _
      generalize Growth a ^ k = G at *
      nlinarith [mul_nonneg (sub_nonneg.2 g) (sub_nonneg.2 h2), mul_nonneg h0 (sub_nonneg.2 g)]
    · change 2 - x'.val ≤ (2 - x) * _
      generalize Growth a ^ k = G at *
      nlinarith [mul_nonneg (sub_nonneg.2 g) (sub_nonneg.2 h2), mul_nonneg h0 (sub_nonneg.2 g)]
  refine e.trans h (.round h ?_ (e.val_nonneg h))
  have := h.sub x'.val (2.0 : Rd a).val
  rw [e1] at this
  change |-a.sub x'.val (2.0 : Rd a).val - (2 - x'.val)| ≤ a.u * |2 - x'.val|
  rw [e1, abs_sub_comm 2 x'.val, ← abs_neg]
  convert this using 2
  ring

theorem agrees_neg_mul_neg {k l : ℕ} {x y : ℝ} {x' y' : Rd a} (hx : Agrees a k x (-x')) (hy : Agrees a l y (-y')) :
    Agrees a (k + l + 1) (x * y) (x' * y') := by
  have e := hx.mulE h hy
  refine e.trans h (.round h ?_ (e.val_nonneg h))
  have := h.mul x'.val y'.val
  change |a.mul x'.val y'.val - -x'.val * -y'.val| ≤ a.u * |-x'.val * -y'.val|
  rwa [neg_mul_neg]

omit h in
/-- the terms in the denominator of `c1` are not much larger than their sum -/
theorem c1_size {m eta : ℝ} (hm : 1 ≤ m) (h0 : 0 ≤ eta) (h2 : eta ≤ 1 / 2) :
    m * (eta * 8 + eta ^ 2 * 2) / (1 - eta) ^ 4
      + (1 + m) * (eta * 20 + eta ^ 2 * 27 + eta ^ 3 * 12 + eta ^ 4 * 2) / ((1 - eta) * (2 - eta)) ^ 2 + 1
    ≤ 6 * (m * (eta * 8 - eta ^ 2 * 2) / (1 - eta) ^ 4
      + (1 - m) * (eta * 20 - eta ^ 2 * 27 + eta ^ 3 * 12 - eta ^ 4 * 2) / ((1 - eta) * (2 - eta)) ^ 2 + 1) := by
  have hw : 0 < 1 - eta := by linarith
  have hv : 0 < 2 - eta := by linarith
  -- both fractions over one denominator
  have k1 : (6 * (eta * 20 - eta ^ 2 * 27 + eta ^ 3 * 12 - eta ^ 4 * 2)
        + (eta * 20 + eta ^ 2 * 27 + eta ^ 3 * 12 + eta ^ 4 * 2)) / ((1 - eta) * (2 - eta)) ^ 2
      ≤ (6 * (eta * 8 - eta ^ 2 * 2) - (eta * 8 + eta ^ 2 * 2)) / (1 - eta) ^ 4 := by
    rw [div_le_div_iff₀ (by positivity) (by positivity)]
    have : 0 ≤ eta * (1 - eta) ^ 2 * ((40 - 14 * eta) * (2 - eta) ^ 2
        - (140 - 135 * eta + 84 * eta ^ 2 - 10 * eta ^ 3) * (1 - eta) ^ 2) := by
      apply mul_nonneg (by positivity)
      nlinarith [mul_nonneg h0 (sub_nonneg.2 h2), mul_nonneg (mul_nonneg h0 h0) (sub_nonneg.2 h2),
        mul_nonneg (mul_nonneg (mul_nonneg h0 h0) h0) (sub_nonneg.2 h2),
        mul_nonneg (mul_nonneg (mul_nonneg (mul_nonneg h0 h0) h0) h0) (sub_nonneg.2 h2)]
    nlinarith [this]
  have k2 : 2 * (eta * 20 + eta ^ 2 * 27 + eta ^ 3 * 12 + eta ^ 4 * 2) / ((1 - eta) * (2 - eta)) ^ 2
      ≤ 5 + (6 * (eta * 8 - eta ^ 2 * 2) - (eta * 8 + eta ^ 2 * 2)) / (1 - eta) ^ 4 := by
    have : 2 * (eta * 20 + eta ^ 2 * 27 + eta ^ 3 * 12 + eta ^ 4 * 2) / ((1 - eta) * (2 - eta)) ^ 2
        ≤ (6 * (eta * 8 - eta ^ 2 * 2) - (eta * 8 + eta ^ 2 * 2)) / (1 - eta) ^ 4 := by
      rw [div_le_div_iff₀ (by positivity) (by positivity)]
      have : 0 ≤ eta * (1 - eta) ^ 2 * ((40 - 14 * eta) * (2 - eta) ^ 2
          - 2 * (20 + 27 * eta + 12 * eta ^ 2 + 2 * eta ^ 3) * (1 - eta) ^ 2) := by
        apply mul_nonneg (by positivity)
        nlinarith [mul_nonneg h0 (sub_nonneg.2 h2), mul_nonneg (mul_nonneg h0 h0) (sub_nonneg.2 h2),
          mul_nonneg (mul_nonneg (mul_nonneg h0 h0) h0) (sub_nonneg.2 h2),
          mul_nonneg (mul_nonneg (mul_nonneg (mul_nonneg h0 h0) h0) h0) (sub_nonneg.2 h2)]
      nlinarith [this]
    linarith
  have e : 6 * (m * (eta * 8 - eta ^ 2 * 2) / (1 - eta) ^ 4
      + (1 - m) * (eta * 20 - eta ^ 2 * 27 + eta ^ 3 * 12 - eta ^ 4 * 2) / ((1 - eta) * (2 - eta)) ^ 2 + 1)
      - (m * (eta * 8 + eta ^ 2 * 2) / (1 - eta) ^ 4
      + (1 + m) * (eta * 20 + eta ^ 2 * 27 + eta ^ 3 * 12 + eta ^ 4 * 2) / ((1 - eta) * (2 - eta)) ^ 2 + 1)
      = (m - 1) * ((6 * (eta * 8 - eta ^ 2 * 2) - (eta * 8 + eta ^ 2 * 2)) / (1 - eta) ^ 4
          - (6 * (eta * 20 - eta ^ 2 * 27 + eta ^ 3 * 12 - eta ^ 4 * 2)
        + (eta * 20 + eta ^ 2 * 27 + eta ^ 3 * 12 + eta ^ 4 * 2)) / ((1 - eta) * (2 - eta)) ^ 2)
        + (5 + (6 * (eta * 8 - eta ^ 2 * 2) - (eta * 8 + eta ^ 2 * 2)) / (1 - eta) ^ 4
          - 2 * (eta * 20 + eta ^ 2 * 27 + eta ^ 3 * 12 + eta ^ 4 * 2) / ((1 - eta) * (2 - eta)) ^ 2) := by
    ring
  have := mul_nonneg (sub_nonneg.2 hm) (sub_nonneg.2 k1)
  linarith

theorem agrees_c1 {j k : ℕ} {m eta : ℝ} {m' eta' : Rd a} (hm : Agrees a j m m') (hm1 : 1 ≤ m) (he : Agrees a k eta eta')
    (h2 : eta ≤ 1 / 2) (hg : Growth a ^ (j + 10 * k + 19) ≤ 13 / 12) :
    Agrees a (12 * (j + 10 * k + 19) + 1) (dispersionC1 m eta) (dispersionC1 m' eta') := by
  have hgk : Growth a ^ k ≤ 3 / 2 := by linarith [growth_mono h (show k ≤ j + 10 * k + 19 by omega)]
  have w1 := he.one_sub_half h h2 hgk
  have w2 := agrees_two_sub h he h2 (by linarith)
  have n1 := ((he.mul h (agrees_eight h)).differs h |>.mono h (show _ ≤ 2 * k + 3 by omega) le_rfl).sub h
    ((((he.powi h 2).mul h (agrees_two h)).differs h).mono h (show _ ≤ 2 * k + 3 by omega) le_rfl)
  have f1 := ((hm.differs h).mul h n1).div h (w1.powi_neg h (j := 4) (by decide)) (pow_pos (by linarith) 4)
  have n2 := ((he.mul h (agrees_twenty h)).differs h |>.mono h (show _ ≤ 2 * k + 3 by omega) le_rfl).sub h
    ((((he.powi h 2).mul h (agrees_twentyseven h)).differs h).mono h (show _ ≤ 2 * k + 3 by omega) le_rfl)
  have n3 := (n2.mono h (show _ ≤ 3 * k + 4 by omega) le_rfl).add h
    ((((he.powi h 3).mul h (agrees_twelve h)).differs h).mono h (show _ ≤ 3 * k + 4 by omega) le_rfl)
  have n4 := (n3.mono h (show _ ≤ 4 * k + 5 by omega) le_rfl).sub h
    ((((he.powi h 4).mul h (agrees_two h)).differs h).mono h (show _ ≤ 4 * k + 5 by omega) le_rfl)
  have m1 := (((Agrees.one h).differs h).mono h (Nat.zero_le j) le_rfl).sub h (hm.differs h)
  have f2 := (m1.mul h n4).div h ((agrees_neg_mul_neg h w1 w2).powi h 2)
    (pow_pos (mul_pos (by linarith) (by linarith)) 2)
  have f3 := (f1.mono h (show _ ≤ j + 10 * k + 17 by omega) le_rfl).add h
    (f2.mono h (show _ ≤ j + 10 * k + 17 by omega) le_rfl)
  have f4 := f3.add h (((Agrees.one h).differs h).mono h (Nat.zero_le _) le_rfl)
  have hsz := c1_size hm1 he.nonneg h2
  have hpos := f4.size_nonneg
  have h0 : 0 < m * (eta * 8 - eta ^ 2 * 2) / (1 - eta) ^ 4
      + (1 - m) * (eta * 20 - eta ^ 2 * 27 + eta ^ 3 * 12 - eta ^ 4 * 2) / ((1 - eta) * (2 - eta)) ^ 2 + 1 := by
    have hw : 0 < 1 - eta := by linarith
    have hv : 0 < 2 - eta := by linarith
    have he0 := he.nonneg
    have : 0 ≤ m * (eta * 8 + eta ^ 2 * 2) / (1 - eta) ^ 4
      + (1 + m) * (eta * 20 + eta ^ 2 * 27 + eta ^ 3 * 12 + eta ^ 4 * 2) / ((1 - eta) * (2 - eta)) ^ 2 := by positivity
    linarith
  have f5 := (f4.agrees h (κ := 6) (by push_cast; exact hsz) h0.le (by
    push_cast
    linarith)).recip h h0
  have e : dispersionC1 m eta = (m * (eta * 8 - eta ^ 2 * 2) / (1 - eta) ^ 4
      + (1 - m) * (eta * 20 - eta ^ 2 * 27 + eta ^ 3 * 12 - eta ^ 4 * 2) / ((1 - eta) * (2 - eta)) ^ 2 + 1)⁻¹ := by
    rw [dispersionC1_real, c1Form]
    congr 1
    ring
  rw [e]
  exact f5.mono h (by omega)

theorem agrees_sumFin2 {k q r : ℕ} {x : Fin q → Fin r → ℝ} {x' : Fin q → Fin r → Rd a}
    (hx : ∀ i j, Agrees a k (x i j) (x' i j)) : Agrees a (k + q * r) (∑ i, ∑ j, x i j) (sumFin2 x') := by
  unfold sumFin2
  induction q with
  | zero =>
    have : (c (0.0 : Rd a) : Rd a) = ⟨0⟩ := Rd.ext (a.lit_zero _ _)
    rw [Fin.foldl_zero, this, Finset.univ_eq_empty, Finset.sum_empty]
    exact (Agrees.exact le_rfl).mono h (Nat.zero_le _)
  | succ q ih =>
    rw [Fin.foldl_succ_last, Fin.sum_univ_castSucc]
    have := Agrees.foldl h (fun j => (hx (Fin.last q) j).mono h (Nat.le_add_right k (q * r))) (ih fun i j => hx i.castSucc j)
    exact this.mono h (by rw [Nat.succ_mul]; omega)

theorem agrees_rhomix {p : PcSaftParameters n ℝ} {p' : PcSaftParameters n (Rd a)} (hp : ParametersAgree a p p')
    {T : ℝ} {T' : Rd a} (hT : Agrees a 0 T T') (hT0 : 0 < T) {rho : Fin n → ℝ} {rho' : Fin n → Rd a}
    (hr : ∀ i, Agrees a 1 (rho i) (rho' i)) :
    Agrees a (25 + n * n) (rho1mix p T rho) (rho1mix p' T' rho')
      ∧ Agrees a (32 + n * n) (rho2mix p T rho) (rho2mix p' T' rho') := by
  have he : ∀ i j, Agrees a 6 (T⁻¹ * p.epsilon_k_ij i j) (DualNum.recip T' * c (p'.epsilon_k_ij i j)) := fun i j =>
    (hT.recip h hT0).mul h (hp.epsilon_k_ij i j)
  have hm : ∀ i j, Agrees a 5 (rho i * rho j * p.m i * p.m j) (rho' i * rho' j * c (p'.m i) * c (p'.m j)) := fun i j =>
    (((hr i).mul h (hr j)).mul h (hp.m i)).mul h (hp.m j)
  constructor
  · rw [rho1mix_real]
    have := agrees_sumFin2 h (k := 25) fun i j => (((hm i j).mul h (he i j)).mul h ((hp.sigma_ij i j).powi h 3)).mono h
      (by omega)
    refine Eq.subst (motive := fun z => Agrees a _ z _) ?_ this
    exact Finset.sum_congr rfl fun i _ => Finset.sum_congr rfl fun j _ => by ring
  · rw [rho2mix_real]
    have := agrees_sumFin2 h (k := 32) fun i j => ((((hm i j).mul h (he i j)).mul h (he i j)).mul h
      ((hp.sigma_ij i j).powi h 3)).mono h (by omega)
    refine Eq.subst (motive := fun z => Agrees a _ z _) ?_ this
    exact Finset.sum_congr rfl fun i _ => Finset.sum_congr rfl fun j _ => by ring

theorem agrees_packing {m : Fin n → ℝ} {m' : Fin n → Rd a} (hm : ∀ i, Agrees a 0 (m i) (m' i)) {rho d : Fin n → ℝ}
    {rho' d' : Fin n → Rd a} (hr : ∀ i, Agrees a 1 (rho i) (rho' i)) (hd : ∀ i, Agrees a 8 (d i) (d' i)) :
    Agrees a (39 + n) (zeta m rho d 3) (packingFraction m' rho' (fun i => d' i * c (0.5 : Rd a))) := by
  have e : ∀ i, Agrees a 35 (rho i * m i * (d i * (0.5 : ℝ)) * (d i * (0.5 : ℝ)) * (d i * (0.5 : ℝ)))
      (rho' i * c (m' i) * (d' i * c (0.5 : Rd a)) * (d' i * c (0.5 : Rd a)) * (d' i * c (0.5 : Rd a))) := fun i =>
    have r := (hd i).mul h (Agrees.lit h 5 true 1)
    (((((hr i).mul h (hm i)).mul h r).mul h r).mul h r)
  have := ((Agrees.sumFin h e).mul h (agrees_four h)).mul h ((Agrees.pi h).div h (agrees_three h) (by norm_num))
  rw [zeta3_real]
  have e2 : Real.pi / 6 * ∑ i, rho i * (m i * d i ^ 3)
      = (∑ i, rho i * m i * (d i * (0.5 : ℝ)) * (d i * (0.5 : ℝ)) * (d i * (0.5 : ℝ))) * 4 * (Real.pi / 3) := by
    rw [Finset.sum_mul, Finset.sum_mul, Finset.mul_sum]
    refine Finset.sum_congr rfl fun i _ => ?_
    norm_num
    ring
  rw [e2]
  exact this.mono h (by omega)

theorem differs_dispersion {p : PcSaftParameters n ℝ} {p' : PcSaftParameters n (Rd a)} (hp : ParametersAgree a p p')
    {s : StateHD n ℝ} {s' : StateHD n (Rd a)} (hs : StateAgrees a s s') (hT0 : 0 < s.temperature)
    (h2 : zeta p.m s.partial_density (hsDiameter p s.temperature) 3 ≤ 1 / 2)
    (hm1 : 1 ≤ ∑ i, s.molefracs i * p.m i) (hg : Growth a ^ (411 + 12 * n) ≤ 13 / 12) :
    Differs a (5239 + 160 * n + n * n)
      ((rho1mix p s.temperature s.partial_density * intSizeForm A0 A1 A2 (∑ i, s.molefracs i * p.m i)
            (zeta p.m s.partial_density (hsDiameter p s.temperature) 3) * 2
          + rho2mix p s.temperature s.partial_density * (∑ i, s.molefracs i * p.m i)
            * c1Form (∑ i, s.molefracs i * p.m i) (zeta p.m s.partial_density (hsDiameter p s.temperature) 3)
            * intSizeForm B0 B1 B2 (∑ i, s.molefracs i * p.m i)
              (zeta p.m s.partial_density (hsDiameter p s.temperature) 3)) * Real.pi * s.volume)
      (dispersion p s) (dispersion p' s') := by
  have hg3 : Growth a ^ 3 ≤ 3 := by linarith [growth_mono h (show 3 ≤ 411 + 12 * n by omega)]
  have hd := agrees_hsDiameter h hp hs.temperature hT0 hg3
  have he := agrees_packing h hp.m hs.partial_density hd
  have hmm := Agrees.sumFin h fun i => (hs.molefracs i).mul h (hp.m i)
  obtain ⟨hr1, hr2⟩ := agrees_rhomix h hp hs.temperature hT0 hs.partial_density
  have hc := agrees_c1 h (hmm.mono h (show _ ≤ 2 * n + 2 by omega)) hm1 he h2 (by
    linarith [growth_mono h (show 2 * n + 2 + 10 * (39 + n) + 19 ≤ 411 + 12 * n by omega)])
  rw [dispersion_real, dispForm, ← dispersionIntegral_real, ← dispersionIntegral_real, ← dispersionC1_real]
  set eta := zeta p.m s.partial_density (hsDiameter p s.temperature) 3
  set m := ∑ i, s.molefracs i * p.m i
  have hi1 := differs_integral h (fun i => (differs_constants h i).1) (fun i => (differs_constants h i).2.1)
    (fun i => (differs_constants h i).2.2.1) (hmm.mono h (show _ ≤ 2 * n + 2 by omega)) (by linarith) he
  have hi2 := differs_integral h (fun i => (differs_constants h i).2.2.2.1) (fun i => (differs_constants h i).2.2.2.2.1)
    (fun i => (differs_constants h i).2.2.2.2.2) (hmm.mono h (show _ ≤ 2 * n + 2 by omega)) (by linarith) he
  have t1 := (((hr1.differs h).neg.mul h hi1).mul h ((agrees_two h).differs h)).mono h
    (show _ ≤ 5235 + 160 * n + n * n by omega) le_rfl
  have t2 := ((((hr2.mul h hmm).mul h hc).differs h).mul h hi2).mono h
    (show _ ≤ 5235 + 160 * n + n * n by omega) le_rfl
  have t3 := ((t1.sub h t2).mul h ((Agrees.pi h).differs h)).mul h (hs.volume.differs h)
  have e : -Real.pi * s.volume * (2 * rho1mix p s.temperature s.partial_density * dispersionIntegral A0 A1 A2 m eta
        + rho2mix p s.temperature s.partial_density * m * dispersionC1 m eta * dispersionIntegral B0 B1 B2 m eta)
      = (-rho1mix p s.temperature s.partial_density * dispersionIntegral A0 A1 A2 m eta * 2
        - rho2mix p s.temperature s.partial_density * m * dispersionC1 m eta * dispersionIntegral B0 B1 B2 m eta)
        * Real.pi * s.volume := by
    ring
  rw [e]
  exact t3.mono h (by omega) le_rfl

end
end PcSaft
