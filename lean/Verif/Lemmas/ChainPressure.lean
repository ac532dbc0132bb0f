import Verif.Props.Pressure

/-!
# The pressure of hard spheres and chains

With `τ = 1 / (V - V₀)`, where `V₀` is the volume of the segments, the energy of the reference fluid is a combination of
powers of `τ` and logarithms of polynomials in `τ`.
-/

open Filter Topology

namespace PcSaft
open Spec Props
variable {n : ℕ}

/-- derivative of the logarithm of the contact value without the factor `1 / (1 - ζ₃)` -/
noncomputable def kappaForm (y : ℝ) : ℝ := (3 / 2 * y + y ^ 2) / (1 + 3 / 2 * y + 1 / 2 * y ^ 2)

/-- energy of the reference fluid as a function of `τ` -/
noncomputable def refEnergy (c0 c1 c2 c3 : ℝ) (N m d : Fin n → ℝ) (τ : ℝ) : ℝ :=
  6 / Real.pi * (3 * c1 * c2 * τ + c2 ^ 3 / c3 * τ + c2 ^ 3 * τ ^ 2 - (c2 ^ 3 / c3 ^ 2 - c0) * Real.log (1 + c3 * τ))
    + ∑ i, N i * ((1 - m i) * (Real.log (1 + c3 * τ)
      + Real.log (1 + 3 / 2 * (d i * c2 * τ) + 1 / 2 * (d i * c2 * τ) ^ 2)))

/-- its derivative with respect to `τ` -/
noncomputable def refSlope (c0 c1 c2 c3 : ℝ) (N m d : Fin n → ℝ) (τ : ℝ) : ℝ :=
  6 / Real.pi * (3 * c1 * c2 + c2 ^ 3 / c3 + 2 * c2 ^ 3 * τ - (c2 ^ 3 / c3 ^ 2 - c0) * (c3 / (1 + c3 * τ)))
    + ∑ i, N i * ((1 - m i) * (c3 / (1 + c3 * τ) + (3 / 2 * (d i * c2) + d i * c2 * (d i * c2 * τ))
      / (1 + 3 / 2 * (d i * c2 * τ) + 1 / 2 * (d i * c2 * τ) ^ 2)))

/-- pressure of the reference fluid per `k_B T` -/
noncomputable def refPressure (c2 c3 : ℝ) (N m d : Fin n → ℝ) (τ : ℝ) : ℝ :=
  τ * ∑ i, N i * (1 + kappaForm (d i * c2 * τ) + m i * (3 * (d i * c2 * τ) + 2 * (d i * c2 * τ) ^ 2
    + (d i * c2 * τ) ^ 2 / (1 + c3 * τ) - kappaForm (d i * c2 * τ)))

section
variable {c0 c1 c2 c3 : ℝ} {N m d : Fin n → ℝ} {τ : ℝ}

theorem hasDerivAt_refEnergy (h2 : 0 ≤ c2) (h3 : 0 < c3) (hd : ∀ i, 0 ≤ d i) (hτ : 0 ≤ τ) :
    HasDerivAt (refEnergy c0 c1 c2 c3 N m d) (refSlope c0 c1 c2 c3 N m d τ) τ := by
  have hs : (1 + c3 * τ) ≠ 0 := by positivity
  have hl : HasDerivAt (fun τ : ℝ => Real.log (1 + c3 * τ)) (c3 / (1 + c3 * τ)) τ := by
    have : HasDerivAt (fun τ : ℝ => 1 + c3 * τ) c3 τ := by
      simpa using ((hasDerivAt_id τ).const_mul c3).const_add 1
    exact this.log hs
  have hq : ∀ i, HasDerivAt (fun τ : ℝ => Real.log (1 + 3 / 2 * (d i * c2 * τ) + 1 / 2 * (d i * c2 * τ) ^ 2))
      ((3 / 2 * (d i * c2) + d i * c2 * (d i * c2 * τ)) / (1 + 3 / 2 * (d i * c2 * τ) + 1 / 2 * (d i * c2 * τ) ^ 2)) τ :=
    fun i => by
      have h0 := hd i
      have hlin : HasDerivAt (fun τ : ℝ => d i * c2 * τ) (d i * c2) τ := by
        simpa using (hasDerivAt_id τ).const_mul (d i * c2)
      have hp : HasDerivAt (fun τ : ℝ => 1 + 3 / 2 * (d i * c2 * τ) + 1 / 2 * (d i * c2 * τ) ^ 2)
          (3 / 2 * (d i * c2) + 1 / 2 * (((2 : ℕ) : ℝ) * (d i * c2 * τ) ^ (2 - 1) * (d i * c2))) τ :=
        ((hlin.const_mul _).const_add 1).add ((hlin.pow 2).const_mul _)
      have e : 3 / 2 * (d i * c2) + 1 / 2 * (((2 : ℕ) : ℝ) * (d i * c2 * τ) ^ (2 - 1) * (d i * c2))
          = 3 / 2 * (d i * c2) + d i * c2 * (d i * c2 * τ) := by
        push_cast
        ring
      rw [e] at hp
      exact hp.log (by positivity)
  have hid : ∀ a : ℝ, HasDerivAt (fun τ : ℝ => a * τ) a τ := fun a => by simpa using (hasDerivAt_id τ).const_mul a
  have hsq : HasDerivAt (fun τ : ℝ => c2 ^ 3 * τ ^ 2) (2 * c2 ^ 3 * τ) τ := by
    have := ((hasDerivAt_id τ).pow 2).const_mul (c2 ^ 3)
    refine this.congr_deriv ?_
    simp
    ring
  refine HasDerivAt.add (((((hid _).add (hid _)).add hsq).sub (hl.const_mul _)).const_mul _) ?_
  exact HasDerivAt.fun_sum fun i _ => ((hl.add (hq i)).const_mul _).const_mul _

theorem refPressure_eq (h2 : 0 ≤ c2) (h3 : 0 < c3) (hd : ∀ i, 0 ≤ d i) (hτ : 0 < τ)
    (e0 : 6 / Real.pi * c0 = ∑ i, N i * m i) (e1 : 6 / Real.pi * c1 = ∑ i, N i * m i * d i)
    (e2 : 6 / Real.pi * c2 = ∑ i, N i * m i * d i ^ 2) :
    (∑ i, N i) * (τ / (1 + c3 * τ)) + τ ^ 2 * refSlope c0 c1 c2 c3 N m d τ = refPressure c2 c3 N m d τ := by
  have hs : 0 < 1 + c3 * τ := by positivity
  have ek : ∀ i, (3 / 2 * (d i * c2) + d i * c2 * (d i * c2 * τ)) / (1 + 3 / 2 * (d i * c2 * τ) + 1 / 2 * (d i * c2 * τ) ^ 2)
      = kappaForm (d i * c2 * τ) / τ := fun i => by
    have := hd i
    have hq : 1 + 3 / 2 * (d i * c2 * τ) + 1 / 2 * (d i * c2 * τ) ^ 2 ≠ 0 := by positivity
    unfold kappaForm
    field_simp
  have e6 : 6 / Real.pi * (3 * c1 * c2 + c2 ^ 3 / c3 + 2 * c2 ^ 3 * τ - (c2 ^ 3 / c3 ^ 2 - c0) * (c3 / (1 + c3 * τ)))
      = (6 / Real.pi * c1) * (3 * c2) + (6 / Real.pi * c2) * (c2 ^ 2 * τ * (2 + 1 / (1 + c3 * τ)))
        + (6 / Real.pi * c0) * (c3 / (1 + c3 * τ)) := by
    have := Real.pi_pos
    field_simp
    ring
  unfold refSlope refPressure
  rw [e6, e0, e1, e2]
  simp only [ek, Finset.sum_mul, Finset.mul_sum, mul_add]
  simp only [← Finset.sum_add_distrib, ← mul_add]
  refine Finset.sum_congr rfl fun i _ => ?_
  generalize kappaForm (d i * c2 * τ) = K
  field_simp
  ring

theorem kappa_bounds {y : ℝ} (hy : 0 ≤ y) : 0 ≤ kappaForm y ∧ kappaForm y ≤ 3 * y + 2 * y ^ 2 := by
  have hq : 0 < 1 + 3 / 2 * y + 1 / 2 * y ^ 2 := by positivity
  refine ⟨by unfold kappaForm; positivity, ?_⟩
  unfold kappaForm
  rw [div_le_iff₀ hq]
  have h1 : 3 / 2 * y + y ^ 2 ≤ (3 * y + 2 * y ^ 2) * 1 := by nlinarith [sq_nonneg y]
  refine h1.trans (mul_le_mul_of_nonneg_left ?_ (by positivity))
  nlinarith [sq_nonneg y]

theorem kappa_mono {y z : ℝ} (hy : 0 ≤ y) (hyz : y ≤ z) : kappaForm y ≤ kappaForm z
    ∧ 3 * y + 2 * y ^ 2 - kappaForm y ≤ 3 * z + 2 * z ^ 2 - kappaForm z := by
  have hz := hy.trans hyz
  have hq : 0 < 1 + 3 / 2 * y + 1 / 2 * y ^ 2 := by positivity
  have hr : 0 < 1 + 3 / 2 * z + 1 / 2 * z ^ 2 := by positivity
  have e : kappaForm z - kappaForm y = (z - y) * (3 / 2 + (y + z) + 3 / 4 * (y * z))
      / ((1 + 3 / 2 * y + 1 / 2 * y ^ 2) * (1 + 3 / 2 * z + 1 / 2 * z ^ 2)) := by
    unfold kappaForm
    field_simp
    ring
  have hnn : 0 ≤ (z - y) * (3 / 2 + (y + z) + 3 / 4 * (y * z)) :=
    mul_nonneg (by linarith) (by positivity)
  have h0 : 0 ≤ kappaForm z - kappaForm y := by
    rw [e]
    positivity
  have h1 : kappaForm z - kappaForm y ≤ (z - y) * (3 + 2 * (y + z)) := by
    rw [e, div_le_iff₀ (by positivity), mul_assoc]
    refine mul_le_mul_of_nonneg_left ?_ (by linarith)
    have hyz0 : 0 ≤ y * z := mul_nonneg hy hz
    have hge : 1 + 3 / 2 * (y + z) ≤ (1 + 3 / 2 * y + 1 / 2 * y ^ 2) * (1 + 3 / 2 * z + 1 / 2 * z ^ 2) := by
      have a := sq_nonneg y
      have b := sq_nonneg z
      have p1 : 0 ≤ y * z ^ 2 := by positivity
      have p2 : 0 ≤ y ^ 2 * z := by positivity
      have p3 : 0 ≤ y ^ 2 * z ^ 2 := by positivity
      nlinarith
    have hge2 : 3 / 2 + (y + z) + 3 / 4 * (y * z) ≤ (3 + 2 * (y + z)) * (1 + 3 / 2 * (y + z)) := by
      nlinarith [sq_nonneg (y + z), sq_nonneg (y - z)]
    exact hge2.trans (mul_le_mul_of_nonneg_left hge (by positivity))
  constructor
  · linarith
  · nlinarith

/-- every term of the pressure grows with `τ` -/
theorem refPressure_mono (h2 : 0 ≤ c2) (h3 : 0 < c3) (hd : ∀ i, 0 ≤ d i) (hm : ∀ i, 0 ≤ m i) (hN : ∀ i, 0 ≤ N i)
    (hN0 : 0 < ∑ i, N i) {σ : ℝ} (hτ : 0 < τ) (hlt : τ < σ) :
    refPressure c2 c3 N m d τ < refPressure c2 c3 N m d σ := by
  have hterm : ∀ i, N i * (1 + kappaForm (d i * c2 * τ) + m i * (3 * (d i * c2 * τ) + 2 * (d i * c2 * τ) ^ 2
      + (d i * c2 * τ) ^ 2 / (1 + c3 * τ) - kappaForm (d i * c2 * τ)))
      ≤ N i * (1 + kappaForm (d i * c2 * σ) + m i * (3 * (d i * c2 * σ) + 2 * (d i * c2 * σ) ^ 2
      + (d i * c2 * σ) ^ 2 / (1 + c3 * σ) - kappaForm (d i * c2 * σ))) := fun i => by
    have hdc := mul_nonneg (hd i) h2
    have hσ : 0 < σ := hτ.trans hlt
    obtain ⟨k1, k2⟩ := kappa_mono (y := d i * c2 * τ) (z := d i * c2 * σ) (by positivity)
      (mul_le_mul_of_nonneg_left hlt.le hdc)
    have k3 : (d i * c2 * τ) ^ 2 / (1 + c3 * τ) ≤ (d i * c2 * σ) ^ 2 / (1 + c3 * σ) := by
      rw [div_le_div_iff₀ (by positivity) (by positivity), mul_pow, mul_pow _ σ, mul_assoc, mul_assoc]
      refine mul_le_mul_of_nonneg_left ?_ (sq_nonneg _)
      have a : τ ^ 2 ≤ σ ^ 2 := pow_le_pow_left₀ hτ.le hlt.le 2
      have b : 0 ≤ c3 * (τ * σ) := by positivity
      nlinarith [mul_le_mul_of_nonneg_left hlt.le b]
    refine mul_le_mul_of_nonneg_left (add_le_add (by linarith) (mul_le_mul_of_nonneg_left (by linarith) (hm i))) (hN i)
  have hpos : ∀ i, N i ≤ N i * (1 + kappaForm (d i * c2 * τ) + m i * (3 * (d i * c2 * τ) + 2 * (d i * c2 * τ) ^ 2
      + (d i * c2 * τ) ^ 2 / (1 + c3 * τ) - kappaForm (d i * c2 * τ))) := fun i => by
    have hdc := mul_nonneg (hd i) h2
    obtain ⟨b1, b2⟩ := kappa_bounds (y := d i * c2 * τ) (by positivity)
    have : 0 ≤ (d i * c2 * τ) ^ 2 / (1 + c3 * τ) := by positivity
    have h4 : 0 ≤ m i * (3 * (d i * c2 * τ) + 2 * (d i * c2 * τ) ^ 2
      + (d i * c2 * τ) ^ 2 / (1 + c3 * τ) - kappaForm (d i * c2 * τ)) := mul_nonneg (hm i) (by linarith)
    exact le_mul_of_one_le_right (hN i) (by linarith)
  unfold refPressure
  have s1 := Finset.sum_le_sum fun i (_ : i ∈ Finset.univ) => hterm i
  have s2 := Finset.sum_le_sum fun i (_ : i ∈ Finset.univ) => hpos i
  exact mul_lt_mul hlt s1 (hN0.trans_le s2) (hτ.trans hlt).le

theorem le_refPressure (h2 : 0 ≤ c2) (h3 : 0 < c3) (hd : ∀ i, 0 ≤ d i) (hm : ∀ i, 0 ≤ m i) (hN : ∀ i, 0 ≤ N i)
    (hτ : 0 < τ) : (∑ i, N i) * τ ≤ refPressure c2 c3 N m d τ := by
  unfold refPressure
  rw [mul_comm]
  refine mul_le_mul_of_nonneg_left (Finset.sum_le_sum fun i _ => ?_) hτ.le
  have hdc := mul_nonneg (hd i) h2
  obtain ⟨b1, b2⟩ := kappa_bounds (y := d i * c2 * τ) (by positivity)
  have : 0 ≤ (d i * c2 * τ) ^ 2 / (1 + c3 * τ) := by positivity
  have h4 : 0 ≤ m i * (3 * (d i * c2 * τ) + 2 * (d i * c2 * τ) ^ 2
    + (d i * c2 * τ) ^ 2 / (1 + c3 * τ) - kappaForm (d i * c2 * τ)) := mul_nonneg (hm i) (by linarith)
  exact le_mul_of_one_le_right (hN i) (by linarith)

end

section
variable {p : PcSaftParameters n ℝ} {T V : ℝ} {N : Fin n → ℝ}

theorem reference_eq (h : Admissible p T V N) :
    hardSphere p (StateHD.new T V N) + hardChain p (StateHD.new T V N)
      = refEnergy (zeta p.m N (hsDiameter p T) 0) (zeta p.m N (hsDiameter p T) 1) (zeta p.m N (hsDiameter p T) 2)
        (zeta p.m N (hsDiameter p T) 3) N p.m (hsDiameter p T) (1 / (V - zeta p.m N (hsDiameter p T) 3)) := by
  have hV := h.volume
  have h3 := zeta_pos_moles h 3
  have h2 := zeta_pos_moles h 2
  have hz : ∀ k, zeta p.m (StateHD.new T V N).partial_density (hsDiameter p T) k
      = 1 / V * zeta p.m N (hsDiameter p T) k := fun k => by
    rw [new_density_dilute]
    exact zeta_smul _ _ _ _ _
  have hp := h.packing
  rw [packing_eq, one_div_mul_eq_div, div_lt_one hV] at hp
  rw [hardSphere_real, hardChain_real]
  simp only [StateHD.new_temperature, StateHD.new_volume]
  rw [zeta23_new p T V N hV.ne' h.total_pos.ne', hz 0, hz 1, hz 2, hz 3]
  set c0 := zeta p.m N (hsDiameter p T) 0
  set c1 := zeta p.m N (hsDiameter p T) 1
  set c2 := zeta p.m N (hsDiameter p T) 2
  set c3 := zeta p.m N (hsDiameter p T) 3
  have hτ : 0 < V - c3 := sub_pos.2 hp
  have hne : 1 / V * c3 ≠ 1 := by
    rw [one_div_mul_eq_div]
    exact ((div_lt_one hV).2 hp).ne
  have es : 1 - 1 / V * c3 = (1 + c3 * (1 / (V - c3)))⁻¹ := by
    field_simp
    ring
  have hs : 0 < 1 + c3 * (1 / (V - c3)) := by positivity
  have el : Real.log (1 - 1 / V * c3) = -Real.log (1 + c3 * (1 / (V - c3))) := by rw [es, Real.log_inv]
  have eg : ∀ i, Real.log (gHs (1 / V * c2) (1 / V * c3) (hsDiameter p T i)) = Real.log (1 + c3 * (1 / (V - c3)))
      + Real.log (1 + 3 / 2 * (hsDiameter p T i * c2 * (1 / (V - c3))) + 1 / 2 * (hsDiameter p T i * c2 * (1 / (V - c3))) ^ 2) :=
    fun i => by
      have hd := h.diameter_pos i
      have hq : 0 < 1 + 3 / 2 * (hsDiameter p T i * c2 * (1 / (V - c3)))
          + 1 / 2 * (hsDiameter p T i * c2 * (1 / (V - c3))) ^ 2 := by positivity
      rw [gHs_real _ _ _ hne, ← Real.log_mul hs.ne' hq.ne']
      congr 1
      have e1 : 1 / V * c2 = (1 / (V - c3)) * (1 + c3 * (1 / (V - c3)))⁻¹ * c2 := by
        congr 1
        field_simp
        ring
      unfold gForm
      rw [es, e1]
      generalize 1 / (V - c3) = τ at *
      field_simp
  unfold refEnergy
  congr 1
  · unfold hsForm
    rw [el]
    generalize Real.log (1 + c3 * (1 / (V - c3))) = l
    have hVc : V - c3 ≠ 0 := hτ.ne'
    have e1 : 1 - 1 / V * c3 = (V - c3) / V := by field_simp
    rw [e1]
    have := Real.pi_pos
    field_simp
    ring
  · rw [Finset.mul_sum]
    refine Finset.sum_congr rfl fun i _ => ?_
    rw [eg i, StateHD.new_density]
    field_simp

end

end PcSaft
