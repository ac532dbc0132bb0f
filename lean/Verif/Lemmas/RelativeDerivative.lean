import Mathlib.Analysis.Calculus.Deriv.Inv
import Mathlib.Analysis.SpecialFunctions.ExpDeriv

/-!
# Bounds of logarithmic derivatives
-/

namespace PcSaft

/-- `f` is not negative at `t0` and its derivative is at most `c` times its value. -/
def RelBound (f : ℝ → ℝ) (t0 c : ℝ) : Prop :=
  0 ≤ f t0 ∧ ∃ f', HasDerivAt f f' t0 ∧ |f'| ≤ c * f t0

namespace RelBound
variable {f g : ℝ → ℝ} {t0 b c : ℝ}

theorem const {a : ℝ} (ha : 0 ≤ a) (t0 : ℝ) : RelBound (fun _ => a) t0 0 :=
  ⟨ha, 0, hasDerivAt_const _ _, by simp⟩

theorem mono (h : RelBound f t0 b) (hb : b ≤ c) : RelBound f t0 c := by
  obtain ⟨h0, f', h1, h2⟩ := h
  exact ⟨h0, f', h1, h2.trans (mul_le_mul_of_nonneg_right hb h0)⟩

theorem add (hf : RelBound f t0 c) (hg : RelBound g t0 c) : RelBound (fun t => f t + g t) t0 c := by
  obtain ⟨h0, f', h1, h2⟩ := hf
  obtain ⟨k0, g', k1, k2⟩ := hg
  exact ⟨add_nonneg h0 k0, _, h1.add k1, (abs_add_le _ _).trans (by rw [mul_add]; exact add_le_add h2 k2)⟩

theorem mul (hf : RelBound f t0 b) (hg : RelBound g t0 c) : RelBound (fun t => f t * g t) t0 (b + c) := by
  obtain ⟨h0, f', h1, h2⟩ := hf
  obtain ⟨k0, g', k1, k2⟩ := hg
  refine ⟨mul_nonneg h0 k0, _, h1.mul k1, (abs_add_le _ _).trans ?_⟩
  rw [abs_mul, abs_mul, abs_of_nonneg h0, abs_of_nonneg k0]
  have := mul_le_mul_of_nonneg_right h2 k0
  have := mul_le_mul_of_nonneg_left k2 h0
  linarith

theorem inv (hf : RelBound f t0 c) (h : f t0 ≠ 0) : RelBound (fun t => (f t)⁻¹) t0 c := by
  obtain ⟨h0, f', h1, h2⟩ := hf
  have hp : 0 < f t0 := lt_of_le_of_ne h0 (Ne.symm h)
  refine ⟨(inv_pos.2 hp).le, _, h1.fun_inv h, ?_⟩
  rw [abs_div, abs_neg, abs_of_pos (by positivity : 0 < f t0 ^ 2), div_le_iff₀ (by positivity)]
  refine h2.trans (le_of_eq ?_)
  field_simp

theorem div (hf : RelBound f t0 b) (hg : RelBound g t0 c) (h : g t0 ≠ 0) : RelBound (fun t => f t / g t) t0 (b + c) := by
  simpa only [div_eq_mul_inv] using hf.mul (hg.inv h)

theorem pow (hf : RelBound f t0 c) : ∀ m : ℕ, RelBound (fun t => f t ^ m) t0 (m * c)
  | 0 => by simpa using const zero_le_one t0
  | m + 1 => by
    have := (pow hf m).mul hf
    simp only [← pow_succ] at this
    refine this.mono (le_of_eq ?_)
    push_cast
    ring

theorem sum {ι : Type*} (s : Finset ι) {F : ι → ℝ → ℝ} (h : ∀ i, RelBound (F i) t0 c) (hc : 0 ≤ c) :
    RelBound (fun t => ∑ i ∈ s, F i t) t0 c := by
  classical
  induction s using Finset.induction_on with
  | empty => simpa using (const le_rfl t0).mono hc
  | insert a s ha ih => simpa only [Finset.sum_insert ha] using (h a).add ih

theorem one_sub (hf : RelBound f t0 c) (h : f t0 < 1) :
    RelBound (fun t => 1 - f t) t0 (c * (f t0 / (1 - f t0))) := by
  obtain ⟨h0, f', h1, h2⟩ := hf
  have hp : 0 < 1 - f t0 := by linarith
  refine ⟨hp.le, -f', by simpa using h1.const_sub 1, ?_⟩
  rw [abs_neg]
  refine h2.trans (le_of_eq ?_)
  field_simp

theorem const_mul {a : ℝ} (ha : 0 ≤ a) (hf : RelBound f t0 c) : RelBound (fun t => a * f t) t0 c := by
  simpa using (const ha t0).mul hf

theorem deriv_le (hf : RelBound f t0 c) : |deriv f t0| ≤ c * f t0 := by
  obtain ⟨_, f', h1, h2⟩ := hf
  rwa [h1.deriv]

/-- the Boltzmann factor minus one -/
theorem exp_div_sub_one {T : ℝ → ℝ} {T' E : ℝ} (hT : HasDerivAt T T' t0) (h : 0 < T t0) (hE : 0 ≤ E) :
    RelBound (fun t => Real.exp (E / T t) - 1) t0 (|T'| / T t0 * (1 + E / T t0)) := by
  have hu : 0 ≤ E / T t0 := by positivity
  have h1 : HasDerivAt (fun t => E / T t) (E * (-T' / T t0 ^ 2)) t0 := by
    simpa only [div_eq_mul_inv] using (hT.fun_inv h.ne').const_mul E
  refine ⟨by linarith [Real.add_one_le_exp (E / T t0)], _, h1.exp.sub_const 1, ?_⟩
  have e : Real.exp (E / T t0) * (E * (-T' / T t0 ^ 2)) = -(T' / T t0) * (E / T t0 * Real.exp (E / T t0)) := by
    field_simp
  rw [e, abs_mul, abs_neg, abs_div, abs_of_pos h, abs_of_nonneg (by positivity : 0 ≤ E / T t0 * Real.exp (E / T t0)), mul_assoc]
  refine mul_le_mul_of_nonneg_left ?_ (by positivity)
  -- u eᵘ ≤ (1 + u) (eᵘ - 1)
  have := Real.add_one_le_exp (E / T t0)
  linarith

/-- the temperature-dependent diameter -/
theorem diameter {T : ℝ → ℝ} {T' σ ε : ℝ} (hT : HasDerivAt T T' t0) (h : 0 < T t0) (hσ : 0 ≤ σ) (hε : 0 ≤ ε) :
    RelBound (fun t => σ * (1 - 0.12 * Real.exp (-3 * ε / T t))) t0 (|T'| / T t0 / 10) := by
  refine const_mul hσ ?_
  have hu : 0 ≤ 3 * ε / T t0 := by positivity
  have e0 : -3 * ε / T t0 = -(3 * ε / T t0) := by ring
  have hle : Real.exp (-(3 * ε / T t0)) ≤ 1 := Real.exp_le_one_iff.2 (by linarith)
  have hue : 3 * ε / T t0 * Real.exp (-(3 * ε / T t0)) ≤ 1 / 2 := by
    rw [Real.exp_neg, ← div_eq_mul_inv, div_le_iff₀ (Real.exp_pos _)]
    have h1 := Real.quadratic_le_exp_of_nonneg hu
    nlinarith [sq_nonneg (3 * ε / T t0 - 1)]
  have h1 : HasDerivAt (fun t => -3 * ε / T t) (-3 * ε * (-T' / T t0 ^ 2)) t0 := by
    simpa only [div_eq_mul_inv] using (hT.fun_inv h.ne').const_mul (-3 * ε)
  refine ⟨by
    change 0 ≤ 1 - 0.12 * Real.exp (-3 * ε / T t0)
    rw [e0]
    norm_num
    linarith, _, (h1.exp.const_mul 0.12).const_sub 1, ?_⟩
  change _ ≤ |T'| / T t0 / 10 * (1 - 0.12 * Real.exp (-3 * ε / T t0))
  have e : -(0.12 * (Real.exp (-3 * ε / T t0) * (-3 * ε * (-T' / T t0 ^ 2))))
      = -(T' / T t0) * (0.12 * (3 * ε / T t0 * Real.exp (-(3 * ε / T t0)))) := by
    rw [e0]
    field_simp
  have hnn : 0 ≤ 3 * ε / T t0 * Real.exp (-(3 * ε / T t0)) := by positivity
  rw [e, abs_mul, abs_neg, abs_div, abs_of_pos h, abs_of_nonneg (mul_nonneg (by norm_num) hnn), e0]
  have : 0 ≤ |T'| / T t0 := by positivity
  rw [div_eq_mul_inv (|T'| / T t0) 10, mul_assoc (|T'| / T t0)]
  refine mul_le_mul_of_nonneg_left ?_ this
  norm_num
  linarith

end RelBound
end PcSaft
