import Verif.Lemmas.RealForms
import Verif.Spec.Basic
import Mathlib.Tactic.Positivity

/-! # Consequences of admissibility for the intermediate quantities -/

namespace PcSaft
open Spec
variable {n : ℕ} {p : PcSaftParameters n ℝ} {T V : ℝ} {moles : Fin n → ℝ}

theorem hsDiameter_eq_spec (p : PcSaftParameters n ℝ) (T : ℝ) (i : Fin n) :
    hsDiameter p T i = diameter (p.sigma i) (p.epsilon_k i) T := by
  rw [hsDiameter_real, diameter]
  norm_num

theorem exp_le_one_of {e T : ℝ} (he : 0 ≤ e) (hT : 0 < T) : Real.exp (-3 * e / T) ≤ 1 := by
  rw [Real.exp_le_one_iff]
  apply div_nonpos_of_nonpos_of_nonneg <;> linarith

theorem Spec.Admissible.diameter_pos (h : Admissible p T V moles) (i : Fin n) :
    0 < hsDiameter p T i := by
  rw [hsDiameter_real]
  have := exp_le_one_of (h.epsilon_nonneg i) h.temperature
  have := h.sigma_pos i
  apply mul_pos this
  linarith

theorem StateHD.new_volume (T V : ℝ) (moles : Fin n → ℝ) : (StateHD.new T V moles).volume = V := rfl
theorem StateHD.new_temperature (T V : ℝ) (moles : Fin n → ℝ) :
    (StateHD.new T V moles).temperature = T := rfl
theorem StateHD.new_density (T V : ℝ) (moles : Fin n → ℝ) :
    (StateHD.new T V moles).partial_density = fun i => moles i / V := rfl
theorem StateHD.new_moles (T V : ℝ) (moles : Fin n → ℝ) :
    (StateHD.new T V moles).moles = moles := rfl
theorem StateHD.new_molefracs (T V : ℝ) (moles : Fin n → ℝ) :
    (StateHD.new T V moles).molefracs = fun i => moles i / ∑ j, moles j := by
  simp [StateHD.new]

theorem zeta3_eq_packing (p : PcSaftParameters n ℝ) (T V : ℝ) (moles : Fin n → ℝ) :
    zeta p.m (StateHD.new T V moles).partial_density (hsDiameter p T) 3
      = Spec.packingFraction p T V moles := by
  rw [zeta3_real, Spec.packingFraction, Finset.mul_sum]
  refine Finset.sum_congr rfl (fun i _ => ?_)
  rw [hsDiameter_eq_spec, StateHD.new_density]
  ring

theorem Spec.Admissible.zeta_pos (h : Admissible p T V moles) (k : Fin 4) :
    0 < zeta p.m (StateHD.new T V moles).partial_density (hsDiameter p T) k := by
  rw [zeta_real]
  apply mul_pos (by positivity)
  obtain ⟨i, hi⟩ := h.moles_ne_zero
  refine Finset.sum_pos' (fun j _ => ?_) ⟨i, Finset.mem_univ _, ?_⟩
  · exact mul_nonneg (div_nonneg (h.moles_nonneg j) h.volume.le)
      (mul_pos (h.m_pos j) (pow_pos (h.diameter_pos j) _)).le
  · exact mul_pos (div_pos (lt_of_le_of_ne (h.moles_nonneg i) (Ne.symm hi)) h.volume)
      (mul_pos (h.m_pos i) (pow_pos (h.diameter_pos i) _))

theorem Spec.Admissible.zeta3_lt_one (h : Admissible p T V moles) :
    zeta p.m (StateHD.new T V moles).partial_density (hsDiameter p T) 3 < 1 := by
  rw [zeta3_eq_packing]; exact h.packing

theorem Spec.Admissible.total_pos (h : Admissible p T V moles) : 0 < ∑ i, moles i := by
  obtain ⟨i, hi⟩ := h.moles_ne_zero
  exact Finset.sum_pos' (fun j _ => h.moles_nonneg j)
    ⟨i, Finset.mem_univ _, lt_of_le_of_ne (h.moles_nonneg i) (Ne.symm hi)⟩

/-- `z23` is the ratio of the moments -/
theorem zeta23_new (p : PcSaftParameters n ℝ) (T V : ℝ) (moles : Fin n → ℝ) (hV : V ≠ 0)
    (ht : ∑ i, moles i ≠ 0) :
    zeta23 p.m (StateHD.new T V moles).molefracs (hsDiameter p T)
      = zeta p.m (StateHD.new T V moles).partial_density (hsDiameter p T) 2
        / zeta p.m (StateHD.new T V moles).partial_density (hsDiameter p T) 3 := by
  rw [zeta23_real, zeta2_real, zeta3_real, StateHD.new_molefracs, StateHD.new_density]
  have e : ∀ (w : ℝ) (k : ℕ), ∑ i, moles i / w * (p.m i * hsDiameter p T i ^ k)
      = (∑ i, moles i * (p.m i * hsDiameter p T i ^ k)) / w := by
    intro w k
    rw [Finset.sum_div]
    exact Finset.sum_congr rfl (fun i _ => by ring)
  rw [e, e, e, e]
  have hpi := Real.pi_ne_zero
  by_cases h3 : ∑ i, moles i * (p.m i * hsDiameter p T i ^ 3) = 0
  · simp [h3]
  · field_simp

end PcSaft
