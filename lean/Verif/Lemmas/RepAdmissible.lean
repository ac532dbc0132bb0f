import Verif.Lemmas.RepPolar
import Verif.Lemmas.RepAssociation
import Verif.Lemmas.Admissible

/-! # Admissible states satisfy the conditions of the representation lemmas -/

open Filter Topology

namespace PcSaft
open Spec
variable {F D X : Type} [F64 F] [DualNum F D] [TopologicalSpace X] {n : ℕ}

/-- the compressibility term of the dispersion contribution is positive for every segment number -/
theorem c1_denominator_pos {m e : ℝ} (hm : 0 < m) (h0 : 0 < e) (h1 : e < 1) :
    0 < m * (e * 8 - e ^ 2 * 2) / (e - 1) ^ 4
      + (1 - m) * (e * 20 - e ^ 2 * 27 + e ^ 3 * 12 - e ^ 4 * 2) / ((e - 1) * (e - 2)) ^ 2 + 1 := by
  obtain ⟨u, hu, rfl⟩ : ∃ u : ℝ, 0 < u ∧ e = 1 - u := ⟨1 - e, by linarith, by ring⟩
  have hu1 : 0 < 1 - u := h0
  have hA : 0 ≤ ((1 - u) * 8 - (1 - u) ^ 2 * 2) / (1 - u - 1) ^ 4
      - ((1 - u) * 20 - (1 - u) ^ 2 * 27 + (1 - u) ^ 3 * 12 - (1 - u) ^ 4 * 2) / ((1 - u - 1) * (1 - u - 2)) ^ 2 := by
    have e1 : (1 - u - 1) = -u := by ring
    have e2 : (1 - u - 2) = -(1 + u) := by ring
    rw [e1, e2]
    have : ((1 - u) * 8 - (1 - u) ^ 2 * 2) / (-u) ^ 4
      - ((1 - u) * 20 - (1 - u) ^ 2 * 27 + (1 - u) ^ 3 * 12 - (1 - u) ^ 4 * 2) / ((-u) * (-(1 + u))) ^ 2
      = (1 - u) * (12 * u ^ 5 + 87 * (1 - u) * u ^ 4 + 158 * (1 - u) ^ 2 * u ^ 3 + 123 * (1 - u) ^ 3 * u ^ 2
          + 44 * (1 - u) ^ 4 * u + 6 * (1 - u) ^ 5) / (u ^ 4 * (1 + u) ^ 2) := by
      field_simp
      ring
    rw [this]
    positivity
  have hB : 0 ≤ ((1 - u) * 20 - (1 - u) ^ 2 * 27 + (1 - u) ^ 3 * 12 - (1 - u) ^ 4 * 2)
      / ((1 - u - 1) * (1 - u - 2)) ^ 2 := by
    have : (1 - u) * 20 - (1 - u) ^ 2 * 27 + (1 - u) ^ 3 * 12 - (1 - u) ^ 4 * 2
        = (1 - u) * (20 * u ^ 3 + 33 * (1 - u) * u ^ 2 + 18 * (1 - u) ^ 2 * u + 3 * (1 - u) ^ 3) := by ring
    rw [this]
    positivity
  have key := mul_nonneg hm.le hA
  have e3 : ∀ A B x y : ℝ, m * A / x + (1 - m) * B / y + 1 = m * (A / x - B / y) + B / y + 1 := by
    intros; ring
  rw [e3]
  linarith

theorem gHs_pos {z2 z3 d : ℝ} (h2 : 0 ≤ z2) (h3 : z3 < 1) (hd : 0 < d) : 0 < gHs z2 z3 d := by
  rw [gHs_real _ _ _ h3.ne, gForm]
  have : 0 < 1 - z3 := by linarith
  positivity

section admissible
variable {p : PcSaftParameters n ℝ} {T V : ℝ} {N : Fin n → ℝ}

theorem stateEta_new (p : PcSaftParameters n ℝ) (T V : ℝ) (N : Fin n → ℝ) :
    stateEta p (StateHD.new T V N) = Spec.packingFraction p T V N := by
  rw [← zeta3_eq_packing, stateEta, packingFraction_eq_zeta]
  rfl

theorem stateEta_pos (h : Admissible p T V N) : 0 < stateEta p (StateHD.new T V N) := by
  rw [stateEta_new, ← zeta3_eq_packing]
  exact h.zeta_pos 3

theorem stateEta_lt_one (h : Admissible p T V N) : stateEta p (StateHD.new T V N) < 1 := by
  rw [stateEta_new]
  exact h.packing

theorem meanSegment_pos (h : Admissible p T V N) : 0 < meanSegment p (StateHD.new T V N) := by
  rw [meanSegment, StateHD.new_molefracs]
  obtain ⟨i, hi⟩ := h.moles_ne_zero
  refine Finset.sum_pos' (fun j _ => ?_) ⟨i, Finset.mem_univ _, ?_⟩
  · exact mul_nonneg (div_nonneg (h.moles_nonneg j) h.total_pos.le) (h.m_pos j).le
  · exact mul_pos (div_pos (lt_of_le_of_ne (h.moles_nonneg i) (Ne.symm hi)) h.total_pos) (h.m_pos i)

theorem moment3_pos (h : Admissible p T V N) :
    0 < ∑ i, (StateHD.new T V N).molefracs i * hsDiameter p T i ^ 3 * p.m i := by
  rw [StateHD.new_molefracs]
  obtain ⟨i, hi⟩ := h.moles_ne_zero
  refine Finset.sum_pos' (fun j _ => ?_) ⟨i, Finset.mem_univ _, ?_⟩
  · exact mul_nonneg (mul_nonneg (div_nonneg (h.moles_nonneg j) h.total_pos.le) (pow_pos (h.diameter_pos j) _).le)
      (h.m_pos j).le
  · exact mul_pos (mul_pos (div_pos (lt_of_le_of_ne (h.moles_nonneg i) (Ne.symm hi)) h.total_pos)
      (pow_pos (h.diameter_pos i) _)) (h.m_pos i)
end admissible

section rep
variable {x0 : X} {emb : ℝ → F → Prop} {ρ : Rep x0 emb D} (le : LawfulEmb emb)
  {p : PcSaftParameters n ℝ} {q : PcSaftParameters n F} (hp : ParamRel emb p q)
  {T V : X → ℝ} {N : Fin n → X → ℝ} {Td Vd : D} {Nd : Fin n → D} (hT : ρ.R T Td) (hV : ρ.R V Vd)
  (hN : ∀ i, ρ.R (N i) (Nd i)) (h : Admissible p (T x0) (V x0) (fun i => N i x0))
include le hp hT hV hN h

omit hp in
theorem rep_state : StateRel ρ (fun x => StateHD.new (T x) (V x) (fun i => N i x)) (StateHD.new Td Vd Nd) :=
  StateRel.new le hT hV hN h.volume.ne' h.total_pos.ne'

theorem rep_hardSphere_admissible : ρ.R (fun x => hardSphere p (StateHD.new (T x) (V x) (fun i => N i x)))
    (hardSphere q (StateHD.new Td Vd Nd)) :=
  rep_hardSphere le hp (rep_state le hT hV hN h) h.temperature.ne' h.zeta3_lt_one (moment3_pos h).ne'

theorem rep_hardChain_admissible : ρ.R (fun x => hardChain p (StateHD.new (T x) (V x) (fun i => N i x)))
    (hardChain q (StateHD.new Td Vd Nd)) :=
  rep_hardChain le hp (rep_state le hT hV hN h) h.temperature.ne' h.zeta3_lt_one.ne
    (fun i => gHs_pos (h.zeta_pos 2).le h.zeta3_lt_one (h.diameter_pos i))

theorem rep_dispersion_admissible : ρ.R (fun x => dispersion p (StateHD.new (T x) (V x) (fun i => N i x)))
    (dispersion q (StateHD.new Td Vd Nd)) :=
  rep_dispersion le hp (rep_state le hT hV hN h) h.temperature.ne' (meanSegment_pos h).ne' (stateEta_lt_one h).ne
    (by have := stateEta_lt_one h; intro e; simp only [e] at this; norm_num at this)
    (c1_denominator_pos (meanSegment_pos h) (stateEta_pos h) (stateEta_lt_one h)).ne'

end rep

end PcSaft
