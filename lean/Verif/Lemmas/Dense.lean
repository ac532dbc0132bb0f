import Verif.Lemmas.Dilute
import Mathlib.Analysis.Calculus.MeanValue
import Mathlib.Analysis.SpecialFunctions.Pow.Asymptotics
import Mathlib.Analysis.SpecialFunctions.Log.Basic

/-!
# The contributions near the highest density

As functions of the inverse volume `u`, close to the value where the packing fraction `u c` is one.  All contributions
are multiplied by the square of the free fraction `1 - u c`.
-/

open Filter Topology

namespace PcSaft
open Spec Props
variable {n : ℕ}

section forms
variable {c : ℝ}

/-- the free fraction vanishes from above -/
theorem tendsto_free (hc : 0 < c) : Tendsto (fun u : ℝ => 1 - u * c) (𝓝[<] (1 / c)) (𝓝[>] 0) := by
  refine tendsto_nhdsWithin_iff.2 ⟨?_, ?_⟩
  · have h : ContinuousAt (fun u : ℝ => 1 - u * c) (1 / c) := by fun_prop
    have e : 1 - 1 / c * c = 0 := by field_simp; ring
    have := h.tendsto
    rw [e] at this
    exact this.mono_left nhdsWithin_le_nhds
  · filter_upwards [self_mem_nhdsWithin] with u hu
    have : u < 1 / c := hu
    rw [lt_div_iff₀ hc] at this
    exact sub_pos.2 this

theorem free_pos (hc : 0 < c) : ∀ᶠ u : ℝ in 𝓝[<] (1 / c), 0 < 1 - u * c :=
  (tendsto_nhdsWithin_iff.1 (tendsto_free hc)).2

theorem tendsto_of_continuousAt {f : ℝ → ℝ} {a : ℝ} (h : ContinuousAt f a) : Tendsto f (𝓝[<] a) (𝓝 (f a)) :=
  h.tendsto.mono_left nhdsWithin_le_nhds

theorem tendsto_free' (hc : 0 < c) : Tendsto (fun u : ℝ => 1 - u * c) (𝓝[<] (1 / c)) (𝓝 0) :=
  (tendsto_free hc).mono_right nhdsWithin_le_nhds

theorem tendsto_sq_mul_log (hc : 0 < c) :
    Tendsto (fun u : ℝ => (1 - u * c) ^ 2 * Real.log (1 - u * c)) (𝓝[<] (1 / c)) (𝓝 0) := by
  have h0 : Tendsto (fun x : ℝ => Real.log x * x) (𝓝[>] 0) (𝓝 0) := by
    simpa only [Real.rpow_one] using tendsto_log_mul_rpow_nhdsGT_zero zero_lt_one
  have h1 := (h0.comp (tendsto_free hc)).mul (tendsto_free' hc)
  rw [zero_mul] at h1
  refine h1.congr fun u => ?_
  simp only [Function.comp]
  ring

/-- a logarithm of a pole of third order does not matter -/
theorem tendsto_sq_mul_log_pole (hc : 0 < c) {g h : ℝ → ℝ} (hh : ContinuousAt h (1 / c)) (h0 : 0 < h (1 / c))
    (hg : ∀ u, 1 - u * c ≠ 0 → (1 - u * c) ^ 3 * g u = h u) :
    Tendsto (fun u : ℝ => (1 - u * c) ^ 2 * Real.log (g u)) (𝓝[<] (1 / c)) (𝓝 0) := by
  have h1 : Tendsto (fun u => (1 - u * c) ^ 2 * Real.log (h u)
      - 3 * ((1 - u * c) ^ 2 * Real.log (1 - u * c))) (𝓝[<] (1 / c)) (𝓝 0) := by
    have a := ((tendsto_free' hc).pow 2).mul (tendsto_of_continuousAt (hh.log h0.ne'))
    have b := (tendsto_sq_mul_log hc).const_mul 3
    have := a.sub b
    simpa using this
  have hp : ∀ᶠ u in 𝓝[<] (1 / c), 0 < h u := (tendsto_of_continuousAt hh).eventually (lt_mem_nhds h0)
  refine h1.congr' ?_
  filter_upwards [free_pos hc, hp] with u hu hpu
  have e := hg u hu.ne'
  have hg0 : 0 < g u := by
    have : 0 < (1 - u * c) ^ 3 * g u := by rw [e]; exact hpu
    exact pos_of_mul_pos_right this (by positivity)
  rw [← e, Real.log_mul (by positivity) hg0.ne', Real.log_pow]
  push_cast
  ring

theorem tendsto_hs (hc : 0 < c) (c0 c1 c2 z : ℝ) :
    Tendsto (fun u : ℝ => (1 - u * c) ^ 2 * hsForm 1 (u * c0) (u * c1) (u * c2) (u * c) z) (𝓝[<] (1 / c))
      (𝓝 (6 / Real.pi * ((1 / c * c2) ^ 2 * z))) := by
  have hu : Tendsto (fun u : ℝ => u) (𝓝[<] (1 / c)) (𝓝 (1 / c)) := tendsto_of_continuousAt continuousAt_id
  have h1 : Tendsto (fun u : ℝ => 6 / Real.pi * (3 * (u * c1) * (u * c2) * (1 - u * c) + (u * c2) ^ 2 * z
      + (u * c2 * z ^ 2 - u * c0) * ((1 - u * c) ^ 2 * Real.log (1 - u * c)))) (𝓝[<] (1 / c))
      (𝓝 (6 / Real.pi * (3 * (1 / c * c1) * (1 / c * c2) * 0 + (1 / c * c2) ^ 2 * z
        + (1 / c * c2 * z ^ 2 - 1 / c * c0) * 0))) := by
    refine Tendsto.const_mul _ (((Tendsto.mul ?_ (tendsto_free' hc)).add ?_).add (Tendsto.mul ?_ (tendsto_sq_mul_log hc)))
    · exact ((hu.mul_const c1).const_mul 3).mul (hu.mul_const c2)
    · exact ((hu.mul_const c2).pow 2).mul_const z
    · exact ((hu.mul_const c2).mul_const _).sub (hu.mul_const c0)
  rw [mul_zero, mul_zero, zero_add, add_zero] at h1
  refine h1.congr' ?_
  filter_upwards [free_pos hc] with u hu
  unfold hsForm
  have := hu.ne'
  field_simp

theorem tendsto_log_g (hc : 0 < c) {c2 d : ℝ} (h2 : 0 < c2) (hd : 0 < d) :
    Tendsto (fun u : ℝ => (1 - u * c) ^ 2 * Real.log (gForm (u * c2) (u * c) d)) (𝓝[<] (1 / c)) (𝓝 0) := by
  refine tendsto_sq_mul_log_pole hc (h := fun u => (1 - u * c) ^ 2 + 3 / 2 * d * (u * c2) * (1 - u * c)
    + 1 / 2 * d ^ 2 * (u * c2) ^ 2) (by fun_prop) ?_ fun u hu => ?_
  · have e : 1 - 1 / c * c = 0 := by field_simp; ring
    simp only [e]
    have : 0 < 1 / c * c2 := by positivity
    positivity
  · unfold gForm
    field_simp

theorem tendsto_disp (hc : 0 < c) {m : ℝ} (hm : 0 < m) (r1 r2 : ℝ) :
    Tendsto (fun u : ℝ => (1 - u * c) ^ 2 * dispForm 1 r1 r2 m (u * c)) (𝓝[<] (1 / c)) (𝓝 0) := by
  set q : ℝ → ℝ := fun u => (1 - u * c) ^ 4 + m * (8 * (u * c) - 2 * (u * c) ^ 2)
    + (1 - m) * (20 * (u * c) - 27 * (u * c) ^ 2 + 12 * (u * c) ^ 3 - 2 * (u * c) ^ 4) * (1 - u * c) ^ 2 / (2 - u * c) ^ 2
  have e : 1 / c * c = 1 := by field_simp
  have hq : ContinuousAt q (1 / c) := by
    refine ContinuousAt.add (by fun_prop) (ContinuousAt.div (by fun_prop) (by fun_prop) ?_)
    rw [e]; norm_num
  have hq0 : q (1 / c) ≠ 0 := by
    simp only [q, e]
    norm_num
    exact hm.ne'
  have hI : ∀ a0 a1 a2 : Fin 7 → ℝ, ContinuousAt (fun u : ℝ => intForm a0 a1 a2 m (u * c)) (1 / c) := fun a0 a1 a2 => by
    unfold intForm
    fun_prop
  have h1 : Tendsto (fun u : ℝ => (1 - u * c) ^ 2 * (-Real.pi * (2 * r1 * intForm A0 A1 A2 m (u * c)
      + r2 * m * ((1 - u * c) ^ 4 * (q u)⁻¹) * intForm B0 B1 B2 m (u * c)))) (𝓝[<] (1 / c)) (𝓝 0) := by
    have a := ((tendsto_free' hc).pow 2).mul (tendsto_of_continuousAt (a := 1 / c)
      (f := fun u => -Real.pi * (2 * r1 * intForm A0 A1 A2 m (u * c)
      + r2 * m * ((1 - u * c) ^ 4 * (q u)⁻¹) * intForm B0 B1 B2 m (u * c))) ?_)
    · simpa using a
    · refine continuousAt_const.mul ((continuousAt_const.mul (hI _ _ _)).add (ContinuousAt.mul
        (continuousAt_const.mul (ContinuousAt.mul (by fun_prop) (hq.inv₀ hq0))) (hI _ _ _)))
  refine h1.congr' ?_
  have h2 : ∀ᶠ u : ℝ in 𝓝[<] (1 / c), 0 < 2 - u * c := by
    filter_upwards [free_pos hc] with u hu
    linarith
  filter_upwards [free_pos hc, h2] with u hu hu2
  have ec : (1 - u * c) ^ 4 * (q u)⁻¹ = c1Form m (u * c) := by
    rw [c1Form, ← inv_inv ((1 - u * c) ^ 4), ← mul_inv]
    congr 1
    simp only [q]
    generalize u * c = η at *
    have a := hu.ne'
    have b := hu2.ne'
    field_simp
  rw [ec]
  unfold dispForm
  ring

end forms

/-! ## The contributions -/

section contributions
variable {p : PcSaftParameters n ℝ} {T V : ℝ} {N : Fin n → ℝ}

/-- the smallest volume: there the packing fraction is one -/
theorem zeta_pos_moles (h : Admissible p T V N) (k : Fin 4) : 0 < zeta p.m N (hsDiameter p T) k := by
  have h1 := h.zeta_pos k
  have e := zeta_smul p.m (hsDiameter p T) (1 / V) N k
  have e2 : (StateHD.new T V N).partial_density = fun i => 1 / V * N i := new_density_dilute T V N
  rw [e2, e] at h1
  exact pos_of_mul_pos_right h1 (one_div_nonneg.2 h.volume.le)

theorem hardSphere_dense (h : Admissible p T V N) :
    ∃ L, 0 < L ∧ Tendsto (fun u : ℝ => (1 - u * zeta p.m N (hsDiameter p T) 3) ^ 2 * hardSphere p (diluteState (u, (T, N))))
      (𝓝[<] (1 / zeta p.m N (hsDiameter p T) 3)) (𝓝 L) := by
  have h3 := zeta_pos_moles h 3
  have h2 := zeta_pos_moles h 2
  set z := zeta23 p.m (fun i => N i / ∑ j, N j) (hsDiameter p T) with hz
  have hzp : 0 < z := by
    have hN := h.total_pos
    have e : ∀ k : Fin 4, ∑ i, N i / (∑ j, N j) * (p.m i * hsDiameter p T i ^ (k : ℕ))
        = zeta p.m N (hsDiameter p T) k * (6 / Real.pi) / ∑ j, N j := fun k => by
      rw [zeta_real, Finset.mul_sum, Finset.sum_mul, Finset.sum_div]
      refine Finset.sum_congr rfl fun i _ => ?_
      have := Real.pi_ne_zero
      field_simp
    have e2 := e 2
    have e3 := e 3
    simp only [Fin.val_two, show ((3 : Fin 4) : ℕ) = 3 from rfl] at e2 e3
    have := Real.pi_pos
    rw [hz, zeta23_real, e2, e3]
    positivity
  refine ⟨_, ?_, (tendsto_hs h3 (zeta p.m N (hsDiameter p T) 0) (zeta p.m N (hsDiameter p T) 1)
    (zeta p.m N (hsDiameter p T) 2) z).congr fun u => ?_⟩
  · have := Real.pi_pos
    positivity
  · rw [hardSphere_real]
    simp only [zeta_dilute]
    rfl

theorem hardChain_dense (h : Admissible p T V N) :
    Tendsto (fun u : ℝ => (1 - u * zeta p.m N (hsDiameter p T) 3) ^ 2 * hardChain p (diluteState (u, (T, N))))
      (𝓝[<] (1 / zeta p.m N (hsDiameter p T) 3)) (𝓝 0) := by
  have h3 := zeta_pos_moles h 3
  have h2 := zeta_pos_moles h 2
  set c2 := zeta p.m N (hsDiameter p T) 2 with hc2
  set c3 := zeta p.m N (hsDiameter p T) 3 with hc3
  have hu : Tendsto (fun u : ℝ => u) (𝓝[<] (1 / c3)) (𝓝 (1 / c3)) := tendsto_of_continuousAt continuousAt_id
  have h1 : Tendsto (fun u : ℝ => ∑ i, u * N i * (1 - p.m i) * ((1 - u * c3) ^ 2
      * Real.log (gForm (u * c2) (u * c3) (hsDiameter p T i)))) (𝓝[<] (1 / c3)) (𝓝 (∑ i : Fin n, 1 / c3 * N i * (1 - p.m i) * 0)) :=
    tendsto_finsetSum _ fun i _ => ((hu.mul_const _).mul_const _).mul (tendsto_log_g h3 h2 (h.diameter_pos i))
  simp only [mul_zero, Finset.sum_const_zero] at h1
  refine h1.congr' ?_
  filter_upwards [free_pos h3] with u hu
  have hne : u * c3 ≠ 1 := fun h => by rw [h] at hu; simp at hu
  rw [hardChain_real]
  simp only [zeta_dilute]
  simp only [diluteState, one_mul, Finset.mul_sum, ← hc2, ← hc3, gHs_real _ _ _ hne]
  exact Finset.sum_congr rfl fun i _ => by ring

theorem dispersion_dense (h : Admissible p T V N) :
    Tendsto (fun u : ℝ => (1 - u * zeta p.m N (hsDiameter p T) 3) ^ 2 * dispersion p (diluteState (u, (T, N))))
      (𝓝[<] (1 / zeta p.m N (hsDiameter p T) 3)) (𝓝 0) := by
  have h3 := zeta_pos_moles h 3
  set c3 := zeta p.m N (hsDiameter p T) 3 with hc3
  have hm : 0 < ∑ i, N i / (∑ j, N j) * p.m i := by
    have := meanSegment_pos h
    rwa [meanSegment, StateHD.new_molefracs] at this
  set m := ∑ i, N i / (∑ j, N j) * p.m i with hm'
  have hu : Tendsto (fun u : ℝ => u) (𝓝[<] (1 / c3)) (𝓝 (1 / c3)) := tendsto_of_continuousAt continuousAt_id
  have h1 := (hu.pow 2).mul (tendsto_disp h3 hm (rho1mix p T N) (rho2mix p T N))
  rw [mul_zero] at h1
  refine h1.congr fun u => ?_
  rw [dispersion_real, zeta_dilute]
  have e1 : rho1mix p (diluteState (u, (T, N))).temperature (diluteState (u, (T, N))).partial_density
      = u ^ 2 * rho1mix p T N := by
    rw [rho1mix_real, rho1mix_real]
    simp only [diluteState, Finset.mul_sum]
    exact Finset.sum_congr rfl fun i _ => Finset.sum_congr rfl fun j _ => by ring
  have e2 : rho2mix p (diluteState (u, (T, N))).temperature (diluteState (u, (T, N))).partial_density
      = u ^ 2 * rho2mix p T N := by
    rw [rho2mix_real, rho2mix_real]
    simp only [diluteState, Finset.mul_sum]
    exact Finset.sum_congr rfl fun i _ => Finset.sum_congr rfl fun j _ => by ring
  rw [e1, e2]
  change _ = (1 - u * c3) ^ 2 * dispForm 1 (u ^ 2 * rho1mix p T N) (u ^ 2 * rho2mix p T N) m (u * c3)
  simp only [dispForm]
  ring

end contributions

/-! ## Mean value argument -/

theorem exists_steep {f f' : ℝ → ℝ} {a b : ℝ} (hab : a < b) (hf : ∀ x ∈ Set.Ioc a b, HasDerivAt f (f' x) x)
    (hlim : Tendsto f (𝓝[>] a) atTop) (K : ℝ) : ∃ x ∈ Set.Ioo a b, f' x ≤ -K := by
  have h1 := hlim.eventually (eventually_ge_atTop (f b + |K| * (b - a)))
  have h2 : ∀ᶠ x in 𝓝[>] a, x ∈ Set.Ioo a b := Ioo_mem_nhdsGT hab
  obtain ⟨x, hx, hxa, hxb⟩ := (h1.and h2).exists
  obtain ⟨ξ, hξ, e⟩ := exists_hasDerivAt_eq_slope f f' hxb
    (fun y hy => (hf y ⟨hxa.trans_le hy.1, hy.2⟩).continuousAt.continuousWithinAt)
    (fun y hy => hf y ⟨hxa.trans hy.1, hy.2.le⟩)
  refine ⟨ξ, ⟨hxa.trans hξ.1, hξ.2⟩, ?_⟩
  rw [e, div_le_iff₀ (sub_pos.2 hxb)]
  have : |K| * (b - x) ≤ |K| * (b - a) := mul_le_mul_of_nonneg_left (by linarith) (abs_nonneg K)
  have h3 : K * (b - x) ≤ |K| * (b - x) := mul_le_mul_of_nonneg_right (le_abs_self K) (sub_pos.2 hxb).le
  linarith

/-- A function that grows without bound towards `a` takes every slope below its slope at `b`; the same with a term
`M / x` from the ideal gas. -/
theorem exists_pressure {f f' : ℝ → ℝ} {a b M P : ℝ} (ha : 0 < a) (hab : a < b) (hM : 0 ≤ M)
    (hf : ∀ x ∈ Set.Ioc a b, HasDerivAt f (f' x) x) (hc : ContinuousOn f' (Set.Ioc a b))
    (hlim : Tendsto f (𝓝[>] a) atTop) (hP : M / b - f' b ≤ P) : ∃ x ∈ Set.Ioc a b, M / x - f' x = P := by
  obtain ⟨x, ⟨hxa, hxb⟩, hx⟩ := exists_steep hab hf hlim P
  have hcont : ContinuousOn (fun y => M / y - f' y) (Set.Icc x b) := by
    refine ContinuousOn.sub (continuousOn_const.div continuousOn_id fun y hy => ?_) (hc.mono fun y hy => ?_)
    · exact (ha.trans (hxa.trans_le hy.1)).ne'
    · exact ⟨hxa.trans_le hy.1, hy.2⟩
  have h0 : 0 ≤ M / x := div_nonneg hM (ha.trans hxa).le
  obtain ⟨y, hy, e⟩ := intermediate_value_Icc' hxb.le hcont ⟨hP, by linarith⟩
  exact ⟨y, ⟨hxa.trans_le hy.1, hy.2⟩, e⟩

end PcSaft
