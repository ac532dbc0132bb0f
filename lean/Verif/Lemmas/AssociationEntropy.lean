import Verif.Lemmas.Bonding
import Verif.Props.Association
import Mathlib.Analysis.SpecialFunctions.Trigonometric.DerivHyp
import Mathlib.Analysis.SpecialFunctions.Sqrt

/-!
# The entropy of bonding

The association energy of one component as a function of the product of association strength and density, its
derivative, and the sign of the entropy of bonding.
-/

open Filter Topology

namespace PcSaft
open Spec Props

/-! ## Elementary inequalities -/

theorem log_le_half {z : ℝ} (hz : 1 ≤ z) : Real.log z ≤ (z - z⁻¹) / 2 := by
  have h := Real.self_le_sinh_iff.2 (Real.log_nonneg hz)
  rwa [Real.sinh_log (by linarith)] at h

theorem exp_ratio_mono {s y : ℝ} (hs : 0 < s) (hsy : s ≤ y) :
    s / (1 - Real.exp (-s)) ≤ y / (1 - Real.exp (-y)) := by
  have hy := hs.trans_le hsy
  have es : Real.exp (-s) < 1 := Real.exp_lt_one_iff.2 (by linarith)
  have ey : Real.exp (-y) < 1 := Real.exp_lt_one_iff.2 (by linarith)
  have h := convexOn_exp.2 (Set.mem_univ (-y)) (Set.mem_univ 0) (show 0 ≤ s / y by positivity)
    (show 0 ≤ 1 - s / y by rw [sub_nonneg, div_le_one hy]; exact hsy) (by ring)
  simp only [smul_eq_mul, mul_zero, add_zero, Real.exp_zero, mul_one] at h
  rw [show s / y * -y = -s by field_simp] at h
  rw [div_le_div_iff₀ (by linarith) (by linarith)]
  have e : s / y * Real.exp (-y) + (1 - s / y) = 1 - s * (1 - Real.exp (-y)) / y := by
    field_simp
    ring
  rw [e] at h
  have : s * (1 - Real.exp (-y)) / y ≤ 1 - Real.exp (-s) := by linarith
  rw [div_le_iff₀ hy] at this
  linarith

/-- two kinds of sites with the fractions `p` and `q` -/
theorem two_sites {p q : ℝ} (hp : 0 < p) (hq : 0 < q) (hp1 : p < 1) (hq1 : q < 1) :
    -Real.log p / (1 - p) + -Real.log q / (1 - q) ≤ 1 + -Real.log (p * q) / (1 - p * q) := by
  have hpq : p * q < 1 := by nlinarith
  have a1 : 0 < 1 - p := by linarith
  have b1 : 0 < 1 - q := by linarith
  have c1 : 0 < 1 - p * q := by linarith
  have key : ∀ t : ℝ, 0 < t → t < 1 → -Real.log t * t ≤ (1 - t) * (1 + t) / 2 := fun t h0 h1 => by
    have := log_le_half (z := t⁻¹) (one_le_inv₀ h0 |>.2 h1.le)
    rw [Real.log_inv, inv_inv] at this
    have e : (t⁻¹ - t) / 2 * t = (1 - t) * (1 + t) / 2 := by
      field_simp
      ring
    have := mul_le_mul_of_nonneg_right this h0.le
    rw [e] at this
    exact this
  have ka := mul_le_mul_of_nonneg_right (key p hp hp1) b1.le
  have kb := mul_le_mul_of_nonneg_right (key q hq hq1) a1.le
  rw [Real.log_mul hp.ne' hq.ne']
  generalize Real.log p = a at *
  generalize Real.log q = b at *
  have e : 1 + -(a + b) / (1 - p * q) - (-a / (1 - p) + -b / (1 - q))
      = (1 - (-a * p * (1 - q)) / ((1 - p) * (1 - p * q)) - (-b * q * (1 - p)) / ((1 - q) * (1 - p * q))) := by
    field_simp
    ring
  have h1 : (-a * p * (1 - q)) / ((1 - p) * (1 - p * q)) ≤ (1 + p) * (1 - q) / (2 * (1 - p * q)) := by
    rw [div_le_div_iff₀ (by positivity) (by positivity)]
    have := mul_le_mul_of_nonneg_right ka c1.le
    linarith
  have h2 : (-b * q * (1 - p)) / ((1 - q) * (1 - p * q)) ≤ (1 + q) * (1 - p) / (2 * (1 - p * q)) := by
    rw [div_le_div_iff₀ (by positivity) (by positivity)]
    have := mul_le_mul_of_nonneg_right kb c1.le
    linarith
  have h3 : (1 + p) * (1 - q) / (2 * (1 - p * q)) + (1 + q) * (1 - p) / (2 * (1 - p * q)) = 1 := by
    field_simp
    ring
  linarith

/-- bonds: the energy released exceeds the loss of entropy -/
theorem bonds_entropy {C y d na nb x z : ℝ} (hC : 0 < C) (hd : 0 < d) (hna : 0 < na) (hnb : 0 < nb) (hx : 0 < x) (hz : 0 < z)
    (h : MassActionAB d na nb x z) (hy : d = C * (Real.exp y - 1)) (ha : C * na ≤ 1 / 2) (hb : C * nb ≤ 1 / 2) :
    0 ≤ na * Real.log x + nb * Real.log z + na * (1 - x) + na * nb * x * z * (C * y * Real.exp y) := by
  have hbal := h.balance hd.ne' hx.ne'
  obtain ⟨h1, h2⟩ := h
  have hx1 : x < 1 := by
    have : 0 < x * (d * nb * z) := by positivity
    linarith
  have hz1 : z < 1 := by
    have : 0 < z * (d * na * x) := by positivity
    linarith
  have hxz : x * z < 1 := by nlinarith
  have hE : (x * z)⁻¹ ≤ Real.exp y := by
    have e1 : d * nb * (x * z) = 1 - x := by linarith
    have e2 : d * na * (x * z) = 1 - z := by linarith
    have g1 : d * (C * nb) ≤ d * (1 / 2) := mul_le_mul_of_nonneg_left hb hd.le
    have g2 : d * (C * na) ≤ d * (1 / 2) := mul_le_mul_of_nonneg_left ha hd.le
    have g : (d * nb + d * na) ≤ Real.exp y - 1 := by
      have : C * (d * nb + d * na) ≤ C * (Real.exp y - 1) := by linarith
      exact le_of_mul_le_mul_left this hC
    rw [inv_le_iff_one_le_mul₀ (by positivity)]
    have := mul_le_mul_of_nonneg_right g (show 0 ≤ x * z by positivity)
    nlinarith [mul_nonneg (sub_nonneg.2 hx1.le) (sub_nonneg.2 hz1.le)]
  have hs : 0 < -Real.log (x * z) := by
    have := Real.log_neg (by positivity) hxz
    linarith
  have hsy : -Real.log (x * z) ≤ y := by
    rw [← Real.log_inv, Real.log_le_iff_le_exp (by positivity)]
    exact hE
  have m1 := exp_ratio_mono hs hsy
  rw [neg_neg, Real.exp_log (by positivity)] at m1
  have m2 := two_sites hx hz hx1 hz1
  have hy0 := hs.trans_le hsy
  have hey : 1 < Real.exp y := Real.one_lt_exp_iff.2 hy0
  have e3 : y / (1 - Real.exp (-y)) = y * Real.exp y / (Real.exp y - 1) := by
    rw [Real.exp_neg]
    have : Real.exp y - 1 ≠ 0 := by linarith
    field_simp
  have e4 : na * nb * x * z * (C * y * Real.exp y) = na * (1 - x) * (y / (1 - Real.exp (-y))) := by
    have : d * nb * (x * z) = 1 - x := by linarith
    rw [e3, ← this, hy]
    have : Real.exp y - 1 ≠ 0 := by linarith
    field_simp
  rw [e4]
  have hB : 0 < na * (1 - x) := mul_pos hna (by linarith)
  have e5 : na * Real.log x = - (na * (1 - x) * (-Real.log x / (1 - x))) := by
    have : 1 - x ≠ 0 := by linarith
    field_simp
  have e6 : nb * Real.log z = - (na * (1 - x) * (-Real.log z / (1 - z))) := by
    rw [← hbal]
    have : 1 - z ≠ 0 := by linarith
    field_simp
  have := mul_le_mul_of_nonneg_left (m2.trans (add_le_add_right m1 1)) hB.le
  rw [e5, e6]
  linarith

/-! ## The energy as a function of the strength -/

/-- a tangent from below -/
theorem single_support {d na nb x : ℝ} (hd : Real.sqrt (f64EPSILON : ℝ) < d) (hna : 0 < na) (hnb : 0 < nb) (hx : 0 < x) :
    na * (Real.log x - x + 1) - nb * Real.log (1 + d * na * x) ≤ assocSingle d 1 na nb := by
  obtain ⟨xb, h1, h2, h3, h4, h5, -⟩ := C23_site_fractions hd hna hnb
  have hd0 : 0 < d := lt_of_le_of_lt (Real.sqrt_nonneg _) hd
  set xa := assocSiteFracAB d na nb
  have hsol : MassAction (siteMatrix (fun _ _ : Fin 1 => d) (fun _ => na) (fun _ => nb) (fun _ => 1))
      (Sum.elim (fun _ => xa) (fun _ => xb)) := by
    intro s
    obtain ⟨g1, g2⟩ := h5
    rcases s with i | i
    · simp [siteMatrix]
      exact g1
    · simp [siteMatrix]
      exact g2
  have hpos : ∀ s, 0 < Sum.elim (fun _ : Fin 1 => xa) (fun _ : Fin 1 => xb) s := by
    rintro (i | i)
    · exact h1
    · exact h3
  have hle := bondingFunction_le (fun _ _ => hd0.le) (fun _ _ => rfl) (fun _ => hna.le) (fun _ => hnb.le)
    (fun _ => zero_le_one) hsol hpos (y := fun _ => x) fun _ => hx
  rw [bondingFunction_at (fun _ _ => rfl) hsol] at hle
  rw [C23_energy hd hna hnb h1 h3 h5]
  simp only [bondingFunction, Fin.sum_univ_one, Sum.elim_inl, Sum.elim_inr, one_mul] at hle
  rw [one_mul]
  exact hle

theorem single_differentiable {d na nb : ℝ} (hd : Real.sqrt (f64EPSILON : ℝ) < d) (hna : 0 < na) (hnb : 0 < nb) :
    DifferentiableAt ℝ (fun d => assocSingle d 1 na nb) d := by
  obtain ⟨xb, h1, -, h3, -, h5, -⟩ := C23_site_fractions hd hna hnb
  have hd0 : 0 < d := lt_of_le_of_lt (Real.sqrt_nonneg _) hd
  have hfrac : DifferentiableAt ℝ (fun d => fracForm (d * na) (d * nb)) d := by
    unfold fracForm
    have : 0 < (d * na - d * nb + 1) ^ 2 + 4 * (d * nb) := by positivity
    refine DifferentiableAt.div (DifferentiableAt.sub (DifferentiableAt.sqrt (by fun_prop) this.ne') (by fun_prop))
      (by fun_prop) (by positivity)
  have hx := assocSiteFracAB_above (na := na) (nb := nb) (sqrt_epsilon ▸ hd)
  have hev : (fun d => assocSingle d 1 na nb) =ᶠ[𝓝 d] fun d =>
      na * (Real.log (fracForm (d * na) (d * nb)) - fracForm (d * na) (d * nb) / 2 + 1 / 2)
      + nb * (Real.log ((fracForm (d * na) (d * nb) - 1) * (na / nb) + 1)
        - ((fracForm (d * na) (d * nb) - 1) * (na / nb) + 1) / 2 + 1 / 2) := by
    filter_upwards [lt_mem_nhds hd] with e he
    rw [assocSingle_ab hnb, assocSiteFracAB_above (sqrt_epsilon ▸ he), assocF_real, assocF_real, one_mul]
  refine DifferentiableAt.congr_of_eventuallyEq ?_ hev
  have hxb := h5.xb_eq hnb.ne' h1.ne'
  rw [hx] at h1 hxb
  rw [hxb] at h3
  have l1 : DifferentiableAt ℝ (fun d => Real.log (fracForm (d * na) (d * nb))) d := hfrac.log h1.ne'
  have hb' : DifferentiableAt ℝ (fun d => (fracForm (d * na) (d * nb) - 1) * (na / nb) + 1) d :=
    ((hfrac.sub_const 1).mul_const _).add_const 1
  have l2 : DifferentiableAt ℝ (fun d => Real.log ((fracForm (d * na) (d * nb) - 1) * (na / nb) + 1)) d := hb'.log h3.ne'
  exact ((((l1.sub (hfrac.div_const 2)).add_const _).const_mul na)).add
    (((l2.sub (hb'.div_const 2)).add_const _).const_mul nb)

/-- the slope of the energy is the number of bonds divided by the strength -/
theorem single_slope {d na nb x z : ℝ} (hd : Real.sqrt (f64EPSILON : ℝ) < d) (hna : 0 < na) (hnb : 0 < nb) (hx : 0 < x)
    (hz : 0 < z) (h : MassActionAB d na nb x z) : HasDerivAt (fun d => assocSingle d 1 na nb) (-(na * nb * x * z)) d := by
  have hd0 : 0 < d := lt_of_le_of_lt (Real.sqrt_nonneg _) hd
  have hA := (single_differentiable hd hna hnb).hasDerivAt
  have h1 : 0 < 1 + d * na * x := by positivity
  have hlin : HasDerivAt (fun d : ℝ => 1 + d * na * x) (na * x) d := by
    have := (((hasDerivAt_id d).mul_const na).mul_const x).const_add 1
    simpa using this
  have hg : HasDerivAt (fun d => na * (Real.log x - x + 1) - nb * Real.log (1 + d * na * x))
      (-(nb * (na * x / (1 + d * na * x)))) d := ((hlin.log h1.ne').const_mul nb).const_sub _
  have hdiff := hA.sub hg
  have hmin : IsLocalMin (fun d => assocSingle d 1 na nb
      - (na * (Real.log x - x + 1) - nb * Real.log (1 + d * na * x))) d := by
    have e0 : assocSingle d 1 na nb - (na * (Real.log x - x + 1) - nb * Real.log (1 + d * na * x)) = 0 := by
      have hb := h.balance hd0.ne' hx.ne'
      rw [C23_energy hd hna hnb hx hz h, eq_div_of_mul_eq hz.ne' (by linarith [h.2] : (1 + d * na * x) * z = 1),
        Real.log_div one_ne_zero hz.ne', Real.log_one]
      linarith
    filter_upwards [lt_mem_nhds hd] with e he
    rw [e0, sub_nonneg]
    exact single_support he hna hnb hx
  have hz0 := hmin.hasDerivAt_eq_zero hdiff
  have e1 : na * x / (1 + d * na * x) = na * x * z := by
    rw [div_eq_iff h1.ne']
    linear_combination -(na * x) * h.2
  rw [e1] at hz0
  refine hA.congr_deriv ?_
  linarith

/-! ## The series below the cutoff -/

theorem log_series {u : ℝ} (h0 : 0 ≤ u) (h1 : u ≤ 1 / 2) : -(u + u ^ 2 / 2 + u ^ 3) ≤ Real.log (1 - u) := by
  have hd : ∀ t ∈ Set.Icc (0 : ℝ) (1 / 2), HasDerivAt (fun t => Real.log (1 - t) + (t + t ^ 2 / 2 + t ^ 3))
      (-1 / (1 - t) + (1 + t + 3 * t ^ 2)) t := fun t ht => by
    have h1 : HasDerivAt (fun t : ℝ => 1 - t) (-1) t := by simpa using (hasDerivAt_id t).const_sub 1
    have h2 := ((hasDerivAt_id t).add ((hasDerivAt_pow 2 t).div_const 2)).add (hasDerivAt_pow 3 t)
    refine ((h1.log (by linarith [ht.2])).add h2).congr_deriv ?_
    norm_num
  have hmono : MonotoneOn (fun t => Real.log (1 - t) + (t + t ^ 2 / 2 + t ^ 3)) (Set.Icc (0 : ℝ) (1 / 2)) := by
    refine monotoneOn_of_deriv_nonneg (convex_Icc _ _) (fun t ht => (hd t ht).continuousAt.continuousWithinAt)
      (fun t ht => ((hd t (interior_subset ht)).differentiableAt).differentiableWithinAt) fun t ht => ?_
    have ht := interior_subset ht
    rw [(hd t ht).deriv]
    have h3 : 0 < 1 - t := by linarith [ht.2]
    have : -1 / (1 - t) + (1 + t + 3 * t ^ 2) = t ^ 2 * (2 - 3 * t) / (1 - t) := by
      field_simp
      ring
    rw [this]
    exact div_nonneg (mul_nonneg (sq_nonneg t) (by linarith [ht.2])) h3.le
  have := hmono (⟨le_rfl, by norm_num⟩ : (0 : ℝ) ∈ Set.Icc (0 : ℝ) (1 / 2)) ⟨h0, h1⟩ h0
  norm_num at this
  linarith

theorem series_slope {d na nb : ℝ} (hd : d < Real.sqrt (f64EPSILON : ℝ)) (hd0 : 0 ≤ d) (hna : 0 < na) (hnb : 0 < nb)
    (hs : na + nb ≤ 2 ^ 20) : ∃ D, HasDerivAt (fun d => assocSingle d 1 na nb) D d
      ∧ D ≤ -(na * nb * (1 - 2 * (d * (na + nb))) * (1 + d * (na + nb) - (d * (na + nb)) ^ 2))
      ∧ -(na * nb * d * (1 - d * (na + nb)) * (1 + d * (na + nb) / 2 + (d * (na + nb)) ^ 2 / 2))
        ≤ assocSingle d 1 na nb := by
  have hd2 := hd
  rw [sqrt_epsilon] at hd2
  have he : d * (na + nb) ≤ 1 / 64 := by
    have := mul_le_mul hd2.le hs (by positivity) (by positivity)
    norm_num at this ⊢
    linarith
  have he0 : 0 ≤ d * (na + nb) := by positivity
  have hform : ∀ d : ℝ, d < Real.sqrt (f64EPSILON : ℝ) → assocSingle d 1 na nb
      = na * (Real.log (1 - d * nb * (1 - d * (na + nb))) + d * nb * (1 - d * (na + nb)) / 2)
        + nb * (Real.log (1 - d * na * (1 - d * (na + nb))) + d * na * (1 - d * (na + nb)) / 2) := fun d hd => by
    have e1 : 1 - d * nb + d * nb * (d * na + d * nb) = 1 - d * nb * (1 - d * (na + nb)) := by ring
    have e2 : (1 - d * nb + d * nb * (d * na + d * nb) - 1) * (na / nb) + 1 = 1 - d * na * (1 - d * (na + nb)) := by
      field_simp
      ring
    rw [assocSingle_ab hnb, assocSiteFracAB_below (by rw [sqrt_epsilon] at hd; exact hd.le), e2, e1, assocF_real, assocF_real]
    ring
  set ε := d * (na + nb) with hε
  have hu0 : 0 ≤ d * nb * (1 - ε) := mul_nonneg (by positivity) (by linarith)
  have hv0 : 0 ≤ d * na * (1 - ε) := mul_nonneg (by positivity) (by linarith)
  have huv : d * nb * (1 - ε) + d * na * (1 - ε) = ε * (1 - ε) := by
    rw [hε]
    ring
  have huv1 : ε * (1 - ε) ≤ 1 / 64 := by nlinarith
  set u := d * nb * (1 - ε) with hu
  set v := d * na * (1 - ε) with hv
  have hlin : ∀ b : ℝ, HasDerivAt (fun d : ℝ => d * b * (1 - d * (na + nb))) (b * (1 - 2 * ε)) d := fun b => by
    have h1 := ((hasDerivAt_id d).mul_const b)
    have h2 := ((hasDerivAt_id d).mul_const (na + nb)).const_sub 1
    refine (h1.mul h2).congr_deriv ?_
    simp only [id, hε]
    ring
  have hder : HasDerivAt (fun d : ℝ =>
        na * (Real.log (1 - d * nb * (1 - d * (na + nb))) + d * nb * (1 - d * (na + nb)) / 2)
        + nb * (Real.log (1 - d * na * (1 - d * (na + nb))) + d * na * (1 - d * (na + nb)) / 2))
      (na * (-(nb * (1 - 2 * ε)) / (1 - u) + nb * (1 - 2 * ε) / 2)
        + nb * (-(na * (1 - 2 * ε)) / (1 - v) + na * (1 - 2 * ε) / 2)) d := by
    have l1 := ((hlin nb).const_sub 1).log (show 1 - d * nb * (1 - d * (na + nb)) ≠ 0 by
      change 1 - u ≠ 0
      linarith)
    have l2 := ((hlin na).const_sub 1).log (show 1 - d * na * (1 - d * (na + nb)) ≠ 0 by
      change 1 - v ≠ 0
      linarith)
    exact ((l1.add ((hlin nb).div_const 2)).const_mul na).add ((l2.add ((hlin na).div_const 2)).const_mul nb)
  refine ⟨_, hder.congr_of_eventuallyEq ((gt_mem_nhds hd).mono hform), ?_, ?_⟩
  · have k : ∀ t : ℝ, t < 1 → 1 + t ≤ 1 / (1 - t) := fun t ht => by
      rw [le_div_iff₀ (by linarith)]
      nlinarith [sq_nonneg t]
    have ku := k u (by linarith)
    have kv := k v (by linarith)
    have e : na * (-(nb * (1 - 2 * ε)) / (1 - u) + nb * (1 - 2 * ε) / 2)
        + nb * (-(na * (1 - 2 * ε)) / (1 - v) + na * (1 - 2 * ε) / 2)
        = -(na * nb * (1 - 2 * ε) * (1 / (1 - u) + 1 / (1 - v) - 1)) := by ring
    rw [e]
    refine neg_le_neg (mul_le_mul_of_nonneg_left ?_ (mul_nonneg (by positivity) (by linarith)))
    linarith
  · rw [hform d hd]
    have lu := mul_le_mul_of_nonneg_left (log_series hu0 (by linarith)) hna.le
    have lv := mul_le_mul_of_nonneg_left (log_series hv0 (by linarith)) hnb.le
    have e1 : na * u = na * nb * d * (1 - ε) := by rw [hu]; ring
    have e2 : nb * v = na * nb * d * (1 - ε) := by rw [hv]; ring
    have hq : u ^ 2 + v ^ 2 ≤ ε ^ 2 := by nlinarith
    have hP : 0 ≤ na * nb * d * (1 - ε) := mul_nonneg (by positivity) (by linarith)
    have h3 := mul_le_mul_of_nonneg_left hq hP
    change _ ≤ na * (Real.log (1 - u) + u / 2) + nb * (Real.log (1 - v) + v / 2)
    have e3 : na * (u + u ^ 2 / 2 + u ^ 3) = na * u * (1 + u / 2 + u ^ 2) := by ring
    have e4 : nb * (v + v ^ 2 / 2 + v ^ 3) = nb * v * (1 + v / 2 + v ^ 2) := by ring
    have e5 : na * -(u + u ^ 2 / 2 + u ^ 3) = -(na * (u + u ^ 2 / 2 + u ^ 3)) := by ring
    have e6 : nb * -(v + v ^ 2 / 2 + v ^ 3) = -(nb * (v + v ^ 2 / 2 + v ^ 3)) := by ring
    rw [e5, e3, e1] at lu
    rw [e6, e4, e2] at lv
    have e7 : na * (Real.log (1 - u) + u / 2) + nb * (Real.log (1 - v) + v / 2)
        = na * Real.log (1 - u) + nb * Real.log (1 - v) + na * nb * d * (1 - ε) := by
      linear_combination e1 / 2 + e2 / 2
    rw [e7]
    generalize na * nb * d * (1 - ε) = P at *
    have e8 : P * (ε * (1 - ε)) = P * u + P * v := by rw [← huv]; ring
    have : P * ε ^ 2 ≤ P * ε ^ 2 := le_rfl
    nlinarith

/-- the series: the energy released exceeds the loss of entropy -/
theorem series_entropy {C y d na nb D : ℝ} (hC : 0 < C) (hy0 : 0 ≤ y) (hd0 : 0 ≤ d) (hna : 0 < na) (hnb : 0 < nb)
    (hd : d < Real.sqrt (f64EPSILON : ℝ)) (hs : na + nb ≤ 2 ^ 20)
    (hy : d = C * (Real.exp y - 1)) (ha : C * na ≤ 2 / 5) (hb : C * nb ≤ 2 / 5)
    (hD : D ≤ -(na * nb * (1 - 2 * (d * (na + nb))) * (1 + d * (na + nb) - (d * (na + nb)) ^ 2))) :
    na * nb * d * (1 - d * (na + nb)) * (1 + d * (na + nb) / 2 + (d * (na + nb)) ^ 2 / 2)
      ≤ D * -(C * y * Real.exp y) := by
  have hd2 := hd
  rw [sqrt_epsilon] at hd2
  have he : d * (na + nb) ≤ 1 / 64 := by
    have := mul_le_mul hd2.le hs (by positivity) (by positivity)
    norm_num at this ⊢
    linarith
  have he0 : 0 ≤ d * (na + nb) := by positivity
  have hw0 : 0 ≤ Real.exp y - 1 := by linarith [Real.add_one_le_exp y]
  set w := Real.exp y - 1 with hw
  have hew : Real.exp y = 1 + w := by rw [hw]; ring
  have hlog := Real.le_log_one_add_of_nonneg hw0
  rw [← hew, Real.log_exp] at hlog
  have hwe : 5 / 4 * (d * (na + nb)) ≤ w := by
    have h1 := mul_le_mul_of_nonneg_left (add_le_add ha hb) hd0
    have h2 : C * (5 / 4 * (d * (na + nb))) ≤ C * w := by
      rw [← hy]
      linarith
    exact le_of_mul_le_mul_left h2 hC
  set ε := d * (na + nb) with hε
  have hfac : 1 + 3 / 5 * ε ≤ 2 / (w + 2) * (1 + w) := by
    have e : 2 / (w + 2) * (1 + w) = 2 * (1 + w) / (w + 2) := by ring
    rw [e, le_div_iff₀ (by linarith)]
    nlinarith
  have hcy : d * (1 + 3 / 5 * ε) ≤ C * y * Real.exp y := by
    have h1 : C * (2 * w / (w + 2)) * (1 + w) ≤ C * y * (1 + w) := by gcongr
    have h2 : C * (2 * w / (w + 2)) * (1 + w) = d * (2 / (w + 2) * (1 + w)) := by
      rw [hy]
      ring
    rw [hew]
    have := mul_le_mul_of_nonneg_left hfac hd0
    linarith
  have hX : 0 ≤ na * nb * (1 - 2 * ε) * (1 + ε - ε ^ 2) :=
    mul_nonneg (mul_nonneg (by positivity) (by linarith)) (by nlinarith)
  have h1 : na * nb * (1 - 2 * ε) * (1 + ε - ε ^ 2) * (d * (1 + 3 / 5 * ε)) ≤ D * -(C * y * Real.exp y) := by
    have := mul_le_mul (le_neg_of_le_neg hD) hcy (by positivity) (hX.trans (le_neg_of_le_neg hD))
    linarith
  refine le_trans ?_ h1
  have h2 : (1 - ε) * (1 + ε / 2 + ε ^ 2 / 2) ≤ (1 - 2 * ε) * (1 + ε - ε ^ 2) * (1 + 3 / 5 * ε) := by
    have e : (1 - 2 * ε) * (1 + ε - ε ^ 2) * (1 + 3 / 5 * ε) - (1 - ε) * (1 + ε / 2 + ε ^ 2 / 2)
        = ε * (1 / 10 - 18 / 5 * ε + ε ^ 2 * (7 / 10 + 6 / 5 * ε)) := by ring
    have : 0 ≤ ε * (1 / 10 - 18 / 5 * ε + ε ^ 2 * (7 / 10 + 6 / 5 * ε)) := by
      refine mul_nonneg he0 ?_
      have : 0 ≤ ε ^ 2 * (7 / 10 + 6 / 5 * ε) := by positivity
      linarith
    linarith
  have := mul_le_mul_of_nonneg_left h2 (show 0 ≤ na * nb * d by positivity)
  linarith

/-! ## Both branches -/

/-- `T` times the association energy does not fall with temperature if the bonding volume is small -/
theorem single_entropy {δ : ℝ → ℝ} {T δ' C y na nb : ℝ} (hδ : HasDerivAt δ δ' T)
    (hC : 0 < C) (hy0 : 0 ≤ y) (hy : δ T = C * (Real.exp y - 1)) (hδ' : T * δ' ≤ -(C * y * Real.exp y))
    (hna : 0 < na) (hnb : 0 < nb) (hs : na + nb ≤ 2 ^ 20) (ha : C * na ≤ 2 / 5) (hb : C * nb ≤ 2 / 5)
    (hne : δ T ≠ Real.sqrt (f64EPSILON : ℝ)) :
    ∃ a', HasDerivAt (fun W => assocSingle (δ W) 1 na nb) a' T ∧ 0 ≤ assocSingle (δ T) 1 na nb + T * a' := by
  have hw0 : 0 ≤ Real.exp y - 1 := by linarith [Real.add_one_le_exp y]
  have hd0 : 0 ≤ δ T := by
    rw [hy]
    positivity
  rcases lt_or_gt_of_ne hne with hlt | hgt
  · obtain ⟨D, h1, h2, h3⟩ := series_slope hlt hd0 hna hnb hs
    have h4 := series_entropy hC hy0 hd0 hna hnb hlt hs hy ha hb h2
    refine ⟨D * δ', h1.comp T hδ, ?_⟩
    have hD : D ≤ 0 := by
      refine h2.trans ?_
      have hd2 := hlt
      rw [sqrt_epsilon] at hd2
      have he : δ T * (na + nb) ≤ 1 / 64 := by
        have := mul_le_mul hd2.le hs (by positivity) (by positivity)
        norm_num at this ⊢
        linarith
      have he0 : 0 ≤ δ T * (na + nb) := by positivity
      refine neg_nonpos.2 (mul_nonneg (mul_nonneg (by positivity) (by linarith)) (by nlinarith))
    have h5 := mul_le_mul_of_nonpos_left hδ' hD
    have e : T * (D * δ') = D * (T * δ') := by ring
    rw [e]
    linarith
  · have hdpos : 0 < δ T := lt_of_le_of_lt (Real.sqrt_nonneg _) hgt
    obtain ⟨x, z, hx, hz, hm⟩ := massActionAB_exists hdpos.le hna hnb
    refine ⟨_, (single_slope hgt hna hnb hx hz hm).comp T hδ, ?_⟩
    have h1 := bonds_entropy hC hdpos hna hnb hx hz hm hy (ha.trans (by norm_num)) (hb.trans (by norm_num))
    rw [C23_energy hgt hna hnb hx hz hm]
    have hbal := hm.balance hdpos.ne' hx.ne'
    have h2 := mul_le_mul_of_nonneg_left hδ' (show 0 ≤ na * nb * x * z by positivity)
    have e : T * (-(na * nb * x * z) * δ') = -(na * nb * x * z * (T * δ')) := by ring
    rw [e, one_mul]
    linarith

end PcSaft
