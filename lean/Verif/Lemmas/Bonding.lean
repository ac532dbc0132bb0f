import Verif.Lemmas.Newton
import Verif.Lemmas.SiteFraction
import Mathlib.Analysis.Convex.SpecificFunctions.Basic
import Mathlib.Analysis.MeanInequalities

/-!
# The association energy as a maximum

For fixed strengths the association energy at the solution of the mass-action equations is the largest value of a
function of the fractions of unbonded A sites.  That function falls when a strength or a number of sites rises.
-/

namespace PcSaft
open Spec
variable {k : ℕ}

/-- tangent inequality of `log (1 + ∑ c e^u)` in the logarithms `u` -/
theorem log_sum_tangent (w x y : Fin k → ℝ) (hw : ∀ i, 0 ≤ w i) (hx : ∀ i, 0 < x i) (hy : ∀ i, 0 < y i) :
    Real.log (1 + ∑ i, w i * x i) + ∑ i, w i * x i / (1 + ∑ i, w i * x i) * (Real.log (y i) - Real.log (x i))
      ≤ Real.log (1 + ∑ i, w i * y i) := by
  have hS : 0 < 1 + ∑ i, w i * x i := by
    have := Finset.sum_nonneg fun i (_ : i ∈ Finset.univ) => mul_nonneg (hw i) (hx i).le
    linarith
  have hS' : 0 < 1 + ∑ i, w i * y i := by
    have := Finset.sum_nonneg fun i (_ : i ∈ Finset.univ) => mul_nonneg (hw i) (hy i).le
    linarith
  set S := 1 + ∑ i, w i * x i with hSdef
  -- convexity of the exponential with the weights `1 / S` and `w i x i / S`
  let W : Option (Fin k) → ℝ := fun o => o.elim (1 / S) fun i => w i * x i / S
  let P : Option (Fin k) → ℝ := fun o => o.elim 0 fun i => Real.log (y i) - Real.log (x i)
  have h := convexOn_exp.map_sum_le (t := Finset.univ) (w := W) (p := P)
    (by
      rintro (_ | i) _
      · exact (one_div_pos.2 hS).le
      · exact div_nonneg (mul_nonneg (hw i) (hx i).le) hS.le)
    (by
      rw [Fintype.sum_option]
      simp only [W, Option.elim]
      rw [← Finset.sum_div, ← add_div, ← hSdef, div_self hS.ne'])
    (fun _ _ => Set.mem_univ _)
  rw [Fintype.sum_option, Fintype.sum_option] at h
  simp only [W, P, Option.elim, smul_eq_mul, mul_zero, zero_add, Real.exp_zero, mul_one] at h
  have e : ∀ i, w i * x i / S * Real.exp (Real.log (y i) - Real.log (x i)) = w i * y i / S := fun i => by
    rw [Real.exp_sub, Real.exp_log (hy i), Real.exp_log (hx i)]
    have := (hx i).ne'
    field_simp
  rw [Finset.sum_congr rfl fun i _ => e i, ← Finset.sum_div, ← add_div] at h
  have := (Real.le_log_iff_exp_le (div_pos hS' hS)).2 h
  rw [Real.log_div hS'.ne' hS.ne'] at this
  linarith

/-- fractions `y` of unbonded A sites with the B sites in equilibrium -/
noncomputable def bondingFunction (delta : Fin k → Fin k → ℝ) (na nb rho y : Fin k → ℝ) : ℝ :=
  ∑ i, rho i * na i * (Real.log (y i) - y i + 1)
    - ∑ j, rho j * nb j * Real.log (1 + ∑ i, delta j i * (rho i * na i) * y i)

section
variable {delta : Fin k → Fin k → ℝ} {na nb rho : Fin k → ℝ} {x : Fin k ⊕ Fin k → ℝ}

/-- bonds counted from the A sites and from the B sites -/
theorem bonds_eq (hsym : ∀ i j, delta i j = delta j i) (hsol : MassAction (siteMatrix delta na nb rho) x) :
    ∑ i, rho i * na i * (1 - x (.inl i)) = ∑ i, rho i * nb i * (1 - x (.inr i)) := by
  have h1 : ∀ i, 1 - x (.inl i) = x (.inl i) * ∑ j, delta i j * (rho j * nb j) * x (.inr j) := fun i => by
    have := hsol (.inl i)
    rw [(siteMatrix_sum _ _ _ _ _ _).1] at this
    linear_combination -this
  have h2 : ∀ i, 1 - x (.inr i) = x (.inr i) * ∑ j, delta i j * (rho j * na j) * x (.inl j) := fun i => by
    have := hsol (.inr i)
    rw [(siteMatrix_sum _ _ _ _ _ _).2] at this
    linear_combination -this
  simp only [h1, h2, Finset.mul_sum]
  rw [Finset.sum_comm]
  refine Finset.sum_congr rfl fun i _ => Finset.sum_congr rfl fun j _ => ?_
  rw [hsym j i]
  ring

theorem bondingFunction_at (hsym : ∀ i j, delta i j = delta j i) (hsol : MassAction (siteMatrix delta na nb rho) x) :
    bondingFunction delta na nb rho (fun i => x (.inl i))
      = ∑ i, rho i * (na i * (Real.log (x (.inl i)) - x (.inl i) / 2 + 1 / 2)
        + nb i * (Real.log (x (.inr i)) - x (.inr i) / 2 + 1 / 2)) := by
  have hb := bonds_eq hsym hsol
  have h2 : ∀ j, Real.log (1 + ∑ i, delta j i * (rho i * na i) * x (.inl i)) = - Real.log (x (.inr j)) := fun j => by
    have := hsol (.inr j)
    rw [(siteMatrix_sum _ _ _ _ _ _).2] at this
    rw [← Real.log_inv, inv_eq_of_mul_eq_one_right this]
  unfold bondingFunction
  simp only [h2]
  rw [← sub_eq_zero] at hb ⊢
  rw [← Finset.sum_sub_distrib] at hb
  rw [← Finset.sum_sub_distrib, ← Finset.sum_sub_distrib]
  have : (1 / 2 : ℝ) * ∑ i, (rho i * na i * (1 - x (.inl i)) - rho i * nb i * (1 - x (.inr i))) = 0 := by
    rw [hb, mul_zero]
  rw [← this, Finset.mul_sum]
  exact Finset.sum_congr rfl fun i _ => by ring

theorem bondingFunction_le (hd : ∀ i j, 0 ≤ delta i j) (hsym : ∀ i j, delta i j = delta j i)
    (hna : ∀ i, 0 ≤ na i) (hnb : ∀ i, 0 ≤ nb i) (hrho : ∀ i, 0 ≤ rho i)
    (hsol : MassAction (siteMatrix delta na nb rho) x) (hx : ∀ s, 0 < x s) {y : Fin k → ℝ} (hy : ∀ i, 0 < y i) :
    bondingFunction delta na nb rho y ≤ bondingFunction delta na nb rho (fun i => x (.inl i)) := by
  -- the two tangent inequalities
  have hA : ∀ i, rho i * na i * (Real.log (y i) - y i + 1)
      ≤ rho i * na i * (Real.log (x (.inl i)) - x (.inl i) + 1)
        + rho i * na i * ((1 - x (.inl i)) * (Real.log (y i) - Real.log (x (.inl i)))) := fun i => by
    rw [← mul_add]
    refine mul_le_mul_of_nonneg_left ?_ (mul_nonneg (hrho i) (hna i))
    have h := Real.add_one_le_exp (Real.log (y i) - Real.log (x (.inl i)))
    rw [Real.exp_sub, Real.exp_log (hy i), Real.exp_log (hx _), le_div_iff₀ (hx _)] at h
    nlinarith [h]
  have hB : ∀ j, rho j * nb j * (Real.log (1 + ∑ i, delta j i * (rho i * na i) * x (.inl i))
        + ∑ i, delta j i * (rho i * na i) * x (.inl i) * x (.inr j)
          * (Real.log (y i) - Real.log (x (.inl i))))
      ≤ rho j * nb j * Real.log (1 + ∑ i, delta j i * (rho i * na i) * y i) := fun j => by
    refine mul_le_mul_of_nonneg_left ?_ (mul_nonneg (hrho j) (hnb j))
    have h := log_sum_tangent (fun i => delta j i * (rho i * na i)) (fun i => x (.inl i)) y
      (fun i => mul_nonneg (hd _ _) (mul_nonneg (hrho i) (hna i))) (fun i => hx _) hy
    have hj := hsol (.inr j)
    rw [(siteMatrix_sum _ _ _ _ _ _).2] at hj
    refine le_trans (le_of_eq ?_) h
    congr 1
    refine Finset.sum_congr rfl fun i _ => ?_
    rw [div_eq_mul_inv, inv_eq_of_mul_eq_one_left hj]
  have h1 : ∀ i, 1 - x (.inl i) = x (.inl i) * ∑ j, delta i j * (rho j * nb j) * x (.inr j) := fun i => by
    have := hsol (.inl i)
    rw [(siteMatrix_sum _ _ _ _ _ _).1] at this
    linear_combination -this
  have hbal : ∑ i, rho i * na i * ((1 - x (.inl i)) * (Real.log (y i) - Real.log (x (.inl i))))
      = ∑ j, rho j * nb j * ∑ i, delta j i * (rho i * na i) * x (.inl i) * x (.inr j)
          * (Real.log (y i) - Real.log (x (.inl i))) := by
    simp only [h1, Finset.mul_sum, Finset.sum_mul]
    rw [Finset.sum_comm]
    refine Finset.sum_congr rfl fun i _ => Finset.sum_congr rfl fun j _ => ?_
    rw [hsym j i]
    ring
  have sA := Finset.sum_le_sum fun i (_ : i ∈ Finset.univ) => hA i
  have sB := Finset.sum_le_sum fun j (_ : j ∈ Finset.univ) => hB j
  simp only [mul_add (rho _ * nb _)] at sB
  rw [Finset.sum_add_distrib] at sA sB
  unfold bondingFunction
  linarith

theorem bondingFunction_mono {delta' : Fin k → Fin k → ℝ} {na' nb' : Fin k → ℝ} (hd : ∀ i j, 0 ≤ delta i j)
    (hna : ∀ i, 0 ≤ na i) (hnb : ∀ i, 0 ≤ nb i) (hrho : ∀ i, 0 ≤ rho i)
    (hd' : ∀ i j, delta i j ≤ delta' i j) (hna' : ∀ i, na i ≤ na' i) (hnb' : ∀ i, nb i ≤ nb' i) {y : Fin k → ℝ}
    (hy : ∀ i, 0 < y i) :
    bondingFunction delta' na' nb' rho y ≤ bondingFunction delta na nb rho y := by
  unfold bondingFunction
  refine sub_le_sub (Finset.sum_le_sum fun i _ => ?_) (Finset.sum_le_sum fun j _ => ?_)
  · have h := Real.log_le_sub_one_of_pos (hy i)
    exact mul_le_mul_of_nonpos_right (mul_le_mul_of_nonneg_left (hna' i) (hrho i)) (by linarith)
  · have hs : 0 ≤ ∑ i, delta j i * (rho i * na i) * y i :=
      Finset.sum_nonneg fun i _ => mul_nonneg (mul_nonneg (hd _ _) (mul_nonneg (hrho i) (hna i))) (hy i).le
    have hs' : ∑ i, delta j i * (rho i * na i) * y i ≤ ∑ i, delta' j i * (rho i * na' i) * y i :=
      Finset.sum_le_sum fun i _ => mul_le_mul_of_nonneg_right
        (mul_le_mul (hd' _ _) (mul_le_mul_of_nonneg_left (hna' i) (hrho i)) (mul_nonneg (hrho i) (hna i))
          ((hd _ _).trans (hd' _ _))) (hy i).le
    exact mul_le_mul (mul_le_mul_of_nonneg_left (hnb' j) (hrho j)) (Real.log_le_log (by linarith) (by linarith))
      (Real.log_nonneg (by linarith)) (mul_nonneg (hrho j) ((hnb j).trans (hnb' j)))

end

/-! ## One component -/

/-- The positive root lies below every positive point at which the quadratic is not negative. -/
theorem root_le {a c X s : ℝ} (ha : 0 < a) (hX : 0 < X) (hroot : a * X ^ 2 + c * X - 1 = 0) (hs : 0 < s)
    (h : 0 ≤ a * s ^ 2 + c * s - 1) : X ≤ s := by
  by_contra hlt
  rw [not_le] at hlt
  have e : (a * s ^ 2 + c * s - 1) * X = (s - X) * (a * s * X + 1) := by linear_combination s * hroot
  have h1 : (s - X) * (a * s * X + 1) < 0 := mul_neg_of_neg_of_pos (by linarith) (by positivity)
  have h2 := mul_nonneg h hX.le
  linarith

theorem fracForm_le_one {a b : ℝ} (ha : 0 < a) (hb : 0 ≤ b) : fracForm a b ≤ 1 :=
  root_le ha (fracForm_pos ha) (fracForm_quadratic ha hb) one_pos (by linarith)

theorem fracForm_anti {a b t : ℝ} (ha : 0 < a) (hb : 0 ≤ b) (ht : 1 ≤ t) :
    fracForm (t * a) (t * b) ≤ fracForm a b := by
  have ht0 : 0 < t := by linarith
  refine root_le (mul_pos ht0 ha) (fracForm_pos (mul_pos ht0 ha)) (fracForm_quadratic (mul_pos ht0 ha)
    (mul_nonneg ht0.le hb)) (fracForm_pos ha) ?_
  have h := fracForm_quadratic ha hb
  have h1 := fracForm_le_one ha hb
  nlinarith [mul_nonneg (sub_nonneg.2 ht) (sub_nonneg.2 h1)]

/-- the series of the code lies above the root -/
theorem fracForm_le_series {d na nb : ℝ} (hd : 0 < d) (hna : 0 < na) (hnb : 0 < nb) (hsmall : d * (na + nb) < 1) :
    fracForm (d * na) (d * nb) ≤ 1 + d * nb * (d * (nb + na) - 1) := by
  have h1 : d * nb * (1 - d * (nb + na)) < 1 := by
    have : 0 < d * nb := by positivity
    have : 0 < d * na := by positivity
    nlinarith
  refine root_le (by positivity) (fracForm_pos (by positivity)) (fracForm_quadratic (by positivity) (by positivity))
    (by nlinarith) ?_
  have : 0 ≤ d * nb * (d * (na + nb)) ^ 2 + d * na * (d * nb * (1 - d * (nb + na))) ^ 2 := by positivity
  nlinarith

theorem series_anti {d d' na nb : ℝ} (hdd : d ≤ d') (hna : 0 < na) (hnb : 0 < nb)
    (hsmall : d' * (na + nb) ≤ 1 / 2) :
    1 + d' * nb * (d' * (nb + na) - 1) ≤ 1 + d * nb * (d * (nb + na) - 1) := by
  have h1 : d * (na + nb) ≤ 1 / 2 := le_trans (by gcongr) hsmall
  have h2 : 0 ≤ (d' - d) * nb := mul_nonneg (by linarith) hnb.le
  nlinarith [mul_nonneg h2 (by linarith : (0 : ℝ) ≤ 1 - (d' * (na + nb) + d * (na + nb)))]

theorem assocSiteFracAB_anti {d d' na nb : ℝ} (hdd : d ≤ d') (hna : 0 < na) (hnb : 0 < nb)
    (hsmall : na + nb ≤ 2 ^ 25) : assocSiteFracAB d' na nb ≤ assocSiteFracAB d na nb := by
  have hc : (2 ^ 26 : ℝ)⁻¹ * (na + nb) ≤ 1 / 2 := by
    rw [inv_mul_le_iff₀ (by positivity)]
    linarith
  have hc0 : (0 : ℝ) < (2 ^ 26)⁻¹ := by positivity
  rcases le_or_gt d' (2 ^ 26)⁻¹ with h' | h'
  · rw [assocSiteFracAB_below h', assocSiteFracAB_below (hdd.trans h')]
    have := series_anti hdd hna hnb (le_trans (by gcongr) hc)
    linarith
  · have hd'0 : 0 < d' := hc0.trans h'
    rw [assocSiteFracAB_above h']
    have scale : ∀ e, 0 < e → e ≤ d' → fracForm (d' * na) (d' * nb) ≤ fracForm (e * na) (e * nb) := fun e he hed => by
      have := fracForm_anti (a := e * na) (b := e * nb) (t := d' / e) (by positivity) (by positivity)
        ((one_le_div he).2 hed)
      rwa [← mul_assoc, ← mul_assoc, div_mul_cancel₀ _ he.ne'] at this
    rcases le_or_gt d (2 ^ 26)⁻¹ with h | h
    · rw [assocSiteFracAB_below h]
      have h1 := scale _ hc0 h'.le
      have h2 := fracForm_le_series hc0 hna hnb (by linarith)
      have h3 := series_anti h hna hnb hc
      linarith
    · rw [assocSiteFracAB_above h]
      exact scale d (hc0.trans h) hdd

theorem assocF_mono {x y : ℝ} (hx : 0 < x) (hxy : x ≤ y) (hy : y ≤ 1) : assocF x ≤ assocF y := by
  rw [assocF_real, assocF_real]
  have hy0 := hx.trans_le hxy
  have h := Real.log_le_sub_one_of_pos (div_pos hx hy0)
  rw [Real.log_div hx.ne' hy0.ne'] at h
  have h2 : x / y - 1 ≤ x - y := by
    rw [div_sub_one hy0.ne', div_le_iff₀ hy0]
    nlinarith
  linarith

end PcSaft
