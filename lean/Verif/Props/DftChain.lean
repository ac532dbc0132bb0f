import Verif.Props.DftAssociation

/-!
# C36: the chain functionals of a homogeneous fluid
-/

namespace PcSaft.Props
open PcSaft Spec
variable {n : ℕ} {p : PcSaftParameters n ℝ} {T V : ℝ} {moles : Fin n → ℝ}

/-- ideal chain term of the density functional theory (energy density; `e` is the regularisation) -/
noncomputable def idealChainTerm (m : Fin n → ℝ) (e : ℝ) (rho : Fin n → ℝ) : ℝ :=
  ∑ i, rho i * (m i - 1) * (Real.log (rho i + e) - 1)

theorem foldl_sub (k : ℕ) (f : Fin k → ℝ) (a : ℝ) :
    Fin.foldl k (fun acc i => acc - f i) a = a - ∑ i, f i := by
  induction k with
  | zero => simp
  | succ k ih =>
    rw [Fin.foldl_succ_last, ih (fun i => f i.castSucc), Fin.sum_univ_castSucc]
    ring

theorem gForm_pos {z2 z3 d : ℝ} (h2 : 0 ≤ z2) (hd : 0 ≤ d) (h3 : z3 < 1) : 0 < gForm z2 z3 d := by
  have : 0 < 1 - z3 := by linarith
  unfold gForm
  positivity

theorem f64EPSILON_pos : (0 : ℝ) < f64EPSILON := by
  unfold f64EPSILON
  norm_num

/-- the chain functional of a homogeneous fluid -/
theorem chainFunctional_bulk (hd : ∀ i, 0 < hsDiameter p T i) (hm : ∀ i, 0 < p.m i) (dim : ℕ)
    (rho : Fin n → ℝ) (hrho : ∀ i, 0 ≤ rho i) (h3 : zeta p.m rho (hsDiameter p T) 3 < 1) :
    chainFunctional p T ((hardChainWeightFunctions p T true).bulkRows dim rho)
      = .ok (∑ i, rho i * ((1 - p.m i) * (Real.log (gHs (zeta p.m rho (hsDiameter p T) 2)
          (zeta p.m rho (hsDiameter p T) 3) (hsDiameter p T i)) + Real.log (rho i + f64EPSILON) - 1))) := by
  obtain ⟨wl, w2, w3, s0, s2, s3, r0, r2, r3, p0, p2, p3, h⟩ := C55_chain_rows p T dim (bulkValues rho)
  unfold WeightFunctionInfo.bulkRows
  rw [h]
  have h4 : (4.0 : ℝ) = 4 := by norm_num
  have h3' : (3.0 : ℝ) = 3 := by norm_num
  have h8 : (8.0 : ℝ) = 8 := by norm_num
  have h0 : (0.0 : ℝ) = 0 := by norm_num
  have h1 : (1.0 : ℝ) = 1 := by norm_num
  have h5 : (0.5 : ℝ) = 1 / 2 := by norm_num
  have h15 : (1.5 : ℝ) = 3 / 2 := by norm_num
  have hl : ∀ i, (bulkValues rho).scalarComponent wl i = rho i := by
    intro i
    simp only [bulkValues, WeightFunction.bulkWeight, s0, r0, p0, shapeIntegral, c, ofF_real, dpowi_real,
      recip_real, pi_real, h4]
    have := (hd i).ne'
    have := Real.pi_ne_zero
    field_simp
  have hz2 : (bulkValues rho).scalarFmt w2 = zeta p.m rho (hsDiameter p T) 2 := by
    rw [zeta2_real, Finset.mul_sum]
    simp only [bulkValues, WeightFunction.bulkWeight, s2, r2, p2, shapeIntegral, c, ofF_real, dpowi_real,
      pi_real, h4, h3', h8, sumFin_real]
    refine Finset.sum_congr rfl fun i _ => ?_
    have := (hd i).ne'
    field_simp
    ring
  have hz3 : (bulkValues rho).scalarFmt w3 = zeta p.m rho (hsDiameter p T) 3 := by
    rw [zeta3_real, Finset.mul_sum]
    simp only [bulkValues, WeightFunction.bulkWeight, s3, r3, p3, shapeIntegral, c, ofF_real, dpowi_real,
      pi_real, h4, h3', h8, sumFin_real]
    refine Finset.sum_congr rfl fun i _ => ?_
    ring
  have hz2p : 0 ≤ zeta p.m rho (hsDiameter p T) 2 := by
    rw [zeta2_real]
    apply mul_nonneg (by positivity)
    exact Finset.sum_nonneg fun i _ => mul_nonneg (hrho i) (mul_nonneg (hm i).le (by positivity))
  rw [hz2, hz3, foldl_sub]
  congr 1
  rw [show (c (0.0 : ℝ) : ℝ) = 0 from h0, zero_sub, ← Finset.sum_neg_distrib]
  refine Finset.sum_congr rfl fun i _ => ?_
  rw [hl, show (bulkValues rho).loc i = rho i from rfl]
  generalize zeta p.m rho (hsDiameter p T) 2 = z2 at *
  generalize zeta p.m rho (hsDiameter p T) 3 = z3 at *
  have hg := gForm_pos hz2p (hd i).le h3
  have hlam : chainLambda (rho i) = rho i + f64EPSILON := by
    simp only [chainLambda, lt_real, re_real, h0, not_lt.2 (hrho i), decide_false, Bool.false_eq_true,
      if_false, c, ofF_real]
  have heps := f64EPSILON_pos
  have hr := hrho i
  have hy : z2 * hsDiameter p T i * (DualNum.recip (-z3 + c (1.0 : ℝ)) : ℝ) * DualNum.recip (-z3 + c (1.0 : ℝ))
      * (z2 * hsDiameter p T i * DualNum.recip (-z3 + c (1.0 : ℝ)) * c (0.5 : ℝ) + c (1.5 : ℝ))
      + DualNum.recip (-z3 + c (1.0 : ℝ)) = gForm z2 z3 (hsDiameter p T i) := by
    have e : -z3 + (1 : ℝ) = 1 - z3 := by ring
    simp only [c, ofF_real, recip_real, h1, h5, h15, e, gForm]
    have : 1 - z3 ≠ 0 := by linarith
    field_simp
    ring
  simp only [chainTerm]
  rw [hlam, hy, gHs_real _ _ _ h3.ne]
  simp only [c, ofF_real, dln_real, h1]
  rw [Real.log_mul hg.ne' (by positivity)]
  ring

/-- C36: chain functional plus ideal chain term of a homogeneous mixture is the hard chain
contribution of the equation of state up to an explicit term from the regularisation of the
logarithms.  The term vanishes if the ideal chain term is regularised in the same way, and is at most
`V · ε · Σ |mᵢ - 1|` if it is not regularised. -/
theorem C36_chain_bulk (h : Admissible p T V moles) (dim : ℕ) (e : ℝ) :
    let rho := fun i => moles i / V
    ∃ phi, chainFunctional p T ((hardChainWeightFunctions p T true).bulkRows dim rho) = .ok phi
      ∧ V * (phi + idealChainTerm p.m e rho) = hardChain p (StateHD.new T V moles)
        + V * ∑ i, rho i * (p.m i - 1) * (Real.log (rho i + e) - Real.log (rho i + f64EPSILON))
      ∧ (e = f64EPSILON → V * (phi + idealChainTerm p.m e rho) = hardChain p (StateHD.new T V moles))
      ∧ (e = 0 → (∀ i, 0 < moles i) →
        |V * (phi + idealChainTerm p.m e rho) - hardChain p (StateHD.new T V moles)|
          ≤ V * (f64EPSILON * ∑ i, |p.m i - 1|)) := by
  intro rho
  have hV := h.volume
  have hrho : ∀ i, 0 ≤ rho i := fun i => div_nonneg (h.moles_nonneg i) hV.le
  have hb := chainFunctional_bulk h.diameter_pos h.m_pos dim rho hrho h.zeta3_lt_one
  have key : V * ((∑ i, rho i * ((1 - p.m i) * (Real.log (gHs (zeta p.m rho (hsDiameter p T) 2)
          (zeta p.m rho (hsDiameter p T) 3) (hsDiameter p T i)) + Real.log (rho i + f64EPSILON) - 1)))
        + idealChainTerm p.m e rho) = hardChain p (StateHD.new T V moles)
        + V * ∑ i, rho i * (p.m i - 1) * (Real.log (rho i + e) - Real.log (rho i + f64EPSILON)) := by
    rw [hardChain_real, StateHD.new_volume, StateHD.new_temperature, StateHD.new_density, ← mul_add, idealChainTerm,
      ← Finset.sum_add_distrib, ← Finset.sum_add_distrib]
    congr 1
    exact Finset.sum_congr rfl fun i _ => by ring
  refine ⟨_, hb, key, fun he => ?_, fun he hpos => ?_⟩
  · rw [key, he]
    simp
  · rw [key, he, add_sub_cancel_left, abs_mul, abs_of_pos hV, Finset.mul_sum]
    apply mul_le_mul_of_nonneg_left _ hV.le
    refine (Finset.abs_sum_le_sum_abs _ _).trans (Finset.sum_le_sum fun i _ => ?_)
    have hr : 0 < rho i := div_pos (hpos i) hV
    have heps := f64EPSILON_pos
    have hlog : |Real.log (rho i + 0) - Real.log (rho i + f64EPSILON)| ≤ f64EPSILON / rho i := by
      rw [add_zero, abs_sub_comm, ← Real.log_div (by positivity) hr.ne']
      have h1 : (rho i + f64EPSILON) / rho i = 1 + f64EPSILON / rho i := by field_simp
      have h2 : (0 : ℝ) < f64EPSILON / rho i := by positivity
      rw [h1, abs_of_nonneg (Real.log_nonneg (by linarith))]
      have := Real.log_le_sub_one_of_pos (x := 1 + f64EPSILON / rho i) (by linarith)
      linarith
    rw [abs_mul, abs_mul, abs_of_pos hr]
    calc rho i * |p.m i - 1| * |Real.log (rho i + 0) - Real.log (rho i + f64EPSILON)|
        ≤ rho i * |p.m i - 1| * (f64EPSILON / rho i) := by
          apply mul_le_mul_of_nonneg_left hlog
          positivity
      _ = f64EPSILON * |p.m i - 1| := by field_simp

/-- C36: for one component the chain functional for pure components and the one for mixtures give the
same energy density in a homogeneous fluid. -/
theorem C36_pure_chain_bulk (p : PcSaftParameters 1 ℝ) (moles : Fin 1 → ℝ) (h : Admissible p T V moles)
    (dim : ℕ) :
    pureChainFunctional p ((pureChainWeightFunctions p T).bulkRows dim (fun i => moles i / V))
      = chainFunctional p T ((hardChainWeightFunctions p T true).bulkRows dim (fun i => moles i / V)) := by
  set rho : Fin 1 → ℝ := fun i => moles i / V
  have hV := h.volume
  have hrho : ∀ i, 0 ≤ rho i := fun i => div_nonneg (h.moles_nonneg i) hV.le
  have h3 : zeta p.m rho (hsDiameter p T) 3 < 1 := h.zeta3_lt_one
  rw [chainFunctional_bulk h.diameter_pos h.m_pos dim rho hrho h3]
  have h4 : (4.0 : ℝ) = 4 := by norm_num
  have h3' : (3.0 : ℝ) = 3 := by norm_num
  have h8 : (8.0 : ℝ) = 8 := by norm_num
  have h0 : (0.0 : ℝ) = 0 := by norm_num
  have h1 : (1.0 : ℝ) = 1 := by norm_num
  have h5 : (0.5 : ℝ) = 1 / 2 := by norm_num
  have hd := h.diameter_pos 0
  set d := hsDiameter p T 0 with hdd
  have hrows : (pureChainWeightFunctions p T).bulkRows dim rho
      = [rho 0, rho 0, zeta p.m rho (hsDiameter p T) 3] := by
    have e1 : DualNum.recip (shapeIntegral .Delta d) * shapeIntegral .Delta d * rho 0 = rho 0 := by
      simp only [shapeIntegral, c, ofF_real, dpowi_real, recip_real, pi_real, h4]
      have := hd.ne'
      have := Real.pi_ne_zero
      field_simp
    have e2 : c (p.m 0 / 8.0) * shapeIntegral .Theta d * rho 0 = zeta p.m rho (hsDiameter p T) 3 := by
      rw [zeta3_real]
      simp only [shapeIntegral, c, ofF_real, dpowi_real, pi_real, h4, h3', h8, Finset.univ_unique,
        Fin.default_eq_zero, Finset.sum_singleton, ← hdd]
      ring
    simp [pureChainWeightFunctions, WeightFunctionInfo.bulkRows, WeightFunctionInfo.rows,
      WeightFunctionInfo.add, WeightFunctionInfo.new, WeightFunction.newScaled, bulkValues,
      WeightFunction.bulkWeight, ← hdd]
    rw [recip_real] at e1
    exact ⟨e1, e2⟩
  rw [hrows]
  have hz : zeta p.m rho (hsDiameter p T) 2 * d = zeta p.m rho (hsDiameter p T) 3 := by
    rw [zeta2_real, zeta3_real]
    simp only [Finset.univ_unique, Fin.default_eq_zero, Finset.sum_singleton, ← hdd]
    ring
  have hz2 : 0 < zeta p.m rho (hsDiameter p T) 2 := h.zeta_pos 2
  generalize zeta p.m rho (hsDiameter p T) 2 = z2 at *
  generalize zeta p.m rho (hsDiameter p T) 3 = z3 at *
  have hlam : chainLambda (rho 0) = rho 0 + f64EPSILON := by
    simp only [chainLambda, lt_real, re_real, h0, not_lt.2 (hrho 0), decide_false, Bool.false_eq_true,
      if_false, c, ofF_real]
  have hy : (z3 * (1 / 2) - 1) / (z3 - 1) ^ 3 = gForm z2 z3 d := by
    subst hz
    have : 1 - z2 * d ≠ 0 := by linarith
    have h' : z2 * d - 1 ≠ 0 := by linarith
    unfold gForm
    have e : (z2 * d - 1) ^ 3 = -(1 - z2 * d) ^ 3 := by ring
    rw [e]
    field_simp
    ring
  have hg := gForm_pos hz2.le hd.le h3
  have heps := f64EPSILON_pos
  have hr := hrho 0
  simp only [pureChainFunctional, rowAt, List.getElem?_cons_zero, List.getElem?_cons_succ, bind, Except.bind,
    Finset.univ_unique, Fin.default_eq_zero, Finset.sum_singleton, hlam, c, ofF_real, dln_real, dpowi_real, h1, h5,
    ← hdd]
  rw [hy, gHs_real _ _ _ h3.ne, Real.log_mul hg.ne' (by positivity)]
  congr 1
  ring

end PcSaft.Props
