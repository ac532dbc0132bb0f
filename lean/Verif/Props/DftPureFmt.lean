import Verif.Props.DftAssociation
import Verif.Props.HardSphere
import Mathlib.Analysis.SpecialFunctions.Log.Deriv

/-!
# C34, C43: the functional for pure components, hard spheres and association
-/

namespace PcSaft.Spec

/-- The third function of the White Bear functional (without the factor `1/(36 π)`). -/
noncomputable def whiteBearF3 (x : ℝ) : ℝ :=
  (x + (1 - x) ^ 2 * Real.log (1 - x)) / (x ^ 2 * (1 - x) ^ 2)

end PcSaft.Spec

namespace PcSaft.Props
open PcSaft Spec

/-! ## C43 -/

/-- C43: above the cutoff the exact function is used. -/
theorem C43_exact (x : ℝ) (h : 1e-5 ≤ x) (h1 : x < 1) : pureF3 x = whiteBearF3 x := by
  have hcut : ¬(x < (N3_CUTOFF : ℝ)) := by
    rw [show (N3_CUTOFF : ℝ) = 1e-5 from rfl]
    exact not_lt.mpr h
  have hx : 0 < x := lt_of_lt_of_le (by norm_num) h
  have h1x : 1 - x ≠ 0 := by linarith
  have e1 : (1.0 : ℝ) = 1 := by norm_num
  have e2 : -x + 1 = 1 - x := by ring
  have e3 : 1 + -x = 1 - x := by ring
  simp only [pureF3, lt_real, re_real, hcut, decide_false, Bool.false_eq_true, if_false, c, ofF_real, recip_real,
    dln1p_real, whiteBearF3, e1, e2, e3]
  field_simp
  ring

/-- C43: below the cutoff the series deviates from the exact function by less than `10⁻²⁴`. -/
theorem C43_series (x : ℝ) (h : |x| < 1e-5) (h0 : x ≠ 0) :
    |pureF3 x - whiteBearF3 x| ≤ 9 * |x| ^ 5 ∧ |pureF3 x - whiteBearF3 x| < 1e-24 := by
  have hx5 : |x| < 1 / 100000 := by
    norm_num at h
    norm_num
    exact h
  have hxl := (abs_lt.mp hx5).1
  have hxu := (abs_lt.mp hx5).2
  have hcut : x < (N3_CUTOFF : ℝ) := by
    rw [show (N3_CUTOFF : ℝ) = 1e-5 from rfl]
    exact (le_abs_self x).trans_lt h
  have h1x : 0 < 1 - x := by linarith
  have hser : pureF3 x = 3 / 2 + 8 / 3 * x + 15 / 4 * x ^ 2 + 24 / 5 * x ^ 3 + 35 / 6 * x ^ 4 := by
    have e1 : (35.0 : ℝ) = 35 := by norm_num
    have e2 : (6.0 : ℝ) = 6 := by norm_num
    have e3 : (4.8 : ℝ) = 24 / 5 := by norm_num
    have e4 : (3.75 : ℝ) = 15 / 4 := by norm_num
    have e5 : (8.0 : ℝ) = 8 := by norm_num
    have e6 : (3.0 : ℝ) = 3 := by norm_num
    have e7 : (1.5 : ℝ) = 3 / 2 := by norm_num
    simp only [pureF3, lt_real, re_real, hcut, decide_true, if_true, c, ofF_real, e1, e2, e3, e4, e5, e6, e7]
    ring
  have hlog := Real.abs_log_sub_add_sum_range_le (x := x) (by linarith) 6
  simp only [Finset.sum_range_succ, Finset.sum_range_zero, zero_add] at hlog
  norm_num at hlog
  set R := x + x ^ 2 / 2 + x ^ 3 / 3 + x ^ 4 / 4 + x ^ 5 / 5 + x ^ 6 / 6 + Real.log (1 - x) with hR
  have hlog' : Real.log (1 - x) = R - (x + x ^ 2 / 2 + x ^ 3 / 3 + x ^ 4 / 4 + x ^ 5 / 5 + x ^ 6 / 6) := by
    rw [hR]
    ring
  have hdiff : pureF3 x - whiteBearF3 x = -(R / x ^ 2) - x ^ 5 * (7 - 6 * x) / (1 - x) ^ 2 := by
    rw [hser, whiteBearF3, hlog']
    have := h1x.ne'
    field_simp
    ring
  have hpos : 0 < |x| := abs_pos.mpr h0
  have hRx : |R / x ^ 2| ≤ (1 + 1 / 50) * |x| ^ 5 := by
    rw [abs_div, abs_pow, div_le_iff₀ (by positivity)]
    refine hlog.trans ?_
    rw [div_le_iff₀ (by linarith)]
    have : |x| ^ 7 ≤ |x| ^ 7 * ((1 + 1 / 50) * (1 - |x|)) := by
      have h7 : 0 ≤ |x| ^ 7 := by positivity
      nlinarith
    calc |x| ^ 7 ≤ |x| ^ 7 * ((1 + 1 / 50) * (1 - |x|)) := this
      _ = (1 + 1 / 50) * |x| ^ 5 * |x| ^ 2 * (1 - |x|) := by ring
  have hrem : |x ^ 5 * (7 - 6 * x) / (1 - x) ^ 2| ≤ (7 + 1 / 2) * |x| ^ 5 := by
    rw [abs_div, abs_mul, abs_pow, abs_of_pos (by positivity : (0 : ℝ) < (1 - x) ^ 2), div_le_iff₀ (by positivity)]
    rw [abs_of_pos (by linarith : 0 < 7 - 6 * x)]
    have h2 : 7 - 6 * x ≤ (7 + 1 / 2) * (1 - x) ^ 2 := by nlinarith
    calc |x| ^ 5 * (7 - 6 * x) ≤ |x| ^ 5 * ((7 + 1 / 2) * (1 - x) ^ 2) :=
          mul_le_mul_of_nonneg_left h2 (by positivity)
      _ = (7 + 1 / 2) * |x| ^ 5 * (1 - x) ^ 2 := by ring
  have hfin : |pureF3 x - whiteBearF3 x| ≤ 9 * |x| ^ 5 := by
    rw [hdiff]
    refine (abs_sub _ _).trans ?_
    rw [abs_neg]
    have : 0 ≤ |x| ^ 5 := by positivity
    linarith
  refine ⟨hfin, hfin.trans_lt ?_⟩
  have : |x| ^ 5 ≤ (1 / 100000) ^ 5 := pow_le_pow_left₀ (abs_nonneg x) hx5.le 5
  norm_num at this ⊢
  linarith

theorem mapM_total {A B : Type} (f : A → Except Panic B) (g : A → B) (l : List A) (h : ∀ a ∈ l, f a = .ok (g a)) :
    l.mapM f = .ok (l.map g) := by
  induction l with
  | nil => rfl
  | cons a l ih =>
    rw [List.mapM_cons, h a (by simp), ih (fun b hb => h b (by simp [hb]))]
    rfl

/-- C43: on a grid whose points carry at least the two scalar weighted densities, the functional
returns an error if and only if some point has a packing fraction above one, and otherwise one value
for every grid point.  Generic in the number type. -/
theorem C43_packing_check {F D : Type} [F64 F] [DualNum F D] (p : PcSaftParameters 1 F) (v : FMTVersion)
    (hv : v ≠ .KierlikRosinberg) (T : D) (grid : List (List D)) (hlen : ∀ wd ∈ grid, 2 ≤ wd.length) :
    ((∃ e, pureFmtAssocFunctional p v T grid = .ok (.error e))
      ↔ ∃ wd ∈ grid, ∃ n3, wd[1]? = some n3 ∧ F64.lt (1.0 : F) (DualNum.re n3) = true)
    ∧ ((∃ phi, pureFmtAssocFunctional p v T grid = .ok (.ok phi) ∧ phi.length = grid.length)
      ↔ ∀ wd ∈ grid, ∀ n3, wd[1]? = some n3 → F64.lt (1.0 : F) (DualNum.re n3) = false) := by
  classical
  cases grid with
  | nil =>
    refine ⟨⟨?_, by simp⟩, by simp [pureFmtAssocFunctional]⟩
    rintro ⟨e, he⟩
    cases he
  | cons w0 gs =>
  set grid := w0 :: gs with hgrid
  have d0 : D := (w0[0]'(by have := hlen w0 (by simp [hgrid]); omega))
  set g : List D → D × D × List D := fun wd => (wd.getD 0 d0, wd.getD 1 d0, wd.drop 2) with hg
  have hdec : grid.mapM (fun wd => do
      let n2 ← rowAt wd 0
      let n3 ← rowAt wd 1
      Except.ok (n2, n3, wd.drop 2)) = (.ok (grid.map g) : Except Panic _) := by
    apply mapM_total
    intro wd hwd
    have h2 := hlen wd hwd
    match wd, h2 with
    | a :: b :: l, _ => rfl
  have hpt : ∀ q : D × D × List D, ∃ y, pureFmtAssocPoint p v T q.1 q.2.1 q.2.2 = .ok y := by
    intro q
    cases v with
    | WhiteBear => exact ⟨_, rfl⟩
    | AntiSymWhiteBear => exact ⟨_, rfl⟩
    | KierlikRosinberg => exact absurd rfl hv
  choose y hy using hpt
  have hval : pureFmtAssocFunctional p v T grid
      = if (grid.map g).any (fun q => F64.lt (1.0 : F) (DualNum.re q.2.1)) then
          .ok (.error (.iterationFailed "PureFMTAssocFunctional"))
        else .ok (.ok ((grid.map g).map y)) := by
    unfold pureFmtAssocFunctional
    rw [hdec]
    simp only [bind, Except.bind]
    split
    · rfl
    · have := mapM_total (fun q : D × D × List D => pureFmtAssocPoint p v T q.1 q.2.1 q.2.2) y (grid.map g)
        (fun q _ => hy q)
      rw [this]
  have hany : (grid.map g).any (fun q => F64.lt (1.0 : F) (DualNum.re q.2.1)) = true
      ↔ ∃ wd ∈ grid, ∃ n3, wd[1]? = some n3 ∧ F64.lt (1.0 : F) (DualNum.re n3) = true := by
    rw [List.any_map, List.any_eq_true]
    refine exists_congr fun wd => and_congr_right fun hwd => ?_
    have h2 := hlen wd hwd
    match wd, h2 with
    | a :: b :: l, _ => simp [hg]
  rw [hval]
  by_cases hb : (grid.map g).any (fun q => F64.lt (1.0 : F) (DualNum.re q.2.1)) = true
  · rw [if_pos hb]
    refine ⟨⟨fun _ => hany.mp hb, fun _ => ⟨_, rfl⟩⟩, ⟨fun ⟨phi, h, _⟩ => by simp at h, fun h => ?_⟩⟩
    obtain ⟨wd, hwd, n3, e, h3⟩ := hany.mp hb
    rw [h wd hwd n3 e] at h3
    cases h3
  · rw [if_neg hb]
    refine ⟨⟨fun ⟨e, h⟩ => by simp at h, fun h => absurd (hany.mpr h) hb⟩, ⟨fun _ wd hwd n3 e => ?_, fun _ => ⟨_, rfl, by simp⟩⟩⟩
    by_contra hne
    exact hb (hany.mpr ⟨wd, hwd, n3, e, by simpa using hne⟩)

/-! ## C34 -/

/-- the weighted densities of a homogeneous pure fluid -/
theorem pureFmt_rows (p : PcSaftParameters 1 ℝ) (T : ℝ) (dim : ℕ) (rho : Fin 1 → ℝ) :
    let r := hsDiameter p T 0 * c (0.5 : ℝ)
    (pureFmtWeightFunctions p T).bulkRows dim rho
      = (4 * Real.pi * r ^ 2 * (p.m 0 * rho 0)) :: (4 / 3 * Real.pi * r ^ 3 * (p.m 0 * rho 0)) :: List.replicate dim 0 := by
  intro r
  have h4 : (4.0 : ℝ) = 4 := by norm_num
  have h3 : (3.0 : ℝ) = 3 := by norm_num
  have h0 : (0.0 : ℝ) = 0 := by norm_num
  have e2 : c (p.m 0) * shapeIntegral .Delta r * rho 0 = 4 * Real.pi * r ^ 2 * (p.m 0 * rho 0) := by
    simp only [shapeIntegral, c, ofF_real, dpowi_real, pi_real, h4]
    ring
  have e3 : c (p.m 0) * shapeIntegral .Theta r * rho 0 = 4 / 3 * Real.pi * r ^ 3 * (p.m 0 * rho 0) := by
    simp only [shapeIntegral, c, ofF_real, dpowi_real, pi_real, h4, h3]
    ring
  have ev : (List.range dim).flatMap (fun _ => [(c (0.0 : ℝ) : ℝ)]) = List.replicate dim 0 := by
    simp only [c, ofF_real, h0]
    rw [← List.map_eq_flatMap, List.map_const', List.length_range]
  simp [pureFmtWeightFunctions, WeightFunctionInfo.bulkRows, WeightFunctionInfo.rows,
    WeightFunctionInfo.add, WeightFunctionInfo.extend, WeightFunctionInfo.new, bulkValues,
    WeightFunction.bulkWeight]
  exact ⟨e2, e3, by simpa using ev⟩

theorem sumSq_zero (k : ℕ) : sumSq (List.replicate k (0 : ℝ)) = 0 := by
  have h0 : (0.0 : ℝ) = 0 := by norm_num
  have : ∀ a : ℝ, (List.replicate k (0 : ℝ)).foldl (fun acc v => acc + v * v) a = a := by
    induction k with
    | zero => simp
    | succ k ih =>
      intro a
      rw [List.replicate_succ, List.foldl_cons, ih]
      ring
  rw [sumSq, this]
  simp [c, h0]

theorem pureN1n2_zero (r n2 : ℝ) (k : ℕ) :
    pureN1n2 r n2 (List.replicate k (0 : ℝ)) = n2 / (r * 4 * Real.pi) * n2 := by
  have h0 : (0.0 : ℝ) = 0 := by norm_num
  have h4 : (4.0 : ℝ) = 4 := by norm_num
  have : ∀ a b : ℝ, (List.replicate k (0 : ℝ)).foldl (fun acc v => acc + v / b * v) a = a := by
    induction k with
    | zero => simp
    | succ k ih =>
      intro a b
      rw [List.replicate_succ, List.foldl_cons, ih]
      ring
  rw [pureN1n2, this]
  simp only [c, ofF_real, h0, h4, pi_real]
  ring

theorem pureN2n2_zero (v : FMTVersion) (hv : v ≠ .KierlikRosinberg) (n2 : ℝ) (k : ℕ) :
    pureN2n2 v n2 (List.replicate k (0 : ℝ)) = .ok (n2 * n2) := by
  have h1 : (1.0 : ℝ) = 1 := by norm_num
  have h3 : (3.0 : ℝ) = 3 := by norm_num
  cases v with
  | WhiteBear =>
    simp only [pureN2n2, sumSq_zero, c, ofF_real, h3]
    congr 1
    ring
  | AntiSymWhiteBear =>
    simp only [pureN2n2, sumSq_zero, c, ofF_real, h1, lt_real, re_real, zero_div, dpowi_real]
    norm_num
  | KierlikRosinberg => exact absurd rfl hv

theorem pureAssoc_bulk (p : PcSaftParameters 1 ℝ) (T V rho : ℝ) (h : Admissible p T V (fun _ => V * rho))
    (ha : p.assoc_comp = [0]) (dim : ℕ) :
    let r := hsDiameter p T 0 * c (0.5 : ℝ)
    association p (StateHD.new T V (fun _ => V * rho))
      = .ok (V * pureAssoc p T r (4 * Real.pi * r ^ 2 * (p.m 0 * rho)) (4 / 3 * Real.pi * r ^ 3 * (p.m 0 * rho))
          (List.replicate dim 0)) := by
  intro r
  have hV := h.volume.ne'
  have hm := (h.m_pos 0).ne'
  have hd := (h.diameter_pos 0).ne'
  have h5 : (0.5 : ℝ) = 1 / 2 := by norm_num
  have h2 : (2.0 : ℝ) = 2 := by norm_num
  have h1 : (1.0 : ℝ) = 1 := by norm_num
  have h18 : (18.0 : ℝ) = 18 := by norm_num
  have h4 : (4.0 : ℝ) = 4 := by norm_num
  have h3 : (3.0 : ℝ) = 3 := by norm_num
  have hr0 : r ≠ 0 := by
    simp only [r, c, ofF_real, h5]
    positivity
  have hpi := Real.pi_ne_zero
  rw [association_eq _ _ _ _ ha, StateHD.new_moles, StateHD.new_density]
  congr 1
  have hdens : V * rho / V = rho := by field_simp
  unfold stateStrength
  rw [StateHD.new_temperature, StateHD.new_density]
  simp only [hdens]
  have hn2 : assocN2 p.m (fun _ => rho) (fun i => hsDiameter p T i * c (0.5 : ℝ)) = 4 * Real.pi * r ^ 2 * (p.m 0 * rho) := by
    simp only [assocN2, sumFin_real, Finset.univ_unique, Fin.default_eq_zero, Finset.sum_singleton, c, ofF_real, pi_real, h4,
      show hsDiameter p T 0 * (0.5 : ℝ) = r from rfl]
    ring
  have hn3 : packingFraction p.m (fun _ => rho) (fun i => hsDiameter p T i * c (0.5 : ℝ))
      = 4 / 3 * Real.pi * r ^ 3 * (p.m 0 * rho) := by
    simp only [packingFraction, sumFin_real, Finset.univ_unique, Fin.default_eq_zero, Finset.sum_singleton, c, ofF_real, pi_real, h4,
      h3, show hsDiameter p T 0 * (0.5 : ℝ) = r from rfl]
    ring
  rw [hn2, hn3]
  have hn0 : 4 * Real.pi * r ^ 2 * (p.m 0 * rho) / (r * r * c (4.0 : ℝ) * c (F64.pi : ℝ)) / c (p.m 0) = rho := by
    simp only [c, ofF_real, pi_real, h4]
    field_simp
  have hxi : ∀ b : Bool, ∀ y : ℝ, (if b = true then c (1.0 : ℝ) else -(0 : ℝ) / y + c (1.0 : ℝ)) = c (1.0 : ℝ) := by
    intro b y
    cases b <;> simp [c]
  simp only [pureAssoc, sumSq_zero, hxi, hn0]
  generalize 4 * Real.pi * r ^ 2 * (p.m 0 * rho) = n2
  generalize 4 / 3 * Real.pi * r ^ 3 * (p.m 0 * rho) = n3
  have hstr : associationStrength p T (fun i => hsDiameter p T i * c (0.5 : ℝ)) n2
        (DualNum.recip (-n3 + c (1.0 : ℝ))) (c (1.0 : ℝ)) 0 0 * rho
      = ((n2 * DualNum.recip (-n3 + c (1.0 : ℝ)) * r / c (18.0 : ℝ) + c (0.5 : ℝ)) * (n2 * DualNum.recip (-n3 + c (1.0 : ℝ)) * r)
          * c (1.0 : ℝ) + c (1.0 : ℝ)) * DualNum.recip (-n3 + c (1.0 : ℝ))
        * (DualNum.expm1 (DualNum.recip T * c (p.epsilon_k_aibj 0 0)) * c (F64.powi (p.sigma 0) 3 * p.kappa_aibj 0 0))
        * (rho * c (1.0 : ℝ)) := by
    simp only [associationStrength]
    rw [show hsDiameter p T 0 * c (0.5 : ℝ) = r from rfl]
    simp only [c, ofF_real, recip_real, powi_real, dexpm1_real, h5, h2, h1, h18]
    have ek : r * r / (r + r) * (n2 * (-n3 + 1)⁻¹ * 2) = n2 * (-n3 + 1)⁻¹ * r := by
      field_simp
      ring
    have es : 1 / 2 * (p.sigma 0 + p.sigma 0) = p.sigma 0 := by ring
    rw [ek, es]
    ring
  rw [hstr]
  generalize ((n2 * DualNum.recip (-n3 + c (1.0 : ℝ)) * r / c (18.0 : ℝ) + c (0.5 : ℝ)) * (n2 * DualNum.recip (-n3 + c (1.0 : ℝ)) * r)
          * c (1.0 : ℝ) + c (1.0 : ℝ)) * DualNum.recip (-n3 + c (1.0 : ℝ))
        * (DualNum.expm1 (DualNum.recip T * c (p.epsilon_k_aibj 0 0)) * c (F64.powi (p.sigma 0) 3 * p.kappa_aibj 0 0))
        * (rho * c (1.0 : ℝ)) = X
  unfold assocSingle
  split
  · simp only [c, ofF_real, h1]
    rw [show (assocSiteFracAB X (p.na 0) (p.nb 0) - 1) * (p.na 0 / p.nb 0)
      = (assocSiteFracAB X (p.na 0) (p.nb 0) - 1) * p.na 0 / p.nb 0 by ring]
    ring
  · simp only [c, ofF_real, h1]
    ring

/-- hard sphere part of the functional in a homogeneous fluid -/
theorem pureFmt_hardSphere (p : PcSaftParameters 1 ℝ) (T V rho : ℝ) (h : Admissible p T V (fun _ => V * rho)) (f3 : ℝ) :
    let r := hsDiameter p T 0 * c (0.5 : ℝ)
    let n2 := 4 * Real.pi * r ^ 2 * (p.m 0 * rho)
    let n3 := 4 / 3 * Real.pi * r ^ 3 * (p.m 0 * rho)
    n3 = Spec.packingFraction p T V (fun _ => V * rho) ∧
    V * (-(n2 / (r * r * 4 * Real.pi) * Real.log (1 - n3)) + n2 / (r * 4 * Real.pi) * n2 * (1 - n3)⁻¹
      + n2 * n2 * n2 * (1 / (36 * Real.pi)) * f3)
      = hardSphere p (StateHD.new T V (fun _ => V * rho)) + V * (p.m 0 * rho) * n3 ^ 2 * (f3 - whiteBearF3 n3) := by
  intro r n2 n3
  have hV := h.volume.ne'
  have hm := h.m_pos 0
  have hd := (h.diameter_pos 0)
  have h5 : (0.5 : ℝ) = 1 / 2 := by norm_num
  have hr : r = hsDiameter p T 0 / 2 := by
    simp only [r, c, ofF_real, h5]
    ring
  have hr0 : 0 < r := by rw [hr]; positivity
  have hpi := Real.pi_pos
  have hrho : 0 < rho := by
    obtain ⟨i, hi⟩ := h.moles_ne_zero
    have h1 := h.moles_nonneg i
    have h2 : 0 < V * rho := lt_of_le_of_ne h1 (Ne.symm hi)
    exact (pos_iff_pos_of_mul_pos h2).mp h.volume
  have hη : n3 = Spec.packingFraction p T V (fun _ => V * rho) := by
    rw [← zeta3_eq_packing, zeta3_real, StateHD.new_density]
    simp only [Finset.univ_unique, Fin.default_eq_zero, Finset.sum_singleton]
    have : V * rho / V = rho := by field_simp
    simp only [n3]
    rw [hr, this]
    ring
  refine ⟨hη, ?_⟩
  have hcs := C19_carnahan_starling p T V (V * rho) h
  simp only [← hη] at hcs
  have hlt : n3 < 1 := by
    rw [hη]
    exact h.packing
  have hn3 : 0 < n3 := by
    simp only [n3]
    positivity
  rw [hcs, whiteBearF3]
  have e0 : n2 / (r * r * 4 * Real.pi) = p.m 0 * rho := by
    simp only [n2]
    field_simp
  have e1 : n2 / (r * 4 * Real.pi) * n2 = 3 * (p.m 0 * rho) * n3 := by
    simp only [n2, n3]
    field_simp
  have e2 : n2 * n2 * n2 * (1 / (36 * Real.pi)) = p.m 0 * rho * n3 ^ 2 := by
    simp only [n2, n3]
    field_simp
    ring
  rw [e0, e1, e2]
  generalize n3 = x at *
  have : 1 - x ≠ 0 := by linarith
  have : x ≠ 0 := by linarith
  field_simp
  ring

/-- C34: on every grid of homogeneous points and in every dimension the functional for pure components
succeeds.  Its values are the hard sphere plus association energies of the equation of state per
volume: exactly for packing fractions above the series cutoff, with relative error `9 η⁷` per segment
below it. -/
theorem C34_pure_fmt_bulk (p : PcSaftParameters 1 ℝ) (T : ℝ) (v : FMTVersion) (hv : v ≠ .KierlikRosinberg)
    (dim : ℕ) (rhos : List ℝ) (h : ∀ rho ∈ rhos, Admissible p T 1 (fun _ => rho)) :
    ∃ f : ℝ → ℝ,
      pureFmtAssocFunctional p v T (rhos.map fun rho => (pureFmtWeightFunctions p T).bulkRows dim (fun _ => rho))
        = .ok (.ok (rhos.map f))
      ∧ ∀ rho ∈ rhos, ∀ V, 0 < V →
        let s := StateHD.new T V (fun _ => V * rho)
        let η := Spec.packingFraction p T V (fun _ => V * rho)
        ∃ a, (p.nassoc = 1 → association p s = .ok a) ∧ (p.nassoc = 0 → a = 0)
          ∧ (1e-5 ≤ η → V * f rho = hardSphere p s + a)
          ∧ (η < 1e-5 → |V * f rho - (hardSphere p s + a)| ≤ V * (p.m 0 * rho) * (9 * η ^ 7)) := by
  set r := hsDiameter p T 0 * c (0.5 : ℝ) with hr
  have h1 : (1.0 : ℝ) = 1 := by norm_num
  have h4 : (4.0 : ℝ) = 4 := by norm_num
  have h36 : (36.0 : ℝ) = 36 := by norm_num
  set f : ℝ → ℝ := fun rho =>
    (-(4 * Real.pi * r ^ 2 * (p.m 0 * rho) / (r * r * 4 * Real.pi) * Real.log (1 - 4 / 3 * Real.pi * r ^ 3 * (p.m 0 * rho)))
      + 4 * Real.pi * r ^ 2 * (p.m 0 * rho) / (r * 4 * Real.pi) * (4 * Real.pi * r ^ 2 * (p.m 0 * rho))
        * (1 - 4 / 3 * Real.pi * r ^ 3 * (p.m 0 * rho))⁻¹
      + 4 * Real.pi * r ^ 2 * (p.m 0 * rho) * (4 * Real.pi * r ^ 2 * (p.m 0 * rho)) * (4 * Real.pi * r ^ 2 * (p.m 0 * rho))
        * (1 / (36 * Real.pi)) * pureF3 (4 / 3 * Real.pi * r ^ 3 * (p.m 0 * rho)))
    + (if p.nassoc = 1 then pureAssoc p T r (4 * Real.pi * r ^ 2 * (p.m 0 * rho)) (4 / 3 * Real.pi * r ^ 3 * (p.m 0 * rho))
          (List.replicate dim 0) else 0) with hf
  have hstate : ∀ rho ∈ rhos, ∀ V, 0 < V → Admissible p T V (fun _ => V * rho) := by
    intro rho hrho V hV
    have h0 := h rho hrho
    refine ⟨h0.temperature, hV, h0.m_pos, h0.sigma_pos, h0.epsilon_nonneg, fun i => mul_nonneg hV.le (h0.moles_nonneg i),
      ?_, ?_⟩
    · obtain ⟨i, hi⟩ := h0.moles_ne_zero
      exact ⟨i, mul_ne_zero hV.ne' hi⟩
    · have := h0.packing
      simp only [Spec.packingFraction, Fin.sum_univ_one] at this ⊢
      convert this using 1
      field_simp
  refine ⟨f, ?_, fun rho hrho V hV => ?_⟩
  · unfold pureFmtAssocFunctional
    have hdec : (rhos.map fun rho => (pureFmtWeightFunctions p T).bulkRows dim (fun _ => rho)).mapM (fun wd => do
        let n2 ← rowAt wd 0
        let n3 ← rowAt wd 1
        Except.ok (n2, n3, wd.drop 2))
        = (.ok (rhos.map fun rho => (4 * Real.pi * r ^ 2 * (p.m 0 * rho), 4 / 3 * Real.pi * r ^ 3 * (p.m 0 * rho),
            List.replicate dim (0 : ℝ))) : Except Panic (List (ℝ × ℝ × List ℝ))) := by
      rw [List.mapM_map]
      apply mapM_total
      intro rho _
      simp only [Function.comp, pureFmt_rows, ← hr]
      rfl
    rw [hdec]
    simp only [bind, Except.bind]
    have hany : (rhos.map fun rho => (4 * Real.pi * r ^ 2 * (p.m 0 * rho), 4 / 3 * Real.pi * r ^ 3 * (p.m 0 * rho),
            List.replicate dim (0 : ℝ))).any (fun q => F64.lt (1.0 : ℝ) (DualNum.re q.2.1)) = false := by
      rw [List.any_eq_false]
      intro q hq
      obtain ⟨rho, hrho, rfl⟩ := List.mem_map.mp hq
      have h0 := hstate rho hrho 1 one_pos
      have := (pureFmt_hardSphere p T 1 rho h0 0).1
      have hlt := h0.packing
      rw [← this] at hlt
      simp only [lt_real, re_real, h1, decide_eq_true_eq, not_lt]
      exact hlt.le
    rw [hany]
    simp only [Bool.false_eq_true, if_false]
    rw [List.mapM_map, mapM_total _ f]
    intro rho _
    simp only [Function.comp, pureFmtAssocPoint, pureN2n2_zero v hv, pureN1n2_zero, ← hr]
    congr 1
    have e2 : ∀ x : ℝ, -x + 1 = 1 - x := fun x => by ring
    have e3 : ∀ x : ℝ, 1 + -x = 1 - x := fun x => by ring
    simp only [c, ofF_real, recip_real, dln1p_real, PI36M1, pi_real, h1, h4, h36, e2, e3, hf]
    split_ifs
    · rfl
    · rw [add_zero]
  · intro s η
    have hs := hstate rho hrho V hV
    obtain ⟨hη, hval⟩ := pureFmt_hardSphere p T V rho hs (pureF3 (4 / 3 * Real.pi * r ^ 3 * (p.m 0 * rho)))
    simp only [← hr] at hη hval
    rw [hη] at hval
    refine ⟨V * (if p.nassoc = 1 then pureAssoc p T r (4 * Real.pi * r ^ 2 * (p.m 0 * rho))
      (4 / 3 * Real.pi * r ^ 3 * (p.m 0 * rho)) (List.replicate dim 0) else 0), fun hna => ?_, fun hna => by simp [hna], ?_⟩
    · rw [if_pos hna]
      have ha : p.assoc_comp = [0] := by
        obtain ⟨x, hx⟩ := List.length_eq_one_iff.mp (show p.assoc_comp.length = 1 from hna)
        rw [hx, Subsingleton.elim x 0]
      exact pureAssoc_bulk p T V rho hs ha dim
    have hfv : V * f rho = hardSphere p s + V * (p.m 0 * rho) * η ^ 2 * (pureF3 η - whiteBearF3 η)
        + V * (if p.nassoc = 1 then pureAssoc p T r (4 * Real.pi * r ^ 2 * (p.m 0 * rho))
      (4 / 3 * Real.pi * r ^ 3 * (p.m 0 * rho)) (List.replicate dim 0) else 0) := by
      rw [hf]
      simp only
      rw [mul_add, ← hval, hη]
    rw [hfv]
    have hηpos : 0 < η := by
      change 0 < Spec.packingFraction p T V (fun _ => V * rho)
      rw [← hη]
      have := hs.diameter_pos 0
      have hrr : 0 < r := by
        rw [hr]
        simp only [c, ofF_real]
        positivity
      have hm := hs.m_pos 0
      have hrho0 : 0 < rho := by
        obtain ⟨i, hi⟩ := (h rho hrho).moles_ne_zero
        exact lt_of_le_of_ne ((h rho hrho).moles_nonneg i) (Ne.symm hi)
      have := Real.pi_pos
      positivity
    constructor
    · intro hge
      rw [C43_exact η hge hs.packing]
      ring
    · intro hlt
      have hb := (C43_series η (by rwa [abs_of_pos hηpos]) hηpos.ne').1
      rw [abs_of_pos hηpos] at hb
      have hC : 0 ≤ V * (p.m 0 * rho) * η ^ 2 := by
        have := (h rho hrho).moles_nonneg 0
        have := hs.m_pos 0
        positivity
      calc _ = |V * (p.m 0 * rho) * η ^ 2 * (pureF3 η - whiteBearF3 η)| := by
            congr 1
            ring
        _ = V * (p.m 0 * rho) * η ^ 2 * |pureF3 η - whiteBearF3 η| := by
            rw [abs_mul, abs_of_nonneg hC]
        _ ≤ V * (p.m 0 * rho) * η ^ 2 * (9 * η ^ 5) := mul_le_mul_of_nonneg_left hb hC
        _ = _ := by ring

end PcSaft.Props
