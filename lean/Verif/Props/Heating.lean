import Verif.Props.Bonding
import Verif.Props.Derivatives

/-!
# Property C91: heating and expansion break hydrogen bonds

A state is compared with a hotter or less dense state of the same amounts of substance. Bonds between molecules
release energy and lower the pressure.
-/

open Filter Topology

namespace PcSaft.Props
open PcSaft Spec
variable {n : ℕ}

/-! ## Segments and strengths -/

theorem diameter_anti {sigma eps T T' : ℝ} (hs : 0 < sigma) (he : 0 ≤ eps) (hT : 0 < T) (hTT : T ≤ T') :
    Spec.diameter sigma eps T' ≤ Spec.diameter sigma eps T := by
  unfold Spec.diameter
  refine mul_le_mul_of_nonneg_left ?_ hs.le
  have : Real.exp (-3 * eps / T) ≤ Real.exp (-3 * eps / T') := by
    refine Real.exp_le_exp.2 ?_
    rw [neg_mul, neg_div, neg_div]
    refine neg_le_neg ?_
    gcongr
  linarith

section strength
variable {p : PcSaftParameters n ℝ} {T T' V V' : ℝ} {N : Fin n → ℝ} (h : Admissible p T V N) (hT : T ≤ T') (hV : V ≤ V')
include h hT hV

omit hV in
theorem spec_diameter_pos' (i : Fin n) : 0 < Spec.diameter (p.sigma i) (p.epsilon_k i) T' := by
  have hs := h.sigma_pos i
  have : Real.exp (-3 * p.epsilon_k i / T') ≤ 1 := by
    refine Real.exp_le_one_iff.2 (div_nonpos_of_nonpos_of_nonneg ?_ (h.temperature.trans_le hT).le)
    linarith [h.epsilon_nonneg i]
  unfold Spec.diameter
  refine mul_pos hs ?_
  linarith

theorem packing_anti : Spec.packingFraction p T' V' N ≤ Spec.packingFraction p T V N := by
  have hV0 := h.volume
  refine Finset.sum_le_sum fun i _ => ?_
  have hd := diameter_anti (h.sigma_pos i) (h.epsilon_nonneg i) h.temperature hT
  have hd' := spec_diameter_pos' h hT i
  have hm := (h.m_pos i).le
  have hN := h.moles_nonneg i
  have := Real.pi_pos
  have hd0 := hd'.trans_le hd
  gcongr

theorem moment2_anti : moment2 p T' V' N ≤ moment2 p T V N := by
  have hV0 := h.volume
  refine Finset.sum_le_sum fun i _ => ?_
  have hd := diameter_anti (h.sigma_pos i) (h.epsilon_nonneg i) h.temperature hT
  have hd' := spec_diameter_pos' h hT i
  have hm := (h.m_pos i).le
  have hN := h.moles_nonneg i
  have := Real.pi_pos
  gcongr

/-- a hotter and less dense state is admissible, too -/
theorem admissible_expand : Admissible p T' V' N :=
  ⟨h.temperature.trans_le hT, h.volume.trans_le hV, h.m_pos, h.sigma_pos, h.epsilon_nonneg, h.moles_nonneg,
    h.moles_ne_zero, (packing_anti h hT hV).trans_lt h.packing⟩

omit h hT hV in
theorem half_harmonic_mono {a b a' b' : ℝ} (ha : 0 < a') (hb : 0 < b') (haa : a' ≤ a) (hbb : b' ≤ b) :
    a' * b' / (a' + b') ≤ a * b / (a + b) := by
  have ha' := ha.trans_le haa
  have hb' := hb.trans_le hbb
  rw [div_le_div_iff₀ (by positivity) (by positivity)]
  nlinarith [mul_le_mul haa (mul_le_mul_of_nonneg_left hbb hb.le) (by positivity) ha'.le,
    mul_le_mul_of_nonneg_left (mul_le_mul_of_nonneg_right haa hb.le) ha'.le,
    mul_nonneg (mul_nonneg ha.le ha'.le) (sub_nonneg.2 hbb), mul_nonneg (mul_nonneg hb.le hb'.le) (sub_nonneg.2 haa)]

omit h hT hV in
theorem contactPair_mono {y z x w a b a' b' : ℝ} (hy : 0 ≤ y) (hyz : y ≤ z) (hw : w < 1) (hxw : x ≤ w)
    (ha : 0 < a') (hb : 0 < b') (haa : a' ≤ a) (hbb : b' ≤ b) : contactPair y x a' b' ≤ contactPair z w a b := by
  have hk := half_harmonic_mono ha hb haa hbb
  have hk0 : 0 ≤ a' * b' / (a' + b') := by positivity
  have h1 : 0 < 1 - w := by linarith
  have h2 : 1 - w ≤ 1 - x := by linarith
  have hz := hy.trans hyz
  unfold contactPair
  set κ := a' * b' / (a' + b')
  set κ' := a * b / (a + b)
  have hk0' := hk0.trans hk
  gcongr

/-- C91: the association strength does not rise on heating or expansion. -/
theorem C91_association_strength {i j : Fin n} (hij : 0 ≤ p.epsilon_k_ab i + p.epsilon_k_ab j) :
    specStrength p T' V' N i j ≤ specStrength p T V N i j := by
  have hT0 := h.temperature
  have h' := admissible_expand h hT hV
  have hg := contactPair_mono (moment2_nonneg h') (moment2_anti h hT hV) h.packing (packing_anti h hT hV)
    (spec_diameter_pos' h hT i) (spec_diameter_pos' h hT j)
    (diameter_anti (h.sigma_pos i) (h.epsilon_nonneg i) hT0 hT) (diameter_anti (h.sigma_pos j) (h.epsilon_nonneg j) hT0 hT)
  have hg0 := contactPair_pos (moment2_nonneg h') h'.packing (spec_diameter_pos' h hT i) (spec_diameter_pos' h hT j)
  have he0 : 0 ≤ (p.epsilon_k_ab i + p.epsilon_k_ab j) / 2 := by positivity
  have he : Real.exp ((p.epsilon_k_ab i + p.epsilon_k_ab j) / 2 / T') - 1
      ≤ Real.exp ((p.epsilon_k_ab i + p.epsilon_k_ab j) / 2 / T) - 1 := by
    refine sub_le_sub_right (Real.exp_le_exp.2 ?_) 1
    gcongr
  have he1 : 0 ≤ Real.exp ((p.epsilon_k_ab i + p.epsilon_k_ab j) / 2 / T') - 1 := by
    have := Real.add_one_le_exp ((p.epsilon_k_ab i + p.epsilon_k_ab j) / 2 / T')
    have : 0 ≤ (p.epsilon_k_ab i + p.epsilon_k_ab j) / 2 / T' := div_nonneg he0 h'.temperature.le
    linarith
  unfold specStrength
  refine mul_le_mul ?_ he he1 ?_
  · gcongr
  · have := hg0.trans_le hg
    positivity

/-! ## Several associating components -/

/-- C91: the exact association energy (divided by k_B T) does not fall on heating or expansion. -/
theorem C91_exact (hn : AssocNonneg p) {a a' : ℝ} (ha : ExactAssociation p T V N a)
    (ha' : ExactAssociation p T' V' N a') : a ≤ a' := by
  have h' := admissible_expand h hT hV
  obtain ⟨x, hx, hsol, rfl⟩ := ha
  obtain ⟨x', hx', hsol', rfl⟩ := ha'
  have hV0 := h.volume
  have hV0' := h'.volume
  have e := bondingFunction_at (specStrength_symm p T V N) hsol
  have e' := bondingFunction_at (specStrength_symm p T' V' N) hsol'
  have hmax := bondingFunction_le (fun i j => specStrength_nonneg h' i j (add_nonneg (hn.epsilon i) (hn.epsilon j)))
    (specStrength_symm p T' V' N) hn.na hn.nb (fun i => div_nonneg (h'.moles_nonneg i) hV0'.le) hsol' hx'
    (y := fun i => x (.inl i)) fun i => hx _
  have hscale : ∀ (W : ℝ) (delta : Fin n → Fin n → ℝ), 0 < W →
      bondingFunction delta p.na p.nb (fun i => N i / W) (fun i => x (.inl i)) * W
        = ∑ i, N i * p.na i * (Real.log (x (.inl i)) - x (.inl i) + 1)
          - ∑ j, N j * p.nb j * Real.log (1 + ∑ i, delta j i * (N i / W * p.na i) * x (.inl i)) := by
    intro W delta hW
    unfold bondingFunction
    rw [sub_mul, Finset.sum_mul, Finset.sum_mul]
    congr 1
    · exact Finset.sum_congr rfl fun i _ => by field_simp
    · exact Finset.sum_congr rfl fun i _ => by field_simp
  have hle : bondingFunction (specStrength p T V N) p.na p.nb (fun i => N i / V) (fun i => x (.inl i)) * V
      ≤ bondingFunction (specStrength p T' V' N) p.na p.nb (fun i => N i / V') (fun i => x (.inl i)) * V' := by
    rw [hscale V _ hV0, hscale V' _ hV0']
    refine sub_le_sub_left (Finset.sum_le_sum fun j _ => ?_) _
    refine mul_le_mul_of_nonneg_left ?_ (mul_nonneg (h.moles_nonneg j) (hn.nb j))
    have hterm : ∀ i, 0 ≤ specStrength p T' V' N j i * (N i / V' * p.na i) * x (.inl i) := fun i =>
      mul_nonneg (mul_nonneg (specStrength_nonneg h' j i (add_nonneg (hn.epsilon j) (hn.epsilon i)))
        (mul_nonneg (div_nonneg (h.moles_nonneg i) hV0'.le) (hn.na i))) (hx _).le
    have hsum : ∑ i, specStrength p T' V' N j i * (N i / V' * p.na i) * x (.inl i)
        ≤ ∑ i, specStrength p T V N j i * (N i / V * p.na i) * x (.inl i) := by
      refine Finset.sum_le_sum fun i _ => ?_
      have h1 := C91_association_strength h hT hV (add_nonneg (hn.epsilon j) (hn.epsilon i))
      have h2 := specStrength_nonneg h' j i (add_nonneg (hn.epsilon j) (hn.epsilon i))
      have h3 : N i / V' ≤ N i / V := div_le_div_of_nonneg_left (h.moles_nonneg i) hV0 hV
      have h4 := hn.na i
      have h5 := (hx (.inl i)).le
      have h6 : 0 ≤ N i / V' := div_nonneg (h.moles_nonneg i) hV0'.le
      gcongr
      exact h2.trans h1
    refine Real.log_le_log ?_ (by linarith)
    have := Finset.sum_nonneg fun i (_ : i ∈ Finset.univ) => hterm i
    linarith
  unfold specEnergy
  rw [← e, ← e']
  exact hle.trans (mul_le_mul_of_nonneg_right hmax hV0'.le)

/-- C91: the iteration for several associating components preserves this order up to its tolerance. -/
theorem C91_cross {pr : Fin n → PureRecord ℝ} {kij : Fin n → Fin n → ℝ} (hp : p = fromRecords pr kij)
    (hn : AssocNonneg p) {max_iter : ℕ} (hmax : 0 < max_iter) {tol : ℝ} (htol0 : 0 ≤ tol) (htol : tol ≤ 1 / 8)
    {solveF solveD : Solver p.assoc_comp.length ℝ} (hs : CorrectSolver solveF)
    (hcut : (f64EPSILON : ℝ) ≤ ∑ i, N i / V') {a a' : ℝ}
    (hok : crossAssociation p max_iter tol 0 solveF solveD (StateHD.new T V N) = .ok a)
    (hpos : PositiveRun p max_iter tol solveF (StateHD.new T V N))
    (hok' : crossAssociation p max_iter tol 0 solveF solveD (StateHD.new T' V' N) = .ok a')
    (hpos' : PositiveRun p max_iter tol solveF (StateHD.new T' V' N)) :
    a ≤ a' + 20 * tol * ∑ i, N i * (p.na i + p.nb i) := by
  have h' := admissible_expand h hT hV
  have hcut0 : (f64EPSILON : ℝ) ≤ ∑ i, N i / V :=
    hcut.trans (Finset.sum_le_sum fun i _ => div_le_div_of_nonneg_left (h.moles_nonneg i) h.volume hV)
  obtain ⟨b, hb, -⟩ := C71_exact_unique h hn
  obtain ⟨b', hb', -⟩ := C71_exact_unique h' hn
  have hle := C91_exact h hT hV hn hb hb'
  have e1 := abs_le.1 (C71_accuracy hp h hn hmax htol0 htol hs hcut0 hok hpos hb)
  have e2 := abs_le.1 (C71_accuracy hp h' hn hmax htol0 htol hs hcut hok' hpos' hb')
  linarith [e1.2, e2.1]

/-- weak association stays weak -/
theorem weak_expand (hn : AssocNonneg p) {μ : ℝ} (hw : WeakAssociation p T V N μ) : WeakAssociation p T' V' N μ := by
  have h' := admissible_expand h hT hV
  have hterm : ∀ i j (s : ℝ), 0 ≤ s →
      specStrength p T' V' N i j * (N j / V') * s ≤ specStrength p T V N i j * (N j / V) * s := fun i j s hs => by
    have he := add_nonneg (hn.epsilon i) (hn.epsilon j)
    refine mul_le_mul_of_nonneg_right (mul_le_mul (C91_association_strength h hT hV he)
      (div_le_div_of_nonneg_left (h.moles_nonneg j) h.volume hV) (div_nonneg (h.moles_nonneg j) h'.volume.le)
      (specStrength_nonneg h i j he)) hs
  exact fun i => ⟨le_trans (Finset.sum_le_sum fun j _ => hterm i j _ (hn.nb j)) (hw i).1,
    le_trans (Finset.sum_le_sum fun j _ => hterm i j _ (hn.na j)) (hw i).2⟩

/-- C91: if the bonds of several components are weak at the cold state, then the iteration converges at both states
and preserves the order up to its tolerance. -/
theorem C91_cross_evaluation {pr : Fin n → PureRecord ℝ} {kij : Fin n → Fin n → ℝ} (hp : p = fromRecords pr kij)
    (hn : AssocNonneg p) (hw : WeakAssociation p T V N 1) (hk : p.nassoc ≤ 10 ^ 6) {max_iter : ℕ}
    (hmax : 10 ≤ max_iter) {tol : ℝ} (htol : 1e-10 ≤ tol) (htol' : tol ≤ 1 / 8)
    {solveF solveD : Solver p.assoc_comp.length ℝ} (hs : CorrectSolver solveF)
    (hcut : (f64EPSILON : ℝ) ≤ ∑ i, N i / V') :
    ∃ a a', crossAssociation p max_iter tol 0 solveF solveD (StateHD.new T V N) = .ok a
      ∧ crossAssociation p max_iter tol 0 solveF solveD (StateHD.new T' V' N) = .ok a'
      ∧ a ≤ a' + 20 * tol * ∑ i, N i * (p.na i + p.nb i) := by
  have h' := admissible_expand h hT hV
  obtain ⟨⟨x, hx, -⟩, hrun⟩ := stateLoop_weak hp h hn hw hk hmax htol (htol'.trans (by norm_num)) hs
  obtain ⟨⟨x', hx', -⟩, hrun'⟩ := stateLoop_weak hp h' hn (weak_expand h hT hV hn hw) hk hmax htol
    (htol'.trans (by norm_num)) hs
  have hc := crossAssociation_real p max_iter tol solveF solveD (StateHD.new T V N)
  have hc' := crossAssociation_real p max_iter tol solveF solveD (StateHD.new T' V' N)
  rw [hx] at hc
  rw [hx'] at hc'
  have hok : ∃ a, crossAssociation p max_iter tol 0 solveF solveD (StateHD.new T V N) = .ok a := by
    rw [hc]
    split_ifs
    · exact ⟨_, rfl⟩
    · exact ⟨_, rfl⟩
  have hok' : ∃ a, crossAssociation p max_iter tol 0 solveF solveD (StateHD.new T' V' N) = .ok a := by
    rw [hc']
    split_ifs
    · exact ⟨_, rfl⟩
    · exact ⟨_, rfl⟩
  obtain ⟨a, ha⟩ := hok
  obtain ⟨a', ha'⟩ := hok'
  exact ⟨a, a', ha, ha', C91_cross h hT hV hp hn (by omega) (le_trans (by norm_num) htol) htol' hs hcut ha hrun
    ha' hrun'⟩

end strength

/-! ## One associating component -/

section single
variable {pr : Fin n → PureRecord ℝ} {kij : Fin n → Fin n → ℝ} {T T' V V' : ℝ} {N : Fin n → ℝ}
  (h : Admissible (fromRecords pr kij) T V N) {i : Fin n} (hi : (fromRecords pr kij).assoc_comp = [i])
  (he : 0 ≤ (fromRecords pr kij).epsilon_k_ab i) (hna : 0 < (fromRecords pr kij).na i)
  (hnb : 0 < (fromRecords pr kij).nb i) (hsmall : (fromRecords pr kij).na i + (fromRecords pr kij).nb i ≤ 2 ^ 25)
include h hi he hna hnb hsmall

omit he hna hnb hsmall in
theorem association_at : association (fromRecords pr kij) (StateHD.new T V N)
    = .ok (assocSingle (specStrength (fromRecords pr kij) T V N i i * (N i / V)) (N i) ((fromRecords pr kij).na i)
      ((fromRecords pr kij).nb i)) := by
  have hka : (fromRecords pr kij).kappa_ab i ≠ 0 := (mem_assoc_iff _ kij i).1 (by rw [hi]; simp)
  unfold association
  rw [hi]
  dsimp only
  rw [← C58_association_strength pr kij T V N h i i hka hka]
  rfl

omit hi hna hnb hsmall in
theorem bonding_anti (hT : T ≤ T') (hV : V ≤ V') :
    specStrength (fromRecords pr kij) T' V' N i i * (N i / V') ≤ specStrength (fromRecords pr kij) T V N i i * (N i / V) :=
  mul_le_mul (C91_association_strength h hT hV (add_nonneg he he))
    (div_le_div_of_nonneg_left (h.moles_nonneg i) h.volume hV)
    (div_nonneg (h.moles_nonneg i) (h.volume.trans_le hV).le) (specStrength_nonneg h i i (add_nonneg he he))

/-- C91: one associating component. On heating or expansion the fractions of unbonded sites do not fall, and
neither does the association energy (divided by k_B T), which stays below zero. -/
theorem C91_association (hT : T ≤ T') (hV : V ≤ V') :
    ∃ a a' x x' y y', association (fromRecords pr kij) (StateHD.new T V N) = .ok a
      ∧ association (fromRecords pr kij) (StateHD.new T' V' N) = .ok a'
      ∧ assocSiteFracAB (specStrength (fromRecords pr kij) T V N i i * (N i / V)) ((fromRecords pr kij).na i)
          ((fromRecords pr kij).nb i) = x
      ∧ assocSiteFracAB (specStrength (fromRecords pr kij) T' V' N i i * (N i / V')) ((fromRecords pr kij).na i)
          ((fromRecords pr kij).nb i) = x'
      ∧ assocSiteFracAB (specStrength (fromRecords pr kij) T V N i i * (N i / V)) ((fromRecords pr kij).nb i)
          ((fromRecords pr kij).na i) = y
      ∧ assocSiteFracAB (specStrength (fromRecords pr kij) T' V' N i i * (N i / V')) ((fromRecords pr kij).nb i)
          ((fromRecords pr kij).na i) = y'
      ∧ a ≤ a' ∧ a' ≤ 0 ∧ x ≤ x' ∧ y ≤ y' := by
  have h' := admissible_expand h hT hV
  have hd' := mul_nonneg (specStrength_nonneg h' i i (add_nonneg he he)) (div_nonneg (h'.moles_nonneg i) h'.volume.le)
  obtain ⟨h1, h2, h3⟩ := C86_single hd' (bonding_anti h he hT hV) (h.moles_nonneg i) hna hnb hsmall
  exact ⟨_, _, _, _, _, _, association_at h hi, association_at h' hi, rfl, rfl, rfl, rfl, h3,
    (C26_single hd' (h.moles_nonneg i) hna hnb (lt_of_le_of_lt hsmall (by norm_num))).1, h1, h2⟩

omit h hi he hna hnb hsmall in
theorem deriv_nonneg_of_le {f : ℝ → ℝ} {f' : ℝ} (hf : HasDerivAt f f' 0) (hle : ∀ t, 0 < t → f 0 ≤ f t) : 0 ≤ f' := by
  have h1 := (hasDerivAt_iff_tendsto_slope_zero.1 hf).mono_left (nhdsWithin_mono 0 (fun t (ht : 0 < t) => ht.ne') :
    𝓝[>] (0 : ℝ) ≤ 𝓝[≠] 0)
  refine ge_of_tendsto h1 (eventually_nhdsWithin_of_forall fun t ht => ?_)
  have ht : 0 < t := ht
  simp only [zero_add, smul_eq_mul]
  exact mul_nonneg (inv_nonneg.2 ht.le) (sub_nonneg.2 (hle t ht))

/-- C91: the dual numbers of the association contribution. Its derivatives with respect to temperature and
volume (as the code obtains them) are not negative: bonding lowers the internal energy and the pressure. -/
theorem C91_derivatives {Tu Vu : ℝ} (hTu : 0 ≤ Tu) (hVu : 0 ≤ Vu)
    (hs : specStrength (fromRecords pr kij) T V N i i * (N i / V) ≠ Real.sqrt f64EPSILON) :
    ∃ d : Dual ℝ, association (fromRecords pr kij)
        (StateHD.new (⟨T, Tu⟩ : Dual ℝ) ⟨V, Vu⟩ (fun i => ⟨N i, 0⟩)) = .ok d
      ∧ association (fromRecords pr kij) (StateHD.new T V N) = .ok d.re ∧ d.re ≤ 0 ∧ 0 ≤ d.eps := by
  have hTd : HasDerivAt (fun t : ℝ => T + t * Tu) Tu 0 := by
    simpa using ((hasDerivAt_id (0 : ℝ)).mul_const Tu).const_add T
  have hVd : HasDerivAt (fun t : ℝ => V + t * Vu) Vu 0 := by
    simpa using ((hasDerivAt_id (0 : ℝ)).mul_const Vu).const_add V
  have e1 : T + 0 * Tu = T := by ring
  have e2 : V + 0 * Vu = V := by ring
  have hr : Regular (fromRecords pr kij) (T + 0 * Tu) (V + 0 * Vu) (fun i => N i) .association := by
    rw [e1, e2]
    exact ⟨i, hi, he, hna, hnb, lt_of_le_of_lt hsmall (by norm_num), hs⟩
  obtain ⟨A, d, h1, h2, h3⟩ := rep_contribution (g := fun x => x) lawfulEmb_id (ParamRel.refl _) (rho1_curve hTd)
    (rho1_curve hVd) (fun i => rho1_curve (hasDerivAt_const (0 : ℝ) (N i))) (by rw [e1, e2]; exact h)
    (⟨fun _ _ b => some b, fun _ _ b => some b, 0⟩ : LinAlg ℝ ℝ)
    (⟨fun _ _ b => some b, fun _ _ b => some b, 0⟩ : LinAlg ℝ (Dual ℝ)) .association hr
  obtain ⟨h4, h5⟩ := curve_of h3
  have h6 : ∀ t, association (fromRecords pr kij) (StateHD.new (T + t * Tu) (V + t * Vu) N) = .ok (A ((), t)) :=
    fun t => h1 ((), t)
  have h7 : association (fromRecords pr kij) (StateHD.new T V N) = .ok (A ((), 0)) := by
    have := h6 0
    rwa [e1, e2] at this
  obtain ⟨a, a', x, x', y, y', g1, g2, -, -, -, -, g3, g4, -⟩ :=
    C91_association h hi he hna hnb hsmall (le_refl T) (le_refl V)
  refine ⟨d, ?_, by rw [h4]; exact h7, ?_, deriv_nonneg_of_le h5 fun t ht => ?_⟩
  · have := h2
    simp only [e1, e2] at this
    exact this
  · rw [h4]
    rw [g2, Except.ok.injEq] at h7
    rw [← h7]
    exact g4
  · obtain ⟨a, a', x, x', y, y', g1, g2, -, -, -, -, g3, -⟩ :=
      C91_association h hi he hna hnb hsmall (T' := T + t * Tu) (V' := V + t * Vu)
        (le_add_of_nonneg_right (by positivity)) (le_add_of_nonneg_right (by positivity))
    rw [h7, Except.ok.injEq] at g1
    rw [h6, Except.ok.injEq] at g2
    rw [g1, g2]
    exact g3

end single

/-! ## Cases that meet the hypotheses -/

/-- heated from 300 K to 350 K while the volume grows by a tenth -/
example := C91_association (T' := 350) (V' := 1100) assocRecords_admissible assocRecords_comp
  (by norm_num [fromRecords, assocRecords]) (by norm_num [fromRecords, assocRecords])
  (by norm_num [fromRecords, assocRecords]) (by norm_num [fromRecords, assocRecords]) (by norm_num) (by norm_num)

/-- the pressure and the internal energy of bonding -/
example := C91_derivatives (Tu := 0) (Vu := 1) assocRecords_admissible assocRecords_comp
  (by norm_num [fromRecords, assocRecords]) (by norm_num [fromRecords, assocRecords])
  (by norm_num [fromRecords, assocRecords]) (by norm_num [fromRecords, assocRecords]) le_rfl zero_le_one
  assocRecords_strength

example := C91_derivatives (Tu := 1) (Vu := 0) assocRecords_admissible assocRecords_comp
  (by norm_num [fromRecords, assocRecords]) (by norm_num [fromRecords, assocRecords])
  (by norm_num [fromRecords, assocRecords]) (by norm_num [fromRecords, assocRecords]) zero_le_one le_rfl
  assocRecords_strength

/-- two associating components, heated from 300 K to 320 K at constant volume -/
example : ∃ K : ℝ, 0 < K ∧
    let p := fromRecords (twinRecords K) (fun _ _ => 0)
    p.nassoc = 2 ∧ ∃ a a', crossAssociation p 50 1e-10 0 exactSolver exactSolver (StateHD.new 300 1000 ![3, 11]) = .ok a
      ∧ crossAssociation p 50 1e-10 0 exactSolver exactSolver (StateHD.new 320 1000 ![3, 11]) = .ok a'
      ∧ a ≤ a' + 20 * 1e-10 * ∑ i, ![3, 11] i * (p.na i + p.nb i) := by
  obtain ⟨K, hK, hw⟩ := twin_weak
  have hna : (fromRecords (twinRecords K) (fun _ _ => 0)).nassoc = 2 := by
    rw [PcSaftParameters.nassoc, twinRecords_comp hK]
    rfl
  refine ⟨K, hK, hna, C91_cross_evaluation (p := fromRecords (twinRecords K) (fun _ _ => 0)) (V := 1000) (V' := 1000)
    (twinRecords_admissible K (fun _ _ => 0) (by norm_num)) (by norm_num) le_rfl rfl
    ⟨fun _ => by change (0 : ℝ) ≤ 2500; norm_num, fun _ => zero_le_one, fun _ => zero_le_one⟩ (hw 1 (by norm_num))
    (by rw [hna]; norm_num) (by norm_num) le_rfl (by norm_num) exactSolver_correct ?_⟩
  simp only [Fin.sum_univ_two, f64EPSILON]
  norm_num

end PcSaft.Props
