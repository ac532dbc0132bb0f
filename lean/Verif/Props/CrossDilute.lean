import Verif.Props.CrossConvergence

/-!
# Property C79: association is weak at low density and at high temperature
-/

open Filter Topology

namespace PcSaft.Props
open PcSaft Spec
variable {n : ℕ}

/-- the association strength along a limit of the moments, the diameters and the temperature -/
theorem tendsto_strength {α : Type} {f : Filter α} {p : PcSaftParameters n ℝ} {T V : α → ℝ} {N : Fin n → ℝ}
    {d : Fin n → ℝ} {ζ₂ ζ₃ e : ℝ} {i j : Fin n}
    (hd : ∀ i, Tendsto (fun a => Spec.diameter (p.sigma i) (p.epsilon_k i) (T a)) f (𝓝 (d i))) (hdp : ∀ i, 0 < d i)
    (h2 : Tendsto (fun a => moment2 p (T a) (V a) N) f (𝓝 ζ₂))
    (h3 : Tendsto (fun a => Spec.packingFraction p (T a) (V a) N) f (𝓝 ζ₃)) (hζ : ζ₃ < 1)
    (he : Tendsto (fun a => Real.exp ((p.epsilon_k_ab i + p.epsilon_k_ab j) / 2 / T a) - 1) f (𝓝 e)) :
    Tendsto (fun a => specStrength p (T a) (V a) N i j) f (𝓝 (contactPair ζ₂ ζ₃ (d i) (d j)
      * Real.sqrt (p.kappa_ab i * p.kappa_ab j) * Real.sqrt (p.sigma i * p.sigma j) ^ 3 * e)) := by
  have hne : 1 - ζ₃ ≠ 0 := by linarith
  have hij : d i + d j ≠ 0 := (add_pos (hdp i) (hdp j)).ne'
  have h4 : Tendsto (fun a => 1 - Spec.packingFraction p (T a) (V a) N) f (𝓝 (1 - ζ₃)) := tendsto_const_nhds.sub h3
  have hq := ((hd i).mul (hd j)).div ((hd i).add (hd j)) hij
  unfold specStrength
  refine Tendsto.mul (Tendsto.mul_const _ (Tendsto.mul_const _ ?_)) he
  exact ((tendsto_const_nhds.div h4 hne).add (((hq.const_mul 3).mul h2).div (h4.pow 2) (pow_ne_zero 2 hne))).add
    ((((hq.pow 2).const_mul 2).mul (h2.pow 2)).div (h4.pow 3) (pow_ne_zero 3 hne))

theorem weak_of_tendsto {α : Type} {f : Filter α} {p : PcSaftParameters n ℝ} {T V : α → ℝ} {N : Fin n → ℝ}
    (h : ∀ i j, Tendsto (fun a => specStrength p (T a) (V a) N i j * (N j / V a)) f (𝓝 0)) {μ : ℝ} (hμ : 0 < μ) :
    ∀ᶠ a in f, WeakAssociation p (T a) (V a) N μ := by
  have key : ∀ (nn : Fin n → ℝ) (i : Fin n),
      ∀ᶠ a in f, ∑ j, specStrength p (T a) (V a) N i j * (N j / V a) * nn j ≤ μ := fun nn i => by
    have : Tendsto (fun a => ∑ j, specStrength p (T a) (V a) N i j * (N j / V a) * nn j) f (𝓝 (∑ j, 0 * nn j)) :=
      tendsto_finsetSum _ fun j _ => (h i j).mul_const _
    simp only [zero_mul, Finset.sum_const_zero] at this
    exact (this.eventually (gt_mem_nhds hμ)).mono fun a ha => le_of_lt ha
  filter_upwards [eventually_all.2 (key p.nb), eventually_all.2 (key p.na)] with a h1 h2 i
  exact ⟨h1 i, h2 i⟩

/-- a state stays admissible if the volume grows -/
theorem Admissible.expand {p : PcSaftParameters n ℝ} {T V V' : ℝ} {N : Fin n → ℝ} (h : Admissible p T V N)
    (hV : V ≤ V') : Admissible p T V' N := by
  refine { h with volume := h.volume.trans_le hV, packing := lt_of_le_of_lt ?_ h.packing }
  refine Finset.sum_le_sum fun i _ => div_le_div_of_nonneg_left ?_ h.volume hV
  have h1 := h.diameter_pos i
  rw [hsDiameter_eq_spec] at h1
  have h2 := h.moles_nonneg i
  have h3 := h.m_pos i
  positivity

/-- C79: at given temperature and composition association is weak beyond some volume, so that the iteration
converges there. -/
theorem C79_dilute {p : PcSaftParameters n ℝ} {T V : ℝ} {N : Fin n → ℝ} (h : Admissible p T V N) {μ : ℝ} (hμ : 0 < μ) :
    ∃ V₀, ∀ V', V₀ ≤ V' → Admissible p T V' N ∧ WeakAssociation p T V' N μ := by
  have hinv : ∀ a : ℝ, Tendsto (fun V' : ℝ => a / V') atTop (𝓝 0) := fun a => tendsto_const_nhds.div_atTop tendsto_id
  have h2 : Tendsto (fun V' => moment2 p T V' N) atTop (𝓝 0) := by
    have : Tendsto (fun V' : ℝ => ∑ i, N i / V' * p.m i * (Real.pi / 6 * Spec.diameter (p.sigma i) (p.epsilon_k i) T ^ 2))
        atTop (𝓝 (∑ i, 0 * p.m i * (Real.pi / 6 * Spec.diameter (p.sigma i) (p.epsilon_k i) T ^ 2))) :=
      tendsto_finsetSum _ fun i _ => ((hinv _).mul_const _).mul_const _
    simp only [zero_mul, Finset.sum_const_zero] at this
    exact this
  have h3 : Tendsto (fun V' => Spec.packingFraction p T V' N) atTop (𝓝 0) := by
    have : Tendsto (fun V' : ℝ => Spec.packingFraction p T V' N) atTop (𝓝 (∑ _i : Fin n, 0)) :=
      tendsto_finsetSum _ fun i _ => hinv _
    simpa using this
  have hw : ∀ᶠ V' in atTop, WeakAssociation p T V' N μ := weak_of_tendsto (fun i j => by
    have := (tendsto_strength (i := i) (j := j) (T := fun _ => T) (fun i => tendsto_const_nhds) (fun i => by
      have := h.diameter_pos i
      rwa [hsDiameter_eq_spec] at this) h2 h3 zero_lt_one tendsto_const_nhds).mul (hinv (N j))
    simpa using this) hμ
  obtain ⟨V₀, h0⟩ := eventually_atTop.1 (hw.and (eventually_ge_atTop V))
  exact ⟨V₀, fun V' hV' => ⟨Admissible.expand h (h0 V' hV').2, (h0 V' hV').1⟩⟩

theorem diameter_antitone {s e T T' : ℝ} (hs : 0 < s) (he : 0 ≤ e) (hT : 0 < T) (h : T ≤ T') :
    Spec.diameter s e T' ≤ Spec.diameter s e T := by
  unfold Spec.diameter
  have h1 : Real.exp (-3 * e / T) ≤ Real.exp (-3 * e / T') := by
    rw [Real.exp_le_exp, neg_mul, neg_div, neg_div, neg_le_neg_iff]
    exact div_le_div_of_nonneg_left (by linarith) hT h
  nlinarith

/-- a state stays admissible if the temperature grows -/
theorem Admissible.heat {p : PcSaftParameters n ℝ} {T T' V : ℝ} {N : Fin n → ℝ} (h : Admissible p T V N)
    (hT : T ≤ T') : Admissible p T' V N := by
  refine { h with temperature := h.temperature.trans_le hT, packing := lt_of_le_of_lt ?_ h.packing }
  have hd : ∀ i, 0 ≤ Spec.diameter (p.sigma i) (p.epsilon_k i) T' := fun i => by
    unfold Spec.diameter
    have h1 : Real.exp (-3 * p.epsilon_k i / T') ≤ 1 := by
      rw [Real.exp_le_one_iff, neg_mul, neg_div, neg_nonpos]
      exact div_nonneg (by linarith [h.epsilon_nonneg i]) (h.temperature.trans_le hT).le
    have := h.sigma_pos i
    exact mul_nonneg this.le (by linarith)
  refine Finset.sum_le_sum fun i _ => div_le_div_of_nonneg_right ?_ h.volume.le
  refine mul_le_mul_of_nonneg_left ?_ (mul_nonneg (h.moles_nonneg i) (h.m_pos i).le)
  refine mul_le_mul_of_nonneg_left ?_ (by positivity)
  exact pow_le_pow_left₀ (hd i) (diameter_antitone (h.sigma_pos i) (h.epsilon_nonneg i) h.temperature hT) 3

/-- C79: at given volume and composition association is weak beyond some temperature, so that the iteration converges
there. -/
theorem C79_hot {p : PcSaftParameters n ℝ} {T V : ℝ} {N : Fin n → ℝ} (h : Admissible p T V N) {μ : ℝ} (hμ : 0 < μ) :
    ∃ T₀, ∀ T', T₀ ≤ T' → Admissible p T' V N ∧ WeakAssociation p T' V N μ := by
  have hexp : ∀ a : ℝ, Tendsto (fun T' : ℝ => Real.exp (a / T')) atTop (𝓝 1) := fun a => by
    have := (Real.continuous_exp.tendsto 0).comp
      ((tendsto_const_nhds (x := a)).div_atTop (tendsto_id : Tendsto (id : ℝ → ℝ) atTop atTop))
    rw [Real.exp_zero] at this
    exact this
  have hd : ∀ i, Tendsto (fun T' => Spec.diameter (p.sigma i) (p.epsilon_k i) T') atTop (𝓝 (p.sigma i * (1 - 0.12 * 1))) :=
    fun i => ((hexp _).const_mul _).const_sub _ |>.const_mul _
  have h2 : Tendsto (fun T' => moment2 p T' V N) atTop
      (𝓝 (∑ i, N i / V * p.m i * (Real.pi / 6 * (p.sigma i * (1 - 0.12 * 1)) ^ 2))) :=
    tendsto_finsetSum _ fun i _ => (((hd i).pow 2).const_mul _).const_mul _
  have h3 : Tendsto (fun T' => Spec.packingFraction p T' V N) atTop
      (𝓝 (∑ i, N i * p.m i * (Real.pi / 6 * (p.sigma i * (1 - 0.12 * 1)) ^ 3) / V)) :=
    tendsto_finsetSum _ fun i _ => ((((hd i).pow 3).const_mul _).const_mul _).div_const _
  have hζ : ∑ i, N i * p.m i * (Real.pi / 6 * (p.sigma i * (1 - 0.12 * 1)) ^ 3) / V ≤ Spec.packingFraction p T V N := by
    refine le_of_tendsto h3 ((eventually_ge_atTop T).mono fun T' hT => ?_)
    refine Finset.sum_le_sum fun i _ => div_le_div_of_nonneg_right ?_ h.volume.le
    refine mul_le_mul_of_nonneg_left ?_ (mul_nonneg (h.moles_nonneg i) (h.m_pos i).le)
    refine mul_le_mul_of_nonneg_left ?_ (by positivity)
    have h1 := (Admissible.heat h hT).diameter_pos i
    rw [hsDiameter_eq_spec] at h1
    exact pow_le_pow_left₀ h1.le (diameter_antitone (h.sigma_pos i) (h.epsilon_nonneg i) h.temperature hT) 3
  have hw : ∀ᶠ T' in atTop, WeakAssociation p T' V N μ := weak_of_tendsto (V := fun _ => V) (fun i j => by
    have := (tendsto_strength (i := i) (j := j) (T := fun T' => T') hd (fun i => by
      have := h.sigma_pos i
      norm_num
      exact this) h2 h3 (lt_of_le_of_lt hζ h.packing) ((hexp _).sub_const 1)).mul_const (N j / V)
    simpa using this) hμ
  obtain ⟨T₀, h0⟩ := eventually_atTop.1 (hw.and (eventually_ge_atTop T))
  exact ⟨T₀, fun T' hT' => ⟨Admissible.heat h (h0 T' hT').2, (h0 T' hT').1⟩⟩

/-- C79: for every mixture and composition there is a volume beyond which evaluating the residual energy with the
default options never panics, whatever the association parameters. -/
theorem C79_dilute_residual {pr : Fin n → PureRecord ℝ} {kij : Fin n → Fin n → ℝ} {p : PcSaftParameters n ℝ}
    (hp : p = fromRecords pr kij) {T V : ℝ} {N : Fin n → ℝ} (h : Admissible p T V N) (hn : AssocNonneg p)
    (ha : 2 ≤ p.nassoc) (hk : p.nassoc ≤ 10 ^ 6) {la : LinAlg ℝ ℝ} (h0 : la.nderiv = 0)
    (hs : CorrectSolver (la.solveF p.assoc_comp.length)) :
    ∃ V₀, ∀ V', V₀ ≤ V' → ∃ a, (Eos.new p).residualHelmholtz la (StateHD.new T V' N) = .ok a := by
  obtain ⟨V₀, hV⟩ := C79_dilute h one_pos
  refine ⟨V₀, fun V' hV' => ?_⟩
  obtain ⟨a, ha', -⟩ := C79_residual (o := PcSaftOptions.default) hp (hV V' hV').1 hn (hV V' hV').2 ha hk
    (by norm_num [PcSaftOptions.default]) (by norm_num [PcSaftOptions.default]) (by norm_num [PcSaftOptions.default]) h0 hs
  exact ⟨_, ha'⟩

/-- C79: the same for temperatures. -/
theorem C79_hot_residual {pr : Fin n → PureRecord ℝ} {kij : Fin n → Fin n → ℝ} {p : PcSaftParameters n ℝ}
    (hp : p = fromRecords pr kij) {T V : ℝ} {N : Fin n → ℝ} (h : Admissible p T V N) (hn : AssocNonneg p)
    (ha : 2 ≤ p.nassoc) (hk : p.nassoc ≤ 10 ^ 6) {la : LinAlg ℝ ℝ} (h0 : la.nderiv = 0)
    (hs : CorrectSolver (la.solveF p.assoc_comp.length)) :
    ∃ T₀, ∀ T', T₀ ≤ T' → ∃ a, (Eos.new p).residualHelmholtz la (StateHD.new T' V N) = .ok a := by
  obtain ⟨T₀, hT⟩ := C79_hot h one_pos
  refine ⟨T₀, fun T' hT' => ?_⟩
  obtain ⟨a, ha', -⟩ := C79_residual (o := PcSaftOptions.default) hp (hT T' hT').1 hn (hT T' hT').2 ha hk
    (by norm_num [PcSaftOptions.default]) (by norm_num [PcSaftOptions.default]) (by norm_num [PcSaftOptions.default]) h0 hs
  exact ⟨_, ha'⟩

/-! ## The size of the association energy -/

theorem siteEnergy_bounds {y μ : ℝ} (hy : 0 < y) (hy1 : y ≤ 1) (hμ : 1 ≤ (1 + μ) * y) :
    -μ ≤ Real.log y - y / 2 + 1 / 2 ∧ Real.log y - y / 2 + 1 / 2 ≤ 0 := by
  have h1 := Real.one_sub_inv_le_log_of_pos hy
  have h2 := Real.log_le_sub_one_of_pos hy
  have h3 : y⁻¹ ≤ 1 + μ := by
    rw [inv_le_iff_one_le_mul₀ hy]
    linarith
  constructor <;> linarith

/-- C79: the exact association energy is not positive, and it is at most the strength of association times the number of
sites. -/
theorem C79_exact_bound {p : PcSaftParameters n ℝ} {T V : ℝ} {N : Fin n → ℝ} (h : Admissible p T V N)
    (hn : AssocNonneg p) {μ : ℝ} (hw : WeakAssociation p T V N μ) {b : ℝ} (hb : ExactAssociation p T V N b) :
    -(μ * ∑ i, N i * (p.na i + p.nb i)) ≤ b ∧ b ≤ 0 := by
  obtain ⟨x, hx, hsol, rfl⟩ := hb
  have hM := mixtureSites_nonneg h hn
  have hl := massAction_lower hM hsol hx (WeakSites.row hw)
  have hu := hsol.le_one hM hx
  have hf := fun s => siteEnergy_bounds (hx s) (hu s) (hl s)
  have e : specEnergy p.na p.nb (fun i => N i / V) x * V
      = ∑ i, N i * (p.na i * (Real.log (x (.inl i)) - x (.inl i) / 2 + 1 / 2)
        + p.nb i * (Real.log (x (.inr i)) - x (.inr i) / 2 + 1 / 2)) := by
    rw [specEnergy, Finset.sum_mul]
    refine Finset.sum_congr rfl fun i _ => ?_
    have := h.volume.ne'
    field_simp
  rw [e, Finset.mul_sum, ← Finset.sum_neg_distrib]
  constructor
  · refine Finset.sum_le_sum fun i _ => ?_
    have h1 := mul_le_mul_of_nonneg_left (hf (.inl i)).1 (hn.na i)
    have h2 := mul_le_mul_of_nonneg_left (hf (.inr i)).1 (hn.nb i)
    have h3 := mul_le_mul_of_nonneg_left (add_le_add h1 h2) (h.moles_nonneg i)
    linarith
  · refine Finset.sum_nonpos fun i _ => mul_nonpos_of_nonneg_of_nonpos (h.moles_nonneg i) ?_
    exact add_nonpos (mul_nonpos_of_nonneg_of_nonpos (hn.na i) (hf (.inl i)).2)
      (mul_nonpos_of_nonneg_of_nonpos (hn.nb i) (hf (.inr i)).2)

/-- C79: what weak association of several components contributes to the residual energy that the code returns: between
minus the strength of association and zero per site, up to ten times the tolerance. -/
theorem C79_bound {pr : Fin n → PureRecord ℝ} {kij : Fin n → Fin n → ℝ} {p : PcSaftParameters n ℝ}
    (hp : p = fromRecords pr kij) {T V : ℝ} {N : Fin n → ℝ} (h : Admissible p T V N) (hn : AssocNonneg p) {μ : ℝ}
    (hμ : 0 ≤ μ) (hμ1 : μ ≤ 1) (hw : WeakAssociation p T V N μ) (ha : 2 ≤ p.nassoc) (hk : p.nassoc ≤ 10 ^ 6)
    {o : PcSaftOptions ℝ} (hmax : 10 ≤ o.max_iter_cross_assoc) (htol : 1e-10 ≤ o.tol_cross_assoc)
    (htol' : o.tol_cross_assoc ≤ 1 / 8) {la : LinAlg ℝ ℝ} (h0 : la.nderiv = 0)
    (hs : CorrectSolver (la.solveF p.assoc_comp.length)) :
    ∃ a, (Eos.withOptions p o).residualHelmholtz la (StateHD.new T V N)
        = .ok (nonAssocSum o.dq_variant p (StateHD.new T V N) + a)
      ∧ -((μ + 10 * o.tol_cross_assoc) * ∑ i, N i * (p.na i + p.nb i)) ≤ a
      ∧ a ≤ 10 * o.tol_cross_assoc * ∑ i, N i * (p.na i + p.nb i) := by
  obtain ⟨a, ha', hacc⟩ := C79_residual hp h hn (WeakSites.mono hw hμ1) ha hk hmax htol htol' h0 hs
  have hS : 0 ≤ ∑ i, N i * (p.na i + p.nb i) :=
    Finset.sum_nonneg fun i _ => mul_nonneg (h.moles_nonneg i) (add_nonneg (hn.na i) (hn.nb i))
  have ht : 0 ≤ o.tol_cross_assoc := le_trans (by norm_num) htol
  refine ⟨a, ha', ?_⟩
  rcases le_or_gt (f64EPSILON : ℝ) (∑ i, N i / V) with hcut | hcut
  · obtain ⟨x, hx, hsol⟩ := MassAction.exists (mixtureSites_nonneg h hn)
    have hb : ExactAssociation p T V N (specEnergy p.na p.nb (fun i => N i / V) x * V) := ⟨x, hx, hsol, rfl⟩
    have h1 := abs_le.1 (hacc hcut _ hb)
    have h2 := C79_exact_bound h hn hw hb
    constructor <;> linarith [h1.1, h1.2, h2.1, h2.2]
  · have e0 : (0.0 : ℝ) = 0 := by norm_num
    have hlt : F64.lt (DualNum.re (sumFin (StateHD.new T V N).partial_density)) (f64EPSILON : ℝ) = true := by
      simp only [sumFin_real, re_real, lt_real, decide_eq_true_eq, StateHD.new_density]
      exact hcut
    have hz : crossAssociation p o.max_iter_cross_assoc o.tol_cross_assoc 0 (la.solveF _) (la.solveD _)
        (StateHD.new T V N) = .ok 0 := by
      simp only [crossAssociation, crossAssociationDensity, hlt, if_true, c, ofF_real, e0, zero_mul]
    rw [residual_of_two_le_nassoc la p o _ ha, h0, hz] at ha'
    have : a = 0 := by
      have := Except.ok.inj ha'
      linarith
    rw [this]
    constructor
    · exact neg_nonpos.2 (mul_nonneg (by linarith) hS)
    · exact mul_nonneg (by linarith) hS

/-! ## Cases that meet the hypotheses -/

example (K : ℝ) (hK : 0 < K) : ∃ V₀, ∀ V', V₀ ≤ V' → ∃ a,
    (Eos.new (fromRecords (twinRecords K) (fun _ _ => 0))).residualHelmholtz
      (⟨fun _ => exactSolver, fun _ => exactSolver, 0⟩ : LinAlg ℝ ℝ) (StateHD.new 300 V' ![3, 11]) = .ok a := by
  have hna : (fromRecords (twinRecords K) (fun _ _ => 0)).nassoc = 2 := by
    rw [PcSaftParameters.nassoc, twinRecords_comp hK]
    rfl
  exact C79_dilute_residual rfl (twinRecords_admissible K (fun _ _ => 0) (V := 1000) (by norm_num))
    ⟨fun _ => by change (0 : ℝ) ≤ 2500; norm_num, fun _ => zero_le_one, fun _ => zero_le_one⟩ hna.ge
    (by rw [hna]; norm_num) (la := ⟨fun _ => exactSolver, fun _ => exactSolver, 0⟩) rfl exactSolver_correct

example (K : ℝ) (hK : 0 < K) : ∃ T₀, ∀ T', T₀ ≤ T' → ∃ a,
    (Eos.new (fromRecords (twinRecords K) (fun _ _ => 0))).residualHelmholtz
      (⟨fun _ => exactSolver, fun _ => exactSolver, 0⟩ : LinAlg ℝ ℝ) (StateHD.new T' 1000 ![3, 11]) = .ok a := by
  have hna : (fromRecords (twinRecords K) (fun _ _ => 0)).nassoc = 2 := by
    rw [PcSaftParameters.nassoc, twinRecords_comp hK]
    rfl
  exact C79_hot_residual rfl (twinRecords_admissible K (fun _ _ => 0) (V := 1000) (by norm_num))
    ⟨fun _ => by change (0 : ℝ) ≤ 2500; norm_num, fun _ => zero_le_one, fun _ => zero_le_one⟩ hna.ge
    (by rw [hna]; norm_num) (la := ⟨fun _ => exactSolver, fun _ => exactSolver, 0⟩) rfl exactSolver_correct

/-- weak association of a tenth exists beyond some volume -/
example (K : ℝ) (hK : 0 < K) : ∃ V₀, ∀ V', V₀ ≤ V' → ∃ a,
    (Eos.new (fromRecords (twinRecords K) (fun _ _ => 0))).residualHelmholtz
      (⟨fun _ => exactSolver, fun _ => exactSolver, 0⟩ : LinAlg ℝ ℝ) (StateHD.new 300 V' ![3, 11])
        = .ok (nonAssocSum .DQ35 (fromRecords (twinRecords K) (fun _ _ => 0)) (StateHD.new 300 V' ![3, 11]) + a)
      ∧ -((1 / 10 + 10 * 1e-10) * 28) ≤ a ∧ a ≤ 10 * 1e-10 * 28 := by
  have hna : (fromRecords (twinRecords K) (fun _ _ => 0)).nassoc = 2 := by
    rw [PcSaftParameters.nassoc, twinRecords_comp hK]
    rfl
  have hn : AssocNonneg (fromRecords (twinRecords K) (fun _ _ => 0)) :=
    ⟨fun _ => by change (0 : ℝ) ≤ 2500; norm_num, fun _ => zero_le_one, fun _ => zero_le_one⟩
  obtain ⟨V₀, hV⟩ := C79_dilute (twinRecords_admissible K (fun _ _ => 0) (V := 1000) (by norm_num))
    (μ := 1 / 10) (by norm_num)
  refine ⟨V₀, fun V' hV' => ?_⟩
  obtain ⟨a, h1, h2, h3⟩ := C79_bound (o := PcSaftOptions.default) rfl (hV V' hV').1 hn (by norm_num) (by norm_num)
    (hV V' hV').2 hna.ge (by rw [hna]; norm_num) (by norm_num [PcSaftOptions.default])
    (by norm_num [PcSaftOptions.default]) (by norm_num [PcSaftOptions.default])
    (la := ⟨fun _ => exactSolver, fun _ => exactSolver, 0⟩) rfl exactSolver_correct
  have e : ∑ i, (![3, 11] : Fin 2 → ℝ) i * ((fromRecords (twinRecords K) (fun _ _ => 0)).na i
      + (fromRecords (twinRecords K) (fun _ _ => 0)).nb i) = 28 := by
    rw [Fin.sum_univ_two]
    norm_num [fromRecords, twinRecords]
  rw [e] at h2 h3
  exact ⟨a, h1, h2, h3⟩

end PcSaft.Props
