import Verif.Lemmas.VirialLimit
import Verif.Props.DiluteLimit
import Verif.Props.Pressure

/-!
# Property C97: the second virial coefficient is the slope of the compressibility factor

`feos_core` takes the second virial coefficient from an evaluation with dual numbers at zero density.  It is compared
here with the pressures that the code gives for dilute gases.
-/

open Filter Topology

namespace PcSaft
variable {n : ℕ}

/-- `b` is the second virial coefficient that the code returns for the composition `x`: the evaluation at zero density
succeeds, all its components are finite, and the mixed second derivative is `2 b` -/
def Spec.IsSecondVirial (pr : Fin n → PureRecord ℝ) (k : Fin n → Fin n → ℝ) (o : PcSaftOptions ℝ)
    (laX : LinAlg XReal Props.XDual2) (T : ℝ) (x : Fin n → ℝ) (b : ℝ) : Prop :=
  ∃ d, (Eos.withOptions (Props.xParameters pr k) (o.map XReal.fin)).residualHelmholtz laX (Props.virialStateX T x) = .ok d
    ∧ Props.VirialCoefficient b d

namespace Props
open PcSaft Spec Dual2

theorem VirialCoefficient.add {a b : ℝ} {d e : XDual2} (h : VirialCoefficient a d) (h' : VirialCoefficient b e) :
    VirialCoefficient (a + b) (d + e) := by
  obtain ⟨h1, h2, h3, h4⟩ := h
  obtain ⟨g1, g2, g3, g4⟩ := h'
  refine ⟨?_, ?_, ?_, ?_⟩
  · change d.re.re + e.re.re = _
    rw [h1, g1, ← XReal.equations.add, add_zero]
  · change d.re.eps + e.re.eps = _
    rw [h2, g2, ← XReal.equations.add, add_zero]
  · change d.eps.re + e.eps.re = _
    rw [h3, g3, ← XReal.equations.add, add_zero]
  · change d.eps.eps + e.eps.eps = _
    rw [h4, g4, ← XReal.equations.add, mul_add]

theorem virial_zero : VirialCoefficient 0 (c (0.0 : XReal)) := by
  have h : (0.0 : XReal) = XReal.fin 0 := by
    change XReal.fin (0.0 : ℝ) = _
    norm_num
  refine ⟨h, h, h, ?_⟩
  rw [mul_zero]
  exact h

/-- one contribution: the evaluation at zero density, and the limit of the energy over the squared density -/
def VirialTerm (la : LinAlg ℝ ℝ) (laX : LinAlg XReal XDual2) (p : PcSaftParameters n ℝ) (px : PcSaftParameters n XReal)
    (T : ℝ) (x : Fin n → ℝ) (ct : Contribution ℝ) (b : ℝ) : Prop :=
  (∃ d, (ct.map XReal.fin).helmholtzEnergy laX px (virialStateX T x) = .ok d ∧ VirialCoefficient b d)
    ∧ ∃ E : ℝ → ℝ, (∀ᶠ t in 𝓝[≠] (0 : ℝ), ct.helmholtzEnergy la p (StateHD.new T 1 (fun i => x i * t)) = .ok (E t))
      ∧ Tendsto (fun t => E t / t ^ 2) (𝓝[≠] 0) (𝓝 b)

theorem newVirial_eq (T : ℝ) {x : Fin n → ℝ} (hx : ∑ i, x i = 1) {t : ℝ} (ht : t ≠ 0) :
    StateHD.newVirial T t x = StateHD.new T 1 (fun i => x i * t) := by
  have h1 : (1.0 : ℝ) = 1 := by norm_num
  have hs : ∑ i, x i * t = t := by rw [← Finset.sum_mul, hx, one_mul]
  simp only [StateHD.newVirial, StateHD.new, c, ofF_real, h1, sumFin_real, hs, div_one]
  congr 1
  funext i
  field_simp

/-- a function of the density that is evaluated with dual numbers at zero density -/
theorem limit_of_rep {A : ℝ → ℝ} {d : Dual2} {b : ℝ} (h : rho2.R (fun y => A (y.1.2 + y.2)) d) (hd : Second (2 * b) d) :
    Tendsto (fun t => A t / t ^ 2) (𝓝[≠] 0) (𝓝 b) := by
  have h0 : A 0 = 0 := by
    have := rho2.re h
    simp only [add_zero] at this
    exact this.symm.trans hd.re
  obtain ⟨_, _, A', h2, h3⟩ := h
  obtain ⟨_, h4, A'', h5, h6⟩ := h3
  have hs : Tendsto (fun t : ℝ => ((), t)) (𝓝 0) (𝓝 ((), 0)) := (Continuous.prodMk_right ()).tendsto 0
  have hf : ∀ᶠ t in 𝓝 (0 : ℝ), HasDerivAt A (A' ((), t)) t := by
    filter_upwards [hs.eventually h2] with t ht
    have h7 : HasDerivAt (fun s : ℝ => A (t + s)) (A' ((), t)) 0 := ht
    have h8 : HasDerivAt (fun s : ℝ => A (t + s)) (A' ((), t)) (t - t) := by rwa [sub_self]
    have h9 := h8.comp_sub_const t t
    simpa using h9
  have h1 : A' ((), 0) = 0 := h4.2.symm.trans hd.e2
  have h7 : HasDerivAt (fun t => A' ((), t)) (2 * b) 0 := by
    have e : A'' () = 2 * b := h6.2.symm.trans hd.e12
    rw [← e]
    exact h5.self_of_nhds
  have := second_order_limit hf h0 h1 h7
  rwa [mul_div_cancel_left₀ _ two_ne_zero] at this

section records
variable {pr : Fin n → PureRecord ℝ} {k : Fin n → Fin n → ℝ} {T : ℝ} {x : Fin n → ℝ}

theorem virial_diameter_pos (hr : PositiveRecords pr) (hT : 0 < T) (i : Fin n) : 0 < hsDiameter (fromRecords pr k) T i := by
  rw [hsDiameter_real]
  have := exp_le_one_of (hr.epsilon i).le hT
  have h1 : 0 < (fromRecords pr k).sigma i := hr.sigma i
  have h2 : (fromRecords pr k).epsilon_k i = (pr i).model_record.epsilon_k := rfl
  rw [h2]
  refine mul_pos h1 ?_
  nlinarith

theorem sum_pos_of_composition {f : Fin n → ℝ} (hf : ∀ i, 0 < f i) (h0 : ∀ i, 0 ≤ x i) (hx : ∑ i, x i = 1) :
    0 < ∑ i, x i * f i := by
  obtain ⟨i, hi⟩ : ∃ i, x i ≠ 0 := by
    by_contra hc
    push Not at hc
    simp [hc] at hx
  exact Finset.sum_pos' (fun j _ => mul_nonneg (h0 j) (hf j).le)
    ⟨i, Finset.mem_univ _, mul_pos (lt_of_le_of_ne (h0 i) hi.symm) (hf i)⟩

variable (hr : PositiveRecords pr) (hk : ∀ i, 0 ≤ (fromRecords pr k).kappa_ab i) (hT : 0 < T) (h0 : ∀ i, 0 ≤ x i)
  (hx : ∑ i, x i = 1)

/-- a contribution without special treatment of zero density -/
theorem virialTerm_of {la : LinAlg ℝ ℝ} {laX : LinAlg XReal XDual2} {p : PcSaftParameters n ℝ}
    {px : PcSaftParameters n XReal} {ct : Contribution ℝ} {A : ℝ → ℝ} {d : Dual2} {e : XDual2} {b : ℝ}
    (hx : ∑ i, x i = 1)
    (hA : ∀ t, ct.helmholtzEnergy la p (StateHD.newVirial T t x) = .ok (A t))
    (hX : (ct.map XReal.fin).helmholtzEnergy laX px (virialStateX T x) = .ok e)
    (hd : rho2.R (fun y => A (y.1.2 + y.2)) d) (he : rhoX2.R (fun y => A (y.1.2 + y.2)) e) (hb : Second (2 * b) d) :
    VirialTerm la laX p px T x ct b := by
  refine ⟨⟨e, hX, VirialCoefficient.of hb (lift2_of hd he)⟩, A, ?_, limit_of_rep hd hb⟩
  filter_upwards [self_mem_nhdsWithin] with t (ht : t ≠ 0)
  rw [← newVirial_eq T hx ht]
  exact hA t

/-- a polar contribution -/
theorem virialTerm_polar {la : LinAlg ℝ ℝ} {laX : LinAlg XReal XDual2} {p : PcSaftParameters n ℝ}
    {px : PcSaftParameters n XReal} {ct : Contribution ℝ} {e : XDual2} {b : ℝ} {A : ℝ → ℝ}
    (hX : (ct.map XReal.fin).helmholtzEnergy laX px (virialStateX T x) = .ok e) (he : VirialCoefficient b e)
    (hA : ∀ t, ct.helmholtzEnergy la p (StateHD.new T 1 (fun i => x i * t)) = .ok (A t))
    (hl : Tendsto (fun t => A t / t ^ 2) (𝓝[≠] 0) (𝓝 b)) : VirialTerm la laX p px T x ct b :=
  ⟨⟨e, hX, he⟩, A, .of_forall hA, hl⟩

include hr hk hT hx in
/-- the bonds of one associating component -/
theorem virialTerm_association (la : LinAlg ℝ ℝ) (laX : LinAlg XReal XDual2) {a : Fin n}
    (hl : (fromRecords pr k).assoc_comp = [a]) (hna : 0 < (fromRecords pr k).na a) (hnb : 0 < (fromRecords pr k).nb a) :
    VirialTerm la laX (fromRecords pr k) (xParameters pr k) T x .association
      (-(x a ^ 2 * ((fromRecords pr k).na a * (fromRecords pr k).nb a * strengthZero (fromRecords pr k) T a))) := by
  have hp := ParamRel.refl (fromRecords pr k)
  have hpX := xParameters_rel' hr hk
  have hs := virialState_rel T x
  have hsX := virialStateX_rel T x
  have hdp := fun i => virial_diameter_pos (k := k) hr hT i
  have he := virialState_eta (fromRecords pr k) T x
  have hz : stateDeltaRho (fromRecords pr k) (StateHD.newVirial T (0 + 0) x) a = 0 := by
    simp [stateDeltaRho, StateHD.newVirial]
  have h1 : stateEta (fromRecords pr k) (StateHD.newVirial T (0 + 0) x) ≠ 1 := by rw [he]; norm_num
  have hap : Apart (((), (0 : ℝ)), (0 : ℝ)) (stateDeltaRho (fromRecords pr k) (StateHD.newVirial T (0 + 0) x) a)
      (Real.sqrt f64EPSILON) := Or.inl (by rw [hz]; exact sqrtEps_pos.ne)
  have g1 : 0 < assocSiteFracAB (stateDeltaRho (fromRecords pr k) (StateHD.newVirial T (0 + 0) x) a)
      ((fromRecords pr k).na a) ((fromRecords pr k).nb a) := by
    rw [hz, (frac_zero _ _).1]
    exact one_pos
  have g2 : 0 < (assocSiteFracAB (stateDeltaRho (fromRecords pr k) (StateHD.newVirial T (0 + 0) x) a)
      ((fromRecords pr k).na a) ((fromRecords pr k).nb a) - 1)
      * ((fromRecords pr k).na a / (fromRecords pr k).nb a) + 1 := by
    rw [hz, (frac_zero _ _).1]
    norm_num
  obtain ⟨A, d, a1, a2, a3⟩ := rep_association lawfulEmb_id hp hs hT.ne' h1 a [] hl (hdp a).ne' hna hap (fun _ => g1)
    (fun _ => g2) (fun hh => absurd hnb (not_lt.mpr hh))
  obtain ⟨A', d', a1', a2', a3'⟩ := rep_association XReal.lawfulEmb hpX hsX hT.ne' h1 a [] hl (hdp a).ne' hna hap
    (fun _ => g1) (fun _ => g2) (fun hh => absurd hnb (not_lt.mpr hh))
  obtain ⟨d2, b1, b2⟩ := C33_single_component (fromRecords pr k) hT.ne' x a [] hl (hdp a).ne' hnb
  have ed : d = d2 := Except.ok.inj (a2.symm.trans b1)
  obtain ⟨B, hB⟩ : ∃ B : ℝ → ℝ, ∀ t, association (fromRecords pr k) (StateHD.newVirial T t x) = .ok (B t) := by
    refine ⟨fun t => A (((), t), 0), fun t => ?_⟩
    have := a1 (((), t), 0)
    simpa using this
  have eA : A = fun y => B (y.1.2 + y.2) := funext fun y => Except.ok.inj ((a1 y).symm.trans (hB _))
  have eA' : A' = fun y => B (y.1.2 + y.2) := funext fun y => Except.ok.inj ((a1' y).symm.trans (hB _))
  rw [eA, ed] at a3
  rw [eA'] at a3'
  exact virialTerm_of hx hB a2' a3 a3' b2

include hr hk hT h0 hx in
/-- every contribution has a second virial coefficient, the one of its energy at low density -/
theorem virialTerm (la : LinAlg ℝ ℝ) (laX : LinAlg XReal XDual2) (ct : Contribution ℝ)
    (hd : DiluteRegular (fromRecords pr k) T x ct) (hnb : ∀ a ∈ (fromRecords pr k).assoc_comp, 0 < (fromRecords pr k).nb a) :
    ∃ b, VirialTerm la laX (fromRecords pr k) (xParameters pr k) T x ct b := by
  have hp := ParamRel.refl (fromRecords pr k)
  have hpX := xParameters_rel' hr hk
  have hs := virialState_rel T x
  have hsX := virialStateX_rel T x
  have hdp := fun i => virial_diameter_pos (k := k) hr hT i
  have hmm : meanSegment (fromRecords pr k) (StateHD.newVirial T (0 + 0) x) ≠ 0 :=
    (sum_pos_of_composition (f := (fromRecords pr k).m) hr.m h0 hx).ne'
  have h23 : 0 < ∑ i, x i * hsDiameter (fromRecords pr k) T i ^ 3 * (fromRecords pr k).m i := by
    have := sum_pos_of_composition (f := fun i => hsDiameter (fromRecords pr k) T i ^ 3 * (fromRecords pr k).m i)
      (fun i => mul_pos (pow_pos (hdp i) 3) (hr.m i)) h0 hx
    simpa only [mul_assoc] using this
  have he := virialState_eta (fromRecords pr k) T x
  cases ct with
  | hardSphere =>
    have hz : zeta (fromRecords pr k).m (StateHD.newVirial T (0 + 0) x).partial_density
        (hsDiameter (fromRecords pr k) (StateHD.newVirial T (0 + 0) x).temperature) 3 < 1 := by
      rw [zeta_virial_zero]
      exact one_pos
    have h3 : avgDiameter (fromRecords pr k) T x 3 ≠ 0 := by
      have e : avgDiameter (fromRecords pr k) T x 3
          = ∑ i, x i * hsDiameter (fromRecords pr k) T i ^ 3 * (fromRecords pr k).m i := by
        simp only [avgDiameter, hsDiameter_eq_spec]
        exact Finset.sum_congr rfl fun i _ => by ring
      rw [e]
      exact h23.ne'
    exact ⟨_, virialTerm_of (A := fun t => hardSphere (fromRecords pr k) (StateHD.newVirial T t x)) hx (fun _ => rfl) rfl
      (rep_hardSphere lawfulEmb_id hp hs hT.ne' hz h23.ne') (rep_hardSphere XReal.lawfulEmb hpX hsX hT.ne' hz h23.ne')
      (C63_hard_sphere _ hT.ne' x h3)⟩
  | hardChain =>
    have hz : zeta (fromRecords pr k).m (StateHD.newVirial T (0 + 0) x).partial_density
        (hsDiameter (fromRecords pr k) (StateHD.newVirial T (0 + 0) x).temperature) 3 ≠ 1 := by
      rw [zeta_virial_zero]
      exact zero_ne_one
    have hg : ∀ i, 0 < gHs (zeta (fromRecords pr k).m (StateHD.newVirial T (0 + 0) x).partial_density
          (hsDiameter (fromRecords pr k) (StateHD.newVirial T (0 + 0) x).temperature) 2)
        (zeta (fromRecords pr k).m (StateHD.newVirial T (0 + 0) x).partial_density
          (hsDiameter (fromRecords pr k) (StateHD.newVirial T (0 + 0) x).temperature) 3)
        (hsDiameter (fromRecords pr k) (StateHD.newVirial T (0 + 0) x).temperature i) := by
      intro i
      rw [zeta_virial_zero, zeta_virial_zero, gHs_real _ _ _ zero_ne_one, gForm]
      norm_num
    exact ⟨_, virialTerm_of (A := fun t => hardChain (fromRecords pr k) (StateHD.newVirial T t x)) hx (fun _ => rfl) rfl
      (rep_hardChain lawfulEmb_id hp hs hT.ne' hz hg) (rep_hardChain XReal.lawfulEmb hpX hsX hT.ne' hz hg)
      (C63_hard_chain _ hT.ne' x)⟩
  | dispersion =>
    have h1 : stateEta (fromRecords pr k) (StateHD.newVirial T (0 + 0) x) ≠ 1 := by rw [he]; norm_num
    have h2 : stateEta (fromRecords pr k) (StateHD.newVirial T (0 + 0) x) ≠ 2 := by rw [he]; norm_num
    have h3 : meanSegment (fromRecords pr k) (StateHD.newVirial T (0 + 0) x)
          * (stateEta (fromRecords pr k) (StateHD.newVirial T (0 + 0) x) * 8
            - stateEta (fromRecords pr k) (StateHD.newVirial T (0 + 0) x) ^ 2 * 2)
          / (stateEta (fromRecords pr k) (StateHD.newVirial T (0 + 0) x) - 1) ^ 4
        + (1 - meanSegment (fromRecords pr k) (StateHD.newVirial T (0 + 0) x))
          * (stateEta (fromRecords pr k) (StateHD.newVirial T (0 + 0) x) * 20
            - stateEta (fromRecords pr k) (StateHD.newVirial T (0 + 0) x) ^ 2 * 27
            + stateEta (fromRecords pr k) (StateHD.newVirial T (0 + 0) x) ^ 3 * 12
            - stateEta (fromRecords pr k) (StateHD.newVirial T (0 + 0) x) ^ 4 * 2)
          / ((stateEta (fromRecords pr k) (StateHD.newVirial T (0 + 0) x) - 1)
            * (stateEta (fromRecords pr k) (StateHD.newVirial T (0 + 0) x) - 2)) ^ 2 + 1 ≠ 0 := by
      rw [he]
      norm_num
    exact ⟨_, virialTerm_of (A := fun t => dispersion (fromRecords pr k) (StateHD.newVirial T t x)) hx (fun _ => rfl) rfl
      (rep_dispersion lawfulEmb_id hp hs hT.ne' hmm h1 h2 h3) (rep_dispersion XReal.lawfulEmb hpX hsX hT.ne' hmm h1 h2 h3)
      (C63_dispersion _ hT.ne' x)⟩
  | dipole =>
    have hb := dipole_virial hr hk hT x
    exact ⟨_, virialTerm_polar rfl hb (fun _ => rfl) (C63_dipole_limit hr hk hT x _ hb
      (mul_ne_zero hd Real.pi_ne_zero))⟩
  | quadrupole =>
    have hb := quadrupole_virial hr hk hT x
    exact ⟨_, virialTerm_polar rfl hb (fun _ => rfl) (C63_quadrupole_limit hr hk hT x _ hb
      (mul_ne_zero hd (mul_ne_zero Real.pi_ne_zero (by norm_num))))⟩
  | dipoleQuadrupole v =>
    have hb := dipoleQuadrupole_virial v hr hk hT x
    exact ⟨_, virialTerm_polar rfl hb (fun _ => rfl) (C63_dipole_quadrupole_limit v hr hk hT x _ hb
      (mul_ne_zero hd (mul_ne_zero Real.pi_ne_zero (by norm_num))))⟩
  | association =>
    obtain ⟨a, hl, hna⟩ := hd
    exact ⟨_, virialTerm_association hr hk hT hx la laX hl hna (hnb a (by rw [hl]; exact List.mem_singleton.2 rfl))⟩
  | crossAssociation it tol =>
    refine ⟨0, ⟨c (0.0 : XReal) * (virialStateX T x).volume, ?_, ?_⟩, fun _ => 0, ?_, ?_⟩
    · have hre : DualNum.re (sumFin (virialStateX T x).partial_density) = XReal.fin 0 := by
        have h1 := rhoX2.re (rhoX2.sumFin XReal.lawfulEmb hsX.partial_density)
        have h2 : sumFin (StateHD.newVirial T (0 + 0) x).partial_density = 0 := by
          simp [sumFin_real, StateHD.newVirial]
        simp only [h2] at h1
        exact h1
      have hlt : F64.lt (DualNum.re (sumFin (virialStateX T x).partial_density)) (f64EPSILON : XReal) = true := by
        rw [hre]
        have e : (f64EPSILON : XReal) = XReal.fin f64EPSILON := CR.sci XReal.lawfulEmb _ _ _
        rw [e]
        change decide ((0 : ℝ) < f64EPSILON) = true
        rw [decide_eq_true_eq]
        norm_num [f64EPSILON]
      simp only [Contribution.map, Contribution.helmholtzEnergy, crossAssociation, crossAssociationDensity, hlt, if_true]
    · have hsec : Second (2 * 0) (c (0.0 : ℝ) * (virialState T x).volume) := by
        rw [mul_zero]
        simpa using second_zero.mul_val _
      exact VirialCoefficient.of hsec (lift2_of
        (rho2.mul (rho2.const (0.0 : ℝ)) hs.volume)
        (rhoX2.mul (rhoX2.constOf (CR.sci XReal.lawfulEmb _ _ _)) hsX.volume))
    · have hc : Tendsto (fun t : ℝ => ∑ i, x i * t / 1) (𝓝 0) (𝓝 0) := by
        have : Continuous fun t : ℝ => ∑ i, x i * t / 1 := by fun_prop
        simpa using this.tendsto 0
      have hev := hc.eventually (gt_mem_nhds (show (0 : ℝ) < f64EPSILON by norm_num [f64EPSILON]))
      filter_upwards [hev.filter_mono nhdsWithin_le_nhds] with t ht
      have e0 : (0.0 : ℝ) = 0 := by norm_num
      have h1 : F64.lt (DualNum.re (sumFin (StateHD.new T 1 (fun i => x i * t)).partial_density)) (f64EPSILON : ℝ) = true := by
        simp only [sumFin_real, re_real, lt_real, decide_eq_true_eq, StateHD.new_density]
        exact ht
      simp only [Contribution.helmholtzEnergy, crossAssociation, crossAssociationDensity, h1, if_true, c, ofF_real, e0,
        zero_mul]
    · simp

/-- the sum over a list of contributions -/
theorem virial_sum {la : LinAlg ℝ ℝ} {laX : LinAlg XReal XDual2} {p : PcSaftParameters n ℝ}
    {px : PcSaftParameters n XReal} (cts : List (Contribution ℝ)) (h : ∀ ct ∈ cts, ∃ b, VirialTerm la laX p px T x ct b)
    (b0 : ℝ) (d0 : XDual2) (E0 : ℝ → ℝ) (h1 : VirialCoefficient b0 d0)
    (h2 : Tendsto (fun t => E0 t / t ^ 2) (𝓝[≠] 0) (𝓝 b0)) :
    ∃ (b : ℝ) (d : XDual2) (E : ℝ → ℝ),
      (cts.map (Contribution.map XReal.fin)).foldlM (fun acc ct =>
        match ct.helmholtzEnergy laX px (virialStateX T x) with
        | .error err => .error err
        | .ok a => .ok (acc + a)) d0 = (.ok d : Except Panic XDual2)
      ∧ VirialCoefficient b d
      ∧ (∀ᶠ t in 𝓝[≠] (0 : ℝ), cts.foldlM (fun acc ct =>
        match ct.helmholtzEnergy la p (StateHD.new T 1 (fun i => x i * t)) with
        | .error err => .error err
        | .ok a => .ok (acc + a)) (E0 t) = (.ok (E t) : Except Panic ℝ))
      ∧ Tendsto (fun t => E t / t ^ 2) (𝓝[≠] 0) (𝓝 b) := by
  induction cts generalizing b0 d0 E0 with
  | nil => exact ⟨b0, d0, E0, rfl, h1, .of_forall fun _ => rfl, h2⟩
  | cons ct cts ih =>
    obtain ⟨b', ⟨d', g1, g2⟩, E', g3, g4⟩ := h ct (by simp)
    obtain ⟨b, d, E, i1, i2, i3, i4⟩ := ih (fun ct' h' => h ct' (by simp [h'])) (b0 + b') (d0 + d')
      (fun t => E0 t + E' t) (h1.add g2) ((h2.add g4).congr fun t => by ring)
    refine ⟨b, d, E, ?_, i2, ?_, i4⟩
    · rw [List.map_cons, List.foldlM_cons, g1]
      exact i1
    · filter_upwards [i3, g3] with t j1 j2
      rw [List.foldlM_cons, j2]
      exact j1

theorem buildContributions_fin (hp : ParamRel XReal.IsFin (fromRecords pr k) (xParameters pr k)) (o : PcSaftOptions ℝ) :
    buildContributions (xParameters pr k) (o.map XReal.fin)
      = (buildContributions (fromRecords pr k) o).map (Contribution.map XReal.fin) := by
  have e1 : (xParameters pr k).ndipole = (fromRecords pr k).ndipole := by
    simp only [PcSaftParameters.ndipole, hp.dipole_comp]
  have e2 : (xParameters pr k).nquadpole = (fromRecords pr k).nquadpole := by
    simp only [PcSaftParameters.nquadpole, hp.quadpole_comp]
  have e3 : (xParameters pr k).nassoc = (fromRecords pr k).nassoc := by
    simp only [PcSaftParameters.nassoc, hp.assoc_comp]
  unfold buildContributions
  rw [e1, e2, e3]
  simp only [List.map_append]
  congr 1
  · congr 1
    · congr 1
      · congr 1
        split_ifs <;> rfl
      · split_ifs <;> rfl
    · split_ifs <;> rfl
  · generalize (fromRecords pr k).nassoc = na
    match na with
    | 0 => rfl
    | 1 => rfl
    | (_ + 2) => rfl

include hr hk hT h0 hx in
/-- the code returns a finite second virial coefficient, and it is the one of the energy at low density -/
theorem virial_total (la : LinAlg ℝ ℝ) (laX : LinAlg XReal XDual2) (o : PcSaftOptions ℝ)
    (hd : ∀ ct ∈ buildContributions (fromRecords pr k) o, DiluteRegular (fromRecords pr k) T x ct)
    (hnb : ∀ a ∈ (fromRecords pr k).assoc_comp, 0 < (fromRecords pr k).nb a) :
    ∃ b, IsSecondVirial pr k o laX T x b ∧ ∃ E : ℝ → ℝ, (∀ᶠ t in 𝓝[≠] (0 : ℝ),
        (Eos.withOptions (fromRecords pr k) o).residualHelmholtz la (StateHD.new T 1 (fun i => x i * t)) = .ok (E t))
      ∧ Tendsto (fun t => E t / t ^ 2) (𝓝[≠] 0) (𝓝 b) := by
  obtain ⟨b, d, E, h1, h2, h3, h4⟩ := virial_sum (la := la) (laX := laX) (p := fromRecords pr k)
    (px := xParameters pr k) (T := T) (x := x) (buildContributions (fromRecords pr k) o)
    (fun ct hct => virialTerm hr hk hT h0 hx la laX ct (hd ct hct) hnb) 0 (c (0.0 : XReal)) (fun _ => c (0.0 : ℝ))
    virial_zero (by norm_num [c])
  refine ⟨b, ⟨d, ?_, h2⟩, E, ?_, h4⟩
  · rw [← buildContributions_fin (xParameters_rel' hr hk) o] at h1
    rw [← h1]
    exact congrArg (fun f => List.foldlM f _ _) (by
      funext acc ct
      simp only [Eos.withOptions]
      cases ct.helmholtzEnergy laX (xParameters pr k) (virialStateX T x) <;> rfl)
  · filter_upwards [h3] with t ht
    rw [← ht]
    exact congrArg (fun f => List.foldlM f _ _) (by
      funext acc ct
      simp only [Eos.withOptions]
      cases ct.helmholtzEnergy la (fromRecords pr k) (StateHD.new T 1 (fun i => x i * t)) <;> rfl)

/-- the condition on polar contributions depends on the composition only -/
theorem diluteRegular_composition (hr : PositiveRecords pr) {N : Fin n → ℝ} (hN : ∑ i, N i ≠ 0) (ct : Contribution ℝ)
    (h : DiluteRegular (fromRecords pr k) T N ct) :
    DiluteRegular (fromRecords pr k) T (fun i => N i / ∑ j, N j) ct := by
  have e : (fun i => N i / ∑ j, N j) = fun i => N i * (∑ j, N j)⁻¹ := funext fun i => div_eq_mul_inv _ _
  have hi : (∑ j, N j)⁻¹ ^ 2 ≠ 0 := pow_ne_zero 2 (inv_ne_zero hN)
  cases ct with
  | dipole =>
    change dipolePhi2 _ _ _ _ ≠ 0
    rw [e, dipole_scale2 hr.m]
    exact mul_ne_zero hi h
  | quadrupole =>
    change quadrupolePhi2 _ _ _ _ ≠ 0
    rw [e, quadrupole_scale2 hr.m]
    exact mul_ne_zero hi h
  | dipoleQuadrupole v =>
    change dipoleQuadrupolePhi2 _ _ _ _ _ ≠ 0
    rw [e, dipoleQuadrupole_scale2 v hr.m]
    exact mul_ne_zero hi h
  | hardSphere => trivial
  | hardChain => trivial
  | dispersion => trivial
  | association => exact h
  | crossAssociation _ _ => trivial

/-- C97: the evaluation at zero density succeeds with finite numbers, and the coefficient it gives is the slope of the
compressibility factor: at large volumes the pressure of the code follows `P V / N = 1 + b N / V`.  This holds with all
contributions: chains, dispersion, dipoles, quadrupoles and association. -/
theorem C97_slope (hr : PositiveRecords pr) (hk : ∀ i, 0 ≤ (fromRecords pr k).kappa_ab i) {V₁ : ℝ} {N : Fin n → ℝ}
    (h : Admissible (fromRecords pr k) T V₁ N) (o : PcSaftOptions ℝ)
    (hd : ∀ ct ∈ buildContributions (fromRecords pr k) o, DiluteRegular (fromRecords pr k) T N ct)
    (hnb : ∀ a ∈ (fromRecords pr k).assoc_comp, 0 < (fromRecords pr k).nb a) (laX : LinAlg XReal XDual2)
    (laD : LinAlg ℝ (Dual ℝ)) :
    ∃ b, IsSecondVirial pr k o laX T (fun i => N i / ∑ j, N j) b ∧ ∀ ε, 0 < ε → ∃ V₀, ∀ V, V₀ ≤ V → ∃ P,
      IsPressure (fromRecords pr k) o laD T V N P
      ∧ |(P * V / (∑ i, N i) - 1) * (V / ∑ i, N i) - b| ≤ ε := by
  have hN := h.total_pos
  set ν := ∑ i, N i with hν
  have hx : ∑ i, N i / ν = 1 := by rw [← Finset.sum_div, ← hν, div_self hN.ne']
  have h0 : ∀ i, 0 ≤ N i / ν := fun i => div_nonneg (h.moles_nonneg i) hN.le
  let la : LinAlg ℝ ℝ := ⟨fun _ _ _ => none, fun _ _ _ => none, 0⟩
  obtain ⟨b, hb, E, hE, hlim⟩ := virial_total hr hk h.temperature h0 hx la laX o
    (fun ct hct => diluteRegular_composition hr hN.ne' ct (hd ct hct)) hnb
  obtain ⟨F, hF, hev⟩ := dilute_residual la laD h o hd (fun _ => 0) (fun V => 1 / V) (fun _ => 0)
  obtain ⟨s, hs1, hs2⟩ := hF.second
  have hu : ∀ a : ℝ, 0 < a → Tendsto (fun V : ℝ => a / V) atTop (𝓝[≠] 0) := fun a ha =>
    tendsto_nhdsWithin_iff.2 ⟨tendsto_const_nhds.div_atTop tendsto_id, (eventually_gt_atTop 0).mono fun V hV =>
      (div_pos ha hV).ne'⟩
  have hFE : ∀ᶠ V : ℝ in atTop, F (1 / V, (T, N)) = E (ν / V) := by
    filter_upwards [hev, (hu ν hN).eventually hE, eventually_gt_atTop 0] with V h1 h2 hV
    have e1 : StateHD.new T V N = StateHD.new T (V * 1) (fun i => V * (N i / ν * (ν / V))) := by
      rw [mul_one]
      congr 1
      funext i
      field_simp
    have h3 := h1.1
    rw [e1, C14_residual_extensive la _ T 1 _ V hV, h2] at h3
    have h4 : V * E (ν / V) = V * F (1 / V, (T, N)) := Except.ok.inj h3
    exact (mul_left_cancel₀ hV.ne' h4).symm
  have t1 : Tendsto (fun V : ℝ => V ^ 2 * F (1 / V, (T, N))) atTop (𝓝 (s / 2)) := by
    refine (hs1.comp (hu 1 one_pos)).congr' ?_
    filter_upwards [eventually_gt_atTop 0] with V hV
    simp only [Function.comp_apply]
    field_simp
  have t2 : Tendsto (fun V : ℝ => V ^ 2 * F (1 / V, (T, N))) atTop (𝓝 (ν ^ 2 * b)) := by
    refine ((hlim.comp (hu ν hN)).const_mul (ν ^ 2)).congr' ?_
    filter_upwards [eventually_gt_atTop 0, hFE] with V hV e
    simp only [Function.comp_apply]
    rw [e]
    field_simp
  have es := tendsto_nhds_unique t1 t2
  refine ⟨b, hb, fun ε hε => ?_⟩
  have t3 : Tendsto (fun V : ℝ => -(V ^ 2 * F (1 / V, (T, N)) - V * fderiv ℝ F (1 / V, (T, N)) (1, 0)) / ν ^ 2) atTop
      (𝓝 b) := by
    have := ((t1.sub hs2).neg).div_const (ν ^ 2)
    have e : -(s / 2 - s) / ν ^ 2 = b := by
      have : -(s / 2 - s) = ν ^ 2 * b := by rw [← es]; ring
      rw [this, mul_div_cancel_left₀ _ (pow_ne_zero 2 hN.ne')]
    rwa [e] at this
  obtain ⟨V₀, hV₀⟩ := eventually_atTop.1
    (hev.and ((t3.eventually (Metric.closedBall_mem_nhds b hε)).and (eventually_gt_atTop 0)))
  refine ⟨V₀, fun V hV => ?_⟩
  obtain ⟨⟨-, g1⟩, g2, g3⟩ := hV₀ V hV
  have e : V * (1 / V) = 1 := mul_one_div_cancel g3.ne'
  rw [seededState, e] at g1
  refine ⟨_, ⟨_, g1, rfl⟩, ?_⟩
  have e2 : fderiv ℝ F (1 / V, (T, N)) (0, ((0 : ℝ), (0 : Fin n → ℝ))) = 0 :=
    (fderiv ℝ F (1 / V, (T, N))).map_zero
  change dist _ _ ≤ _ at g2
  rw [Real.dist_eq] at g2
  convert g2 using 3
  unfold diluteSlope
  rw [e2, ← hν]
  field_simp
  ring

/-- C97, the sign: with a negative coefficient a dilute gas has less pressure than the ideal gas, with a positive one
more. -/
theorem C97_sign (hr : PositiveRecords pr) (hk : ∀ i, 0 ≤ (fromRecords pr k).kappa_ab i) {V₁ : ℝ} {N : Fin n → ℝ}
    (h : Admissible (fromRecords pr k) T V₁ N) (o : PcSaftOptions ℝ)
    (hd : ∀ ct ∈ buildContributions (fromRecords pr k) o, DiluteRegular (fromRecords pr k) T N ct)
    (hnb : ∀ a ∈ (fromRecords pr k).assoc_comp, 0 < (fromRecords pr k).nb a) (laX : LinAlg XReal XDual2)
    (laD : LinAlg ℝ (Dual ℝ)) {b : ℝ} (hb : IsSecondVirial pr k o laX T (fun i => N i / ∑ j, N j) b) :
    (b < 0 → ∃ V₀, ∀ V, V₀ ≤ V → ∀ P, IsPressure (fromRecords pr k) o laD T V N P → P * V < ∑ i, N i)
    ∧ (0 < b → ∃ V₀, ∀ V, V₀ ≤ V → ∀ P, IsPressure (fromRecords pr k) o laD T V N P → ∑ i, N i < P * V) := by
  obtain ⟨b', hb', hlim⟩ := C97_slope hr hk h o hd hnb laX laD
  have e : b = b' := by
    obtain ⟨d, h1, h2⟩ := hb
    obtain ⟨d', h1', h2'⟩ := hb'
    have ed : d = d' := Except.ok.inj (h1.symm.trans h1')
    exact h2.unique (ed ▸ h2')
  subst e
  have hN := h.total_pos
  have huni : ∀ V P Q, IsPressure (fromRecords pr k) o laD T V N P → IsPressure (fromRecords pr k) o laD T V N Q → P = Q := by
    rintro V P Q ⟨d, h1, rfl⟩ ⟨d', h1', rfl⟩
    rw [Except.ok.inj (h1.symm.trans h1')]
  constructor
  · intro hneg
    obtain ⟨V₀, hV₀⟩ := hlim (-b / 2) (by linarith)
    refine ⟨max V₀ 1, fun V hV P hP => ?_⟩
    have hV1 : 0 < V := lt_of_lt_of_le one_pos ((le_max_right _ _).trans hV)
    obtain ⟨Q, hQ, hle⟩ := hV₀ V ((le_max_left _ _).trans hV)
    rw [huni V P Q hP hQ]
    have h1 := (abs_le.1 hle).2
    have h2 : (Q * V / (∑ i, N i) - 1) * (V / ∑ i, N i) < 0 := by linarith
    have h3 : 0 < V / ∑ i, N i := div_pos hV1 hN
    have h4 : Q * V / (∑ i, N i) - 1 < 0 := by
      by_contra hc
      exact absurd h2 (not_lt.2 (mul_nonneg (not_lt.1 hc) h3.le))
    have h5 : Q * V / (∑ i, N i) < 1 := by linarith
    rwa [div_lt_one hN] at h5
  · intro hpos
    obtain ⟨V₀, hV₀⟩ := hlim (b / 2) (by linarith)
    refine ⟨max V₀ 1, fun V hV P hP => ?_⟩
    have hV1 : 0 < V := lt_of_lt_of_le one_pos ((le_max_right _ _).trans hV)
    obtain ⟨Q, hQ, hle⟩ := hV₀ V ((le_max_left _ _).trans hV)
    rw [huni V P Q hP hQ]
    have h1 := (abs_le.1 hle).1
    have h2 : 0 < (Q * V / (∑ i, N i) - 1) * (V / ∑ i, N i) := by linarith
    have h3 : 0 < V / ∑ i, N i := div_pos hV1 hN
    have h4 : 0 < Q * V / (∑ i, N i) - 1 := pos_of_mul_pos_left h2 h3.le
    have h5 : 1 < Q * V / (∑ i, N i) := by linarith
    rwa [one_lt_div hN] at h5

end records

/-! ## Cases that meet the hypotheses -/

/-- a sphere with a dipole and a quadrupole -/
example (laX : LinAlg XReal XDual2) (laD : LinAlg ℝ (Dual ℝ)) :=
  have hnb : ∀ a ∈ (fromRecords polarSphere (fun _ _ => 0)).assoc_comp,
      0 < (fromRecords polarSphere (fun _ _ => 0)).nb a := fun a ha =>
    absurd (by norm_num [fromRecords, polarSphere]) ((mem_assoc_comp polarSphere (fun _ _ => 0) a).1 ha)
  C97_slope polarSphere_positive polarSphere_kappa polarSphere_admissible PcSaftOptions.default (polarSphere_dilute _)
    hnb laX laD

/-- a mixture with one associating component -/
example (laX : LinAlg XReal XDual2) (laD : LinAlg ℝ (Dual ℝ)) :=
  have hr : PositiveRecords assocRecords := ⟨fun i => (assocRecords_positive i).1, fun i => (assocRecords_positive i).2.1,
    fun i => (assocRecords_positive i).2.2⟩
  have hnb : ∀ a ∈ (fromRecords assocRecords (fun _ _ => 0)).assoc_comp,
      0 < (fromRecords assocRecords (fun _ _ => 0)).nb a := by
    rw [assocRecords_comp]
    intro a ha
    rw [List.mem_singleton.1 ha]
    norm_num [fromRecords, assocRecords]
  C97_slope hr assocRecords_kappa assocRecords_admissible PcSaftOptions.default (assocRecords_dilute _) hnb laX laD

/-- two associating components -/
example (laX : LinAlg XReal XDual2) (laD : LinAlg ℝ (Dual ℝ)) {K : ℝ} (hK : 0 < K) :=
  have hr : PositiveRecords (twinRecords K) := ⟨fun i => by norm_num [twinRecords], fun i => by norm_num [twinRecords],
    fun i => by norm_num [twinRecords]⟩
  have hk : ∀ i, 0 ≤ (fromRecords (twinRecords K) (fun _ _ => 0)).kappa_ab i := fun i => by
    simpa [fromRecords, twinRecords] using hK.le
  C97_slope hr hk (twinRecords_admissible K (fun _ _ => 0) (V := 1000) (by norm_num)) PcSaftOptions.default
    (twinRecords_dilute hK _ _ _) (fun a _ => by norm_num [fromRecords, twinRecords]) laX laD

end Props
end PcSaft
