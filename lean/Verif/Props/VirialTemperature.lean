import Verif.Props.ThirdVirial

/-!
# Property C110: temperature derivatives of virial coefficients

`feos_core` takes the temperature derivatives of the virial coefficients from an evaluation at zero density in which the
temperature is a dual number inside the dual numbers for the density.
-/

open Filter Topology

namespace PcSaft
variable {n : ℕ}

namespace Props

/-- a number that does not depend on the new variable -/
def lifted {D : Type} [DualNum XReal D] (d : D) : Dual D := ⟨d, c (XReal.fin 0)⟩

/-- a number with unit derivative with respect to the new variable -/
def seeded {D : Type} [DualNum XReal D] (d : D) : Dual D := ⟨d, c (XReal.fin 1)⟩

/-- fourth-order dual numbers with infinities and NaN -/
abbrev XDual4 := Dual XDual3

/-- the state at which the temperature derivative of the second virial coefficient is evaluated -/
noncomputable def slopeState2 (T : ℝ) (x : Fin n → ℝ) : StateHD n XDual3 :=
  StateHD.newVirial (lifted (lifted (seeded (XReal.fin T)))) (seeded (seeded (c (XReal.fin 0))))
    (fun i => c (XReal.fin (x i)))

/-- the state at which the temperature derivative of the third virial coefficient is evaluated -/
noncomputable def slopeState3 (T : ℝ) (x : Fin n → ℝ) : StateHD n XDual4 :=
  StateHD.newVirial (lifted (lifted (lifted (seeded (XReal.fin T))))) (seeded (seeded (seeded (c (XReal.fin 0)))))
    (fun i => c (XReal.fin (x i)))

end Props

/-- the second virial coefficient and its temperature derivative, as the code returns them from one evaluation -/
def Spec.IsSecondVirialSlope (pr : Fin n → PureRecord ℝ) (k : Fin n → Fin n → ℝ) (o : PcSaftOptions ℝ)
    (laX : LinAlg XReal Props.XDual3) (T : ℝ) (x : Fin n → ℝ) (b b' : ℝ) : Prop :=
  ∃ d, (Eos.withOptions (Props.xParameters pr k) (o.map XReal.fin)).residualHelmholtz laX (Props.slopeState2 T x) = .ok d
    ∧ d.eps.eps.re = .fin (2 * b) ∧ d.eps.eps.eps = .fin (2 * b')

/-- the third virial coefficient and its temperature derivative, as the code returns them from one evaluation -/
def Spec.IsThirdVirialSlope (pr : Fin n → PureRecord ℝ) (k : Fin n → Fin n → ℝ) (o : PcSaftOptions ℝ)
    (laX : LinAlg XReal Props.XDual4) (T : ℝ) (x : Fin n → ℝ) (c c' : ℝ) : Prop :=
  ∃ d, (Eos.withOptions (Props.xParameters pr k) (o.map XReal.fin)).residualHelmholtz laX (Props.slopeState3 T x) = .ok d
    ∧ d.eps.eps.eps.re = .fin (3 * c) ∧ d.eps.eps.eps.eps = .fin (3 * c')

namespace Props
open PcSaft Spec Dual2

/-! ## The branch for zero density with nested dual numbers -/

/-- the value of a number is that of an ordinary computation -/
structure ReHom (D : Type) [DualNum XReal D] : Prop where
  mul : ∀ a b : D, DualNum.re (a * b) = DualNum.re a * DualNum.re b
  sub : ∀ a b : D, DualNum.re (a - b) = DualNum.re a - DualNum.re b
  recip : ∀ a : D, DualNum.re (DualNum.recip a) = DualNum.recip (DualNum.re a)

theorem reHom_real : ReHom XReal := ⟨fun _ _ => rfl, fun _ _ => rfl, fun _ => rfl⟩

theorem ReHom.dual {D : Type} [DualNum XReal D] (h : ReHom D) : ReHom (Dual D) :=
  ⟨fun a b => h.mul a.re b.re, fun a b => h.sub a.re b.re, fun a => h.recip a.re⟩

/-- the Padé quotient of two numbers with value zero is replaced by the pair term -/
def PadeNan (D : Type) [DualNum XReal D] : Prop :=
  ∀ phi2 phi3 V : D, DualNum.re phi2 = XReal.fin 0 → DualNum.re phi3 = XReal.fin 0 → padeVolume phi2 phi3 V = phi2 * V

theorem padeNan_dual {D : Type} [DualNum XReal D] (h : ReHom D) : PadeNan (Dual D) := by
  intro phi2 phi3 V h2 h3
  have e : F64.isNan (DualNum.re (phi2 * phi2 / (phi2 - phi3) * V)) = true := by
    change XReal.isNan (DualNum.re ((phi2.re * phi2.re) * DualNum.recip (phi2.re - phi3.re) * V.re)) = true
    have h2' : DualNum.re phi2.re = XReal.fin 0 := h2
    have h3' : DualNum.re phi3.re = XReal.fin 0 := h3
    rw [h.mul, h.mul, h.mul, h.recip, h.sub, h2', h3']
    have e1 : XReal.fin 0 - XReal.fin 0 = XReal.fin 0 := by rw [← XReal.equations.sub, sub_zero]
    have e2 : XReal.fin 0 * XReal.fin 0 = XReal.fin 0 := by rw [← XReal.equations.mul, zero_mul]
    have e3 : (DualNum.recip (XReal.fin 0) : XReal) = XReal.pinf := by
      change (if (0 : ℝ) = 0 then XReal.infSign (1.0 : ℝ) else _) = _
      norm_num [XReal.infSign]
    have e4 : XReal.fin 0 * XReal.pinf = XReal.nan := by
      change XReal.infSign (0 * 1) = _
      norm_num [XReal.infSign]
    rw [e1, e2, e3, e4]
    rfl
  unfold padeVolume
  dsimp only
  rw [e]
  rfl

/-! ## The function that the evaluation at zero density differentiates -/

/-- one contribution at temperature `T` and density `t`, with the pair term in place of the Padé approximation -/
noncomputable def dilutePart (p : PcSaftParameters n ℝ) (x : Fin n → ℝ) (T t : ℝ) : Contribution ℝ → ℝ
  | .hardSphere => hardSphere p (StateHD.newVirial T t x)
  | .hardChain => hardChain p (StateHD.newVirial T t x)
  | .dispersion => dispersion p (StateHD.newVirial T t x)
  | .dipole => dipolePhi2 p T (fun i => x i * t) (stateEta p (StateHD.newVirial T t x)) * Real.pi * 1.0
  | .quadrupole =>
    quadrupolePhi2 p T (fun i => x i * t) (stateEta p (StateHD.newVirial T t x)) * (Real.pi * 0.5625) * 1.0
  | .dipoleQuadrupole v =>
    dipoleQuadrupolePhi2 v p T (fun i => x i * t) (stateEta p (StateHD.newVirial T t x)) * (Real.pi * 2.25) * 1.0
  | .association =>
    match association p (StateHD.newVirial T t x) with
    | .ok a => a
    | .error _ => 0
  | .crossAssociation _ _ => 0.0 * 1.0

section rep
variable {pr : Fin n → PureRecord ℝ} {k : Fin n → Fin n → ℝ} {x : Fin n → ℝ}
  {D X : Type} [DualNum XReal D] [TopologicalSpace X] {x0 : X} {ρ : Rep x0 XReal.IsFin D} {τ u : X → ℝ}
  {sd : StateHD n D}
variable (hr : PositiveRecords pr) (hk : ∀ i, 0 ≤ (fromRecords pr k).kappa_ab i) (h0 : ∀ i, 0 ≤ x i)
  (hx : ∑ i, x i = 1) (hnan : PadeNan D) (hs : StateRel ρ (fun y => StateHD.newVirial (τ y) (u y) x) sd)
  (hT : 0 < τ x0) (hu : u x0 = 0)

/-- the polar contributions -/
theorem rep_polar_nan (hnan : PadeNan D) {f2 f3 fV : X → ℝ} {q2 q3 V : D} (h2 : ρ.R f2 q2) (h3 : ρ.R f3 q3) (hV : ρ.R fV V)
    (z2 : f2 x0 = 0) (z3 : f3 x0 = 0) : ρ.R (fun y => f2 y * fV y) (padeVolume q2 q3 V) := by
  have r2 := ρ.re h2
  have r3 := ρ.re h3
  rw [z2] at r2
  rw [z3] at r3
  rw [hnan q2 q3 V r2 r3]
  exact ρ.mul h2 hV

include hr hk h0 hx hnan hs hT hu in
theorem rep_dilutePart (laX : LinAlg XReal D) (ct : Contribution ℝ)
    (ha : ct = .association → ∃ a, (fromRecords pr k).assoc_comp = [a] ∧ 0 < (fromRecords pr k).na a
      ∧ 0 < (fromRecords pr k).nb a) :
    ∃ e, (ct.map XReal.fin).helmholtzEnergy laX (xParameters pr k) sd = .ok e
      ∧ ρ.R (fun y => dilutePart (fromRecords pr k) x (τ y) (u y) ct) e := by
  have hpX := xParameters_rel' hr hk
  have hsij := fromRecords_sigma_ij_ne (k := k) hr
  have hsig : ∀ i, (fromRecords pr k).sigma i ≠ 0 := fun i => (hr.sigma i).ne'
  have hdp := fun i => virial_diameter_pos (k := k) hr hT i
  have hT' : (StateHD.newVirial (τ x0) (u x0) x).temperature ≠ 0 := hT.ne'
  have hmm : meanSegment (fromRecords pr k) (StateHD.newVirial (τ x0) (u x0) x) ≠ 0 :=
    (sum_pos_of_composition (f := (fromRecords pr k).m) hr.m h0 hx).ne'
  have h23 : 0 < ∑ i, x i * hsDiameter (fromRecords pr k) (τ x0) i ^ 3 * (fromRecords pr k).m i := by
    have := sum_pos_of_composition (f := fun i => hsDiameter (fromRecords pr k) (τ x0) i ^ 3 * (fromRecords pr k).m i)
      (fun i => mul_pos (pow_pos (hdp i) 3) (hr.m i)) h0 hx
    simpa only [mul_assoc] using this
  have e0 : u x0 = 0 + 0 := by rw [hu, add_zero]
  have he : stateEta (fromRecords pr k) (StateHD.newVirial (τ x0) (u x0) x) = 0 := by
    rw [e0]
    exact virialState_eta (fromRecords pr k) (τ x0) x
  have hzz : ∀ j, zeta (fromRecords pr k).m (StateHD.newVirial (τ x0) (u x0) x).partial_density
        (hsDiameter (fromRecords pr k) (StateHD.newVirial (τ x0) (u x0) x).temperature) j = 0 := by
    rw [e0]
    exact zeta_virial_zero (fromRecords pr k) (τ x0) x
  have hetaX := rep_eta XReal.lawfulEmb hpX hs hT'
  cases ct with
  | hardSphere =>
    exact ⟨_, rfl, rep_hardSphere XReal.lawfulEmb hpX hs hT' (by rw [hzz]; exact one_pos) h23.ne'⟩
  | hardChain =>
    refine ⟨_, rfl, rep_hardChain XReal.lawfulEmb hpX hs hT' (by rw [hzz]; exact zero_ne_one) fun i => ?_⟩
    rw [hzz, hzz, gHs_real _ _ _ zero_ne_one, gForm]
    norm_num
  | dispersion =>
    refine ⟨_, rfl, rep_dispersion XReal.lawfulEmb hpX hs hT' hmm (by rw [he]; norm_num) (by rw [he]; norm_num) ?_⟩
    rw [he]
    norm_num
  | dipole =>
    refine ⟨_, rfl, rep_polar_nan hnan
      (ρ.mul (rep_dipolePhi2 XReal.lawfulEmb hpX hr.m hsij hs.temperature hT' hetaX hs.partial_density)
        (ρ.constOf (CR.pi XReal.lawfulEmb)))
      (ρ.mul (rep_dipolePhi3 XReal.lawfulEmb hpX hr.m hsij hs.temperature hT' hetaX hs.partial_density)
        (ρ.constOf (CR.piSq XReal.lawfulEmb))) hs.volume ?_ ?_⟩
    · rw [hu, dipole_scale2 hr.m]
      simp
    · have : (StateHD.newVirial (τ x0) (u x0) x).partial_density = fun i => x i * 0 := by rw [hu]; rfl
      rw [this, dipole_scale3 hr.m]
      simp
  | quadrupole =>
    refine ⟨_, rfl, rep_polar_nan hnan
      (ρ.mul (rep_quadrupolePhi2 XReal.lawfulEmb hpX hr.m hsij hs.temperature hT' hetaX hs.partial_density)
        (ρ.constOf (CR.mul XReal.lawfulEmb (CR.pi XReal.lawfulEmb) (CR.sci XReal.lawfulEmb _ _ _))))
      (ρ.mul (rep_quadrupolePhi3 XReal.lawfulEmb hpX hr.m hsij hs.temperature hT' hetaX hs.partial_density)
        (ρ.constOf (CR.mul XReal.lawfulEmb (CR.mul XReal.lawfulEmb (CR.pi XReal.lawfulEmb) (CR.pi XReal.lawfulEmb))
          (CR.sci XReal.lawfulEmb _ _ _)))) hs.volume ?_ ?_⟩
    · rw [hu, quadrupole_scale2 hr.m]
      simp
    · have : (StateHD.newVirial (τ x0) (u x0) x).partial_density = fun i => x i * 0 := by rw [hu]; rfl
      rw [this, quadrupole_scale3 hr.m]
      simp
  | dipoleQuadrupole v =>
    refine ⟨_, rfl, rep_polar_nan hnan
      (ρ.mul (rep_dipoleQuadrupolePhi2 XReal.lawfulEmb hpX v hr.m hsij hsig hs.temperature hT' hetaX hs.partial_density)
        (ρ.constOf (CR.mul XReal.lawfulEmb (CR.pi XReal.lawfulEmb) (CR.sci XReal.lawfulEmb _ _ _))))
      (ρ.mul (rep_dipoleQuadrupolePhi3 XReal.lawfulEmb hpX hr.m hsij hs.temperature hT' hetaX hs.partial_density)
        (ρ.constOf (CR.mul XReal.lawfulEmb (CR.pi XReal.lawfulEmb) (CR.pi XReal.lawfulEmb)))) hs.volume ?_ ?_⟩
    · rw [hu, dipoleQuadrupole_scale2 v hr.m]
      simp
    · have : (StateHD.newVirial (τ x0) (u x0) x).partial_density = fun i => x i * 0 := by rw [hu]; rfl
      rw [this, dipoleQuadrupole_scale3 hr.m]
      simp
  | association =>
    obtain ⟨a, hl, hna, hnb⟩ := ha rfl
    have hz : stateDeltaRho (fromRecords pr k) (StateHD.newVirial (τ x0) (u x0) x) a = 0 := by
      simp [stateDeltaRho, StateHD.newVirial, hu]
    have h1 : stateEta (fromRecords pr k) (StateHD.newVirial (τ x0) (u x0) x) ≠ 1 := by rw [he]; norm_num
    have g1 : 0 < assocSiteFracAB (stateDeltaRho (fromRecords pr k) (StateHD.newVirial (τ x0) (u x0) x) a)
        ((fromRecords pr k).na a) ((fromRecords pr k).nb a) := by
      rw [hz, (frac_zero _ _).1]
      exact one_pos
    have g2 : 0 < (assocSiteFracAB (stateDeltaRho (fromRecords pr k) (StateHD.newVirial (τ x0) (u x0) x) a)
        ((fromRecords pr k).na a) ((fromRecords pr k).nb a) - 1)
        * ((fromRecords pr k).na a / (fromRecords pr k).nb a) + 1 := by
      rw [hz, (frac_zero _ _).1]
      norm_num
    obtain ⟨A, d, a1, a2, a3⟩ := rep_association XReal.lawfulEmb hpX hs hT' h1 a [] hl (hdp a).ne' hna
      (Or.inl (by rw [hz]; exact sqrtEps_pos.ne)) (fun _ => g1) (fun _ => g2) (fun hh => absurd hnb (not_lt.mpr hh))
    refine ⟨d, a2, ρ.congr a3 (.of_forall fun y => ?_)⟩
    simp only [dilutePart, a1 y]
  | crossAssociation it tol =>
    refine ⟨c (0.0 : XReal) * sd.volume, ?_, ρ.mul (ρ.constOf (CR.sci XReal.lawfulEmb _ _ _)) hs.volume⟩
    have hre : DualNum.re (sumFin sd.partial_density) = XReal.fin 0 := by
      have h1 := ρ.re (ρ.sumFin XReal.lawfulEmb hs.partial_density)
      have h2 : sumFin (StateHD.newVirial (τ x0) (u x0) x).partial_density = 0 := by
        simp [sumFin_real, StateHD.newVirial, hu]
      simp only [h2] at h1
      exact h1
    have hlt : F64.lt (DualNum.re (sumFin sd.partial_density)) (f64EPSILON : XReal) = true := by
      rw [hre]
      have e : (f64EPSILON : XReal) = XReal.fin f64EPSILON := CR.sci XReal.lawfulEmb _ _ _
      rw [e]
      change decide ((0 : ℝ) < f64EPSILON) = true
      rw [decide_eq_true_eq]
      norm_num [f64EPSILON]
    simp only [Contribution.map, Contribution.helmholtzEnergy, crossAssociation, crossAssociationDensity, hlt, if_true]

/-- the sum over the contributions -/
noncomputable def diluteSum (p : PcSaftParameters n ℝ) (o : PcSaftOptions ℝ) (x : Fin n → ℝ) (T t : ℝ) : ℝ :=
  ((buildContributions p o).map (dilutePart p x T t)).foldl (· + ·) 0.0

theorem rep_fold {px : PcSaftParameters n XReal} (laX : LinAlg XReal D) (f : Contribution ℝ → X → ℝ)
    (cts : List (Contribution ℝ)) (h : ∀ ct ∈ cts, ∃ e, (ct.map XReal.fin).helmholtzEnergy laX px sd = .ok e ∧ ρ.R (f ct) e)
    (g : X → ℝ) (d0 : D) (hd : ρ.R g d0) :
    ∃ d, (cts.map (Contribution.map XReal.fin)).foldlM (fun acc ct =>
        match ct.helmholtzEnergy laX px sd with
        | .error err => .error err
        | .ok a => .ok (acc + a)) d0 = (.ok d : Except Panic D)
      ∧ ρ.R (fun y => (cts.map fun ct => f ct y).foldl (· + ·) (g y)) d := by
  induction cts generalizing g d0 with
  | nil => exact ⟨d0, rfl, hd⟩
  | cons ct cts ih =>
    obtain ⟨e, g1, g2⟩ := h ct (by simp)
    obtain ⟨d, i1, i2⟩ := ih (fun ct' h' => h ct' (by simp [h'])) _ _ (ρ.add hd g2)
    refine ⟨d, ?_, i2⟩
    rw [List.map_cons, List.foldlM_cons, g1]
    exact i1

include hr hk h0 hx hnan hs hT hu in
/-- the evaluation at zero density with any kind of dual numbers -/
theorem rep_diluteSum (laX : LinAlg XReal D) (o : PcSaftOptions ℝ)
    (hna : ∀ a ∈ (fromRecords pr k).assoc_comp, 0 < (fromRecords pr k).na a)
    (hnb : ∀ a ∈ (fromRecords pr k).assoc_comp, 0 < (fromRecords pr k).nb a) :
    ∃ d, (Eos.withOptions (xParameters pr k) (o.map XReal.fin)).residualHelmholtz laX sd = .ok d
      ∧ ρ.R (fun y => diluteSum (fromRecords pr k) o x (τ y) (u y)) d := by
  obtain ⟨d, h1, h2⟩ := rep_fold (px := xParameters pr k) (sd := sd) laX
    (fun ct y => dilutePart (fromRecords pr k) x (τ y) (u y) ct) (buildContributions (fromRecords pr k) o)
    (fun ct hct => rep_dilutePart hr hk h0 hx hnan hs hT hu laX ct fun hct' => by
      subst hct'
      have hl : (fromRecords pr k).nassoc = 1 := by
        unfold buildContributions at hct
        generalize (fromRecords pr k).nassoc = na at hct
        rcases na with _ | _ | na
        · simp at hct
        · rfl
        · simp at hct
      obtain ⟨a, ha⟩ := List.length_eq_one_iff.1 hl
      exact ⟨a, ha, hna a (by rw [ha]; simp), hnb a (by rw [ha]; simp)⟩)
    (fun _ => 0.0) (c (0.0 : XReal)) (ρ.constOf (CR.sci XReal.lawfulEmb _ _ _))
  refine ⟨d, ?_, h2⟩
  rw [← buildContributions_fin (xParameters_rel' hr hk) o] at h1
  rw [← h1]
  exact congrArg (fun f => List.foldlM f _ _) (by
    funext acc ct
    simp only [Eos.withOptions]
    cases ct.helmholtzEnergy laX (xParameters pr k) sd <;> rfl)

end rep

/-! ## Derivatives with respect to the density, and then the temperature -/

/-- one derivative of a function of temperature and density with respect to the density -/
theorem DualR.param_step {D X : Type} [DualNum XReal D] [TopologicalSpace X] {x0 : X} {ρ : Rep x0 XReal.IsFin D}
    {A : ℝ → ℝ → ℝ} {d : Dual D} (τ S : X → ℝ) (h : DualR ρ 0 (fun y => A (τ y.1) (S y.1 + y.2)) d) :
    ρ.R (fun y => deriv (A (τ y)) (S y)) d.eps := by
  obtain ⟨_, -, A', h2, h3⟩ := h
  refine ρ.congr h3 (h2.mono fun y hy => HasDerivAt.deriv ?_ |>.symm)
  have h8 : HasDerivAt (fun s : ℝ => A (τ y) (S y + s)) (A' y) (S y - S y) := by rwa [sub_self]
  have h9 := h8.comp_sub_const (S y) (S y)
  simpa using h9

/-- the components of the evaluation for the second virial coefficient -/
theorem taylor2 {A : ℝ → ℝ} {e : XDual2} (h : rhoX2.R (fun y => A (y.1.2 + y.2)) e) :
    e.re.re = .fin (A 0) ∧ e.eps.re = .fin (deriv A 0) ∧ e.eps.eps = .fin (deriv (deriv A) 0) := by
  obtain ⟨A1, d1, k1, k2⟩ := DualR.sum_step (A := A) (ρ := rhoX1) (d := e) (fun y : Unit × ℝ => y.2)
    (by fun_prop) (by simp) (fun t => ((), t)) (by fun_prop) rfl (by simp) h
  have e1 : deriv A =ᶠ[𝓝 0] A1 := d1.mono fun t ht => ht.deriv
  obtain ⟨_, k5, A2, k6, k7⟩ := k2
  have h2 : HasDerivAt A1 (A2 ()) 0 := k6.self_of_nhds
  have e0 : e.re.re = .fin (A (0 + 0)) := rhoX2.re h
  rw [add_zero] at e0
  refine ⟨e0, ?_, ?_⟩
  · rw [e1.eq_of_nhds]
    exact rhoX.re k5
  · rw [e1.deriv_eq, h2.deriv]
    exact rhoX.re k7

/-- the components of the evaluation for the third virial coefficient -/
theorem taylor3_deriv {A : ℝ → ℝ} {e : XDual3} (h : rhoX3.R (fun y => A (y.1.1.2 + y.1.2 + y.2)) e) :
    e.re.re.re = .fin (A 0) ∧ e.eps.re.re = .fin (deriv A 0) ∧ e.eps.eps.re = .fin (deriv (deriv A) 0)
      ∧ e.eps.eps.eps = .fin (deriv (deriv (deriv A)) 0) := by
  obtain ⟨A1, d1, k1, k2⟩ := DualR.sum_step (A := A) (ρ := rhoX2) (d := e) (fun y : (Unit × ℝ) × ℝ => y.1.2 + y.2)
    (by fun_prop) (by simp) (fun t => (((), t), 0)) (by fun_prop) rfl (by simp) h
  have e1 : deriv A =ᶠ[𝓝 0] A1 := d1.mono fun t ht => ht.deriv
  obtain ⟨g1, g2, g3⟩ := taylor2 k2
  have e0 : e.re.re.re = .fin (A (0 + 0 + 0)) := rhoX3.re h
  rw [add_zero, add_zero] at e0
  exact ⟨e0, by rw [e1.eq_of_nhds]; exact g1, by rw [e1.deriv_eq]; exact g2, by rw [e1.deriv.deriv_eq]; exact g3⟩

/-- the last density derivative, and the temperature derivative -/
theorem slope_last {A : ℝ → ℝ → ℝ} {T : ℝ} {e : XDual2} (h : rhoX2.R (fun y => A (T + y.1.2) y.2) e) :
    ∃ g, e.eps.re = .fin (deriv (A T) 0) ∧ e.eps.eps = .fin g ∧ HasDerivAt (fun t => deriv (A t) 0) g T := by
  obtain ⟨_, -, A', h2, h3⟩ := h
  have h4 : rhoX1.R (fun y => deriv (A (T + y.2)) 0) e.eps := rhoX1.congr h3 (h2.mono fun y hy => hy.deriv.symm)
  obtain ⟨_, k1, G, k2, k3⟩ := h4
  have k4 := k2.self_of_nhds
  refine ⟨G (), ?_, rhoX.re k3, ?_⟩
  · have : e.eps.re = .fin (deriv (A (T + 0)) 0) := rhoX.re k1
    rwa [add_zero] at this
  · have h8 : HasDerivAt (fun s : ℝ => deriv (A (T + s)) 0) (G ()) (T - T) := by rw [sub_self]; exact k4
    have h9 := h8.comp_sub_const T T
    simpa using h9

/-- the evaluation with dual temperature for the second virial coefficient -/
theorem slope2 {A : ℝ → ℝ → ℝ} {T : ℝ} {e : XDual3} (h : rhoX3.R (fun y => A (T + y.1.1.2) (y.1.2 + y.2)) e) :
    ∃ g, e.eps.eps.re = .fin (deriv (deriv (A T)) 0) ∧ e.eps.eps.eps = .fin g
      ∧ HasDerivAt (fun t => deriv (deriv (A t)) 0) g T := by
  have k2 := DualR.param_step (A := A) (ρ := rhoX2) (d := e) (fun y => T + y.1.2) (fun y => y.2) h
  exact slope_last (A := fun t => deriv (A t)) k2

/-- the evaluation with dual temperature for the third virial coefficient -/
theorem slope3 {A : ℝ → ℝ → ℝ} {T : ℝ} {e : XDual4}
    (h : (repDual XReal.lawfulEmb rhoX3 0).R (fun y => A (T + y.1.1.1.2) (y.1.1.2 + y.1.2 + y.2)) e) :
    ∃ g, e.eps.eps.eps.re = .fin (deriv (deriv (deriv (A T))) 0) ∧ e.eps.eps.eps.eps = .fin g
      ∧ HasDerivAt (fun t => deriv (deriv (deriv (A t))) 0) g T := by
  have k2 := DualR.param_step (A := A) (ρ := rhoX3) (d := e) (fun y => T + y.1.1.2) (fun y => y.1.2 + y.2) h
  exact slope2 (A := fun t => deriv (A t)) k2

/-! ## The states -/

theorem rep_lifted {D X : Type} [DualNum XReal D] [TopologicalSpace X] {x0 : X} {ρ : Rep x0 XReal.IsFin D} {f : X → ℝ}
    {d : D} (h : ρ.R f d) : (repDual XReal.lawfulEmb ρ 0).R (fun y => f y.1) (lifted d) := by
  have : DualR ρ 0 (fun y => f y.1) (lifted d) := by
    simpa [lifted] using dualR_seed ρ h (ρ.constRel (a := 0) rfl)
  exact this

theorem rep_seeded {D X : Type} [DualNum XReal D] [TopologicalSpace X] {x0 : X} {ρ : Rep x0 XReal.IsFin D} {f : X → ℝ}
    {d : D} (h : ρ.R f d) : (repDual XReal.lawfulEmb ρ 0).R (fun y => f y.1 + y.2) (seeded d) := by
  have : DualR ρ 0 (fun y => f y.1 + y.2) (seeded d) := by
    simpa [seeded] using dualR_seed ρ h (ρ.constRel (a := 1) rfl)
  exact this

theorem slopeState2_rel (T : ℝ) (x : Fin n → ℝ) :
    StateRel rhoX3 (fun y => StateHD.newVirial (T + y.1.1.2) (y.1.2 + y.2) x) (slopeState2 T x) := by
  have hT : rhoX3.R (fun y => T + y.1.1.2) (lifted (lifted (seeded (XReal.fin T)))) :=
    rep_lifted (rep_lifted (rep_seeded (rhoX_const T)))
  have hd : rhoX3.R (fun y => y.1.2 + y.2) (seeded (seeded (c (XReal.fin 0)))) := by
    have := rep_seeded (rep_seeded (rhoX1.constRel (a := 0) rfl))
    simp only [zero_add] at this
    exact this
  exact ⟨hT, rhoX3.constOf (CR.sci XReal.lawfulEmb _ _ _), fun _ => rhoX3.mul (rhoX3.constRel rfl) hd,
    fun _ => rhoX3.constRel rfl, fun _ => rhoX3.mul (rhoX3.constRel rfl) hd⟩

noncomputable abbrev rhoX4 : Rep (((((), (0 : ℝ)), (0 : ℝ)), (0 : ℝ)), (0 : ℝ)) XReal.IsFin XDual4 :=
  repDual XReal.lawfulEmb rhoX3 0

theorem slopeState3_rel (T : ℝ) (x : Fin n → ℝ) :
    StateRel rhoX4 (fun y => StateHD.newVirial (T + y.1.1.1.2) (y.1.1.2 + y.1.2 + y.2) x) (slopeState3 T x) := by
  have hT : rhoX4.R (fun y => T + y.1.1.1.2) (lifted (lifted (lifted (seeded (XReal.fin T))))) :=
    rep_lifted (rep_lifted (rep_lifted (rep_seeded (rhoX_const T))))
  have hd : rhoX4.R (fun y => y.1.1.2 + y.1.2 + y.2) (seeded (seeded (seeded (c (XReal.fin 0))))) := by
    have := rep_seeded (rep_seeded (rep_seeded (rhoX1.constRel (a := 0) rfl)))
    simp only [zero_add] at this
    exact this
  exact ⟨hT, rhoX4.constOf (CR.sci XReal.lawfulEmb _ _ _), fun _ => rhoX4.mul (rhoX4.constRel rfl) hd,
    fun _ => rhoX4.constRel rfl, fun _ => rhoX4.mul (rhoX4.constRel rfl) hd⟩

/-! ## The theorems -/

section records
variable {pr : Fin n → PureRecord ℝ} {k : Fin n → Fin n → ℝ} {x : Fin n → ℝ}

/-- the evaluation for the second virial coefficient succeeds at every temperature -/
theorem virial_exists (hr : PositiveRecords pr) (hk : ∀ i, 0 ≤ (fromRecords pr k).kappa_ab i) (h0 : ∀ i, 0 ≤ x i)
    (hx : ∑ i, x i = 1) (o : PcSaftOptions ℝ) (hna : ∀ a ∈ (fromRecords pr k).assoc_comp, 0 < (fromRecords pr k).na a)
    (hnb : ∀ a ∈ (fromRecords pr k).assoc_comp, 0 < (fromRecords pr k).nb a) (laX : LinAlg XReal XDual2) {T : ℝ}
    (hT : 0 < T) : ∃ b, IsSecondVirial pr k o laX T x b := by
  let la : LinAlg ℝ ℝ := ⟨fun _ _ _ => none, fun _ _ _ => none, 0⟩
  have one : ∀ ct ∈ buildContributions (fromRecords pr k) o, ∃ b d,
      (ct.map XReal.fin).helmholtzEnergy laX (xParameters pr k) (virialStateX T x) = .ok d ∧ VirialCoefficient b d := by
    intro ct hct
    cases ct with
    | dipole => exact ⟨_, _, rfl, dipole_virial hr hk hT x⟩
    | quadrupole => exact ⟨_, _, rfl, quadrupole_virial hr hk hT x⟩
    | dipoleQuadrupole v => exact ⟨_, _, rfl, dipoleQuadrupole_virial v hr hk hT x⟩
    | association =>
      have hl : (fromRecords pr k).nassoc = 1 := by
        unfold buildContributions at hct
        generalize (fromRecords pr k).nassoc = na at hct
        rcases na with _ | _ | na
        · simp at hct
        · rfl
        · simp at hct
      obtain ⟨a, ha⟩ := List.length_eq_one_iff.1 hl
      obtain ⟨b, ⟨d, hd⟩, -⟩ := virialTerm hr hk hT h0 hx la laX .association ⟨a, ha, hna a (by rw [ha]; simp)⟩ hnb
      exact ⟨b, d, hd⟩
    | hardSphere =>
      obtain ⟨b, ⟨d, hd⟩, -⟩ := virialTerm hr hk hT h0 hx la laX .hardSphere trivial hnb
      exact ⟨b, d, hd⟩
    | hardChain =>
      obtain ⟨b, ⟨d, hd⟩, -⟩ := virialTerm hr hk hT h0 hx la laX .hardChain trivial hnb
      exact ⟨b, d, hd⟩
    | dispersion =>
      obtain ⟨b, ⟨d, hd⟩, -⟩ := virialTerm hr hk hT h0 hx la laX .dispersion trivial hnb
      exact ⟨b, d, hd⟩
    | crossAssociation it tol =>
      obtain ⟨b, ⟨d, hd⟩, -⟩ := virialTerm hr hk hT h0 hx la laX (.crossAssociation it tol) trivial hnb
      exact ⟨b, d, hd⟩
  have fold : ∀ (cts : List (Contribution ℝ)) (b0 : ℝ) (d0 : XDual2), (∀ ct ∈ cts, ∃ b d,
      (ct.map XReal.fin).helmholtzEnergy laX (xParameters pr k) (virialStateX T x) = .ok d ∧ VirialCoefficient b d) →
      VirialCoefficient b0 d0 → ∃ b d, (cts.map (Contribution.map XReal.fin)).foldlM (fun acc ct =>
        match ct.helmholtzEnergy laX (xParameters pr k) (virialStateX T x) with
        | .error err => .error err
        | .ok a => .ok (acc + a)) d0 = (.ok d : Except Panic XDual2) ∧ VirialCoefficient b d := by
    intro cts
    induction cts with
    | nil => exact fun b0 d0 _ h => ⟨b0, d0, rfl, h⟩
    | cons ct cts ih =>
      intro b0 d0 h hd0
      obtain ⟨b', d', g1, g2⟩ := h ct (by simp)
      obtain ⟨b, d, i1, i2⟩ := ih (b0 + b') (d0 + d') (fun ct' h' => h ct' (by simp [h'])) (hd0.add g2)
      refine ⟨b, d, ?_, i2⟩
      rw [List.map_cons, List.foldlM_cons, g1]
      exact i1
  obtain ⟨b, d, h1, h2⟩ := fold _ 0 _ one virial_zero
  refine ⟨b, d, ?_, h2⟩
  rw [← buildContributions_fin (xParameters_rel' hr hk) o] at h1
  rw [← h1]
  exact congrArg (fun f => List.foldlM f _ _) (by
    funext acc ct
    simp only [Eos.withOptions]
    cases ct.helmholtzEnergy laX (xParameters pr k) (virialStateX T x) <;> rfl)

theorem padeNan_x2 : PadeNan XDual2 := padeNan_dual reHom_real.dual
theorem padeNan_x3 : PadeNan XDual3 := padeNan_dual reHom_real.dual.dual
theorem padeNan_x4 : PadeNan XDual4 := padeNan_dual reHom_real.dual.dual.dual

/-- value and derivatives of the differentiated function at zero density -/
theorem diluteSum_second (hr : PositiveRecords pr) (hk : ∀ i, 0 ≤ (fromRecords pr k).kappa_ab i) (h0 : ∀ i, 0 ≤ x i)
    (hx : ∑ i, x i = 1) (o : PcSaftOptions ℝ) (hna : ∀ a ∈ (fromRecords pr k).assoc_comp, 0 < (fromRecords pr k).na a)
    (hnb : ∀ a ∈ (fromRecords pr k).assoc_comp, 0 < (fromRecords pr k).nb a) (laX : LinAlg XReal XDual2) {T : ℝ}
    (hT : 0 < T) :
    IsSecondVirial pr k o laX T x (deriv (deriv (diluteSum (fromRecords pr k) o x T)) 0 / 2)
      ∧ diluteSum (fromRecords pr k) o x T 0 = 0 ∧ deriv (diluteSum (fromRecords pr k) o x T) 0 = 0 := by
  obtain ⟨b, d, h1, h2⟩ := virial_exists hr hk h0 hx o hna hnb laX hT
  obtain ⟨e, g1, g2⟩ := rep_diluteSum (ρ := rhoX2) (τ := fun _ => T) (u := fun y => y.1.2 + y.2) hr hk h0 hx padeNan_x2
    (virialStateX_rel T x) hT (add_zero 0) laX o hna hnb
  have ed : d = e := Except.ok.inj (h1.symm.trans g1)
  subst ed
  obtain ⟨k0, k1, k2⟩ := taylor2 g2
  obtain ⟨v0, v1, v2, v3⟩ := h2
  rw [v0] at k0
  rw [v2] at k1
  rw [v3] at k2
  refine ⟨⟨d, h1, v0, v1, v2, ?_⟩, (XReal.fin.inj k0).symm, (XReal.fin.inj k1).symm⟩
  rw [v3, k2]
  congr 1
  ring

/-- C110 for the second virial coefficient: the temperature derivative that the code returns is the derivative of the
virial coefficient that the code returns, for every mixture, composition and temperature. -/
theorem C110_second (hr : PositiveRecords pr) (hk : ∀ i, 0 ≤ (fromRecords pr k).kappa_ab i) (h0 : ∀ i, 0 ≤ x i)
    (hx : ∑ i, x i = 1) (o : PcSaftOptions ℝ) (hna : ∀ a ∈ (fromRecords pr k).assoc_comp, 0 < (fromRecords pr k).na a)
    (hnb : ∀ a ∈ (fromRecords pr k).assoc_comp, 0 < (fromRecords pr k).nb a) (laX : LinAlg XReal XDual2)
    (laX' : LinAlg XReal XDual3) :
    ∃ B B' : ℝ → ℝ, ∀ T, 0 < T → IsSecondVirial pr k o laX T x (B T) ∧ IsSecondVirialSlope pr k o laX' T x (B T) (B' T)
      ∧ HasDerivAt B (B' T) T := by
  have key : ∀ T, 0 < T → ∃ b', IsSecondVirialSlope pr k o laX' T x
      (deriv (deriv (diluteSum (fromRecords pr k) o x T)) 0 / 2) b'
      ∧ HasDerivAt (fun t => deriv (deriv (diluteSum (fromRecords pr k) o x t)) 0 / 2) b' T := by
    intro T hT
    obtain ⟨d, h1, h2⟩ := rep_diluteSum (ρ := rhoX3) (τ := fun y => T + y.1.1.2) (u := fun y => y.1.2 + y.2) hr hk h0 hx padeNan_x3
      (slopeState2_rel T x) (by simpa using hT) (add_zero 0) laX' o hna hnb
    obtain ⟨g, s1, s2, s3⟩ := slope2 h2
    refine ⟨g / 2, ⟨d, h1, ?_, ?_⟩, s3.div_const 2⟩
    · rw [s1]; congr 1; ring
    · rw [s2]; congr 1; ring
  choose! B' hB' using key
  exact ⟨_, B', fun T hT => ⟨(diluteSum_second hr hk h0 hx o hna hnb laX hT).1, hB' T hT⟩⟩

/-- C110 for the third virial coefficient. -/
theorem C110_third (hr : PositiveRecords pr) (hk : ∀ i, 0 ≤ (fromRecords pr k).kappa_ab i) (h0 : ∀ i, 0 ≤ x i)
    (hx : ∑ i, x i = 1) (o : PcSaftOptions ℝ) (hna : ∀ a ∈ (fromRecords pr k).assoc_comp, 0 < (fromRecords pr k).na a)
    (hnb : ∀ a ∈ (fromRecords pr k).assoc_comp, 0 < (fromRecords pr k).nb a) (laX2 : LinAlg XReal XDual2)
    (laX : LinAlg XReal XDual3) (laX' : LinAlg XReal XDual4) :
    ∃ B C C' : ℝ → ℝ, ∀ T, 0 < T → IsSecondVirial pr k o laX2 T x (B T) ∧ IsThirdVirial pr k o laX T x (B T) (C T)
      ∧ IsThirdVirialSlope pr k o laX' T x (C T) (C' T) ∧ HasDerivAt C (C' T) T := by
  have key : ∀ T, 0 < T → ∃ b', IsThirdVirialSlope pr k o laX' T x
      (deriv (deriv (deriv (diluteSum (fromRecords pr k) o x T))) 0 / 3) b'
      ∧ HasDerivAt (fun t => deriv (deriv (deriv (diluteSum (fromRecords pr k) o x t))) 0 / 3) b' T := by
    intro T hT
    obtain ⟨d, h1, h2⟩ := rep_diluteSum (ρ := rhoX4) (τ := fun y => T + y.1.1.1.2) (u := fun y => y.1.1.2 + y.1.2 + y.2) hr hk h0 hx
      padeNan_x4 (slopeState3_rel T x) (by simpa using hT) (by simp) laX' o hna hnb
    obtain ⟨g, s1, s2, s3⟩ := slope3 h2
    refine ⟨g / 3, ⟨d, h1, ?_, ?_⟩, s3.div_const 3⟩
    · rw [s1]; congr 1; ring
    · rw [s2]; congr 1; ring
  choose! C' hC' using key
  refine ⟨fun t => deriv (deriv (diluteSum (fromRecords pr k) o x t)) 0 / 2,
    fun t => deriv (deriv (deriv (diluteSum (fromRecords pr k) o x t))) 0 / 3, C', fun T hT => ?_⟩
  obtain ⟨v1, v2, v3⟩ := diluteSum_second hr hk h0 hx o hna hnb laX2 hT
  refine ⟨v1, ?_, hC' T hT⟩
  obtain ⟨d, h1, h2⟩ := rep_diluteSum (ρ := rhoX3) (τ := fun _ => T) (u := fun y => y.1.1.2 + y.1.2 + y.2) hr hk h0 hx padeNan_x3
    (virialStateX3_rel T x) hT (by simp) laX o hna hnb
  obtain ⟨k0, k1, k2, k3⟩ := taylor3_deriv h2
  rw [v2] at k0
  rw [v3] at k1
  refine ⟨d, h1, k0, k1, ?_, ?_⟩
  · rw [k2]; congr 1; ring
  · rw [k3]; congr 1; ring

end records

/-! ## Cases that meet the hypotheses -/

/-- C110 for a sphere with a dipole and a quadrupole -/
example (laX : LinAlg XReal XDual2) (laX' : LinAlg XReal XDual3) (laX4 : LinAlg XReal XDual4) :=
  have no : ∀ a ∈ (fromRecords polarSphere (fun _ _ => 0)).assoc_comp, False := fun a ha =>
    absurd (by norm_num [fromRecords, polarSphere]) ((mem_assoc_comp polarSphere (fun _ _ => 0) a).1 ha)
  And.intro
    (C110_second (x := fun _ => 1) polarSphere_positive polarSphere_kappa (fun _ => zero_le_one) (by simp)
      PcSaftOptions.default (fun a ha => (no a ha).elim) (fun a ha => (no a ha).elim) laX laX')
    (C110_third (x := fun _ => 1) polarSphere_positive polarSphere_kappa (fun _ => zero_le_one) (by simp)
      PcSaftOptions.default (fun a ha => (no a ha).elim) (fun a ha => (no a ha).elim) laX laX' laX4)

/-- C110 for two associating components -/
example (laX : LinAlg XReal XDual2) (laX' : LinAlg XReal XDual3) (laX4 : LinAlg XReal XDual4) {K : ℝ} (hK : 0 < K) :=
  have hr : PositiveRecords (twinRecords K) := ⟨fun i => by norm_num [twinRecords], fun i => by norm_num [twinRecords],
    fun i => by norm_num [twinRecords]⟩
  have hk : ∀ i, 0 ≤ (fromRecords (twinRecords K) (fun _ _ => 0)).kappa_ab i := fun i => by
    simpa [fromRecords, twinRecords] using hK.le
  And.intro
    (C110_second (x := fun _ => 1 / 2) hr hk (fun _ => by norm_num) (by norm_num) PcSaftOptions.default
      (fun a _ => by norm_num [fromRecords, twinRecords]) (fun a _ => by norm_num [fromRecords, twinRecords]) laX laX')
    (C110_third (x := fun _ => 1 / 2) hr hk (fun _ => by norm_num) (by norm_num) PcSaftOptions.default
      (fun a _ => by norm_num [fromRecords, twinRecords]) (fun a _ => by norm_num [fromRecords, twinRecords]) laX laX'
      laX4)

/-- C110 for a mixture with one associating component -/
example (laX : LinAlg XReal XDual2) (laX' : LinAlg XReal XDual3) (laX4 : LinAlg XReal XDual4) :=
  have hr : PositiveRecords assocRecords := ⟨fun i => (assocRecords_positive i).1, fun i => (assocRecords_positive i).2.1,
    fun i => (assocRecords_positive i).2.2⟩
  have hna : ∀ a ∈ (fromRecords assocRecords (fun _ _ => 0)).assoc_comp,
      0 < (fromRecords assocRecords (fun _ _ => 0)).na a ∧ 0 < (fromRecords assocRecords (fun _ _ => 0)).nb a := by
    rw [assocRecords_comp]
    intro a ha
    rw [List.mem_singleton.1 ha]
    norm_num [fromRecords, assocRecords]
  And.intro
    (C110_second (x := fun _ => 1 / 2) hr assocRecords_kappa (fun _ => by norm_num) (by norm_num)
      PcSaftOptions.default (fun a ha => (hna a ha).1) (fun a ha => (hna a ha).2) laX laX')
    (C110_third (x := fun _ => 1 / 2) hr assocRecords_kappa (fun _ => by norm_num) (by norm_num)
      PcSaftOptions.default (fun a ha => (hna a ha).1) (fun a ha => (hna a ha).2) laX laX' laX4)

end Props
end PcSaft
