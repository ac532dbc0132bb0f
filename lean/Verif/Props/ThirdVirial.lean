import Verif.Lemmas.ThirdOrder
import Verif.Props.VirialPressure

/-!
# Property C109: third virial coefficients

`feos_core` takes the third virial coefficient from an evaluation with third-order dual numbers at zero density.
It is compared here with the pressures that the code gives for dilute gases.
-/

open Filter Topology

namespace PcSaft
variable {n : ℕ}

namespace Props

/-- third-order dual numbers with infinities and NaN -/
abbrev XDual3 := Dual XDual2

/-- the density at which the third virial coefficient is evaluated: zero, with a unit derivative -/
def seed3 : XDual3 := ⟨⟨⟨.fin 0, .fin 1⟩, ⟨.fin 1, .fin 0⟩⟩, ⟨⟨.fin 1, .fin 0⟩, ⟨.fin 0, .fin 0⟩⟩⟩

/-- the state at which the third virial coefficient is evaluated -/
noncomputable def virialStateX3 (T : ℝ) (x : Fin n → ℝ) : StateHD n XDual3 :=
  StateHD.newVirial (c (XReal.fin T)) seed3 (fun i => c (XReal.fin (x i)))

end Props

/-- what the code returns for the virial coefficients of the composition `x`: the evaluation at zero density succeeds, the
value and the first derivative of the energy density are zero, the second derivative is `2 b`, the third is `3 c` -/
def Spec.IsThirdVirial (pr : Fin n → PureRecord ℝ) (k : Fin n → Fin n → ℝ) (o : PcSaftOptions ℝ)
    (laX : LinAlg XReal Props.XDual3) (T : ℝ) (x : Fin n → ℝ) (b c : ℝ) : Prop :=
  ∃ d, (Eos.withOptions (Props.xParameters pr k) (o.map XReal.fin)).residualHelmholtz laX (Props.virialStateX3 T x) = .ok d
    ∧ d.re.re.re = .fin 0 ∧ d.eps.re.re = .fin 0 ∧ d.eps.eps.re = .fin (2 * b) ∧ d.eps.eps.eps = .fin (3 * c)

/-- virial coefficients of the pressures of the code: at large volumes the pressure of the code follows
`P V / N = 1 + B N / V + C (N / V)²` -/
def Spec.VirialOfPressures (p : PcSaftParameters n ℝ) (o : PcSaftOptions ℝ) (laD : LinAlg ℝ (Dual ℝ)) (T : ℝ) (N : Fin n → ℝ)
    (B C : ℝ) : Prop :=
  ∀ ε, 0 < ε → ∃ V₀, ∀ V, V₀ ≤ V → ∃ P, Spec.IsPressure p o laD T V N P
    ∧ |((P * V / (∑ i, N i) - 1) * (V / ∑ i, N i) - B) * (V / ∑ i, N i) - C| ≤ ε

namespace Spec.Fluid
variable (f : Fluid n) (T : ℝ) (x : Fin n → ℝ)

/-- interaction of three dipoles at zero density -/
noncomputable def threeDipoles (d : Fin 4 → Fin 3 → ℝ) : ℝ :=
  -(4 / 3 * Real.pi ^ 2) * ∑ i, ∑ j, ∑ k, x i * x j * x k
    * f.dipoleStrength T i * f.dipoleStrength T j * f.dipoleStrength T k
    / (f.sigmaIJ i j * f.sigmaIJ i k * f.sigmaIJ j k) * f.j3 d 0 i j k

/-- interaction of three quadrupoles at zero density -/
noncomputable def threeQuadrupoles (d : Fin 4 → Fin 3 → ℝ) : ℝ :=
  9 / 16 * Real.pi ^ 2 * ∑ i, ∑ j, ∑ k, x i * x j * x k
    * f.quadrupoleStrength T i * f.quadrupoleStrength T j * f.quadrupoleStrength T k
    / (f.sigmaIJ i j ^ 3 * f.sigmaIJ i k ^ 3 * f.sigmaIJ j k ^ 3) * f.j3 d 0 i j k

/-- interaction of dipoles and quadrupoles, three molecules, at zero density -/
noncomputable def threeMixed (alpha : ℝ) (d : Fin 3 → Fin 2 → ℝ) : ℝ :=
  Real.pi ^ 2 * ∑ i, ∑ j, ∑ k, x i * x j * x k
    * (f.dipoleStrength T i * f.sigma i) * (f.quadrupoleStrength T j / f.sigma j)
    * (f.dipoleStrength T k * f.sigma k + alpha * (f.quadrupoleStrength T k / f.sigma k))
    / (f.sigmaIJ i j * f.sigmaIJ i k * f.sigmaIJ j k) ^ 2
    * f.j3 (fun r => ![d r 0, d r 1, 0]) 0 i j k

end Spec.Fluid

namespace Props
open PcSaft Spec Dual2

/-! ## Third-order dual numbers -/

noncomputable abbrev rhoX3 : Rep ((((), (0 : ℝ)), (0 : ℝ)), (0 : ℝ)) XReal.IsFin XDual3 := repDual XReal.lawfulEmb rhoX2 0

theorem densityX3 : rhoX3.R (fun y => y.1.1.2 + y.1.2 + y.2) seed3 := by
  have h0 : rhoX1.R (fun _ => 0) (⟨.fin 0, .fin 0⟩ : Dual XReal) := by
    have : DualR rhoX 0 (fun _ => 0) (⟨.fin 0, .fin 0⟩ : Dual XReal) := by
      simpa using dualR_seed rhoX (rhoX_const 0) (rhoX_const 0)
    exact this
  have h1 : rhoX1.R (fun _ => 1) (⟨.fin 1, .fin 0⟩ : Dual XReal) := by
    have : DualR rhoX 0 (fun _ => 1) (⟨.fin 1, .fin 0⟩ : Dual XReal) := by
      simpa using dualR_seed rhoX (rhoX_const 1) (rhoX_const 0)
    exact this
  have h2 : rhoX2.R (fun _ => 1) (⟨⟨.fin 1, .fin 0⟩, ⟨.fin 0, .fin 0⟩⟩ : XDual2) := by
    have : DualR rhoX1 0 (fun _ => 1) (⟨⟨.fin 1, .fin 0⟩, ⟨.fin 0, .fin 0⟩⟩ : XDual2) := by
      simpa using dualR_seed rhoX1 h1 h0
    exact this
  have : DualR rhoX2 0 (fun y => y.1.1.2 + y.1.2 + y.2) seed3 := by
    simpa [seed3] using dualR_seed rhoX2 densityX h2
  exact this

theorem virialStateX3_rel (T : ℝ) (x : Fin n → ℝ) :
    StateRel rhoX3 (fun y => StateHD.newVirial T (y.1.1.2 + y.1.2 + y.2) x) (virialStateX3 T x) where
  temperature := rhoX3.constRel rfl
  volume := rhoX3.constOf (CR.sci XReal.lawfulEmb _ _ _)
  moles _ := rhoX3.mul (rhoX3.constRel rfl) densityX3
  molefracs _ := rhoX3.constRel rfl
  partial_density _ := rhoX3.mul (rhoX3.constRel rfl) densityX3

/-- the components of a third-order dual number are the first terms of the Taylor series -/
theorem taylor3 {A : ℝ → ℝ} {e : XDual3} (h : rhoX3.R (fun y => A (y.1.1.2 + y.1.2 + y.2)) e) :
    ∃ a1 a2 a3 : ℝ, e.re.re.re = .fin (A 0) ∧ e.eps.re.re = .fin a1 ∧ e.eps.eps.re = .fin a2
      ∧ e.eps.eps.eps = .fin a3
      ∧ Tendsto (fun t => (A t - (A 0 + a1 * t + a2 / 2 * t ^ 2)) / t ^ 3) (𝓝[≠] 0) (𝓝 (a3 / 6)) := by
  obtain ⟨A1, d1, k1, k2⟩ := DualR.sum_step (A := A) (ρ := rhoX2) (d := e) (fun y : (Unit × ℝ) × ℝ => y.1.2 + y.2)
    (by fun_prop) (by simp) (fun t => (((), t), 0)) (by fun_prop) rfl (by simp) h
  obtain ⟨A2, d2, k3, k4⟩ := DualR.sum_step (A := A1) (ρ := rhoX1) (d := e.eps) (fun y : Unit × ℝ => y.2)
    (by fun_prop) (by simp) (fun t => ((), t)) (by fun_prop) rfl (by simp) k2
  obtain ⟨_, k5, A3, k6, k7⟩ := k4
  have h3 : HasDerivAt A2 (A3 ()) 0 := k6.self_of_nhds
  have e0 : e.re.re.re = .fin (A (0 + 0 + 0)) := rhoX3.re h
  have e1 : e.eps.re.re = .fin (A1 (0 + 0)) := rhoX2.re k2
  rw [add_zero, add_zero] at e0
  rw [add_zero] at e1
  exact ⟨A1 0, A2 0, A3 (), e0, e1, rhoX.re k5, rhoX.re k7, (third_order_limit d1 d2 h3).1⟩

/-- the Padé quotient of two numbers with value zero is replaced by the pair term -/
theorem padeVolume_nan3 (phi2 phi3 V : XDual3) (h2 : phi2.re.re.re = .fin 0) (h3 : phi3.re.re.re = .fin 0) :
    padeVolume phi2 phi3 V = phi2 * V := by
  have e : F64.isNan (DualNum.re (phi2 * phi2 / (phi2 - phi3) * V)) = true := by
    change XReal.isNan ((phi2.re.re.re * phi2.re.re.re) * DualNum.recip (phi2.re.re.re - phi3.re.re.re) * V.re.re.re) = true
    rw [h2, h3]
    have e1 : XReal.fin 0 - XReal.fin 0 = XReal.fin 0 := by rw [← XReal.equations.sub, sub_zero]
    have e2 : XReal.fin 0 * XReal.fin 0 = XReal.fin 0 := by rw [← XReal.equations.mul, zero_mul]
    have e3 : (DualNum.recip (XReal.fin 0) : XReal) = XReal.pinf := by
      change (if (0 : ℝ) = 0 then XReal.infSign (1.0 : ℝ) else _) = _
      norm_num [XReal.infSign]
    have e4 : XReal.fin 0 * XReal.pinf = XReal.nan := by
      change XReal.infSign (0 * 1) = _
      norm_num [XReal.infSign]
    rw [e1, e2, e3, e4]
    rfl
  unfold padeVolume
  dsimp only
  rw [e]
  rfl

/-- one contribution: the evaluation at zero density gives the Taylor series of `A`, and the energy deviates from `A` by
the third-order term `P` -/
def ThirdTerm (la : LinAlg ℝ ℝ) (laX : LinAlg XReal XDual3) (p : PcSaftParameters n ℝ) (px : PcSaftParameters n XReal)
    (T : ℝ) (x : Fin n → ℝ) (ct : Contribution ℝ) (P : ℝ) : Prop :=
  ∃ (A : ℝ → ℝ) (e : XDual3) (E : ℝ → ℝ),
    (ct.map XReal.fin).helmholtzEnergy laX px (virialStateX3 T x) = .ok e
    ∧ rhoX3.R (fun y => A (y.1.1.2 + y.1.2 + y.2)) e
    ∧ (∀ᶠ t in 𝓝[≠] (0 : ℝ), ct.helmholtzEnergy la p (StateHD.new T 1 (fun i => x i * t)) = .ok (E t))
    ∧ Tendsto (fun t => (E t - A t) / t ^ 3) (𝓝[≠] 0) (𝓝 P)

/-- a contribution without special treatment of zero density -/
theorem thirdTerm_of {la : LinAlg ℝ ℝ} {laX : LinAlg XReal XDual3} {p : PcSaftParameters n ℝ}
    {px : PcSaftParameters n XReal} {T : ℝ} {x : Fin n → ℝ} {ct : Contribution ℝ} {A : ℝ → ℝ} {e : XDual3}
    (hx : ∑ i, x i = 1) (hA : ∀ t, ct.helmholtzEnergy la p (StateHD.newVirial T t x) = .ok (A t))
    (hX : (ct.map XReal.fin).helmholtzEnergy laX px (virialStateX3 T x) = .ok e)
    (he : rhoX3.R (fun y => A (y.1.1.2 + y.1.2 + y.2)) e) : ThirdTerm la laX p px T x ct 0 := by
  refine ⟨A, e, A, hX, he, ?_, by simp⟩
  filter_upwards [self_mem_nhdsWithin] with t (ht : t ≠ 0)
  rw [← newVirial_eq T hx ht]
  exact hA t

/-- The Padé approximation deviates from the pair term by the interaction of three molecules, which the branch for zero
density leaves out. -/
theorem polar_third {phi2 phi3 : (Fin n → ℝ) → ℝ → ℝ} (x : Fin n → ℝ) {eta : ℝ → ℝ} (heta : eta 0 = 0)
    (h2 : ContinuousAt (fun t => phi2 x (eta t)) 0) (h3 : ContinuousAt (fun t => phi3 x (eta t)) 0)
    (scale2 : ∀ t e, phi2 (fun i => x i * t) e = t ^ 2 * phi2 x e)
    (scale3 : ∀ t e, phi3 (fun i => x i * t) e = t ^ 3 * phi3 x e) (hne : phi2 x 0 ≠ 0) :
    Tendsto (fun t => (padeVolume (phi2 (fun i => x i * t) (eta t)) (phi3 (fun i => x i * t) (eta t)) 1
      - phi2 (fun i => x i * t) (eta t) * 1.0) / t ^ 3) (𝓝[≠] 0) (𝓝 (phi3 x 0)) := by
  have h2' : Tendsto (fun t => phi2 x (eta t)) (𝓝 0) (𝓝 (phi2 x 0)) := by simpa [heta] using h2.tendsto
  have h3' : Tendsto (fun t => phi3 x (eta t)) (𝓝 0) (𝓝 (phi3 x 0)) := by simpa [heta] using h3.tendsto
  have hden : Tendsto (fun t => phi2 x (eta t) - t * phi3 x (eta t)) (𝓝 0) (𝓝 (phi2 x 0 - 0 * phi3 x 0)) :=
    h2'.sub (tendsto_id.mul h3')
  have hd0 : phi2 x 0 - 0 * phi3 x 0 ≠ 0 := by simpa using hne
  have hlim := (h2'.mul h3').div hden hd0
  have e : phi2 x 0 * phi3 x 0 / (phi2 x 0 - 0 * phi3 x 0) = phi3 x 0 := by
    rw [zero_mul, sub_zero, mul_comm, mul_div_assoc, div_self hne, mul_one]
  rw [e] at hlim
  refine (hlim.mono_left nhdsWithin_le_nhds).congr' ?_
  filter_upwards [self_mem_nhdsWithin, (hden.eventually_ne hd0).filter_mono nhdsWithin_le_nhds] with t (ht : t ≠ 0) hd
  have h1 : (1.0 : ℝ) = 1 := by norm_num
  simp only [padeVolume, isNan_real, re_real, scale2, scale3, Bool.false_eq_true, if_false, h1, Pi.div_apply]
  have e1 : t ^ 2 * phi2 x (eta t) - t ^ 3 * phi3 x (eta t) = t ^ 2 * (phi2 x (eta t) - t * phi3 x (eta t)) := by ring
  rw [e1]
  generalize phi2 x (eta t) = a at hd ⊢
  generalize phi3 x (eta t) = b at hd ⊢
  obtain ⟨D, hD⟩ : ∃ D, D = a - t * b := ⟨_, rfl⟩
  rw [← hD] at hd ⊢
  have e2 : t ^ 2 * a * (t ^ 2 * a) / (t ^ 2 * D) = t ^ 2 * (a * a / D) := by field_simp
  have e3 : a * a / D = a + t * (a * b / D) := by
    rw [div_eq_iff hd, add_mul, mul_assoc t, div_mul_cancel₀ _ hd, hD]
    ring
  rw [e2, e3, eq_div_iff (pow_ne_zero 3 ht)]
  ring

/-- a polar contribution -/
theorem thirdTerm_polar {la : LinAlg ℝ ℝ} {laX : LinAlg XReal XDual3} {p : PcSaftParameters n ℝ}
    {px : PcSaftParameters n XReal} {T : ℝ} {x : Fin n → ℝ} {ct : Contribution ℝ}
    {phi2 phi3 : (Fin n → ℝ) → ℝ → ℝ} {q2 q3 : XDual3} (eta : ℝ → ℝ)
    (hX : (ct.map XReal.fin).helmholtzEnergy laX px (virialStateX3 T x)
      = .ok (padeVolume q2 q3 (virialStateX3 T x).volume))
    (hA : ∀ t, ct.helmholtzEnergy la p (StateHD.new T 1 (fun i => x i * t))
      = .ok (padeVolume (phi2 (fun i => x i * t) (eta t)) (phi3 (fun i => x i * t) (eta t)) 1))
    (h2 : rhoX3.R (fun y => phi2 (fun i => x i * (y.1.1.2 + y.1.2 + y.2)) (eta (y.1.1.2 + y.1.2 + y.2))) q2)
    (h3 : rhoX3.R (fun y => phi3 (fun i => x i * (y.1.1.2 + y.1.2 + y.2)) (eta (y.1.1.2 + y.1.2 + y.2))) q3)
    (heta : eta 0 = 0) (c2 : ContinuousAt (fun t => phi2 x (eta t)) 0) (c3 : ContinuousAt (fun t => phi3 x (eta t)) 0)
    (scale2 : ∀ t e, phi2 (fun i => x i * t) e = t ^ 2 * phi2 x e)
    (scale3 : ∀ t e, phi3 (fun i => x i * t) e = t ^ 3 * phi3 x e) (hne : phi2 x 0 ≠ 0) :
    ThirdTerm la laX p px T x ct (phi3 x 0) := by
  have r2 : q2.re.re.re = .fin (phi2 (fun i => x i * (0 + 0 + 0)) (eta (0 + 0 + 0))) := rhoX3.re h2
  have r3 : q3.re.re.re = .fin (phi3 (fun i => x i * (0 + 0 + 0)) (eta (0 + 0 + 0))) := rhoX3.re h3
  rw [add_zero, add_zero, scale2, zero_pow two_ne_zero, zero_mul] at r2
  rw [add_zero, add_zero, scale3, zero_pow three_ne_zero, zero_mul] at r3
  refine ⟨fun t => phi2 (fun i => x i * t) (eta t) * 1.0, q2 * (virialStateX3 T x).volume, _, ?_,
    rhoX3.mul h2 (rhoX3.constOf (CR.sci XReal.lawfulEmb _ _ _)), .of_forall hA,
    polar_third x heta c2 c3 scale2 scale3 hne⟩
  rw [hX, padeVolume_nan3 _ _ _ r2 r3]

/-- the term of third order that the evaluation at zero density leaves out -/
noncomputable def leftOut (p : PcSaftParameters n ℝ) (T : ℝ) (x : Fin n → ℝ) : Contribution ℝ → ℝ
  | .dipole => dipolePhi3 p T x 0 * PI_SQ_43
  | .quadrupole => quadrupolePhi3 p T x 0 * (Real.pi * Real.pi * 0.5625)
  | .dipoleQuadrupole _ => dipoleQuadrupolePhi3 p T x 0 * (Real.pi * Real.pi)
  | _ => 0

section records
variable {pr : Fin n → PureRecord ℝ} {k : Fin n → Fin n → ℝ} {T : ℝ} {x : Fin n → ℝ}

theorem newVirial_density (T t : ℝ) (x : Fin n → ℝ) :
    (StateHD.new T 1 (fun i => x i * t)).partial_density = fun i => x i * t := by
  funext i
  simp [StateHD.new]

variable (hr : PositiveRecords pr) (hk : ∀ i, 0 ≤ (fromRecords pr k).kappa_ab i) (hT : 0 < T) (h0 : ∀ i, 0 ≤ x i)
  (hx : ∑ i, x i = 1)

include hr hk hT in
theorem thirdTerm_dipole (la : LinAlg ℝ ℝ) (laX : LinAlg XReal XDual3) (hd : dipolePhi2 (fromRecords pr k) T x 0 ≠ 0) :
    ThirdTerm la laX (fromRecords pr k) (xParameters pr k) T x .dipole (leftOut (fromRecords pr k) T x .dipole) := by
  have hp := ParamRel.refl (fromRecords pr k)
  have hpX := xParameters_rel' hr hk
  have hsX := virialStateX3_rel T x
  have hsij := fromRecords_sigma_ij_ne (k := k) hr
  have heta := continuous_eta (pr := pr) (k := k) hT x
  have hetaX := rep_eta XReal.lawfulEmb hpX hsX hT.ne'
  refine thirdTerm_polar (phi2 := fun rho e => dipolePhi2 (fromRecords pr k) T rho e * c F64.pi)
    (phi3 := fun rho e => dipolePhi3 (fromRecords pr k) T rho e * c PI_SQ_43)
    (fun t => stateEta (fromRecords pr k) (StateHD.newVirial T t x)) rfl (fun t => ?_)
    (rhoX3.mul (rep_dipolePhi2 XReal.lawfulEmb hpX hr.m hsij hsX.temperature hT.ne' hetaX hsX.partial_density)
      (rhoX3.constOf (CR.pi XReal.lawfulEmb)))
    (rhoX3.mul (rep_dipolePhi3 XReal.lawfulEmb hpX hr.m hsij hsX.temperature hT.ne' hetaX hsX.partial_density)
      (rhoX3.constOf (CR.piSq XReal.lawfulEmb)))
    (by simpa using virialState_eta (fromRecords pr k) T x)
    (continuousAt_snd_of (A := fun t => dipolePhi2 (fromRecords pr k) T x
        (stateEta (fromRecords pr k) (StateHD.newVirial T t x)) * c F64.pi)
      (rho1.mul (rep_dipolePhi2 lawfulEmb_id hp hr.m hsij (rho1.const T) hT.ne' heta
        (fun i => rho1.const (x i))) (rho1.const _)))
    (continuousAt_snd_of (A := fun t => dipolePhi3 (fromRecords pr k) T x
        (stateEta (fromRecords pr k) (StateHD.newVirial T t x)) * c PI_SQ_43)
      (rho1.mul (rep_dipolePhi3 lawfulEmb_id hp hr.m hsij (rho1.const T) hT.ne' heta
        (fun i => rho1.const (x i))) (rho1.const _)))
    (fun t e => by rw [dipole_scale2 hr.m, mul_assoc]) (fun t e => by rw [dipole_scale3 hr.m, mul_assoc])
    (mul_ne_zero hd Real.pi_ne_zero)
  simp only [Contribution.helmholtzEnergy, dipole, newVirial_density, stateEta]
  rfl

include hr hk hT in
theorem thirdTerm_quadrupole (la : LinAlg ℝ ℝ) (laX : LinAlg XReal XDual3)
    (hd : quadrupolePhi2 (fromRecords pr k) T x 0 ≠ 0) :
    ThirdTerm la laX (fromRecords pr k) (xParameters pr k) T x .quadrupole
      (leftOut (fromRecords pr k) T x .quadrupole) := by
  have hp := ParamRel.refl (fromRecords pr k)
  have hpX := xParameters_rel' hr hk
  have hsX := virialStateX3_rel T x
  have hsij := fromRecords_sigma_ij_ne (k := k) hr
  have heta := continuous_eta (pr := pr) (k := k) hT x
  have hetaX := rep_eta XReal.lawfulEmb hpX hsX hT.ne'
  refine thirdTerm_polar (phi2 := fun rho e => quadrupolePhi2 (fromRecords pr k) T rho e * c (F64.pi * 0.5625))
    (phi3 := fun rho e => quadrupolePhi3 (fromRecords pr k) T rho e * c (F64.pi * F64.pi * 0.5625))
    (fun t => stateEta (fromRecords pr k) (StateHD.newVirial T t x)) rfl (fun t => ?_)
    (rhoX3.mul (rep_quadrupolePhi2 XReal.lawfulEmb hpX hr.m hsij hsX.temperature hT.ne' hetaX hsX.partial_density)
      (rhoX3.constOf (CR.mul XReal.lawfulEmb (CR.pi XReal.lawfulEmb) (CR.sci XReal.lawfulEmb _ _ _))))
    (rhoX3.mul (rep_quadrupolePhi3 XReal.lawfulEmb hpX hr.m hsij hsX.temperature hT.ne' hetaX hsX.partial_density)
      (rhoX3.constOf (CR.mul XReal.lawfulEmb (CR.mul XReal.lawfulEmb (CR.pi XReal.lawfulEmb) (CR.pi XReal.lawfulEmb))
        (CR.sci XReal.lawfulEmb _ _ _))))
    (by simpa using virialState_eta (fromRecords pr k) T x)
    (continuousAt_snd_of (A := fun t => quadrupolePhi2 (fromRecords pr k) T x
        (stateEta (fromRecords pr k) (StateHD.newVirial T t x)) * c (F64.pi * 0.5625))
      (rho1.mul (rep_quadrupolePhi2 lawfulEmb_id hp hr.m hsij (rho1.const T) hT.ne' heta
        (fun i => rho1.const (x i))) (rho1.const _)))
    (continuousAt_snd_of (A := fun t => quadrupolePhi3 (fromRecords pr k) T x
        (stateEta (fromRecords pr k) (StateHD.newVirial T t x)) * c (F64.pi * F64.pi * 0.5625))
      (rho1.mul (rep_quadrupolePhi3 lawfulEmb_id hp hr.m hsij (rho1.const T) hT.ne' heta
        (fun i => rho1.const (x i))) (rho1.const _)))
    (fun t e => by rw [quadrupole_scale2 hr.m, mul_assoc]) (fun t e => by rw [quadrupole_scale3 hr.m, mul_assoc])
    (mul_ne_zero hd (mul_ne_zero Real.pi_ne_zero (by norm_num)))
  simp only [Contribution.helmholtzEnergy, quadrupole, newVirial_density, stateEta]
  rfl

include hr hk hT in
theorem thirdTerm_dipoleQuadrupole (la : LinAlg ℝ ℝ) (laX : LinAlg XReal XDual3) (v : DQVariants)
    (hd : dipoleQuadrupolePhi2 v (fromRecords pr k) T x 0 ≠ 0) :
    ThirdTerm la laX (fromRecords pr k) (xParameters pr k) T x (.dipoleQuadrupole v)
      (leftOut (fromRecords pr k) T x (.dipoleQuadrupole v)) := by
  have hp := ParamRel.refl (fromRecords pr k)
  have hpX := xParameters_rel' hr hk
  have hsX := virialStateX3_rel T x
  have hsij := fromRecords_sigma_ij_ne (k := k) hr
  have hsig : ∀ i, (fromRecords pr k).sigma i ≠ 0 := fun i => (hr.sigma i).ne'
  have heta := continuous_eta (pr := pr) (k := k) hT x
  have hetaX := rep_eta XReal.lawfulEmb hpX hsX hT.ne'
  refine thirdTerm_polar (phi2 := fun rho e => dipoleQuadrupolePhi2 v (fromRecords pr k) T rho e * c (F64.pi * 2.25))
    (phi3 := fun rho e => dipoleQuadrupolePhi3 (fromRecords pr k) T rho e * c (F64.pi * F64.pi))
    (fun t => stateEta (fromRecords pr k) (StateHD.newVirial T t x)) rfl (fun t => ?_)
    (rhoX3.mul (rep_dipoleQuadrupolePhi2 XReal.lawfulEmb hpX v hr.m hsij hsig hsX.temperature hT.ne' hetaX
      hsX.partial_density)
      (rhoX3.constOf (CR.mul XReal.lawfulEmb (CR.pi XReal.lawfulEmb) (CR.sci XReal.lawfulEmb _ _ _))))
    (rhoX3.mul (rep_dipoleQuadrupolePhi3 XReal.lawfulEmb hpX hr.m hsij hsX.temperature hT.ne' hetaX
      hsX.partial_density)
      (rhoX3.constOf (CR.mul XReal.lawfulEmb (CR.pi XReal.lawfulEmb) (CR.pi XReal.lawfulEmb))))
    (by simpa using virialState_eta (fromRecords pr k) T x)
    (continuousAt_snd_of (A := fun t => dipoleQuadrupolePhi2 v (fromRecords pr k) T x
        (stateEta (fromRecords pr k) (StateHD.newVirial T t x)) * c (F64.pi * 2.25))
      (rho1.mul (rep_dipoleQuadrupolePhi2 lawfulEmb_id hp v hr.m hsij hsig (rho1.const T) hT.ne' heta
        (fun i => rho1.const (x i))) (rho1.const _)))
    (continuousAt_snd_of (A := fun t => dipoleQuadrupolePhi3 (fromRecords pr k) T x
        (stateEta (fromRecords pr k) (StateHD.newVirial T t x)) * c (F64.pi * F64.pi))
      (rho1.mul (rep_dipoleQuadrupolePhi3 lawfulEmb_id hp hr.m hsij (rho1.const T) hT.ne' heta
        (fun i => rho1.const (x i))) (rho1.const _)))
    (fun t e => by rw [dipoleQuadrupole_scale2 v hr.m, mul_assoc])
    (fun t e => by rw [dipoleQuadrupole_scale3 hr.m, mul_assoc])
    (mul_ne_zero hd (mul_ne_zero Real.pi_ne_zero (by norm_num)))
  simp only [Contribution.helmholtzEnergy, dipoleQuadrupole, newVirial_density, stateEta]
  rfl

include hr hk hT hx in
/-- the bonds of one associating component -/
theorem thirdTerm_association (la : LinAlg ℝ ℝ) (laX : LinAlg XReal XDual3) {a : Fin n}
    (hl : (fromRecords pr k).assoc_comp = [a]) (hna : 0 < (fromRecords pr k).na a) (hnb : 0 < (fromRecords pr k).nb a) :
    ThirdTerm la laX (fromRecords pr k) (xParameters pr k) T x .association 0 := by
  have hpX := xParameters_rel' hr hk
  have hsX := virialStateX3_rel T x
  have hdp := fun i => virial_diameter_pos (k := k) hr hT i
  have he := virialState_eta (fromRecords pr k) T x
  have e0 : (0 : ℝ) + 0 + 0 = 0 + 0 := by norm_num
  have hz : stateDeltaRho (fromRecords pr k) (StateHD.newVirial T (0 + 0 + 0) x) a = 0 := by
    simp [stateDeltaRho, StateHD.newVirial]
  have h1 : stateEta (fromRecords pr k) (StateHD.newVirial T (0 + 0 + 0) x) ≠ 1 := by rw [e0, he]; norm_num
  have hap : Apart ((((), (0 : ℝ)), (0 : ℝ)), (0 : ℝ))
      (stateDeltaRho (fromRecords pr k) (StateHD.newVirial T (0 + 0 + 0) x) a)
      (Real.sqrt f64EPSILON) := Or.inl (by rw [hz]; exact sqrtEps_pos.ne)
  have g1 : 0 < assocSiteFracAB (stateDeltaRho (fromRecords pr k) (StateHD.newVirial T (0 + 0 + 0) x) a)
      ((fromRecords pr k).na a) ((fromRecords pr k).nb a) := by
    rw [hz, (frac_zero _ _).1]
    exact one_pos
  have g2 : 0 < (assocSiteFracAB (stateDeltaRho (fromRecords pr k) (StateHD.newVirial T (0 + 0 + 0) x) a)
      ((fromRecords pr k).na a) ((fromRecords pr k).nb a) - 1)
      * ((fromRecords pr k).na a / (fromRecords pr k).nb a) + 1 := by
    rw [hz, (frac_zero _ _).1]
    norm_num
  obtain ⟨A', d', a1', a2', a3'⟩ := rep_association XReal.lawfulEmb hpX hsX hT.ne' h1 a [] hl (hdp a).ne' hna hap
    (fun _ => g1) (fun _ => g2) (fun hh => absurd hnb (not_lt.mpr hh))
  obtain ⟨B, hB⟩ : ∃ B : ℝ → ℝ, ∀ t, association (fromRecords pr k) (StateHD.newVirial T t x) = .ok (B t) := by
    refine ⟨fun t => A' ((((), t), 0), 0), fun t => ?_⟩
    have := a1' ((((), t), 0), 0)
    simpa using this
  have eA' : A' = fun y => B (y.1.1.2 + y.1.2 + y.2) := funext fun y => Except.ok.inj ((a1' y).symm.trans (hB _))
  rw [eA'] at a3'
  exact thirdTerm_of hx hB a2' a3'

include hr hk hT h0 hx in
/-- every contribution -/
theorem thirdTerm (la : LinAlg ℝ ℝ) (laX : LinAlg XReal XDual3) (ct : Contribution ℝ)
    (hd : DiluteRegular (fromRecords pr k) T x ct) (hnb : ∀ a ∈ (fromRecords pr k).assoc_comp, 0 < (fromRecords pr k).nb a) :
    ThirdTerm la laX (fromRecords pr k) (xParameters pr k) T x ct (leftOut (fromRecords pr k) T x ct) := by
  have hpX := xParameters_rel' hr hk
  have hsX := virialStateX3_rel T x
  have hdp := fun i => virial_diameter_pos (k := k) hr hT i
  have hmm : meanSegment (fromRecords pr k) (StateHD.newVirial T (0 + 0 + 0) x) ≠ 0 :=
    (sum_pos_of_composition (f := (fromRecords pr k).m) hr.m h0 hx).ne'
  have h23 : 0 < ∑ i, x i * hsDiameter (fromRecords pr k) T i ^ 3 * (fromRecords pr k).m i := by
    have := sum_pos_of_composition (f := fun i => hsDiameter (fromRecords pr k) T i ^ 3 * (fromRecords pr k).m i)
      (fun i => mul_pos (pow_pos (hdp i) 3) (hr.m i)) h0 hx
    simpa only [mul_assoc] using this
  have e0 : (0 : ℝ) + 0 + 0 = 0 + 0 := by norm_num
  have he : stateEta (fromRecords pr k) (StateHD.newVirial T (0 + 0 + 0) x) = 0 := by
    rw [e0]
    exact virialState_eta (fromRecords pr k) T x
  have hzz : ∀ j, zeta (fromRecords pr k).m (StateHD.newVirial T (0 + 0 + 0) x).partial_density
        (hsDiameter (fromRecords pr k) (StateHD.newVirial T (0 + 0 + 0) x).temperature) j = 0 := by
    rw [e0]
    exact zeta_virial_zero (fromRecords pr k) T x
  cases ct with
  | hardSphere =>
    exact thirdTerm_of (A := fun t => hardSphere (fromRecords pr k) (StateHD.newVirial T t x)) hx (fun _ => rfl) rfl
      (rep_hardSphere XReal.lawfulEmb hpX hsX hT.ne' (by rw [hzz]; exact one_pos) h23.ne')
  | hardChain =>
    have hg : ∀ i, 0 < gHs (zeta (fromRecords pr k).m (StateHD.newVirial T (0 + 0 + 0) x).partial_density
          (hsDiameter (fromRecords pr k) (StateHD.newVirial T (0 + 0 + 0) x).temperature) 2)
        (zeta (fromRecords pr k).m (StateHD.newVirial T (0 + 0 + 0) x).partial_density
          (hsDiameter (fromRecords pr k) (StateHD.newVirial T (0 + 0 + 0) x).temperature) 3)
        (hsDiameter (fromRecords pr k) (StateHD.newVirial T (0 + 0 + 0) x).temperature i) := by
      intro i
      rw [hzz, hzz, gHs_real _ _ _ zero_ne_one, gForm]
      norm_num
    exact thirdTerm_of (A := fun t => hardChain (fromRecords pr k) (StateHD.newVirial T t x)) hx (fun _ => rfl) rfl
      (rep_hardChain XReal.lawfulEmb hpX hsX hT.ne' (by rw [hzz]; exact zero_ne_one) hg)
  | dispersion =>
    have h1 : stateEta (fromRecords pr k) (StateHD.newVirial T (0 + 0 + 0) x) ≠ 1 := by rw [he]; norm_num
    have h2 : stateEta (fromRecords pr k) (StateHD.newVirial T (0 + 0 + 0) x) ≠ 2 := by rw [he]; norm_num
    have h3 : meanSegment (fromRecords pr k) (StateHD.newVirial T (0 + 0 + 0) x)
          * (stateEta (fromRecords pr k) (StateHD.newVirial T (0 + 0 + 0) x) * 8
            - stateEta (fromRecords pr k) (StateHD.newVirial T (0 + 0 + 0) x) ^ 2 * 2)
          / (stateEta (fromRecords pr k) (StateHD.newVirial T (0 + 0 + 0) x) - 1) ^ 4
        + (1 - meanSegment (fromRecords pr k) (StateHD.newVirial T (0 + 0 + 0) x))
          * (stateEta (fromRecords pr k) (StateHD.newVirial T (0 + 0 + 0) x) * 20
            - stateEta (fromRecords pr k) (StateHD.newVirial T (0 + 0 + 0) x) ^ 2 * 27
            + stateEta (fromRecords pr k) (StateHD.newVirial T (0 + 0 + 0) x) ^ 3 * 12
            - stateEta (fromRecords pr k) (StateHD.newVirial T (0 + 0 + 0) x) ^ 4 * 2)
          / ((stateEta (fromRecords pr k) (StateHD.newVirial T (0 + 0 + 0) x) - 1)
            * (stateEta (fromRecords pr k) (StateHD.newVirial T (0 + 0 + 0) x) - 2)) ^ 2 + 1 ≠ 0 := by
      rw [he]
      norm_num
    exact thirdTerm_of (A := fun t => dispersion (fromRecords pr k) (StateHD.newVirial T t x)) hx (fun _ => rfl) rfl
      (rep_dispersion XReal.lawfulEmb hpX hsX hT.ne' hmm h1 h2 h3)
  | dipole => exact thirdTerm_dipole hr hk hT la laX hd
  | quadrupole => exact thirdTerm_quadrupole hr hk hT la laX hd
  | dipoleQuadrupole v => exact thirdTerm_dipoleQuadrupole hr hk hT la laX v hd
  | association =>
    obtain ⟨a, hl, hna⟩ := hd
    exact thirdTerm_association hr hk hT hx la laX hl hna (hnb a (by rw [hl]; exact List.mem_singleton.2 rfl))
  | crossAssociation it tol =>
    refine ⟨fun _ => 0.0 * 1.0, c (0.0 : XReal) * (virialStateX3 T x).volume, fun _ => 0, ?_, ?_, ?_, ?_⟩
    · have hre : DualNum.re (sumFin (virialStateX3 T x).partial_density) = XReal.fin 0 := by
        have h1 := rhoX3.re (rhoX3.sumFin XReal.lawfulEmb hsX.partial_density)
        have h2 : sumFin (StateHD.newVirial T (0 + 0 + 0) x).partial_density = 0 := by
          simp [sumFin_real, StateHD.newVirial]
        simp only [h2] at h1
        exact h1
      have hlt : F64.lt (DualNum.re (sumFin (virialStateX3 T x).partial_density)) (f64EPSILON : XReal) = true := by
        rw [hre]
        have e : (f64EPSILON : XReal) = XReal.fin f64EPSILON := CR.sci XReal.lawfulEmb _ _ _
        rw [e]
        change decide ((0 : ℝ) < f64EPSILON) = true
        rw [decide_eq_true_eq]
        norm_num [f64EPSILON]
      simp only [Contribution.map, Contribution.helmholtzEnergy, crossAssociation, crossAssociationDensity, hlt, if_true]
    · exact rhoX3.mul (rhoX3.constOf (CR.sci XReal.lawfulEmb _ _ _)) hsX.volume
    · have hc : Tendsto (fun t : ℝ => ∑ i, x i * t / 1) (𝓝 0) (𝓝 0) := by
        have : Continuous fun t : ℝ => ∑ i, x i * t / 1 := by fun_prop
        simpa using this.tendsto 0
      have hev := hc.eventually (gt_mem_nhds (show (0 : ℝ) < f64EPSILON by norm_num [f64EPSILON]))
      filter_upwards [hev.filter_mono nhdsWithin_le_nhds] with t ht
      have e0 : (0.0 : ℝ) = 0 := by norm_num
      have h1 : F64.lt (DualNum.re (sumFin (StateHD.new T 1 (fun i => x i * t)).partial_density)) (f64EPSILON : ℝ) = true := by
        simp only [sumFin_real, re_real, lt_real, decide_eq_true_eq, StateHD.new_density]
        exact ht
      simp only [Contribution.helmholtzEnergy, crossAssociation, crossAssociationDensity, h1, if_true, c, ofF_real, e0,
        zero_mul]
    · have e0 : (0.0 : ℝ) = 0 := by norm_num
      simp [e0, leftOut]

/-- the sum over a list of contributions -/
theorem third_sum {la : LinAlg ℝ ℝ} {laX : LinAlg XReal XDual3} {p : PcSaftParameters n ℝ}
    {px : PcSaftParameters n XReal} (P : Contribution ℝ → ℝ) (cts : List (Contribution ℝ))
    (h : ∀ ct ∈ cts, ThirdTerm la laX p px T x ct (P ct))
    (P0 : ℝ) (A0 : ℝ → ℝ) (d0 : XDual3) (E0 : ℝ → ℝ) (h1 : rhoX3.R (fun y => A0 (y.1.1.2 + y.1.2 + y.2)) d0)
    (h2 : Tendsto (fun t => (E0 t - A0 t) / t ^ 3) (𝓝[≠] 0) (𝓝 P0)) :
    ∃ (A : ℝ → ℝ) (d : XDual3) (E : ℝ → ℝ),
      (cts.map (Contribution.map XReal.fin)).foldlM (fun acc ct =>
        match ct.helmholtzEnergy laX px (virialStateX3 T x) with
        | .error err => .error err
        | .ok a => .ok (acc + a)) d0 = (.ok d : Except Panic XDual3)
      ∧ rhoX3.R (fun y => A (y.1.1.2 + y.1.2 + y.2)) d
      ∧ (∀ᶠ t in 𝓝[≠] (0 : ℝ), cts.foldlM (fun acc ct =>
        match ct.helmholtzEnergy la p (StateHD.new T 1 (fun i => x i * t)) with
        | .error err => .error err
        | .ok a => .ok (acc + a)) (E0 t) = (.ok (E t) : Except Panic ℝ))
      ∧ Tendsto (fun t => (E t - A t) / t ^ 3) (𝓝[≠] 0) (𝓝 (P0 + (cts.map P).sum)) := by
  induction cts generalizing P0 A0 d0 E0 with
  | nil => exact ⟨A0, d0, E0, rfl, h1, .of_forall fun _ => rfl, by simpa using h2⟩
  | cons ct cts ih =>
    obtain ⟨A', d', E', g1, g2, g3, g4⟩ := h ct (by simp)
    obtain ⟨A, d, E, i1, i2, i3, i4⟩ := ih (fun ct' h' => h ct' (by simp [h'])) (P0 + P ct) (fun t => A0 t + A' t)
      (d0 + d') (fun t => E0 t + E' t) (rhoX3.add h1 g2) ((h2.add g4).congr fun t => by ring)
    refine ⟨A, d, E, ?_, i2, ?_, ?_⟩
    · rw [List.map_cons, List.foldlM_cons, g1]
      exact i1
    · filter_upwards [i3, g3] with t j1 j2
      rw [List.foldlM_cons, j2]
      exact j1
    · rw [List.map_cons, List.sum_cons, ← add_assoc]
      exact i4

theorem leftOut_sum (p : PcSaftParameters n ℝ) (o : PcSaftOptions ℝ) :
    ((buildContributions p o).map (leftOut p T x)).sum
      = leftOut p T x .dipole + leftOut p T x .quadrupole + leftOut p T x (.dipoleQuadrupole .DQ35) := by
  have h0 : (0.0 : ℝ) = 0 := by norm_num
  have e1 : p.ndipole = 0 → leftOut p T x .dipole = 0 ∧ leftOut p T x (.dipoleQuadrupole .DQ35) = 0 := fun h => by
    have h' : p.dipole_comp = [] := List.length_eq_zero_iff.mp h
    constructor
    · simp [leftOut, dipolePhi3, h', c, ofF_real, h0]
    · simp [leftOut, dipoleQuadrupolePhi3, h', c, ofF_real, h0]
  have e2 : p.nquadpole = 0 → leftOut p T x .quadrupole = 0 ∧ leftOut p T x (.dipoleQuadrupole .DQ35) = 0 := fun h => by
    have h' : p.quadpole_comp = [] := List.length_eq_zero_iff.mp h
    constructor
    · simp [leftOut, quadrupolePhi3, h', c, ofF_real, h0]
    · simp [leftOut, dipoleQuadrupolePhi3, h', foldl_id, c, ofF_real, h0]
  have e3 : ∀ v, leftOut p T x (.dipoleQuadrupole v) = leftOut p T x (.dipoleQuadrupole .DQ35) := fun _ => rfl
  have l1 : leftOut p T x .hardSphere = 0 := rfl
  have l2 : leftOut p T x .hardChain = 0 := rfl
  have l3 : leftOut p T x .dispersion = 0 := rfl
  have l4 : leftOut p T x .association = 0 := rfl
  have l5 : ∀ a b, leftOut p T x (.crossAssociation a b) = 0 := fun _ _ => rfl
  unfold buildContributions
  generalize p.nassoc = na
  rcases Nat.eq_zero_or_pos p.ndipole with hd | hd <;> rcases Nat.eq_zero_or_pos p.nquadpole with hq | hq <;>
    rcases na with _ | _ | na
  · simp [hd, hq, e1 hd, e2 hq, l1, l2, l3]
  · simp [hd, hq, e1 hd, e2 hq, l1, l2, l3, l4]
  · simp [hd, hq, e1 hd, e2 hq, l1, l2, l3, l5]
  · simp [hd, hq, e1 hd, l1, l2, l3]
  · simp [hd, hq, e1 hd, l1, l2, l3, l4]
  · simp [hd, hq, e1 hd, l1, l2, l3, l5]
  · simp [hd, hq, e2 hq, l1, l2, l3]
  · simp [hd, hq, e2 hq, l1, l2, l3, l4]
  · simp [hd, hq, e2 hq, l1, l2, l3, l5]
  · simp [hd, hq, e3 o.dq_variant, l1, l2, l3, add_assoc]
  · simp [hd, hq, e3 o.dq_variant, l1, l2, l3, l4, add_assoc]
  · simp [hd, hq, e3 o.dq_variant, l1, l2, l3, l5, add_assoc]

include hr hT in
/-- the terms left out are those of the theory -/
theorem leftOut_theory : leftOut (fromRecords pr k) T x .dipole + leftOut (fromRecords pr k) T x .quadrupole
      + leftOut (fromRecords pr k) T x (.dipoleQuadrupole .DQ35)
    = (fluidOf pr k).threeDipoles T x CD + (fluidOf pr k).threeQuadrupoles T x CQ
      + (fluidOf pr k).threeMixed T x ALPHA CDQ := by
  have hok := polarOk_fromRecords pr k (fun i => (hr.m i).le)
  have hs1 : ∀ i, dipoleTerm (fromRecords pr k) T⁻¹ i = (fluidOf pr k).dipoleStrength T i := fun i =>
    dipoleTerm_theory pr k T i (hr.m i).ne' (hr.sigma i).ne' (hr.epsilon i).ne' hT.ne'
  have hs2 : ∀ i, quadrupoleTerm (fromRecords pr k) T⁻¹ i = (fluidOf pr k).quadrupoleStrength T i := fun i =>
    quadrupoleTerm_theory pr k T i (hr.m i).ne' (hr.sigma i).ne' (hr.epsilon i).ne' hT.ne'
  have hs3 : ∀ i, dqTerm (fromRecords pr k) (fromRecords pr k).mu2 T⁻¹ i
      = (fluidOf pr k).dipoleStrength T i * (fluidOf pr k).sigma i := fun i =>
    muTerm_theory pr k T i (hr.m i).ne' (hr.sigma i).ne' (hr.epsilon i).ne' hT.ne'
  have hs4 : ∀ i, dqTerm (fromRecords pr k) (fromRecords pr k).q2 T⁻¹ i
      = (fluidOf pr k).quadrupoleStrength T i / (fluidOf pr k).sigma i :=
    fun i => qTerm_theory pr k T i (hr.m i).ne' (hr.sigma i).ne' (hr.epsilon i).ne' hT.ne'
  have h4 : (PI_SQ_43 : ℝ) = 4 / 3 * Real.pi ^ 2 := by
    simp only [PI_SQ_43, pi_real]
    norm_num
    ring
  have h56 : (0.5625 : ℝ) = 9 / 16 := by norm_num
  have e1 : leftOut (fromRecords pr k) T x .dipole = (fluidOf pr k).threeDipoles T x CD := by
    simp only [leftOut, dipolePhi3_real hok, Spec.Fluid.threeDipoles, dipK3, hs1, sigmaIJ_theory, tripI_theory pr k hr.m,
      neg_mul, Finset.sum_mul, Finset.mul_sum, h4, ← Finset.sum_neg_distrib]
    exact Finset.sum_congr rfl fun i _ => Finset.sum_congr rfl fun j _ => Finset.sum_congr rfl fun l _ => by ring
  have e2 : leftOut (fromRecords pr k) T x .quadrupole = (fluidOf pr k).threeQuadrupoles T x CQ := by
    simp only [leftOut, quadrupolePhi3_real hok, Spec.Fluid.threeQuadrupoles, quadK3, hs2, sigmaIJ_theory,
      tripI_theory pr k hr.m, Finset.sum_mul, Finset.mul_sum, h56]
    exact Finset.sum_congr rfl fun i _ => Finset.sum_congr rfl fun j _ => Finset.sum_congr rfl fun l _ => by ring
  have e3 : leftOut (fromRecords pr k) T x (.dipoleQuadrupole .DQ35) = (fluidOf pr k).threeMixed T x ALPHA CDQ := by
    simp only [leftOut, dipoleQuadrupolePhi3_real hok, Spec.Fluid.threeMixed, dqK3d, dqK3q, hs3, hs4, sigmaIJ_theory,
      dqI3_theory pr k hr.m, Finset.sum_mul, Finset.mul_sum]
    exact Finset.sum_congr rfl fun i _ => Finset.sum_congr rfl fun j _ => Finset.sum_congr rfl fun l _ => by ring
  rw [e1, e2, e3]

include hr hk hT h0 hx in
/-- the evaluation at zero density and the energy at low density -/
theorem third_total (la : LinAlg ℝ ℝ) (laX : LinAlg XReal XDual3) (o : PcSaftOptions ℝ)
    (hd : ∀ ct ∈ buildContributions (fromRecords pr k) o, DiluteRegular (fromRecords pr k) T x ct)
    (hnb : ∀ a ∈ (fromRecords pr k).assoc_comp, 0 < (fromRecords pr k).nb a) :
    ∃ (a0 a1 a2 a3 : ℝ) (d : XDual3),
      (Eos.withOptions (xParameters pr k) (o.map XReal.fin)).residualHelmholtz laX (virialStateX3 T x) = .ok d
      ∧ d.re.re.re = .fin a0 ∧ d.eps.re.re = .fin a1 ∧ d.eps.eps.re = .fin a2 ∧ d.eps.eps.eps = .fin a3
      ∧ ∃ E : ℝ → ℝ, (∀ᶠ t in 𝓝[≠] (0 : ℝ),
        (Eos.withOptions (fromRecords pr k) o).residualHelmholtz la (StateHD.new T 1 (fun i => x i * t)) = .ok (E t))
      ∧ Tendsto (fun t => (E t - (a0 + a1 * t + a2 / 2 * t ^ 2)) / t ^ 3) (𝓝[≠] 0)
        (𝓝 (a3 / 6 + ((fluidOf pr k).threeDipoles T x CD + (fluidOf pr k).threeQuadrupoles T x CQ
          + (fluidOf pr k).threeMixed T x ALPHA CDQ))) := by
  obtain ⟨A, d, E, h1, h2, h3, h4⟩ := third_sum (la := la) (laX := laX) (p := fromRecords pr k)
    (px := xParameters pr k) (T := T) (x := x) (leftOut (fromRecords pr k) T x) (buildContributions (fromRecords pr k) o)
    (fun ct hct => thirdTerm hr hk hT h0 hx la laX ct (hd ct hct) hnb) 0 (fun _ => 0.0) (c (0.0 : XReal))
    (fun _ => c (0.0 : ℝ)) (rhoX3.constOf (CR.sci XReal.lawfulEmb _ _ _)) (by norm_num [c])
  rw [zero_add, leftOut_sum, leftOut_theory hr hT] at h4
  obtain ⟨a1, a2, a3, t0, t1, t2, t3, t4⟩ := taylor3 h2
  refine ⟨A 0, a1, a2, a3, d, ?_, t0, t1, t2, t3, E, ?_, ?_⟩
  · rw [← buildContributions_fin (xParameters_rel' hr hk) o] at h1
    rw [← h1]
    exact congrArg (fun f => List.foldlM f _ _) (by
      funext acc ct
      simp only [Eos.withOptions]
      cases ct.helmholtzEnergy laX (xParameters pr k) (virialStateX3 T x) <;> rfl)
  · filter_upwards [h3] with t ht
    rw [← ht]
    exact congrArg (fun f => List.foldlM f _ _) (by
      funext acc ct
      simp only [Eos.withOptions]
      cases ct.helmholtzEnergy la (fromRecords pr k) (StateHD.new T 1 (fun i => x i * t)) <;> rfl)
  · refine (t4.add h4).congr fun t => ?_
    ring

/-- two expansions to third order are the same -/
theorem coeff_unique {ι : Type*} {l : Filter ι} [l.NeBot] {t g : ι → ℝ} (ht : Tendsto t l (𝓝 0))
    (hne : ∀ᶠ i in l, t i ≠ 0) {a0 a1 a2 s L S : ℝ}
    (h1 : Tendsto (fun i => (g i - (a0 + a1 * t i + a2 * t i ^ 2)) / t i ^ 3) l (𝓝 L))
    (h2 : Tendsto (fun i => (g i - s * t i ^ 2) / t i ^ 3) l (𝓝 S)) : a0 = 0 ∧ a1 = 0 ∧ a2 = s ∧ L = S := by
  have h3 := h2.sub h1
  have e0 : Tendsto (fun i => a0 + a1 * t i + (a2 - s) * t i ^ 2) l (𝓝 0) := by
    have := h3.mul (ht.pow 3)
    rw [zero_pow three_ne_zero, mul_zero] at this
    refine this.congr' (hne.mono fun i hi => ?_)
    field_simp
    ring
  have z0 : a0 = 0 := by
    have : Tendsto (fun i => a0 + a1 * t i + (a2 - s) * t i ^ 2) l (𝓝 (a0 + a1 * 0 + (a2 - s) * 0 ^ 2)) :=
      (tendsto_const_nhds.add (ht.const_mul a1)).add ((ht.pow 2).const_mul _)
    have := tendsto_nhds_unique this e0
    simpa using this
  subst z0
  have e1 : Tendsto (fun i => a1 + (a2 - s) * t i) l (𝓝 0) := by
    have := h3.mul (ht.pow 2)
    rw [zero_pow two_ne_zero, mul_zero] at this
    refine this.congr' (hne.mono fun i hi => ?_)
    field_simp
    ring
  have z1 : a1 = 0 := by
    have : Tendsto (fun i => a1 + (a2 - s) * t i) l (𝓝 (a1 + (a2 - s) * 0)) := tendsto_const_nhds.add (ht.const_mul _)
    have := tendsto_nhds_unique this e1
    simpa using this
  subst z1
  have e2 : Tendsto (fun _ => a2 - s) l (𝓝 0) := by
    have := h3.mul ht
    rw [mul_zero] at this
    refine this.congr' (hne.mono fun i hi => ?_)
    field_simp
    ring
  have z2 : a2 = s := sub_eq_zero.1 (tendsto_nhds_unique tendsto_const_nhds e2)
  subst z2
  exact ⟨rfl, rfl, rfl, tendsto_nhds_unique (h1.congr fun i => by ring) h2⟩

/-- the two virial coefficients of the code and those of its pressures, with the constants of the code -/
theorem third_virial (hr : PositiveRecords pr) (hk : ∀ i, 0 ≤ (fromRecords pr k).kappa_ab i) {V₁ : ℝ} {N : Fin n → ℝ}
    (h : Admissible (fromRecords pr k) T V₁ N) (o : PcSaftOptions ℝ)
    (hd : ∀ ct ∈ buildContributions (fromRecords pr k) o, DiluteRegular (fromRecords pr k) T N ct)
    (hnb : ∀ a ∈ (fromRecords pr k).assoc_comp, 0 < (fromRecords pr k).nb a) (laX : LinAlg XReal XDual3)
    (laD : LinAlg ℝ (Dual ℝ)) :
    ∃ b c, IsThirdVirial pr k o laX T (fun i => N i / ∑ j, N j) b c
      ∧ VirialOfPressures (fromRecords pr k) o laD T N b
        (c + 2 * ((fluidOf pr k).threeDipoles T (fun i => N i / ∑ j, N j) CD
          + (fluidOf pr k).threeQuadrupoles T (fun i => N i / ∑ j, N j) CQ
          + (fluidOf pr k).threeMixed T (fun i => N i / ∑ j, N j) ALPHA CDQ)) := by
  have hN := h.total_pos
  set ν := ∑ i, N i with hν
  have hx : ∑ i, N i / ν = 1 := by rw [← Finset.sum_div, ← hν, div_self hN.ne']
  have h0 : ∀ i, 0 ≤ N i / ν := fun i => div_nonneg (h.moles_nonneg i) hN.le
  let la : LinAlg ℝ ℝ := ⟨fun _ _ _ => none, fun _ _ _ => none, 0⟩
  obtain ⟨a0, a1, a2, a3, d, hdd, d0, d1, d2, d3, E, hE, hlim⟩ := third_total hr hk h.temperature h0 hx la laX o
    (fun ct hct => diluteRegular_composition hr hN.ne' ct (hd ct hct)) hnb
  set L := (fluidOf pr k).threeDipoles T (fun i => N i / ν) CD
          + (fluidOf pr k).threeQuadrupoles T (fun i => N i / ν) CQ
          + (fluidOf pr k).threeMixed T (fun i => N i / ν) ALPHA CDQ with hL
  obtain ⟨F, hF, hev⟩ := dilute_residual la laD h o hd (fun _ => 0) (fun V => 1 / V) (fun _ => 0)
  obtain ⟨s₂, s₃, hs1, hs2, hs3⟩ := hF.third
  have hu : ∀ a : ℝ, 0 < a → Tendsto (fun V : ℝ => a / V) atTop (𝓝[≠] 0) := fun a ha =>
    tendsto_nhdsWithin_iff.2 ⟨tendsto_const_nhds.div_atTop tendsto_id, (eventually_gt_atTop 0).mono fun V hV =>
      (div_pos ha hV).ne'⟩
  have hFE : ∀ᶠ V : ℝ in atTop, F (1 / V, (T, N)) = E (ν / V) := by
    filter_upwards [hev, (hu ν hN).eventually hE, eventually_gt_atTop 0] with V h1 h2 hV
    have e1 : StateHD.new T V N = StateHD.new T (V * 1) (fun i => V * (N i / ν * (ν / V))) := by
      rw [mul_one]
      congr 1
      funext i
      field_simp
    have h3 := h1.1
    rw [e1, C14_residual_extensive la _ T 1 _ V hV, h2] at h3
    have h4 : V * E (ν / V) = V * F (1 / V, (T, N)) := Except.ok.inj h3
    exact (mul_left_cancel₀ hV.ne' h4).symm
  have t1 : Tendsto (fun V : ℝ => (F (1 / V, (T, N)) - (a0 + a1 * (ν / V) + a2 / 2 * (ν / V) ^ 2)) / (ν / V) ^ 3) atTop
      (𝓝 (a3 / 6 + L)) := by
    refine (hlim.comp (hu ν hN)).congr' ?_
    filter_upwards [hFE] with V e
    simp only [Function.comp_apply]
    rw [e]
  have t2 : Tendsto (fun V : ℝ => (F (1 / V, (T, N)) - s₂ / ν ^ 2 * (ν / V) ^ 2) / (ν / V) ^ 3) atTop
      (𝓝 (s₃ / 2 / ν ^ 3)) := by
    refine ((hs2.comp (hu 1 one_pos)).div_const (ν ^ 3)).congr' ?_
    filter_upwards [eventually_gt_atTop 0] with V hV
    simp only [Function.comp_apply]
    field_simp
  obtain ⟨z0, z1, z2, z3⟩ := coeff_unique (tendsto_nhds_of_tendsto_nhdsWithin (hu ν hN))
    ((eventually_gt_atTop 0).mono fun V hV => (div_pos hN hV).ne') t1 t2
  refine ⟨a2 / 2, a3 / 3, ⟨d, hdd, by rw [d0, z0], by rw [d1, z1], by rw [d2]; congr 1; ring, by rw [d3]; congr 1; ring⟩,
    fun ε hε => ?_⟩
  have t3 : Tendsto (fun V : ℝ => (1 / V * fderiv ℝ F (1 / V, (T, N)) (1, 0) - F (1 / V, (T, N)) - s₂ * (1 / V) ^ 2)
      / (1 / V) ^ 3 / ν ^ 3) atTop (𝓝 (a3 / 3 + 2 * L)) := by
    have := (hs3.comp (hu 1 one_pos)).div_const (ν ^ 3)
    have e : s₃ / ν ^ 3 = a3 / 3 + 2 * L := by
      have e1 : s₃ / ν ^ 3 = 2 * (s₃ / 2 / ν ^ 3) := by ring
      rw [e1, ← z3]
      ring
    rwa [e] at this
  obtain ⟨V₀, hV₀⟩ := eventually_atTop.1
    (hev.and ((t3.eventually (Metric.closedBall_mem_nhds _ hε)).and (eventually_gt_atTop 0)))
  refine ⟨V₀, fun V hV => ?_⟩
  obtain ⟨⟨-, g1⟩, g2, g3⟩ := hV₀ V hV
  have e : V * (1 / V) = 1 := mul_one_div_cancel g3.ne'
  rw [seededState, e] at g1
  refine ⟨_, ⟨_, g1, rfl⟩, ?_⟩
  have e2 : fderiv ℝ F (1 / V, (T, N)) (0, ((0 : ℝ), (0 : Fin n → ℝ))) = 0 :=
    (fderiv ℝ F (1 / V, (T, N))).map_zero
  change dist _ _ ≤ _ at g2
  rw [Real.dist_eq] at g2
  convert g2 using 3
  unfold diluteSlope
  rw [e2, ← hν, z2]
  field_simp
  ring

end records

theorem _root_.PcSaft.Spec.VirialOfPressures.unique {p : PcSaftParameters n ℝ} {o : PcSaftOptions ℝ} {laD : LinAlg ℝ (Dual ℝ)}
    {T : ℝ} {N : Fin n → ℝ} {b C C' : ℝ} (h : VirialOfPressures p o laD T N b C) (h' : VirialOfPressures p o laD T N b C') :
    C = C' := by
  by_contra hne
  have hpos : 0 < |C - C'| := abs_pos.2 (sub_ne_zero.2 hne)
  obtain ⟨V₀, h1⟩ := h (|C - C'| / 3) (by linarith)
  obtain ⟨V₀', h2⟩ := h' (|C - C'| / 3) (by linarith)
  obtain ⟨P, ⟨d, p1, p2⟩, p3⟩ := h1 (max V₀ V₀') (le_max_left _ _)
  obtain ⟨Q, ⟨e, q1, q2⟩, q3⟩ := h2 (max V₀ V₀') (le_max_right _ _)
  have : P = Q := by rw [p2, q2, Except.ok.inj (p1.symm.trans q1)]
  subst this
  have := abs_sub_le C (((P * max V₀ V₀' / (∑ i, N i) - 1) * (max V₀ V₀' / ∑ i, N i) - b) * (max V₀ V₀' / ∑ i, N i)) C'
  rw [abs_sub_comm C (_ * _)] at this
  linarith

theorem _root_.PcSaft.Spec.IsThirdVirial.unique {pr : Fin n → PureRecord ℝ} {k : Fin n → Fin n → ℝ} {o : PcSaftOptions ℝ}
    {laX : LinAlg XReal XDual3} {T : ℝ} {x : Fin n → ℝ} {b c b' c' : ℝ} (h : IsThirdVirial pr k o laX T x b c)
    (h' : IsThirdVirial pr k o laX T x b' c') : b = b' ∧ c = c' := by
  obtain ⟨d, h1, -, -, h2, h3⟩ := h
  obtain ⟨d', h1', -, -, h2', h3'⟩ := h'
  have ed : d = d' := Except.ok.inj (h1.symm.trans h1')
  subst ed
  rw [h2] at h2'
  rw [h3] at h3'
  have e2 := XReal.fin.inj h2'
  have e3 := XReal.fin.inj h3'
  exact ⟨by linarith, by linarith⟩

/-- C109: the third virial coefficient of the code and that of its pressures.  The evaluation at zero density succeeds
with finite numbers.  The second coefficient is that of the pressures; the third one lacks twice the interaction of three
polar molecules of the theory, with the published constants (up to their rounding). -/
theorem C109_difference : ∃ (dD dQ : Fin 4 → Fin 3 → ℝ) (alpha : ℝ) (dDQ : Fin 3 → Fin 2 → ℝ),
    (∀ i j, |dD i j - publishedCD i j| ≤ 5e-7) ∧ (∀ i j, |dQ i j - publishedCQ i j| ≤ 5e-7)
    ∧ |alpha - publishedAlpha| ≤ 5e-6 ∧ (∀ i j, |dDQ i j - publishedCDQ i j| ≤ 5e-7)
    ∧ ∀ (n : ℕ) (pr : Fin n → PureRecord ℝ) (k : Fin n → Fin n → ℝ) (T V₁ : ℝ) (N : Fin n → ℝ) (o : PcSaftOptions ℝ)
      (laX : LinAlg XReal XDual3) (laD : LinAlg ℝ (Dual ℝ)),
      PositiveRecords pr → (∀ i, 0 ≤ (fromRecords pr k).kappa_ab i) → Admissible (fromRecords pr k) T V₁ N →
      (∀ ct ∈ buildContributions (fromRecords pr k) o, DiluteRegular (fromRecords pr k) T N ct) →
      (∀ a ∈ (fromRecords pr k).assoc_comp, 0 < (fromRecords pr k).nb a) →
      let x := fun i => N i / ∑ j, N j
      let f := fluidOf pr k
      ∃ b c, IsThirdVirial pr k o laX T x b c
        ∧ VirialOfPressures (fromRecords pr k) o laD T N b
          (c + 2 * (f.threeDipoles T x dD + f.threeQuadrupoles T x dQ + f.threeMixed T x alpha dDQ)) := by
  refine ⟨CD, CQ, ALPHA, CDQ, ?_, ?_, ?_, ?_, fun n pr k T V₁ N o laX laD hr hk h hd hnb =>
    third_virial hr hk h o hd hnb laX laD⟩
  · intro i j
    fin_cases i <;> fin_cases j <;> norm_num [CD, Spec.publishedCD, abs_le]
  · intro i j
    fin_cases i <;> fin_cases j <;> norm_num [CQ, Spec.publishedCQ, abs_le]
  · norm_num [ALPHA, Spec.publishedAlpha, abs_le]
  · intro i j
    fin_cases i <;> fin_cases j <;> norm_num [CDQ, Spec.publishedCDQ, abs_le]

section records
variable {pr : Fin n → PureRecord ℝ} {k : Fin n → Fin n → ℝ} {T : ℝ}

/-- C109 without polar components: the third virial coefficient of the code is that of its pressures.  For polar
components the claim fails, see `C109_dipole_counterexample`. -/
theorem C109_nonpolar_partial (hr : PositiveRecords pr) (hk : ∀ i, 0 ≤ (fromRecords pr k).kappa_ab i) {V₁ : ℝ}
    {N : Fin n → ℝ} (h : Admissible (fromRecords pr k) T V₁ N) (o : PcSaftOptions ℝ)
    (hmu : ∀ i, (pr i).model_record.mu.getD 0 = 0) (hq : ∀ i, (pr i).model_record.q.getD 0 = 0)
    (hd : ∀ ct ∈ buildContributions (fromRecords pr k) o, DiluteRegular (fromRecords pr k) T N ct)
    (hnb : ∀ a ∈ (fromRecords pr k).assoc_comp, 0 < (fromRecords pr k).nb a) (laX : LinAlg XReal XDual3)
    (laD : LinAlg ℝ (Dual ℝ)) :
    ∃ b c, IsThirdVirial pr k o laX T (fun i => N i / ∑ j, N j) b c
      ∧ VirialOfPressures (fromRecords pr k) o laD T N b c := by
  obtain ⟨b, c, h1, h2⟩ := third_virial hr hk h o hd hnb laX laD
  have s1 : ∀ i, (fluidOf pr k).dipoleStrength T i = 0 := fun i => by
    simp [Fluid.dipoleStrength, fluidOf, hmu]
  have s2 : ∀ i, (fluidOf pr k).quadrupoleStrength T i = 0 := fun i => by
    simp [Fluid.quadrupoleStrength, fluidOf, hq]
  refine ⟨b, c, h1, ?_⟩
  convert h2 using 1
  simp [Fluid.threeDipoles, Fluid.threeQuadrupoles, Fluid.threeMixed, s1, s2]

end records

section pure
variable {pr : Fin 1 → PureRecord ℝ} {k : Fin 1 → Fin 1 → ℝ} {T : ℝ}

/-- three dipoles of a pure substance -/
theorem threeDipoles_pos (hr : PositiveRecords pr) (hm : 1 ≤ (pr 0).model_record.m)
    (hmu : (pr 0).model_record.mu.getD 0 ≠ 0) (hT : 0 < T) : 0 < (fluidOf pr k).threeDipoles T (fun _ => 1) CD := by
  have hs : 0 < (fluidOf pr k).dipoleStrength T 0 := by
    have h1 : 0 < (fluidOf pr k).mu 0 ^ 2 := by
      have : (fluidOf pr k).mu 0 ≠ 0 := hmu
      positivity
    have h2 : 0 < (fluidOf pr k).m 0 := hr.m 0
    simp only [Fluid.dipoleStrength, Fluid.debyeSq, Fluid.kB]
    positivity
  have hsig : 0 < (fluidOf pr k).sigmaIJ 0 0 := by
    have : 0 < (fluidOf pr k).sigma 0 := hr.sigma 0
    simp only [Fluid.sigmaIJ]
    linarith
  set a := (fluidOf pr k).mP 0 with ha
  have ha1 : 1 ≤ a := le_min hm (by norm_num)
  have ha2 : a ≤ 2 := min_le_right _ _
  have hj : (fluidOf pr k).j3 CD 0 0 0 0 < 0 := by
    have e : (fluidOf pr k).mTriplet 0 0 0 = a := by
      rw [Fluid.mTriplet, ← ha]
      have : a * a * a = a ^ (3 : ℝ) := by norm_cast; ring
      rw [this, ← Real.rpow_mul (by linarith)]
      norm_num
    simp only [Fluid.j3, e, Fin.sum_univ_four, Fluid.coeff]
    have h0 : 0 ≤ (a - 1) / a := div_nonneg (by linarith) (by linarith)
    have h1 : -1 ≤ (a - 2) / a := by
      rw [le_div_iff₀ (by linarith)]
      linarith
    have h2 : (CD 0 0 : ℝ) < 0 := by norm_num [CD]
    have h3 : (CD 0 1 : ℝ) ≤ -0.9 := by norm_num [CD]
    have h4 : (-0.7 : ℝ) ≤ CD 0 2 := by simp [CD]; norm_num
    have h5 : (CD 0 2 : ℝ) ≤ 0 := by simp [CD]; norm_num
    norm_num
    have h6 : (a - 2) / a * (CD 0 2 : ℝ) ≤ 0.7 := by nlinarith
    have h7 : (a - 1) / a * ((CD 0 1 : ℝ) + (a - 2) / a * CD 0 2) ≤ 0 :=
      mul_nonpos_of_nonneg_of_nonpos h0 (by linarith)
    linarith
  simp only [Fluid.threeDipoles, Finset.univ_unique, Fin.default_eq_zero, Finset.sum_singleton]
  have hp := Real.pi_pos
  have : 0 < 1 * 1 * 1 * (fluidOf pr k).dipoleStrength T 0 * (fluidOf pr k).dipoleStrength T 0
    * (fluidOf pr k).dipoleStrength T 0
    / ((fluidOf pr k).sigmaIJ 0 0 * (fluidOf pr k).sigmaIJ 0 0 * (fluidOf pr k).sigmaIJ 0 0) := by positivity
  have h2 := mul_neg_of_pos_of_neg this hj
  have h3 : (0 : ℝ) < 4 / 3 * Real.pi ^ 2 := by positivity
  nlinarith

/-- C109, disagreement: for every pure substance with a dipole and at least one segment the third virial coefficient of
the code is lower than that of its pressures. -/
theorem C109_dipole_counterexample (hr : PositiveRecords pr) (hk : ∀ i, 0 ≤ (fromRecords pr k).kappa_ab i) {V₁ : ℝ}
    (h : Admissible (fromRecords pr k) T V₁ (fun _ => 1)) (o : PcSaftOptions ℝ) (hm : 1 ≤ (pr 0).model_record.m)
    (hmu : (pr 0).model_record.mu.getD 0 ≠ 0) (hq : (pr 0).model_record.q.getD 0 = 0)
    (hd : ∀ ct ∈ buildContributions (fromRecords pr k) o, DiluteRegular (fromRecords pr k) T (fun _ => 1) ct)
    (hnb : ∀ a ∈ (fromRecords pr k).assoc_comp, 0 < (fromRecords pr k).nb a) (laX : LinAlg XReal XDual3)
    (laD : LinAlg ℝ (Dual ℝ)) :
    ∃ b c C, IsThirdVirial pr k o laX T (fun _ => 1) b c ∧ VirialOfPressures (fromRecords pr k) o laD T (fun _ => 1) b C
      ∧ c < C ∧ ¬ VirialOfPressures (fromRecords pr k) o laD T (fun _ => 1) b c := by
  obtain ⟨b, c, h1, h2⟩ := third_virial hr hk h o hd hnb laX laD
  have ex : (fun _ : Fin 1 => (1 : ℝ) / ∑ _j : Fin 1, (1 : ℝ)) = fun _ => 1 := by
    funext i
    simp
  rw [ex] at h1 h2
  have s2 : ∀ i, (fluidOf pr k).quadrupoleStrength T i = 0 := fun i => by
    rw [Subsingleton.elim i 0]
    simp [Fluid.quadrupoleStrength, fluidOf, hq]
  have e2 : (fluidOf pr k).threeQuadrupoles T (fun _ => 1) CQ = 0 := by simp [Fluid.threeQuadrupoles, s2]
  have e3 : (fluidOf pr k).threeMixed T (fun _ => 1) ALPHA CDQ = 0 := by simp [Fluid.threeMixed, s2]
  rw [e2, e3, add_zero, add_zero] at h2
  have hpos := threeDipoles_pos (k := k) hr hm hmu h.temperature
  refine ⟨b, c, _, h1, h2, by linarith, fun hc => ?_⟩
  have := hc.unique h2
  linarith

end pure

/-! ## Cases that meet the hypotheses -/

/-- a sphere with a dipole -/
noncomputable def dipoleSphere (_ : Fin 1) : PureRecord ℝ :=
  ⟨⟨none, ""⟩, 44, ⟨1, 3, 100, some 2, none, none, none, none, none, none, none, none⟩, none⟩

theorem dipoleSphere_positive : PositiveRecords dipoleSphere := by
  constructor <;> intro i <;> norm_num [dipoleSphere]

theorem dipoleSphere_kappa (i : Fin 1) : (fromRecords dipoleSphere (fun _ _ => 0)).kappa_ab i = 0 := by
  norm_num [fromRecords, dipoleSphere]

theorem dipoleSphere_admissible : Admissible (fromRecords dipoleSphere (fun _ _ => 0)) 100 1000 (fun _ => 1) where
  temperature := by norm_num
  volume := by norm_num
  m_pos := dipoleSphere_positive.m
  sigma_pos := dipoleSphere_positive.sigma
  epsilon_nonneg i := (dipoleSphere_positive.epsilon i).le
  moles_nonneg _ := zero_le_one
  moles_ne_zero := ⟨0, one_ne_zero⟩
  packing := polarSphere_admissible.packing

theorem dipoleSphere_dilute (o : PcSaftOptions ℝ) :
    ∀ ct ∈ buildContributions (fromRecords dipoleSphere (fun _ _ => 0)) o,
      DiluteRegular (fromRecords dipoleSphere (fun _ _ => 0)) 100 (fun _ => 1) ct := by
  have hok := polarOk_fromRecords dipoleSphere (fun _ _ => 0) (fun i => (dipoleSphere_positive.m i).le)
  have hok' := polarOk_fromRecords polarSphere (fun _ _ => 0) (fun i => (polarSphere_positive.m i).le)
  have hq : (fromRecords dipoleSphere (fun _ _ => 0)).nquadpole = 0 := nquadpole_of_none _ _ fun _ => rfl
  have hassoc : (fromRecords dipoleSphere (fun _ _ => 0)).nassoc = 0 := by
    rw [PcSaftParameters.nassoc, List.length_eq_zero_iff, List.eq_nil_iff_forall_not_mem]
    intro a ha
    exact (mem_assoc_comp dipoleSphere (fun _ _ => 0) a).1 ha (dipoleSphere_kappa a)
  intro ct hct
  cases ct with
  | dipole =>
    have hp : Contribution.dipole ∈ buildContributions (fromRecords polarSphere (fun _ _ => 0)) o := by
      have : 0 < (fromRecords polarSphere (fun _ _ => 0)).ndipole :=
        (length_nonzeroComp_pos _).mpr ⟨0, by norm_num [polarSphere, jouleKelvinKB]⟩
      simp [buildContributions, this]
    have := polarSphere_dilute o .dipole hp
    change dipolePhi2 _ _ _ _ ≠ 0 at this
    change dipolePhi2 _ _ _ _ ≠ 0
    rw [dipolePhi2_real hok'] at this
    rw [dipolePhi2_real hok]
    exact this
  | quadrupole => simp [buildContributions, hassoc, hq] at hct
  | dipoleQuadrupole v => simp [buildContributions, hassoc, hq] at hct
  | association => simp [buildContributions, hassoc] at hct
  | _ => trivial

/-- C109, the disagreement for this sphere -/
example (laX : LinAlg XReal XDual3) (laD : LinAlg ℝ (Dual ℝ)) :=
  C109_dipole_counterexample dipoleSphere_positive (fun i => (dipoleSphere_kappa i).ge) dipoleSphere_admissible
    PcSaftOptions.default (by norm_num [dipoleSphere]) (by norm_num [dipoleSphere]) (by norm_num [dipoleSphere])
    (dipoleSphere_dilute _) (fun a ha => absurd (dipoleSphere_kappa a) ((mem_assoc_comp dipoleSphere (fun _ _ => 0) a).1 ha))
    laX laD

/-- C109 for a sphere with a dipole and a quadrupole -/
example (laX : LinAlg XReal XDual3) (laD : LinAlg ℝ (Dual ℝ)) : ∃ b c C,
    IsThirdVirial polarSphere (fun _ _ => 0) .default laX 100 (fun _ => 1 / ∑ _j : Fin 1, 1) b c
      ∧ VirialOfPressures (fromRecords polarSphere (fun _ _ => 0)) .default laD 100 (fun _ => 1) b C := by
  obtain ⟨dD, dQ, alpha, dDQ, -, -, -, -, h⟩ := C109_difference
  have hnb : ∀ a ∈ (fromRecords polarSphere (fun _ _ => 0)).assoc_comp,
      0 < (fromRecords polarSphere (fun _ _ => 0)).nb a := fun a ha =>
    absurd (by norm_num [fromRecords, polarSphere]) ((mem_assoc_comp polarSphere (fun _ _ => 0) a).1 ha)
  obtain ⟨b, c, h1, h2⟩ := h 1 polarSphere (fun _ _ => 0) 100 1000 (fun _ => 1) .default laX laD polarSphere_positive
    polarSphere_kappa polarSphere_admissible (polarSphere_dilute _) hnb
  exact ⟨b, c, _, h1, h2⟩

/-- C109 for a mixture with one associating component -/
example (laX : LinAlg XReal XDual3) (laD : LinAlg ℝ (Dual ℝ)) :=
  have hr : PositiveRecords assocRecords := ⟨fun i => (assocRecords_positive i).1, fun i => (assocRecords_positive i).2.1,
    fun i => (assocRecords_positive i).2.2⟩
  have hnb : ∀ a ∈ (fromRecords assocRecords (fun _ _ => 0)).assoc_comp,
      0 < (fromRecords assocRecords (fun _ _ => 0)).nb a := by
    rw [assocRecords_comp]
    intro a ha
    rw [List.mem_singleton.1 ha]
    norm_num [fromRecords, assocRecords]
  C109_nonpolar_partial hr assocRecords_kappa assocRecords_admissible PcSaftOptions.default
    (fun i => by fin_cases i <;> rfl) (fun i => by fin_cases i <;> rfl) (assocRecords_dilute _) hnb laX laD

/-- C109 for two associating components -/
example (laX : LinAlg XReal XDual3) (laD : LinAlg ℝ (Dual ℝ)) {K : ℝ} (hK : 0 < K) :=
  have hr : PositiveRecords (twinRecords K) := ⟨fun i => by norm_num [twinRecords], fun i => by norm_num [twinRecords],
    fun i => by norm_num [twinRecords]⟩
  have hk : ∀ i, 0 ≤ (fromRecords (twinRecords K) (fun _ _ => 0)).kappa_ab i := fun i => by
    simpa [fromRecords, twinRecords] using hK.le
  C109_nonpolar_partial hr hk (twinRecords_admissible K (fun _ _ => 0) (V := 1000) (by norm_num)) PcSaftOptions.default
    (fun i => by simp [twinRecords]) (fun i => by simp [twinRecords]) (twinRecords_dilute hK _ _ _)
    (fun a _ => by norm_num [fromRecords, twinRecords]) laX laD

end Props
end PcSaft
