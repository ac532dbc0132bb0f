import Verif.Props.Virial
import Verif.Props.Finite
import Verif.Props.Theory

/-!
# Second virial coefficients with infinities and NaN (C63)

At zero density the Padé quotient of the polar contributions is 0/0. The evaluation is modelled here with
second-order dual numbers over `XReal`, in which this quotient is NaN as in `f64`.
-/

open Filter Topology

namespace PcSaft.Props
open Spec Dual2
variable {n : ℕ}

/-- second-order dual numbers with infinities and NaN -/
abbrev XDual2 := Dual (Dual XReal)

/-- a second-order dual number with four finite components -/
def lift2 (d : Dual2) : XDual2 := ⟨⟨.fin d.re.re, .fin d.re.eps⟩, ⟨.fin d.eps.re, .fin d.eps.eps⟩⟩

noncomputable abbrev rhoX1 : Rep ((), (0 : ℝ)) XReal.IsFin (Dual XReal) := repDual XReal.lawfulEmb rhoX 0
noncomputable abbrev rhoX2 : Rep (((), (0 : ℝ)), (0 : ℝ)) XReal.IsFin XDual2 := repDual XReal.lawfulEmb rhoX1 0

theorem lift1_of {A : Unit × ℝ → ℝ} {d : Dual ℝ} {e : Dual XReal} (h : rho1.R A d) (hX : rhoX1.R A e) :
    e = ⟨.fin d.re, .fin d.eps⟩ := by
  obtain ⟨_, h1, A', h2, h3⟩ := h
  obtain ⟨_, k1, B', k2, k3⟩ := hX
  have hd : A' () = B' () := h2.self_of_nhds.unique k2.self_of_nhds
  ext
  · rw [k1.2, h1.2]
  · rw [k3.2, h3.2, hd]

/-- representations of one function over the reals and over the reals with NaN have the same components -/
theorem lift2_of {A : (Unit × ℝ) × ℝ → ℝ} {d : Dual2} {e : XDual2} (h : rho2.R A d) (hX : rhoX2.R A e) :
    e = lift2 d := by
  obtain ⟨_, h1, A', h2, h3⟩ := h
  obtain ⟨_, k1, B', k2, k3⟩ := hX
  have hd : A' =ᶠ[𝓝 ((), 0)] B' := by
    filter_upwards [h2, k2] with x hx kx
    exact hx.unique kx
  have e1 := lift1_of h1 k1
  have e2 := lift1_of (rho1.congr h3 hd) k3
  rw [lift2]
  cases e
  simp only at e1 e2
  rw [e1, e2]

theorem unique1_of {A : Unit × ℝ → ℝ} {d e : Dual ℝ} (h : rho1.R A d) (hX : rho1.R A e) : e = d := by
  obtain ⟨_, h1, A', h2, h3⟩ := h
  obtain ⟨_, k1, B', k2, k3⟩ := hX
  have hd : A' () = B' () := h2.self_of_nhds.unique k2.self_of_nhds
  ext
  · rw [k1.2, h1.2]
  · rw [k3.2, h3.2, hd]

theorem unique2_of {A : (Unit × ℝ) × ℝ → ℝ} {d e : Dual2} (h : rho2.R A d) (hX : rho2.R A e) : e = d := by
  obtain ⟨_, h1, A', h2, h3⟩ := h
  obtain ⟨_, k1, B', k2, k3⟩ := hX
  have hd : A' =ᶠ[𝓝 ((), 0)] B' := by
    filter_upwards [h2, k2] with x hx kx
    exact hx.unique kx
  have e1 := unique1_of h1 k1
  have e2 := unique1_of (rho1.congr h3 hd) k3
  exact Dual.ext e1 e2

/-- the state at which virial coefficients are evaluated -/
noncomputable def virialStateX (T : ℝ) (x : Fin n → ℝ) : StateHD n XDual2 :=
  StateHD.newVirial (c (XReal.fin T)) ⟨⟨.fin 0, .fin 1⟩, ⟨.fin 1, .fin 0⟩⟩ (fun i => c (XReal.fin (x i)))

theorem densityX : rhoX2.R (fun y => y.1.2 + y.2) (⟨⟨.fin 0, .fin 1⟩, ⟨.fin 1, .fin 0⟩⟩ : XDual2) := by
  have h1 : rhoX1.R (fun x => x.2) (⟨.fin 0, .fin 1⟩ : Dual XReal) := by
    have : DualR rhoX 0 (fun x => x.2) (⟨.fin 0, .fin 1⟩ : Dual XReal) := by
      simpa using dualR_seed rhoX (rhoX_const 0) (rhoX_const 1)
    exact this
  have h2 : rhoX1.R (fun _ => 1) (⟨.fin 1, .fin 0⟩ : Dual XReal) := by
    have : DualR rhoX 0 (fun _ => 1) (⟨.fin 1, .fin 0⟩ : Dual XReal) := by
      simpa using dualR_seed rhoX (rhoX_const 1) (rhoX_const 0)
    exact this
  have : DualR rhoX1 0 (fun y => y.1.2 + y.2) (⟨⟨.fin 0, .fin 1⟩, ⟨.fin 1, .fin 0⟩⟩ : XDual2) := by
    simpa using dualR_seed rhoX1 h1 h2
  exact this

theorem virialStateX_rel (T : ℝ) (x : Fin n → ℝ) :
    StateRel rhoX2 (fun y => StateHD.newVirial T (y.1.2 + y.2) x) (virialStateX T x) where
  temperature := rhoX2.constRel rfl
  volume := rhoX2.constOf (CR.sci XReal.lawfulEmb _ _ _)
  moles i := rhoX2.mul (rhoX2.constRel rfl) densityX
  molefracs i := rhoX2.constRel rfl
  partial_density i := rhoX2.mul (rhoX2.constRel rfl) densityX

/-- the result of a virial evaluation: value and first derivatives are zero, the mixed component is twice the
coefficient `b`; all components are finite -/
def VirialCoefficient (b : ℝ) (d : XDual2) : Prop :=
  d.re.re = .fin 0 ∧ d.re.eps = .fin 0 ∧ d.eps.re = .fin 0 ∧ d.eps.eps = .fin (2 * b)

theorem VirialCoefficient.of {b : ℝ} {d : Dual2} {e : XDual2} (h : Second (2 * b) d) (he : e = lift2 d) :
    VirialCoefficient b e := by
  subst he
  simp only [VirialCoefficient, lift2, h.re, h.e1, h.e2, h.e12, and_self]

theorem VirialCoefficient.unique {a b : ℝ} {d : XDual2} (h : VirialCoefficient a d) (h' : VirialCoefficient b d) :
    a = b := by
  have e := h.2.2.2.symm.trans h'.2.2.2
  have := XReal.fin.inj e
  linarith

theorem virialState_eta (p : PcSaftParameters n ℝ) (T : ℝ) (x : Fin n → ℝ) :
    stateEta p (StateHD.newVirial T (0 + 0) x) = 0 := by
  simp [stateEta, packingFraction, StateHD.newVirial]

/-- the Padé quotient of two numbers with value zero is replaced by the pair term -/
theorem padeVolume_nan (phi2 phi3 V : XDual2) (h2 : phi2.re.re = .fin 0) (h3 : phi3.re.re = .fin 0) :
    padeVolume phi2 phi3 V = phi2 * V := by
  have e : F64.isNan (DualNum.re (phi2 * phi2 / (phi2 - phi3) * V)) = true := by
    change XReal.isNan ((phi2.re.re * phi2.re.re) * DualNum.recip (phi2.re.re - phi3.re.re) * V.re.re) = true
    rw [h2, h3]
    have e1 : XReal.fin 0 - XReal.fin 0 = XReal.fin 0 := by rw [← XReal.equations.sub, sub_zero]
    have e2 : XReal.fin 0 * XReal.fin 0 = XReal.fin 0 := by rw [← XReal.equations.mul, zero_mul]
    have e3 : (DualNum.recip (XReal.fin 0) : XReal) = XReal.pinf := by
      change (if (0 : ℝ) = 0 then XReal.infSign (1.0 : ℝ) else _) = _
      norm_num [XReal.infSign]
    have e4 : XReal.fin 0 * XReal.pinf = XReal.nan := by
      change XReal.infSign (0 * 1) = _
      norm_num [XReal.infSign]
    rw [e1, e2, e3, e4]
    rfl
  unfold padeVolume
  dsimp only
  rw [e]
  rfl

section coefficients
variable {pr : Fin n → PureRecord ℝ} {k : Fin n → Fin n → ℝ} {T : ℝ}

theorem xParameters_rel' (hr : PositiveRecords pr) (hk : ∀ i, 0 ≤ (fromRecords pr k).kappa_ab i) :
    ParamRel XReal.IsFin (fromRecords pr k) (xParameters pr k) :=
  xParameters_rel pr k hr.m hr.sigma hr.epsilon hk

theorem zeta_virial_zero (p : PcSaftParameters n ℝ) (T : ℝ) (x : Fin n → ℝ) (j : Fin 4) :
    zeta p.m (StateHD.newVirial T (0 + 0) x).partial_density (hsDiameter p (StateHD.newVirial T (0 + 0) x).temperature) j
      = 0 := by
  rw [zeta_real]
  simp [StateHD.newVirial]

/-- C63, hard spheres, with NaN: the coefficient of a mixture of hard spheres; all components are finite. -/
theorem C63_hard_sphere_finite (hr : PositiveRecords pr) (hT : 0 < T) (x : Fin n → ℝ)
    (hk : ∀ i, 0 ≤ (fromRecords pr k).kappa_ab i) (h3 : ∑ i, x i * (fluidOf pr k).m i * (fluidOf pr k).d T i ^ 3 ≠ 0) :
    VirialCoefficient (∑ i, ∑ j, x i * x j * ((fluidOf pr k).m i * (fluidOf pr k).m j) * (2 / 3 * Real.pi
        * (((fluidOf pr k).d T i + (fluidOf pr k).d T j) / 2) ^ 3))
      (hardSphere (xParameters pr k) (virialStateX T x)) := by
  have hz : zeta (fromRecords pr k).m (StateHD.newVirial T (0 + 0) x).partial_density
      (hsDiameter (fromRecords pr k) (StateHD.newVirial T (0 + 0) x).temperature) 3 < 1 := by
    rw [zeta_virial_zero]
    exact one_pos
  have h23 : ∑ i, (StateHD.newVirial T (0 + 0) x).molefracs i
      * hsDiameter (fromRecords pr k) (StateHD.newVirial T (0 + 0) x).temperature i ^ 3 * (fromRecords pr k).m i ≠ 0 := by
    have e : ∑ i, (StateHD.newVirial T (0 + 0) x).molefracs i
        * hsDiameter (fromRecords pr k) (StateHD.newVirial T (0 + 0) x).temperature i ^ 3 * (fromRecords pr k).m i
        = ∑ i, x i * (fluidOf pr k).m i * (fluidOf pr k).d T i ^ 3 := by
      refine Finset.sum_congr rfl fun i _ => ?_
      change x i * hsDiameter (fromRecords pr k) T i ^ 3 * (fluidOf pr k).m i = _
      rw [hsDiameter_theory]
      ring
    rwa [e]
  exact VirialCoefficient.of (C63_hard_sphere (fromRecords pr k) hT.ne' x h3)
    (lift2_of (rep_hardSphere lawfulEmb_id (ParamRel.refl _) (virialState_rel T x) hT.ne' hz h23)
      (rep_hardSphere XReal.lawfulEmb (xParameters_rel' hr hk) (virialStateX_rel T x) hT.ne' hz h23))

/-- C63, chains, with NaN: the term from the slope of the contact value; all components are finite. -/
theorem C63_hard_chain_finite (hr : PositiveRecords pr) (hT : 0 < T) (x : Fin n → ℝ)
    (hk : ∀ i, 0 ≤ (fromRecords pr k).kappa_ab i) :
    VirialCoefficient (∑ i, x i * (1 - (fluidOf pr k).m i)
        * (Real.pi / 6 * (∑ j, x j * (fluidOf pr k).m j * (fluidOf pr k).d T j ^ 3)
          + 3 / 2 * (fluidOf pr k).d T i * (Real.pi / 6 * ∑ j, x j * (fluidOf pr k).m j * (fluidOf pr k).d T j ^ 2)))
      (hardChain (xParameters pr k) (virialStateX T x)) := by
  have hz : zeta (fromRecords pr k).m (StateHD.newVirial T (0 + 0) x).partial_density
      (hsDiameter (fromRecords pr k) (StateHD.newVirial T (0 + 0) x).temperature) 3 ≠ 1 := by
    rw [zeta_virial_zero]
    exact zero_ne_one
  have hg : ∀ i, 0 < gHs (zeta (fromRecords pr k).m (StateHD.newVirial T (0 + 0) x).partial_density
        (hsDiameter (fromRecords pr k) (StateHD.newVirial T (0 + 0) x).temperature) 2)
      (zeta (fromRecords pr k).m (StateHD.newVirial T (0 + 0) x).partial_density
        (hsDiameter (fromRecords pr k) (StateHD.newVirial T (0 + 0) x).temperature) 3)
      (hsDiameter (fromRecords pr k) (StateHD.newVirial T (0 + 0) x).temperature i) := by
    intro i
    rw [zeta_virial_zero, zeta_virial_zero]
    norm_num [gHs, c]
  exact VirialCoefficient.of (C63_hard_chain (fromRecords pr k) hT.ne' x)
    (lift2_of (rep_hardChain lawfulEmb_id (ParamRel.refl _) (virialState_rel T x) hT.ne' hz hg)
      (rep_hardChain XReal.lawfulEmb (xParameters_rel' hr hk) (virialStateX_rel T x) hT.ne' hz hg))

/-- C63, dispersion, with NaN: the first and second order of the perturbation theory; all components are finite. -/
theorem C63_dispersion_finite (hr : PositiveRecords pr) (hT : 0 < T) (x : Fin n → ℝ)
    (hk : ∀ i, 0 ≤ (fromRecords pr k).kappa_ab i) (hm : ∑ i, x i * (fluidOf pr k).m i ≠ 0) :
    let f := fluidOf pr k
    let mbar := ∑ i, x i * f.m i
    VirialCoefficient (-(
        2 * Real.pi * (∑ i, ∑ j, x i * x j * (f.m i * f.m j) * ((1 - f.k i j) * f.energyIJ i j / T) * f.sigmaIJ i j ^ 3)
          * (0.91056314451539 + (mbar - 1) / mbar * (-0.30840169182720)
            + (mbar - 1) / mbar * ((mbar - 2) / mbar) * (-0.09061483509767))
        + Real.pi * mbar
          * (∑ i, ∑ j, x i * x j * (f.m i * f.m j) * ((1 - f.k i j) * f.energyIJ i j / T) ^ 2 * f.sigmaIJ i j ^ 3)
          * (0.72409469413165 + (mbar - 1) / mbar * (-0.57554980753450)
            + (mbar - 1) / mbar * ((mbar - 2) / mbar) * 0.09768831158356)))
      (dispersion (xParameters pr k) (virialStateX T x)) := by
  intro f mbar
  have he := virialState_eta (fromRecords pr k) T x
  have h1 : stateEta (fromRecords pr k) (StateHD.newVirial T (0 + 0) x) ≠ 1 := by rw [he]; norm_num
  have h2 : stateEta (fromRecords pr k) (StateHD.newVirial T (0 + 0) x) ≠ 2 := by rw [he]; norm_num
  have hmm : meanSegment (fromRecords pr k) (StateHD.newVirial T (0 + 0) x) ≠ 0 := hm
  have h0 : meanSegment (fromRecords pr k) (StateHD.newVirial T (0 + 0) x)
        * (stateEta (fromRecords pr k) (StateHD.newVirial T (0 + 0) x) * 8
          - stateEta (fromRecords pr k) (StateHD.newVirial T (0 + 0) x) ^ 2 * 2)
        / (stateEta (fromRecords pr k) (StateHD.newVirial T (0 + 0) x) - 1) ^ 4
      + (1 - meanSegment (fromRecords pr k) (StateHD.newVirial T (0 + 0) x))
        * (stateEta (fromRecords pr k) (StateHD.newVirial T (0 + 0) x) * 20
          - stateEta (fromRecords pr k) (StateHD.newVirial T (0 + 0) x) ^ 2 * 27
          + stateEta (fromRecords pr k) (StateHD.newVirial T (0 + 0) x) ^ 3 * 12
          - stateEta (fromRecords pr k) (StateHD.newVirial T (0 + 0) x) ^ 4 * 2)
        / ((stateEta (fromRecords pr k) (StateHD.newVirial T (0 + 0) x) - 1)
          * (stateEta (fromRecords pr k) (StateHD.newVirial T (0 + 0) x) - 2)) ^ 2 + 1 ≠ 0 := by
    rw [he]
    norm_num
  have h := C63_dispersion (fromRecords pr k) hT.ne' x
  simp only [epsIJ_theory, sigmaIJ_theory] at h
  exact VirialCoefficient.of h
    (lift2_of (rep_dispersion lawfulEmb_id (ParamRel.refl _) (virialState_rel T x) hT.ne' hmm h1 h2 h0)
      (rep_dispersion XReal.lawfulEmb (xParameters_rel' hr hk) (virialStateX_rel T x) hT.ne' hmm h1 h2 h0))

/-- the two expansion terms of a polar contribution at the virial state -/
theorem polar_virial {phi2 phi3 : (Fin n → ℝ) → ℝ → ℝ} {p2 p2x : Dual2} {q2 q3 : XDual2}
    (x : Fin n → ℝ) (eta : (Unit × ℝ) × ℝ → ℝ) (V : XDual2) (hV : V = c (1.0 : XReal))
    (h2 : rho2.R (fun y => phi2 (fun i => x i * (y.1.2 + y.2)) (eta y)) p2)
    (h2x : rho2.R (fun y => phi2 x (eta y)) p2x)
    (hX2 : rhoX2.R (fun y => phi2 (fun i => x i * (y.1.2 + y.2)) (eta y)) q2)
    (hX3 : rhoX2.R (fun y => phi3 (fun i => x i * (y.1.2 + y.2)) (eta y)) q3)
    (heta : eta (((), 0), 0) = 0)
    (scale2 : ∀ t e, phi2 (fun i => x i * t) e = t ^ 2 * phi2 x e)
    (scale3 : ∀ e, phi3 (fun i => x i * 0) e = 0) :
    VirialCoefficient (phi2 x 0) (padeVolume q2 q3 V) := by
  have hd : First 1 (⟨⟨0, 1⟩, ⟨1, 0⟩⟩ : Dual2) := ⟨rfl, rfl, rfl⟩
  have hδ : rho2.R (fun y => y.1.2 + y.2) (⟨⟨0, 1⟩, ⟨1, 0⟩⟩ : Dual2) := by simpa using rho2_seed 0 1 1
  have hprod := rho2.mul (rho2.mul hδ hδ) h2x
  have e : p2 = _ := unique2_of (rho2.congr hprod (.of_forall fun y => by
    beta_reduce
    rw [scale2, sq])) h2
  have hs := (hd.mul hd).mul_val p2x
  have hv : p2x.val = phi2 x 0 := by
    have := rho2.re h2x
    rw [heta] at this
    exact this
  rw [← e, hv] at hs
  have hq2 := lift2_of h2 hX2
  have r2 : q2.re.re = .fin 0 := by rw [hq2, lift2, hs.re]
  have r3 : q3.re.re = .fin 0 := by
    have := hX3.2.1.2.1.2
    rw [this]
    simp only [add_zero, scale3]
  rw [padeVolume_nan _ _ _ r2 r3, hV]
  have hfin := hs.mul_val (c (1.0 : ℝ))
  have e1 : 2 * 1 * 1 * phi2 x 0 * (c (1.0 : ℝ) : Dual2).val = 2 * phi2 x 0 := by
    rw [val_c]
    norm_num
  rw [e1] at hfin
  exact VirialCoefficient.of hfin (lift2_of (rho2.mul h2 (rho2.const 1.0))
    (rhoX2.mul hX2 (rhoX2.constOf (CR.sci XReal.lawfulEmb _ _ _))))

theorem fromRecords_sigma_ij_ne (hr : PositiveRecords pr) (i j : Fin n) : (fromRecords pr k).sigma_ij i j ≠ 0 := by
  rw [sigmaIJ_theory]
  have h1 : 0 < (fluidOf pr k).sigma i := hr.sigma i
  have h2 : 0 < (fluidOf pr k).sigma j := hr.sigma j
  rw [Spec.Fluid.sigmaIJ]
  positivity

theorem dipole_scale2 (hm : ∀ i, 0 < (pr i).model_record.m) (x : Fin n → ℝ) (t e : ℝ) :
    dipolePhi2 (fromRecords pr k) T (fun i => x i * t) e = t ^ 2 * dipolePhi2 (fromRecords pr k) T x e := by
  have hok := polarOk_fromRecords pr k (fun i => (hm i).le)
  rw [dipolePhi2_real hok, dipolePhi2_real hok]
  simp only [mul_neg, Finset.mul_sum, ← Finset.sum_neg_distrib]
  exact Finset.sum_congr rfl fun i _ => Finset.sum_congr rfl fun j _ => by ring

theorem dipole_scale3 (hm : ∀ i, 0 < (pr i).model_record.m) (x : Fin n → ℝ) (t e : ℝ) :
    dipolePhi3 (fromRecords pr k) T (fun i => x i * t) e = t ^ 3 * dipolePhi3 (fromRecords pr k) T x e := by
  have hok := polarOk_fromRecords pr k (fun i => (hm i).le)
  rw [dipolePhi3_real hok, dipolePhi3_real hok]
  simp only [mul_neg, Finset.mul_sum, ← Finset.sum_neg_distrib]
  exact Finset.sum_congr rfl fun i _ => Finset.sum_congr rfl fun j _ => Finset.sum_congr rfl fun l _ => by ring

theorem quadrupole_scale2 (hm : ∀ i, 0 < (pr i).model_record.m) (x : Fin n → ℝ) (t e : ℝ) :
    quadrupolePhi2 (fromRecords pr k) T (fun i => x i * t) e = t ^ 2 * quadrupolePhi2 (fromRecords pr k) T x e := by
  have hok := polarOk_fromRecords pr k (fun i => (hm i).le)
  rw [quadrupolePhi2_real hok, quadrupolePhi2_real hok]
  simp only [mul_neg, Finset.mul_sum, ← Finset.sum_neg_distrib]
  exact Finset.sum_congr rfl fun i _ => Finset.sum_congr rfl fun j _ => by ring

theorem quadrupole_scale3 (hm : ∀ i, 0 < (pr i).model_record.m) (x : Fin n → ℝ) (t e : ℝ) :
    quadrupolePhi3 (fromRecords pr k) T (fun i => x i * t) e = t ^ 3 * quadrupolePhi3 (fromRecords pr k) T x e := by
  have hok := polarOk_fromRecords pr k (fun i => (hm i).le)
  rw [quadrupolePhi3_real hok, quadrupolePhi3_real hok]
  simp only [Finset.mul_sum]
  exact Finset.sum_congr rfl fun i _ => Finset.sum_congr rfl fun j _ => Finset.sum_congr rfl fun l _ => by ring

theorem dipoleQuadrupole_scale2 (v : DQVariants) (hm : ∀ i, 0 < (pr i).model_record.m) (x : Fin n → ℝ) (t e : ℝ) :
    dipoleQuadrupolePhi2 v (fromRecords pr k) T (fun i => x i * t) e = t ^ 2 * dipoleQuadrupolePhi2 v (fromRecords pr k) T x e := by
  have hok := polarOk_fromRecords pr k (fun i => (hm i).le)
  rw [dipoleQuadrupolePhi2_real hok, dipoleQuadrupolePhi2_real hok]
  simp only [mul_neg, Finset.mul_sum, ← Finset.sum_neg_distrib]
  exact Finset.sum_congr rfl fun i _ => Finset.sum_congr rfl fun j _ => by ring

theorem dipoleQuadrupole_scale3 (hm : ∀ i, 0 < (pr i).model_record.m) (x : Fin n → ℝ) (t e : ℝ) :
    dipoleQuadrupolePhi3 (fromRecords pr k) T (fun i => x i * t) e = t ^ 3 * dipoleQuadrupolePhi3 (fromRecords pr k) T x e := by
  have hok := polarOk_fromRecords pr k (fun i => (hm i).le)
  rw [dipoleQuadrupolePhi3_real hok, dipoleQuadrupolePhi3_real hok]
  simp only [Finset.mul_sum]
  exact Finset.sum_congr rfl fun i _ => Finset.sum_congr rfl fun j _ => Finset.sum_congr rfl fun l _ => by ring

theorem dipole_virial (hr : PositiveRecords pr) (hk : ∀ i, 0 ≤ (fromRecords pr k).kappa_ab i) (hT : 0 < T)
    (x : Fin n → ℝ) : VirialCoefficient (dipolePhi2 (fromRecords pr k) T x 0 * c F64.pi)
      (dipole (xParameters pr k) (virialStateX T x)) := by
  have hp := xParameters_rel' hr hk
  have hpR := ParamRel.refl (fromRecords pr k)
  have hst := virialState_rel T x
  have hstX := virialStateX_rel T x
  have hsij := fromRecords_sigma_ij_ne (k := k) hr
  have heta := rep_eta lawfulEmb_id hpR hst hT.ne'
  have hetaX := rep_eta XReal.lawfulEmb hp hstX hT.ne'
  refine polar_virial (phi2 := fun rho e => dipolePhi2 (fromRecords pr k) T rho e * c F64.pi)
    (phi3 := fun rho e => dipolePhi3 (fromRecords pr k) T rho e * c PI_SQ_43) x _ (virialStateX T x).volume rfl
    (rho2.mul (rep_dipolePhi2 lawfulEmb_id hpR hr.m hsij hst.temperature hT.ne' heta hst.partial_density)
      (rho2.constOf (CR.pi lawfulEmb_id)))
    (rho2.mul (rep_dipolePhi2 lawfulEmb_id hpR hr.m hsij hst.temperature hT.ne' heta (fun i => rho2.const (x i)))
      (rho2.constOf (CR.pi lawfulEmb_id)))
    (rhoX2.mul (rep_dipolePhi2 XReal.lawfulEmb hp hr.m hsij hstX.temperature hT.ne' hetaX hstX.partial_density)
      (rhoX2.constOf (CR.pi XReal.lawfulEmb)))
    (rhoX2.mul (rep_dipolePhi3 XReal.lawfulEmb hp hr.m hsij hstX.temperature hT.ne' hetaX hstX.partial_density)
      (rhoX2.constOf (CR.piSq XReal.lawfulEmb)))
    (virialState_eta (fromRecords pr k) T x) (fun t e => ?_) (fun e => ?_)
  · rw [dipole_scale2 hr.m, mul_assoc]
  · rw [dipole_scale3 hr.m]
    simp

theorem quadrupole_virial (hr : PositiveRecords pr) (hk : ∀ i, 0 ≤ (fromRecords pr k).kappa_ab i) (hT : 0 < T)
    (x : Fin n → ℝ) : VirialCoefficient (quadrupolePhi2 (fromRecords pr k) T x 0 * c (F64.pi * 0.5625))
      (quadrupole (xParameters pr k) (virialStateX T x)) := by
  have hp := xParameters_rel' hr hk
  have hpR := ParamRel.refl (fromRecords pr k)
  have hst := virialState_rel T x
  have hstX := virialStateX_rel T x
  have hsij := fromRecords_sigma_ij_ne (k := k) hr
  have heta := rep_eta lawfulEmb_id hpR hst hT.ne'
  have hetaX := rep_eta XReal.lawfulEmb hp hstX hT.ne'
  refine polar_virial (phi2 := fun rho e => quadrupolePhi2 (fromRecords pr k) T rho e * c (F64.pi * 0.5625))
    (phi3 := fun rho e => quadrupolePhi3 (fromRecords pr k) T rho e * c (F64.pi * F64.pi * 0.5625)) x _
    (virialStateX T x).volume rfl
    (rho2.mul (rep_quadrupolePhi2 lawfulEmb_id hpR hr.m hsij hst.temperature hT.ne' heta hst.partial_density)
      (rho2.constOf (CR.mul lawfulEmb_id (CR.pi lawfulEmb_id) (CR.sci lawfulEmb_id _ _ _))))
    (rho2.mul (rep_quadrupolePhi2 lawfulEmb_id hpR hr.m hsij hst.temperature hT.ne' heta (fun i => rho2.const (x i)))
      (rho2.constOf (CR.mul lawfulEmb_id (CR.pi lawfulEmb_id) (CR.sci lawfulEmb_id _ _ _))))
    (rhoX2.mul (rep_quadrupolePhi2 XReal.lawfulEmb hp hr.m hsij hstX.temperature hT.ne' hetaX hstX.partial_density)
      (rhoX2.constOf (CR.mul XReal.lawfulEmb (CR.pi XReal.lawfulEmb) (CR.sci XReal.lawfulEmb _ _ _))))
    (rhoX2.mul (rep_quadrupolePhi3 XReal.lawfulEmb hp hr.m hsij hstX.temperature hT.ne' hetaX hstX.partial_density)
      (rhoX2.constOf (CR.mul XReal.lawfulEmb (CR.mul XReal.lawfulEmb (CR.pi XReal.lawfulEmb) (CR.pi XReal.lawfulEmb))
        (CR.sci XReal.lawfulEmb _ _ _))))
    (virialState_eta (fromRecords pr k) T x) (fun t e => ?_) (fun e => ?_)
  · rw [quadrupole_scale2 hr.m, mul_assoc]
  · rw [quadrupole_scale3 hr.m]
    simp

theorem dipoleQuadrupole_virial (v : DQVariants) (hr : PositiveRecords pr)
    (hk : ∀ i, 0 ≤ (fromRecords pr k).kappa_ab i) (hT : 0 < T) (x : Fin n → ℝ) :
    VirialCoefficient (dipoleQuadrupolePhi2 v (fromRecords pr k) T x 0 * c (F64.pi * 2.25))
      (dipoleQuadrupole v (xParameters pr k) (virialStateX T x)) := by
  have hp := xParameters_rel' hr hk
  have hpR := ParamRel.refl (fromRecords pr k)
  have hst := virialState_rel T x
  have hstX := virialStateX_rel T x
  have hsij := fromRecords_sigma_ij_ne (k := k) hr
  have heta := rep_eta lawfulEmb_id hpR hst hT.ne'
  have hetaX := rep_eta XReal.lawfulEmb hp hstX hT.ne'
  have hsig : ∀ i, (fromRecords pr k).sigma i ≠ 0 := fun i => (hr.sigma i).ne'
  refine polar_virial
    (phi2 := fun rho e => dipoleQuadrupolePhi2 v (fromRecords pr k) T rho e * c (F64.pi * 2.25))
    (phi3 := fun rho e => dipoleQuadrupolePhi3 (fromRecords pr k) T rho e * c (F64.pi * F64.pi)) x _
    (virialStateX T x).volume rfl
    (rho2.mul (rep_dipoleQuadrupolePhi2 lawfulEmb_id hpR v hr.m hsij hsig hst.temperature hT.ne' heta
      hst.partial_density) (rho2.constOf (CR.mul lawfulEmb_id (CR.pi lawfulEmb_id) (CR.sci lawfulEmb_id _ _ _))))
    (rho2.mul (rep_dipoleQuadrupolePhi2 lawfulEmb_id hpR v hr.m hsij hsig hst.temperature hT.ne' heta
      (fun i => rho2.const (x i)))
      (rho2.constOf (CR.mul lawfulEmb_id (CR.pi lawfulEmb_id) (CR.sci lawfulEmb_id _ _ _))))
    (rhoX2.mul (rep_dipoleQuadrupolePhi2 XReal.lawfulEmb hp v hr.m hsij hsig hstX.temperature hT.ne' hetaX
      hstX.partial_density)
      (rhoX2.constOf (CR.mul XReal.lawfulEmb (CR.pi XReal.lawfulEmb) (CR.sci XReal.lawfulEmb _ _ _))))
    (rhoX2.mul (rep_dipoleQuadrupolePhi3 XReal.lawfulEmb hp hr.m hsij hstX.temperature hT.ne' hetaX
      hstX.partial_density)
      (rhoX2.constOf (CR.mul XReal.lawfulEmb (CR.pi XReal.lawfulEmb) (CR.pi XReal.lawfulEmb))))
    (virialState_eta (fromRecords pr k) T x) (fun t e => ?_) (fun e => ?_)
  · rw [dipoleQuadrupole_scale2 v hr.m, mul_assoc]
  · rw [dipoleQuadrupole_scale3 hr.m]
    simp

/-- C63, dipoles: the second virial coefficient is the pair term of Gross and Vrabec at zero density, with their
constants; the quotient 0/0 of the Padé approximation does not show up. -/
theorem C63_dipole : ∃ a b : Fin 5 → Fin 3 → ℝ,
    (∀ i j, |a i j - Spec.publishedAD i j| ≤ 5e-7) ∧ (∀ i j, |b i j - Spec.publishedBD i j| ≤ 5e-7)
    ∧ ∀ (n : ℕ) (pr : Fin n → PureRecord ℝ) (k : Fin n → Fin n → ℝ) (T : ℝ) (x : Fin n → ℝ),
      PositiveRecords pr → (∀ i, 0 ≤ (fromRecords pr k).kappa_ab i) → 0 < T →
      let f := fluidOf pr k
      VirialCoefficient (-Real.pi * ∑ i, ∑ j, x i * x j * f.dipoleStrength T i * f.dipoleStrength T j
          / f.sigmaIJ i j ^ 3 * f.j2 T a b 0 i j)
        (dipole (xParameters pr k) (virialStateX T x)) := by
  refine ⟨AD, BD, ?_, ?_, ?_⟩
  · intro i j
    fin_cases i <;> fin_cases j <;> norm_num [AD, Spec.publishedAD, abs_le]
  · intro i j
    fin_cases i <;> fin_cases j <;> norm_num [BD, Spec.publishedBD, abs_le]
  intro n pr k T x hr hk hT f
  have hok := polarOk_fromRecords pr k (fun i => (hr.m i).le)
  have key := dipole_virial hr hk hT x
  · have hs : ∀ i, dipoleTerm (fromRecords pr k) T⁻¹ i = f.dipoleStrength T i := fun i =>
      dipoleTerm_theory pr k T i (hr.m i).ne' (hr.sigma i).ne' (hr.epsilon i).ne' hT.ne'
    have e2 : dipolePhi2 (fromRecords pr k) T x 0 * (c F64.pi : ℝ)
        = -Real.pi * ∑ i, ∑ j, x i * x j * f.dipoleStrength T i * f.dipoleStrength T j
          / f.sigmaIJ i j ^ 3 * f.j2 T AD BD 0 i j := by
      rw [dipolePhi2_real hok]
      simp only [dipK2, hs, sigmaIJ_theory, pairI_theory, neg_mul, Finset.sum_mul, Finset.mul_sum,
        ← Finset.sum_neg_distrib, c, ofF_real, pi_real]
      exact Finset.sum_congr rfl fun i _ => Finset.sum_congr rfl fun j _ => by ring
    rw [← e2]
    exact key

/-- C63, quadrupoles, for mixtures whose quadrupolar components have the same diameter (see C66): the pair term of
Gross at zero density. -/
theorem C63_quadrupole_partial : ∃ a b : Fin 5 → Fin 3 → ℝ,
    (∀ i j, |a i j - Spec.publishedAQ i j| ≤ 5e-7) ∧ (∀ i j, |b i j - Spec.publishedBQ i j| ≤ 5e-7)
    ∧ ∀ (n : ℕ) (pr : Fin n → PureRecord ℝ) (k : Fin n → Fin n → ℝ) (T : ℝ) (x : Fin n → ℝ),
      PositiveRecords pr → (∀ i, 0 ≤ (fromRecords pr k).kappa_ab i) → 0 < T →
      let f := fluidOf pr k
      (∀ i j, f.q i ≠ 0 → f.q j ≠ 0 → f.sigma i = f.sigma j) →
      VirialCoefficient (-(9 / 16 * Real.pi) * ∑ i, ∑ j, x i * x j * f.quadrupoleStrength T i
          * f.quadrupoleStrength T j / f.sigmaIJ i j ^ 7 * f.j2 T a b 0 i j)
        (quadrupole (xParameters pr k) (virialStateX T x)) := by
  refine ⟨AQ, BQ, ?_, ?_, ?_⟩
  · intro i j
    fin_cases i <;> fin_cases j <;> norm_num [AQ, Spec.publishedAQ, abs_le]
  · intro i j
    fin_cases i <;> fin_cases j <;> norm_num [BQ, Spec.publishedBQ, abs_le]
  intro n pr k T x hr hk hT f hq
  have hok := polarOk_fromRecords pr k (fun i => (hr.m i).le)
  have key := quadrupole_virial hr hk hT x
  · have hs : ∀ i, quadrupoleTerm (fromRecords pr k) T⁻¹ i = f.quadrupoleStrength T i := fun i =>
      quadrupoleTerm_theory pr k T i (hr.m i).ne' (hr.sigma i).ne' (hr.epsilon i).ne' hT.ne'
    have h56 : (0.5625 : ℝ) = 9 / 16 := by norm_num
    have e2 : quadrupolePhi2 (fromRecords pr k) T x 0 * (c (F64.pi * 0.5625) : ℝ)
        = -(9 / 16 * Real.pi) * ∑ i, ∑ j, x i * x j * f.quadrupoleStrength T i * f.quadrupoleStrength T j
          / f.sigmaIJ i j ^ 7 * f.j2 T AQ BQ 0 i j := by
      rw [quadrupolePhi2_real hok]
      simp only [quadK2, hs, pairI_theory, neg_mul, Finset.sum_mul, Finset.mul_sum,
        ← Finset.sum_neg_distrib, c, ofF_real, pi_real, h56]
      refine Finset.sum_congr rfl fun i _ => Finset.sum_congr rfl fun j _ => ?_
      by_cases hi : f.q i = 0
      · have : f.quadrupoleStrength T i = 0 := by simp [Spec.Fluid.quadrupoleStrength, hi]
        rw [this]
        ring
      by_cases hj : f.q j = 0
      · have : f.quadrupoleStrength T j = 0 := by simp [Spec.Fluid.quadrupoleStrength, hj]
        rw [this]
        ring
      have hij := hq i j hi hj
      have hmin : (fromRecords pr k).sigma (min i j) = f.sigmaIJ i j := by
        have : f.sigmaIJ i j = f.sigma i := by
          simp only [Spec.Fluid.sigmaIJ, ← hij]
          ring
        rw [this]
        change f.sigma (min i j) = f.sigma i
        rcases min_choice i j with e | e <;> rw [e]
        exact hij.symm
      rw [hmin]
      ring
    rw [← e2]
    exact key

/-- C63, dipole-quadrupole cross term: the pair term of Vrabec and Gross at zero density, in both variants. -/
theorem C63_dipole_quadrupole : ∃ a b : Fin 4 → Fin 3 → ℝ,
    (∀ i j, |a i j - Spec.publishedADQ i j| ≤ 5e-7) ∧ (∀ i j, |b i j - Spec.publishedBDQ i j| ≤ 5e-7)
    ∧ ∀ (n : ℕ) (pr : Fin n → PureRecord ℝ) (k : Fin n → Fin n → ℝ) (T : ℝ) (x : Fin n → ℝ),
      PositiveRecords pr → (∀ i, 0 ≤ (fromRecords pr k).kappa_ab i) → 0 < T →
      let f := fluidOf pr k
      VirialCoefficient (-(9 / 4 * Real.pi) * ∑ i, ∑ j, x i * x j * f.dipoleStrength T i * f.quadrupoleStrength T j
          / f.sigmaIJ i j ^ 5 * f.j2 T a b 0 i j)
        (dipoleQuadrupole .DQ35 (xParameters pr k) (virialStateX T x))
      ∧ VirialCoefficient (-(9 / 4 * Real.pi) * ∑ i, ∑ j, x i * x j * (f.dipoleStrength T i * f.sigma i)
          * (f.quadrupoleStrength T j / f.sigma j) / f.sigmaIJ i j ^ 5 * f.j2 T a b 0 i j)
        (dipoleQuadrupole .DQ44 (xParameters pr k) (virialStateX T x)) := by
  refine ⟨ADQ, BDQ, ?_, ?_, ?_⟩
  · intro i j
    fin_cases i <;> fin_cases j <;> norm_num [ADQ, Spec.publishedADQ, abs_le]
  · intro i j
    fin_cases i <;> fin_cases j <;> norm_num [BDQ, Spec.publishedBDQ, abs_le]
  intro n pr k T x hr hk hT f
  have hok := polarOk_fromRecords pr k (fun i => (hr.m i).le)
  have hsig : ∀ i, (fromRecords pr k).sigma i ≠ 0 := fun i => (hr.sigma i).ne'
  have key := fun v => dipoleQuadrupole_virial v hr hk hT x
  have hs : ∀ i, dqTerm (fromRecords pr k) (fromRecords pr k).mu2 T⁻¹ i = f.dipoleStrength T i * f.sigma i := fun i =>
    muTerm_theory pr k T i (hr.m i).ne' (hr.sigma i).ne' (hr.epsilon i).ne' hT.ne'
  have hs' : ∀ i, dqTerm (fromRecords pr k) (fromRecords pr k).q2 T⁻¹ i = f.quadrupoleStrength T i / f.sigma i :=
    fun i => qTerm_theory pr k T i (hr.m i).ne' (hr.sigma i).ne' (hr.epsilon i).ne' hT.ne'
  have h225 : (2.25 : ℝ) = 9 / 4 := by norm_num
  constructor
  · convert key .DQ35 using 1
    rw [dipoleQuadrupolePhi2_real hok]
    simp only [dqK2, muQTerm, hs, hs', sigmaIJ_theory, pairI_theory, neg_mul,
      Finset.sum_mul, Finset.mul_sum, ← Finset.sum_neg_distrib, h225, c, ofF_real, pi_real]
    refine Finset.sum_congr rfl fun i _ => Finset.sum_congr rfl fun j _ => ?_
    have e1 : f.dipoleStrength T i * f.sigma i / (fromRecords pr k).sigma i = f.dipoleStrength T i :=
      mul_div_cancel_right₀ _ (hsig i)
    have e2 : f.quadrupoleStrength T j / f.sigma j * (fromRecords pr k).sigma j = f.quadrupoleStrength T j :=
      div_mul_cancel₀ _ (hsig j)
    rw [e1, mul_assoc (f.dipoleStrength T i), e2]
    ring
  · convert key .DQ44 using 1
    rw [dipoleQuadrupolePhi2_real hok]
    simp only [dqK2, muQTerm, hs, hs', sigmaIJ_theory, pairI_theory, neg_mul,
      Finset.sum_mul, Finset.mul_sum, ← Finset.sum_neg_distrib, h225, c, ofF_real, pi_real]
    exact Finset.sum_congr rfl fun i _ => Finset.sum_congr rfl fun j _ => by ring

end coefficients

/-! ## The coefficient is the limit of the energy at low density -/

/-- The Padé approximation over the squared density tends to the coefficient of the pair term. -/
theorem polar_limit {phi2 phi3 : (Fin n → ℝ) → ℝ → ℝ} (x : Fin n → ℝ) {eta : ℝ → ℝ} (heta : eta 0 = 0)
    (h2 : ContinuousAt (fun t => phi2 x (eta t)) 0) (h3 : ContinuousAt (fun t => phi3 x (eta t)) 0)
    (scale2 : ∀ t e, phi2 (fun i => x i * t) e = t ^ 2 * phi2 x e)
    (scale3 : ∀ t e, phi3 (fun i => x i * t) e = t ^ 3 * phi3 x e) (hne : phi2 x 0 ≠ 0) :
    Tendsto (fun t => padeVolume (phi2 (fun i => x i * t) (eta t)) (phi3 (fun i => x i * t) (eta t)) 1 / t ^ 2)
      (𝓝[≠] 0) (𝓝 (phi2 x 0)) := by
  have hlim : Tendsto (fun t => phi2 x (eta t) * phi2 x (eta t) / (phi2 x (eta t) - t * phi3 x (eta t))) (𝓝 0)
      (𝓝 (phi2 x 0 * phi2 x 0 / (phi2 x 0 - 0 * phi3 x 0))) := by
    have h2' : Tendsto (fun t => phi2 x (eta t)) (𝓝 0) (𝓝 (phi2 x 0)) := by simpa [heta] using h2.tendsto
    have h3' : Tendsto (fun t => phi3 x (eta t)) (𝓝 0) (𝓝 (phi3 x 0)) := by simpa [heta] using h3.tendsto
    exact (h2'.mul h2').div (h2'.sub (tendsto_id.mul h3')) (by simpa using hne)
  have e : phi2 x 0 * phi2 x 0 / (phi2 x 0 - 0 * phi3 x 0) = phi2 x 0 := by
    rw [zero_mul, sub_zero, mul_div_assoc, div_self hne, mul_one]
  rw [e] at hlim
  refine (hlim.mono_left nhdsWithin_le_nhds).congr' ?_
  filter_upwards [self_mem_nhdsWithin] with t (ht : t ≠ 0)
  simp only [padeVolume, isNan_real, re_real, scale2, scale3, Bool.false_eq_true, if_false]
  have e1 : t ^ 2 * phi2 x (eta t) - t ^ 3 * phi3 x (eta t) = t ^ 2 * (phi2 x (eta t) - t * phi3 x (eta t)) := by ring
  rw [e1]
  by_cases hd : phi2 x (eta t) - t * phi3 x (eta t) = 0
  · simp [hd]
  · field_simp

section limit
variable {pr : Fin n → PureRecord ℝ} {k : Fin n → Fin n → ℝ} {T : ℝ}

theorem continuous_eta (hT : 0 < T) (x : Fin n → ℝ) :
    rho1.R (fun y => stateEta (fromRecords pr k) (StateHD.newVirial T y.2 x))
      (packingFraction (fromRecords pr k).m (fun i => c (x i) * (⟨0, 1⟩ : Dual ℝ))
        (fun i => hsDiameter (fromRecords pr k) (c T) i * c 0.5)) := by
  have hδ : rho1.R (fun y => y.2) (⟨0, 1⟩ : Dual ℝ) := by simpa using rho1_seed 0 1
  exact rep_packingFraction lawfulEmb_id (ParamRel.refl _).m (fun i => rho1.mul (rho1.const (x i)) hδ)
    (rep_radius lawfulEmb_id (ParamRel.refl _) (rho1.const T) hT.ne')

theorem continuousAt_snd_of {A : ℝ → ℝ} {d : Dual ℝ} (h : rho1.R (fun y => A y.2) d) : ContinuousAt A 0 :=
  ContinuousAt.comp (f := fun t : ℝ => ((), t)) (g := fun y : Unit × ℝ => A y.2) (rho1.continuousAt h)
    (Continuous.prodMk_right ()).continuousAt

/-- C63, dipoles: the coefficient computed with dual numbers at zero density is the limit of the
Helmholtz energy over the squared density, in mixtures where it does not vanish. -/
theorem C63_dipole_limit (hr : PositiveRecords pr)
    (hk : ∀ i, 0 ≤ (fromRecords pr k).kappa_ab i) (hT : 0 < T) (x : Fin n → ℝ) (b : ℝ)
    (hb : VirialCoefficient b (dipole (xParameters pr k) (virialStateX T x))) (h0 : b ≠ 0) :
    Tendsto (fun t => dipole (fromRecords pr k) (StateHD.new T 1 (fun i => x i * t)) / t ^ 2) (𝓝[≠] 0) (𝓝 b) := by
  have hsij := fromRecords_sigma_ij_ne (k := k) hr
  have heta := continuous_eta (pr := pr) (k := k) hT x
  have hp := ParamRel.refl (fromRecords pr k)
  have e := hb.unique (dipole_virial hr hk hT x)
  have key := polar_limit (phi2 := fun rho e => dipolePhi2 (fromRecords pr k) T rho e * c F64.pi)
    (phi3 := fun rho e => dipolePhi3 (fromRecords pr k) T rho e * c PI_SQ_43) x
    (eta := fun t => stateEta (fromRecords pr k) (StateHD.newVirial T t x))
    (by simpa using virialState_eta (fromRecords pr k) T x)
    (continuousAt_snd_of (A := fun t => dipolePhi2 (fromRecords pr k) T x
        (stateEta (fromRecords pr k) (StateHD.newVirial T t x)) * c F64.pi)
      (rho1.mul (rep_dipolePhi2 lawfulEmb_id hp hr.m hsij (rho1.const T) hT.ne' heta
        (fun i => rho1.const (x i))) (rho1.const _)))
    (continuousAt_snd_of (A := fun t => dipolePhi3 (fromRecords pr k) T x
        (stateEta (fromRecords pr k) (StateHD.newVirial T t x)) * c PI_SQ_43)
      (rho1.mul (rep_dipolePhi3 lawfulEmb_id hp hr.m hsij (rho1.const T) hT.ne' heta
        (fun i => rho1.const (x i))) (rho1.const _)))
    (fun t e => by rw [dipole_scale2 hr.m, mul_assoc]) (fun t e => by rw [dipole_scale3 hr.m, mul_assoc])
    (by rw [← e]; exact h0)
  rw [← e] at key
  refine key.congr fun t => ?_
  have es : (StateHD.new T 1 (fun i => x i * t)).partial_density = fun i => x i * t := by
    funext i
    simp [StateHD.new]
  simp only [dipole, es, stateEta]
  rfl

/-- C63, quadrupoles: the coefficient computed with dual numbers at zero density is the limit of the
Helmholtz energy over the squared density, in mixtures where it does not vanish. -/
theorem C63_quadrupole_limit (hr : PositiveRecords pr)
    (hk : ∀ i, 0 ≤ (fromRecords pr k).kappa_ab i) (hT : 0 < T) (x : Fin n → ℝ) (b : ℝ)
    (hb : VirialCoefficient b (quadrupole (xParameters pr k) (virialStateX T x))) (h0 : b ≠ 0) :
    Tendsto (fun t => quadrupole (fromRecords pr k) (StateHD.new T 1 (fun i => x i * t)) / t ^ 2) (𝓝[≠] 0) (𝓝 b) := by
  have hsij := fromRecords_sigma_ij_ne (k := k) hr
  have heta := continuous_eta (pr := pr) (k := k) hT x
  have hp := ParamRel.refl (fromRecords pr k)
  have e := hb.unique (quadrupole_virial hr hk hT x)
  have key := polar_limit (phi2 := fun rho e => quadrupolePhi2 (fromRecords pr k) T rho e * c (F64.pi * 0.5625))
    (phi3 := fun rho e => quadrupolePhi3 (fromRecords pr k) T rho e * c (F64.pi * F64.pi * 0.5625)) x
    (eta := fun t => stateEta (fromRecords pr k) (StateHD.newVirial T t x))
    (by simpa using virialState_eta (fromRecords pr k) T x)
    (continuousAt_snd_of (A := fun t => quadrupolePhi2 (fromRecords pr k) T x
        (stateEta (fromRecords pr k) (StateHD.newVirial T t x)) * c (F64.pi * 0.5625))
      (rho1.mul (rep_quadrupolePhi2 lawfulEmb_id hp hr.m hsij (rho1.const T) hT.ne' heta
        (fun i => rho1.const (x i))) (rho1.const _)))
    (continuousAt_snd_of (A := fun t => quadrupolePhi3 (fromRecords pr k) T x
        (stateEta (fromRecords pr k) (StateHD.newVirial T t x)) * c (F64.pi * F64.pi * 0.5625))
      (rho1.mul (rep_quadrupolePhi3 lawfulEmb_id hp hr.m hsij (rho1.const T) hT.ne' heta
        (fun i => rho1.const (x i))) (rho1.const _)))
    (fun t e => by rw [quadrupole_scale2 hr.m, mul_assoc]) (fun t e => by rw [quadrupole_scale3 hr.m, mul_assoc])
    (by rw [← e]; exact h0)
  rw [← e] at key
  refine key.congr fun t => ?_
  have es : (StateHD.new T 1 (fun i => x i * t)).partial_density = fun i => x i * t := by
    funext i
    simp [StateHD.new]
  simp only [quadrupole, es, stateEta]
  rfl

/-- C63, dipole-quadrupole term: the coefficient computed with dual numbers at zero density is the limit of the
Helmholtz energy over the squared density, in mixtures where it does not vanish. -/
theorem C63_dipole_quadrupole_limit (v : DQVariants) (hr : PositiveRecords pr)
    (hk : ∀ i, 0 ≤ (fromRecords pr k).kappa_ab i) (hT : 0 < T) (x : Fin n → ℝ) (b : ℝ)
    (hb : VirialCoefficient b (dipoleQuadrupole v (xParameters pr k) (virialStateX T x))) (h0 : b ≠ 0) :
    Tendsto (fun t => dipoleQuadrupole v (fromRecords pr k) (StateHD.new T 1 (fun i => x i * t)) / t ^ 2) (𝓝[≠] 0) (𝓝 b) := by
  have hsij := fromRecords_sigma_ij_ne (k := k) hr
  have hsig : ∀ i, (fromRecords pr k).sigma i ≠ 0 := fun i => (hr.sigma i).ne'
  have heta := continuous_eta (pr := pr) (k := k) hT x
  have hp := ParamRel.refl (fromRecords pr k)
  have e := hb.unique (dipoleQuadrupole_virial v hr hk hT x)
  have key := polar_limit (phi2 := fun rho e => dipoleQuadrupolePhi2 v (fromRecords pr k) T rho e * c (F64.pi * 2.25))
    (phi3 := fun rho e => dipoleQuadrupolePhi3 (fromRecords pr k) T rho e * c (F64.pi * F64.pi)) x
    (eta := fun t => stateEta (fromRecords pr k) (StateHD.newVirial T t x))
    (by simpa using virialState_eta (fromRecords pr k) T x)
    (continuousAt_snd_of (A := fun t => dipoleQuadrupolePhi2 v (fromRecords pr k) T x
        (stateEta (fromRecords pr k) (StateHD.newVirial T t x)) * c (F64.pi * 2.25))
      (rho1.mul (rep_dipoleQuadrupolePhi2 lawfulEmb_id hp v hr.m hsij hsig (rho1.const T) hT.ne' heta
        (fun i => rho1.const (x i))) (rho1.const _)))
    (continuousAt_snd_of (A := fun t => dipoleQuadrupolePhi3 (fromRecords pr k) T x
        (stateEta (fromRecords pr k) (StateHD.newVirial T t x)) * c (F64.pi * F64.pi))
      (rho1.mul (rep_dipoleQuadrupolePhi3 lawfulEmb_id hp hr.m hsij (rho1.const T) hT.ne' heta
        (fun i => rho1.const (x i))) (rho1.const _)))
    (fun t e => by rw [dipoleQuadrupole_scale2 v hr.m, mul_assoc]) (fun t e => by rw [dipoleQuadrupole_scale3 hr.m, mul_assoc])
    (by rw [← e]; exact h0)
  rw [← e] at key
  refine key.congr fun t => ?_
  have es : (StateHD.new T 1 (fun i => x i * t)).partial_density = fun i => x i * t := by
    funext i
    simp [StateHD.new]
  simp only [dipoleQuadrupole, es, stateEta]
  rfl

/-- The polar spheres meet the hypotheses: their dipolar virial coefficient is negative, and it is the limit of the
Helmholtz energy over the squared density. -/
example : ∃ b < 0, VirialCoefficient b (dipole (xParameters polarSphere (fun _ _ => 0)) (virialStateX 100 (fun _ => 1)))
    ∧ Tendsto (fun t => dipole (fromRecords polarSphere (fun _ _ => 0)) (StateHD.new (100 : ℝ) 1 (fun _ => 1 * t)) / t ^ 2)
      (𝓝[≠] 0) (𝓝 b) := by
  obtain ⟨a, b, ha, hb, h⟩ := C63_dipole
  have hk : ∀ i, 0 ≤ (fromRecords polarSphere (fun _ _ => 0)).kappa_ab i := by
    intro i
    norm_num [fromRecords, polarSphere]
  have hv := h 1 polarSphere (fun _ _ => 0) 100 (fun _ => 1) polarSphere_positive hk (by norm_num)
  have hneg : -Real.pi * ∑ i, ∑ j, (1 : ℝ) * 1 * (fluidOf polarSphere (fun _ _ => 0)).dipoleStrength 100 i
      * (fluidOf polarSphere (fun _ _ => 0)).dipoleStrength 100 j / (fluidOf polarSphere (fun _ _ => 0)).sigmaIJ i j ^ 3
      * (fluidOf polarSphere (fun _ _ => 0)).j2 100 a b 0 i j < 0 := by
    simp only [Finset.univ_unique, Fin.default_eq_zero, Finset.sum_singleton]
    rw [polarSphere_j2, polarSphere_sigmaIJ]
    have hs := polarSphere_strength.1
    have a0 := abs_le.mp (ha 0 0)
    have b0 := abs_le.mp (hb 0 0)
    simp only [Spec.publishedAD, Spec.publishedBD, Matrix.cons_val_zero] at a0 b0
    have hJ : ∑ r : Fin 5, (a r 0 + b r 0) * (0 : ℝ) ^ (r : ℕ) = a 0 0 + b 0 0 := by
      simp [Fin.sum_univ_five]
    rw [hJ]
    have hab : 0 < a 0 0 + b 0 0 := by linarith
    have hp := Real.pi_pos
    rw [neg_mul]
    exact neg_lt_zero.mpr (by positivity)
  exact ⟨_, hneg, hv, C63_dipole_limit polarSphere_positive hk (by norm_num) _ _ hv hneg.ne⟩

end limit
end PcSaft.Props
