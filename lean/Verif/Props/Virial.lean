import Verif.Lemmas.Second

/-!
# Second virial coefficients (C33, C63)

`second_virial_coefficient` of `feos_core` evaluates the residual Helmholtz energy with second-order dual
numbers at density `0 + ε₁ + ε₂` and unit volume and takes half of the mixed component of the result.
-/

open Filter Topology

namespace PcSaft.Props
open Spec Dual2
variable {n : ℕ}

/-- the state at which virial coefficients are evaluated -/
noncomputable def virialState (T : ℝ) (x : Fin n → ℝ) : StateHD n Dual2 :=
  StateHD.newVirial (c T) ⟨⟨0, 1⟩, ⟨1, 0⟩⟩ (fun i => c (x i))

theorem virialState_rel (T : ℝ) (x : Fin n → ℝ) :
    StateRel rho2 (fun y => StateHD.newVirial T (y.1.2 + y.2) x) (virialState T x) := by
  have hd : rho2.R (fun y => y.1.2 + y.2) (⟨⟨0, 1⟩, ⟨1, 0⟩⟩ : Dual2) := by simpa using rho2_seed 0 1 1
  exact
  { temperature := rho2.const T
    volume := rho2.const _
    moles := fun i => rho2.mul (rho2.const (x i)) hd
    molefracs := fun i => rho2.const (x i)
    partial_density := fun i => rho2.mul (rho2.const (x i)) hd }

/-- the partial densities vanish with derivative equal to the mole fraction -/
theorem virialState_density (T : ℝ) (x : Fin n → ℝ) (i : Fin n) :
    First (x i) ((virialState T x).partial_density i) := by
  have h : First 1 (⟨⟨0, 1⟩, ⟨1, 0⟩⟩ : Dual2) := ⟨rfl, rfl, rfl⟩
  simpa using! h.val_mul (c (x i))

theorem virialState_moles (T : ℝ) (x : Fin n → ℝ) (i : Fin n) :
    First (x i) ((virialState T x).moles i) := virialState_density T x i

/-! ## Association -/

/-- association strength of a pair at zero density -/
noncomputable def strengthZero (p : PcSaftParameters n ℝ) (T : ℝ) (a : Fin n) : ℝ :=
  p.sigma a ^ 3 * p.kappa_aibj a a * (Real.exp (p.epsilon_k_aibj a a / T) - 1)

/-- the product of association strength and density in the virial state -/
theorem virial_deltarho (p : PcSaftParameters n ℝ) {T : ℝ} (hT : T ≠ 0) (x : Fin n → ℝ) (a : Fin n)
    (hd : hsDiameter p T a ≠ 0) :
    let s := virialState T x
    let r := fun i => hsDiameter p s.temperature i * (c (0.5 : ℝ) : Dual2)
    First (strengthZero p T a * x a)
      (associationStrength p s.temperature r (assocN2 p.m s.partial_density r)
        (DualNum.recip (-packingFraction p.m s.partial_density r + c 1.0)) (c (1.0 : ℝ)) a a * s.partial_density a) := by
  intro s r
  have h := virialState_density T x a
  have hs := virialState_rel T x
  have hrad := rep_radius lawfulEmb_id (ParamRel.refl p) hs.temperature hT
  have heta := rep_eta lawfulEmb_id (ParamRel.refl p) hs hT
  have h2 := rep_assocN2 lawfulEmb_id (ParamRel.refl p).m hs.partial_density hrad
  have e0 : stateEta p (StateHD.newVirial T (0 + 0) x) = 0 := by
    simp [stateEta, packingFraction, StateHD.newVirial]
  have h3 := rho2.recip' (rho2.add (rho2.neg heta) (rho2.constOf (CR.sci lawfulEmb_id 10 true 1))) (by
    rw [e0]
    norm_num [c])
  have hΔ := rep_associationStrength lawfulEmb_id (ParamRel.refl p) hs.temperature hT h2 h3
    (rho2.constOf (CR.sci lawfulEmb_id 10 true 1)) hrad a a (by
      change hsDiameter p T a * (0.5 : ℝ) + hsDiameter p T a * (0.5 : ℝ) ≠ 0
      intro e
      apply hd
      norm_num at e
      linarith)
  have hval := rho2.re hΔ
  have e : (associationStrength p s.temperature r (assocN2 p.m s.partial_density r)
        (DualNum.recip (-packingFraction p.m s.partial_density r + c 1.0)) (c (1.0 : ℝ)) a a : Dual2).val
        = strengthZero p T a := by
    refine hval.trans ?_
    rw [e0]
    have e2 : ∀ r : Fin n → ℝ, assocN2 p.m (StateHD.newVirial T (0 + 0) x).partial_density r = 0 := by
      intro r
      simp [assocN2, StateHD.newVirial]
    rw [e2]
    unfold associationStrength strengthZero
    simp only [StateHD.newVirial]
    have hσ : 0.5 * (p.sigma a + p.sigma a) = p.sigma a := by norm_num; ring
    rw [hσ]
    norm_num [c, div_eq_inv_mul]
  rw [← e]
  exact h.val_mul _

/-- C33, one associating component: the implementation for one component gives the second virial coefficient
of association, minus the mole fraction squared times the association strength at zero density for every
pair of sites. -/
theorem C33_single_component (p : PcSaftParameters n ℝ) {T : ℝ} (hT : T ≠ 0) (x : Fin n → ℝ) (a : Fin n)
    (l : List (Fin n)) (ha : p.assoc_comp = a :: l) (hd : hsDiameter p T a ≠ 0) (hnb : 0 < p.nb a) :
    ∃ d, association p (virialState T x) = .ok d
      ∧ Second (2 * -(x a ^ 2 * (p.na a * p.nb a * strengthZero p T a))) d := by
  have hδ := virial_deltarho p hT x a hd
  dsimp only at hδ
  have e : association p (virialState T x) = .ok (assocSingle
      (associationStrength p (virialState T x).temperature
        (fun i => hsDiameter p (virialState T x).temperature i * (c (0.5 : ℝ) : Dual2))
        (assocN2 p.m (virialState T x).partial_density
          (fun i => hsDiameter p (virialState T x).temperature i * (c (0.5 : ℝ) : Dual2)))
        (DualNum.recip (-packingFraction p.m (virialState T x).partial_density
          (fun i => hsDiameter p (virialState T x).temperature i * (c (0.5 : ℝ) : Dual2)) + c 1.0)) (c (1.0 : ℝ)) a a
        * (virialState T x).partial_density a) ((virialState T x).moles a) (p.na a) (p.nb a)) := by
    unfold association
    rw [ha]
  refine ⟨_, e, ?_⟩
  have hm := virialState_moles T x a
  generalize (virialState T x).moles a = m at hm ⊢
  revert hδ
  generalize associationStrength p (virialState T x).temperature _ _ _ _ _ _ * _ = δ
  intro hδ
  have hbr : F64.lt (F64.sqrt f64EPSILON) (DualNum.re δ) = false := by
    have : DualNum.re δ = (0 : ℝ) := hδ.re
    rw [this]
    simp [Real.sqrt_nonneg]
  have hnb' : F64.lt (0.0 : ℝ) (p.nb a) = true := by
    norm_num [hnb]
  unfold assocSingle
  rw [if_pos hnb']
  dsimp only
  have hxa : First (strengthZero p T a * x a * p.nb a * -1) (assocSiteFracAB δ (p.na a) (p.nb a) - c (1.0 : ℝ)) := by
    unfold assocSiteFracAB
    rw [hbr]
    have h1 := (hδ.mul_val (c (p.nb a))).mul_val (δ * c (p.nb a + p.na a) - c (1.0 : ℝ))
    have e1 : (δ * c (p.nb a + p.na a) - c (1.0 : ℝ) : Dual2).val = -1 := by
      rw [val_sub, Dual2.val_mul, val_c, val_c]
      have : δ.val = 0 := hδ.re
      rw [this]
      norm_num
    rw [e1, val_c] at h1
    exact h1.add_sub' _
  have hxb : First (strengthZero p T a * x a * p.nb a * -1 * (p.na a / p.nb a))
      ((assocSiteFracAB δ (p.na a) (p.nb a) - c (1.0 : ℝ)) * c (p.na a / p.nb a) + c (1.0 : ℝ) - c (1.0 : ℝ)) :=
    (hxa.mul_val (c (p.na a / p.nb a))).add_sub _
  have hsum := (hxa.assocF.mul_val (c (p.na a))).add (hxb.assocF.mul_val (c (p.nb a)))
  have := hm.mul hsum
  rw [val_c, val_c] at this
  convert this using 1
  field_simp
  ring

/-- C33, the code violates the property: the implementation for several associating components gives no
contribution to the second virial coefficient, for every mixture, temperature and composition. -/
theorem C33_cross_association_vanishes (p : PcSaftParameters n ℝ) (T : ℝ) (x : Fin n → ℝ) (max_iter : ℕ) (tol : ℝ)
    (nderiv : ℕ) (solveF : Solver p.assoc_comp.length ℝ) (solveD : Solver p.assoc_comp.length Dual2) :
    ∃ d, crossAssociation p max_iter tol nderiv solveF solveD (virialState T x) = .ok d ∧ Second 0 d := by
  have hre : DualNum.re (sumFin (virialState T x).partial_density) = (0 : ℝ) :=
    (First.sumFin (virialState_density T x)).re
  have hlt : F64.lt (DualNum.re (sumFin (virialState T x).partial_density)) (f64EPSILON : ℝ) = true := by
    rw [hre]
    simp [f64EPSILON]
    norm_num
  refine ⟨c (0.0 : ℝ) * (virialState T x).volume, ?_, ?_⟩
  · unfold crossAssociation crossAssociationDensity
    dsimp only
    rw [if_pos hlt]
  · simpa using second_zero.mul_val _

/-- C33, the code violates the property: for every associating component with sites of both types the two
implementations disagree about the second virial coefficient. -/
theorem C33_disagreement (p : PcSaftParameters n ℝ) {T : ℝ} (hT : T ≠ 0) (x : Fin n → ℝ) (a : Fin n)
    (l : List (Fin n)) (ha : p.assoc_comp = a :: l) (hd : hsDiameter p T a ≠ 0) (hna : 0 < p.na a) (hnb : 0 < p.nb a)
    (hx : x a ≠ 0) (hΔ : strengthZero p T a ≠ 0) (max_iter : ℕ) (tol : ℝ) (nderiv : ℕ)
    (solveF : Solver p.assoc_comp.length ℝ) (solveD : Solver p.assoc_comp.length Dual2) :
    association p (virialState T x) ≠ crossAssociation p max_iter tol nderiv solveF solveD (virialState T x) := by
  obtain ⟨d, h1, h2⟩ := C33_single_component p hT x a l ha hd hnb
  obtain ⟨d', h1', h2'⟩ := C33_cross_association_vanishes p T x max_iter tol nderiv solveF solveD
  rw [h1, h1']
  intro e
  cases e
  have := h2.e12.symm.trans h2'.e12
  have : x a ^ 2 * (p.na a * p.nb a * strengthZero p T a) = 0 := by linarith
  exact absurd this (by positivity)

/-- C33, what remains true: in both implementations the value and the first derivatives of the association
energy vanish at zero density. Missing: the agreement of the second derivatives. -/
theorem C33_first_order_partial (p : PcSaftParameters n ℝ) {T : ℝ} (hT : T ≠ 0) (x : Fin n → ℝ) (a : Fin n)
    (l : List (Fin n)) (ha : p.assoc_comp = a :: l) (hd : hsDiameter p T a ≠ 0) (hnb : 0 < p.nb a)
    (max_iter : ℕ) (tol : ℝ) (nderiv : ℕ)
    (solveF : Solver p.assoc_comp.length ℝ) (solveD : Solver p.assoc_comp.length Dual2) :
    ∃ d d' : Dual2, association p (virialState T x) = .ok d
      ∧ crossAssociation p max_iter tol nderiv solveF solveD (virialState T x) = .ok d'
      ∧ d.re = d'.re ∧ d.eps.re = d'.eps.re ∧ d.re = ⟨0, 0⟩ ∧ d.eps.re = 0 := by
  obtain ⟨d, h1, h2⟩ := C33_single_component p hT x a l ha hd hnb
  obtain ⟨d', h1', h2'⟩ := C33_cross_association_vanishes p T x max_iter tol nderiv solveF solveD
  exact ⟨d, d', h1, h1', Dual.ext (h2.re.trans h2'.re.symm) (h2.e1.trans h2'.e1.symm), h2.e2.trans h2'.e2.symm,
    Dual.ext h2.re h2.e1, h2.e2⟩

/-- C33, concrete violation: the associating component of the example mixture at 300 K and equal mole
fractions. -/
theorem C33_counterexample (max_iter : ℕ) (tol : ℝ) (nderiv : ℕ)
    (solveF : Solver (fromRecords assocRecords (fun _ _ => 0)).assoc_comp.length ℝ)
    (solveD : Solver (fromRecords assocRecords (fun _ _ => 0)).assoc_comp.length Dual2) :
    association (fromRecords assocRecords (fun _ _ => 0)) (virialState 300 (fun _ => 1 / 2))
      ≠ crossAssociation (fromRecords assocRecords (fun _ _ => 0)) max_iter tol nderiv solveF solveD
        (virialState 300 (fun _ => 1 / 2)) := by
  refine C33_disagreement _ (by norm_num) _ 0 [] assocRecords_comp (assocRecords_admissible.diameter_pos 0).ne'
    (by norm_num [fromRecords, assocRecords]) (by norm_num [fromRecords, assocRecords]) (by norm_num) ?_ _ _ _ _ _
  have hc := C02_association_combining_rules assocRecords (fun _ _ => 0)
    (fun i => by fin_cases i <;> norm_num [assocRecords])
    (fun i => by fin_cases i <;> norm_num [assocRecords, fromRecords]) 0 0
  have hk : (fromRecords assocRecords (fun _ _ => 0)).kappa_ab 0 = 0.03 := rfl
  have he : (fromRecords assocRecords (fun _ _ => 0)).epsilon_k_ab 0 = 2500 := rfl
  have hs : (fromRecords assocRecords (fun _ _ => 0)).sigma 0 = 3 := rfl
  have hx := Real.add_one_le_exp ((2500 : ℝ) / 300)
  unfold strengthZero
  rw [hc.2.2.1, hc.2.2.2.1 (by rw [hk]; norm_num), hk, he, hs]
  have : Real.exp ((2500 : ℝ) / 300) - 1 ≠ 0 := by
    norm_num at hx ⊢
    intro h
    linarith
  simp only [ne_eq, mul_eq_zero, this, or_false]
  norm_num

/-! ## Hard spheres, chains, dispersion -/

/-- mole-fraction averages of powers of the segment diameters -/
noncomputable def avgDiameter (p : PcSaftParameters n ℝ) (T : ℝ) (x : Fin n → ℝ) (k : ℕ) : ℝ :=
  ∑ i, x i * p.m i * Spec.diameter (p.sigma i) (p.epsilon_k i) T ^ k

theorem virial_diameter (p : PcSaftParameters n ℝ) {T : ℝ} (hT : T ≠ 0) (x : Fin n → ℝ) (i : Fin n) :
    rho2.R (fun _ => hsDiameter p T i) (hsDiameter p (virialState T x).temperature i) :=
  rep_hsDiameter lawfulEmb_id (ParamRel.refl p) (virialState_rel T x).temperature hT i

theorem virial_zeta (p : PcSaftParameters n ℝ) {T : ℝ} (hT : T ≠ 0) (x : Fin n → ℝ) (k : Fin 4) :
    First (Real.pi / 6 * avgDiameter p T x k)
      (zeta p.m (virialState T x).partial_density (hsDiameter p (virialState T x).temperature) k) := by
  have h : ∀ i, First (x i * hsDiameter p T i ^ (k : ℕ) * (Real.pi / 6.0 * p.m i))
      ((virialState T x).partial_density i
        * DualNum.powi (hsDiameter p (virialState T x).temperature i) k * c (F64.pi / 6.0 * p.m i)) := by
    intro i
    have h1 := ((virialState_density T x i).mul_val
      (DualNum.powi (hsDiameter p (virialState T x).temperature i) k)).mul_val (c (F64.pi / 6.0 * p.m i))
    have e : (DualNum.powi (hsDiameter p (virialState T x).temperature i) k : Dual2).val = hsDiameter p T i ^ (k : ℕ) :=
      rho2.re (rho2.powi (virial_diameter p hT x i) k)
    rw [e, val_c] at h1
    exact h1
  have h6 : (6.0 : ℝ) = 6 := by norm_num
  have e : Real.pi / 6 * avgDiameter p T x k
      = ∑ i, x i * hsDiameter p T i ^ (k : ℕ) * (Real.pi / 6.0 * p.m i) := by
    unfold avgDiameter
    rw [Finset.mul_sum]
    refine Finset.sum_congr rfl fun i _ => ?_
    rw [hsDiameter_eq_spec, h6]
    ring
  rw [e]
  exact First.sumFin h

theorem virial_diameter_val (p : PcSaftParameters n ℝ) {T : ℝ} (hT : T ≠ 0) (x : Fin n → ℝ) (i : Fin n) :
    (hsDiameter p (virialState T x).temperature i : Dual2).val = Spec.diameter (p.sigma i) (p.epsilon_k i) T :=
  (rho2.re (virial_diameter p hT x i)).trans (hsDiameter_eq_spec p T i)

theorem val_frac {z3 : Dual2} {a : ℝ} (h : First a z3) :
    (-(DualNum.recip (z3 - c (1.0 : ℝ))) : Dual2).val = 1 := by
  rw [val_neg, val_recip, val_sub, val_c]
  have : z3.val = 0 := h.re
  rw [this]
  norm_num

/-- C63, hard spheres: the second virial coefficient is the one of a mixture of hard spheres, two thirds of π
times the cube of the collision diameter for every pair of segments. -/
theorem C63_hard_sphere (p : PcSaftParameters n ℝ) {T : ℝ} (hT : T ≠ 0) (x : Fin n → ℝ)
    (h3 : avgDiameter p T x 3 ≠ 0) :
    Second (2 * ∑ i, ∑ j, x i * x j * (p.m i * p.m j) * (2 / 3 * Real.pi
        * ((Spec.diameter (p.sigma i) (p.epsilon_k i) T + Spec.diameter (p.sigma j) (p.epsilon_k j) T) / 2) ^ 3))
      (hardSphere p (virialState T x)) := by
  have hz := virial_zeta p hT x
  have hf := val_frac (hz 3)
  have h23 : (zeta23 p.m (virialState T x).molefracs (hsDiameter p (virialState T x).temperature) : Dual2).val
      = avgDiameter p T x 2 / avgDiameter p T x 3 := by
    unfold zeta23
    simp only [val_div, val_sumFin, val_mul, val_powi, virial_diameter_val p hT, val_c]
    have e : ∀ i, ((virialState T x).molefracs i : Dual2).val = x i := fun i => rfl
    simp only [e, avgDiameter]
    rw [div_eq_mul_inv]
    have e2 : ∀ k, ∑ i, x i * Spec.diameter (p.sigma i) (p.epsilon_k i) T ^ k * p.m i
        = ∑ i, x i * p.m i * Spec.diameter (p.sigma i) (p.epsilon_k i) T ^ k :=
      fun k => Finset.sum_congr rfl fun i _ => by ring
    rw [e2, e2]
  have hV : ((virialState T x).volume * c (6.0 : ℝ) / c F64.pi : Dual2).val = 6 / Real.pi := by
    have e : ((virialState T x).volume : Dual2).val = 1 := by
      change (1.0 : ℝ) = 1
      norm_num
    rw [val_div, val_mul, val_c, val_c, e]
    norm_num [div_eq_mul_inv]
  unfold hardSphere
  dsimp only
  generalize zeta23 p.m (virialState T x).molefracs (hsDiameter p (virialState T x).temperature) = z23 at h23 ⊢
  generalize -(DualNum.recip (zeta p.m (virialState T x).partial_density
    (hsDiameter p (virialState T x).temperature) 3 - c (1.0 : ℝ))) = f at hf ⊢
  have t1 := (((hz 1).mul (hz 2)).mul_val f).mul_val (c (3.0 : ℝ))
  have t2 := ((hz 2).sq.mul_val (DualNum.powi f 2)).mul_val z23
  have t3 := (((hz 2).mul_val (DualNum.powi z23 2)).sub (hz 0)).mul ((hz 3).mul_val (c (-1.0 : ℝ))).ln1p
  have t := ((t1.add t2).add t3).val_mul ((virialState T x).volume * c (6.0 : ℝ) / c F64.pi)
  rw [hV] at t
  simp only [val_powi, hf, h23, val_c] at t
  convert t using 1
  have e : ∀ i j, x i * x j * (p.m i * p.m j) * (2 / 3 * Real.pi
        * ((Spec.diameter (p.sigma i) (p.epsilon_k i) T + Spec.diameter (p.sigma j) (p.epsilon_k j) T) / 2) ^ 3)
      = Real.pi / 12 * ((x i * p.m i * Spec.diameter (p.sigma i) (p.epsilon_k i) T ^ 0)
          * (x j * p.m j * Spec.diameter (p.sigma j) (p.epsilon_k j) T ^ 3))
        + Real.pi / 4 * ((x i * p.m i * Spec.diameter (p.sigma i) (p.epsilon_k i) T ^ 1)
          * (x j * p.m j * Spec.diameter (p.sigma j) (p.epsilon_k j) T ^ 2))
        + Real.pi / 4 * ((x i * p.m i * Spec.diameter (p.sigma i) (p.epsilon_k i) T ^ 2)
          * (x j * p.m j * Spec.diameter (p.sigma j) (p.epsilon_k j) T ^ 1))
        + Real.pi / 12 * ((x i * p.m i * Spec.diameter (p.sigma i) (p.epsilon_k i) T ^ 3)
          * (x j * p.m j * Spec.diameter (p.sigma j) (p.epsilon_k j) T ^ 0)) := by
    intro i j
    ring
  simp only [e, Finset.sum_add_distrib, ← Finset.mul_sum, ← Finset.sum_mul]
  have e1 : (-1.0 : ℝ) = -1 := by norm_num
  have e3 : (3.0 : ℝ) = 3 := by norm_num
  rw [e1, e3]
  have fold : ∀ k, ∑ i, x i * p.m i * Spec.diameter (p.sigma i) (p.epsilon_k i) T ^ k = avgDiameter p T x k :=
    fun _ => rfl
  simp only [fold]
  have hpi := Real.pi_ne_zero
  simp only [Fin.val_zero, Fin.val_one, Fin.val_two, show ((3 : Fin 4) : ℕ) = 3 from rfl]
  field_simp
  ring

/-- C63, chains: the second virial coefficient of the chain contribution, from the slope of the contact value
of hard spheres. -/
theorem C63_hard_chain (p : PcSaftParameters n ℝ) {T : ℝ} (hT : T ≠ 0) (x : Fin n → ℝ) :
    Second (2 * ∑ i, x i * (1 - p.m i) * (Real.pi / 6 * avgDiameter p T x 3
        + 3 / 2 * Spec.diameter (p.sigma i) (p.epsilon_k i) T * (Real.pi / 6 * avgDiameter p T x 2)))
      (hardChain p (virialState T x)) := by
  have hz := virial_zeta p hT x
  have hf := val_frac (hz 3)
  have hV : ((virialState T x).volume : Dual2).val = 1 := by
    change (1.0 : ℝ) = 1
    norm_num
  have hg : ∀ i, First (Real.pi / 6 * avgDiameter p T x 3
        + 3 / 2 * Spec.diameter (p.sigma i) (p.epsilon_k i) T * (Real.pi / 6 * avgDiameter p T x 2))
      (DualNum.ln (gHs (zeta p.m (virialState T x).partial_density (hsDiameter p (virialState T x).temperature) 2)
        (zeta p.m (virialState T x).partial_density (hsDiameter p (virialState T x).temperature) 3)
        (hsDiameter p (virialState T x).temperature i))) := by
    intro i
    refine First.ln ?_
    unfold gHs
    dsimp only
    have h1 := (hz 3).frac
    generalize -(DualNum.recip (zeta p.m (virialState T x).partial_density
      (hsDiameter p (virialState T x).temperature) 3 - c (1.0 : ℝ))) = f at h1 hf ⊢
    have hc := ((hz 2).mul_val f).mul_val f
    have t1 := (hc.val_mul (hsDiameter p (virialState T x).temperature i)).mul_val (c (1.5 : ℝ))
    have t2 := ((hc.sq.val_mul (DualNum.powi (hsDiameter p (virialState T x).temperature i) 2)).mul_val
      (zeta p.m (virialState T x).partial_density (hsDiameter p (virialState T x).temperature) 3
        - c (1.0 : ℝ))).mul_val (c (0.5 : ℝ))
    convert h1.shift t1 t2.first using 1
    rw [hf, val_c, virial_diameter_val p hT]
    have e : (1.5 : ℝ) = 3 / 2 := by norm_num
    rw [e]
    simp only [Fin.val_two, show ((3 : Fin 4) : ℕ) = 3 from rfl]
    ring
  have h := (Second.sumFin fun i => ((virialState_density T x i).mul_val (c (1.0 - p.m i))).mul (hg i)).mul_val
    (virialState T x).volume
  rw [hV] at h
  unfold hardChain
  convert h using 1
  simp only [val_c]
  have e1 : (1.0 : ℝ) = 1 := by norm_num
  rw [Finset.mul_sum, mul_one, e1]
  exact Finset.sum_congr rfl fun i _ => by ring

theorem val_dispersionIntegral (a0 a1 a2 : Fin 7 → ℝ) {m eta : Dual2} (he : eta.val = 0) :
    (dispersionIntegral a0 a1 a2 m eta).val
      = (m.val - 1) / m.val * ((m.val - 2) / m.val * a2 0 + a1 0) + a0 0 := by
  unfold dispersionIntegral
  simp only [Fin.foldl_succ, Fin.foldl_zero, val_add, val_mul, val_sub, val_div, val_c, he]
  have e0 : (0.0 : ℝ) = 0 := by norm_num
  have e1 : (1.0 : ℝ) = 1 := by norm_num
  have e2 : (2.0 : ℝ) = 2 := by norm_num
  rw [e0, e1, e2]
  simp only [div_eq_mul_inv]
  ring

theorem val_dispersionC1 {m eta : Dual2} (he : eta.val = 0) : (dispersionC1 m eta).val = 1 := by
  unfold dispersionC1
  simp only [val_add, val_mul, val_sub, val_div, val_c, val_recip, val_powi, he]
  norm_num

/-- mean segment number -/
noncomputable def meanSegments (p : PcSaftParameters n ℝ) (x : Fin n → ℝ) : ℝ := ∑ i, x i * p.m i

/-- C63, dispersion: the second virial coefficient of dispersion, in the first and second order of the
perturbation theory of Gross and Sadowski with the universal constants at zero density. -/
theorem C63_dispersion (p : PcSaftParameters n ℝ) {T : ℝ} (_hT : T ≠ 0) (x : Fin n → ℝ) :
    Second (2 * -(
        2 * Real.pi * (∑ i, ∑ j, x i * x j * (p.m i * p.m j) * (p.epsilon_k_ij i j / T) * p.sigma_ij i j ^ 3)
          * (0.91056314451539 + (meanSegments p x - 1) / meanSegments p x * (-0.30840169182720)
            + (meanSegments p x - 1) / meanSegments p x * ((meanSegments p x - 2) / meanSegments p x)
              * (-0.09061483509767))
        + Real.pi * meanSegments p x
          * (∑ i, ∑ j, x i * x j * (p.m i * p.m j) * (p.epsilon_k_ij i j / T) ^ 2 * p.sigma_ij i j ^ 3)
          * (0.72409469413165 + (meanSegments p x - 1) / meanSegments p x * (-0.57554980753450)
            + (meanSegments p x - 1) / meanSegments p x * ((meanSegments p x - 2) / meanSegments p x)
              * 0.09768831158356)))
      (dispersion p (virialState T x)) := by
  have hρ := virialState_density T x
  have hV : ((virialState T x).volume : Dual2).val = 1 := by
    change (1.0 : ℝ) = 1
    norm_num
  have hTi : (DualNum.recip (virialState T x).temperature : Dual2).val = T⁻¹ := by
    rw [val_recip]; rfl
  have he : (packingFraction p.m (virialState T x).partial_density
      (fun i => hsDiameter p (virialState T x).temperature i * (c (0.5 : ℝ) : Dual2))).val = 0 := by
    have e : ∀ i, ((virialState T x).partial_density i : Dual2).val = 0 := fun i => (hρ i).re
    unfold packingFraction
    simp [val_mul, val_sumFin, e]
  have hm : (sumFin (fun i => (virialState T x).molefracs i * (c (p.m i) : Dual2))).val = meanSegments p x := by
    rw [val_sumFin]
    rfl
  have h1 : Second (2 * ∑ i, ∑ j, x i * x j * (p.m i * p.m j) * (p.epsilon_k_ij i j / T) * p.sigma_ij i j ^ 3)
      (rho1mix p (virialState T x).temperature (virialState T x).partial_density) := by
    unfold rho1mix
    dsimp only
    convert Second.sumFin2 fun i j => (((((hρ i).mul (hρ j)).mul_val (c (p.m i))).mul_val (c (p.m j))).mul_val
      (DualNum.recip (virialState T x).temperature * c (p.epsilon_k_ij i j))).mul_val
        (c (F64.powi (p.sigma_ij i j) 3)) using 1
    simp only [val_mul, val_c, hTi, Finset.mul_sum, powi_real]
    exact Finset.sum_congr rfl fun i _ => Finset.sum_congr rfl fun j _ => by ring
  have h2 : Second (2 * ∑ i, ∑ j, x i * x j * (p.m i * p.m j) * (p.epsilon_k_ij i j / T) ^ 2 * p.sigma_ij i j ^ 3)
      (rho2mix p (virialState T x).temperature (virialState T x).partial_density) := by
    unfold rho2mix
    dsimp only
    convert Second.sumFin2 fun i j => ((((((hρ i).mul (hρ j)).mul_val (c (p.m i))).mul_val (c (p.m j))).mul_val
      (DualNum.recip (virialState T x).temperature * c (p.epsilon_k_ij i j))).mul_val
      (DualNum.recip (virialState T x).temperature * c (p.epsilon_k_ij i j))).mul_val
        (c (F64.powi (p.sigma_ij i j) 3)) using 1
    simp only [val_mul, val_c, hTi, Finset.mul_sum, powi_real]
    exact Finset.sum_congr rfl fun i _ => Finset.sum_congr rfl fun j _ => by ring
  unfold dispersion
  dsimp only
  have hi1 := val_dispersionIntegral A0 A1 A2 (m := sumFin (fun i => (virialState T x).molefracs i
    * (c (p.m i) : Dual2))) he
  have hi2 := val_dispersionIntegral B0 B1 B2 (m := sumFin (fun i => (virialState T x).molefracs i
    * (c (p.m i) : Dual2))) he
  have hc1 := val_dispersionC1 (m := sumFin (fun i => (virialState T x).molefracs i
    * (c (p.m i) : Dual2))) he
  rw [hm] at hi1 hi2
  generalize (dispersionIntegral (A0 : Fin 7 → ℝ) A1 A2 _ _ : Dual2) = i1 at hi1 ⊢
  generalize (dispersionIntegral (B0 : Fin 7 → ℝ) B1 B2 _ _ : Dual2) = i2 at hi2 ⊢
  generalize (dispersionC1 _ _ : Dual2) = c1 at hc1 ⊢
  generalize sumFin (fun i => (virialState T x).molefracs i * (c (p.m i) : Dual2)) = m at hm ⊢
  have t := ((((h1.neg.mul_val i1).mul_val (c (2.0 : ℝ))).sub (((h2.mul_val m).mul_val c1).mul_val i2)).mul_val
    (c F64.pi)).mul_val (virialState T x).volume
  convert t using 1
  rw [hi1, hi2, hc1, hm, hV, val_c, val_c]
  have e2 : (2.0 : ℝ) = 2 := by norm_num
  rw [e2]
  simp only [A0, A1, A2, B0, B1, B2, Matrix.cons_val_zero]
  change _ = _ * Real.pi * 1
  ring

/-- The hypothesis of `C63_hard_sphere` holds for every mixture with positive parameters and mole fractions. -/
theorem avgDiameter_pos (p : PcSaftParameters n ℝ) {T : ℝ} (x : Fin n → ℝ) (hn : 0 < n) (hT : 0 < T)
    (hm : ∀ i, 0 < p.m i) (hσ : ∀ i, 0 < p.sigma i) (hε : ∀ i, 0 ≤ p.epsilon_k i) (hx : ∀ i, 0 < x i) (k : ℕ) :
    0 < avgDiameter p T x k := by
  have : Nonempty (Fin n) := ⟨⟨0, hn⟩⟩
  refine Finset.sum_pos (fun i _ => mul_pos (mul_pos (hx i) (hm i)) (pow_pos ?_ k)) Finset.univ_nonempty
  have h := exp_le_one_of (hε i) hT
  exact mul_pos (hσ i) (by linarith)

example : avgDiameter onePure 300 (fun _ => 1) 3 ≠ 0 :=
  (avgDiameter_pos onePure (fun _ => 1) (by norm_num) (by norm_num) (fun _ => by norm_num [onePure, fromRecords])
    (fun _ => by norm_num [onePure, fromRecords]) (fun _ => by norm_num [onePure, fromRecords])
    (fun _ => by norm_num) 3).ne'

end PcSaft.Props
