import Verif.Props.DftFinite
import Verif.Props.Examples
import Verif.Props.DftTotal

/-!
# Cases meeting the hypotheses of C76 and C78

A mixture of an associating and a chain molecule, and a polar chain molecule, at the interface of a fluid with an
empty region.
-/

open Filter Topology

namespace PcSaft.Props
open Spec

noncomputable abbrev mix : PcSaftParameters 2 ℝ := fromRecords assocRecords (fun _ _ => 0)

theorem mix_molecules : Molecules mix where
  m_pos i := (assocRecords_positive i).1
  sigma_pos i := (assocRecords_positive i).2.1
  epsilon_nonneg i := (assocRecords_positive i).2.2.le

theorem mix_surface (i : Fin 2) : 20 < surface mix 300 i := by
  have h := (C13_diameter mix i (mix_molecules.sigma_pos i) (assocRecords_positive i).2.2).1 300 (by norm_num)
  have hσ : mix.sigma i = 3 := by fin_cases i <;> norm_num [mix, fromRecords, assocRecords]
  have hm : 1 ≤ mix.m i := by fin_cases i <;> norm_num [mix, fromRecords, assocRecords]
  rw [hsDiameter_eq_spec] at h
  rw [hσ] at h
  have hd : 2.64 < segmentDiameter mix 300 i := by
    unfold segmentDiameter
    rw [hσ]
    norm_num at h ⊢
    exact h.1
  have hpi := Real.pi_gt_three
  have h2 : 6.9 < segmentDiameter mix 300 i ^ 2 := by norm_num at hd ⊢; nlinarith
  unfold surface
  have : 3 ≤ Real.pi * mix.m i := by nlinarith
  norm_num at h2 ⊢
  nlinarith

theorem mix_association : mix.kappa_aibj 0 0 = 0.03 ∧ mix.epsilon_k_aibj 0 0 = 2500 := by
  have hmem : (0 : Fin 2) ∈ mix.assoc_comp := by
    rw [assocRecords_comp]
    simp
  have e1 : mix.kappa_aibj 0 0 = if (0 : Fin 2) ∈ mix.assoc_comp ∧ (0 : Fin 2) ∈ mix.assoc_comp then
      F64.sqrt ((0.03 : ℝ) * 0.03) * F64.powf (2.0 * F64.sqrt ((3 : ℝ) * 3) / (3 + 3)) 3.0 else 0.0 := rfl
  have e2 : mix.epsilon_k_aibj 0 0 = if (0 : Fin 2) ∈ mix.assoc_comp ∧ (0 : Fin 2) ∈ mix.assoc_comp then
      0.5 * ((2500 : ℝ) + 2500) else 0.0 := rfl
  rw [e1, e2, if_pos ⟨hmem, hmem⟩, if_pos ⟨hmem, hmem⟩]
  refine ⟨?_, by norm_num⟩
  change Real.sqrt (0.03 * 0.03) * (2.0 * Real.sqrt (3 * 3) / (3 + 3)) ^ (3.0 : ℝ) = _
  rw [Real.sqrt_mul_self (by norm_num), Real.sqrt_mul_self (by norm_num)]
  have : (2.0 : ℝ) * 3 / (3 + 3) = 1 := by norm_num
  rw [this, Real.one_rpow, mul_one]

/-- grid points: `false` in the empty region, `true` in the fluid, where the density has a gradient -/
noncomputable def gridDensity (g : Bool) (_ : Fin 2) : ℝ := if g then 1 / 1000 else 0
noncomputable def gridVector (g : Bool) (_ : ℕ) (_ : Fin 2) : ℝ := if g then 1 / 1000 else 0
noncomputable def gridPacking (g : Bool) : ℝ := if g then 1 / 10 else 0

theorem mix_point (g : Bool) :
    AssocPoint mix 300 0 (gridDensity g) ((List.range 1).map (gridVector g)) (gridPacking g) where
  density_nonneg i := by cases g <;> norm_num [gridDensity]
  packing := by cases g <;> norm_num [gridPacking]
  vector := by
    have h := mix_surface 0
    cases g
    · norm_num [gridDensity, gridVector]
    · norm_num [gridDensity, gridVector]
      nlinarith
  vector_total := by
    have h0 := mix_surface 0
    have h1 := mix_surface 1
    cases g
    · norm_num [gridDensity, gridVector]
    · norm_num [gridDensity, gridVector, Fin.sum_univ_two]
      nlinarith
  sites_a := by norm_num [mix, fromRecords, assocRecords]
  sites_b := by norm_num [mix, fromRecords, assocRecords]
  sites_few := by norm_num [mix, fromRecords, assocRecords]
  volume := by
    rw [mix_association.1]
    norm_num
  energy := by
    rw [mix_association.2]
    norm_num

theorem mix_strength (g : Bool) : inhomStrength mix 300 0 (gridDensity g) ((List.range 1).map (gridVector g))
    (gridPacking g) ≠ Real.sqrt f64EPSILON := by
  rw [sqrt_epsilon]
  cases g
  · have : inhomStrength mix 300 0 (gridDensity false) ((List.range 1).map (gridVector false)) (gridPacking false)
        = 0 := by
      simp [inhomStrength, gridDensity]
    rw [this]
    norm_num
  · refine ne_of_gt ?_
    have h0 := mix_surface 0
    have h1 := mix_surface 1
    have hd := mix_molecules.diameter_pos (T := 300) (by norm_num) 0
    rw [hsDiameter_eq_spec] at hd
    have hx := Real.add_one_le_exp ((2500 : ℝ) / 300)
    have hx8 : (8 : ℝ) ≤ Real.exp (2500 / 300) - 1 := by
      norm_num at hx ⊢
      linarith
    have hσ : mix.sigma 0 = 3 := rfl
    unfold inhomStrength
    dsimp only
    rw [mix_association.1, mix_association.2, hσ]
    simp only [gridDensity, gridVector, gridPacking, if_true, Fin.sum_univ_two, List.range_one, List.map_cons,
      List.map_nil, List.sum_cons, List.sum_nil]
    rw [if_neg (by norm_num), if_neg (by norm_num)]
    have hxi : 1 / 2 ≤ 1 - ((1 / 1000 : ℝ) ^ 2 + 0) / (1 / 1000 * surface mix 300 0) ^ 2 := by
      have : ((1 / 1000 : ℝ) ^ 2 + 0) / (1 / 1000 * surface mix 300 0) ^ 2 ≤ 1 / 2 := by
        rw [div_le_iff₀ (by positivity)]
        nlinarith
      linarith
    have hxt : 0 ≤ 1 - ((1 / 1000 + 1 / 1000 : ℝ) ^ 2 + 0)
        / (1 / 1000 * surface mix 300 0 + 1 / 1000 * surface mix 300 1) ^ 2 := by
      refine correction_nonneg ?_
      nlinarith
    generalize 1 - ((1 / 1000 + 1 / 1000 : ℝ) ^ 2 + 0)
        / (1 / 1000 * surface mix 300 0 + 1 / 1000 * surface mix 300 1) ^ 2 = xt at hxt
    generalize 1 - ((1 / 1000 : ℝ) ^ 2 + 0) / (1 / 1000 * surface mix 300 0) ^ 2 = xi at hxi
    have hg : 1 ≤ inhomContact (segmentDiameter mix 300 0) (1 / 1000 * surface mix 300 0
        + 1 / 1000 * surface mix 300 1) (1 / 10) xt := by
      unfold inhomContact segmentDiameter
      have e : (1 : ℝ) ≤ 1 / (1 - 1 / 10) := by norm_num
      have hn : 0 ≤ 1 / 1000 * surface mix 300 0 + 1 / 1000 * surface mix 300 1 := by linarith
      rw [add_assoc]
      refine e.trans (le_add_of_nonneg_right ?_)
      have h9 : (0 : ℝ) < 1 - 1 / 10 := by norm_num
      positivity
    have : (1 : ℝ) * (3 ^ 3 * 0.03) * 8 * (1 / 1000 * (1 / 2)) ≤ _ :=
      mul_le_mul (mul_le_mul (mul_le_mul_of_nonneg_right hg (by norm_num)) hx8 (by norm_num) (by positivity))
        (mul_le_mul_of_nonneg_left hxi (by norm_num)) (by norm_num) (by
          have : 0 ≤ Real.exp (2500 / 300) - 1 := by linarith
          have : (0 : ℝ) ≤ inhomContact (segmentDiameter mix 300 0) (1 / 1000 * surface mix 300 0
            + 1 / 1000 * surface mix 300 1) (1 / 10) xt := by linarith
          positivity)
    refine lt_of_lt_of_le ?_ this
    norm_num

theorem mix_packing : Spec.packingFraction mix 300 1 (fun _ => 1 / 1000) < 1 := by
  have h := assocRecords_admissible.packing
  have e : Spec.packingFraction mix 300 1 (fun _ => 1 / 1000) = Spec.packingFraction mix 300 1000 (fun _ => 1) := by
    unfold Spec.packingFraction
    refine Finset.sum_congr rfl fun i _ => ?_
    ring
  rw [e]
  exact h

theorem mix_polar (cond : ℝ → ℝ → Prop) {T : ℝ} (rho : Fin 2 → ℝ) : DftPolarRegular cond mix T rho where
  dipole h := absurd assocRecords_moments.1 h.ne'
  quadrupole h := absurd assocRecords_moments.2 h.ne'
  dipole_quadrupole h := absurd assocRecords_moments.1 h.ne'

theorem line (a b : ℝ) : HasDerivAt (fun t => a + t * b) b 0 := by
  simpa using ((hasDerivAt_id (0 : ℝ)).mul_const b).const_add a

/-! ## C76 -/

/-- heating the mixture while its densities change; the first component enters an empty region -/
example := C76_chain (T := fun t => 300 + t * 1) (t0 := 0) (line 300 1) (by norm_num)
    mix_molecules (rho := fun i t => (if i = 0 then 0 else 1 / 1000) + t * 1) (rho' := fun _ => 1)
    (lambda := fun i t => (if i = 0 then 0 else 1 / 1000) + t * 2) (lambda' := fun _ => 2)
    (zeta2 := fun t => 1 / 10 + t * 1) (zeta3 := fun t => 1 / 10 + t * 1) (fun i => line _ _)
    (fun i => line _ _) (line _ _) (line _ _) (fun i => by fin_cases i <;> norm_num) (by norm_num) (by norm_num)

example := C76_attractive (T := fun t => 300 + t * 1) (t0 := 0) (line 300 1)
    (by norm_num) (pr := assocRecords) (k := fun _ _ => 0) mix_molecules (rho := fun _ t => 1 / 1000 + t * 1)
    (fun _ => line _ _) (fun _ => by norm_num)
    (by simpa using mix_packing)
    (by
      have := assocRecords_density.ne'
      simpa using this)
    (mix_polar _ _)

/-- interface of the fluid with an empty region -/
example (la : LinAlg ℝ ℝ) (laD : LinAlg ℝ (Dual ℝ)) (n0' : Bool → Fin 2 → ℝ) (v' : Bool → ℕ → Fin 2 → ℝ)
    (n3' : Bool → ℝ) := C76_association (T := fun t => 300 + t * 1) (t0 := 0)
    (line 300 1) (by norm_num) mix_molecules assocRecords_comp la laD 50
    1e-10 1 [false, true] (n0 := fun g i t => gridDensity g i + t * n0' g i)
    (v := fun g d i t => gridVector g d i + t * v' g d i) (n3 := fun g t => gridPacking g + t * n3' g)
    (fun g i => line _ _) (fun g d i => line _ _) (fun g => line _ _)
    (fun g _ => by simpa using mix_point g)
    (fun g _ => by cases g <;> norm_num [gridDensity])
    (fun g _ => by cases g <;> norm_num [gridDensity])
    (fun g _ => by simpa using mix_strength g)

example (rhou rhow lambdau lambdaw : Fin 2 → ℝ) :=
  C76_chain_second (T := 300) 1 2 (by norm_num) mix_molecules (rho := fun _ => 1 / 1000) (lambda := fun _ => 1 / 1000)
    (zeta2 := 1 / 10) (zeta3 := 1 / 10) rhou rhow lambdau lambdaw 1 2 3 4 (fun _ => by norm_num) (by norm_num)
    (by norm_num)

example (rhou rhow : Fin 2 → ℝ) :=
  C76_attractive_second (T := 300) 1 2 (by norm_num) (pr := assocRecords) (k := fun _ _ => 0) mix_molecules
    (rho := fun _ => 1 / 1000) rhou rhow (fun _ => by norm_num) mix_packing assocRecords_density.ne' (mix_polar _ _)

example (la : LinAlg ℝ ℝ) (laD : LinAlg ℝ (Dual (Dual ℝ))) (n0u n0w : Bool → Fin 2 → ℝ)
    (vu vw : Bool → ℕ → Fin 2 → ℝ) (n3u n3w : Bool → ℝ) :=
  C76_association_second (T := 300) 1 2 (by norm_num) mix_molecules assocRecords_comp la laD 50 1e-10 1 [false, true]
    n0u n0w vu vw n3u n3w (fun g _ => mix_point g) (fun g _ => by cases g <;> norm_num [gridDensity])
    (fun g _ => by cases g <;> norm_num [gridDensity]) (fun g _ => mix_strength g)

/-! ## C78 -/

/-- an empty region: no density, no shell average -/
example := C78_chain mix_molecules (fun i => (assocRecords_positive i).2.2) assocRecords_kappa (T := 300) (by norm_num)
  (rho := fun _ => 0) (lambda := fun _ => 0) (zeta2 := 0) (zeta3 := 0) le_rfl (by norm_num)

example := C78_chain_derivative mix_molecules (fun i => (assocRecords_positive i).2.2) assocRecords_kappa (T := 300)
  (by norm_num) 1 (rho := fun _ => 0) (lambda := fun _ => 0) (rho' := fun _ => 1) (lambda' := fun _ => 2) (zeta2 := 0)
  (zeta3 := 0) (zeta2' := 1) (zeta3' := 1) (fun _ => Or.inr rfl) le_rfl (by norm_num)

/-- the total density is exactly the cutoff of the mean segment number -/
example := C78_attractive mix_molecules (fun i => (assocRecords_positive i).2.2) assocRecords_kappa (T := 300)
  (by norm_num) (rho := fun i => if i = 0 then f64EPSILON else 0)
  (fun i => by fin_cases i <;> norm_num [f64EPSILON])
  (by
    refine lt_of_le_of_lt ?_ mix_packing
    refine Finset.sum_le_sum fun i _ => ?_
    have hd := mix_molecules.diameter_pos (T := 300) (by norm_num) i
    rw [hsDiameter_eq_spec] at hd
    have hm := mix_molecules.m_pos i
    have hr : (if i = 0 then f64EPSILON else 0 : ℝ) ≤ 1 / 1000 := by fin_cases i <;> norm_num [f64EPSILON]
    have := Real.pi_pos
    rw [div_one, div_one]
    exact mul_le_mul_of_nonneg_right (mul_le_mul_of_nonneg_right hr hm.le) (by positivity))
  (mix_polar _ _)

example (rho' : Fin 2 → ℝ) := C78_attractive_derivative mix_molecules (fun i => (assocRecords_positive i).2.2)
  assocRecords_kappa (T := 300) (by norm_num) 1 (rho := fun _ => 1 / 1000) (rho' := rho') (fun _ => by norm_num)
  mix_packing assocRecords_density.ne' (mix_polar _ _)

example (la : LinAlg ℝ ℝ) (laX : LinAlg XReal XReal) := C78_association mix_molecules
  (fun i => (assocRecords_positive i).2.2) assocRecords_kappa (T := 300) (by norm_num) assocRecords_comp la laX 50 1e-10
  1e-10 1 [false, true] (fun g _ => mix_point g)

example (la : LinAlg ℝ ℝ) (laX : LinAlg XReal (Dual XReal)) (n0' : Bool → Fin 2 → ℝ)
    (v' : Bool → ℕ → Fin 2 → ℝ) (n3' : Bool → ℝ) := C78_association_derivative mix_molecules
  (fun i => (assocRecords_positive i).2.2) assocRecords_kappa (T := 300) (by norm_num) 1 assocRecords_comp la laX 50
  1e-10 1e-10 1 [false, true] (n0' := n0') (v' := v') (n3' := n3') (fun g _ => mix_point g)
  (fun g _ => by cases g <;> norm_num [gridDensity]) (fun g _ => by cases g <;> norm_num [gridDensity])
  (fun g _ => mix_strength g)


/-! ## Pure components -/

/-- an associating chain molecule -/
noncomputable def assocChain (_ : Fin 1) : PureRecord ℝ :=
  ⟨⟨none, ""⟩, 46, ⟨2, 3, 200, none, none, some 0.03, some 2500, none, none, none, none, none⟩, none⟩

noncomputable abbrev assocPure : PcSaftParameters 1 ℝ := fromRecords assocChain (fun _ _ => 0)

theorem assocPure_positive (i : Fin 1) : 0 < (assocChain i).model_record.epsilon_k := by norm_num [assocChain]

theorem assocPure_kappa (i : Fin 1) : 0 ≤ assocPure.kappa_ab i := by norm_num [assocChain, fromRecords]

theorem assocPure_molecules : Molecules assocPure where
  m_pos i := by norm_num [assocChain, fromRecords]
  sigma_pos i := by norm_num [assocChain, fromRecords]
  epsilon_nonneg i := by norm_num [assocChain, fromRecords]

theorem assocPure_comp : assocPure.assoc_comp = [0] := by
  have e : assocPure.assoc_comp = nonzeroComp assocPure.kappa_ab := rfl
  have h : assocPure.kappa_ab = fun _ => 0.03 := rfl
  rw [e, h]
  simp only [nonzeroComp, List.finRange_succ, List.finRange_zero, List.map_nil]
  rw [List.filter_cons_of_pos (by norm_num), List.filter_nil]

theorem assocPure_association : assocPure.kappa_aibj 0 0 = 0.03 ∧ assocPure.epsilon_k_aibj 0 0 = 2500 := by
  have hmem : (0 : Fin 1) ∈ assocPure.assoc_comp := by
    rw [assocPure_comp]
    simp
  have e1 : assocPure.kappa_aibj 0 0 = if (0 : Fin 1) ∈ assocPure.assoc_comp ∧ (0 : Fin 1) ∈ assocPure.assoc_comp then
      F64.sqrt ((0.03 : ℝ) * 0.03) * F64.powf (2.0 * F64.sqrt ((3 : ℝ) * 3) / (3 + 3)) 3.0 else 0.0 := rfl
  have e2 : assocPure.epsilon_k_aibj 0 0
      = if (0 : Fin 1) ∈ assocPure.assoc_comp ∧ (0 : Fin 1) ∈ assocPure.assoc_comp then
      0.5 * ((2500 : ℝ) + 2500) else 0.0 := rfl
  rw [e1, e2, if_pos ⟨hmem, hmem⟩, if_pos ⟨hmem, hmem⟩]
  refine ⟨?_, by norm_num⟩
  change Real.sqrt (0.03 * 0.03) * (2.0 * Real.sqrt (3 * 3) / (3 + 3)) ^ (3.0 : ℝ) = _
  rw [Real.sqrt_mul_self (by norm_num), Real.sqrt_mul_self (by norm_num)]
  have : (2.0 : ℝ) * 3 / (3 + 3) = 1 := by norm_num
  rw [this, Real.one_rpow, mul_one]

theorem assocPure_surface : 40 < surface assocPure 300 0 ∧ surface assocPure 300 0 < 60 := by
  have h := (C13_diameter assocPure 0 (assocPure_molecules.sigma_pos 0) (assocPure_positive 0)).1 300 (by norm_num)
  have hσ : assocPure.sigma 0 = 3 := rfl
  have hm : assocPure.m 0 = 2 := rfl
  rw [hsDiameter_eq_spec, hσ] at h
  have hd : 2.64 < segmentDiameter assocPure 300 0 ∧ segmentDiameter assocPure 300 0 < 3 := by
    unfold segmentDiameter
    rw [hσ]
    norm_num at h ⊢
    exact h
  have hpi := Real.pi_gt_three
  have hpi2 := Real.pi_lt_d2
  have h2 : 6.9 < segmentDiameter assocPure 300 0 ^ 2 ∧ segmentDiameter assocPure 300 0 ^ 2 < 9 := by
    norm_num at hd ⊢
    constructor <;> nlinarith
  unfold surface
  rw [hm]
  norm_num at h2 hpi2 ⊢
  constructor <;> nlinarith

/-- grid points: `false` in the empty region, `true` in the fluid, where the density has a gradient -/
noncomputable def pureSurfaceDensity (g : Bool) : ℝ := if g then 1 / 10 else 0
noncomputable def pureVector (g : Bool) (_ : ℕ) : ℝ := if g then 1 / 100 else 0

theorem assocPure_point (g : Bool) :
    PurePoint assocPure (pureSurfaceDensity g) (gridPacking g) ((List.range 1).map (pureVector g)) where
  density_nonneg := by cases g <;> norm_num [pureSurfaceDensity]
  packing := by cases g <;> norm_num [gridPacking]
  vector := by cases g <;> norm_num [pureSurfaceDensity, pureVector]
  sites_a _ := by norm_num [assocChain, fromRecords]
  sites_b _ := by norm_num [assocChain, fromRecords]
  sites_few _ := by norm_num [assocChain, fromRecords]
  volume _ := by rw [assocPure_association.1]; norm_num
  energy _ := by rw [assocPure_association.2]; norm_num

theorem assocPure_cutoff (g : Bool) : pureSurfaceDensity g ≠ 1e-9 * surface assocPure 300 0 := by
  have h := assocPure_surface
  cases g
  · norm_num [pureSurfaceDensity]
    linarith
  · norm_num [pureSurfaceDensity]
    intro h'
    linarith

theorem assocPure_strength (g : Bool) : pureStrength assocPure 300 (pureSurfaceDensity g) (gridPacking g)
    ((List.range 1).map (pureVector g)) ≠ Real.sqrt f64EPSILON := by
  rw [sqrt_epsilon]
  cases g
  · have : pureStrength assocPure 300 (pureSurfaceDensity false) (gridPacking false)
        ((List.range 1).map (pureVector false)) = 0 := by
      simp [pureStrength, pureSurfaceDensity]
    rw [this]
    norm_num
  · refine ne_of_gt ?_
    obtain ⟨h0, h1⟩ := assocPure_surface
    have hd := assocPure_molecules.diameter_pos (T := 300) (by norm_num) 0
    rw [hsDiameter_eq_spec] at hd
    have hx := Real.add_one_le_exp ((2500 : ℝ) / 300)
    have hx8 : (8 : ℝ) ≤ Real.exp (2500 / 300) - 1 := by
      norm_num at hx ⊢
      linarith
    have hσ : assocPure.sigma 0 = 3 := rfl
    unfold pureStrength
    dsimp only
    rw [assocPure_association.1, assocPure_association.2, hσ]
    simp only [pureSurfaceDensity, pureVector, gridPacking, if_true, List.range_one, List.map_cons,
      List.map_nil, List.sum_cons, List.sum_nil]
    rw [if_neg (by norm_num; linarith)]
    have hg : 1 ≤ inhomContact (segmentDiameter assocPure 300 0) (1 / 10) (1 / 10)
        (1 - ((1 / 100) ^ 2 + 0) / (1 / 10) ^ 2) := by
      unfold inhomContact segmentDiameter
      have e : (1 : ℝ) ≤ 1 / (1 - 1 / 10) := by norm_num
      rw [add_assoc]
      refine e.trans (le_add_of_nonneg_right ?_)
      have h9 : (0 : ℝ) < 1 - 1 / 10 := by norm_num
      have h8 : (0 : ℝ) < 1 - ((1 / 100) ^ 2 + 0) / (1 / 10) ^ 2 := by norm_num
      positivity
    have hn : (1 / 1000 : ℝ) ≤ 1 / 10 / surface assocPure 300 0 * (1 - ((1 / 100) ^ 2 + 0) / (1 / 10) ^ 2) := by
      have : (1 / 600 : ℝ) ≤ 1 / 10 / surface assocPure 300 0 := by
        rw [le_div_iff₀ (by linarith)]
        linarith
      norm_num at this ⊢
      linarith
    have : (1 : ℝ) * (3 ^ 3 * 0.03) * 8 * (1 / 1000) ≤ _ :=
      mul_le_mul (mul_le_mul (mul_le_mul_of_nonneg_right hg (by norm_num)) hx8 (by norm_num) (by positivity))
        hn (by norm_num) (by
          have : 0 ≤ Real.exp (2500 / 300) - 1 := by linarith
          have : (0 : ℝ) ≤ inhomContact (segmentDiameter assocPure 300 0) (1 / 10) (1 / 10)
            (1 - ((1 / 100) ^ 2 + 0) / (1 / 10) ^ 2) := by linarith
          positivity)
    refine lt_of_lt_of_le ?_ this
    norm_num

theorem assocPure_packing : Spec.packingFraction assocPure 300 1 (fun _ => 1 / 1000) < 1 := by
  have h := onePure_admissible 1000 1 (by norm_num) one_pos le_rfl
  have e : Spec.packingFraction assocPure 300 1 (fun _ => 1 / 1000) = Spec.packingFraction onePure 300 1000 (fun _ => 1) := by
    unfold Spec.packingFraction
    refine Finset.sum_congr rfl fun i _ => ?_
    have e1 : assocPure.m i = onePure.m i := rfl
    have e2 : assocPure.sigma i = onePure.sigma i := rfl
    have e3 : assocPure.epsilon_k i = onePure.epsilon_k i := rfl
    rw [e1, e2, e3]
    ring
  rw [e]
  exact h.packing

theorem assocPure_polar (cond : ℝ → ℝ → Prop) {T : ℝ} (rho : ℝ) : PurePolarRegular cond assocPure T rho where
  dipole h := by
    obtain ⟨i, hi⟩ := (length_nonzeroComp_pos _).mp h
    refine absurd ?_ hi
    norm_num [assocChain, fromRecords]
  quadrupole h := by
    obtain ⟨i, hi⟩ := (length_nonzeroComp_pos _).mp h
    refine absurd ?_ hi
    norm_num [assocChain, fromRecords]

example := C76_pure_chain assocPure (t0 := 0) (line (1 / 1000) 1) (line (1 / 1000) 2) (line (1 / 10) 1)
  (Or.inl (by norm_num)) (by norm_num)

/-- an empty region -/
example := C76_pure_chain assocPure (t0 := 0) (line 0 1) (line 0 2) (line 0 1) (Or.inr (by norm_num)) (by norm_num)

example := C76_pure_attractive (line 300 1) (by norm_num) assocPure_molecules (line (1 / 1000) 1) (by norm_num)
  (by simpa using assocPure_packing) (assocPure_polar _ _)

example (version : FMTVersion) (hver : version ≠ .KierlikRosinberg) (n2' n3' : Bool → ℝ) (v' : Bool → ℕ → ℝ)
    (G : List Bool) (hG : version = .AntiSymWhiteBear → G = [true]) :=
  C76_pure_fmt_association (line 300 1) (by norm_num) assocPure_molecules hver 1 G
    (n2 := fun g t => pureSurfaceDensity g + t * n2' g) (n3 := fun g t => gridPacking g + t * n3' g)
    (v := fun g d t => pureVector g d + t * v' g d) (fun g => line _ _) (fun g => line _ _) (fun g d => line _ _)
    (fun g _ => by simpa using assocPure_point g)
    (fun h g hg => by
      rw [hG h, List.mem_singleton] at hg
      subst hg
      norm_num [pureSurfaceDensity, pureVector])
    (fun g _ => by cases g <;> norm_num [gridPacking]) (fun _ g _ => by simpa using assocPure_cutoff g)
    (fun _ g _ => by simpa using assocPure_strength g)

example (rhou rhow lambdau lambdaw etau etaw : ℝ) := C76_pure_chain_second assocPure (rho := 1 / 1000)
  (lambda := 1 / 1000) (eta := 1 / 10) rhou rhow lambdau lambdaw etau etaw (by norm_num) (by norm_num)

example (rhou rhow : ℝ) := C76_pure_attractive_second (T := 300) 1 2 (by norm_num) assocPure_molecules rhou rhow
  (by norm_num) assocPure_packing (assocPure_polar _ _)

example (n2u n2w n3u n3w : Bool → ℝ) (vu vw : Bool → ℕ → ℝ) :=
  C76_pure_fmt_association_second (T := 300) 1 2 (by norm_num) assocPure_molecules (version := .WhiteBear)
    (by decide) 1 [false, true] n2u n2w n3u n3w vu vw (fun g _ => assocPure_point g) (fun h => by cases h)
    (fun g _ => by cases g <;> norm_num [gridPacking]) (fun _ g _ => assocPure_cutoff g)
    (fun _ g _ => assocPure_strength g)

example := C78_pure_chain assocPure_molecules assocPure_positive assocPure_kappa (rho := 0) (lambda := 0) (eta := 0)
  one_pos

example := C78_pure_chain_derivative assocPure_molecules assocPure_positive assocPure_kappa (rho := 0) (lambda := 0)
  (eta := 0) (rho' := 1) (lambda' := 2) (eta' := 3) (Or.inr rfl) one_pos

example := C78_pure_attractive assocPure_molecules assocPure_positive assocPure_kappa (T := 300) (by norm_num)
  (by norm_num) assocPure_packing (assocPure_polar _ _)

example := C78_pure_attractive_derivative assocPure_molecules assocPure_positive assocPure_kappa (T := 300)
  (by norm_num) 1 (rho' := 1) (by norm_num) assocPure_packing (assocPure_polar _ _)

example := C78_pure_fmt_association_partial assocPure_molecules assocPure_positive assocPure_kappa (T := 300)
  (by norm_num) (version := .WhiteBear) (by decide) 1 [false, true] (fun g _ => assocPure_point g) (fun h => by cases h)

example := C78_pure_fmt_association_partial assocPure_molecules assocPure_positive assocPure_kappa (T := 300)
  (by norm_num) (version := .AntiSymWhiteBear) (by decide) 1 [true] (fun g _ => assocPure_point g)
  (fun _ g hg => by
    rw [List.mem_singleton] at hg
    subst hg
    norm_num [pureSurfaceDensity])

example (n2' n3' : Bool → ℝ) (v' : Bool → ℕ → ℝ) := C78_pure_fmt_association_derivative_partial assocPure_molecules
  assocPure_positive assocPure_kappa (T := 300) (by norm_num) 1 (version := .WhiteBear) (by decide) 1 [false, true]
  (n2' := n2') (n3' := n3') (v' := v') (fun g _ => assocPure_point g) (fun h => by cases h)
  (fun g _ => by cases g <;> norm_num [gridPacking]) (fun _ g _ => assocPure_cutoff g)
  (fun _ g _ => assocPure_strength g)

/-- a dipolar chain molecule in an empty region -/
example := C78_pure_attractive_empty (pr := chainMolecule) (k := fun _ _ => 0)
  ⟨fun _ => by norm_num [chainMolecule, testRecord, fromRecords],
    fun _ => by norm_num [chainMolecule, testRecord, fromRecords],
    fun _ => by norm_num [chainMolecule, testRecord, fromRecords]⟩
  (fun _ => by norm_num [chainMolecule, testRecord]) (fun _ => by norm_num [chainMolecule, testRecord, fromRecords])
  (T := 300) (by norm_num)

example := C78_attractive_empty (pr := chainMolecule) (k := fun _ _ => 0)
  ⟨fun _ => by norm_num [chainMolecule, testRecord, fromRecords],
    fun _ => by norm_num [chainMolecule, testRecord, fromRecords],
    fun _ => by norm_num [chainMolecule, testRecord, fromRecords]⟩
  (fun _ => by norm_num [chainMolecule, testRecord]) (fun _ => by norm_num [chainMolecule, testRecord, fromRecords])
  (T := 300) (by norm_num)

end PcSaft.Props
