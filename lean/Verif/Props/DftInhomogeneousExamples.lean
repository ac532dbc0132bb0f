import Verif.Props.DftInhomogeneous
import Verif.Props.DftProfileExamples

/-!
# Cases meeting the hypotheses of C82 and C83

Profiles whose density increases linearly in the first direction.
-/

namespace PcSaft.Props
open PcSaft Spec

/-- what the weight functions see of the profile `rho₀ + slope * z` -/
noncomputable def linearProfile {n : ℕ} (rho slope : ℝ) : ProfileAt n where
  density := fun _ => rho
  ball := fun R _ => 4 / 3 * Real.pi * R ^ 3 * rho
  sphere := fun R _ => 4 * Real.pi * R ^ 2 * rho
  flux := fun R d _ => if d = 0 then 4 / 3 * Real.pi * R ^ 3 * slope else 0

/-- a point of the interface -/
noncomputable def interface : ProfileAt 1 := linearProfile (1 / 1000) (1 / 3000)

theorem assocPure_diameter : 2.64 < segmentDiameter assocPure 300 0 ∧ segmentDiameter assocPure 300 0 < 3 := by
  have h := (C13_diameter assocPure 0 (assocPure_molecules.sigma_pos 0) (assocPure_positive 0)).1 300 (by norm_num)
  have hσ : assocPure.sigma 0 = 3 := rfl
  rw [hsDiameter_eq_spec, hσ] at h
  unfold segmentDiameter
  rw [hσ]
  norm_num at h ⊢
  exact h

theorem cube_bounds {d : ℝ} (h : 2.64 < d ∧ d < 3) : 18 < d ^ 3 ∧ d ^ 3 < 27 := by
  obtain ⟨h1, h2⟩ := h
  norm_num at h1
  have h3 : 6.9 < d ^ 2 := by
    norm_num
    nlinarith
  have h4 : d ^ 2 < 9 := by nlinarith
  norm_num at h3
  constructor <;> nlinarith

theorem interface_n3 : 1e-5 ≤ interface.n3 assocPure 300 ∧ interface.n3 assocPure 300 < 1 := by
  have hm : assocPure.m 0 = 2 := rfl
  have h3 := cube_bounds assocPure_diameter
  have e : interface.n3 assocPure 300 = Real.pi * segmentDiameter assocPure 300 0 ^ 3 / 3000 := by
    simp only [ProfileAt.n3, Fin.sum_univ_one, hm, interface, linearProfile]
    ring
  have hpi := Real.pi_gt_three
  have hpi4 := Real.pi_lt_four
  rw [e]
  norm_num
  constructor <;> nlinarith

theorem interface_n2 : 0 < interface.n2 assocPure 300 0
    ∧ interface.n2v2 assocPure 300 3 0 ≤ interface.n2 assocPure 300 0 ^ 2 := by
  have hm : assocPure.m 0 = 2 := rfl
  obtain ⟨h1, h2⟩ := assocPure_diameter
  norm_num at h1
  have hpi := Real.pi_pos
  set d := segmentDiameter assocPure 300 0 with hd
  have e2 : interface.n2 assocPure 300 0 = Real.pi * d ^ 2 / 500 := by
    simp only [ProfileAt.n2, hm, interface, linearProfile, ← hd]
    ring
  have ev : interface.n2v2 assocPure 300 3 0 = (Real.pi * d ^ 2 / 500 * (d / 18)) ^ 2 := by
    simp only [ProfileAt.n2v2, ProfileAt.n2v, hm, interface, linearProfile, ← hd, List.range_succ, List.range_zero]
    norm_num
    ring
  have hd0 : 0 < d := by linarith
  refine ⟨by rw [e2]; positivity, ?_⟩
  rw [ev, e2]
  have : 0 ≤ Real.pi * d ^ 2 / 500 := by positivity
  apply pow_le_pow_left₀ (by positivity)
  nlinarith

theorem assocPure_nassoc : assocPure.nassoc = 1 := by
  change assocPure.assoc_comp.length = 1
  rw [assocPure_comp]
  rfl

/-- the vector densities of the interface are not zero -/
example : 0 < interface.n2v2 assocPure 300 3 0 := by
  have hm : assocPure.m 0 = 2 := rfl
  obtain ⟨h1, h2⟩ := assocPure_diameter
  norm_num at h1
  have hpi := Real.pi_pos
  have : 0 < segmentDiameter assocPure 300 0 := by linarith
  simp only [ProfileAt.n2v2, ProfileAt.n2v, hm, interface, linearProfile, List.range_succ, List.range_zero]
  norm_num
  positivity

example := C82_white_bear assocPure assocPure_molecules 300 (by norm_num) 3 [interface] (fun g hg => by
  rw [List.mem_singleton.mp hg]
  exact ⟨lt_of_lt_of_le (by norm_num) interface_n3.1, interface_n3.2⟩)

example := C82_antisymmetrized assocPure assocPure_molecules 300 (by norm_num) 3 [interface] (fun g hg => by
  rw [List.mem_singleton.mp hg]
  exact ⟨lt_of_lt_of_le (by norm_num) interface_n3.1, interface_n3.2⟩) (fun g hg => by
  rw [List.mem_singleton.mp hg]
  exact interface_n2)

example (la : LinAlg ℝ ℝ) := C82_association assocPure assocPure_molecules 300 (by norm_num) 0 assocPure_comp
  (by norm_num [assocPure, assocChain, fromRecords]) (by norm_num [assocPure, assocChain, fromRecords]) la 50 1e-10 3
  [interface]
  (fun g hg i => by
    rw [List.mem_singleton.mp hg, Subsingleton.elim i 0]
    have hs := assocPure_surface.1
    exact div_nonneg interface_n2.1.le (by linarith))
  (fun g hg => by
    rw [List.mem_singleton.mp hg]
    exact interface_n3.2)

/-- rotation by a right angle -/
noncomputable def quarterTurn : Matrix (Fin 2) (Fin 2) ℝ := !![0, -1; 1, 0]

theorem quarterTurn_orthogonal : quarterTurn.transpose * quarterTurn = 1 := by
  ext i j
  fin_cases i <;> fin_cases j <;> simp [quarterTurn, Matrix.mul_apply]

/-- the quarter turn moves the gradient from the first to the second direction -/
example : (interface.rotate quarterTurn).flux 1 0 0 = 0
    ∧ (interface.rotate quarterTurn).flux 1 1 0 = interface.flux 1 0 0 ∧ interface.flux 1 0 0 ≠ 0 := by
  have hpi := Real.pi_pos.ne'
  simp [ProfileAt.rotate, quarterTurn, interface, linearProfile]

example (la : LinAlg ℝ ℝ) := C82_association_rotation quarterTurn_orthogonal mix 300 la 50 1e-10
  [linearProfile (1 / 1000) (1 / 3000)]

example := C82_pure_rotation quarterTurn_orthogonal assocPure .WhiteBear 300 [interface]

example := C83_chain assocPure assocPure_molecules 300 (by norm_num) 3 interface (by
  have hm : assocPure.m 0 = 2 := rfl
  have h3 := cube_bounds assocPure_diameter
  have e : assocPure.m 0 / 8 * interface.ball (segmentDiameter assocPure 300 0) 0
      = Real.pi * segmentDiameter assocPure 300 0 ^ 3 / 3000 := by
    simp only [hm, interface, linearProfile]
    ring
  have hpi4 := Real.pi_lt_four
  have hpi := Real.pi_pos
  rw [e]
  nlinarith)

example := C83_attractive assocChain (fun _ _ => 0) rfl assocPure_molecules 300 (by norm_num) PSI_DFT 3 interface
  (Or.inl (by
    by_contra h
    obtain ⟨i, hi⟩ := (length_nonzeroComp_pos _).mp (Nat.pos_of_ne_zero h)
    refine absurd ?_ hi
    norm_num [assocChain, fromRecords]))
  (by
    have hd := assocPure_molecules.diameter_pos (T := 300) (by norm_num) 0
    rw [hsDiameter_eq_spec] at hd
    have hy : (PSI_DFT : ℝ) * segmentDiameter assocPure 300 0 ≠ 0 := by
      unfold segmentDiameter
      norm_num [PSI_DFT]
      exact hd.ne'
    have hpi := Real.pi_pos.ne'
    rw [show interface.ball (PSI_DFT * segmentDiameter assocPure 300 0) 0
        / (4 / 3 * Real.pi * (PSI_DFT * segmentDiameter assocPure 300 0) ^ 3) = 1 / 1000 by
      simp only [interface, linearProfile]
      generalize PSI_DFT * segmentDiameter assocPure 300 0 = y at hy
      field_simp]
    norm_num [f64EPSILON])
  (by
    have hd := assocPure_molecules.diameter_pos (T := 300) (by norm_num) 0
    rw [hsDiameter_eq_spec] at hd
    have hy : (PSI_DFT : ℝ) * segmentDiameter assocPure 300 0 ≠ 0 := by
      unfold segmentDiameter
      norm_num [PSI_DFT]
      exact hd.ne'
    have hpi := Real.pi_pos.ne'
    rw [show interface.ball (PSI_DFT * segmentDiameter assocPure 300 0) 0
        / (4 / 3 * Real.pi * (PSI_DFT * segmentDiameter assocPure 300 0) ^ 3) = 1 / 1000 by
      simp only [interface, linearProfile]
      generalize PSI_DFT * segmentDiameter assocPure 300 0 = y at hy
      field_simp]
    exact assocPure_packing)

end PcSaft.Props
