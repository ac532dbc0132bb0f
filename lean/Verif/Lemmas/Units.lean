import Verif.Lemmas.RealForms
import Verif.Lemmas.PolarForms
import Verif.Model.Eos

/-!
# Change of units: lengths multiplied by `l`, energies by `u`

Every contribution keeps its value (per volume it is divided by `l³`).
-/

namespace PcSaft
variable {n : ℕ}

/-- parameters in other units of length and energy -/
noncomputable def PcSaftParameters.rescale (l u : ℝ) (pr : Fin n → PureRecord ℝ) (p : PcSaftParameters n ℝ) :
    PcSaftParameters n ℝ :=
  { p with
    sigma := fun i => l * p.sigma i
    epsilon_k := fun i => u * p.epsilon_k i
    mu := fun i => Real.sqrt (l ^ 3 * u) * p.mu i
    q := fun i => Real.sqrt (l ^ 5 * u) * p.q i
    epsilon_k_ab := fun i => u * p.epsilon_k_ab i
    epsilon_k_aibj := fun i j => u * p.epsilon_k_aibj i j
    sigma_ij := fun i j => l * p.sigma_ij i j
    epsilon_k_ij := fun i j => u * p.epsilon_k_ij i j
    e_k_ij := fun i j => u * p.e_k_ij i j
    pure_records := pr }

theorem foldl_scale {a : ℝ} {k : ℕ} {f g : ℝ → Fin k → ℝ} (h : ∀ x i, f (a * x) i = a * g x i) (x : ℝ) :
    Fin.foldl k f (a * x) = a * Fin.foldl k g x := by
  induction k generalizing x with
  | zero => simp
  | succ k ih =>
    rw [Fin.foldl_succ, Fin.foldl_succ, h]
    exact ih (fun x i => h x i.succ) _

theorem foldUpper_scale {a : ℝ} {k : ℕ} {f g : ℝ → Fin k → ℝ} (h : ∀ x i, f (a * x) i = a * g x i) (i : Fin k) (x : ℝ) :
    foldUpper i f (a * x) = a * foldUpper i g x := by
  unfold foldUpper
  apply foldl_scale
  intro x j
  split
  · exact h _ _
  · rfl

theorem foldUpper_scale' {a : ℝ} {k : ℕ} {f g : ℝ → Fin k → ℝ} {i : Fin k} {x y : ℝ} (hy : y = a * x)
    (h : ∀ x i, f (a * x) i = a * g x i) : foldUpper i f y = a * foldUpper i g x := by
  rw [hy]
  exact foldUpper_scale h i x

theorem foldl_scale' {a : ℝ} {k : ℕ} {f g : ℝ → Fin k → ℝ} {x y : ℝ} (hy : y = a * x)
    (h : ∀ x i, f (a * x) i = a * g x i) : Fin.foldl k f y = a * Fin.foldl k g x := by
  rw [hy]
  exact foldl_scale h x

theorem sub_scale {a x A A' : ℝ} (h : A' = a * A) : a * x - A' = a * (x - A) := by rw [h, mul_sub]

theorem add_scale {a x A A' : ℝ} (h : A' = a * A) : a * x + A' = a * (x + A) := by rw [h, mul_add]

section
variable {l u : ℝ} (hl : 0 < l) (hu : 0 < u) (pr : Fin n → PureRecord ℝ) (p : PcSaftParameters n ℝ)
include hl hu

omit hl in
theorem inv_mul_rescale (T e : ℝ) : (u * T)⁻¹ * (u * e) = T⁻¹ * e := by
  rw [mul_inv]
  field_simp

omit hl in
theorem hsDiameter_rescale (T : ℝ) (i : Fin n) :
    hsDiameter (p.rescale l u pr) (u * T) i = l * hsDiameter p T i := by
  have h : (u * T)⁻¹ * (-3.0) * (u * p.epsilon_k i) = T⁻¹ * (-3.0) * p.epsilon_k i := by
    rw [mul_right_comm, inv_mul_rescale hu, mul_right_comm]
  simp only [hsDiameter, PcSaftParameters.rescale, c, ofF_real, recip_real, h]
  rw [mul_left_comm]

/-- the state in the other units -/
noncomputable def StateHD.rescale (l u : ℝ) (s : StateHD n ℝ) : StateHD n ℝ :=
  { s with
    temperature := u * s.temperature
    volume := l ^ 3 * s.volume
    partial_density := fun i => s.partial_density i / l ^ 3 }

omit hl hu in
theorem new_rescale (T V : ℝ) (N : Fin n → ℝ) :
    StateHD.new (u * T) (l ^ 3 * V) N = (StateHD.new T V N).rescale l u := by
  simp only [StateHD.new, StateHD.rescale, StateHD.mk.injEq, true_and]
  funext i
  rw [mul_comm, div_mul_eq_div_div]

omit hl hu in
theorem zeta_rescale (m rho d : Fin n → ℝ) (k : Fin 4) :
    zeta m (fun i => rho i / l ^ 3) (fun i => l * d i) k = l ^ (k : ℕ) / l ^ 3 * zeta m rho d k := by
  rw [zeta_real, zeta_real, mul_left_comm, Finset.mul_sum _ _ (l ^ (k : ℕ) / l ^ 3)]
  congr 1
  refine Finset.sum_congr rfl fun i _ => ?_
  rw [mul_pow]
  ring

omit hu in
theorem zeta3_rescale (m rho d : Fin n → ℝ) :
    zeta m (fun i => rho i / l ^ 3) (fun i => l * d i) 3 = zeta m rho d 3 := by
  rw [zeta_rescale, show ((3 : Fin 4) : ℕ) = 3 from rfl, div_self (by positivity), one_mul]

omit hu in
theorem zeta23_rescale (m x d : Fin n → ℝ) :
    zeta23 m x (fun i => l * d i) = zeta23 m x d / l := by
  rw [zeta23_real, zeta23_real]
  have h : ∀ k : ℕ, ∑ i, x i * (m i * (l * d i) ^ k) = l ^ k * ∑ i, x i * (m i * d i ^ k) := by
    intro k
    rw [Finset.mul_sum]
    refine Finset.sum_congr rfl fun i _ => ?_
    rw [mul_pow]
    ring
  rw [h, h]
  generalize ∑ i, x i * (m i * d i ^ 2) = a
  generalize ∑ i, x i * (m i * d i ^ 3) = b
  field_simp

omit hl in
theorem hsDiameter_rescale' (T : ℝ) :
    hsDiameter (p.rescale l u pr) (u * T) = fun i => l * hsDiameter p T i := by
  funext i
  exact hsDiameter_rescale hu pr p T i

theorem hardSphere_rescale (s : StateHD n ℝ) :
    hardSphere (p.rescale l u pr) (s.rescale l u) = hardSphere p s := by
  rw [hardSphere_real, hardSphere_real]
  simp only [StateHD.rescale, hsDiameter_rescale' hu, zeta3_rescale hl, zeta23_rescale hl]
  rw [show (p.rescale l u pr).m = p.m from rfl]
  rw [zeta_rescale, zeta_rescale, zeta_rescale]
  simp only [show ((0 : Fin 4) : ℕ) = 0 from rfl, show ((1 : Fin 4) : ℕ) = 1 from rfl, show ((2 : Fin 4) : ℕ) = 2 from rfl, hsForm]
  generalize zeta p.m s.partial_density (hsDiameter p s.temperature) 0 = z0
  generalize zeta p.m s.partial_density (hsDiameter p s.temperature) 1 = z1
  generalize zeta p.m s.partial_density (hsDiameter p s.temperature) 2 = z2
  generalize zeta p.m s.partial_density (hsDiameter p s.temperature) 3 = z3
  generalize zeta23 p.m s.molefracs (hsDiameter p s.temperature) = z23
  generalize Real.log (1 - z3) = L
  generalize 1 - z3 = w
  have hl' := hl.ne'
  field_simp

omit hu in
theorem gHs_rescale (z2 z3 d : ℝ) : gHs (l ^ 2 / l ^ 3 * z2) z3 (l * d) = gHs z2 z3 d := by
  have e : l ^ 2 / l ^ 3 * z2 = z2 / l := by field_simp
  have h : ∀ w : ℝ, l * d * (z2 / l * w * w) = d * (z2 * w * w) := by
    intro w
    field_simp
  simp only [gHs, dpowi_real]
  rw [e, h, ← mul_pow, ← mul_pow, h]

theorem hardChain_rescale (s : StateHD n ℝ) :
    hardChain (p.rescale l u pr) (s.rescale l u) = hardChain p s := by
  rw [hardChain_real, hardChain_real]
  simp only [StateHD.rescale, hsDiameter_rescale' hu, zeta3_rescale hl]
  rw [show (p.rescale l u pr).m = p.m from rfl]
  rw [zeta_rescale]
  simp only [show ((2 : Fin 4) : ℕ) = 2 from rfl, gHs_rescale hl]
  rw [Finset.mul_sum, Finset.mul_sum]
  refine Finset.sum_congr rfl fun i _ => ?_
  generalize Real.log _ = L
  field_simp

omit hl in
theorem eps_rescale (T e : ℝ) : u * e / (u * T) = e / T := mul_div_mul_left _ _ hu.ne'

theorem dispersion_rescale (s : StateHD n ℝ) :
    dispersion (p.rescale l u pr) (s.rescale l u) = dispersion p s := by
  have h : ∀ k : ℕ, ∑ i, ∑ j, s.partial_density i / l ^ 3 * (s.partial_density j / l ^ 3)
        * (p.m i * p.m j * (p.epsilon_k_ij i j / s.temperature) ^ k * (l * p.sigma_ij i j) ^ 3)
      = (∑ i, ∑ j, s.partial_density i * s.partial_density j
        * (p.m i * p.m j * (p.epsilon_k_ij i j / s.temperature) ^ k * p.sigma_ij i j ^ 3)) / l ^ 3 := by
    intro k
    simp only [Finset.sum_div]
    refine Finset.sum_congr rfl fun i _ => Finset.sum_congr rfl fun j _ => ?_
    generalize p.epsilon_k_ij i j / s.temperature = e
    field_simp
  have h1 := h 1
  simp only [pow_one] at h1
  rw [dispersion_real, dispersion_real]
  simp only [StateHD.rescale, hsDiameter_rescale' hu, zeta3_rescale hl, rho1mix_real, rho2mix_real]
  simp only [PcSaftParameters.rescale, eps_rescale hu, h1, h 2]
  simp only [dispForm]
  generalize intForm A0 A1 A2 _ _ = i1
  generalize intForm B0 B1 B2 _ _ = i2
  generalize c1Form _ _ = c1
  field_simp

/-! ### polar contributions -/

theorem packing_rescale (s : StateHD n ℝ) :
    packingFraction (p.rescale l u pr).m (s.rescale l u).partial_density
      (fun i => hsDiameter (p.rescale l u pr) (s.rescale l u).temperature i * c (0.5 : ℝ))
    = packingFraction p.m s.partial_density (fun i => hsDiameter p s.temperature i * c (0.5 : ℝ)) := by
  rw [packingFraction_eq_zeta, packingFraction_eq_zeta]
  simp only [StateHD.rescale, hsDiameter_rescale' hu]
  exact zeta3_rescale hl _ _ _

omit hl hu in
theorem pade_rescale (hl : 0 < l) (a b V : ℝ) : padeVolume (a / l ^ 3) (b / l ^ 3) (l ^ 3 * V) = padeVolume a b V := by
  simp only [padeVolume, isNan_real, Bool.false_eq_true, if_false]
  rw [← sub_div]
  generalize a - b = w
  field_simp

theorem dipoleTerm_rescale (T : ℝ) (i : Fin n) :
    dipoleTerm (p.rescale l u pr) (u * T)⁻¹ i = l ^ 3 * dipoleTerm p T⁻¹ i := by
  simp only [dipoleTerm, PcSaftParameters.rescale, c, ofF_real, powi_real, mul_inv, mul_pow]
  field_simp

theorem dipolePhi2_rescale (T : ℝ) (rho : Fin n → ℝ) (eta : ℝ) :
    dipolePhi2 (p.rescale l u pr) (u * T) (fun i => rho i / l ^ 3) eta = dipolePhi2 p T rho eta / l ^ 3 := by
  have h0 : (c (0.0 : ℝ) : ℝ) = (l ^ 3)⁻¹ * c (0.0 : ℝ) := by
    simp only [c, ofF_real]
    norm_num
  rw [div_eq_inv_mul]
  simp only [dipolePhi2, recip_real, dipoleTerm_rescale hl hu]
  refine foldl_scale' h0 (fun x i => foldUpper_scale' (sub_scale ?_) (fun x j => sub_scale ?_))
  · simp only [PcSaftParameters.rescale, c, ofF_real, powi_real, inv_mul_rescale hu, mul_pow]
    generalize (pairIntegral (F := ℝ) (D := ℝ) _ _ _ _ _ _ _) = P
    field_simp
  · simp only [PcSaftParameters.rescale, c, ofF_real, powi_real, inv_mul_rescale hu, mul_pow]
    generalize (pairIntegral (F := ℝ) (D := ℝ) _ _ _ _ _ _ _) = P
    generalize (2.0 : ℝ) = two
    field_simp

omit hu in
theorem trip_rescale (a b d x y z s1 s2 s3 P k : ℝ) :
    a / l ^ 3 * (b / l ^ 3) * (d / l ^ 3) * (l ^ 3 * x) * (l ^ 3 * y) * (l ^ 3 * z) / (l * s1 * (l * s2) * (l * s3)) * P * k
      = (l ^ 3)⁻¹ * (a * b * d * x * y * z / (s1 * s2 * s3) * P * k) := by
  field_simp

theorem dipolePhi3_rescale (T : ℝ) (rho : Fin n → ℝ) (eta : ℝ) :
    dipolePhi3 (p.rescale l u pr) (u * T) (fun i => rho i / l ^ 3) eta = dipolePhi3 p T rho eta / l ^ 3 := by
  have h0 : (c (0.0 : ℝ) : ℝ) = (l ^ 3)⁻¹ * c (0.0 : ℝ) := by
    simp only [c, ofF_real]
    norm_num
  rw [div_eq_inv_mul]
  simp only [dipolePhi3, recip_real, dipoleTerm_rescale hl hu]
  refine foldl_scale' h0 (fun x i => foldUpper_scale' (sub_scale ?_) (fun x j => foldUpper_scale' ?_ (fun x k => sub_scale ?_)))
  · simp only [PcSaftParameters.rescale, c, ofF_real, powi_real, mul_pow]
    generalize (tripletIntegral (F := ℝ) (D := ℝ) _ _ _ _) = P
    field_simp
  · rw [← sub_scale (A' := _) ?_, ← sub_scale (A' := _) ?_]
    · exact trip_rescale hl _ _ _ _ _ _ _ _ _ _ _
    · exact trip_rescale hl _ _ _ _ _ _ _ _ _ _ _
  · exact trip_rescale hl _ _ _ _ _ _ _ _ _ _ _

theorem quadrupoleTerm_rescale (T : ℝ) (i : Fin n) :
    quadrupoleTerm (p.rescale l u pr) (u * T)⁻¹ i = l ^ 5 * quadrupoleTerm p T⁻¹ i := by
  simp only [quadrupoleTerm, PcSaftParameters.rescale, c, ofF_real, powi_real, mul_inv, mul_pow]
  field_simp

theorem quadrupolePhi2_rescale (T : ℝ) (rho : Fin n → ℝ) (eta : ℝ) :
    quadrupolePhi2 (p.rescale l u pr) (u * T) (fun i => rho i / l ^ 3) eta = quadrupolePhi2 p T rho eta / l ^ 3 := by
  have h0 : (c (0.0 : ℝ) : ℝ) = (l ^ 3)⁻¹ * c (0.0 : ℝ) := by
    simp only [c, ofF_real]
    norm_num
  rw [div_eq_inv_mul]
  simp only [quadrupolePhi2, recip_real, quadrupoleTerm_rescale hl hu]
  refine foldl_scale' h0 (fun x i => foldUpper_scale' (sub_scale ?_) (fun x j => sub_scale ?_))
  · simp only [PcSaftParameters.rescale, c, ofF_real, powi_real, inv_mul_rescale hu, mul_pow]
    generalize (pairIntegral (F := ℝ) (D := ℝ) _ _ _ _ _ _ _) = P
    field_simp
  · simp only [PcSaftParameters.rescale, c, ofF_real, powi_real, inv_mul_rescale hu, mul_pow]
    generalize (pairIntegral (F := ℝ) (D := ℝ) _ _ _ _ _ _ _) = P
    generalize (2.0 : ℝ) = two
    field_simp

omit hu in
theorem trip_rescale5 (a b d x y z s1 s2 s3 P k : ℝ) :
    a / l ^ 3 * (b / l ^ 3) * (d / l ^ 3) * (l ^ 5 * x) * (l ^ 5 * y) * (l ^ 5 * z)
        / ((l * s1) ^ 3 * (l * s2) ^ 3 * (l * s3) ^ 3) * P * k
      = (l ^ 3)⁻¹ * (a * b * d * x * y * z / (s1 ^ 3 * s2 ^ 3 * s3 ^ 3) * P * k) := by
  field_simp

theorem quadrupolePhi3_rescale (T : ℝ) (rho : Fin n → ℝ) (eta : ℝ) :
    quadrupolePhi3 (p.rescale l u pr) (u * T) (fun i => rho i / l ^ 3) eta = quadrupolePhi3 p T rho eta / l ^ 3 := by
  have h0 : (c (0.0 : ℝ) : ℝ) = (l ^ 3)⁻¹ * c (0.0 : ℝ) := by
    simp only [c, ofF_real]
    norm_num
  rw [div_eq_inv_mul]
  simp only [quadrupolePhi3, recip_real, quadrupoleTerm_rescale hl hu]
  refine foldl_scale' h0 (fun x i => foldUpper_scale' (add_scale ?_) (fun x j => foldUpper_scale' ?_ (fun x k => add_scale ?_)))
  · simp only [PcSaftParameters.rescale, c, ofF_real, powi_real, mul_pow]
    generalize (tripletIntegral (F := ℝ) (D := ℝ) _ _ _ _) = P
    field_simp
  · rw [← add_scale (A' := _) ?_, ← add_scale (A' := _) ?_]
    · exact trip_rescale5 hl _ _ _ _ _ _ _ _ _ _ _
    · exact trip_rescale5 hl _ _ _ _ _ _ _ _ _ _ _
  · exact trip_rescale5 hl _ _ _ _ _ _ _ _ _ _ _

theorem dqTerm_rescale (x2 : Fin n → ℝ) (T : ℝ) (i : Fin n) :
    dqTerm (p.rescale l u pr) x2 (u * T)⁻¹ i = l ^ 4 * dqTerm p x2 T⁻¹ i := by
  simp only [dqTerm, PcSaftParameters.rescale, c, ofF_real, powi_real, mul_inv, mul_pow]
  field_simp

theorem muQTerm_rescale (v : DQVariants) (T : ℝ) (i j : Fin n) :
    muQTerm v (p.rescale l u pr) (u * T)⁻¹ i j = l ^ 8 * muQTerm v p T⁻¹ i j := by
  cases v with
  | DQ35 =>
    simp only [muQTerm, dqTerm_rescale hl hu]
    change l ^ 4 * dqTerm p p.mu2 T⁻¹ i / (l * p.sigma i) * (l ^ 4 * dqTerm p p.q2 T⁻¹ j) * (l * p.sigma j)
      = l ^ 8 * (dqTerm p p.mu2 T⁻¹ i / p.sigma i * dqTerm p p.q2 T⁻¹ j * p.sigma j)
    field_simp
  | DQ44 =>
    simp only [muQTerm, dqTerm_rescale hl hu]
    change l ^ 4 * dqTerm p p.mu2 T⁻¹ i * (l ^ 4 * dqTerm p p.q2 T⁻¹ j)
      = l ^ 8 * (dqTerm p p.mu2 T⁻¹ i * dqTerm p p.q2 T⁻¹ j)
    ring

omit hu in
theorem pair_rescale8 (a b x s P : ℝ) :
    a / l ^ 3 * (b / l ^ 3) * (l ^ 8 * x) / (l * s) ^ 5 * P = (l ^ 3)⁻¹ * (a * b * x / s ^ 5 * P) := by
  field_simp

theorem dipoleQuadrupolePhi2_rescale (v : DQVariants) (T : ℝ) (rho : Fin n → ℝ) (eta : ℝ) :
    dipoleQuadrupolePhi2 v (p.rescale l u pr) (u * T) (fun i => rho i / l ^ 3) eta
      = dipoleQuadrupolePhi2 v p T rho eta / l ^ 3 := by
  have h0 : (c (0.0 : ℝ) : ℝ) = (l ^ 3)⁻¹ * c (0.0 : ℝ) := by
    simp only [c, ofF_real]
    norm_num
  rw [div_eq_inv_mul]
  simp only [dipoleQuadrupolePhi2, recip_real, muQTerm_rescale hl hu]
  refine foldl_scale' h0 (fun x i => foldl_scale' rfl (fun x j => sub_scale ?_))
  simp only [PcSaftParameters.rescale, c, ofF_real, powi_real, inv_mul_rescale hu]
  exact pair_rescale8 hl _ _ _ _ _

omit hu in
theorem trip_rescale4 (a b d x y z s1 s2 s3 P : ℝ) :
    a / l ^ 3 * (b / l ^ 3) * (d / l ^ 3) * (l ^ 4 * x) * (l ^ 4 * y) * (l ^ 4 * z)
        / (l * s1 * (l * s2) * (l * s3)) ^ 2 * P
      = (l ^ 3)⁻¹ * (a * b * d * x * y * z / (s1 * s2 * s3) ^ 2 * P) := by
  field_simp

omit hu in
theorem trip_rescale4' (a b d x y z s1 s2 s3 P k : ℝ) :
    a / l ^ 3 * (b / l ^ 3) * (d / l ^ 3) * (l ^ 4 * x) * (l ^ 4 * y) * (l ^ 4 * z)
        / (l * s1 * (l * s2) * (l * s3)) ^ 2 * k * P
      = (l ^ 3)⁻¹ * (a * b * d * x * y * z / (s1 * s2 * s3) ^ 2 * k * P) := by
  field_simp

theorem dipoleQuadrupolePhi3_rescale (T : ℝ) (rho : Fin n → ℝ) (eta : ℝ) :
    dipoleQuadrupolePhi3 (p.rescale l u pr) (u * T) (fun i => rho i / l ^ 3) eta
      = dipoleQuadrupolePhi3 p T rho eta / l ^ 3 := by
  have h0 : (c (0.0 : ℝ) : ℝ) = (l ^ 3)⁻¹ * c (0.0 : ℝ) := by
    simp only [c, ofF_real]
    norm_num
  rw [div_eq_inv_mul]
  simp only [dipoleQuadrupolePhi3, recip_real, dqTerm_rescale hl hu]
  refine foldl_scale' h0 (fun x i => foldl_scale' rfl (fun x j => foldl_scale' (foldl_scale' rfl fun x k => add_scale ?_)
    (fun x k => add_scale ?_)))
  · exact trip_rescale4 hl _ _ _ _ _ _ _ _ _ _
  · exact trip_rescale4' hl _ _ _ _ _ _ _ _ _ _ _

theorem dipole_rescale (s : StateHD n ℝ) : dipole (p.rescale l u pr) (s.rescale l u) = dipole p s := by
  simp only [dipole, packing_rescale hl hu]
  simp only [StateHD.rescale, dipolePhi2_rescale hl hu, dipolePhi3_rescale hl hu, div_mul_eq_mul_div, pade_rescale hl]

theorem quadrupole_rescale (s : StateHD n ℝ) : quadrupole (p.rescale l u pr) (s.rescale l u) = quadrupole p s := by
  simp only [quadrupole, packing_rescale hl hu]
  simp only [StateHD.rescale, quadrupolePhi2_rescale hl hu, quadrupolePhi3_rescale hl hu, div_mul_eq_mul_div,
    pade_rescale hl]

theorem dipoleQuadrupole_rescale (v : DQVariants) (s : StateHD n ℝ) :
    dipoleQuadrupole v (p.rescale l u pr) (s.rescale l u) = dipoleQuadrupole v p s := by
  simp only [dipoleQuadrupole, packing_rescale hl hu]
  simp only [StateHD.rescale, dipoleQuadrupolePhi2_rescale hl hu, dipoleQuadrupolePhi3_rescale hl hu,
    div_mul_eq_mul_div, pade_rescale hl]

/-! ### association -/

omit hu in
theorem assocN2_rescale (m rho d : Fin n → ℝ) :
    assocN2 m (fun i => rho i / l ^ 3) (fun i => l * d i * c (0.5 : ℝ)) = assocN2 m rho (fun i => d i * c (0.5 : ℝ)) / l := by
  simp only [assocN2, c, ofF_real, sumFin_real]
  rw [mul_assoc, mul_assoc, ← div_mul_eq_mul_div]
  congr 1
  rw [Finset.sum_div]
  refine Finset.sum_congr rfl fun i _ => ?_
  generalize (0.5 : ℝ) = h
  field_simp

theorem strength_rescale (T : ℝ) (r : Fin n → ℝ) (n2 n3i xi : ℝ) (i j : Fin n) :
    associationStrength (p.rescale l u pr) (u * T) (fun i => l * r i) (n2 / l) n3i xi i j
      = l ^ 3 * associationStrength p T r n2 n3i xi i j := by
  simp only [associationStrength, recip_real, powi_real, c, ofF_real]
  have hk : l * r i * (l * r j) / (l * r i + l * r j) * (n2 / l * n3i * 2.0) = r i * r j / (r i + r j) * (n2 * n3i * 2.0) := by
    rw [← mul_add]
    generalize r i + r j = w
    generalize (2.0 : ℝ) = two
    field_simp
  have hs : (0.5 * ((p.rescale l u pr).sigma i + (p.rescale l u pr).sigma j)) ^ 3
      = l ^ 3 * (0.5 * (p.sigma i + p.sigma j)) ^ 3 := by
    simp only [PcSaftParameters.rescale]
    rw [← mul_add, mul_left_comm, mul_pow]
  rw [hk, hs, show (p.rescale l u pr).epsilon_k_aibj i j = u * p.epsilon_k_aibj i j from rfl, inv_mul_rescale hu,
    show (p.rescale l u pr).kappa_aibj i j = p.kappa_aibj i j from rfl]
  generalize (0.5 * (p.sigma i + p.sigma j)) ^ 3 = a
  generalize n3i * (_ + 1.0) = b
  ring

end
end PcSaft
