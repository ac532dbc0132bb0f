import Verif.Props.Units
import Verif.Props.DftSymmetry

/-!
# The functionals in other units of length and energy
-/

namespace PcSaft.Props
open PcSaft Spec
variable {n : ℕ}

section
variable {l u : ℝ} (hl : 0 < l) (hu : 0 < u) (pr : Fin n → PureRecord ℝ) (p : PcSaftParameters n ℝ)
include hl hu

/-! ## Polar contributions -/

theorem dftEta_rescale (T : ℝ) (rho : Fin n → ℝ) :
    dftEta (p.rescale l u pr) (u * T) (fun i => rho i / l ^ 3) = dftEta p T rho := by
  simp only [dftEta, sumFin_real, hsDiameter_rescale hu]
  refine Finset.sum_congr rfl fun i _ => ?_
  simp only [PcSaftParameters.rescale, c, ofF_real]
  field_simp

omit hl in
theorem dftEps_rescale (T : ℝ) (i j : Fin n) :
    (u * T)⁻¹ * c ((p.rescale l u pr).e_k_ij i j) = T⁻¹ * c (p.e_k_ij i j) := inv_mul_rescale hu _ _

omit hl hu in
theorem dftMu_rescale (x : ℝ) (i : Fin n) :
    x * c (F64.powi ((p.rescale l u pr).sigma_ij i i) 3) * c ((p.rescale l u pr).mu2 i)
      = l ^ 3 * (x * c (F64.powi (p.sigma_ij i i) 3) * c (p.mu2 i)) := by
  simp only [PcSaftParameters.rescale, c, ofF_real, powi_real, mul_pow]
  ring

omit hl hu in
theorem dftQ_rescale (x : ℝ) (i : Fin n) :
    x * c (F64.powi ((p.rescale l u pr).sigma i) 5) * c ((p.rescale l u pr).q2 i)
      = l ^ 5 * (x * c (F64.powi (p.sigma i) 5) * c (p.q2 i)) := by
  simp only [PcSaftParameters.rescale, c, ofF_real, powi_real, mul_pow]
  ring

omit hu in
theorem dftPair_rescale3' (a b x y s P : ℝ) :
    a / l ^ 3 * (b / l ^ 3) * P * (l ^ 3 * x * (l ^ 3 * y) / (l * s) ^ 3)
      = (l ^ 3)⁻¹ * (a * b * P * (x * y / s ^ 3)) := by
  rw [mul_pow]
  field_simp

omit hu in
theorem dftTrip_rescale' (a b d x y z s P : ℝ) :
    a / l ^ 3 * (b / l ^ 3) * (d / l ^ 3) * P * (l ^ 3 * x * (l ^ 3 * y) * (l ^ 3 * z) / (l * s) ^ 3)
      = (l ^ 3)⁻¹ * (a * b * d * P * (x * y * z / s ^ 3)) := by
  rw [mul_pow]
  field_simp

omit hu in
theorem dftTrip_rescale5' (a b d x y z s P : ℝ) :
    a / l ^ 3 * (b / l ^ 3) * (d / l ^ 3) * P * (l ^ 5 * x * (l ^ 5 * y) * (l ^ 5 * z) / ((l * s) ^ 3) ^ 3)
      = (l ^ 3)⁻¹ * (a * b * d * P * (x * y * z / (s ^ 3) ^ 3)) := by
  simp only [mul_pow]
  field_simp

omit hu in
theorem dftPair_rescale3 (a b x y s P k : ℝ) :
    a / l ^ 3 * (b / l ^ 3) * P * (l ^ 3 * x * (l ^ 3 * y) / (l * s) ^ 3 * k)
      = (l ^ 3)⁻¹ * (a * b * P * (x * y / s ^ 3 * k)) := by
  rw [mul_pow]
  field_simp

omit hu in
theorem dftPair_rescale7 (a b x y s P : ℝ) :
    a / l ^ 3 * (b / l ^ 3) * P * (l ^ 5 * x * (l ^ 5 * y) / (l * s) ^ 7)
      = (l ^ 3)⁻¹ * (a * b * P * (x * y / s ^ 7)) := by
  rw [mul_pow]
  field_simp

omit hu in
theorem dftTrip_rescale (a b d x y z s1 s2 s3 P k : ℝ) :
    a / l ^ 3 * (b / l ^ 3) * (d / l ^ 3) * P * (l ^ 3 * x * (l ^ 3 * y) * (l ^ 3 * z) / (l * s1 * (l * s2) * (l * s3)) * k)
      = (l ^ 3)⁻¹ * (a * b * d * P * (x * y * z / (s1 * s2 * s3) * k)) := by
  field_simp

omit hu in
theorem dftTrip_rescale5 (a b d x y z s1 s2 s3 P k : ℝ) :
    a / l ^ 3 * (b / l ^ 3) * (d / l ^ 3) * P
      * (l ^ 5 * x * (l ^ 5 * y) * (l ^ 5 * z) / ((l * s1) ^ 3 * (l * s2) ^ 3 * (l * s3) ^ 3) * k)
      = (l ^ 3)⁻¹ * (a * b * d * P * (x * y * z / (s1 ^ 3 * s2 ^ 3 * s3 ^ 3) * k)) := by
  simp only [mul_pow]
  field_simp

theorem dftDipolePhi2_rescale (T : ℝ) (rho : Fin n → ℝ) (eta : ℝ) :
    dftDipolePhi2 (p.rescale l u pr) (u * T) (fun i => rho i / l ^ 3) eta = dftDipolePhi2 p T rho eta / l ^ 3 := by
  have h0 : (c (0.0 : ℝ) : ℝ) = (l ^ 3)⁻¹ * c (0.0 : ℝ) := by
    simp only [c, ofF_real]
    norm_num
  rw [div_eq_inv_mul]
  simp only [dftDipolePhi2, recip_real, dftEps_rescale hu, dftMu_rescale]
  refine foldl_scale' h0 (fun x i => foldUpper_scale' (sub_scale ?_) (fun x j => sub_scale ?_))
  · exact dftPair_rescale3' hl _ _ _ _ _ _
  · exact dftPair_rescale3 hl _ _ _ _ _ _ _

theorem dftDipolePhi3_rescale (T : ℝ) (rho : Fin n → ℝ) (eta : ℝ) :
    dftDipolePhi3 (p.rescale l u pr) (u * T) (fun i => rho i / l ^ 3) eta = dftDipolePhi3 p T rho eta / l ^ 3 := by
  have h0 : (c (0.0 : ℝ) : ℝ) = (l ^ 3)⁻¹ * c (0.0 : ℝ) := by
    simp only [c, ofF_real]
    norm_num
  rw [div_eq_inv_mul]
  simp only [dftDipolePhi3, recip_real, dftEps_rescale hu, dftMu_rescale]
  refine foldl_scale' h0 (fun x i => foldUpper_scale' (sub_scale ?_) (fun x j => foldUpper_scale' ?_ (fun x k => sub_scale ?_)))
  · exact dftTrip_rescale' hl _ _ _ _ _ _ _ _
  · rw [← sub_scale (A' := _) ?_, ← sub_scale (A' := _) ?_]
    · exact dftTrip_rescale hl _ _ _ _ _ _ _ _ _ _ _
    · exact dftTrip_rescale hl _ _ _ _ _ _ _ _ _ _ _
  · exact dftTrip_rescale hl _ _ _ _ _ _ _ _ _ _ _

theorem dftQuadrupolePhi2_rescale (T : ℝ) (rho : Fin n → ℝ) (eta : ℝ) :
    dftQuadrupolePhi2 (p.rescale l u pr) (u * T) (fun i => rho i / l ^ 3) eta
      = dftQuadrupolePhi2 p T rho eta / l ^ 3 := by
  have h0 : (c (0.0 : ℝ) : ℝ) = (l ^ 3)⁻¹ * c (0.0 : ℝ) := by
    simp only [c, ofF_real]
    norm_num
  rw [div_eq_inv_mul]
  simp only [dftQuadrupolePhi2, recip_real, dftEps_rescale hu, dftQ_rescale]
  refine foldl_scale' h0 (fun x i => foldUpper_scale' (sub_scale ?_) (fun x j => sub_scale ?_))
  · exact dftPair_rescale7 hl _ _ _ _ _ _
  · exact dftPair_rescale7 hl _ _ _ _ _ _

theorem dftQuadrupolePhi3_rescale (T : ℝ) (rho : Fin n → ℝ) (eta : ℝ) :
    dftQuadrupolePhi3 (p.rescale l u pr) (u * T) (fun i => rho i / l ^ 3) eta
      = dftQuadrupolePhi3 p T rho eta / l ^ 3 := by
  have h0 : (c (0.0 : ℝ) : ℝ) = (l ^ 3)⁻¹ * c (0.0 : ℝ) := by
    simp only [c, ofF_real]
    norm_num
  rw [div_eq_inv_mul]
  simp only [dftQuadrupolePhi3, recip_real, dftEps_rescale hu, dftQ_rescale]
  refine foldl_scale' h0 (fun x i => foldUpper_scale' (add_scale ?_) (fun x j => foldUpper_scale' ?_ (fun x k => add_scale ?_)))
  · exact dftTrip_rescale5' hl _ _ _ _ _ _ _ _
  · rw [← add_scale (A' := _) ?_, ← add_scale (A' := _) ?_]
    · exact dftTrip_rescale5 hl _ _ _ _ _ _ _ _ _ _ _
    · exact dftTrip_rescale5 hl _ _ _ _ _ _ _ _ _ _ _
  · exact dftTrip_rescale5 hl _ _ _ _ _ _ _ _ _ _ _

omit hl hu in
theorem dftMuDQ_rescale (x : ℝ) (i : Fin n) :
    x * c (F64.powi ((p.rescale l u pr).sigma i) 4) * c ((p.rescale l u pr).mu2 i)
      = l ^ 4 * (x * c (F64.powi (p.sigma i) 4) * c (p.mu2 i)) := by
  simp only [PcSaftParameters.rescale, c, ofF_real, powi_real, mul_pow]
  ring

omit hl hu in
theorem dftQDQ_rescale (x : ℝ) (i : Fin n) :
    x * c (F64.powi ((p.rescale l u pr).sigma i) 4) * c ((p.rescale l u pr).q2 i)
      = l ^ 4 * (x * c (F64.powi (p.sigma i) 4) * c (p.q2 i)) := by
  simp only [PcSaftParameters.rescale, c, ofF_real, powi_real, mul_pow]
  ring

omit hu in
theorem dftPairDQ_rescale (a b x y s t r P : ℝ) :
    a / l ^ 3 * (b / l ^ 3) * P * (l ^ 4 * x / (l * s) * (l ^ 4 * y) * (l * t) / (l * r) ^ 5)
      = (l ^ 3)⁻¹ * (a * b * P * (x / s * y * t / r ^ 5)) := by
  simp only [mul_pow]
  field_simp

omit hu in
theorem dftTripDQ_rescale (a b d x y z s1 s2 s3 P : ℝ) :
    a / l ^ 3 * (b / l ^ 3) * (d / l ^ 3) * P
      * (l ^ 4 * x * (l ^ 4 * y) * (l ^ 4 * z) / (l * s1 * (l * s2) * (l * s3)) ^ 2)
      = (l ^ 3)⁻¹ * (a * b * d * P * (x * y * z / (s1 * s2 * s3) ^ 2)) := by
  simp only [mul_pow]
  field_simp

omit hu in
theorem dftTripDQ_rescale' (a b d x y z s1 s2 s3 P k : ℝ) :
    a / l ^ 3 * (b / l ^ 3) * (d / l ^ 3) * P
      * (l ^ 4 * x * (l ^ 4 * y) * (l ^ 4 * z) / (l * s1 * (l * s2) * (l * s3)) ^ 2 * k)
      = (l ^ 3)⁻¹ * (a * b * d * P * (x * y * z / (s1 * s2 * s3) ^ 2 * k)) := by
  simp only [mul_pow]
  field_simp

theorem dftDipoleQuadrupolePhi2_rescale (T : ℝ) (rho : Fin n → ℝ) (eta : ℝ) :
    dftDipoleQuadrupolePhi2 (p.rescale l u pr) (u * T) (fun i => rho i / l ^ 3) eta
      = dftDipoleQuadrupolePhi2 p T rho eta / l ^ 3 := by
  have h0 : (c (0.0 : ℝ) : ℝ) = (l ^ 3)⁻¹ * c (0.0 : ℝ) := by
    simp only [c, ofF_real]
    norm_num
  rw [div_eq_inv_mul]
  simp only [dftDipoleQuadrupolePhi2, recip_real, dftEps_rescale hu, dftMuDQ_rescale, dftQDQ_rescale]
  refine foldl_scale' h0 (fun x i => foldl_scale (fun x j => sub_scale ?_) x)
  exact dftPairDQ_rescale hl _ _ _ _ _ _ _ _

theorem dftDipoleQuadrupolePhi3_rescale (T : ℝ) (rho : Fin n → ℝ) (eta : ℝ) :
    dftDipoleQuadrupolePhi3 (p.rescale l u pr) (u * T) (fun i => rho i / l ^ 3) eta
      = dftDipoleQuadrupolePhi3 p T rho eta / l ^ 3 := by
  have h0 : (c (0.0 : ℝ) : ℝ) = (l ^ 3)⁻¹ * c (0.0 : ℝ) := by
    simp only [c, ofF_real]
    norm_num
  rw [div_eq_inv_mul]
  simp only [dftDipoleQuadrupolePhi3, recip_real, dftEps_rescale hu, dftMuDQ_rescale, dftQDQ_rescale]
  refine foldl_scale' h0 (fun x i => foldl_scale (fun x j => foldl_scale' (foldl_scale (fun x k => add_scale ?_) x)
    (fun x k => add_scale ?_)) x)
  · exact dftTripDQ_rescale hl _ _ _ _ _ _ _ _ _ _
  · exact dftTripDQ_rescale' hl _ _ _ _ _ _ _ _ _ _ _

omit hu in
theorem dftPade_rescale (a b x y : ℝ) : dftPade (a / l ^ 3 * x) (b / l ^ 3 * y) = dftPade (a * x) (b * y) / l ^ 3 := by
  rw [dftPade_real, dftPade_real]
  have hl3 : l ^ 3 ≠ 0 := by positivity
  have e : a / l ^ 3 * x - b / l ^ 3 * y = (a * x - b * y) / l ^ 3 := by ring
  rw [e]
  generalize a * x - b * y = w
  field_simp

theorem dftPolar_rescale (T : ℝ) (rho : Fin n → ℝ) :
    dftPolar (p.rescale l u pr) (u * T) (fun i => rho i / l ^ 3) = dftPolar p T rho / l ^ 3 := by
  have h0 : (0.0 : ℝ) = 0 := by norm_num
  have e1 : dftDipole (p.rescale l u pr) (u * T) (fun i => rho i / l ^ 3) (dftEta p T rho)
      = dftDipole p T rho (dftEta p T rho) / l ^ 3 := by
    simp only [dftDipole, dftDipolePhi2_rescale hl hu, dftDipolePhi3_rescale hl hu, dftPade_rescale hl]
  have e2 : dftQuadrupole (p.rescale l u pr) (u * T) (fun i => rho i / l ^ 3) (dftEta p T rho)
      = dftQuadrupole p T rho (dftEta p T rho) / l ^ 3 := by
    simp only [dftQuadrupole, dftQuadrupolePhi2_rescale hl hu, dftQuadrupolePhi3_rescale hl hu, dftPade_rescale hl]
  have e3 : dftDipoleQuadrupole (p.rescale l u pr) (u * T) (fun i => rho i / l ^ 3) (dftEta p T rho)
      = dftDipoleQuadrupole p T rho (dftEta p T rho) / l ^ 3 := by
    simp only [dftDipoleQuadrupole, dftDipoleQuadrupolePhi2_rescale hl hu, dftDipoleQuadrupolePhi3_rescale hl hu,
      dftPade_rescale hl]
  unfold dftPolar
  rw [dftEta_rescale hl hu]
  dsimp only
  rw [e1, e2, e3, show (p.rescale l u pr).ndipole = p.ndipole from rfl,
    show (p.rescale l u pr).nquadpole = p.nquadpole from rfl]
  simp only [c, ofF_real, h0]
  by_cases h1 : 0 < p.ndipole <;> by_cases h2 : 0 < p.nquadpole <;> simp only [h1, h2, and_self, and_true, and_false,
    if_true, if_false] <;> ring

/-! ## Dispersion -/

theorem dftDispersion_rescale (T : ℝ) (rho : Fin n → ℝ)
    (hs : f64EPSILON < ∑ i, rho i ↔ f64EPSILON < ∑ i, rho i / l ^ 3) :
    dftDispersion (p.rescale l u pr) (u * T) (fun i => rho i / l ^ 3) = dftDispersion p T rho / l ^ 3 := by
  have hl3 : l ^ 3 ≠ 0 := by positivity
  have hm : dftMBar (p.rescale l u pr) (fun i => rho i / l ^ 3) = dftMBar p rho := by
    simp only [dftMBar, lt_real, re_real, sumFin_real, decide_eq_true_eq, ← hs]
    refine if_congr Iff.rfl ?_ rfl
    simp only [div_mul_eq_mul_div, ← Finset.sum_div]
    exact div_div_div_cancel_right₀ hl3 _ _
  have e1 : ∀ i j, rho i / l ^ 3 * (rho j / l ^ 3) * ((u * T)⁻¹ * c ((p.rescale l u pr).epsilon_k_ij i j)
      * c (F64.powi ((p.rescale l u pr).sigma_ij i j) 3) * c ((p.rescale l u pr).m i) * c ((p.rescale l u pr).m j))
      = rho i * rho j * (T⁻¹ * c (p.epsilon_k_ij i j) * c (F64.powi (p.sigma_ij i j) 3) * c (p.m i) * c (p.m j)) / l ^ 3 := by
    intro i j
    simp only [PcSaftParameters.rescale, c, ofF_real, powi_real, inv_mul_rescale hu, mul_pow]
    field_simp
  have e2 : ∀ i j, rho i / l ^ 3 * (rho j / l ^ 3) * ((u * T)⁻¹ * c ((p.rescale l u pr).epsilon_k_ij i j)
      * ((u * T)⁻¹ * c ((p.rescale l u pr).epsilon_k_ij i j))
      * c (F64.powi ((p.rescale l u pr).sigma_ij i j) 3) * c ((p.rescale l u pr).m i) * c ((p.rescale l u pr).m j))
      = rho i * rho j * (T⁻¹ * c (p.epsilon_k_ij i j) * (T⁻¹ * c (p.epsilon_k_ij i j)) * c (F64.powi (p.sigma_ij i j) 3)
        * c (p.m i) * c (p.m j)) / l ^ 3 := by
    intro i j
    simp only [PcSaftParameters.rescale, c, ofF_real, powi_real, inv_mul_rescale hu, mul_pow]
    field_simp
  simp only [dftDispersion, recip_real, sumFin2_real, dftEta_rescale hl hu, hm, e1, e2, ← Finset.sum_div]
  ring

/-! ## Association -/

omit hl hu in
/-- weighted densities in other units of length -/
noncomputable def _root_.PcSaft.AssocDensities.inUnits (l : ℝ) (wd : AssocDensities n ℝ) : AssocDensities n ℝ :=
  ⟨fun i => wd.n0i i / l ^ 3, wd.n2v.map fun v i => v i / l, wd.n3⟩

/-- densities on the same side of the cutoff of the association functional in both units -/
structure SameSide (l : ℝ) (wd : AssocDensities n ℝ) : Prop where
  component : ∀ i, wd.n0i i < N0_CUTOFF ↔ wd.n0i i / l ^ 3 < N0_CUTOFF
  total : ∑ i, wd.n0i i < N0_CUTOFF ↔ ∑ i, wd.n0i i / l ^ 3 < N0_CUTOFF

omit hl in
theorem radius_rescale (T : ℝ) : (fun i => hsDiameter (p.rescale l u pr) (u * T) i * c (0.5 : ℝ))
    = fun i => l * (hsDiameter p T i * c (0.5 : ℝ)) := by
  funext i
  rw [hsDiameter_rescale hu, mul_assoc]

omit hu in
theorem assocN2i_rescale (r : Fin n → ℝ) (wd : AssocDensities n ℝ) (i : Fin n) :
    assocN2i (p.rescale l u pr) (fun i => l * r i) (wd.inUnits l) i = assocN2i p r wd i / l := by
  simp only [assocN2i, AssocDensities.inUnits, PcSaftParameters.rescale, c, ofF_real, dpowi_real, mul_pow]
  field_simp

omit hu in
theorem assocN2Total_rescale (r : Fin n → ℝ) (wd : AssocDensities n ℝ) :
    assocN2Total (p.rescale l u pr) (fun i => l * r i) (wd.inUnits l) = assocN2Total p r wd / l := by
  simp only [assocN2Total, sumFin_real, assocN2i_rescale hl, Finset.sum_div]

omit hl hu in
theorem foldl_units (f : (Fin n → ℝ) → ℝ) (hf : ∀ v, f (fun i => v i / l) = f v / l) (L : List (Fin n → ℝ)) :
    (L.map fun v i => v i / l).foldl (fun acc v => acc + f v * f v) (c (0.0 : ℝ))
      = L.foldl (fun acc v => acc + f v * f v) (c (0.0 : ℝ)) / l ^ 2 := by
  have hc : (c (0.0 : ℝ) : ℝ) = 0 := by
    simp only [c, ofF_real]
    norm_num
  rw [foldl_sq, foldl_sq, List.map_map, hc, zero_add, zero_add]
  induction L with
  | nil => simp
  | cons v L ih =>
    simp only [List.map_cons, List.sum_cons, Function.comp_apply, hf] at ih ⊢
    rw [ih]
    ring

omit hu in
theorem assocRho0_rescale (r : Fin n → ℝ) (wd : AssocDensities n ℝ) (h : SameSide l wd) (i : Fin n) :
    assocRho0 (p.rescale l u pr) (fun i => l * r i) (wd.inUnits l) i = assocRho0 p r wd i / l ^ 3 := by
  have hfold := foldl_units (l := l) (fun v : Fin n → ℝ => v i) (fun _ => rfl) wd.n2v
  simp only [assocRho0, assocN2i_rescale hl, lt_real, re_real, decide_eq_true_eq]
  have hc : ((wd.inUnits l).n0i i < N0_CUTOFF) = (wd.n0i i < N0_CUTOFF) := propext (h.component i).symm
  simp only [hc]
  split_ifs with h1
  · rfl
  · rw [show (wd.inUnits l).n2v = wd.n2v.map fun v i => v i / l from rfl, hfold,
      show (wd.inUnits l).n0i i = wd.n0i i / l ^ 3 from rfl]
    generalize wd.n2v.foldl (fun acc v => acc + v i * v i) (c (0.0 : ℝ)) = A
    generalize assocN2i p r wd i = B
    have : A / l ^ 2 / -(B / l * (B / l)) = A / -(B * B) := by
      rw [show B / l * (B / l) = B * B / l ^ 2 by ring, ← neg_div]
      exact div_div_div_cancel_right₀ (by positivity) _ _
    rw [this]
    ring

omit hu in
theorem assocXi_rescale (r : Fin n → ℝ) (wd : AssocDensities n ℝ) (h : SameSide l wd) :
    assocXi (p.rescale l u pr) (fun i => l * r i) (wd.inUnits l) = assocXi p r wd := by
  have hfold := foldl_units (l := l) (fun v : Fin n → ℝ => sumFin v) (fun v => by
    simp only [sumFin_real, Finset.sum_div]) wd.n2v
  simp only [assocXi, assocN2Total_rescale hl, lt_real, re_real, decide_eq_true_eq]
  have hc : (sumFin (wd.inUnits l).n0i < N0_CUTOFF) = (sumFin wd.n0i < N0_CUTOFF) := by
    simp only [sumFin_real]
    exact propext h.total.symm
  simp only [hc]
  split_ifs with h1
  · rfl
  · rw [show (wd.inUnits l).n2v = wd.n2v.map fun v i => v i / l from rfl, hfold]
    generalize wd.n2v.foldl (fun acc v => acc + sumFin v * sumFin v) (c (0.0 : ℝ)) = A
    generalize assocN2Total p r wd = B
    congr 1
    rw [show B / l * (B / l) = B * B / l ^ 2 by ring, ← neg_div]
    exact div_div_div_cancel_right₀ (by positivity) _ _

theorem assocSingle_rescale (T : ℝ) (a : Fin n) (wd : AssocDensities n ℝ) (h : SameSide l wd) :
    assocFunctionalSingle (p.rescale l u pr) (u * T) a (wd.inUnits l) = assocFunctionalSingle p T a wd / l ^ 3 := by
  have hl3 : l ^ 3 ≠ 0 := by positivity
  simp only [assocFunctionalSingle]
  have er := radius_rescale hu pr p (l := l) T
  have era := congrFun er a
  rw [er, era, assocRho0_rescale hl pr p _ wd h, assocN2Total_rescale hl, assocXi_rescale hl pr p _ wd h]
  have hk : ∀ B x y : ℝ, B / l * x * (l * y) = B * x * y := fun B x y => by field_simp
  have hs : ∀ x E y : ℝ, x * (E * c (F64.powi ((p.rescale l u pr).sigma a) 3 * (p.rescale l u pr).kappa_aibj a a)) * (y / l ^ 3)
      = x * (E * c (F64.powi (p.sigma a) 3 * p.kappa_aibj a a)) * y := fun x E y => by
    simp only [PcSaftParameters.rescale, c, ofF_real, powi_real, mul_pow]
    field_simp
  have he : (DualNum.recip (u * T) : ℝ) * c ((p.rescale l u pr).epsilon_k_aibj a a)
      = DualNum.recip T * c (p.epsilon_k_aibj a a) := by
    simp only [recip_real, c, ofF_real]
    exact inv_mul_rescale hu _ _
  rw [show (wd.inUnits l).n3 = wd.n3 from rfl, hk, hs, he, show (p.rescale l u pr).na a = p.na a from rfl,
    show (p.rescale l u pr).nb a = p.nb a from rfl]
  split_ifs <;> ring

theorem pointStrength_rescale (T : ℝ) (wd : AssocDensities n ℝ) (h : SameSide l wd) (i j : Fin p.assoc_comp.length) :
    pointStrength (p.rescale l u pr) (u * T) (wd.inUnits l) i j = l ^ 3 * pointStrength p T wd i j := by
  unfold pointStrength strengths
  dsimp only
  rw [radius_rescale hu, assocN2Total_rescale hl, assocXi_rescale hl pr p _ wd h]
  exact strength_rescale hl hu pr p _ _ _ _ _ _ _

theorem pointDensity_rescale (T : ℝ) (wd : AssocDensities n ℝ) (h : SameSide l wd) (i : Fin n) :
    pointDensity (p.rescale l u pr) (u * T) (wd.inUnits l) i = pointDensity p T wd i / l ^ 3 := by
  unfold pointDensity
  rw [radius_rescale hu, assocRho0_rescale hl pr p _ wd h]

omit hl hu in
/-- one grid point in terms of the strengths and densities -/
noncomputable def pointResult {k : ℕ} (total : ℝ) (solve : Solver k ℝ) (delta : Fin k → Fin k → ℝ) (na nb rho : Fin k → ℝ)
    (tol : ℝ) (N : ℕ) (x : Fin k ⊕ Fin k → ℝ) : Except EosError ℝ × Option (Fin k ⊕ Fin k → ℝ) :=
  if total < f64EPSILON then (.ok 0, some fun _ => 1)
  else match newtonLoop (newtonStep solve delta na nb rho tol) N x with
    | .error e => (.error e, some x)
    | .ok y => (.ok (specEnergy na nb rho y), some y)

omit hl hu in
theorem crossPoint_result {m : ℕ} (la : LinAlg ℝ ℝ) (h0 : la.nderiv = 0) (N : ℕ) (tol T : ℝ) (q : PcSaftParameters m ℝ)
    (w : AssocDensities m ℝ) (x : Fin q.assoc_comp.length ⊕ Fin q.assoc_comp.length → ℝ) :
    assocFunctionalCrossPoint la q N tol T w x = pointResult (∑ i, pointDensity q T w i) (la.solveF _) (pointStrength q T w)
      (assocNa q) (assocNb q) (assocRho q (pointDensity q T w)) tol N x := by
  rw [crossPoint_real la h0]
  unfold pointResult
  dsimp only
  split_ifs
  · rfl
  · split <;> simp_all

omit hu in
theorem pointResult_rescale {k : ℕ} {total total' : ℝ} (solve : Solver k ℝ) {delta delta' : Fin k → Fin k → ℝ}
    (na nb : Fin k → ℝ) {rho rho' : Fin k → ℝ} (tol : ℝ) (N : ℕ) (x : Fin k ⊕ Fin k → ℝ)
    (ht : total' < f64EPSILON ↔ total < f64EPSILON) (hd : ∀ i j, delta' i j = l ^ 3 * delta i j)
    (hr : ∀ i, rho' i = rho i / l ^ 3) :
    pointResult total' solve delta' na nb rho' tol N x = ((pointResult total solve delta na nb rho tol N x).1.map (· / l ^ 3),
      (pointResult total solve delta na nb rho tol N x).2) := by
  have hl3 : l ^ 3 ≠ 0 := by positivity
  unfold pointResult
  rw [newtonStep_products solve (delta := delta) (rho := rho) (fun i j => by
    rw [hd, hr]
    field_simp) tol]
  simp only [ht]
  by_cases hlt : total < f64EPSILON
  · simp only [hlt, if_true, Except.map, zero_div]
  · simp only [hlt, if_false]
    cases newtonLoop (newtonStep solve delta na nb rho tol) N x with
    | error e => rfl
    | ok y =>
      simp only [Except.map]
      congr 2
      unfold specEnergy
      rw [Finset.sum_div]
      exact Finset.sum_congr rfl fun i _ => by rw [hr]; ring

theorem crossPoint_rescale (la : LinAlg ℝ ℝ) (h0 : la.nderiv = 0) (N : ℕ) (tol T : ℝ) (wd : AssocDensities n ℝ)
    (h : SameSide l wd) (hs : ∑ i, pointDensity p T wd i < f64EPSILON ↔ ∑ i, pointDensity p T wd i / l ^ 3 < f64EPSILON)
    (x : Fin p.assoc_comp.length ⊕ Fin p.assoc_comp.length → ℝ) :
    assocFunctionalCrossPoint la (p.rescale l u pr) N tol (u * T) (wd.inUnits l) x
      = ((assocFunctionalCrossPoint la p N tol T wd x).1.map (· / l ^ 3),
        (assocFunctionalCrossPoint la p N tol T wd x).2) := by
  rw [crossPoint_result la h0 N tol T p wd x]
  refine (crossPoint_result la h0 N tol (u * T) (p.rescale l u pr) (wd.inUnits l) x).trans ?_
  refine pointResult_rescale (k := p.assoc_comp.length) hl (la.solveF _) (assocNa p) (assocNb p)
    (rho := assocRho p (pointDensity p T wd))
    (rho' := assocRho (p.rescale l u pr) (pointDensity (p.rescale l u pr) (u * T) (wd.inUnits l))) tol N x ?_
    (fun i j => pointStrength_rescale hl hu pr p T wd h i j) (fun i => pointDensity_rescale hl hu pr p T wd h _)
  simp only [pointDensity_rescale hl hu pr p T wd h, ← hs]

theorem crossGrid_rescale (la : LinAlg ℝ ℝ) (h0 : la.nderiv = 0) (N : ℕ) (tol T : ℝ) (pts : List (AssocDensities n ℝ))
    (h : ∀ wd ∈ pts, SameSide l wd) (hs : ∀ wd ∈ pts, ∑ i, pointDensity p T wd i < f64EPSILON
      ↔ ∑ i, pointDensity p T wd i / l ^ 3 < f64EPSILON)
    (x : Fin p.assoc_comp.length ⊕ Fin p.assoc_comp.length → ℝ) :
    assocFunctionalCrossGrid la (p.rescale l u pr) N tol (u * T) x (pts.map (AssocDensities.inUnits l))
      = (assocFunctionalCrossGrid la p N tol T x pts).map (List.map (· / l ^ 3)) := by
  induction pts generalizing x with
  | nil => rfl
  | cons wd pts ih =>
    have ih := fun x => ih (fun w hw => h w (List.mem_cons_of_mem _ hw)) (fun w hw => hs w (List.mem_cons_of_mem _ hw)) x
    have hpt := crossPoint_rescale hl hu pr p la h0 N tol T wd (h wd List.mem_cons_self) (hs wd List.mem_cons_self) x
    simp only [List.map_cons, assocFunctionalCrossGrid, hpt]
    match assocFunctionalCrossPoint la p N tol T wd x with
    | (.error _, _) => rfl
    | (.ok phi, o) =>
      simp only [Except.map]
      have ih' := ih (o.getD x)
      cases hR : assocFunctionalCrossGrid la p N tol T (o.getD x) pts with
      | error e =>
        rw [hR] at ih'
        simp only [Except.map] at ih'
        split
        · rename_i e' he'
          exact congrArg Except.error (Except.error.inj (he'.symm.trans ih'))
        · rename_i v he'
          exact absurd (he'.symm.trans ih') (by simp)
      | ok phis =>
        rw [hR] at ih'
        simp only [Except.map] at ih'
        split
        · rename_i e' he'
          exact absurd (he'.symm.trans ih') (by simp)
        · rename_i v he'
          rw [Except.ok.inj (he'.symm.trans ih')]
          rfl

end

end PcSaft.Props
