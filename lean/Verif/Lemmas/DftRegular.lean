import Verif.Lemmas.RepDftPure

/-!
# Inhomogeneous fluids: specification of the grid points and what follows for the intermediate quantities
-/

open Filter Topology

namespace PcSaft.Spec
variable {n : ℕ}

/-- parameters of real molecules -/
structure Molecules (p : PcSaftParameters n ℝ) : Prop where
  m_pos : ∀ i, 0 < p.m i
  sigma_pos : ∀ i, 0 < p.sigma i
  epsilon_nonneg : ∀ i, 0 ≤ p.epsilon_k i

/-- segment diameter of a component -/
noncomputable def segmentDiameter (p : PcSaftParameters n ℝ) (T : ℝ) (i : Fin n) : ℝ :=
  diameter (p.sigma i) (p.epsilon_k i) T

/-- surface area of the segments of a molecule -/
noncomputable def surface (p : PcSaftParameters n ℝ) (T : ℝ) (i : Fin n) : ℝ :=
  Real.pi * p.m i * segmentDiameter p T i ^ 2

/-- the vector densities cannot exceed the scalar surface density, the packing fraction is below one, and the
sites bind each other -/
structure AssocPoint (p : PcSaftParameters n ℝ) (T : ℝ) (a : Fin n) (n0 : Fin n → ℝ) (vs : List (Fin n → ℝ))
    (n3 : ℝ) : Prop where
  density_nonneg : ∀ i, 0 ≤ n0 i
  packing : n3 < 1
  vector : (vs.map (fun v => v a ^ 2)).sum ≤ (n0 a * surface p T a) ^ 2
  vector_total : (vs.map (fun v => (∑ i, v i) ^ 2)).sum ≤ (∑ i, n0 i * surface p T i) ^ 2
  sites_a : 0 < p.na a
  sites_b : 0 ≤ p.nb a
  sites_few : p.na a + p.nb a < 2 ^ 26
  volume : 0 ≤ p.kappa_aibj a a
  energy : 0 ≤ p.epsilon_k_aibj a a

/-- contact value of inhomogeneous hard sphere mixtures (Yu and Wu), for equal spheres of diameter `d` -/
noncomputable def inhomContact (d n2 n3 xi : ℝ) : ℝ :=
  1 / (1 - n3) + d * n2 * xi / (4 * (1 - n3) ^ 2) + d ^ 2 * n2 ^ 2 * xi / (72 * (1 - n3) ^ 3)

/-- association strength times density of the associating component at a grid point; below a density of `1e-9`
the vector corrections are left out -/
noncomputable def inhomStrength (p : PcSaftParameters n ℝ) (T : ℝ) (a : Fin n) (n0 : Fin n → ℝ)
    (vs : List (Fin n → ℝ)) (n3 : ℝ) : ℝ :=
  let n2 := ∑ i, n0 i * surface p T i
  let xi := if ∑ i, n0 i < 1e-9 then 1 else 1 - (vs.map (fun v => (∑ i, v i) ^ 2)).sum / n2 ^ 2
  let rho := n0 a * (if n0 a < 1e-9 then 1 else 1 - (vs.map (fun v => v a ^ 2)).sum / (n0 a * surface p T a) ^ 2)
  inhomContact (segmentDiameter p T a) n2 n3 xi * (p.sigma a ^ 3 * p.kappa_aibj a a)
    * (Real.exp (p.epsilon_k_aibj a a / T) - 1) * rho

/-- the same for the functional of a pure component, which receives the surface density `n2` -/
noncomputable def pureStrength (p : PcSaftParameters 1 ℝ) (T n2 n3 : ℝ) (vs : List ℝ) : ℝ :=
  let xi := if n2 < 1e-9 * surface p T 0 then 1 else 1 - (vs.map (fun v => v ^ 2)).sum / n2 ^ 2
  inhomContact (segmentDiameter p T 0) n2 n3 xi * (p.sigma 0 ^ 3 * p.kappa_aibj 0 0)
    * (Real.exp (p.epsilon_k_aibj 0 0 / T) - 1) * (n2 / surface p T 0 * xi)

/-- grid points of the functional for pure components -/
structure PurePoint (p : PcSaftParameters 1 ℝ) (n2 n3 : ℝ) (vs : List ℝ) : Prop where
  density_nonneg : 0 ≤ n2
  packing : n3 < 1
  vector : (vs.map (fun v => v ^ 2)).sum ≤ n2 ^ 2
  sites_a : p.nassoc = 1 → 0 < p.na 0
  sites_b : p.nassoc = 1 → 0 ≤ p.nb 0
  sites_few : p.nassoc = 1 → p.na 0 + p.nb 0 < 2 ^ 26
  volume : p.nassoc = 1 → 0 ≤ p.kappa_aibj 0 0
  energy : p.nassoc = 1 → 0 ≤ p.epsilon_k_aibj 0 0

end PcSaft.Spec

namespace PcSaft
open Spec Props
variable {n : ℕ}

theorem Spec.Molecules.diameter_pos {p : PcSaftParameters n ℝ} (h : Molecules p) {T : ℝ} (hT : 0 < T) (i : Fin n) :
    0 < hsDiameter p T i := by
  rw [hsDiameter_real]
  have := exp_le_one_of (h.epsilon_nonneg i) hT
  have := h.sigma_pos i
  apply mul_pos this
  linarith

theorem surface_eq (p : PcSaftParameters n ℝ) (T : ℝ) (i : Fin n) :
    surface p T i = 4 * Real.pi * p.m i * (hsDiameter p T i * c (0.5 : ℝ)) ^ 2 := by
  simp only [surface, segmentDiameter, ← hsDiameter_eq_spec, c, ofF_real]
  norm_num
  ring

theorem Spec.Molecules.surface_pos {p : PcSaftParameters n ℝ} (h : Molecules p) {T : ℝ} (hT : 0 < T) (i : Fin n) :
    0 < surface p T i := by
  rw [surface_eq]
  have := h.m_pos i
  have := h.diameter_pos hT i
  have : (0 : ℝ) < c (0.5 : ℝ) := by norm_num [c]
  have := Real.pi_pos
  positivity

theorem sum_sq_nonneg {ι : Type} (f : ι → ℝ) (L : List ι) : 0 ≤ (L.map (fun v => f v ^ 2)).sum :=
  List.sum_nonneg (by simp only [List.mem_map]; rintro _ ⟨v, _, rfl⟩; positivity)

theorem inhomContact_eq {d n2 n3 xi : ℝ} (h3 : n3 < 1) :
    ((n2 * (-n3 + 1.0)⁻¹ * (d * 0.5) / 18.0 + 0.5) * (n2 * (-n3 + 1.0)⁻¹ * (d * 0.5)) * xi + 1.0) * (-n3 + 1.0)⁻¹
      = inhomContact d n2 n3 xi := by
  have hu : 1 - n3 ≠ 0 := by linarith
  have e : -n3 + 1.0 = 1 - n3 := by
    norm_num
    ring
  rw [e]
  unfold inhomContact
  norm_num
  field_simp
  ring

section mixture
variable {p : PcSaftParameters n ℝ} {T : ℝ} {a : Fin n} {n0 : Fin n → ℝ} {vs : List (Fin n → ℝ)} {n3 : ℝ}

theorem dftDeltaRho_eq (hm : Molecules p) (hT : 0 < T) (h0 : ∀ i, 0 ≤ n0 i) (h3 : n3 < 1) :
    dftDeltaRho p T a ⟨n0, vs, n3⟩ = inhomStrength p T a n0 vs n3 := by
  obtain ⟨e1, e2, e3, e4⟩ := C55_empty_regions p (fun i => hsDiameter p T i * c (0.5 : ℝ)) ⟨n0, vs, n3⟩ hm.m_pos
    (fun i => mul_pos (hm.diameter_pos hT i) (by norm_num [c])) h0
  have hcut : (N0_CUTOFF : ℝ) = 1e-9 := rfl
  have hx : assocXi p (fun i => hsDiameter p T i * c (0.5 : ℝ)) ⟨n0, vs, n3⟩
      = if ∑ i, n0 i < 1e-9 then 1 else 1 - (vs.map (fun v => (∑ i, v i) ^ 2)).sum
        / (∑ i, n0 i * surface p T i) ^ 2 := by
    simp only [surface_eq]
    split_ifs with h
    · exact e2 h
    · exact (e4 (not_lt.mp h)).2
  have hr : assocRho0 p (fun i => hsDiameter p T i * c (0.5 : ℝ)) ⟨n0, vs, n3⟩ a
      = n0 a * (if n0 a < 1e-9 then 1 else 1 - (vs.map (fun v => v a ^ 2)).sum / (n0 a * surface p T a) ^ 2) := by
    simp only [surface_eq]
    split_ifs with h
    · rw [mul_one]
      exact e1 a h
    · exact (e3 a (not_lt.mp h)).2
  have hn2 : assocN2Total p (fun i => hsDiameter p T i * c (0.5 : ℝ)) ⟨n0, vs, n3⟩ = ∑ i, n0 i * surface p T i := by
    have e4 : (4.0 : ℝ) = 4 := by norm_num
    simp only [assocN2Total, sumFin_real, assocN2i, surface_eq, c, ofF_real, dpowi_real, pi_real, e4]
    refine Finset.sum_congr rfl fun i _ => ?_
    ring
  unfold dftDeltaRho inhomStrength
  dsimp only
  rw [hx, hr, hn2]
  generalize (if ∑ i, n0 i < 1e-9 then (1 : ℝ) else 1 - (vs.map (fun v => (∑ i, v i) ^ 2)).sum
        / (∑ i, n0 i * surface p T i) ^ 2) = xi
  generalize (∑ i, n0 i * surface p T i) = n2
  have hexp : Real.exp (T⁻¹ * p.epsilon_k_aibj a a) - 1 = Real.exp (p.epsilon_k_aibj a a / T) - 1 := by
    rw [mul_comm T⁻¹, ← div_eq_mul_inv]
  simp only [c, ofF_real, recip_real, dexpm1_real, powi_real, segmentDiameter, ← hsDiameter_eq_spec]
  rw [inhomContact_eq h3, hexp]
  ring

/-- Cauchy-Schwarz type bound: the vector correction is between zero and one -/
theorem correction_nonneg {s q : ℝ} (h : s ≤ q ^ 2) : 0 ≤ 1 - s / q ^ 2 := by
  rcases eq_or_ne q 0 with rfl | hq
  · simp
  · have : s / q ^ 2 ≤ 1 := by
      rw [div_le_one (by positivity)]
      exact h
    linarith

theorem inhomContact_pos {d n2 n3 xi : ℝ} (hd : 0 ≤ d) (hn2 : 0 ≤ n2) (h3 : n3 < 1) (hx : 0 ≤ xi) :
    0 < inhomContact d n2 n3 xi := by
  have hu : 0 < 1 - n3 := by linarith
  unfold inhomContact
  positivity

theorem inhomStrength_nonneg (hm : Molecules p) (hT : 0 < T) (h : AssocPoint p T a n0 vs n3) :
    0 ≤ inhomStrength p T a n0 vs n3 := by
  have hd := hm.diameter_pos hT a
  rw [hsDiameter_eq_spec] at hd
  have hσ := hm.sigma_pos a
  have hκ := h.volume
  have he : 0 ≤ Real.exp (p.epsilon_k_aibj a a / T) - 1 := by
    have := Real.add_one_le_exp (p.epsilon_k_aibj a a / T)
    have := div_nonneg h.energy hT.le
    linarith
  have hn2 : 0 ≤ ∑ i, n0 i * surface p T i :=
    Finset.sum_nonneg fun i _ => mul_nonneg (h.density_nonneg i) (hm.surface_pos hT i).le
  have hxi : 0 ≤ (if ∑ i, n0 i < 1e-9 then (1 : ℝ) else 1 - (vs.map (fun v => (∑ i, v i) ^ 2)).sum
      / (∑ i, n0 i * surface p T i) ^ 2) := by
    split_ifs
    · norm_num
    · exact correction_nonneg h.vector_total
  have hx0 : 0 ≤ (if n0 a < 1e-9 then (1 : ℝ) else 1 - (vs.map (fun v => v a ^ 2)).sum
      / (n0 a * surface p T a) ^ 2) := by
    split_ifs
    · norm_num
    · exact correction_nonneg h.vector
  have hg := inhomContact_pos hd.le hn2 h.packing hxi
  have h0 := h.density_nonneg a
  unfold inhomStrength
  dsimp only
  exact mul_nonneg (mul_nonneg (mul_nonneg hg.le (by positivity)) he) (mul_nonneg h0 hx0)

end mixture

theorem sitesPos_of {d na nb : ℝ} (hd : 0 ≤ d) (ha : 0 < na) (hfew : na + nb < 2 ^ 26) :
    SitesPos d na nb where
  sites := ha
  xa hb := (fracs_all hd ha hb hfew).1
  xb hb := (fracs_all hd ha hb hfew).2
  x _ := by
    rcases le_or_gt d (2 ^ 26)⁻¹ with hc | hc
    · rw [assocSiteFracA_below hc]
      nlinarith [sq_nonneg (d * na - 1 / 4)]
    · rw [assocSiteFracA_above hc]
      have hx : 0 < d * na := mul_pos (lt_trans (by positivity) hc) ha
      refine div_pos (Real.sqrt_pos.mpr ?_) (by positivity)
      nlinarith

theorem dftAssocRegular_of {X : Type} [TopologicalSpace X] {x0 : X} {p : PcSaftParameters n ℝ} {T : ℝ} {a : Fin n}
    {n0 : Fin n → ℝ} {vs : List (Fin n → ℝ)} {n3 : ℝ} (hm : Molecules p) (hT : 0 < T)
    (h : AssocPoint p T a n0 vs n3) (h1 : Apart x0 (n0 a) 1e-9) (h2 : Apart x0 (∑ i, n0 i) 1e-9)
    (h3 : Apart x0 (inhomStrength p T a n0 vs n3) (Real.sqrt f64EPSILON)) :
    DftAssocRegular x0 p T a ⟨n0, vs, n3⟩ where
  n0_nonneg := h.density_nonneg
  n3_lt_one := h.packing
  n0_ne := h1
  total_ne := h2
  strength_ne := by
    rw [dftDeltaRho_eq hm hT h.density_nonneg h.packing]
    exact h3
  sites := by
    rw [dftDeltaRho_eq hm hT h.density_nonneg h.packing]
    exact sitesPos_of (inhomStrength_nonneg hm hT h) h.sites_a h.sites_few

/-! ### Pure components -/

section pure
variable {p : PcSaftParameters 1 ℝ} {T n2 n3 : ℝ} {vs : List ℝ}

theorem sumSq_real (vs : List ℝ) : sumSq vs = (vs.map (fun v => v ^ 2)).sum := by
  have h : ∀ (L : List ℝ) (a : ℝ), L.foldl (fun acc v => acc + v * v) a = a + (L.map (fun v => v ^ 2)).sum := by
    intro L
    induction L with
    | nil => simp
    | cons v L ih =>
      intro a
      rw [List.foldl_cons, ih, List.map_cons, List.sum_cons]
      ring
  unfold sumSq
  rw [h]
  norm_num [c]

theorem pureXi_eq : pureXi p (hsDiameter p T 0 * c (0.5 : ℝ)) n2 vs
    = if n2 < 1e-9 * surface p T 0 then 1 else 1 - (vs.map (fun v => v ^ 2)).sum / n2 ^ 2 := by
  have e : (N0_CUTOFF : ℝ) * 4.0 * F64.pi * p.m 0 * F64.powi (hsDiameter p T 0 * c (0.5 : ℝ)) 2
      = 1e-9 * surface p T 0 := by
    rw [surface_eq, show (N0_CUTOFF : ℝ) = 1e-9 from rfl, pi_real, powi_real, show (4.0 : ℝ) = 4 by norm_num]
    ring
  unfold pureXi
  rw [re_real, re_real, e, lt_real, sumSq_real]
  simp only [decide_eq_true_eq, c, ofF_real]
  split_ifs
  · norm_num
  · norm_num
    ring

theorem pureDeltaRho_eq (h3 : n3 < 1) :
    pureDeltaRho p T (hsDiameter p T 0 * c 0.5) n2 n3 vs = pureStrength p T n2 n3 vs := by
  have hr0 : pureRho0 p (hsDiameter p T 0 * c (0.5 : ℝ)) n2 vs = n2 / surface p T 0
      * (if n2 < 1e-9 * surface p T 0 then 1 else 1 - (vs.map (fun v => v ^ 2)).sum / n2 ^ 2) := by
    unfold pureRho0
    rw [pureXi_eq, surface_eq]
    congr 1
    simp only [c, ofF_real, pi_real]
    norm_num
    rw [div_div]
    congr 1
    ring
  unfold pureDeltaRho pureStrength
  dsimp only
  rw [hr0, pureXi_eq]
  generalize (if n2 < 1e-9 * surface p T 0 then (1 : ℝ) else 1 - (vs.map (fun v => v ^ 2)).sum / n2 ^ 2) = xi
  have hexp : Real.exp (T⁻¹ * p.epsilon_k_aibj 0 0) - 1 = Real.exp (p.epsilon_k_aibj 0 0 / T) - 1 := by
    rw [mul_comm T⁻¹, ← div_eq_mul_inv]
  simp only [c, ofF_real, recip_real, dexpm1_real, powi_real, segmentDiameter, ← hsDiameter_eq_spec]
  rw [inhomContact_eq h3, hexp]
  ring

theorem pureStrength_nonneg (hm : Molecules p) (hT : 0 < T) (h : PurePoint p n2 n3 vs) (ha : p.nassoc = 1) :
    0 ≤ pureStrength p T n2 n3 vs := by
  have hd := hm.diameter_pos hT 0
  rw [hsDiameter_eq_spec] at hd
  have hσ := hm.sigma_pos 0
  have hκ := h.volume ha
  have hs := hm.surface_pos hT 0
  have he : 0 ≤ Real.exp (p.epsilon_k_aibj 0 0 / T) - 1 := by
    have := Real.add_one_le_exp (p.epsilon_k_aibj 0 0 / T)
    have := div_nonneg (h.energy ha) hT.le
    linarith
  have hxi : 0 ≤ (if n2 < 1e-9 * surface p T 0 then (1 : ℝ) else 1 - (vs.map (fun v => v ^ 2)).sum / n2 ^ 2) := by
    split_ifs
    · norm_num
    · exact correction_nonneg h.vector
  have hg := inhomContact_pos hd.le h.density_nonneg h.packing hxi
  have h0 := h.density_nonneg
  unfold pureStrength
  dsimp only
  exact mul_nonneg (mul_nonneg (mul_nonneg hg.le (by positivity)) he) (mul_nonneg (by positivity) hxi)

theorem pureFmtRegular_of {X : Type} [TopologicalSpace X] {x0 : X} {version : FMTVersion} (hm : Molecules p)
    (hT : 0 < T) (h : PurePoint p n2 n3 vs) (h3 : Apart x0 n3 1e-5) (hv : N2Regular x0 version n2 vs)
    (h2 : p.nassoc = 1 → Apart x0 n2 (1e-9 * surface p T 0))
    (hs : p.nassoc = 1 → Apart x0 (pureStrength p T n2 n3 vs) (Real.sqrt f64EPSILON)) :
    PureFmtRegular x0 p version T n2 n3 vs where
  n3_lt_one := h.packing
  n3_ne := h3
  version := hv
  n2_ne ha := by
    have := h2 ha
    rw [surface_eq] at this
    rw [show (N0_CUTOFF : ℝ) = 1e-9 from rfl]
    have e : (1e-9 : ℝ) * 4 * Real.pi * p.m 0 * (hsDiameter p T 0 * c (0.5 : ℝ)) ^ 2
        = 1e-9 * (4 * Real.pi * p.m 0 * (hsDiameter p T 0 * c (0.5 : ℝ)) ^ 2) := by ring
    rw [e]
    exact this
  strength_ne ha := by
    rw [pureDeltaRho_eq h.packing]
    exact hs ha
  sites ha := by
    rw [pureDeltaRho_eq h.packing]
    exact sitesPos_of (pureStrength_nonneg hm hT h ha) (h.sites_a ha) (h.sites_few ha)

end pure

/-! ### Rows -/

section rows
variable {F D : Type} [F64 F] [DualNum F D]

/-- rows of the association functional: normalised shell densities, vector densities per direction, packing
fraction -/
def assocRows {E : Type} (dim : ℕ) (n0 : Fin n → E) (v : ℕ → Fin n → E) (n3 : E) : List E :=
  List.ofFn n0 ++ (List.range dim).flatMap (fun d => List.ofFn (v d)) ++ [n3]

theorem assocDecode_rows (hn : 0 < n) (dim : ℕ) (n0 : Fin n → D) (v : ℕ → Fin n → D) (n3 : D) :
    assocDecode n (assocRows dim n0 v n3) = .ok ⟨n0, (List.range dim).map v, n3⟩ := by
  have hlen : (assocRows dim n0 v n3).length = n + n * dim + 1 := by
    simp [assocRows]
    ring
  have hdim : ((assocRows dim n0 v n3).length - 1) / n - 1 = dim := by
    rw [hlen]
    have : n + n * dim + 1 - 1 = n * (dim + 1) := by ring_nf; omega
    rw [this, Nat.mul_div_cancel_left _ hn]
    rfl
  unfold assocDecode
  rw [if_neg hn.ne', hdim]
  dsimp only
  have h0 := rowSlice_head n0 ((List.range dim).flatMap (fun d => List.ofFn (v d)) ++ [n3])
  have h2 := rowSlice_vectors (List.ofFn n0) v [n3] dim (by simp)
  have h3 := rowAt_append (List.ofFn n0 ++ (List.range dim).flatMap (fun d => List.ofFn (v d))) n3 []
    (i := n * (dim + 1)) (by simp; ring)
  rw [← List.append_assoc] at h0
  unfold assocRows
  rw [h0, h2, h3]
  rfl

theorem mapM_ok {A B : Type} (f : A → Except Panic B) (g : A → B) (L : List A) (h : ∀ a ∈ L, f a = .ok (g a)) :
    L.mapM f = .ok (L.map g) := by
  induction L with
  | nil => rfl
  | cons a L ih =>
    rw [List.mapM_cons, h a (by simp), ih (fun b hb => h b (by simp [hb]))]
    rfl

theorem associationFunctional_rows (la : LinAlg F D) (p : PcSaftParameters n F) {a : Fin n} (ha : p.assoc_comp = [a])
    (max_iter : ℕ) (tol : F) (T : D) {γ : Type} (G : List γ) (dim : ℕ) (n0 : γ → Fin n → D) (v : γ → ℕ → Fin n → D)
    (n3 : γ → D) :
    associationFunctional la p max_iter tol T (G.map (fun g => assocRows dim (n0 g) (v g) (n3 g)))
      = .ok (.ok (G.map (fun g => assocFunctionalSingle p T a ⟨n0 g, (List.range dim).map (v g), n3 g⟩))) := by
  have hn : 0 < n := lt_of_le_of_lt (Nat.zero_le _) a.2
  have h := mapM_ok (assocDecode (D := D) n) (fun wd => (match assocDecode n wd with
    | .ok w => w
    | .error _ => ⟨fun _ => T, [], T⟩)) (G.map (fun g => assocRows dim (n0 g) (v g) (n3 g))) (by
      intro wd hwd
      obtain ⟨g, _, rfl⟩ := List.mem_map.1 hwd
      rw [assocDecode_rows hn])
  unfold associationFunctional
  rw [h]
  simp only [List.map_map, ha, Bind.bind, Except.bind]
  congr 3
  funext g
  simp only [Function.comp, assocDecode_rows hn]

theorem pureFmtAssocFunctional_rows (p : PcSaftParameters 1 F) (version : FMTVersion) (T : D) {γ : Type} (G : List γ)
    (dim : ℕ) (n2 n3 : γ → D) (v : γ → ℕ → D) (phi : γ → D)
    (hlt : ∀ g ∈ G, F64.lt 1.0 (DualNum.re (n3 g)) = false)
    (hphi : ∀ g ∈ G, pureFmtAssocPoint p version T (n2 g) (n3 g) ((List.range dim).map (v g)) = .ok (phi g)) :
    pureFmtAssocFunctional p version T (G.map (fun g => n2 g :: n3 g :: (List.range dim).map (v g)))
      = .ok (.ok (G.map phi)) := by
  have e1 : (G.map (fun g => n2 g :: n3 g :: (List.range dim).map (v g))).mapM (fun wd => do
      let n2 ← rowAt wd 0
      let n3 ← rowAt wd 1
      Except.ok (n2, n3, wd.drop 2)) = (.ok (G.map (fun g => (n2 g, n3 g, (List.range dim).map (v g))))
        : Except Panic (List (D × D × List D))) := by
    induction G with
    | nil => rfl
    | cons g G ih =>
      rw [List.map_cons, List.mapM_cons, ih (fun g hg => hlt g (by simp [hg])) (fun g hg => hphi g (by simp [hg]))]
      rfl
  have e2 := mapM_ok (fun g => pureFmtAssocPoint p version T (n2 g) (n3 g) ((List.range dim).map (v g))) phi G hphi
  unfold pureFmtAssocFunctional
  rw [e1]
  simp only [Bind.bind, Except.bind, List.any_map]
  have e3 : (G.any ((fun q : D × D × List D => F64.lt 1.0 (DualNum.re q.2.1))
      ∘ fun g => (n2 g, n3 g, (List.range dim).map (v g)))) = false := by
    rw [List.any_eq_false]
    intro g hg
    simp [Function.comp, hlt g hg]
  rw [e3]
  have e4 : (G.map (fun g => (n2 g, n3 g, (List.range dim).map (v g)))).mapM
      (fun q : D × D × List D => pureFmtAssocPoint p version T q.1 q.2.1 q.2.2) = .ok (G.map phi) := by
    rw [List.mapM_map]
    exact e2
  rw [e4]
  rfl

end rows

end PcSaft
