import Verif.Lemmas.Sums
import Verif.Lemmas.RealForms

/-! # The polar contributions as full symmetric sums over all components -/

namespace PcSaft
variable {n : ℕ}

/-- what the polar terms need from a parameter set; true for every set built from records with
non-negative segment numbers -/
structure PolarOk (p : PcSaftParameters n ℝ) : Prop where
  dip_nodup : p.dipole_comp.Nodup
  dip_mem : ∀ i, i ∉ p.dipole_comp → p.mu2 i = 0
  quad_sorted : p.quadpole_comp.Pairwise (· < ·)
  quad_mem : ∀ i, i ∉ p.quadpole_comp → p.q2 i = 0
  sigma_symm : ∀ i j, p.sigma_ij i j = p.sigma_ij j i
  sigma_diag : ∀ i, p.sigma_ij i i = p.sigma i
  e_symm : ∀ i j, p.e_k_ij i j = p.e_k_ij j i
  m_nonneg : ∀ i, 0 ≤ p.m i

theorem mdqPair_symm (p : PcSaftParameters n ℝ) (i j : Fin n) : mdqPair p i j = mdqPair p j i := by
  simp only [mdqPair, mul_comm]

theorem mdqTriplet_swap12 (p : PcSaftParameters n ℝ) (i j k : Fin n) :
    mdqTriplet p i j k = mdqTriplet p j i k := by
  unfold mdqTriplet
  congr 1
  ring

theorem mdqTriplet_swap23 (p : PcSaftParameters n ℝ) (i j k : Fin n) :
    mdqTriplet p i j k = mdqTriplet p i k j := by
  unfold mdqTriplet
  congr 1
  ring

theorem mdqPair_self (p : PcSaftParameters n ℝ) (i : Fin n) (h : 0 ≤ p.m i) :
    mdqPair p i i = F64.min (p.m i) 2.0 := by
  simp only [mdqPair, sqrt_real, min_real]
  exact Real.sqrt_mul_self (le_min h (by norm_num))

theorem cbrt_cube (x : ℝ) : F64.cbrt (x * x * x) = x := by
  rw [cbrt_real]
  rcases lt_trichotomy x 0 with h | h | h
  · have h3 : x * x * x < 0 := by nlinarith [mul_pos_of_neg_of_neg h h]
    rw [sign_neg h3, abs_of_neg h3]
    have : -(x * x * x) = (-x) ^ 3 := by ring
    rw [this, ← Real.rpow_natCast, ← Real.rpow_mul (by linarith)]
    norm_num
  · subst h
    simp
  · have h3 : 0 < x * x * x := by positivity
    rw [sign_pos h3, abs_of_pos h3]
    have : x * x * x = x ^ 3 := by ring
    rw [this, ← Real.rpow_natCast, ← Real.rpow_mul h.le]
    norm_num

theorem mdqTriplet_self (p : PcSaftParameters n ℝ) (i : Fin n) :
    mdqTriplet p i i i = F64.min (p.m i) 2.0 := cbrt_cube _

theorem foldUpper_congr {S : Type} {L : ℕ} (i : Fin L) (s s' : S → Fin L → S) (a : S)
    (h : ∀ acc j, i < j → s acc j = s' acc j) : foldUpper i s a = foldUpper i s' a := by
  unfold foldUpper
  congr 1
  funext acc j
  split
  · exact h _ _ ‹_›
  · rfl

section mean
variable (p : PcSaftParameters n ℝ) (comp : List (Fin n))

theorem mij1_diag (h : ∀ i, 0 ≤ p.m i) (i : Fin comp.length) :
    (MeanSegmentNumbers.new p.m comp).mij1 i i = meanSeg1 (mdqPair p (comp.get i) (comp.get i)) := by
  simp only [MeanSegmentNumbers.new, if_true]
  rw [mdqPair_self _ _ (h _)]
theorem mij2_diag (h : ∀ i, 0 ≤ p.m i) (i : Fin comp.length) :
    (MeanSegmentNumbers.new p.m comp).mij2 i i = meanSeg2 (mdqPair p (comp.get i) (comp.get i)) := by
  simp only [MeanSegmentNumbers.new, if_true]
  rw [mdqPair_self _ _ (h _)]
theorem mij1_lt {i j : Fin comp.length} (h : i < j) :
    (MeanSegmentNumbers.new p.m comp).mij1 i j = meanSeg1 (mdqPair p (comp.get i) (comp.get j)) := by
  simp only [MeanSegmentNumbers.new, if_neg h.ne, if_pos h, mdqPair]
theorem mij2_lt {i j : Fin comp.length} (h : i < j) :
    (MeanSegmentNumbers.new p.m comp).mij2 i j = meanSeg2 (mdqPair p (comp.get i) (comp.get j)) := by
  simp only [MeanSegmentNumbers.new, if_neg h.ne, if_pos h, mdqPair]
theorem mijk1_iii (i : Fin comp.length) :
    (MeanSegmentNumbers.new p.m comp).mijk1 i i i
      = meanSeg1 (mdqTriplet p (comp.get i) (comp.get i) (comp.get i)) := by
  simp only [MeanSegmentNumbers.new, and_self, if_true, mdqTriplet_self]
theorem mijk2_iii (i : Fin comp.length) :
    (MeanSegmentNumbers.new p.m comp).mijk2 i i i
      = meanSeg2 (mdqTriplet p (comp.get i) (comp.get i) (comp.get i)) := by
  simp only [MeanSegmentNumbers.new, and_self, if_true, mdqTriplet_self]
theorem mijk1_iij {i j : Fin comp.length} (h : i < j) :
    (MeanSegmentNumbers.new p.m comp).mijk1 i i j
      = meanSeg1 (mdqTriplet p (comp.get i) (comp.get i) (comp.get j)) := by
  simp only [MeanSegmentNumbers.new, h.ne, h, and_false, and_true, if_true, if_false, mdqTriplet]
theorem mijk2_iij {i j : Fin comp.length} (h : i < j) :
    (MeanSegmentNumbers.new p.m comp).mijk2 i i j
      = meanSeg2 (mdqTriplet p (comp.get i) (comp.get i) (comp.get j)) := by
  simp only [MeanSegmentNumbers.new, h.ne, h, and_false, and_true, if_true, if_false, mdqTriplet]
theorem mijk1_ijj {i j : Fin comp.length} (h : i < j) :
    (MeanSegmentNumbers.new p.m comp).mijk1 i j j
      = meanSeg1 (mdqTriplet p (comp.get i) (comp.get j) (comp.get j)) := by
  simp only [MeanSegmentNumbers.new, h.ne, h, false_and, and_true, if_true, if_false, mdqTriplet]
theorem mijk2_ijj {i j : Fin comp.length} (h : i < j) :
    (MeanSegmentNumbers.new p.m comp).mijk2 i j j
      = meanSeg2 (mdqTriplet p (comp.get i) (comp.get j) (comp.get j)) := by
  simp only [MeanSegmentNumbers.new, h.ne, h, false_and, and_true, if_true, if_false, mdqTriplet]
theorem mijk1_ijk {i j k : Fin comp.length} (h : i < j) (h' : j < k) :
    (MeanSegmentNumbers.new p.m comp).mijk1 i j k
      = meanSeg1 (mdqTriplet p (comp.get i) (comp.get j) (comp.get k)) := by
  simp only [MeanSegmentNumbers.new, h.ne, h, h'.ne, h', and_false, and_true, if_true, if_false,
    mdqTriplet]
theorem mijk2_ijk {i j k : Fin comp.length} (h : i < j) (h' : j < k) :
    (MeanSegmentNumbers.new p.m comp).mijk2 i j k
      = meanSeg2 (mdqTriplet p (comp.get i) (comp.get j) (comp.get k)) := by
  simp only [MeanSegmentNumbers.new, h.ne, h, h'.ne, h', and_false, and_true, if_true, if_false,
    mdqTriplet]
end mean

/-- pair integral of two components -/
noncomputable def pairI {q : ℕ} (hq : q ≤ 5) (a b : Fin q → Fin 3 → ℝ) (p : PcSaftParameters n ℝ)
    (T eta : ℝ) (i j : Fin n) : ℝ :=
  pairIntegral hq (meanSeg1 (mdqPair p i j)) (meanSeg2 (mdqPair p i j)) eta a b (T⁻¹ * p.e_k_ij i j)

/-- triplet integral of three components -/
noncomputable def tripI (cc : Fin 4 → Fin 3 → ℝ) (p : PcSaftParameters n ℝ) (eta : ℝ) (i j k : Fin n) :
    ℝ :=
  tripletIntegral (meanSeg1 (mdqTriplet p i j k)) (meanSeg2 (mdqTriplet p i j k)) eta cc

theorem pairI_symm {q : ℕ} (hq : q ≤ 5) (a b : Fin q → Fin 3 → ℝ) {p : PcSaftParameters n ℝ}
    (h : PolarOk p) (T eta : ℝ) (i j : Fin n) : pairI hq a b p T eta i j = pairI hq a b p T eta j i := by
  unfold pairI
  rw [mdqPair_symm, h.e_symm]
theorem tripI_swap12 (cc : Fin 4 → Fin 3 → ℝ) (p : PcSaftParameters n ℝ) (eta : ℝ) (i j k : Fin n) :
    tripI cc p eta i j k = tripI cc p eta j i k := by
  unfold tripI
  rw [mdqTriplet_swap12]
theorem tripI_swap23 (cc : Fin 4 → Fin 3 → ℝ) (p : PcSaftParameters n ℝ) (eta : ℝ) (i j k : Fin n) :
    tripI cc p eta i j k = tripI cc p eta i k j := by
  unfold tripI
  rw [mdqTriplet_swap23]

/-- strength of a dipole: σ³ ε μ² / T -/
theorem dipoleTerm_zero {p : PcSaftParameters n ℝ} (h : PolarOk p) (t : ℝ) {i : Fin n}
    (hi : i ∉ p.dipole_comp) : dipoleTerm p t i = 0 := by
  simp [dipoleTerm, h.dip_mem i hi]
theorem quadrupoleTerm_zero {p : PcSaftParameters n ℝ} (h : PolarOk p) (t : ℝ) {i : Fin n}
    (hi : i ∉ p.quadpole_comp) : quadrupoleTerm p t i = 0 := by
  simp [quadrupoleTerm, h.quad_mem i hi]

/-- the pair loop of the polar terms -/
theorem pairLoop_real (comp : List (Fin n)) (hnd : comp.Nodup) (f : Fin n → Fin n → ℝ)
    (hsymm : ∀ i j, f i j = f j i) (hz : ∀ i j, i ∉ comp → f i j = 0) :
    Fin.foldl comp.length (fun acc i =>
      foldUpper i (fun acc j => acc - 2 * f (comp.get i) (comp.get j)) (acc - f (comp.get i) (comp.get i)))
      0 = -∑ i, ∑ j, f i j := by
  simp only [foldUpper_sub_real, sub_sub]
  rw [foldl_sub_real (fun i : Fin comp.length => f (comp.get i) (comp.get i)
    + ∑ j, if i < j then 2 * f (comp.get i) (comp.get j) else 0)]
  rw [sum_pairs_symm (fun i j : Fin comp.length => f (comp.get i) (comp.get j)) (fun i j => hsymm _ _)]
  rw [sum_list_get comp hnd (fun i => ∑ j : Fin comp.length, f i (comp.get j))
    (fun i hi => Finset.sum_eq_zero (fun j _ => hz _ _ hi))]
  rw [zero_sub]
  congr 1
  refine Finset.sum_congr rfl (fun i _ => ?_)
  exact sum_list_get comp hnd (fun j => f i j) (fun j hj => by rw [hsymm, hz _ _ hj])

/-- the triplet loop of the polar terms -/
theorem tripletLoop_real (comp : List (Fin n)) (hnd : comp.Nodup) (f : Fin n → Fin n → Fin n → ℝ)
    (h1 : ∀ i j k, f i j k = f j i k) (h2 : ∀ i j k, f i j k = f i k j)
    (hz : ∀ i j k, i ∉ comp → f i j k = 0) :
    Fin.foldl comp.length (fun acc i =>
      foldUpper i (fun acc j =>
        foldUpper j (fun acc k => acc + 6 * f (comp.get i) (comp.get j) (comp.get k))
          (acc + 3 * f (comp.get i) (comp.get i) (comp.get j)
            + 3 * f (comp.get i) (comp.get j) (comp.get j)))
        (acc + f (comp.get i) (comp.get i) (comp.get i))) 0 = ∑ i, ∑ j, ∑ k, f i j k := by
  simp only [foldUpper_add_real, add_assoc]
  rw [foldl_add_real, zero_add]
  have h := sum_triples_symm (fun i j k : Fin comp.length => f (comp.get i) (comp.get j) (comp.get k))
    (fun i j k => h1 _ _ _) (fun i j k => h2 _ _ _)
  simp only [add_assoc] at h
  rw [h]
  rw [sum_list_get comp hnd (fun i => ∑ j : Fin comp.length, ∑ k : Fin comp.length,
      f i (comp.get j) (comp.get k))
    (fun i hi => Finset.sum_eq_zero (fun j _ => Finset.sum_eq_zero (fun k _ => hz _ _ _ hi)))]
  refine Finset.sum_congr rfl (fun i _ => ?_)
  rw [sum_list_get comp hnd (fun j => ∑ k : Fin comp.length, f i j (comp.get k))
    (fun j hj => Finset.sum_eq_zero (fun k _ => by rw [h1, hz _ _ _ hj]))]
  refine Finset.sum_congr rfl (fun j _ => ?_)
  exact sum_list_get comp hnd (fun k => f i j k) (fun k hk => by rw [h2, h1, hz _ _ _ hk])

/-! ### Dipoles -/

/-- pair kernel of the dipole term -/
noncomputable def dipK2 (p : PcSaftParameters n ℝ) (T eta : ℝ) (i j : Fin n) : ℝ :=
  dipoleTerm p T⁻¹ i * dipoleTerm p T⁻¹ j * pairI (by decide) AD BD p T eta i j / p.sigma_ij i j ^ 3

/-- triplet kernel of the dipole term -/
noncomputable def dipK3 (p : PcSaftParameters n ℝ) (T eta : ℝ) (i j k : Fin n) : ℝ :=
  dipoleTerm p T⁻¹ i * dipoleTerm p T⁻¹ j * dipoleTerm p T⁻¹ k * tripI CD p eta i j k
    / (p.sigma_ij i j * p.sigma_ij i k * p.sigma_ij j k)

theorem dipolePhi2_real {p : PcSaftParameters n ℝ} (h : PolarOk p) (T : ℝ) (rho : Fin n → ℝ) (eta : ℝ) :
    dipolePhi2 p T rho eta = -∑ i, ∑ j, rho i * rho j * dipK2 p T eta i j := by
  rw [← pairLoop_real p.dipole_comp h.dip_nodup (fun i j => rho i * rho j * dipK2 p T eta i j)]
  · unfold dipolePhi2
    simp only [c, ofF_real, recip_real, powi_real]
    have h0 : (0.0 : ℝ) = 0 := by norm_num
    have h2 : (2.0 : ℝ) = 2 := by norm_num
    rw [h0, h2]
    congr 1
    funext acc i
    rw [mij1_diag p _ h.m_nonneg, mij2_diag p _ h.m_nonneg]
    have e1 : acc - rho (p.dipole_comp.get i) * rho (p.dipole_comp.get i)
        * dipoleTerm p T⁻¹ (p.dipole_comp.get i) * dipoleTerm p T⁻¹ (p.dipole_comp.get i)
        * pairIntegral (by decide) (meanSeg1 (mdqPair p (p.dipole_comp.get i) (p.dipole_comp.get i)))
          (meanSeg2 (mdqPair p (p.dipole_comp.get i) (p.dipole_comp.get i))) eta AD BD
          (T⁻¹ * p.e_k_ij (p.dipole_comp.get i) (p.dipole_comp.get i))
        / p.sigma_ij (p.dipole_comp.get i) (p.dipole_comp.get i) ^ 3
        = acc - rho (p.dipole_comp.get i) * rho (p.dipole_comp.get i)
          * dipK2 p T eta (p.dipole_comp.get i) (p.dipole_comp.get i) := by
      unfold dipK2 pairI
      ring
    rw [e1]
    refine foldUpper_congr i _ _ _ (fun acc j hij => ?_)
    rw [mij1_lt p _ hij, mij2_lt p _ hij]
    unfold dipK2 pairI
    ring
  · intro i j
    unfold dipK2
    rw [pairI_symm (by decide) AD BD h T eta i j, h.sigma_symm i j]
    ring
  · intro i j hi
    unfold dipK2
    rw [dipoleTerm_zero h _ hi]
    ring

theorem dipolePhi3_real {p : PcSaftParameters n ℝ} (h : PolarOk p) (T : ℝ) (rho : Fin n → ℝ) (eta : ℝ) :
    dipolePhi3 p T rho eta = -∑ i, ∑ j, ∑ k, rho i * rho j * rho k * dipK3 p T eta i j k := by
  have key := tripletLoop_real p.dipole_comp h.dip_nodup
    (fun i j k => -(rho i * rho j * rho k * dipK3 p T eta i j k)) ?_ ?_ ?_
  · simp only [Finset.sum_neg_distrib] at key
    rw [← key]
    unfold dipolePhi3
    simp only [c, ofF_real, recip_real, powi_real]
    have h0 : (0.0 : ℝ) = 0 := by norm_num
    have h3 : (3.0 : ℝ) = 3 := by norm_num
    have h6 : (6.0 : ℝ) = 6 := by norm_num
    rw [h0, h3, h6]
    congr 1
    funext acc i
    have e0 : ∀ a b : ℝ, a = b → acc - a = acc + -b := by intro a b hab; rw [hab]; ring
    rw [mijk1_iii p, mijk2_iii p]
    rw [e0 _ (rho (p.dipole_comp.get i) * rho (p.dipole_comp.get i) * rho (p.dipole_comp.get i)
      * dipK3 p T eta (p.dipole_comp.get i) (p.dipole_comp.get i) (p.dipole_comp.get i))
      (by unfold dipK3 tripI; ring)]
    refine foldUpper_congr i _ _ _ (fun acc j hij => ?_)
    rw [mijk1_iij p _ hij, mijk2_iij p _ hij, mijk1_ijj p _ hij, mijk2_ijj p _ hij]
    have e1 : ∀ a b a' b' : ℝ, a = 3 * a' → b = 3 * b' →
        acc - a - b = acc + 3 * -a' + 3 * -b' := by intro a b a' b' h1 h2; rw [h1, h2]; ring
    rw [e1 _ _ (rho (p.dipole_comp.get i) * rho (p.dipole_comp.get i) * rho (p.dipole_comp.get j)
        * dipK3 p T eta (p.dipole_comp.get i) (p.dipole_comp.get i) (p.dipole_comp.get j))
      (rho (p.dipole_comp.get i) * rho (p.dipole_comp.get j) * rho (p.dipole_comp.get j)
        * dipK3 p T eta (p.dipole_comp.get i) (p.dipole_comp.get j) (p.dipole_comp.get j))
      (by unfold dipK3 tripI; ring) (by unfold dipK3 tripI; ring)]
    refine foldUpper_congr j _ _ _ (fun acc k hjk => ?_)
    rw [mijk1_ijk p _ hij hjk, mijk2_ijk p _ hij hjk]
    unfold dipK3 tripI
    ring
  · intro i j k
    unfold dipK3
    rw [tripI_swap12, h.sigma_symm i j]
    ring
  · intro i j k
    unfold dipK3
    rw [tripI_swap23, h.sigma_symm j k]
    ring
  · intro i j k hi
    unfold dipK3
    rw [dipoleTerm_zero h _ hi]
    ring

/-! ### Quadrupoles -/

/-- pair kernel of the quadrupole term; the code divides by the diameter of the component with the
smaller index -/
noncomputable def quadK2 (p : PcSaftParameters n ℝ) (T eta : ℝ) (i j : Fin n) : ℝ :=
  quadrupoleTerm p T⁻¹ i * quadrupoleTerm p T⁻¹ j * pairI (by decide) AQ BQ p T eta i j
    / p.sigma (min i j) ^ 7

/-- triplet kernel of the quadrupole term -/
noncomputable def quadK3 (p : PcSaftParameters n ℝ) (T eta : ℝ) (i j k : Fin n) : ℝ :=
  quadrupoleTerm p T⁻¹ i * quadrupoleTerm p T⁻¹ j * quadrupoleTerm p T⁻¹ k * tripI CQ p eta i j k
    / (p.sigma_ij i j ^ 3 * p.sigma_ij i k ^ 3 * p.sigma_ij j k ^ 3)

theorem PolarOk.quad_nodup {p : PcSaftParameters n ℝ} (h : PolarOk p) : p.quadpole_comp.Nodup :=
  h.quad_sorted.imp (fun h => h.ne)

theorem PolarOk.quad_get_lt {p : PcSaftParameters n ℝ} (h : PolarOk p)
    {i j : Fin p.quadpole_comp.length} (hij : i < j) : p.quadpole_comp.get i < p.quadpole_comp.get j :=
  List.pairwise_iff_get.mp h.quad_sorted i j hij

theorem quadrupolePhi2_real {p : PcSaftParameters n ℝ} (h : PolarOk p) (T : ℝ) (rho : Fin n → ℝ)
    (eta : ℝ) :
    quadrupolePhi2 p T rho eta = -∑ i, ∑ j, rho i * rho j * quadK2 p T eta i j := by
  rw [← pairLoop_real p.quadpole_comp h.quad_nodup (fun i j => rho i * rho j * quadK2 p T eta i j)]
  · unfold quadrupolePhi2
    simp only [c, ofF_real, recip_real, powi_real]
    have h0 : (0.0 : ℝ) = 0 := by norm_num
    have h2 : (2.0 : ℝ) = 2 := by norm_num
    rw [h0, h2]
    congr 1
    funext acc i
    rw [mij1_diag p _ h.m_nonneg, mij2_diag p _ h.m_nonneg]
    have e0 : ∀ a b : ℝ, a = b → acc - a = acc - b := by intro a b hab; rw [hab]
    rw [e0 _ (rho (p.quadpole_comp.get i) * rho (p.quadpole_comp.get i)
      * quadK2 p T eta (p.quadpole_comp.get i) (p.quadpole_comp.get i))
      (by unfold quadK2 pairI; rw [min_self, h.sigma_diag]; ring)]
    refine foldUpper_congr i _ _ _ (fun acc j hij => ?_)
    rw [mij1_lt p _ hij, mij2_lt p _ hij]
    unfold quadK2 pairI
    rw [min_eq_left (h.quad_get_lt hij).le, h.sigma_diag]
    ring
  · intro i j
    unfold quadK2
    rw [pairI_symm (by decide) AQ BQ h T eta i j, min_comm i j]
    ring
  · intro i j hi
    unfold quadK2
    rw [quadrupoleTerm_zero h _ hi]
    ring

theorem quadrupolePhi3_real {p : PcSaftParameters n ℝ} (h : PolarOk p) (T : ℝ) (rho : Fin n → ℝ)
    (eta : ℝ) :
    quadrupolePhi3 p T rho eta = ∑ i, ∑ j, ∑ k, rho i * rho j * rho k * quadK3 p T eta i j k := by
  have key := tripletLoop_real p.quadpole_comp h.quad_nodup
    (fun i j k => rho i * rho j * rho k * quadK3 p T eta i j k) ?_ ?_ ?_
  · rw [← key]
    unfold quadrupolePhi3
    simp only [c, ofF_real, recip_real, powi_real]
    have h0 : (0.0 : ℝ) = 0 := by norm_num
    have h3 : (3.0 : ℝ) = 3 := by norm_num
    have h6 : (6.0 : ℝ) = 6 := by norm_num
    rw [h0, h3, h6]
    congr 1
    funext acc i
    have e0 : ∀ a b : ℝ, a = b → acc + a = acc + b := by intro a b hab; rw [hab]
    rw [mijk1_iii p, mijk2_iii p]
    rw [e0 _ (rho (p.quadpole_comp.get i) * rho (p.quadpole_comp.get i) * rho (p.quadpole_comp.get i)
      * quadK3 p T eta (p.quadpole_comp.get i) (p.quadpole_comp.get i) (p.quadpole_comp.get i))
      (by unfold quadK3 tripI; ring)]
    refine foldUpper_congr i _ _ _ (fun acc j hij => ?_)
    rw [mijk1_iij p _ hij, mijk2_iij p _ hij, mijk1_ijj p _ hij, mijk2_ijj p _ hij]
    have e1 : ∀ a b a' b' : ℝ, a = a' → b = b' →
        acc + a + b = acc + a' + b' := by intro a b a' b' h1 h2; rw [h1, h2]
    rw [e1 _ _ (3 * (rho (p.quadpole_comp.get i) * rho (p.quadpole_comp.get i) * rho (p.quadpole_comp.get j)
        * quadK3 p T eta (p.quadpole_comp.get i) (p.quadpole_comp.get i) (p.quadpole_comp.get j)))
      (3 * (rho (p.quadpole_comp.get i) * rho (p.quadpole_comp.get j) * rho (p.quadpole_comp.get j)
        * quadK3 p T eta (p.quadpole_comp.get i) (p.quadpole_comp.get j) (p.quadpole_comp.get j)))
      (by unfold quadK3 tripI; ring) (by unfold quadK3 tripI; ring)]
    refine foldUpper_congr j _ _ _ (fun acc k hjk => ?_)
    rw [mijk1_ijk p _ hij hjk, mijk2_ijk p _ hij hjk]
    unfold quadK3 tripI
    ring
  · intro i j k
    unfold quadK3
    rw [tripI_swap12, h.sigma_symm i j]
    ring
  · intro i j k
    unfold quadK3
    rw [tripI_swap23, h.sigma_symm j k]
    ring
  · intro i j k hi
    unfold quadK3
    rw [quadrupoleTerm_zero h _ hi]
    ring

/-! ### Dipole-quadrupole -/

/-- pair kernel of the dipole-quadrupole term -/
noncomputable def dqK2 (v : DQVariants) (p : PcSaftParameters n ℝ) (T eta : ℝ) (i j : Fin n) : ℝ :=
  muQTerm v p T⁻¹ i j / p.sigma_ij i j ^ 5 * pairI (by decide) ADQ BDQ p T eta i j

/-- triplet integral of the dipole-quadrupole term -/
noncomputable def dqI3 (p : PcSaftParameters n ℝ) (eta : ℝ) (i j k : Fin n) : ℝ :=
  tripletIntegralDQ (meanSeg1 (mdqTriplet p i j k)) eta CDQ

/-- triplet kernel: dipole, quadrupole, dipole -/
noncomputable def dqK3d (p : PcSaftParameters n ℝ) (T eta : ℝ) (i j k : Fin n) : ℝ :=
  dqTerm p p.mu2 T⁻¹ i * dqTerm p p.q2 T⁻¹ j * dqTerm p p.mu2 T⁻¹ k
    / (p.sigma_ij i j * p.sigma_ij i k * p.sigma_ij j k) ^ 2 * dqI3 p eta i j k

/-- triplet kernel: dipole, quadrupole, quadrupole -/
noncomputable def dqK3q (p : PcSaftParameters n ℝ) (T eta : ℝ) (i j k : Fin n) : ℝ :=
  dqTerm p p.mu2 T⁻¹ i * dqTerm p p.q2 T⁻¹ j * dqTerm p p.q2 T⁻¹ k
    / (p.sigma_ij i j * p.sigma_ij i k * p.sigma_ij j k) ^ 2 * ALPHA * dqI3 p eta i j k

theorem muTerm_zero {p : PcSaftParameters n ℝ} (h : PolarOk p) (t : ℝ) {i : Fin n}
    (hi : i ∉ p.dipole_comp) : dqTerm p p.mu2 t i = 0 := by
  simp [dqTerm, h.dip_mem i hi]
theorem qTerm_zero {p : PcSaftParameters n ℝ} (h : PolarOk p) (t : ℝ) {i : Fin n}
    (hi : i ∉ p.quadpole_comp) : dqTerm p p.q2 t i = 0 := by
  simp [dqTerm, h.quad_mem i hi]

theorem muQTerm_zero_left {p : PcSaftParameters n ℝ} (h : PolarOk p) (v : DQVariants) (t : ℝ) {i j : Fin n}
    (hi : i ∉ p.dipole_comp) : muQTerm v p t i j = 0 := by
  cases v <;> simp [muQTerm, muTerm_zero h t hi]
theorem muQTerm_zero_right {p : PcSaftParameters n ℝ} (h : PolarOk p) (v : DQVariants) (t : ℝ)
    {i j : Fin n} (hj : j ∉ p.quadpole_comp) : muQTerm v p t i j = 0 := by
  cases v <;> simp [muQTerm, qTerm_zero h t hj]

theorem dipoleQuadrupolePhi2_real {p : PcSaftParameters n ℝ} (h : PolarOk p) (v : DQVariants) (T : ℝ)
    (rho : Fin n → ℝ) (eta : ℝ) :
    dipoleQuadrupolePhi2 v p T rho eta = -∑ i, ∑ j, rho i * rho j * dqK2 v p T eta i j := by
  unfold dipoleQuadrupolePhi2
  simp only [c, ofF_real, recip_real, powi_real, foldl_sub_real]
  have h0 : (0.0 : ℝ) = 0 := by norm_num
  rw [h0, zero_sub]
  congr 1
  have e : ∀ i j, rho i * rho j * muQTerm v p T⁻¹ i j / p.sigma_ij i j ^ 5
      * pairIntegral (by decide) (meanSeg1 (mdqPair p i j)) (meanSeg2 (mdqPair p i j)) eta ADQ BDQ
        (T⁻¹ * p.e_k_ij i j) = rho i * rho j * dqK2 v p T eta i j := by
    intro i j
    unfold dqK2 pairI
    ring
  simp only [e]
  rw [sum_list_get p.dipole_comp h.dip_nodup (fun i => ∑ j : Fin p.quadpole_comp.length,
    rho i * rho (p.quadpole_comp.get j) * dqK2 v p T eta i (p.quadpole_comp.get j))]
  · refine Finset.sum_congr rfl (fun i _ => ?_)
    rw [sum_list_get p.quadpole_comp h.quad_nodup (fun j => rho i * rho j * dqK2 v p T eta i j)]
    intro j hj
    unfold dqK2
    rw [muQTerm_zero_right h _ _ hj]
    ring
  · intro i hi
    refine Finset.sum_eq_zero (fun j _ => ?_)
    unfold dqK2
    rw [muQTerm_zero_left h _ _ hi]
    ring

theorem dipoleQuadrupolePhi3_real {p : PcSaftParameters n ℝ} (h : PolarOk p) (T : ℝ)
    (rho : Fin n → ℝ) (eta : ℝ) :
    dipoleQuadrupolePhi3 p T rho eta
      = ∑ i, ∑ j, ∑ k, rho i * rho j * rho k * (dqK3d p T eta i j k + dqK3q p T eta i j k) := by
  unfold dipoleQuadrupolePhi3
  simp only [c, ofF_real, recip_real, powi_real]
  have h0 : (0.0 : ℝ) = 0 := by norm_num
  rw [h0]
  have ed : ∀ i j k, rho i * rho j * rho k * dqTerm p p.mu2 T⁻¹ i * dqTerm p p.q2 T⁻¹ j
      * dqTerm p p.mu2 T⁻¹ k / (p.sigma_ij i j * p.sigma_ij i k * p.sigma_ij j k) ^ 2
      * tripletIntegralDQ (meanSeg1 (mdqTriplet p i j k)) eta CDQ
      = rho i * rho j * rho k * dqK3d p T eta i j k := by
    intro i j k
    unfold dqK3d dqI3
    ring
  have eq : ∀ i j k, rho i * rho j * rho k * dqTerm p p.mu2 T⁻¹ i * dqTerm p p.q2 T⁻¹ j
      * dqTerm p p.q2 T⁻¹ k / (p.sigma_ij i j * p.sigma_ij i k * p.sigma_ij j k) ^ 2 * ALPHA
      * tripletIntegralDQ (meanSeg1 (mdqTriplet p i j k)) eta CDQ
      = rho i * rho j * rho k * dqK3q p T eta i j k := by
    intro i j k
    unfold dqK3q dqI3
    ring
  simp only [ed, eq, foldl_add_real, add_assoc, zero_add]
  have zd : ∀ i j k, k ∉ p.dipole_comp → rho i * rho j * rho k * dqK3d p T eta i j k = 0 := by
    intro i j k hk
    unfold dqK3d
    rw [muTerm_zero h _ hk]
    ring
  have zq : ∀ i j k, k ∉ p.quadpole_comp → rho i * rho j * rho k * dqK3q p T eta i j k = 0 := by
    intro i j k hk
    unfold dqK3q
    rw [qTerm_zero h _ hk]
    ring
  have inner : ∀ i j, ∑ k : Fin p.dipole_comp.length, rho i * rho j * rho (p.dipole_comp.get k)
      * dqK3d p T eta i j (p.dipole_comp.get k)
      + ∑ k : Fin p.quadpole_comp.length, rho i * rho j * rho (p.quadpole_comp.get k)
        * dqK3q p T eta i j (p.quadpole_comp.get k)
      = ∑ k, rho i * rho j * rho k * (dqK3d p T eta i j k + dqK3q p T eta i j k) := by
    intro i j
    rw [sum_list_get p.dipole_comp h.dip_nodup (fun k => rho i * rho j * rho k * dqK3d p T eta i j k)
        (fun k hk => zd i j k hk),
      sum_list_get p.quadpole_comp h.quad_nodup (fun k => rho i * rho j * rho k * dqK3q p T eta i j k)
        (fun k hk => zq i j k hk), ← Finset.sum_add_distrib]
    exact Finset.sum_congr rfl (fun k _ => by ring)
  simp only [inner]
  rw [sum_list_get p.dipole_comp h.dip_nodup (fun i => ∑ j : Fin p.quadpole_comp.length, ∑ k,
    rho i * rho (p.quadpole_comp.get j) * rho k * (dqK3d p T eta i (p.quadpole_comp.get j) k
      + dqK3q p T eta i (p.quadpole_comp.get j) k))]
  · refine Finset.sum_congr rfl (fun i _ => ?_)
    rw [sum_list_get p.quadpole_comp h.quad_nodup (fun j => ∑ k, rho i * rho j * rho k
      * (dqK3d p T eta i j k + dqK3q p T eta i j k))]
    intro j hj
    refine Finset.sum_eq_zero (fun k _ => ?_)
    unfold dqK3d dqK3q
    rw [qTerm_zero h _ hj]
    ring
  · intro i hi
    refine Finset.sum_eq_zero (fun j _ => Finset.sum_eq_zero (fun k _ => ?_))
    unfold dqK3d dqK3q
    rw [muTerm_zero h _ hi]
    ring

end PcSaft
