import Verif.Props.Continuity
import Verif.Props.PolarAttraction
import Verif.Lemmas.Dilute

/-!
# Property C104: moments and association volumes that fade away

A component without dipole moment, quadrupole moment or association volume takes a different path through the code
(the lists of polar and associating components are shorter and contributions are left out). The result is
nevertheless the limit of the results for small moments and association volumes.
-/

open Filter Topology

namespace PcSaft.Spec

/-- records with the given dipole and quadrupole moments -/
def withMoments {n : ℕ} (pr : Fin n → PureRecord ℝ) (mu q : Fin n → Option ℝ) : Fin n → PureRecord ℝ := fun i =>
  { pr i with model_record := { (pr i).model_record with mu := mu i, q := q i } }

/-- records with the given association volumes -/
def withVolumes {n : ℕ} (pr : Fin n → PureRecord ℝ) (kappa : Fin n → Option ℝ) : Fin n → PureRecord ℝ := fun i =>
  { pr i with model_record := { (pr i).model_record with kappa_ab := kappa i } }

end PcSaft.Spec

namespace PcSaft.Props
open PcSaft.Spec
variable {n : ℕ}

section moments
variable {X : Type} {l : Filter X} {pr : Fin n → PureRecord ℝ} {k : Fin n → Fin n → ℝ} {mu q : X → Fin n → Option ℝ}
  {mu0 q0 : Fin n → Option ℝ}

theorem mu2_tendsto (h : ∀ i, Tendsto (fun x => (mu x i).getD 0) l (𝓝 ((mu0 i).getD 0))) (i : Fin n) :
    Tendsto (fun x => (fromRecords (withMoments pr (mu x) (q x)) k).mu2 i) l
      (𝓝 ((fromRecords (withMoments pr mu0 q0) k).mu2 i)) := by
  have h0 : (0.0 : ℝ) = 0 := by norm_num
  have hi : Tendsto (fun x => (mu x i).getD 0.0) l (𝓝 ((mu0 i).getD 0.0)) := by
    rw [h0]
    exact h i
  exact (((hi.mul hi).div_const _).mul_const _).mul_const _

theorem q2_tendsto (h : ∀ i, Tendsto (fun x => (q x i).getD 0) l (𝓝 ((q0 i).getD 0))) (i : Fin n) :
    Tendsto (fun x => (fromRecords (withMoments pr (mu x) (q x)) k).q2 i) l
      (𝓝 ((fromRecords (withMoments pr mu0 q0) k).q2 i)) := by
  have h0 : (0.0 : ℝ) = 0 := by norm_num
  have hi : Tendsto (fun x => (q x i).getD 0.0) l (𝓝 ((q0 i).getD 0.0)) := by
    rw [h0]
    exact h i
  exact (((hi.mul hi).div_const _).mul_const _).mul_const _

variable (hm : ∀ i, 0 ≤ (pr i).model_record.m)
include hm

theorem moments_ok (mu q : Fin n → Option ℝ) : PolarOk (fromRecords (withMoments pr mu q) k) :=
  polarOk_fromRecords _ _ hm

theorem dipolePhis_tendsto (h : ∀ i, Tendsto (fun x => (mu x i).getD 0) l (𝓝 ((mu0 i).getD 0))) (s : StateHD n ℝ) :
    Tendsto (fun x => (dipolePhis (fromRecords (withMoments pr (mu x) (q x)) k) s).1) l
      (𝓝 (dipolePhis (fromRecords (withMoments pr mu0 q0) k) s).1)
    ∧ Tendsto (fun x => (dipolePhis (fromRecords (withMoments pr (mu x) (q x)) k) s).2) l
      (𝓝 (dipolePhis (fromRecords (withMoments pr mu0 q0) k) s).2) := by
  have ht : ∀ i, Tendsto (fun x => dipoleTerm (fromRecords (withMoments pr (mu x) (q x)) k) s.temperature⁻¹ i) l
      (𝓝 (dipoleTerm (fromRecords (withMoments pr mu0 q0) k) s.temperature⁻¹ i)) := fun i =>
    (mu2_tendsto h i).const_mul _
  constructor
  · simp only [dipolePhis, dipolePhi2_real (moments_ok hm _ _)]
    refine (tendsto_finsetSum _ fun i _ => tendsto_finsetSum _ fun j _ => ?_).neg.mul_const _
    exact ((((ht i).mul (ht j)).mul_const _).div_const _).const_mul _
  · simp only [dipolePhis, dipolePhi3_real (moments_ok hm _ _)]
    refine (tendsto_finsetSum _ fun i _ => tendsto_finsetSum _ fun j _ => tendsto_finsetSum _ fun l _ =>
      ?_).neg.mul_const _
    exact (((((ht i).mul (ht j)).mul (ht l)).mul_const _).div_const _).const_mul _

theorem quadrupolePhis_tendsto (h : ∀ i, Tendsto (fun x => (q x i).getD 0) l (𝓝 ((q0 i).getD 0))) (s : StateHD n ℝ) :
    Tendsto (fun x => (quadrupolePhis (fromRecords (withMoments pr (mu x) (q x)) k) s).1) l
      (𝓝 (quadrupolePhis (fromRecords (withMoments pr mu0 q0) k) s).1)
    ∧ Tendsto (fun x => (quadrupolePhis (fromRecords (withMoments pr (mu x) (q x)) k) s).2) l
      (𝓝 (quadrupolePhis (fromRecords (withMoments pr mu0 q0) k) s).2) := by
  have ht : ∀ i, Tendsto (fun x => quadrupoleTerm (fromRecords (withMoments pr (mu x) (q x)) k) s.temperature⁻¹ i) l
      (𝓝 (quadrupoleTerm (fromRecords (withMoments pr mu0 q0) k) s.temperature⁻¹ i)) := fun i =>
    (q2_tendsto h i).const_mul _
  constructor
  · simp only [quadrupolePhis, quadrupolePhi2_real (moments_ok hm _ _)]
    refine (tendsto_finsetSum _ fun i _ => tendsto_finsetSum _ fun j _ => ?_).neg.mul_const _
    exact ((((ht i).mul (ht j)).mul_const _).div_const _).const_mul _
  · simp only [quadrupolePhis, quadrupolePhi3_real (moments_ok hm _ _)]
    refine (tendsto_finsetSum _ fun i _ => tendsto_finsetSum _ fun j _ => tendsto_finsetSum _ fun l _ =>
      ?_).mul_const _
    exact (((((ht i).mul (ht j)).mul (ht l)).mul_const _).div_const _).const_mul _

theorem dipoleQuadrupolePhis_tendsto (v : DQVariants)
    (h : ∀ i, Tendsto (fun x => (mu x i).getD 0) l (𝓝 ((mu0 i).getD 0)))
    (h' : ∀ i, Tendsto (fun x => (q x i).getD 0) l (𝓝 ((q0 i).getD 0))) (s : StateHD n ℝ) :
    Tendsto (fun x => (dipoleQuadrupolePhis v (fromRecords (withMoments pr (mu x) (q x)) k) s).1) l
      (𝓝 (dipoleQuadrupolePhis v (fromRecords (withMoments pr mu0 q0) k) s).1)
    ∧ Tendsto (fun x => (dipoleQuadrupolePhis v (fromRecords (withMoments pr (mu x) (q x)) k) s).2) l
      (𝓝 (dipoleQuadrupolePhis v (fromRecords (withMoments pr mu0 q0) k) s).2) := by
  have ht : ∀ i, Tendsto (fun x => dqTerm (fromRecords (withMoments pr (mu x) (q x)) k)
      (fromRecords (withMoments pr (mu x) (q x)) k).mu2 s.temperature⁻¹ i) l
      (𝓝 (dqTerm (fromRecords (withMoments pr mu0 q0) k) (fromRecords (withMoments pr mu0 q0) k).mu2
        s.temperature⁻¹ i)) := fun i => (mu2_tendsto h i).const_mul _
  have ht' : ∀ i, Tendsto (fun x => dqTerm (fromRecords (withMoments pr (mu x) (q x)) k)
      (fromRecords (withMoments pr (mu x) (q x)) k).q2 s.temperature⁻¹ i) l
      (𝓝 (dqTerm (fromRecords (withMoments pr mu0 q0) k) (fromRecords (withMoments pr mu0 q0) k).q2
        s.temperature⁻¹ i)) := fun i => (q2_tendsto h' i).const_mul _
  constructor
  · simp only [dipoleQuadrupolePhis, dipoleQuadrupolePhi2_real (moments_ok hm _ _)]
    refine (tendsto_finsetSum _ fun i _ => tendsto_finsetSum _ fun j _ => ?_).neg.mul_const _
    refine Tendsto.const_mul _ (Tendsto.mul_const _ (Tendsto.div_const ?_ _))
    cases v with
    | DQ35 => exact (((ht i).div_const _).mul (ht' j)).mul_const _
    | DQ44 => exact (ht i).mul (ht' j)
  · simp only [dipoleQuadrupolePhis, dipoleQuadrupolePhi3_real (moments_ok hm _ _)]
    refine (tendsto_finsetSum _ fun i _ => tendsto_finsetSum _ fun j _ => tendsto_finsetSum _ fun l _ =>
      ?_).mul_const _
    refine Tendsto.const_mul _ (Tendsto.add ?_ ?_)
    · exact ((((ht i).mul (ht' j)).mul (ht l)).div_const _).mul_const _
    · exact (((((ht i).mul (ht' j)).mul (ht' l)).div_const _).mul_const _).mul_const _

end moments

theorem pade_tendsto {X : Type} {l : Filter X} {a b : X → ℝ} {a0 b0 : ℝ} (ha : Tendsto a l (𝓝 a0))
    (hb : Tendsto b l (𝓝 b0)) (h : a0 ≠ b0) (V : ℝ) :
    Tendsto (fun x => padeVolume (a x) (b x) V) l (𝓝 (padeVolume a0 b0 V)) := by
  simp only [padeVolume_real]
  exact ((ha.mul ha).div (ha.sub hb) (sub_ne_zero.2 h)).mul_const V

/-- the lists are empty if all moments vanish -/
theorem moments_none {pr : Fin n → PureRecord ℝ} {k : Fin n → Fin n → ℝ} {mu q : Fin n → Option ℝ} :
    ((∀ i, (mu i).getD 0 = 0) → (fromRecords (withMoments pr mu q) k).ndipole = 0)
    ∧ ((∀ i, (q i).getD 0 = 0) → (fromRecords (withMoments pr mu q) k).nquadpole = 0) := by
  have h0 : (0.0 : ℝ) = 0 := by norm_num
  constructor
  · intro h
    refine List.length_eq_zero_iff.2 (List.eq_nil_iff_forall_not_mem.2 fun i hi => ?_)
    have := (mem_nonzeroComp (fromRecords (withMoments pr mu q) k).mu2 i).1 hi
    refine this (mu2_zero ?_)
    show (mu i).getD 0.0 = 0
    rw [h0, h i]
  · intro h
    refine List.length_eq_zero_iff.2 (List.eq_nil_iff_forall_not_mem.2 fun i hi => ?_)
    have := (mem_nonzeroComp (fromRecords (withMoments pr mu q) k).q2 i).1 hi
    refine this (q2_zero ?_)
    show (q i).getD 0.0 = 0
    rw [h0, h i]

/-! ### The property -/

/-- Moments that converge give energies that converge, also if components lose their moment in the limit and are
no longer listed as polar. A kind of moment may vanish altogether in the limit only if it is absent from the
outset; for the other case see `C104_dipoles_fade` and `C104_quadrupoles_fade`. -/
theorem C104_moments_converge {X : Type} {l : Filter X} [l.NeBot] {pr : Fin n → PureRecord ℝ} {k : Fin n → Fin n → ℝ}
    {mu q : X → Fin n → Option ℝ} {mu0 q0 : Fin n → Option ℝ} {T V : ℝ} {N : Fin n → ℝ} (o : PcSaftOptions ℝ)
    (la : LinAlg ℝ ℝ) (hm : ∀ i, 0 ≤ (pr i).model_record.m) (ha : (fromRecords pr k).nassoc ≤ 1)
    (hmu : ∀ i, Tendsto (fun x => (mu x i).getD 0) l (𝓝 ((mu0 i).getD 0)))
    (hq : ∀ i, Tendsto (fun x => (q x i).getD 0) l (𝓝 ((q0 i).getD 0)))
    (hd : Regular (fromRecords (withMoments pr mu0 q0) k) T V N .dipole ∨ ∀ x i, (mu x i).getD 0 = 0)
    (hqq : Regular (fromRecords (withMoments pr mu0 q0) k) T V N .quadrupole ∨ ∀ x i, (q x i).getD 0 = 0)
    (hdq : Regular (fromRecords (withMoments pr mu0 q0) k) T V N (.dipoleQuadrupole o.dq_variant)
      ∨ (∀ x i, (mu x i).getD 0 = 0) ∨ ∀ x i, (q x i).getD 0 = 0) :
    ∃ (A : X → ℝ) (A0 : ℝ),
      (∀ x, (Eos.withOptions (fromRecords (withMoments pr (mu x) (q x)) k) o).residualHelmholtz la
        (StateHD.new T V N) = .ok (A x))
      ∧ (Eos.withOptions (fromRecords (withMoments pr mu0 q0) k) o).residualHelmholtz la (StateHD.new T V N) = .ok A0
      ∧ Tendsto A l (𝓝 A0) := by
  have hd' : (∀ x i, (mu x i).getD 0 = 0) → ∀ i, (mu0 i).getD 0 = 0 := fun h i => by
    have := hmu i
    simp only [h] at this
    exact tendsto_nhds_unique this tendsto_const_nhds
  have hqq' : (∀ x i, (q x i).getD 0 = 0) → ∀ i, (q0 i).getD 0 = 0 := fun h i => by
    have := hq i
    simp only [h] at this
    exact tendsto_nhds_unique this tendsto_const_nhds
  refine ⟨_, _, fun x => residual_of_nassoc_le_one la _ o _ ha, residual_of_nassoc_le_one la _ o _ ha, ?_⟩
  unfold residualSum
  refine Tendsto.add (Tendsto.add (Tendsto.add (Tendsto.add tendsto_const_nhds ?_) ?_) ?_) tendsto_const_nhds
  · rcases hd with hd | hd
    · obtain ⟨h2, h3⟩ := dipolePhis_tendsto (q := q) (q0 := q0) hm hmu (StateHD.new T V N)
      exact pade_tendsto h2 h3 hd V
    · simp only [dipole_eq_zero (moments_none.1 (hd _)), dipole_eq_zero (moments_none.1 (hd' hd))]
      exact tendsto_const_nhds
  · rcases hqq with hd | hd
    · obtain ⟨h2, h3⟩ := quadrupolePhis_tendsto (mu := mu) (mu0 := mu0) hm hq (StateHD.new T V N)
      exact pade_tendsto h2 h3 hd V
    · simp only [quadrupole_eq_zero (moments_none.2 (hd _)), quadrupole_eq_zero (moments_none.2 (hqq' hd))]
      exact tendsto_const_nhds
  · rcases hdq with h | h | h
    · obtain ⟨h2, h3⟩ := dipoleQuadrupolePhis_tendsto hm o.dq_variant hmu hq (StateHD.new T V N)
      exact pade_tendsto h2 h3 h V
    · simp only [dipoleQuadrupole_eq_zero (Or.inl (moments_none.1 (h _))),
        dipoleQuadrupole_eq_zero (Or.inl (moments_none.1 (hd' h)))]
      exact tendsto_const_nhds
    · simp only [dipoleQuadrupole_eq_zero (Or.inr (moments_none.2 (h _))),
        dipoleQuadrupole_eq_zero (Or.inr (moments_none.2 (hqq' h)))]
      exact tendsto_const_nhds

/-! Moments that vanish altogether -/

/-- all moments scaled by the same factor -/
def scaleMoments (t : ℝ) (mu : Fin n → Option ℝ) : Fin n → Option ℝ := fun i => (mu i).map (t * ·)

theorem scaleMoments_getD (t : ℝ) (mu : Fin n → Option ℝ) (i : Fin n) :
    (scaleMoments t mu i).getD 0.0 = t * (mu i).getD 0.0 := by
  unfold scaleMoments
  cases mu i with
  | none =>
    simp only [Option.map_none, Option.getD_none]
    norm_num
  | some x => rfl

theorem mu2_scale (pr : Fin n → PureRecord ℝ) (k : Fin n → Fin n → ℝ) (mu q : Fin n → Option ℝ) (t : ℝ) (i : Fin n) :
    (fromRecords (withMoments pr (scaleMoments t mu) q) k).mu2 i = t ^ 2 * (fromRecords (withMoments pr mu q) k).mu2 i := by
  have e : ∀ mu : Fin n → Option ℝ, (fromRecords (withMoments pr mu q) k).mu2 i = (mu i).getD 0.0 * (mu i).getD 0.0
    / ((pr i).model_record.m * (pr i).model_record.sigma * (pr i).model_record.sigma * (pr i).model_record.sigma
      * (pr i).model_record.epsilon_k) * 1e-19 * jouleKelvinKB := fun _ => rfl
  rw [e, e, scaleMoments_getD]
  ring

theorem q2_scale (pr : Fin n → PureRecord ℝ) (k : Fin n → Fin n → ℝ) (mu q : Fin n → Option ℝ) (t : ℝ) (i : Fin n) :
    (fromRecords (withMoments pr mu (scaleMoments t q)) k).q2 i = t ^ 2 * (fromRecords (withMoments pr mu q) k).q2 i := by
  have e : ∀ q : Fin n → Option ℝ, (fromRecords (withMoments pr mu q) k).q2 i = (q i).getD 0.0 * (q i).getD 0.0
    / ((pr i).model_record.m * F64.powi (pr i).model_record.sigma 5 * (pr i).model_record.epsilon_k) * 1e-19
      * jouleKelvinKB := fun _ => rfl
  rw [e, e, scaleMoments_getD]
  ring

theorem dipolePhis_scale {pr : Fin n → PureRecord ℝ} {k : Fin n → Fin n → ℝ} (hm : ∀ i, 0 ≤ (pr i).model_record.m)
    (mu q : Fin n → Option ℝ) (t : ℝ) (s : StateHD n ℝ) :
    dipolePhis (fromRecords (withMoments pr (scaleMoments t mu) q) k) s
      = (t ^ 4 * (dipolePhis (fromRecords (withMoments pr mu q) k) s).1,
         t ^ 6 * (dipolePhis (fromRecords (withMoments pr mu q) k) s).2) := by
  have ht : ∀ i, dipoleTerm (fromRecords (withMoments pr (scaleMoments t mu) q) k) s.temperature⁻¹ i
      = t ^ 2 * dipoleTerm (fromRecords (withMoments pr mu q) k) s.temperature⁻¹ i := by
    intro i
    unfold dipoleTerm
    simp only [c, ofF_real]
    rw [mu2_scale]
    exact mul_left_comm _ _ _
  have e2 : ∀ eta i j, dipK2 (fromRecords (withMoments pr (scaleMoments t mu) q) k) s.temperature eta i j
      = t ^ 4 * dipK2 (fromRecords (withMoments pr mu q) k) s.temperature eta i j := by
    intro eta i j
    unfold dipK2
    rw [ht, ht]
    change _ * _ * pairI _ AD BD (fromRecords (withMoments pr mu q) k) _ eta i j
      / (fromRecords (withMoments pr mu q) k).sigma_ij i j ^ 3 = _
    ring
  have e3 : ∀ eta i j l, dipK3 (fromRecords (withMoments pr (scaleMoments t mu) q) k) s.temperature eta i j l
      = t ^ 6 * dipK3 (fromRecords (withMoments pr mu q) k) s.temperature eta i j l := by
    intro eta i j l
    unfold dipK3
    rw [ht, ht, ht]
    change _ * _ * _ * tripI CD (fromRecords (withMoments pr mu q) k) eta i j l
      / ((fromRecords (withMoments pr mu q) k).sigma_ij i j * (fromRecords (withMoments pr mu q) k).sigma_ij i l
        * (fromRecords (withMoments pr mu q) k).sigma_ij j l) = _
    ring
  have heta : stateEta (fromRecords (withMoments pr (scaleMoments t mu) q) k) s
    = stateEta (fromRecords (withMoments pr mu q) k) s := rfl
  simp only [dipolePhis, dipolePhi2_real (moments_ok hm _ _), dipolePhi3_real (moments_ok hm _ _), e2, e3, heta]
  refine Prod.ext ?_ ?_
  · simp only [Finset.sum_mul, Finset.mul_sum, neg_mul, mul_neg]
    refine congrArg _ (Finset.sum_congr rfl fun i _ => Finset.sum_congr rfl fun j _ => ?_)
    ring
  · simp only [Finset.sum_mul, Finset.mul_sum, neg_mul, mul_neg]
    refine congrArg _ (Finset.sum_congr rfl fun i _ => Finset.sum_congr rfl fun j _ => Finset.sum_congr rfl fun l _ => ?_)
    ring

theorem quadrupolePhis_scale {pr : Fin n → PureRecord ℝ} {k : Fin n → Fin n → ℝ} (hm : ∀ i, 0 ≤ (pr i).model_record.m)
    (mu q : Fin n → Option ℝ) (t : ℝ) (s : StateHD n ℝ) :
    quadrupolePhis (fromRecords (withMoments pr mu (scaleMoments t q)) k) s
      = (t ^ 4 * (quadrupolePhis (fromRecords (withMoments pr mu q) k) s).1,
         t ^ 6 * (quadrupolePhis (fromRecords (withMoments pr mu q) k) s).2) := by
  have ht : ∀ i, quadrupoleTerm (fromRecords (withMoments pr mu (scaleMoments t q)) k) s.temperature⁻¹ i
      = t ^ 2 * quadrupoleTerm (fromRecords (withMoments pr mu q) k) s.temperature⁻¹ i := by
    intro i
    unfold quadrupoleTerm
    simp only [c, ofF_real]
    rw [q2_scale]
    exact mul_left_comm _ _ _
  have e2 : ∀ eta i j, quadK2 (fromRecords (withMoments pr mu (scaleMoments t q)) k) s.temperature eta i j
      = t ^ 4 * quadK2 (fromRecords (withMoments pr mu q) k) s.temperature eta i j := by
    intro eta i j
    unfold quadK2
    rw [ht, ht]
    change _ * _ * pairI _ AQ BQ (fromRecords (withMoments pr mu q) k) _ eta i j
      / (fromRecords (withMoments pr mu q) k).sigma (min i j) ^ 7 = _
    ring
  have e3 : ∀ eta i j l, quadK3 (fromRecords (withMoments pr mu (scaleMoments t q)) k) s.temperature eta i j l
      = t ^ 6 * quadK3 (fromRecords (withMoments pr mu q) k) s.temperature eta i j l := by
    intro eta i j l
    unfold quadK3
    rw [ht, ht, ht]
    change _ * _ * _ * tripI CQ (fromRecords (withMoments pr mu q) k) eta i j l
      / ((fromRecords (withMoments pr mu q) k).sigma_ij i j ^ 3 * (fromRecords (withMoments pr mu q) k).sigma_ij i l ^ 3
        * (fromRecords (withMoments pr mu q) k).sigma_ij j l ^ 3) = _
    ring
  have heta : stateEta (fromRecords (withMoments pr mu (scaleMoments t q)) k) s
    = stateEta (fromRecords (withMoments pr mu q) k) s := rfl
  simp only [quadrupolePhis, quadrupolePhi2_real (moments_ok hm _ _), quadrupolePhi3_real (moments_ok hm _ _), e2, e3,
    heta]
  refine Prod.ext ?_ ?_
  · simp only [Finset.sum_mul, Finset.mul_sum, neg_mul, mul_neg]
    refine congrArg _ (Finset.sum_congr rfl fun i _ => Finset.sum_congr rfl fun j _ => ?_)
    ring
  · simp only [Finset.sum_mul, Finset.mul_sum]
    refine Finset.sum_congr rfl fun i _ => Finset.sum_congr rfl fun j _ => Finset.sum_congr rfl fun l _ => ?_
    ring

theorem pade_fades (a b V : ℝ) : Tendsto (fun t : ℝ => padeVolume (t ^ 4 * a) (t ^ 6 * b) V) (𝓝 0) (𝓝 0) := by
  by_cases ha : a = 0
  · have e : (fun t : ℝ => padeVolume (t ^ 4 * a) (t ^ 6 * b) V) = fun _ => 0 := by
      funext t
      rw [padeVolume_real, ha]
      simp
    rw [e]
    exact tendsto_const_nhds
  · have e : ∀ t : ℝ, padeVolume (t ^ 4 * a) (t ^ 6 * b) V = t ^ 4 * (a * a / (a - t ^ 2 * b) * V) := by
      intro t
      rw [padeVolume_real]
      rcases eq_or_ne t 0 with rfl | ht
      · simp
      · rw [show t ^ 4 * a - t ^ 6 * b = t ^ 4 * (a - t ^ 2 * b) by ring,
          show t ^ 4 * a * (t ^ 4 * a) = t ^ 4 * (t ^ 4 * (a * a)) by ring, mul_div_mul_left _ _ (pow_ne_zero 4 ht)]
        ring
    simp only [e]
    have h1 : Tendsto (fun t : ℝ => t ^ 4) (𝓝 0) (𝓝 0) := by
      simpa using (continuous_pow 4).tendsto (0 : ℝ)
    have h2 : Tendsto (fun t : ℝ => a - t ^ 2 * b) (𝓝 0) (𝓝 a) := by
      have h : Tendsto (fun t : ℝ => t ^ 2) (𝓝 0) (𝓝 0) := by
        simpa using (continuous_pow 2).tendsto (0 : ℝ)
      simpa using (h.mul_const b).const_sub a
    simpa using h1.mul ((tendsto_const_nhds (x := a * a)).div h2 ha |>.mul_const V)

section fade
variable {pr : Fin n → PureRecord ℝ} {k : Fin n → Fin n → ℝ} {T V : ℝ} {N : Fin n → ℝ} (o : PcSaftOptions ℝ)
  (la : LinAlg ℝ ℝ) (hm : ∀ i, 0 ≤ (pr i).model_record.m) (ha : (fromRecords pr k).nassoc ≤ 1)
include hm ha

/-- Dipole moments that fade away: as all dipole moments are scaled down to zero, the energy approaches the energy
of the fluid without dipoles, at every state. -/
theorem C104_dipoles_fade (mu : Fin n → Option ℝ) :
    ∃ (A : ℝ → ℝ) (A0 : ℝ),
      (∀ t, (Eos.withOptions (fromRecords (withMoments pr (scaleMoments t mu) fun _ => none) k) o).residualHelmholtz la
        (StateHD.new T V N) = .ok (A t))
      ∧ (Eos.withOptions (fromRecords (withMoments pr (fun _ => none) fun _ => none) k) o).residualHelmholtz la
        (StateHD.new T V N) = .ok A0
      ∧ Tendsto A (𝓝 0) (𝓝 A0) := by
  refine ⟨_, _, fun x => residual_of_nassoc_le_one la _ o _ ha, residual_of_nassoc_le_one la _ o _ ha, ?_⟩
  unfold residualSum
  have hnone : ∀ mu : Fin n → Option ℝ, (fromRecords (withMoments pr mu fun _ => none) k).nquadpole = 0 := fun mu =>
    moments_none.2 fun _ => rfl
  have hd : (fromRecords (withMoments pr (fun _ => none) fun _ => none) k).ndipole = 0 := moments_none.1 fun _ => rfl
  simp only [quadrupole_eq_zero (hnone _), dipoleQuadrupole_eq_zero (Or.inr (hnone _)), dipole_eq_zero hd]
  refine Tendsto.add (Tendsto.add (Tendsto.add (Tendsto.add tendsto_const_nhds ?_) tendsto_const_nhds)
    tendsto_const_nhds) tendsto_const_nhds
  have e : ∀ t, dipole (fromRecords (withMoments pr (scaleMoments t mu) fun _ => none) k) (StateHD.new T V N)
      = padeVolume (dipolePhis (fromRecords (withMoments pr (scaleMoments t mu) fun _ => none) k) (StateHD.new T V N)).1
        (dipolePhis (fromRecords (withMoments pr (scaleMoments t mu) fun _ => none) k) (StateHD.new T V N)).2 V :=
    fun _ => rfl
  simp only [e, dipolePhis_scale hm]
  exact pade_fades _ _ V

/-- Quadrupole moments that fade away. -/
theorem C104_quadrupoles_fade (q : Fin n → Option ℝ) :
    ∃ (A : ℝ → ℝ) (A0 : ℝ),
      (∀ t, (Eos.withOptions (fromRecords (withMoments pr (fun _ => none) (scaleMoments t q)) k) o).residualHelmholtz la
        (StateHD.new T V N) = .ok (A t))
      ∧ (Eos.withOptions (fromRecords (withMoments pr (fun _ => none) fun _ => none) k) o).residualHelmholtz la
        (StateHD.new T V N) = .ok A0
      ∧ Tendsto A (𝓝 0) (𝓝 A0) := by
  refine ⟨_, _, fun x => residual_of_nassoc_le_one la _ o _ ha, residual_of_nassoc_le_one la _ o _ ha, ?_⟩
  unfold residualSum
  have hnone : ∀ q : Fin n → Option ℝ, (fromRecords (withMoments pr (fun _ => none) q) k).ndipole = 0 := fun q =>
    moments_none.1 fun _ => rfl
  have hd : (fromRecords (withMoments pr (fun _ => none) fun _ => none) k).nquadpole = 0 := moments_none.2 fun _ => rfl
  simp only [dipole_eq_zero (hnone _), dipoleQuadrupole_eq_zero (Or.inl (hnone _)), quadrupole_eq_zero hd]
  refine Tendsto.add (Tendsto.add (Tendsto.add (Tendsto.add tendsto_const_nhds tendsto_const_nhds) ?_)
    tendsto_const_nhds) tendsto_const_nhds
  have e : ∀ t, quadrupole (fromRecords (withMoments pr (fun _ => none) (scaleMoments t q)) k) (StateHD.new T V N)
      = padeVolume
        (quadrupolePhis (fromRecords (withMoments pr (fun _ => none) (scaleMoments t q)) k) (StateHD.new T V N)).1
        (quadrupolePhis (fromRecords (withMoments pr (fun _ => none) (scaleMoments t q)) k) (StateHD.new T V N)).2 V :=
    fun _ => rfl
  simp only [e, quadrupolePhis_scale hm]
  exact pade_fades _ _ V

end fade

/-- Warm dipoles (see C95) may fade away in any manner, not only all at the same rate. -/
theorem C104_warm_dipoles_fade {X : Type} {l : Filter X} {pr : Fin n → PureRecord ℝ} {k : Fin n → Fin n → ℝ}
    {T V : ℝ} {N : Fin n → ℝ} (o : PcSaftOptions ℝ) (la : LinAlg ℝ ℝ) (ha : (fromRecords pr k).nassoc ≤ 1)
    {mu : X → Fin n → Option ℝ} (hmu : ∀ i, Tendsto (fun x => (mu x i).getD 0) l (𝓝 0))
    (hw : ∀ x, WarmDipoles (fromRecords (withMoments pr (mu x) fun _ => none) k) T V N)
    (hm : ∀ i, 0 ≤ (pr i).model_record.m) :
    ∃ (A : X → ℝ) (A0 : ℝ),
      (∀ x, (Eos.withOptions (fromRecords (withMoments pr (mu x) fun _ => none) k) o).residualHelmholtz la
        (StateHD.new T V N) = .ok (A x))
      ∧ (Eos.withOptions (fromRecords (withMoments pr (fun _ => none) fun _ => none) k) o).residualHelmholtz la
        (StateHD.new T V N) = .ok A0
      ∧ Tendsto A l (𝓝 A0) := by
  refine ⟨_, _, fun x => residual_of_nassoc_le_one la _ o _ ha, residual_of_nassoc_le_one la _ o _ ha, ?_⟩
  unfold residualSum
  have hnone : ∀ mu : Fin n → Option ℝ, (fromRecords (withMoments pr mu fun _ => none) k).nquadpole = 0 := fun mu =>
    moments_none.2 fun _ => rfl
  have hd : (fromRecords (withMoments pr (fun _ => none) fun _ => none) k).ndipole = 0 := moments_none.1 fun _ => rfl
  simp only [quadrupole_eq_zero (hnone _), dipoleQuadrupole_eq_zero (Or.inr (hnone _)), dipole_eq_zero hd]
  refine Tendsto.add (Tendsto.add (Tendsto.add (Tendsto.add tendsto_const_nhds ?_) tendsto_const_nhds)
    tendsto_const_nhds) tendsto_const_nhds
  have e : ∀ x, dipole (fromRecords (withMoments pr (mu x) fun _ => none) k) (StateHD.new T V N)
      = padeVolume (dipolePhis (fromRecords (withMoments pr (mu x) fun _ => none) k) (StateHD.new T V N)).1
        (dipolePhis (fromRecords (withMoments pr (mu x) fun _ => none) k) (StateHD.new T V N)).2 V :=
    fun _ => rfl
  have h2 := (dipolePhis_tendsto (pr := pr) (k := k) (q := fun _ _ => none) (q0 := fun _ => none)
    (mu0 := fun _ => none) hm hmu (StateHD.new T V N)).1
  have z2 : dipolePhis (fromRecords (withMoments pr (fun _ => none) fun _ => none) k) (StateHD.new T V N) = (0, 0) :=
    dipolePhis_absent _ fun i hi => by
      rw [List.length_eq_zero_iff.1 hd] at hi
      simp at hi
  rw [z2] at h2
  rw [tendsto_zero_iff_abs_tendsto_zero]
  refine squeeze_zero (fun _ => abs_nonneg _) (g := fun x =>
    |(dipolePhis (fromRecords (withMoments pr (mu x) fun _ => none) k) (StateHD.new T V N)).1| * |V|) (fun x => ?_) ?_
  · obtain ⟨g2, g3, -⟩ := (hw x).phis
    show |dipole _ _| ≤ _
    rw [e, padeVolume_real, abs_mul]
    refine mul_le_mul_of_nonneg_right ?_ (abs_nonneg V)
    generalize (dipolePhis (fromRecords (withMoments pr (mu x) fun _ => none) k) (StateHD.new T V N)).1 = a at g2 ⊢
    generalize (dipolePhis (fromRecords (withMoments pr (mu x) fun _ => none) k) (StateHD.new T V N)).2 = b at g3 ⊢
    rcases eq_or_lt_of_le g2 with rfl | g2
    · simp
    · rw [abs_div, abs_mul, div_le_iff₀ (abs_pos.2 (by linarith))]
      refine mul_le_mul_of_nonneg_left ?_ (abs_nonneg a)
      rw [abs_of_neg g2, abs_of_neg (by linarith)]
      linarith
  · simpa using (tendsto_zero_iff_abs_tendsto_zero _).1 h2 |>.mul_const |V|

/-! Association volumes that fade away -/

theorem assocSingle_tendsto (M na nb : ℝ) : Tendsto (fun d : ℝ => assocSingle d M na nb) (𝓝 0) (𝓝 0) := by
  have hs : (0 : ℝ) < Real.sqrt f64EPSILON := Real.sqrt_pos.2 (by unfold f64EPSILON; norm_num)
  have hlt : ∀ᶠ d in 𝓝 (0 : ℝ), F64.lt (F64.sqrt f64EPSILON : ℝ) (DualNum.re d) = false := by
    filter_upwards [gt_mem_nhds hs] with d hd
    simp only [re_real, lt_real, decide_eq_false_iff_not, not_lt]
    exact hd.le
  have hx : Tendsto (fun d : ℝ => 1.0 + d * nb * (d * (nb + na) - 1.0)) (𝓝 0) (𝓝 1) := by
    have : Continuous fun d : ℝ => 1.0 + d * nb * (d * (nb + na) - 1.0) := by fun_prop
    have h := this.tendsto 0
    norm_num at h ⊢
    exact h
  have hy : Tendsto (fun d : ℝ => 1.0 + d * na * (d * na * 2.0 - 1.0)) (𝓝 0) (𝓝 1) := by
    have : Continuous fun d : ℝ => 1.0 + d * na * (d * na * 2.0 - 1.0) := by fun_prop
    have h := this.tendsto 0
    norm_num at h ⊢
    exact h
  have hF : Tendsto (fun x : ℝ => assocF x) (𝓝 1) (𝓝 0) := by
    have : ContinuousAt (fun x : ℝ => Real.log x - x * 0.5 + 0.5) 1 := by
      refine ContinuousAt.add (ContinuousAt.sub ?_ (by fun_prop)) continuousAt_const
      exact Real.continuousAt_log one_ne_zero
    have h := this.tendsto
    norm_num at h
    unfold assocF
    norm_num
    simpa using h
  by_cases hnb : 0 < nb
  · simp only [assocSingle_ab hnb]
    have hxa : Tendsto (fun d : ℝ => assocSiteFracAB d na nb) (𝓝 0) (𝓝 1) := by
      refine hx.congr' ?_
      filter_upwards [hlt] with d hd
      unfold assocSiteFracAB
      rw [hd]
      rfl
    have hxb : Tendsto (fun d : ℝ => (assocSiteFracAB d na nb - 1) * (na / nb) + 1) (𝓝 0) (𝓝 1) := by
      simpa using ((hxa.sub_const 1).mul_const (na / nb)).add_const 1
    simpa using (((hF.comp hxa).const_mul na).add ((hF.comp hxb).const_mul nb)).const_mul M
  · simp only [assocSingle_a (not_lt.1 hnb)]
    have hxa : Tendsto (fun d : ℝ => assocSiteFracA d na) (𝓝 0) (𝓝 1) := by
      refine hy.congr' ?_
      filter_upwards [hlt] with d hd
      unfold assocSiteFracA
      rw [hd]
      rfl
    simpa using ((hF.comp hxa).const_mul na).const_mul M

/-- The association volume of the only associating component fades away: the energy approaches the energy of the
fluid that does not associate. -/
theorem C104_association_fades {X : Type} {l : Filter X} {pr : Fin n → PureRecord ℝ} {k : Fin n → Fin n → ℝ}
    {T V : ℝ} {N : Fin n → ℝ} (o : PcSaftOptions ℝ) (la : LinAlg ℝ ℝ) {kappa : X → Fin n → Option ℝ} {a : Fin n}
    (hother : ∀ x i, i ≠ a → (kappa x i).getD 0 = 0) (hk : Tendsto (fun x => (kappa x a).getD 0) l (𝓝 0)) :
    ∃ (A : X → ℝ) (A0 : ℝ),
      (∀ x, (Eos.withOptions (fromRecords (withVolumes pr (kappa x)) k) o).residualHelmholtz la
        (StateHD.new T V N) = .ok (A x))
      ∧ (Eos.withOptions (fromRecords (withVolumes pr fun _ => none) k) o).residualHelmholtz la
        (StateHD.new T V N) = .ok A0
      ∧ Tendsto A l (𝓝 A0) := by
  have h0 : (0.0 : ℝ) = 0 := by norm_num
  have hk' : ∀ x i, (fromRecords (withVolumes pr (kappa x)) k).kappa_ab i = (kappa x i).getD 0 := fun x i => by
    rw [← h0]
    rfl
  have hlist : ∀ x, (fromRecords (withVolumes pr (kappa x)) k).assoc_comp
      = if (kappa x a).getD 0 = 0 then [] else [a] := by
    intro x
    have hmem : ∀ i, i ∈ (fromRecords (withVolumes pr (kappa x)) k).assoc_comp ↔ (kappa x i).getD 0 ≠ 0 := fun i => by
      rw [mem_assoc_iff, hk']
    have hnd : (fromRecords (withVolumes pr (kappa x)) k).assoc_comp.Nodup := (nonzeroComp_sorted _).nodup
    split_ifs with hz
    · refine List.eq_nil_iff_forall_not_mem.2 fun i hi => (hmem i).1 hi ?_
      by_cases hi : i = a
      · rw [hi, hz]
      · exact hother x i hi
    · have hsub : ∀ i ∈ (fromRecords (withVolumes pr (kappa x)) k).assoc_comp, i = a := fun i hi => by
        by_contra hne
        exact (hmem i).1 hi (hother x i hne)
      have ha : a ∈ (fromRecords (withVolumes pr (kappa x)) k).assoc_comp := (hmem a).2 hz
      generalize (fromRecords (withVolumes pr (kappa x)) k).assoc_comp = L at hnd hsub ha
      match L, hnd, hsub, ha with
      | [b], _, hsub, _ => rw [hsub b (by simp)]
      | b :: c :: L, hnd, hsub, _ =>
        have e1 := hsub b (by simp)
        have e2 := hsub c (by simp)
        simp [e1, e2] at hnd
  have hn : ∀ x, (fromRecords (withVolumes pr (kappa x)) k).nassoc ≤ 1 := fun x => by
    rw [PcSaftParameters.nassoc, hlist]
    split_ifs <;> simp
  have hnil : (fromRecords (withVolumes pr fun _ => none) k).assoc_comp = [] := by
    refine List.eq_nil_iff_forall_not_mem.2 fun i hi => (mem_assoc_iff _ _ _).1 hi ?_
    exact h0
  have hn0 : (fromRecords (withVolumes pr fun _ => none) k).nassoc ≤ 1 := by
    rw [PcSaftParameters.nassoc, hnil]
    simp
  refine ⟨_, _, fun x => residual_of_nassoc_le_one la _ o _ (hn x), residual_of_nassoc_le_one la _ o _ hn0, ?_⟩
  unfold residualSum
  refine Tendsto.add tendsto_const_nhds ?_
  have e0 : assocEnergy (fromRecords (withVolumes pr fun _ => none) k) (StateHD.new T V N) = 0 := by
    unfold assocEnergy
    rw [hnil]
  rw [e0]
  obtain ⟨G, hG⟩ : ∃ G : ℝ, ∀ x, assocEnergy (fromRecords (withVolumes pr (kappa x)) k) (StateHD.new T V N)
      = assocSingle (G * |(kappa x a).getD 0|) (N a) ((fromRecords pr k).na a) ((fromRecords pr k).nb a) := by
    have hx : ∀ P e kap pre sig rho : ℝ, pre * sig * (kap * P) * e * rho = pre * sig * P * e * rho * kap := by
      intros
      ring
    refine ⟨stateStrength { fromRecords pr k with
        kappa_aibj := fun _ _ => F64.powf (2.0 * F64.sqrt ((pr a).model_record.sigma * (pr a).model_record.sigma)
            / ((pr a).model_record.sigma + (pr a).model_record.sigma)) 3.0
        epsilon_k_aibj := fun _ _ => 0.5 * ((fromRecords pr k).epsilon_k_ab a + (fromRecords pr k).epsilon_k_ab a) }
      (StateHD.new T V N) a a * (N a / V), fun x => ?_⟩
    unfold assocEnergy
    by_cases hz : (kappa x a).getD 0 = 0
    · rw [hz, abs_zero, mul_zero, assocSingle_zero_strength, hlist x, if_pos hz]
    · have hl : (fromRecords (withVolumes pr (kappa x)) k).assoc_comp = [a] := by rw [hlist x, if_neg hz]
      have hm : a ∈ (fromRecords (withVolumes pr (kappa x)) k).assoc_comp
          ∧ a ∈ (fromRecords (withVolumes pr (kappa x)) k).assoc_comp := by rw [hl]; simp
      have e1 : (fromRecords (withVolumes pr (kappa x)) k).kappa_aibj a a
          = |(kappa x a).getD 0| * F64.powf (2.0 * F64.sqrt ((pr a).model_record.sigma * (pr a).model_record.sigma)
            / ((pr a).model_record.sigma + (pr a).model_record.sigma)) 3.0 := by
        have e : (fromRecords (withVolumes pr (kappa x)) k).kappa_aibj a a = _ := if_pos hm
        rw [e]
        have hs : F64.sqrt ((fromRecords (withVolumes pr (kappa x)) k).kappa_ab a
            * (fromRecords (withVolumes pr (kappa x)) k).kappa_ab a) = |(kappa x a).getD 0| := by
          rw [hk', sqrt_real, Real.sqrt_mul_self_eq_abs]
        exact congrArg (· * _) hs
      have e2 : (fromRecords (withVolumes pr (kappa x)) k).epsilon_k_aibj a a
          = 0.5 * ((fromRecords pr k).epsilon_k_ab a + (fromRecords pr k).epsilon_k_ab a) := if_pos hm
      rw [hl]
      simp only [stateStrength, associationStrength, c, ofF_real, e1, e2]
      rw [hx]
      rfl
  simp only [hG]
  refine (assocSingle_tendsto _ _ _).comp ?_
  simpa using ((tendsto_zero_iff_abs_tendsto_zero _).1 hk).const_mul G

/-! ## Non-vacuity -/

/-- the quadrupole moment of one component fades away, the other one stays -/
example (o : PcSaftOptions ℝ) (la : LinAlg ℝ ℝ) :
    ∃ (A : ℝ → ℝ) (A0 : ℝ),
      (∀ x, (Eos.withOptions (fromRecords (withMoments quadrupoleMixture (fun _ => none)
        (fun i => if i = 0 then some x else some 1)) 0) o).residualHelmholtz la (StateHD.new 300 1000 fun _ => 1)
          = .ok (A x))
      ∧ (Eos.withOptions (fromRecords quadrupoleMixture 0) o).residualHelmholtz la (StateHD.new 300 1000 fun _ => 1)
          = .ok A0
      ∧ Tendsto A (𝓝 0) (𝓝 A0) := by
  have e : withMoments quadrupoleMixture (fun _ => none) (fun i => if i = 0 then none else some 1) = quadrupoleMixture := by
    funext i
    fin_cases i <;> rfl
  have hr : Regular (fromRecords (withMoments quadrupoleMixture (fun _ => none)
      (fun i => if i = 0 then none else some 1)) 0) 300 1000 (fun _ => 1) .quadrupole := by
    rw [e]
    exact (quadrupoleMixture_warm.phis one_pos).2.ne
  have hm : ∀ i, 0 ≤ (quadrupoleMixture i).model_record.m := by
    intro i
    fin_cases i <;> norm_num [quadrupoleMixture, pureOf, plainRecord]
  have hn : (fromRecords quadrupoleMixture 0).nassoc ≤ 1 := by
    have : (fromRecords quadrupoleMixture 0).assoc_comp = [] :=
      List.eq_nil_iff_forall_not_mem.2 fun i hi => (mem_assoc_iff _ _ _).1 hi (by
        fin_cases i <;> norm_num [fromRecords, quadrupoleMixture, pureOf, plainRecord])
    rw [PcSaftParameters.nassoc, this]
    simp
  have h := C104_moments_converge (l := 𝓝 0) (k := 0) (mu := fun _ _ => none) (mu0 := fun _ => none)
    (q := fun (x : ℝ) i => if i = 0 then some x else some 1) (q0 := fun i => if i = 0 then none else some 1)
    (T := 300) (V := 1000) (N := fun _ => 1) o la hm hn (fun _ => tendsto_const_nhds) (fun i => ?_) (Or.inr fun _ _ => rfl)
    (Or.inl hr) (Or.inr (Or.inl fun _ _ => rfl))
  · rwa [e] at h
  · fin_cases i
    · exact tendsto_id
    · simp

/-- the dipole moment of a dipolar gas fades away -/
example (o : PcSaftOptions ℝ) (la : LinAlg ℝ ℝ) := C104_dipoles_fade (pr := coldDipole 3 (600 : ℝ) 2) (k := 0)
  (T := 600) (V := 1000) (N := fun _ => 1) o la (fun i => by norm_num [coldDipole])
  (by norm_num [PcSaftParameters.nassoc, fromRecords, coldDipole, nonzeroComp]) fun _ => some 2

/-- the quadrupole moment of a component fades away -/
example (o : PcSaftOptions ℝ) (la : LinAlg ℝ ℝ) := C104_quadrupoles_fade (pr := coldDipole 3 (600 : ℝ) 2) (k := 0)
  (T := 600) (V := 1000) (N := fun _ => 1) o la (fun i => by norm_num [coldDipole])
  (by norm_num [PcSaftParameters.nassoc, fromRecords, coldDipole, nonzeroComp]) fun _ => some 4

/-- a warm dipole fades away -/
example (o : PcSaftOptions ℝ) (la : LinAlg ℝ ℝ) : ∃ V, ∃ (A : ℝ → ℝ) (A0 : ℝ),
      (∀ x, (Eos.withOptions (fromRecords (withMoments (coldDipole 3 (600 : ℝ) 2) (fun _ => some x) fun _ => none) 0)
        o).residualHelmholtz la (StateHD.new 600 V fun _ => 1) = .ok (A x))
      ∧ (Eos.withOptions (fromRecords (withMoments (coldDipole 3 (600 : ℝ) 2) (fun _ => none) fun _ => none) 0)
        o).residualHelmholtz la (StateHD.new 600 V fun _ => 1) = .ok A0
      ∧ Tendsto A (𝓝 0) (𝓝 A0) := by
  obtain ⟨V, h⟩ := warmDipole_example
  refine ⟨V, C104_warm_dipoles_fade o la (by norm_num [PcSaftParameters.nassoc, fromRecords, coldDipole, nonzeroComp])
    (fun _ => tendsto_id) (fun x => ?_) fun i => by norm_num [coldDipole]⟩
  have ha := h.admissible
  refine ⟨⟨ha.temperature, ha.volume, ha.m_pos, ha.sigma_pos, ha.epsilon_nonneg, ha.moles_nonneg, ha.moles_ne_zero, ha.packing⟩,
    h.packing, fun i _ => ?_, fun i _ => ?_, fun i _ => ?_⟩
  · norm_num [fromRecords, withMoments, coldDipole]
  · norm_num [fromRecords, withMoments, coldDipole]
  · norm_num [fromRecords, withMoments, coldDipole]

/-- the association volume of the associating component of a mixture fades away -/
example (o : PcSaftOptions ℝ) (la : LinAlg ℝ ℝ) := C104_association_fades (l := 𝓝 0) (pr := assocRecords)
  (k := fun _ _ => 0) (T := 300) (V := 1000) (N := fun _ => 1) o la (a := 0)
  (kappa := fun (x : ℝ) i => if i = 0 then some x else none)
  (fun x i hi => by simp [hi]) tendsto_id

end PcSaft.Props
