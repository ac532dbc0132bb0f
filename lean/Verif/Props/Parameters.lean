import Verif.Lemmas.Segments
import Mathlib.Tactic.Positivity
import Mathlib.Tactic.Linarith
import Mathlib.Tactic.FieldSimp
import Mathlib.Data.List.FinRange

/-!
# Properties C01–C04, C09 (parameter sets built from records) and C05–C08 (group contribution)
-/

namespace PcSaft.Props
open PcSaft

/-- a record with only the mandatory fields, used in the examples -/
def plainRecord (m sigma epsilon_k : ℝ) : PcSaftRecord ℝ :=
  ⟨m, sigma, epsilon_k, none, none, none, none, none, none, none, none, none⟩

/-- a pure record around a model record, used in the examples -/
noncomputable def pureOf (r : PcSaftRecord ℝ) : PureRecord ℝ :=
  ⟨⟨none, ""⟩, 44.0, r, none⟩

/-! ## C01 -/

/-- C01: component `i` of the parameter set carries the data of record `i`; missing optional fields
get their defaults. -/
theorem C01_records_reach_components {n : ℕ} (pr : Fin n → PureRecord ℝ) (k : Fin n → Fin n → ℝ)
    (i : Fin n) :
    let p := fromRecords pr k
    let r := (pr i).model_record
    (p.molarweight i = (pr i).molarweight ∧ p.m i = r.m ∧ p.sigma i = r.sigma
      ∧ p.epsilon_k i = r.epsilon_k)
    ∧ ((r.mu = none → p.mu i = 0) ∧ ∀ v, r.mu = some v → p.mu i = v)
    ∧ ((r.q = none → p.q i = 0) ∧ ∀ v, r.q = some v → p.q i = v)
    ∧ ((r.kappa_ab = none → p.kappa_ab i = 0) ∧ ∀ v, r.kappa_ab = some v → p.kappa_ab i = v)
    ∧ ((r.epsilon_k_ab = none → p.epsilon_k_ab i = 0)
      ∧ ∀ v, r.epsilon_k_ab = some v → p.epsilon_k_ab i = v)
    ∧ ((r.na = none → p.na i = 1) ∧ ∀ v, r.na = some v → p.na i = v)
    ∧ ((r.nb = none → p.nb i = 1) ∧ ∀ v, r.nb = some v → p.nb i = v)
    ∧ (∀ j, p.k_ij i j = k i j) ∧ p.pure_records i = pr i ∧ ∀ j, p.binary_records i j = k i j := by
  intro p r
  refine ⟨⟨rfl, rfl, rfl, rfl⟩, ?_, ?_, ?_, ?_, ?_, ?_, fun _ => rfl, rfl, fun _ => rfl⟩ <;>
  · refine ⟨fun h => ?_, fun v h => ?_⟩ <;>
    · simp only [p, r, fromRecords] at h ⊢
      rw [h]
      norm_num

/-- The dimensionless dipole and quadrupole moments are non-negative for positive m, sigma, epsilon_k
and vanish exactly if the moment does. -/
theorem C01_reduced_moments {n : ℕ} (pr : Fin n → PureRecord ℝ) (k : Fin n → Fin n → ℝ) (i : Fin n)
    (hm : 0 < (pr i).model_record.m) (hs : 0 < (pr i).model_record.sigma)
    (he : 0 < (pr i).model_record.epsilon_k) :
    let p := fromRecords pr k
    0 ≤ p.mu2 i ∧ (p.mu2 i = 0 ↔ p.mu i = 0) ∧ 0 ≤ p.q2 i ∧ (p.q2 i = 0 ↔ p.q i = 0)
    ∧ p.mu2 i * (p.m i * p.sigma i ^ 3 * p.epsilon_k i) = p.mu i ^ 2 * (1e-19 / 1.380649e-23)
    ∧ p.q2 i * (p.m i * p.sigma i ^ 5 * p.epsilon_k i) = p.q i ^ 2 * (1e-19 / 1.380649e-23) := by
  intro p
  have e1 : p.mu2 i = p.mu i ^ 2 / (p.m i * p.sigma i ^ 3 * p.epsilon_k i)
      * (1e-19 / 1.380649e-23) := by
    have : p.mu2 i = p.mu i * p.mu i / (p.m i * p.sigma i * p.sigma i * p.sigma i * p.epsilon_k i)
      * 1e-19 * (1.0 / 1.380649e-23) := rfl
    rw [this]
    norm_num
    ring
  have e2 : p.q2 i = p.q i ^ 2 / (p.m i * p.sigma i ^ 5 * p.epsilon_k i)
      * (1e-19 / 1.380649e-23) := by
    have : p.q2 i = p.q i * p.q i / (p.m i * p.sigma i ^ 5 * p.epsilon_k i)
      * 1e-19 * (1.0 / 1.380649e-23) := rfl
    rw [this]
    norm_num
    ring
  have hm' : 0 < p.m i := hm
  have hs' : 0 < p.sigma i := hs
  have he' : 0 < p.epsilon_k i := he
  rw [e1, e2]
  refine ⟨by positivity, ?_, by positivity, ?_, ?_, ?_⟩
  · constructor
    · intro h
      have : (1e-19 / 1.380649e-23 : ℝ) ≠ 0 := by norm_num
      have h2 := (mul_eq_zero.mp h).resolve_right this
      have h3 := (div_eq_zero_iff.mp h2).resolve_right (by positivity)
      simpa using h3
    · intro h; simp [h]
  · constructor
    · intro h
      have : (1e-19 / 1.380649e-23 : ℝ) ≠ 0 := by norm_num
      have h2 := (mul_eq_zero.mp h).resolve_right this
      have h3 := (div_eq_zero_iff.mp h2).resolve_right (by positivity)
      simpa using h3
    · intro h; simp [h]
  · field_simp
  · field_simp

/-- C01 on a concrete pair of records with different patterns of optional fields. -/
example :
    let p := fromRecords (n := 2) (fun i => pureOf (if i = 0 then plainRecord 2 3.6 208
      else { plainRecord 1 3 300 with mu := some 1.8, na := some 2 })) (fun _ _ => 0)
    p.mu 0 = 0 ∧ p.mu 1 = 1.8 ∧ p.na 0 = 1 ∧ p.na 1 = 2 ∧ p.nb 1 = 1 := by
  norm_num [fromRecords, pureOf, plainRecord]

/-! ## C02 -/

section combining
variable {n : ℕ} (pr : Fin n → PureRecord ℝ) (k : Fin n → Fin n → ℝ)

/-- C02: arithmetic and geometric means, symmetry, diagonal. -/
theorem C02_combining_rules (he : ∀ i, 0 < (pr i).model_record.epsilon_k) (i j : Fin n) :
    let p := fromRecords pr k
    2 * p.sigma_ij i j = p.sigma i + p.sigma j
    ∧ p.e_k_ij i j ^ 2 = p.epsilon_k i * p.epsilon_k j ∧ 0 < p.e_k_ij i j
    ∧ p.epsilon_k_ij i j = (1 - k i j) * p.e_k_ij i j
    ∧ p.sigma_ij i j = p.sigma_ij j i ∧ p.e_k_ij i j = p.e_k_ij j i
    ∧ (k i j = k j i → p.epsilon_k_ij i j = p.epsilon_k_ij j i)
    ∧ p.sigma_ij i i = p.sigma i ∧ p.e_k_ij i i = p.epsilon_k i
    ∧ (k i i = 0 → p.epsilon_k_ij i i = p.epsilon_k i) := by
  intro p
  have hi := he i
  have hj := he j
  have hei : p.e_k_ij i i = p.epsilon_k i := by
    simp only [p, fromRecords, sqrt_real]
    exact Real.sqrt_mul_self hi.le
  refine ⟨?_, ?_, ?_, ?_, ?_, ?_, ?_, ?_, hei, ?_⟩
  · simp only [p, fromRecords]; ring_nf
  · simp only [p, fromRecords, sqrt_real]
    exact Real.sq_sqrt (by positivity)
  · simp only [p, fromRecords, sqrt_real]
    exact Real.sqrt_pos.mpr (by positivity)
  · simp only [p, fromRecords]; norm_num
  · simp only [p, fromRecords]; ring_nf
  · simp only [p, fromRecords]; rw [mul_comm]
  · intro h
    simp only [p, fromRecords] at h ⊢
    rw [h, mul_comm (pr i).model_record.epsilon_k]
  · simp only [p, fromRecords]; ring_nf
  · intro h
    have : p.epsilon_k_ij i i = (1.0 - k i i) * p.e_k_ij i i := rfl
    rw [this, hei, h]; norm_num

theorem mem_assoc_comp (i : Fin n) :
    i ∈ (fromRecords pr k).assoc_comp ↔ (fromRecords pr k).kappa_ab i ≠ 0 := by
  have h0 : (0.0 : ℝ) = 0 := by norm_num
  simp [fromRecords, nonzeroComp, h0]

theorem ratio_le_one {a b : ℝ} (ha : 0 < a) (hb : 0 < b) :
    0 < 2 * Real.sqrt (a * b) / (a + b) ∧ 2 * Real.sqrt (a * b) / (a + b) ≤ 1 := by
  have hp : 0 < Real.sqrt (a * b) := Real.sqrt_pos.mpr (by positivity)
  refine ⟨by positivity, ?_⟩
  rw [div_le_one (by positivity)]
  have h1 := Real.sq_sqrt (show 0 ≤ a * b by positivity)
  nlinarith [sq_nonneg (a - b)]

/-- C02: combining rules of the association parameters. -/
theorem C02_association_combining_rules (hs : ∀ i, 0 < (pr i).model_record.sigma)
    (hk : ∀ i, 0 ≤ (fromRecords pr k).kappa_ab i) (i j : Fin n) :
    let p := fromRecords pr k
    p.kappa_aibj i j = p.kappa_aibj j i ∧ p.epsilon_k_aibj i j = p.epsilon_k_aibj j i
    ∧ p.kappa_aibj i i = p.kappa_ab i
    ∧ (p.kappa_ab i ≠ 0 → p.epsilon_k_aibj i i = p.epsilon_k_ab i)
    ∧ (p.kappa_ab i = 0 → p.kappa_aibj i j = 0 ∧ p.epsilon_k_aibj i j = 0)
    ∧ (p.kappa_ab i ≠ 0 → p.kappa_ab j ≠ 0 →
        p.epsilon_k_aibj i j = (p.epsilon_k_ab i + p.epsilon_k_ab j) / 2 ∧ 0 < p.kappa_aibj i j)
    ∧ 0 ≤ p.kappa_aibj i j ∧ p.kappa_aibj i j ≤ Real.sqrt (p.kappa_ab i * p.kappa_ab j) := by
  intro p
  have mem : ∀ i, i ∈ p.assoc_comp ↔ p.kappa_ab i ≠ 0 := mem_assoc_comp pr k
  have e1 : ∀ i j, p.kappa_aibj i j = if p.kappa_ab i ≠ 0 ∧ p.kappa_ab j ≠ 0 then
      Real.sqrt (p.kappa_ab i * p.kappa_ab j)
        * (2 * Real.sqrt (p.sigma i * p.sigma j) / (p.sigma i + p.sigma j)) ^ (3 : ℝ) else 0 := by
    intro i j
    have : p.kappa_aibj i j = if i ∈ p.assoc_comp ∧ j ∈ p.assoc_comp then
      Real.sqrt (p.kappa_ab i * p.kappa_ab j)
        * (2.0 * Real.sqrt (p.sigma i * p.sigma j) / (p.sigma i + p.sigma j)) ^ (3.0 : ℝ)
        else 0.0 := rfl
    rw [this]
    simp only [mem]
    norm_num
  have e2 : ∀ i j, p.epsilon_k_aibj i j = if p.kappa_ab i ≠ 0 ∧ p.kappa_ab j ≠ 0 then
      (p.epsilon_k_ab i + p.epsilon_k_ab j) / 2 else 0 := by
    intro i j
    have : p.epsilon_k_aibj i j = if i ∈ p.assoc_comp ∧ j ∈ p.assoc_comp then
      0.5 * (p.epsilon_k_ab i + p.epsilon_k_ab j) else 0.0 := rfl
    rw [this]
    simp only [mem]
    split_ifs
    · norm_num
      ring
    · norm_num
  have hsp : ∀ i, 0 < p.sigma i := hs
  have hkp : ∀ i, 0 ≤ p.kappa_ab i := hk
  have hnn : 0 ≤ p.kappa_aibj i j := by
    rw [e1]
    split_ifs
    · have := ratio_le_one (hsp i) (hsp j)
      exact mul_nonneg (Real.sqrt_nonneg _) (Real.rpow_nonneg this.1.le _)
    · exact le_rfl
  refine ⟨?_, ?_, ?_, ?_, ?_, ?_, hnn, ?_⟩
  · rw [e1, e1, mul_comm (p.kappa_ab i), mul_comm (p.sigma i), add_comm (p.sigma i)]
    simp only [and_comm]
  · rw [e2, e2, add_comm (p.epsilon_k_ab i)]
    simp only [and_comm]
  · rw [e1]
    by_cases h : p.kappa_ab i = 0
    · simp [h]
    · have hs0 := hsp i
      rw [if_pos ⟨h, h⟩, Real.sqrt_mul_self (hkp i), Real.sqrt_mul_self hs0.le]
      have : 2 * p.sigma i / (p.sigma i + p.sigma i) = 1 := by field_simp; ring
      rw [this, Real.one_rpow, mul_one]
  · intro h
    rw [e2, if_pos ⟨h, h⟩]; ring
  · intro h
    rw [e1, e2]
    simp [h]
  · intro h1 h2
    have hpos : 0 < p.kappa_aibj i j := by
      rw [e1, if_pos ⟨h1, h2⟩]
      have := ratio_le_one (hsp i) (hsp j)
      have a1 := lt_of_le_of_ne (hkp i) (Ne.symm h1)
      have a2 := lt_of_le_of_ne (hkp j) (Ne.symm h2)
      exact mul_pos (Real.sqrt_pos.mpr (mul_pos a1 a2)) (Real.rpow_pos_of_pos this.1 _)
    refine ⟨?_, hpos⟩
    rw [e2, if_pos ⟨h1, h2⟩]
  · rw [e1]
    split_ifs
    · have := ratio_le_one (hsp i) (hsp j)
      have h3 := Real.rpow_le_one this.1.le this.2 (show (0 : ℝ) ≤ 3 by norm_num)
      calc _ ≤ Real.sqrt (p.kappa_ab i * p.kappa_ab j) * 1 :=
            mul_le_mul_of_nonneg_left h3 (Real.sqrt_nonneg _)
        _ = _ := mul_one _
    · exact Real.sqrt_nonneg _
end combining

/-- the hypotheses of C02 are met by a mixture of an associating and a non-associating component -/
example : ∃ (pr : Fin 2 → PureRecord ℝ),
    (∀ i, 0 < (pr i).model_record.sigma) ∧ (∀ i, 0 < (pr i).model_record.epsilon_k)
    ∧ (∀ i, 0 ≤ (fromRecords pr (fun _ _ => 0)).kappa_ab i)
    ∧ (fromRecords pr (fun _ _ => 0)).kappa_ab 0 ≠ 0 := by
  refine ⟨fun i => pureOf (if i = 0 then { plainRecord 1 3 300 with kappa_ab := some 0.03 }
    else plainRecord 2 3.6 208), ?_, ?_, ?_, ?_⟩
  · intro i; fin_cases i <;> norm_num [pureOf, plainRecord]
  · intro i; fin_cases i <;> norm_num [pureOf, plainRecord]
  · intro i; fin_cases i <;> norm_num [pureOf, plainRecord, fromRecords]
  · norm_num [pureOf, plainRecord, fromRecords]

/-! ## C03 -/

theorem nonzeroComp_sorted {n : ℕ} (v : Fin n → ℝ) : (nonzeroComp v).SortedLT := by
  unfold nonzeroComp
  exact (List.Pairwise.filter _ (List.pairwise_lt_finRange n)).sortedLT

theorem mem_nonzeroComp {n : ℕ} (v : Fin n → ℝ) (i : Fin n) : i ∈ nonzeroComp v ↔ v i ≠ 0 := by
  have h0 : (0.0 : ℝ) = 0 := by norm_num
  simp [nonzeroComp, h0]

/-- C03: the component lists contain exactly the dipolar, quadrupolar and associating components, in
strictly increasing order, and `ndipole`, `nquadpole`, `nassoc` count them. -/
theorem C03_component_lists {n : ℕ} (pr : Fin n → PureRecord ℝ) (k : Fin n → Fin n → ℝ)
    (hm : ∀ i, (pr i).model_record.m ≠ 0) (hs : ∀ i, (pr i).model_record.sigma ≠ 0)
    (he : ∀ i, (pr i).model_record.epsilon_k ≠ 0) :
    let p := fromRecords pr k
    (∀ i, i ∈ p.dipole_comp ↔ p.mu i ≠ 0) ∧ (∀ i, i ∈ p.quadpole_comp ↔ p.q i ≠ 0)
    ∧ (∀ i, i ∈ p.assoc_comp ↔ p.kappa_ab i ≠ 0)
    ∧ p.dipole_comp.Pairwise (· < ·) ∧ p.quadpole_comp.Pairwise (· < ·)
    ∧ p.assoc_comp.Pairwise (· < ·)
    ∧ p.ndipole = (Finset.univ.filter (fun i => p.mu i ≠ 0)).card
    ∧ p.nquadpole = (Finset.univ.filter (fun i => p.q i ≠ 0)).card
    ∧ p.nassoc = (Finset.univ.filter (fun i => p.kappa_ab i ≠ 0)).card := by
  intro p
  have h1 : ∀ i, i ∈ p.dipole_comp ↔ p.mu i ≠ 0 := by
    intro i
    show i ∈ nonzeroComp p.mu2 ↔ _
    rw [mem_nonzeroComp]
    have : p.mu2 i = p.mu i * p.mu i / (p.m i * p.sigma i * p.sigma i * p.sigma i * p.epsilon_k i)
      * 1e-19 * (1.0 / 1.380649e-23) := rfl
    rw [this]
    have a : p.m i ≠ 0 := hm i
    have b : p.sigma i ≠ 0 := hs i
    have d : p.epsilon_k i ≠ 0 := he i
    simp [a, b, d]
    norm_num
  have h2 : ∀ i, i ∈ p.quadpole_comp ↔ p.q i ≠ 0 := by
    intro i
    show i ∈ nonzeroComp p.q2 ↔ _
    rw [mem_nonzeroComp]
    have : p.q2 i = p.q i * p.q i / (p.m i * p.sigma i ^ 5 * p.epsilon_k i)
      * 1e-19 * (1.0 / 1.380649e-23) := rfl
    rw [this]
    have a : p.m i ≠ 0 := hm i
    have b : p.sigma i ≠ 0 := hs i
    have d : p.epsilon_k i ≠ 0 := he i
    simp [a, b, d]
    norm_num
  have h3 : ∀ i, i ∈ p.assoc_comp ↔ p.kappa_ab i ≠ 0 := mem_assoc_comp pr k
  have s1 : p.dipole_comp.Pairwise (· < ·) := (nonzeroComp_sorted _).pairwise
  have s2 : p.quadpole_comp.Pairwise (· < ·) := (nonzeroComp_sorted _).pairwise
  have s3 : p.assoc_comp.Pairwise (· < ·) := (nonzeroComp_sorted _).pairwise
  have card : ∀ (l : List (Fin n)) (P : Fin n → Prop) [DecidablePred P], l.Pairwise (· < ·) →
      (∀ i, i ∈ l ↔ P i) → l.length = (Finset.univ.filter P).card := by
    intro l P _ hl hP
    have nd : l.Nodup := hl.imp (fun h => h.ne)
    rw [← List.toFinset_card_of_nodup nd]
    congr 1
    ext i
    simp [hP]
  exact ⟨h1, h2, h3, s1, s2, s3, card _ _ s1 h1, card _ _ s2 h2, card _ _ s3 h3⟩

/-- C03 on a ternary mixture in which the last two components are dipolar -/
example : ∃ (pr : Fin 3 → PureRecord ℝ),
    (∀ i, (pr i).model_record.m ≠ 0) ∧ (∀ i, (pr i).model_record.sigma ≠ 0)
    ∧ (∀ i, (pr i).model_record.epsilon_k ≠ 0)
    ∧ (fromRecords pr (fun _ _ => 0)).mu 0 = 0 ∧ (fromRecords pr (fun _ _ => 0)).mu 1 ≠ 0
    ∧ (fromRecords pr (fun _ _ => 0)).mu 2 ≠ 0 := by
  refine ⟨fun i => pureOf (if i = 0 then plainRecord 2 3.6 208
    else { plainRecord 1 3 300 with mu := some 1.8 }), ?_, ?_, ?_, ?_, ?_, ?_⟩
  · intro i; fin_cases i <;> norm_num [pureOf, plainRecord]
  · intro i; fin_cases i <;> norm_num [pureOf, plainRecord]
  · intro i; fin_cases i <;> norm_num [pureOf, plainRecord]
  · norm_num [pureOf, plainRecord, fromRecords]
  · norm_num [pureOf, plainRecord, fromRecords]
  · have : (2 : Fin 3) ≠ 0 := by decide
    norm_num [pureOf, plainRecord, fromRecords, this]

/-! ## C04 -/

/-- the fields a contribution may read of component `i`, and of the pair `i, j`, after selecting
components -/
theorem C04_subset {n k l : ℕ} (pr : Fin n → PureRecord ℝ) (kij : Fin n → Fin n → ℝ)
    (sel : Fin k → Fin n) (sel' : Fin l → Fin k) :
    let p := fromRecords pr kij
    p.subset sel = fromRecords (fun i => pr (sel i)) (fun i j => kij (sel i) (sel j))
    ∧ (p.subset sel).subset sel' = p.subset (fun i => sel (sel' i))
    ∧ p.subset (fun i => i) = p
    ∧ (∀ i, (p.subset sel).m i = p.m (sel i) ∧ (p.subset sel).sigma i = p.sigma (sel i)
        ∧ (p.subset sel).epsilon_k i = p.epsilon_k (sel i) ∧ (p.subset sel).mu i = p.mu (sel i)
        ∧ (p.subset sel).q i = p.q (sel i) ∧ (p.subset sel).mu2 i = p.mu2 (sel i)
        ∧ (p.subset sel).q2 i = p.q2 (sel i) ∧ (p.subset sel).kappa_ab i = p.kappa_ab (sel i)
        ∧ (p.subset sel).epsilon_k_ab i = p.epsilon_k_ab (sel i)
        ∧ (p.subset sel).na i = p.na (sel i) ∧ (p.subset sel).nb i = p.nb (sel i)
        ∧ (p.subset sel).molarweight i = p.molarweight (sel i))
    ∧ (∀ i j, (p.subset sel).sigma_ij i j = p.sigma_ij (sel i) (sel j)
        ∧ (p.subset sel).epsilon_k_ij i j = p.epsilon_k_ij (sel i) (sel j)
        ∧ (p.subset sel).e_k_ij i j = p.e_k_ij (sel i) (sel j)
        ∧ (p.subset sel).k_ij i j = p.k_ij (sel i) (sel j)
        ∧ (p.subset sel).kappa_aibj i j = p.kappa_aibj (sel i) (sel j)
        ∧ (p.subset sel).epsilon_k_aibj i j = p.epsilon_k_aibj (sel i) (sel j)) := by
  intro p
  have hm : ∀ i, (i ∈ (p.subset sel).assoc_comp ↔ sel i ∈ p.assoc_comp) := by
    intro i
    show i ∈ (fromRecords _ _).assoc_comp ↔ sel i ∈ (fromRecords _ _).assoc_comp
    rw [mem_assoc_comp, mem_assoc_comp]
    rfl
  refine ⟨rfl, rfl, rfl, fun i => ⟨rfl, rfl, rfl, rfl, rfl, rfl, rfl, rfl, rfl, rfl, rfl, rfl⟩,
    fun i j => ⟨rfl, rfl, rfl, rfl, ?_, ?_⟩⟩
  · have e : ∀ (q : ℕ) (pr : Fin q → PureRecord ℝ) kij a b, (fromRecords pr kij).kappa_aibj a b =
        if a ∈ (fromRecords pr kij).assoc_comp ∧ b ∈ (fromRecords pr kij).assoc_comp then
        F64.sqrt ((fromRecords pr kij).kappa_ab a * (fromRecords pr kij).kappa_ab b)
          * F64.powf (2.0 * F64.sqrt ((fromRecords pr kij).sigma a * (fromRecords pr kij).sigma b)
            / ((fromRecords pr kij).sigma a + (fromRecords pr kij).sigma b)) 3.0 else 0.0 :=
      fun _ _ _ _ _ => rfl
    have h1 := hm i
    have h2 := hm j
    simp only [p, PcSaftParameters.subset] at h1 h2 ⊢
    rw [e, e]
    simp only [h1, h2]
    rfl
  · have e : ∀ (q : ℕ) (pr : Fin q → PureRecord ℝ) kij a b, (fromRecords pr kij).epsilon_k_aibj a b =
        if a ∈ (fromRecords pr kij).assoc_comp ∧ b ∈ (fromRecords pr kij).assoc_comp then
        0.5 * ((fromRecords pr kij).epsilon_k_ab a + (fromRecords pr kij).epsilon_k_ab b) else 0.0 :=
      fun _ _ _ _ _ => rfl
    have h1 := hm i
    have h2 := hm j
    simp only [p, PcSaftParameters.subset] at h1 h2 ⊢
    rw [e, e]
    simp only [h1, h2]
    rfl

/-- C04 on a concrete reordering with repetition -/
example : ((fromRecords (n := 2) (fun i => pureOf (plainRecord (i + 1) 3 300)) (fun _ _ => 0)).subset
    (k := 3) ![1, 0, 1]).m 2 = 2 := by
  show (((1 : Fin 2) : ℕ) : ℝ) + 1 = 2
  norm_num

/-! ## C05 -/

/-- the real cube root used for sigma is a cube root -/
theorem cbrt_pow_three (x : ℝ) : (F64.cbrt x : ℝ) ^ 3 = x := by
  rw [cbrt_real, mul_pow]
  have : (|x| ^ (1 / 3 : ℝ)) ^ 3 = |x| := by
    rw [← Real.rpow_natCast, ← Real.rpow_mul (abs_nonneg x)]
    norm_num
  rw [this]
  rcases lt_trichotomy x 0 with h | h | h
  · simp [h, abs_of_neg h]
    ring
  · simp [h]
  · simp [h, abs_of_pos h]

theorem sum_apply_list {A : Type} {q : ℕ} (f : A → Fin q → ℝ) (l : List A) (k : Fin q) :
    (l.map f).sum k = (l.map fun s => f s k).sum := by
  induction l with
  | nil => rfl
  | cons x xs ih => simp [ih]

/-- C05: combining segments always succeeds; m, m·σ³ and m·ε are additive; the optional parameters
are the sums over the segments that have them, and absent if no segment has one. -/
theorem C05_from_segments_additive (l : List (PcSaftRecord ℝ × ℝ)) :
    ∃ r, fromSegments l = .ok r
    ∧ r.m = (l.map fun s => s.1.m * s.2).sum
    ∧ (r.m ≠ 0 → r.m * r.sigma ^ 3 = (l.map fun s => s.1.m * s.1.sigma ^ 3 * s.2).sum
        ∧ r.m * r.epsilon_k = (l.map fun s => s.1.m * s.1.epsilon_k * s.2).sum)
    ∧ ∀ field ∈ [PcSaftRecord.mu, PcSaftRecord.q, PcSaftRecord.kappa_ab,
        PcSaftRecord.epsilon_k_ab, PcSaftRecord.na, PcSaftRecord.nb],
      (field r = none ↔ ∀ s ∈ l, field s.1 = none)
      ∧ ∀ v, field r = some v → v = (l.map fun s => (field s.1).getD 0 * s.2).sum := by
  refine ⟨segResult l, fromSegments_eq l, segM_eq l, ?_, ?_⟩
  · intro h
    replace h : segM l ≠ 0 := h
    constructor
    · show segM l * (F64.cbrt (segSigma3 l / segM l)) ^ 3 = _
      rw [cbrt_pow_three, mul_div_cancel₀ _ h, segSigma3_eq]
    · show segM l * (segEpsilonK l / segM l) = _
      rw [mul_div_cancel₀ _ h, segEpsilonK_eq]
  · have key : ∀ field : PcSaftRecord ℝ → Option ℝ, field (segResult l) = segOptSum field l →
      (field (segResult l) = none ↔ ∀ s ∈ l, field s.1 = none)
      ∧ ∀ v, field (segResult l) = some v → v = (l.map fun s => (field s.1).getD 0 * s.2).sum := by
      intro field hf
      rw [hf, segOptSum_eq]
      split_ifs with h
      · simp only [List.all_eq_true, Option.isNone_iff_eq_none] at h
        exact ⟨⟨fun _ => h, fun _ => rfl⟩, fun v hv => by simp at hv⟩
      · simp only [List.all_eq_true, Option.isNone_iff_eq_none] at h
        exact ⟨⟨fun h' => by simp at h', fun h' => absurd h' h⟩,
          fun v hv => (Option.some.inj hv).symm⟩
    intro field hfield
    simp only [List.mem_cons, List.not_mem_nil, or_false] at hfield
    rcases hfield with rfl | rfl | rfl | rfl | rfl | rfl <;> exact key _ rfl

/-- C05, transport coefficients: viscosity and thermal conductivity coefficients are present exactly
if every segment has them, and are then the documented sums. -/
theorem C05_from_segments_transport (l : List (PcSaftRecord ℝ × ℝ)) :
    ∃ r, fromSegments l = .ok r
    ∧ (r.viscosity.isSome ↔ ∀ s ∈ l, s.1.viscosity.isSome)
    ∧ (r.thermal_conductivity.isSome ↔ ∀ s ∈ l, s.1.thermal_conductivity.isSome)
    ∧ (∀ v, r.viscosity = some v →
        let s3 := (l.map fun s => s.1.m * s.1.sigma ^ 3 * s.2).sum
        let co := fun (s : PcSaftRecord ℝ × ℝ) k => (s.1.viscosity.getD 0) k
        v 0 = (l.map fun s => s.1.m * s.1.sigma ^ 3 * s.2 * co s 0).sum - Real.log r.m / 2
        ∧ v 1 = (l.map fun s => s.1.m * s.1.sigma ^ 3 * s.2 * co s 1 / s3 ^ (0.45 : ℝ)).sum
        ∧ v 2 = (l.map fun s => s.2 * co s 2).sum ∧ v 3 = (l.map fun s => s.2 * co s 3).sum)
    ∧ (∀ v, r.thermal_conductivity = some v →
        let co := fun (s : PcSaftRecord ℝ × ℝ) k => (s.1.thermal_conductivity.getD 0) k
        v 0 = (l.map fun s => s.2 * co s 0).sum ∧ v 1 = (l.map fun s => s.2 * co s 1).sum
        ∧ v 2 = (l.map fun s => s.2 * co s 2).sum
        ∧ v 3 = (l.map fun s => s.2).sum * (l.map fun s => co s 3).sum)
    ∧ (r.diffusion.isSome ↔ ∀ s ∈ l, s.1.diffusion.isSome) := by
  refine ⟨segResult l, fromSegments_eq l, ?_, ?_, ?_, ?_, ?_⟩
  · simp only [segResult]
    split_ifs with h
    · simpa [List.all_eq_true] using h
    · simpa [List.all_eq_true] using h
  · simp only [segResult]
    split_ifs with h
    · simpa [List.all_eq_true] using h
    · simpa [List.all_eq_true] using h
  · intro v hv s3 co
    simp only [segResult] at hv
    split_ifs at hv with h
    have hv := (Option.some.inj hv).symm
    have sumk : ∀ k, (l.map (viscTerm (segSigma3 l))).sum k
        = (l.map fun s => viscTerm (segSigma3 l) s k).sum := fun k => sum_apply_list (viscTerm (segSigma3 l)) l k
    have t : ∀ s ∈ l, viscTerm (segSigma3 l) s = ![s.1.m * s.1.sigma ^ 3 * s.2 * co s 0,
        s.1.m * s.1.sigma ^ 3 * s.2 * co s 1 / s3 ^ (0.45 : ℝ), s.2 * co s 2, s.2 * co s 3] := by
      intro s hs
      have := List.all_eq_true.mp h s hs
      obtain ⟨w, hw⟩ := Option.isSome_iff_exists.mp this
      simp only [viscTerm, hw, co, s3, Option.getD_some, segSigma3_eq]
    subst hv
    refine ⟨?_, ?_, ?_, ?_⟩
    · have e : (l.map fun s => viscTerm (segSigma3 l) s 0)
          = l.map fun s => s.1.m * s.1.sigma ^ 3 * s.2 * co s 0 :=
        List.map_congr_left (fun s hs => by rw [t s hs]; rfl)
      show (l.map (viscTerm (segSigma3 l))).sum 0 - 0.5 * Real.log (segM l) = _
      rw [sumk, e]
      show _ = _ - Real.log (segM l) / 2
      ring_nf
    · have e : (l.map fun s => viscTerm (segSigma3 l) s 1)
          = l.map fun s => s.1.m * s.1.sigma ^ 3 * s.2 * co s 1 / s3 ^ (0.45 : ℝ) :=
        List.map_congr_left (fun s hs => by rw [t s hs]; rfl)
      show (l.map (viscTerm (segSigma3 l))).sum 1 = _
      rw [sumk, e]
    · have e : (l.map fun s => viscTerm (segSigma3 l) s 2) = l.map fun s => s.2 * co s 2 :=
        List.map_congr_left (fun s hs => by rw [t s hs]; rfl)
      show (l.map (viscTerm (segSigma3 l))).sum 2 = _
      rw [sumk, e]
    · have e : (l.map fun s => viscTerm (segSigma3 l) s 3) = l.map fun s => s.2 * co s 3 :=
        List.map_congr_left (fun s hs => by rw [t s hs]; rfl)
      show (l.map (viscTerm (segSigma3 l))).sum 3 = _
      rw [sumk, e]
  · intro v hv co
    simp only [segResult] at hv
    split_ifs at hv with h
    have hv := (Option.some.inj hv).symm
    have sumk : ∀ k, (l.map (tcTerm (segNt l))).sum k
        = (l.map fun s => tcTerm (segNt l) s k).sum := fun k => sum_apply_list (tcTerm (segNt l)) l k
    have t : ∀ s ∈ l, tcTerm (segNt l) s = ![s.2 * co s 0, s.2 * co s 1, s.2 * co s 2,
        segNt l * co s 3] := by
      intro s hs
      have := List.all_eq_true.mp h s hs
      obtain ⟨w, hw⟩ := Option.isSome_iff_exists.mp this
      simp only [tcTerm, hw, co, Option.getD_some]
    subst hv
    refine ⟨?_, ?_, ?_, ?_⟩
    · rw [sumk]
      exact congrArg List.sum (List.map_congr_left (fun s hs => by rw [t s hs]; rfl))
    · rw [sumk]
      exact congrArg List.sum (List.map_congr_left (fun s hs => by rw [t s hs]; rfl))
    · rw [sumk]
      exact congrArg List.sum (List.map_congr_left (fun s hs => by rw [t s hs]; rfl))
    · rw [sumk, ← segNt_eq, ← List.sum_map_mul_left]
      exact congrArg List.sum (List.map_congr_left (fun s hs => by rw [t s hs]; rfl))
  · simp only [segResult, segDiffusion]
    split_ifs with h
    · simpa [List.all_eq_true] using h
    · simpa [List.all_eq_true] using h

/-- C05 on two segments of which one has a dipole moment -/
example : ∃ r, fromSegments [({ plainRecord 1 3 200 with mu := some 1.5 }, 2),
    (plainRecord 2 4 300, 1)] = .ok r ∧ r.m = 4 ∧ r.mu = some 3 ∧ r.q = none := by
  obtain ⟨r, h, hm, -, ho⟩ := C05_from_segments_additive
    [({ plainRecord 1 3 200 with mu := some 1.5 }, 2), (plainRecord 2 4 300, 1)]
  refine ⟨r, h, ?_, ?_, ?_⟩
  · rw [hm]; norm_num [plainRecord]
  · have hmu := ho PcSaftRecord.mu (by simp)
    cases hr : r.mu with
    | none => simp [hr, plainRecord] at hmu
    | some v =>
      have := hmu.2 v hr
      norm_num [plainRecord] at this
      rw [this]
  · exact (ho PcSaftRecord.q (by simp)).1.mpr (by simp [plainRecord])

/-! ## C06 -/

/-- C06: the order of the segments does not matter, for any field of the result. -/
theorem C06_segment_order (l l' : List (PcSaftRecord ℝ × ℝ)) (h : l.Perm l') :
    fromSegments l = fromSegments l' := by
  rw [fromSegments_eq, fromSegments_eq]
  congr 1
  have hm : segM l = segM l' := by rw [segM_eq, segM_eq]; exact (h.map _).sum_eq
  have hs : segSigma3 l = segSigma3 l' := by rw [segSigma3_eq, segSigma3_eq]; exact (h.map _).sum_eq
  have he : segEpsilonK l = segEpsilonK l' := by
    rw [segEpsilonK_eq, segEpsilonK_eq]; exact (h.map _).sum_eq
  have hn : segNt l = segNt l' := by rw [segNt_eq, segNt_eq]; exact (h.map _).sum_eq
  have ha : ∀ P : PcSaftRecord ℝ × ℝ → Bool, l.all P = l'.all P := by
    intro P
    rw [Bool.eq_iff_iff, List.all_eq_true, List.all_eq_true]
    exact ⟨fun H x hx => H x (h.mem_iff.mpr hx), fun H x hx => H x (h.mem_iff.mp hx)⟩
  have ho : ∀ f, segOptSum f l = segOptSum f l' := by
    intro f
    rw [segOptSum_eq, segOptSum_eq, ha, (h.map _).sum_eq]
  unfold segResult segDiffusion
  simp only [hm, hs, he, hn, ha, ho]
  congr 1
  · rw [(h.map (viscTerm (segSigma3 l'))).sum_eq]
  · rw [(h.map (tcTerm (segNt l'))).sum_eq]

example : fromSegments [(plainRecord 1 3 200, 2), (plainRecord 2 4 300, 1)]
    = fromSegments [(plainRecord 2 4 300, 1), (plainRecord 1 3 200, 2)] :=
  C06_segment_order _ _ (List.Perm.swap _ _ _)

/-! ## C07 -/

/-- C07 (the part that holds): listing a segment once with count `a + b` or twice with counts `a` and
`b`, anywhere in the list, gives the same record up to the fourth thermal conductivity coefficient.

Missing: equality of the fourth thermal conductivity coefficient, which the code does not satisfy
(`C07_counterexample`); the theorem says by how much it is off. -/
theorem C07_segment_splitting_partial (l₁ l₂ : List (PcSaftRecord ℝ × ℝ)) (s : PcSaftRecord ℝ)
    (a b : ℝ) :
    ∃ r r', fromSegments (l₁ ++ (s, a + b) :: l₂) = .ok r
    ∧ fromSegments (l₁ ++ (s, a) :: (s, b) :: l₂) = .ok r'
    ∧ { r with thermal_conductivity := none } = { r' with thermal_conductivity := none }
    ∧ (r.thermal_conductivity.isSome = r'.thermal_conductivity.isSome)
    ∧ ∀ v v' w, r.thermal_conductivity = some v → r'.thermal_conductivity = some v' →
        s.thermal_conductivity = some w →
        v' 0 = v 0 ∧ v' 1 = v 1 ∧ v' 2 = v 2
        ∧ v' 3 = v 3 + ((l₁ ++ (s, a + b) :: l₂).map fun s => s.2).sum * w 3 := by
  -- by permutation the segment may be assumed to be first
  have p1 : (l₁ ++ (s, a + b) :: l₂).Perm ((s, a + b) :: (l₁ ++ l₂)) := List.perm_middle
  have p2 : (l₁ ++ (s, a) :: (s, b) :: l₂).Perm ((s, a) :: (s, b) :: (l₁ ++ l₂)) :=
    List.perm_middle.trans (List.Perm.cons _ List.perm_middle)
  rw [C06_segment_order _ _ p1, C06_segment_order _ _ p2, (p1.map _).sum_eq]
  generalize l₁ ++ l₂ = l
  have hm : segM ((s, a) :: (s, b) :: l) = segM ((s, a + b) :: l) := by
    simp only [segM_eq, List.map_cons, List.sum_cons]; ring
  have hs : segSigma3 ((s, a) :: (s, b) :: l) = segSigma3 ((s, a + b) :: l) := by
    simp only [segSigma3_eq, List.map_cons, List.sum_cons]; ring
  have he : segEpsilonK ((s, a) :: (s, b) :: l) = segEpsilonK ((s, a + b) :: l) := by
    simp only [segEpsilonK_eq, List.map_cons, List.sum_cons]; ring
  have hn : segNt ((s, a) :: (s, b) :: l) = segNt ((s, a + b) :: l) := by
    simp only [segNt_eq, List.map_cons, List.sum_cons]; ring
  have ho : ∀ f, segOptSum f ((s, a) :: (s, b) :: l) = segOptSum f ((s, a + b) :: l) := by
    intro f
    simp only [segOptSum_eq, List.map_cons, List.sum_cons, List.all_cons, ← Bool.and_assoc,
      Bool.and_self, ← add_assoc, ← mul_add]
  have ha : ∀ P : PcSaftRecord ℝ → Bool, ((s, a) :: (s, b) :: l).all (fun s => P s.1)
      = ((s, a + b) :: l).all (fun s => P s.1) := by
    intro P
    simp only [List.all_cons, ← Bool.and_assoc, Bool.and_self]
  have hv : ∀ z, ((((s, a) :: (s, b) :: l) : Segs).map (viscTerm z)).sum
      = ((((s, a + b) :: l) : Segs).map (viscTerm z)).sum := by
    intro z
    simp only [List.map_cons, List.sum_cons, ← add_assoc]
    congr 1
    simp only [viscTerm]
    split
    · simp
    · funext k
      fin_cases k <;> simp <;> ring
  refine ⟨_, _, fromSegments_eq _, fromSegments_eq _, ?_, ?_, ?_⟩
  · unfold segResult segDiffusion
    simp only [hm, hs, he, ho, hv]
    rw [ha fun r => r.viscosity.isSome, ha fun r => r.diffusion.isSome]
  · unfold segResult
    dsimp only
    rw [ha fun r => r.thermal_conductivity.isSome]
    split_ifs <;> rfl
  · intro v v' w h h' hw
    unfold segResult at h h'
    dsimp only at h h'
    rw [ha fun r => r.thermal_conductivity.isSome] at h'
    split_ifs at h h' with hall
    have h := Option.some.inj h
    have h' := Option.some.inj h'
    rw [hn] at h'
    simp only [List.map_cons, List.sum_cons, tcTerm, hw] at h h'
    rw [segNt_eq] at h h'
    subst h h'
    refine ⟨?_, ?_, ?_, ?_⟩
    · simp only [Pi.add_apply, Matrix.cons_val]; ring
    · simp only [Pi.add_apply, Matrix.cons_val]; ring
    · simp only [Pi.add_apply, Matrix.cons_val]; ring
    · simp only [Pi.add_apply, Matrix.cons_val, List.map_cons, List.sum_cons]; ring

/-- C07 fails for the fourth thermal conductivity coefficient: one segment with count 2, or twice with
count 1. -/
theorem C07_counterexample : ∃ (s : PcSaftRecord ℝ) (a b : ℝ),
    fromSegments [(s, a + b)] ≠ fromSegments [(s, a), (s, b)] := by
  refine ⟨⟨1, 3, 200, none, none, none, none, none, none, none, none, some ![0, 0, 0, 1]⟩, 1, 1, ?_⟩
  rw [fromSegments_eq, fromSegments_eq]
  intro h
  have h := congrArg PcSaftRecord.thermal_conductivity (Except.ok.inj h)
  simp only [segResult, segNt_eq, List.all_cons, List.all_nil, Option.isSome_some, Bool.and_self,
    if_true, List.map_cons, List.map_nil, List.sum_cons, List.sum_nil, tcTerm] at h
  have := congrFun (Option.some.inj h) 3
  simp only [Pi.add_apply, Matrix.cons_val, Pi.zero_apply] at this
  norm_num at this

/-! ## C08 -/

/-- C08: the binary interaction parameter is the sum of `k · n₁ · n₂`: it does not depend on the order,
is additive, unchanged when a count is split, and zero for an empty list. -/
theorem C08_binary_segments :
    (∀ l : List (ℝ × ℝ × ℝ), fromSegmentsBinary l = (l.map fun s => s.1 * s.2.1 * s.2.2).sum)
    ∧ (∀ l l' : List (ℝ × ℝ × ℝ), l.Perm l' → fromSegmentsBinary l = fromSegmentsBinary l')
    ∧ (∀ l l' : List (ℝ × ℝ × ℝ),
        fromSegmentsBinary (l ++ l') = fromSegmentsBinary l + fromSegmentsBinary l')
    ∧ (∀ (l l' : List (ℝ × ℝ × ℝ)) (k a b n : ℝ),
        fromSegmentsBinary (l ++ (k, a + b, n) :: l')
          = fromSegmentsBinary (l ++ (k, a, n) :: (k, b, n) :: l')
        ∧ fromSegmentsBinary (l ++ (k, n, a + b) :: l')
          = fromSegmentsBinary (l ++ (k, n, a) :: (k, n, b) :: l'))
    ∧ fromSegmentsBinary ([] : List (ℝ × ℝ × ℝ)) = 0 := by
  have e : ∀ l : List (ℝ × ℝ × ℝ),
      fromSegmentsBinary l = (l.map fun s => s.1 * s.2.1 * s.2.2).sum := by
    intro l
    unfold fromSegmentsBinary
    rw [foldl_add_list (fun s : ℝ × ℝ × ℝ => s.1 * s.2.1 * s.2.2)]
    norm_num
  refine ⟨e, ?_, ?_, ?_, ?_⟩
  · intro l l' h
    rw [e, e]; exact (h.map _).sum_eq
  · intro l l'
    simp [e]
  · intro l l' k a b n
    simp only [e, List.map_append, List.map_cons, List.sum_append, List.sum_cons]
    constructor <;> ring
  · simp [e]

example : fromSegmentsBinary [((0.01 : ℝ), 2, 3), (0.02, 1, 1)] = 0.08 := by
  rw [C08_binary_segments.1]; norm_num

/-! ## C09 -/

theorem collectOption_isSome {n : ℕ} {A : Type} (f : Fin n → Option A) :
    (collectOption f).isSome ↔ ∀ i, (f i).isSome := by
  unfold collectOption
  split_ifs with h <;> simpa using h

theorem collectOption_get {n : ℕ} {A : Type} (f : Fin n → Option A) (v : Fin n → A) :
    collectOption f = some v ↔ ∀ i, f i = some (v i) := by
  unfold collectOption
  split_ifs with h
  · constructor
    · rintro hv i
      rw [Option.some.injEq] at hv
      subst hv
      simp
    · intro hv
      congr 1
      funext i
      simp [hv i]
  · simp only [false_iff]
    intro hv
    exact h (fun i => by simp [hv i])

/-- C09: a coefficient table exists exactly if every record has the coefficients; column `i` then holds
those of record `i`. -/
theorem C09_transport_tables {n : ℕ} (pr : Fin n → PureRecord ℝ) (k : Fin n → Fin n → ℝ) :
    let p := fromRecords pr k
    (p.viscosity.isSome ↔ ∀ i, (pr i).model_record.viscosity.isSome)
    ∧ (∀ t, p.viscosity = some t → ∀ i, (pr i).model_record.viscosity = some (fun c => t c i))
    ∧ (p.diffusion.isSome ↔ ∀ i, (pr i).model_record.diffusion.isSome)
    ∧ (∀ t, p.diffusion = some t → ∀ i, (pr i).model_record.diffusion = some (fun c => t c i))
    ∧ (p.thermal_conductivity.isSome ↔ ∀ i, (pr i).model_record.thermal_conductivity.isSome)
    ∧ (∀ t, p.thermal_conductivity = some t →
        ∀ i, (pr i).model_record.thermal_conductivity = some (fun c => t c i)) := by
  intro p
  have key : ∀ {q : ℕ} (f : Fin n → Option (Fin q → ℝ)) (t : Fin q → Fin n → ℝ),
      (collectOption f).map (fun v k i => v i k) = some t → ∀ i, f i = some (fun c => t c i) := by
    intro q f t h i
    rw [Option.map_eq_some_iff] at h
    obtain ⟨v, hv, rfl⟩ := h
    rw [(collectOption_get f v).mp hv i]
  refine ⟨?_, key _, ?_, key _, ?_, key _⟩ <;>
  · show (Option.map _ (collectOption _)).isSome = true ↔ _
    rw [Option.isSome_map, collectOption_isSome]

/-- C09: with one of two records lacking coefficients there is no table; with both there is one. -/
example :
    let r := { plainRecord 1 3 200 with viscosity := some ![1, 2, 3, 4] }
    (fromRecords (n := 2) (fun i => pureOf (if i = 0 then r else plainRecord 1 3 200))
      (fun _ _ => 0)).viscosity.isSome = false
    ∧ (fromRecords (n := 2) (fun _ => pureOf r) (fun _ _ => 0)).viscosity.isSome = true := by
  intro r
  constructor
  · rw [← Bool.not_eq_true, (C09_transport_tables _ _).1]
    intro h
    have := h 1
    simp [pureOf, plainRecord] at this
  · rw [(C09_transport_tables _ _).1]
    intro i
    simp [pureOf, r]

end PcSaft.Props
