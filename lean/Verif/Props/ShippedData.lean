import Verif.Model.Shipped
import Verif.Props.Critical
import Verif.Props.PolarAttraction
import Verif.Props.Transport

/-! # C96: the shipped parameters stay in the range of the theorems

The hypotheses of the other theorems (positive segment numbers, warm dipoles, attracting molecules and so on) hold
for every mixture that can be put together from the parameter files shipped with the crate. -/

namespace PcSaft.Spec
open PcSaft
variable {n : ℕ}

/-- a mixture of any number of substances, each of them an entry of the files -/
def MixtureOf (files : List (PureRecord ℚ)) (pr : Fin n → PureRecord ℝ) : Prop :=
  ∀ i, ∃ r ∈ files, pr i = r.map (Rat.cast : ℚ → ℝ)

end PcSaft.Spec

namespace PcSaft.Props
open PcSaft Spec Shipped
variable {n : ℕ} {pr : Fin n → PureRecord ℝ} {k : Fin n → Fin n → ℝ} {T V : ℝ} {N : Fin n → ℝ}

/-! ## Ranges of the numbers in the files -/

theorem shipped_range : ∀ r ∈ substances, 4 / 5 ≤ r.model_record.m ∧ 0 < r.model_record.sigma
    ∧ 0 < r.model_record.epsilon_k ∧ 0 < r.molarweight := by
  decide +kernel

theorem shipped_sites : ∀ r ∈ substances, 0 ≤ r.model_record.kappa_ab.getD 0 ∧ 0 ≤ r.model_record.epsilon_k_ab.getD 0
    ∧ 0 < r.model_record.na.getD 1 ∧ 0 < r.model_record.nb.getD 1
    ∧ r.model_record.na.getD 1 + r.model_record.nb.getD 1 < 2 ^ 26 := by
  decide +kernel

theorem shipped_dipoles : ∀ r ∈ substances, r.model_record.mu.getD 0 ≠ 0 →
    1 ≤ r.model_record.m ∧ r.model_record.epsilon_k ≤ 330 := by
  decide +kernel

theorem shipped_quadrupoles : ∀ r ∈ substances, r.model_record.q.getD 0 ≠ 0 →
    1 ≤ r.model_record.m ∧ r.model_record.epsilon_k ≤ 345
      ∧ r.model_record.q.getD 0 ^ 2 * (1e-19 / 1.380649e-23)
        ≤ 345 * r.model_record.m ^ 2 * r.model_record.sigma ^ 5 := by
  decide +kernel

theorem gross2001_plain : ∀ r ∈ gross2001, r.model_record.mu.getD 0 = 0 ∧ r.model_record.q.getD 0 = 0
    ∧ r.model_record.kappa_ab.getD 0 = 0 := by
  decide +kernel

theorem loetgeringlin2018_viscosity : ∀ r ∈ loetgeringlin2018, r.model_record.viscosity.isSome = true := by
  decide +kernel

/-! ## Mixtures of the shipped substances -/

/-- the fields of the parameter set of a mixture of shipped substances -/
theorem mixture_entry {files : List (PureRecord ℚ)} (hpr : MixtureOf files pr) (k : Fin n → Fin n → ℝ) (i : Fin n) :
    ∃ r ∈ files, (fromRecords pr k).m i = (r.model_record.m : ℝ) ∧ (fromRecords pr k).sigma i = (r.model_record.sigma : ℝ)
      ∧ (fromRecords pr k).epsilon_k i = (r.model_record.epsilon_k : ℝ)
      ∧ (pr i).model_record.epsilon_k = (r.model_record.epsilon_k : ℝ)
      ∧ (fromRecords pr k).mu i = ((r.model_record.mu.getD 0 : ℚ) : ℝ)
      ∧ (fromRecords pr k).q i = ((r.model_record.q.getD 0 : ℚ) : ℝ)
      ∧ (fromRecords pr k).kappa_ab i = ((r.model_record.kappa_ab.getD 0 : ℚ) : ℝ)
      ∧ (fromRecords pr k).epsilon_k_ab i = ((r.model_record.epsilon_k_ab.getD 0 : ℚ) : ℝ)
      ∧ (fromRecords pr k).na i = ((r.model_record.na.getD 1 : ℚ) : ℝ)
      ∧ (fromRecords pr k).nb i = ((r.model_record.nb.getD 1 : ℚ) : ℝ)
      ∧ (pr i).model_record.viscosity.isSome = r.model_record.viscosity.isSome := by
  obtain ⟨r, hr, e⟩ := hpr i
  have h0 : ∀ o : Option ℚ, (o.map (Rat.cast : ℚ → ℝ)).getD 0.0 = ((o.getD 0 : ℚ) : ℝ) := by
    intro o
    cases o <;> norm_num
  have h1 : ∀ o : Option ℚ, (o.map (Rat.cast : ℚ → ℝ)).getD 1.0 = ((o.getD 1 : ℚ) : ℝ) := by
    intro o
    cases o <;> norm_num
  refine ⟨r, hr, ?_, ?_, ?_, ?_, ?_, ?_, ?_, ?_, ?_, ?_, ?_⟩
  · change (pr i).model_record.m = _
    rw [e]
    rfl
  · change (pr i).model_record.sigma = _
    rw [e]
    rfl
  · change (pr i).model_record.epsilon_k = _
    rw [e]
    rfl
  · rw [e]
    rfl
  · change (pr i).model_record.mu.getD 0.0 = _
    rw [e]
    exact h0 _
  · change (pr i).model_record.q.getD 0.0 = _
    rw [e]
    exact h0 _
  · change (pr i).model_record.kappa_ab.getD 0.0 = _
    rw [e]
    exact h0 _
  · change (pr i).model_record.epsilon_k_ab.getD 0.0 = _
    rw [e]
    exact h0 _
  · change (pr i).model_record.na.getD 1.0 = _
    rw [e]
    exact h1 _
  · change (pr i).model_record.nb.getD 1.0 = _
    rw [e]
    exact h1 _
  · rw [e]
    exact Option.isSome_map

section mixture
variable (hpr : MixtureOf substances pr) (k)
include hpr

theorem mixture_pos (i : Fin n) : 4 / 5 ≤ (fromRecords pr k).m i ∧ 0 < (fromRecords pr k).sigma i
    ∧ 0 < (fromRecords pr k).epsilon_k i := by
  obtain ⟨r, hr, h1, h2, h3, -⟩ := mixture_entry hpr k i
  obtain ⟨g1, g2, g3, -⟩ := shipped_range r hr
  rw [h1, h2, h3]
  have g : ((4 / 5 : ℚ) : ℝ) ≤ (r.model_record.m : ℝ) := by exact_mod_cast g1
  exact ⟨by norm_num at g ⊢; exact g, by exact_mod_cast g2, by exact_mod_cast g3⟩

theorem mixture_diameter (hT : 0 < T) (i : Fin n) :
    0 < Spec.diameter ((fromRecords pr k).sigma i) ((fromRecords pr k).epsilon_k i) T
      ∧ Spec.diameter ((fromRecords pr k).sigma i) ((fromRecords pr k).epsilon_k i) T ≤ (fromRecords pr k).sigma i := by
  obtain ⟨-, h2, h3⟩ := mixture_pos k hpr i
  have h4 : Real.exp (-3 * (fromRecords pr k).epsilon_k i / T) ≤ 1 :=
    Real.exp_le_one_iff.2 (div_nonpos_of_nonpos_of_nonneg (by linarith) hT.le)
  have h5 := Real.exp_pos (-3 * (fromRecords pr k).epsilon_k i / T)
  have e : (0.12 : ℝ) = 3 / 25 := by norm_num
  unfold Spec.diameter
  rw [e]
  exact ⟨mul_pos h2 (by linarith), mul_le_of_le_one_right h2.le (by linarith)⟩

/-- C96: every state of a mixture of shipped substances at positive temperature with a volume above that of the
segments is admissible. -/
theorem C96_admissible (hT : 0 < T) (hN : ∀ i, 0 ≤ N i) (hN0 : ∃ i, N i ≠ 0)
    (hV : closeVolume (fromRecords pr k) T N < V) : Admissible (fromRecords pr k) T V N := by
  have hm : ∀ i, 0 < (fromRecords pr k).m i := fun i => by linarith [(mixture_pos k hpr i).1]
  have hc : 0 ≤ closeVolume (fromRecords pr k) T N := by
    unfold closeVolume
    exact Finset.sum_nonneg fun i _ => by
      have := (mixture_diameter k hpr hT i).1
      have := hm i
      have := hN i
      positivity
  have hV0 := hc.trans_lt hV
  refine ⟨hT, hV0, hm, fun i => (mixture_pos k hpr i).2.1, fun i => (mixture_pos k hpr i).2.2.le, hN, hN0, ?_⟩
  have e : Spec.packingFraction (fromRecords pr k) T V N = closeVolume (fromRecords pr k) T N / V := by
    rw [Spec.packingFraction, closeVolume, Finset.sum_div]
  rw [e, div_lt_one hV0]
  exact hV

/-- C96: every state of a mixture of shipped substances at positive temperature is admissible, with a packing
fraction up to one half, for all densities up to the maximum density of the default options. -/
theorem C96_maximum_density (hT : 0 < T) (hV : 0 < V) (hN : ∀ i, 0 ≤ N i) (hN0 : ∃ i, N i ≠ 0)
    (hd : (∑ i, N i) / V ≤ (Eos.new (fromRecords pr k)).maxDensity N) :
    Admissible (fromRecords pr k) T V N ∧ Spec.packingFraction (fromRecords pr k) T V N ≤ 1 / 2 := by
  have hm : ∀ i, 0 < (fromRecords pr k).m i := fun i => by linarith [(mixture_pos k hpr i).1]
  have hs : ∀ i, 0 < (fromRecords pr k).sigma i := fun i => (mixture_pos k hpr i).2.1
  obtain ⟨j, hj⟩ := hN0
  have hj0 : 0 < N j := lt_of_le_of_ne (hN j) (Ne.symm hj)
  have hpi := Real.pi_pos
  have hNs : 0 < ∑ i, N i := Finset.sum_pos' (fun i _ => hN i) ⟨j, Finset.mem_univ j, hj0⟩
  set S := ∑ i, Real.pi / 6 * (fromRecords pr k).m i * (fromRecords pr k).sigma i ^ 3 * N i with hS
  have hS0 : 0 < S := Finset.sum_pos' (fun i _ => by
    have := hm i
    have := hs i
    have := hN i
    positivity) ⟨j, Finset.mem_univ j, by
    have := hm j
    have := hs j
    positivity⟩
  have e1 : (Eos.new (fromRecords pr k)).maxDensity N = 1 / 2 * (∑ i, N i) / S := by
    simp only [Eos.maxDensity, Eos.new, Eos.withOptions, computeMaxDensity, sumFin_real, powi_real, pi_real,
      PcSaftOptions.default, hS]
    norm_num
  have h1 : S / V ≤ 1 / 2 := by
    rw [e1, div_le_div_iff₀ hV hS0] at hd
    rw [div_le_iff₀ hV]
    nlinarith
  have h2 : Spec.packingFraction (fromRecords pr k) T V N ≤ S / V := by
    rw [Spec.packingFraction, hS, Finset.sum_div]
    refine Finset.sum_le_sum fun i _ => div_le_div_of_nonneg_right ?_ hV.le
    obtain ⟨g1, g2⟩ := mixture_diameter k hpr hT i
    have g3 := pow_le_pow_left₀ g1.le g2 3
    have g4 := hm i
    have g5 := hN i
    calc N i * (fromRecords pr k).m i * (Real.pi / 6
          * Spec.diameter ((fromRecords pr k).sigma i) ((fromRecords pr k).epsilon_k i) T ^ 3)
        ≤ N i * (fromRecords pr k).m i * (Real.pi / 6 * (fromRecords pr k).sigma i ^ 3) := by gcongr
      _ = _ := by ring
  exact ⟨⟨hT, hV, hm, hs, fun i => (mixture_pos k hpr i).2.2.le, hN, ⟨j, hj⟩, by linarith⟩, h2.trans h1⟩

omit k in
theorem mixture_energy (i : Fin n) : 0 < (pr i).model_record.epsilon_k := (mixture_pos (fun _ _ => 0) hpr i).2.2

theorem mixture_kappa (i : Fin n) : 0 ≤ (fromRecords pr k).kappa_ab i := by
  obtain ⟨r, hr, -, -, -, -, -, -, h, -⟩ := mixture_entry hpr k i
  rw [h]
  exact_mod_cast (shipped_sites r hr).1

/-- at most one associating component: the association term is finite -/
theorem mixture_association (ha : (fromRecords pr k).nassoc ≤ 1) (o : PcSaftOptions ℝ)
    (hct : Contribution.association ∈ buildContributions (fromRecords pr k) o) :
    FiniteAt (fromRecords pr k) T V N .association := by
  have h1 : (fromRecords pr k).assoc_comp.length = 1 := by
    rcases Nat.le_one_iff_eq_zero_or_eq_one.1 ha with h | h
    · simp [buildContributions, PcSaftParameters.nassoc, h] at hct
    · exact h
  obtain ⟨a, ha⟩ := List.length_eq_one_iff.1 h1
  obtain ⟨r, hr, -, -, -, -, -, -, -, h2, h3, h4, -⟩ := mixture_entry hpr k a
  obtain ⟨-, g1, g2, g3, g4⟩ := shipped_sites r hr
  refine ⟨a, ha, ?_, ?_, ?_, ?_⟩
  · rw [h2]; exact_mod_cast g1
  · rw [h3]; exact_mod_cast g2
  · rw [h4]; exact_mod_cast g3
  · rw [h3, h4]; exact_mod_cast g4

omit hpr in
theorem mixture_no_cross (ha : (fromRecords pr k).nassoc ≤ 1) (o : PcSaftOptions ℝ) {it : ℕ} {tol : ℝ} :
    Contribution.crossAssociation it tol ∉ buildContributions (fromRecords pr k) o := by
  intro hct
  rcases Nat.le_one_iff_eq_zero_or_eq_one.1 ha with h | h <;>
    simp [buildContributions, PcSaftParameters.nassoc, h] at hct

/-- C96: dipoles of shipped substances attract each other at 220 K and above, up to the maximum density. -/
theorem C96_warm_dipoles (hT : 220 ≤ T) (hV : 0 < V) (hN : ∀ i, 0 ≤ N i) (hN0 : ∃ i, N i ≠ 0)
    (hd : (∑ i, N i) / V ≤ (Eos.new (fromRecords pr k)).maxDensity N) : WarmDipoles (fromRecords pr k) T V N := by
  have hT0 : 0 < T := by linarith
  obtain ⟨h1, h2⟩ := C96_maximum_density k hpr hT0 hV hN hN0 hd
  have key : ∀ i, (fromRecords pr k).mu i ≠ 0 → 1 ≤ (fromRecords pr k).m i ∧ (fromRecords pr k).epsilon_k i ≤ 330 := by
    intro i hi
    obtain ⟨r, hr, g1, -, g2, -, g3, -⟩ := mixture_entry hpr k i
    rw [g3] at hi
    obtain ⟨g4, g5⟩ := shipped_dipoles r hr (by exact_mod_cast hi)
    rw [g1, g2]
    exact ⟨by exact_mod_cast g4, by exact_mod_cast g5⟩
  exact ⟨h1, h2, fun i hi => (key i hi).1, fun i _ => (mixture_pos k hpr i).2.2,
    fun i hi => (key i hi).2.trans (by linarith)⟩

/-- C96: a quadrupolar shipped substance attracts itself at 345 K and above, up to the maximum density. -/
theorem C96_warm_quadrupole (hT : 345 ≤ T) (hV : 0 < V) (hN : ∀ i, 0 ≤ N i) (hN0 : ∃ i, N i ≠ 0)
    (hd : (∑ i, N i) / V ≤ (Eos.new (fromRecords pr k)).maxDensity N) {a : Fin n}
    (ha : ∀ i, (fromRecords pr k).q i ≠ 0 ↔ i = a) : WarmQuadrupole (fromRecords pr k) T V N a := by
  have hT0 : 0 < T := by linarith
  obtain ⟨h1, h2⟩ := C96_maximum_density k hpr hT0 hV hN hN0 hd
  obtain ⟨r, hr, g1, g2, g3, -, -, g4, -⟩ := mixture_entry hpr k a
  have hq := (ha a).2 rfl
  rw [g4] at hq
  obtain ⟨g5, g6, g7⟩ := shipped_quadrupoles r hr (by exact_mod_cast hq)
  obtain ⟨p1, p2, p3⟩ := mixture_pos k hpr a
  have g5' : (1 : ℝ) ≤ (fromRecords pr k).m a := by rw [g1]; exact_mod_cast g5
  have g6' : (fromRecords pr k).epsilon_k a ≤ 345 := by rw [g3]; exact_mod_cast g6
  have g7' : (fromRecords pr k).q a ^ 2 * (1e-19 / 1.380649e-23)
      ≤ 345 * (fromRecords pr k).m a ^ 2 * (fromRecords pr k).sigma a ^ 5 := by
    rw [g1, g2, g4]
    have := (Rat.cast_le (K := ℝ)).2 g7
    push_cast at this
    norm_num at this ⊢
    exact this
  refine ⟨h1, h2, ha, g5', p3, by linarith, ?_⟩
  have e : (fromRecords pr k).q2 a * (fromRecords pr k).epsilon_k a
      = (fromRecords pr k).q a ^ 2 * (1e-19 / 1.380649e-23) / ((fromRecords pr k).m a * (fromRecords pr k).sigma a ^ 5) := by
    have e' : (fromRecords pr k).q2 a = (fromRecords pr k).q a * (fromRecords pr k).q a
      / ((fromRecords pr k).m a * (fromRecords pr k).sigma a ^ 5 * (fromRecords pr k).epsilon_k a) * 1e-19
        * jouleKelvinKB := rfl
    rw [e']
    unfold jouleKelvinKB
    field_simp
    norm_num
  rw [e, div_le_iff₀ (by positivity)]
  refine g7'.trans ?_
  have : 0 < (fromRecords pr k).m a ^ 2 * (fromRecords pr k).sigma a ^ 5 := by positivity
  nlinarith

/-- C96: the residual Helmholtz energy of a mixture of shipped substances with at most one associating component
and without quadrupoles is a finite number for all densities up to the maximum density, at every positive
temperature or, with dipoles, from 220 K. -/
theorem C96_finite (o : PcSaftOptions ℝ) (la : LinAlg ℝ ℝ) (laX : LinAlg XReal XReal) (hT : 0 < T)
    (hTd : (∃ i, (fromRecords pr k).mu i ≠ 0) → 220 ≤ T) (hV : 0 < V) (hN : ∀ i, 0 ≤ N i) (hN0 : ∃ i, N i ≠ 0)
    (hd : (∑ i, N i) / V ≤ (Eos.new (fromRecords pr k)).maxDensity N)
    (hq : ∀ i, (fromRecords pr k).q i = 0) (ha : (fromRecords pr k).nassoc ≤ 1) :
    ∃ A : ℝ, (Eos.withOptions (fromRecords pr k) o).residualHelmholtz la (StateHD.new T V N) = .ok A
      ∧ (Eos.withOptions (xParameters pr k) (o.map XReal.fin)).residualHelmholtz laX
        (StateHD.new (XReal.fin T) (XReal.fin V) (fun i => XReal.fin (N i))) = .ok (XReal.fin A) := by
  have hq' : (fromRecords pr k).quadpole_comp = [] := List.eq_nil_iff_forall_not_mem.2 fun i hi =>
    (mem_nonzeroComp _ i).1 hi (q2_zero (hq i))
  refine C21_residual o la laX (C96_maximum_density k hpr hT hV hN hN0 hd).1 (mixture_energy hpr)
    (mixture_kappa k hpr) fun ct hct => ?_
  cases ct with
  | hardSphere => trivial
  | hardChain => trivial
  | dispersion => trivial
  | dipole =>
    by_cases hm : ∃ i, (fromRecords pr k).mu i ≠ 0
    · exact (C95_dipole_no_pole (C96_warm_dipoles k hpr (hTd hm) hV hN hN0 hd)).1
    · refine Or.inr (dipolePhis_absent _ fun i hi => ?_)
      exact absurd (mu2_zero (not_not.1 fun h => hm ⟨i, h⟩)) ((mem_nonzeroComp _ i).1 hi)
  | quadrupole => exact Or.inr (quadrupolePhis_absent _ (by simp [hq']))
  | dipoleQuadrupole v =>
    simp only [buildContributions, PcSaftParameters.nquadpole, hq'] at hct
    rcases Nat.le_one_iff_eq_zero_or_eq_one.1 ha with h | h <;>
      simp [PcSaftParameters.nassoc, h] at hct
  | association => exact mixture_association k hpr ha o hct
  | crossAssociation _ _ => exact absurd hct (mixture_no_cross k ha o)

/-- C96: the same with one quadrupolar component and no dipoles, from 345 K. -/
theorem C96_quadrupolar_finite (o : PcSaftOptions ℝ) (la : LinAlg ℝ ℝ) (laX : LinAlg XReal XReal) (hT : 345 ≤ T)
    (hV : 0 < V) (hN : ∀ i, 0 ≤ N i) (hN0 : ∃ i, N i ≠ 0)
    (hd : (∑ i, N i) / V ≤ (Eos.new (fromRecords pr k)).maxDensity N) {a : Fin n}
    (hq : ∀ i, (fromRecords pr k).q i ≠ 0 ↔ i = a) (hmu : ∀ i, (fromRecords pr k).mu i = 0)
    (ha : (fromRecords pr k).nassoc ≤ 1) :
    ∃ A : ℝ, (Eos.withOptions (fromRecords pr k) o).residualHelmholtz la (StateHD.new T V N) = .ok A
      ∧ (Eos.withOptions (xParameters pr k) (o.map XReal.fin)).residualHelmholtz laX
        (StateHD.new (XReal.fin T) (XReal.fin V) (fun i => XReal.fin (N i))) = .ok (XReal.fin A) := by
  have hm' : ∀ i ∉ ([] : List (Fin n)), i ∉ (fromRecords pr k).dipole_comp := fun i _ hi =>
    (mem_nonzeroComp _ i).1 hi (mu2_zero (hmu i))
  refine C21_residual o la laX (C96_maximum_density k hpr (by linarith) hV hN hN0 hd).1 (mixture_energy hpr)
    (mixture_kappa k hpr) fun ct hct => ?_
  cases ct with
  | hardSphere => trivial
  | hardChain => trivial
  | dispersion => trivial
  | dipole => exact Or.inr (dipolePhis_absent _ fun i hi => absurd hi (hm' i (by simp)))
  | quadrupole => exact (C95_quadrupole_no_pole (C96_warm_quadrupole k hpr hT hV hN hN0 hd hq)).1
  | dipoleQuadrupole v => exact Or.inr (dipoleQuadrupolePhis_absent v _ fun i hi => absurd hi (hm' i (by simp)))
  | association => exact mixture_association k hpr ha o hct
  | crossAssociation _ _ => exact absurd hct (mixture_no_cross k ha o)

omit hpr in
/-- molecules without moments and sites -/
theorem mixture_plain (hmu : ∀ i, (fromRecords pr k).mu i = 0) (hq : ∀ i, (fromRecords pr k).q i = 0)
    (hk : ∀ i, (fromRecords pr k).kappa_ab i = 0) : Plain (fromRecords pr k) := by
  refine ⟨List.length_eq_zero_iff.2 ?_, List.length_eq_zero_iff.2 ?_, List.length_eq_zero_iff.2 ?_⟩
  · exact List.eq_nil_iff_forall_not_mem.2 fun i hi => (mem_nonzeroComp _ i).1 hi (mu2_zero (hmu i))
  · exact List.eq_nil_iff_forall_not_mem.2 fun i hi => (mem_nonzeroComp _ i).1 hi (q2_zero (hq i))
  · exact List.eq_nil_iff_forall_not_mem.2 fun i hi => (mem_nonzeroComp _ i).1 hi (hk i)

theorem mixture_attracting (hmu : ∀ i, (fromRecords pr k).mu i = 0) (hq : ∀ i, (fromRecords pr k).q i = 0)
    (hk : ∀ i, (fromRecords pr k).kappa_ab i = 0) (hN : ∀ i, 0 ≤ N i) {i j : Fin n} (hi : 0 < N i) (hj : 0 < N j)
    (hij : k i j ≠ 1) : Attracting (fromRecords pr k) N := by
  obtain ⟨h1, h2, h3⟩ := mixture_plain k hmu hq hk
  refine ⟨h1, h2, h3, ?_, i, j, hi, hj, ?_⟩
  · rw [Finset.mul_sum]
    refine Finset.sum_le_sum fun l _ => ?_
    have := (mixture_pos k hpr l).1
    have := hN l
    nlinarith
  · change (1.0 - k i j) * Real.sqrt ((fromRecords pr k).epsilon_k i * (fromRecords pr k).epsilon_k j) ≠ 0
    refine mul_ne_zero (fun h0 => hij ?_) (Real.sqrt_ne_zero'.2 (mul_pos (mixture_pos k hpr i).2.2 (mixture_pos k hpr j).2.2))
    norm_num at h0
    linarith

/-- C96: every mixture of shipped substances without moments and sites condenses at low temperature and has a
critical point above which there is one phase only. -/
theorem C96_condensation (o : PcSaftOptions ℝ) (la : LinAlg ℝ ℝ) (laD : LinAlg ℝ (Dual ℝ))
    (laD3 : LinAlg ℝ (Dual (Dual (Dual ℝ)))) (hmu : ∀ i, (fromRecords pr k).mu i = 0)
    (hq : ∀ i, (fromRecords pr k).q i = 0) (hk : ∀ i, (fromRecords pr k).kappa_ab i = 0) (hN : ∀ i, 0 ≤ N i)
    (hpair : ∃ i j, 0 < N i ∧ 0 < N j ∧ k i j ≠ 1) :
    (∃ T₀, 0 < T₀ ∧ ∀ t, 0 < t → t < T₀ → ∃ P Vl Vv, 0 < P ∧ Vl < Vv
      ∧ IsStable (fromRecords pr k) o la laD t Vl N P ∧ IsStable (fromRecords pr k) o la laD t Vv N P)
    ∧ ∃ Tc Vc Pc, 0 < Pc ∧ Admissible (fromRecords pr k) Tc Vc N ∧ IsPressure (fromRecords pr k) o laD Tc Vc N Pc
      ∧ IsCriticalPoint (fromRecords pr k) o laD3 Tc Vc N Pc
      ∧ ∀ t, Tc < t → OnePhase (fromRecords pr k) o laD t N := by
  obtain ⟨i, j, hi, hj, hij⟩ := hpair
  have hat := mixture_attracting k hpr hmu hq hk hN hi hj hij
  have had : Admissible (fromRecords pr k) 1 (closeVolume (fromRecords pr k) 1 N + 1) N :=
    C96_admissible k hpr one_pos hN ⟨i, hi.ne'⟩ (by linarith)
  refine ⟨C92_condensation hat had la laD, ?_⟩
  obtain ⟨Tc, Vc, Pc, h1, h2, h3, h4, -, h5⟩ := C93_critical_point (o := o) hat had laD laD3
  exact ⟨Tc, Vc, Pc, h1, h2, h3, h4, h5⟩

end mixture

theorem gross2001_mixture (hpr : MixtureOf gross2001 pr) : MixtureOf substances pr := fun i => by
  obtain ⟨r, hr, e⟩ := hpr i
  exact ⟨r, by simp [substances, hr], e⟩

theorem gross2001_fields (hpr : MixtureOf gross2001 pr) (k : Fin n → Fin n → ℝ) (i : Fin n) :
    (fromRecords pr k).mu i = 0 ∧ (fromRecords pr k).q i = 0 ∧ (fromRecords pr k).kappa_ab i = 0 := by
  obtain ⟨r, hr, -, -, -, -, h1, h2, h3, -⟩ := mixture_entry hpr k i
  obtain ⟨g1, g2, g3⟩ := gross2001_plain r hr
  rw [h1, h2, h3, g1, g2, g3]
  simp

/-- C96: every substance of gross2001.json has a vapour-liquid equilibrium at every temperature below some
temperature, and a critical point. -/
theorem C96_gross2001 {pr : Fin 1 → PureRecord ℝ} (hpr : MixtureOf gross2001 pr) (o : PcSaftOptions ℝ)
    (laD : LinAlg ℝ (Dual ℝ)) (laD3 : LinAlg ℝ (Dual (Dual (Dual ℝ)))) {N : ℝ} (hN : 0 < N) :
    let p := fromRecords pr fun _ _ => 0
    (∃ T₀, 0 < T₀ ∧ ∀ t, 0 < t → t < T₀ → ∃ P μ Vl Vv, 0 < P ∧ Vl < Vv
      ∧ Admissible p t Vl (fun _ => N) ∧ Admissible p t Vv (fun _ => N)
      ∧ IsPressure p o laD t Vl (fun _ => N) P ∧ IsPressure p o laD t Vv (fun _ => N) P
      ∧ IsPotential p o laD t Vl (fun _ => N) 0 μ ∧ IsPotential p o laD t Vv (fun _ => N) 0 μ)
    ∧ ∃ Tc Vc Pc, 0 < Pc ∧ Admissible p Tc Vc (fun _ => N) ∧ IsCriticalPoint p o laD3 Tc Vc (fun _ => N) Pc
      ∧ ∀ t, Tc < t → OnePhase p o laD t (fun _ => N) := by
  intro p
  have hs := gross2001_mixture hpr
  have hf := gross2001_fields hpr fun _ _ => 0
  have hat := mixture_attracting (N := fun _ => N) (fun _ _ => 0) hs (fun i => (hf i).1) (fun i => (hf i).2.1)
    (fun i => (hf i).2.2) (fun _ => hN.le) (i := 0) (j := 0) hN hN (by norm_num)
  have had : Admissible p 1 (closeVolume p 1 (fun _ => N) + 1) (fun _ => N) :=
    C96_admissible (fun _ _ => 0) hs one_pos (fun _ => hN.le) ⟨0, hN.ne'⟩ (by linarith)
  refine ⟨C92_phase_equilibrium hat had laD, ?_⟩
  obtain ⟨Tc, Vc, Pc, h1, h2, -, h4, -, h5⟩ := C93_critical_point (o := o) hat had laD laD3
  exact ⟨Tc, Vc, Pc, h1, h2, h4, h5⟩

/-- C96: mixtures of the substances of loetgeringlin2018.json always have a viscosity correlation. -/
theorem C96_viscosity (hpr : MixtureOf loetgeringlin2018 pr) (k : Fin n → Fin n → ℝ) (s : ℝ) (x : Fin n → ℝ) :
    ∃ y, viscosityCorrelation (fromRecords pr k) s x = .ok y := by
  have h : (fromRecords pr k).viscosity ≠ none := by
    change (collectOption fun i => (pr i).model_record.viscosity).map _ ≠ none
    rw [Ne, Option.map_eq_none_iff, ← Option.not_isSome_iff_eq_none, not_not, collectOption_isSome]
    intro i
    obtain ⟨r, hr, -, -, -, -, -, -, -, -, -, -, h⟩ := mixture_entry hpr k i
    rw [h, loetgeringlin2018_viscosity r hr]
  cases e : viscosityCorrelation (fromRecords pr k) s x with
  | ok y => exact ⟨y, rfl⟩
  | error er => exact absurd ((C46_viscosity_correlation_outcome _ s x).1 ⟨er, e⟩) h

/-! ## Group contributions -/

/-- the segments of a molecule with their counts, as handed to `from_segments` (feos_core counts the groups of the
substance; the order does not matter, C06) -/
noncomputable def groupSegments (tab : Group → PcSaftRecord ℚ) (l : List Group) : List (PcSaftRecord ℝ × ℝ) :=
  l.dedup.map fun g => ((tab g).map (Rat.cast : ℚ → ℝ), (l.count g : ℝ))

theorem sum_counts (l : List Group) (f : Group → ℚ) :
    (l.dedup.map fun g => (f g : ℝ) * (l.count g : ℝ)).sum = (((l.map f).sum : ℚ) : ℝ) := by
  have h1 : (l.map f).sum = ∑ g ∈ l.toFinset, l.count g • f g := Finset.sum_list_map_count l f
  have h2 : (l.dedup.map fun g => (f g : ℝ) * (l.count g : ℝ)).sum = ∑ g ∈ l.toFinset, (f g : ℝ) * (l.count g : ℝ) := by
    rw [← List.sum_toFinset _ l.nodup_dedup]
    congr 1
    ext g
    simp
  rw [h1, h2, Rat.cast_sum]
  refine Finset.sum_congr rfl fun g _ => ?_
  rw [nsmul_eq_mul, Rat.cast_mul, Rat.cast_natCast, mul_comm]

theorem groups_record (tab : Group → PcSaftRecord ℚ) (l : List Group) (h1 : 0 < (l.map fun g => (tab g).m).sum)
    (h2 : 0 < (l.map fun g => (tab g).m * (tab g).sigma ^ 3).sum)
    (h3 : 0 < (l.map fun g => (tab g).m * (tab g).epsilon_k).sum) :
    ∃ r, fromSegments (groupSegments tab l) = .ok r ∧ 0 < r.m ∧ 0 < r.sigma ∧ 0 < r.epsilon_k := by
  obtain ⟨r, hr, e1, e2, -⟩ := C05_from_segments_additive (groupSegments tab l)
  have k1 := sum_counts l fun g => (tab g).m
  have k2 := sum_counts l fun g => (tab g).m * (tab g).sigma ^ 3
  have k3 := sum_counts l fun g => (tab g).m * (tab g).epsilon_k
  simp only [Rat.cast_mul, Rat.cast_pow] at k2 k3
  have hm : 0 < r.m := by
    rw [e1, groupSegments, List.map_map]
    refine lt_of_lt_of_eq ?_ k1.symm
    exact_mod_cast h1
  obtain ⟨e2, e3⟩ := e2 hm.ne'
  have hs : 0 < r.m * r.sigma ^ 3 := by
    rw [e2, groupSegments, List.map_map]
    refine lt_of_lt_of_eq ?_ k2.symm
    exact_mod_cast h2
  have he : 0 < r.m * r.epsilon_k := by
    rw [e3, groupSegments, List.map_map]
    refine lt_of_lt_of_eq ?_ k3.symm
    exact_mod_cast h3
  exact ⟨r, hr, hm, (Odd.pow_pos_iff (by decide : Odd 3)).1 ((mul_pos_iff_of_pos_left hm).1 hs), (mul_pos_iff_of_pos_left hm).1 he⟩

theorem gc_sums : ∀ s ∈ gc_substances, 0 < (s.2.map fun g => (sauer2014_homo g).m).sum
    ∧ 0 < (s.2.map fun g => (sauer2014_homo g).m * (sauer2014_homo g).sigma ^ 3).sum
    ∧ 0 < (s.2.map fun g => (sauer2014_homo g).m * (sauer2014_homo g).epsilon_k).sum := by
  decide +kernel

theorem loetgeringlin2015_eq (g : Group) : (loetgeringlin2015_homo g).m = (sauer2014_homo g).m
    ∧ (loetgeringlin2015_homo g).sigma = (sauer2014_homo g).sigma
    ∧ (loetgeringlin2015_homo g).epsilon_k = (sauer2014_homo g).epsilon_k := by
  cases g <;> exact ⟨rfl, rfl, rfl⟩

/-- C96: the group contribution method gives positive parameters for every substance of gc_substances.json, with
both files of group parameters, although the parameters of the group `>C<` are negative. -/
theorem C96_group_contribution (s : String × List Group) (hs : s ∈ gc_substances) (tab : Group → PcSaftRecord ℚ)
    (htab : tab = sauer2014_homo ∨ tab = loetgeringlin2015_homo) :
    ∃ r, fromSegments (groupSegments tab s.2) = .ok r ∧ 0 < r.m ∧ 0 < r.sigma ∧ 0 < r.epsilon_k := by
  obtain ⟨h1, h2, h3⟩ := gc_sums s hs
  rcases htab with rfl | rfl
  · exact groups_record _ _ h1 h2 h3
  · refine groups_record _ _ ?_ ?_ ?_ <;> simpa only [loetgeringlin2015_eq]

/-- sums over molecules made of alkane groups only -/
theorem alkane_sum (f : Group → ℚ) (l : List Group) (h : ∀ g ∈ l, g = .CH3 ∨ g = .CH2 ∨ g = .CH ∨ g = .C) :
    (l.map f).sum = l.count .CH3 * f .CH3 + l.count .CH2 * f .CH2 + l.count .CH * f .CH + l.count .C * f .C
    ∧ l.length = l.count .CH3 + l.count .CH2 + l.count .CH + l.count .C := by
  induction l with
  | nil => simp
  | cons g l ih =>
    obtain ⟨h1, h2⟩ := ih fun g hg => h g (List.mem_cons_of_mem _ hg)
    rw [List.map_cons, List.sum_cons, h1, List.length_cons, h2]
    rcases h g List.mem_cons_self with rfl | rfl | rfl | rfl <;> simp <;> constructor <;> ring

/-- C96: the group contribution method gives positive parameters for every branched alkane of any size: molecules of
the groups CH3, CH2, CH and C whose bonds form a tree (twice as many bond ends as bonds, one bond less than
groups). -/
theorem C96_alkanes (l : List Group) (hl : ∀ g ∈ l, g = .CH3 ∨ g = .CH2 ∨ g = .CH ∨ g = .C)
    (htree : l.count .CH3 + 2 * l.count .CH2 + 3 * l.count .CH + 4 * l.count .C + 2 = 2 * l.length)
    (tab : Group → PcSaftRecord ℚ) (htab : tab = sauer2014_homo ∨ tab = loetgeringlin2015_homo) :
    ∃ r, fromSegments (groupSegments tab l) = .ok r ∧ 0 < r.m ∧ 0 < r.sigma ∧ 0 < r.epsilon_k := by
  have hlen := (alkane_sum (fun _ => 0) l hl).2
  have h3 : l.count .CH3 = 2 + l.count .CH + 2 * l.count .C := by omega
  have h3' : (l.count Group.CH3 : ℚ) = 2 + l.count .CH + 2 * l.count .C := by exact_mod_cast h3
  have n2 : (0 : ℚ) ≤ l.count Group.CH2 := Nat.cast_nonneg _
  have n1 : (0 : ℚ) ≤ l.count Group.CH := Nat.cast_nonneg _
  have n0 : (0 : ℚ) ≤ l.count Group.C := Nat.cast_nonneg _
  have key : 0 < (l.map fun g => (sauer2014_homo g).m).sum
      ∧ 0 < (l.map fun g => (sauer2014_homo g).m * (sauer2014_homo g).sigma ^ 3).sum
      ∧ 0 < (l.map fun g => (sauer2014_homo g).m * (sauer2014_homo g).epsilon_k).sum := by
    rw [(alkane_sum (fun g => (sauer2014_homo g).m) l hl).1,
      (alkane_sum (fun g => (sauer2014_homo g).m * (sauer2014_homo g).sigma ^ 3) l hl).1,
      (alkane_sum (fun g => (sauer2014_homo g).m * (sauer2014_homo g).epsilon_k) l hl).1, h3']
    simp only [sauer2014_homo, record]
    norm_num
    refine ⟨?_, ?_, ?_⟩ <;> nlinarith
  obtain ⟨k1, k2, k3⟩ := key
  rcases htab with rfl | rfl
  · exact groups_record _ _ k1 k2 k3
  · refine groups_record _ _ ?_ ?_ ?_ <;> simpa only [loetgeringlin2015_eq]

/-- without the end groups the parameters can be negative: the group `>C<` alone -/
theorem C96_negative_segments : ∃ r, fromSegments (groupSegments sauer2014_homo [.C]) = .ok r ∧ r.m < 0 := by
  obtain ⟨r, hr, e1, -⟩ := C05_from_segments_additive (groupSegments sauer2014_homo [.C])
  refine ⟨r, hr, ?_⟩
  rw [e1]
  simp [groupSegments, PcSaftRecord.map, sauer2014_homo, record]
  norm_num

/-! ## Cases that meet the hypotheses -/

/-- methane and butane from gross2001.json -/
noncomputable def alkanePair : Fin 2 → PureRecord ℝ :=
  ![(gross2001[0]'(by decide)).map (Rat.cast : ℚ → ℝ), (gross2001[3]'(by decide)).map (Rat.cast : ℚ → ℝ)]

theorem alkanePair_mixture : MixtureOf gross2001 alkanePair := by
  intro i
  fin_cases i
  · exact ⟨_, List.getElem_mem _, rfl⟩
  · exact ⟨_, List.getElem_mem _, rfl⟩

example (o : PcSaftOptions ℝ) (la : LinAlg ℝ ℝ) (laD : LinAlg ℝ (Dual ℝ)) (laD3 : LinAlg ℝ (Dual (Dual (Dual ℝ)))) :=
  have hf := gross2001_fields alkanePair_mixture fun _ _ => 0
  C96_condensation (N := fun _ => 1) (fun _ _ => 0) (gross2001_mixture alkanePair_mixture) o la laD laD3
    (fun i => (hf i).1) (fun i => (hf i).2.1) (fun i => (hf i).2.2) (fun _ => zero_le_one)
    ⟨0, 1, one_pos, one_pos, by norm_num⟩

/-- acetone from gross2006.json and ethanol from gross2002.json -/
noncomputable def polarPair : Fin 2 → PureRecord ℝ :=
  ![(gross2006[0]'(by decide)).map (Rat.cast : ℚ → ℝ), (gross2002[1]'(by decide)).map (Rat.cast : ℚ → ℝ)]

theorem polarPair_mixture : MixtureOf substances polarPair := by
  intro i
  fin_cases i
  · exact ⟨gross2006[0]'(by decide), by
      have := List.getElem_mem (l := gross2006) (n := 0) (by decide)
      simp only [substances, List.mem_append]
      tauto, rfl⟩
  · exact ⟨gross2002[1]'(by decide), by
      have := List.getElem_mem (l := gross2002) (n := 1) (by decide)
      simp only [substances, List.mem_append]
      tauto, rfl⟩

theorem polarPair_sites (k : Fin 2 → Fin 2 → ℝ) : (fromRecords polarPair k).nassoc ≤ 1 := by
  have h : (fromRecords polarPair k).assoc_comp ⊆ [1] := by
    intro i hi
    have := (mem_assoc_iff polarPair k i).1 hi
    fin_cases i
    · exact absurd (show ((fromRecords polarPair k).kappa_ab 0 : ℝ) = 0 by
        change Option.getD none (0.0 : ℝ) = 0
        norm_num) this
    · simp
  have hnd : (fromRecords polarPair k).assoc_comp.Nodup :=
    List.Nodup.filter (fun i => F64.lt 0.0 (F64.abs ((fromRecords polarPair k).kappa_ab i))) (List.nodup_finRange 2)
  exact (List.subperm_of_subset hnd h).length_le

theorem polarPair_quadrupoles (k : Fin 2 → Fin 2 → ℝ) (i : Fin 2) : (fromRecords polarPair k).q i = 0 := by
  fin_cases i <;>
  · change Option.getD none (0.0 : ℝ) = 0
    norm_num

/-- at the maximum density of the mixture and 300 K -/
example (o : PcSaftOptions ℝ) (la : LinAlg ℝ ℝ) (laX : LinAlg XReal XReal) :
    ∃ (V A : ℝ), 0 < V ∧ 2 / V = (Eos.new (fromRecords polarPair fun _ _ => 0)).maxDensity (fun _ => 1)
      ∧ (Eos.withOptions (xParameters polarPair fun _ _ => 0) (o.map XReal.fin)).residualHelmholtz laX
        (StateHD.new (XReal.fin 300) (XReal.fin V) (fun _ => XReal.fin 1)) = .ok (XReal.fin A) := by
  have hm := mixture_pos (fun _ _ => 0) polarPair_mixture
  set ρ := (Eos.new (fromRecords polarPair fun _ _ => 0)).maxDensity (fun _ => 1) with hρ
  have hρ0 : 0 < ρ := by
    have hpos : ∀ i : Fin 2, 0 < Real.pi / 6 * (fromRecords polarPair fun _ _ => 0).m i
        * (fromRecords polarPair fun _ _ => 0).sigma i ^ 3 * 1 := fun i => by
      have h1 := (hm i).1
      have h2 := (hm i).2.1
      have := Real.pi_pos
      have : 0 < (fromRecords polarPair fun _ _ => 0).m i := by linarith
      positivity
    have e1 : ρ = 1 / 2 * 2 / ∑ i : Fin 2, Real.pi / 6 * (fromRecords polarPair fun _ _ => 0).m i
        * (fromRecords polarPair fun _ _ => 0).sigma i ^ 3 * 1 := by
      simp only [hρ, Eos.maxDensity, Eos.new, Eos.withOptions, computeMaxDensity, sumFin_real, powi_real, pi_real,
        PcSaftOptions.default]
      norm_num
    rw [e1]
    exact div_pos (by norm_num) (Finset.sum_pos (fun i _ => hpos i) ⟨0, Finset.mem_univ 0⟩)
  have e : 2 / (2 / ρ) = ρ := by field_simp
  obtain ⟨A, -, h⟩ := C96_finite (T := 300) (V := 2 / ρ) (N := fun _ => 1) (fun _ _ => 0) polarPair_mixture o la laX
    (by norm_num) (fun _ => by norm_num) (by positivity) (fun _ => zero_le_one) ⟨0, one_ne_zero⟩
    (by rw [← hρ]; norm_num [e]) (polarPair_quadrupoles _) (polarPair_sites _)
  exact ⟨2 / ρ, A, by positivity, e, h⟩

/-- carbon dioxide from gross2005_fit.json and methane -/
noncomputable def quadrupolePair : Fin 2 → PureRecord ℝ :=
  ![(gross2005_fit[0]'(by decide)).map (Rat.cast : ℚ → ℝ), (gross2001[0]'(by decide)).map (Rat.cast : ℚ → ℝ)]

/-- the carbon dioxide is the only quadrupolar component, and there are no dipoles -/
theorem quadrupolePair_case (k : Fin 2 → Fin 2 → ℝ) : MixtureOf substances quadrupolePair
    ∧ (∀ i, (fromRecords quadrupolePair k).q i ≠ 0 ↔ i = 0) ∧ (∀ i, (fromRecords quadrupolePair k).mu i = 0) := by
  refine ⟨fun i => ?_, fun i => ?_, fun i => ?_⟩
  · fin_cases i
    · exact ⟨gross2005_fit[0]'(by decide), by
        have := List.getElem_mem (l := gross2005_fit) (n := 0) (by decide)
        simp only [substances, List.mem_append]
        tauto, rfl⟩
    · exact ⟨gross2001[0]'(by decide), by
        have := List.getElem_mem (l := gross2001) (n := 0) (by decide)
        simp only [substances, List.mem_append]
        tauto, rfl⟩
  · fin_cases i
    · refine iff_of_true ?_ rfl
      change ((3.9546 : ℚ) : ℝ) ≠ 0
      norm_num
    · refine iff_of_false (not_not.2 ?_) (by decide)
      change Option.getD none (0.0 : ℝ) = 0
      norm_num
  · fin_cases i <;>
    · change Option.getD none (0.0 : ℝ) = 0
      norm_num

/-- finite at the highest density the code allows -/
example (o : PcSaftOptions ℝ) (la : LinAlg ℝ ℝ) (laX : LinAlg XReal XReal) :
    ∃ (V A : ℝ), 0 < V ∧ 2 / V = (Eos.new (fromRecords quadrupolePair fun _ _ => 0)).maxDensity (fun _ => 1)
      ∧ (Eos.withOptions (xParameters quadrupolePair fun _ _ => 0) (o.map XReal.fin)).residualHelmholtz laX
        (StateHD.new (XReal.fin 345) (XReal.fin V) (fun _ => XReal.fin 1)) = .ok (XReal.fin A) := by
  obtain ⟨hq, h1, h2⟩ := quadrupolePair_case fun _ _ => 0
  have hm := mixture_pos (fun _ _ => 0) hq
  set ρ := (Eos.new (fromRecords quadrupolePair fun _ _ => 0)).maxDensity (fun _ => 1) with hρ
  have hρ0 : 0 < ρ := (C12_max_density (pr := quadrupolePair) (k := fun _ _ => 0) (fun i => by
      have : 4 / 5 ≤ (quadrupolePair i).model_record.m := (hm i).1
      linarith) (fun i => (hm i).2.1)
      PcSaftOptions.default (fun _ => 1) (fun _ => zero_le_one) ⟨0, one_ne_zero⟩).2.1 (by norm_num [PcSaftOptions.default])
  have e : 2 / (2 / ρ) = ρ := by field_simp
  obtain ⟨A, -, h⟩ := C96_quadrupolar_finite (T := 345) (V := 2 / ρ) (N := fun _ => 1) (fun _ _ => 0) hq o la laX
    le_rfl (by positivity) (fun _ => zero_le_one) ⟨0, one_ne_zero⟩
    (by rw [← hρ]; norm_num [e]) h1 h2 (length_nonzeroComp_le_one
      (fromRecords quadrupolePair fun _ _ => 0).kappa_ab 0 fun i hi => absurd (by
        fin_cases i <;>
        · change Option.getD none (0.0 : ℝ) = 0
          norm_num) hi)
  exact ⟨2 / ρ, A, by positivity, e, h⟩

/-- 2,2-dimethylbutane -/
example := C96_alkanes [.CH3, .CH3, .CH3, .CH3, .CH2, .C] (by decide) (by decide) sauer2014_homo (.inl rfl)

/-- neopentane of any number of additional dimethyl groups in the chain -/
example (j : ℕ) := C96_alkanes ([.CH3, .CH3] ++ List.replicate j .C ++ List.replicate (2 * j) .CH3)
  (by intro g hg; simp at hg; rcases hg with rfl | ⟨-, rfl⟩ | ⟨-, rfl⟩ <;> simp)
  (by simp [List.count_replicate]; omega) sauer2014_homo (.inl rfl)

end PcSaft.Props
