import Verif.Props.CrossDilute
import Verif.Props.Fading
import Verif.Props.Theory
import Verif.Lemmas.Cold

/-!
# Property C106: at high temperature only the shape of the molecules matters

At constant volume all attraction fades away on heating and the segments shrink to 88 percent of their nominal diameter.
-/

open Filter Topology

namespace PcSaft.Spec
variable {n : ℕ}

/-- moments of the size distribution of spheres with diameters `d`, of which each molecule has `m` -/
noncomputable def sizeMoment (m d rho : Fin n → ℝ) (j : ℕ) : ℝ := Real.pi / 6 * ∑ i, rho i * m i * d i ^ j

/-- Helmholtz energy density (over `k_B T`) of a mixture of chains of `m` tangent hard spheres with diameters `d`: the
equation of Boublik, Mansoori, Carnahan, Starling and Leland for the spheres and the first-order theory of Wertheim for
the bonds -/
noncomputable def hardChains (m d rho : Fin n → ℝ) : ℝ :=
  let z := sizeMoment m d rho
  6 / Real.pi * (3 * z 1 * z 2 / (1 - z 3) + z 2 ^ 3 / (z 3 * (1 - z 3) ^ 2)
      + (z 2 ^ 3 / z 3 ^ 2 - z 0) * Real.log (1 - z 3))
    - ∑ i, rho i * (m i - 1) * Real.log (1 / (1 - z 3) + 3 / 2 * d i * z 2 / (1 - z 3) ^ 2
      + 1 / 2 * d i ^ 2 * z 2 ^ 2 / (1 - z 3) ^ 3)

/-- Polar molecules for which the expansion of the polar terms is not singular in the limit. -/
structure HotPolar (p : PcSaftParameters n ℝ) (V : ℝ) (N : Fin n → ℝ) : Prop where
  packing : ∀ i, p.mu i ≠ 0 ∨ p.q i ≠ 0 → sizeMoment p.m (fun i => 0.88 * p.sigma i) (fun i => N i / V) 3 ≤ 1 / 2
  segments : ∀ i, p.mu i ≠ 0 ∨ p.q i ≠ 0 → 1 ≤ p.m i
  energy_pos : ∀ i, p.mu i ≠ 0 ∨ p.q i ≠ 0 → 0 < p.epsilon_k i

end PcSaft.Spec

namespace PcSaft.Props
open PcSaft Spec
variable {n : ℕ} {pr : Fin n → PureRecord ℝ} {k : Fin n → Fin n → ℝ} {T V : ℝ} {N : Fin n → ℝ}

/-! ## Diameters and moments -/

theorem hot_exp (a : ℝ) : Tendsto (fun T' : ℝ => Real.exp (a / T')) atTop (𝓝 1) := by
  have := (Real.continuous_exp.tendsto 0).comp
    ((tendsto_const_nhds (x := a)).div_atTop (tendsto_id : Tendsto (id : ℝ → ℝ) atTop atTop))
  rw [Real.exp_zero] at this
  exact this

theorem hot_diameter (s e : ℝ) : Tendsto (fun T' => Spec.diameter s e T') atTop (𝓝 (0.88 * s)) := by
  have := ((hot_exp (-3 * e)).const_mul 0.12).const_sub 1 |>.const_mul s
  have e : s * (1 - 0.12 * 1) = 0.88 * s := by norm_num; ring
  rw [e] at this
  exact this

theorem hot_moment (pr : Fin n → PureRecord ℝ) (k : Fin n → Fin n → ℝ) (rho : Fin n → ℝ) (j : ℕ) :
    Tendsto (fun T' => (fluidOf pr k).zeta T' rho j) atTop
      (𝓝 (sizeMoment (fromRecords pr k).m (fun i => 0.88 * (fromRecords pr k).sigma i) rho j)) :=
  (tendsto_finsetSum _ fun _ _ => ((hot_diameter _ _).pow j).const_mul _).const_mul _

theorem packing_zeta (T : ℝ) : (fluidOf pr k).zeta T (fun i => N i / V) 3 = Spec.packingFraction (fromRecords pr k) T V N := by
  simp only [Spec.Fluid.zeta, Spec.packingFraction, Finset.mul_sum]
  exact Finset.sum_congr rfl fun i _ => by
    simp only [Spec.Fluid.d, fluidOf, fromRecords]
    ring

section
variable (h : Admissible (fromRecords pr k) T V N)
include h

theorem hot_zeta3 : 0 < sizeMoment (fromRecords pr k).m (fun i => 0.88 * (fromRecords pr k).sigma i) (fun i => N i / V) 3
    ∧ sizeMoment (fromRecords pr k).m (fun i => 0.88 * (fromRecords pr k).sigma i) (fun i => N i / V) 3 < 1 := by
  constructor
  · obtain ⟨i, hi⟩ := h.moles_ne_zero
    have hV := h.volume
    refine mul_pos (by positivity) (Finset.sum_pos' (fun i _ => ?_) ⟨i, Finset.mem_univ i, ?_⟩)
    · have := h.sigma_pos i
      have := h.m_pos i
      have := h.moles_nonneg i
      positivity
    · have := h.sigma_pos i
      have := h.m_pos i
      have := lt_of_le_of_ne (h.moles_nonneg i) (Ne.symm hi)
      positivity
  · refine lt_of_le_of_lt ?_ h.packing
    refine le_of_tendsto (hot_moment pr k _ 3) ((eventually_ge_atTop T).mono fun T' hT => ?_)
    rw [packing_zeta]
    refine Finset.sum_le_sum fun i _ => div_le_div_of_nonneg_right ?_ h.volume.le
    refine mul_le_mul_of_nonneg_left ?_ (mul_nonneg (h.moles_nonneg i) (h.m_pos i).le)
    refine mul_le_mul_of_nonneg_left ?_ (by positivity)
    have h1 := (Admissible.heat h hT).diameter_pos i
    rw [hsDiameter_eq_spec] at h1
    exact pow_le_pow_left₀ h1.le (diameter_antitone (h.sigma_pos i) (h.epsilon_nonneg i) h.temperature hT) 3

omit h in
theorem hot_packing : Tendsto (fun T' => Spec.packingFraction (fromRecords pr k) T' V N) atTop
    (𝓝 (sizeMoment (fromRecords pr k).m (fun i => 0.88 * (fromRecords pr k).sigma i) (fun i => N i / V) 3)) := by
  simp only [← packing_zeta]
  exact hot_moment pr k _ 3

/-! ## Hard chains and dispersion -/

theorem hot_chains : Tendsto (fun T' => hardSphere (fromRecords pr k) (StateHD.new T' V N)
      + hardChain (fromRecords pr k) (StateHD.new T' V N)) atTop
    (𝓝 (V * hardChains (fromRecords pr k).m (fun i => 0.88 * (fromRecords pr k).sigma i) fun i => N i / V)) := by
  obtain ⟨z0, z1⟩ := hot_zeta3 h
  have hm := hot_moment pr k fun i => N i / V
  have e : ∀ᶠ T' in atTop, V * ((fluidOf pr k).hardSphere T' (fun i => N i / V)
        + (fluidOf pr k).chain T' fun i => N i / V)
      = hardSphere (fromRecords pr k) (StateHD.new T' V N) + hardChain (fromRecords pr k) (StateHD.new T' V N) := by
    filter_upwards [eventually_ge_atTop T] with T' hT
    rw [C64_hard_sphere pr k T' V N (Admissible.heat h hT), C64_hard_chain pr k T' V N (Admissible.heat h hT), mul_add]
  refine Tendsto.congr' e (Tendsto.const_mul V ?_)
  generalize hz : sizeMoment (fromRecords pr k).m (fun i => 0.88 * (fromRecords pr k).sigma i) (fun i => N i / V) = z
    at hm z0 z1
  have hne : 1 - z 3 ≠ 0 := by linarith
  have h1 := (hm 3).const_sub 1
  have hd : ∀ i, Tendsto (fun T' => (fluidOf pr k).d T' i) atTop (𝓝 (0.88 * (fromRecords pr k).sigma i)) :=
    fun i => hot_diameter _ _
  simp only [hardChains, hz, sub_eq_add_neg (6 / Real.pi * _)]
  refine Tendsto.add (Tendsto.const_mul _ (Tendsto.add (Tendsto.add ?_ ?_) ?_)) ?_
  · exact (((hm 1).const_mul 3).mul (hm 2)).div h1 hne
  · exact ((hm 2).pow 3).div ((hm 3).mul (h1.pow 2)) (mul_ne_zero z0.ne' (pow_ne_zero 2 hne))
  · refine ((((hm 2).pow 3).div ((hm 3).pow 2) (pow_ne_zero 2 z0.ne')).sub (hm 0)).mul ?_
    exact (Real.continuousAt_log hne).tendsto.comp h1
  · simp only [Spec.Fluid.chain]
    refine Tendsto.neg (tendsto_finsetSum _ fun i _ => Tendsto.const_mul _ ?_)
    have hs := h.sigma_pos i
    have hz2 : 0 ≤ z 2 := by
      rw [← hz]
      refine mul_nonneg (by positivity) (Finset.sum_nonneg fun i _ => ?_)
      have := h.m_pos i
      have := h.moles_nonneg i
      have := h.volume
      positivity
    have hpos : 0 < 1 / (1 - z 3) + 3 / 2 * (0.88 * (fromRecords pr k).sigma i) * z 2 / (1 - z 3) ^ 2
        + 1 / 2 * (0.88 * (fromRecords pr k).sigma i) ^ 2 * z 2 ^ 2 / (1 - z 3) ^ 3 := by
      have : 0 < 1 - z 3 := by linarith
      positivity
    refine (Real.continuousAt_log hpos.ne').tendsto.comp ?_
    have g := ((tendsto_const_nhds (x := (1 : ℝ))).div h1 hne).add
      (((((hd i).const_mul (3 / 2)).mul (hm 2)).div (h1.pow 2) (pow_ne_zero 2 hne)))
      |>.add (((((hd i).pow 2).const_mul (1 / 2)).mul ((hm 2).pow 2)).div (h1.pow 3) (pow_ne_zero 3 hne))
    refine g.congr fun T' => ?_
    simp only [Pi.div_apply, Spec.Fluid.contact]
    ring

theorem hot_dispersion : Tendsto (fun T' => dispersion (fromRecords pr k) (StateHD.new T' V N)) atTop (𝓝 0) := by
  obtain ⟨z0, z1⟩ := hot_zeta3 h
  have hinv : ∀ a : ℝ, Tendsto (fun T' : ℝ => a / T') atTop (𝓝 0) := fun a => tendsto_const_nhds.div_atTop tendsto_id
  have hN : 0 < ∑ i, N i := sum_moles_pos pr k h
  have hm : 0 < ∑ i, (StateHD.new T V N).molefracs i * (fromRecords pr k).m i := by
    obtain ⟨i, hi⟩ := h.moles_ne_zero
    have e : ∀ i, (StateHD.new T V N).molefracs i = N i / ∑ j, N j := fun i => by
      simp only [StateHD.new, sumFin_real]
    simp only [e]
    refine Finset.sum_pos' (fun i _ => ?_) ⟨i, Finset.mem_univ i, ?_⟩
    · exact mul_nonneg (div_nonneg (h.moles_nonneg i) hN.le) (h.m_pos i).le
    · exact mul_pos (div_pos (lt_of_le_of_ne (h.moles_nonneg i) (Ne.symm hi)) hN) (h.m_pos i)
  have h3 : Tendsto (fun T' => zeta (fromRecords pr k).m (StateHD.new T' V N).partial_density
      (hsDiameter (fromRecords pr k) T') 3) atTop
      (𝓝 (sizeMoment (fromRecords pr k).m (fun i => 0.88 * (fromRecords pr k).sigma i) (fun i => N i / V) 3)) := by
    simp only [zeta3_eq_packing]
    exact hot_packing
  have r1 : Tendsto (fun T' => rho1mix (fromRecords pr k) T' fun i => N i / V) atTop (𝓝 0) := by
    simp only [rho1mix_real]
    have : Tendsto (fun T' : ℝ => ∑ i, ∑ j, N i / V * (N j / V) * ((fromRecords pr k).m i * (fromRecords pr k).m j
        * ((fromRecords pr k).epsilon_k_ij i j / T') * (fromRecords pr k).sigma_ij i j ^ 3)) atTop
        (𝓝 (∑ i, ∑ j, N i / V * (N j / V) * ((fromRecords pr k).m i * (fromRecords pr k).m j * 0
          * (fromRecords pr k).sigma_ij i j ^ 3))) :=
      tendsto_finsetSum _ fun i _ => tendsto_finsetSum _ fun j _ =>
        ((((hinv _).const_mul _).mul_const _).const_mul _)
    simpa using this
  have r2 : Tendsto (fun T' => rho2mix (fromRecords pr k) T' fun i => N i / V) atTop (𝓝 0) := by
    simp only [rho2mix_real]
    have : Tendsto (fun T' : ℝ => ∑ i, ∑ j, N i / V * (N j / V) * ((fromRecords pr k).m i * (fromRecords pr k).m j
        * ((fromRecords pr k).epsilon_k_ij i j / T') ^ 2 * (fromRecords pr k).sigma_ij i j ^ 3)) atTop
        (𝓝 (∑ i, ∑ j, N i / V * (N j / V) * ((fromRecords pr k).m i * (fromRecords pr k).m j * 0 ^ 2
          * (fromRecords pr k).sigma_ij i j ^ 3))) :=
      tendsto_finsetSum _ fun i _ => tendsto_finsetSum _ fun j _ =>
        (((((hinv _).pow 2).const_mul _).mul_const _).const_mul _)
    simpa using this
  have hI : ∀ a0 a1 a2 : Fin 7 → ℝ, ∀ m : ℝ, Continuous fun x => intForm a0 a1 a2 m x := fun a0 a1 a2 m => by
    unfold intForm
    fun_prop
  simp only [dispersion_real, StateHD.new_temperature, StateHD.new_density, StateHD.new_volume, dispForm] at h3 ⊢
  have em : ∀ T', ∑ i, (StateHD.new T' V N).molefracs i * (fromRecords pr k).m i
      = ∑ i, (StateHD.new T V N).molefracs i * (fromRecords pr k).m i := fun _ => rfl
  simp only [em]
  generalize ∑ i, (StateHD.new T V N).molefracs i * (fromRecords pr k).m i = m at hm
  have g := (((r1.const_mul 2).mul (((hI A0 A1 A2 m).tendsto _).comp h3)).add
    (((r2.mul_const m).mul ((continuousAt_c1 hm z0.le z1).tendsto.comp h3)).mul
      (((hI B0 B1 B2 m).tendsto _).comp h3))).const_mul (-Real.pi * V)
  simpa using g

end

/-! ## Polar terms -/

/-- a Padé approximant of terms of the orders `T⁻²` and `T⁻³` -/
theorem pade_hot {a b : ℝ → ℝ} {a0 b0 : ℝ} (ha : Tendsto (fun T => T ^ 2 * a T) atTop (𝓝 a0))
    (hb : Tendsto (fun T => T ^ 3 * b T) atTop (𝓝 b0)) (h : a0 ≠ 0 ∨ ∀ T, a T = 0) (V : ℝ) :
    Tendsto (fun T => padeVolume (a T) (b T) V) atTop (𝓝 0) := by
  simp only [padeVolume_real]
  rcases h with h | h
  · have hi : Tendsto (fun T : ℝ => T⁻¹) atTop (𝓝 0) := tendsto_inv_atTop_zero
    have g := ((hi.pow 2).mul ((ha.mul ha).div (ha.sub (hi.mul hb)) (by simpa using h))).mul_const V
    rw [zero_pow two_ne_zero, zero_mul, zero_mul] at g
    refine g.congr' ?_
    filter_upwards [eventually_gt_atTop 0] with T hT
    have hT := hT.ne'
    simp only [Pi.div_apply]
    have e : T ^ 2 * a T - T⁻¹ * (T ^ 3 * b T) = T ^ 2 * (a T - b T) := by
      field_simp
    rw [e]
    by_cases hd : a T - b T = 0
    · rw [hd]
      simp
    · field_simp
  · simp [h]

theorem hot_pair {q : ℕ} (hq : q ≤ 5) (a b : Fin q → Fin 3 → ℝ) (p : PcSaftParameters n ℝ) (i j : Fin n) {η : ℝ → ℝ} {η0 : ℝ}
    (hη : Tendsto η atTop (𝓝 η0)) : Tendsto (fun T => pairI hq a b p T (η T) i j) atTop
      (𝓝 (pairIntegral hq (meanSeg1 (mdqPair p i j)) (meanSeg2 (mdqPair p i j)) η0 a b 0)) := by
  unfold pairI pairIntegral
  simp only [sumFin_real, etas_real, c, ofF_real]
  have hi : Tendsto (fun T : ℝ => T⁻¹ * p.e_k_ij i j) atTop (𝓝 0) := by
    simpa using tendsto_inv_atTop_zero.mul_const (p.e_k_ij i j)
  exact tendsto_finsetSum _ fun r _ => (hη.pow _).mul ((((hi.mul_const _).add_const _).add_const _).add_const _)

theorem hot_triplet (a : Fin 4 → Fin 3 → ℝ) (p : PcSaftParameters n ℝ) (i j l : Fin n) {η : ℝ → ℝ} {η0 : ℝ}
    (hη : Tendsto η atTop (𝓝 η0)) : Tendsto (fun T => tripI a p (η T) i j l) atTop (𝓝 (tripI a p η0 i j l)) := by
  unfold tripI tripletIntegral
  simp only [sumFin_real, etas_real, c, ofF_real]
  exact tendsto_finsetSum _ fun r _ => (hη.pow _).mul_const _

theorem hot_tripletDQ (p : PcSaftParameters n ℝ) (i j l : Fin n) {η : ℝ → ℝ} {η0 : ℝ}
    (hη : Tendsto η atTop (𝓝 η0)) : Tendsto (fun T => dqI3 p (η T) i j l) atTop (𝓝 (dqI3 p η0 i j l)) := by
  unfold dqI3 tripletIntegralDQ
  simp only [sumFin_real, etas_real, c, ofF_real]
  exact tendsto_finsetSum _ fun r _ => (hη.pow _).mul_const _

/-- double sums of kernels of the order `T⁻²` -/
theorem hot_pairs {K : ℝ → Fin n → Fin n → ℝ} {L : Fin n → Fin n → ℝ} (rho : Fin n → ℝ)
    (hK : ∀ i j, Tendsto (fun T => T ^ 2 * K T i j) atTop (𝓝 (L i j))) (x : ℝ) :
    Tendsto (fun T => T ^ 2 * ((-∑ i, ∑ j, rho i * rho j * K T i j) * x)) atTop
      (𝓝 ((-∑ i, ∑ j, rho i * rho j * L i j) * x)) := by
  have := ((tendsto_finsetSum (s := Finset.univ) fun i _ => tendsto_finsetSum (s := Finset.univ) fun j _ =>
    (hK i j).const_mul (rho i * rho j)).neg).mul_const x
  refine this.congr fun T => ?_
  rw [← mul_assoc]
  congr 1
  rw [mul_neg, Finset.mul_sum]
  congr 1
  refine Finset.sum_congr rfl fun i _ => ?_
  rw [Finset.mul_sum]
  exact Finset.sum_congr rfl fun j _ => by ring

theorem hot_triplets {K : ℝ → Fin n → Fin n → Fin n → ℝ} {L : Fin n → Fin n → Fin n → ℝ} (rho : Fin n → ℝ)
    (hK : ∀ i j l, Tendsto (fun T => T ^ 3 * K T i j l) atTop (𝓝 (L i j l))) (x : ℝ) :
    Tendsto (fun T => T ^ 3 * ((∑ i, ∑ j, ∑ l, rho i * rho j * rho l * K T i j l) * x)) atTop
      (𝓝 ((∑ i, ∑ j, ∑ l, rho i * rho j * rho l * L i j l) * x)) := by
  have := (tendsto_finsetSum (s := Finset.univ) fun i _ => tendsto_finsetSum (s := Finset.univ) fun j _ =>
    tendsto_finsetSum (s := Finset.univ) fun l _ => (hK i j l).const_mul (rho i * rho j * rho l)).mul_const x
  refine this.congr fun T => ?_
  rw [← mul_assoc]
  congr 1
  rw [Finset.mul_sum]
  refine Finset.sum_congr rfl fun i _ => ?_
  rw [Finset.mul_sum]
  refine Finset.sum_congr rfl fun j _ => ?_
  rw [Finset.mul_sum]
  exact Finset.sum_congr rfl fun l _ => by ring

/-- double sums of positive kernels over the components with moments do not vanish -/
theorem pairs_ne_zero {L : Fin n → Fin n → ℝ} {rho : Fin n → ℝ} {P Q : Fin n → Prop} (hr : ∀ i, 0 ≤ rho i)
    (h0 : ∀ i j, ¬(P i ∧ Q j) → L i j = 0) (hL : ∀ i j, P i → Q j → 0 < L i j) {a b : Fin n} (ha : P a) (hb : Q b)
    (hra : 0 < rho a) (hrb : 0 < rho b) {x : ℝ} (hx : 0 < x) : (-∑ i, ∑ j, rho i * rho j * L i j) * x ≠ 0 := by
  have hn : ∀ i j, 0 ≤ rho i * rho j * L i j := fun i j => by
    refine mul_nonneg (mul_nonneg (hr i) (hr j)) ?_
    by_cases hij : P i ∧ Q j
    · exact (hL i j hij.1 hij.2).le
    · rw [h0 i j hij]
  have : 0 < ∑ i, ∑ j, rho i * rho j * L i j := by
    refine Finset.sum_pos' (fun i _ => Finset.sum_nonneg fun j _ => hn i j) ⟨a, Finset.mem_univ _, ?_⟩
    refine Finset.sum_pos' (fun j _ => hn a j) ⟨b, Finset.mem_univ _, ?_⟩
    have := hL a b ha hb
    positivity
  exact (mul_neg_of_neg_of_pos (neg_lt_zero.2 this) hx).ne

/-- the pair integral of dipoles with quadrupoles without its temperature dependent part -/
theorem dqPair_hot {m y : ℝ} (h1 : 1 ≤ m) (h2 : m ≤ 2) (hy : 0 ≤ y) (hy' : y ≤ 1 / 2) :
    0 < pairIntegral (F := ℝ) (D := ℝ) (by decide) (meanSeg1 m) (meanSeg2 m) y ADQ BDQ 0 := by
  obtain ⟨u1, u2⟩ := meanSeg1_mem h1 h2
  have e : pairIntegral (F := ℝ) (D := ℝ) (by decide) (meanSeg1 m) (meanSeg2 m) y ADQ BDQ 0
      = tabForm (fun i j => if h : (i : ℕ) < 4 then ADQ ⟨i, h⟩ j else 0) (meanSeg1 m) y := by
    unfold pairIntegral tabForm
    rw [sumFin_real, meanSeg2_eq (by linarith)]
    simp only [etas_real, c, ofF_real]
    rw [Fin.sum_univ_castSucc (n := 6), Fin.sum_univ_castSucc (n := 5), Fin.sum_univ_castSucc (n := 4)]
    simp only [Fin.sum_univ_four]
    norm_num [Fin.castSucc, Fin.castAdd, Fin.last]
    have e2 : ∀ h : 2 < 4, (⟨2, h⟩ : Fin 4) = 2 := fun _ => rfl
    have e3 : ∀ h : 3 < 4, (⟨3, h⟩ : Fin 4) = 3 := fun _ => rfl
    simp only [e2, e3]
    ring
  rw [e]
  refine tab_halves u1 u2 ?_ ?_ ?_ ?_ ?_ <;> refine poly6_pos hy hy' ?_ ?_ ?_ ?_ ?_ ?_ ?_ <;>
    · simp [blossom, ADQ]
      norm_num

section polar
variable (h : Admissible (fromRecords pr k) T V N) (hp : HotPolar (fromRecords pr k) V N)
include h hp

omit h hp in
theorem hot_pair_term {a b x y : ℝ → ℝ} {a1 b1 x0 : ℝ} (ha : ∀ T, a T = T⁻¹ * a1) (hb : ∀ T, b T = T⁻¹ * b1)
    (hx : Tendsto x atTop (𝓝 x0)) (hy : ∀ T, y T = a T * b T * x T) :
    Tendsto (fun T => T ^ 2 * y T) atTop (𝓝 (a1 * b1 * x0)) := by
  refine (hx.const_mul (a1 * b1)).congr' ?_
  filter_upwards [eventually_gt_atTop 0] with T hT
  have := hT.ne'
  rw [hy, ha, hb]
  field_simp

omit h hp in
theorem hot_triplet_term {a b d x y : ℝ → ℝ} {a1 b1 d1 x0 : ℝ} (ha : ∀ T, a T = T⁻¹ * a1) (hb : ∀ T, b T = T⁻¹ * b1)
    (hd : ∀ T, d T = T⁻¹ * d1) (hx : Tendsto x atTop (𝓝 x0)) (hy : ∀ T, y T = a T * b T * d T * x T) :
    Tendsto (fun T => T ^ 3 * y T) atTop (𝓝 (a1 * b1 * d1 * x0)) := by
  refine (hx.const_mul (a1 * b1 * d1)).congr' ?_
  filter_upwards [eventually_gt_atTop 0] with T hT
  have := hT.ne'
  rw [hy, ha, hb, hd]
  field_simp

theorem hot_dipole : Tendsto (fun T' => dipole (fromRecords pr k) (StateHD.new T' V N)) atTop (𝓝 0) := by
  have ho := polarOk_fromRecords pr k fun i => (h.m_pos i).le
  obtain ⟨z0, -⟩ := hot_zeta3 h
  have hη := hot_packing (pr := pr) (k := k) (V := V) (N := N)
  have hV := h.volume
  set y := sizeMoment (fromRecords pr k).m (fun i => 0.88 * (fromRecords pr k).sigma i) (fun i => N i / V) 3
  have ht : ∀ i T', dipoleTerm (fromRecords pr k) T'⁻¹ i = T'⁻¹ * dipoleTerm (fromRecords pr k) (1 : ℝ) i := fun i T' => by
    simp only [dipoleTerm]
    ring
  have e : ∀ T', dipole (fromRecords pr k) (StateHD.new T' V N) = padeVolume
      (dipolePhis (fromRecords pr k) (StateHD.new T' V N)).1 (dipolePhis (fromRecords pr k) (StateHD.new T' V N)).2 V :=
    fun _ => rfl
  simp only [e]
  have h2 := hot_pairs (fun i => N i / V) (K := fun T' i j => dipK2 (fromRecords pr k) T'
    (Spec.packingFraction (fromRecords pr k) T' V N) i j) (fun i j => hot_pair_term (ht i) (ht j)
      ((hot_pair (by decide) AD BD (fromRecords pr k) i j hη).div_const ((fromRecords pr k).sigma_ij i j ^ 3))
      fun T' => by unfold dipK2; ring) Real.pi
  have h3 := hot_triplets (fun i => N i / V) (K := fun T' i j l => dipK3 (fromRecords pr k) T'
    (Spec.packingFraction (fromRecords pr k) T' V N) i j l) (fun i j l => hot_triplet_term (ht i) (ht j) (ht l)
      ((hot_triplet CD (fromRecords pr k) i j l hη).div_const ((fromRecords pr k).sigma_ij i j
        * (fromRecords pr k).sigma_ij i l * (fromRecords pr k).sigma_ij j l))
      fun T' => by unfold dipK3; ring) (-PI_SQ_43)
  refine pade_hot (h2.congr fun T' => ?_) (h3.congr fun T' => ?_) ?_ V
  · simp only [dipolePhis, dipolePhi2_real ho, stateEta_new, c, ofF_real, pi_real, StateHD.new_temperature,
      StateHD.new_density]
  · simp only [dipolePhis, dipolePhi3_real ho, stateEta_new, c, ofF_real, StateHD.new_temperature,
      StateHD.new_density]
    ring
  · by_cases hi : ∃ a, (fromRecords pr k).mu a ≠ 0 ∧ 0 < N a
    · obtain ⟨a, ha, hNa⟩ := hi
      refine Or.inl (pairs_ne_zero (P := fun i => (fromRecords pr k).mu i ≠ 0) (Q := fun i => (fromRecords pr k).mu i ≠ 0)
        (fun i => div_nonneg (h.moles_nonneg i) hV.le) (fun i j hij => ?_) (fun i j hi hj => ?_) ha ha (div_pos hNa hV)
        (div_pos hNa hV) Real.pi_pos)
      · rw [not_and_or, not_not, not_not] at hij
        have hz : ∀ i, (fromRecords pr k).mu i = 0 → dipoleTerm (fromRecords pr k) (1 : ℝ) i = 0 := fun i hi => by
          have := dipoleTerm_zero' (T := 1) hi
          rwa [inv_one] at this
        rcases hij with hi | hj
        · rw [hz i hi]; simp
        · rw [hz j hj]; simp
      · have hpos : ∀ i, (fromRecords pr k).mu i ≠ 0 → 0 < dipoleTerm (fromRecords pr k) (1 : ℝ) i := fun i hi => by
          simp only [dipoleTerm, c, ofF_real, powi_real]
          have := mu2_pos h hi (hp.energy_pos i (Or.inl hi))
          have := hp.energy_pos i (Or.inl hi)
          have := sigma_ij_pos h i i
          positivity
        obtain ⟨m1, m2⟩ := mdqPair_mem (hp.segments i (Or.inl hi)) (hp.segments j (Or.inl hj))
        obtain ⟨u1, u2⟩ := meanSeg1_mem m1 m2
        have hJ := dipolePair0 u1 u2 z0.le (hp.packing i (Or.inl hi))
        rw [← pairIntegral_tab (by linarith)] at hJ
        have := hpos i hi
        have := hpos j hj
        have := sigma_ij_pos h i j
        positivity
    · refine Or.inr fun T' => ?_
      rw [dipolePhis_absent _ fun i hm => ?_]
      have : (fromRecords pr k).mu2 i ≠ 0 := (mem_nonzeroComp (fromRecords pr k).mu2 i).1 hm
      by_contra hN
      exact hi ⟨i, fun hmu => this (mu2_zero hmu), lt_of_le_of_ne (h.moles_nonneg i) (Ne.symm hN)⟩

theorem hot_quadrupole : Tendsto (fun T' => quadrupole (fromRecords pr k) (StateHD.new T' V N)) atTop (𝓝 0) := by
  have ho := polarOk_fromRecords pr k fun i => (h.m_pos i).le
  obtain ⟨z0, -⟩ := hot_zeta3 h
  have hη := hot_packing (pr := pr) (k := k) (V := V) (N := N)
  have hV := h.volume
  set y := sizeMoment (fromRecords pr k).m (fun i => 0.88 * (fromRecords pr k).sigma i) (fun i => N i / V) 3
  have ht : ∀ i T', quadrupoleTerm (fromRecords pr k) T'⁻¹ i = T'⁻¹ * quadrupoleTerm (fromRecords pr k) (1 : ℝ) i :=
    fun i T' => by
      simp only [quadrupoleTerm]
      ring
  have e : ∀ T', quadrupole (fromRecords pr k) (StateHD.new T' V N) = padeVolume
      (quadrupolePhis (fromRecords pr k) (StateHD.new T' V N)).1
      (quadrupolePhis (fromRecords pr k) (StateHD.new T' V N)).2 V := fun _ => rfl
  simp only [e]
  have h2 := hot_pairs (fun i => N i / V) (K := fun T' i j => quadK2 (fromRecords pr k) T'
    (Spec.packingFraction (fromRecords pr k) T' V N) i j) (fun i j => hot_pair_term (ht i) (ht j)
      ((hot_pair (by decide) AQ BQ (fromRecords pr k) i j hη).div_const ((fromRecords pr k).sigma (min i j) ^ 7))
      fun T' => by unfold quadK2; ring) (Real.pi * 0.5625)
  have h3 := hot_triplets (fun i => N i / V) (K := fun T' i j l => quadK3 (fromRecords pr k) T'
    (Spec.packingFraction (fromRecords pr k) T' V N) i j l) (fun i j l => hot_triplet_term (ht i) (ht j) (ht l)
      ((hot_triplet CQ (fromRecords pr k) i j l hη).div_const ((fromRecords pr k).sigma_ij i j ^ 3
        * (fromRecords pr k).sigma_ij i l ^ 3 * (fromRecords pr k).sigma_ij j l ^ 3))
      fun T' => by unfold quadK3; ring) (Real.pi * Real.pi * 0.5625)
  refine pade_hot (h2.congr fun T' => ?_) (h3.congr fun T' => ?_) ?_ V
  · simp only [quadrupolePhis, quadrupolePhi2_real ho, stateEta_new, c, ofF_real, pi_real, StateHD.new_temperature,
      StateHD.new_density]
  · simp only [quadrupolePhis, quadrupolePhi3_real ho, stateEta_new, c, ofF_real, pi_real, StateHD.new_temperature,
      StateHD.new_density]
  · by_cases hi : ∃ a, (fromRecords pr k).q a ≠ 0 ∧ 0 < N a
    · obtain ⟨a, ha, hNa⟩ := hi
      refine Or.inl (pairs_ne_zero (P := fun i => (fromRecords pr k).q i ≠ 0) (Q := fun i => (fromRecords pr k).q i ≠ 0)
        (fun i => div_nonneg (h.moles_nonneg i) hV.le) (fun i j hij => ?_) (fun i j hi hj => ?_) ha ha (div_pos hNa hV)
        (div_pos hNa hV) (by have := Real.pi_pos; positivity))
      · rw [not_and_or, not_not, not_not] at hij
        have hz : ∀ i, (fromRecords pr k).q i = 0 → quadrupoleTerm (fromRecords pr k) (1 : ℝ) i = 0 := fun i hi => by
          simp only [quadrupoleTerm, c, ofF_real]
          rw [q2_zero hi, mul_zero]
        rcases hij with hi | hj
        · rw [hz i hi]; simp
        · rw [hz j hj]; simp
      · have hpos : ∀ i, (fromRecords pr k).q i ≠ 0 → 0 < quadrupoleTerm (fromRecords pr k) (1 : ℝ) i := fun i hi => by
          simp only [quadrupoleTerm, c, ofF_real, powi_real]
          have := q2_pos h hi (hp.energy_pos i (Or.inr hi))
          have := hp.energy_pos i (Or.inr hi)
          have := h.sigma_pos i
          have := sigma_ij_pos h i i
          positivity
        obtain ⟨m1, m2⟩ := mdqPair_mem (hp.segments i (Or.inr hi)) (hp.segments j (Or.inr hj))
        obtain ⟨u1, u2⟩ := meanSeg1_mem m1 m2
        have hJ := quadPair0 u1 u2 z0.le (hp.packing i (Or.inr hi))
        rw [← pairIntegral_tab (by linarith)] at hJ
        have := hpos i hi
        have := hpos j hj
        have := h.sigma_pos (min i j)
        positivity
    · refine Or.inr fun T' => ?_
      rw [quadrupolePhis_absent _ fun i hm => ?_]
      have : (fromRecords pr k).q2 i ≠ 0 := (mem_nonzeroComp (fromRecords pr k).q2 i).1 hm
      by_contra hN
      exact hi ⟨i, fun hmu => this (q2_zero hmu), lt_of_le_of_ne (h.moles_nonneg i) (Ne.symm hN)⟩

theorem hot_dipoleQuadrupole (v : DQVariants) :
    Tendsto (fun T' => dipoleQuadrupole v (fromRecords pr k) (StateHD.new T' V N)) atTop (𝓝 0) := by
  have ho := polarOk_fromRecords pr k fun i => (h.m_pos i).le
  obtain ⟨z0, -⟩ := hot_zeta3 h
  have hη := hot_packing (pr := pr) (k := k) (V := V) (N := N)
  have hV := h.volume
  set y := sizeMoment (fromRecords pr k).m (fun i => 0.88 * (fromRecords pr k).sigma i) (fun i => N i / V) 3
  have ht : ∀ x2 i T', dqTerm (fromRecords pr k) x2 T'⁻¹ i = T'⁻¹ * dqTerm (fromRecords pr k) x2 (1 : ℝ) i :=
    fun x2 i T' => by
      simp only [dqTerm]
      ring
  have e : ∀ T', dipoleQuadrupole v (fromRecords pr k) (StateHD.new T' V N) = padeVolume
      (dipoleQuadrupolePhis v (fromRecords pr k) (StateHD.new T' V N)).1
      (dipoleQuadrupolePhis v (fromRecords pr k) (StateHD.new T' V N)).2 V := fun _ => rfl
  simp only [e]
  obtain ⟨w, hw0, hw⟩ : ∃ w : Fin n → Fin n → ℝ, (∀ i j, 0 < w i j) ∧ ∀ T' i j, muQTerm v (fromRecords pr k) T'⁻¹ i j
      = dqTerm (fromRecords pr k) (fromRecords pr k).mu2 T'⁻¹ i * dqTerm (fromRecords pr k) (fromRecords pr k).q2 T'⁻¹ j
        * w i j := by
    cases v
    · refine ⟨fun i j => (fromRecords pr k).sigma j / (fromRecords pr k).sigma i,
        fun i j => div_pos (h.sigma_pos j) (h.sigma_pos i), fun T' i j => ?_⟩
      simp only [muQTerm, c, ofF_real]
      ring
    · exact ⟨fun _ _ => 1, fun _ _ => one_pos, fun T' i j => by simp only [muQTerm, mul_one]⟩
  have h2 := hot_pairs (fun i => N i / V) (K := fun T' i j => dqK2 v (fromRecords pr k) T'
    (Spec.packingFraction (fromRecords pr k) T' V N) i j) (fun i j => hot_pair_term (ht _ i) (ht _ j)
      ((hot_pair (by decide) ADQ BDQ (fromRecords pr k) i j hη).mul_const (w i j / (fromRecords pr k).sigma_ij i j ^ 5))
      fun T' => by unfold dqK2; rw [hw]; ring) (Real.pi * 2.25)
  have h3 := hot_triplets (fun i => N i / V) (K := fun T' i j l => dqK3d (fromRecords pr k) T'
    (Spec.packingFraction (fromRecords pr k) T' V N) i j l + dqK3q (fromRecords pr k) T'
    (Spec.packingFraction (fromRecords pr k) T' V N) i j l) (fun i j l => by
      have g := (hot_triplet_term (ht (fromRecords pr k).mu2 i) (ht (fromRecords pr k).q2 j) (ht (fromRecords pr k).mu2 l)
        ((hot_tripletDQ (fromRecords pr k) i j l hη).mul_const (((fromRecords pr k).sigma_ij i j
        * (fromRecords pr k).sigma_ij i l * (fromRecords pr k).sigma_ij j l) ^ 2)⁻¹)
        (y := fun T' => dqK3d (fromRecords pr k) T' (Spec.packingFraction (fromRecords pr k) T' V N) i j l)
        fun T' => by unfold dqK3d; ring).add
        (hot_triplet_term (ht (fromRecords pr k).mu2 i) (ht (fromRecords pr k).q2 j) (ht (fromRecords pr k).q2 l)
        ((hot_tripletDQ (fromRecords pr k) i j l hη).mul_const ((((fromRecords pr k).sigma_ij i j
        * (fromRecords pr k).sigma_ij i l * (fromRecords pr k).sigma_ij j l) ^ 2)⁻¹ * ALPHA))
        (y := fun T' => dqK3q (fromRecords pr k) T' (Spec.packingFraction (fromRecords pr k) T' V N) i j l)
        fun T' => by unfold dqK3q; ring)
      exact g.congr fun T' => by ring) (Real.pi * Real.pi)
  refine pade_hot (h2.congr fun T' => ?_) (h3.congr fun T' => ?_) ?_ V
  · simp only [dipoleQuadrupolePhis, dipoleQuadrupolePhi2_real ho, stateEta_new, c, ofF_real, pi_real,
      StateHD.new_temperature, StateHD.new_density]
  · simp only [dipoleQuadrupolePhis, dipoleQuadrupolePhi3_real ho, stateEta_new, c, ofF_real, pi_real,
      StateHD.new_temperature, StateHD.new_density]
  · have hz1 : ∀ i, (fromRecords pr k).mu i = 0 → dqTerm (fromRecords pr k) (fromRecords pr k).mu2 (1 : ℝ) i = 0 :=
      fun i hi => by
        simp only [dqTerm, c, ofF_real]
        rw [mu2_zero hi, mul_zero]
    have hz2 : ∀ i, (fromRecords pr k).q i = 0 → dqTerm (fromRecords pr k) (fromRecords pr k).q2 (1 : ℝ) i = 0 :=
      fun i hi => by
        simp only [dqTerm, c, ofF_real]
        rw [q2_zero hi, mul_zero]
    by_cases hi : (∃ a, (fromRecords pr k).mu a ≠ 0 ∧ 0 < N a) ∧ ∃ b, (fromRecords pr k).q b ≠ 0 ∧ 0 < N b
    · obtain ⟨⟨a, ha, hNa⟩, b, hb, hNb⟩ := hi
      refine Or.inl (pairs_ne_zero (P := fun i => (fromRecords pr k).mu i ≠ 0) (Q := fun i => (fromRecords pr k).q i ≠ 0)
        (fun i => div_nonneg (h.moles_nonneg i) hV.le) (fun i j hij => ?_) (fun i j hi hj => ?_) ha hb (div_pos hNa hV)
        (div_pos hNb hV) (by have := Real.pi_pos; positivity))
      · rw [not_and_or, not_not, not_not] at hij
        rcases hij with hi | hj
        · rw [hz1 i hi]; simp
        · rw [hz2 j hj]; simp
      · have p1 : 0 < dqTerm (fromRecords pr k) (fromRecords pr k).mu2 (1 : ℝ) i := by
          simp only [dqTerm, c, ofF_real, powi_real]
          have := mu2_pos h hi (hp.energy_pos i (Or.inl hi))
          have := hp.energy_pos i (Or.inl hi)
          have := h.sigma_pos i
          positivity
        have p2 : 0 < dqTerm (fromRecords pr k) (fromRecords pr k).q2 (1 : ℝ) j := by
          simp only [dqTerm, c, ofF_real, powi_real]
          have := q2_pos h hj (hp.energy_pos j (Or.inr hj))
          have := hp.energy_pos j (Or.inr hj)
          have := h.sigma_pos j
          positivity
        obtain ⟨m1, m2⟩ := mdqPair_mem (hp.segments i (Or.inl hi)) (hp.segments j (Or.inr hj))
        have hJ := dqPair_hot m1 m2 z0.le (hp.packing i (Or.inl hi))
        have := hw0 i j
        have := sigma_ij_pos h i j
        positivity
    · refine Or.inr fun T' => ?_
      simp only [dipoleQuadrupolePhis, dipoleQuadrupolePhi2_real ho, stateEta_new, StateHD.new_temperature,
        StateHD.new_density]
      rw [Finset.sum_eq_zero, neg_zero, zero_mul]
      intro i _
      refine Finset.sum_eq_zero fun j _ => ?_
      unfold dqK2
      rw [hw, ht, ht]
      rw [not_and_or, not_exists, not_exists] at hi
      rcases hi with hi | hj
      · rcases eq_or_lt_of_le (h.moles_nonneg i) with hN | hN
        · rw [← hN]; simp
        · rw [hz1 i (by_contra fun hm => hi i ⟨hm, hN⟩)]; simp
      · rcases eq_or_lt_of_le (h.moles_nonneg j) with hN | hN
        · rw [← hN]; simp
        · rw [hz2 j (by_contra fun hm => hj j ⟨hm, hN⟩)]; simp

/-- everything except association -/
theorem hot_nonassoc (v : DQVariants) :
    Tendsto (fun T' => nonAssocSum v (fromRecords pr k) (StateHD.new T' V N)) atTop
      (𝓝 (V * hardChains (fromRecords pr k).m (fun i => 0.88 * (fromRecords pr k).sigma i) fun i => N i / V)) := by
  unfold nonAssocSum
  simpa using ((((hot_chains h).add (hot_dispersion h)).add (hot_dipole h hp)).add (hot_quadrupole h hp)).add
    (hot_dipoleQuadrupole h hp v)

end polar

/-! ## Association -/

theorem hot_strength (h : Admissible (fromRecords pr k) T V N) (i j : Fin n) :
    Tendsto (fun T' => specStrength (fromRecords pr k) T' V N i j) atTop (𝓝 0) := by
  have h2 : Tendsto (fun T' => moment2 (fromRecords pr k) T' V N) atTop
      (𝓝 (∑ i, N i / V * (fromRecords pr k).m i * (Real.pi / 6 * (0.88 * (fromRecords pr k).sigma i) ^ 2))) :=
    tendsto_finsetSum _ fun i _ => (((hot_diameter _ _).pow 2).const_mul _).const_mul _
  have := tendsto_strength (i := i) (j := j) (T := fun T' => T') (V := fun _ => V) (p := fromRecords pr k)
    (fun i => hot_diameter _ _) (fun i => by have := h.sigma_pos i; positivity) h2
    (hot_packing (pr := pr) (k := k) (V := V) (N := N)) (hot_zeta3 h).2 ((hot_exp _).sub_const 1)
  simpa using this

theorem hot_association (h : Admissible (fromRecords pr k) T V N) :
    Tendsto (fun T' => assocEnergy (fromRecords pr k) (StateHD.new T' V N)) atTop (𝓝 0) := by
  rcases hl : (fromRecords pr k).assoc_comp with _ | ⟨a, l⟩
  · unfold assocEnergy
    rw [hl]
    exact tendsto_const_nhds
  · have ha : a ∈ (fromRecords pr k).assoc_comp := by rw [hl]; exact List.mem_cons_self
    have hκ := (mem_assoc_iff pr k a).1 ha
    have h0 := (hot_strength h a a).mul_const (N a / V)
    rw [zero_mul] at h0
    refine ((assocSingle_tendsto (N a) ((fromRecords pr k).na a) ((fromRecords pr k).nb a)).comp h0).congr' ?_
    filter_upwards [eventually_ge_atTop T] with T' hT'
    unfold assocEnergy
    rw [hl]
    simp only [Function.comp]
    rw [C58_association_strength pr k T' V N (Admissible.heat h hT') a a hκ hκ, StateHD.new_density, StateHD.new_moles]

/-! ## The residual energy -/

/-- C106: heated at constant volume, the residual Helmholtz energy (over `k_B T`) of every mixture with at most one
associating component tends to that of hard chains with segments of 88 percent of the nominal diameter: dispersion,
polar forces and association leave nothing behind. -/
theorem C106_limit (h : Admissible (fromRecords pr k) T V N) (hp : HotPolar (fromRecords pr k) V N)
    (ha : (fromRecords pr k).nassoc ≤ 1) (o : PcSaftOptions ℝ) (la : LinAlg ℝ ℝ) :
    ∃ A : ℝ → ℝ, (∀ T', (Eos.withOptions (fromRecords pr k) o).residualHelmholtz la (StateHD.new T' V N) = .ok (A T'))
      ∧ Tendsto A atTop
        (𝓝 (V * hardChains (fromRecords pr k).m (fun i => 0.88 * (fromRecords pr k).sigma i) fun i => N i / V)) := by
  refine ⟨_, fun T' => residual_of_nassoc_le_one la _ o _ ha, ?_⟩
  have := (hot_nonassoc h hp o.dq_variant).add (hot_association h)
  rw [add_zero] at this
  exact this

/-- C106: with several associating components, where the fractions of free sites are only known to the tolerance of the
iteration, the limit is reached up to that tolerance. -/
theorem C106_cross (h : Admissible (fromRecords pr k) T V N) (hp : HotPolar (fromRecords pr k) V N)
    (hn : AssocNonneg (fromRecords pr k)) (ha : 2 ≤ (fromRecords pr k).nassoc)
    (hk : (fromRecords pr k).nassoc ≤ 10 ^ 6) {o : PcSaftOptions ℝ} (hmax : 10 ≤ o.max_iter_cross_assoc)
    (htol : 1e-10 ≤ o.tol_cross_assoc) (htol' : o.tol_cross_assoc ≤ 1 / 8) {la : LinAlg ℝ ℝ} (h0 : la.nderiv = 0)
    (hs : CorrectSolver (la.solveF (fromRecords pr k).assoc_comp.length)) {δ : ℝ} (hδ : 0 < δ) :
    ∃ T₀, ∀ T', T₀ ≤ T' → ∃ a, (Eos.withOptions (fromRecords pr k) o).residualHelmholtz la (StateHD.new T' V N) = .ok a
      ∧ |a - V * hardChains (fromRecords pr k).m (fun i => 0.88 * (fromRecords pr k).sigma i) (fun i => N i / V)|
        ≤ δ + 10 * o.tol_cross_assoc * ∑ i, N i * ((fromRecords pr k).na i + (fromRecords pr k).nb i) := by
  set S := ∑ i, N i * ((fromRecords pr k).na i + (fromRecords pr k).nb i) with hS
  have hS0 : 0 ≤ S :=
    Finset.sum_nonneg fun i _ => mul_nonneg (h.moles_nonneg i) (add_nonneg (hn.na i) (hn.nb i))
  have hμ : 0 < min 1 (δ / 2 / (S + 1)) := lt_min one_pos (by positivity)
  obtain ⟨T₁, h1⟩ := C79_hot h hμ
  have hlim := hot_nonassoc h hp o.dq_variant
  rw [Metric.tendsto_atTop] at hlim
  obtain ⟨T₂, h2⟩ := hlim (δ / 2) (half_pos hδ)
  refine ⟨max T₁ T₂, fun T' hT' => ?_⟩
  obtain ⟨hA, hw⟩ := h1 T' ((le_max_left _ _).trans hT')
  obtain ⟨a, e, l, u⟩ := C79_bound rfl hA hn hμ.le (min_le_left _ _) hw ha hk hmax htol htol' h0 hs
  have hd := h2 T' ((le_max_right _ _).trans hT')
  rw [Real.dist_eq, abs_lt] at hd
  have hμS : min 1 (δ / 2 / (S + 1)) * S ≤ δ / 2 := by
    refine (mul_le_mul_of_nonneg_right (min_le_right _ _) hS0).trans ?_
    rw [div_mul_eq_mul_div, div_le_iff₀ (by positivity)]
    nlinarith
  refine ⟨_, e, ?_⟩
  rw [abs_le]
  constructor <;> nlinarith [hd.1, hd.2]

/-! ## Repulsion prevails -/

/-- C106: the energy of the reference fluid of hard chains is positive at every density. -/
theorem C106_reference_positive {p : PcSaftParameters n ℝ} (h : Admissible p T V N) :
    0 < hardSphere p (StateHD.new T V N) + hardChain p (StateHD.new T V N) := by
  have h3 := zeta_pos_moles h 3
  have h2 := zeta_pos_moles h 2
  have hlt := closeVolume_lt h
  rw [closeVolume_eq] at hlt
  rw [reference_eq h]
  have hd0 : ∀ i, 0 ≤ hsDiameter p T i := fun i => (h.diameter_pos i).le
  have hN := h.total_pos
  have hder := fun τ (hτ : 0 ≤ τ) => hasDerivAt_refEnergy (c0 := zeta p.m N (hsDiameter p T) 0)
    (c1 := zeta p.m N (hsDiameter p T) 1) (N := N) (m := p.m) (d := hsDiameter p T) (τ := τ) h2.le h3 hd0 hτ
  set E := refEnergy (zeta p.m N (hsDiameter p T) 0) (zeta p.m N (hsDiameter p T) 1) (zeta p.m N (hsDiameter p T) 2)
    (zeta p.m N (hsDiameter p T) 3) N p.m (hsDiameter p T) with hE
  have hmono : StrictMonoOn E (Set.Ici 0) := by
    refine strictMonoOn_of_deriv_pos (convex_Ici 0)
      (fun τ hτ => (hder τ hτ).continuousAt.continuousWithinAt) fun τ hτ => ?_
    rw [interior_Ici] at hτ
    have hτ : 0 < τ := hτ
    rw [(hder τ hτ.le).deriv]
    have e := refPressure_eq (τ := τ) (N := N) (m := p.m) (d := hsDiameter p T) h2.le h3 hd0 hτ
      ((moments_eq p T N 0).trans (by simp)) ((moments_eq p T N 1).trans (by simp)) (moments_eq p T N 2)
    have l := le_refPressure h2.le h3 hd0 (fun i => (h.m_pos i).le) h.moles_nonneg hτ
    rw [← e] at l
    have l2 : τ / (1 + zeta p.m N (hsDiameter p T) 3 * τ) < τ := by
      rw [div_lt_iff₀ (by positivity)]
      nlinarith [mul_pos h3 (mul_pos hτ hτ)]
    have l3 := mul_lt_mul_of_pos_left l2 hN
    exact pos_of_mul_pos_right (by linarith) (sq_nonneg τ)
  have h0 : E 0 = 0 := by simp [hE, refEnergy]
  have hτ : 0 < 1 / (V - zeta p.m N (hsDiameter p T) 3) := one_div_pos.2 (sub_pos.2 hlt)
  rw [← h0]
  exact hmono Set.self_mem_Ici hτ.le hτ

/-- records of the same molecules without attraction -/
noncomputable def hardened (pr : Fin n → PureRecord ℝ) (i : Fin n) : PureRecord ℝ :=
  { pr i with model_record := { (pr i).model_record with epsilon_k := 0 } }

theorem hot_limit_pos (h : Admissible (fromRecords pr k) T V N) :
    0 < V * hardChains (fromRecords pr k).m (fun i => 0.88 * (fromRecords pr k).sigma i) fun i => N i / V := by
  have h0 : Admissible (fromRecords (hardened pr) k) T V N := by
    refine ⟨h.temperature, h.volume, h.m_pos, h.sigma_pos, fun _ => le_rfl, h.moles_nonneg, h.moles_ne_zero, ?_⟩
    refine lt_of_eq_of_lt ?_ (hot_zeta3 h).2
    simp only [Spec.packingFraction, sizeMoment, Finset.mul_sum]
    refine Finset.sum_congr rfl fun i _ => ?_
    have e : Spec.diameter ((fromRecords (hardened pr) k).sigma i) ((fromRecords (hardened pr) k).epsilon_k i) T
        = 0.88 * (fromRecords pr k).sigma i := by
      change Spec.diameter ((fromRecords pr k).sigma i) 0 T = _
      simp only [Spec.diameter, mul_zero, zero_div, Real.exp_zero]
      norm_num
      ring
    rw [e]
    change N i * (fromRecords pr k).m i * _ / V = _
    ring
  have hlim := hot_chains h0
  have hc : ∀ T', hardSphere (fromRecords (hardened pr) k) (StateHD.new T' V N)
      + hardChain (fromRecords (hardened pr) k) (StateHD.new T' V N)
      = hardSphere (fromRecords (hardened pr) k) (StateHD.new T V N)
      + hardChain (fromRecords (hardened pr) k) (StateHD.new T V N) := fun T' => by
    have e : ∀ T', hsDiameter (fromRecords (hardened pr) k) T' = fun i => 0.88 * (fromRecords pr k).sigma i := fun T' => by
      funext i
      rw [hsDiameter_eq_spec]
      change Spec.diameter ((fromRecords pr k).sigma i) 0 T' = _
      simp only [Spec.diameter, mul_zero, zero_div, Real.exp_zero]
      norm_num
      ring
    simp only [hardSphere_real, hardChain_real, zeta23, StateHD.new_temperature, e]
    rfl
  simp only [hc] at hlim
  have := tendsto_nhds_unique hlim tendsto_const_nhds
  change V * hardChains (fromRecords pr k).m (fun i => 0.88 * (fromRecords pr k).sigma i) (fun i => N i / V) = _ at this
  rw [this]
  exact C106_reference_positive h0

/-- C106: so every such fluid, heated enough at constant volume, has a positive residual energy: in the end repulsion
prevails. -/
theorem C106_repulsion (h : Admissible (fromRecords pr k) T V N) (hp : HotPolar (fromRecords pr k) V N)
    (ha : (fromRecords pr k).nassoc ≤ 1) (o : PcSaftOptions ℝ) (la : LinAlg ℝ ℝ) :
    ∃ T₀, ∀ T', T₀ ≤ T' → ∃ a, (Eos.withOptions (fromRecords pr k) o).residualHelmholtz la (StateHD.new T' V N) = .ok a
      ∧ 0 < a := by
  obtain ⟨A, e, hA⟩ := C106_limit h hp ha o la
  obtain ⟨T₀, h0⟩ := eventually_atTop.1 (hA.eventually (lt_mem_nhds (hot_limit_pos h)))
  exact ⟨T₀, fun T' hT' => ⟨_, e T', h0 T' hT'⟩⟩

/-! ## Cases that meet the hypotheses -/

/-- without polar components nothing is required -/
theorem hotPolar_of_plain {p : PcSaftParameters n ℝ} (h1 : ∀ i, p.mu i = 0) (h2 : ∀ i, p.q i = 0) (V : ℝ)
    (N : Fin n → ℝ) : HotPolar p V N :=
  ⟨fun i hi => absurd hi (by simp [h1, h2]), fun i hi => absurd hi (by simp [h1, h2]),
    fun i hi => absurd hi (by simp [h1, h2])⟩

/-- an associating and an inert component -/
example (o : PcSaftOptions ℝ) (la : LinAlg ℝ ℝ) := C106_repulsion assocRecords_admissible
  (hotPolar_of_plain (fun i => by fin_cases i <;> norm_num [fromRecords, assocRecords])
    (fun i => by fin_cases i <;> norm_num [fromRecords, assocRecords]) _ _)
  (by rw [PcSaftParameters.nassoc, assocRecords_comp]; rfl) o la

/-- a dipolar and a quadrupolar component -/
example (o : PcSaftOptions ℝ) (la : LinAlg ℝ ℝ) : ∃ A : ℝ → ℝ, (∀ T', (Eos.withOptions
      (fromRecords dipoleAndQuadrupole fun _ _ => 0) o).residualHelmholtz la (StateHD.new T' 1000 fun _ => 1) = .ok (A T'))
      ∧ Tendsto A atTop (𝓝 (1000 * hardChains ![1, 1] ![2.64, 3.52] fun _ => 1 / 1000)) := by
  have em : (fromRecords dipoleAndQuadrupole fun _ _ => 0).m = ![1, 1] := by
    funext i; fin_cases i <;> rfl
  have es : (fromRecords dipoleAndQuadrupole fun _ _ => 0).sigma = ![3, 4] := by
    funext i; fin_cases i <;> rfl
  have ee : ∀ i, (fromRecords dipoleAndQuadrupole fun _ _ => 0).epsilon_k i = 100 := fun i => by
    fin_cases i <;> rfl
  have hpi := Real.pi_lt_four
  have hpi0 := Real.pi_pos
  have hd : ∀ s : ℝ, 0 < s → 0 ≤ Spec.diameter s 100 300 ∧ Spec.diameter s 100 300 ≤ s := fun s hs => by
    unfold Spec.diameter
    have := Real.exp_pos (-3 * 100 / 300)
    have h1 := exp_le_one_of (e := 100) (T := 300) (by norm_num) (by norm_num)
    constructor <;> nlinarith
  have ha : Admissible (fromRecords dipoleAndQuadrupole fun _ _ => 0) 300 1000 fun _ => 1 := by
    refine ⟨by norm_num, by norm_num, fun i => ?_, fun i => ?_, fun i => ?_, fun _ => zero_le_one, ⟨0, one_ne_zero⟩, ?_⟩
    · rw [em]; fin_cases i <;> norm_num
    · rw [es]; fin_cases i <;> norm_num
    · rw [ee]; norm_num
    · simp only [Spec.packingFraction, Fin.sum_univ_two, em, es, ee]
      have h3 := hd 3 (by norm_num)
      have h4 := hd 4 (by norm_num)
      have c3 := pow_le_pow_left₀ h3.1 h3.2 3
      have c4 := pow_le_pow_left₀ h4.1 h4.2 3
      have := pow_nonneg h3.1 3
      have := pow_nonneg h4.1 3
      norm_num at c3 c4 ⊢
      nlinarith
  have hz : sizeMoment (fromRecords dipoleAndQuadrupole fun _ _ => 0).m
      (fun i => 0.88 * (fromRecords dipoleAndQuadrupole fun _ _ => 0).sigma i) (fun _ => 1 / 1000) 3 ≤ 1 / 2 := by
    simp only [sizeMoment, Fin.sum_univ_two, em, es]
    norm_num
    nlinarith
  have hl := C106_limit ha ⟨fun _ _ => hz, fun i _ => by rw [em]; fin_cases i <;> norm_num,
    fun i _ => by rw [ee]; norm_num⟩ (length_nonzeroComp_le_one
      (fromRecords dipoleAndQuadrupole fun _ _ => 0).kappa_ab 0 fun i hi => absurd (by
        fin_cases i <;> norm_num [fromRecords, dipoleAndQuadrupole, testRecord]) hi) o la
  have e : (fun i => 0.88 * (fromRecords dipoleAndQuadrupole fun _ _ => 0).sigma i) = ![2.64, 3.52] := by
    funext i
    rw [es]
    fin_cases i <;> norm_num
  rwa [em, e] at hl

/-- two associating components -/
example (K : ℝ) (hK : 0 < K) : ∃ T₀, ∀ T', T₀ ≤ T' → ∃ a,
    (Eos.new (fromRecords (twinRecords K) (fun _ _ => 0))).residualHelmholtz
      (⟨fun _ => exactSolver, fun _ => exactSolver, 0⟩ : LinAlg ℝ ℝ) (StateHD.new T' 1000 ![3, 11]) = .ok a
      ∧ |a - 1000 * hardChains (fun _ => 1) (fun _ => 0.88 * 3) (fun i => ![3, 11] i / 1000)| ≤ 1e-3 + 10 * 1e-10 * 28 := by
  have hna : (fromRecords (twinRecords K) (fun _ _ => 0)).nassoc = 2 := by
    rw [PcSaftParameters.nassoc, twinRecords_comp hK]
    rfl
  have hz : ((0.0 : ℝ)) = 0 := by norm_num
  obtain ⟨T₀, h⟩ := C106_cross (o := PcSaftOptions.default) (twinRecords_admissible K (fun _ _ => 0) (V := 1000) (by norm_num))
    (hotPolar_of_plain (fun _ => hz) (fun _ => hz) _ _)
    ⟨fun _ => by change (0 : ℝ) ≤ 2500; norm_num, fun _ => zero_le_one, fun _ => zero_le_one⟩ hna.ge
    (by rw [hna]; norm_num) (by norm_num [PcSaftOptions.default]) (by norm_num [PcSaftOptions.default])
    (by norm_num [PcSaftOptions.default]) (la := ⟨fun _ => exactSolver, fun _ => exactSolver, 0⟩) rfl exactSolver_correct
    (δ := 1e-3) (by norm_num)
  refine ⟨T₀, fun T' hT' => ?_⟩
  obtain ⟨a, ha, hb⟩ := h T' hT'
  refine ⟨a, ha, hb.trans_eq ?_⟩
  have e1 : ∀ i, (fromRecords (twinRecords K) (fun _ _ => 0)).na i = 1 := fun _ => rfl
  have e2 : ∀ i, (fromRecords (twinRecords K) (fun _ _ => 0)).nb i = 1 := fun _ => rfl
  simp only [e1, e2, Fin.sum_univ_two, PcSaftOptions.default]
  norm_num

end PcSaft.Props
