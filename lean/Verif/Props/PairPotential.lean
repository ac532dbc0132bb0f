import Verif.Model.DftPure
import Mathlib.Analysis.SpecialFunctions.Pow.Asymptotics
import Mathlib.Analysis.SpecialFunctions.Pow.Real
import Verif.Props.HardSphere

/-!
# C44: the pair potential is the Lennard-Jones potential
-/

namespace PcSaft.Props
open PcSaft Filter Topology
variable {n : ℕ}

/-- distance of the minimum -/
noncomputable def minimumDistance (sigma : ℝ) : ℝ := (2 : ℝ) ^ (1 / 6 : ℝ) * sigma

theorem minimumDistance_pow (sigma : ℝ) : minimumDistance sigma ^ 6 = 2 * sigma ^ 6 := by
  unfold minimumDistance
  rw [mul_pow, ← Real.rpow_natCast ((2 : ℝ) ^ (1 / 6 : ℝ)) 6, ← Real.rpow_mul (by norm_num)]
  norm_num

theorem pairPotential_eq (p : PcSaftParameters n ℝ) (i : Fin n) (r : ℝ) :
    pairPotential p i r
      = p.epsilon_k i * ((2 * (p.sigma i / r) ^ 6 - 1) ^ 2 - 1) := by
  have h4 : (4.0 : ℝ) = 4 := by norm_num
  simp only [pairPotential, powi_real, h4]
  ring

/-- C44 -/
theorem C44_pair_potential (p : PcSaftParameters n ℝ) (i : Fin n) (hs : 0 < p.sigma i) (he : 0 < p.epsilon_k i) :
    let u := pairPotential p i
    let r₀ := minimumDistance (p.sigma i)
    u (p.sigma i) = 0
    ∧ (∀ r, 0 < r → r < p.sigma i → 0 < u r)
    ∧ (∀ r, p.sigma i < r → u r < 0)
    ∧ p.sigma i < r₀ ∧ u r₀ = -p.epsilon_k i
    ∧ (∀ r, 0 < r → -p.epsilon_k i ≤ u r ∧ (u r = -p.epsilon_k i ↔ r = r₀))
    ∧ StrictAntiOn u (Set.Ioc 0 r₀) ∧ StrictMonoOn u (Set.Ici r₀)
    ∧ Tendsto u atTop (𝓝 0) := by
  intro u r₀
  set σ := p.sigma i with hσ
  set ε := p.epsilon_k i with hε
  have hu : ∀ r, u r = ε * ((2 * (σ / r) ^ 6 - 1) ^ 2 - 1) := pairPotential_eq p i
  have hr6 : r₀ ^ 6 = 2 * σ ^ 6 := minimumDistance_pow σ
  have hr₀ : 0 < r₀ := mul_pos (Real.rpow_pos_of_pos (by norm_num) _) hs
  have hσr : σ < r₀ := by
    refine lt_of_pow_lt_pow_left₀ 6 hr₀.le ?_
    rw [hr6]
    have : 0 < σ ^ 6 := by positivity
    linarith
  -- the sixth power of the reduced distance decreases
  have hanti : ∀ {a b : ℝ}, 0 < a → a < b → (σ / b) ^ 6 < (σ / a) ^ 6 := by
    intro a b ha hab
    have hb : 0 < b := ha.trans hab
    exact pow_lt_pow_left₀ (div_lt_div_of_pos_left hs ha hab) (by positivity) (by norm_num)
  have hmin : 2 * (σ / r₀) ^ 6 = 1 := by
    rw [div_pow, hr6]
    field_simp
  have hone : (σ / σ) ^ 6 = 1 := by
    rw [div_self hs.ne', one_pow]
  have hpos : ∀ {r : ℝ}, 0 < r → 0 < (σ / r) ^ 6 := fun hr => by positivity
  refine ⟨?_, ?_, ?_, hσr, ?_, ?_, ?_, ?_, ?_⟩
  · rw [hu, hone]
    ring
  · intro r hr hlt
    have h1 := hanti hr hlt
    rw [hone] at h1
    rw [hu]
    apply mul_pos he
    nlinarith
  · intro r hlt
    have h1 := hanti hs hlt
    rw [hone] at h1
    have h2 := hpos (hs.trans hlt)
    rw [hu]
    apply mul_neg_of_pos_of_neg he
    nlinarith
  · rw [hu, hmin]
    ring
  · intro r hr
    have hge : -ε ≤ u r := by
      rw [hu]
      have := sq_nonneg (2 * (σ / r) ^ 6 - 1)
      nlinarith
    refine ⟨hge, ⟨fun h => ?_, fun h => ?_⟩⟩
    · rw [hu] at h
      have h0 : ε * (2 * (σ / r) ^ 6 - 1) ^ 2 = 0 := by linarith
      have h1 : 2 * (σ / r) ^ 6 - 1 = 0 := by
        rcases mul_eq_zero.mp h0 with h | h
        · exact absurd h he.ne'
        · exact pow_eq_zero_iff (two_ne_zero) |>.mp h
      rcases lt_trichotomy r r₀ with h | h | h
      · have := hanti hr h
        linarith
      · exact h
      · have := hanti hr₀ h
        linarith
    · rw [h, hu, hmin]
      ring
  · rintro a ⟨ha, _⟩ b ⟨_, hb⟩ hab
    have h1 := hanti ha hab
    have h2 : 1 ≤ 2 * (σ / b) ^ 6 := by
      rcases eq_or_lt_of_le hb with h | h
      · rw [h, hmin]
      · have := hanti (ha.trans hab) h
        linarith
    simp only [hu]
    apply mul_lt_mul_of_pos_left _ he
    nlinarith
  · intro a ha b _ hab
    have ha0 : 0 < a := lt_of_lt_of_le hr₀ ha
    have h1 := hanti ha0 hab
    have h2 : 2 * (σ / a) ^ 6 ≤ 1 := by
      rcases eq_or_lt_of_le (show r₀ ≤ a from ha) with h | h
      · rw [← h, hmin]
      · have := hanti hr₀ h
        linarith
    have h3 := hpos (ha0.trans hab)
    simp only [hu]
    apply mul_lt_mul_of_pos_left _ he
    nlinarith
  · have h0 : Tendsto (fun r : ℝ => σ / r) atTop (𝓝 0) := tendsto_const_nhds.div_atTop tendsto_id
    have h1 : Tendsto (fun r : ℝ => ε * ((2 * (σ / r) ^ 6 - 1) ^ 2 - 1)) atTop
        (𝓝 (ε * ((2 * 0 ^ 6 - 1) ^ 2 - 1))) :=
      ((((h0.pow 6).const_mul 2).sub_const 1).pow 2 |>.sub_const 1).const_mul ε
    have e : ε * ((2 * (0 : ℝ) ^ 6 - 1) ^ 2 - 1) = 0 := by ring
    rw [e] at h1
    exact h1.congr fun r => (hu r).symm

/-- for a fluid with σ = 3 Å and ε = 200 K -/
example : pairPotential onePure 0 (minimumDistance 3) = -200 :=
  (C44_pair_potential onePure 0 three_pos (by change (0 : ℝ) < 200; norm_num)).2.2.2.2.1

end PcSaft.Props
