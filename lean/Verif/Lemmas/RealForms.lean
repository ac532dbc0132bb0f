import Verif.Model.Eos
import Mathlib.Tactic.Ring
import Mathlib.Tactic.FieldSimp
import Mathlib.Tactic.Linarith
import Mathlib.Algebra.BigOperators.Field

/-! # Closed forms of the contributions over the reals

Numerals are normalised (`0.5` to `1/2`, ...) and loops written as sums. -/

namespace PcSaft
variable {n : ℕ}

/-- segment diameter -/
theorem hsDiameter_real (p : PcSaftParameters n ℝ) (T : ℝ) (i : Fin n) :
    hsDiameter p T i = p.sigma i * (1 - 3 / 25 * Real.exp (-3 * p.epsilon_k i / T)) := by
  simp only [hsDiameter, c, ofF_real, recip_real, dexp_real]
  have : T⁻¹ * (-3.0) * p.epsilon_k i = -3 * p.epsilon_k i / T := by
    norm_num
    ring
  rw [this]
  norm_num
  ring

theorem zeta_real (m : Fin n → ℝ) (rho d : Fin n → ℝ) (k : Fin 4) :
    zeta m rho d k = Real.pi / 6 * ∑ i, rho i * (m i * d i ^ (k : ℕ)) := by
  simp only [zeta, c, ofF_real, dpowi_real, sumFin_real, pi_real, Finset.mul_sum]
  refine Finset.sum_congr rfl (fun i _ => ?_)
  norm_num
  ring

theorem zeta0_real (m rho d : Fin n → ℝ) :
    zeta m rho d 0 = Real.pi / 6 * ∑ i, rho i * m i := by
  rw [zeta_real]; simp
theorem zeta1_real (m rho d : Fin n → ℝ) :
    zeta m rho d 1 = Real.pi / 6 * ∑ i, rho i * (m i * d i) := by
  rw [zeta_real]; simp
theorem zeta2_real (m rho d : Fin n → ℝ) :
    zeta m rho d 2 = Real.pi / 6 * ∑ i, rho i * (m i * d i ^ 2) := zeta_real m rho d 2
theorem zeta3_real (m rho d : Fin n → ℝ) :
    zeta m rho d 3 = Real.pi / 6 * ∑ i, rho i * (m i * d i ^ 3) := zeta_real m rho d 3

theorem zeta23_real (m : Fin n → ℝ) (x d : Fin n → ℝ) :
    zeta23 m x d = (∑ i, x i * (m i * d i ^ 2)) / ∑ i, x i * (m i * d i ^ 3) := by
  simp only [zeta23, c, ofF_real, dpowi_real, sumFin_real]
  congr 1 <;>
  · refine Finset.sum_congr rfl (fun i _ => ?_)
    ring

/-- hard sphere energy from the four moments, the ratio `z23` and the volume -/
noncomputable def hsForm (V z0 z1 z2 z3 z23 : ℝ) : ℝ :=
  V * 6 / Real.pi * (3 * z1 * z2 / (1 - z3) + z2 ^ 2 * z23 / (1 - z3) ^ 2
    + (z2 * z23 ^ 2 - z0) * Real.log (1 - z3))

theorem neg_recip_sub_one (x : ℝ) : -(x - 1)⁻¹ = (1 - x)⁻¹ := by
  rw [← inv_neg, neg_sub]

theorem hardSphere_real (p : PcSaftParameters n ℝ) (s : StateHD n ℝ) :
    hardSphere p s = hsForm s.volume
      (zeta p.m s.partial_density (hsDiameter p s.temperature) 0)
      (zeta p.m s.partial_density (hsDiameter p s.temperature) 1)
      (zeta p.m s.partial_density (hsDiameter p s.temperature) 2)
      (zeta p.m s.partial_density (hsDiameter p s.temperature) 3)
      (zeta23 p.m s.molefracs (hsDiameter p s.temperature)) := by
  simp only [hardSphere, hsForm, c, ofF_real, dpowi_real, dln1p_real, recip_real, pi_real]
  generalize zeta p.m s.partial_density (hsDiameter p s.temperature) 0 = z0
  generalize zeta p.m s.partial_density (hsDiameter p s.temperature) 1 = z1
  generalize zeta p.m s.partial_density (hsDiameter p s.temperature) 2 = z2
  generalize zeta p.m s.partial_density (hsDiameter p s.temperature) 3 = z3
  generalize zeta23 p.m s.molefracs (hsDiameter p s.temperature) = z23
  have h1 : (1.0 : ℝ) = 1 := by norm_num
  have h2 : 1 + z3 * (-1.0) = 1 - z3 := by norm_num; ring
  have h3 : (3.0 : ℝ) = 3 := by norm_num
  have h6 : (6.0 : ℝ) = 6 := by norm_num
  rw [h2, h1, h3, h6, neg_recip_sub_one]
  generalize 1 - z3 = w
  ring

/-- contact value of the hard sphere fluid -/
noncomputable def gForm (z2 z3 d : ℝ) : ℝ :=
  1 / (1 - z3) + 3 / 2 * d * z2 / (1 - z3) ^ 2 + 1 / 2 * d ^ 2 * z2 ^ 2 / (1 - z3) ^ 3

theorem gHs_real (z2 z3 d : ℝ) (h : z3 ≠ 1) : gHs z2 z3 d = gForm z2 z3 d := by
  have h' : 1 - z3 ≠ 0 := fun h0 => h (by linarith)
  have h1 : (1.0 : ℝ) = 1 := by norm_num
  simp only [gHs, gForm, c, ofF_real, dpowi_real, recip_real]
  rw [h1, neg_recip_sub_one]
  have h3 : (1.5 : ℝ) = 3 / 2 := by norm_num
  have h4 : (0.5 : ℝ) = 1 / 2 := by norm_num
  rw [h3, h4]
  field_simp
  ring

theorem hardChain_real (p : PcSaftParameters n ℝ) (s : StateHD n ℝ) :
    hardChain p s = s.volume * ∑ i, s.partial_density i * ((1 - p.m i)
      * Real.log (gHs (zeta p.m s.partial_density (hsDiameter p s.temperature) 2)
        (zeta p.m s.partial_density (hsDiameter p s.temperature) 3)
        (hsDiameter p s.temperature i))) := by
  have h1 : (1.0 : ℝ) = 1 := by norm_num
  simp only [hardChain, c, ofF_real, dln_real, sumFin_real, h1]
  rw [mul_comm]
  congr 1
  refine Finset.sum_congr rfl (fun i _ => ?_)
  ring

/-- packing fraction -/
theorem packingFraction_real (m : Fin n → ℝ) (rho d : Fin n → ℝ) :
    packingFraction m rho (fun i => d i * c (0.5 : ℝ)) = Real.pi / 6 * ∑ i, rho i * (m i * d i ^ 3) := by
  simp only [packingFraction, c, ofF_real, sumFin_real, pi_real]
  rw [Finset.sum_mul, Finset.sum_mul, Finset.mul_sum]
  refine Finset.sum_congr rfl (fun i _ => ?_)
  norm_num
  ring

theorem packingFraction_eq_zeta (m : Fin n → ℝ) (rho d : Fin n → ℝ) :
    packingFraction m rho (fun i => d i * c (0.5 : ℝ)) = zeta m rho d 3 := by
  rw [packingFraction_real, zeta_real]
  rfl

/-- the loop with a running power is a polynomial -/
theorem powerLoop_real (q : ℕ) (f : Fin q → ℝ) (eta a b : ℝ) :
    Fin.foldl q (fun (acc : ℝ × ℝ) i => (acc.1 + f i * acc.2, acc.2 * eta)) (a, b)
      = (a + ∑ i, f i * (b * eta ^ (i : ℕ)), b * eta ^ q) := by
  induction q with
  | zero => simp
  | succ q ih =>
    rw [Fin.foldl_succ_last]
    rw [ih (fun i => f i.castSucc)]
    rw [Fin.sum_univ_castSucc]
    simp only [Fin.val_castSucc, Fin.val_last, Prod.mk.injEq]
    constructor
    · ring
    · ring

/-- perturbation integral -/
noncomputable def intForm (a0 a1 a2 : Fin 7 → ℝ) (m eta : ℝ) : ℝ :=
  ∑ i, ((m - 1) / m * ((m - 2) / m * a2 i + a1 i) + a0 i) * eta ^ (i : ℕ)

theorem dispersionIntegral_real (a0 a1 a2 : Fin 7 → ℝ) (m eta : ℝ) :
    dispersionIntegral a0 a1 a2 m eta = intForm a0 a1 a2 m eta := by
  simp only [dispersionIntegral, c, ofF_real]
  rw [powerLoop_real 7 (fun i => (m - 1.0) / m * ((m - 2.0) / m * a2 i + a1 i) + a0 i)]
  simp only [intForm]
  have h1 : (1.0 : ℝ) = 1 := by norm_num
  have h2 : (2.0 : ℝ) = 2 := by norm_num
  have h0 : (0.0 : ℝ) = 0 := by norm_num
  rw [h1, h2, h0]
  simp

/-- compressibility factor -/
noncomputable def c1Form (m eta : ℝ) : ℝ :=
  (1 + m * (8 * eta - 2 * eta ^ 2) / (1 - eta) ^ 4
    + (1 - m) * (20 * eta - 27 * eta ^ 2 + 12 * eta ^ 3 - 2 * eta ^ 4)
      / ((1 - eta) * (2 - eta)) ^ 2)⁻¹

theorem dispersionC1_real (m eta : ℝ) : dispersionC1 m eta = c1Form m eta := by
  simp only [dispersionC1, c1Form, c, ofF_real, dpowi_real, recip_real]
  congr 1
  have e1 : (eta - 1.0) ^ 4 = (1 - eta) ^ 4 := by norm_num; ring
  have e2 : ((eta - 1.0) * (eta - 2.0)) ^ 2 = ((1 - eta) * (2 - eta)) ^ 2 := by norm_num; ring
  rw [e1, e2]
  norm_num
  ring

theorem rho1mix_real (p : PcSaftParameters n ℝ) (T : ℝ) (rho : Fin n → ℝ) :
    rho1mix p T rho = ∑ i, ∑ j, rho i * rho j
      * (p.m i * p.m j * (p.epsilon_k_ij i j / T) * p.sigma_ij i j ^ 3) := by
  simp only [rho1mix, c, ofF_real, sumFin2_real, recip_real, powi_real]
  refine Finset.sum_congr rfl (fun i _ => Finset.sum_congr rfl (fun j _ => ?_))
  ring

theorem rho2mix_real (p : PcSaftParameters n ℝ) (T : ℝ) (rho : Fin n → ℝ) :
    rho2mix p T rho = ∑ i, ∑ j, rho i * rho j
      * (p.m i * p.m j * (p.epsilon_k_ij i j / T) ^ 2 * p.sigma_ij i j ^ 3) := by
  simp only [rho2mix, c, ofF_real, sumFin2_real, recip_real, powi_real]
  refine Finset.sum_congr rfl (fun i _ => Finset.sum_congr rfl (fun j _ => ?_))
  ring

/-- dispersion energy from mixture quantities -/
noncomputable def dispForm (V r1 r2 m eta : ℝ) : ℝ :=
  -Real.pi * V * (2 * r1 * intForm A0 A1 A2 m eta + r2 * m * c1Form m eta * intForm B0 B1 B2 m eta)

theorem dispersion_real (p : PcSaftParameters n ℝ) (s : StateHD n ℝ) :
    dispersion p s = dispForm s.volume (rho1mix p s.temperature s.partial_density)
      (rho2mix p s.temperature s.partial_density) (∑ i, s.molefracs i * p.m i)
      (zeta p.m s.partial_density (hsDiameter p s.temperature) 3) := by
  have h2 : (2.0 : ℝ) = 2 := by norm_num
  simp only [dispersion]
  rw [packingFraction_eq_zeta]
  simp only [dispForm, dispersionIntegral_real, dispersionC1_real, c, ofF_real, sumFin_real, pi_real, h2]
  ring

end PcSaft
