import Verif.Props.DftChain
import Verif.Props.Mixture
import Verif.Model.DftPure

/-!
# C37, C38: the attractive functionals of a homogeneous fluid
-/

namespace PcSaft.Props
open PcSaft Spec
variable {n : ℕ} {p : PcSaftParameters n ℝ} {T V : ℝ} {moles : Fin n → ℝ}

/-- the normalised weight function of the attractive functional gives the density itself in a
homogeneous fluid -/
theorem scaledTheta_bulk (d psi rho : ℝ) (hd : 0 < d) (hpsi : psi ≠ 0) :
    (DualNum.recip (shapeIntegral .Theta (d * c psi)) : ℝ) * shapeIntegral .Theta (d * c psi) * rho = rho := by
  have h4 : (4.0 : ℝ) = 4 := by norm_num
  have h3 : (3.0 : ℝ) = 3 := by norm_num
  simp only [shapeIntegral, c, ofF_real, dpowi_real, recip_real, pi_real, h4, h3]
  have := hd.ne'
  have := Real.pi_ne_zero
  field_simp

theorem attractive_rows (hd : ∀ i, 0 < hsDiameter p T i) (psi : ℝ) (hpsi : psi ≠ 0) (dim : ℕ)
    (rho : Fin n → ℝ) : (attWeightFunctions p psi T).bulkRows dim rho = List.ofFn rho := by
  have hr : (fun i => (DualNum.recip (shapeIntegral .Theta (hsDiameter p T i * c psi)) : ℝ)
      * shapeIntegral .Theta (hsDiameter p T i * c psi) * rho i) = rho :=
    funext fun i => scaledTheta_bulk _ psi _ (hd i) hpsi
  have : (attWeightFunctions p psi T).bulkRows dim rho
      = List.ofFn (fun i => (DualNum.recip (shapeIntegral .Theta (hsDiameter p T i * c psi)) : ℝ)
      * shapeIntegral .Theta (hsDiameter p T i * c psi) * rho i) := by
    simp [attWeightFunctions, WeightFunctionInfo.bulkRows, WeightFunctionInfo.rows,
      WeightFunctionInfo.add, WeightFunctionInfo.new, WeightFunction.newScaled, bulkValues,
      WeightFunction.bulkWeight]
  rw [this, hr]

theorem dftEta_eq (p : PcSaftParameters n ℝ) (T : ℝ) (rho : Fin n → ℝ) :
    dftEta p T rho = packingFraction p.m rho (fun i => hsDiameter p T i * c (0.5 : ℝ)) := by
  have h4 : (4.0 : ℝ) = 4 := by norm_num
  have h3 : (3.0 : ℝ) = 3 := by norm_num
  have h5 : (0.5 : ℝ) = 1 / 2 := by norm_num
  simp only [dftEta, packingFraction, sumFin_real, c, ofF_real, h4, h3, h5]
  rw [Finset.sum_mul, Finset.sum_mul]
  exact Finset.sum_congr rfl fun i _ => by ring

theorem dftDispersionIntegral_real (a0 a1 a2 : Fin 7 → ℝ) (m eta : ℝ) :
    dftDispersionIntegral a0 a1 a2 ((m - 1) / m) ((m - 2) / m * ((m - 1) / m)) eta
      = intForm a0 a1 a2 m eta := by
  simp only [dftDispersionIntegral, c, ofF_real]
  rw [powerLoop_real 7 (fun i => (m - 2) / m * ((m - 1) / m) * a2 i + (m - 1) / m * a1 i + a0 i)]
  simp only [intForm]
  have h1 : (1.0 : ℝ) = 1 := by norm_num
  have h0 : (0.0 : ℝ) = 0 := by norm_num
  rw [h1, h0, zero_add]
  exact Finset.sum_congr rfl fun i _ => by ring

theorem dftC1_real (m eta : ℝ) : dftC1 m eta = c1Form m eta := by
  have h1 : (1.0 : ℝ) = 1 := by norm_num
  have h2 : (2.0 : ℝ) = 2 := by norm_num
  have h8 : (8.0 : ℝ) = 8 := by norm_num
  have h12 : (12.0 : ℝ) = 12 := by norm_num
  have h27 : (27.0 : ℝ) = 27 := by norm_num
  have h20 : (20.0 : ℝ) = 20 := by norm_num
  simp only [dftC1, c1Form, c, ofF_real, dpowi_real, recip_real, h1, h2, h8, h12, h27, h20]
  congr 1
  have e1 : (eta - 1) ^ 4 = (1 - eta) ^ 4 := by ring
  have e2 : ((eta - 1) * (eta - 2)) ^ 2 = ((1 - eta) * (2 - eta)) ^ 2 := by ring
  rw [e1, e2]
  ring

theorem pureC1_real (m eta : ℝ) : pureC1 m eta = c1Form m eta := by
  have h1 : (1.0 : ℝ) = 1 := by norm_num
  have h2 : (2.0 : ℝ) = 2 := by norm_num
  have h8 : (8.0 : ℝ) = 8 := by norm_num
  have h12 : (12.0 : ℝ) = 12 := by norm_num
  have h27 : (27.0 : ℝ) = 27 := by norm_num
  have h20 : (20.0 : ℝ) = 20 := by norm_num
  simp only [pureC1, c1Form, c, ofF_real, dpowi_real, recip_real, h1, h2, h8, h12, h27, h20]
  congr 1
  have e1 : (eta - 1) ^ 4 = (1 - eta) ^ 4 := by ring
  have e2 : ((eta - 1) * (eta - 2)) ^ 2 = ((1 - eta) * (2 - eta)) ^ 2 := by ring
  rw [e1, e2]
  ring

/-- the dispersion energy density of the mixture functional -/
theorem dftDispersion_eq (p : PcSaftParameters n ℝ) (T V : ℝ) (hV : V ≠ 0) (moles : Fin n → ℝ)
    (hrho : f64EPSILON < ∑ i, moles i / V) :
    V * dftDispersion p T (fun i => moles i / V) = dispersion p (StateHD.new T V moles) := by
  rw [dispersion_real, StateHD.new_volume, StateHD.new_temperature]
  set rho := (StateHD.new T V moles).partial_density with hrho'
  have hr : (fun i => moles i / V) = rho := rfl
  rw [hr]
  have ht : ∑ i, moles i ≠ 0 := by
    intro h0
    have h1 : ∑ i, moles i / V = 0 := by rw [← Finset.sum_div, h0, zero_div]
    have := f64EPSILON_pos
    linarith
  have hm : dftMBar p rho = ∑ i, (StateHD.new T V moles).molefracs i * p.m i := by
    have hc : f64EPSILON < ∑ i, rho i := hrho
    simp only [dftMBar, lt_real, re_real, sumFin_real, hc, decide_true, if_true, c, ofF_real]
    rw [StateHD.new_molefracs, Finset.sum_div, ← hr]
    refine Finset.sum_congr rfl fun i _ => ?_
    rw [← Finset.sum_div]
    field_simp
  have h1 : (1.0 : ℝ) = 1 := by norm_num
  have h2 : (2.0 : ℝ) = 2 := by norm_num
  have e1 : (sumFin2 fun i j => rho i * rho j * (DualNum.recip T * c (p.epsilon_k_ij i j)
      * c (F64.powi (p.sigma_ij i j) 3) * c (p.m i) * c (p.m j))) = rho1mix p T rho := by
    rw [rho1mix_real]
    simp only [sumFin2_real, c, ofF_real, recip_real, powi_real]
    exact Finset.sum_congr rfl fun i _ => Finset.sum_congr rfl fun j _ => by ring
  have e2 : (sumFin2 fun i j => rho i * rho j * (DualNum.recip T * c (p.epsilon_k_ij i j)
      * (DualNum.recip T * c (p.epsilon_k_ij i j))
      * c (F64.powi (p.sigma_ij i j) 3) * c (p.m i) * c (p.m j))) = rho2mix p T rho := by
    rw [rho2mix_real]
    simp only [sumFin2_real, c, ofF_real, recip_real, powi_real]
    exact Finset.sum_congr rfl fun i _ => Finset.sum_congr rfl fun j _ => by ring
  simp only [dftDispersion]
  rw [e1, e2, hm, dftEta_eq, packingFraction_eq_zeta]
  simp only [c, ofF_real, h1, h2, pi_real]
  rw [dftDispersionIntegral_real, dftDispersionIntegral_real, dftC1_real, dispForm]
  ring

/-- C37, mixtures: in a homogeneous fluid the attractive functional evaluates at the densities
themselves, whatever the scale `psi` of the weight function and the dimension, and its dispersion part
is the dispersion contribution of the equation of state per volume.  (The remaining part `dftPolar`
is the subject of C38-C41.) -/
theorem C37_dispersion_bulk (h : Admissible p T V moles) (psi : ℝ) (hpsi : psi ≠ 0) (dim : ℕ)
    (hrho : f64EPSILON < ∑ i, moles i / V) :
    attractiveFunctional p T ((attWeightFunctions p psi T).bulkRows dim (fun i => moles i / V))
      = .ok (dispersion p (StateHD.new T V moles) / V + dftPolar p T (fun i => moles i / V)) := by
  rw [attractive_rows h.diameter_pos psi hpsi]
  have h0 := rowSlice_head (fun i => moles i / V) []
  rw [List.append_nil] at h0
  unfold attractiveFunctional
  rw [h0]
  have := dftDispersion_eq p T V h.volume.ne' moles hrho
  rw [← this]
  simp only [bind, Except.bind]
  have := h.volume.ne'
  congr 2
  field_simp

/-- without polar components there is nothing but the dispersion -/
theorem C37_nonpolar_mixture (h : Admissible p T V moles) (psi : ℝ) (hpsi : psi ≠ 0) (dim : ℕ)
    (hrho : f64EPSILON < ∑ i, moles i / V) (hd : p.ndipole = 0) (hq : p.nquadpole = 0) :
    attractiveFunctional p T ((attWeightFunctions p psi T).bulkRows dim (fun i => moles i / V))
      = .ok (dispersion p (StateHD.new T V moles) / V) := by
  rw [C37_dispersion_bulk h psi hpsi dim hrho]
  have h0 : (0.0 : ℝ) = 0 := by norm_num
  simp [dftPolar, hd, hq, c, h0]

/-- the pure component functional reads its single row -/
theorem pureAttractive_rows (p : PcSaftParameters 1 ℝ) (hd : ∀ i, 0 < hsDiameter p T i) (psi : ℝ)
    (hpsi : psi ≠ 0) (dim : ℕ) (rho : Fin 1 → ℝ) :
    (pureAttWeightFunctions p psi T).bulkRows dim rho = [rho 0] := by
  have h := attractive_rows hd psi hpsi dim rho
  have e : (pureAttWeightFunctions p psi T) = attWeightFunctions p psi T := rfl
  rw [e, h]
  simp

theorem pureEta_eq (p : PcSaftParameters 1 ℝ) (T : ℝ) (rho : Fin 1 → ℝ) :
    pureEta p T (rho 0) = packingFraction p.m rho (fun i => hsDiameter p T i * c (0.5 : ℝ)) := by
  rw [packingFraction_real]
  have h6 : (6.0 : ℝ) = 6 := by norm_num
  simp only [pureEta, c, ofF_real, dpowi_real, pi_real, h6, Finset.univ_unique, Fin.default_eq_zero,
    Finset.sum_singleton]
  ring

theorem pureDispersionIntegral_real (a0 a1 a2 : Fin 7 → ℝ) (m eta : ℝ) :
    pureDispersionIntegral a0 a1 a2 ((m - 1) / m) ((m - 1) / m * (m - 2) / m) eta
      = intForm a0 a1 a2 m eta := by
  simp only [pureDispersionIntegral, c, ofF_real, dpowi_real, sumFin_real, intForm]
  exact Finset.sum_congr rfl fun i _ => by ring

/-- C37, pure components. -/
theorem pureDispersion_eq (p : PcSaftParameters 1 ℝ) (T V : ℝ) (moles : Fin 1 → ℝ)
    (hmol : moles 0 ≠ 0) (hσ : p.sigma_ij 0 0 = p.sigma 0) (he : p.epsilon_k_ij 0 0 = p.epsilon_k 0) :
    V * pureDispersion p T (moles 0 / V) = dispersion p (StateHD.new T V moles) := by
  rw [dispersion_real, StateHD.new_volume, StateHD.new_temperature]
  set rho := (StateHD.new T V moles).partial_density with hrho'
  have hr : moles 0 / V = rho 0 := rfl
  rw [hr]
  have h1 : (1.0 : ℝ) = 1 := by norm_num
  have h2 : (2.0 : ℝ) = 2 := by norm_num
  have hm : ∑ i, (StateHD.new T V moles).molefracs i * p.m i = p.m 0 := by
    rw [StateHD.new_molefracs]
    simp only [Finset.univ_unique, Fin.default_eq_zero, Finset.sum_singleton]
    field_simp
  rw [hm, rho1mix_real, rho2mix_real]
  simp only [Finset.univ_unique, Fin.default_eq_zero, Finset.sum_singleton, hσ, he]
  simp only [pureDispersion]
  rw [pureEta_eq, packingFraction_eq_zeta]
  simp only [c, ofF_real, h1, h2, pi_real, dpowi_real, powi_real, recip_real]
  rw [pureDispersionIntegral_real, pureDispersionIntegral_real, pureC1_real, dispForm]
  ring

theorem C37_pure_dispersion_bulk (pr : Fin 1 → PureRecord ℝ) (k : Fin 1 → Fin 1 → ℝ)
    (moles : Fin 1 → ℝ) (h : Admissible (fromRecords pr k) T V moles) (hk : k 0 0 = 0) (psi : ℝ)
    (hpsi : psi ≠ 0) (dim : ℕ) :
    let p := fromRecords pr k
    ∃ polar, pureAttFunctional p T ((pureAttWeightFunctions p psi T).bulkRows dim (fun i => moles i / V))
      = .ok (dispersion p (StateHD.new T V moles) / V + polar)
      ∧ (p.ndipole = 0 → p.nquadpole = 0 → polar = 0) := by
  intro p
  have hmol : moles 0 ≠ 0 := by
    obtain ⟨i, hi⟩ := h.moles_ne_zero
    rwa [Subsingleton.elim i 0] at hi
  have hV := h.volume.ne'
  have hσ : p.sigma_ij 0 0 = p.sigma 0 := by
    change 0.5 * (p.sigma 0 + p.sigma 0) = p.sigma 0
    have h5 : (0.5 : ℝ) = 1 / 2 := by norm_num
    rw [h5]
    ring
  have he : p.epsilon_k_ij 0 0 = p.epsilon_k 0 := by
    have h1 : (1.0 : ℝ) = 1 := by norm_num
    change (1.0 - k 0 0) * Real.sqrt (p.epsilon_k 0 * p.epsilon_k 0) = p.epsilon_k 0
    rw [hk, Real.sqrt_mul_self (h.epsilon_nonneg 0), h1]
    ring
  have hdisp := pureDispersion_eq p T V moles hmol hσ he
  rw [pureAttractive_rows p h.diameter_pos psi hpsi]
  have hd : dispersion p (StateHD.new T V moles) / V = pureDispersion p T (moles 0 / V) := by
    rw [← hdisp]
    field_simp
  rw [hd]
  refine ⟨(if 0 < p.ndipole then pureDipole p T (moles 0 / V) else 0)
    + (if 0 < p.nquadpole then pureQuadrupole p T (moles 0 / V) else 0), ?_, fun hnd hnq => ?_⟩
  · simp only [pureAttFunctional, rowAt, List.getElem?_cons_zero, bind, Except.bind]
    congr 1
    split_ifs <;> ring
  · simp [hnd, hnq]

end PcSaft.Props
