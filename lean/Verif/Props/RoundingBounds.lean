import Verif.Lemmas.RoundingInputs

/-!
# C111: the size of rounding errors

The code is run with an arithmetic that makes a relative error of at most `u` in every operation (`Spec.Relative`); the result
is compared with the theory of `Spec/Theory.lean`, which is evaluated exactly.
-/

namespace PcSaft.Props
open Spec
variable {n : ℕ}

section
variable {ar : Arithmetic} (h : Relative ar) (pr : Fin n → PureRecord ℝ) (kij : Fin n → Fin n → ℝ)

/-- the parameters computed with rounding from the same records -/
noncomputable abbrev roundedParameters (ar : Arithmetic) (pr : Fin n → PureRecord ℝ) (kij : Fin n → Fin n → ℝ) :
    PcSaftParameters n (Rd ar) :=
  fromRecords (fun i => (pr i).mapHom (handOver ar)) (fun i j => handOver ar (kij i j))

/-- the state built with rounding from the same numbers -/
noncomputable abbrev roundedState (ar : Arithmetic) (T V : ℝ) (moles : Fin n → ℝ) : StateHD n (Rd ar) :=
  StateHD.new (handOver ar T) (handOver ar V) (fun i => handOver ar (moles i))

/-- numbers that agree up to a factor differ by a small fraction -/
theorem agrees_abs (h : Relative ar) {k : ℕ} {x : ℝ} {x' : Rd ar} (hx : Agrees ar k x x') :
    |x'.val - x| ≤ (Growth ar ^ k - 1) * x := (hx.differs h).error

include h in
/-- the computed segment diameters are accurate to eight operations -/
theorem C111_diameter (hm : ∀ i, 0 ≤ (pr i).model_record.m) (hs : ∀ i, 0 ≤ (pr i).model_record.sigma)
    (he : ∀ i, 0 ≤ (pr i).model_record.epsilon_k) (hk : ∀ i j, kij i j ≤ 1) {T : ℝ} (hT : 0 < T)
    (hg : Growth ar ^ 3 ≤ 3) (i : Fin n) :
    |(hsDiameter (roundedParameters ar pr kij) (handOver ar T) i).val
        - diameter (pr i).model_record.sigma (pr i).model_record.epsilon_k T|
      ≤ (Growth ar ^ 8 - 1) * diameter (pr i).model_record.sigma (pr i).model_record.epsilon_k T := by
  have := agrees_abs h (agrees_hsDiameter h (parametersAgree h pr kij hm hs he hk) (agrees_handOver hT.le) hT hg i)
  rw [hsDiameter_theory] at this
  exact this

include h in
/-- the computed maximum density is the density with the packing fraction `max_eta` up to `2 n + 10` operations -/
theorem C111_max_density (hm : ∀ i, 0 < (pr i).model_record.m) (hs : ∀ i, 0 < (pr i).model_record.sigma)
    {moles : Fin n → ℝ} (hN : ∀ i, 0 ≤ moles i) (hN0 : ∃ i, moles i ≠ 0) {max_eta : ℝ} (hx : 0 ≤ max_eta)
    (o : PcSaftOptions (Rd ar)) (ho : o.max_eta = handOver ar max_eta) :
    |((Eos.withOptions (roundedParameters ar pr kij) o).maxDensity (fun i => handOver ar (moles i))).val
        - max_eta * (∑ i, moles i)
          / ∑ i, moles i * ((pr i).model_record.m * (Real.pi / 6 * (pr i).model_record.sigma ^ 3))|
      ≤ (Growth ar ^ (2 * n + 10) - 1) * (max_eta * (∑ i, moles i)
          / ∑ i, moles i * ((pr i).model_record.m * (Real.pi / 6 * (pr i).model_record.sigma ^ 3))) := by
  refine agrees_abs h ?_
  have e1 : ∀ i, Agrees ar 8 (Real.pi / 6 * (pr i).model_record.m * (pr i).model_record.sigma ^ 3 * moles i)
      (F64.pi / 6.0 * (roundedParameters ar pr kij).m i * F64.powi ((roundedParameters ar pr kij).sigma i) 3
        * handOver ar (moles i)) := fun i =>
    (((((Agrees.pi h).div h (agrees_six h) (by norm_num)).mul h (agrees_handOver (hm i).le)).mul h
      ((agrees_handOver (hs i).le).powi h 3)).mul h (agrees_handOver (hN i)))
  have e2 := ((agrees_handOver (a := ar) hx).mul h (Agrees.sumFin h fun i => agrees_handOver (hN i))).div h
    (Agrees.sumFin h e1) (by
      obtain ⟨i, hi⟩ := hN0
      refine Finset.sum_pos' (fun j _ => (e1 j).nonneg) ⟨i, Finset.mem_univ i, ?_⟩
      have := lt_of_le_of_ne (hN i) (Ne.symm hi)
      have := hm i
      have := hs i
      positivity)
  have e3 : ∑ i, moles i * ((pr i).model_record.m * (Real.pi / 6 * (pr i).model_record.sigma ^ 3))
      = ∑ i, Real.pi / 6 * (pr i).model_record.m * (pr i).model_record.sigma ^ 3 * moles i :=
    Finset.sum_congr rfl fun i _ => by ring
  rw [e3, Eos.maxDensity, computeMaxDensity]
  change Agrees ar _ _ (o.max_eta * _ / _)
  rw [ho]
  exact e2.mono h (by omega)

variable {T V : ℝ} {moles : Fin n → ℝ}

omit h in
theorem packing_theory : (fluidOf pr kij).zeta T (fun i => moles i / V) 3
    = Spec.packingFraction (fromRecords pr kij) T V moles := by
  simp only [Spec.Fluid.zeta, Spec.packingFraction, Finset.mul_sum]
  exact Finset.sum_congr rfl fun i _ => by
    simp only [Spec.Fluid.d, fluidOf, fromRecords]
    ring

omit h in
theorem zeta3_state : zeta (fromRecords pr kij).m (StateHD.new T V moles).partial_density
    (hsDiameter (fromRecords pr kij) (StateHD.new T V moles).temperature) 3
    = Spec.packingFraction (fromRecords pr kij) T V moles := by
  rw [← packing_theory]
  exact zeta_theory pr kij T (fun i => moles i / V) 3

include h in
theorem admissible_agrees (hk : ∀ i j, kij i j ≤ 1) (ha : Admissible (fromRecords pr kij) T V moles) :
    ParametersAgree ar (fromRecords pr kij) (roundedParameters ar pr kij)
      ∧ StateAgrees ar (StateHD.new T V moles) (roundedState ar T V moles) :=
  ⟨parametersAgree h pr kij (fun i => (ha.m_pos i).le) (fun i => (ha.sigma_pos i).le) ha.epsilon_nonneg hk,
    stateAgrees h ha.temperature.le ha.volume ha.moles_nonneg (sum_moles_pos pr kij ha)⟩

include h in
theorem hardSphere_differs (hk : ∀ i j, kij i j ≤ 1) (ha : Admissible (fromRecords pr kij) T V moles)
    (hp : Spec.packingFraction (fromRecords pr kij) T V moles ≤ 1 / 2) (hg : Growth ar ^ (34 + n) ≤ 3 / 2) :
    Differs ar (275 + 13 * n) (V * (fluidOf pr kij).hardSphereSize T (fun i => moles i / V))
      (V * (fluidOf pr kij).hardSphere T (fun i => moles i / V))
      (hardSphere (roundedParameters ar pr kij) (roundedState ar T V moles)) := by
  obtain ⟨h1, h2⟩ := admissible_agrees h pr kij hk ha
  have h3 := zeta_pos_of_admissible pr kij ha 3
  have h0 : 0 < ∑ i, (StateHD.new T V moles).molefracs i
      * ((fromRecords pr kij).m i * hsDiameter (fromRecords pr kij) (StateHD.new T V moles).temperature i ^ 3) := by
    have e := moment_theory pr kij ha 3
    rw [e] at h3
    exact pos_of_mul_pos_right h3 (by
      have := sum_moles_pos pr kij ha
      have := ha.volume
      positivity)
  have key := differs_hardSphere h h1 h2 ha.temperature (by rw [zeta3_state]; exact hp) h0 hg
  rw [C64_hard_sphere pr kij T V moles ha] at key
  have e : hsSizeForm (StateHD.new T V moles).volume
      (zeta (fromRecords pr kij).m (StateHD.new T V moles).partial_density
        (hsDiameter (fromRecords pr kij) (StateHD.new T V moles).temperature) 0)
      (zeta (fromRecords pr kij).m (StateHD.new T V moles).partial_density
        (hsDiameter (fromRecords pr kij) (StateHD.new T V moles).temperature) 1)
      (zeta (fromRecords pr kij).m (StateHD.new T V moles).partial_density
        (hsDiameter (fromRecords pr kij) (StateHD.new T V moles).temperature) 2)
      (zeta (fromRecords pr kij).m (StateHD.new T V moles).partial_density
        (hsDiameter (fromRecords pr kij) (StateHD.new T V moles).temperature) 3)
      (zeta23 (fromRecords pr kij).m (StateHD.new T V moles).molefracs
        (hsDiameter (fromRecords pr kij) (StateHD.new T V moles).temperature))
      = V * (fluidOf pr kij).hardSphereSize T (fun i => moles i / V) := by
    change hsSizeForm V (zeta _ (fun i => moles i / V) (hsDiameter _ T) 0) (zeta _ (fun i => moles i / V) (hsDiameter _ T) 1)
      (zeta _ (fun i => moles i / V) (hsDiameter _ T) 2) (zeta _ (fun i => moles i / V) (hsDiameter _ T) 3)
      (zeta23 _ (StateHD.new T V moles).molefracs (hsDiameter _ T)) = _
    rw [zeta23_theory pr kij ha, zeta_theory, zeta_theory, zeta_theory, zeta_theory]
    have hw := sub_pos.mpr (zeta3_lt_one pr kij ha)
    simp only [hsSizeForm, Spec.Fluid.hardSphereSize, Fin.isValue, Fin.val_zero, Fin.val_one, Fin.val_two]
    have c3 : ((3 : Fin 4) : ℕ) = 3 := rfl
    rw [c3]
    generalize (fluidOf pr kij).zeta T (fun i => moles i / V) 3 = z3 at *
    rw [abs_of_nonpos (Real.log_nonpos hw.le (by linarith))]
    have hp := Real.pi_ne_zero
    have hw' := hw.ne'
    field_simp
  rw [e] at key
  exact key

include h in
/-- the hard sphere contribution -/
theorem C111_hard_sphere (hk : ∀ i j, kij i j ≤ 1) (ha : Admissible (fromRecords pr kij) T V moles)
    (hp : Spec.packingFraction (fromRecords pr kij) T V moles ≤ 1 / 2) (hg : Growth ar ^ (34 + n) ≤ 3 / 2) :
    |(hardSphere (roundedParameters ar pr kij) (roundedState ar T V moles)).val
        - V * (fluidOf pr kij).hardSphere T (fun i => moles i / V)|
      ≤ (Growth ar ^ (275 + 13 * n) - 1) * (V * (fluidOf pr kij).hardSphereSize T (fun i => moles i / V)) :=
  (hardSphere_differs h pr kij hk ha hp hg).error

include h in
theorem hardChain_differs (hk : ∀ i j, kij i j ≤ 1) (ha : Admissible (fromRecords pr kij) T V moles)
    (hp : Spec.packingFraction (fromRecords pr kij) T V moles ≤ 1 / 2) (hg : Growth ar ^ (33 + n) ≤ 3 / 2) :
    Differs ar (422 + 13 * n) (V * (fluidOf pr kij).chainSize T (fun i => moles i / V))
      (V * (fluidOf pr kij).chain T (fun i => moles i / V))
      (hardChain (roundedParameters ar pr kij) (roundedState ar T V moles)) := by
  obtain ⟨h1, h2⟩ := admissible_agrees h pr kij hk ha
  have key := differs_hardChain h h1 h2 ha.temperature (by rw [zeta3_state]; exact hp) hg
  rw [C64_hard_chain pr kij T V moles ha] at key
  have e : (∑ i, (StateHD.new T V moles).partial_density i * |1 - (fromRecords pr kij).m i| * (1 + Real.log
      (gForm (zeta (fromRecords pr kij).m (StateHD.new T V moles).partial_density
          (hsDiameter (fromRecords pr kij) (StateHD.new T V moles).temperature) 2)
        (zeta (fromRecords pr kij).m (StateHD.new T V moles).partial_density
          (hsDiameter (fromRecords pr kij) (StateHD.new T V moles).temperature) 3)
        (hsDiameter (fromRecords pr kij) (StateHD.new T V moles).temperature i)))) * (StateHD.new T V moles).volume
      = V * (fluidOf pr kij).chainSize T (fun i => moles i / V) := by
    change (∑ i, moles i / V * |1 - (fluidOf pr kij).m i| * (1 + Real.log (gForm
      (zeta _ (fun i => moles i / V) (hsDiameter _ T) 2) (zeta _ (fun i => moles i / V) (hsDiameter _ T) 3)
      (hsDiameter _ T i)))) * V = _
    rw [mul_comm, zeta_theory, zeta_theory, Spec.Fluid.chainSize]
    congr 1
    refine Finset.sum_congr rfl fun i _ => ?_
    rw [hsDiameter_theory, abs_sub_comm]
    exact congrArg (fun z => moles i / V * |(fluidOf pr kij).m i - 1| * (1 + Real.log z)) (contact_theory pr kij T _ i)
  rw [e] at key
  exact key

include h in
/-- the chain contribution -/
theorem C111_hard_chain (hk : ∀ i j, kij i j ≤ 1) (ha : Admissible (fromRecords pr kij) T V moles)
    (hp : Spec.packingFraction (fromRecords pr kij) T V moles ≤ 1 / 2) (hg : Growth ar ^ (33 + n) ≤ 3 / 2) :
    |(hardChain (roundedParameters ar pr kij) (roundedState ar T V moles)).val
        - V * (fluidOf pr kij).chain T (fun i => moles i / V)|
      ≤ (Growth ar ^ (422 + 13 * n) - 1) * (V * (fluidOf pr kij).chainSize T (fun i => moles i / V)) :=
  (hardChain_differs h pr kij hk ha hp hg).error

omit h in
theorem intSize_theory (a0 a1 a2 : Fin 7 → ℝ) (m eta : ℝ) :
    intSizeForm a0 a1 a2 m eta = Spec.Fluid.integralSize ![a0, a1, a2] m eta := by
  simp only [intSizeForm, Spec.Fluid.integralSize]
  exact Finset.sum_congr rfl fun i _ => by
    simp only [Matrix.cons_val_zero, Matrix.cons_val_one, Matrix.cons_val]
    ring

include h in
theorem dispersion_differs (hk : ∀ i j, kij i j ≤ 1) (ha : Admissible (fromRecords pr kij) T V moles)
    (hm : ∀ i, 1 ≤ (pr i).model_record.m) (hp : Spec.packingFraction (fromRecords pr kij) T V moles ≤ 1 / 2)
    (hg : Growth ar ^ (411 + 12 * n) ≤ 13 / 12) :
    Differs ar (5239 + 160 * n + n * n)
      (V * (fluidOf pr kij).dispersionSize T (fun i => moles i / V) ![A0, A1, A2] ![B0, B1, B2])
      (V * (fluidOf pr kij).dispersion T (fun i => moles i / V) ![A0, A1, A2] ![B0, B1, B2])
      (dispersion (roundedParameters ar pr kij) (roundedState ar T V moles)) := by
  obtain ⟨h1, h2⟩ := admissible_agrees h pr kij hk ha
  have hmb : 1 ≤ ∑ i, (StateHD.new T V moles).molefracs i * (fromRecords pr kij).m i := by
    have hN := sum_moles_pos pr kij ha
    have e : ∑ i, (StateHD.new T V moles).molefracs i = 1 := by
      simp only [StateHD.new, sumFin_real]
      rw [← Finset.sum_div, div_self hN.ne']
    rw [← e]
    refine Finset.sum_le_sum fun i _ => ?_
    exact le_mul_of_one_le_right (h2.molefracs i).nonneg (hm i)
  have key := differs_dispersion h h1 h2 ha.temperature (by rw [zeta3_state]; exact hp) hmb hg
  rw [dispersion_theory pr kij ha, mBar_theory pr kij ha, intSize_theory, intSize_theory, c1_theory] at key
  have e : (rho1mix (fromRecords pr kij) (StateHD.new T V moles).temperature (StateHD.new T V moles).partial_density
        * Spec.Fluid.integralSize ![A0, A1, A2] ((fluidOf pr kij).mBar (fun i => moles i / V))
          (zeta (fromRecords pr kij).m (StateHD.new T V moles).partial_density
            (hsDiameter (fromRecords pr kij) (StateHD.new T V moles).temperature) 3) * 2
      + rho2mix (fromRecords pr kij) (StateHD.new T V moles).temperature (StateHD.new T V moles).partial_density
        * (fluidOf pr kij).mBar (fun i => moles i / V) * Spec.Fluid.c1 ((fluidOf pr kij).mBar (fun i => moles i / V))
          (zeta (fromRecords pr kij).m (StateHD.new T V moles).partial_density
            (hsDiameter (fromRecords pr kij) (StateHD.new T V moles).temperature) 3)
        * Spec.Fluid.integralSize ![B0, B1, B2] ((fluidOf pr kij).mBar (fun i => moles i / V))
          (zeta (fromRecords pr kij).m (StateHD.new T V moles).partial_density
            (hsDiameter (fromRecords pr kij) (StateHD.new T V moles).temperature) 3))
      * Real.pi * (StateHD.new T V moles).volume
      = V * (fluidOf pr kij).dispersionSize T (fun i => moles i / V) ![A0, A1, A2] ![B0, B1, B2] := by
    change (rho1mix _ T (fun i => moles i / V) * Spec.Fluid.integralSize _ _ (zeta _ (fun i => moles i / V) (hsDiameter _ T) 3) * 2
      + rho2mix _ T (fun i => moles i / V) * _ * Spec.Fluid.c1 _ (zeta _ (fun i => moles i / V) (hsDiameter _ T) 3)
        * Spec.Fluid.integralSize _ _ (zeta _ (fun i => moles i / V) (hsDiameter _ T) 3)) * Real.pi * V = _
    rw [rho1mix_theory, rho2mix_theory, zeta_theory]
    have c3 : ((3 : Fin 4) : ℕ) = 3 := rfl
    simp only [Spec.Fluid.dispersionSize, c3]
    ring
  rw [e] at key
  exact key

end

theorem residual_differs {ar : Arithmetic} (h : Relative ar) {pr : Fin n → PureRecord ℝ} {kij : Fin n → Fin n → ℝ} {T V : ℝ}
    {moles : Fin n → ℝ} (hpl : ∀ i, PlainRecord (pr i)) (hm : ∀ i, 1 ≤ (pr i).model_record.m)
    (he : ∀ i, 0 < (pr i).model_record.epsilon_k) (hk : ∀ i j, kij i j ≤ 1) (ha : Admissible (fromRecords pr kij) T V moles)
    (hp : Spec.packingFraction (fromRecords pr kij) T V moles ≤ 1 / 2) (hg : Growth ar ^ (411 + 12 * n) ≤ 13 / 12)
    (o : PcSaftOptions (Rd ar)) (la : LinAlg (Rd ar) (Rd ar)) :
    let f := fluidOf pr kij
    let rho := fun i => moles i / V
    ∃ A, (Eos.withOptions (roundedParameters ar pr kij) o).residualHelmholtz la (roundedState ar T V moles) = .ok A
      ∧ Differs ar (5242 + 160 * n + n ^ 2)
        (V * (f.hardSphereSize T rho + f.chainSize T rho + f.dispersionSize T rho ![A0, A1, A2] ![B0, B1, B2]))
        (V * (f.hardSphere T rho + f.chain T rho + f.dispersion T rho ![A0, A1, A2] ![B0, B1, B2])) A := by
  intro f rho
  refine ⟨_, plain_residual h hpl kij (fun i => by linarith [hm i]) ha.sigma_pos he o la _, ?_⟩
  have hg1 : ∀ k ≤ 411 + 12 * n, Growth ar ^ k ≤ 3 / 2 := fun k hk => by linarith [growth_mono h hk]
  have t1 := (Differs.zero (a := ar) (k := 5239 + 160 * n + n * n)).add h
    ((hardSphere_differs h pr kij hk ha hp (hg1 _ (by omega))).mono h (by nlinarith) le_rfl)
  have t2 := t1.add h ((hardChain_differs h pr kij hk ha hp (hg1 _ (by omega))).mono h (by nlinarith) le_rfl)
  have t3 := t2.add h ((dispersion_differs h pr kij hk ha hm hp hg).mono h (by omega) le_rfl)
  rw [zero_add, zero_add] at t3
  rw [← mul_add, ← mul_add, ← mul_add, ← mul_add] at t3
  rw [show 5242 + 160 * n + n ^ 2 = 5239 + 160 * n + n * n + 1 + 1 + 1 by rw [pow_two]; omega]
  exact t3

/-- C111: the residual Helmholtz energy of non-polar substances without association sites, computed with rounding, differs
from the theory by at most the effect of `5242 + 160 n + n²` operations on the terms of the theory. -/
theorem C111_residual_energy : ∃ a b : Fin 3 → Fin 7 → ℝ,
    (∀ i j, |a i j - Spec.publishedA i j| ≤ 5e-9) ∧ (∀ i j, |b i j - Spec.publishedB i j| ≤ 5e-9)
    ∧ ∀ (ar : Arithmetic), Relative ar → ∀ (n : ℕ) (pr : Fin n → PureRecord ℝ) (kij : Fin n → Fin n → ℝ) (T V : ℝ)
      (moles : Fin n → ℝ) (o : PcSaftOptions (Rd ar)) (la : LinAlg (Rd ar) (Rd ar)),
      (∀ i, PlainRecord (pr i)) → (∀ i, 1 ≤ (pr i).model_record.m) → (∀ i, 0 < (pr i).model_record.epsilon_k) →
      (∀ i j, kij i j ≤ 1) → Admissible (fromRecords pr kij) T V moles →
      Spec.packingFraction (fromRecords pr kij) T V moles ≤ 1 / 2 → Growth ar ^ (411 + 12 * n) ≤ 13 / 12 →
      let f := fluidOf pr kij
      let rho := fun i => moles i / V
      ∃ A, (Eos.withOptions (roundedParameters ar pr kij) o).residualHelmholtz la (roundedState ar T V moles) = .ok A
        ∧ |A.val - V * (f.hardSphere T rho + f.chain T rho + f.dispersion T rho a b)|
          ≤ (Growth ar ^ (5242 + 160 * n + n ^ 2) - 1)
            * (V * (f.hardSphereSize T rho + f.chainSize T rho + f.dispersionSize T rho a b)) := by
  refine ⟨![A0, A1, A2], ![B0, B1, B2], constants_published.1, constants_published.2, ?_⟩
  intro ar h n pr kij T V moles o la hpl hm he hk ha hp hg f rho
  obtain ⟨A, hA, e⟩ := residual_differs h hpl hm he hk ha hp hg o la
  exact ⟨A, hA, e.error⟩

theorem growth_binary64 : (∀ n ≤ 20, Growth Arithmetic.binary64 ^ (411 + 12 * n) ≤ 13 / 12)
    ∧ ∀ n ≤ 20, Growth Arithmetic.binary64 ^ (5242 + 160 * n + n ^ 2) - 1 ≤ 1e-12 := by
  have g := growth_le relative_binary64 8842
  have hu : Arithmetic.binary64.u = (2 ^ 53)⁻¹ := rfl
  rw [hu] at g
  have g1 : Growth Arithmetic.binary64 ^ 8842 ≤ 1 + 1e-12 := by
    generalize Growth Arithmetic.binary64 ^ 8842 = G at g
    norm_num at g ⊢
    linarith
  constructor
  · intro n hn
    exact (growth_mono relative_binary64 (show 411 + 12 * n ≤ 8842 by omega)).trans (by norm_num at g1 ⊢; linarith)
  · intro n hn
    linarith [growth_mono relative_binary64 (show 5242 + 160 * n + n ^ 2 ≤ 8842 by nlinarith)]

/-- C111: with the precision of `f64` and up to twenty components the error of the residual Helmholtz energy is at most
`10⁻¹²` times the terms of the theory. -/
theorem C111_binary64 : ∃ a b : Fin 3 → Fin 7 → ℝ,
    (∀ i j, |a i j - Spec.publishedA i j| ≤ 5e-9) ∧ (∀ i j, |b i j - Spec.publishedB i j| ≤ 5e-9)
    ∧ ∀ (n : ℕ) (pr : Fin n → PureRecord ℝ) (kij : Fin n → Fin n → ℝ) (T V : ℝ) (moles : Fin n → ℝ)
      (o : PcSaftOptions (Rd .binary64)) (la : LinAlg (Rd .binary64) (Rd .binary64)), n ≤ 20 →
      (∀ i, PlainRecord (pr i)) → (∀ i, 1 ≤ (pr i).model_record.m) → (∀ i, 0 < (pr i).model_record.epsilon_k) →
      (∀ i j, kij i j ≤ 1) → Admissible (fromRecords pr kij) T V moles →
      Spec.packingFraction (fromRecords pr kij) T V moles ≤ 1 / 2 →
      let f := fluidOf pr kij
      let rho := fun i => moles i / V
      ∃ A, (Eos.withOptions (roundedParameters .binary64 pr kij) o).residualHelmholtz la
          (roundedState .binary64 T V moles) = .ok A
        ∧ |A.val - V * (f.hardSphere T rho + f.chain T rho + f.dispersion T rho a b)|
          ≤ 1e-12 * (V * (f.hardSphereSize T rho + f.chainSize T rho + f.dispersionSize T rho a b)) := by
  refine ⟨![A0, A1, A2], ![B0, B1, B2], constants_published.1, constants_published.2, ?_⟩
  intro n pr kij T V moles o la hn hpl hm he hk ha hp f rho
  obtain ⟨A, hA, e⟩ := residual_differs relative_binary64 hpl hm he hk ha hp (growth_binary64.1 n hn) o la
  exact ⟨A, hA, e.error.trans (mul_le_mul_of_nonneg_right (growth_binary64.2 n hn) e.size_nonneg)⟩

/-! ### Pure substances: the sizes in numbers -/

section pure
variable {m eta : ℝ}

/-- perturbation integrals with any constants -/
theorem integralSize_le (a : Fin 3 → Fin 7 → ℝ) (hm : 1 ≤ m) (h0 : 0 ≤ eta) (h2 : eta ≤ 1 / 2) :
    Spec.Fluid.integralSize a m eta ≤ ∑ i, (|a 0 i| + 2 * |a 1 i| + 6 * |a 2 i|) * (1 / 2) ^ (i : ℕ) := by
  have hm0 : 0 < m := by linarith
  have k1 : (m + 1) / m ≤ 2 := by
    rw [div_le_iff₀ hm0]
    linarith
  have k2 : (m + 2) / m ≤ 3 := by
    rw [div_le_iff₀ hm0]
    linarith
  have k0 : 0 ≤ (m + 1) / m := by positivity
  have k3 : (m + 1) / m * ((m + 2) / m) ≤ 6 := by
    have := mul_le_mul k1 k2 (by positivity) (by norm_num)
    linarith
  refine Finset.sum_le_sum fun i _ => ?_
  refine mul_le_mul ?_ (pow_le_pow_left₀ h0 h2 _) (pow_nonneg h0 _) (by positivity)
  have := mul_le_mul_of_nonneg_right k1 (abs_nonneg (a 1 i))
  have := mul_le_mul_of_nonneg_right k3 (abs_nonneg (a 2 i))
  linarith

theorem integralSizes (hm : 1 ≤ m) (h0 : 0 ≤ eta) (h2 : eta ≤ 1 / 2) :
    Spec.Fluid.integralSize ![A0, A1, A2] m eta ≤ 49 ∧ Spec.Fluid.integralSize ![B0, B1, B2] m eta ≤ 133 := by
  constructor
  · refine (integralSize_le _ hm h0 h2).trans ?_
    change ∑ i : Fin 7, (|(A0 i : ℝ)| + 2 * |(A1 i : ℝ)| + 6 * |(A2 i : ℝ)|) * (1 / 2) ^ (i : ℕ) ≤ 49
    rw [Fin.sum_univ_seven]
    simp only [A0, A1, A2, Matrix.cons_val_zero, Matrix.cons_val_one, Matrix.cons_val]
    norm_num [abs_of_neg, abs_of_pos]
  · refine (integralSize_le _ hm h0 h2).trans ?_
    change ∑ i : Fin 7, (|(B0 i : ℝ)| + 2 * |(B1 i : ℝ)| + 6 * |(B2 i : ℝ)|) * (1 / 2) ^ (i : ℕ) ≤ 133
    rw [Fin.sum_univ_seven]
    simp only [B0, B1, B2, Matrix.cons_val_zero, Matrix.cons_val_one, Matrix.cons_val]
    norm_num [abs_of_neg, abs_of_pos]

theorem c1_le_one (hm : 1 ≤ m) (h0 : 0 ≤ eta) (h2 : eta ≤ 1 / 2) :
    0 ≤ Spec.Fluid.c1 m eta ∧ Spec.Fluid.c1 m eta ≤ 1 := by
  have hw : 0 < 1 - eta := by linarith
  have hv : 0 < 2 - eta := by linarith
  have k1 : (20 * eta - 27 * eta ^ 2 + 12 * eta ^ 3 - 2 * eta ^ 4) / ((1 - eta) * (2 - eta)) ^ 2
      ≤ (8 * eta - 2 * eta ^ 2) / (1 - eta) ^ 4 := by
    rw [div_le_div_iff₀ (by positivity) (by positivity)]
    have : 0 ≤ eta * (1 - eta) ^ 2 * ((8 - 2 * eta) * (2 - eta) ^ 2
        - (20 - 27 * eta + 12 * eta ^ 2 - 2 * eta ^ 3) * (1 - eta) ^ 2) := by
      apply mul_nonneg (by positivity)
      nlinarith [mul_nonneg h0 (sub_nonneg.2 h2), mul_nonneg (mul_nonneg h0 h0) (sub_nonneg.2 h2),
        mul_nonneg (mul_nonneg (mul_nonneg h0 h0) h0) (sub_nonneg.2 h2),
        mul_nonneg (mul_nonneg (mul_nonneg (mul_nonneg h0 h0) h0) h0) (sub_nonneg.2 h2)]
    nlinarith [this]
  have k2 : 0 ≤ (8 * eta - 2 * eta ^ 2) / (1 - eta) ^ 4 := div_nonneg (by nlinarith) (by positivity)
  have k3 : 1 ≤ 1 + m * ((8 * eta - 2 * eta ^ 2) / (1 - eta) ^ 4)
      + (1 - m) * ((20 * eta - 27 * eta ^ 2 + 12 * eta ^ 3 - 2 * eta ^ 4) / ((1 - eta) * (2 - eta)) ^ 2) := by
    have := mul_le_mul_of_nonneg_left k1 (sub_nonneg.2 hm)
    linarith
  rw [Spec.Fluid.c1]
  exact ⟨by positivity, by rw [div_le_one (by linarith)]; exact k3⟩

end pure

/-- sizes of the terms for a pure substance -/
theorem pure_sizes (r : PureRecord ℝ) {T V N : ℝ} (hm : 1 ≤ r.model_record.m)
    (ha : Admissible (fromRecords (fun _ : Fin 1 => r) (fun _ _ => 0)) T V (fun _ => N))
    (hp : Spec.packingFraction (fromRecords (fun _ : Fin 1 => r) (fun _ _ => 0)) T V (fun _ => N) ≤ 1 / 2) :
    let f := fluidOf (fun _ : Fin 1 => r) (fun _ _ => 0)
    let rho := fun _ : Fin 1 => N / V
    let x := r.model_record.epsilon_k / T
    V * (f.hardSphereSize T rho + f.chainSize T rho + f.dispersionSize T rho ![A0, A1, A2] ![B0, B1, B2])
      ≤ N * r.model_record.m * (10 + 432 * x + 587 * r.model_record.m * x ^ 2) := by
  intro f rho x
  have hz3 : f.zeta T rho 3 ≤ 1 / 2 := by
    rw [← packing_theory] at hp
    exact hp
  have hV := ha.volume
  have hT := ha.temperature
  have hs := ha.sigma_pos 0
  have he := ha.epsilon_nonneg 0
  change 0 < r.model_record.sigma at hs
  change 0 ≤ r.model_record.epsilon_k at he
  have hN : 0 < N := by
    obtain ⟨i, hi⟩ := ha.moles_ne_zero
    exact lt_of_le_of_ne (ha.moles_nonneg i) (Ne.symm hi)
  have hx : 0 ≤ x := by positivity
  -- one diameter
  have hd : 22 / 25 * r.model_record.sigma ≤ f.d T 0 := by
    have h1 := exp_le_one_of he hT
    simp only [f, Spec.Fluid.d, Spec.diameter, fluidOf]
    nlinarith
  set d := f.d T 0 with hdd
  have hd0 : 0 < d := by linarith
  have hr : 0 < N / V := by positivity
  set ρ := N / V with hρ
  have hVρ : V * ρ = N := by rw [hρ]; field_simp
  set m := r.model_record.m with hmd
  have hm0 : 0 < m := by linarith
  have z : ∀ k, f.zeta T rho k = Real.pi / 6 * (ρ * m * d ^ k) := fun k => by
    simp only [Spec.Fluid.zeta, Fin.sum_univ_one]
    rfl
  have hπ := Real.pi_pos
  set η := f.zeta T rho 3 with hη
  have hη0 : 0 < η := by rw [hη, z]; positivity
  have e3 : Real.pi / 6 * (ρ * m * d ^ 3) = η := (z 3).symm
  have hw : 0 < 1 - η := by linarith
  have hw2 : 1 / 2 ≤ 1 - η := by linarith
  -- hard spheres
  have s1 : f.hardSphereSize T rho = ρ * m * (3 * η / (1 - η) + η / (1 - η) ^ 2 + 2 * |Real.log (1 - η)|) := by
    have k1 : f.zeta T rho 1 * f.zeta T rho 2 = Real.pi / 6 * (ρ * m) * η := by
      rw [z 1, z 2, ← e3]
      ring
    have k2 : f.zeta T rho 2 ^ 3 = Real.pi / 6 * (ρ * m) * η ^ 2 := by
      rw [z 2, ← e3]
      ring
    have k0 : f.zeta T rho 0 = Real.pi / 6 * (ρ * m) := by
      rw [z 0]
      ring
    simp only [Spec.Fluid.hardSphereSize]
    rw [mul_assoc 3, k1, k2, k0, ← hη]
    have hw' := hw.ne'
    have hη' := hη0.ne'
    field_simp
    ring
  have s1' : f.hardSphereSize T rho ≤ ρ * m * 6.4 := by
    rw [s1]
    refine mul_le_mul_of_nonneg_left ?_ (by positivity)
    have k1 : 3 * η / (1 - η) ≤ 3 := by
      rw [div_le_iff₀ hw]
      linarith
    have k2 : η / (1 - η) ^ 2 ≤ 2 := by
      rw [div_le_iff₀ (by positivity)]
      nlinarith
    have k3 : |Real.log (1 - η)| ≤ 0.694 := by
      rw [abs_of_nonpos (Real.log_nonpos hw.le (by linarith))]
      have := Real.log_le_log (by norm_num) hw2
      rw [one_div, Real.log_inv] at this
      linarith [Real.log_two_lt_d9]
    linarith
  -- chains
  have s2 : f.chainSize T rho ≤ ρ * m * 3.1 := by
    have k1 : f.contact T rho 0 ≤ 6 := by
      have e : f.contact T rho 0 = 1 / (1 - η) + 3 / 2 * η / (1 - η) ^ 2 + 1 / 2 * η ^ 2 / (1 - η) ^ 3 := by
        have k : d * f.zeta T rho 2 = η := by
          rw [z 2, ← e3]
          ring
        simp only [Spec.Fluid.contact]
        rw [← hdd, ← hη, ← k]
        ring
      rw [e]
      have k1 : 1 / (1 - η) ≤ 2 := by
        rw [div_le_iff₀ hw]
        linarith
      have k2 : 3 / 2 * η / (1 - η) ^ 2 ≤ 3 := by
        rw [div_le_iff₀ (by positivity)]
        nlinarith
      have k3 : 1 / 2 * η ^ 2 / (1 - η) ^ 3 ≤ 1 := by
        rw [div_le_one (by positivity)]
        have a1 : η ^ 2 ≤ 1 / 4 := by nlinarith
        have a2 : (1 / 2) ^ 3 ≤ (1 - η) ^ 3 := pow_le_pow_left₀ (by norm_num) hw2 3
        linarith
      linarith
    have k0 : 0 < f.contact T rho 0 := by
      have : 0 ≤ f.zeta T rho 2 := by rw [z 2]; positivity
      simp only [Spec.Fluid.contact]
      rw [← hdd, ← hη]
      positivity
    have k2 : Real.log (f.contact T rho 0) ≤ 2.1 := by
      have h8 := Real.log_le_log k0 (k1.trans (by norm_num : (6 : ℝ) ≤ 2 ^ 3))
      rw [Real.log_pow] at h8
      push_cast at h8
      linarith [Real.log_two_lt_d9]
    simp only [Spec.Fluid.chainSize, Fin.sum_univ_one]
    change ρ * |m - 1| * _ ≤ _
    rw [abs_of_nonneg (by linarith), mul_assoc, mul_assoc]
    refine mul_le_mul_of_nonneg_left ?_ hr.le
    have a1 : (m - 1) * (1 + Real.log (f.contact T rho 0)) ≤ (m - 1) * 3.1 :=
      mul_le_mul_of_nonneg_left (by linarith) (by linarith)
    linarith
  -- dispersion
  have s3 : f.dispersionSize T rho ![A0, A1, A2] ![B0, B1, B2] ≤ ρ * m * (432 * x + 587 * m * x ^ 2) := by
    have hmb : f.mBar rho = m := by
      simp only [Spec.Fluid.mBar, Fin.sum_univ_one]
      change ρ * m / ρ = m
      field_simp
    have hps : ∀ k, f.pairSum T rho k = ρ * m * (ρ * m * r.model_record.sigma ^ 3) * x ^ k := fun k => by
      simp only [Spec.Fluid.pairSum, Fin.sum_univ_one]
      have e1 : f.energyIJ 0 0 = r.model_record.epsilon_k := by
        simp only [Spec.Fluid.energyIJ]
        exact Real.sqrt_mul_self he
      have e2 : f.sigmaIJ 0 0 = r.model_record.sigma := by
        simp only [Spec.Fluid.sigmaIJ]
        change (r.model_record.sigma + r.model_record.sigma) / 2 = _
        ring
      rw [e1, e2]
      change ρ * ρ * (m * m) * ((1 - 0) * r.model_record.epsilon_k / T) ^ k * _ = _
      rw [sub_zero, one_mul]
      ring
    have hs3 : Real.pi * (ρ * m * r.model_record.sigma ^ 3) ≤ 4.404 := by
      have a1 : (22 / 25 * r.model_record.sigma) ^ 3 ≤ d ^ 3 := pow_le_pow_left₀ (by positivity) hd 3
      have a2 : ρ * m * (22 / 25 * r.model_record.sigma) ^ 3 ≤ ρ * m * d ^ 3 :=
        mul_le_mul_of_nonneg_left a1 (by positivity)
      have a3 : Real.pi * (ρ * m * (22 / 25 * r.model_record.sigma) ^ 3) ≤ Real.pi * (ρ * m * d ^ 3) :=
        mul_le_mul_of_nonneg_left a2 hπ.le
      have a4 : Real.pi * (ρ * m * d ^ 3) ≤ 3 := by linarith
      have a5 : Real.pi * (ρ * m * (22 / 25 * r.model_record.sigma) ^ 3)
          = (22 / 25) ^ 3 * (Real.pi * (ρ * m * r.model_record.sigma ^ 3)) := by ring
      rw [a5] at a3
      norm_num at a3 ⊢
      linarith
    obtain ⟨i1, i2⟩ := integralSizes hm hη0.le hz3
    obtain ⟨c0, c1⟩ := c1_le_one hm hη0.le hz3
    simp only [Spec.Fluid.dispersionSize]
    rw [hmb, hps, hps, ← hη, pow_one]
    set P := Real.pi * (ρ * m * r.model_record.sigma ^ 3) with hP
    have hP0 : 0 ≤ P := by positivity
    have n1 : 0 ≤ Spec.Fluid.integralSize ![A0, A1, A2] m η :=
      Finset.sum_nonneg fun i _ => by positivity
    have n2 : 0 ≤ Spec.Fluid.integralSize ![B0, B1, B2] m η :=
      Finset.sum_nonneg fun i _ => by positivity
    have b1 : P * Spec.Fluid.integralSize ![A0, A1, A2] m η ≤ 4.404 * 49 := mul_le_mul hs3 i1 n1 (by norm_num)
    have b2 : P * Spec.Fluid.c1 m η ≤ 4.404 * 1 := mul_le_mul hs3 c1 c0 (by norm_num)
    have b3 : P * Spec.Fluid.c1 m η * Spec.Fluid.integralSize ![B0, B1, B2] m η ≤ 4.404 * 1 * 133 :=
      mul_le_mul b2 i2 n2 (by norm_num)
    calc _ = ρ * m * (2 * x * (P * Spec.Fluid.integralSize ![A0, A1, A2] m η)
          + m * x ^ 2 * (P * Spec.Fluid.c1 m η * Spec.Fluid.integralSize ![B0, B1, B2] m η)) := by rw [hP]; ring
      _ ≤ ρ * m * (2 * x * (4.404 * 49) + m * x ^ 2 * (4.404 * 1 * 133)) := by gcongr
      _ ≤ _ := by
        refine mul_le_mul_of_nonneg_left ?_ (by positivity)
        have : 0 ≤ m * x ^ 2 := by positivity
        linarith
  calc V * (f.hardSphereSize T rho + f.chainSize T rho + f.dispersionSize T rho ![A0, A1, A2] ![B0, B1, B2])
      ≤ V * (ρ * m * 6.4 + ρ * m * 3.1 + ρ * m * (432 * x + 587 * m * x ^ 2)) := by gcongr
    _ = V * ρ * m * (9.5 + 432 * x + 587 * m * x ^ 2) := by ring
    _ ≤ _ := by
      rw [hVρ]
      refine mul_le_mul_of_nonneg_left ?_ (by positivity)
      linarith

/-- C111: for a pure substance with the precision of `f64`, the residual Helmholtz energy per particle in units of `k_B T` is
computed with an error of at most `m (10 + 432 ε/T + 587 m (ε/T)²) 10⁻¹²`. -/
theorem C111_pure_binary64 : ∃ a b : Fin 3 → Fin 7 → ℝ,
    (∀ i j, |a i j - Spec.publishedA i j| ≤ 5e-9) ∧ (∀ i j, |b i j - Spec.publishedB i j| ≤ 5e-9)
    ∧ ∀ (r : PureRecord ℝ) (T V N : ℝ) (o : PcSaftOptions (Rd .binary64)) (la : LinAlg (Rd .binary64) (Rd .binary64)),
      PlainRecord r → 1 ≤ r.model_record.m → 0 < r.model_record.epsilon_k →
      Admissible (fromRecords (fun _ : Fin 1 => r) (fun _ _ => 0)) T V (fun _ => N) →
      Spec.packingFraction (fromRecords (fun _ : Fin 1 => r) (fun _ _ => 0)) T V (fun _ => N) ≤ 1 / 2 →
      let f := fluidOf (fun _ : Fin 1 => r) (fun _ _ => 0)
      let rho := fun _ : Fin 1 => N / V
      let x := r.model_record.epsilon_k / T
      ∃ A, (Eos.withOptions (roundedParameters .binary64 (fun _ : Fin 1 => r) (fun _ _ => 0)) o).residualHelmholtz la
          (roundedState .binary64 T V (fun _ => N)) = .ok A
        ∧ |A.val / N - (f.hardSphere T rho + f.chain T rho + f.dispersion T rho a b) / (N / V)|
          ≤ 1e-12 * (r.model_record.m * (10 + 432 * x + 587 * r.model_record.m * x ^ 2)) := by
  refine ⟨![A0, A1, A2], ![B0, B1, B2], constants_published.1, constants_published.2, ?_⟩
  intro r T V N o la hpl hm he ha hp f rho x
  have hN : 0 < N := by
    obtain ⟨i, hi⟩ := ha.moles_ne_zero
    exact lt_of_le_of_ne (ha.moles_nonneg i) (Ne.symm hi)
  have hV := ha.volume
  obtain ⟨g1, g2⟩ := growth_binary64
  obtain ⟨A, hA, e⟩ := residual_differs relative_binary64 (fun _ => hpl) (fun _ => hm) (fun _ => he) (fun _ _ => zero_le_one)
    ha hp (g1 1 (by norm_num)) o la
  refine ⟨A, hA, ?_⟩
  have e1 := e.error.trans (mul_le_mul_of_nonneg_right (g2 1 (by norm_num)) e.size_nonneg)
  have e2 := e1.trans (mul_le_mul_of_nonneg_left (pure_sizes r hm ha hp) (by norm_num))
  have e3 : A.val / N - (f.hardSphere T rho + f.chain T rho + f.dispersion T rho ![A0, A1, A2] ![B0, B1, B2]) / (N / V)
      = (A.val - V * (f.hardSphere T rho + f.chain T rho + f.dispersion T rho ![A0, A1, A2] ![B0, B1, B2])) / N := by
    field_simp
  rw [e3, abs_div, abs_of_pos hN, div_le_iff₀ hN]
  refine e2.trans (le_of_eq ?_)
  ring

/-! ### A concrete substance -/

/-- propane -/
noncomputable def plainPropane : PureRecord ℝ :=
  ⟨⟨some "propane", ""⟩, 44.0962, ⟨2.0018, 3.6184, 208.11, none, none, none, none, none, none, none, none, none⟩, none⟩

theorem plainPropane_admissible :
    Admissible (fromRecords (fun _ : Fin 1 => plainPropane) (fun _ _ => 0)) 300 1000 (fun _ => 5)
    ∧ Spec.packingFraction (fromRecords (fun _ : Fin 1 => plainPropane) (fun _ _ => 0)) 300 1000 (fun _ => 5) ≤ 1 / 2 := by
  have hp : Spec.packingFraction (fromRecords (fun _ : Fin 1 => plainPropane) (fun _ _ => 0)) 300 1000 (fun _ => 5)
      ≤ 1 / 2 := by
    simp only [Spec.packingFraction, Fin.sum_univ_one]
    change 5 * 2.0018 * (Real.pi / 6 * diameter 3.6184 208.11 300 ^ 3) / 1000 ≤ 1 / 2
    have h1 := Real.exp_pos (-3 * 208.11 / 300 : ℝ)
    have h2 := Real.exp_le_one_iff.2 (show (-3 * 208.11 / 300 : ℝ) ≤ 0 by norm_num)
    have d0 : 0 ≤ diameter 3.6184 208.11 300 := by
      rw [diameter]
      exact mul_nonneg (by norm_num) (by linarith)
    have d1 : diameter 3.6184 208.11 300 ≤ 3.6184 := by
      rw [diameter]
      nlinarith
    have d3 : diameter 3.6184 208.11 300 ^ 3 ≤ 48 := (pow_le_pow_left₀ d0 d1 3).trans (by norm_num)
    have hπ := Real.pi_lt_d2
    have := mul_le_mul hπ.le d3 (by positivity) (by norm_num)
    linarith
  refine ⟨⟨by norm_num, by norm_num, fun _ => ?_, fun _ => ?_, fun _ => ?_, fun _ => by norm_num, ⟨0, by norm_num⟩,
    by linarith⟩, hp⟩ <;> norm_num [fromRecords, plainPropane]

/-- at 300 K and 5 molecules in 1000 cubic angstrom, the residual Helmholtz energy per molecule in units of `k_B T` is computed
in `f64` arithmetic with an error of less than two billionths -/
example : ∃ a b : Fin 3 → Fin 7 → ℝ,
    (∀ i j, |a i j - Spec.publishedA i j| ≤ 5e-9) ∧ (∀ i j, |b i j - Spec.publishedB i j| ≤ 5e-9)
    ∧ ∀ (o : PcSaftOptions (Rd .binary64)) (la : LinAlg (Rd .binary64) (Rd .binary64)),
      let f := fluidOf (fun _ : Fin 1 => plainPropane) (fun _ _ => 0)
      let rho := fun _ : Fin 1 => (5 : ℝ) / 1000
      ∃ A, (Eos.withOptions (roundedParameters .binary64 (fun _ : Fin 1 => plainPropane) (fun _ _ => 0)) o).residualHelmholtz
          la (roundedState .binary64 300 1000 (fun _ => 5)) = .ok A
        ∧ |A.val / 5 - (f.hardSphere 300 rho + f.chain 300 rho + f.dispersion 300 rho a b) / (5 / 1000)| ≤ 2e-9 := by
  obtain ⟨a, b, h1, h2, h3⟩ := C111_pure_binary64
  refine ⟨a, b, h1, h2, fun o la => ?_⟩
  obtain ⟨A, hA, e⟩ := h3 plainPropane 300 1000 5 o la ⟨rfl, rfl, rfl⟩ (by norm_num [plainPropane])
    (by norm_num [plainPropane]) plainPropane_admissible.1 plainPropane_admissible.2
  exact ⟨A, hA, e.trans (by norm_num [plainPropane])⟩

/-- the hypotheses of `C111_diameter`, `C111_max_density`, `C111_hard_sphere`, `C111_hard_chain`, `C111_residual_energy` and
`C111_binary64` hold for propane in `f64` arithmetic -/
example : Relative .binary64 ∧ PlainRecord plainPropane ∧ 1 ≤ plainPropane.model_record.m
    ∧ 0 < plainPropane.model_record.epsilon_k ∧ 0 < plainPropane.model_record.sigma
    ∧ Growth Arithmetic.binary64 ^ (411 + 12 * 1) ≤ 13 / 12 ∧ Growth Arithmetic.binary64 ^ 3 ≤ 3 := by
  refine ⟨relative_binary64, ⟨rfl, rfl, rfl⟩, by norm_num [plainPropane], by norm_num [plainPropane],
    by norm_num [plainPropane], growth_binary64.1 1 (by norm_num), ?_⟩
  have h1 := growth_mono relative_binary64 (show 3 ≤ 411 + 12 * 1 by norm_num)
  exact h1.trans ((growth_binary64.1 1 (by norm_num)).trans (by norm_num))

/-- exact arithmetic is the case without errors -/
example : Relative .exact ∧ Growth .exact = 1 := ⟨relative_exact, by simp [Growth, Arithmetic.exact]⟩

/-- the computed maximum density of propane in `f64` arithmetic -/
example (o : PcSaftOptions (Rd .binary64)) (ho : o.max_eta = handOver .binary64 0.5) :=
  C111_max_density relative_binary64 (fun _ : Fin 1 => plainPropane) (fun _ _ => 0) (fun _ => by norm_num [plainPropane])
    (fun _ => by norm_num [plainPropane]) (moles := fun _ => 5) (fun _ => by norm_num) ⟨0, by norm_num⟩ (by norm_num) o ho

end PcSaft.Props
