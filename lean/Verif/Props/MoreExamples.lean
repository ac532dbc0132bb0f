import Verif.Props.Examples
import Verif.Props.DftCrossGrid
import Verif.Props.Reference
import Verif.Props.Rounding
import Verif.Props.Critical
import Verif.Props.PolarAttraction
import Verif.Props.ShippedData
import Verif.Props.Boyle
import Verif.Props.Heating
import Verif.Props.CrossPressure

/-!
# Further cases that meet the hypotheses

For theorems whose own file has an example of a related theorem only.
-/

open Filter Topology PcSaft.Spec

namespace PcSaft.Props

/-! ### Several associating components -/

/-- C21 for the energy of the twins -/
example : ∃ K : ℝ, 0 < K ∧ ∃ (laX : LinAlg XReal XReal) (a : ℝ),
    (Eos.withOptions (xParameters (twinRecords K) (fun _ _ => 0)) (PcSaftOptions.default.map XReal.fin)).residualHelmholtz
      laX (StateHD.new (XReal.fin 300) (XReal.fin 1000) (fun i => XReal.fin (![3, 11] i))) = .ok (XReal.fin a) := by
  obtain ⟨K, hK, hw⟩ := twin_weak
  have h2 := fun k => exists_finiteSolver (k := k) (CorrectSolver.dual exactSolver_correct) fin_injective
  obtain ⟨a, -, ha⟩ := C21_weak_energy (o := PcSaftOptions.default) rfl (twin_nassoc hK).ge
    (twinRecords_admissible K (fun _ _ => 0) (V := 1000) (by norm_num)) (fun _ => by change (0 : ℝ) < 200; norm_num)
    (fun _ => hK.le) (twin_regular hK _) (twin_nonneg K) (hw 1 (by norm_num)) (by rw [twin_nassoc hK]; norm_num)
    (by norm_num [PcSaftOptions.default]) (by norm_num [PcSaftOptions.default]) (by norm_num [PcSaftOptions.default])
    (la := ⟨fun _ => exactSolver, fun _ => exactSolver, 0⟩)
    (laX := ⟨fun k => (h2 k).choose, fun k => (h2 k).choose, 0⟩)
    (fun _ => exactSolver_correct) (fun _ => CorrectSolver.dual exactSolver_correct)
    (fun k => (h2 k).choose_spec) (fun k => (h2 k).choose_spec) rfl
  exact ⟨K, hK, _, a, ha⟩

/-- C21 for a second derivative of the energy of the twins -/
example : ∃ K : ℝ, 0 < K ∧ ∃ (laX : LinAlg XReal (Dual (Dual XReal))) (a : Dual (Dual ℝ)),
    (Eos.withOptions (xParameters (twinRecords K) (fun _ _ => 0)) (PcSaftOptions.default.map XReal.fin)).residualHelmholtz
      laX (StateHD.new (⟨⟨XReal.fin 300, XReal.fin 1⟩, ⟨XReal.fin 0, XReal.fin 0⟩⟩ : Dual (Dual XReal))
        ⟨⟨XReal.fin 1000, XReal.fin 0⟩, ⟨XReal.fin 1, XReal.fin 0⟩⟩
        (fun i => ⟨⟨XReal.fin (![3, 11] i), XReal.fin 0⟩, ⟨XReal.fin 0, XReal.fin 0⟩⟩))
      = .ok (Dual.embed (Dual.embed XReal.fin) a) := by
  obtain ⟨K, hK, hw⟩ := twin_weak
  have h1 := fun k => exists_correctDualSolver (towerDual (towerDual (towerReal ()) 0) 0) k
  have h2 := fun k => exists_finiteSolver (k := k) (CorrectSolver.dual exactSolver_correct) fin_injective
  have h3 := fun k => exists_finiteSolver (h1 k).choose_spec (embed_injective (embed_injective fin_injective))
  obtain ⟨a, -, ha⟩ := C21_weak_second_derivatives (o := PcSaftOptions.default) rfl (twin_nassoc hK).ge 1 0 0 1
    (fun _ => 0) (fun _ => 0)
    (twinRecords_admissible K (fun _ _ => 0) (V := 1000) (by norm_num)) (fun _ => by change (0 : ℝ) < 200; norm_num)
    (fun _ => hK.le) (twin_regular hK _) (twin_nonneg K) (hw 1 (by norm_num)) (by rw [twin_nassoc hK]; norm_num)
    (by norm_num [PcSaftOptions.default]) (by norm_num [PcSaftOptions.default]) (by norm_num [PcSaftOptions.default])
    (la := ⟨fun _ => exactSolver, fun k => (h1 k).choose, 2⟩)
    (laX := ⟨fun k => (h2 k).choose, fun k => (h3 k).choose, 2⟩)
    (fun _ => exactSolver_correct) (fun k => (h1 k).choose_spec)
    (fun k => (h2 k).choose_spec) (fun k => (h3 k).choose_spec) rfl
  exact ⟨K, hK, _, a, ha⟩

/-- C79 for the pressure of the twins -/
example : ∃ K : ℝ, 0 < K ∧ ∃ (laD : LinAlg ℝ (Dual ℝ)) (d : Dual ℝ),
    (Eos.withOptions (fromRecords (twinRecords K) (fun _ _ => 0)) PcSaftOptions.default).residualHelmholtz laD
      (StateHD.new (⟨300, 0⟩ : Dual ℝ) ⟨1000, 1⟩ (fun i => ⟨![3, 11] i, 0⟩)) = .ok d := by
  obtain ⟨K, hK, hw⟩ := twin_weak
  have h1 := fun k => exists_correctDualSolver (towerDual (towerReal ()) 0) k
  obtain ⟨d, hd⟩ := C79_first_derivatives (o := PcSaftOptions.default)
    (laD := ⟨fun _ => exactSolver, fun k => (h1 k).choose, 1⟩) rfl (twin_nassoc hK).ge 0 1
    (fun _ => 0) (twinRecords_admissible K (fun _ _ => 0) (V := 1000) (by norm_num))
    (twin_regular hK _) (twin_nonneg K) (hw 1 (by norm_num)) (by rw [twin_nassoc hK]; norm_num)
    (by norm_num [PcSaftOptions.default]) (by norm_num [PcSaftOptions.default]) (by norm_num [PcSaftOptions.default])
    exactSolver_correct (h1 _).choose_spec
  exact ⟨K, hK, _, d, hd⟩

/-- C79 for a third derivative of the energy of the twins -/
example : ∃ K : ℝ, 0 < K ∧ ∃ (laD : LinAlg ℝ (Dual (Dual (Dual ℝ)))) (d : Dual (Dual (Dual ℝ))),
    (Eos.withOptions (fromRecords (twinRecords K) (fun _ _ => 0)) PcSaftOptions.default).residualHelmholtz laD
      (StateHD.new (⟨⟨⟨300, 0⟩, ⟨0, 0⟩⟩, ⟨⟨0, 0⟩, ⟨0, 0⟩⟩⟩ : Dual (Dual (Dual ℝ)))
        ⟨⟨⟨1000, 1⟩, ⟨1, 0⟩⟩, ⟨⟨1, 0⟩, ⟨0, 0⟩⟩⟩ (fun i => ⟨⟨⟨![3, 11] i, 0⟩, ⟨0, 0⟩⟩, ⟨⟨0, 0⟩, ⟨0, 0⟩⟩⟩)) = .ok d := by
  obtain ⟨K, hK, hw⟩ := twin_weak
  have h1 := fun k => exists_correctDualSolver (towerDual (towerDual (towerDual (towerReal ()) 0) 0) 0) k
  obtain ⟨d, hd⟩ := C79_third_derivatives (o := PcSaftOptions.default)
    (laD := ⟨fun _ => exactSolver, fun k => (h1 k).choose, 3⟩) rfl (twin_nassoc hK).ge 0 0 0 1 1 1
    (fun _ => 0) (fun _ => 0) (fun _ => 0) (twinRecords_admissible K (fun _ _ => 0) (V := 1000) (by norm_num))
    (twin_regular hK _) (twin_nonneg K) (hw 1 (by norm_num)) (by rw [twin_nassoc hK]; norm_num)
    (by norm_num [PcSaftOptions.default]) (by norm_num [PcSaftOptions.default]) (by norm_num [PcSaftOptions.default])
    exactSolver_correct (h1 _).choose_spec
  exact ⟨K, hK, _, d, hd⟩

/-- C121 for the pressure of the twins -/
example : ∃ K : ℝ, 0 < K ∧ ∃ (A A0 : ℝ → ℝ) (laD : LinAlg ℝ (Dual ℝ)) (d : Dual ℝ) (B : ℝ),
    (Eos.new (fromRecords (twinRecords K) (fun _ _ => 0))).residualHelmholtz laD
      (StateHD.new (⟨300, 0⟩ : Dual ℝ) ⟨1000, 1⟩ (fun i => ⟨![3, 11] i, 0⟩)) = .ok d
    ∧ HasDerivAt (fun v => A0 v + A v) B 1000
    ∧ |d.eps - B| ≤ 1.2e-7 / ((1 - Spec.packingFraction (fromRecords (twinRecords K) (fun _ _ => 0)) 300 1000 ![3, 11])
      * 1000) * ∑ i, ![3, 11] i * ((fromRecords (twinRecords K) (fun _ _ => 0)).na i
        + (fromRecords (twinRecords K) (fun _ _ => 0)).nb i) := by
  obtain ⟨K, hK, hw⟩ := twin_weak
  have h1 := fun k => exists_correctDualSolver (towerDual (towerReal ()) 0) k
  have hadm := twinRecords_admissible K (fun _ _ => 0) (V := 1000) (by norm_num)
  obtain ⟨A, hA⟩ := exists_exact_curve (twin_nonneg K) (T := fun _ => 300) (V := fun v => v) (M := fun i _ => ![3, 11] i)
    (admissible_nhds continuousAt_const continuousAt_id (fun _ => continuousAt_const)
      (.of_forall fun _ => hadm.moles_nonneg) hadm)
  obtain ⟨A0, d, B, -, hd, hB, he⟩ := C121_pressure
    (laD := ⟨fun _ => exactSolver, fun k => (h1 k).choose, 1⟩) rfl (twin_nassoc hK).ge (by rw [twin_nassoc hK]; norm_num)
    hadm (twin_regular hK _) (by
      simp only [Fin.sum_univ_two, f64EPSILON]
      norm_num) (twin_nonneg K) (hw 1 (by norm_num)) ⟨fun _ => exactSolver, fun _ => exactSolver, 0⟩ rfl
    exactSolver_correct (h1 _).choose_spec hA
  exact ⟨K, hK, A, A0, _, d, B, hd, hB, he⟩

/-- C121 for the chemical potential of the second twin -/
example : ∃ K : ℝ, 0 < K ∧ ∃ (laD : LinAlg ℝ (Dual ℝ)) (d : Dual ℝ),
    (Eos.new (fromRecords (twinRecords K) (fun _ _ => 0))).residualHelmholtz laD
      (StateHD.new (⟨300, 0⟩ : Dual ℝ) ⟨1000, 0⟩ (fun i => ⟨![3, 11] i, if i = 1 then 1 else 0⟩)) = .ok d := by
  obtain ⟨K, hK, hw⟩ := twin_weak
  have h1 := fun k => exists_correctDualSolver (towerDual (towerReal ()) 0) k
  have hadm := twinRecords_admissible K (fun _ _ => 0) (V := 1000) (by norm_num)
  have hj : (0 : ℝ) < (![3, 11] : Fin 2 → ℝ) 1 := by norm_num
  obtain ⟨A, hA⟩ := exists_exact_curve (twin_nonneg K) (T := fun _ => 300) (V := fun _ => 1000)
    (M := fun i x => Function.update ![3, 11] 1 x i) (t0 := (![3, 11] : Fin 2 → ℝ) 1)
    (admissible_nhds continuousAt_const continuousAt_const
      (fun i => by
        fin_cases i
        · simpa using continuousAt_const
        · simp only [Fin.mk_one, Function.update_self]
          exact continuousAt_id)
      ((lt_mem_nhds hj).mono fun x hx i => by
        fin_cases i
        · simp
        · simpa using le_of_lt hx)
      (by rw [Function.update_eq_self]; exact hadm))
  obtain ⟨-, d, -, -, hd, -⟩ := C121_chemical_potential
    (laD := ⟨fun _ => exactSolver, fun k => (h1 k).choose, 1⟩) rfl (twin_nassoc hK).ge (by rw [twin_nassoc hK]; norm_num)
    hadm (twin_regular hK _) (by
      simp only [Fin.sum_univ_two, f64EPSILON]
      norm_num) (twin_nonneg K) (hw 1 (by norm_num)) ⟨fun _ => exactSolver, fun _ => exactSolver, 0⟩ rfl
    exactSolver_correct (h1 _).choose_spec 1 hj hA
  exact ⟨K, hK, _, d, hd⟩

/-- C121 for the entropy of the twins -/
example : ∃ K : ℝ, 0 < K ∧ ∃ (laD : LinAlg ℝ (Dual ℝ)) (d : Dual ℝ),
    (Eos.new (fromRecords (twinRecords K) (fun _ _ => 0))).residualHelmholtz laD
      (StateHD.new (⟨300, 1⟩ : Dual ℝ) ⟨1000, 0⟩ (fun i => ⟨![3, 11] i, 0⟩)) = .ok d := by
  obtain ⟨K, hK, hw⟩ := twin_weak
  have h1 := fun k => exists_correctDualSolver (towerDual (towerReal ()) 0) k
  have hadm := twinRecords_admissible K (fun _ _ => 0) (V := 1000) (by norm_num)
  obtain ⟨A, hA⟩ := exists_exact_curve (twin_nonneg K) (T := fun t => t) (V := fun _ => 1000) (M := fun i _ => ![3, 11] i)
    (admissible_nhds continuousAt_id continuousAt_const (fun _ => continuousAt_const)
      (.of_forall fun _ => hadm.moles_nonneg) hadm)
  obtain ⟨-, d, -, -, hd, -⟩ := C121_entropy
    (laD := ⟨fun _ => exactSolver, fun k => (h1 k).choose, 1⟩) rfl (twin_nassoc hK).ge (by rw [twin_nassoc hK]; norm_num)
    hadm (twin_regular hK _) (by
      simp only [Fin.sum_univ_two, f64EPSILON]
      norm_num) (twin_nonneg K) (hw 1 (by norm_num)) ⟨fun _ => exactSolver, fun _ => exactSolver, 0⟩ rfl
    exactSolver_correct (h1 _).choose_spec (E := 2500) (fun _ => le_rfl) hA
  exact ⟨K, hK, _, d, hd⟩

/-- C121 for twins whose strengths add up to 20 at every site, along a curve that changes everything -/
example : ∃ K : ℝ, 0 < K ∧ ∃ (la : LinAlg ℝ ℝ) (laD : LinAlg ℝ (Dual ℝ)) (A : ℝ → ℝ) (e₀ e₁ : ℝ),
    AccurateDerivative (fromRecords (twinRecords K) (fun _ _ => 0)) PcSaftOptions.default la laD (fun t => 300 + t)
      (fun t => 1000 - t) (fun i t => ![3, 11] i + t) A 1 (-1) (fun _ => 1) 0 e₀ e₁ := by
  obtain ⟨K, hK, hw⟩ := twin_balanced
  have h1 := fun k => exists_correctDualSolver (towerDual (towerReal ()) 0) k
  have hadm := twinRecords_admissible K (fun _ _ => 0) (V := 1000) (by norm_num)
  have hadm' : Admissible (fromRecords (twinRecords K) (fun _ _ => 0)) (300 + 0) (1000 - 0) (fun i => ![3, 11] i + 0) := by
    simpa using hadm
  have hT : HasDerivAt (fun t : ℝ => 300 + t) 1 0 := (hasDerivAt_id' 0).const_add 300
  have hV : HasDerivAt (fun t : ℝ => 1000 - t) (-1) 0 := (hasDerivAt_id' 0).const_sub 1000
  have hM : ∀ i, HasDerivAt (fun t : ℝ => (![3, 11] : Fin 2 → ℝ) i + t) 1 0 := fun i => (hasDerivAt_id' 0).const_add _
  have hN : ∀ᶠ t : ℝ in 𝓝 0, ∀ i, 0 ≤ (![3, 11] : Fin 2 → ℝ) i + t := by
    filter_upwards [lt_mem_nhds (show (-1 : ℝ) < 0 by norm_num)] with t ht i
    fin_cases i <;> simp <;> linarith
  obtain ⟨A, hA⟩ := exists_exact_curve (twin_nonneg K) (admissible_nhds hT.continuousAt hV.continuousAt
    (fun i => (hM i).continuousAt) hN hadm')
  refine ⟨K, hK, ⟨fun _ => exactSolver, fun _ => exactSolver, 0⟩,
    ⟨fun _ => exactSolver, fun k => (h1 k).choose, 1⟩, A, _, _, C121_balanced (γ := 1) (E := 2500) (D := 20) rfl
    (twin_nassoc hK).ge (by rw [twin_nassoc hK]; norm_num) hT hV hM hN hadm'
    (by simpa using twin_regular hK _) ?_ (twin_nonneg K) zero_le_one ?_ (fun _ => le_rfl) (by norm_num) (by simpa using hw)
    (by norm_num [PcSaftOptions.default]) (by norm_num [PcSaftOptions.default]) (by norm_num [PcSaftOptions.default]) _ rfl
    exactSolver_correct (h1 _).choose_spec hA⟩
  · simp only [Fin.sum_univ_two, f64EPSILON]
    norm_num
  · intro i
    fin_cases i <;> norm_num

/-- C120 for the pressure of the twins -/
example : ∃ K : ℝ, 0 < K ∧ ∃ (laD : LinAlg ℝ (Dual ℝ)) (d : Dual ℝ),
    (Eos.withOptions (fromRecords (twinRecords K) (fun _ _ => 0)) PcSaftOptions.default).residualHelmholtz laD
      (StateHD.new (⟨300, 0⟩ : Dual ℝ) ⟨1000, 1⟩ (fun i => ⟨![3, 11] i, 0⟩)) = .ok d := by
  obtain ⟨K, hK, hw⟩ := twin_balanced
  have h1 := fun k => exists_correctDualSolver (towerDual (towerReal ()) 0) k
  obtain ⟨d, hd⟩ := C120_first_derivatives (o := PcSaftOptions.default)
    (laD := ⟨fun _ => exactSolver, fun k => (h1 k).choose, 1⟩) rfl (twin_nassoc hK).ge 0 1
    (fun _ => 0) (twinRecords_admissible K (fun _ _ => 0) (V := 1000) (by norm_num))
    (twin_regular hK _) (twin_nonneg K) (by norm_num) (by norm_num) hw
    (by rw [twin_nassoc hK]; norm_num)
    (by norm_num [PcSaftOptions.default]) (by norm_num [PcSaftOptions.default]) (by norm_num [PcSaftOptions.default])
    exactSolver_correct (h1 _).choose_spec
  exact ⟨K, hK, _, d, hd⟩

/-- C120 for a third derivative of the energy of the twins -/
example : ∃ K : ℝ, 0 < K ∧ ∃ (laD : LinAlg ℝ (Dual (Dual (Dual ℝ)))) (d : Dual (Dual (Dual ℝ))),
    (Eos.withOptions (fromRecords (twinRecords K) (fun _ _ => 0)) PcSaftOptions.default).residualHelmholtz laD
      (StateHD.new (⟨⟨⟨300, 0⟩, ⟨0, 0⟩⟩, ⟨⟨0, 0⟩, ⟨0, 0⟩⟩⟩ : Dual (Dual (Dual ℝ)))
        ⟨⟨⟨1000, 1⟩, ⟨1, 0⟩⟩, ⟨⟨1, 0⟩, ⟨0, 0⟩⟩⟩ (fun i => ⟨⟨⟨![3, 11] i, 0⟩, ⟨0, 0⟩⟩, ⟨⟨0, 0⟩, ⟨0, 0⟩⟩⟩)) = .ok d := by
  obtain ⟨K, hK, hw⟩ := twin_balanced
  have h1 := fun k => exists_correctDualSolver (towerDual (towerDual (towerDual (towerReal ()) 0) 0) 0) k
  obtain ⟨d, hd⟩ := C120_third_derivatives (o := PcSaftOptions.default)
    (laD := ⟨fun _ => exactSolver, fun k => (h1 k).choose, 3⟩) rfl (twin_nassoc hK).ge 0 0 0 1 1 1
    (fun _ => 0) (fun _ => 0) (fun _ => 0) (twinRecords_admissible K (fun _ _ => 0) (V := 1000) (by norm_num))
    (twin_regular hK _) (twin_nonneg K) (by norm_num) (by norm_num) hw
    (by rw [twin_nassoc hK]; norm_num)
    (by norm_num [PcSaftOptions.default]) (by norm_num [PcSaftOptions.default]) (by norm_num [PcSaftOptions.default])
    exactSolver_correct (h1 _).choose_spec
  exact ⟨K, hK, _, d, hd⟩

/-- C120 for a second derivative of the residual energy of the twins with respect to temperature and volume -/
example : ∃ K : ℝ, 0 < K ∧ ∃ (laD : LinAlg ℝ (Dual (Dual ℝ))) (d : Dual (Dual ℝ)),
    (Eos.withOptions (fromRecords (twinRecords K) (fun _ _ => 0)) PcSaftOptions.default).residualHelmholtz laD
      (StateHD.new (⟨⟨300, 1⟩, ⟨0, 0⟩⟩ : Dual (Dual ℝ)) ⟨⟨1000, 0⟩, ⟨1, 0⟩⟩ (fun i => ⟨⟨![3, 11] i, 0⟩, ⟨0, 0⟩⟩))
      = .ok d := by
  obtain ⟨K, hK, hw⟩ := twin_balanced
  let laD : LinAlg ℝ (Dual (Dual ℝ)) := ⟨fun _ => exactSolver,
    fun k => (exists_correctDualSolver (towerDual (towerDual (towerReal ()) 0) 0) k).choose, 2⟩
  have hs : CorrectDualSolver (laD.solveD (fromRecords (twinRecords K) (fun _ _ => 0)).assoc_comp.length) :=
    (exists_correctDualSolver (towerDual (towerDual (towerReal ()) 0) 0) _).choose_spec
  obtain ⟨d, hd⟩ := C120_second_derivatives (o := PcSaftOptions.default) (laD := laD) rfl (twin_nassoc hK).ge 1 0 0 1
    (fun _ => 0) (fun _ => 0) (twinRecords_admissible K (fun _ _ => 0) (V := 1000) (by norm_num))
    (twin_regular hK _) (twin_nonneg K) (by norm_num) (by norm_num) hw
    (by rw [twin_nassoc hK]; norm_num)
    (by norm_num [PcSaftOptions.default]) (by norm_num [PcSaftOptions.default]) (by norm_num [PcSaftOptions.default])
    exactSolver_correct hs
  exact ⟨K, hK, laD, d, hd⟩

/-- C59 for two components with weak sites -/
example : ∃ x : Fin 2 ⊕ Fin 2 → ℝ,
    newtonLoop (newtonStep exactSolver (fun _ _ => 5) (fun _ => 1) (fun _ => 1) ![0.04, 0.06] 1e-10) 50 (fun _ => 0.2) = .ok x
      ∧ ∀ s, 0 < x s ∧ x s ≤ 1 := by
  have hw : WeakSites (fun _ _ : Fin 2 => (5 : ℝ)) (fun _ => 1) (fun _ => 1) ![0.04, 0.06] (2 / 3) := by
    intro i
    norm_num [Fin.sum_univ_two]
  have hr : ∀ i : Fin 2, (0 : ℝ) ≤ ![0.04, 0.06] i := by intro i; fin_cases i <;> norm_num
  obtain ⟨x, h, -⟩ := C79_warm_start exactSolver exactSolver_correct (fun _ _ => 5) (fun _ => 1) (fun _ => 1) ![0.04, 0.06]
    (fun _ _ => by norm_num) (fun _ => zero_le_one) (fun _ => zero_le_one) hr hw (by norm_num)
    (tol := 1e-10) le_rfl (by norm_num) (N := 50) (by norm_num) (x0 := fun _ => 0.2) (fun _ => by norm_num)
  exact ⟨x, h, C59_weak_association_partial exactSolver exactSolver_correct _ _ _ _ (fun _ _ => by norm_num)
    (fun _ => zero_le_one) (fun _ => zero_le_one) hr (hw.mono (by norm_num)) 1e-10 50 (fun _ => by norm_num) h⟩

/-- C80: the twins in the bulk, with two different starting values for the site fractions -/
example (x x' : ℝ) (hx : 0 < x ∧ x ≤ 1) (hx' : 0 < x' ∧ x' ≤ 1) (dim : ℕ) : ∃ K : ℝ, 0 < K ∧
    let p := fromRecords (twinRecords K) (fun _ _ => 0)
    ∃ (wd : AssocDensities 2 ℝ) (phi phi' : ℝ) (y y' : _),
      assocFunctionalCrossPoint (⟨fun _ => exactSolver, fun _ => exactSolver, 0⟩ : LinAlg ℝ ℝ) p 50 1e-10 300 wd (fun _ => x)
        = (.ok phi, y)
      ∧ assocFunctionalCrossPoint (⟨fun _ => exactSolver, fun _ => exactSolver, 0⟩ : LinAlg ℝ ℝ) p 50 1e-10 300 wd
        (fun _ => x') = (.ok phi', y')
      ∧ |phi - phi'| ≤ 20 * 1e-10 * ∑ i, assocRho p (pointDensity p 300 wd) i * (assocNa p i + assocNb p i) := by
  obtain ⟨K, hK, hadm, hw⟩ := twin_grid
  have hp := (weakPoint_bulk rfl hadm (twin_nonneg K) hw dim).1
  obtain ⟨phi, y, h1, -, h3⟩ := point_weak (twin_nonneg K).na (twin_nonneg K).nb (by rw [twin_nassoc hK]; norm_num)
    (la := ⟨fun _ => exactSolver, fun _ => exactSolver, 0⟩) rfl exactSolver_correct (tol := 1e-10) le_rfl (by norm_num)
    (N := 50) (by norm_num) hp (x := fun _ => x) (fun _ => hx)
  obtain ⟨phi', y', h1', -, h3'⟩ := point_weak (twin_nonneg K).na (twin_nonneg K).nb (by rw [twin_nassoc hK]; norm_num)
    (la := ⟨fun _ => exactSolver, fun _ => exactSolver, 0⟩) rfl exactSolver_correct (tol := 1e-10) le_rfl (by norm_num)
    (N := 50) (by norm_num) hp (x := fun _ => x') (fun _ => hx')
  exact ⟨K, hK, _, phi, phi', _, _, h1, h1', C80_other_points (twin_nonneg K).na (twin_nonneg K).nb (by norm_num) hp h3 h3'⟩

/-! ### Mixtures without association, rounding -/

example := C89_free_volume assocRecords_admissible

example (o : PcSaftOptions ℝ) (la : LinAlg ℝ ℝ) := C90_second_order (pr := assocRecords) (kij := fun _ _ => 0)
  (fun i => (assocRecords_positive i).2.2) assocRecords_kappa assocRecords_admissible (assocRecords_regular o) la 1 0 0 1
  (fun _ => 0) (fun _ => 0)

/-- C90: arithmetic with more and more binary digits -/
example (o : PcSaftOptions ℝ) (la : LinAlg ℝ ℝ)
    (la' : (i : ℕ) → LinAlg (Rd (.ofRounding (roundBits i) _ (by positivity) (roundBits_acc i)))
      (Rd (.ofRounding (roundBits i) _ (by positivity) (roundBits_acc i)))) :=
  C90_converges (pr := assocRecords) (kij := fun _ _ => 0)
    (fun i => (assocRecords_positive i).2.2) assocRecords_kappa assocRecords_admissible (assocRecords_regular o) la
    (fun i => .ofRounding (roundBits i) _ (by positivity) (roundBits_acc i))
    (by
      have := (tendsto_pow_atTop_nhds_zero_of_lt_one (r := (1 / 2 : ℝ)) (by norm_num) (by norm_num)).comp (tendsto_add_atTop_nat 1)
      refine this.congr fun i => ?_
      change (1 / 2 : ℝ) ^ (i + 1) = (2 ^ (i + 1))⁻¹
      rw [one_div, inv_pow])
    (fun _ j => (assocRecords j).mapHom (handOver _)) (fun _ _ _ => handOver _ 0) (fun _ => handOver _ 300)
    (fun _ => handOver _ 1000) (fun _ _ => handOver _ 1) (fun _ => o.map (handOver _)) la'
    (fun _ _ => record_handOver _ _) (fun _ _ _ => input_handOver _ _) (fun _ => input_handOver _ _)
    (fun _ => input_handOver _ _) (fun _ _ => input_handOver _ _) (fun _ => rfl)

/-- C93: above the temperature found by the theorem a plain mixture has no two stable volumes at one pressure -/
example (o : PcSaftOptions ℝ) (la : LinAlg ℝ ℝ) (laD : LinAlg ℝ (Dual ℝ)) : ∃ Tc, 0 < Tc ∧ ∀ t, Tc < t →
    ∀ P Vl Vv, IsStable (fromRecords plainRecords fun _ _ => 0.05) o la laD t Vl ![1, 1] P →
      IsStable (fromRecords plainRecords fun _ _ => 0.05) o la laD t Vv ![1, 1] P → Vl = Vv := by
  obtain ⟨Tc, h0, h⟩ := C93_supercritical (o := o)
    (plainRecords_attracting (k := fun _ _ => 0.05) (N := ![1, 1]) (i := 0) (by intro j; fin_cases j <;> simp) one_pos
      (by norm_num)).plain
    (plainRecords_admissible _ one_pos zero_le_one le_rfl le_rfl) laD
  exact ⟨Tc, h0, fun t ht P Vl Vv hl hv => C93_no_coexistence (h t ht) hl hv⟩

/-! ### Polar fluids -/

theorem coldDipole_quadrupole : (fromRecords (coldDipole 3 (600 : ℝ) 2) 0).quadpole_comp = [] :=
  List.eq_nil_iff_forall_not_mem.2 fun i hi => (mem_nonzeroComp (fromRecords (coldDipole 3 (600 : ℝ) 2) 0).q2 i).1 hi
    (q2_zero (pr := coldDipole 3 (600 : ℝ) 2) (k := 0) (by norm_num [fromRecords, coldDipole]))

theorem coldDipole_sites : (fromRecords (coldDipole 3 (600 : ℝ) 2) 0).assoc_comp = [] :=
  List.eq_nil_iff_forall_not_mem.2 fun i hi => (mem_assoc_iff _ _ i).1 hi (by norm_num [fromRecords, coldDipole])

theorem quadrupoleMixture_dipole : (fromRecords quadrupoleMixture 0).dipole_comp = [] :=
  List.eq_nil_iff_forall_not_mem.2 fun i hi => (mem_nonzeroComp (fromRecords quadrupoleMixture 0).mu2 i).1 hi
    (mu2_zero (pr := quadrupoleMixture) (k := 0)
      (by fin_cases i <;> norm_num [fromRecords, quadrupoleMixture, pureOf, plainRecord]))

theorem quadrupoleMixture_sites : (fromRecords quadrupoleMixture 0).assoc_comp = [] :=
  List.eq_nil_iff_forall_not_mem.2 fun i hi => (mem_assoc_iff _ _ i).1 hi
    (by fin_cases i <;> norm_num [fromRecords, quadrupoleMixture, pureOf, plainRecord])

example (o : PcSaftOptions ℝ) (la : LinAlg ℝ ℝ) (laX : LinAlg XReal XReal) : ∃ V A : ℝ,
    (Eos.withOptions (xParameters (coldDipole 3 600 2) 0) (o.map XReal.fin)).residualHelmholtz laX
        (StateHD.new (XReal.fin 600) (XReal.fin V) (fun _ => XReal.fin 1)) = .ok (XReal.fin A) := by
  obtain ⟨V, h⟩ := warmDipole_example
  obtain ⟨A, -, hA⟩ := C95_dipolar_finite h o la laX (fun _ => by norm_num [coldDipole])
    coldDipole_quadrupole coldDipole_sites
  exact ⟨V, A, hA⟩

example (o : PcSaftOptions ℝ) (la : LinAlg ℝ ℝ) (laX : LinAlg XReal (Dual XReal)) : ∃ V A A' : ℝ,
    (Eos.withOptions (xParameters (coldDipole 3 600 2) 0) (o.map XReal.fin)).residualHelmholtz laX
        (StateHD.new (⟨XReal.fin 600, XReal.fin 0⟩ : Dual XReal) ⟨XReal.fin V, XReal.fin 1⟩
          (fun _ => ⟨XReal.fin 1, XReal.fin 0⟩)) = .ok ⟨XReal.fin A, XReal.fin A'⟩ := by
  obtain ⟨V, h⟩ := warmDipole_example
  obtain ⟨A, A', -, -, hA⟩ := C95_dipolar_derivatives h o la laX (fun _ => by norm_num [coldDipole])
    coldDipole_quadrupole coldDipole_sites
    ⟨0, by norm_num [fromRecords, coldDipole], one_pos⟩ 0 1 (fun _ => 0)
  exact ⟨V, _, _, hA⟩

example (o : PcSaftOptions ℝ) (la : LinAlg ℝ ℝ) (laX : LinAlg XReal XReal) :=
  C95_quadrupolar_finite quadrupoleMixture_warm o la laX
    (fun i => by fin_cases i <;> norm_num [quadrupoleMixture, pureOf, plainRecord])
    quadrupoleMixture_dipole quadrupoleMixture_sites

example := C95_cold_dipoles_repel (σ := 3) (ε := 600) (mu := 2) (by norm_num) (by norm_num) (by norm_num)

example := C95_cold_dipoles_pole (σ := 3) (ε := 600) (mu := 2) (by norm_num) (by norm_num) (by norm_num)

/-! ### Shipped data -/

/-- methane -/
example (o : PcSaftOptions ℝ) (laD : LinAlg ℝ (Dual ℝ)) (laD3 : LinAlg ℝ (Dual (Dual (Dual ℝ)))) :=
  C96_gross2001 (pr := fun _ => (Shipped.gross2001[0]'(by decide)).map (Rat.cast : ℚ → ℝ))
    (fun _ => ⟨_, List.getElem_mem _, rfl⟩) o laD laD3 (N := 1) one_pos

/-- R125 and R227ea -/
example (s : ℝ) :=
  C96_viscosity (pr := ![(Shipped.loetgeringlin2018[0]'(by decide +kernel)).map (Rat.cast : ℚ → ℝ),
    (Shipped.loetgeringlin2018[1]'(by decide +kernel)).map (Rat.cast : ℚ → ℝ)])
    (fun i => by fin_cases i <;> exact ⟨_, List.getElem_mem _, rfl⟩) (fun _ _ => 0) s ![1 / 2, 1 / 2]

/-- ethanol from its groups -/
example := C96_group_contribution (Shipped.gc_substances[1]'(by decide +kernel)) (List.getElem_mem _) Shipped.sauer2014_homo (.inl rfl)

/-- C98 for ethanol -/
example (laX : LinAlg XReal XDual2) {b b' : ℝ} :=
  have hp := mixture_pos (fun _ _ => 0) ethanol_mixture
  C98_increasing_partial (pr := ethanol) (k := fun _ _ => 0) ⟨fun i => by
      have : 4 / 5 ≤ (ethanol i).model_record.m := (hp i).1
      linarith, fun i => (hp i).2.1, fun i => (hp i).2.2⟩ (hp 0).1 (mixture_kappa _ ethanol_mixture 0)
    (by change Option.getD none (0.0 : ℝ) = 0; norm_num) (by change Option.getD none (0.0 : ℝ) = 0; norm_num)
    (fun _ => by
      refine ⟨?_, ?_, ?_⟩
      · change (0 : ℝ) ≤ ((_ : ℚ) : ℝ)
        norm_num [Shipped.record]
      · change (0 : ℝ) < ((_ : ℚ) : ℝ)
        exact Rat.cast_pos.2 (by decide +kernel)
      · change (0 : ℝ) < ((_ : ℚ) : ℝ)
        exact Rat.cast_pos.2 (by decide +kernel)) rfl PcSaftOptions.default laX (T := 300) (T' := 400) (b := b) (b' := b')
    (by norm_num) (by norm_num)

/-! ### Theorems whose corollaries have examples -/

example : ∃ a b : Fin 3 → Fin 7 → ℝ, dispersion (fromRecords assocRecords fun _ _ => 0) (StateHD.new 300 1000 fun _ => 1)
    = 1000 * (fluidOf assocRecords fun _ _ => 0).dispersion 300 (fun _ => 1 / 1000) a b := by
  obtain ⟨a, b, -, -, h⟩ := C64_dispersion
  exact ⟨a, b, h 2 assocRecords (fun _ _ => 0) 300 1000 (fun _ => 1) assocRecords_admissible⟩

example {y : Fin 2 ⊕ Fin 2 → ℝ} (hy : ∀ s, 0 < y s)
    (hsol : MassAction (siteMatrix (fun _ _ => (5 : ℝ)) (fun _ => 1) (fun _ => 1) ![0.04, 0.06]) y) {z : Fin 2 ⊕ Fin 2 → ℝ}
    {j : ℕ} (h : Reach (newtonStep exactSolver (fun _ _ => (5 : ℝ)) (fun _ => 1) (fun _ => 1) ![0.04, 0.06] 1e-10) (j + 1)
      (fun _ => 0.2) z) :=
  C79_quadratic_default exactSolver exactSolver_correct (fun _ _ => 5) (fun _ => 1) (fun _ => 1) ![0.04, 0.06]
    (fun _ _ => by norm_num) (fun _ => zero_le_one) (fun _ => zero_le_one)
    (fun i => by fin_cases i <;> norm_num) (weakSites_example.mono (by norm_num)) 1e-10 h hy hsol

example := C79_hot (μ := 1 / 100) assocRecords_admissible (by norm_num)

/-- the exact association energy of the twins exists and is small when they are hot -/
example : ∃ K : ℝ, 0 < K ∧ ∃ b, ExactAssociation (fromRecords (twinRecords K) fun _ _ => 0) 300 1000 ![3, 11] b
    ∧ -(1 * ∑ i, ![3, 11] i * ((fromRecords (twinRecords K) fun _ _ => 0).na i + (fromRecords (twinRecords K) fun _ _ => 0).nb i)) ≤ b
    ∧ b ≤ 0 := by
  obtain ⟨K, hK, hw⟩ := twin_weak
  have hA := twinRecords_admissible K (fun _ _ => 0) (V := 1000) (by norm_num)
  obtain ⟨x, hx, hsol⟩ := MassAction.exists (mixtureSites_nonneg hA (twin_nonneg K))
  exact ⟨K, hK, _, ⟨x, fun s => hx s, hsol, rfl⟩, C79_exact_bound hA (twin_nonneg K) (hw 1 (by norm_num)) ⟨x, fun s => hx s, hsol, rfl⟩⟩

example (la : LinAlg ℝ ℝ) (hla : la.nderiv = 0) (o : PcSaftOptions ℝ) :=
  C84_contribution (l := 1 / 10) (u := 1000) (by norm_num) (by norm_num) la hla assocRecords (fun _ _ => 0) o 300 1000
    (fun _ => 1) (Or.inl (by simp [nassoc_of assocRecords_comp])) .dispersion (by
      simp [Eos.withOptions, buildContributions])

theorem assocRecords_assocNonneg : AssocNonneg (fromRecords assocRecords fun _ _ => 0) := by
  constructor <;> intro i <;> fin_cases i <;> simp [fromRecords, assocRecords] <;> norm_num

example := C86_association_strength (kappa := ![0.05, 0]) (epsilon := ![3000, 0]) (na := fun _ => 1) (nb := fun _ => 1)
  assocRecords_admissible assocRecords_assocNonneg assocRecords_stronger 0 0

example {a a' : ℝ} := C86_exact (kappa := ![0.05, 0]) (epsilon := ![3000, 0]) (na := fun _ => 1) (nb := fun _ => 1) (a := a)
  (a' := a') assocRecords_admissible assocRecords_assocNonneg assocRecords_stronger

example := C87_binary_interaction (k := fun _ _ => -0.01) (k' := fun _ _ => 0.05)
  (plainRecords_attractive fun _ _ => by norm_num) (fun _ _ => by norm_num) (fun _ _ => by norm_num)

example (o : PcSaftOptions ℝ) (laD : LinAlg ℝ (Dual ℝ)) (P : ℝ) :=
  C89_repulsive (o := o) (hardRecords_repulsive fun _ _ => 0) (hardRecords_admissible _) laD P

example (o : PcSaftOptions ℝ) (la : LinAlg ℝ ℝ) := C90_value (pr := assocRecords) (kij := fun _ _ => 0) (o := o)
  (fun i => (assocRecords_positive i).2.2) assocRecords_kappa assocRecords_admissible (assocRecords_regular o) la

example (o : PcSaftOptions ℝ) (la : LinAlg ℝ (Dual (Dual ℝ))) := C90_rounding 2 (pr := assocRecords) (kij := fun _ _ => 0)
  (o := o) (T := (⟨⟨300, 1⟩, ⟨0, 0⟩⟩ : Dual (Dual ℝ))) (V := (⟨⟨1000, 0⟩, ⟨1, 0⟩⟩ : Dual (Dual ℝ)))
  (N := fun _ => (⟨⟨1, 0⟩, ⟨0, 0⟩⟩ : Dual (Dual ℝ))) (fun i => (assocRecords_positive i).2.2) assocRecords_kappa
  assocRecords_admissible (assocRecords_regular o) la

example := C91_association_strength (T' := 350) (V' := 1100) (i := 0) (j := 0) assocRecords_admissible (by norm_num)
  (by norm_num) (by norm_num [fromRecords, assocRecords])

example {a a' : ℝ} := C91_exact (T' := 350) (V' := 1100) (a := a) (a' := a') assocRecords_admissible (by norm_num)
  (by norm_num) assocRecords_assocNonneg

example : ∃ V, FiniteAt (fromRecords (coldDipole 3 (600 : ℝ) 2) 0) 600 V (fun _ => 1) .dipole
    ∧ Regular (fromRecords (coldDipole 3 (600 : ℝ) 2) 0) 600 V (fun _ => 1) .dipole := by
  obtain ⟨V, h⟩ := warmDipole_example
  exact ⟨V, (C95_dipole_no_pole h).1, (C95_dipole_no_pole h).2 ⟨0, by norm_num [fromRecords, coldDipole], one_pos⟩⟩

example := C95_quadrupole_no_pole quadrupoleMixture_warm

example := C96_admissible (T := 300) (V := closeVolume (fromRecords polarPair fun _ _ => 0) 300 (fun _ => 1) + 1)
  (N := fun _ => 1) (fun _ _ => 0) polarPair_mixture (by norm_num) (fun _ => zero_le_one) ⟨0, one_ne_zero⟩ (by linarith)

example (laX : LinAlg XReal XDual2) (laD : LinAlg ℝ (Dual ℝ)) {b : ℝ} :=
  have hr : PositiveRecords assocRecords := ⟨fun i => (assocRecords_positive i).1, fun i => (assocRecords_positive i).2.1,
    fun i => (assocRecords_positive i).2.2⟩
  have hnb : ∀ a ∈ (fromRecords assocRecords (fun _ _ => 0)).assoc_comp,
      0 < (fromRecords assocRecords (fun _ _ => 0)).nb a := by
    rw [assocRecords_comp]
    intro a ha
    rw [List.mem_singleton.1 ha]
    norm_num [fromRecords, assocRecords]
  C97_sign (b := b) hr assocRecords_kappa assocRecords_admissible PcSaftOptions.default (assocRecords_dilute _) hnb laX laD

end PcSaft.Props
