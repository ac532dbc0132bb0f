import Verif.Model.Parameters
import Mathlib.Algebra.BigOperators.Group.List.Basic

/-! # Helper lemmas about the folds in `from_segments` -/

namespace PcSaft

/-- a list of segments with counts -/
abbrev Segs := List (PcSaftRecord ℝ × ℝ)

theorem foldl_add_list {A : Type} (f : A → ℝ) (l : List A) (a : ℝ) :
    l.foldl (fun acc s => acc + f s) a = a + (l.map f).sum := by
  induction l generalizing a with
  | nil => simp
  | cons x xs ih => simp [ih, add_assoc]

theorem segM_eq (l : Segs) : segM l = (l.map fun s => s.1.m * s.2).sum := by
  unfold segM
  rw [foldl_add_list (fun s : PcSaftRecord ℝ × ℝ => s.1.m * s.2)]
  norm_num

theorem segSigma3_eq (l : Segs) :
    segSigma3 l = (l.map fun s => s.1.m * s.1.sigma ^ 3 * s.2).sum := by
  unfold segSigma3
  rw [foldl_add_list (fun s : PcSaftRecord ℝ × ℝ => s.1.m * F64.powi s.1.sigma 3 * s.2)]
  norm_num

theorem segEpsilonK_eq (l : Segs) :
    segEpsilonK l = (l.map fun s => s.1.m * s.1.epsilon_k * s.2).sum := by
  unfold segEpsilonK
  rw [foldl_add_list (fun s : PcSaftRecord ℝ × ℝ => s.1.m * s.1.epsilon_k * s.2)]
  norm_num

theorem segNt_eq (l : Segs) : segNt l = (l.map fun s => s.2).sum := by
  unfold segNt
  rw [foldl_add_list (fun s : PcSaftRecord ℝ × ℝ => s.2)]
  norm_num

theorem reduceAdd_eq (l : List ℝ) : reduceAdd l = if l = [] then none else some l.sum := by
  cases l with
  | nil => simp [reduceAdd]
  | cons x xs =>
    have := foldl_add_list (fun x : ℝ => x) xs x
    simp only [List.map_id'] at this
    simp [reduceAdd, this]

/-- contribution of one segment to the viscosity coefficients -/
noncomputable def viscTerm (sigma3 : ℝ) (s : PcSaftRecord ℝ × ℝ) : Fin 4 → ℝ :=
  match s.1.viscosity with
  | none => 0
  | some v => ![s.1.m * s.1.sigma ^ 3 * s.2 * v 0,
      s.1.m * s.1.sigma ^ 3 * s.2 * v 1 / sigma3 ^ (0.45 : ℝ), s.2 * v 2, s.2 * v 3]

/-- contribution of one segment to the thermal conductivity coefficients -/
noncomputable def tcTerm (nt : ℝ) (s : PcSaftRecord ℝ × ℝ) : Fin 4 → ℝ :=
  match s.1.thermal_conductivity with
  | none => 0
  | some v => ![s.2 * v 0, s.2 * v 1, s.2 * v 2, nt * v 3]

theorem visc_foldlM (s3 : ℝ) (l : Segs) (p : Fin 4 → ℝ)
    (h : l.all (fun s => s.1.viscosity.isSome)) :
    l.foldlM (segViscosityStep s3) p = Except.ok (p + (l.map (viscTerm s3)).sum) := by
  induction l generalizing p with
  | nil => simp [pure, Except.pure]
  | cons x xs ih =>
    rw [List.all_cons, Bool.and_eq_true] at h
    obtain ⟨h1, h2⟩ := h
    obtain ⟨v, hv⟩ := Option.isSome_iff_exists.mp h1
    rw [List.foldlM_cons]
    have : segViscosityStep s3 p x = Except.ok (p + viscTerm s3 x) := by
      unfold segViscosityStep viscTerm
      rw [hv]
      simp only [powi_real, powf_real]
      congr 1
      funext k
      fin_cases k <;> simp
    rw [this]
    show xs.foldlM (segViscosityStep s3) (p + viscTerm s3 x) = _
    rw [ih _ h2]
    simp [add_assoc]

theorem tc_foldlM (nt : ℝ) (l : Segs) (p : Fin 4 → ℝ)
    (h : l.all (fun s => s.1.thermal_conductivity.isSome)) :
    l.foldlM (segThermalConductivityStep nt) p = Except.ok (p + (l.map (tcTerm nt)).sum) := by
  induction l generalizing p with
  | nil => simp [pure, Except.pure]
  | cons x xs ih =>
    rw [List.all_cons, Bool.and_eq_true] at h
    obtain ⟨h1, h2⟩ := h
    obtain ⟨v, hv⟩ := Option.isSome_iff_exists.mp h1
    rw [List.foldlM_cons]
    have : segThermalConductivityStep nt p x = Except.ok (p + tcTerm nt x) := by
      unfold segThermalConductivityStep tcTerm
      rw [hv]
      dsimp only
      congr 1
      funext k
      fin_cases k <;> simp
    rw [this]
    show xs.foldlM (segThermalConductivityStep nt) (p + tcTerm nt x) = _
    rw [ih _ h2]
    simp [add_assoc]

theorem segViscosity_eq (l : Segs) : segViscosity l = Except.ok
    (if l.all (fun s => s.1.viscosity.isSome) then some (l.map (viscTerm (segSigma3 l))).sum
      else none) := by
  unfold segViscosity
  split_ifs with h
  · rw [visc_foldlM _ _ _ h]
    have : (![0.0, 0.0, 0.0, 0.0] : Fin 4 → ℝ) = 0 := by
      funext k; fin_cases k <;> norm_num
    simp [Except.map, this]
  · rfl

theorem segThermalConductivity_eq (l : Segs) : segThermalConductivity l = Except.ok
    (if l.all (fun s => s.1.thermal_conductivity.isSome) then
      some (l.map (tcTerm (segNt l))).sum else none) := by
  unfold segThermalConductivity
  split_ifs with h
  · rw [tc_foldlM _ _ _ h]
    have : (![0.0, 0.0, 0.0, 0.0] : Fin 4 → ℝ) = 0 := by
      funext k; fin_cases k <;> norm_num
    simp [Except.map, this]
  · rfl

/-- closed form of the result of `from_segments` -/
noncomputable def segResult (l : Segs) : PcSaftRecord ℝ :=
  { m := segM l
    sigma := F64.cbrt (segSigma3 l / segM l)
    epsilon_k := segEpsilonK l / segM l
    mu := segOptSum PcSaftRecord.mu l
    q := segOptSum PcSaftRecord.q l
    kappa_ab := segOptSum PcSaftRecord.kappa_ab l
    epsilon_k_ab := segOptSum PcSaftRecord.epsilon_k_ab l
    na := segOptSum PcSaftRecord.na l
    nb := segOptSum PcSaftRecord.nb l
    viscosity := if l.all (fun s => s.1.viscosity.isSome) then
      some (let v := (l.map (viscTerm (segSigma3 l))).sum
        ![v 0 - 0.5 * F64.ln (segM l), v 1, v 2, v 3]) else none
    diffusion := segDiffusion l
    thermal_conductivity := if l.all (fun s => s.1.thermal_conductivity.isSome) then
      some (l.map (tcTerm (segNt l))).sum else none }

theorem fromSegments_eq (l : Segs) : fromSegments l = Except.ok (segResult l) := by
  unfold fromSegments
  simp only [segViscosity_eq, segThermalConductivity_eq]
  unfold segResult
  congr 2
  split_ifs <;> simp

theorem segOptSum_eq (f : PcSaftRecord ℝ → Option ℝ) (l : Segs) :
    segOptSum f l = if l.all (fun s => (f s.1).isNone) then none
      else some ((l.map fun s => (f s.1).getD 0 * s.2).sum) := by
  unfold segOptSum
  rw [reduceAdd_eq]
  have h1 : (List.filterMap (fun s : PcSaftRecord ℝ × ℝ => (f s.1).map (· * s.2)) l = [])
      ↔ (l.all (fun s => (f s.1).isNone) = true) := by
    simp [List.filterMap_eq_nil_iff, List.all_eq_true, Option.isNone_iff_eq_none]
  have h2 : (List.filterMap (fun s : PcSaftRecord ℝ × ℝ => (f s.1).map (· * s.2)) l).sum
      = (l.map fun s => (f s.1).getD 0 * s.2).sum := by
    induction l with
    | nil => simp
    | cons x xs ih =>
      cases hx : f x.1 <;> simp_all [List.filterMap_cons]
  simp only [h1, h2]

end PcSaft
