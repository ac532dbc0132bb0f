import Verif.Model.ShippedFormulas
import Verif.Props.ShippedData
import Verif.Props.Interface

/-!
# Property C101: the molar weights of the shipped substances agree with their formulas

`MolarWeight::molar_weight` decides every mass density.  The molar weights and the groups in the parameter files are
compared with the chemical formulas that the same files give.
-/

namespace PcSaft.Spec
open PcSaft Shipped

/-- standard atomic weights, in g/mol -/
def formulaWeight (a : Atoms) : ℚ :=
  12.011 * a.C + 1.008 * a.H + 14.007 * a.N + 15.999 * a.O + 18.998 * a.F + 32.06 * a.S + 35.45 * a.Cl + 79.904 * a.Br
    + 39.948 * a.Ar

/-- the atoms of a group -/
def groupAtoms : Group → Atoms
  | .CH3 => { C := 1, H := 3 }
  | .CH2 | .dCH2 | .CH2_hex | .CH2_pent => { C := 1, H := 2 }
  | .CH | .dCH | .CH_hex | .CH_pent | .CH_arom => { C := 1, H := 1 }
  | .C | .dC | .C_arom => { C := 1 }
  | .tCCH => { C := 2, H := 1 }
  | .CHO => { C := 1, H := 1, O := 1 }
  | .CO => { C := 1, O := 1 }
  | .OCH3 => { C := 1, H := 3, O := 1 }
  | .OCH2 => { C := 1, H := 2, O := 1 }
  | .HCOO => { C := 1, H := 1, O := 2 }
  | .COO => { C := 1, O := 2 }
  | .OH => { H := 1, O := 1 }
  | .NH2 => { N := 1, H := 2 }

/-- the groups contain the atoms of the formula -/
def MadeOf (l : List Group) (a : Atoms) : Prop :=
  (l.map fun g => (groupAtoms g).C).sum = a.C ∧ (l.map fun g => (groupAtoms g).H).sum = a.H
    ∧ (l.map fun g => (groupAtoms g).N).sum = a.N ∧ (l.map fun g => (groupAtoms g).O).sum = a.O
    ∧ a.F = 0 ∧ a.S = 0 ∧ a.Cl = 0 ∧ a.Br = 0 ∧ a.Ar = 0

instance (l : List Group) (a : Atoms) : Decidable (MadeOf l a) := by
  unfold MadeOf
  infer_instance

end PcSaft.Spec

namespace PcSaft.Props
open PcSaft Spec Shipped
variable {n : ℕ}

/-- all entries of the pure-component files with their formulas -/
def formulaEntries : List (PureRecord ℚ × Atoms) :=
  gross2001.zip gross2001_formulas ++ gross2002.zip gross2002_formulas ++ gross2005_fit.zip gross2005_fit_formulas
    ++ gross2005_literature.zip gross2005_literature_formulas ++ gross2006.zip gross2006_formulas
    ++ loetgeringlin2018.zip loetgeringlin2018_formulas ++ rehner2020.zip rehner2020_formulas

/-- the formulas cover the files -/
theorem formulaEntries_complete : formulaEntries.map Prod.fst = substances := by
  unfold formulaEntries substances
  simp only [List.map_append]
  rw [List.map_fst_zip (by decide +kernel), List.map_fst_zip (by decide +kernel), List.map_fst_zip (by decide +kernel),
    List.map_fst_zip (by decide +kernel), List.map_fst_zip (by decide +kernel), List.map_fst_zip (by decide +kernel), List.map_fst_zip (by decide +kernel)]

/-- number 38 of gross2001.json is 1-hexene -/
theorem hexene_entry : (gross2001[38]'(by decide +kernel)).identifier.name = some "1-hexene"
    ∧ (gross2001[38]'(by decide +kernel)).molarweight = 84.616
    ∧ gross2001_formulas[38]'(by decide +kernel) = { C := 6, H := 12 } := ⟨rfl, rfl, rfl⟩

theorem hexene_mem : (gross2001[38]'(by decide +kernel), { C := 6, H := 12 }) ∈ formulaEntries := by
  have h : (gross2001[38]'(by decide +kernel), gross2001_formulas[38]'(by decide +kernel))
      ∈ gross2001.zip gross2001_formulas := by
    rw [← List.getElem_zip (h := by decide +kernel)]
    exact List.getElem_mem _
  rw [hexene_entry.2.2] at h
  simp only [formulaEntries, List.mem_append]
  tauto

theorem weights_close : ∀ e ∈ formulaEntries.eraseIdx 38, |e.1.molarweight - formulaWeight e.2| ≤ 0.02 := by
  decide +kernel

/-- C101: in every mixture of shipped substances, without 1-hexene of gross2001.json (entry 38), the molar weights that the
code returns agree with the formulas. -/
theorem C101_molar_weight_partial {pr : Fin n → PureRecord ℝ} (k : Fin n → Fin n → ℝ) (a : Fin n → Atoms)
    (h : ∀ i, ∃ r, (r, a i) ∈ formulaEntries.eraseIdx 38 ∧ pr i = r.map (Rat.cast : ℚ → ℝ)) (i : Fin n) :
    ∃ w : ℝ, molarWeight (fromRecords pr k) i = ⟨w / 1000, { kg := 1, mol := -1 }⟩
      ∧ |w - (formulaWeight (a i) : ℝ)| ≤ 0.02 := by
  obtain ⟨r, hr, e⟩ := h i
  refine ⟨(pr i).molarweight, (C75_molar_weight pr k .WhiteBear PcSaftOptions.default id i i).1, ?_⟩
  have hw := weights_close _ hr
  rw [e]
  change |((r.molarweight : ℚ) : ℝ) - (formulaWeight (a i) : ℝ)| ≤ 0.02
  rw [← Rat.cast_sub, ← Rat.cast_abs]
  have : ((|r.molarweight - formulaWeight (a i)| : ℚ) : ℝ) ≤ ((0.02 : ℚ) : ℝ) := Rat.cast_le.2 hw
  refine this.trans (le_of_eq ?_)
  norm_num

/-- C101 fails for 1-hexene of gross2001.json: the molar weight is 84.616 g/mol, but the one of the formula 84.162 g/mol. -/
theorem C101_hexene_counterexample : ∃ r, (r, { C := 6, H := 12 }) ∈ formulaEntries
    ∧ r.identifier.name = some "1-hexene" ∧ ∀ k, ∃ w : ℝ,
      molarWeight (fromRecords (fun _ : Fin 1 => r.map (Rat.cast : ℚ → ℝ)) k) 0 = ⟨w / 1000, { kg := 1, mol := -1 }⟩
      ∧ 0.45 ≤ w - (formulaWeight { C := 6, H := 12 } : ℝ) := by
  refine ⟨gross2001[38]'(by decide +kernel), hexene_mem, hexene_entry.1, fun k => ⟨_,
    (C75_molar_weight _ k .WhiteBear PcSaftOptions.default id 0 0).1, ?_⟩⟩
  change (0.45 : ℝ) ≤ (((gross2001[38]'(by decide +kernel)).molarweight : ℚ) : ℝ) - _
  rw [hexene_entry.2.1]
  norm_num [formulaWeight]

/-- the molar weight of a group is the one of its atoms -/
theorem group_close (g : Group) : |group_weight g - formulaWeight (groupAtoms g)| ≤ 0.001 := by
  cases g <;> norm_num [group_weight, formulaWeight, groupAtoms, abs_le]

/-- C101: the molar weights of groups add up to the molar weight of every molecule that consists of them. -/
theorem C101_groups (l : List Group) (a : Atoms) (h : MadeOf l a) :
    |(l.map group_weight).sum - formulaWeight a| ≤ 0.001 * l.length := by
  obtain ⟨h1, h2, h3, h4, h5, h6, h7, h8, h9⟩ := h
  have e : formulaWeight a = (l.map fun g => formulaWeight (groupAtoms g)).sum := by
    have hc : ∀ f : Group → ℕ, ∀ l : List Group, (((l.map f).sum : ℕ) : ℚ) = (l.map fun g => (f g : ℚ)).sum := by
      intro f l
      rw [Nat.cast_list_sum, List.map_map]
      rfl
    have hz : ∀ g, formulaWeight (groupAtoms g) = 12.011 * ((groupAtoms g).C : ℚ) + 1.008 * ((groupAtoms g).H : ℚ)
        + 14.007 * ((groupAtoms g).N : ℚ) + 15.999 * ((groupAtoms g).O : ℚ) := by
      intro g
      cases g <;> norm_num [formulaWeight, groupAtoms]
    simp only [hz, List.sum_map_add, List.sum_map_mul_left, ← hc, h1, h2, h3, h4]
    simp [formulaWeight, h5, h6, h7, h8, h9]
  rw [e]
  clear e h1 h2 h3 h4
  induction l with
  | nil => simp
  | cons g l ih =>
    have hg := group_close g
    rw [abs_le] at hg ih ⊢
    simp only [List.map_cons, List.sum_cons, List.length_cons]
    push_cast
    constructor <;> linarith [hg.1, hg.2, ih.1, ih.2]

/-- the substances for group contribution with their formulas -/
def gcEntries : List ((String × List Group) × Atoms) := gc_substances.zip gc_substances_formulas

theorem gcEntries_complete : gcEntries.map Prod.fst = gc_substances := List.map_fst_zip (by decide +kernel)

/-- number 76 is isopropyl ethanoate -/
theorem isopropyl_entry : gcEntries[76]'(by decide +kernel)
    = (("isopropyl ethanoate", [.CH3, .CH2, .COO, .CH3, .CH3]), { C := 5, H := 10, O := 2 }) := rfl

theorem gc_made_of : ∀ e ∈ gcEntries.eraseIdx 76, MadeOf e.1.2 e.2 := by
  decide +kernel

/-- C101: the groups of every substance of gc_substances.json, without isopropyl ethanoate (entry 76), contain the atoms of
its formula, and their molar weights add up to it. -/
theorem C101_group_contribution_partial (s : String × List Group) (a : Atoms) (h : (s, a) ∈ gcEntries.eraseIdx 76) :
    MadeOf s.2 a ∧ |(s.2.map group_weight).sum - formulaWeight a| ≤ 0.001 * s.2.length :=
  ⟨gc_made_of _ h, C101_groups _ _ (gc_made_of _ h)⟩

/-- C101 fails for isopropyl ethanoate of gc_substances.json: its groups have one hydrogen atom too many. -/
theorem C101_isopropyl_ethanoate_counterexample :
    ∃ s a, (s, a) ∈ gcEntries ∧ s.1 = "isopropyl ethanoate" ∧ ¬ MadeOf s.2 a
      ∧ 1 ≤ (s.2.map group_weight).sum - formulaWeight a := by
  refine ⟨("isopropyl ethanoate", [.CH3, .CH2, .COO, .CH3, .CH3]), { C := 5, H := 10, O := 2 }, ?_, rfl, by decide, ?_⟩
  · rw [← isopropyl_entry]
    exact List.getElem_mem _
  · norm_num [group_weight, formulaWeight]

/-! ## Cases that meet the hypotheses -/

/-- a mixture of methane from gross2001.json and of another substance of the files -/
example (j : Fin (formulaEntries.eraseIdx 38).length) (k : Fin 2 → Fin 2 → ℝ) :=
  C101_molar_weight_partial (n := 2)
    (pr := fun i => ((formulaEntries.eraseIdx 38)[if i = 0 then ⟨0, by decide +kernel⟩ else j]).1.map (Rat.cast : ℚ → ℝ)) k
    (fun i => ((formulaEntries.eraseIdx 38)[if i = 0 then ⟨0, by decide +kernel⟩ else j]).2)
    (fun _ => ⟨_, List.getElem_mem _, rfl⟩)

/-- butane from its groups, which is not limited to substances in the file -/
example := C101_groups [.CH3, .CH2, .CH2, .CH3] { C := 4, H := 10 } (by decide)

example := C101_group_contribution_partial ("methanol", [.CH3, .OH]) { C := 1, H := 4, O := 1 } (by
  have : (gcEntries.eraseIdx 76)[0]'(by decide +kernel) = (("methanol", [.CH3, .OH]), { C := 1, H := 4, O := 1 }) := rfl
  rw [← this]
  exact List.getElem_mem _)

end PcSaft.Props
