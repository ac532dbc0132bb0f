import Verif.Props.ShippedData

/-!
# Property C102: viscosity rises when the fluid is compressed

In entropy scaling the logarithm of the reduced viscosity is a polynomial in the residual entropy.  The entropy falls when
a fluid is compressed, and the viscosity has to rise.  The coefficients in the parameter files decide whether it does.
-/

namespace PcSaft

/-- the viscosity correlation has a value at every non-positive residual entropy, and lower entropy gives a higher value -/
def Spec.ViscosityRises {n : ℕ} (p : PcSaftParameters n ℝ) (x : Fin n → ℝ) : Prop :=
  ∀ s s', s < s' → s' ≤ 0 → ∃ y y', viscosityCorrelation p s x = .ok y ∧ viscosityCorrelation p s' x = .ok y' ∧ y' < y

namespace Props
open PcSaft Spec Shipped
variable {n : ℕ}

/-- condition on the coefficients of one substance: the slope of the cubic is negative on the negative axis -/
def SteepCoefficients (b c d : ℝ) : Prop := b < 0 ∧ d ≤ 0 ∧ (0 ≤ c ∨ c ^ 2 < 3 * (b * d))

theorem steep_slope {b c d s s' : ℝ} (h : SteepCoefficients b c d) (h1 : s < s') (h2 : s' ≤ 0) :
    b * s' + c * s' ^ 2 + d * s' ^ 3 < b * s + c * s ^ 2 + d * s ^ 3 := by
  obtain ⟨hb, hd, hc⟩ := h
  have e : b * s' + c * s' ^ 2 + d * s' ^ 3 - (b * s + c * s ^ 2 + d * s ^ 3)
      = (s' - s) * (b + c * (s + s') + d * (3 / 4 * (s + s') ^ 2 + (s - s') ^ 2 / 4)) := by ring
  have h3 : b + c * (s + s') + d * (3 / 4 * (s + s') ^ 2 + (s - s') ^ 2 / 4) < 0 := by
    have h4 : d * ((s - s') ^ 2 / 4) ≤ 0 := mul_nonpos_of_nonpos_of_nonneg hd (by positivity)
    have h5 : b + c * (s + s') + d * (3 / 4 * (s + s') ^ 2) < 0 := by
      generalize hu : s + s' = u
      have hu0 : u ≤ 0 := by linarith
      rcases hc with hc | hc
      · have := mul_nonpos_of_nonneg_of_nonpos hc hu0
        have := mul_nonpos_of_nonpos_of_nonneg hd (by positivity : 0 ≤ 3 / 4 * u ^ 2)
        linarith
      · by_contra hn
        push Not at hn
        have h6 := mul_nonpos_of_nonpos_of_nonneg hb.le hn
        have : b * (b + c * u + d * (3 / 4 * u ^ 2)) = (b + c * u / 2) ^ 2 + (3 * (b * d) - c ^ 2) * u ^ 2 / 4 := by ring
        have h7 : 0 ≤ (3 * (b * d) - c ^ 2) * u ^ 2 / 4 := by
          have := sub_pos.2 hc
          positivity
        have h8 : (b + c * u / 2) ^ 2 = 0 := le_antisymm (by linarith) (sq_nonneg _)
        have h9 : (3 * (b * d) - c ^ 2) * u ^ 2 = 0 := by nlinarith
        have hu2 : u ^ 2 = 0 := (mul_eq_zero.1 h9).resolve_left (sub_pos.2 hc).ne'
        have hu3 : u = 0 := pow_eq_zero_iff (two_ne_zero) |>.1 hu2
        rw [hu3] at h8
        have : b = 0 := by
          have : b ^ 2 = 0 := by linarith [h8, (by ring : (b + c * 0 / 2) ^ 2 = b ^ 2)]
          exact pow_eq_zero_iff (two_ne_zero) |>.1 this
        linarith
    linarith [mul_add d (3 / 4 * (s + s') ^ 2) ((s - s') ^ 2 / 4)]
  have := mul_neg_of_pos_of_neg (sub_pos.2 h1) h3
  linarith

/-- a substance with coefficients for viscosity that give a rising correlation -/
def SteepRecord (r : PcSaftRecord ℝ) : Prop :=
  0 < r.m ∧ ∃ v, r.viscosity = some v ∧ SteepCoefficients (v 1) (v 2) (v 3)

/-- mixtures of any number of such substances -/
theorem steep_mixture {pr : Fin n → PureRecord ℝ} (k : Fin n → Fin n → ℝ) {x : Fin n → ℝ}
    (h : ∀ i, SteepRecord (pr i).model_record) (hx : ∀ i, 0 ≤ x i) (hx0 : ∃ i, x i ≠ 0) :
    ViscosityRises (fromRecords pr k) x := by
  intro s s' h1 h2
  choose hm v hv hc using h
  have hvis : (fromRecords pr k).viscosity = some (fun j i => v i j) := by
    change (collectOption fun i => (pr i).model_record.viscosity).map _ = _
    rw [(collectOption_get _ v).mpr hv]
    rfl
  have hmm : (fromRecords pr k).m = fun i => (pr i).model_record.m := rfl
  obtain ⟨i, hi⟩ := hx0
  have hi0 : 0 < x i := lt_of_le_of_ne (hx i) (Ne.symm hi)
  have hsum : 0 < ∑ j, x j * (pr j).model_record.m :=
    Finset.sum_pos' (fun j _ => mul_nonneg (hx j) (hm j).le) ⟨i, Finset.mem_univ i, mul_pos hi0 (hm i)⟩
  refine ⟨_, _, by simp only [viscosityCorrelation, hvis]; rfl, by simp only [viscosityCorrelation, hvis]; rfl, ?_⟩
  simp only [sumFin_real, powi_real, hmm]
  set M := ∑ j, x j * (pr j).model_record.m
  have h1' : s / M < s' / M := div_lt_div_of_pos_right h1 hsum
  have h2' : s' / M ≤ 0 := div_nonpos_of_nonpos_of_nonneg h2 hsum.le
  set t := s / M
  set t' := s' / M
  have key : ∀ u : ℝ, (∑ j, v j 0 * x j) + (∑ j, v j 1 * (x j * (pr j).model_record.m / M)) * u
      + (∑ j, v j 2 * (x j * (pr j).model_record.m / M)) * u ^ 2
      + (∑ j, v j 3 * (x j * (pr j).model_record.m / M)) * u ^ 3
      = (∑ j, v j 0 * x j) + ∑ j, x j * (pr j).model_record.m / M * (v j 1 * u + v j 2 * u ^ 2 + v j 3 * u ^ 3) := by
    intro u
    rw [Finset.sum_mul, Finset.sum_mul, Finset.sum_mul, add_assoc, add_assoc, ← Finset.sum_add_distrib,
      ← Finset.sum_add_distrib]
    congr 1
    exact Finset.sum_congr rfl fun j _ => by ring
  rw [key, key]
  refine add_lt_add_of_le_of_lt le_rfl (Finset.sum_lt_sum (fun j _ => ?_) ⟨i, Finset.mem_univ i, ?_⟩)
  · exact mul_le_mul_of_nonneg_left (steep_slope (hc j) h1' h2').le
      (div_nonneg (mul_nonneg (hx j) (hm j).le) hsum.le)
  · exact mul_lt_mul_of_pos_left (steep_slope (hc i) h1' h2') (div_pos (mul_pos hi0 (hm i)) hsum)

/-! ## The substances of loetgeringlin2018.json -/

theorem shipped_steep : ∀ r ∈ loetgeringlin2018.eraseIdx 40, 0 < r.model_record.m
    ∧ r.model_record.viscosity.isSome = true
    ∧ (r.model_record.viscosity.getD 0) 1 < 0 ∧ (r.model_record.viscosity.getD 0) 3 ≤ 0
    ∧ (0 ≤ (r.model_record.viscosity.getD 0) 2 ∨ (r.model_record.viscosity.getD 0) 2 ^ 2
      < 3 * ((r.model_record.viscosity.getD 0) 1 * (r.model_record.viscosity.getD 0) 3)) := by
  decide +kernel

theorem steep_cast {r : PcSaftRecord ℚ} (hm : 0 < r.m) (hv : r.viscosity.isSome = true)
    (h1 : (r.viscosity.getD 0) 1 < 0) (h2 : (r.viscosity.getD 0) 3 ≤ 0)
    (h3 : 0 ≤ (r.viscosity.getD 0) 2 ∨ (r.viscosity.getD 0) 2 ^ 2
      < 3 * ((r.viscosity.getD 0) 1 * (r.viscosity.getD 0) 3)) : SteepRecord (r.map (Rat.cast : ℚ → ℝ)) := by
  obtain ⟨v, e⟩ := Option.isSome_iff_exists.1 hv
  rw [e] at h1 h2 h3
  simp only [Option.getD_some] at h1 h2 h3
  refine ⟨?_, fun j => ((v j : ℚ) : ℝ), ?_, ?_, ?_, ?_⟩
  · change (0 : ℝ) < ((r.m : ℚ) : ℝ)
    exact_mod_cast hm
  · change r.viscosity.map _ = _
    rw [e]
    rfl
  · beta_reduce
    exact_mod_cast h1
  · beta_reduce
    exact_mod_cast h2
  · beta_reduce
    exact_mod_cast h3

/-- C102: in every mixture of substances of loetgeringlin2018.json, without dimethylamine (entry 40), the viscosity
correlation rises when the residual entropy falls.
Missing: dimethylamine, for which it fails. -/
theorem C102_viscosity_partial {pr : Fin n → PureRecord ℝ} (hpr : MixtureOf (loetgeringlin2018.eraseIdx 40) pr)
    (k : Fin n → Fin n → ℝ) {x : Fin n → ℝ} (hx : ∀ i, 0 ≤ x i) (hx0 : ∃ i, x i ≠ 0) :
    ViscosityRises (fromRecords pr k) x := by
  refine steep_mixture k (fun i => ?_) hx hx0
  obtain ⟨r, hr, e⟩ := hpr i
  obtain ⟨h0, h1, h2, h3, h4⟩ := shipped_steep r hr
  rw [e]
  exact steep_cast h0 h1 h2 h3 h4

theorem dimethylamine_entry : (loetgeringlin2018[40]'(by decide +kernel)).identifier.name = some "dimethylamine"
    ∧ (loetgeringlin2018[40]'(by decide +kernel)).model_record.m = 2.2493
    ∧ (loetgeringlin2018[40]'(by decide +kernel)).model_record.viscosity
      = some ![-0.3807, 2.1585, 0.9391, -0.0477] := ⟨rfl, rfl, rfl⟩

/-- C102 fails for dimethylamine: as long as the residual entropy per segment is above -1, the viscosity correlation falls
when the residual entropy falls. -/
theorem C102_dimethylamine_counterexample : ∃ r ∈ loetgeringlin2018, r.identifier.name = some "dimethylamine" ∧
    ∀ k, ∀ s s' : ℝ, -(r.model_record.m : ℝ) ≤ s → s < s' → s' ≤ 0 → ∃ y y',
      viscosityCorrelation (fromRecords (fun _ : Fin 1 => r.map (Rat.cast : ℚ → ℝ)) k) s (fun _ => 1) = .ok y
      ∧ viscosityCorrelation (fromRecords (fun _ : Fin 1 => r.map (Rat.cast : ℚ → ℝ)) k) s' (fun _ => 1) = .ok y'
      ∧ y < y' := by
  obtain ⟨e1, e2, e3⟩ := dimethylamine_entry
  refine ⟨loetgeringlin2018[40]'(by decide +kernel), List.getElem_mem _, e1, ?_⟩
  generalize loetgeringlin2018[40]'(by decide +kernel) = r at *
  intro k s s' h0 h1 h2
  rw [e2] at h0
  set p := fromRecords (fun _ : Fin 1 => r.map (Rat.cast : ℚ → ℝ)) k with hp
  have hm : p.m 0 = 2.2493 := by
    change ((r.model_record.m : ℚ) : ℝ) = _
    rw [e2]
    norm_num
  have hv : p.viscosity = some (fun j _ => (((![-0.3807, 2.1585, 0.9391, -0.0477] : Fin 4 → ℚ) j : ℚ) : ℝ)) := by
    change (collectOption fun _ : Fin 1 => r.model_record.viscosity.map _).map _ = _
    rw [(collectOption_get _ (fun _ j => (((![-0.3807, 2.1585, 0.9391, -0.0477] : Fin 4 → ℚ) j : ℚ) : ℝ))).mpr
      (fun _ => by rw [e3]; rfl)]
    rfl
  have hc := fun t : ℝ => (C46_pure_correlations p t (by rw [hm]; norm_num)).1 _ hv
  refine ⟨_, _, hc s, hc s', ?_⟩
  rw [hm]
  have h3 : s / 2.2493 < s' / 2.2493 := div_lt_div_of_pos_right h1 (by norm_num)
  have h4 : s' / 2.2493 ≤ 0 := div_nonpos_of_nonpos_of_nonneg h2 (by norm_num)
  have h5 : -1 ≤ s / 2.2493 := by
    rw [le_div_iff₀ (by norm_num)]
    norm_num at h0 ⊢
    linarith
  generalize s / 2.2493 = t at *
  generalize s' / 2.2493 = t' at *
  simp only [Matrix.cons_val_zero, Matrix.cons_val_one, Matrix.cons_val]
  norm_num
  have e : (4317 / 2000 * t' + 9391 / 10000 * t' ^ 2 - 477 / 10000 * t' ^ 3)
      - (4317 / 2000 * t + 9391 / 10000 * t ^ 2 - 477 / 10000 * t ^ 3)
      = (t' - t) * (4317 / 2000 + 9391 / 10000 * (t + t') - 477 / 10000 * (t ^ 2 + t * t' + t' ^ 2)) := by ring
  have h6 : 0 < 4317 / 2000 + 9391 / 10000 * (t + t') - 477 / 10000 * (t ^ 2 + t * t' + t' ^ 2) := by
    have a1 : t ^ 2 ≤ 1 := by nlinarith
    have a2 : t' ^ 2 ≤ 1 := by nlinarith
    have a3 : t * t' ≤ 1 := by nlinarith
    linarith
  have := mul_pos (sub_pos.2 h3) h6
  linarith

/-! ## Group contributions -/

/-- coefficient number `j` of a group, zero if the file has none -/
def groupViscosity (g : Group) (j : Fin 4) : ℚ := ((loetgeringlin2015_homo g).viscosity.getD 0) j

/-- volume of the segments of a molecule -/
def groupVolume (l : List Group) : ℚ := (l.map fun g => (loetgeringlin2015_homo g).m * (loetgeringlin2015_homo g).sigma ^ 3).sum

/-- slope coefficient of a molecule before it is divided by the power of the volume -/
def groupSlope (l : List Group) : ℚ := (l.map fun g => (loetgeringlin2015_homo g).m * (loetgeringlin2015_homo g).sigma ^ 3
  * groupViscosity g 1).sum

/-- the viscosity coefficients of a molecule from its groups -/
theorem groups_viscosity (l : List Group) (hl : ∀ g ∈ l, (loetgeringlin2015_homo g).viscosity.isSome = true) :
    ∃ r v, fromSegments (groupSegments loetgeringlin2015_homo l) = .ok r ∧ r.viscosity = some v
      ∧ v 1 = (groupSlope l : ℝ) / (groupVolume l : ℝ) ^ (0.45 : ℝ)
      ∧ v 2 = (((l.map fun g => groupViscosity g 2).sum : ℚ) : ℝ) ∧ v 3 = (((l.map fun g => groupViscosity g 3).sum : ℚ) : ℝ)
      ∧ r.m = (((l.map fun g => (loetgeringlin2015_homo g).m).sum : ℚ) : ℝ) := by
  obtain ⟨r, hr, h1, -, h2, -⟩ := C05_from_segments_transport (groupSegments loetgeringlin2015_homo l)
  obtain ⟨r', hr', h3, -⟩ := C05_from_segments_additive (groupSegments loetgeringlin2015_homo l)
  obtain rfl : r = r' := Except.ok.inj (hr.symm.trans hr')
  have hs : r.viscosity.isSome := h1.2 fun s hs => by
    simp only [groupSegments, List.mem_map, List.mem_dedup] at hs
    obtain ⟨g, hg, rfl⟩ := hs
    exact Option.isSome_map.trans (hl g hg)
  obtain ⟨v, hv⟩ := Option.isSome_iff_exists.1 hs
  obtain ⟨-, e1, e2, e3⟩ := h2 v hv
  have hco : ∀ g j, (((loetgeringlin2015_homo g).map (Rat.cast : ℚ → ℝ)).viscosity.getD (0 : Fin 4 → ℝ)) j = (groupViscosity g j : ℝ) := by
    intro g j
    change (((loetgeringlin2015_homo g).viscosity.map fun v i => ((v i : ℚ) : ℝ)).getD (0 : Fin 4 → ℝ)) j = _
    unfold groupViscosity
    cases (loetgeringlin2015_homo g).viscosity <;> simp
  have hm : ∀ g, ((loetgeringlin2015_homo g).map (Rat.cast : ℚ → ℝ)).m = ((loetgeringlin2015_homo g).m : ℝ) := fun _ => rfl
  have hσ : ∀ g, ((loetgeringlin2015_homo g).map (Rat.cast : ℚ → ℝ)).sigma = ((loetgeringlin2015_homo g).sigma : ℝ) :=
    fun _ => rfl
  simp only [groupSegments, List.map_map, Function.comp_def, hco, hm, hσ] at e1 e2 e3 h3
  refine ⟨r, v, hr, hv, ?_, ?_, ?_, ?_⟩
  · have k1 := sum_counts l fun g => (loetgeringlin2015_homo g).m * (loetgeringlin2015_homo g).sigma ^ 3 * groupViscosity g 1
    have k2 := sum_counts l fun g => (loetgeringlin2015_homo g).m * (loetgeringlin2015_homo g).sigma ^ 3
    simp only [Rat.cast_mul, Rat.cast_pow] at k1 k2
    rw [e1, k2, groupSlope, ← k1, groupVolume]
    simp only [div_eq_mul_inv]
    rw [← List.sum_map_mul_right]
    congr 1
    refine List.map_congr_left fun g _ => ?_
    ring
  · rw [e2, ← sum_counts l fun g => groupViscosity g 2]
    congr 1
    exact List.map_congr_left fun g _ => mul_comm _ _
  · rw [e3, ← sum_counts l fun g => groupViscosity g 3]
    congr 1
    exact List.map_congr_left fun g _ => mul_comm _ _
  · rw [h3, ← sum_counts l fun g => (loetgeringlin2015_homo g).m]

/-- the substances of gc_substances.json without methanol (entry 0) and ethylene (entries 50 and 101) -/
def risingGroups : List (String × List Group) := ((gc_substances.eraseIdx 101).eraseIdx 50).eraseIdx 0

theorem erased_groups : gc_substances[0]'(by decide +kernel) = ("methanol", [.CH3, .OH])
    ∧ gc_substances[50]'(by decide +kernel) = ("ethylene", [.dCH2, .dCH2])
    ∧ gc_substances[101]'(by decide +kernel) = ("ethylene", [.dCH2, .dCH2]) := ⟨rfl, rfl, rfl⟩

theorem groups_steep : ∀ s ∈ risingGroups, (∀ g ∈ s.2, (loetgeringlin2015_homo g).viscosity.isSome = true) →
    0 < (s.2.map fun g => (loetgeringlin2015_homo g).m).sum ∧ 1 ≤ groupVolume s.2 ∧ groupSlope s.2 < 0
    ∧ (s.2.map fun g => groupViscosity g 3).sum < 0
    ∧ (0 ≤ (s.2.map fun g => groupViscosity g 2).sum ∨ (s.2.map fun g => groupViscosity g 2).sum ^ 4 * groupVolume s.2
      < 9 * (groupSlope s.2 * (s.2.map fun g => groupViscosity g 3).sum) ^ 2) := by
  decide +kernel

/-- C102 for group contributions: in every mixture of substances of gc_substances.json whose groups have viscosity
coefficients in loetgeringlin2015_homo.json, without methanol and ethylene, the viscosity correlation rises when the residual
entropy falls.
Missing: methanol and ethylene, for which it fails. -/
theorem C102_group_contribution_partial {pr : Fin n → PureRecord ℝ} (hpr : ∀ i, ∃ s ∈ risingGroups,
      (∀ g ∈ s.2, (loetgeringlin2015_homo g).viscosity.isSome = true)
      ∧ fromSegments (groupSegments loetgeringlin2015_homo s.2) = .ok (pr i).model_record)
    (k : Fin n → Fin n → ℝ) {x : Fin n → ℝ} (hx : ∀ i, 0 ≤ x i) (hx0 : ∃ i, x i ≠ 0) :
    ViscosityRises (fromRecords pr k) x := by
  refine steep_mixture k (fun i => ?_) hx hx0
  obtain ⟨⟨name, l⟩, hs, hg, e⟩ := hpr i
  obtain ⟨r, v, hr, hv, e1, e2, e3, e4⟩ := groups_viscosity l hg
  obtain rfl : r = (pr i).model_record := Except.ok.inj (hr.symm.trans e)
  obtain ⟨h0, h1, h2, h3, h4⟩ := groups_steep _ hs hg
  simp only at h0 h1 h2 h3 h4
  have h1' : (1 : ℝ) ≤ (groupVolume l : ℝ) := by exact_mod_cast h1
  have h2' : (groupSlope l : ℝ) < 0 := by exact_mod_cast h2
  have h3' : (((l.map fun g => groupViscosity g 3).sum : ℚ) : ℝ) < 0 := by exact_mod_cast h3
  have hL : 0 < (groupVolume l : ℝ) ^ (0.45 : ℝ) := Real.rpow_pos_of_pos (by linarith) _
  have hL2 : (groupVolume l : ℝ) ^ (0.45 : ℝ) ≤ Real.sqrt (groupVolume l : ℝ) := by
    rw [Real.sqrt_eq_rpow]
    exact Real.rpow_le_rpow_of_exponent_le h1' (by norm_num)
  refine ⟨?_, v, hv, ?_, ?_, ?_⟩
  · rw [e4]
    exact_mod_cast h0
  · rw [e1]
    exact div_neg_of_neg_of_pos h2' hL
  · rw [e3]
    exact h3'.le
  · rw [e1, e2, e3]
    rcases h4 with h4 | h4
    · left
      exact_mod_cast h4
    · right
      have h4' : (((l.map fun g => groupViscosity g 2).sum : ℚ) : ℝ) ^ 4 * (groupVolume l : ℝ)
          < 9 * ((groupSlope l : ℝ) * (((l.map fun g => groupViscosity g 3).sum : ℚ) : ℝ)) ^ 2 := by exact_mod_cast h4
      generalize (((l.map fun g => groupViscosity g 2).sum : ℚ) : ℝ) = C at *
      generalize (((l.map fun g => groupViscosity g 3).sum : ℚ) : ℝ) = D at *
      generalize (groupSlope l : ℝ) = B at *
      generalize hV : (groupVolume l : ℝ) = W at *
      have hBD : 0 < B * D := mul_pos_of_neg_of_neg h2' h3'
      have hs : C ^ 2 * Real.sqrt W < 3 * (B * D) := by
        refine lt_of_pow_lt_pow_left₀ 2 (by positivity) ?_
        rw [mul_pow, Real.sq_sqrt (by linarith)]
        linarith [(by ring : (C ^ 2) ^ 2 * W = C ^ 4 * W), (by ring : (3 * (B * D)) ^ 2 = 9 * (B * D) ^ 2)]
      rw [show 3 * (B / W ^ (0.45 : ℝ) * D) = 3 * (B * D) / W ^ (0.45 : ℝ) by ring, lt_div_iff₀ hL]
      exact lt_of_le_of_lt (mul_le_mul_of_nonneg_left hL2 (sq_nonneg C)) hs

/-- the viscosity correlation of one pure substance with given record -/
theorem pure_correlation {r : PcSaftRecord ℝ} {v : Fin 4 → ℝ} (hm : 0 < r.m) (hv : r.viscosity = some v)
    {pr : Fin 1 → PureRecord ℝ} (hpr : (pr 0).model_record = r) (k : Fin 1 → Fin 1 → ℝ) (t : ℝ) :
    viscosityCorrelation (fromRecords pr k) (r.m * t) (fun _ => 1) = .ok (v 0 + v 1 * t + v 2 * t ^ 2 + v 3 * t ^ 3) := by
  have e : (fromRecords pr k).m 0 = r.m := by
    rw [← hpr]
    rfl
  have hvis : (fromRecords pr k).viscosity = some (fun j _ => v j) := by
    change (collectOption fun i => (pr i).model_record.viscosity).map _ = _
    rw [(collectOption_get _ (fun _ => v)).mpr (fun i => by rw [Subsingleton.elim i 0, hpr, hv])]
    rfl
  have := (C46_pure_correlations (fromRecords pr k) (r.m * t) (by rw [e]; exact hm.ne')).1 _ hvis
  rw [e, mul_div_cancel_left₀ _ hm.ne'] at this
  exact this

/-- C102 fails for ethylene from its groups: the viscosity correlation falls when the residual entropy falls, down to a
residual entropy of -19 per segment. -/
theorem C102_ethylene_counterexample : ∃ r, ("ethylene", [.dCH2, .dCH2]) ∈ gc_substances
    ∧ fromSegments (groupSegments loetgeringlin2015_homo [.dCH2, .dCH2]) = .ok r
    ∧ ∀ pr : Fin 1 → PureRecord ℝ, (pr 0).model_record = r → ∀ k, ∀ t t' : ℝ, -19 ≤ t → t < t' → t' ≤ 0 → ∃ y y',
      viscosityCorrelation (fromRecords pr k) (r.m * t) (fun _ => 1) = .ok y
      ∧ viscosityCorrelation (fromRecords pr k) (r.m * t') (fun _ => 1) = .ok y' ∧ y < y' := by
  obtain ⟨r, v, hr, hv, e1, e2, e3, e4⟩ := groups_viscosity [.dCH2, .dCH2] (by decide)
  refine ⟨r, ?_, hr, ?_⟩
  · rw [← erased_groups.2.1]
    exact List.getElem_mem _
  intro pr hpr k t t' h0 h1 h2
  have hm : 0 < r.m := by
    rw [e4]
    norm_num [loetgeringlin2015_homo, record]
  refine ⟨_, _, pure_correlation hm hv hpr k t, pure_correlation hm hv hpr k t', ?_⟩
  have f2 : v 2 = -0.217452 := by
    rw [e2, show (List.map (fun g => groupViscosity g 2) [.dCH2, .dCH2]).sum = -0.217452 by decide +kernel]
    norm_num
  have f3 : v 3 = -0.0249 := by
    rw [e3, show (List.map (fun g => groupViscosity g 3) [.dCH2, .dCH2]).sum = -0.0249 by decide +kernel]
    norm_num
  have hW1 : (1 : ℝ) ≤ (groupVolume [.dCH2, .dCH2] : ℝ) := by
    norm_num [groupVolume, loetgeringlin2015_homo, record]
  have hW2 : (groupVolume [.dCH2, .dCH2] : ℝ) ≤ 49 := by
    norm_num [groupVolume, loetgeringlin2015_homo, record]
  have f1 : 29 ≤ v 1 := by
    rw [e1, le_div_iff₀ (Real.rpow_pos_of_pos (by linarith) _)]
    have hL : (groupVolume [.dCH2, .dCH2] : ℝ) ^ (0.45 : ℝ) ≤ 7 := by
      calc (groupVolume [.dCH2, .dCH2] : ℝ) ^ (0.45 : ℝ) ≤ (groupVolume [.dCH2, .dCH2] : ℝ) ^ (1 / 2 : ℝ) :=
            Real.rpow_le_rpow_of_exponent_le hW1 (by norm_num)
        _ ≤ 49 ^ (1 / 2 : ℝ) := Real.rpow_le_rpow (by linarith) hW2 (by norm_num)
        _ = 7 := by
            rw [← Real.sqrt_eq_rpow, show (49 : ℝ) = 7 ^ 2 by norm_num, Real.sqrt_sq (by norm_num)]
    have hB : (204 : ℝ) ≤ (groupSlope [.dCH2, .dCH2] : ℝ) := by
      norm_num [groupSlope, groupViscosity, loetgeringlin2015_homo, record]
    nlinarith
  rw [f2, f3]
  have e : (v 0 + v 1 * t' + -0.217452 * t' ^ 2 + -0.0249 * t' ^ 3) - (v 0 + v 1 * t + -0.217452 * t ^ 2 + -0.0249 * t ^ 3)
      = (t' - t) * (v 1 - 0.217452 * (t + t') - 0.0249 * (t ^ 2 + t * t' + t' ^ 2)) := by ring
  have h6 : 0 < v 1 - 0.217452 * (t + t') - 0.0249 * (t ^ 2 + t * t' + t' ^ 2) := by
    have a1 : t ^ 2 ≤ 361 := by nlinarith
    have a2 : t' ^ 2 ≤ 361 := by nlinarith
    have a3 : t * t' ≤ 361 := by nlinarith
    norm_num at *
    linarith
  have := mul_pos (sub_pos.2 h1) h6
  linarith

/-- C102 fails for methanol from its groups: the viscosity correlation is lower at the residual entropy -5 per segment than
at -4.5. -/
theorem C102_methanol_counterexample : ∃ r, ("methanol", [.CH3, .OH]) ∈ gc_substances
    ∧ fromSegments (groupSegments loetgeringlin2015_homo [.CH3, .OH]) = .ok r
    ∧ ∀ pr : Fin 1 → PureRecord ℝ, (pr 0).model_record = r → ∀ k, ∃ y y',
      viscosityCorrelation (fromRecords pr k) (r.m * -5) (fun _ => 1) = .ok y
      ∧ viscosityCorrelation (fromRecords pr k) (r.m * -4.5) (fun _ => 1) = .ok y' ∧ y < y' := by
  obtain ⟨r, v, hr, hv, e1, e2, e3, e4⟩ := groups_viscosity [.CH3, .OH] (by decide)
  refine ⟨r, ?_, hr, ?_⟩
  · rw [← erased_groups.1]
    exact List.getElem_mem _
  intro pr hpr k
  have hm : 0 < r.m := by
    rw [e4]
    norm_num [loetgeringlin2015_homo, record]
  refine ⟨_, _, pure_correlation hm hv hpr k _, pure_correlation hm hv hpr k _, ?_⟩
  have f2 : v 2 = -0.353896 := by
    rw [e2, show (List.map (fun g => groupViscosity g 2) [.CH3, .OH]).sum = -0.353896 by decide +kernel]
    norm_num
  have f3 : v 3 = -0.0249 := by
    rw [e3, show (List.map (fun g => groupViscosity g 3) [.CH3, .OH]).sum = -0.0249 by decide +kernel]
    norm_num
  have hW : (45.77 : ℝ) ≤ (groupVolume [.CH3, .OH] : ℝ) := by
    norm_num [groupVolume, loetgeringlin2015_homo, record]
  have f1 : -1.6725 ≤ v 1 := by
    rw [e1, le_div_iff₀ (Real.rpow_pos_of_pos (by linarith) _)]
    have hL : 5.57 ≤ (groupVolume [.CH3, .OH] : ℝ) ^ (0.45 : ℝ) := by
      calc (5.57 : ℝ) = ((5.57 : ℝ) ^ 20) ^ (1 / 20 : ℝ) := by
            rw [← Real.rpow_natCast, ← Real.rpow_mul (by norm_num)]
            norm_num
        _ ≤ ((45.77 : ℝ) ^ 9) ^ (1 / 20 : ℝ) := Real.rpow_le_rpow (by positivity) (by norm_num) (by norm_num)
        _ = 45.77 ^ (0.45 : ℝ) := by
            rw [← Real.rpow_natCast, ← Real.rpow_mul (by norm_num)]
            norm_num
        _ ≤ _ := Real.rpow_le_rpow (by norm_num) hW (by norm_num)
    have hB : (-9.3151 : ℝ) ≤ (groupSlope [.CH3, .OH] : ℝ) := by
      norm_num [groupSlope, groupViscosity, loetgeringlin2015_homo, record]
    norm_num at *
    linarith
  rw [f2, f3]
  norm_num at *
  linarith

/-! ## Cases that meet the hypotheses -/

/-- a mixture of the first substance of the file and of another one -/
example (j : Fin (loetgeringlin2018.eraseIdx 40).length) (k : Fin 2 → Fin 2 → ℝ) :=
  C102_viscosity_partial (n := 2)
    (pr := fun i => ((loetgeringlin2018.eraseIdx 40)[if i = 0 then ⟨0, by decide +kernel⟩ else j]).map (Rat.cast : ℚ → ℝ))
    (fun _ => ⟨_, List.getElem_mem _, rfl⟩) k (x := ![0.3, 0.7])
    (by intro i; fin_cases i <;> norm_num) ⟨0, by norm_num⟩

/-- ethanol from its groups -/
example : ∃ r, fromSegments (groupSegments loetgeringlin2015_homo [.CH3, .CH2, .OH]) = .ok r
    ∧ ∀ pr : Fin 1 → PureRecord ℝ, (pr 0).model_record = r → ∀ k, ViscosityRises (fromRecords pr k) fun _ => 1 := by
  obtain ⟨r, v, hr, -⟩ := groups_viscosity [.CH3, .CH2, .OH] (by decide)
  refine ⟨r, hr, fun pr hpr k => C102_group_contribution_partial (fun i => ⟨("ethanol", [.CH3, .CH2, .OH]), ?_, by decide, ?_⟩)
    k (fun _ => zero_le_one) ⟨0, one_ne_zero⟩⟩
  · have : risingGroups[0]'(by decide +kernel) = ("ethanol", [.CH3, .CH2, .OH]) := rfl
    rw [← this]
    exact List.getElem_mem _
  · rw [Subsingleton.elim i 0, hpr, hr]

end Props
end PcSaft
