import Mathlib.Analysis.Calculus.Deriv.MeanValue
import Mathlib.Analysis.Calculus.LocalExtr.Basic
import Mathlib.Topology.Order.Compact
import Mathlib.Analysis.SpecialFunctions.Log.Basic

/-!
# Two volumes with the same pressure and the same free enthalpy

`f` is the Helmholtz energy as a function of the volume, `f V + P V` the free enthalpy at pressure `P`.
-/

open Filter Topology

namespace PcSaft

/-- `V` has the lowest free enthalpy at pressure `P` among all volumes above `c` -/
def LowestAt (f : ℝ → ℝ) (c P V : ℝ) : Prop := c < V ∧ ∀ W, c < W → f V + P * V ≤ f W + P * W

section
variable {f : ℝ → ℝ} {c : ℝ}

/-- outside of a compact interval the free enthalpy at pressure `a` is large -/
theorem exists_window (h0 : Tendsto f (𝓝[>] c) atTop) {a : ℝ} (ha : 0 < a)
    (h1 : Tendsto (fun V => f V + a * V) atTop atTop) (hc : 0 ≤ c) (B : ℝ) :
    ∃ v w, c < v ∧ ∀ V, c < V → f V + a * V ≤ B → v ≤ V ∧ V ≤ w := by
  obtain ⟨v, hv, h2⟩ := mem_nhdsGT_iff_exists_Ioo_subset.1 (h0.eventually (eventually_gt_atTop B))
  obtain ⟨w, h3⟩ := eventually_atTop.1 (h1.eventually (eventually_gt_atTop B))
  refine ⟨v, w, hv, fun V hV hB => ⟨?_, ?_⟩⟩
  · by_contra hlt
    have h4 : B < f V := h2 ⟨hV, not_le.1 hlt⟩
    have : 0 ≤ a * V := mul_nonneg ha.le (hc.trans hV.le)
    linarith
  · by_contra hlt
    have := h3 V (not_le.1 hlt).le
    linarith

theorem exists_lowest (hf : ContinuousOn f (Set.Ioi c)) (h0 : Tendsto f (𝓝[>] c) atTop)
    (h1 : ∀ a, 0 < a → Tendsto (fun V => f V + a * V) atTop atTop) (hc : 0 ≤ c) {P : ℝ} (hP : 0 < P) :
    ∃ V, LowestAt f c P V := by
  obtain ⟨v, w, hv, hw⟩ := exists_window h0 hP (h1 P hP) hc (f (c + 1) + P * (c + 1))
  have hin := hw (c + 1) (lt_add_one c) le_rfl
  have hcont : ContinuousOn (fun V => f V + P * V) (Set.Icc v w) :=
    (hf.mono fun V hV => hv.trans_le hV.1).add (by fun_prop)
  obtain ⟨V, hV, hmin⟩ := isCompact_Icc.exists_isMinOn ⟨c + 1, hin⟩ hcont
  refine ⟨V, hv.trans_le hV.1, fun W hW => ?_⟩
  rcases le_total (f W + P * W) (f (c + 1) + P * (c + 1)) with h | h
  · exact hmin (hw W hW h)
  · exact (hmin hin : f V + P * V ≤ _).trans h

theorem isClosed_lowest (hf : ContinuousOn f (Set.Ioi c)) {s : Set (ℝ × ℝ)} (hs : IsClosed s) (hsub : ∀ x ∈ s, c < x.2) :
    IsClosed {x ∈ s | LowestAt f c x.1 x.2} := by
  have hW : ∀ W, IsClosed {x ∈ s | f x.2 + x.1 * x.2 ≤ f W + x.1 * W} := fun W =>
    hs.isClosed_le ((hf.comp continuousOn_snd hsub).add (by fun_prop)) (by fun_prop)
  have e : {x ∈ s | LowestAt f c x.1 x.2} = ⋂ W ∈ Set.Ioi c, {x ∈ s | f x.2 + x.1 * x.2 ≤ f W + x.1 * W} := by
    ext x
    simp only [Set.mem_iInter, Set.mem_ofPred_eq, Set.mem_Ioi]
    constructor
    · exact fun h W hW => ⟨h.1, h.2.2 W hW⟩
    · exact fun h => ⟨(h (c + 1) (lt_add_one c)).1, hsub x (h (c + 1) (lt_add_one c)).1, fun W hW => (h W hW).2⟩
  rw [e]
  exact isClosed_biInter fun W _ => hW W

/-- If a volume is never the most stable one, then at some pressure a smaller and a larger volume are equally stable. -/
theorem exists_coexistence (hf : ContinuousOn f (Set.Ioi c)) (h0 : Tendsto f (𝓝[>] c) atTop)
    (h1 : ∀ a, 0 < a → Tendsto (fun V => f V + a * V) atTop atTop) (h2 : Tendsto f atTop atBot) (hc : 0 ≤ c)
    {V₀ : ℝ} (hV₀ : c < V₀) (hnot : ∀ P, 0 < P → ¬ LowestAt f c P V₀) :
    ∃ P, 0 < P ∧ ∃ V₁ V₂, V₁ < V₀ ∧ V₀ < V₂ ∧ LowestAt f c P V₁ ∧ LowestAt f c P V₂ := by
  -- at low pressure a larger volume is more stable than all volumes up to `V₀`
  obtain ⟨a, ha, hlow⟩ : ∃ a, 0 < a ∧ ∀ V, LowestAt f c a V → V₀ ≤ V := by
    obtain ⟨v, hv, h3⟩ := mem_nhdsGT_iff_exists_Ioo_subset.1 (h0.eventually (eventually_ge_atTop 0))
    have hB : ∃ B, ∀ V, c < V → V ≤ V₀ → B ≤ f V := by
      by_cases hvV : v ≤ V₀
      · obtain ⟨U, hU, hmin⟩ := isCompact_Icc.exists_isMinOn ⟨V₀, hvV, le_rfl⟩
          (hf.mono fun V (hV : V ∈ Set.Icc v V₀) => lt_of_lt_of_le hv hV.1)
        refine ⟨min 0 (f U), fun V hV hV' => ?_⟩
        rcases lt_or_ge V v with h | h
        · exact (min_le_left _ _).trans (h3 ⟨hV, h⟩)
        · exact (min_le_right _ _).trans (hmin ⟨h, hV'⟩)
      · exact ⟨0, fun V hV hV' => h3 ⟨hV, hV'.trans_lt (not_le.1 hvV)⟩⟩
    obtain ⟨B, hB⟩ := hB
    obtain ⟨U, hU1, hU2⟩ := ((h2.eventually (eventually_lt_atBot (B - 1))).and (eventually_gt_atTop V₀)).exists
    have hU0 : 0 < U := hc.trans_lt (hV₀.trans hU2)
    refine ⟨1 / U, by positivity, fun V hV => ?_⟩
    by_contra hlt
    have h4 := hV.2 U (hV₀.trans hU2)
    have h5 := hB V hV.1 (not_le.1 hlt).le
    have h6 : 1 / U * U = 1 := by field_simp
    have h7 : 0 ≤ 1 / U * V := mul_nonneg (by positivity) (hc.trans hV.1.le)
    linarith
  -- at high pressure a smaller one
  obtain ⟨b, hb, hhigh⟩ : ∃ b, a < b ∧ ∀ V, LowestAt f c b V → V ≤ V₀ := by
    obtain ⟨U, hU, hmin⟩ := exists_lowest hf h0 h1 hc ha
    set W := (c + V₀) / 2 with hW
    have hcW : c < W := by rw [hW]; linarith
    have hWV : W < V₀ := by rw [hW]; linarith
    have hd : 0 < V₀ - W := sub_pos.2 hWV
    have hn : 0 ≤ f W + a * W - (f U + a * U) := sub_nonneg.2 (hmin W hcW)
    refine ⟨a + (f W + a * W - (f U + a * U) + 1) / (V₀ - W), by linarith [div_pos (by linarith : 0 < f W + a * W - (f U + a * U) + 1) hd],
      fun V hV => ?_⟩
    by_contra hlt
    have hlt := not_le.1 hlt
    have h3 := hV.2 W hcW
    have h4 := hmin V hV.1
    have h5 : (f W + a * W - (f U + a * U) + 1) / (V₀ - W) * (V₀ - W) = f W + a * W - (f U + a * U) + 1 := by field_simp
    have h6 : 0 ≤ (f W + a * W - (f U + a * U) + 1) / (V₀ - W) := by positivity
    have h7 := mul_le_mul_of_nonneg_left (sub_le_sub_right hlt.le W) h6
    nlinarith
  -- all lowest volumes for pressures in between lie in a compact interval
  obtain ⟨v, w, hv, hwin⟩ := exists_window h0 ha (h1 a ha) hc (f V₀ + b * V₀)
  have hV₀0 : 0 < V₀ := hc.trans_lt hV₀
  have hin : ∀ P ∈ Set.Icc a b, ∀ V, LowestAt f c P V → v ≤ V ∧ V ≤ w := fun P hP V hV => by
    refine hwin V hV.1 ?_
    have h3 := hV.2 V₀ hV₀
    have h4 : a * V ≤ P * V := mul_le_mul_of_nonneg_right hP.1 (hc.trans hV.1.le)
    have h5 : P * V₀ ≤ b * V₀ := mul_le_mul_of_nonneg_right hP.2 hV₀0.le
    linarith
  have hclosed : ∀ I : Set ℝ, IsClosed I →
      IsClosed {P | ∃ V ∈ I, P ∈ Set.Icc a b ∧ LowestAt f c P V} := fun I hI => by
    have hK : IsCompact (Set.Icc a b ×ˢ (Set.Icc v w ∩ I)) := isCompact_Icc.prod (isCompact_Icc.inter_right hI)
    have hcl := isClosed_lowest hf hK.isClosed fun x hx => hv.trans_le hx.2.1.1
    have hcomp : IsCompact {x ∈ Set.Icc a b ×ˢ (Set.Icc v w ∩ I) | LowestAt f c x.1 x.2} :=
      hK.of_isClosed_subset hcl fun x hx => hx.1
    have e : {P | ∃ V ∈ I, P ∈ Set.Icc a b ∧ LowestAt f c P V}
        = Prod.fst '' {x ∈ Set.Icc a b ×ˢ (Set.Icc v w ∩ I) | LowestAt f c x.1 x.2} := by
      ext P
      constructor
      · rintro ⟨V, hVI, hP, hV⟩
        exact ⟨(P, V), ⟨⟨hP, hin P hP V hV, hVI⟩, hV⟩, rfl⟩
      · rintro ⟨⟨P', V⟩, ⟨⟨hP, -, hVI⟩, hV⟩, rfl⟩
        exact ⟨V, hVI, hP, hV⟩
    rw [e]
    exact (hcomp.image continuous_fst).isClosed
  obtain ⟨P, hP, ⟨V₁, hV₁, -, hl₁⟩, ⟨V₂, hV₂, -, hl₂⟩⟩ := isPreconnected_closed_iff.1 (isPreconnected_Icc (a := a) (b := b)) _ _
    (hclosed (Set.Iic V₀) isClosed_Iic) (hclosed (Set.Ici V₀) isClosed_Ici)
    (fun P hP => by
      obtain ⟨V, hV⟩ := exists_lowest hf h0 h1 hc (ha.trans_le hP.1)
      rcases le_total V V₀ with h | h
      · exact .inl ⟨V, h, hP, hV⟩
      · exact .inr ⟨V, h, hP, hV⟩)
    (by
      obtain ⟨V, hV⟩ := exists_lowest hf h0 h1 hc (ha.trans hb)
      exact ⟨b, ⟨hb.le, le_rfl⟩, V, hhigh V hV, ⟨hb.le, le_rfl⟩, hV⟩)
    (by
      obtain ⟨V, hV⟩ := exists_lowest hf h0 h1 hc ha
      exact ⟨a, ⟨le_rfl, hb.le⟩, V, hlow V hV, ⟨le_rfl, hb.le⟩, hV⟩)
  have hP0 := ha.trans_le hP.1
  refine ⟨P, hP0, V₁, V₂, lt_of_le_of_ne hV₁ ?_, lt_of_le_of_ne hV₂ ?_, hl₁, hl₂⟩
  · rintro rfl
    exact hnot P hP0 hl₁
  · rintro rfl
    exact hnot P hP0 hl₂

/-- at the lowest free enthalpy the pressure is minus the derivative of the energy -/
theorem LowestAt.deriv {P V d : ℝ} (h : LowestAt f c P V) (hd : HasDerivAt f d V) : d = -P := by
  have hmin : IsLocalMin (fun W => f W + P * W) V := by
    filter_upwards [lt_mem_nhds h.1] with W hW
    exact h.2 W hW
  have h1 : HasDerivAt (fun W => f W + P * W) (d + P) V := by
    refine (hd.add ((hasDerivAt_id V).const_mul P)).congr_deriv ?_
    simp
  have := hmin.hasDerivAt_eq_zero h1
  linarith

/-- If the pressure rises with the volume somewhere, then a smaller and a larger volume are equally stable at some
pressure. -/
theorem coexistence_of_rise {f' : ℝ → ℝ} (hd : ∀ V, c < V → HasDerivAt f (f' V) V) (h0 : Tendsto f (𝓝[>] c) atTop)
    (h1 : ∀ a, 0 < a → Tendsto (fun V => f V + a * V) atTop atTop) (h2 : Tendsto f atTop atBot) (hc : 0 ≤ c)
    {U W : ℝ} (hU : c < U) (hUW : U < W) (hrise : f' W < f' U) :
    ∃ P, 0 < P ∧ ∃ V₁ V₂, V₁ < V₂ ∧ LowestAt f c P V₁ ∧ LowestAt f c P V₂ := by
  have hf : ContinuousOn f (Set.Ioi c) := fun V hV => (hd V hV).continuousAt.continuousWithinAt
  have key : (∀ P, 0 < P → ¬ LowestAt f c P U) ∨ (∀ P, 0 < P → ¬ LowestAt f c P W) := by
    by_contra hne
    push Not at hne
    obtain ⟨⟨P, -, hP⟩, ⟨Q, -, hQ⟩⟩ := hne
    have e1 := hP.deriv (hd U hU)
    have e2 := hQ.deriv (hd W (hU.trans hUW))
    have i1 := hP.2 W (hU.trans hUW)
    have i2 := hQ.2 U hU
    nlinarith
  rcases key with h | h
  · obtain ⟨P, hP, V₁, V₂, a1, a2, a3, a4⟩ := exists_coexistence hf h0 h1 h2 hc hU h
    exact ⟨P, hP, V₁, V₂, a1.trans a2, a3, a4⟩
  · obtain ⟨P, hP, V₁, V₂, a1, a2, a3, a4⟩ := exists_coexistence hf h0 h1 h2 hc (hU.trans hUW) h
    exact ⟨P, hP, V₁, V₂, a1.trans a2, a3, a4⟩

/-- an energy above its chord means that the pressure rises somewhere -/
theorem rise_of_chord {f' : ℝ → ℝ} (hd : ∀ V, c < V → HasDerivAt f (f' V) V) {V₁ V₀ V₂ : ℝ} (h1 : c < V₁) (h10 : V₁ < V₀)
    (h02 : V₀ < V₂) (hch : (V₂ - V₀) * f V₁ + (V₀ - V₁) * f V₂ < (V₂ - V₁) * f V₀) :
    ∃ U W, c < U ∧ U < W ∧ f' W < f' U := by
  obtain ⟨U, hU, eU⟩ := exists_hasDerivAt_eq_slope f f' h10
    (fun V hV => (hd V (h1.trans_le hV.1)).continuousAt.continuousWithinAt) fun V hV => hd V (h1.trans hV.1)
  obtain ⟨W, hW, eW⟩ := exists_hasDerivAt_eq_slope f f' h02
    (fun V hV => (hd V ((h1.trans h10).trans_le hV.1)).continuousAt.continuousWithinAt)
    fun V hV => hd V ((h1.trans h10).trans hV.1)
  refine ⟨U, W, h1.trans hU.1, hU.2.trans hW.1, ?_⟩
  rw [eU, eW, div_lt_div_iff₀ (sub_pos.2 h02) (sub_pos.2 h10)]
  nlinarith

end

end PcSaft
