import Verif.Lemmas.Boundary
import Verif.Lemmas.MergeInv
import Verif.Props.Theory

/-!
# Infinite dilution (C108)

Chemical potentials of components that are absent, and of their neighbours, are the limits of the values at
small amounts — except for dipolar molecules dissolved in quadrupolar ones and the reverse.
-/

open Filter Topology

namespace PcSaft.Spec
variable {n : ℕ}

/-- The admissible states, as points. -/
def admissiblePoints (p : PcSaftParameters n ℝ) : Set (StatePoint n) := {y | Admissible p y.1 y.2.1 y.2.2}

/-- Near a point of a set, an evaluation gives a finite value and a finite slope, and both are continuous
there (from within the set). -/
def ContinuousSlope (S : Set (StatePoint n)) (x0 : StatePoint n) (code : StatePoint n → Except Panic (Dual XReal)) : Prop :=
  ∃ a a' : StatePoint n → ℝ, (∀ᶠ y in 𝓝[S] x0, code y = .ok ⟨XReal.fin (a y), XReal.fin (a' y)⟩)
    ∧ ContinuousWithinAt a S x0 ∧ ContinuousWithinAt a' S x0

/-- A polar contribution none of whose molecules are present, and whose pair integrals are positive (so that the
second-order term is attractive as soon as molecules are added). For the interaction of dipoles with quadrupoles,
both the dipoles and the quadrupoles are absent. -/
def AbsentPolar (pr : Fin n → PureRecord ℝ) (k : Fin n → Fin n → ℝ) (T V : ℝ) (N : Fin n → ℝ) : Contribution ℝ → Prop
  | .dipole => (∀ i, (fromRecords pr k).mu i ≠ 0 → N i = 0)
    ∧ ∀ i j, (fromRecords pr k).mu i ≠ 0 → (fromRecords pr k).mu j ≠ 0 →
      0 < (Props.fluidOf pr k).j2 T AD BD (packingFraction (fromRecords pr k) T V N) i j
  | .quadrupole => (∀ i, (fromRecords pr k).q i ≠ 0 → N i = 0)
    ∧ ∀ i j, (fromRecords pr k).q i ≠ 0 → (fromRecords pr k).q j ≠ 0 →
      0 < (Props.fluidOf pr k).j2 T AQ BQ (packingFraction (fromRecords pr k) T V N) i j
  | .dipoleQuadrupole _ => (∀ i, (fromRecords pr k).mu i ≠ 0 → N i = 0) ∧ (∀ i, (fromRecords pr k).q i ≠ 0 → N i = 0)
    ∧ ∀ i j, (fromRecords pr k).mu i ≠ 0 → (fromRecords pr k).q j ≠ 0 →
      0 < (Props.fluidOf pr k).j2 T ADQ BDQ (packingFraction (fromRecords pr k) T V N) i j
  | _ => False

end PcSaft.Spec

namespace PcSaft.Props
open Spec
variable {n : ℕ}

theorem padeVolume_nan1 (phi2 phi3 V : Dual XReal) (h2 : phi2.re = .fin 0) (h3 : phi3.re = .fin 0) :
    padeVolume phi2 phi3 V = phi2 * V := by
  have e : F64.isNan (DualNum.re (phi2 * phi2 / (phi2 - phi3) * V)) = true := by
    change XReal.isNan ((phi2.re * phi2.re) * DualNum.recip (phi2.re - phi3.re) * V.re) = true
    rw [h2, h3]
    have e1 : XReal.fin 0 - XReal.fin 0 = XReal.fin 0 := by rw [← XReal.equations.sub, sub_zero]
    have e2 : XReal.fin 0 * XReal.fin 0 = XReal.fin 0 := by rw [← XReal.equations.mul, zero_mul]
    have e3 : (DualNum.recip (XReal.fin 0) : XReal) = XReal.pinf := by
      change (if (0 : ℝ) = 0 then XReal.infSign (1.0 : ℝ) else _) = _
      norm_num [XReal.infSign]
    have e4 : XReal.fin 0 * XReal.pinf = XReal.nan := by
      change XReal.infSign (0 * 1) = _
      norm_num [XReal.infSign]
    rw [e1, e2, e3, e4]
    rfl
  unfold padeVolume
  dsimp only
  rw [e]
  rfl

section pade
variable {S : Set (StatePoint n)} {x0 : StatePoint n} {T' V' : ℝ} {N' : Fin n → ℝ}
  {code : StatePoint n → Except Panic (Dual XReal)} {P Q : StateHD n ℝ → ℝ}

/-- value and slope of a Padé quotient at one point -/
theorem pade_point {y : StatePoint n} {e2 e3 : Dual XReal} {a' b' : ℝ}
    (h2 : (repDual XReal.lawfulEmb rhoX 0).R (fun x => P (lineState T' V' N' (y, x.2))) e2)
    (h3 : (repDual XReal.lawfulEmb rhoX 0).R (fun x => Q (lineState T' V' N' (y, x.2))) e3)
    (ha : HasDerivAt (fun s => P (lineState T' V' N' (y, s))) a' 0)
    (hb : HasDerivAt (fun s => Q (lineState T' V' N' (y, s))) b' 0) :
    (P (lineState T' V' N' (y, 0)) ≠ Q (lineState T' V' N' (y, 0)) →
      padeVolume e2 e3 ⟨XReal.fin y.2.1, XReal.fin V'⟩
        = ⟨XReal.fin (P (lineState T' V' N' (y, 0)) ^ 2 / (P (lineState T' V' N' (y, 0)) - Q (lineState T' V' N' (y, 0))) * y.2.1),
          XReal.fin (padeSlope (P (lineState T' V' N' (y, 0))) a' (Q (lineState T' V' N' (y, 0))) b' y.2.1 V')⟩)
    ∧ (P (lineState T' V' N' (y, 0)) = 0 → Q (lineState T' V' N' (y, 0)) = 0 →
      padeVolume e2 e3 ⟨XReal.fin y.2.1, XReal.fin V'⟩ = ⟨XReal.fin 0, XReal.fin (a' * y.2.1)⟩) := by
  have hV := seedX y.2.1 V'
  have hv : HasDerivAt (fun s : ℝ => y.2.1 + s * V') V' 0 := by
    simpa using ((hasDerivAt_id (0 : ℝ)).mul_const V').const_add y.2.1
  constructor
  · intro hne
    have h := rep_padeVolume XReal.lawfulEmb h2 h3 hV hne
    have hd : HasDerivAt (fun s => padeVolume (P (lineState T' V' N' (y, s))) (Q (lineState T' V' N' (y, s))) (y.2.1 + s * V'))
        (padeSlope (P (lineState T' V' N' (y, 0))) a' (Q (lineState T' V' N' (y, 0))) b' y.2.1 V') 0 := by
      have := hasDerivAt_pade ha hb hv hne
      simpa [padeVolume] using this
    rw [ofX h hd]
    simp [padeVolume, pow_two]
  · intro h0 h0'
    have r2 : e2.re = .fin 0 := h2.2.1.2.trans (congrArg XReal.fin h0)
    have r3 : e3.re = .fin 0 := h3.2.1.2.trans (congrArg XReal.fin h0')
    rw [padeVolume_nan1 _ _ _ r2 r3]
    have h := (repDual XReal.lawfulEmb rhoX 0).mul h2 hV
    have hd : HasDerivAt (fun s => P (lineState T' V' N' (y, s)) * (y.2.1 + s * V')) (a' * y.2.1) 0 :=
      (ha.fun_mul hv).congr_deriv (by simp [h0])
    rw [ofX h hd]
    simp [h0]

theorem continuousSlope_pade {d2 d3 : Dual ℝ} (h2 : (rhoE x0).R (fun x => P (lineState T' V' N' x)) d2)
    (h3 : (rhoE x0).R (fun x => Q (lineState T' V' N' x)) d3)
    (dom : ∀ᶠ y in 𝓝[S] x0, |Q (lineState T' V' N' (y, 0))| ≤ |P (lineState T' V' N' (y, 0))| / 2)
    (z : P (lineState T' V' N' (x0, 0)) = 0) (z2 : HasDerivAt (fun s => P (lineState T' V' N' (x0, s))) 0 0)
    (z3 : HasDerivAt (fun s => Q (lineState T' V' N' (x0, s))) 0 0)
    (hX : ∀ᶠ y in 𝓝[S] x0, ∃ e2 e3 : Dual XReal,
      (repDual XReal.lawfulEmb rhoX 0).R (fun x => P (lineState T' V' N' (y, x.2))) e2
      ∧ (repDual XReal.lawfulEmb rhoX 0).R (fun x => Q (lineState T' V' N' (y, x.2))) e3
      ∧ code y = .ok (padeVolume e2 e3 ⟨XReal.fin y.2.1, XReal.fin V'⟩)) : ContinuousSlope S x0 code := by
  obtain ⟨_, ⟨c2, -⟩, P', d2', c2', -⟩ := h2
  obtain ⟨_, ⟨c3, -⟩, Q', d3', c3', -⟩ := h3
  replace c2 : ContinuousAt (fun y => P (lineState T' V' N' (y, 0))) x0 := c2
  have e2 : P' x0 = 0 := d2'.self_of_nhds.unique z2
  have e3 : Q' x0 = 0 := d3'.self_of_nhds.unique z3
  set p : StatePoint n → ℝ := fun y => P (lineState T' V' N' (y, 0)) with hp
  set q : StatePoint n → ℝ := fun y => Q (lineState T' V' N' (y, 0)) with hq
  have cV : ContinuousAt (fun y : StatePoint n => y.2.1) x0 := by fun_prop
  classical
  refine ⟨fun y => if p y = 0 then 0 else p y ^ 2 / (p y - q y) * y.2.1,
    fun y => if p y = 0 then P' y * y.2.1 else padeSlope (p y) (P' y) (q y) (Q' y) y.2.1 V', ?_, ?_, ?_⟩
  · filter_upwards [dom, hX, nhdsWithin_le_nhds d2', nhdsWithin_le_nhds d3'] with y hd hx k2 k3
    obtain ⟨a, b, h2, h3, hc⟩ := hx
    obtain ⟨u1, u2⟩ := pade_point h2 h3 k2 k3
    by_cases h0 : p y = 0
    · rw [if_pos h0, if_pos h0, hc, u2 h0 ?_]
      change |q y| ≤ |p y| / 2 at hd
      rw [h0, abs_zero, zero_div] at hd
      exact abs_nonpos_iff.mp hd
    · rw [if_neg h0, if_neg h0, hc, u1 ?_]
      intro e
      change |q y| ≤ |p y| / 2 at hd
      change p y = q y at e
      rw [← e] at hd
      have := abs_pos.mpr h0
      linarith
  · have hb : ∀ᶠ y in 𝓝[S] x0, ‖if p y = 0 then 0 else p y ^ 2 / (p y - q y) * y.2.1‖ ≤ 2 * |p y| * |y.2.1| := by
      filter_upwards [dom] with y hd
      split_ifs with h0
      · rw [norm_zero]; positivity
      · rw [Real.norm_eq_abs, abs_mul]
        have := abs_padeSlope_le (a' := 0) (b' := 0) (v := 0) (v' := 1) h0 hd
        simp only [padeSlope, mul_zero, zero_div, sub_zero, mul_one, zero_add, abs_zero, abs_one, add_zero] at this
        exact mul_le_mul_of_nonneg_right this (abs_nonneg _)
    have hg : Tendsto (fun y => 2 * |p y| * |y.2.1|) (𝓝[S] x0) (𝓝 0) := by
      have : ContinuousAt (fun y => 2 * |p y| * |y.2.1|) x0 := by fun_prop
      have h := this.tendsto.mono_left (nhdsWithin_le_nhds (s := S))
      simpa [show p x0 = 0 from z] using h
    have := squeeze_zero_norm' hb hg
    unfold ContinuousWithinAt
    beta_reduce
    rw [if_pos (show p x0 = 0 from z)]
    exact this
  · have hb : ∀ᶠ y in 𝓝[S] x0, ‖if p y = 0 then P' y * y.2.1 else padeSlope (p y) (P' y) (q y) (Q' y) y.2.1 V'‖
        ≤ (8 * |P' y| + 4 * |Q' y|) * |y.2.1| + 2 * |p y| * |V'| := by
      filter_upwards [dom] with y hd
      split_ifs with h0
      · rw [Real.norm_eq_abs, abs_mul, h0, abs_zero]
        nlinarith [abs_nonneg (P' y), abs_nonneg (Q' y), abs_nonneg y.2.1, mul_nonneg (abs_nonneg (P' y)) (abs_nonneg y.2.1),
          mul_nonneg (abs_nonneg (Q' y)) (abs_nonneg y.2.1)]
      · exact abs_padeSlope_le h0 hd
    have hg : Tendsto (fun y => (8 * |P' y| + 4 * |Q' y|) * |y.2.1| + 2 * |p y| * |V'|) (𝓝[S] x0) (𝓝 0) := by
      have : ContinuousAt (fun y => (8 * |P' y| + 4 * |Q' y|) * |y.2.1| + 2 * |p y| * |V'|) x0 := by fun_prop
      have h := this.tendsto.mono_left (nhdsWithin_le_nhds (s := S))
      simpa [show p x0 = 0 from z, e2, e3] using h
    have := squeeze_zero_norm' hb hg
    unfold ContinuousWithinAt
    beta_reduce
    rw [if_pos (show p x0 = 0 from z), e2, zero_mul]
    exact this

end pade

theorem build_map {F : Type} [F64 F] {emb : ℝ → F → Prop} {p : PcSaftParameters n ℝ} {q : PcSaftParameters n F}
    (hp : ParamRel emb p q) {g : ℝ → F} (o : PcSaftOptions ℝ) :
    buildContributions q (o.map g) = (buildContributions p o).map (Contribution.map g) := by
  have e1 : q.ndipole = p.ndipole := by
    simp only [PcSaftParameters.ndipole, hp.dipole_comp]
  have e2 : q.nquadpole = p.nquadpole := by
    simp only [PcSaftParameters.nquadpole, hp.quadpole_comp]
  have e3 : q.nassoc = p.nassoc := by
    simp only [PcSaftParameters.nassoc, hp.assoc_comp]
  unfold buildContributions
  rw [e1, e2, e3]
  simp only [List.map_append]
  congr 1
  · congr 1
    · congr 1
      · congr 1
        split_ifs <;> rfl
      · split_ifs <;> rfl
    · split_ifs <;> rfl
  · generalize p.nassoc = na
    match na with
    | 0 => rfl
    | 1 => rfl
    | (_ + 2) => rfl

section contributions
variable {pr : Fin n → PureRecord ℝ} {k : Fin n → Fin n → ℝ} {x0 : StatePoint n} {T' V' : ℝ} {N' : Fin n → ℝ}

section near
variable (h : Admissible (fromRecords pr k) x0.1 x0.2.1 x0.2.2)
include h

/-- states depend continuously on the point -/
theorem state_near : StateRel (repReal x0) (fun y : StatePoint n => StateHD.new y.1 y.2.1 y.2.2) (StateHD.new x0.1 x0.2.1 x0.2.2) :=
  rep_state lawfulEmb_id (ρ := repReal x0) (T := fun y => y.1) (V := fun y => y.2.1) (N := fun i y => y.2.2 i)
    ⟨by fun_prop, rfl⟩ ⟨by fun_prop, rfl⟩ (fun i => ⟨by fun_prop, rfl⟩) h

theorem eta_near : ContinuousAt (fun y : StatePoint n => stateEta (fromRecords pr k) (StateHD.new y.1 y.2.1 y.2.2)) x0 :=
  (rep_eta lawfulEmb_id (ParamRel.refl (fromRecords pr k)) (state_near h) h.temperature.ne').1

theorem phis_near (ct : Contribution ℝ) :
    ContinuousAt (fun y : StatePoint n => (polarPhis (fromRecords pr k) (StateHD.new y.1 y.2.1 y.2.2) ct).1) x0
    ∧ ContinuousAt (fun y : StatePoint n => (polarPhis (fromRecords pr k) (StateHD.new y.1 y.2.1 y.2.2) ct).2) x0 := by
  have := rep_polarPhis lawfulEmb_id (ParamRel.refl (fromRecords pr k)) h.m_pos (fun i j => (sigma_ij_pos h i j).ne')
    (fun i => (h.sigma_pos i).ne') (state_near h) h.temperature.ne' ct
  exact ⟨this.1.1, this.2.1⟩

/-- a smooth contribution is smooth at the neighbouring states -/
theorem regular_near (ct : Contribution ℝ) (hr : Regular (fromRecords pr k) x0.1 x0.2.1 x0.2.2 ct) :
    ∀ᶠ y in 𝓝[admissiblePoints (fromRecords pr k)] x0, Regular (fromRecords pr k) y.1 y.2.1 y.2.2 ct := by
  by_cases hc : IsPolar ct
  · obtain ⟨h2, h3⟩ := phis_near h ct
    simp only [regular_polar _ _ _ _ hc] at hr ⊢
    exact nhdsWithin_le_nhds (((h2.sub h3).eventually_ne (sub_ne_zero.mpr hr)).mono fun y hy => sub_ne_zero.mp hy)
  have hp := ParamRel.refl (fromRecords pr k)
  cases ct with
  | hardSphere => exact .of_forall fun _ => trivial
  | hardChain => exact .of_forall fun _ => trivial
  | dispersion => exact .of_forall fun _ => trivial
  | dipole => exact (hc trivial).elim
  | quadrupole => exact (hc trivial).elim
  | dipoleQuadrupole v => exact (hc trivial).elim
  | association =>
    obtain ⟨a, hl, he, hna, hnb, hsmall, hne⟩ := hr
    rw [← stateDeltaRho_eq h a [] hl] at hne
    have hd := (rep_deltaRho lawfulEmb_id hp (state_near h) h.temperature.ne' (stateEta_lt_one h).ne a (h.diameter_pos a).ne').1
    have := hd.eventually_ne hne
    filter_upwards [self_mem_nhdsWithin, nhdsWithin_le_nhds this] with y hy hy'
    refine ⟨a, hl, he, hna, hnb, hsmall, ?_⟩
    rw [← stateDeltaRho_eq hy a [] hl]
    exact hy'
  | crossAssociation _ _ => exact hr.elim

end near

section absent
variable {ct : Contribution ℝ} {T V : ℝ} {N : Fin n → ℝ}

theorem absent_isPolar (hr : AbsentPolar pr k T V N ct) : IsPolar ct := by
  cases ct <;> first | exact trivial | exact hr.elim

theorem mu_of_mem {i : Fin n} (hi : i ∈ (fromRecords pr k).dipole_comp) : (fromRecords pr k).mu i ≠ 0 :=
  fun h => (mem_nonzeroComp (fromRecords pr k).mu2 i).1 hi (mu2_zero h)

theorem q_of_mem {i : Fin n} (hi : i ∈ (fromRecords pr k).quadpole_comp) : (fromRecords pr k).q i ≠ 0 :=
  fun h => (mem_nonzeroComp (fromRecords pr k).q2 i).1 hi (q2_zero h)

theorem absent_pairs (hr : AbsentPolar pr k T V N ct) (i j : Fin n) (hij : bothPolar (fromRecords pr k) ct i j) :
    N i = 0 ∧ N j = 0 := by
  cases ct with
  | dipole => exact ⟨hr.1 i (mu_of_mem hij.1), hr.1 j (mu_of_mem hij.2)⟩
  | quadrupole => exact ⟨hr.1 i (q_of_mem hij.1), hr.1 j (q_of_mem hij.2)⟩
  | dipoleQuadrupole v => exact ⟨hr.1 i (mu_of_mem hij.1), hr.2.1 j (q_of_mem hij.2)⟩
  | _ => exact hr.elim

theorem absent_third (hok : PolarOk (fromRecords pr k)) (hr : AbsentPolar pr k T V N ct) (T1 eta : ℝ) (i j l : Fin n) :
    polarK3 (fromRecords pr k) T1 eta ct i j l = 0 ∨ N l = 0 := by
  cases ct with
  | dipole =>
    by_cases hl : l ∈ (fromRecords pr k).dipole_comp
    · exact Or.inr (hr.1 l (mu_of_mem hl))
    · exact Or.inl (by simp [polarK3, dipK3, dipoleTerm_zero hok _ hl])
  | quadrupole =>
    by_cases hl : l ∈ (fromRecords pr k).quadpole_comp
    · exact Or.inr (hr.1 l (q_of_mem hl))
    · exact Or.inl (by simp [polarK3, quadK3, quadrupoleTerm_zero hok _ hl])
  | dipoleQuadrupole v =>
    by_cases hl : l ∈ (fromRecords pr k).dipole_comp
    · exact Or.inr (hr.1 l (mu_of_mem hl))
    by_cases hl' : l ∈ (fromRecords pr k).quadpole_comp
    · exact Or.inr (hr.2.1 l (q_of_mem hl'))
    · exact Or.inl (by simp [polarK3, dqK3d, dqK3q, muTerm_zero hok _ hl, qTerm_zero hok _ hl'])
  | _ => exact hr.elim

theorem absent_pos (h : Admissible (fromRecords pr k) T V N) (he : ∀ i, 0 < (fromRecords pr k).epsilon_k i)
    (hr : AbsentPolar pr k T V N ct) (i j : Fin n) (hij : bothPolar (fromRecords pr k) ct i j) :
    0 < polarK2 (fromRecords pr k) T (stateEta (fromRecords pr k) (StateHD.new T V N)) ct i j := by
  rw [stateEta_new]
  have hT := h.temperature
  have hi := he i
  have hj := he j
  have si := h.sigma_pos i
  have sj := h.sigma_pos j
  have sii := sigma_ij_pos h i i
  have sjj := sigma_ij_pos h j j
  have sij := sigma_ij_pos h i j
  cases ct with
  | dipole =>
    have h1 := hr.2 i j (mu_of_mem hij.1) (mu_of_mem hij.2)
    rw [← pairI_theory pr k (by decide)] at h1
    have h2 := mu2_pos h (mu_of_mem hij.1) hi
    have h3 := mu2_pos h (mu_of_mem hij.2) hj
    simp only [polarK2, dipK2, dipoleTerm, c, ofF_real, powi_real]
    positivity
  | quadrupole =>
    have h1 := hr.2 i j (q_of_mem hij.1) (q_of_mem hij.2)
    rw [← pairI_theory pr k (by decide)] at h1
    have h2 := q2_pos h (q_of_mem hij.1) hi
    have h3 := q2_pos h (q_of_mem hij.2) hj
    have h4 := h.sigma_pos (min i j)
    simp only [polarK2, quadK2, quadrupoleTerm, c, ofF_real, powi_real]
    positivity
  | dipoleQuadrupole v =>
    have h1 := hr.2.2 i j (mu_of_mem hij.1) (q_of_mem hij.2)
    rw [← pairI_theory pr k (by decide)] at h1
    have h2 := mu2_pos h (mu_of_mem hij.1) hi
    have h3 := q2_pos h (q_of_mem hij.2) hj
    cases v <;> simp only [polarK2, dqK2, muQTerm, dqTerm, c, ofF_real, powi_real] <;> positivity
  | _ => exact hr.elim

end absent

theorem lineState_zero (y : StatePoint n) : lineState T' V' N' (y, 0) = StateHD.new y.1 y.2.1 y.2.2 := by
  simp [lineState]

variable (h : Admissible (fromRecords pr k) x0.1 x0.2.1 x0.2.2) (hpx : ParamRel XReal.IsFin (fromRecords pr k) (xParameters pr k))
include h hpx

/-- where a contribution is smooth, values and slopes are continuous -/
theorem continuousSlope_regular (la : LinAlg XReal (Dual XReal)) (ct : Contribution ℝ)
    (hr : Regular (fromRecords pr k) x0.1 x0.2.1 x0.2.2 ct) :
    ContinuousSlope (admissiblePoints (fromRecords pr k)) x0
      fun y => (ct.map XReal.fin).helmholtzEnergy la (xParameters pr k) (pointX T' V' N' y) := by
  obtain ⟨A, d, h1, -, h3⟩ := rep_contribution (g := id) lawfulEmb_id (ρ := rhoE x0) (ParamRel.refl (fromRecords pr k))
    (T := fun x => x.1.1 + x.2 * T') (V := fun x => x.1.2.1 + x.2 * V') (N := fun i x => x.1.2.2 i + x.2 * N' i)
    (seedE (f := fun y => y.1) (by fun_prop) T') (seedE (f := fun y => y.2.1) (by fun_prop) V')
    (fun i => seedE (f := fun y => y.2.2 i) (by fun_prop) (N' i)) (by simpa using h) noSolver
    ⟨fun _ _ _ => none, fun _ _ _ => none, 0⟩ ct (by simpa using hr)
  obtain ⟨-, ⟨c0, -⟩, A', hA', c1, -⟩ := h3
  refine ⟨fun y => A (y, 0), A', ?_, ContinuousAt.continuousWithinAt c0, c1.continuousWithinAt⟩
  filter_upwards [self_mem_nhdsWithin, regular_near h ct hr, nhdsWithin_le_nhds hA'] with y hy hr' hd
  replace hy : Admissible (fromRecords pr k) y.1 y.2.1 y.2.2 := hy
  obtain ⟨B, e, k1, k2, k3⟩ := rep_contribution (g := XReal.fin) XReal.lawfulEmb (ρ := repDual XReal.lawfulEmb rhoX 0) hpx
    (seedX y.1 T') (seedX y.2.1 V') (fun i => seedX (y.2.2 i) (N' i)) (by simpa using hy) noSolver la ct (by simpa using hr')
  have hB : ∀ s, B ((), s) = A (y, s) := fun s => Except.ok.inj ((k1 ((), s)).symm.trans (h1 (y, s)))
  refine k2.trans ?_
  rw [ofX k3 (b := A' y) (by simp only [hB]; exact hd), hB]

/-- where the molecules of a polar contribution are absent, values and slopes are continuous -/
theorem continuousSlope_absent (la : LinAlg XReal (Dual XReal)) (he : ∀ i, 0 < (fromRecords pr k).epsilon_k i) (ct : Contribution ℝ)
    (hr : AbsentPolar pr k x0.1 x0.2.1 x0.2.2 ct) :
    ContinuousSlope (admissiblePoints (fromRecords pr k)) x0
      fun y => (ct.map XReal.fin).helmholtzEnergy la (xParameters pr k) (pointX T' V' N' y) := by
  have hct := absent_isPolar hr
  have hok := polarOk_fromRecords pr k fun i => (h.m_pos i).le
  have hsij : ∀ i j, (fromRecords pr k).sigma_ij i j ≠ 0 := fun i j => (sigma_ij_pos h i j).ne'
  have hsig : ∀ i, (fromRecords pr k).sigma i ≠ 0 := fun i => (h.sigma_pos i).ne'
  have hl : StateRel (rhoE x0) (fun x => lineState T' V' N' x) (StateHD.new ⟨x0.1, T'⟩ ⟨x0.2.1, V'⟩ fun i => ⟨x0.2.2 i, N' i⟩) :=
    rep_state lawfulEmb_id (ρ := rhoE x0) (p := fromRecords pr k)
      (T := fun x => x.1.1 + x.2 * T') (V := fun x => x.1.2.1 + x.2 * V') (N := fun i x => x.1.2.2 i + x.2 * N' i)
      (seedE (f := fun y => y.1) (by fun_prop) T') (seedE (f := fun y => y.2.1) (by fun_prop) V')
      (fun i => seedE (f := fun y => y.2.2 i) (by fun_prop) (N' i)) (by simpa using h)
  have hT0 : (lineState T' V' N' (x0, 0)).temperature ≠ 0 := by
    rw [lineState_zero]
    exact h.temperature.ne'
  obtain ⟨r2, r3⟩ := rep_polarPhis lawfulEmb_id (ParamRel.refl (fromRecords pr k)) h.m_pos hsij hsig hl hT0 ct
  have hP := absent_pairs hr
  have eP := fun s => (polarPhis_real hok s ct).1
  have eQ := fun s => (polarPhis_real hok s ct).2
  -- the state along the line
  have hcl : StateRel (repReal (0 : ℝ)) (fun s => lineState T' V' N' (x0, s)) (StateHD.new x0.1 x0.2.1 x0.2.2) :=
    rep_state lawfulEmb_id (ρ := repReal (0 : ℝ)) (p := fromRecords pr k)
      (T := fun s => x0.1 + s * T') (V := fun s => x0.2.1 + s * V') (N := fun i s => x0.2.2 i + s * N' i)
      ⟨by fun_prop, by simp⟩ ⟨by fun_prop, by simp⟩ (fun i => ⟨by fun_prop, by simp⟩) (by simpa using h)
  have hce := (rep_eta lawfulEmb_id (ParamRel.refl (fromRecords pr k)) hcl hT0).1
  obtain ⟨ck2, ck3⟩ := continuousAt_polarK (fromRecords pr k) hcl.temperature.1 hT0 hce ct
  have hrho : ∀ i, HasDerivAt (fun s => (lineState T' V' N' (x0, s)).partial_density i)
      ((N' i * x0.2.1 - x0.2.2 i * V') / x0.2.1 ^ 2) 0 := by
    intro i
    have a : HasDerivAt (fun s : ℝ => x0.2.2 i + s * N' i) (N' i) 0 := by
      simpa using ((hasDerivAt_id (0 : ℝ)).mul_const (N' i)).const_add (x0.2.2 i)
    have b : HasDerivAt (fun s : ℝ => x0.2.1 + s * V') V' 0 := by
      simpa using ((hasDerivAt_id (0 : ℝ)).mul_const V').const_add x0.2.1
    have := a.fun_div b (by simpa using h.volume.ne')
    refine this.congr_deriv ?_
    simp
  have hzero : ∀ i j, bothPolar (fromRecords pr k) ct i j → (lineState T' V' N' (x0, 0)).partial_density i = 0
      ∧ (lineState T' V' N' (x0, 0)).partial_density j = 0 := by
    intro i j hij
    obtain ⟨a, b⟩ := hP i j hij
    rw [lineState_zero]
    change x0.2.2 i / _ = 0 ∧ x0.2.2 j / _ = 0
    rw [a, b, zero_div]
    exact ⟨rfl, rfl⟩
  refine continuousSlope_pade (P := fun s => (polarPhis (fromRecords pr k) s ct).1) (Q := fun s => (polarPhis (fromRecords pr k) s ct).2)
    (N' := N') (V' := V') (T' := T') r2 r3 ?_ ?_ ?_ ?_ ?_
  · -- the triplet term is small compared to the pair term
    obtain ⟨cy2, cy3⟩ := continuousAt_polarK (fromRecords pr k) (t := fun y : StatePoint n => y.1) (by fun_prop) h.temperature.ne'
      (eta_near h) ct
    have := triplet_le_pair (S := admissiblePoints (fromRecords pr k)) (rho := fun i y => y.2.2 i / y.2.1)
      (P := bothPolar (fromRecords pr k) ct)
      (fun i => ContinuousAt.div (f := fun y : StatePoint n => y.2.2 i) (by fun_prop) (by fun_prop) h.volume.ne')
      (fun y hy i => div_nonneg (Admissible.moles_nonneg hy i) (Admissible.volume hy).le) cy2 cy3
      (absent_pos h he hr) (fun y i j hij => polarK2_zero hok _ _ ct hij) (fun y i j k hij => polarK3_zero hok _ _ ct k hij)
      (fun i j l _ => by
        rcases absent_third hok hr x0.1 (stateEta (fromRecords pr k) (StateHD.new x0.1 x0.2.1 x0.2.2)) i j l with h | h
        · exact Or.inl h
        · exact Or.inr (by rw [h, zero_div])) (polarC3 ct) (polarC2_pos ct)
    filter_upwards [this] with y hy
    rw [lineState_zero]
    rw [eP, eQ, abs_neg]
    exact hy
  · rw [eP, Finset.sum_eq_zero, mul_zero, neg_zero]
    intro i _
    refine Finset.sum_eq_zero fun j _ => ?_
    by_cases hij : bothPolar (fromRecords pr k) ct i j
    · rw [(hzero i j hij).1, zero_mul, zero_mul]
    · rw [polarK2_zero hok _ _ ct hij, mul_zero]
  · simp only [eP]
    have := pair_slope hrho ck2 (fun s i j hij => polarK2_zero hok _ _ ct hij) hzero
    simpa using (this.const_mul (polarC2 ct)).fun_neg
  · simp only [eQ]
    have := triplet_slope hrho ck3 (fun s i j l hij => polarK3_zero hok _ _ ct l hij) hzero
    simpa using this.const_mul (polarC3 ct)
  · filter_upwards [self_mem_nhdsWithin] with y hy
    replace hy : Admissible (fromRecords pr k) y.1 y.2.1 y.2.2 := hy
    have hst := rep_state XReal.lawfulEmb (ρ := repDual XReal.lawfulEmb rhoX 0) (p := fromRecords pr k)
      (seedX y.1 T') (seedX y.2.1 V') (fun i => seedX (y.2.2 i) (N' i)) (by simpa using hy)
    obtain ⟨u2, u3⟩ := rep_polarPhis XReal.lawfulEmb hpx hy.m_pos hsij hsig hst (by
      change y.1 + 0 * T' ≠ 0
      simpa using hy.temperature.ne') ct
    refine ⟨_, _, u2, u3, ?_⟩
    rw [polar_energy la _ _ ((isPolar_map _ ct).2 hct), polarPhis_map]
    rfl

omit h hpx in
theorem _root_.PcSaft.Spec.ContinuousSlope.congr {S : Set (StatePoint n)} {x0 : StatePoint n} {f g : StatePoint n → Except Panic (Dual XReal)}
    (hf : ContinuousSlope S x0 f) (e : ∀ᶠ y in 𝓝[S] x0, g y = f y) : ContinuousSlope S x0 g := by
  obtain ⟨a, a', h1, h2, h3⟩ := hf
  exact ⟨a, a', (e.and h1).mono fun y hy => hy.1.trans hy.2, h2, h3⟩

omit h hpx in
theorem xdual_add (a a' b b' : ℝ) : (⟨XReal.fin a, XReal.fin a'⟩ + ⟨XReal.fin b, XReal.fin b'⟩ : Dual XReal)
    = ⟨XReal.fin (a + b), XReal.fin (a' + b')⟩ :=
  Dual.ext (XReal.equations.add a b).symm (XReal.equations.add a' b').symm

/-- the accumulation of contributions -/
noncomputable def foldFrom (la : LinAlg XReal (Dual XReal)) (q : PcSaftParameters n XReal) (s : StateHD n (Dual XReal))
    (cts : List (Contribution XReal)) (acc : Dual XReal) : Except Panic (Dual XReal) :=
  cts.foldlM (fun acc ct =>
    match ct.helmholtzEnergy la q s with
    | .error err => .error err
    | .ok a => .ok (acc + a)) acc

omit h hpx in
theorem residual_foldFrom (la : LinAlg XReal (Dual XReal)) (q : PcSaftParameters n XReal) (s : StateHD n (Dual XReal)) (o : PcSaftOptions XReal) :
    (Eos.withOptions q o).residualHelmholtz la s = foldFrom la q s (buildContributions q o) (c (0.0 : XReal)) :=
  congrArg (fun f => List.foldlM f _ _) (by
    funext acc ct
    simp only [Eos.withOptions]
    cases ct.helmholtzEnergy la q s <;> rfl)

omit h hpx in
/-- sums of contributions -/
theorem continuousSlope_fold {S : Set (StatePoint n)} {q : PcSaftParameters n XReal} {st : StatePoint n → StateHD n (Dual XReal)}
    (la : LinAlg XReal (Dual XReal)) (cts : List (Contribution XReal))
    (hc : ∀ ct ∈ cts, ContinuousSlope S x0 fun y => ct.helmholtzEnergy la q (st y)) (acc : StatePoint n → Dual XReal)
    (ha : ContinuousSlope S x0 fun y => .ok (acc y)) :
    ContinuousSlope S x0 fun y => foldFrom la q (st y) cts (acc y) := by
  induction cts generalizing acc with
  | nil => exact ha
  | cons ct cts ih =>
    obtain ⟨a, a', h1, h2, h3⟩ := ha
    obtain ⟨b, b', k1, k2, k3⟩ := hc ct (by simp)
    refine (ih (fun c hc' => hc c (by simp [hc'])) (fun y => ⟨XReal.fin (a y + b y), XReal.fin (a' y + b' y)⟩)
      ⟨fun y => a y + b y, fun y => a' y + b' y, .of_forall fun _ => rfl, h2.add k2, h3.add k3⟩).congr ?_
    filter_upwards [h1, k1] with y hy ky
    rw [foldFrom, List.foldlM_cons, ky, Except.ok.inj hy, ← xdual_add]
    rfl

/-- sum over all contributions -/
theorem residual_continuousSlope (o : PcSaftOptions ℝ) (la : LinAlg XReal (Dual XReal))
    (he : ∀ i, 0 < (fromRecords pr k).epsilon_k i)
    (hr : ∀ ct ∈ buildContributions (fromRecords pr k) o, Regular (fromRecords pr k) x0.1 x0.2.1 x0.2.2 ct
      ∨ AbsentPolar pr k x0.1 x0.2.1 x0.2.2 ct) (T' V' : ℝ) (N' : Fin n → ℝ) :
    ContinuousSlope (admissiblePoints (fromRecords pr k)) x0 fun y =>
      (Eos.withOptions (xParameters pr k) (o.map XReal.fin)).residualHelmholtz la (pointX T' V' N' y) := by
  have hb : buildContributions (xParameters pr k) (o.map XReal.fin)
      = (buildContributions (fromRecords pr k) o).map (Contribution.map XReal.fin) := build_map hpx o
  have hf := continuousSlope_fold (S := admissiblePoints (fromRecords pr k)) (q := xParameters pr k) (st := pointX T' V' N') la
    (buildContributions (xParameters pr k) (o.map XReal.fin)) (x0 := x0) ?_ (fun _ => c (0.0 : XReal))
    ⟨fun _ => 0, fun _ => 0, .of_forall fun _ => congrArg Except.ok (Dual.ext (by
      change XReal.fin (0.0 : ℝ) = _
      norm_num) (by
      change XReal.fin (0.0 : ℝ) = _
      norm_num)), continuousWithinAt_const, continuousWithinAt_const⟩
  · refine hf.congr (.of_forall fun y => ?_)
    exact residual_foldFrom la _ _ _
  · rw [hb]
    intro ct' hct'
    obtain ⟨ct, hct, rfl⟩ := List.mem_map.1 hct'
    rcases hr ct hct with hr | hr
    · exact continuousSlope_regular h hpx la ct hr
    · exact continuousSlope_absent h hpx la he ct hr

omit hpx in
/-- C108: at every admissible state where each contribution is smooth or consists of absent molecules, the residual
energy and its slope in any direction — residual chemical potentials in particular — are finite, and they are the
limits of the values at neighbouring states.
Missing: dipolar molecules at infinite dilution in quadrupolar ones and the reverse, where this is wrong
(`C108_dipole_in_quadrupoles_counterexample`); several associating components. -/
theorem C108_infinite_dilution_partial (o : PcSaftOptions ℝ) (la : LinAlg XReal (Dual XReal))
    (he : ∀ i, 0 < (pr i).model_record.epsilon_k) (hk : ∀ i, 0 ≤ (fromRecords pr k).kappa_ab i)
    (hr : ∀ ct ∈ buildContributions (fromRecords pr k) o, Regular (fromRecords pr k) x0.1 x0.2.1 x0.2.2 ct
      ∨ AbsentPolar pr k x0.1 x0.2.1 x0.2.2 ct) (T' V' : ℝ) (N' : Fin n → ℝ) :
    ContinuousSlope (admissiblePoints (fromRecords pr k)) x0 fun y =>
      (Eos.withOptions (xParameters pr k) (o.map XReal.fin)).residualHelmholtz la
        (StateHD.new ⟨XReal.fin y.1, XReal.fin T'⟩ ⟨XReal.fin y.2.1, XReal.fin V'⟩
          fun i => ⟨XReal.fin (y.2.2 i), XReal.fin (N' i)⟩) :=
  residual_continuousSlope h (xParameters_rel pr k h.m_pos h.sigma_pos he hk) o la he hr T' V' N'

omit h hpx in
/-- C108 for dipolar fluids: no further condition on the amounts, any of which may be zero. -/
theorem C108_dipolar_fluids (hw : WarmDipoles (fromRecords pr k) x0.1 x0.2.1 x0.2.2) (o : PcSaftOptions ℝ) (la : LinAlg XReal (Dual XReal))
    (he : ∀ i, 0 < (pr i).model_record.epsilon_k) (hq : (fromRecords pr k).quadpole_comp = [])
    (ha : (fromRecords pr k).assoc_comp = []) (T' V' : ℝ) (N' : Fin n → ℝ) :
    ContinuousSlope (admissiblePoints (fromRecords pr k)) x0 fun y =>
      (Eos.withOptions (xParameters pr k) (o.map XReal.fin)).residualHelmholtz la
        (StateHD.new ⟨XReal.fin y.1, XReal.fin T'⟩ ⟨XReal.fin y.2.1, XReal.fin V'⟩
          fun i => ⟨XReal.fin (y.2.2 i), XReal.fin (N' i)⟩) := by
  refine C108_infinite_dilution_partial hw.admissible o la he (fun i => ?_) (fun ct hct => ?_) T' V' N'
  · by_contra hne
    have : i ∈ (fromRecords pr k).assoc_comp := (mem_assoc_iff pr k i).2 (by intro e; exact hne e.ge)
    simp [ha] at this
  · have hct' : ct = .hardSphere ∨ ct = .hardChain ∨ ct = .dispersion ∨ ct = .dipole := by
      simp only [buildContributions, PcSaftParameters.nquadpole, PcSaftParameters.nassoc, hq, ha, List.length_nil, lt_irrefl,
        and_false, if_false, List.append_nil, List.mem_append, List.mem_cons, List.not_mem_nil, or_false] at hct
      rcases hct with h | h
      · tauto
      · split_ifs at h
        · simp at h
          tauto
        · simp at h
    rcases hct' with rfl | rfl | rfl | rfl
    · exact Or.inl trivial
    · exact Or.inl trivial
    · exact Or.inl trivial
    · by_cases hi : ∃ i, (fromRecords pr k).mu i ≠ 0 ∧ 0 < x0.2.2 i
      · exact Or.inl ((C95_dipole_no_pole hw).2 hi)
      · refine Or.inr ⟨fun i hm => ?_, fun i j hi hj => ?_⟩
        · by_contra hN
          exact hi ⟨i, hm, lt_of_le_of_ne (hw.admissible.moles_nonneg i) (Ne.symm hN)⟩
        · rw [← pairI_theory pr k (by decide)]
          have := hw.eta_mem
          rw [zeta3_eq_packing] at this
          exact hw.pair_pos hi hj this.1 this.2

end contributions

end PcSaft.Props
