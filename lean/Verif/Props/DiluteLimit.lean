import Verif.Lemmas.Dilute
import Verif.Props.CrossDilute

/-!
# Properties C22 and C81: the ideal gas limit of the residual energy and of its derivatives
-/

open Filter Topology
open scoped ContDiff

namespace PcSaft
variable {n : ℕ}

/-- What a contribution needs for its limit of low density: the pair terms of the polar contributions at zero density,
which are their second virial coefficients up to a constant (C63), do not vanish, because the Padé approximation divides
by them; and a single associating component has sites.  Nothing is required of the other contributions. -/
def Spec.DiluteRegular (p : PcSaftParameters n ℝ) (T : ℝ) (N : Fin n → ℝ) : Contribution ℝ → Prop
  | .dipole => dipolePhi2 p T N 0 ≠ 0
  | .quadrupole => quadrupolePhi2 p T N 0 ≠ 0
  | .dipoleQuadrupole v => dipoleQuadrupolePhi2 v p T N 0 ≠ 0
  | .association => ∃ a, p.assoc_comp = [a] ∧ 0 < p.na a
  | _ => True

namespace Props
open PcSaft Spec

/-- state with temperature, volume and amounts changing in a given direction, the volume in proportion -/
noncomputable def seededState (T V : ℝ) (N : Fin n → ℝ) (t v : ℝ) (w : Fin n → ℝ) : StateHD n (Dual ℝ) :=
  StateHD.new ⟨T, t⟩ ⟨V, V * v⟩ (fun i => ⟨N i, w i⟩)

/-- one contribution for large volumes: a function of the inverse volume and its derivative, in a direction that may
depend on the volume -/
def DiluteContribution (la : LinAlg ℝ ℝ) (laD : LinAlg ℝ (Dual ℝ)) (p : PcSaftParameters n ℝ) (T : ℝ) (N : Fin n → ℝ)
    (t v : ℝ → ℝ) (w : ℝ → Fin n → ℝ) (F : ℝ × (ℝ × (Fin n → ℝ)) → ℝ) (ct : Contribution ℝ) : Prop :=
  Dilute F (T, N) ∧ ∀ᶠ V : ℝ in atTop, ct.helmholtzEnergy la p (StateHD.new T V N) = .ok (V * F (1 / V, (T, N)))
    ∧ ct.helmholtzEnergy laD p (seededState T V N (t V) (v V) (w V))
      = .ok ⟨V * F (1 / V, (T, N)), diluteSlope F (T, N) (v V) (t V, w V) V⟩

section
variable {la : LinAlg ℝ ℝ} {laD : LinAlg ℝ (Dual ℝ)} {p : PcSaftParameters n ℝ} {T : ℝ} {N : Fin n → ℝ} {t v : ℝ → ℝ}
  {w : ℝ → Fin n → ℝ} {F : ℝ × (ℝ × (Fin n → ℝ)) → ℝ} {ct : Contribution ℝ}

/-- from a representation along a line of states -/
theorem diluteContribution_of (hF : Dilute F (T, N))
    (he : ∀ T V N, V ≠ 0 → ct.helmholtzEnergy la p (StateHD.new T V N) = .ok (V * F (1 / V, (T, N))))
    (hr : ∀ᶠ V : ℝ in atTop, ContributionRel rho1 (fun x => x) la laD p p
      (fun x => StateHD.new (T + x.2 * t V) (V + x.2 * (V * v V)) (fun i => N i + x.2 * w V i)) (seededState T V N (t V) (v V) (w V)) ct) :
    DiluteContribution la laD p T N t v w F ct := by
  refine ⟨hF, ?_⟩
  filter_upwards [hr, eventually_gt_atTop 0, hF.eventually_differentiable] with V hV h0 hd
  refine ⟨he T V N h0.ne', ?_⟩
  obtain ⟨A, d, h1, h2, h3⟩ := hV
  have h2' : ct.helmholtzEnergy laD p (seededState T V N (t V) (v V) (w V)) = .ok d := by
    rw [← h2]
    cases ct <;> rfl
  rw [h2']
  obtain ⟨hre, hdA⟩ := curve_of h3
  have hA : (fun s : ℝ => A ((), s)) =ᶠ[𝓝 0]
      fun s : ℝ => (V + s * (V * v V)) * F (1 / (V + s * (V * v V)), (T, N) + s • (t V, w V)) := by
    have hc : ContinuousAt (fun s : ℝ => V + s * (V * v V)) 0 := by fun_prop
    filter_upwards [hc.eventually_ne (y := 0) (by simpa using h0.ne')] with s hs
    have := h1 ((), s)
    rw [he _ _ _ hs] at this
    simp only [Except.ok.injEq] at this
    rw [← this]
    rfl
  have e := hdA.unique ((hasDerivAt_dilute (v := v V) (η := (t V, w V)) h0.ne' hd).congr_of_eventuallyEq hA)
  have e0 : d.re = V * F (1 / V, (T, N)) := by
    have := hA.eq_of_nhds
    simp only [zero_mul, add_zero, zero_smul] at this
    rw [hre, ← this]
  congr 1
  exact Dual.ext e0 e

theorem diluteSlope_add {G : ℝ × (ℝ × (Fin n → ℝ)) → ℝ} {y0 η : ℝ × (Fin n → ℝ)} {r V : ℝ}
    (hF : DifferentiableAt ℝ F (1 / V, y0)) (hG : DifferentiableAt ℝ G (1 / V, y0)) :
    diluteSlope (fun x => F x + G x) y0 r η V = diluteSlope F y0 r η V + diluteSlope G y0 r η V := by
  unfold diluteSlope
  have e : fderiv ℝ (fun x => F x + G x) (1 / V, y0) = fderiv ℝ F (1 / V, y0) + fderiv ℝ G (1 / V, y0) :=
    (hF.hasFDerivAt.add hG.hasFDerivAt).fderiv
  rw [e, add_apply, add_apply]
  ring

theorem diluteSlope_zero {y0 η : ℝ × (Fin n → ℝ)} {r V : ℝ} : diluteSlope (fun _ => 0) y0 r η V = 0 := by
  unfold diluteSlope
  simp

/-- sums of contributions -/
theorem dilute_sum (cts : List (Contribution ℝ)) (h : ∀ ct ∈ cts, ∃ F, DiluteContribution la laD p T N t v w F ct)
    (F0 : ℝ × (ℝ × (Fin n → ℝ)) → ℝ) (hF0 : Dilute F0 (T, N)) :
    ∃ F, Dilute F (T, N) ∧ ∀ᶠ V : ℝ in atTop,
      cts.foldlM (fun acc ct =>
        match ct.helmholtzEnergy la p (StateHD.new T V N) with
        | .error err => .error err
        | .ok a => .ok (acc + a)) (V * F0 (1 / V, (T, N))) = (.ok (V * F (1 / V, (T, N))) : Except Panic ℝ)
      ∧ cts.foldlM (fun acc ct =>
        match ct.helmholtzEnergy laD p (seededState T V N (t V) (v V) (w V)) with
        | .error err => .error err
        | .ok a => .ok (acc + a)) (⟨V * F0 (1 / V, (T, N)), diluteSlope F0 (T, N) (v V) (t V, w V) V⟩ : Dual ℝ)
        = (.ok ⟨V * F (1 / V, (T, N)), diluteSlope F (T, N) (v V) (t V, w V) V⟩ : Except Panic (Dual ℝ)) := by
  induction cts generalizing F0 with
  | nil => exact ⟨F0, hF0, .of_forall fun V => ⟨rfl, rfl⟩⟩
  | cons ct cts ih =>
    obtain ⟨G, hG, hev⟩ := h ct (by simp)
    obtain ⟨F, hF, hF'⟩ := ih (fun ct' h' => h ct' (by simp [h'])) _ (hF0.add hG)
    refine ⟨F, hF, ?_⟩
    filter_upwards [hev, hF', hF0.eventually_differentiable, hG.eventually_differentiable] with V h1 h2 h3 h4
    rw [List.foldlM_cons, List.foldlM_cons, h1.1, h1.2]
    refine ⟨?_, ?_⟩
    · have := h2.1
      rw [mul_add] at this
      exact this
    · have := h2.2
      rw [mul_add, diluteSlope_add h3 h4] at this
      exact this

end

section records
variable {pr : Fin n → PureRecord ℝ} {k : Fin n → Fin n → ℝ} {T V₁ : ℝ} {N : Fin n → ℝ}

theorem seeded_rel {p : PcSaftParameters n ℝ} {V : ℝ} (h : Admissible p T V N) (t v : ℝ) (w : Fin n → ℝ) :
    StateRel rho1 (fun x => StateHD.new (T + x.2 * t) (V + x.2 * (V * v)) (fun i => N i + x.2 * w i))
      (seededState T V N t v w) :=
  StateRel.new lawfulEmb_id (rho1_seed T t) (rho1_seed V (V * v)) (fun i => rho1_seed (N i) (w i))
    (by simpa using h.volume.ne') (by simpa using h.total_pos.ne')

/-- the density the code compares with the cutoff is the density of the state without directions -/
theorem seeded_rel_density {p : PcSaftParameters n ℝ} {V t v : ℝ} {w : Fin n → ℝ} (h : Admissible p T V N) :
    DualNum.re (sumFin (seededState T V N t v w).partial_density) = ∑ i, N i / V := by
  have hr := rho1.sumFin lawfulEmb_id (seeded_rel h t v w).partial_density
  have := (curve_of hr).1
  simp only [sumFin_real, StateHD.new_density, zero_mul, add_zero] at this
  exact this

theorem seeded_contribution {V : ℝ} (la : LinAlg ℝ ℝ) (laD : LinAlg ℝ (Dual ℝ)) (h : Admissible (fromRecords pr k) T V N)
    (t v : ℝ) (w : Fin n → ℝ) (ct : Contribution ℝ) (hr : Regular (fromRecords pr k) T V N ct) :
    ContributionRel rho1 (fun x => x) la laD (fromRecords pr k) (fromRecords pr k)
      (fun x => StateHD.new (T + x.2 * t) (V + x.2 * (V * v)) (fun i => N i + x.2 * w i)) (seededState T V N t v w) ct :=
  rep_contribution (g := fun x => x) lawfulEmb_id (ParamRel.refl _) (rho1_seed T t) (rho1_seed V (V * v))
    (fun i => rho1_seed (N i) (w i)) (by simpa using h) la laD ct (by simpa using hr)

theorem phis_new (p : PcSaftParameters n ℝ) (T V : ℝ) (N : Fin n → ℝ) :
    dipolePhis p (StateHD.new T V N) = dipolePhis p (diluteState (1 / V, (T, N)))
      ∧ quadrupolePhis p (StateHD.new T V N) = quadrupolePhis p (diluteState (1 / V, (T, N)))
      ∧ ∀ v, dipoleQuadrupolePhis v p (StateHD.new T V N) = dipoleQuadrupolePhis v p (diluteState (1 / V, (T, N))) := by
  refine ⟨?_, ?_, fun v => ?_⟩ <;> simp only [dipolePhis, quadrupolePhis, dipoleQuadrupolePhis, stateEta] <;>
    rw [new_density_dilute] <;> rfl

theorem tendsto_inv_point (y : ℝ × (Fin n → ℝ)) :
    Tendsto (fun V : ℝ => ((1 / V, y) : ℝ × (ℝ × (Fin n → ℝ)))) atTop (𝓝 (0, y)) :=
  Tendsto.prodMk_nhds (tendsto_const_nhds.div_atTop tendsto_id) tendsto_const_nhds

/-- the association strength and the site fractions of a single associating component at low density -/
theorem dilute_fractions (h : Admissible (fromRecords pr k) T V₁ N) {a : Fin n} (hna : 0 < (fromRecords pr k).na a) :
    ∀ᶠ V : ℝ in atTop, stateDeltaRho (fromRecords pr k) (StateHD.new T V N) a < Real.sqrt f64EPSILON
      ∧ (0 < (fromRecords pr k).nb a →
        0 < assocSiteFracAB (stateDeltaRho (fromRecords pr k) (StateHD.new T V N) a)
          ((fromRecords pr k).na a) ((fromRecords pr k).nb a)
        ∧ 0 < (assocSiteFracAB (stateDeltaRho (fromRecords pr k) (StateHD.new T V N) a)
          ((fromRecords pr k).na a) ((fromRecords pr k).nb a) - 1)
          * ((fromRecords pr k).na a / (fromRecords pr k).nb a) + 1)
      ∧ 0 < assocSiteFracA (stateDeltaRho (fromRecords pr k) (StateHD.new T V N) a) ((fromRecords pr k).na a) := by
  have hz := deltaRho_zero (fromRecords pr k) (T, N) a
  have hd0 : ContinuousAt (fun x => stateDeltaRho (fromRecords pr k) (diluteState x) a) (0, (T, N)) :=
    (deltaRho_smooth h a).continuousAt
  have hap : Apart ((0 : ℝ), (T, N)) (stateDeltaRho (fromRecords pr k) (diluteState (0, (T, N))) a)
      (Real.sqrt f64EPSILON) := Or.inl (by rw [hz]; exact sqrtEps_pos.ne)
  have e1 : ∀ᶠ V : ℝ in atTop, stateDeltaRho (fromRecords pr k) (diluteState (1 / V, (T, N))) a
      < Real.sqrt f64EPSILON :=
    (hd0.tendsto.comp (tendsto_inv_point (T, N))).eventually (gt_mem_nhds (by rw [hz]; exact sqrtEps_pos))
  have e2 : ∀ᶠ V : ℝ in atTop, 0 < (fromRecords pr k).nb a →
      0 < assocSiteFracAB (stateDeltaRho (fromRecords pr k) (diluteState (1 / V, (T, N))) a)
        ((fromRecords pr k).na a) ((fromRecords pr k).nb a)
      ∧ 0 < (assocSiteFracAB (stateDeltaRho (fromRecords pr k) (diluteState (1 / V, (T, N))) a)
        ((fromRecords pr k).na a) ((fromRecords pr k).nb a) - 1)
        * ((fromRecords pr k).na a / (fromRecords pr k).nb a) + 1 := by
    by_cases hnb : 0 < (fromRecords pr k).nb a
    · have hc : ContinuousAt (fun x => assocSiteFracAB (stateDeltaRho (fromRecords pr k) (diluteState x) a)
          ((fromRecords pr k).na a) ((fromRecords pr k).nb a)) (0, (T, N)) :=
        (rep_assocSiteFracAB lawfulEmb_id (ρ := repSmooth ((0 : ℝ), (T, N)))
          (dr := fun x => stateDeltaRho (fromRecords pr k) (diluteState x) a) ⟨deltaRho_smooth h a, rfl⟩
          (na' := (fromRecords pr k).na a) (nb' := (fromRecords pr k).nb a) rfl rfl hna hnb hap).1.continuousAt
      have hl1 := hc.tendsto.comp (tendsto_inv_point (T, N))
      rw [hz, (frac_zero _ _).1] at hl1
      have hl2 := ((hl1.sub_const 1).mul_const
        ((fromRecords pr k).na a / (fromRecords pr k).nb a)).add_const 1
      rw [sub_self, zero_mul, zero_add] at hl2
      filter_upwards [hl1.eventually (lt_mem_nhds one_pos), hl2.eventually (lt_mem_nhds one_pos)] with V g1 g2
      exact fun _ => ⟨g1, g2⟩
    · exact .of_forall fun V hh => absurd hh hnb
  have e3 : ∀ᶠ V : ℝ in atTop,
      0 < assocSiteFracA (stateDeltaRho (fromRecords pr k) (diluteState (1 / V, (T, N))) a)
        ((fromRecords pr k).na a) := by
    have hc : ContinuousAt (fun x => assocSiteFracA (stateDeltaRho (fromRecords pr k) (diluteState x) a)
        ((fromRecords pr k).na a)) (0, (T, N)) :=
      (rep_assocSiteFracA lawfulEmb_id (ρ := repSmooth ((0 : ℝ), (T, N)))
        (dr := fun x => stateDeltaRho (fromRecords pr k) (diluteState x) a) ⟨deltaRho_smooth h a, rfl⟩
        (na' := (fromRecords pr k).na a) rfl hna hap).1.continuousAt
    have hl1 := hc.tendsto.comp (tendsto_inv_point (T, N))
    rw [hz, (frac_zero _ 0).2] at hl1
    exact hl1.eventually (lt_mem_nhds one_pos)
  filter_upwards [e1, e2, e3] with V g1 g2 g3
  have ed : stateDeltaRho (fromRecords pr k) (StateHD.new T V N) a
      = stateDeltaRho (fromRecords pr k) (diluteState (1 / V, (T, N))) a := by
    simp only [stateDeltaRho, stateEta]
    rw [new_density_dilute]
    rfl
  rw [← ed] at g1 g2 g3
  exact ⟨g1, g2, g3⟩

/-- every contribution has an ideal gas limit -/
theorem dilute_contribution (la : LinAlg ℝ ℝ) (laD : LinAlg ℝ (Dual ℝ)) (h : Admissible (fromRecords pr k) T V₁ N)
    (t v : ℝ → ℝ) (w : ℝ → Fin n → ℝ) (ct : Contribution ℝ) (hr : DiluteRegular (fromRecords pr k) T N ct) :
    ∃ F, DiluteContribution la laD (fromRecords pr k) T N t v w F ct := by
  have hadm : ∀ᶠ V : ℝ in atTop, Admissible (fromRecords pr k) T V N :=
    (eventually_ge_atTop V₁).mono fun V hV => Admissible.expand h hV
  cases ct with
  | hardSphere =>
    exact ⟨_, diluteContribution_of (hardSphere_dilute h) (fun T V N _ => congrArg Except.ok (hardSphere_new _ T V N))
      (hadm.mono fun V hV => seeded_contribution la laD hV (t V) (v V) (w V) _ trivial)⟩
  | hardChain =>
    exact ⟨_, diluteContribution_of (hardChain_dilute h) (fun T V N _ => congrArg Except.ok (hardChain_new _ T V N))
      (hadm.mono fun V hV => seeded_contribution la laD hV (t V) (v V) (w V) _ trivial)⟩
  | dispersion =>
    exact ⟨_, diluteContribution_of (dispersion_dilute h) (fun T V N _ => congrArg Except.ok (dispersion_new _ T V N))
      (hadm.mono fun V hV => seeded_contribution la laD hV (t V) (v V) (w V) _ trivial)⟩
  | dipole =>
    obtain ⟨a, b, ha, hb, hne, e⟩ := dipole_split h hr
    refine ⟨_, diluteContribution_of (dipole_dilute h hr) (fun T V N _ => congrArg Except.ok (dipole_new _ T V N)) ?_⟩
    filter_upwards [hadm, eventually_ne ha hb hne] with V hV hV'
    refine seeded_contribution la laD hV (t V) (v V) (w V) _ ?_
    change (dipolePhis _ _).1 ≠ (dipolePhis _ _).2
    rw [(phis_new _ T V N).1, e]
    exact hV'
  | quadrupole =>
    obtain ⟨a, b, ha, hb, hne, e⟩ := quadrupole_split h hr
    refine ⟨_, diluteContribution_of (quadrupole_dilute h hr)
      (fun T V N _ => congrArg Except.ok (quadrupole_new _ T V N)) ?_⟩
    filter_upwards [hadm, eventually_ne ha hb hne] with V hV hV'
    refine seeded_contribution la laD hV (t V) (v V) (w V) _ ?_
    change (quadrupolePhis _ _).1 ≠ (quadrupolePhis _ _).2
    rw [(phis_new _ T V N).2.1, e]
    exact hV'
  | dipoleQuadrupole dq =>
    obtain ⟨a, b, ha, hb, hne, e⟩ := dipoleQuadrupole_split dq h hr
    refine ⟨_, diluteContribution_of (dipoleQuadrupole_dilute dq h hr)
      (fun T V N _ => congrArg Except.ok (dipoleQuadrupole_new dq _ T V N)) ?_⟩
    filter_upwards [hadm, eventually_ne ha hb hne] with V hV hV'
    refine seeded_contribution la laD hV (t V) (v V) (w V) _ ?_
    change (dipoleQuadrupolePhis dq _ _).1 ≠ (dipoleQuadrupolePhis dq _ _).2
    rw [(phis_new _ T V N).2.2, e]
    exact hV'
  | association =>
    obtain ⟨a, hl, hna⟩ := hr
    refine ⟨_, diluteContribution_of (association_dilute h hna) (fun T V N hV => association_new _ hl T V N hV) ?_⟩
    filter_upwards [hadm, dilute_fractions h hna] with V hV ⟨g1, g2, g3⟩
    obtain ⟨A, d, h1, h2, h3⟩ := rep_association lawfulEmb_id (ParamRel.refl _) (seeded_rel hV (t V) (v V) (w V))
      (by simpa [StateHD.new] using hV.temperature.ne') (by simpa using (stateEta_lt_one hV).ne) a [] hl
      (by simpa [StateHD.new] using (hV.diameter_pos a).ne') hna (Or.inl (by simpa using g1.ne)) (by simpa using fun hh => (g2 hh).1)
      (by simpa using fun hh => (g2 hh).2) (by simpa using fun _ => g3)
    exact ⟨A, d, h1, h2, h3⟩
  | crossAssociation it tol =>
    refine ⟨fun _ => 0, dilute_zero, ?_⟩
    have hs : Tendsto (fun V : ℝ => ∑ i, N i / V) atTop (𝓝 (∑ _i : Fin n, 0)) :=
      tendsto_finsetSum _ fun i _ => tendsto_const_nhds.div_atTop tendsto_id
    rw [Finset.sum_const_zero] at hs
    filter_upwards [hadm, hs.eventually (gt_mem_nhds (show (0 : ℝ) < f64EPSILON by norm_num [f64EPSILON]))] with V hA hV
    have e0 : (0.0 : ℝ) = 0 := by norm_num
    have h1 : F64.lt (DualNum.re (sumFin (StateHD.new T V N).partial_density)) (f64EPSILON : ℝ) = true := by
      simp only [sumFin_real, re_real, lt_real, decide_eq_true_eq, StateHD.new_density]
      exact hV
    have h2 : F64.lt (DualNum.re (sumFin (seededState T V N (t V) (v V) (w V)).partial_density)) (f64EPSILON : ℝ) = true := by
      have e : DualNum.re (sumFin (seededState T V N (t V) (v V) (w V)).partial_density) = ∑ i, N i / V := by
        have := (seeded_rel_density (t := t V) (v := v V) (w := w V) hA)
        exact this
      rw [e, lt_real, decide_eq_true_eq]
      exact hV
    refine ⟨?_, ?_⟩
    · simp only [Contribution.helmholtzEnergy, crossAssociation, crossAssociationDensity, h1, if_true, c, ofF_real, e0,
        zero_mul, mul_zero]
    · simp only [Contribution.helmholtzEnergy, crossAssociation, crossAssociationDensity, h2, if_true,
        mul_zero, diluteSlope_zero]
      congr 1
      refine Dual.ext ?_ ?_
      · change (0.0 : ℝ) * V = 0
        rw [e0, zero_mul]
      · change (0.0 : ℝ) * V + V * v V * (0.0 : ℝ) = 0
        rw [e0]
        ring

/-- the residual energy and its derivative for large volumes -/
theorem dilute_residual (la : LinAlg ℝ ℝ) (laD : LinAlg ℝ (Dual ℝ)) (h : Admissible (fromRecords pr k) T V₁ N)
    (o : PcSaftOptions ℝ) (hr : ∀ ct ∈ buildContributions (fromRecords pr k) o, DiluteRegular (fromRecords pr k) T N ct)
    (t v : ℝ → ℝ) (w : ℝ → Fin n → ℝ) :
    ∃ F, Dilute F (T, N) ∧ ∀ᶠ V : ℝ in atTop,
      (Eos.withOptions (fromRecords pr k) o).residualHelmholtz la (StateHD.new T V N) = .ok (V * F (1 / V, (T, N)))
      ∧ (Eos.withOptions (fromRecords pr k) o).residualHelmholtz laD (seededState T V N (t V) (v V) (w V))
        = .ok ⟨V * F (1 / V, (T, N)), diluteSlope F (T, N) (v V) (t V, w V) V⟩ := by
  obtain ⟨F, hF, hev⟩ := dilute_sum (la := la) (laD := laD) (p := fromRecords pr k) (t := t) (v := v) (w := w)
    (buildContributions (fromRecords pr k) o) (fun ct hct => dilute_contribution la laD h t v w ct (hr ct hct))
    (fun _ => 0) dilute_zero
  refine ⟨F, hF, hev.mono fun V hV => ?_⟩
  have e0 : (0.0 : ℝ) = 0 := by norm_num
  have ec : (c (0.0 : ℝ) : ℝ) = V * 0 := by rw [mul_zero]; exact e0
  have ed : (c (0.0 : ℝ) : Dual ℝ) = ⟨V * 0, diluteSlope (fun _ => 0) (T, N) (v V) (t V, w V) V⟩ := by
    rw [diluteSlope_zero, mul_zero]
    exact Dual.ext e0 e0
  refine ⟨?_, ?_⟩
  · rw [← hV.1, ← ec]
    exact congrArg (fun f => List.foldlM f _ _) (by
      funext acc ct
      simp only [Eos.withOptions]
      cases ct.helmholtzEnergy la (fromRecords pr k) (StateHD.new T V N) <;> rfl)
  · rw [← hV.2, ← ed]
    exact congrArg (fun f => List.foldlM f _ _) (by
      funext acc ct
      simp only [Eos.withOptions]
      cases ct.helmholtzEnergy laD (fromRecords pr k) (seededState T V N (t V) (v V) (w V)) <;> rfl)

/-- C22: the residual energy vanishes in the limit of large volumes, at any temperature and for any amounts, whatever
contributions the mixture has and whatever the solver options. -/
theorem C22_limit (la : LinAlg ℝ ℝ) (h : Admissible (fromRecords pr k) T V₁ N) (o : PcSaftOptions ℝ)
    (hr : ∀ ct ∈ buildContributions (fromRecords pr k) o, DiluteRegular (fromRecords pr k) T N ct) {ε : ℝ} (hε : 0 < ε) :
    ∃ V₀, ∀ V, V₀ ≤ V → ∃ a,
      (Eos.withOptions (fromRecords pr k) o).residualHelmholtz la (StateHD.new T V N) = .ok a ∧ |a| ≤ ε := by
  obtain ⟨F, hF, hev⟩ := dilute_residual la (⟨fun _ _ _ => none, fun _ _ _ => none, 0⟩) h o hr (fun _ => 0) (fun _ => 0) (fun _ => 0)
  have h0 := hF.tendsto.eventually (Metric.closedBall_mem_nhds (0 : ℝ) hε)
  obtain ⟨V₀, hV⟩ := eventually_atTop.1 (hev.and h0)
  refine ⟨V₀, fun V hV' => ⟨_, (hV V hV').1.1, ?_⟩⟩
  have := (hV V hV').2
  rwa [Real.dist_eq, sub_zero] at this

/-- C81: a dual number evaluation at large volume, in any direction of temperature, relative volume and amounts: value
and derivative vanish in the limit. -/
theorem C81_first (laD : LinAlg ℝ (Dual ℝ)) (h : Admissible (fromRecords pr k) T V₁ N) (o : PcSaftOptions ℝ)
    (hr : ∀ ct ∈ buildContributions (fromRecords pr k) o, DiluteRegular (fromRecords pr k) T N ct)
    (t v : ℝ) (w : Fin n → ℝ) {ε : ℝ} (hε : 0 < ε) :
    ∃ V₀, ∀ V, V₀ ≤ V → ∃ d : Dual ℝ,
      (Eos.withOptions (fromRecords pr k) o).residualHelmholtz laD
        (StateHD.new ⟨T, t⟩ ⟨V, V * v⟩ (fun i => ⟨N i, w i⟩)) = .ok d ∧ |d.re| ≤ ε ∧ |d.eps| ≤ ε := by
  obtain ⟨F, hF, hev⟩ := dilute_residual ⟨fun _ _ _ => none, fun _ _ _ => none, 0⟩ laD h o hr (fun _ => t) (fun _ => v)
    (fun _ => w)
  have h0 := hF.tendsto.eventually (Metric.closedBall_mem_nhds (0 : ℝ) hε)
  have h1 := (hF.tendsto_slope (v := v) (η := (t, w))).eventually (Metric.closedBall_mem_nhds (0 : ℝ) hε)
  obtain ⟨V₀, hV⟩ := eventually_atTop.1 (hev.and (h0.and h1))
  refine ⟨V₀, fun V hV' => ⟨_, (hV V hV').1.2, ?_, ?_⟩⟩
  · have := (hV V hV').2.1
    rwa [Real.dist_eq, sub_zero] at this
  · have := (hV V hV').2.2
    rwa [Real.dist_eq, sub_zero] at this

/-- C81: the compressibility factor tends to one: the code's pressure `-∂A/∂V` (reduced) times the volume vanishes. -/
theorem C81_pressure (laD : LinAlg ℝ (Dual ℝ)) (h : Admissible (fromRecords pr k) T V₁ N) (o : PcSaftOptions ℝ)
    (hr : ∀ ct ∈ buildContributions (fromRecords pr k) o, DiluteRegular (fromRecords pr k) T N ct) {ε : ℝ} (hε : 0 < ε) :
    ∃ V₀, ∀ V, V₀ ≤ V → ∃ d : Dual ℝ,
      (Eos.withOptions (fromRecords pr k) o).residualHelmholtz laD
        (StateHD.new ⟨T, 0⟩ ⟨V, 1⟩ (fun i => ⟨N i, 0⟩)) = .ok d ∧ |V * d.eps| ≤ ε := by
  obtain ⟨F, hF, hev⟩ := dilute_residual ⟨fun _ _ _ => none, fun _ _ _ => none, 0⟩ laD h o hr (fun _ => 0)
    (fun V => 1 / V) (fun _ => 0)
  have h1 := (hF.tendsto_slope (v := 1) (η := (0, 0))).eventually (Metric.closedBall_mem_nhds (0 : ℝ) hε)
  obtain ⟨V₀, hV⟩ := eventually_atTop.1 (hev.and (h1.and (eventually_gt_atTop 0)))
  refine ⟨V₀, fun V hV' => ?_⟩
  obtain ⟨⟨-, g1⟩, g2, g3⟩ := hV V hV'
  refine ⟨⟨V * F (1 / V, (T, N)), diluteSlope F (T, N) (1 / V) (0, 0) V⟩, ?_, ?_⟩
  · have e : V * (1 / V) = 1 := mul_one_div_cancel g3.ne'
    rw [seededState, e] at g1
    exact g1
  · have e : V * diluteSlope F (T, N) (1 / V) (0, 0) V = diluteSlope F (T, N) 1 (0, 0) V := by
      have e2 : fderiv ℝ F (1 / V, (T, N)) (0, ((0 : ℝ), (0 : Fin n → ℝ))) = 0 :=
        (fderiv ℝ F (1 / V, (T, N))).map_zero
      unfold diluteSlope
      rw [e2]
      field_simp
      ring
    change |V * diluteSlope F (T, N) (1 / V) (0, 0) V| ≤ ε
    rw [e]
    change dist _ _ ≤ _ at g2
    rwa [Real.dist_eq, sub_zero] at g2

end records

/-! ## Cases that meet the hypotheses -/

theorem assocRecords_dilute (o : PcSaftOptions ℝ) :
    ∀ ct ∈ buildContributions (fromRecords assocRecords (fun _ _ => 0)) o,
      DiluteRegular (fromRecords assocRecords (fun _ _ => 0)) 300 (fun _ => 1) ct := by
  intro ct hct
  simp only [buildContributions, PcSaftParameters.ndipole, PcSaftParameters.nquadpole, PcSaftParameters.nassoc,
    assocRecords_comp, assocRecords_dipole, assocRecords_quadrupole] at hct
  simp at hct
  rcases hct with rfl | rfl | rfl | rfl
  · trivial
  · trivial
  · trivial
  · exact ⟨0, assocRecords_comp, by norm_num [fromRecords, assocRecords]⟩

/-- a mixture with one associating component -/
example (la : LinAlg ℝ ℝ) (laD : LinAlg ℝ (Dual ℝ)) (t v : ℝ) (w : Fin 2 → ℝ) {ε : ℝ} (hε : 0 < ε) :=
  And.intro (C22_limit la assocRecords_admissible PcSaftOptions.default (assocRecords_dilute _) hε)
    (And.intro (C81_first laD assocRecords_admissible PcSaftOptions.default (assocRecords_dilute _) t v w hε)
      (C81_pressure laD assocRecords_admissible PcSaftOptions.default (assocRecords_dilute _) hε))

/-- two associating components: polar contributions are absent, cross association needs no condition -/
theorem twinRecords_dilute {K : ℝ} (hK : 0 < K) (o : PcSaftOptions ℝ) (T : ℝ) (N : Fin 2 → ℝ) :
    ∀ ct ∈ buildContributions (fromRecords (twinRecords K) (fun _ _ => 0)) o,
      DiluteRegular (fromRecords (twinRecords K) (fun _ _ => 0)) T N ct := by
  have e0 : (0.0 : ℝ) = 0 := by norm_num
  have hd : (fromRecords (twinRecords K) (fun _ _ => 0)).dipole_comp = [] := by
    change nonzeroComp _ = []
    simp [nonzeroComp, twinRecords, e0]
  have hq : (fromRecords (twinRecords K) (fun _ _ => 0)).quadpole_comp = [] := by
    change nonzeroComp _ = []
    simp [nonzeroComp, twinRecords, e0]
  intro ct hct
  simp only [buildContributions, PcSaftParameters.ndipole, PcSaftParameters.nquadpole, PcSaftParameters.nassoc,
    twinRecords_comp hK, hd, hq] at hct
  simp at hct
  rcases hct with rfl | rfl | rfl | rfl <;> trivial

example (la : LinAlg ℝ ℝ) (laD : LinAlg ℝ (Dual ℝ)) {K : ℝ} (hK : 0 < K) (t v : ℝ) (w : Fin 2 → ℝ) {ε : ℝ} (hε : 0 < ε) :=
  have hA := twinRecords_admissible K (fun _ _ => 0) (V := 1000) (by norm_num)
  And.intro (C22_limit la hA PcSaftOptions.default (twinRecords_dilute hK _ _ _) hε)
    (C81_first laD hA PcSaftOptions.default (twinRecords_dilute hK _ _ _) t v w hε)

/-- all three polar contributions -/
theorem polarSphere_dilute (o : PcSaftOptions ℝ) :
    ∀ ct ∈ buildContributions (fromRecords polarSphere (fun _ _ => 0)) o,
      DiluteRegular (fromRecords polarSphere (fun _ _ => 0)) 100 (fun _ => 1) ct := by
  have hok := polarOk_fromRecords polarSphere (fun _ _ => 0) (fun i => (polarSphere_positive.m i).le)
  obtain ⟨s1, s2⟩ := polarSphere_strength
  have h100 : (100 : ℝ) ≠ 0 := by norm_num
  have hm := (polarSphere_positive.m 0).ne'
  have hs := (polarSphere_positive.sigma 0).ne'
  have he := (polarSphere_positive.epsilon 0).ne'
  have t1 := dipoleTerm_theory polarSphere (fun _ _ => 0) 100 0 hm hs he h100
  have t2 := quadrupoleTerm_theory polarSphere (fun _ _ => 0) 100 0 hm hs he h100
  have t3 := muTerm_theory polarSphere (fun _ _ => 0) 100 0 hm hs he h100
  have t4 := qTerm_theory polarSphere (fun _ _ => 0) 100 0 hm hs he h100
  have hsig : (fromRecords polarSphere (fun _ _ => 0)).sigma 0 = 3 := rfl
  have hsig' : (fluidOf polarSphere (fun _ _ => 0)).sigma 0 = 3 := rfl
  have j5 : ∀ a b : Fin 5 → Fin 3 → ℝ, ∑ r : Fin 5, (a r 0 + b r 0) * (0 : ℝ) ^ (r : ℕ) = a 0 0 + b 0 0 := by
    intro a b
    simp [Fin.sum_univ_five]
  have j4 : ∀ a b : Fin 4 → Fin 3 → ℝ, ∑ r : Fin 4, (a r 0 + b r 0) * (0 : ℝ) ^ (r : ℕ) = a 0 0 + b 0 0 := by
    intro a b
    simp [Fin.sum_univ_four]
  have c1 : (AD 0 0 : ℝ) + BD 0 0 ≠ 0 := by norm_num [AD, BD]
  have c2 : (AQ 0 0 : ℝ) + BQ 0 0 ≠ 0 := by norm_num [AQ, BQ]
  have c3 : (ADQ 0 0 : ℝ) + BDQ 0 0 ≠ 0 := by norm_num [ADQ, BDQ]
  have hassoc : (fromRecords polarSphere (fun _ _ => 0)).nassoc = 0 := by
    have : (fromRecords polarSphere (fun _ _ => 0)).assoc_comp = [] := by
      change nonzeroComp _ = []
      have e0 : (0.0 : ℝ) = 0 := by norm_num
      simp [nonzeroComp, polarSphere, e0]
    rw [PcSaftParameters.nassoc, this]
    rfl
  intro ct hct
  cases ct with
  | dipole =>
    change dipolePhi2 _ _ _ _ ≠ 0
    rw [dipolePhi2_real hok]
    simp only [Finset.univ_unique, Fin.default_eq_zero, Finset.sum_singleton, dipK2, t1, pairI_theory, sigmaIJ_theory,
      polarSphere_sigmaIJ, polarSphere_j2, j5]
    simp [s1.ne', c1]
  | quadrupole =>
    change quadrupolePhi2 _ _ _ _ ≠ 0
    rw [quadrupolePhi2_real hok]
    simp only [Finset.univ_unique, Fin.default_eq_zero, Finset.sum_singleton, quadK2, t2, pairI_theory, min_self, hsig,
      polarSphere_j2, j5]
    simp [s2.ne', c2]
  | dipoleQuadrupole v =>
    change dipoleQuadrupolePhi2 _ _ _ _ _ ≠ 0
    rw [dipoleQuadrupolePhi2_real hok]
    cases v <;>
    · simp only [Finset.univ_unique, Fin.default_eq_zero, Finset.sum_singleton, dqK2, muQTerm, t3, t4, pairI_theory,
        sigmaIJ_theory, polarSphere_sigmaIJ, polarSphere_j2, j4, hsig, hsig']
      simp [s1.ne', s2.ne', c3]
  | association =>
    simp [buildContributions, hassoc] at hct
  | _ => trivial

example (la : LinAlg ℝ ℝ) (laD : LinAlg ℝ (Dual ℝ)) (t v : ℝ) (w : Fin 1 → ℝ) {ε : ℝ} (hε : 0 < ε) :=
  And.intro (C22_limit la polarSphere_admissible PcSaftOptions.default (polarSphere_dilute _) hε)
    (C81_first laD polarSphere_admissible PcSaftOptions.default (polarSphere_dilute _) t v w hε)

end Props
end PcSaft
