import Verif.Lemmas.DiluteSecond
import Verif.Props.DiluteLimit
import Verif.Props.Thermodynamics

/-!
# Properties C81 and C107: second derivatives of the residual energy at low density, stability of dilute mixtures
-/

open Filter Topology
open scoped ContDiff

namespace PcSaft

/-- energy of an ideal gas mixture at constant temperature, divided by `k_B T`, up to terms linear in the amounts -/
noncomputable def Spec.idealMixing {n : ℕ} (V : ℝ) (N : Fin n → ℝ) : ℝ := ∑ i, N i * (Real.log (N i / V) - 1)

/-- curvature of the energy of an ideal gas mixture when the volume changes by `v` and the amounts by `w` -/
noncomputable def Spec.idealCurvature {n : ℕ} (V : ℝ) (N : Fin n → ℝ) (v : ℝ) (w : Fin n → ℝ) : ℝ :=
  ∑ i, N i * (w i / N i - v / V) ^ 2

namespace Props
open PcSaft Spec
variable {n : ℕ}

/-- one contribution for large volumes, for every kind of number: what the code computes stands for one and the same
function of the inverse volume, the temperature and the amounts -/
def DiluteRep (p : PcSaftParameters n ℝ) (T : ℝ) (N : Fin n → ℝ) (F : ℝ × (ℝ × (Fin n → ℝ)) → ℝ)
    (ct : Contribution ℝ) : Prop :=
  Dilute F (T, N) ∧ DiluteIntensive F ∧ ∀ᶠ V : ℝ in atTop,
    (∀ (la : LinAlg ℝ ℝ) (T' : ℝ), ct.helmholtzEnergy la p (StateHD.new T' V N) = .ok (V * F (1 / V, (T', N))))
    ∧ ∀ (X D : Type) (_ : TopologicalSpace X) (_ : DualNum ℝ D)
    (x0 : X) (ρ : Rep x0 Same D) (Tf Vf : X → ℝ) (Nf : Fin n → X → ℝ) (Td Vd : D) (Nd : Fin n → D),
    ρ.R Tf Td → ρ.R Vf Vd → (∀ i, ρ.R (Nf i) (Nd i)) → Tf x0 = T → Vf x0 = V → (fun i => Nf i x0) = N →
    ∀ laD : LinAlg ℝ D, ∃ d : D, ct.helmholtzEnergy laD p (StateHD.new Td Vd Nd) = .ok d
      ∧ ρ.R (fun x => Vf x * F (1 / Vf x, (Tf x, fun i => Nf i x))) d

section records
variable {pr : Fin n → PureRecord ℝ} {k : Fin n → Fin n → ℝ} {T V₁ : ℝ} {N : Fin n → ℝ}
  {F : ℝ × (ℝ × (Fin n → ℝ)) → ℝ} {ct : Contribution ℝ}

theorem intensive_of {p : PcSaftParameters n ℝ}
    (he : ∀ T V N, V ≠ 0 → ct.helmholtzEnergy noSolver p (StateHD.new T V N) = .ok (V * F (1 / V, (T, N)))) :
    DiluteIntensive F := by
  intro V T l N hV hl
  have h1 := C14_contribution_extensive noSolver p ct T V N l hl
  rw [he _ _ _ (mul_ne_zero hl.ne' hV), he _ _ _ hV] at h1
  have h2 := Except.ok.inj h1
  have h3 : l * V * (F (1 / (l * V), (T, fun i => l * N i)) - F (1 / V, (T, N))) = 0 := by linarith
  rcases mul_eq_zero.1 h3 with h | h
  · exact absurd h (mul_ne_zero hl.ne' hV)
  · linarith

theorem diluteRep_of {p : PcSaftParameters n ℝ} (hF : Dilute F (T, N))
    (he : ∀ la T V N, V ≠ 0 → ct.helmholtzEnergy la p (StateHD.new T V N) = .ok (V * F (1 / V, (T, N))))
    (hr : ∀ᶠ V : ℝ in atTop, ∀ (X D : Type) (_ : TopologicalSpace X) (_ : DualNum ℝ D)
      (x0 : X) (ρ : Rep x0 Same D) (Tf Vf : X → ℝ) (Nf : Fin n → X → ℝ) (Td Vd : D) (Nd : Fin n → D),
      ρ.R Tf Td → ρ.R Vf Vd → (∀ i, ρ.R (Nf i) (Nd i)) → Tf x0 = T → Vf x0 = V → (fun i => Nf i x0) = N →
      ∀ laD : LinAlg ℝ D, ContributionRel ρ (fun x => x) noSolver laD p p
        (fun x => StateHD.new (Tf x) (Vf x) (fun i => Nf i x)) (StateHD.new Td Vd Nd) ct) :
    DiluteRep p T N F ct := by
  refine ⟨hF, intensive_of (he noSolver), ?_⟩
  filter_upwards [hr, eventually_gt_atTop 0] with V hV h0
  refine ⟨fun la T' => he la T' V N h0.ne', ?_⟩
  intro X D _ _ x0 ρ Tf Vf Nf Td Vd Nd g1 g2 g3 e1 e2 e3 laD
  obtain ⟨A, d, h1, h2, h3⟩ := hV X D _ _ x0 ρ Tf Vf Nf Td Vd Nd g1 g2 g3 e1 e2 e3 laD
  refine ⟨d, ?_, ρ.congr h3 ?_⟩
  · rw [← h2]
    cases ct <;> rfl
  · filter_upwards [(ρ.continuousAt g2).eventually_ne (y := 0) (by rw [e2]; exact h0.ne')] with x hx
    exact Except.ok.inj ((h1 x).symm.trans (he _ _ _ _ hx))

/-- every contribution is represented at low density -/
theorem dilute_rep (h : Admissible (fromRecords pr k) T V₁ N) (ct : Contribution ℝ)
    (hr : DiluteRegular (fromRecords pr k) T N ct) : ∃ F, DiluteRep (fromRecords pr k) T N F ct := by
  have hadm : ∀ᶠ V : ℝ in atTop, Admissible (fromRecords pr k) T V N :=
    (eventually_ge_atTop V₁).mono fun V hV => Admissible.expand h hV
  have key : ∀ (ct : Contribution ℝ) (V : ℝ), Admissible (fromRecords pr k) T V N → Regular (fromRecords pr k) T V N ct →
      ∀ (X D : Type) (_ : TopologicalSpace X) (_ : DualNum ℝ D)
      (x0 : X) (ρ : Rep x0 Same D) (Tf Vf : X → ℝ) (Nf : Fin n → X → ℝ) (Td Vd : D) (Nd : Fin n → D),
      ρ.R Tf Td → ρ.R Vf Vd → (∀ i, ρ.R (Nf i) (Nd i)) → Tf x0 = T → Vf x0 = V → (fun i => Nf i x0) = N →
      ∀ laD : LinAlg ℝ D, ContributionRel ρ (fun x => x) noSolver laD (fromRecords pr k) (fromRecords pr k)
        (fun x => StateHD.new (Tf x) (Vf x) (fun i => Nf i x)) (StateHD.new Td Vd Nd) ct := by
    intro ct V hA hR X D _ _ x0 ρ Tf Vf Nf Td Vd Nd g1 g2 g3 e1 e2 e3 laD
    exact rep_contribution (g := fun x => x) lawfulEmb_id (ParamRel.refl _) g1 g2 g3 (by rw [e1, e2, e3]; exact hA)
      noSolver laD ct (by rw [e1, e2, e3]; exact hR)
  cases ct with
  | hardSphere =>
    exact ⟨_, diluteRep_of (hardSphere_dilute h) (fun _ T V N _ => congrArg Except.ok (hardSphere_new _ T V N))
      (hadm.mono fun V hV => key .hardSphere V hV trivial)⟩
  | hardChain =>
    exact ⟨_, diluteRep_of (hardChain_dilute h) (fun _ T V N _ => congrArg Except.ok (hardChain_new _ T V N))
      (hadm.mono fun V hV => key .hardChain V hV trivial)⟩
  | dispersion =>
    exact ⟨_, diluteRep_of (dispersion_dilute h) (fun _ T V N _ => congrArg Except.ok (dispersion_new _ T V N))
      (hadm.mono fun V hV => key .dispersion V hV trivial)⟩
  | dipole =>
    obtain ⟨a, b, ha, hb, hne, e⟩ := dipole_split h hr
    refine ⟨_, diluteRep_of (dipole_dilute h hr) (fun _ T V N _ => congrArg Except.ok (dipole_new _ T V N)) ?_⟩
    filter_upwards [hadm, eventually_ne ha hb hne] with V hV hV'
    refine key .dipole V hV ?_
    change (dipolePhis _ _).1 ≠ (dipolePhis _ _).2
    rw [(phis_new _ T V N).1, e]
    exact hV'
  | quadrupole =>
    obtain ⟨a, b, ha, hb, hne, e⟩ := quadrupole_split h hr
    refine ⟨_, diluteRep_of (quadrupole_dilute h hr)
      (fun _ T V N _ => congrArg Except.ok (quadrupole_new _ T V N)) ?_⟩
    filter_upwards [hadm, eventually_ne ha hb hne] with V hV hV'
    refine key .quadrupole V hV ?_
    change (quadrupolePhis _ _).1 ≠ (quadrupolePhis _ _).2
    rw [(phis_new _ T V N).2.1, e]
    exact hV'
  | dipoleQuadrupole dq =>
    obtain ⟨a, b, ha, hb, hne, e⟩ := dipoleQuadrupole_split dq h hr
    refine ⟨_, diluteRep_of (dipoleQuadrupole_dilute dq h hr)
      (fun _ T V N _ => congrArg Except.ok (dipoleQuadrupole_new dq _ T V N)) ?_⟩
    filter_upwards [hadm, eventually_ne ha hb hne] with V hV hV'
    refine key (.dipoleQuadrupole dq) V hV ?_
    change (dipoleQuadrupolePhis dq _ _).1 ≠ (dipoleQuadrupolePhis dq _ _).2
    rw [(phis_new _ T V N).2.2, e]
    exact hV'
  | association =>
    obtain ⟨a, hl, hna⟩ := hr
    refine ⟨_, diluteRep_of (association_dilute h hna) (fun _ T V N hV => association_new _ hl T V N hV) ?_⟩
    filter_upwards [hadm, dilute_fractions h hna] with V hV g X D _ _ x0 ρ Tf Vf Nf Td Vd Nd g1 g2 g3 e1 e2 e3 laD
    obtain ⟨f1, f2, f3⟩ := g
    subst e1 e2 e3
    exact rep_association lawfulEmb_id (ParamRel.refl _)
      (StateRel.new lawfulEmb_id g1 g2 g3 hV.volume.ne' hV.total_pos.ne') hV.temperature.ne'
      (stateEta_lt_one hV).ne a [] hl (hV.diameter_pos a).ne' hna (Or.inl f1.ne) (fun hh => (f2 hh).1)
      (fun hh => (f2 hh).2) (fun _ => f3)
  | crossAssociation it tol =>
    refine ⟨fun _ => 0, dilute_zero, fun _ _ _ _ _ _ => rfl, ?_⟩
    have hs : Tendsto (fun V : ℝ => ∑ i, N i / V) atTop (𝓝 (∑ _i : Fin n, 0)) :=
      tendsto_finsetSum _ fun i _ => tendsto_const_nhds.div_atTop tendsto_id
    rw [Finset.sum_const_zero] at hs
    filter_upwards [hadm, hs.eventually (gt_mem_nhds (show (0 : ℝ) < f64EPSILON by norm_num [f64EPSILON]))]
      with V hA hV
    refine ⟨fun la T' => ?_, ?_⟩
    · have h2 : F64.lt (DualNum.re (sumFin (StateHD.new T' V N).partial_density)) (f64EPSILON : ℝ) = true := by
        rw [sumFin_real, re_real, lt_real, decide_eq_true_eq]
        simpa only [StateHD.new_density] using hV
      simp only [Contribution.helmholtzEnergy, crossAssociation, crossAssociationDensity, h2, if_true]
      norm_num [c]
    intro X D _ _ x0 ρ Tf Vf Nf Td Vd Nd g1 g2 g3 e1 e2 e3 laD
    subst e1 e2 e3
    have hst := StateRel.new lawfulEmb_id g1 g2 g3 hA.volume.ne' hA.total_pos.ne'
    have h2 : F64.lt (DualNum.re (sumFin (StateHD.new Td Vd Nd).partial_density)) (f64EPSILON : ℝ) = true := by
      have e : DualNum.re (sumFin (StateHD.new Td Vd Nd).partial_density) = ∑ i, Nf i x0 / Vf x0 := by
        have := ρ.re (ρ.sumFin lawfulEmb_id hst.partial_density)
        simp only [sumFin_real, StateHD.new_density] at this
        exact this
      rw [e, lt_real, decide_eq_true_eq]
      exact hV
    refine ⟨c (0.0 : ℝ) * Vd, ?_, ?_⟩
    · simp only [Contribution.helmholtzEnergy, crossAssociation, crossAssociationDensity, h2, if_true]
      rfl
    · refine ρ.congr (ρ.mul (ρ.const (0.0 : ℝ)) g2) (.of_forall fun x => ?_)
      norm_num

/-- the residual energy of the whole equation of state at low density, for every kind of number -/
theorem dilute_rep_residual (h : Admissible (fromRecords pr k) T V₁ N) (o : PcSaftOptions ℝ)
    (hr : ∀ ct ∈ buildContributions (fromRecords pr k) o, DiluteRegular (fromRecords pr k) T N ct) :
    ∃ F, Dilute F (T, N) ∧ DiluteIntensive F ∧ ∀ᶠ V : ℝ in atTop,
      (∀ (la : LinAlg ℝ ℝ) (T' : ℝ), (Eos.withOptions (fromRecords pr k) o).residualHelmholtz la (StateHD.new T' V N)
        = .ok (V * F (1 / V, (T', N))))
      ∧ ∀ (X D : Type) (_ : TopologicalSpace X) (_ : DualNum ℝ D)
      (x0 : X) (ρ : Rep x0 Same D) (Tf Vf : X → ℝ) (Nf : Fin n → X → ℝ) (Td Vd : D) (Nd : Fin n → D),
      ρ.R Tf Td → ρ.R Vf Vd → (∀ i, ρ.R (Nf i) (Nd i)) → Tf x0 = T → Vf x0 = V → (fun i => Nf i x0) = N →
      ∀ laD : LinAlg ℝ D, ∃ d : D, (Eos.withOptions (fromRecords pr k) o).residualHelmholtz laD (StateHD.new Td Vd Nd)
        = .ok d ∧ ρ.R (fun x => Vf x * F (1 / Vf x, (Tf x, fun i => Nf i x))) d := by
  have key : ∀ (cts : List (Contribution ℝ)), (∀ ct ∈ cts, ∃ F, DiluteRep (fromRecords pr k) T N F ct) →
      ∀ F0 : ℝ × (ℝ × (Fin n → ℝ)) → ℝ, Dilute F0 (T, N) → DiluteIntensive F0 →
      ∃ F, Dilute F (T, N) ∧ DiluteIntensive F ∧ ∀ᶠ V : ℝ in atTop,
        (∀ (la : LinAlg ℝ ℝ) (T' : ℝ), cts.foldlM (fun acc ct =>
            match ct.helmholtzEnergy la (fromRecords pr k) (StateHD.new T' V N) with
            | .error err => .error err
            | .ok a => .ok (acc + a)) (V * F0 (1 / V, (T', N)))
          = (.ok (V * F (1 / V, (T', N))) : Except Panic ℝ))
        ∧ ∀ (X D : Type) (_ : TopologicalSpace X) (_ : DualNum ℝ D)
        (x0 : X) (ρ : Rep x0 Same D) (Tf Vf : X → ℝ) (Nf : Fin n → X → ℝ) (Td Vd : D) (Nd : Fin n → D),
        ρ.R Tf Td → ρ.R Vf Vd → (∀ i, ρ.R (Nf i) (Nd i)) → Tf x0 = T → Vf x0 = V → (fun i => Nf i x0) = N →
        ∀ (laD : LinAlg ℝ D) (d0 : D), ρ.R (fun x => Vf x * F0 (1 / Vf x, (Tf x, fun i => Nf i x))) d0 →
        ∃ d : D, cts.foldlM (fun acc ct =>
            match ct.helmholtzEnergy laD (fromRecords pr k) (StateHD.new Td Vd Nd) with
            | .error err => .error err
            | .ok a => .ok (acc + a)) d0 = (.ok d : Except Panic D)
          ∧ ρ.R (fun x => Vf x * F (1 / Vf x, (Tf x, fun i => Nf i x))) d := by
    intro cts
    induction cts with
    | nil => exact fun _ F0 h1 h2 => ⟨F0, h1, h2, .of_forall fun V => ⟨fun _ _ => rfl,
        fun X D _ _ x0 ρ Tf Vf Nf Td Vd Nd _ _ _ _ _ _ laD d0 hd => ⟨d0, rfl, hd⟩⟩⟩
    | cons ct cts ih =>
      intro hall F0 h1 h2
      obtain ⟨G, hG1, hG2, hG3⟩ := hall ct (by simp)
      obtain ⟨F, hF1, hF2, hF3⟩ := ih (fun ct' h' => hall ct' (by simp [h'])) (fun x => F0 x + G x) (h1.add hG1)
        (fun V T l N hV hl => congrArg₂ (· + ·) (h2 V T l N hV hl) (hG2 V T l N hV hl))
      refine ⟨F, hF1, hF2, ?_⟩
      filter_upwards [hG3, hF3] with V ⟨p1, q1⟩ ⟨p2, q2⟩
      refine ⟨fun la T' => ?_, ?_⟩
      · rw [List.foldlM_cons, p1 la T', ← p2 la T', mul_add]
        rfl
      intro X D _ _ x0 ρ Tf Vf Nf Td Vd Nd g1 g2 g3 e1 e2 e3 laD d0 hd0
      obtain ⟨a, ha, ha'⟩ := q1 X D _ _ x0 ρ Tf Vf Nf Td Vd Nd g1 g2 g3 e1 e2 e3 laD
      obtain ⟨d, hd, hd'⟩ := q2 X D _ _ x0 ρ Tf Vf Nf Td Vd Nd g1 g2 g3 e1 e2 e3 laD (d0 + a)
        (ρ.congr (ρ.add hd0 ha') (.of_forall fun x => (mul_add _ _ _).symm))
      refine ⟨d, ?_, hd'⟩
      rw [List.foldlM_cons, ha]
      exact hd
  obtain ⟨F, hF1, hF2, hF3⟩ := key _ (fun ct hct => dilute_rep h ct (hr ct hct)) (fun _ => 0) dilute_zero
    (fun _ _ _ _ _ _ => rfl)
  refine ⟨F, hF1, hF2, ?_⟩
  filter_upwards [hF3] with V ⟨p, q⟩
  refine ⟨fun la T' => ?_, ?_⟩
  · rw [← p la T', mul_zero, show (0 : ℝ) = c (0.0 : ℝ) by norm_num [c]]
    exact congrArg (fun f => List.foldlM f _ _) (by
      funext acc ct
      simp only [Eos.withOptions]
      cases ct.helmholtzEnergy la (fromRecords pr k) (StateHD.new T' V N) <;> rfl)
  intro X D _ _ x0 ρ Tf Vf Nf Td Vd Nd g1 g2 g3 e1 e2 e3 laD
  obtain ⟨d, hd, hd'⟩ := q X D _ _ x0 ρ Tf Vf Nf Td Vd Nd g1 g2 g3 e1 e2 e3 laD (c (0.0 : ℝ))
    (ρ.congr (ρ.const (0.0 : ℝ)) (.of_forall fun x => by norm_num))
  refine ⟨d, ?_, hd'⟩
  rw [← hd]
  exact congrArg (fun f => List.foldlM f _ _) (by
    funext acc ct
    simp only [Eos.withOptions]
    cases ct.helmholtzEnergy laD (fromRecords pr k) (StateHD.new Td Vd Nd) <;> rfl)

/-- the second derivatives that the code computes, as derivatives of one function -/
theorem dilute_second (h : Admissible (fromRecords pr k) T V₁ N) (o : PcSaftOptions ℝ)
    (hr : ∀ ct ∈ buildContributions (fromRecords pr k) o, DiluteRegular (fromRecords pr k) T N ct) :
    ∃ F, Dilute F (T, N) ∧ ∀ᶠ V : ℝ in atTop, 0 < V ∧ ContDiffAt ℝ ω F (1 / V, (T, N)) ∧
      ∀ (laD : LinAlg ℝ (Dual (Dual ℝ))) (t t' v v' : ℝ) (w w' : Fin n → ℝ), ∃ d : Dual (Dual ℝ),
        (Eos.withOptions (fromRecords pr k) o).residualHelmholtz laD (seed2 T t t' V (V * v) (V * v') N w w') = .ok d
        ∧ d.eps.eps = V * fderiv ℝ (fun x => fderiv ℝ F x (0, (t', w' - v' • N))) (1 / V, (T, N)) (0, (t, w - v • N))
          + v * (t' * (V * fderiv ℝ F (1 / V, (T, N)) (0, (1, 0))))
          + v' * (t * (V * fderiv ℝ F (1 / V, (T, N)) (0, (1, 0)))) := by
  obtain ⟨F, hF1, hF2, hF3⟩ := dilute_rep_residual h o hr
  refine ⟨F, hF1, ?_⟩
  filter_upwards [hF3, eventually_gt_atTop 0, hF1.eventually_smooth] with V ⟨_, q⟩ h0 hs
  refine ⟨h0, hs, fun laD t t' v v' w w' => ?_⟩
  obtain ⟨d, hd, hd'⟩ := q _ _ _ _ _ rho2 _ _ _ _ _ _ (rho2_seed T t t') (rho2_seed V (V * v) (V * v'))
    (fun i => rho2_seed (N i) (w i) (w' i)) (by simp) (by simp) (by simp) laD
  refine ⟨d, hd, ?_⟩
  rw [← diluteEnergy_second_all h0.ne' hs hF2, ← deriv_deriv_line (diluteEnergy_smooth h0.ne' hs), (jet2_of hd').deriv]
  rfl

/-- C81, second order: in fixed directions of temperature, relative volume and amounts the second derivatives of the
residual energy (heat capacity, compressibility, derivatives of the chemical potentials) vanish in the limit of large
volumes. -/
theorem C81_second (laD : LinAlg ℝ (Dual (Dual ℝ))) (h : Admissible (fromRecords pr k) T V₁ N) (o : PcSaftOptions ℝ)
    (hr : ∀ ct ∈ buildContributions (fromRecords pr k) o, DiluteRegular (fromRecords pr k) T N ct)
    (t t' v v' : ℝ) (w w' : Fin n → ℝ) {ε : ℝ} (hε : 0 < ε) :
    ∃ V₀, ∀ V, V₀ ≤ V → ∃ d : Dual (Dual ℝ),
      (Eos.withOptions (fromRecords pr k) o).residualHelmholtz laD (StateHD.new ⟨⟨T, t⟩, ⟨t', 0⟩⟩
        ⟨⟨V, V * v⟩, ⟨V * v', 0⟩⟩ (fun i => ⟨⟨N i, w i⟩, ⟨w' i, 0⟩⟩)) = .ok d ∧ |d.eps.eps| ≤ ε := by
  obtain ⟨F, hF, hev⟩ := dilute_second h o hr
  have h1 := ((hF.derivative (t', w' - v' • N)).derivative (t, w - v • N)).tendsto
  have h2 := (hF.derivative ((1 : ℝ), (0 : Fin n → ℝ))).tendsto
  have h3 := (h1.add ((h2.const_mul t').const_mul v)).add ((h2.const_mul t).const_mul v')
  simp only [mul_zero, add_zero] at h3
  obtain ⟨V₀, hV⟩ := eventually_atTop.1 (hev.and (h3.eventually (Metric.closedBall_mem_nhds (0 : ℝ) hε)))
  refine ⟨V₀, fun V hV' => ?_⟩
  obtain ⟨⟨-, -, q⟩, g⟩ := hV V hV'
  obtain ⟨d, hd, e⟩ := q laD t t' v v' w w'
  refine ⟨d, hd, ?_⟩
  rw [e]
  change dist _ _ ≤ _ at g
  rwa [Real.dist_eq, sub_zero] at g

end records

section ideal

theorem idealCurvature_eq {V v r : ℝ} {N w : Fin n → ℝ} (hN : ∀ i, 0 < N i) (hV : V ≠ 0) (hv : v = V * r) :
    idealCurvature V N v w = ∑ i, (w - r • N) i ^ 2 / N i := by
  unfold idealCurvature
  refine Finset.sum_congr rfl fun i _ => ?_
  have := (hN i).ne'
  rw [hv]
  simp only [Pi.sub_apply, Pi.smul_apply, smul_eq_mul]
  field_simp

/-- `idealCurvature` is the second derivative of the energy of an ideal gas mixture along a straight line. -/
theorem C107_ideal {V v : ℝ} {N w : Fin n → ℝ} (hN : ∀ i, 0 < N i) (hV : 0 < V) :
    deriv (deriv fun s : ℝ => idealMixing (V + s * v) (fun i => N i + s * w i)) 0 = idealCurvature V N v w := by
  have hlin : ∀ (a b s : ℝ), HasDerivAt (fun s : ℝ => a + s * b) b s := fun a b s => by
    simpa using ((hasDerivAt_id s).mul_const b).const_add a
  have hpos : ∀ᶠ s : ℝ in 𝓝 0, 0 < V + s * v ∧ ∀ i, 0 < N i + s * w i := by
    have hl : ∀ a b : ℝ, 0 < a → ∀ᶠ s : ℝ in 𝓝 0, 0 < a + s * b := fun a b ha => by
      have : ContinuousAt (fun s : ℝ => a + s * b) 0 := by fun_prop
      exact this.eventually (lt_mem_nhds (by simpa using ha))
    exact (hl V v hV).and (eventually_all.2 fun i => hl (N i) (w i) (hN i))
  have h1 : (deriv fun s : ℝ => idealMixing (V + s * v) (fun i => N i + s * w i))
      =ᶠ[𝓝 0] fun s => ∑ i, (w i * Real.log ((N i + s * w i) / (V + s * v)) - (N i + s * w i) * v / (V + s * v)) := by
    filter_upwards [hpos] with s ⟨hv, hn⟩
    refine HasDerivAt.deriv ?_
    unfold idealMixing
    refine HasDerivAt.fun_sum fun i _ => ?_
    have hd := ((hlin (N i) (w i) s).div (hlin V v s) hv.ne').log (div_pos (hn i) hv).ne'
    refine ((hlin (N i) (w i) s).mul (hd.sub_const 1)).congr_deriv ?_
    have e1 := hv.ne'
    have e2 := (hn i).ne'
    simp only [Pi.div_apply]
    generalize Real.log ((N i + s * w i) / (V + s * v)) = l
    generalize N i + s * w i = a at e2 ⊢
    generalize V + s * v = b at e1 ⊢
    field_simp
    ring
  rw [h1.deriv_eq]
  refine HasDerivAt.deriv ?_
  unfold idealCurvature
  refine HasDerivAt.fun_sum fun i _ => ?_
  have e1 : V + 0 * v ≠ 0 := by simpa using hV.ne'
  have e2 : N i + 0 * w i ≠ 0 := by simpa using (hN i).ne'
  have hd := ((hlin (N i) (w i) 0).div (hlin V v 0) e1).log (div_ne_zero e2 e1)
  refine ((hd.const_mul (w i)).sub (((hlin (N i) (w i) 0).mul_const v).div (hlin V v 0) e1)).congr_deriv ?_
  have e3 := hV.ne'
  have e4 := (hN i).ne'
  simp only [zero_mul, add_zero, Pi.div_apply]
  field_simp

end ideal

section records
variable {pr : Fin n → PureRecord ℝ} {k : Fin n → Fin n → ℝ} {T V₁ : ℝ} {N : Fin n → ℝ}

theorem sum_abs_sq (w : Fin n → ℝ) : ∑ i, ∑ j, |w i| * |w j| ≤ n * ∑ i, w i ^ 2 := by
  have h : ∀ i j : Fin n, |w i| * |w j| ≤ w i ^ 2 / 2 + w j ^ 2 / 2 := fun i j => by
    have := two_mul_le_add_sq |w i| |w j|
    rw [sq_abs, sq_abs] at this
    linarith
  refine (Finset.sum_le_sum fun i _ => Finset.sum_le_sum fun j _ => h i j).trans (le_of_eq ?_)
  simp only [Finset.sum_add_distrib, Finset.sum_const, Finset.card_univ, Fintype.card_fin, nsmul_eq_mul,
    ← Finset.sum_div, ← Finset.mul_sum]
  ring

/-- C107: at large volume the curvature of the residual energy, in every direction of volume and amounts, is a small
fraction of the curvature of the ideal gas mixture; the fraction is the same for all directions. -/
theorem C107_curvature (h : Admissible (fromRecords pr k) T V₁ N) (hN : ∀ i, 0 < N i) (o : PcSaftOptions ℝ)
    (hr : ∀ ct ∈ buildContributions (fromRecords pr k) o, DiluteRegular (fromRecords pr k) T N ct) {ε : ℝ} (hε : 0 < ε) :
    ∃ V₀, ∀ V, V₀ ≤ V → ∀ (laD : LinAlg ℝ (Dual (Dual ℝ))) (v : ℝ) (w : Fin n → ℝ), ∃ d : Dual (Dual ℝ),
      (Eos.withOptions (fromRecords pr k) o).residualHelmholtz laD (StateHD.new ⟨⟨T, 0⟩, ⟨0, 0⟩⟩ ⟨⟨V, v⟩, ⟨v, 0⟩⟩
        (fun i => ⟨⟨N i, w i⟩, ⟨w i, 0⟩⟩)) = .ok d ∧ |d.eps.eps| ≤ ε * idealCurvature V N v w := by
  obtain ⟨F, hF, hev⟩ := dilute_second h o hr
  have hS : 0 < ∑ i, N i := h.total_pos
  set δ := ε / (n * ∑ i, N i + 1) with hδ
  have hδ0 : 0 < δ := by positivity
  have hH : ∀ i j : Fin n, ∀ᶠ V : ℝ in atTop, |V * fderiv ℝ (fun x => fderiv ℝ F x (0, ((0 : ℝ), unit j))) (1 / V, (T, N))
      (0, ((0 : ℝ), unit i))| ≤ δ := fun i j => by
    have := (((hF.derivative ((0 : ℝ), unit j)).derivative ((0 : ℝ), unit i)).tendsto).eventually
      (Metric.closedBall_mem_nhds (0 : ℝ) hδ0)
    refine this.mono fun V hV => ?_
    change dist _ _ ≤ _ at hV
    rwa [Real.dist_eq, sub_zero] at hV
  obtain ⟨V₀, hV⟩ := eventually_atTop.1 (hev.and (eventually_all.2 fun i => eventually_all.2 fun j => hH i j))
  refine ⟨V₀, fun V hV' laD v w => ?_⟩
  obtain ⟨⟨h0, hs, q⟩, g⟩ := hV V hV'
  obtain ⟨d, hd, e⟩ := q laD 0 0 (v / V) (v / V) w w
  have ev : V * (v / V) = v := by field_simp
  rw [seed2, ev] at hd
  refine ⟨d, hd, ?_⟩
  rw [idealCurvature_eq hN h0.ne' ev.symm, e]
  simp only [zero_mul, mul_zero, add_zero]
  set z := w - (v / V) • N with hz
  set B := fderiv ℝ (fderiv ℝ F) (1 / V, (T, N)) with hB
  have hd2 : DifferentiableAt ℝ (fderiv ℝ F) (1 / V, (T, N)) :=
    (hs.fderiv_right (m := ω) (by simp)).differentiableAt (by simp)
  have eB : ∀ a b : Fin n → ℝ, fderiv ℝ (fun x => fderiv ℝ F x (0, ((0 : ℝ), b))) (1 / V, (T, N)) (0, ((0 : ℝ), a))
      = B (0, ((0 : ℝ), a)) (0, ((0 : ℝ), b)) := fun a b => by
    have : HasFDerivAt (fun x => fderiv ℝ F x (0, ((0 : ℝ), b))) (B.flip (0, ((0 : ℝ), b))) (1 / V, (T, N)) :=
      (hd2.hasFDerivAt.clm_apply (hasFDerivAt_const _ _)).congr_fderiv (by ext <;> simp [hB])
    rw [this.fderiv]
    rfl
  have ez : ((0 : ℝ), ((0 : ℝ), z)) = ∑ i, z i • ((0 : ℝ), ((0 : ℝ), (unit i : Fin n → ℝ))) := by
    refine Prod.ext ?_ (Prod.ext ?_ ?_)
    · simp [Prod.fst_sum]
    · simp [Prod.snd_sum, Prod.fst_sum]
    · funext j
      simp [Prod.snd_sum, unit, Finset.sum_apply]
  have hsum : V * fderiv ℝ (fun x => fderiv ℝ F x (0, ((0 : ℝ), z))) (1 / V, (T, N)) (0, ((0 : ℝ), z))
      = ∑ i, ∑ j, z i * z j * (V * B (0, ((0 : ℝ), unit i)) (0, ((0 : ℝ), unit j))) := by
    rw [eB]
    nth_rewrite 1 [ez]
    rw [map_sum, sum_apply, Finset.mul_sum]
    refine Finset.sum_congr rfl fun i _ => ?_
    rw [map_smul, smul_apply, smul_eq_mul]
    nth_rewrite 1 [ez]
    rw [map_sum, Finset.mul_sum, Finset.mul_sum]
    refine Finset.sum_congr rfl fun j _ => ?_
    rw [map_smul, smul_eq_mul]
    ring
  rw [hsum]
  calc |∑ i, ∑ j, z i * z j * (V * B (0, ((0 : ℝ), unit i)) (0, ((0 : ℝ), unit j)))|
      ≤ ∑ i, ∑ j, |z i| * |z j| * δ := by
        refine (Finset.abs_sum_le_sum_abs _ _).trans (Finset.sum_le_sum fun i _ => ?_)
        refine (Finset.abs_sum_le_sum_abs _ _).trans (Finset.sum_le_sum fun j _ => ?_)
        rw [abs_mul, abs_mul]
        refine mul_le_mul_of_nonneg_left ?_ (by positivity)
        rw [← eB]
        exact g i j
    _ ≤ δ * (n * ∑ i, z i ^ 2) := by
        simp only [← Finset.sum_mul]
        rw [mul_comm]
        exact mul_le_mul_of_nonneg_left (sum_abs_sq z) hδ0.le
    _ ≤ δ * (n * ((∑ i, N i) * ∑ i, z i ^ 2 / N i)) := by
        refine mul_le_mul_of_nonneg_left (mul_le_mul_of_nonneg_left ?_ (by positivity)) hδ0.le
        rw [Finset.mul_sum]
        refine Finset.sum_le_sum fun i _ => ?_
        have h1 : N i ≤ ∑ i, N i := Finset.single_le_sum (f := N) (fun j _ => (hN j).le) (Finset.mem_univ i)
        have h2 : z i ^ 2 = N i * (z i ^ 2 / N i) := by
          have := (hN i).ne'
          field_simp
        calc z i ^ 2 = N i * (z i ^ 2 / N i) := h2
          _ ≤ _ := mul_le_mul_of_nonneg_right h1 (div_nonneg (sq_nonneg _) (hN i).le)
    _ = δ * (n * ∑ i, N i) * ∑ i, z i ^ 2 / N i := by ring
    _ ≤ ε * ∑ i, z i ^ 2 / N i := by
        refine mul_le_mul_of_nonneg_right ?_ (Finset.sum_nonneg fun i _ => div_nonneg (sq_nonneg _) (hN i).le)
        have h3 : δ * (n * ∑ i, N i + 1) = ε := by
          rw [hδ]
          have : (n : ℝ) * ∑ i, N i + 1 ≠ 0 := by positivity
          field_simp
        nlinarith

/-- C107: a gas mixture of any composition is stable at low density: beyond some volume the curvature of its energy
(ideal part plus the second derivative of the residual energy that the code computes) is positive in every direction of
volume and amounts except the one that only changes the size of the system. -/
theorem C107_stable (h : Admissible (fromRecords pr k) T V₁ N) (hN : ∀ i, 0 < N i) (o : PcSaftOptions ℝ)
    (hr : ∀ ct ∈ buildContributions (fromRecords pr k) o, DiluteRegular (fromRecords pr k) T N ct) :
    ∃ V₀, ∀ V, V₀ ≤ V → ∀ (laD : LinAlg ℝ (Dual (Dual ℝ))) (v : ℝ) (w : Fin n → ℝ),
      (¬ ∃ r : ℝ, v = r * V ∧ ∀ i, w i = r * N i) → ∃ d : Dual (Dual ℝ),
      (Eos.withOptions (fromRecords pr k) o).residualHelmholtz laD (StateHD.new ⟨⟨T, 0⟩, ⟨0, 0⟩⟩ ⟨⟨V, v⟩, ⟨v, 0⟩⟩
        (fun i => ⟨⟨N i, w i⟩, ⟨w i, 0⟩⟩)) = .ok d ∧ 0 < idealCurvature V N v w + d.eps.eps := by
  obtain ⟨V₀, hV⟩ := C107_curvature h hN o hr (ε := 1 / 2) (by norm_num)
  refine ⟨max V₀ 1, fun V hV' laD v w hne => ?_⟩
  obtain ⟨d, hd, hb⟩ := hV V ((le_max_left _ _).trans hV') laD v w
  have hVp : 0 < V := lt_of_lt_of_le one_pos ((le_max_right _ _).trans hV')
  refine ⟨d, hd, ?_⟩
  have hpos : 0 < idealCurvature V N v w := by
    unfold idealCurvature
    refine (Finset.sum_nonneg fun i _ => mul_nonneg (hN i).le (sq_nonneg _)).lt_of_ne' fun h0 => hne ⟨v / V, ?_, ?_⟩
    · field_simp
    · intro i
      have := (Finset.sum_eq_zero_iff_of_nonneg fun i _ => mul_nonneg (hN i).le (sq_nonneg _)).1 h0 i (Finset.mem_univ i)
      rcases mul_eq_zero.1 this with h1 | h1
      · exact absurd h1 (hN i).ne'
      · have h2 := (hN i).ne'
        have h3 := pow_eq_zero_iff (two_ne_zero) |>.1 h1
        have h4 : w i / N i = v / V := by linarith
        rw [← h4]
        field_simp
  have := neg_abs_le d.eps.eps
  linarith

/-- C107: in particular the pressure of a dilute gas falls when the volume grows: minus its slope, times `k_B T`, is
`sum(N) / V²` plus the second volume derivative of the residual energy. -/
theorem C107_pressure (h : Admissible (fromRecords pr k) T V₁ N) (hN : ∀ i, 0 < N i) (o : PcSaftOptions ℝ)
    (hr : ∀ ct ∈ buildContributions (fromRecords pr k) o, DiluteRegular (fromRecords pr k) T N ct) :
    ∃ V₀, ∀ V, V₀ ≤ V → ∀ laD : LinAlg ℝ (Dual (Dual ℝ)), ∃ d : Dual (Dual ℝ),
      (Eos.withOptions (fromRecords pr k) o).residualHelmholtz laD (StateHD.new ⟨⟨T, 0⟩, ⟨0, 0⟩⟩ ⟨⟨V, 1⟩, ⟨1, 0⟩⟩
        (fun i => ⟨⟨N i, 0⟩, ⟨0, 0⟩⟩)) = .ok d ∧ 0 < (∑ i, N i) / V ^ 2 + d.eps.eps := by
  obtain ⟨V₀, hV⟩ := C107_stable h hN o hr
  refine ⟨max V₀ 1, fun V hV' laD => ?_⟩
  have hVp : 0 < V := lt_of_lt_of_le one_pos ((le_max_right _ _).trans hV')
  have hn : ∃ i : Fin n, True := by
    by_contra hcon
    push Not at hcon
    have hz : ∑ i, N i = 0 := Finset.sum_eq_zero fun i _ => (hcon i).elim
    exact h.total_pos.ne' hz
  obtain ⟨i0, -⟩ := hn
  obtain ⟨d, hd, hp⟩ := hV V ((le_max_left _ _).trans hV') laD 1 (fun _ => 0) (by
    rintro ⟨r, h1, h2⟩
    rcases mul_eq_zero.1 (h2 i0).symm with h3 | h3
    · rw [h3, zero_mul] at h1
      exact one_ne_zero h1
    · exact (hN i0).ne' h3)
  refine ⟨d, hd, ?_⟩
  have e : idealCurvature V N 1 (fun _ => 0) = (∑ i, N i) / V ^ 2 := by
    unfold idealCurvature
    rw [Finset.sum_div]
    refine Finset.sum_congr rfl fun i _ => ?_
    rw [zero_div]
    ring
  rwa [e] at hp

end records

/-! ## Cases that meet the hypotheses -/

/-- a mixture with one associating component -/
example (laD : LinAlg ℝ (Dual (Dual ℝ))) (t t' v v' : ℝ) (w w' : Fin 2 → ℝ) {ε : ℝ} (hε : 0 < ε) :=
  And.intro (C81_second laD assocRecords_admissible PcSaftOptions.default (assocRecords_dilute _) t t' v v' w w' hε)
    (And.intro (C107_curvature assocRecords_admissible (fun _ => one_pos) PcSaftOptions.default (assocRecords_dilute _) hε)
      (And.intro (C107_stable assocRecords_admissible (fun _ => one_pos) PcSaftOptions.default (assocRecords_dilute _))
        (C107_pressure assocRecords_admissible (fun _ => one_pos) PcSaftOptions.default (assocRecords_dilute _))))

/-- two associating components -/
example {K : ℝ} (hK : 0 < K) :=
  C107_stable (twinRecords_admissible K (fun _ _ => 0) (V := 1000) (by norm_num))
    (fun i => by fin_cases i <;> norm_num)
    PcSaftOptions.default (twinRecords_dilute hK _ _ _)

/-- all three polar contributions -/
example := C107_stable polarSphere_admissible (fun _ => one_pos) PcSaftOptions.default (polarSphere_dilute _)

example : deriv (deriv fun s : ℝ => idealMixing (1000 + s * 10) (fun i : Fin 2 => ![1, 2] i + s * ![1, -1] i)) 0
    = idealCurvature 1000 ![1, 2] 10 ![1, -1] :=
  C107_ideal (fun i => by fin_cases i <;> norm_num) (by norm_num)

end Props
end PcSaft
