import Verif.Props.CrossDerivativesExamples
import Verif.Lemmas.RepEos

/-!
# C53: derivatives of the whole residual energy with several associating components
-/

open Filter Topology PcSaft.Spec
open scoped ContDiff

namespace PcSaft

/-- everything but association -/
def Contribution.notAssociation {F : Type} : Contribution F → Bool
  | .association => false
  | .crossAssociation _ _ => false
  | _ => true

/-- the equation of state without its association contribution -/
def Eos.withoutAssociation {F : Type} [F64 F] {n : ℕ} (p : PcSaftParameters n F) (o : PcSaftOptions F) : Eos n F :=
  { Eos.withOptions p o with contributions := (buildContributions p o).filter Contribution.notAssociation }

theorem buildContributions_cross {n : ℕ} {p : PcSaftParameters n ℝ} (o : PcSaftOptions ℝ) (h : 2 ≤ p.nassoc) :
    buildContributions p o = (buildContributions p o).filter Contribution.notAssociation
      ++ [.crossAssociation o.max_iter_cross_assoc o.tol_cross_assoc] := by
  unfold buildContributions
  obtain ⟨m, hm⟩ := Nat.exists_eq_add_of_le' h
  rw [hm]
  split_ifs <;> rfl

end PcSaft

namespace PcSaft.Props
variable {n N : ℕ} {D X : Type} [DualNum ℝ D] [TopologicalSpace X] {x0 : X} {ρ : Rep x0 Same D}

theorem rep_cross_residual (Tw : Tower ρ N) {pr : Fin n → PureRecord ℝ} {kij : Fin n → Fin n → ℝ}
    {o : PcSaftOptions ℝ} {p : PcSaftParameters n ℝ} (hp : p = fromRecords pr kij) (ha : 2 ≤ p.nassoc)
    {T V : X → ℝ} {M : Fin n → X → ℝ} {Td Vd : D}
    {Md : Fin n → D} (hT : ρ.R T Td) (hV : ρ.R V Vd) (hM : ∀ i, ρ.R (M i) (Md i))
    (h : Admissible p (T x0) (V x0) (fun i => M i x0))
    (hr : ∀ ct ∈ (Eos.withoutAssociation p o).contributions, Regular p (T x0) (V x0) (fun i => M i x0) ct)
    (hcut : (f64EPSILON : ℝ) ≤ ∑ i, M i x0 / V x0)
    (hsites : ∀ s t, 0 ≤ stateSites p (StateHD.new (T x0) (V x0) (fun i => M i x0)) s t)
    (la : LinAlg ℝ ℝ) {laD : LinAlg ℝ D} (hder : N < 2 ^ laD.nderiv)
    (hs : CorrectDualSolver (laD.solveD p.assoc_comp.length))
    {x : Fin p.assoc_comp.length ⊕ Fin p.assoc_comp.length → ℝ}
    (hloop : stateLoop p o.max_iter_cross_assoc o.tol_cross_assoc (laD.solveF p.assoc_comp.length)
      (StateHD.new (T x0) (V x0) (fun i => M i x0)) = .ok x)
    (hx : ∀ s, 0 < x s)
    (hsol : MassAction (stateSites p (StateHD.new (T x0) (V x0) (fun i => M i x0))) x) :
    ∃ (A0 : X → ℝ) (d : D),
      (∀ y, (Eos.withoutAssociation p o).residualHelmholtz la (StateHD.new (T y) (V y) (fun i => M i y)) = .ok (A0 y))
      ∧ (Eos.withOptions p o).residualHelmholtz laD (StateHD.new Td Vd Md) = .ok d
      ∧ (∃ S, SolutionBranch (fun y => stateSites p (StateHD.new (T y) (V y) (fun i => M i y))) x0 x S)
      ∧ ∀ S, SolutionBranch (fun y => stateSites p (StateHD.new (T y) (V y) (fun i => M i y))) x0 x S →
        ρ.R (fun y => A0 y + specEnergy (assocNa p) (assocNb p) (fun i => M (p.assoc_comp.get i) y / V y)
          (fun s => S s y) * V y) d := by
  obtain ⟨a, ha1, ha2, ha3⟩ := C32_energy Tw hT hV hM h hcut hsites (max_iter := o.max_iter_cross_assoc) hder
    (tol := o.tol_cross_assoc) hs hloop hx hsol
  have hrel : ∀ ct ∈ (Eos.withoutAssociation p o).contributions, ContributionRel ρ (fun x => x) la laD p p
      (fun y => StateHD.new (T y) (V y) (fun i => M i y)) (StateHD.new Td Vd Md) ct := by
    subst hp
    intro ct hct
    exact rep_contribution (g := fun x => x) lawfulEmb_id (ParamRel.refl _) hT hV hM h la laD ct (hr ct hct)
  obtain ⟨A0, d0, h1, h2, h3⟩ := rep_sum la laD _ hrel (fun _ => c (0.0 : ℝ)) (c (0.0 : ℝ)) (ρ.const _)
  have hmap : ∀ ct : Contribution ℝ, ct.map (fun x => x) = ct := fun ct => by cases ct <;> rfl
  rw [show Contribution.map (fun x : ℝ => x) = id from funext hmap, List.map_id] at h2
  refine ⟨A0, d0 + a, fun y => ?_, ?_, ha2, fun S hS => ρ.add h3 (ha3 S hS)⟩
  · exact (congrArg (fun f => List.foldlM f _ _) (by
      funext acc ct
      simp only [Eos.withoutAssociation, Eos.withOptions]
      cases ct.helmholtzEnergy la p (StateHD.new (T y) (V y) (fun i => M i y)) <;> rfl)).trans (h1 y)
  · have e : (Eos.withOptions p o).contributions = (Eos.withoutAssociation p o).contributions
        ++ [.crossAssociation o.max_iter_cross_assoc o.tol_cross_assoc] := buildContributions_cross o ha
    have hd : (Eos.withoutAssociation p o).residualHelmholtz laD (StateHD.new Td Vd Md) = .ok d0 :=
      (congrArg (fun f => List.foldlM f _ _) (by
        funext acc ct
        simp only [Eos.withoutAssociation, Eos.withOptions]
        cases ct.helmholtzEnergy laD p (StateHD.new Td Vd Md) <;> rfl)).trans h2
    unfold Eos.residualHelmholtz at hd ⊢
    rw [e, List.foldlM_append]
    erw [hd]
    have hc : (Contribution.crossAssociation o.max_iter_cross_assoc o.tol_cross_assoc).helmholtzEnergy laD
        (Eos.withOptions p o).parameters (StateHD.new Td Vd Md) = .ok a := ha1
    simp only [Bind.bind, Except.bind, List.foldlM_cons, List.foldlM_nil, hc]
    rfl

/-- The whole residual Helmholtz energy of a mixture with several associating components, evaluated with dual
numbers along a curve of admissible states: value and derivative of the exact energy (the energy at the exact
solution of the mass-action equations), if the iteration with real numbers has found that solution at the
state itself. -/
theorem C53_cross_association_curve {pr : Fin n → PureRecord ℝ} {kij : Fin n → Fin n → ℝ}
    {o : PcSaftOptions ℝ} {p : PcSaftParameters n ℝ} (hp : p = fromRecords pr kij) (ha : 2 ≤ p.nassoc) {T V : ℝ → ℝ}
    {M : Fin n → ℝ → ℝ} {T' V' : ℝ} {M' : Fin n → ℝ} {t0 : ℝ}
    (hT : HasDerivAt T T' t0) (hV : HasDerivAt V V' t0) (hM : ∀ i, HasDerivAt (M i) (M' i) t0)
    (h : ∀ᶠ t in 𝓝 t0, Admissible p (T t) (V t) (fun i => M i t))
    (hr : ∀ ct ∈ (Eos.withoutAssociation p o).contributions, Regular p (T t0) (V t0) (fun i => M i t0) ct)
    (hcut : (f64EPSILON : ℝ) ≤ ∑ i, M i t0 / V t0)
    (hε : ∀ i, 0 ≤ p.epsilon_k_ab i) (hna : ∀ i, 0 ≤ p.na i) (hnb : ∀ i, 0 ≤ p.nb i)
    {S : Fin p.assoc_comp.length ⊕ Fin p.assoc_comp.length → ℝ → ℝ}
    (hS : ∀ᶠ t in 𝓝 t0, (∀ s, 0 < S s t) ∧ MassAction (siteMatrix
      (fun i j => specStrength p (T t) (V t) (fun i => M i t) (p.assoc_comp.get i) (p.assoc_comp.get j))
      (assocNa p) (assocNb p) (fun i => M (p.assoc_comp.get i) t / V t)) (fun s => S s t))
    (la : LinAlg ℝ ℝ) {laD : LinAlg ℝ (Dual ℝ)} (hder : laD.nderiv = 1)
    (hs : CorrectDualSolver (laD.solveD p.assoc_comp.length))
    (hloop : stateLoop p o.max_iter_cross_assoc o.tol_cross_assoc (laD.solveF p.assoc_comp.length)
      (StateHD.new (T t0) (V t0) (fun i => M i t0)) = .ok (fun s => S s t0)) :
    ∃ (A0 : ℝ → ℝ) (d : Dual ℝ),
      (∀ t, (Eos.withoutAssociation p o).residualHelmholtz la (StateHD.new (T t) (V t) (fun i => M i t)) = .ok (A0 t))
      ∧ (Eos.withOptions p o).residualHelmholtz laD
        (StateHD.new (⟨T t0, T'⟩ : Dual ℝ) ⟨V t0, V'⟩ (fun i => ⟨M i t0, M' i⟩)) = .ok d
      ∧ d.re = A0 t0 + specEnergy (assocNa p) (assocNb p)
        (fun i => M (p.assoc_comp.get i) t0 / V t0) (fun s => S s t0) * V t0
      ∧ HasDerivAt (fun t => A0 t + specEnergy (assocNa p) (assocNb p)
        (fun i => M (p.assoc_comp.get i) t / V t) (fun s => S s t) * V t) d.eps t0 := by
  obtain ⟨hmat, hnn, hS', hb⟩ := solution_along_curve hp hT hV hM h hε hna hnb hS
  have h0 := h.self_of_nhds
  obtain ⟨hS0, hS1⟩ := hS'.self_of_nhds
  obtain ⟨A0, d, h1, h2, -, h3⟩ := rep_cross_residual (ρ := repDual lawfulEmb_id rho0 t0) (towerDual (towerReal ()) t0)
    (o := o) hp ha (rho1_curve hT) (rho1_curve hV) (fun i => rho1_curve (hM i)) h0 hr hcut (hnn t0 h0) la
    (laD := laD) (by rw [hder]; norm_num) hs hloop hS0 hS1
  exact ⟨fun t => A0 ((), t), d, fun t => h1 ((), t), h2, curve_of (h3 _ hb)⟩

/-- Second derivatives in two independent directions. -/
theorem C53_cross_association_second_order {pr : Fin n → PureRecord ℝ} {kij : Fin n → Fin n → ℝ}
    {o : PcSaftOptions ℝ} {p : PcSaftParameters n ℝ} (hp : p = fromRecords pr kij) (ha : 2 ≤ p.nassoc)
    {T V : ℝ} {M : Fin n → ℝ} (Tu Tw Vu Vw : ℝ)
    (Mu Mw : Fin n → ℝ) (h : Admissible p T V M)
    (hr : ∀ ct ∈ (Eos.withoutAssociation p o).contributions, Regular p T V M ct)
    (hcut : (f64EPSILON : ℝ) ≤ ∑ i, M i / V)
    (hsites : ∀ s t, 0 ≤ stateSites p (StateHD.new T V M) s t)
    (la : LinAlg ℝ ℝ) {laD : LinAlg ℝ (Dual (Dual ℝ))} (hder : laD.nderiv = 2)
    (hs : CorrectDualSolver (laD.solveD p.assoc_comp.length))
    {x : Fin p.assoc_comp.length ⊕ Fin p.assoc_comp.length → ℝ}
    (hloop : stateLoop p o.max_iter_cross_assoc o.tol_cross_assoc (laD.solveF p.assoc_comp.length)
      (StateHD.new T V M) = .ok x)
    (hx : ∀ s, 0 < x s) (hsol : MassAction (stateSites p (StateHD.new T V M)) x) :
    ∃ (A0 : ℝ → ℝ → ℝ) (d : Dual (Dual ℝ)),
      (∀ u w, (Eos.withoutAssociation p o).residualHelmholtz la
        (StateHD.new (T + u * Tu + w * Tw) (V + u * Vu + w * Vw) (fun i => M i + u * Mu i + w * Mw i)) = .ok (A0 u w))
      ∧ (Eos.withOptions p o).residualHelmholtz laD
        (StateHD.new (⟨⟨T, Tu⟩, ⟨Tw, 0⟩⟩ : Dual (Dual ℝ)) ⟨⟨V, Vu⟩, ⟨Vw, 0⟩⟩ (fun i => ⟨⟨M i, Mu i⟩, ⟨Mw i, 0⟩⟩))
          = .ok d
      ∧ ∃ S : Fin p.assoc_comp.length ⊕ Fin p.assoc_comp.length → (Unit × ℝ) × ℝ → ℝ,
        SolutionBranch (fun y => stateSites p (StateHD.new (T + y.1.2 * Tu + y.2 * Tw) (V + y.1.2 * Vu + y.2 * Vw)
          (fun i => M i + y.1.2 * Mu i + y.2 * Mw i))) (((), 0), 0) x S
        ∧ Jet2 (fun u w => A0 u w + specEnergy (assocNa p) (assocNb p)
          (fun i => (M (p.assoc_comp.get i) + u * Mu (p.assoc_comp.get i) + w * Mw (p.assoc_comp.get i))
            / (V + u * Vu + w * Vw)) (fun s => S s (((), u), w)) * (V + u * Vu + w * Vw)) d := by
  obtain ⟨A0, d, h1, h2, ⟨S, hS⟩, h3⟩ := rep_cross_residual (ρ := rho2) (towerDual (towerDual (towerReal ()) 0) 0)
    (o := o) hp ha (rho2_seed T Tu Tw) (rho2_seed V Vu Vw) (fun i => rho2_seed (M i) (Mu i) (Mw i)) (by simpa using h)
    (by simpa using hr) (by simpa using hcut) (by simpa using hsites) la (laD := laD) (by rw [hder]; norm_num) hs
    (by simpa using hloop) hx (by simpa using hsol)
  exact ⟨fun u w => A0 (((), u), w), d, fun u w => h1 (((), u), w), h2, S, hS, jet2_of (h3 S hS)⟩

/-- two associating components: the pressure from one evaluation of the whole residual energy -/
example : ∃ K : ℝ, 0 < K ∧ K < 1 / 10 ∧
    let p := fromRecords (twinRecords K) (fun _ _ => 0)
    ∃ (S : Fin p.assoc_comp.length ⊕ Fin p.assoc_comp.length → ℝ → ℝ) (laD : LinAlg ℝ (Dual ℝ)) (A0 : ℝ → ℝ)
      (d : Dual ℝ), (∀ s, S s 0 = 0.2) ∧
    (∀ t, -500 < t → (∀ s, 0 < S s t) ∧ MassAction (siteMatrix
      (fun i j => specStrength p 300 (1000 + t) ![3, 11] (p.assoc_comp.get i) (p.assoc_comp.get j))
      (assocNa p) (assocNb p) (fun i => ![3, 11] (p.assoc_comp.get i) / (1000 + t))) (fun s => S s t))
    ∧ (Eos.withOptions p PcSaftOptions.default).residualHelmholtz laD
        (StateHD.new (⟨300, 0⟩ : Dual ℝ) ⟨1000, 1⟩ (fun i => ⟨![3, 11] i, 0⟩)) = .ok d
    ∧ HasDerivAt (fun t => A0 t + specEnergy (assocNa p) (assocNb p)
        (fun i => ![3, 11] (p.assoc_comp.get i) / (1000 + t)) (fun s => S s t) * (1000 + t)) d.eps 0 := by
  obtain ⟨K, hK, hK', hl, hadm, S, hS0, hS, hloop⟩ := twin_loop
  refine ⟨K, hK, hK', ?_⟩
  intro p
  let laD : LinAlg ℝ (Dual ℝ) := ⟨fun _ => exactSolver,
    fun k => (exists_correctDualSolver (towerDual (towerReal ()) 0) k).choose, 1⟩
  have hs : CorrectDualSolver (laD.solveD p.assoc_comp.length) :=
    (exists_correctDualSolver (towerDual (towerReal ()) 0) p.assoc_comp.length).choose_spec
  have hnear : ∀ᶠ t : ℝ in 𝓝 0, -500 < t := lt_mem_nhds (by norm_num)
  have hmu : p.dipole_comp = [] := by
    have e : p.dipole_comp = nonzeroComp p.mu2 := rfl
    have h : p.mu2 = fun _ => 0 := by
      funext i
      norm_num [p, fromRecords, twinRecords]
    rw [e, h]
    simp only [nonzeroComp, List.finRange_succ, List.finRange_zero, List.map_nil, List.map_cons]
    norm_num [lt_real]
  have hq : p.quadpole_comp = [] := by
    have e : p.quadpole_comp = nonzeroComp p.q2 := rfl
    have h : p.q2 = fun _ => 0 := by
      funext i
      norm_num [p, fromRecords, twinRecords]
    rw [e, h]
    simp only [nonzeroComp, List.finRange_succ, List.finRange_zero, List.map_nil, List.map_cons]
    norm_num [lt_real]
  have hna : p.nassoc = 2 := by
    rw [PcSaftParameters.nassoc, hl]
    rfl
  obtain ⟨A0, d, -, h2, -, h3⟩ := C53_cross_association_curve (p := p) (o := PcSaftOptions.default) rfl hna.ge
    (T := fun _ => 300) (V := fun t => 1000 + t)
    (M := fun i _ => ![3, 11] i) (T' := 0) (V' := 1) (M' := fun _ => 0) (t0 := 0)
    (hasDerivAt_const _ _) ((hasDerivAt_id 0).const_add 1000) (fun i => hasDerivAt_const _ _)
    (hnear.mono fun t ht => hadm t ht) (by
      intro ct hct
      have hmem := List.mem_of_mem_filter hct
      simp only [buildContributions, PcSaftParameters.ndipole, PcSaftParameters.nquadpole, hna, hmu, hq] at hmem
      simp at hmem
      rcases hmem with rfl | rfl | rfl | rfl
      · trivial
      · trivial
      · trivial
      · exact absurd (List.of_mem_filter hct) (by simp [Contribution.notAssociation])) (by
      simp only [Fin.sum_univ_two, f64EPSILON]
      norm_num) (fun _ => by change (0 : ℝ) ≤ 2500; norm_num) (fun _ => zero_le_one' ℝ) (fun _ => zero_le_one' ℝ)
    (S := S) (hnear.mono fun t ht => hS t ht) ⟨fun _ _ _ => none, fun _ _ _ => none, 0⟩ (laD := laD) rfl hs hloop
  simp only [add_zero] at h2
  exact ⟨S, laD, A0, d, hS0, hS, h2, h3⟩

end PcSaft.Props
