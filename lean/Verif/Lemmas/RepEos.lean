import Verif.Lemmas.RepAdmissible
import Verif.Props.Association
import Verif.Props.Mixture

/-! # The residual Helmholtz energy preserves representations -/

open Filter Topology

namespace PcSaft
open Spec Props
variable {F D X : Type} [F64 F] [DualNum F D] [TopologicalSpace X] {n : ℕ}

namespace Spec
/-- States at which a contribution is a smooth function of the state: at admissible states, hard sphere, hard
chain and dispersion always; a polar contribution where its Padé denominator does not vanish; association of
one component where the product of strength and density is not exactly at the cutoff between the two
formulas. (Cross association is treated separately.) -/
def Regular (p : PcSaftParameters n ℝ) (T V : ℝ) (N : Fin n → ℝ) : Contribution ℝ → Prop
  | .hardSphere => True
  | .hardChain => True
  | .dispersion => True
  | .dipole => (dipolePhis p (StateHD.new T V N)).1 ≠ (dipolePhis p (StateHD.new T V N)).2
  | .quadrupole => (quadrupolePhis p (StateHD.new T V N)).1 ≠ (quadrupolePhis p (StateHD.new T V N)).2
  | .dipoleQuadrupole v =>
    (dipoleQuadrupolePhis v p (StateHD.new T V N)).1 ≠ (dipoleQuadrupolePhis v p (StateHD.new T V N)).2
  | .association => ∃ a, p.assoc_comp = [a] ∧ 0 ≤ p.epsilon_k_ab a ∧ 0 < p.na a ∧ 0 < p.nb a
    ∧ p.na a + p.nb a < 2 ^ 26
    ∧ specStrength p T V N a a * (N a / V) ≠ Real.sqrt f64EPSILON
  | .crossAssociation _ _ => False
end Spec

/-- the same contribution with embedded options -/
def Contribution.map {F G : Type} (emb : F → G) : Contribution F → Contribution G
  | .hardSphere => .hardSphere
  | .hardChain => .hardChain
  | .dispersion => .dispersion
  | .dipole => .dipole
  | .quadrupole => .quadrupole
  | .dipoleQuadrupole v => .dipoleQuadrupole v
  | .association => .association
  | .crossAssociation k t => .crossAssociation k (emb t)

/-- the same options, embedded -/
def PcSaftOptions.map {F G : Type} (emb : F → G) (o : PcSaftOptions F) : PcSaftOptions G :=
  ⟨emb o.max_eta, o.max_iter_cross_assoc, emb o.tol_cross_assoc, o.dq_variant⟩

theorem fracs_all {d na nb : ℝ} (hd : 0 ≤ d) (hna : 0 < na) (hnb : 0 < nb) (hsmall : na + nb < 2 ^ 26) :
    0 < assocSiteFracAB d na nb ∧ 0 < (assocSiteFracAB d na nb - 1) * (na / nb) + 1 := by
  rcases le_or_gt d (2 ^ 26)⁻¹ with hc | hc
  · have := (fracs_below hd hc hna hnb hsmall).1
    exact ⟨this.1, this.2.2.1⟩
  · obtain ⟨xb, p1, p2, p3, p4, h, _⟩ := C23_site_fractions (by rw [sqrt_epsilon]; exact hc) hna hnb
    exact ⟨p1, by rw [← h.xb_eq hnb.ne' p1.ne']; exact p3⟩

theorem stateDeltaRho_eq {pr : Fin n → PureRecord ℝ} {k : Fin n → Fin n → ℝ} {T V : ℝ} {N : Fin n → ℝ}
    (h : Admissible (fromRecords pr k) T V N) (a : Fin n) (l : List (Fin n))
    (hl : (fromRecords pr k).assoc_comp = a :: l) :
    stateDeltaRho (fromRecords pr k) (StateHD.new T V N) a = specStrength (fromRecords pr k) T V N a a * (N a / V) := by
  have hka : (fromRecords pr k).kappa_ab a ≠ 0 := (mem_assoc_iff pr k a).1 (by rw [hl]; simp)
  rw [← C58_association_strength pr k T V N h a a hka hka]
  rfl

section rep
variable {x0 : X} {emb : ℝ → F → Prop} {ρ : Rep x0 emb D} (le : LawfulEmb emb) {g : ℝ → F}
  {pr : Fin n → PureRecord ℝ} {k : Fin n → Fin n → ℝ} {q : PcSaftParameters n F}
  (hp : ParamRel emb (fromRecords pr k) q)
  {T V : X → ℝ} {N : Fin n → X → ℝ} {Td Vd : D} {Nd : Fin n → D} (hT : ρ.R T Td) (hV : ρ.R V Vd)
  (hN : ∀ i, ρ.R (N i) (Nd i)) (h : Admissible (fromRecords pr k) (T x0) (V x0) (fun i => N i x0))
include le hp hT hV hN h

theorem rep_contribution_association (la : LinAlg ℝ ℝ) (laD : LinAlg F D) {a : Fin n}
    (hl : (fromRecords pr k).assoc_comp = [a]) (he : 0 ≤ (fromRecords pr k).epsilon_k_ab a)
    (hna : 0 < (fromRecords pr k).na a) (hnb : 0 < (fromRecords pr k).nb a)
    (hsmall : (fromRecords pr k).na a + (fromRecords pr k).nb a < 2 ^ 26)
    (hne : Apart x0 (specStrength (fromRecords pr k) (T x0) (V x0) (fun i => N i x0) a a * (N a x0 / V x0))
      (Real.sqrt f64EPSILON)) :
    ∃ (A : X → ℝ) (d : D),
      (∀ x, Contribution.helmholtzEnergy la (fromRecords pr k) (StateHD.new (T x) (V x) (fun i => N i x))
        .association = .ok (A x))
      ∧ (Contribution.map g .association).helmholtzEnergy laD q (StateHD.new Td Vd Nd) = .ok d ∧ ρ.R A d := by
  have hs := rep_state le hT hV hN h
  have e := stateDeltaRho_eq h a [] hl
  have hnn : 0 ≤ stateDeltaRho (fromRecords pr k) (StateHD.new (T x0) (V x0) (fun i => N i x0)) a := by
    rw [e]
    exact mul_nonneg (specStrength_nonneg h a a (by linarith)) (div_nonneg (h.moles_nonneg a) h.volume.le)
  obtain ⟨A, d, h1, h2, h3⟩ := rep_association le hp hs h.temperature.ne' (stateEta_lt_one h).ne a [] hl
    (h.diameter_pos a).ne' hna (by rw [e]; exact hne)
    (fun _ => (fracs_all hnn hna hnb hsmall).1) (fun _ => (fracs_all hnn hna hnb hsmall).2)
    (fun hh => absurd hnb (not_lt.mpr hh))
  exact ⟨A, d, h1, h2, h3⟩

theorem rep_contribution (la : LinAlg ℝ ℝ) (laD : LinAlg F D) (ct : Contribution ℝ)
    (hr : Regular (fromRecords pr k) (T x0) (V x0) (fun i => N i x0) ct) :
    ∃ (A : X → ℝ) (d : D),
      (∀ x, ct.helmholtzEnergy la (fromRecords pr k) (StateHD.new (T x) (V x) (fun i => N i x)) = .ok (A x))
      ∧ (ct.map g).helmholtzEnergy laD q (StateHD.new Td Vd Nd) = .ok d ∧ ρ.R A d := by
  have hs := rep_state le hT hV hN h
  have hsig : ∀ i, (fromRecords pr k).sigma i ≠ 0 := fun i => (h.sigma_pos i).ne'
  have hsij : ∀ i j, (fromRecords pr k).sigma_ij i j ≠ 0 := by
    intro i j
    have : (fromRecords pr k).sigma_ij i j = 0.5 * ((fromRecords pr k).sigma i + (fromRecords pr k).sigma j) := rfl
    rw [this]
    have h1 := h.sigma_pos i
    have h2 := h.sigma_pos j
    norm_num
    linarith
  cases ct with
  | hardSphere => exact ⟨_, _, fun _ => rfl, rfl, rep_hardSphere_admissible le hp hT hV hN h⟩
  | hardChain => exact ⟨_, _, fun _ => rfl, rfl, rep_hardChain_admissible le hp hT hV hN h⟩
  | dispersion => exact ⟨_, _, fun _ => rfl, rfl, rep_dispersion_admissible le hp hT hV hN h⟩
  | dipole => exact ⟨_, _, fun _ => rfl, rfl, rep_dipole le hp h.m_pos hsij hs h.temperature.ne' hr⟩
  | quadrupole => exact ⟨_, _, fun _ => rfl, rfl, rep_quadrupole le hp h.m_pos hsij hs h.temperature.ne' hr⟩
  | dipoleQuadrupole v =>
    exact ⟨_, _, fun _ => rfl, rfl, rep_dipoleQuadrupole le hp v h.m_pos hsij hsig hs h.temperature.ne' hr⟩
  | association =>
    obtain ⟨a, hl, he, hna, hnb, hsmall, hne⟩ := hr
    exact rep_contribution_association le hp hT hV hN h la laD hl he hna hnb hsmall (Or.inl hne)
  | crossAssociation _ _ => exact hr.elim

end rep

section sum
variable {x0 : X} {emb : ℝ → F → Prop} {ρ : Rep x0 emb D} (le : LawfulEmb emb) {g : ℝ → F}
  {p : PcSaftParameters n ℝ} {q : PcSaftParameters n F} (hp : ParamRel emb p q)
  {sf : X → StateHD n ℝ} {sd : StateHD n D}

/-- one contribution is represented -/
def ContributionRel (ρ : Rep x0 emb D) (g : ℝ → F) (la : LinAlg ℝ ℝ) (laD : LinAlg F D) (p : PcSaftParameters n ℝ)
    (q : PcSaftParameters n F) (sf : X → StateHD n ℝ) (sd : StateHD n D) (ct : Contribution ℝ) : Prop :=
  ∃ (A : X → ℝ) (d : D), (∀ x, ct.helmholtzEnergy la p (sf x) = .ok (A x))
    ∧ (ct.map g).helmholtzEnergy laD q sd = .ok d ∧ ρ.R A d

/-- the sum over any list of contributions -/
theorem rep_sum (la : LinAlg ℝ ℝ) (laD : LinAlg F D) (cts : List (Contribution ℝ))
    (hr : ∀ ct ∈ cts, ContributionRel ρ g la laD p q sf sd ct) (f0 : X → ℝ) (d0 : D) (h0 : ρ.R f0 d0) :
    ∃ (A : X → ℝ) (d : D),
      (∀ x, cts.foldlM (fun acc ct =>
        match ct.helmholtzEnergy la p (sf x) with
        | .error err => .error err
        | .ok a => .ok (acc + a)) (f0 x) = (.ok (A x) : Except Panic ℝ))
      ∧ (cts.map (Contribution.map g)).foldlM (fun acc ct =>
        match ct.helmholtzEnergy laD q sd with
        | .error err => .error err
        | .ok a => .ok (acc + a)) d0 = (.ok d : Except Panic D) ∧ ρ.R A d := by
  induction cts generalizing f0 d0 with
  | nil => exact ⟨f0, d0, fun _ => rfl, rfl, h0⟩
  | cons ct cts ih =>
    obtain ⟨A, d, h1, h2, h3⟩ := hr ct (by simp)
    obtain ⟨A', d', h1', h2', h3'⟩ := ih (fun c hc => hr c (by simp [hc])) (fun x => f0 x + A x) (d0 + d)
      (ρ.add h0 h3)
    refine ⟨A', d', fun x => ?_, ?_, h3'⟩
    · rw [List.foldlM_cons, h1]
      exact h1' x
    · rw [List.map_cons, List.foldlM_cons, h2]
      exact h2'

include le hp
theorem rep_residual_of (o : PcSaftOptions ℝ) (la : LinAlg ℝ ℝ) (laD : LinAlg F D)
    (hr : ∀ ct ∈ buildContributions p o, ContributionRel ρ g la laD p q sf sd ct) :
    ∃ (A : X → ℝ) (d : D),
      (∀ x, (Eos.withOptions p o).residualHelmholtz la (sf x) = .ok (A x))
      ∧ (Eos.withOptions q (o.map g)).residualHelmholtz laD sd = .ok d ∧ ρ.R A d := by
  have hb : buildContributions q (o.map g) = (buildContributions p o).map (Contribution.map g) := by
    have e1 : q.ndipole = p.ndipole := by
      simp only [PcSaftParameters.ndipole, hp.dipole_comp]
    have e2 : q.nquadpole = p.nquadpole := by
      simp only [PcSaftParameters.nquadpole, hp.quadpole_comp]
    have e3 : q.nassoc = p.nassoc := by
      simp only [PcSaftParameters.nassoc, hp.assoc_comp]
    unfold buildContributions
    rw [e1, e2, e3]
    simp only [List.map_append]
    congr 1
    · congr 1
      · congr 1
        · congr 1
          split_ifs <;> rfl
        · split_ifs <;> rfl
      · split_ifs <;> rfl
    · generalize p.nassoc = na
      match na with
      | 0 => rfl
      | 1 => rfl
      | (_ + 2) => rfl
  obtain ⟨A, d, h1, h2, h3⟩ := rep_sum la laD _ hr (fun _ => c (0.0 : ℝ)) (c (0.0 : F))
    (ρ.constOf (CR.sci le _ _ _))
  refine ⟨A, d, fun x => ?_, ?_, h3⟩
  · exact (congrArg (fun f => List.foldlM f _ _) (by
      funext acc ct
      simp only [Eos.withOptions]
      cases ct.helmholtzEnergy la p (sf x) <;> rfl)).trans (h1 x)
  rw [← hb] at h2
  exact h2

end sum

section rep
variable {x0 : X} {emb : ℝ → F → Prop} {ρ : Rep x0 emb D} (le : LawfulEmb emb) {g : ℝ → F}
  {pr : Fin n → PureRecord ℝ} {k : Fin n → Fin n → ℝ} {q : PcSaftParameters n F}
  (hp : ParamRel emb (fromRecords pr k) q)
  {T V : X → ℝ} {N : Fin n → X → ℝ} {Td Vd : D} {Nd : Fin n → D} (hT : ρ.R T Td) (hV : ρ.R V Vd)
  (hN : ∀ i, ρ.R (N i) (Nd i)) (h : Admissible (fromRecords pr k) (T x0) (V x0) (fun i => N i x0))
include le hp hT hV hN h

theorem rep_residual (o : PcSaftOptions ℝ) (la : LinAlg ℝ ℝ) (laD : LinAlg F D)
    (hr : ∀ ct ∈ buildContributions (fromRecords pr k) o,
      Regular (fromRecords pr k) (T x0) (V x0) (fun i => N i x0) ct) :
    ∃ (A : X → ℝ) (d : D),
      (∀ x, (Eos.withOptions (fromRecords pr k) o).residualHelmholtz la
        (StateHD.new (T x) (V x) (fun i => N i x)) = .ok (A x))
      ∧ (Eos.withOptions q (o.map g)).residualHelmholtz laD (StateHD.new Td Vd Nd) = .ok d ∧ ρ.R A d :=
  rep_residual_of le hp o la laD fun ct hct => rep_contribution le hp hT hV hN h la laD ct (hr ct hct)

end rep

end PcSaft
