import Verif.Lemmas.RoundingNest
import Verif.Lemmas.RepEos

/-!
# The residual Helmholtz energy computed with rounding
-/

open Filter Topology Asymptotics

namespace PcSaft
open Spec
variable {n : ℕ}

/-! ### The residual Helmholtz energy commutes with maps of number types -/

section hom
variable {F G D E : Type} [F64 F] [F64 G] [DualNum F D] [DualNum G E] {ψ : F → G} {φ : D → E}

/-- a record with all numbers equal -/
def junkRecord (z : F) : PureRecord F :=
  ⟨⟨none, ""⟩, z, ⟨z, z, z, none, none, none, none, none, none, none, none, none⟩, none⟩

/-- the parameters that the residual Helmholtz energy reads -/
def PcSaftParameters.core (z : F) (p : PcSaftParameters n F) : PcSaftParameters n F :=
  { p with
    viscosity := none, diffusion := none, thermal_conductivity := none, joback_records := none
    pure_records := fun _ => junkRecord z, binary_records := fun _ _ => z }

theorem helmholtzEnergy_core (la : LinAlg F D) (z : F) (p : PcSaftParameters n F) (s : StateHD n D)
    (ct : Contribution F) (hx : ∀ k t, ct ≠ .crossAssociation k t) :
    ct.helmholtzEnergy la (p.core z) s = ct.helmholtzEnergy la p s := by
  cases ct with
  | crossAssociation k t => exact (hx k t rfl).elim
  | _ => rfl

theorem NumHom.contribution (h : NumHom ψ φ) (la : LinAlg F D) (la' : LinAlg G E) (p : PcSaftParameters n F)
    (s : StateHD n D) (g : F → G) (ct : Contribution F) (hx : ∀ k t, ct ≠ .crossAssociation k t)
    (hlt : ∀ a ∈ p.assoc_comp, F64.lt (F64.sqrt f64EPSILON) (DualNum.re (φ (PcSaft.codeDeltaRho p s a)))
      = F64.lt (F64.sqrt f64EPSILON) (DualNum.re (PcSaft.codeDeltaRho p s a)))
    (hnb : ∀ a ∈ p.assoc_comp, F64.lt 0.0 (ψ (p.nb a)) = F64.lt 0.0 (p.nb a)) :
    (ct.map g).helmholtzEnergy la' (p.mapHom ψ) (s.mapHom φ) = (ct.helmholtzEnergy la p s).map φ := by
  cases ct with
  | hardSphere => exact congrArg Except.ok (h.hardSphere p s).symm
  | hardChain => exact congrArg Except.ok (h.hardChain p s).symm
  | dispersion => exact congrArg Except.ok (h.dispersion p s).symm
  | dipole => exact congrArg Except.ok (h.dipole p s).symm
  | quadrupole => exact congrArg Except.ok (h.quadrupole p s).symm
  | dipoleQuadrupole v => exact congrArg Except.ok (h.dipoleQuadrupole v p s).symm
  | association => exact h.association p s hlt hnb
  | crossAssociation k t => exact (hx k t rfl).elim

omit [F64 F] [F64 G] in
theorem buildContributions_mapHom (p : PcSaftParameters n F) (o : PcSaftOptions F) (o' : PcSaftOptions G)
    (g : F → G) (ho : o'.dq_variant = o.dq_variant) (hn : p.nassoc ≤ 1) :
    buildContributions (p.mapHom ψ) o' = (buildContributions p o).map (Contribution.map g)
      ∧ ∀ ct ∈ buildContributions p o, ∀ k t, ct ≠ .crossAssociation k t := by
  have e1 : (p.mapHom ψ).ndipole = p.ndipole := rfl
  have e2 : (p.mapHom ψ).nquadpole = p.nquadpole := rfl
  have e3 : (p.mapHom ψ).nassoc = p.nassoc := rfl
  unfold buildContributions
  rw [e1, e2, e3, ho]
  generalize p.nassoc = na at hn
  have hna : na = 0 ∨ na = 1 := by omega
  rcases hna with rfl | rfl
  · refine ⟨by simp only [List.map_append]; split_ifs <;> rfl, ?_⟩
    intro ct hct k t e
    subst e
    simp only [List.mem_append, List.mem_cons] at hct
    split_ifs at hct <;> simp at hct
  · refine ⟨by simp only [List.map_append]; split_ifs <;> rfl, ?_⟩
    intro ct hct k t e
    subst e
    simp only [List.mem_append, List.mem_cons] at hct
    split_ifs at hct <;> simp at hct

theorem NumHom.residual (h : NumHom ψ φ) (la : LinAlg F D) (la' : LinAlg G E) (p : PcSaftParameters n F)
    (o : PcSaftOptions F) (o' : PcSaftOptions G) (s : StateHD n D) (ho : o'.dq_variant = o.dq_variant)
    (hn : p.nassoc ≤ 1)
    (hlt : ∀ a ∈ p.assoc_comp, F64.lt (F64.sqrt f64EPSILON) (DualNum.re (φ (PcSaft.codeDeltaRho p s a)))
      = F64.lt (F64.sqrt f64EPSILON) (DualNum.re (PcSaft.codeDeltaRho p s a)))
    (hnb : ∀ a ∈ p.assoc_comp, F64.lt 0.0 (ψ (p.nb a)) = F64.lt 0.0 (p.nb a)) :
    (Eos.withOptions (p.mapHom ψ) o').residualHelmholtz la' (s.mapHom φ)
      = ((Eos.withOptions p o).residualHelmholtz la s).map φ := by
  obtain ⟨hb, hx⟩ := buildContributions_mapHom (ψ := ψ) p o o' (fun _ => o'.tol_cross_assoc) ho hn
  unfold Eos.residualHelmholtz
  simp only [Eos.withOptions]
  rw [hb]
  have key : ∀ (cts : List (Contribution F)) (d0 : D) (d0' : E), φ d0 = d0' →
      (∀ ct ∈ cts, ∀ k t, ct ≠ .crossAssociation k t) →
      (cts.map (Contribution.map fun _ => o'.tol_cross_assoc)).foldlM (fun acc ct =>
        match ct.helmholtzEnergy la' (p.mapHom ψ) (s.mapHom φ) with
        | .error err => .error err
        | .ok a => .ok (acc + a)) d0'
      = ((cts.foldlM (fun acc ct =>
        match ct.helmholtzEnergy la p s with
        | .error err => .error err
        | .ok a => .ok (acc + a)) d0 : Except Panic D)).map φ := by
    intro cts
    induction cts with
    | nil =>
      intro d0 d0' e _
      rw [← e]
      rfl
    | cons ct cts ih =>
      intro d0 d0' e hx
      rw [List.map_cons, List.foldlM_cons, List.foldlM_cons,
        h.contribution la la' p s _ ct (hx ct (by simp)) hlt hnb]
      cases ct.helmholtzEnergy la p s with
      | error err => rfl
      | ok a => exact ih (d0 + a) (d0' + φ a) (by rw [h.add, e]) (fun c hc => hx c (by simp [hc]))
  refine (key _ (c (0.0 : F)) (c (0.0 : G)) ?_ hx)
  hom [h]

theorem residual_core (la : LinAlg F D) (z : F) (p : PcSaftParameters n F) (o : PcSaftOptions F) (s : StateHD n D)
    (hn : p.nassoc ≤ 1) :
    (Eos.withOptions (p.core z) o).residualHelmholtz la s = (Eos.withOptions p o).residualHelmholtz la s := by
  have hx := (buildContributions_mapHom (ψ := id) p o o id rfl hn).2
  have e : buildContributions (p.core z) o = buildContributions p o := rfl
  unfold Eos.residualHelmholtz
  simp only [Eos.withOptions, e]
  clear e
  generalize (c (0.0 : F) : D) = d0
  generalize buildContributions p o = cts at hx
  induction cts generalizing d0 with
  | nil => rfl
  | cons ct cts ih =>
    rw [List.foldlM_cons, List.foldlM_cons, helmholtzEnergy_core la z p s ct (hx ct (by simp))]
    cases ct.helmholtzEnergy la p s with
    | error err => rfl
    | ok a => exact ih (d0 + a) (fun c hc => hx c (by simp [hc]))

end hom

/-! ### Parameters read from records -/

section records
variable {ι : Type} {ar : ι → Arithmetic}

theorem near_opt {o : Option ℝ} {o' : (i : ι) → Option (Rd (ar i))} (h : ∀ i, Option.Rel (Input (ar i)) o (o' i))
    (m : ℕ) (s : Bool) (e : ℕ) :
    Near ar (o.getD (OfScientific.ofScientific m s e)) (fun i => (o' i).getD (OfScientific.ofScientific m s e)) := by
  cases o with
  | none =>
    have e' : (fun i => (o' i).getD (OfScientific.ofScientific m s e))
        = (OfScientific.ofScientific m s e : Fam ar) := by
      funext i
      have := h i
      generalize o' i = y at this ⊢
      cases this
      rfl
    rw [e']
    exact Near.sci m s e
  | some x =>
    refine near_of_input fun i => ?_
    have := h i
    generalize o' i = y at this
    cases this with
    | some hx => exact hx.near

theorem opt_zero {a : Arithmetic} {o : Option ℝ} {o' : Option (Rd a)} (h : Option.Rel (Input a) o o')
    (h0 : o.getD 0.0 = 0) : (o'.getD 0.0).val = 0 := by
  cases h with
  | none => exact a.lit_zero true 1
  | some hx => exact hx.zero h0

theorem nonzeroComp_near {v : Fin n → ℝ} {v' : (i : ι) → Fin n → Rd (ar i)}
    (h : ∀ j, Near ar (v j) (fun i => v' i j)) (h0 : ∀ j, v j = 0 → ∀ᶠ i in fine ar, (v' i j).val = 0) :
    ∀ᶠ i in fine ar, nonzeroComp (v' i) = nonzeroComp v := by
  have key : ∀ j, ∀ᶠ i in fine ar, F64.lt 0.0 (F64.abs (v' i j)) = F64.lt 0.0 (F64.abs (v j)) := by
    intro j
    have e0 : (0.0 : ℝ) = 0 := by norm_num
    have e1 : ∀ i, F64.lt 0.0 (F64.abs (v' i j)) = decide (0 < |(v' i j).val|) := by
      intro i
      show decide ((ar i).lit 0 true 1 < |(v' i j).val|) = _
      rw [(ar i).lit_zero]
    have e2 : F64.lt 0.0 (F64.abs (v j)) = decide (0 < |v j|) := by
      rw [lt_real, abs_real, e0]
    by_cases hv : v j = 0
    · filter_upwards [h0 j hv] with i hi
      rw [e1, e2, hv, hi]
    · filter_upwards [(h j).tendsto.eventually_ne hv] with i hi
      rw [e1, e2, decide_eq_true (abs_pos.2 hi), decide_eq_true (abs_pos.2 hv)]
  filter_upwards [eventually_all.2 key] with i hi
  unfold nonzeroComp
  exact List.filter_congr fun j _ => hi j

variable (pr : Fin n → PureRecord ℝ) (kij : Fin n → Fin n → ℝ) (pr' : (i : ι) → Fin n → PureRecord (Rd (ar i)))
  (kij' : (i : ι) → Fin n → Fin n → Rd (ar i))

/-- the parameters computed in every arithmetic, with the lists of components from exact arithmetic -/
noncomputable def famParameters : PcSaftParameters n (Fam ar) :=
  let q := fun i => fromRecords (pr' i) (kij' i)
  { molarweight := fun j i => (q i).molarweight j
    m := fun j i => (q i).m j
    sigma := fun j i => (q i).sigma j
    epsilon_k := fun j i => (q i).epsilon_k j
    mu := fun j i => (q i).mu j
    q := fun j i => (q i).q j
    mu2 := fun j i => (q i).mu2 j
    q2 := fun j i => (q i).q2 j
    kappa_ab := fun j i => (q i).kappa_ab j
    epsilon_k_ab := fun j i => (q i).epsilon_k_ab j
    na := fun j i => (q i).na j
    nb := fun j i => (q i).nb j
    kappa_aibj := fun j l i => (q i).kappa_aibj j l
    epsilon_k_aibj := fun j l i => (q i).epsilon_k_aibj j l
    k_ij := fun j l i => (q i).k_ij j l
    sigma_ij := fun j l i => (q i).sigma_ij j l
    epsilon_k_ij := fun j l i => (q i).epsilon_k_ij j l
    e_k_ij := fun j l i => (q i).e_k_ij j l
    dipole_comp := (fromRecords pr kij).dipole_comp
    quadpole_comp := (fromRecords pr kij).quadpole_comp
    assoc_comp := (fromRecords pr kij).assoc_comp
    viscosity := none
    diffusion := none
    thermal_conductivity := none
    pure_records := fun _ => junkRecord (fun _ => ⟨0⟩)
    binary_records := fun _ _ _ => ⟨0⟩
    joback_records := none }

theorem famParameters_at (i : ι) (hd : (fromRecords (pr' i) (kij' i)).dipole_comp = (fromRecords pr kij).dipole_comp)
    (hq : (fromRecords (pr' i) (kij' i)).quadpole_comp = (fromRecords pr kij).quadpole_comp)
    (ha : (fromRecords (pr' i) (kij' i)).assoc_comp = (fromRecords pr kij).assoc_comp) :
    (famParameters pr kij pr' kij').mapHom (fun x => x i) = (fromRecords (pr' i) (kij' i)).core ⟨0⟩ := by
  unfold famParameters PcSaftParameters.mapHom PcSaftParameters.core
  simp only
  rw [hd, hq, ha]
  rfl

variable {pr kij pr' kij'} (hr : ∀ i j, RecordInput (ar i) (pr j) (pr' i j))
  (hk : ∀ i j l, |(kij' i j l).val - kij j l| ≤ (ar i).u * (1 + |kij j l|)) (hm : ∀ i, 0 < (pr i).model_record.m)
  (hs : ∀ i, 0 < (pr i).model_record.sigma) (he : ∀ i, 0 < (pr i).model_record.epsilon_k)
include hr

theorem near_m (j : Fin n) : Near ar (pr j).model_record.m (fun i => (pr' i j).model_record.m) :=
  near_of_input fun i => (hr i j).m.near

theorem near_sigma (j : Fin n) : Near ar (pr j).model_record.sigma (fun i => (pr' i j).model_record.sigma) :=
  near_of_input fun i => (hr i j).sigma.near

theorem near_epsilon (j : Fin n) :
    Near ar (pr j).model_record.epsilon_k (fun i => (pr' i j).model_record.epsilon_k) :=
  near_of_input fun i => (hr i j).epsilon_k.near

theorem near_mu (j : Fin n) :
    Near ar ((fromRecords pr kij).mu j) ((famParameters pr kij pr' kij').mu j) :=
  near_opt (fun i => (hr i j).mu) 0 true 1

theorem near_q (j : Fin n) :
    Near ar ((fromRecords pr kij).q j) ((famParameters pr kij pr' kij').q j) :=
  near_opt (fun i => (hr i j).q) 0 true 1

theorem near_kappa (j : Fin n) :
    Near ar ((fromRecords pr kij).kappa_ab j) ((famParameters pr kij pr' kij').kappa_ab j) :=
  near_opt (fun i => (hr i j).kappa_ab) 0 true 1

theorem near_epsilon_ab (j : Fin n) :
    Near ar ((fromRecords pr kij).epsilon_k_ab j) ((famParameters pr kij pr' kij').epsilon_k_ab j) :=
  near_opt (fun i => (hr i j).epsilon_k_ab) 0 true 1

omit hr in
theorem near_joule : Near ar jouleKelvinKB jouleKelvinKB :=
  (Near.sci 10 true 1).div (Near.sci _ _ _) (by norm_num)

include hm hs he

omit hr in
theorem mu2_factor_ne (j : Fin n) : (pr j).model_record.m * (pr j).model_record.sigma * (pr j).model_record.sigma
    * (pr j).model_record.sigma * (pr j).model_record.epsilon_k ≠ 0 := by
  have := hm j; have := hs j; have := he j
  positivity

omit hr in
theorem q2_factor_ne (j : Fin n) : (pr j).model_record.m * (pr j).model_record.sigma ^ 5
    * (pr j).model_record.epsilon_k ≠ 0 := by
  have := hm j; have := hs j; have := he j
  positivity

omit hm hs he in
theorem near_mu2_factor (j : Fin n) :
    Near ar ((pr j).model_record.m * (pr j).model_record.sigma * (pr j).model_record.sigma
      * (pr j).model_record.sigma * (pr j).model_record.epsilon_k)
      (fun i => (pr' i j).model_record.m * (pr' i j).model_record.sigma * (pr' i j).model_record.sigma
        * (pr' i j).model_record.sigma * (pr' i j).model_record.epsilon_k) :=
  ((((near_m hr j).mul (near_sigma hr j)).mul (near_sigma hr j)).mul (near_sigma hr j)).mul (near_epsilon hr j)

omit hm hs he in
theorem near_q2_factor (j : Fin n) :
    Near ar ((pr j).model_record.m * (pr j).model_record.sigma ^ 5 * (pr j).model_record.epsilon_k)
      (fun i => (pr' i j).model_record.m * F64.powi (pr' i j).model_record.sigma 5
        * (pr' i j).model_record.epsilon_k) :=
  ((near_m hr j).mul ((near_sigma hr j).powi 5)).mul (near_epsilon hr j)

theorem near_mu2 (j : Fin n) : Near ar ((fromRecords pr kij).mu2 j) ((famParameters pr kij pr' kij').mu2 j) :=
  (((((near_mu (kij := kij) (kij' := kij') hr j).mul (near_mu (kij := kij) (kij' := kij') hr j)).div
    (near_mu2_factor hr j) (mu2_factor_ne hm hs he j)).mul (Near.sci _ _ _)).mul near_joule)

theorem near_q2 (j : Fin n) : Near ar ((fromRecords pr kij).q2 j) ((famParameters pr kij pr' kij').q2 j) :=
  (((((near_q (kij := kij) (kij' := kij') hr j).mul (near_q (kij := kij) (kij' := kij') hr j)).div
    (near_q2_factor hr j) (q2_factor_ne hm hs he j)).mul (Near.sci _ _ _)).mul near_joule)

theorem lists_near : ∀ᶠ i in fine ar,
    (fromRecords (pr' i) (kij' i)).dipole_comp = (fromRecords pr kij).dipole_comp
    ∧ (fromRecords (pr' i) (kij' i)).quadpole_comp = (fromRecords pr kij).quadpole_comp
    ∧ (fromRecords (pr' i) (kij' i)).assoc_comp = (fromRecords pr kij).assoc_comp := by
  have hj : (jouleKelvinKB : ℝ) ≠ 0 := by
    unfold jouleKelvinKB
    norm_num
  have hl : (1e-19 : ℝ) ≠ 0 := by norm_num
  have h1 : ∀ᶠ i in fine ar, (fromRecords (pr' i) (kij' i)).dipole_comp = (fromRecords pr kij).dipole_comp := by
    refine nonzeroComp_near (v := (fromRecords pr kij).mu2) (v' := fun i => (fromRecords (pr' i) (kij' i)).mu2)
      (near_mu2 (kij := kij) (kij' := kij') hr hm hs he) fun j h0 => ?_
    have h0' : (fromRecords pr kij).mu j * (fromRecords pr kij).mu j
        / ((pr j).model_record.m * (pr j).model_record.sigma * (pr j).model_record.sigma
          * (pr j).model_record.sigma * (pr j).model_record.epsilon_k) * 1e-19 * jouleKelvinKB = 0 := h0
    have hz : (pr j).model_record.mu.getD 0.0 = 0 := by
      rcases mul_eq_zero.1 h0' with h | h
      · rcases mul_eq_zero.1 h with h | h
        · rcases div_eq_zero_iff.1 h with h | h
          · exact mul_self_eq_zero.1 h
          · exact absurd h (mu2_factor_ne hm hs he j)
        · exact absurd h hl
      · exact absurd h hj
    filter_upwards [(near_mu2_factor hr j).tendsto.eventually_ne (mu2_factor_ne hm hs he j)] with i hi
    have hz' : ((pr' i j).model_record.mu.getD 0.0).val = 0 := opt_zero (hr i j).mu hz
    show (ar i).mul ((ar i).mul ((ar i).div ((ar i).mul _ _) _) _) _ = 0
    rw [hz', (ar i).zero_mul, (ar i).zero_div _ hi, (ar i).zero_mul, (ar i).zero_mul]
  have h2 : ∀ᶠ i in fine ar, (fromRecords (pr' i) (kij' i)).quadpole_comp = (fromRecords pr kij).quadpole_comp := by
    refine nonzeroComp_near (v := (fromRecords pr kij).q2) (v' := fun i => (fromRecords (pr' i) (kij' i)).q2)
      (near_q2 (kij := kij) (kij' := kij') hr hm hs he) fun j h0 => ?_
    have h0' : (fromRecords pr kij).q j * (fromRecords pr kij).q j
        / ((pr j).model_record.m * (pr j).model_record.sigma ^ 5 * (pr j).model_record.epsilon_k)
        * 1e-19 * jouleKelvinKB = 0 := h0
    have hz : (pr j).model_record.q.getD 0.0 = 0 := by
      rcases mul_eq_zero.1 h0' with h | h
      · rcases mul_eq_zero.1 h with h | h
        · rcases div_eq_zero_iff.1 h with h | h
          · exact mul_self_eq_zero.1 h
          · exact absurd h (q2_factor_ne hm hs he j)
        · exact absurd h hl
      · exact absurd h hj
    filter_upwards [(near_q2_factor hr j).tendsto.eventually_ne (q2_factor_ne hm hs he j)] with i hi
    have hz' : ((pr' i j).model_record.q.getD 0.0).val = 0 := opt_zero (hr i j).q hz
    show (ar i).mul ((ar i).mul ((ar i).div ((ar i).mul _ _) _) _) _ = 0
    rw [hz', (ar i).zero_mul, (ar i).zero_div _ hi, (ar i).zero_mul, (ar i).zero_mul]
  have h3 : ∀ᶠ i in fine ar, (fromRecords (pr' i) (kij' i)).assoc_comp = (fromRecords pr kij).assoc_comp :=
    nonzeroComp_near (v := (fromRecords pr kij).kappa_ab) (v' := fun i => (fromRecords (pr' i) (kij' i)).kappa_ab)
      (near_kappa (kij := kij) (kij' := kij') hr)
      fun j h0 => .of_forall fun i => opt_zero (hr i j).kappa_ab h0
  filter_upwards [h1, h2, h3] with i a b c
  exact ⟨a, b, c⟩

include hk in
theorem famParameters_rel [(fine ar).NeBot] (hkap : ∀ i, 0 ≤ (fromRecords pr kij).kappa_ab i) :
    ParamRel (Near ar) (fromRecords pr kij) (famParameters pr kij pr' kij') where
  m := near_m hr
  sigma := near_sigma hr
  epsilon_k := near_epsilon hr
  mu2 := near_mu2 hr hm hs he
  q2 := near_q2 hr hm hs he
  na j := near_opt (fun i => (hr i j).na) 10 true 1
  nb j := near_opt (fun i => (hr i j).nb) 10 true 1
  sigma_ij j l := (Near.sci 5 true 1).mul ((near_sigma hr j).add (near_sigma hr l))
  epsilon_k_ij j l := ((Near.sci 10 true 1).sub (near_of_input fun i => hk i j l)).mul
    (((near_epsilon hr j).mul (near_epsilon hr l)).sqrt (mul_pos (he j) (he l)))
  e_k_ij j l := ((near_epsilon hr j).mul (near_epsilon hr l)).sqrt (mul_pos (he j) (he l))
  kappa_aibj j l := by
    have hlist := lists_near (kij := kij) (kij' := kij') hr hm hs he
    by_cases hmem : j ∈ (fromRecords pr kij).assoc_comp ∧ l ∈ (fromRecords pr kij).assoc_comp
    · have kpos : ∀ a, a ∈ (fromRecords pr kij).assoc_comp → 0 < (fromRecords pr kij).kappa_ab a := fun a ha =>
        lt_of_le_of_ne (hkap a) (Ne.symm ((Props.mem_assoc_iff pr kij a).1 ha))
      have hj := hs j
      have hl := hs l
      have h1 := (((near_kappa (kij := kij) (kij' := kij') hr j).mul
        (near_kappa (kij := kij) (kij' := kij') hr l)).sqrt (mul_pos (kpos j hmem.1) (kpos l hmem.2))).mul
        (((Near.sci (ar := ar) 20 true 1).mul (((near_sigma hr j).mul (near_sigma hr l)).sqrt
          (mul_pos hj hl))).div ((near_sigma hr j).add (near_sigma hr l)) (by positivity) |>.powf
          (Near.sci (ar := ar) 30 true 1) (by positivity))
      have e : (fromRecords pr kij).kappa_aibj j l = _ := if_pos hmem
      rw [e]
      refine IsBigO.congr' h1 ?_ EventuallyEq.rfl
      filter_upwards [hlist] with i hi
      have hmem' : j ∈ (fromRecords (pr' i) (kij' i)).assoc_comp ∧ l ∈ (fromRecords (pr' i) (kij' i)).assoc_comp := by
        rw [hi.2.2]
        exact hmem
      have e' : (fromRecords (pr' i) (kij' i)).kappa_aibj j l = _ := if_pos hmem'
      show _ = ((fromRecords (pr' i) (kij' i)).kappa_aibj j l).val - _
      rw [e']
      rfl
    · have e : (fromRecords pr kij).kappa_aibj j l = _ := if_neg hmem
      rw [e]
      refine IsBigO.congr' (Near.sci (ar := ar) 0 true 1) ?_ EventuallyEq.rfl
      filter_upwards [hlist] with i hi
      have hmem' : ¬(j ∈ (fromRecords (pr' i) (kij' i)).assoc_comp ∧ l ∈ (fromRecords (pr' i) (kij' i)).assoc_comp) := by
        rw [hi.2.2]
        exact hmem
      have e' : (fromRecords (pr' i) (kij' i)).kappa_aibj j l = _ := if_neg hmem'
      show _ = ((fromRecords (pr' i) (kij' i)).kappa_aibj j l).val - _
      rw [e']
      rfl
  epsilon_k_aibj j l := by
    have hlist := lists_near (kij := kij) (kij' := kij') hr hm hs he
    by_cases hmem : j ∈ (fromRecords pr kij).assoc_comp ∧ l ∈ (fromRecords pr kij).assoc_comp
    · have h1 := (Near.sci (ar := ar) 5 true 1).mul ((near_epsilon_ab (kij := kij) (kij' := kij') hr j).add
        (near_epsilon_ab (kij := kij) (kij' := kij') hr l))
      have e : (fromRecords pr kij).epsilon_k_aibj j l = _ := if_pos hmem
      rw [e]
      refine IsBigO.congr' h1 ?_ EventuallyEq.rfl
      filter_upwards [hlist] with i hi
      have hmem' : j ∈ (fromRecords (pr' i) (kij' i)).assoc_comp ∧ l ∈ (fromRecords (pr' i) (kij' i)).assoc_comp := by
        rw [hi.2.2]
        exact hmem
      have e' : (fromRecords (pr' i) (kij' i)).epsilon_k_aibj j l = _ := if_pos hmem'
      show _ = ((fromRecords (pr' i) (kij' i)).epsilon_k_aibj j l).val - _
      rw [e']
      rfl
    · have e : (fromRecords pr kij).epsilon_k_aibj j l = _ := if_neg hmem
      rw [e]
      refine IsBigO.congr' (Near.sci (ar := ar) 0 true 1) ?_ EventuallyEq.rfl
      filter_upwards [hlist] with i hi
      have hmem' : ¬(j ∈ (fromRecords (pr' i) (kij' i)).assoc_comp ∧ l ∈ (fromRecords (pr' i) (kij' i)).assoc_comp) := by
        rw [hi.2.2]
        exact hmem
      have e' : (fromRecords (pr' i) (kij' i)).epsilon_k_aibj j l = _ := if_neg hmem'
      show _ = ((fromRecords (pr' i) (kij' i)).epsilon_k_aibj j l).val - _
      rw [e']
      rfl
  dipole_comp := rfl
  quadpole_comp := rfl
  assoc_comp := rfl
  nb_pos j := by
    have hn : Near ar ((fromRecords pr kij).nb j) ((famParameters pr kij pr' kij').nb j) :=
      near_opt (fun i => (hr i j).nb) 10 true 1
    have h0 : Near ar 0 (0.0 : Fam ar) := by
      have := Near.sci (ar := ar) 0 true 1
      rwa [ofScientific_zero] at this
    by_cases hz : (fromRecords pr kij).nb j = 0
    · classical
      rw [hz]
      have hall : ∀ i, ((famParameters pr kij pr' kij').nb j i).val = 0 := by
        intro i
        have h1 : Option.Rel (Input (ar i)) (pr j).model_record.nb (pr' i j).model_record.nb := (hr i j).nb
        have h2 : (pr j).model_record.nb.getD 1.0 = 0 := hz
        show ((pr' i j).model_record.nb.getD 1.0).val = 0
        generalize (pr j).model_record.nb = o at h1 h2
        generalize (pr' i j).model_record.nb = o' at h1
        cases h1 with
        | none => norm_num at h2
        | some hx => exact hx.zero h2
      have e : F64.lt (0.0 : Fam ar) ((famParameters pr kij pr' kij').nb j)
          = decide (∀ᶠ i in fine ar, F64.lt (0.0 : Rd (ar i)) ((famParameters pr kij pr' kij').nb j i) = true) := rfl
      rw [e]
      simp only [lt_irrefl, decide_false]
      refine decide_eq_false fun ht => ?_
      obtain ⟨i, hi⟩ := ht.exists
      have h3 : decide ((ar i).lit 0 true 1 < ((famParameters pr kij pr' kij').nb j i).val) = true := hi
      rw [(ar i).lit_zero, hall i] at h3
      simp at h3
    · exact Near.lt h0 hn (Ne.symm hz)

end records

/-! ### The residual Helmholtz energy -/

theorem nassoc_le_one_of_regular {p : PcSaftParameters n ℝ} {o : PcSaftOptions ℝ} {T V : ℝ} {N : Fin n → ℝ}
    (hr : ∀ ct ∈ buildContributions p o, Regular p T V N ct) : p.nassoc ≤ 1 := by
  by_contra hc
  refine hr (.crossAssociation o.max_iter_cross_assoc o.tol_cross_assoc) ?_
  obtain ⟨k, hk⟩ : ∃ k, p.nassoc = k + 2 := ⟨p.nassoc - 2, by omega⟩
  unfold buildContributions
  rw [hk]
  simp

theorem mem_association {p : PcSaftParameters n ℝ} {o : PcSaftOptions ℝ} {a : Fin n} (h : a ∈ p.assoc_comp)
    (hn : p.nassoc ≤ 1) : .association ∈ buildContributions p o := by
  have hk : p.nassoc = 1 := le_antisymm hn (List.length_pos_of_mem h)
  unfold buildContributions
  rw [hk]
  simp

section residual
variable {k : ℕ} {pr : Fin n → PureRecord ℝ} {kij : Fin n → Fin n → ℝ} {T V : Nest ℝ k} {N : Fin n → Nest ℝ k}
  {o : PcSaftOptions ℝ} (he : ∀ i, 0 < (pr i).model_record.epsilon_k)
  (hkap : ∀ i, 0 ≤ (fromRecords pr kij).kappa_ab i)
  (h : Admissible (fromRecords pr kij) (DualNum.re T) (DualNum.re V) (fun i => DualNum.re (N i)))
  (hreg : ∀ ct ∈ buildContributions (fromRecords pr kij) o,
    Regular (fromRecords pr kij) (DualNum.re T) (DualNum.re V) (fun i => DualNum.re (N i)) ct)
include he hkap h hreg

theorem residual_near {ι : Type} {ar : ι → Arithmetic} [(fine ar).NeBot]
    {pr' : (i : ι) → Fin n → PureRecord (Rd (ar i))} {kij' : (i : ι) → Fin n → Fin n → Rd (ar i)}
    {T' V' : (i : ι) → Nest (Rd (ar i)) k} {N' : (i : ι) → Fin n → Nest (Rd (ar i)) k}
    (hr : ∀ i j, RecordInput (ar i) (pr j) (pr' i j)) (hk : ∀ i j l, |(kij' i j l).val - kij j l| ≤ (ar i).u * (1 + |kij j l|))
    (hT : ∀ i, Componentwise (fun (y : ℝ) (y' : Rd (ar i)) => |y'.val - y| ≤ (ar i).u * (1 + |y|)) k T (T' i))
    (hV : ∀ i, Componentwise (fun (y : ℝ) (y' : Rd (ar i)) => |y'.val - y| ≤ (ar i).u * (1 + |y|)) k V (V' i))
    (hN : ∀ i j, Componentwise (fun (y : ℝ) (y' : Rd (ar i)) => |y'.val - y| ≤ (ar i).u * (1 + |y|)) k (N j) (N' i j))
    (la : LinAlg ℝ (Nest ℝ k)) :
    ∃ d, (Eos.withOptions (fromRecords pr kij) o).residualHelmholtz la (StateHD.new T V N) = .ok d
      ∧ ∃ K, ∀ᶠ i in fine ar, ∀ (o' : PcSaftOptions (Rd (ar i))) (la' : LinAlg (Rd (ar i)) (Nest (Rd (ar i)) k)),
        o'.dq_variant = o.dq_variant →
        ∃ d', (Eos.withOptions (fromRecords (pr' i) (kij' i)) o').residualHelmholtz la'
            (StateHD.new (T' i) (V' i) (N' i)) = .ok d'
          ∧ Componentwise (fun (y : ℝ) (y' : Rd (ar i)) => |y'.val - y| ≤ K * (ar i).u) k d d' := by
  obtain ⟨X, _, x0, ρ, ρ', hc⟩ := compare_nest ar k
  have le := lawfulEmb_near ar
  have hp := famParameters_rel hr hk h.m_pos h.sigma_pos he hkap
  obtain ⟨Tf, hT1, hT2⟩ := hc.seed (componentwise_near hT)
  obtain ⟨Vf, hV1, hV2⟩ := hc.seed (componentwise_near hV)
  choose Nf hN1 hN2 using fun j => hc.seed (componentwise_near fun i => hN i j)
  have eT := hc.val hT1
  have eV := hc.val hV1
  have eN : (fun j => Nf j x0) = fun j => DualNum.re (N j) := funext fun j => hc.val (hN1 j)
  rw [← eT, ← eV, ← eN] at h hreg
  have la0 : LinAlg ℝ ℝ := ⟨fun _ _ b => some b, fun _ _ b => some b, 0⟩
  have laF : LinAlg (Fam ar) (Nest (Fam ar) k) := ⟨fun _ _ b => some b, fun _ _ b => some b, 0⟩
  obtain ⟨A, d, hA, hd, hAd⟩ := rep_residual (g := fun x => x) lawfulEmb_id (ParamRel.refl (fromRecords pr kij)) hT1 hV1 hN1
    h o la0 la hreg
  obtain ⟨A', d', hA', hd', hAd'⟩ := rep_residual (g := fun _ => (0.0 : Fam ar)) le hp hT2 hV2 hN2 h o la0 laF hreg
  have eA : A = A' := funext fun x => Except.ok.inj ((hA x).symm.trans (hA' x))
  subst eA
  refine ⟨d, hd, ?_⟩
  obtain ⟨K, hK⟩ := componentwise_bound (hc.cmp hAd hAd')
  refine ⟨K, ?_⟩
  have hn := nassoc_le_one_of_regular hreg
  have hlists := lists_near (kij := kij) (kij' := kij') hr h.m_pos h.sigma_pos he
  -- the comparisons in the association contribution have the same outcome
  have hcmp : ∀ᶠ i in fine ar, ∀ a ∈ (fromRecords pr kij).assoc_comp,
      (F64.lt (F64.sqrt f64EPSILON) (DualNum.re (Fam.at ar k i (codeDeltaRho (famParameters pr kij pr' kij')
          (StateHD.new (Fam.of ar k T') (Fam.of ar k V') (fun j => Fam.of ar k fun i => N' i j)) a)))
        = F64.lt (F64.sqrt f64EPSILON) (DualNum.re (codeDeltaRho (famParameters pr kij pr' kij')
          (StateHD.new (Fam.of ar k T') (Fam.of ar k V') (fun j => Fam.of ar k fun i => N' i j)) a)))
      ∧ F64.lt (0.0 : Rd (ar i)) ((famParameters pr kij pr' kij').nb a i)
        = F64.lt (0.0 : Fam ar) ((famParameters pr kij pr' kij').nb a) := by
    by_cases hemp : (fromRecords pr kij).assoc_comp = []
    · exact .of_forall fun i a ha => by simp [hemp] at ha
    obtain ⟨a, ha⟩ := List.exists_mem_of_ne_nil _ hemp
    obtain ⟨b, hb, -, -, hnb, -, htie⟩ := hreg _ (mem_association ha hn)
    rw [hb]
    have h1 := rep_deltaRho le hp (rep_state le hT2 hV2 hN2 h) h.temperature.ne' (stateEta_lt_one h).ne b
      (h.diameter_pos b).ne'
    have h2 := ρ'.re h1
    rw [stateDeltaRho_eq h b [] hb] at h2
    have h3 : Near ar (Real.sqrt f64EPSILON) (F64.sqrt f64EPSILON : Fam ar) := CR.sqrtEps le
    have h0 : Near ar 0 (0.0 : Fam ar) := by
      have := Near.sci (ar := ar) 0 true 1
      rwa [ofScientific_zero] at this
    filter_upwards [Near.eventually_lt h3 h2 (Ne.symm htie), Near.eventually_lt h0 (hp.nb b) hnb.ne] with i hi hi'
    intro a' ha'
    obtain rfl : a' = b := by simpa using ha'
    refine ⟨?_, ?_⟩
    · rw [← (Fam.at_hom k i).re]
      exact hi.trans (Near.lt h3 h2 (Ne.symm htie)).symm
    · exact hi'.trans (Near.lt h0 (hp.nb a') hnb.ne).symm
  filter_upwards [hK, hlists, hcmp] with i hi hli hci o' la' ho
  refine ⟨Fam.at ar k i d', ?_, hi⟩
  have e1 := (Fam.at_hom k i).residual laF la' (famParameters pr kij pr' kij') (o.map fun _ => (0.0 : Fam ar)) o'
    (StateHD.new (Fam.of ar k T') (Fam.of ar k V') (fun j => Fam.of ar k fun i => N' i j)) ho hn
    (fun a ha => (hci a ha).1) (fun a ha => (hci a ha).2)
  rw [hd', (Fam.at_hom k i).state, famParameters_at _ _ _ _ i hli.1 hli.2.1 hli.2.2,
    residual_core _ _ _ _ _ (by rw [PcSaftParameters.nassoc, hli.2.2]; exact hn)] at e1
  simp only [Fam.at_of] at e1
  exact e1

end residual
end PcSaft
