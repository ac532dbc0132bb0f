import Verif.Lemmas.Units
import Verif.Lemmas.MergeInv
import Verif.Lemmas.Transfer
import Verif.Props.DftBulkDerivatives
import Verif.Props.CrossMixture
import Verif.Props.Examples

/-!
# C84: the model does not depend on the choice of units (law of corresponding states)
-/

open Filter Topology

namespace PcSaft.Spec
variable {n : ℕ}

/-- the same substance described in units in which lengths are `l` times and energies `u` times as large: diameters have
the dimension of a length, `ε/k` of an energy, `μ²` of energy times volume, `Q²` of energy times length to the fifth -/
noncomputable def inUnits (l u : ℝ) (r : PureRecord ℝ) : PureRecord ℝ :=
  { r with model_record := { r.model_record with
      sigma := l * r.model_record.sigma
      epsilon_k := u * r.model_record.epsilon_k
      mu := r.model_record.mu.map fun x => Real.sqrt (l ^ 3 * u) * x
      q := r.model_record.q.map fun x => Real.sqrt (l ^ 5 * u) * x
      epsilon_k_ab := r.model_record.epsilon_k_ab.map fun x => u * x } }

end PcSaft.Spec

namespace PcSaft.Props
open Spec
variable {n : ℕ}

theorem getD_map_mul (o : Option ℝ) (a : ℝ) : (o.map fun x => a * x).getD 0.0 = a * o.getD 0.0 := by
  cases o with
  | none => simp only [Option.map_none, Option.getD_none]; norm_num
  | some x => rfl

theorem ratio_units {a l u x m s e : ℝ} (k : ℕ) (hl : 0 < l) (hu : 0 < u) (ha : a * a = l ^ k * u) :
    a * x * (a * x) / (m * (l * s) ^ k * (u * e)) = x * x / (m * s ^ k * e) := by
  rw [show a * x * (a * x) = l ^ k * u * (x * x) by rw [← ha]; ring,
    show m * (l * s) ^ k * (u * e) = l ^ k * u * (m * s ^ k * e) by rw [mul_pow]; ring]
  exact mul_div_mul_left _ _ (by positivity)

theorem fromRecords_inUnits {l u : ℝ} (hl : 0 < l) (hu : 0 < u) (pr : Fin n → PureRecord ℝ) (k : Fin n → Fin n → ℝ) :
    fromRecords (fun i => inUnits l u (pr i)) k
      = (fromRecords pr k).rescale l u (fun i => inUnits l u (pr i)) := by
  have h3 : Real.sqrt (l ^ 3 * u) * Real.sqrt (l ^ 3 * u) = l ^ 3 * u := Real.mul_self_sqrt (by positivity)
  have h5 : Real.sqrt (l ^ 5 * u) * Real.sqrt (l ^ 5 * u) = l ^ 5 * u := Real.mul_self_sqrt (by positivity)
  have hmu : (fromRecords (fun i => inUnits l u (pr i)) k).mu2 = (fromRecords pr k).mu2 := by
    funext i
    simp only [fromRecords, inUnits, getD_map_mul]
    congr 2
    generalize (pr i).model_record.mu.getD 0.0 = x
    generalize (pr i).model_record.sigma = s
    rw [show (pr i).model_record.m * (l * s) * (l * s) * (l * s) = (pr i).model_record.m * (l * s) ^ 3 by ring,
      show (pr i).model_record.m * s * s * s = (pr i).model_record.m * s ^ 3 by ring]
    exact ratio_units 3 hl hu h3
  have hq : (fromRecords (fun i => inUnits l u (pr i)) k).q2 = (fromRecords pr k).q2 := by
    funext i
    simp only [fromRecords, inUnits, getD_map_mul, powi_real]
    congr 2
    exact ratio_units 5 hl hu h5
  have hka : (fromRecords (fun i => inUnits l u (pr i)) k).kappa_aibj = (fromRecords pr k).kappa_aibj := by
    funext i j
    simp only [fromRecords, inUnits]
    refine if_congr Iff.rfl ?_ rfl
    congr 2
    generalize (pr i).model_record.sigma = s
    generalize (pr j).model_record.sigma = t
    simp only [F64.sqrt]
    rw [show l * s * (l * t) = l ^ 2 * (s * t) by ring, Real.sqrt_mul (by positivity), Real.sqrt_sq hl.le, ← mul_add,
      mul_left_comm, mul_div_mul_left _ _ hl.ne']
  have he : (fromRecords (fun i => inUnits l u (pr i)) k).e_k_ij = fun i j => u * (fromRecords pr k).e_k_ij i j := by
    funext i j
    simp only [fromRecords, inUnits, F64.sqrt]
    rw [show ∀ a b : ℝ, u * a * (u * b) = u ^ 2 * (a * b) from fun a b => by ring, Real.sqrt_mul (by positivity),
      Real.sqrt_sq hu.le]
  have hab : (fromRecords (fun i => inUnits l u (pr i)) k).epsilon_k_aibj
      = fun i j => u * (fromRecords pr k).epsilon_k_aibj i j := by
    funext i j
    simp only [fromRecords, inUnits, getD_map_mul]
    rw [mul_ite]
    refine if_congr Iff.rfl ?_ ?_
    · rw [← mul_add, mul_left_comm]
    · norm_num
  have hsij : (fromRecords (fun i => inUnits l u (pr i)) k).sigma_ij = fun i j => l * (fromRecords pr k).sigma_ij i j := by
    funext i j
    simp only [fromRecords, inUnits]
    rw [← mul_add, mul_left_comm]
  have heij : (fromRecords (fun i => inUnits l u (pr i)) k).epsilon_k_ij
      = fun i j => u * (fromRecords pr k).epsilon_k_ij i j := by
    funext i j
    have e := congrFun (congrFun he i) j
    change (1.0 - k i j) * (fromRecords (fun i => inUnits l u (pr i)) k).e_k_ij i j
      = u * ((1.0 - k i j) * (fromRecords pr k).e_k_ij i j)
    rw [e, mul_left_comm]
  have hdc : (fromRecords (fun i => inUnits l u (pr i)) k).dipole_comp = (fromRecords pr k).dipole_comp :=
    congrArg nonzeroComp hmu
  have hqc : (fromRecords (fun i => inUnits l u (pr i)) k).quadpole_comp = (fromRecords pr k).quadpole_comp :=
    congrArg nonzeroComp hq
  refine (PcSaftParameters.mk.injEq ..).mpr ⟨rfl, rfl, rfl, rfl, ?_, ?_, hmu, hq, rfl, ?_, rfl, rfl, hka, hab, rfl, hsij, heij,
    he, hdc, hqc, rfl, rfl, rfl, rfl, rfl, rfl, rfl⟩
  · funext i
    exact getD_map_mul _ _
  · funext i
    exact getD_map_mul _ _
  · funext i
    exact getD_map_mul _ _

theorem newtonStep_products {k : ℕ} (solve : Solver k ℝ) {delta delta' : Fin k → Fin k → ℝ} {na nb rho rho' : Fin k → ℝ}
    (h : ∀ i j, delta' i j * rho' j = delta i j * rho j) (tol : ℝ) :
    newtonStep solve delta' na nb rho' tol = newtonStep solve delta na nb rho tol := by
  have hd : ∀ (nn x : Fin k → ℝ) (i : Fin k), dnx delta' rho' nn x i = dnx delta rho nn x i := by
    intro nn x i
    unfold dnx
    simp only [h]
  have hG : newtonG delta' na nb rho' = newtonG delta na nb rho := by
    funext x s
    rcases s with i | i <;> simp only [newtonG, hd]
  have hH : newtonH delta' na nb rho' = newtonH delta na nb rho := by
    funext x s t
    rcases s with i | i <;> rcases t with j | j <;> simp only [newtonH, hd, h]
  funext x
  unfold newtonStep
  rw [hG, hH]

section
variable {l u : ℝ} (hl : 0 < l) (hu : 0 < u) (pr : Fin n → PureRecord ℝ) (p : PcSaftParameters n ℝ)
include hl hu

theorem stateStrength_rescale (s : StateHD n ℝ) (i j : Fin n) :
    stateStrength (p.rescale l u pr) (s.rescale l u) i j = l ^ 3 * stateStrength p s i j := by
  have e : (fun i => hsDiameter (p.rescale l u pr) (s.rescale l u).temperature i * c (0.5 : ℝ))
      = fun i => l * (hsDiameter p s.temperature i * c (0.5 : ℝ)) := by
    funext i
    rw [show (s.rescale l u).temperature = u * s.temperature from rfl, hsDiameter_rescale hu, mul_assoc]
  unfold stateStrength
  dsimp only
  rw [packing_rescale hl hu, e]
  have e2 : assocN2 (p.rescale l u pr).m (s.rescale l u).partial_density
      (fun i => l * (hsDiameter p s.temperature i * c (0.5 : ℝ)))
      = assocN2 p.m s.partial_density (fun i => hsDiameter p s.temperature i * c (0.5 : ℝ)) / l := by
    rw [← assocN2_rescale hl]
    simp only [mul_assoc]
    rfl
  rw [e2]
  exact strength_rescale hl hu pr p _ _ _ _ _ _ _

theorem association_rescale (s : StateHD n ℝ) :
    association (p.rescale l u pr) (s.rescale l u) = association p s := by
  match hac : p.assoc_comp with
  | [] =>
    unfold association
    rw [show (p.rescale l u pr).assoc_comp = p.assoc_comp from rfl, hac]
  | a :: as =>
    rw [association_eq p s a as hac, association_eq (p.rescale l u pr) (s.rescale l u) a as hac,
      stateStrength_rescale hl hu]
    congr 2
    change l ^ 3 * stateStrength p s a a * (s.partial_density a / l ^ 3) = _
    generalize stateStrength p s a a = x
    field_simp

theorem crossAssociation_rescale (s : StateHD n ℝ) (max_iter : ℕ) (tol : ℝ)
    (solveF solveD : Solver p.assoc_comp.length ℝ)
    (hs : ∑ i, s.partial_density i < f64EPSILON ↔ ∑ i, s.partial_density i / l ^ 3 < f64EPSILON) :
    crossAssociation (p.rescale l u pr) max_iter tol 0 solveF solveD (s.rescale l u)
      = crossAssociation p max_iter tol 0 solveF solveD s := by
  refine (crossAssociation_real (p.rescale l u pr) max_iter tol solveF solveD (s.rescale l u)).trans ?_
  rw [crossAssociation_real]
  refine if_congr hs.symm rfl ?_
  have hloop : stateLoop (p.rescale l u pr) max_iter tol solveF (s.rescale l u) = stateLoop p max_iter tol solveF s := by
    unfold stateLoop
    refine congrArg (fun f => newtonLoop f max_iter _) (newtonStep_products solveF (fun i j => ?_) tol)
    rw [stateStrength_rescale hl hu]
    change l ^ 3 * stateStrength p s (p.assoc_comp.get i) (p.assoc_comp.get j)
      * (s.partial_density (p.assoc_comp.get j) / l ^ 3) = _ * s.partial_density (p.assoc_comp.get j)
    generalize stateStrength p s _ _ = x
    field_simp
  rw [hloop]
  cases stateLoop p max_iter tol solveF s with
  | error e => rfl
  | ok x =>
    refine congrArg Except.ok ?_
    change (∑ i, s.partial_density (p.assoc_comp.get i) / l ^ 3 * _) * (l ^ 3 * s.volume)
      = (∑ i, s.partial_density (p.assoc_comp.get i) * _) * s.volume
    rw [← mul_assoc, Finset.sum_mul]
    congr 1
    refine Finset.sum_congr rfl fun i _ => ?_
    rw [div_mul_eq_mul_div, div_mul_cancel₀ _ (by positivity)]
    rfl

theorem contribution_rescale (la : LinAlg ℝ ℝ) (hla : la.nderiv = 0) (s : StateHD n ℝ)
    (hs : p.nassoc ≤ 1 ∨ (∑ i, s.partial_density i < f64EPSILON ↔ ∑ i, s.partial_density i / l ^ 3 < f64EPSILON))
    (o : PcSaftOptions ℝ) (ct : Contribution ℝ) (hct : ct ∈ buildContributions p o) :
    ct.helmholtzEnergy la (p.rescale l u pr) (s.rescale l u) = ct.helmholtzEnergy la p s := by
  cases ct with
  | hardSphere => exact congrArg Except.ok (hardSphere_rescale hl hu pr p s)
  | hardChain => exact congrArg Except.ok (hardChain_rescale hl hu pr p s)
  | dispersion => exact congrArg Except.ok (dispersion_rescale hl hu pr p s)
  | dipole => exact congrArg Except.ok (dipole_rescale hl hu pr p s)
  | quadrupole => exact congrArg Except.ok (quadrupole_rescale hl hu pr p s)
  | dipoleQuadrupole v => exact congrArg Except.ok (dipoleQuadrupole_rescale hl hu pr p v s)
  | association => exact association_rescale hl hu pr p s
  | crossAssociation m tol =>
    rcases hs with hs | hs
    · exfalso
      simp only [buildContributions] at hct
      match hn : p.nassoc with
      | 0 => simp [hn] at hct
      | 1 => simp [hn] at hct
      | k + 2 => omega
    · simp only [Contribution.helmholtzEnergy, hla]
      exact crossAssociation_rescale hl hu pr p s m tol _ _ hs

theorem packing_inUnits (T V : ℝ) (N : Fin n → ℝ) :
    Spec.packingFraction (p.rescale l u pr) (u * T) (l ^ 3 * V) N = Spec.packingFraction p T V N := by
  rw [← zeta3_eq_packing, ← zeta3_eq_packing, hsDiameter_rescale' hu, new_rescale]
  exact zeta3_rescale hl _ _ _

theorem admissible_rescale {T V : ℝ} {N : Fin n → ℝ} (h : Admissible p T V N) :
    Admissible (p.rescale l u pr) (u * T) (l ^ 3 * V) N where
  temperature := mul_pos hu h.temperature
  volume := mul_pos (by positivity) h.volume
  m_pos := h.m_pos
  sigma_pos i := mul_pos hl (h.sigma_pos i)
  epsilon_nonneg i := mul_nonneg hu.le (h.epsilon_nonneg i)
  moles_nonneg := h.moles_nonneg
  moles_ne_zero := h.moles_ne_zero
  packing := by
    rw [packing_inUnits hl hu]
    exact h.packing

theorem stateDeltaRho_rescale (s : StateHD n ℝ) (a : Fin n) :
    stateDeltaRho (p.rescale l u pr) (s.rescale l u) a = stateDeltaRho p s a := by
  change stateStrength (p.rescale l u pr) (s.rescale l u) a a * (s.partial_density a / l ^ 3)
    = stateStrength p s a a * s.partial_density a
  rw [stateStrength_rescale hl hu]
  generalize stateStrength p s a a = x
  field_simp

omit p in
theorem regular_inUnits {k : Fin n → Fin n → ℝ} {T V : ℝ} {N : Fin n → ℝ} (h : Admissible (fromRecords pr k) T V N)
    (ct : Contribution ℝ) (hr : Regular (fromRecords pr k) T V N ct) :
    Regular (fromRecords (fun i => inUnits l u (pr i)) k) (u * T) (l ^ 3 * V) N ct := by
  have e := fromRecords_inUnits hl hu pr k
  have hl3 : l ^ 3 ≠ 0 := by positivity
  have eta : ∀ s : StateHD n ℝ, stateEta ((fromRecords pr k).rescale l u fun i => inUnits l u (pr i)) (s.rescale l u)
      = stateEta (fromRecords pr k) s := fun s => packing_rescale hl hu _ _ s
  cases ct with
  | hardSphere => trivial
  | hardChain => trivial
  | dispersion => trivial
  | dipole =>
    simp only [Regular, dipolePhis, ne_eq] at hr ⊢
    rw [e, new_rescale, eta]
    simp only [StateHD.rescale, dipolePhi2_rescale hl hu, dipolePhi3_rescale hl hu, div_mul_eq_mul_div,
      div_left_inj' hl3]
    exact hr
  | quadrupole =>
    simp only [Regular, quadrupolePhis, ne_eq] at hr ⊢
    rw [e, new_rescale, eta]
    simp only [StateHD.rescale, quadrupolePhi2_rescale hl hu, quadrupolePhi3_rescale hl hu, div_mul_eq_mul_div,
      div_left_inj' hl3]
    exact hr
  | dipoleQuadrupole v =>
    simp only [Regular, dipoleQuadrupolePhis, ne_eq] at hr ⊢
    rw [e, new_rescale, eta]
    simp only [StateHD.rescale, dipoleQuadrupolePhi2_rescale hl hu, dipoleQuadrupolePhi3_rescale hl hu,
      div_mul_eq_mul_div, div_left_inj' hl3]
    exact hr
  | association =>
    obtain ⟨a, ha, h1, h2, h3, h4, h5⟩ := hr
    have ha' : (fromRecords (fun i => inUnits l u (pr i)) k).assoc_comp = [a] := ha
    have hadm : Admissible (fromRecords (fun i => inUnits l u (pr i)) k) (u * T) (l ^ 3 * V) N := by
      rw [e]
      exact admissible_rescale hl hu _ _ h
    refine ⟨a, ha', ?_, h2, h3, h4, ?_⟩
    · rw [e]
      exact mul_nonneg hu.le h1
    · rw [← stateDeltaRho_eq hadm a [] ha', e, new_rescale, stateDeltaRho_rescale hl hu, stateDeltaRho_eq h a [] ha]
      exact h5
  | crossAssociation m tol => exact hr.elim

end

/-- C84: in other units of length and energy (temperature, volume, diameters, energies and multipole moments converted
accordingly) every contribution to the residual Helmholtz energy in units of `k_B T` keeps its value. With several
associating components both densities have to be on the same side of the cutoff, which is a fixed number. -/
theorem C84_contribution {l u : ℝ} (hl : 0 < l) (hu : 0 < u) (la : LinAlg ℝ ℝ) (hla : la.nderiv = 0)
    (pr : Fin n → PureRecord ℝ) (k : Fin n → Fin n → ℝ) (o : PcSaftOptions ℝ) (T V : ℝ) (N : Fin n → ℝ)
    (hs : (fromRecords pr k).nassoc ≤ 1
      ∨ (∑ i, N i / V < f64EPSILON ↔ ∑ i, N i / V / l ^ 3 < f64EPSILON))
    (ct : Contribution ℝ) (hct : ct ∈ (Eos.withOptions (fromRecords pr k) o).contributions) :
    ct.helmholtzEnergy la (fromRecords (fun i => inUnits l u (pr i)) k) (StateHD.new (u * T) (l ^ 3 * V) N)
      = ct.helmholtzEnergy la (fromRecords pr k) (StateHD.new T V N) := by
  rw [fromRecords_inUnits hl hu, new_rescale]
  exact contribution_rescale hl hu _ _ la hla _ hs o ct hct

/-- C84: the residual Helmholtz energy divided by `k_B T` does not depend on the units of length and energy. -/
theorem C84_residual {l u : ℝ} (hl : 0 < l) (hu : 0 < u) (la : LinAlg ℝ ℝ) (hla : la.nderiv = 0)
    (pr : Fin n → PureRecord ℝ) (k : Fin n → Fin n → ℝ) (o : PcSaftOptions ℝ) (T V : ℝ) (N : Fin n → ℝ)
    (hs : (fromRecords pr k).nassoc ≤ 1
      ∨ (∑ i, N i / V < f64EPSILON ↔ ∑ i, N i / V / l ^ 3 < f64EPSILON)) :
    (Eos.withOptions (fromRecords (fun i => inUnits l u (pr i)) k) o).residualHelmholtz la
        (StateHD.new (u * T) (l ^ 3 * V) N)
      = (Eos.withOptions (fromRecords pr k) o).residualHelmholtz la (StateHD.new T V N) := by
  have hb : buildContributions (fromRecords (fun i => inUnits l u (pr i)) k) o = buildContributions (fromRecords pr k) o := by
    rw [fromRecords_inUnits hl hu]
    rfl
  have h : ∀ (f g : ℝ → Contribution ℝ → Except Panic ℝ) (cs : List (Contribution ℝ)),
      (∀ acc, ∀ ct ∈ cs, f acc ct = g acc ct) → ∀ acc : ℝ, cs.foldlM f acc = cs.foldlM g acc := by
    intro f g cs
    induction cs with
    | nil => intro _ acc; rfl
    | cons ct cs ih =>
      intro hcs acc
      rw [List.foldlM_cons, List.foldlM_cons, hcs acc ct (by simp)]
      cases g acc ct with
      | error e => rfl
      | ok a => exact ih (fun acc ct hct => hcs acc ct (by simp [hct])) _
  unfold Eos.residualHelmholtz
  simp only [Eos.withOptions, hb]
  refine h _ _ _ (fun acc ct hct => ?_) _
  rw [C84_contribution hl hu la hla pr k o T V N hs ct hct]

/-- C84: the maximum density used by the density solver is converted like a density. -/
theorem C84_max_density {l u : ℝ} (hl : 0 < l) (hu : 0 < u) (pr : Fin n → PureRecord ℝ) (k : Fin n → Fin n → ℝ)
    (o : PcSaftOptions ℝ) (N : Fin n → ℝ) :
    (Eos.withOptions (fromRecords (fun i => inUnits l u (pr i)) k) o).maxDensity N
      = (Eos.withOptions (fromRecords pr k) o).maxDensity N / l ^ 3 := by
  rw [fromRecords_inUnits hl hu]
  simp only [Eos.maxDensity, Eos.withOptions, computeMaxDensity, PcSaftParameters.rescale, sumFin_real, powi_real,
    mul_pow]
  rw [div_div, Finset.sum_mul]
  refine congrArg _ (Finset.sum_congr rfl fun i _ => ?_)
  generalize (F64.pi / 6.0 : ℝ) = y
  ring

section generic
variable {D X : Type} [DualNum ℝ D] [TopologicalSpace X] {x0 : X} {ρ : Rep x0 Same D}

/-- C84 for derivatives: in every number type whose elements represent functions -/
theorem units_dual (hρ : Complete ρ) {l u : ℝ} (hl : 0 < l) (hu : 0 < u) (laD : LinAlg ℝ D)
    (pr : Fin n → PureRecord ℝ) (k : Fin n → Fin n → ℝ) (o : PcSaftOptions ℝ) (T V : D) (N : Fin n → D)
    (h : Admissible (fromRecords pr k) (DualNum.re T) (DualNum.re V) (fun i => DualNum.re (N i)))
    (hr : ∀ ct ∈ buildContributions (fromRecords pr k) o,
      Regular (fromRecords pr k) (DualNum.re T) (DualNum.re V) (fun i => DualNum.re (N i)) ct) :
    ∃ d, (Eos.withOptions (fromRecords pr k) o).residualHelmholtz laD (StateHD.new T V N) = .ok d
      ∧ (Eos.withOptions (fromRecords (fun i => inUnits l u (pr i)) k) o).residualHelmholtz laD
        (StateHD.new (c u * T) (c (l ^ 3) * V) N) = .ok d := by
  obtain ⟨Tf, hT⟩ := hρ.exists_function T
  obtain ⟨Vf, hV⟩ := hρ.exists_function V
  choose Nf hN using fun i => hρ.exists_function (N i)
  rw [ρ.re hT, ρ.re hV] at h hr
  simp only [fun i => ρ.re (hN i)] at h hr
  have hle : (fromRecords pr k).nassoc ≤ 1 := by
    by_contra hcon
    obtain ⟨m, hm⟩ := Nat.exists_eq_add_of_le' (not_le.1 hcon)
    refine hr (.crossAssociation o.max_iter_cross_assoc o.tol_cross_assoc) ?_
    simp [buildContributions, hm]
  refine residual_transfer_eq hρ anyLinAlg laD o hT hV hN (ρ.mul (ρ.const u) hT) (ρ.mul (ρ.const (l ^ 3)) hV) hN h hr ?_ ?_
    (.of_forall fun x => C84_residual hl hu anyLinAlg rfl pr k o (Tf x) (Vf x) (fun i => Nf i x) (Or.inl hle))
  · rw [fromRecords_inUnits hl hu]
    exact admissible_rescale hl hu _ _ h
  · intro ct hct
    refine regular_inUnits hl hu pr h ct (hr ct ?_)
    rw [fromRecords_inUnits hl hu] at hct
    exact hct

end generic

/-- C84 in first order dual numbers: temperature and volume seeded in any direction and converted give the same result,
so that the derivatives of order up to one are converted like the quantities themselves. -/
theorem C84_first_order {l u : ℝ} (hl : 0 < l) (hu : 0 < u) (laD : LinAlg ℝ (Dual ℝ)) (pr : Fin n → PureRecord ℝ)
    (k : Fin n → Fin n → ℝ) (o : PcSaftOptions ℝ) (T V : Dual ℝ) (N : Fin n → Dual ℝ)
    (h : Admissible (fromRecords pr k) T.re V.re (fun i => (N i).re))
    (hr : ∀ ct ∈ buildContributions (fromRecords pr k) o,
      Regular (fromRecords pr k) T.re V.re (fun i => (N i).re) ct) :
    ∃ d, (Eos.withOptions (fromRecords pr k) o).residualHelmholtz laD (StateHD.new T V N) = .ok d
      ∧ (Eos.withOptions (fromRecords (fun i => inUnits l u (pr i)) k) o).residualHelmholtz laD
        (StateHD.new (c u * T) (c (l ^ 3) * V) N) = .ok d :=
  units_dual complete_rho1 hl hu laD pr k o T V N h hr

/-- C84 in second order dual numbers: temperature and volume seeded in any direction and converted give the same result,
so that the derivatives of order up to two are converted like the quantities themselves. -/
theorem C84_second_order {l u : ℝ} (hl : 0 < l) (hu : 0 < u) (laD : LinAlg ℝ (Dual (Dual ℝ))) (pr : Fin n → PureRecord ℝ)
    (k : Fin n → Fin n → ℝ) (o : PcSaftOptions ℝ) (T V : Dual (Dual ℝ)) (N : Fin n → Dual (Dual ℝ))
    (h : Admissible (fromRecords pr k) T.re.re V.re.re (fun i => (N i).re.re))
    (hr : ∀ ct ∈ buildContributions (fromRecords pr k) o,
      Regular (fromRecords pr k) T.re.re V.re.re (fun i => (N i).re.re) ct) :
    ∃ d, (Eos.withOptions (fromRecords pr k) o).residualHelmholtz laD (StateHD.new T V N) = .ok d
      ∧ (Eos.withOptions (fromRecords (fun i => inUnits l u (pr i)) k) o).residualHelmholtz laD
        (StateHD.new (c u * T) (c (l ^ 3) * V) N) = .ok d :=
  units_dual complete_rho2 hl hu laD pr k o T V N h hr

/-- C84 in third order dual numbers: temperature and volume seeded in any direction and converted give the same result,
so that the derivatives of order up to three are converted like the quantities themselves. -/
theorem C84_third_order {l u : ℝ} (hl : 0 < l) (hu : 0 < u) (laD : LinAlg ℝ (Dual (Dual (Dual ℝ)))) (pr : Fin n → PureRecord ℝ)
    (k : Fin n → Fin n → ℝ) (o : PcSaftOptions ℝ) (T V : Dual (Dual (Dual ℝ))) (N : Fin n → Dual (Dual (Dual ℝ)))
    (h : Admissible (fromRecords pr k) T.re.re.re V.re.re.re (fun i => (N i).re.re.re))
    (hr : ∀ ct ∈ buildContributions (fromRecords pr k) o,
      Regular (fromRecords pr k) T.re.re.re V.re.re.re (fun i => (N i).re.re.re) ct) :
    ∃ d, (Eos.withOptions (fromRecords pr k) o).residualHelmholtz laD (StateHD.new T V N) = .ok d
      ∧ (Eos.withOptions (fromRecords (fun i => inUnits l u (pr i)) k) o).residualHelmholtz laD
        (StateHD.new (c u * T) (c (l ^ 3) * V) N) = .ok d :=
  units_dual complete_rho3 hl hu laD pr k o T V N h hr

/-- an associating and an inert component, described in nanometres (instead of Ångström) and energies in millikelvin -/
example (la : LinAlg ℝ ℝ) (hla : la.nderiv = 0) (o : PcSaftOptions ℝ) :
    (Eos.withOptions (fromRecords (fun i => inUnits (1 / 10) 1000 (assocRecords i)) (fun _ _ => 0)) o).residualHelmholtz la
        (StateHD.new (1000 * 300) ((1 / 10) ^ 3 * 1000) (fun _ => 1))
      = (Eos.withOptions (fromRecords assocRecords (fun _ _ => 0)) o).residualHelmholtz la
        (StateHD.new 300 1000 (fun _ => 1)) :=
  C84_residual (by norm_num) (by norm_num) la hla assocRecords (fun _ _ => 0) o 300 1000 (fun _ => 1)
    (Or.inl (by simp [nassoc_of assocRecords_comp]))

/-- two associating components and an inert one: the densities are above the cutoff in both systems of units -/
example (o : PcSaftOptions ℝ) (k : Fin 3 → Fin 3 → ℝ) :
    (Eos.withOptions (fromRecords (fun i => inUnits (1 / 10) 1000 (brineRecords i)) k) o).residualHelmholtz exactLinAlg
        (StateHD.new (1000 * 300) ((1 / 10) ^ 3 * 1000) (fun _ => 1))
      = (Eos.withOptions (fromRecords brineRecords k) o).residualHelmholtz exactLinAlg
        (StateHD.new 300 1000 (fun _ => 1)) := by
  refine C84_residual (by norm_num) (by norm_num) exactLinAlg rfl brineRecords k o 300 1000 (fun _ => 1) (Or.inr ?_)
  have e : (f64EPSILON : ℝ) < 1 / 1000 := by
    simp only [f64EPSILON]
    norm_num
  constructor <;> intro h <;> exfalso <;> norm_num at h <;> norm_num at e <;> linarith

example (o : PcSaftOptions ℝ) := C84_max_density (l := 1 / 10) (u := 1000) (by norm_num) (by norm_num) assocRecords
  (fun _ _ => 0) o (fun _ => 1)

example (laD : LinAlg ℝ (Dual ℝ)) (T' V' : ℝ) (N' : Fin 2 → ℝ) :=
  C84_first_order (l := 1 / 10) (u := 1000) (by norm_num) (by norm_num) laD assocRecords (fun _ _ => 0)
    PcSaftOptions.default ⟨300, T'⟩ ⟨1000, V'⟩ (fun i => ⟨1, N' i⟩) assocRecords_admissible (assocRecords_regular _)

example (laD : LinAlg ℝ (Dual (Dual ℝ))) (t1 v1 : Dual ℝ) (x1 : Fin 2 → Dual ℝ) (t0 v0 : ℝ) (x0 : Fin 2 → ℝ) :=
  C84_second_order (l := 1 / 10) (u := 1000) (by norm_num) (by norm_num) laD assocRecords (fun _ _ => 0)
    PcSaftOptions.default ⟨⟨300, t0⟩, t1⟩ ⟨⟨1000, v0⟩, v1⟩ (fun i => ⟨⟨1, x0 i⟩, x1 i⟩) assocRecords_admissible
    (assocRecords_regular _)

example (laD : LinAlg ℝ (Dual (Dual (Dual ℝ)))) :=
  C84_third_order (l := 1 / 10) (u := 1000) (by norm_num) (by norm_num) laD assocRecords (fun _ _ => 0)
    PcSaftOptions.default (c 300) ⟨⟨⟨1000, 1⟩, ⟨1, 0⟩⟩, ⟨⟨1, 0⟩, ⟨0, 0⟩⟩⟩ (fun _ => c 1) assocRecords_admissible
    (assocRecords_regular _)

end PcSaft.Props
