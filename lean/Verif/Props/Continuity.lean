import Verif.Spec.Perturbation
import Verif.Lemmas.Perturbation
import Verif.Props.Rounding

/-!
# Property C104: results depend continuously on the parameters

Slightly different records, binary parameters and states give slightly different results: the residual
Helmholtz energy and all its derivatives change by at most a constant times the change of the numbers.
-/

open Filter Topology

namespace PcSaft.Props
open PcSaft.Spec
variable {n : ℕ}

/-! ### Helpers -/

theorem option_off {u : ℝ} (hu : 0 ≤ u) {x x' : Option ℝ} (h : Option.Rel (OffByKeepingZero u) x x') :
    Option.Rel (Input (Arithmetic.loose u hu)) x (x'.map Rd.mk) := by
  cases h with
  | none => exact .none
  | some h => exact .some ⟨h.1, h.2⟩

theorem record_off {u : ℝ} (hu : 0 ≤ u) {r r' : PureRecord ℝ} (h : RecordOffBy u r r') :
    RecordInput (Arithmetic.loose u hu) r (r'.mapHom Rd.mk) where
  m := ⟨h.m.1, h.m.2⟩
  sigma := ⟨h.sigma.1, h.sigma.2⟩
  epsilon_k := ⟨h.epsilon_k.1, h.epsilon_k.2⟩
  mu := option_off hu h.mu
  q := option_off hu h.q
  kappa_ab := option_off hu h.kappa_ab
  epsilon_k_ab := option_off hu h.epsilon_k_ab
  na := option_off hu h.na
  nb := option_off hu h.nb

/-- records, binary parameters and a state that are off by `u` -/
structure OffRun (k : ℕ) (pr : Fin n → PureRecord ℝ) (kij : Fin n → Fin n → ℝ) (T V : Nest ℝ k)
    (N : Fin n → Nest ℝ k) where
  u : ℝ
  u_nonneg : 0 ≤ u
  pr' : Fin n → PureRecord ℝ
  kij' : Fin n → Fin n → ℝ
  T' : Nest ℝ k
  V' : Nest ℝ k
  N' : Fin n → Nest ℝ k
  records : ∀ j, RecordOffBy u (pr j) (pr' j)
  binary : ∀ j l, OffBy u (kij j l) (kij' j l)
  temperature : Componentwise (OffBy u) k T T'
  volume : Componentwise (OffBy u) k V V'
  moles : ∀ j, Componentwise (OffBy u) k (N j) (N' j)

theorem offBy_self {u : ℝ} (hu : 0 ≤ u) (x : ℝ) : OffBy u x x := by
  rw [OffBy, sub_self, abs_zero]
  positivity

theorem option_self {u : ℝ} (hu : 0 ≤ u) (x : Option ℝ) : Option.Rel (OffByKeepingZero u) x x := by
  cases x with
  | none => exact .none
  | some x => exact .some ⟨offBy_self hu x, id⟩

theorem recordOffBy_self {u : ℝ} (hu : 0 ≤ u) (r : PureRecord ℝ) : RecordOffBy u r r :=
  ⟨⟨offBy_self hu _, id⟩, ⟨offBy_self hu _, id⟩, ⟨offBy_self hu _, id⟩, option_self hu _, option_self hu _,
    option_self hu _, option_self hu _, option_self hu _, option_self hu _⟩

theorem componentwise_self {u : ℝ} (hu : 0 ≤ u) (k : ℕ) (x : Nest ℝ k) : Componentwise (OffBy u) k x x := by
  induction k with
  | zero => exact offBy_self hu x
  | succ k ih => exact ⟨ih _, ih _⟩

noncomputable def OffRun.exact (k : ℕ) (pr : Fin n → PureRecord ℝ) (kij : Fin n → Fin n → ℝ) (T V : Nest ℝ k)
    (N : Fin n → Nest ℝ k) : OffRun k pr kij T V N :=
  ⟨0, le_rfl, pr, kij, T, V, N, fun _ => recordOffBy_self le_rfl _, fun _ _ => offBy_self le_rfl _,
    componentwise_self le_rfl _ _, componentwise_self le_rfl _ _, fun _ => componentwise_self le_rfl _ _⟩

/-- the arithmetic that declares the errors of the numbers handed over -/
noncomputable abbrev OffRun.ar {k : ℕ} {pr : Fin n → PureRecord ℝ} {kij : Fin n → Fin n → ℝ} {T V : Nest ℝ k}
    {N : Fin n → Nest ℝ k} (r : OffRun k pr kij T V N) : Arithmetic := .loose r.u r.u_nonneg

instance (k : ℕ) (pr : Fin n → PureRecord ℝ) (kij : Fin n → Fin n → ℝ) (T V : Nest ℝ k) (N : Fin n → Nest ℝ k) :
    (fine fun r : OffRun k pr kij T V N => r.ar).NeBot := by
  refine comap_neBot fun t ht => ⟨OffRun.exact k pr kij T V N, ?_⟩
  exact mem_of_mem_nhds ht

/-! ### The property -/

/-- Errors of the parameters and the state. The energy and all its derivatives (the components of dual numbers
nested `k` times) change by at most `K * u` if every number of the records, every binary parameter and every
component of the state changes by at most `u`, for all small `u`. -/
theorem C104_lipschitz (k : ℕ) {pr : Fin n → PureRecord ℝ} {kij : Fin n → Fin n → ℝ} {T V : Nest ℝ k}
    {N : Fin n → Nest ℝ k} {o : PcSaftOptions ℝ} (he : ∀ i, 0 < (pr i).model_record.epsilon_k)
    (hkap : ∀ i, 0 ≤ (fromRecords pr kij).kappa_ab i)
    (h : Admissible (fromRecords pr kij) (DualNum.re T) (DualNum.re V) (fun i => DualNum.re (N i)))
    (hr : ∀ ct ∈ buildContributions (fromRecords pr kij) o,
      Regular (fromRecords pr kij) (DualNum.re T) (DualNum.re V) (fun i => DualNum.re (N i)) ct)
    (la : LinAlg ℝ (Nest ℝ k)) :
    ∃ d, (Eos.withOptions (fromRecords pr kij) o).residualHelmholtz la (StateHD.new T V N) = .ok d
      ∧ ∃ K u0 : ℝ, 0 < u0 ∧ ∀ u : ℝ, 0 ≤ u → u ≤ u0 →
        ∀ (pr' : Fin n → PureRecord ℝ) (kij' : Fin n → Fin n → ℝ) (T' V' : Nest ℝ k) (N' : Fin n → Nest ℝ k)
          (o' : PcSaftOptions ℝ) (la' : LinAlg ℝ (Nest ℝ k)),
        (∀ j, RecordOffBy u (pr j) (pr' j)) → (∀ j l, OffBy u (kij j l) (kij' j l)) →
        Componentwise (OffBy u) k T T' → Componentwise (OffBy u) k V V' →
        (∀ j, Componentwise (OffBy u) k (N j) (N' j)) → o'.dq_variant = o.dq_variant →
        ∃ d', (Eos.withOptions (fromRecords pr' kij') o').residualHelmholtz la' (StateHD.new T' V' N') = .ok d'
          ∧ Componentwise (fun y y' : ℝ => |y' - y| ≤ K * u) k d d' := by
  obtain ⟨d, hd, K, hK⟩ := residual_near (ar := fun r : OffRun k pr kij T V N => r.ar) he hkap h hr
    (pr' := fun r j => (r.pr' j).mapHom Rd.mk) (kij' := fun r i j => ⟨r.kij' i j⟩)
    (T' := fun r => Nest.map Rd.mk k r.T') (V' := fun r => Nest.map Rd.mk k r.V')
    (N' := fun r j => Nest.map Rd.mk k (r.N' j))
    (fun r j => record_off r.u_nonneg (r.records j)) (fun r => r.binary)
    (fun r => componentwise_mk _ _ k _ _ r.temperature) (fun r => componentwise_mk _ _ k _ _ r.volume)
    (fun r j => componentwise_mk _ _ k _ _ (r.moles j)) la
  have hl := lists_near (ar := fun r : OffRun k pr kij T V N => r.ar) (kij := kij)
    (pr' := fun r j => (r.pr' j).mapHom Rd.mk) (kij' := fun r i j => ⟨r.kij' i j⟩)
    (fun r j => record_off r.u_nonneg (r.records j)) h.m_pos h.sigma_pos he
  obtain ⟨u0, hu0, hb⟩ := eventually_fine (hK.and hl)
  refine ⟨d, hd, K, u0, hu0, fun u hu0 hu pr' kij' T' V' N' o' la' h1 h2 h3 h4 h5 h6 => ?_⟩
  obtain ⟨hc, -, -, hlist⟩ := hb ⟨u, hu0, pr', kij', T', V', N', h1, h2, h3, h4, h5⟩ hu
  obtain ⟨d', hd', hdd⟩ := hc ⟨⟨0⟩, 0, ⟨0⟩, o.dq_variant⟩ ⟨fun _ _ b => some b, fun _ _ b => some b, 0⟩ rfl
  have hn := nassoc_le_one_of_regular hr
  have hn' : (fromRecords pr' kij').nassoc ≤ 1 := by
    have e := congrArg PcSaftParameters.assoc_comp (loose_parameters u hu0 pr' kij')
    have e' : (fromRecords (fun j => (pr' j).mapHom (Rd.mk (a := Arithmetic.loose u hu0)))
      (fun i j => ⟨kij' i j⟩)).assoc_comp = (fromRecords pr' kij').assoc_comp := e
    rw [PcSaftParameters.nassoc, ← e', hlist]
    exact hn
  refine ⟨Nest.map (fun x : Rd (Arithmetic.loose u hu0) => x.val) k d', ?_, componentwise_val u hu0 k _ _ hdd⟩
  rw [loose_residual u hu0 k pr' kij' T' V' N' o' ⟨⟨0⟩, 0, ⟨0⟩, o.dq_variant⟩ h6 la'
    ⟨fun _ _ b => some b, fun _ _ b => some b, 0⟩ hn', hd']
  rfl

section records
variable {pr : Fin n → PureRecord ℝ} {kij : Fin n → Fin n → ℝ} {T V : ℝ} {N : Fin n → ℝ} {o : PcSaftOptions ℝ}
  (he : ∀ i, 0 < (pr i).model_record.epsilon_k) (hkap : ∀ i, 0 ≤ (fromRecords pr kij).kappa_ab i)
  (h : Admissible (fromRecords pr kij) T V N)
  (hr : ∀ ct ∈ buildContributions (fromRecords pr kij) o, Regular (fromRecords pr kij) T V N ct)
include he hkap h hr

/-- The value of the energy. -/
theorem C104_value (la : LinAlg ℝ ℝ) :
    ∃ A, (Eos.withOptions (fromRecords pr kij) o).residualHelmholtz la (StateHD.new T V N) = .ok A
      ∧ ∃ K u0 : ℝ, 0 < u0 ∧ ∀ u : ℝ, 0 ≤ u → u ≤ u0 →
        ∀ (pr' : Fin n → PureRecord ℝ) (kij' : Fin n → Fin n → ℝ) (T' V' : ℝ) (N' : Fin n → ℝ)
          (o' : PcSaftOptions ℝ) (la' : LinAlg ℝ ℝ),
        (∀ j, RecordOffBy u (pr j) (pr' j)) → (∀ j l, OffBy u (kij j l) (kij' j l)) →
        OffBy u T T' → OffBy u V V' → (∀ j, OffBy u (N j) (N' j)) → o'.dq_variant = o.dq_variant →
        ∃ A', (Eos.withOptions (fromRecords pr' kij') o').residualHelmholtz la' (StateHD.new T' V' N') = .ok A'
          ∧ |A' - A| ≤ K * u :=
  C104_lipschitz 0 he hkap h hr la

/-- The energy for ever better parameters: fits, decimal digits or unit conversions that converge to the intended
numbers give energies that converge to the intended energy. -/
theorem C104_converges (la : LinAlg ℝ ℝ) (u : ℕ → ℝ) (hu : Tendsto u atTop (𝓝 0)) (hu0 : ∀ i, 0 ≤ u i)
    (pr' : ℕ → Fin n → PureRecord ℝ) (kij' : ℕ → Fin n → Fin n → ℝ) (T' V' : ℕ → ℝ) (N' : ℕ → Fin n → ℝ)
    (hrec : ∀ i j, RecordOffBy (u i) (pr j) (pr' i j)) (hkij : ∀ i j l, OffBy (u i) (kij j l) (kij' i j l))
    (hT : ∀ i, OffBy (u i) T (T' i)) (hV : ∀ i, OffBy (u i) V (V' i)) (hN : ∀ i j, OffBy (u i) (N j) (N' i j)) :
    ∃ (A : ℝ) (A' : ℕ → ℝ), (Eos.withOptions (fromRecords pr kij) o).residualHelmholtz la (StateHD.new T V N) = .ok A
      ∧ (∀ᶠ i in atTop, (Eos.withOptions (fromRecords (pr' i) (kij' i)) o).residualHelmholtz la
        (StateHD.new (T' i) (V' i) (N' i)) = .ok (A' i))
      ∧ Tendsto A' atTop (𝓝 A) := by
  obtain ⟨A, hA, K, u0, hu0', hb⟩ := C104_value he hkap h hr la
  have hev : ∀ᶠ i in atTop, ∃ A' : ℝ, (Eos.withOptions (fromRecords (pr' i) (kij' i)) o).residualHelmholtz
      la (StateHD.new (T' i) (V' i) (N' i)) = .ok A' ∧ |A' - A| ≤ K * u i := by
    filter_upwards [hu.eventually (gt_mem_nhds hu0')] with i hi
    exact hb (u i) (hu0 i) hi.le (pr' i) (kij' i) (T' i) (V' i) (N' i) o la (hrec i) (hkij i) (hT i) (hV i) (hN i) rfl
  classical
  refine ⟨A, fun i => if hi : ∃ A' : ℝ, (Eos.withOptions (fromRecords (pr' i) (kij' i)) o).residualHelmholtz
      la (StateHD.new (T' i) (V' i) (N' i)) = .ok A' ∧ |A' - A| ≤ K * u i then hi.choose else 0, hA, ?_, ?_⟩
  · filter_upwards [hev] with i hi
    rw [dif_pos hi]
    exact hi.choose_spec.1
  · rw [tendsto_iff_dist_tendsto_zero]
    refine squeeze_zero' (.of_forall fun _ => dist_nonneg) ?_ (by simpa using hu.const_mul K)
    filter_upwards [hev] with i hi
    rw [dif_pos hi]
    exact hi.choose_spec.2

end records

/-! ## Non-vacuity -/

/-- C104 for a mixture of an associating and a plain component -/
example (o : PcSaftOptions ℝ) (la : LinAlg ℝ ℝ) := C104_value (pr := assocRecords) (kij := fun _ _ => 0) (o := o)
  (fun i => (assocRecords_positive i).2.2) assocRecords_kappa assocRecords_admissible (assocRecords_regular o) la

/-- C104 for the derivatives of its energy -/
example (o : PcSaftOptions ℝ) (la : LinAlg ℝ (Nest ℝ 2)) := C104_lipschitz 2 (pr := assocRecords)
  (kij := fun _ _ => 0) (T := ⟨⟨(300 : ℝ), (1 : ℝ)⟩, ⟨(0 : ℝ), (0 : ℝ)⟩⟩)
  (V := ⟨⟨(1000 : ℝ), (0 : ℝ)⟩, ⟨(1 : ℝ), (0 : ℝ)⟩⟩) (N := fun _ => ⟨⟨(1 : ℝ), (0 : ℝ)⟩, ⟨(0 : ℝ), (0 : ℝ)⟩⟩) (o := o)
  (fun i => (assocRecords_positive i).2.2) assocRecords_kappa assocRecords_admissible (assocRecords_regular o) la

/-- records with a segment diameter of 3.001 and an association volume of 0.0301 instead of 3 and 0.03 are off -/
example : RecordOffBy 0.001 (assocRecords 0)
    { assocRecords 0 with model_record :=
      { (assocRecords 0).model_record with sigma := 3.001, kappa_ab := some 0.0301 } } := by
  have h : (0 : ℝ) ≤ 0.001 := by norm_num
  have e : (assocRecords 0).model_record.kappa_ab = some 0.03 := rfl
  refine ⟨(recordOffBy_self h _).m, ⟨?_, ?_⟩, (recordOffBy_self h _).epsilon_k, (recordOffBy_self h _).mu,
    (recordOffBy_self h _).q, ?_, (recordOffBy_self h _).epsilon_k_ab, (recordOffBy_self h _).na,
    (recordOffBy_self h _).nb⟩
  · norm_num [OffBy, assocRecords, abs_of_pos]
  · norm_num [assocRecords]
  · rw [e]
    refine .some ⟨?_, ?_⟩ <;> norm_num [OffBy, abs_of_pos]

/-- energies for a binary parameter that becomes smaller and smaller converge -/
example (o : PcSaftOptions ℝ) (la : LinAlg ℝ ℝ) (d : ℕ → ℝ) (hd : ∀ i, |d i - 0| ≤ 1 / 10 ^ i) :=
  C104_converges (pr := assocRecords) (kij := fun _ _ => 0) (o := o)
    (fun i => (assocRecords_positive i).2.2) assocRecords_kappa assocRecords_admissible (assocRecords_regular o) la
    (fun i => 1 / 10 ^ i) (by simpa using tendsto_pow_atTop_nhds_zero_of_lt_one (r := (10 : ℝ)⁻¹) (by norm_num) (by norm_num))
    (fun i => by positivity) (fun _ => assocRecords) (fun i _ _ => d i) (fun _ => 300) (fun _ => 1000) (fun _ _ => 1)
    (fun i j => recordOffBy_self (by positivity) _) (fun i _ _ => by simpa [OffBy] using hd i)
    (fun i => offBy_self (by positivity) _) (fun i => offBy_self (by positivity) _)
    (fun i _ => offBy_self (by positivity) _)

end PcSaft.Props
