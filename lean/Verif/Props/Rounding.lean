import Verif.Lemmas.RoundingEos
import Verif.Props.Derivatives
import Verif.Props.Examples

/-!
# Property C90: rounding errors stay small

The residual Helmholtz energy and its derivatives evaluated with rounding in every operation, for records and
states that are themselves rounded, differ from the exact values by at most a constant times the rounding unit.
The constant and the precision from which on the bound holds depend on the state and the substances, not on the
arithmetic.
-/

open Filter Topology

namespace PcSaft.Props
open PcSaft.Spec
variable {n : ℕ}

/-! ### Exact numbers as rounded numbers -/

/-- numbers handed over without an error -/
def _root_.PcSaft.Spec.handOver (a : Arithmetic) (x : ℝ) : Rd a := ⟨x⟩

theorem input_handOver (a : Arithmetic) (x : ℝ) : Input a x (handOver a x) where
  near := by
    rw [handOver, sub_self, abs_zero]
    have := a.u_nonneg
    positivity
  zero h := h

theorem option_handOver (a : Arithmetic) (x : Option ℝ) : Option.Rel (Input a) x (x.map (handOver a)) := by
  cases x with
  | none => exact .none
  | some x => exact .some (input_handOver a x)

theorem record_handOver (a : Arithmetic) (r : PureRecord ℝ) : RecordInput a r (r.mapHom (handOver a)) :=
  ⟨input_handOver a _, input_handOver a _, input_handOver a _, option_handOver a _, option_handOver a _,
    option_handOver a _, option_handOver a _, option_handOver a _, option_handOver a _⟩

theorem componentwise_handOver (a : Arithmetic) (k : ℕ) (x : Nest ℝ k) :
    Componentwise (Input a) k x (Nest.map (handOver a) k x) := by
  induction k with
  | zero => exact input_handOver a x
  | succ k ih => exact ⟨ih x.re, ih x.eps⟩

/-- a run of the code with rounding for given exact numbers -/
structure RoundedRun (k : ℕ) (pr : Fin n → PureRecord ℝ) (kij : Fin n → Fin n → ℝ) (T V : Nest ℝ k)
    (N : Fin n → Nest ℝ k) where
  a : Arithmetic
  pr' : Fin n → PureRecord (Rd a)
  kij' : Fin n → Fin n → Rd a
  T' : Nest (Rd a) k
  V' : Nest (Rd a) k
  N' : Fin n → Nest (Rd a) k
  records : ∀ j, RecordInput a (pr j) (pr' j)
  binary : ∀ j l, Input a (kij j l) (kij' j l)
  temperature : Componentwise (Input a) k T T'
  volume : Componentwise (Input a) k V V'
  moles : ∀ j, Componentwise (Input a) k (N j) (N' j)

noncomputable def RoundedRun.exact (k : ℕ) (pr : Fin n → PureRecord ℝ) (kij : Fin n → Fin n → ℝ) (T V : Nest ℝ k)
    (N : Fin n → Nest ℝ k) : RoundedRun k pr kij T V N where
  a := .exact
  pr' j := (pr j).mapHom (handOver .exact)
  kij' j l := handOver .exact (kij j l)
  T' := Nest.map (handOver .exact) k T
  V' := Nest.map (handOver .exact) k V
  N' j := Nest.map (handOver .exact) k (N j)
  records _ := record_handOver _ _
  binary _ _ := input_handOver _ _
  temperature := componentwise_handOver _ _ _
  volume := componentwise_handOver _ _ _
  moles _ := componentwise_handOver _ _ _

instance (k : ℕ) (pr : Fin n → PureRecord ℝ) (kij : Fin n → Fin n → ℝ) (T V : Nest ℝ k) (N : Fin n → Nest ℝ k) :
    (fine fun r : RoundedRun k pr kij T V N => r.a).NeBot := by
  refine comap_neBot fun t ht => ⟨RoundedRun.exact k pr kij T V N, ?_⟩
  exact mem_of_mem_nhds ht

/-! ### The property -/

/-- Rounding errors of the residual Helmholtz energy and all its derivatives. Exact numbers are used on the
left: the records `pr`, the binary parameters `kij`, the state `T`, `V`, `N`, which are dual numbers nested `k`
times. The result has every component within `K * u` of the exact component for every arithmetic with unit
`u ≤ u0`, whatever rounded records, binary parameters, state, options and linear algebra are handed over. -/
theorem C90_rounding (k : ℕ) {pr : Fin n → PureRecord ℝ} {kij : Fin n → Fin n → ℝ} {T V : Nest ℝ k}
    {N : Fin n → Nest ℝ k} {o : PcSaftOptions ℝ} (he : ∀ i, 0 < (pr i).model_record.epsilon_k)
    (hkap : ∀ i, 0 ≤ (fromRecords pr kij).kappa_ab i)
    (h : Admissible (fromRecords pr kij) (DualNum.re T) (DualNum.re V) (fun i => DualNum.re (N i)))
    (hr : ∀ ct ∈ buildContributions (fromRecords pr kij) o,
      Regular (fromRecords pr kij) (DualNum.re T) (DualNum.re V) (fun i => DualNum.re (N i)) ct)
    (la : LinAlg ℝ (Nest ℝ k)) :
    ∃ d, (Eos.withOptions (fromRecords pr kij) o).residualHelmholtz la (StateHD.new T V N) = .ok d
      ∧ ∃ K u0 : ℝ, 0 < u0 ∧ ∀ a : Arithmetic, a.u ≤ u0 →
        ∀ (pr' : Fin n → PureRecord (Rd a)) (kij' : Fin n → Fin n → Rd a) (T' V' : Nest (Rd a) k)
          (N' : Fin n → Nest (Rd a) k) (o' : PcSaftOptions (Rd a)) (la' : LinAlg (Rd a) (Nest (Rd a) k)),
        (∀ j, RecordInput a (pr j) (pr' j)) → (∀ j l, Input a (kij j l) (kij' j l)) →
        Componentwise (Input a) k T T' → Componentwise (Input a) k V V' →
        (∀ j, Componentwise (Input a) k (N j) (N' j)) → o'.dq_variant = o.dq_variant →
        ∃ d', (Eos.withOptions (fromRecords pr' kij') o').residualHelmholtz la' (StateHD.new T' V' N') = .ok d'
          ∧ Componentwise (fun (y : ℝ) (y' : Rd a) => |y'.val - y| ≤ K * a.u) k d d' := by
  obtain ⟨d, hd, K, hK⟩ := residual_near (ar := fun r : RoundedRun k pr kij T V N => r.a) he hkap h hr
    (fun r => r.records) (fun r j l => (r.binary j l).near) (fun r => r.temperature.mono fun _ _ hx => hx.near)
    (fun r => r.volume.mono fun _ _ hx => hx.near) (fun r j => (r.moles j).mono fun _ _ hx => hx.near) la
  obtain ⟨u0, hu0, hb⟩ := eventually_fine hK
  refine ⟨d, hd, K, u0, hu0, fun a ha pr' kij' T' V' N' o' la' h1 h2 h3 h4 h5 h6 => ?_⟩
  exact hb ⟨a, pr', kij', T', V', N', h1, h2, h3, h4, h5⟩ ha o' la' h6

/-- Rounding of the records neither adds nor removes a contribution: the same components are recognised as
dipolar, quadrupolar and associating. -/
theorem C90_same_contributions (pr : Fin n → PureRecord ℝ) (kij : Fin n → Fin n → ℝ)
    (hm : ∀ i, 0 < (pr i).model_record.m) (hs : ∀ i, 0 < (pr i).model_record.sigma)
    (he : ∀ i, 0 < (pr i).model_record.epsilon_k) :
    ∃ u0 : ℝ, 0 < u0 ∧ ∀ a : Arithmetic, a.u ≤ u0 →
      ∀ (pr' : Fin n → PureRecord (Rd a)) (kij' : Fin n → Fin n → Rd a),
      (∀ j, RecordInput a (pr j) (pr' j)) →
      (fromRecords pr' kij').dipole_comp = (fromRecords pr kij).dipole_comp
      ∧ (fromRecords pr' kij').quadpole_comp = (fromRecords pr kij).quadpole_comp
      ∧ (fromRecords pr' kij').assoc_comp = (fromRecords pr kij).assoc_comp := by
  let ι := Σ a : Arithmetic, { r : (Fin n → PureRecord (Rd a)) × (Fin n → Fin n → Rd a) //
    ∀ j, RecordInput a (pr j) (r.1 j) }
  obtain ⟨u0, hu0, hb⟩ := eventually_fine (lists_near (ar := fun i : ι => i.1) (pr := pr) (kij := kij)
    (pr' := fun i => i.2.1.1) (kij' := fun i => i.2.1.2) (fun i => i.2.2) hm hs he)
  exact ⟨u0, hu0, fun a ha pr' kij' hr => hb ⟨a, (pr', kij'), hr⟩ ha⟩

section records
variable {pr : Fin n → PureRecord ℝ} {kij : Fin n → Fin n → ℝ} {T V : ℝ} {N : Fin n → ℝ} {o : PcSaftOptions ℝ}
  (he : ∀ i, 0 < (pr i).model_record.epsilon_k) (hkap : ∀ i, 0 ≤ (fromRecords pr kij).kappa_ab i)
  (h : Admissible (fromRecords pr kij) T V N)
  (hr : ∀ ct ∈ buildContributions (fromRecords pr kij) o, Regular (fromRecords pr kij) T V N ct)
include he hkap h hr

/-- The value: the energy computed with rounding is within `K * u` of the exact energy. -/
theorem C90_value (la : LinAlg ℝ ℝ) :
    ∃ A, (Eos.withOptions (fromRecords pr kij) o).residualHelmholtz la (StateHD.new T V N) = .ok A
      ∧ ∃ K u0 : ℝ, 0 < u0 ∧ ∀ a : Arithmetic, a.u ≤ u0 →
        ∀ (pr' : Fin n → PureRecord (Rd a)) (kij' : Fin n → Fin n → Rd a) (T' V' : Rd a)
          (N' : Fin n → Rd a) (o' : PcSaftOptions (Rd a)) (la' : LinAlg (Rd a) (Rd a)),
        (∀ j, RecordInput a (pr j) (pr' j)) → (∀ j l, Input a (kij j l) (kij' j l)) →
        Input a T T' → Input a V V' → (∀ j, Input a (N j) (N' j)) → o'.dq_variant = o.dq_variant →
        ∃ A', (Eos.withOptions (fromRecords pr' kij') o').residualHelmholtz la' (StateHD.new T' V' N') = .ok A'
          ∧ |A'.val - A| ≤ K * a.u :=
  C90_rounding 0 he hkap h hr la

/-- First derivatives: pressure, entropy, chemical potential and every other directional derivative. The dual
number computed with rounding carries the derivative of the exact energy up to `K * u`. -/
theorem C90_derivatives (la : LinAlg ℝ ℝ) (Tu Vu : ℝ) (Nu : Fin n → ℝ) :
    ∃ (A : ℝ → ℝ) (A' : ℝ),
      (∀ t, (Eos.withOptions (fromRecords pr kij) o).residualHelmholtz la
        (StateHD.new (T + t * Tu) (V + t * Vu) (fun i => N i + t * Nu i)) = .ok (A t))
      ∧ HasDerivAt A A' 0
      ∧ ∃ K u0 : ℝ, 0 < u0 ∧ ∀ a : Arithmetic, a.u ≤ u0 →
        ∀ (pr' : Fin n → PureRecord (Rd a)) (kij' : Fin n → Fin n → Rd a) (T' V' : Dual (Rd a))
          (N' : Fin n → Dual (Rd a)) (o' : PcSaftOptions (Rd a)) (la' : LinAlg (Rd a) (Dual (Rd a))),
        (∀ j, RecordInput a (pr j) (pr' j)) → (∀ j l, Input a (kij j l) (kij' j l)) →
        Input a T T'.re → Input a Tu T'.eps → Input a V V'.re → Input a Vu V'.eps →
        (∀ j, Input a (N j) (N' j).re) → (∀ j, Input a (Nu j) (N' j).eps) → o'.dq_variant = o.dq_variant →
        ∃ d', (Eos.withOptions (fromRecords pr' kij') o').residualHelmholtz la' (StateHD.new T' V' N') = .ok d'
          ∧ |d'.re.val - A 0| ≤ K * a.u ∧ |d'.eps.val - A'| ≤ K * a.u := by
  have laD : LinAlg ℝ (Dual ℝ) := ⟨fun _ _ b => some b, fun _ _ b => some b, 0⟩
  have e : ∀ x u : ℝ, HasDerivAt (fun t : ℝ => x + t * u) u 0 := fun x u => by
    simpa using ((hasDerivAt_id (0 : ℝ)).mul_const u).const_add x
  obtain ⟨A, d, h1, h2, h3, h4⟩ := C53_residual_along_curve (o := o) la laD (e T Tu) (e V Vu)
    (fun i => e (N i) (Nu i)) (by simpa using h) (by simpa using hr)
  obtain ⟨d1, k1, K, u0, hu0, k2⟩ := C90_rounding 1 (pr := pr) (kij := kij) (T := (⟨T, Tu⟩ : Dual ℝ))
    (V := (⟨V, Vu⟩ : Dual ℝ)) (N := fun i => (⟨N i, Nu i⟩ : Dual ℝ)) (o := o) he hkap h hr laD
  have ed : d = d1 := by
    simp only [zero_mul, add_zero] at h2
    exact Except.ok.inj (h2.symm.trans k1)
  refine ⟨A, d.eps, h1, h4, K, u0, hu0, fun a ha pr' kij' T' V' N' o' la' g1 g2 g3 g4 g5 g6 g7 g8 g9 => ?_⟩
  obtain ⟨d', m1, m2, m3⟩ := k2 a ha pr' kij' T' V' N' o' la' g1 g2 ⟨g3, g4⟩ ⟨g5, g6⟩ (fun j => ⟨g7 j, g8 j⟩) g9
  refine ⟨d', m1, ?_, ?_⟩
  · rw [← h3, ed]
    exact m2
  · rw [ed]
    exact m3

/-- Second derivatives (heat capacity, compressibility, composition derivatives of the chemical potentials):
the mixed component computed with rounding is the mixed second derivative of the exact energy up to `K * u`. -/
theorem C90_second_order (la : LinAlg ℝ ℝ) (Tu Tw Vu Vw : ℝ) (Nu Nw : Fin n → ℝ) :
    ∃ A : ℝ → ℝ → ℝ,
      (∀ s t, (Eos.withOptions (fromRecords pr kij) o).residualHelmholtz la
        (StateHD.new (T + s * Tu + t * Tw) (V + s * Vu + t * Vw) (fun i => N i + s * Nu i + t * Nw i)) = .ok (A s t))
      ∧ ∃ K u0 : ℝ, 0 < u0 ∧ ∀ a : Arithmetic, a.u ≤ u0 →
        ∀ (pr' : Fin n → PureRecord (Rd a)) (kij' : Fin n → Fin n → Rd a) (T' V' : Dual (Dual (Rd a)))
          (N' : Fin n → Dual (Dual (Rd a))) (o' : PcSaftOptions (Rd a))
          (la' : LinAlg (Rd a) (Dual (Dual (Rd a)))),
        (∀ j, RecordInput a (pr j) (pr' j)) → (∀ j l, Input a (kij j l) (kij' j l)) →
        Componentwise (Input a) 2 (⟨⟨T, Tu⟩, ⟨Tw, 0⟩⟩ : Dual (Dual ℝ)) T' →
        Componentwise (Input a) 2 (⟨⟨V, Vu⟩, ⟨Vw, 0⟩⟩ : Dual (Dual ℝ)) V' →
        (∀ j, Componentwise (Input a) 2 (⟨⟨N j, Nu j⟩, ⟨Nw j, 0⟩⟩ : Dual (Dual ℝ)) (N' j)) →
        o'.dq_variant = o.dq_variant →
        ∃ d', (Eos.withOptions (fromRecords pr' kij') o').residualHelmholtz la' (StateHD.new T' V' N') = .ok d'
          ∧ |d'.eps.eps.val - deriv (fun s => deriv (A s) 0) 0| ≤ K * a.u := by
  have laD : LinAlg ℝ (Dual (Dual ℝ)) := ⟨fun _ _ b => some b, fun _ _ b => some b, 0⟩
  obtain ⟨A, d, h1, h2, h3, h4⟩ := C53_second_order (o := o) la laD Tu Tw Vu Vw Nu Nw h hr
  obtain ⟨d1, k1, K, u0, hu0, k2⟩ := C90_rounding 2 (pr := pr) (kij := kij) (T := (⟨⟨T, Tu⟩, ⟨Tw, 0⟩⟩ : Dual (Dual ℝ)))
    (V := (⟨⟨V, Vu⟩, ⟨Vw, 0⟩⟩ : Dual (Dual ℝ))) (N := fun i => (⟨⟨N i, Nu i⟩, ⟨Nw i, 0⟩⟩ : Dual (Dual ℝ))) (o := o)
    he hkap h hr laD
  have ed : d = d1 := Except.ok.inj (h2.symm.trans k1)
  refine ⟨A, h1, K, u0, hu0, fun a ha pr' kij' T' V' N' o' la' g1 g2 g3 g4 g5 g6 => ?_⟩
  obtain ⟨d', m1, -, m2⟩ := k2 a ha pr' kij' T' V' N' o' la' g1 g2 g3 g4 g5 g6
  refine ⟨d', m1, ?_⟩
  rw [← h4, ed]
  exact m2.2

/-- The limit of high precision: along any sequence of ever finer arithmetics the computed energy converges to
the exact one. -/
theorem C90_converges (la : LinAlg ℝ ℝ) (a : ℕ → Arithmetic) (ha : Tendsto (fun i => (a i).u) atTop (𝓝 0))
    (pr' : (i : ℕ) → Fin n → PureRecord (Rd (a i))) (kij' : (i : ℕ) → Fin n → Fin n → Rd (a i))
    (T' V' : (i : ℕ) → Rd (a i)) (N' : (i : ℕ) → Fin n → Rd (a i)) (o' : (i : ℕ) → PcSaftOptions (Rd (a i)))
    (la' : (i : ℕ) → LinAlg (Rd (a i)) (Rd (a i)))
    (hrec : ∀ i j, RecordInput (a i) (pr j) (pr' i j)) (hkij : ∀ i j l, Input (a i) (kij j l) (kij' i j l))
    (hT : ∀ i, Input (a i) T (T' i)) (hV : ∀ i, Input (a i) V (V' i)) (hN : ∀ i j, Input (a i) (N j) (N' i j))
    (ho : ∀ i, (o' i).dq_variant = o.dq_variant) :
    ∃ (A : ℝ) (A' : ℕ → ℝ), (Eos.withOptions (fromRecords pr kij) o).residualHelmholtz la (StateHD.new T V N) = .ok A
      ∧ (∀ᶠ i in atTop, (Eos.withOptions (fromRecords (pr' i) (kij' i)) (o' i)).residualHelmholtz (la' i)
        (StateHD.new (T' i) (V' i) (N' i)) = .ok ⟨A' i⟩)
      ∧ Tendsto A' atTop (𝓝 A) := by
  obtain ⟨A, hA, K, u0, hu0, hb⟩ := C90_value he hkap h hr la
  have hev : ∀ᶠ i in atTop, ∃ A' : ℝ, (Eos.withOptions (fromRecords (pr' i) (kij' i)) (o' i)).residualHelmholtz
      (la' i) (StateHD.new (T' i) (V' i) (N' i)) = .ok ⟨A'⟩ ∧ |A' - A| ≤ K * (a i).u := by
    filter_upwards [ha.eventually (gt_mem_nhds hu0)] with i hi
    obtain ⟨A', h1, h2⟩ := hb (a i) hi.le (pr' i) (kij' i) (T' i) (V' i) (N' i) (o' i) (la' i) (hrec i) (hkij i)
      (hT i) (hV i) (hN i) (ho i)
    exact ⟨A'.val, h1, h2⟩
  classical
  refine ⟨A, fun i => if hi : ∃ A' : ℝ, (Eos.withOptions (fromRecords (pr' i) (kij' i)) (o' i)).residualHelmholtz
      (la' i) (StateHD.new (T' i) (V' i) (N' i)) = .ok ⟨A'⟩ ∧ |A' - A| ≤ K * (a i).u then hi.choose else 0,
    hA, ?_, ?_⟩
  · filter_upwards [hev] with i hi
    rw [dif_pos hi]
    exact hi.choose_spec.1
  · rw [tendsto_iff_dist_tendsto_zero]
    refine squeeze_zero' (.of_forall fun _ => dist_nonneg) ?_ (by simpa using ha.const_mul K)
    filter_upwards [hev] with i hi
    rw [dif_pos hi]
    exact hi.choose_spec.2

end records

/-! ### Non-vacuity -/

/-- arithmetic with 53 binary digits does round: `1 + 2⁻⁶⁰` is computed as `1` -/
example : Arithmetic.binary64.add 1 ((2 : ℝ) ^ 60)⁻¹ = 1 := by
  have hlog : Int.log 2 |(1 : ℝ) + ((2 : ℝ) ^ 60)⁻¹| = 0 := by
    rw [abs_of_pos (by positivity)]
    refine le_antisymm (Int.lt_add_one_iff.1 ((Int.lt_zpow_iff_log_lt (by norm_num) (by positivity)).1 ?_))
      ((Int.zpow_le_iff_le_log (by norm_num) (by positivity)).1 ?_)
    · norm_num
    · norm_num
  show roundBits 52 (1 + ((2 : ℝ) ^ 60)⁻¹) = 1
  unfold roundBits
  rw [hlog]
  have hround : round ((1 + ((2 : ℝ) ^ 60)⁻¹) * 2 ^ 52 / 2 ^ (0 : ℤ)) = 2 ^ 52 := by
    rw [round_eq_iff]
    norm_num
  rw [hround]
  norm_num

/-- a mixture with an associating component -/
example (o : PcSaftOptions ℝ) (la : LinAlg ℝ ℝ) := C90_derivatives (pr := assocRecords) (kij := fun _ _ => 0)
  (fun i => (assocRecords_positive i).2.2) assocRecords_kappa assocRecords_admissible (assocRecords_regular o) la 0 1
  (fun _ => 0)

example := C90_same_contributions assocRecords (fun _ _ => 0) (fun i => (assocRecords_positive i).1)
  (fun i => (assocRecords_positive i).2.1) (fun i => (assocRecords_positive i).2.2)

/-- the records and the state of this mixture can be handed over to arithmetic with 53 digits -/
example : (∀ j, RecordInput .binary64 (assocRecords j) ((assocRecords j).mapHom (handOver .binary64)))
    ∧ Input .binary64 300 (handOver .binary64 300) := ⟨fun _ => record_handOver _ _, input_handOver _ _⟩

end PcSaft.Props
