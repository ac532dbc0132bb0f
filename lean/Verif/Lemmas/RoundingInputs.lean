import Verif.Lemmas.RoundingTerms
import Verif.Props.Theory

/-!
# Inputs of the code with rounding, and two arithmetics with a relative error
-/

namespace PcSaft
open Spec Props
variable {a : Arithmetic} {n : ℕ}

/-! ### Arithmetics -/

theorem powRounded_factor {fl : ℝ → ℝ} {u : ℝ} (hu : 0 ≤ u) (hu1 : u < 1) (h : ∀ x, |fl x - x| ≤ u * |x|) (x : ℝ) (k : ℕ) :
    ∃ f, powRounded fl x k = x ^ k * f ∧ 1 ≤ f * (1 - u)⁻¹ ^ k ∧ f ≤ (1 - u)⁻¹ ^ k := by
  have h1 : 0 < 1 - u := by linarith
  have g : 1 ≤ (1 - u)⁻¹ := (one_le_inv₀ h1).2 (by linarith)
  have g' : 1 + u ≤ (1 - u)⁻¹ := by
    rw [le_inv_comm₀ (by linarith) h1, inv_eq_one_div, le_div_iff₀ (by linarith)]
    nlinarith
  have h0 : fl 0 = 0 := by simpa using h 0
  induction k with
  | zero => exact ⟨1, by simp [powRounded]⟩
  | succ k ih =>
    match k with
    | 0 => exact ⟨1, by simp [powRounded], by simpa using g, by simpa using g⟩
    | k + 1 =>
      obtain ⟨f, hf, f1, f2⟩ := ih
      rw [show powRounded fl x (k + 1 + 1) = fl (powRounded fl x (k + 1) * x) from rfl, hf]
      have gk : 0 < (1 - u)⁻¹ ^ (k + 1) := by positivity
      have f0 : 0 < f := pos_of_mul_pos_left (by linarith : 0 < f * (1 - u)⁻¹ ^ (k + 1)) gk.le
      rcases eq_or_ne x 0 with rfl | hx
      · refine ⟨1, by simp [h0], ?_, one_le_pow₀ g⟩
        rw [one_mul]
        exact one_le_pow₀ g
      · have hy : x ^ (k + 1) * f * x ≠ 0 := mul_ne_zero (mul_ne_zero (pow_ne_zero _ hx) f0.ne') hx
        set y := x ^ (k + 1) * f * x with hyd
        have hr : |fl y / y - 1| ≤ u := by
          have := h y
          rw [← div_le_iff₀ (abs_pos.2 hy), ← abs_div, sub_div, div_self hy] at this
          exact this
        obtain ⟨r1, r2⟩ := abs_le.1 hr
        refine ⟨f * (fl y / y), ?_, ?_, ?_⟩
        · rw [show x ^ (k + 1 + 1) * (f * (fl y / y)) = y * (fl y / y) by rw [hyd]; ring, mul_div_cancel₀ _ hy]
        · rw [pow_succ]
          have e : (1 - u) * (1 - u)⁻¹ = 1 := mul_inv_cancel₀ h1.ne'
          have : 1 ≤ fl y / y * (1 - u)⁻¹ :=
            e.symm.le.trans (mul_le_mul_of_nonneg_right (by linarith) (by linarith))
          calc (1 : ℝ) ≤ (f * (1 - u)⁻¹ ^ (k + 1)) * (fl y / y * (1 - u)⁻¹) := one_le_mul_of_one_le_of_one_le f1 this
            _ = _ := by ring
        · rw [pow_succ]
          exact mul_le_mul f2 (by linarith) (by linarith) (by positivity)

theorem relative_ofRounding {fl : ℝ → ℝ} {u : ℝ} (hu : 0 ≤ u) (hu1 : u < 1) (h : ∀ x, |fl x - x| ≤ u * |x|)
    (hi : ∀ j : ℕ, j < 2 ^ 53 → fl j = j) : Relative (Arithmetic.ofRounding fl u hu h) where
  unit := hu1
  add _ _ := h _
  sub _ _ := h _
  mul _ _ := h _
  div _ _ _ := h _
  lit _ _ _ := h _
  int m s e j hj hm := by
    change fl (OfScientific.ofScientific m s e) = j
    rw [hm, hi j hj]
  powi x k := powRounded_factor hu hu1 h x k
  powf _ _ _ := h _
  sqrt _ _ := h _
  cbrt _ := h _
  ln _ _ := h _
  exp _ := h _
  expm1 _ := h _
  ln1p _ _ := h _
  pi := h _

/-- integers with at most 53 binary digits are not rounded -/
theorem roundBits_nat (j : ℕ) (hj : j < 2 ^ 53) : roundBits 52 j = j := by
  rcases Nat.eq_zero_or_pos j with rfl | h0
  · simp [roundBits]
  have hl : Int.log 2 |(j : ℝ)| = (Nat.log 2 j : ℤ) := by
    rw [abs_of_nonneg (Nat.cast_nonneg j), Int.log_natCast]
  have hle : Nat.log 2 j ≤ 52 := Nat.lt_succ_iff.1 (Nat.log_lt_of_lt_pow h0.ne' hj)
  rw [roundBits, hl, zpow_natCast]
  have e : (j : ℝ) * 2 ^ 52 / 2 ^ Nat.log 2 j = ((j * 2 ^ (52 - Nat.log 2 j) : ℕ) : ℝ) := by
    have : (2 : ℝ) ^ 52 = 2 ^ (52 - Nat.log 2 j) * 2 ^ Nat.log 2 j := by rw [← pow_add, Nat.sub_add_cancel hle]
    rw [this]
    push_cast
    field_simp
  rw [e, round_natCast, Int.cast_natCast, ← e]
  field_simp

theorem relative_binary64 : Relative Arithmetic.binary64 :=
  relative_ofRounding _ (by norm_num) _ roundBits_nat

theorem relative_exact : Relative Arithmetic.exact where
  unit := zero_lt_one
  add _ _ := by simp [Arithmetic.exact]
  sub _ _ := by simp [Arithmetic.exact]
  mul _ _ := by simp [Arithmetic.exact]
  div _ _ _ := by simp [Arithmetic.exact]
  lit _ _ _ := by simp [Arithmetic.exact]
  int m s e j _ hm := hm
  powi x k := ⟨1, by simp [Arithmetic.exact], by simp [Growth, Arithmetic.exact], by simp [Growth, Arithmetic.exact]⟩
  powf _ _ _ := by simp [Arithmetic.exact]
  sqrt _ _ := by simp [Arithmetic.exact]
  cbrt _ := by simp [Arithmetic.exact]
  ln _ _ := by simp [Arithmetic.exact]
  exp _ := by simp [Arithmetic.exact]
  expm1 _ := by simp [Arithmetic.exact]
  ln1p _ _ := by simp [Arithmetic.exact]
  pi := by simp [Arithmetic.exact]

/-- the effect of `k` operations -/
theorem growth_le (h : Relative a) (k : ℕ) : Growth a ^ k * (1 - k * a.u) ≤ 1 := by
  have h1 : 0 < 1 - a.u := by linarith [h.unit]
  have b := one_add_mul_le_pow (show (-2 : ℝ) ≤ -a.u by linarith [h.unit]) k
  have e : Growth a ^ k * (1 - a.u) ^ k = 1 := by rw [← mul_pow, mul_comm, growth_sub h, one_pow]
  have := mul_le_mul_of_nonneg_left b (growth_pos h k).le
  rw [show (1 : ℝ) + -a.u = 1 - a.u by ring, e] at this
  linarith

/-! ### Parameters and states -/

theorem agrees_handOver {x : ℝ} (hx : 0 ≤ x) : Agrees a 0 x (handOver a x) := .exact hx

section
variable (h : Relative a)
include h

theorem parametersAgree (pr : Fin n → PureRecord ℝ) (kij : Fin n → Fin n → ℝ) (hm : ∀ i, 0 ≤ (pr i).model_record.m)
    (hs : ∀ i, 0 ≤ (pr i).model_record.sigma) (he : ∀ i, 0 ≤ (pr i).model_record.epsilon_k) (hk : ∀ i j, kij i j ≤ 1) :
    ParametersAgree a (fromRecords pr kij)
      (fromRecords (fun i => (pr i).mapHom (handOver a)) (fun i j => handOver a (kij i j))) where
  m i := agrees_handOver (hm i)
  sigma i := agrees_handOver (hs i)
  epsilon_k i := agrees_handOver (he i)
  sigma_ij i j := (Agrees.lit h 5 true 1).mul h ((agrees_handOver (hs i)).add h (agrees_handOver (hs j)))
  epsilon_k_ij i j := by
    have e1 : Agrees a 1 (1 - kij i j) ((1.0 : Rd a) - handOver a (kij i j)) := by
      have := h.sub (1.0 : Rd a).val (kij i j)
      have e0 : (1.0 : Rd a).val = 1 := h.one
      rw [e0] at this
      refine .round h ?_ (sub_nonneg.2 (hk i j))
      change |a.sub (1.0 : Rd a).val (kij i j) - _| ≤ _
      rw [e0]
      exact this
    have e2 := ((agrees_handOver (a := a) (he i)).mul h (agrees_handOver (he j))).sqrt h
    have e3 := e1.mul h e2
    have e4 : (fromRecords pr kij).epsilon_k_ij i j
        = (1 - kij i j) * Real.sqrt ((pr i).model_record.epsilon_k * (pr j).model_record.epsilon_k) := by
      have : (1.0 : ℝ) = 1 := by norm_num
      simp only [fromRecords, sqrt_real, this]
    rw [e4]
    exact e3

theorem stateAgrees {T V : ℝ} {moles : Fin n → ℝ} (hT : 0 ≤ T) (hV : 0 < V) (hN : ∀ i, 0 ≤ moles i)
    (hN0 : 0 < ∑ i, moles i) :
    StateAgrees a (StateHD.new T V moles) (StateHD.new (handOver a T) (handOver a V) (fun i => handOver a (moles i))) where
  temperature := agrees_handOver hT
  volume := agrees_handOver hV.le
  molefracs i := by
    have e := (agrees_handOver (a := a) (hN i)).div h (Agrees.sumFin h fun i => agrees_handOver (hN i)) hN0
    have e2 : (StateHD.new T V moles).molefracs i = moles i / ∑ i, moles i := by
      simp only [StateHD.new, sumFin_real]
    rw [e2]
    exact e.mono h (by omega)
  partial_density i := (agrees_handOver (hN i)).div h (agrees_handOver hV.le) hV

/-- without moments there are no polar components -/
theorem nonpolar_lists {pr : Fin n → PureRecord ℝ} (hmu : ∀ i, (pr i).model_record.mu = none)
    (hq : ∀ i, (pr i).model_record.q = none) (kij : Fin n → Fin n → ℝ)
    (hm : ∀ i, 0 < (pr i).model_record.m) (hs : ∀ i, 0 < (pr i).model_record.sigma)
    (he : ∀ i, 0 < (pr i).model_record.epsilon_k) :
    (fromRecords (fun i => (pr i).mapHom (handOver a)) (fun i j => handOver a (kij i j))).dipole_comp = []
      ∧ (fromRecords (fun i => (pr i).mapHom (handOver a)) (fun i j => handOver a (kij i j))).quadpole_comp = [] := by
  have z : (0.0 : Rd a) = ⟨0⟩ := Rd.ext (a.lit_zero _ _)
  have hlt : ∀ x : Rd a, x = ⟨0⟩ → F64.lt (0.0 : Rd a) (F64.abs x) = false := fun x hx => by
    rw [hx, z]
    simp [F64.lt, F64.abs]
  have emp : ∀ v : Fin n → Rd a, (∀ i, v i = ⟨0⟩) → nonzeroComp v = [] := fun v hv => by
    rw [nonzeroComp, List.filter_eq_nil_iff]
    intro i _
    rw [hlt _ (hv i)]
    simp
  have m0 : ∀ i, (((pr i).mapHom (handOver a)).model_record.mu).getD 0.0 = (⟨0⟩ : Rd a) := fun i => by
    simp [PureRecord.mapHom, PcSaftRecord.mapHom, hmu i, z]
  have q0 : ∀ i, (((pr i).mapHom (handOver a)).model_record.q).getD 0.0 = (⟨0⟩ : Rd a) := fun i => by
    simp [PureRecord.mapHom, PcSaftRecord.mapHom, hq i, z]
  have zm : ∀ x : Rd a, (⟨0⟩ : Rd a) * x = ⟨0⟩ := fun x => Rd.ext (a.zero_mul _)
  have zd : ∀ x : Rd a, x.val ≠ 0 → (⟨0⟩ : Rd a) / x = ⟨0⟩ := fun x hx => Rd.ext (a.zero_div _ hx)
  have am := fun i => agrees_handOver (a := a) (hm i).le
  have as := fun i => agrees_handOver (a := a) (hs i).le
  have ae := fun i => agrees_handOver (a := a) (he i).le
  refine ⟨emp _ fun i => ?_, emp _ fun i => ?_⟩
  · beta_reduce
    rw [m0, zm, zd, zm, zm]
    exact ((((((am i).mul h (as i)).mul h (as i)).mul h (as i)).mul h (ae i)).val_pos h
      (mul_pos (mul_pos (mul_pos (mul_pos (hm i) (hs i)) (hs i)) (hs i)) (he i))).ne'
  · beta_reduce
    rw [q0, zm, zd, zm, zm]
    exact (((((am i).mul h ((as i).powi h 5)).mul h (ae i))).val_pos h
      (mul_pos (mul_pos (hm i) (pow_pos (hs i) 5)) (he i))).ne'

omit h in
/-- the associating components are found with rounding, too -/
theorem rounded_assoc_comp (pr : Fin n → PureRecord ℝ) (kij : Fin n → Fin n → ℝ) :
    (fromRecords (fun i => (pr i).mapHom (handOver a)) (fun i j => handOver a (kij i j))).assoc_comp
      = (fromRecords pr kij).assoc_comp := by
  have z : (0.0 : Rd a) = ⟨0⟩ := Rd.ext (a.lit_zero _ _)
  have z0 : (0.0 : ℝ) = 0 := by norm_num
  have k0 : ∀ i, (((pr i).mapHom (handOver a)).model_record.kappa_ab).getD 0.0
      = (⟨((pr i).model_record.kappa_ab).getD 0.0⟩ : Rd a) := fun i => by
    rcases hk : (pr i).model_record.kappa_ab with _ | x <;>
      simp [PureRecord.mapHom, PcSaftRecord.mapHom, hk, z, z0, handOver]
  refine List.filter_congr fun i _ => ?_
  change F64.lt (0.0 : Rd a) (F64.abs ((((pr i).mapHom (handOver a)).model_record.kappa_ab).getD 0.0))
    = F64.lt (0.0 : ℝ) (F64.abs (((pr i).model_record.kappa_ab).getD 0.0))
  rw [k0, z, z0]
  simp [F64.lt, F64.abs]

/-- without moments and association sites there are three contributions -/
theorem plain_contributions {pr : Fin n → PureRecord ℝ} (hp : ∀ i, PlainRecord (pr i)) (kij : Fin n → Fin n → ℝ)
    (hm : ∀ i, 0 < (pr i).model_record.m) (hs : ∀ i, 0 < (pr i).model_record.sigma)
    (he : ∀ i, 0 < (pr i).model_record.epsilon_k) (o : PcSaftOptions (Rd a)) :
    buildContributions (fromRecords (fun i => (pr i).mapHom (handOver a)) (fun i j => handOver a (kij i j))) o
      = [.hardSphere, .hardChain, .dispersion] := by
  obtain ⟨d1, d2⟩ := nonpolar_lists h (fun i => (hp i).mu) (fun i => (hp i).q) kij hm hs he
  have d3 : (fromRecords (fun i => (pr i).mapHom (handOver a)) (fun i j => handOver a (kij i j))).assoc_comp = [] := by
    rw [rounded_assoc_comp]
    refine List.filter_eq_nil_iff.2 fun i _ => ?_
    have z0 : (0.0 : ℝ) = 0 := by norm_num
    simp [(hp i).kappa, z0]
  simp only [buildContributions, PcSaftParameters.ndipole, PcSaftParameters.nquadpole, PcSaftParameters.nassoc, d1, d2, d3]
  simp

theorem plain_residual {pr : Fin n → PureRecord ℝ} (hp : ∀ i, PlainRecord (pr i)) (kij : Fin n → Fin n → ℝ)
    (hm : ∀ i, 0 < (pr i).model_record.m) (hs : ∀ i, 0 < (pr i).model_record.sigma)
    (he : ∀ i, 0 < (pr i).model_record.epsilon_k) (o : PcSaftOptions (Rd a)) (la : LinAlg (Rd a) (Rd a))
    (s : StateHD n (Rd a)) :
    let p' := fromRecords (fun i => (pr i).mapHom (handOver a)) (fun i j => handOver a (kij i j))
    (Eos.withOptions p' o).residualHelmholtz la s
      = .ok (c (0.0 : Rd a) + hardSphere p' s + hardChain p' s + dispersion p' s) := by
  intro p'
  have e : (Eos.withOptions p' o).contributions = [.hardSphere, .hardChain, .dispersion] :=
    plain_contributions h hp kij hm hs he o
  rw [Eos.residualHelmholtz, e]
  rfl

end
end PcSaft
