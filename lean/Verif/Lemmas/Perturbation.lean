import Verif.Lemmas.RoundingEos

/-!
# Exact arithmetic as an arithmetic with a declared unit

Errors of the input are followed through a computation in the same way as rounding errors: the operations are
exact and only the numbers handed over are off by the declared unit.
-/

open Filter Topology

namespace PcSaft
open Spec
variable {n : ℕ}

/-- exact operations, declared with the unit `u` -/
noncomputable def Arithmetic.loose (u : ℝ) (hu : 0 ≤ u) : Arithmetic where
  u := u
  u_nonneg := hu
  add x y := x + y
  sub x y := x - y
  mul x y := x * y
  div x y := x / y
  lit m s e := OfScientific.ofScientific m s e
  powi x k := x ^ k
  powf x y := x ^ y
  sqrt := Real.sqrt
  cbrt := F64.cbrt
  ln := Real.log
  exp := Real.exp
  sin := Real.sin
  pi := Real.pi
  expm1 x := Real.exp x - 1
  ln1p x := Real.log (1 + x)
  add_acc _ _ := accurate_self hu _
  sub_acc _ _ := accurate_self hu _
  mul_acc _ _ := accurate_self hu _
  div_acc _ _ _ := accurate_self hu _
  lit_acc _ _ _ := accurate_self hu _
  powi_acc x k _ _ := by
    rw [sub_self, abs_zero]
    positivity
  powf_acc _ _ _ := accurate_self hu _
  sqrt_acc _ _ := accurate_self hu _
  cbrt_acc _ := accurate_self hu _
  ln_acc _ _ := accurate_self hu _
  exp_acc _ := accurate_self hu _
  sin_acc _ := accurate_self hu _
  pi_acc := accurate_self hu _
  expm1_acc _ := accurate_self hu _
  ln1p_acc _ _ := accurate_self hu _
  zero_mul _ := by simp
  mul_zero _ := by simp
  zero_div _ _ := by simp
  lit_zero := ofScientific_zero

theorem loose_hom (u : ℝ) (hu : 0 ≤ u) : FHom (fun x : Rd (Arithmetic.loose u hu) => x.val) where
  add _ _ := rfl
  sub _ _ := rfl
  mul _ _ := rfl
  div _ _ := rfl
  neg _ := rfl
  sci _ _ _ := rfl
  powi _ _ := rfl
  powf _ _ := rfl
  sqrt _ := rfl
  cbrt _ := rfl
  ln _ := rfl
  exp _ := rfl
  expm1 _ := rfl
  ln1p _ := rfl
  abs _ := rfl
  min _ _ := rfl
  pi := rfl
  isNan _ := rfl

theorem loose_lt (u : ℝ) (hu : 0 ≤ u) (x y : Rd (Arithmetic.loose u hu)) : F64.lt x.val y.val = F64.lt x y := rfl

theorem loose_getD (u : ℝ) (hu : 0 ≤ u) (x : Option ℝ) (m : ℕ) (s : Bool) (e : ℕ) :
    (x.map (Rd.mk (a := Arithmetic.loose u hu))).getD (OfScientific.ofScientific m s e)
      = ⟨x.getD (OfScientific.ofScientific m s e)⟩ := by
  cases x <;> rfl

/-- parameters of exact numbers, computed with the declared unit -/
theorem loose_parameters (u : ℝ) (hu : 0 ≤ u) (pr : Fin n → PureRecord ℝ) (kij : Fin n → Fin n → ℝ) :
    ((fromRecords (fun j => (pr j).mapHom (Rd.mk (a := Arithmetic.loose u hu))) (fun i j => ⟨kij i j⟩)).core ⟨0⟩).mapHom
      (fun x => x.val) = (fromRecords pr kij).core 0 := by
  unfold PcSaftParameters.core PcSaftParameters.mapHom
  unfold fromRecords
  simp only [PureRecord.mapHom, PcSaftRecord.mapHom, loose_getD]
  congr 1
  · funext a b
    have hz : (nonzeroComp fun i => (⟨(pr i).model_record.kappa_ab.getD 0.0⟩ : Rd (Arithmetic.loose u hu)))
        = nonzeroComp fun i => (pr i).model_record.kappa_ab.getD 0.0 := rfl
    rw [hz]
    split_ifs <;> rfl
  · funext a b
    have hz : (nonzeroComp fun i => (⟨(pr i).model_record.kappa_ab.getD 0.0⟩ : Rd (Arithmetic.loose u hu)))
        = nonzeroComp fun i => (pr i).model_record.kappa_ab.getD 0.0 := rfl
    rw [hz]
    split_ifs <;> rfl

theorem nest_map_mk (u : ℝ) (hu : 0 ≤ u) (k : ℕ) (x : Nest ℝ k) :
    Nest.map (fun x : Rd (Arithmetic.loose u hu) => x.val) k (Nest.map Rd.mk k x) = x := by
  induction k with
  | zero => rfl
  | succ k ih =>
    show (⟨Nest.map _ k (Nest.map _ k x.re), Nest.map _ k (Nest.map _ k x.eps)⟩ : Dual _) = x
    rw [ih, ih]
    rfl

theorem componentwise_mk (u : ℝ) (hu : 0 ≤ u) (k : ℕ) {P : ℝ → ℝ → Prop} (x y : Nest ℝ k)
    (h : Componentwise P k x y) :
    Componentwise (fun (a : ℝ) (b : Rd (Arithmetic.loose u hu)) => P a b.val) k x (Nest.map Rd.mk k y) := by
  induction k with
  | zero => exact h
  | succ k ih => exact ⟨ih _ _ h.1, ih _ _ h.2⟩

theorem componentwise_val (u : ℝ) (hu : 0 ≤ u) (k : ℕ) {P : ℝ → ℝ → Prop} (x : Nest ℝ k)
    (y : Nest (Rd (Arithmetic.loose u hu)) k)
    (h : Componentwise (fun (a : ℝ) (b : Rd (Arithmetic.loose u hu)) => P a b.val) k x y) :
    Componentwise P k x (Nest.map (fun x : Rd (Arithmetic.loose u hu) => x.val) k y) := by
  induction k with
  | zero => exact h
  | succ k ih => exact ⟨ih _ _ h.1, ih _ _ h.2⟩

/-- exact results from results with the declared unit -/
theorem loose_residual (u : ℝ) (hu : 0 ≤ u) (k : ℕ) (pr : Fin n → PureRecord ℝ) (kij : Fin n → Fin n → ℝ)
    (T V : Nest ℝ k) (N : Fin n → Nest ℝ k) (o : PcSaftOptions ℝ) (o' : PcSaftOptions (Rd (Arithmetic.loose u hu)))
    (ho : o.dq_variant = o'.dq_variant) (la : LinAlg ℝ (Nest ℝ k))
    (la' : LinAlg (Rd (Arithmetic.loose u hu)) (Nest (Rd (Arithmetic.loose u hu)) k))
    (hn : (fromRecords pr kij).nassoc ≤ 1) :
    (Eos.withOptions (fromRecords pr kij) o).residualHelmholtz la (StateHD.new T V N)
      = ((Eos.withOptions (fromRecords (fun j => (pr j).mapHom Rd.mk) (fun i j => ⟨kij i j⟩)) o').residualHelmholtz la'
          (StateHD.new (Nest.map Rd.mk k T) (Nest.map Rd.mk k V) (fun j => Nest.map Rd.mk k (N j)))).map
        (Nest.map (fun x : Rd (Arithmetic.loose u hu) => x.val) k) := by
  have hh : NumHom (fun x : Rd (Arithmetic.loose u hu) => x.val)
      (Nest.map (fun x : Rd (Arithmetic.loose u hu) => x.val) k) := (loose_hom u hu).self.nest k
  have hp := loose_parameters u hu pr kij
  have hn' : (fromRecords (fun j => (pr j).mapHom (Rd.mk (a := Arithmetic.loose u hu)))
      (fun i j => ⟨kij i j⟩)).nassoc ≤ 1 := by
    have := congrArg PcSaftParameters.assoc_comp hp
    have e : (fromRecords (fun j => (pr j).mapHom (Rd.mk (a := Arithmetic.loose u hu)))
      (fun i j => ⟨kij i j⟩)).assoc_comp = (fromRecords pr kij).assoc_comp := this
    rw [PcSaftParameters.nassoc, e]
    exact hn
  have key := hh.residual la' la ((fromRecords (fun j => (pr j).mapHom (Rd.mk (a := Arithmetic.loose u hu)))
    (fun i j => ⟨kij i j⟩)).core ⟨0⟩) o' o
    (StateHD.new (Nest.map Rd.mk k T) (Nest.map Rd.mk k V) (fun j => Nest.map Rd.mk k (N j))) ho hn'
    (fun a _ => by rw [← hh.re]; rfl) (fun a _ => rfl)
  rw [hp, hh.state, residual_core la 0 _ o _ hn, residual_core la' ⟨0⟩ _ o' _ hn'] at key
  simp only [nest_map_mk] at key
  exact key

end PcSaft
