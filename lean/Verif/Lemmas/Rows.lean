import Verif.Model.DftPure
import Verif.Lemmas.RealForms

/-! # Rows of the weighted densities -/

namespace PcSaft
variable {D : Type} {n : ℕ}

theorem collectPanic_ok {A : Type} : ∀ {n : ℕ} (f : Fin n → A), collectPanic (fun i => .ok (f i)) = .ok f
  | 0, f => by
    simp only [collectPanic, Except.ok.injEq]
    funext i
    exact i.elim0
  | n + 1, f => by
    simp only [collectPanic, collectPanic_ok (fun i => f i.succ), Except.ok.injEq]
    funext i
    refine Fin.cases ?_ (fun j => ?_) i <;> simp

theorem rowAt_of_getElem? {wd : List D} {i : ℕ} {x : D} (h : wd[i]? = some x) : rowAt wd i = .ok x := by
  simp only [rowAt, h]

/-- the row behind a prefix -/
theorem rowAt_append (a : List D) (x : D) (b : List D) {i : ℕ} (h : a.length = i) :
    rowAt (a ++ x :: b) i = .ok x := by
  apply rowAt_of_getElem?
  subst h
  simp

/-- a block of rows behind a prefix -/
theorem rowSlice_append (a : List D) (f : Fin n → D) (b : List D) {i : ℕ} (h : a.length = i) :
    rowSlice (a ++ List.ofFn f ++ b) i n = .ok f := by
  unfold rowSlice
  rw [← collectPanic_ok f]
  congr 1
  funext j
  apply rowAt_of_getElem?
  subst h
  rw [List.append_assoc, List.getElem?_append_right (by omega), List.getElem?_append_left (by simp)]
  simp

theorem rowSlice_head (f : Fin n → D) (b : List D) : rowSlice (List.ofFn f ++ b) 0 n = .ok f :=
  rowSlice_append [] f b rfl

theorem flatMap_ofFn_length (v : ℕ → Fin n → D) (L : List ℕ) :
    (L.flatMap (fun d => List.ofFn (v d))).length = n * L.length := by
  induction L with
  | nil => simp
  | cons x L ih => simp [ih, Nat.mul_add, Nat.add_comm]

/-- the vector blocks -/
theorem rowSlice_vectors (a : List D) (v : ℕ → Fin n → D) (b : List D) (dim : ℕ) (ha : a.length = n) :
    (List.range dim).mapM (fun i => rowSlice (a ++ (List.range dim).flatMap (fun d => List.ofFn (v d)) ++ b)
      (n * (i + 1)) n) = (Except.ok ((List.range dim).map v) : Except Panic _) := by
  have key : ∀ L : List ℕ, (∀ i ∈ L, i < dim) →
      L.mapM (fun i => rowSlice (a ++ (List.range dim).flatMap (fun d => List.ofFn (v d)) ++ b)
        (n * (i + 1)) n) = (Except.ok (L.map v) : Except Panic _) := by
    intro L
    induction L with
    | nil => intro _; rfl
    | cons i L ih =>
      intro h
      have hi := h i (by simp)
      have hs : rowSlice (a ++ (List.range dim).flatMap (fun d => List.ofFn (v d)) ++ b) (n * (i + 1)) n
          = .ok (v i) := by
        have e : List.range dim = List.range i ++ i :: (List.range' (i + 1) (dim - i - 1)) := by
          have : dim = i + (dim - i) := by omega
          conv_lhs => rw [this]
          rw [List.range_add, List.range_eq_range' (n := dim - i)]
          have h2 : dim - i = (dim - i - 1) + 1 := by omega
          conv_lhs => rw [h2, List.range'_succ]
          simp [List.map_add_range']
        rw [e, List.flatMap_append, List.flatMap_cons]
        have := rowSlice_append (a ++ (List.range i).flatMap (fun d => List.ofFn (v d))) (v i)
          ((List.range' (i + 1) (dim - i - 1)).flatMap (fun d => List.ofFn (v d)) ++ b) (i := n * (i + 1))
          (by rw [List.length_append, flatMap_ofFn_length, ha, List.length_range]; ring)
        simpa [List.append_assoc] using this
      rw [List.mapM_cons, hs, ih (fun j hj => h j (by simp [hj]))]
      rfl
  exact key _ (fun i hi => List.mem_range.1 hi)

end PcSaft
