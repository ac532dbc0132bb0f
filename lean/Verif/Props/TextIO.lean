import Verif.Model.TextIO
import Verif.Props.Parameters
import Mathlib.Data.List.Perm.Basic
import Mathlib.Data.List.FinRange
import Mathlib.Tactic

/-!
# C49–C51, C62: JSON, tables, text and the parser of the dipole-quadrupole option
-/

namespace PcSaft.Props
open PcSaft
variable {F : Type}

/-! ### C49 -/

/-- every number in the record is finite -/
structure FiniteRecord (finite : F → Bool) (r : PcSaftRecord F) : Prop where
  m : finite r.m
  sigma : finite r.sigma
  epsilon_k : finite r.epsilon_k
  scalars : ∀ o ∈ [r.mu, r.q, r.kappa_ab, r.epsilon_k_ab, r.na, r.nb], ∀ x, o = some x → finite x
  viscosity : ∀ v, r.viscosity = some v → ∀ i, finite (v i)
  diffusion : ∀ v, r.diffusion = some v → ∀ i, finite (v i)
  thermal_conductivity : ∀ v, r.thermal_conductivity = some v → ∀ i, finite (v i)

theorem filter_skipNone (k key : String) (o : Option (Json F)) :
    (skipNone k o).filter (fun kv => kv.1 == key) = if k == key then skipNone k o else [] := by
  cases o <;> simp [skipNone, List.filter_cons]

theorem field_skipNone {kvs : List (String × Json F)} {key : String} {o : Option (Json F)}
    (h : kvs.filter (fun kv => kv.1 == key) = skipNone key o) : Json.field kvs key = .ok o := by
  unfold Json.field
  rw [h]
  cases o <;> rfl

theorem entries_eq (finite : F → Bool) (r : PcSaftRecord F) : r.entries finite
    = skipNone "m" (some (Json.ofF64 finite r.m)) ++ skipNone "sigma" (some (Json.ofF64 finite r.sigma))
      ++ skipNone "epsilon_k" (some (Json.ofF64 finite r.epsilon_k))
      ++ skipNone "mu" (r.mu.map (Json.ofF64 finite))
      ++ skipNone "q" (r.q.map (Json.ofF64 finite))
      ++ skipNone "kappa_ab" (r.kappa_ab.map (Json.ofF64 finite))
      ++ skipNone "epsilon_k_ab" (r.epsilon_k_ab.map (Json.ofF64 finite))
      ++ skipNone "na" (r.na.map (Json.ofF64 finite))
      ++ skipNone "nb" (r.nb.map (Json.ofF64 finite))
      ++ skipNone "viscosity" (r.viscosity.map (Json.ofArray finite))
      ++ skipNone "diffusion" (r.diffusion.map (Json.ofArray finite))
      ++ skipNone "thermal_conductivity" (r.thermal_conductivity.map (Json.ofArray finite)) := rfl

/-- the value stored under each key of a written record -/
theorem field_entries (finite : F → Bool) (r : PcSaftRecord F) :
    Json.field (r.entries finite) "m" = .ok (some (Json.ofF64 finite r.m))
    ∧ Json.field (r.entries finite) "sigma" = .ok (some (Json.ofF64 finite r.sigma))
    ∧ Json.field (r.entries finite) "epsilon_k" = .ok (some (Json.ofF64 finite r.epsilon_k))
    ∧ Json.field (r.entries finite) "mu" = .ok (r.mu.map (Json.ofF64 finite))
    ∧ Json.field (r.entries finite) "q" = .ok (r.q.map (Json.ofF64 finite))
    ∧ Json.field (r.entries finite) "kappa_ab" = .ok (r.kappa_ab.map (Json.ofF64 finite))
    ∧ Json.field (r.entries finite) "epsilon_k_ab" = .ok (r.epsilon_k_ab.map (Json.ofF64 finite))
    ∧ Json.field (r.entries finite) "na" = .ok (r.na.map (Json.ofF64 finite))
    ∧ Json.field (r.entries finite) "nb" = .ok (r.nb.map (Json.ofF64 finite))
    ∧ Json.field (r.entries finite) "viscosity" = .ok (r.viscosity.map (Json.ofArray finite))
    ∧ Json.field (r.entries finite) "diffusion" = .ok (r.diffusion.map (Json.ofArray finite))
    ∧ Json.field (r.entries finite) "thermal_conductivity"
        = .ok (r.thermal_conductivity.map (Json.ofArray finite)) := by
  refine ⟨?_, ?_, ?_, ?_, ?_, ?_, ?_, ?_, ?_, ?_, ?_, ?_⟩ <;>
  · apply field_skipNone
    rw [entries_eq]
    repeat rw [List.filter_append]
    simp only [filter_skipNone]
    simp [skipNone]

theorem readOption_ofF64 {finite : F → Bool} {x : F} (h : finite x) :
    Json.readOption Json.readF64 (Json.ofF64 finite x) = .ok (some x) := by
  simp only [Json.ofF64, h, if_true]
  rfl

theorem optional_scalar {finite : F → Bool} {kvs : List (String × Json F)} {key : String} {o : Option F}
    (h : Json.field kvs key = .ok (o.map (Json.ofF64 finite))) (hf : ∀ x, o = some x → finite x) :
    Json.optional Json.readF64 kvs key = .ok o := by
  unfold Json.optional
  rw [h]
  cases o with
  | none => rfl
  | some x => exact readOption_ofF64 (hf x rfl)

theorem readNumbers_ofF64 {finite : F → Bool} (l : List F) (h : ∀ x ∈ l, finite x) :
    Json.readNumbers (l.map (Json.ofF64 finite)) = .ok l := by
  induction l with
  | nil => rfl
  | cons x l ih =>
    have hx : Json.ofF64 finite x = .num x := by simp [Json.ofF64, h x (by simp)]
    simp only [List.map_cons, Json.readNumbers, hx, Json.readF64, ih fun y hy => h y (by simp [hy])]
    rfl

theorem readArray_ofArray {finite : F → Bool} {k : ℕ} (v : Fin k → F) (h : ∀ i, finite (v i)) :
    Json.readArray k (Json.ofArray finite v) = .ok v := by
  have h1 : (List.ofFn fun i => Json.ofF64 finite (v i)) = (List.ofFn v).map (Json.ofF64 finite) := by
    rw [List.map_ofFn]
    rfl
  have h2 : Json.readNumbers ((List.ofFn v).map (Json.ofF64 finite)) = .ok (List.ofFn v) := by
    refine readNumbers_ofF64 _ fun x hx => ?_
    obtain ⟨i, rfl⟩ := (List.mem_ofFn' v x).mp hx
    exact h i
  unfold Json.readArray Json.ofArray
  rw [h1]
  simp only
  rw [h2]
  change (if h : (List.ofFn v).length = k then _ else _) = _
  rw [dif_pos (List.length_ofFn)]
  congr 1
  funext i
  simp

theorem optional_array {finite : F → Bool} {kvs : List (String × Json F)} {key : String} {k : ℕ}
    {o : Option (Fin k → F)} (h : Json.field kvs key = .ok (o.map (Json.ofArray finite)))
    (hf : ∀ v, o = some v → ∀ i, finite (v i)) :
    Json.optional (Json.readArray k) kvs key = .ok o := by
  unfold Json.optional
  rw [h]
  cases o with
  | none => rfl
  | some v =>
    have := readArray_ofArray v (hf v rfl)
    change Json.readOption (Json.readArray k) (Json.ofArray finite v) = _
    unfold Json.readOption
    simp only [Json.ofArray] at this ⊢
    rw [this]
    rfl

theorem required_scalar {finite : F → Bool} {kvs : List (String × Json F)} {key : String} {x : F}
    (h : Json.field kvs key = .ok (some (Json.ofF64 finite x))) (hf : finite x) :
    Json.required Json.readF64 kvs key = .ok x := by
  unfold Json.required
  rw [h]
  simp only [Json.ofF64, hf, if_true]
  rfl

/-- C49: writing a record with finite numbers and reading it back gives the same record. -/
theorem C49_round_trip (finite : F → Bool) (r : PcSaftRecord F) (h : FiniteRecord finite r) :
    PcSaftRecord.deserialize (r.serialize finite) = .ok r := by
  obtain ⟨h1, h2, h3, h4, h5, h6, h7, h8, h9, h10, h11, h12⟩ := field_entries finite r
  have hs := h.scalars
  simp only [List.mem_cons, List.not_mem_nil, or_false, forall_eq_or_imp, forall_eq] at hs
  obtain ⟨s1, s2, s3, s4, s5, s6⟩ := hs
  change PcSaftRecord.ofEntries (r.entries finite) = _
  unfold PcSaftRecord.ofEntries
  rw [required_scalar h1 h.m, required_scalar h2 h.sigma, required_scalar h3 h.epsilon_k,
    optional_scalar h4 s1, optional_scalar h5 s2, optional_scalar h6 s3, optional_scalar h7 s4,
    optional_scalar h8 s5, optional_scalar h9 s6, optional_array h10 h.viscosity, optional_array h11 h.diffusion,
    optional_array h12 h.thermal_conductivity]
  rfl

/-- C49: an optional key is written exactly if the field is present; the required keys always are. -/
theorem C49_written_keys (finite : F → Bool) (r : PcSaftRecord F) (key : String) :
    key ∈ (r.entries finite).map Prod.fst ↔
      key ∈ ["m", "sigma", "epsilon_k"] ∨ (key = "mu" ∧ r.mu.isSome) ∨ (key = "q" ∧ r.q.isSome)
      ∨ (key = "kappa_ab" ∧ r.kappa_ab.isSome) ∨ (key = "epsilon_k_ab" ∧ r.epsilon_k_ab.isSome)
      ∨ (key = "na" ∧ r.na.isSome) ∨ (key = "nb" ∧ r.nb.isSome) ∨ (key = "viscosity" ∧ r.viscosity.isSome)
      ∨ (key = "diffusion" ∧ r.diffusion.isSome)
      ∨ (key = "thermal_conductivity" ∧ r.thermal_conductivity.isSome) := by
  have hk : ∀ (k : String) (o : Option (Json F)), key ∈ (skipNone k o).map Prod.fst ↔ key = k ∧ o.isSome := by
    intro k o
    cases o <;> simp [skipNone]
  simp only [PcSaftRecord.entries, List.map_append, List.mem_append, hk, Option.isSome_map, List.map_cons,
    List.map_nil, or_assoc]

/-- optional keys of a record -/
def optionalKeys : List String :=
  ["mu", "q", "kappa_ab", "epsilon_k_ab", "na", "nb", "viscosity", "diffusion", "thermal_conductivity"]

/-- all keys of a record -/
def recordKeys : List String := ["m", "sigma", "epsilon_k"] ++ optionalKeys

/-- reading only depends on the values found for the keys of a record -/
theorem ofEntries_congr {kvs kvs' : List (String × Json F)}
    (hr : ∀ key ∈ ["m", "sigma", "epsilon_k"], Json.field kvs key = Json.field kvs' key)
    (ho : ∀ key ∈ optionalKeys, Json.field kvs key = Json.field kvs' key
      ∨ (Json.field kvs key = .ok (some .null) ∧ Json.field kvs' key = .ok none)) :
    PcSaftRecord.ofEntries kvs = PcSaftRecord.ofEntries kvs' := by
  have h1 : ∀ key ∈ ["m", "sigma", "epsilon_k"],
      Json.required Json.readF64 kvs key = Json.required Json.readF64 kvs' key := by
    intro key hk
    unfold Json.required
    rw [hr key hk]
  have h2 : ∀ (A : Type) (read : Json F → Except JsonError A), ∀ key ∈ optionalKeys,
      Json.optional read kvs key = Json.optional read kvs' key := by
    intro A read key hk
    unfold Json.optional
    rcases ho key hk with h | ⟨h, h'⟩
    · rw [h]
    · rw [h, h']
      rfl
  unfold PcSaftRecord.ofEntries
  rw [h1 "m" (by simp), h1 "sigma" (by simp), h1 "epsilon_k" (by simp),
    h2 _ _ "mu" (by simp [optionalKeys]), h2 _ _ "q" (by simp [optionalKeys]),
    h2 _ _ "kappa_ab" (by simp [optionalKeys]), h2 _ _ "epsilon_k_ab" (by simp [optionalKeys]),
    h2 _ _ "na" (by simp [optionalKeys]), h2 _ _ "nb" (by simp [optionalKeys]),
    h2 _ _ "viscosity" (by simp [optionalKeys]), h2 _ _ "diffusion" (by simp [optionalKeys]),
    h2 _ _ "thermal_conductivity" (by simp [optionalKeys])]

theorem field_perm {kvs kvs' : List (String × Json F)} (h : kvs.Perm kvs') (key : String) :
    Json.field kvs key = Json.field kvs' key := by
  have hf := h.filter (fun kv => kv.1 == key)
  unfold Json.field
  revert hf
  generalize kvs.filter (fun kv => kv.1 == key) = l
  generalize kvs'.filter (fun kv => kv.1 == key) = l'
  intro hf
  match l, l' with
  | [], [] => rfl
  | [], b :: _ => simp at hf
  | [a], l' =>
    rw [List.singleton_perm] at hf
    rw [hf]
  | a :: b :: _, [] => simp at hf
  | a :: b :: _, [_] =>
    have := hf.length_eq
    simp at this
  | a :: b :: _, _ :: _ :: _ => rfl

theorem field_insert {k : String} {j : Json F} (l₁ l₂ : List (String × Json F)) {key : String} (h : k ≠ key) :
    Json.field (l₁ ++ (k, j) :: l₂) key = Json.field (l₁ ++ l₂) key := by
  unfold Json.field
  have : (l₁ ++ (k, j) :: l₂).filter (fun kv => kv.1 == key) = (l₁ ++ l₂).filter (fun kv => kv.1 == key) := by
    rw [List.filter_append, List.filter_append, List.filter_cons_of_neg (by simpa using h)]
  rw [this]

theorem field_absent {kvs : List (String × Json F)} {key : String} (h : key ∉ kvs.map Prod.fst) :
    Json.field kvs key = .ok none := by
  unfold Json.field
  have : kvs.filter (fun kv => kv.1 == key) = [] := by
    rw [List.filter_eq_nil_iff]
    intro kv hkv hk
    refine h (List.mem_map.mpr ⟨kv, hkv, ?_⟩)
    simpa using hk
  rw [this]

theorem field_present {key : String} {j : Json F} {l₁ l₂ : List (String × Json F)}
    (h : key ∉ (l₁ ++ l₂).map Prod.fst) : Json.field (l₁ ++ (key, j) :: l₂) key = .ok (some j) := by
  have : (l₁ ++ (key, j) :: l₂).filter (fun kv => kv.1 == key) = [(key, j)] := by
    have h1 : ∀ l : List (String × Json F), key ∉ l.map Prod.fst → l.filter (fun kv => kv.1 == key) = [] := by
      intro l hl
      rw [List.filter_eq_nil_iff]
      intro kv hkv hk
      exact hl (List.mem_map.mpr ⟨kv, hkv, by simpa using hk⟩)
    rw [List.map_append, List.mem_append, not_or] at h
    rw [List.filter_append, List.filter_cons_of_pos (by simp), h1 _ h.1, h1 _ h.2]
    rfl
  unfold Json.field
  rw [this]

/-- C49: the order of the keys does not matter. -/
theorem C49_order {kvs kvs' : List (String × Json F)} (h : kvs.Perm kvs') :
    PcSaftRecord.deserialize (.obj kvs) = PcSaftRecord.deserialize (.obj kvs') :=
  ofEntries_congr (fun key _ => field_perm h key) (fun key _ => .inl (field_perm h key))

/-- C49: other keys are ignored. -/
theorem C49_unknown_keys (l₁ l₂ : List (String × Json F)) (key : String) (j : Json F) (h : key ∉ recordKeys) :
    PcSaftRecord.deserialize (.obj (l₁ ++ (key, j) :: l₂)) = PcSaftRecord.deserialize (.obj (l₁ ++ l₂)) := by
  have hne : ∀ k ∈ recordKeys, key ≠ k := fun k hk he => h (he ▸ hk)
  exact ofEntries_congr (fun k hk => field_insert l₁ l₂ (hne k (List.mem_append_left _ hk)))
    (fun k hk => .inl (field_insert l₁ l₂ (hne k (List.mem_append_right _ hk))))

/-- C49: for an optional key, `null` and a missing key are the same. -/
theorem C49_null_is_absent (l₁ l₂ : List (String × Json F)) (key : String) (hk : key ∈ optionalKeys)
    (h : key ∉ (l₁ ++ l₂).map Prod.fst) :
    PcSaftRecord.deserialize (.obj (l₁ ++ (key, .null) :: l₂)) = PcSaftRecord.deserialize (.obj (l₁ ++ l₂)) := by
  have hno : ∀ k ∈ ["m", "sigma", "epsilon_k"], key ≠ k := by
    intro k hk' he
    subst he
    revert hk hk'
    simp only [optionalKeys, List.mem_cons, List.not_mem_nil, or_false]
    rintro (h | h | h | h | h | h | h | h | h) (h' | h' | h') <;> simp [h] at h'
  refine ofEntries_congr (fun k hk' => field_insert l₁ l₂ (hno k hk')) (fun k _ => ?_)
  by_cases he : key = k
  · subst he
    exact .inr ⟨field_present h, field_absent h⟩
  · exact .inl (field_insert l₁ l₂ he)

/-- C49: without one of the required keys, or with `null` there, the document is rejected. -/
theorem C49_required (kvs : List (String × Json F)) (key : String) (hk : key ∈ ["m", "sigma", "epsilon_k"])
    (h : key ∉ kvs.map Prod.fst ∨ Json.field kvs key = .ok (some .null)) :
    ∃ e, PcSaftRecord.deserialize (.obj kvs) = .error e := by
  have h1 : ∃ e, Json.required Json.readF64 kvs key = .error e := by
    unfold Json.required
    rcases h with h | h
    · rw [field_absent h]
      exact ⟨_, rfl⟩
    · rw [h]
      exact ⟨_, rfl⟩
  obtain ⟨e, he⟩ := h1
  change ∃ e, PcSaftRecord.ofEntries kvs = .error e
  unfold PcSaftRecord.ofEntries
  simp only [List.mem_cons, List.not_mem_nil, or_false] at hk
  rcases hk with rfl | rfl | rfl
  · rw [he]
    exact ⟨e, rfl⟩
  · rw [he]
    cases Json.required Json.readF64 kvs "m" with
    | error e' => exact ⟨e', rfl⟩
    | ok _ => exact ⟨e, rfl⟩
  · rw [he]
    cases Json.required Json.readF64 kvs "m" with
    | error e' => exact ⟨e', rfl⟩
    | ok _ =>
      cases Json.required Json.readF64 kvs "sigma" with
      | error e' => exact ⟨e', rfl⟩
      | ok _ => exact ⟨e, rfl⟩

/-- C49: a document with the three required numbers and none of the optional keys is read as a record
without options. -/
theorem C49_minimal (m s e : F) :
    PcSaftRecord.deserialize (.obj [("m", .num m), ("sigma", .num s), ("epsilon_k", .num e)])
      = .ok ⟨m, s, e, none, none, none, none, none, none, none, none, none⟩ :=
  C49_round_trip (fun _ => true) ⟨m, s, e, none, none, none, none, none, none, none, none, none⟩
    ⟨rfl, rfl, rfl, by simp, by simp, by simp, by simp⟩

/-- C49: why the numbers have to be finite: an optional number that is not finite is lost without an error. -/
theorem C49_not_finite (finite : F → Bool) (m s e x : F) (hm : finite m) (hs : finite s) (he : finite e)
    (hx : finite x = false) :
    PcSaftRecord.deserialize
        ((⟨m, s, e, some x, none, none, none, none, none, none, none, none⟩ : PcSaftRecord F).serialize finite)
      = .ok ⟨m, s, e, none, none, none, none, none, none, none, none, none⟩ := by
  have h : (⟨m, s, e, some x, none, none, none, none, none, none, none, none⟩ : PcSaftRecord F).serialize finite
      = .obj ([("m", .num m), ("sigma", .num s), ("epsilon_k", .num e)] ++ ("mu", .null) :: []) := by
    simp [PcSaftRecord.serialize, PcSaftRecord.entries, skipNone, Json.ofF64, hm, hs, he, hx]
  rw [h, C49_null_is_absent _ _ "mu" (by simp [optionalKeys]) (by simp)]
  exact C49_minimal m s e

/-- C49: a record given as an array is read as the document with the keys in the order of the fields; an array of any
other length is rejected. -/
theorem C49_array (l : List (Json F)) :
    (l.length = 12 → PcSaftRecord.deserialize (.arr l) = PcSaftRecord.deserialize (.obj
      (["m", "sigma", "epsilon_k", "mu", "q", "kappa_ab", "epsilon_k_ab", "na", "nb", "viscosity", "diffusion",
        "thermal_conductivity"].zip l)))
    ∧ (l.length ≠ 12 → PcSaftRecord.deserialize (.arr l) = .error .invalidLength) := by
  constructor
  · intro h
    match l, h with
    | [jm, jsigma, jeps, jmu, jq, jkappa, jepsab, jna, jnb, jvisc, jdiff, jtherm], _ =>
      simp only [List.zip_cons_cons, List.zip_nil_right]
      have h0 := field_present (key := "m") (j := jm) (l₁ := [])
        (l₂ := [("sigma", jsigma), ("epsilon_k", jeps), ("mu", jmu), ("q", jq), ("kappa_ab", jkappa), ("epsilon_k_ab", jepsab), ("na", jna), ("nb", jnb), ("viscosity", jvisc), ("diffusion", jdiff), ("thermal_conductivity", jtherm)]) (by simp)
      have h1 := field_present (key := "sigma") (j := jsigma) (l₁ := [("m", jm)])
        (l₂ := [("epsilon_k", jeps), ("mu", jmu), ("q", jq), ("kappa_ab", jkappa), ("epsilon_k_ab", jepsab), ("na", jna), ("nb", jnb), ("viscosity", jvisc), ("diffusion", jdiff), ("thermal_conductivity", jtherm)]) (by simp)
      have h2 := field_present (key := "epsilon_k") (j := jeps) (l₁ := [("m", jm), ("sigma", jsigma)])
        (l₂ := [("mu", jmu), ("q", jq), ("kappa_ab", jkappa), ("epsilon_k_ab", jepsab), ("na", jna), ("nb", jnb), ("viscosity", jvisc), ("diffusion", jdiff), ("thermal_conductivity", jtherm)]) (by simp)
      have h3 := field_present (key := "mu") (j := jmu) (l₁ := [("m", jm), ("sigma", jsigma), ("epsilon_k", jeps)])
        (l₂ := [("q", jq), ("kappa_ab", jkappa), ("epsilon_k_ab", jepsab), ("na", jna), ("nb", jnb), ("viscosity", jvisc), ("diffusion", jdiff), ("thermal_conductivity", jtherm)]) (by simp)
      have h4 := field_present (key := "q") (j := jq) (l₁ := [("m", jm), ("sigma", jsigma), ("epsilon_k", jeps), ("mu", jmu)])
        (l₂ := [("kappa_ab", jkappa), ("epsilon_k_ab", jepsab), ("na", jna), ("nb", jnb), ("viscosity", jvisc), ("diffusion", jdiff), ("thermal_conductivity", jtherm)]) (by simp)
      have h5 := field_present (key := "kappa_ab") (j := jkappa) (l₁ := [("m", jm), ("sigma", jsigma), ("epsilon_k", jeps), ("mu", jmu), ("q", jq)])
        (l₂ := [("epsilon_k_ab", jepsab), ("na", jna), ("nb", jnb), ("viscosity", jvisc), ("diffusion", jdiff), ("thermal_conductivity", jtherm)]) (by simp)
      have h6 := field_present (key := "epsilon_k_ab") (j := jepsab) (l₁ := [("m", jm), ("sigma", jsigma), ("epsilon_k", jeps), ("mu", jmu), ("q", jq), ("kappa_ab", jkappa)])
        (l₂ := [("na", jna), ("nb", jnb), ("viscosity", jvisc), ("diffusion", jdiff), ("thermal_conductivity", jtherm)]) (by simp)
      have h7 := field_present (key := "na") (j := jna) (l₁ := [("m", jm), ("sigma", jsigma), ("epsilon_k", jeps), ("mu", jmu), ("q", jq), ("kappa_ab", jkappa), ("epsilon_k_ab", jepsab)])
        (l₂ := [("nb", jnb), ("viscosity", jvisc), ("diffusion", jdiff), ("thermal_conductivity", jtherm)]) (by simp)
      have h8 := field_present (key := "nb") (j := jnb) (l₁ := [("m", jm), ("sigma", jsigma), ("epsilon_k", jeps), ("mu", jmu), ("q", jq), ("kappa_ab", jkappa), ("epsilon_k_ab", jepsab), ("na", jna)])
        (l₂ := [("viscosity", jvisc), ("diffusion", jdiff), ("thermal_conductivity", jtherm)]) (by simp)
      have h9 := field_present (key := "viscosity") (j := jvisc) (l₁ := [("m", jm), ("sigma", jsigma), ("epsilon_k", jeps), ("mu", jmu), ("q", jq), ("kappa_ab", jkappa), ("epsilon_k_ab", jepsab), ("na", jna), ("nb", jnb)])
        (l₂ := [("diffusion", jdiff), ("thermal_conductivity", jtherm)]) (by simp)
      have h10 := field_present (key := "diffusion") (j := jdiff) (l₁ := [("m", jm), ("sigma", jsigma), ("epsilon_k", jeps), ("mu", jmu), ("q", jq), ("kappa_ab", jkappa), ("epsilon_k_ab", jepsab), ("na", jna), ("nb", jnb), ("viscosity", jvisc)])
        (l₂ := [("thermal_conductivity", jtherm)]) (by simp)
      have h11 := field_present (key := "thermal_conductivity") (j := jtherm) (l₁ := [("m", jm), ("sigma", jsigma), ("epsilon_k", jeps), ("mu", jmu), ("q", jq), ("kappa_ab", jkappa), ("epsilon_k_ab", jepsab), ("na", jna), ("nb", jnb), ("viscosity", jvisc), ("diffusion", jdiff)])
        (l₂ := []) (by simp)
      simp only [List.cons_append, List.nil_append] at h0 h1 h2 h3 h4 h5 h6 h7 h8 h9 h10 h11
      simp only [PcSaftRecord.deserialize, PcSaftRecord.ofEntries, Json.required, Json.optional, h0, h1, h2, h3, h4, h5, h6, h7, h8, h9, h10, h11]
      rfl
  · intro h
    unfold PcSaftRecord.deserialize
    split
    · next he => cases he
    · next he =>
      cases he
      exact absurd rfl h
    · rfl
    · next h1 => exact absurd rfl (h1 l)

/-- sites of both kinds in an array: the numbers are not exchanged -/
example : PcSaftRecord.deserialize (.arr [.num 1, .num 3, .num 300, .null, .null, .num (1 / 10), .num 2000, .num 2, .num 1,
    .null, .null, .null] : Json ℚ)
    = .ok ⟨1, 3, 300, none, none, some (1 / 10), some 2000, some 2, some 1, none, none, none⟩ := by
  rw [(C49_array _).1 rfl]
  rfl

/-- C49 for binary records -/
theorem C49_binary_round_trip (finite : F → Bool) (k : F) (h : finite k) :
    binaryDeserialize (binarySerialize finite k) = .ok k :=
  required_scalar (field_skipNone (o := some (Json.ofF64 finite k)) (by simp [skipNone])) h

/-- water with association, viscosity coefficients and no other options -/
example : PcSaftRecord.deserialize ((⟨1, 3, 300, none, none, some (1 / 10), some 2000, none, none,
    some ![1, 2, 3, 4], none, none⟩ : PcSaftRecord ℚ).serialize (fun _ => true))
  = .ok ⟨1, 3, 300, none, none, some (1 / 10), some 2000, none, none, some ![1, 2, 3, 4], none, none⟩ :=
  C49_round_trip _ _ ⟨rfl, rfl, rfl, by simp, by simp, by simp, by simp⟩

/-! ### C50 -/

theorem append_flatten_eq_intercalate (x : Char) (a : List Char) (rs : List (List Char)) :
    a ++ (rs.map (fun r => x :: r)).flatten = [x].intercalate (a :: rs) := by
  induction rs generalizing a with
  | nil => simp
  | cons r rs ih =>
    rw [List.intercalate_cons_cons, ← ih r]
    simp

theorem toList_foldl {A : Type} (f : A → String) (l : List A) (o : String) :
    (l.foldl (fun o i => o ++ f i) o).toList = o.toList ++ (l.map fun i => (f i).toList).flatten := by
  induction l generalizing o with
  | nil => simp
  | cons a l ih =>
    rw [List.foldl_cons, ih]
    simp

/-- the eleven cells of a row of the table -/
def rowCells (fmt : F → String) {n : ℕ} (p : PcSaftParameters n F) (i : Fin n) : List String :=
  [((p.pure_records i).identifier.name).getD ("Component " ++ Nat.repr (i.val + 1)), fmt (p.molarweight i),
    fmt (p.m i), fmt (p.sigma i), fmt (p.epsilon_k i), fmt (p.mu i), fmt (p.q i), fmt (p.kappa_ab i),
    fmt (p.epsilon_k_ab i), fmt (p.na i), fmt (p.nb i)]

theorem bars (a0 a1 a2 a3 a4 a5 a6 a7 a8 a9 a10 : List Char) :
    ['\n', '|'] ++ a0 ++ ['|'] ++ a1 ++ ['|'] ++ a2 ++ ['|'] ++ a3 ++ ['|'] ++ a4 ++ ['|'] ++ a5 ++ ['|'] ++ a6
      ++ ['|'] ++ a7 ++ ['|'] ++ a8 ++ ['|'] ++ a9 ++ ['|'] ++ a10 ++ ['|']
      = '\n' :: ['|'].intercalate [[], a0, a1, a2, a3, a4, a5, a6, a7, a8, a9, a10, []] := by
  simp only [List.intercalate_cons_cons, List.intercalate_singleton, List.cons_append, List.nil_append,
    List.append_assoc, List.append_nil]

theorem markdownRow_toList (fmt : F → String) {n : ℕ} (p : PcSaftParameters n F) (i : Fin n) :
    (markdownRow fmt p i).toList
      = '\n' :: ['|'].intercalate ([[]] ++ (rowCells fmt p i).map String.toList ++ [[]]) := by
  have e1 : "\n|".toList = ['\n', '|'] := by rfl
  have e2 : "|".toList = ['|'] := by rfl
  unfold markdownRow
  simp only [String.toList_append]
  rw [e1, e2, bars]
  rfl

set_option maxRecDepth 10000 in
theorem header_toList :
    "|component|molarweight|$m$|$\\sigma$|$\\varepsilon$|$\\mu$|$Q$|$\\kappa_{AB}$|$\\varepsilon_{AB}$|$N_A$|$N_B$|\n|-|-|-|-|-|-|-|-|-|-|-|".toList
      = "|component|molarweight|$m$|$\\sigma$|$\\varepsilon$|$\\mu$|$Q$|$\\kappa_{AB}$|$\\varepsilon_{AB}$|$N_A$|$N_B$|".toList
        ++ ['\n'] ++ "|-|-|-|-|-|-|-|-|-|-|-|".toList := by
  simp

/-- C50: the lines of the table are a header, a separator and one line per component in order; splitting a
line at the vertical bars gives the eleven cells between an empty beginning and an empty end. -/
theorem C50_markdown (fmt : F → String) {n : ℕ} (p : PcSaftParameters n F)
    (hname : ∀ i s, (p.pure_records i).identifier.name = some s → '\n' ∉ s.toList ∧ '|' ∉ s.toList)
    (hfmt : ∀ x, '\n' ∉ (fmt x).toList ∧ '|' ∉ (fmt x).toList) :
    ∃ (header separator : List Char) (row : Fin n → List Char),
      (toMarkdown fmt p).toList.splitOn '\n' = header :: separator :: List.ofFn row
      ∧ (header.splitOn '|').length = 13 ∧ separator.splitOn '|' = [[]] ++ List.replicate 11 ['-'] ++ [[]]
      ∧ ∀ i, (row i).splitOn '|' = [[]] ++ (rowCells fmt p i).map String.toList ++ [[]] := by
  have hcell : ∀ i, ∀ s ∈ rowCells fmt p i, '\n' ∉ s.toList ∧ '|' ∉ s.toList := by
    intro i s hs
    simp only [rowCells, List.mem_cons, List.not_mem_nil, or_false] at hs
    rcases hs with rfl | rfl | rfl | rfl | rfl | rfl | rfl | rfl | rfl | rfl | rfl
    · cases hn : (p.pure_records i).identifier.name with
      | some s => exact hname i s hn
      | none =>
        have hd : ∀ c ∈ (Nat.repr (i.val + 1)).toList, c.isDigit := by
          intro c hc
          rw [Nat.toList_repr] at hc
          exact Nat.isDigit_of_mem_toDigits (by norm_num) (by norm_num) hc
        have hno : ∀ c : Char, c.isDigit = false → c ∉ "Component ".toList
            → c ∉ ("Component " ++ Nat.repr (i.val + 1)).toList := by
          intro c hc h1 h2
          rw [String.toList_append, List.mem_append] at h2
          rcases h2 with h | h
          · exact h1 h
          · rw [hd c h] at hc
            exact absurd hc (by decide)
        exact ⟨hno _ (by decide) (by decide), hno _ (by decide) (by decide)⟩
    all_goals exact hfmt _
  set row : Fin n → List Char := fun i =>
    ['|'].intercalate ([[]] ++ (rowCells fmt p i).map String.toList ++ [[]]) with hrow
  have hrowlist : ∀ i, (markdownRow fmt p i).toList = '\n' :: row i := by
    intro i
    exact markdownRow_toList fmt p i
  have hsplit : ∀ i, (row i).splitOn '|' = [[]] ++ (rowCells fmt p i).map String.toList ++ [[]] := by
    intro i
    refine List.splitOn_intercalate '|' (fun l hl => ?_) (by simp)
    simp only [List.mem_append, List.mem_singleton, List.mem_map] at hl
    rcases hl with (rfl | ⟨s, hs, rfl⟩) | rfl
    · simp
    · exact (hcell i s hs).2
    · simp
  have hnl : ∀ i, '\n' ∉ row i := by
    intro i h
    have hmem : ∀ ls : List (List Char), (∀ l ∈ ls, '\n' ∉ l) → '\n' ∉ ['|'].intercalate ls := by
      intro ls
      induction ls with
      | nil => simp
      | cons l ls ih =>
        intro hl
        cases ls with
        | nil => simpa using hl l (by simp)
        | cons l' ls =>
          rw [List.intercalate_cons_cons]
          simp only [List.mem_append, List.mem_singleton, not_or]
          exact ⟨⟨hl l (by simp), by decide⟩, ih fun l'' h'' => hl l'' (by simp [h''])⟩
    refine hmem _ (fun l hl => ?_) h
    simp only [List.mem_append, List.mem_singleton, List.mem_map] at hl
    rcases hl with (rfl | ⟨s, hs, rfl⟩) | rfl
    · simp
    · exact (hcell i s hs).1
    · simp
  have htable : (toMarkdown fmt p).toList = ['\n'].intercalate
      ("|component|molarweight|$m$|$\\sigma$|$\\varepsilon$|$\\mu$|$Q$|$\\kappa_{AB}$|$\\varepsilon_{AB}$|$N_A$|$N_B$|".toList
        :: "|-|-|-|-|-|-|-|-|-|-|-|".toList :: List.ofFn row) := by
    unfold toMarkdown
    rw [toList_foldl, List.intercalate_cons_cons, ← append_flatten_eq_intercalate]
    have e : (List.finRange n).map (fun i => (markdownRow fmt p i).toList)
        = (List.ofFn row).map (fun r => '\n' :: r) := by
      rw [List.ofFn_eq_map, List.map_map]
      exact List.map_congr_left fun i _ => hrowlist i
    rw [e, ← List.append_assoc, header_toList]
  refine ⟨"|component|molarweight|$m$|$\\sigma$|$\\varepsilon$|$\\mu$|$Q$|$\\kappa_{AB}$|$\\varepsilon_{AB}$|$N_A$|$N_B$|".toList,
    "|-|-|-|-|-|-|-|-|-|-|-|".toList, row, ?_, ?_, ?_, hsplit⟩
  · rw [htable]
    refine List.splitOn_intercalate '\n' (fun l hl => ?_) (by simp)
    simp only [List.mem_cons, List.mem_ofFn] at hl
    rcases hl with rfl | rfl | ⟨i, rfl⟩
    · simp
    · simp
    · exact hnl i
  · simp [List.splitOn_cons_eq_if_modifyHead]
  · simp [List.splitOn_cons_eq_if_modifyHead, List.replicate]

/-! ### C51 -/

/-- C51: exactly "dq35" and "dq44" are accepted. -/
theorem C51_parser (s : String) :
    (DQVariants.ofStr s = .ok .DQ35 ↔ s = "dq35") ∧ (DQVariants.ofStr s = .ok .DQ44 ↔ s = "dq44")
    ∧ ((∃ e, DQVariants.ofStr s = .error e) ↔ s ≠ "dq35" ∧ s ≠ "dq44") := by
  unfold DQVariants.ofStr
  split
  · simp
  · simp
  · next h1 h2 =>
    simp only [reduceCtorEq, false_iff, Except.error.injEq, exists_eq', true_iff]
    exact ⟨h1, h2, h1, h2⟩

/-! ### C62 -/

/-- the strings of a list, separated by commas -/
def commaJoin : List String → String
  | [] => ""
  | [a] => a
  | a :: b :: l => a ++ ", " ++ commaJoin (b :: l)

/-- the strings of a list, each after a comma -/
def commaTail : List String → String
  | [] => ""
  | a :: l => ", " ++ a ++ commaTail l

theorem commaJoin_cons (a : String) (l : List String) : commaJoin (a :: l) = a ++ commaTail l := by
  induction l generalizing a with
  | nil => simp [commaJoin, commaTail]
  | cons b l ih => rw [commaJoin, ih, commaTail, String.append_assoc, String.append_assoc]

theorem commaTail_append (l l' : List String) : commaTail (l ++ l') = commaTail l ++ commaTail l' := by
  induction l with
  | nil => simp [commaTail]
  | cons a l ih => simp only [List.cons_append, commaTail, ih, String.append_assoc]

theorem writeSome_eq {A : Type} (key : String) (f : A → String) (o : Option A) :
    writeSome key f o = commaTail ((o.map fun x => key ++ "=" ++ f x).toList) := by
  cases o with
  | none => rfl
  | some x => simp [writeSome, commaTail, String.append_assoc]

/-- what a reader expects in the text for a record: the required parameters and those options that are
present, in the order of the fields -/
def recordItems (fmt : F → String) (fmtArray : List F → String) (r : PcSaftRecord F) : List (String × String) :=
  [("m", fmt r.m), ("sigma", fmt r.sigma), ("epsilon_k", fmt r.epsilon_k)]
  ++ ([("mu", r.mu), ("q", r.q), ("kappa_ab", r.kappa_ab), ("epsilon_k_ab", r.epsilon_k_ab), ("na", r.na),
      ("nb", r.nb)].filterMap fun kv => kv.2.map fun x => (kv.1, fmt x))
  ++ ([("viscosity", r.viscosity.map List.ofFn), ("diffusion", r.diffusion.map List.ofFn),
      ("thermal_conductivity", r.thermal_conductivity.map List.ofFn)].filterMap fun kv =>
        kv.2.map fun x => (kv.1, fmtArray x))

theorem commaTail_filterMap {A : Type} (f : A → String) (l : List (String × Option A)) :
    commaTail ((l.filterMap fun kv => kv.2.map fun x => (kv.1, f x)).map fun kv => kv.1 ++ "=" ++ kv.2)
      = l.foldr (fun kv s => writeSome kv.1 f kv.2 ++ s) "" := by
  induction l with
  | nil => rfl
  | cons kv l ih =>
    obtain ⟨k, o⟩ := kv
    cases o with
    | none => simpa [writeSome] using ih
    | some x => simpa [writeSome_eq, commaTail, String.append_assoc] using ih

theorem writeSome_map {A B : Type} (key : String) (f : B → String) (g : A → B) (o : Option A) :
    writeSome key f (o.map g) = writeSome key (fun v => f (g v)) o := by
  cases o <;> rfl

/-- C62: the text for a record lists exactly the parameters that are present, separated by commas. -/
theorem C62_record_display (fmt : F → String) (fmtArray : List F → String) (r : PcSaftRecord F) :
    r.display fmt fmtArray = "PcSaftRecord("
      ++ commaJoin ((recordItems fmt fmtArray r).map fun kv => kv.1 ++ "=" ++ kv.2) ++ ")" := by
  have h1 : "PcSaftRecord(m=" = "PcSaftRecord(" ++ ("m" ++ "=") := rfl
  have h2 : ", sigma=" = ", " ++ ("sigma" ++ "=") := rfl
  have h3 : ", epsilon_k=" = ", " ++ ("epsilon_k" ++ "=") := rfl
  unfold recordItems PcSaftRecord.display
  simp only [List.cons_append, List.nil_append, List.map_cons, commaJoin_cons, List.map_append,
    commaTail_append, commaTail_filterMap, commaTail, List.foldr_cons, List.foldr_nil, writeSome_map, h1, h2, h3]
  simp only [String.append_assoc, String.empty_append]

/-- C62 for a record with a dipole moment and the diffusion coefficients as only options -/
example : (⟨"1.5", "3.5", "250", some "1.8", none, none, none, none, none, none, some ![ "1", "2", "3", "4", "5"],
      none⟩ : PcSaftRecord String).display id (fun l => "[" ++ commaJoin l ++ "]")
    = "PcSaftRecord(m=1.5, sigma=3.5, epsilon_k=250, mu=1.8, diffusion=[1, 2, 3, 4, 5])" := by
  rw [C62_record_display]
  rfl

/-- C62: the text for a parameter set always shows the molar weights and the dispersion parameters; it shows
the dipole moments, the quadrupole moments, the association parameters and the binary parameters exactly if
at least one component is dipolar, quadrupolar or associating, or some binary parameter is not zero. -/
theorem C62_parameters_display {n : Nat} (pr : Fin n → PureRecord ℝ) (k : Fin n → Fin n → ℝ)
    (hm : ∀ i, (pr i).model_record.m ≠ 0) (hs : ∀ i, (pr i).model_record.sigma ≠ 0)
    (he : ∀ i, (pr i).model_record.epsilon_k ≠ 0)
    (fmt1 : (Fin n → ℝ) → String) (fmt2 : (Fin n → Fin n → ℝ) → String) :
    let p := fromRecords pr k
    ∃ mu q assoc kij : String,
      p.display fmt1 fmt2 = "PcSaftParameters(\n\tmolarweight=" ++ fmt1 p.molarweight ++ "\n\tm=" ++ fmt1 p.m
        ++ "\n\tsigma=" ++ fmt1 p.sigma ++ "\n\tepsilon_k=" ++ fmt1 p.epsilon_k ++ mu ++ q ++ assoc ++ kij ++ "\n)"
      ∧ ((∃ i, p.mu i ≠ 0) → mu = "\n\tmu=" ++ fmt1 p.mu) ∧ ((∀ i, p.mu i = 0) → mu = "")
      ∧ ((∃ i, p.q i ≠ 0) → q = "\n\tq=" ++ fmt1 p.q) ∧ ((∀ i, p.q i = 0) → q = "")
      ∧ ((∃ i, p.kappa_ab i ≠ 0) → assoc = "\n\tkappa_ab=" ++ fmt1 p.kappa_ab ++ "\n\tepsilon_k_ab="
          ++ fmt1 p.epsilon_k_ab ++ "\n\tna=" ++ fmt1 p.na ++ "\n\tnb=" ++ fmt1 p.nb)
      ∧ ((∀ i, p.kappa_ab i = 0) → assoc = "")
      ∧ ((∃ i j, k i j ≠ 0) → kij = "\n\tk_ij=\n" ++ fmt2 k) ∧ ((∀ i j, k i j = 0) → kij = "") := by
  intro p
  obtain ⟨h1, h2, h3, -⟩ := C03_component_lists pr k hm hs he
  change ∀ i, i ∈ p.dipole_comp ↔ p.mu i ≠ 0 at h1
  change ∀ i, i ∈ p.quadpole_comp ↔ p.q i ≠ 0 at h2
  change ∀ i, i ∈ p.assoc_comp ↔ p.kappa_ab i ≠ 0 at h3
  have hk : p.k_ij = k := rfl
  have e : ∀ (l : List (Fin n)) (v : Fin n → ℝ), (∀ i, i ∈ l ↔ v i ≠ 0) →
      ((∃ i, v i ≠ 0) → (!l.isEmpty) = true) ∧ ((∀ i, v i = 0) → (!l.isEmpty) = false) := by
    intro l v h
    constructor
    · rintro ⟨i, hi⟩
      have := (h i).2 hi
      cases l with
      | nil => simp at this
      | cons a l => rfl
    · intro hv
      cases l with
      | nil => rfl
      | cons a l => exact absurd (hv a) ((h a).1 (by simp))
  have e0 : (0.0 : ℝ) = 0 := by norm_num
  refine ⟨_, _, _, _, rfl, ?_, ?_, ?_, ?_, ?_, ?_, ?_, ?_⟩
  · exact fun h => if_pos ((e _ _ h1).1 h)
  · exact fun h => if_neg (by rw [(e _ _ h1).2 h]; decide)
  · exact fun h => if_pos ((e _ _ h2).1 h)
  · exact fun h => if_neg (by rw [(e _ _ h2).2 h]; decide)
  · exact fun h => if_pos ((e _ _ h3).1 h)
  · exact fun h => if_neg (by rw [(e _ _ h3).2 h]; decide)
  · rintro ⟨i, j, h⟩
    rw [hk, if_pos]
    simp only [Bool.not_eq_true', List.all_eq_false, List.mem_finRange, true_and]
    refine ⟨i, ?_⟩
    simp only [Bool.not_eq_true, List.all_eq_false, List.mem_finRange, true_and]
    exact ⟨j, by simpa [e0] using h⟩
  · intro h
    rw [hk, if_neg]
    simp [h, e0]

/-- a dipolar component, alone -/
noncomputable def dipolarRecord : PureRecord ℝ :=
  ⟨⟨some "acetone", ""⟩, 58, ⟨2, 3, 200, some 3, none, none, none, none, none, none, none, none⟩, none⟩

/-- C62 for it: the dipole moment is shown, nothing else -/
example (fmt1 : (Fin 1 → ℝ) → String) (fmt2 : (Fin 1 → Fin 1 → ℝ) → String) :
    (fromRecords (fun _ : Fin 1 => dipolarRecord) (fun _ _ => 0)).display fmt1 fmt2
      = "PcSaftParameters(\n\tmolarweight=" ++ fmt1 (fun _ => 58) ++ "\n\tm=" ++ fmt1 (fun _ => 2)
        ++ "\n\tsigma=" ++ fmt1 (fun _ => 3) ++ "\n\tepsilon_k=" ++ fmt1 (fun _ => 200)
        ++ ("\n\tmu=" ++ fmt1 (fun _ => 3)) ++ "" ++ "" ++ "" ++ "\n)" := by
  have h0 : (0.0 : ℝ) = 0 := by norm_num
  obtain ⟨mu, q, a, k, h, h1, -, -, h2, -, h3, -, h4⟩ :=
    C62_parameters_display (fun _ : Fin 1 => dipolarRecord) (fun _ _ => 0)
      (fun _ => by norm_num [dipolarRecord]) (fun _ => by norm_num [dipolarRecord])
      (fun _ => by norm_num [dipolarRecord]) fmt1 fmt2
  rw [h, h1 ⟨0, by norm_num [fromRecords, dipolarRecord]⟩,
    h2 (fun _ => by simp [fromRecords, dipolarRecord, h0]), h3 (fun _ => by simp [fromRecords, dipolarRecord, h0]),
    h4 (fun _ _ => rfl)]
  rfl

/-- C50 for it -/
example : ∃ header separator row : List Char,
    (toMarkdown (fun _ => "1") (fromRecords (fun _ : Fin 1 => dipolarRecord) (fun _ _ => 0))).toList.splitOn '\n'
      = [header, separator, row]
    ∧ (row.splitOn '|').length = 13 ∧ (row.splitOn '|')[1]? = some "acetone".toList := by
  obtain ⟨h, s, r, e, -, -, hr⟩ := C50_markdown (fun _ => "1")
    (fromRecords (fun _ : Fin 1 => dipolarRecord) (fun _ _ => 0))
    (by
      intro i s hs
      have : s = "acetone" := (Option.some.inj hs).symm
      subst this
      decide)
    (fun _ => by decide)
  refine ⟨h, s, r 0, by simpa using e, ?_, ?_⟩
  · rw [hr 0]; simp [rowCells]
  · rw [hr 0]; rfl

end PcSaft.Props
