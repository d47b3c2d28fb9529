/-
Python dictionaries as insertion ordered association lists, and a few facts.

These are the dictionaries used by every other part of the model. Python's
`dict` keeps insertion order; assigning to an existing key keeps its place.
Keys are any type with decidable equality (strings in almost all of the code).
-/
namespace Verif.Py

/-- The Python exceptions the modelled code raises, directly or through the
library call that is modelled. -/
inductive Err where
  | valueError | keyError | typeError | attributeError | ioError | indexError
  | notImplementedError | recursionError | fileNotFoundError | importError
  | assertionError | nameError | stopIteration | runtimeError | zeroDivisionError
  deriving DecidableEq, Repr

instance {ε : Type u} {α : Type v} [DecidableEq ε] [DecidableEq α] :
    DecidableEq (Except ε α)
  | .ok a, .ok b => if h : a = b then isTrue (by rw [h]) else isFalse (by simp [h])
  | .error a, .error b => if h : a = b then isTrue (by rw [h]) else isFalse (by simp [h])
  | .ok _, .error _ => isFalse (by simp)
  | .error _, .ok _ => isFalse (by simp)

/-- A Python dictionary, in insertion order. -/
abbrev Dict (κ : Type u) (α : Type v) := List (κ × α)

namespace Dict
set_option linter.unusedSectionVars false
variable {κ : Type u} [DecidableEq κ] {α : Type v}

/-- `d.get(k)` / `d[k]` (with `none` for a missing key). -/
def get? : Dict κ α → κ → Option α
  | [], _ => none
  | (k', v) :: d, k => if k' = k then some v else get? d k

/-- `k in d`. -/
def has (d : Dict κ α) (k : κ) : Bool := (d.get? k).isSome

/-- `d.keys()`, in order. -/
def keys (d : Dict κ α) : List κ := d.map Prod.fst

/-- `d[k] = v`. -/
def set : Dict κ α → κ → α → Dict κ α
  | [], k, v => [(k, v)]
  | (k', v') :: d, k, v => if k' = k then (k', v) :: d else (k', v') :: set d k v

/-- `d.update(e)`. -/
def update (d e : Dict κ α) : Dict κ α := e.foldl (fun d kv => d.set kv.1 kv.2) d

/-- `d == e` on dictionaries (order is ignored). -/
def beq [DecidableEq α] (d e : Dict κ α) : Bool :=
  d.all (fun kv => e.get? kv.1 = some kv.2) && e.all (fun kv => d.get? kv.1 = some kv.2)

/-- A real Python dictionary has every key once. -/
def Ok (d : Dict κ α) : Prop := d.keys.Nodup

instance (d : Dict κ α) : Decidable d.Ok := inferInstanceAs (Decidable (keys d).Nodup)

@[simp] theorem get?_nil (k : κ) : get? ([] : Dict κ α) k = none := rfl
theorem get?_cons (k' : κ) (v : α) (d : Dict κ α) (k : κ) :
    get? ((k', v) :: d) k = if k' = k then some v else get? d k := rfl
@[simp] theorem keys_nil : keys ([] : Dict κ α) = [] := rfl
@[simp] theorem keys_cons (kv : κ × α) (d : Dict κ α) : keys (kv :: d) = kv.1 :: keys d := rfl

theorem get?_isSome_iff (d : Dict κ α) (k : κ) : (d.get? k).isSome ↔ k ∈ d.keys := by
  induction d with
  | nil => simp
  | cons kv d ih =>
    obtain ⟨k', v⟩ := kv
    by_cases h : k' = k
    · simp [get?_cons, h]
    · simp [get?_cons, h, ih, Ne.symm h]

theorem get?_eq_none_iff (d : Dict κ α) (k : κ) : d.get? k = none ↔ k ∉ d.keys := by
  rw [← get?_isSome_iff]; cases d.get? k <;> simp

theorem has_iff (d : Dict κ α) (k : κ) : d.has k = true ↔ k ∈ d.keys := by
  unfold has; exact get?_isSome_iff d k

theorem has_eq_false_iff (d : Dict κ α) (k : κ) : d.has k = false ↔ k ∉ d.keys := by
  rw [← has_iff]; simp

theorem mem_of_get? {d : Dict κ α} {k : κ} {v : α} (h : d.get? k = some v) : (k, v) ∈ d := by
  induction d with
  | nil => simp at h
  | cons kv d ih =>
    obtain ⟨k', v'⟩ := kv
    rw [get?_cons] at h
    by_cases hk : k' = k
    · rw [if_pos hk] at h
      simp only [Option.some.injEq] at h
      simp [hk, h]
    · rw [if_neg hk] at h
      exact List.mem_cons_of_mem _ (ih h)

theorem mem_keys_of_mem {d : Dict κ α} {k : κ} {v : α} (h : (k, v) ∈ d) : k ∈ d.keys :=
  List.mem_map_of_mem (f := Prod.fst) h

theorem get?_of_mem {d : Dict κ α} (hd : d.Ok) {k : κ} {v : α} (h : (k, v) ∈ d) :
    d.get? k = some v := by
  induction d with
  | nil => simp at h
  | cons kv d ih =>
    obtain ⟨k', v'⟩ := kv
    simp only [Ok, keys_cons, List.nodup_cons] at hd
    rw [get?_cons]
    rcases List.mem_cons.1 h with h | h
    · cases h; simp
    · have : k' ≠ k := by
        rintro rfl; exact hd.1 (mem_keys_of_mem h)
      rw [if_neg this]
      exact ih hd.2 h

theorem get?_set (d : Dict κ α) (k : κ) (v : α) (k' : κ) :
    (d.set k v).get? k' = if k = k' then some v else d.get? k' := by
  induction d with
  | nil => simp [set, get?_cons]
  | cons kv d ih =>
    obtain ⟨a, b⟩ := kv
    by_cases h : a = k
    · subst h
      by_cases h' : a = k' <;> simp [set, get?_cons, h']
    · by_cases h' : a = k'
      · subst h'
        simp [set, get?_cons, h, Ne.symm h]
      · simp [set, get?_cons, h, h', ih]

theorem keys_set (d : Dict κ α) (k : κ) (v : α) :
    (d.set k v).keys = if k ∈ d.keys then d.keys else d.keys ++ [k] := by
  induction d with
  | nil => simp [set]
  | cons kv d ih =>
    obtain ⟨a, b⟩ := kv
    by_cases h : a = k
    · simp [set, h]
    · by_cases hk : k ∈ keys d <;> simp [set, h, ih, hk, Ne.symm h]

theorem mem_keys_set (d : Dict κ α) (k : κ) (v : α) (k' : κ) :
    k' ∈ (d.set k v).keys ↔ k' = k ∨ k' ∈ d.keys := by
  rw [keys_set]; split
  · constructor
    · exact Or.inr
    · rintro (rfl | h)
      · assumption
      · exact h
  · simp [or_comm]

theorem ok_set {d : Dict κ α} (hd : d.Ok) (k : κ) (v : α) : (d.set k v).Ok := by
  unfold Ok at *; rw [keys_set]; split
  · exact hd
  · rename_i h
    rw [List.nodup_append]
    refine ⟨hd, by simp, ?_⟩
    intro a ha b hb
    simp only [List.mem_singleton] at hb
    subst hb
    rintro rfl; exact h ha

theorem ok_nil : Ok ([] : Dict κ α) := by simp [Ok]

theorem ok_update {d : Dict κ α} (hd : d.Ok) (e : Dict κ α) : (d.update e).Ok := by
  unfold update
  induction e generalizing d with
  | nil => exact hd
  | cons kv e ih => exact ih (ok_set hd _ _)

theorem get?_update (d e : Dict κ α) (he : e.Ok) (k : κ) :
    (d.update e).get? k = (e.get? k).orElse (fun _ => d.get? k) := by
  unfold update
  induction e generalizing d with
  | nil => simp
  | cons kv e ih =>
    obtain ⟨a, b⟩ := kv
    simp only [Ok, keys_cons, List.nodup_cons] at he
    rw [List.foldl_cons, ih _ he.2, get?_set, get?_cons]
    by_cases h : a = k
    · subst h
      have : get? e a = none := (get?_eq_none_iff e a).2 he.1
      simp [this]
    · simp [h]

theorem mem_keys_update (d e : Dict κ α) (k : κ) :
    k ∈ (d.update e).keys ↔ k ∈ d.keys ∨ k ∈ e.keys := by
  unfold update
  induction e generalizing d with
  | nil => simp
  | cons kv e ih =>
    rw [List.foldl_cons, ih, mem_keys_set, keys_cons, List.mem_cons]
    constructor
    · rintro ((h | h) | h)
      · exact Or.inr (Or.inl h)
      · exact Or.inl h
      · exact Or.inr (Or.inr h)
    · rintro (h | h | h)
      · exact Or.inl (Or.inr h)
      · exact Or.inl (Or.inl h)
      · exact Or.inr h

/-- Dictionary equality is equality of all lookups. -/
theorem beq_iff [DecidableEq α] {d e : Dict κ α} (hd : d.Ok) (he : e.Ok) :
    d.beq e = true ↔ ∀ k, d.get? k = e.get? k := by
  unfold beq
  simp only [Bool.and_eq_true, List.all_eq_true, decide_eq_true_eq]
  constructor
  · rintro ⟨h1, h2⟩ k
    cases hk : d.get? k with
    | some v => exact (h1 _ (mem_of_get? hk)).symm
    | none =>
      cases hk' : e.get? k with
      | none => rfl
      | some v => rw [h2 _ (mem_of_get? hk')] at hk; cases hk
  · intro h
    refine ⟨fun kv hkv => ?_, fun kv hkv => ?_⟩
    · rw [← h]; exact get?_of_mem hd hkv
    · rw [h]; exact get?_of_mem he hkv

end Dict
end Verif.Py
