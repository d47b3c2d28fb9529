/-
Lemmas on labels from frames and files.
-/
import Verif.Frames.Spec

namespace Verif.Frames
open Verif.Py Verif.Labels

section
variable {ν R : Type} [DecidableEq ν]

theorem get_map {β : Type} (stored : List ν) (f : ν → β) (l : ν) :
    Dict.get? (stored.map fun x => (x, f x) : Dict ν β) l = if l ∈ stored then some (f l) else none := by
  induction stored with
  | nil => rfl
  | cons x stored ih =>
    rw [List.map_cons, Dict.get?_cons]
    by_cases h : x = l
    · subst h; simp
    · rw [if_neg h, ih]
      simp [Ne.symm h]

theorem frameLabels_eq (stored names : List ν) (e : Event ν R) :
    frameLabels (e.frame stored) names =
      if ∀ l ∈ names, l ∈ stored then .ok (names.map fun l => [e.label l]) else .error .keyError := by
  induction names with
  | nil => rfl
  | cons l ls ih =>
    simp only [frameLabels, Event.frame, get_map]
    by_cases h : l ∈ stored
    · rw [if_pos h]
      simp only
      change (match frameLabels (e.frame stored) ls with
        | .error e => Except.error e
        | .ok rest => Except.ok ([_] :: rest)) = _
      rw [ih]
      by_cases h2 : ∀ l ∈ ls, l ∈ stored
      · rw [if_pos h2, if_pos (by simpa [h] using h2)]
        rfl
      · rw [if_neg h2, if_neg (by simpa [h] using h2)]
    · rw [if_neg h, if_neg (by simp [h])]

theorem loadLabels_eq (stored names : List ν) (es : List (Event ν R)) :
    loadLabels (table stored es) names =
      if ∀ l ∈ names, l ∈ stored then .ok (names.map fun l => es.map fun e => e.label l)
      else .error .keyError := by
  induction names with
  | nil => rfl
  | cons l ls ih =>
    simp only [loadLabels, table, get_map]
    by_cases h : l ∈ stored
    · rw [if_pos h]
      simp only
      change (match loadLabels (table stored es) ls with
        | .error e => Except.error e
        | .ok rest => Except.ok (_ :: rest)) = _
      rw [ih]
      by_cases h2 : ∀ l ∈ ls, l ∈ stored
      · rw [if_pos h2, if_pos (by simpa [h] using h2)]
        rfl
      · rw [if_neg h2, if_neg (by simpa [h] using h2)]
    · rw [if_neg h, if_neg (by simp [h])]

theorem frameSnow_eq (vec : List R) (is : List Nat) (h : ∀ i ∈ is, i < vec.length) :
    frameSnow vec 1 is = .ok (is.filterMap fun i => (vec[i]?).map fun v => [v]) := by
  induction is with
  | nil => rfl
  | cons i is ih =>
    have hi := h i (List.mem_cons_self ..)
    have hv : vec[i]? = some vec[i] := List.getElem?_eq_getElem hi
    simp only [frameSnow, hv, List.length_singleton, ne_eq, not_true_eq_false, if_false,
      ih (fun j hj => h j (List.mem_cons_of_mem _ hj)), List.filterMap_cons, Option.map_some]

theorem range_filterMap {β : Type} (vec : List R) (f : R → β) (n : Nat) (h : vec.length = n) :
    (List.range n).filterMap (fun i => (vec[i]?).map f) = vec.map f := by
  subst h
  induction vec using List.reverseRecOn with
  | nil => rfl
  | append_singleton vec v ih =>
    rw [List.length_append, List.length_singleton, List.range_succ, List.filterMap_append]
    have h1 : (List.range vec.length).filterMap (fun i => ((vec ++ [v])[i]?).map f) =
        (List.range vec.length).filterMap (fun i => (vec[i]?).map f) := by
      apply List.filterMap_congr
      intro i hi
      rw [List.getElem?_append_left (List.mem_range.1 hi)]
    rw [h1, ih]
    simp

omit [DecidableEq ν] in
/-- The column of the snowstorm parameter `i` in a file. -/
theorem snow_column (es : List (Event ν R)) (i : Nat) :
    ((snowRows es).filter (fun r => r.1 = i)).map Prod.snd = es.filterMap fun e => e.snow[i]? := by
  have h1 : ∀ (l : List R) (k : Nat), ((l.zipIdx k).map fun x => (x.2, x.1)).filterMap
      (fun r : Nat × R => if r.1 = i then some r.2 else none) =
      (if k ≤ i then (l[i - k]?).toList else []) := by
    intro l
    induction l with
    | nil => intro k; simp
    | cons x l ih =>
      intro k
      simp only [List.zipIdx_cons, List.map_cons, List.filterMap_cons]
      by_cases hk : k = i
      · subst hk
        rw [if_pos rfl, ih, if_neg (by omega)]
        simp
      · rw [if_neg hk]
        simp only
        rw [ih]
        by_cases hk2 : k ≤ i
        · rw [if_pos (by omega), if_pos hk2]
          obtain ⟨d, hd⟩ : ∃ d, i - k = d + 1 := ⟨i - k - 1, by omega⟩
          have : i - (k + 1) = d := by omega
          rw [this, hd, List.getElem?_cons_succ]
        · rw [if_neg (by omega), if_neg hk2]
  have h2 : ∀ l : List (Nat × R), (l.filter (fun r => r.1 = i)).map Prod.snd =
      l.filterMap (fun r => if r.1 = i then some r.2 else none) := by
    intro l
    induction l with
    | nil => rfl
    | cons r l ih =>
      by_cases hr : r.1 = i
      · simp [hr, ih]
      · simp [hr, ih]
  rw [h2]
  induction es with
  | nil => rfl
  | cons e es ih =>
    simp only [snowRows, List.flatMap_cons, List.filterMap_append, List.filterMap_cons]
    have := h1 e.snow 0
    rw [this]
    simp only [Nat.zero_le, if_true, Nat.sub_zero]
    have ih' : List.filterMap (fun r : Nat × R => if r.1 = i then some r.2 else none)
        (List.flatMap (fun e => e.snow.zipIdx.map fun x => (x.2, x.1)) es) =
        es.filterMap fun e => e.snow[i]? := ih
    rw [ih']
    cases e.snow[i]? <;> rfl

theorem filterMap_length {α β : Type} (f : α → Option β) (l : List α) :
    (l.filterMap f).length = l.length ↔ ∀ x ∈ l, (f x).isSome := by
  induction l with
  | nil => simp
  | cons x l ih =>
    have hle := List.length_filterMap_le f l
    cases hx : f x with
    | none =>
      rw [List.filterMap_cons, hx]
      simp only [List.length_cons, List.forall_mem_cons, hx, Option.isSome_none, Bool.false_eq_true, false_and,
        iff_false]
      omega
    | some y =>
      rw [List.filterMap_cons, hx]
      simp only [List.length_cons, List.forall_mem_cons, hx, Option.isSome_some, true_and]
      rw [← ih]
      omega

omit [DecidableEq ν] in
theorem loadSnow_eq (es : List (Event ν R)) (is : List Nat) :
    loadSnow (snowRows es) es.length is =
      if ∀ i ∈ is, ∀ e ∈ es, i < e.snow.length then .ok (is.map fun i => es.filterMap fun e => e.snow[i]?)
      else .error .assertionError := by
  induction is with
  | nil => rfl
  | cons i is ih =>
    have hc := snow_column es i
    simp only [loadSnow, hc]
    have hlen := filterMap_length (fun e : Event ν R => e.snow[i]?) es
    have hiff : (∀ e ∈ es, (e.snow[i]?).isSome) ↔ ∀ e ∈ es, i < e.snow.length := by
      simp
    by_cases h1 : ∀ e ∈ es, i < e.snow.length
    · have h1' := hlen.2 (hiff.2 h1)
      rw [if_neg (by simpa using h1'), ih]
      by_cases h2 : ∀ i ∈ is, ∀ e ∈ es, i < e.snow.length
      · rw [if_pos h2, if_pos (by
          intro j hj
          rcases List.mem_cons.1 hj with rfl | hj
          · exact h1
          · exact h2 j hj)]
        rfl
      · rw [if_neg h2, if_neg (fun h => h2 (fun j hj => h j (List.mem_cons_of_mem _ hj)))]
    · have h1' : (es.filterMap fun e => e.snow[i]?).length ≠ es.length :=
        fun h => h1 (hiff.1 (hlen.1 h))
      rw [if_pos h1', if_neg (fun h => h1 (h i (List.mem_cons_self ..)))]

omit [DecidableEq ν] in
theorem mem_snow_index (es : List (Event ν R)) (i : Nat) :
    i ∈ (snowRows es).map Prod.fst ↔ ∃ e ∈ es, i < e.snow.length := by
  have h1 : ∀ l : List R, i ∈ l.zipIdx.map Prod.snd ↔ i < l.length := by
    intro l
    rw [List.zipIdx_map_snd]
    simp [List.mem_range']
  simp only [snowRows, List.map_flatMap, List.mem_flatMap, List.map_map]
  constructor
  · rintro ⟨e, he, hi⟩
    exact ⟨e, he, (h1 e.snow).1 hi⟩
  · rintro ⟨e, he, hi⟩
    exact ⟨e, he, (h1 e.snow).2 hi⟩

omit [DecidableEq ν] in
theorem map_some_snow (es : List (Event ν R)) (i : Nat) (hlen : ∀ e ∈ es, i < e.snow.length) :
    (es.filterMap fun e => e.snow[i]?).map some = es.map fun e => e.snow[i]? := by
  induction es with
  | nil => rfl
  | cons e es ih =>
    have he := hlen e (List.mem_cons_self ..)
    have hv : e.snow[i]? = some (e.snow[i]'he) := List.getElem?_eq_getElem he
    rw [List.filterMap_cons, hv]
    simp only [List.map_cons, hv]
    rw [ih (fun e he => hlen e (List.mem_cons_of_mem _ he))]

omit [DecidableEq ν] in
theorem rows_transpose (names : List ν) (es : List (Event ν R)) (extra : List (List R)) :
    transpose es.length ((names.map fun l => es.map fun e => e.label l) ++ extra) =
      es.zipIdx.map fun x => names.map x.1.label ++ extra.filterMap fun c => c[x.2]? := by
  apply List.ext_getElem?
  intro e
  unfold transpose
  rw [List.getElem?_map, List.getElem?_map, List.getElem?_zipIdx]
  by_cases he : e < es.length
  · rw [List.getElem?_range he, List.getElem?_eq_getElem he]
    simp only [Option.map_some, Option.some.injEq, List.filterMap_append, List.filterMap_map]
    simp only [Nat.zero_add]
    congr 1
    induction names with
    | nil => rfl
    | cons l ls ih =>
      simp only [List.filterMap_cons, Function.comp_apply, List.map_cons]
      rw [List.getElem?_map, List.getElem?_eq_getElem he]
      simp only [Option.map_some]
      exact congrArg _ ih
  · rw [List.getElem?_eq_none (by simpa using he), List.getElem?_eq_none (by simpa using he)]
    rfl

end

end Verif.Frames
