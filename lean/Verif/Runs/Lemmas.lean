import Verif.Runs.Spec

namespace Verif.Runs
open Verif.Py Verif.Checkpoint

variable {C S : Type}

theorem has_none {α : Type} (d : Dict Nat α) (k : Nat) :
    Dict.has d k = false ↔ Dict.get? d k = none := by
  rw [Dict.has_eq_false_iff, ← Dict.get?_isSome_iff, Bool.not_eq_true, Option.isSome_eq_false_iff,
    Option.isNone_iff_eq_none]

theorem run_append (d : Place C S) (xs ys : List (Change C S)) :
    d.run (xs ++ ys) = (d.run xs).run ys := by
  simp [Place.run]

theorem run_cons (d : Place C S) (x : Change C S) (xs : List (Change C S)) :
    d.run (x :: xs) = (d.apply x).run xs := rfl

/-- The changes that belong to the directory of run `n`. -/
def Inside (n : Nat) : Change C S → Prop
  | .mkdir m => m = n
  | .openConfig m => m = n
  | .writeConfig m _ => m = n
  | .saveComp m _ _ => m = n
  | .openBook => True
  | .writeBook _ => True

theorem inFolder_get (d : Place C S) (n m : Nat) (f : Folder C S → Folder C S) :
    Dict.get? (d.inFolder n f).folders m =
      if n = m then (Dict.get? d.folders m).map f else Dict.get? d.folders m := by
  unfold Place.inFolder
  split
  · rename_i h
    split
    · rename_i e; subst e; rw [h]; rfl
    · rfl
  · rename_i x h
    simp only [Dict.get?_set]
    by_cases e : n = m
    · subst e; rw [if_pos rfl, if_pos rfl, h]; rfl
    · rw [if_neg e]
      split
      · rename_i e'; exact absurd e' e
      · rfl

theorem inFolder_book (d : Place C S) (n : Nat) (f : Folder C S → Folder C S) :
    (d.inFolder n f).book = d.book := by
  unfold Place.inFolder
  split <;> rfl

theorem apply_other {d : Place C S} {n m : Nat} {x : Change C S} (hx : Inside n x) (h : m ≠ n) :
    Dict.get? (d.apply x).folders m = Dict.get? d.folders m := by
  cases x with
  | mkdir k =>
    cases hx
    simp only [Place.apply, Dict.get?_set]
    split
    · rename_i e; exact absurd e (by omega)
    · rfl
  | openConfig k => cases hx; simp only [Place.apply, inFolder_get]; rw [if_neg (by omega)]
  | writeConfig k c => cases hx; simp only [Place.apply, inFolder_get]; rw [if_neg (by omega)]
  | saveComp k name s => cases hx; simp only [Place.apply, inFolder_get]; rw [if_neg (by omega)]
  | openBook => rfl
  | writeBook b => rfl

theorem run_other {n m : Nat} (h : m ≠ n) : ∀ (es : List (Change C S)) (d : Place C S),
    (∀ x ∈ es, Inside n x) → Dict.get? (d.run es).folders m = Dict.get? d.folders m
  | [], _, _ => rfl
  | x :: es, d, hx => by
    rw [run_cons, run_other h es _ (fun y hy => hx y (by simp [hy])),
      apply_other (hx x (by simp)) h]

theorem compChanges_inside (n : Nat) : ∀ (cs : List (String × Except Err S)),
    ∀ x ∈ (compChanges (C := C) n cs).1, ∃ name s, x = .saveComp n name s
  | [], x, hx => by simp [compChanges] at hx
  | (name, .error e) :: cs, x, hx => by simp [compChanges] at hx
  | (name, .ok s) :: cs, x, hx => by
    simp only [compChanges, List.mem_cons] at hx
    rcases hx with rfl | hx
    · exact ⟨_, _, rfl⟩
    · exact compChanges_inside n cs x hx

/-- The number a call uses. -/
theorem record_inside (d : Place C S) (r : Run C S) :
    ∀ x ∈ (record d r).1, ∃ s, readBook d = .ok s ∧ Inside (s.latest + 1) x ∧
      Dict.get? d.folders (s.latest + 1) = none := by
  intro x hx
  unfold record at hx
  split at hx
  · simp at hx
  · rename_i s hs
    refine ⟨s, hs, ?_⟩
    simp only at hx
    split at hx
    · simp at hx
    · rename_i hf
      have hf' : Dict.get? d.folders (s.latest + 1) = none := by
        have := Bool.not_eq_true _ ▸ hf
        rw [has_none] at this
        exact this
      refine ⟨?_, hf'⟩
      split at hx
      · simp only [List.mem_singleton] at hx
        subst hx; rfl
      · split at hx
        · simp only [List.mem_cons, List.not_mem_nil, or_false] at hx
          rcases hx with rfl | rfl <;> rfl
        · have hc := compChanges_inside (C := C) (s.latest + 1) r.comps
          split at hx <;> rename_i es _ he <;> rw [he] at hc <;>
            simp only [List.cons_append, List.nil_append, List.mem_cons, List.mem_append,
              List.not_mem_nil, or_false] at hx
          · rcases hx with rfl | rfl | rfl | hx
            · rfl
            · rfl
            · rfl
            · obtain ⟨name, v, rfl⟩ := hc x hx; rfl
          · rcases hx with rfl | rfl | rfl | hx | rfl | rfl
            · rfl
            · rfl
            · rfl
            · obtain ⟨name, v, rfl⟩ := hc x hx; rfl
            · trivial
            · trivial

theorem attempt_run (d : Place C S) (a : Attempt C S) :
    ∃ r es, (d.attempt a).1 = d.run es ∧ es <+: (record d r).1 := by
  cases a with
  | call r => exact ⟨r, _, rfl, List.prefix_refl _⟩
  | crash r k => exact ⟨r, _, rfl, List.take_prefix _ _⟩

/-- A change keeps the directories that are there. -/
theorem apply_present {d : Place C S} {m : Nat} (x : Change C S)
    (h : (Dict.get? d.folders m).isSome) : (Dict.get? (d.apply x).folders m).isSome := by
  cases x with
  | mkdir k =>
    simp only [Place.apply, Dict.get?_set]
    split
    · rfl
    · exact h
  | openConfig k =>
    simp only [Place.apply, inFolder_get]; split <;> simp [h]
  | writeConfig k c =>
    simp only [Place.apply, inFolder_get]; split <;> simp [h]
  | saveComp k name s =>
    simp only [Place.apply, inFolder_get]; split <;> simp [h]
  | openBook => exact h
  | writeBook b => exact h

theorem run_present {m : Nat} : ∀ (es : List (Change C S)) (d : Place C S),
    (Dict.get? d.folders m).isSome → (Dict.get? (d.run es).folders m).isSome
  | [], _, h => h
  | x :: es, d, h => by rw [run_cons]; exact run_present es _ (apply_present x h)

/-- Whether a change writes the list of runs. -/
def Change.isBook : Change C S → Bool
  | .writeBook _ => true
  | _ => false

theorem run_book : ∀ (es : List (Change C S)) (d : Place C S),
    (∀ x ∈ es, x.isBook = false) → (d.run es).book = d.book ∨ (d.run es).book = .torn
  | [], _, _ => .inl rfl
  | x :: es, d, h => by
    rw [run_cons]
    rcases run_book es (d.apply x) (fun y hy => h y (by simp [hy])) with h1 | h1
    · rw [h1]
      have hx := h x (by simp)
      cases x with
      | mkdir k => exact .inl rfl
      | openConfig k => exact .inl (inFolder_book _ _ _)
      | writeConfig k c => exact .inl (inFolder_book _ _ _)
      | saveComp k name s => exact .inl (inFolder_book _ _ _)
      | openBook => exact .inr rfl
      | writeBook b => simp [Change.isBook] at hx
    · exact .inr h1

/-- The changes of a call on a directory that can take the next run. -/
theorem record_ready {d : Place C S} {s : Steps} (hs : readBook d = .ok s)
    (hf : Dict.get? d.folders (s.latest + 1) = none)
    (he : Dict.get? s.steps (s.latest + 1) = none) (r : Run C S) :
    ∃ es, (∀ x ∈ es, Inside (s.latest + 1) x ∧ x.isBook = false) ∧
      record d r = match (record d r).2 with
        | some e => (.mkdir (s.latest + 1) :: es, some e)
        | none => (.mkdir (s.latest + 1) :: es ++
            [.openBook, .writeBook ⟨s.latest + 1, Dict.set s.steps (s.latest + 1) 0⟩], none) := by
  have h1 : Dict.has d.folders (s.latest + 1) = false := (has_none _ _).2 hf
  have h2 : Dict.has s.steps (s.latest + 1) = false := (has_none _ _).2 he
  have hrec : record d r = match r.config with
      | .error e => ([.mkdir (s.latest + 1), .openConfig (s.latest + 1)], some e)
      | .ok c =>
        match compChanges (s.latest + 1) r.comps with
        | (es, some e) =>
          ([.mkdir (s.latest + 1), .openConfig (s.latest + 1), .writeConfig (s.latest + 1) c] ++ es,
            some e)
        | (es, none) =>
          ([.mkdir (s.latest + 1), .openConfig (s.latest + 1), .writeConfig (s.latest + 1) c] ++ es ++
            [.openBook, .writeBook ⟨s.latest + 1, Dict.set s.steps (s.latest + 1) 0⟩], none) := by
    unfold record
    rw [hs]
    simp only [h1, h2, Bool.false_eq_true, if_false]
    rfl
  rw [hrec]
  cases r.config with
  | error e =>
    refine ⟨[.openConfig (s.latest + 1)], ?_, rfl⟩
    intro x hx
    simp only [List.mem_singleton] at hx
    subst hx
    exact ⟨rfl, rfl⟩
  | ok c =>
    simp only
    have hc := compChanges_inside (C := C) (s.latest + 1) r.comps
    cases hcs : compChanges (C := C) (s.latest + 1) r.comps with
    | mk es o =>
      rw [hcs] at hc
      refine ⟨.openConfig (s.latest + 1) :: .writeConfig (s.latest + 1) c :: es, ?_, ?_⟩
      · intro x hx
        simp only [List.mem_cons] at hx
        rcases hx with rfl | rfl | hx
        · exact ⟨rfl, rfl⟩
        · exact ⟨rfl, rfl⟩
        · obtain ⟨name, v, rfl⟩ := hc x hx
          exact ⟨rfl, rfl⟩
      · cases o <;> rfl

/-- Without writing the list of runs, the directory of the next run is in the way. -/
theorem not_ready {d : Place C S} {s : Steps} (hs : readBook d = .ok s)
    (es : List (Change C S)) (hes : ∀ x ∈ es, x.isBook = false) :
    ¬ Ready (d.run (.mkdir (s.latest + 1) :: es)) := by
  rintro ⟨s', h1, h2, -⟩
  have hb := run_book (.mkdir (s.latest + 1) :: es) d (by
    intro x hx
    simp only [List.mem_cons] at hx
    rcases hx with rfl | hx
    · rfl
    · exact hes x hx)
  rcases hb with hb | hb
  · have : readBook (d.run (.mkdir (s.latest + 1) :: es)) = readBook d := by
      unfold readBook; rw [hb]
    rw [this, hs] at h1
    cases h1
    have := run_present (m := s.latest + 1) es (d.apply (.mkdir (s.latest + 1))) (by
      simp [Place.apply, Dict.get?_set])
    rw [run_cons, Option.isSome_iff_ne_none] at *
    exact this h2
  · unfold readBook at h1
    rw [hb] at h1
    cases h1

theorem proper_prefix {α : Type} {xs es : List α} {a b : α} (h : xs <+: es ++ [a, b])
    (hl : xs.length < (es ++ [a, b]).length) : xs <+: es ++ [a] := by
  have h1 : es ++ [a] <+: es ++ [a, b] := ⟨[b], by simp⟩
  exact List.prefix_of_prefix_length_le h h1 (by simp at hl ⊢; omega)

/-- A directory that cannot take the next run never takes one again. -/
theorem stuck {d : Place C S} (h : ¬ Ready d) (a : Attempt C S) :
    (d.attempt a).2 = false ∧ ¬ Ready (d.attempt a).1 := by
  have key : ∀ r : Run C S, (record d r).2 ≠ none ∧
      ∀ es, es <+: (record d r).1 → ¬ Ready (d.run es) := by
    intro r
    unfold record
    cases hs : readBook d with
    | error e =>
      refine ⟨by simp, fun es hes => ?_⟩
      simp only [List.prefix_nil] at hes
      subst hes
      exact h
    | ok s =>
      simp only
      by_cases h1 : Dict.has d.folders (s.latest + 1) = true
      · rw [if_pos h1]
        refine ⟨by simp, fun es hes => ?_⟩
        simp only [List.prefix_nil] at hes
        subst hes
        exact h
      · rw [if_neg h1]
        by_cases h2 : Dict.has s.steps (s.latest + 1) = true
        · rw [if_pos h2]
          refine ⟨by simp, fun es hes => ?_⟩
          match es, hes with
          | [], _ => exact h
          | [x], hes =>
            have : x = .mkdir (s.latest + 1) := by
              simpa using hes
            subst this
            exact not_ready hs [] (by simp)
          | x :: y :: es, hes => have := hes.length_le; simp at this
        · exfalso
          apply h
          refine ⟨s, hs, ?_, ?_⟩
          · rw [Bool.not_eq_true] at h1
            exact (has_none _ _).1 h1
          · rw [Bool.not_eq_true] at h2
            exact (has_none _ _).1 h2
  cases a with
  | call r =>
    obtain ⟨h1, h2⟩ := key r
    refine ⟨?_, h2 _ (List.prefix_refl _)⟩
    simp only [Place.attempt]
    cases hr : (record d r).2 with
    | none => exact absurd hr h1
    | some e => rfl
  | crash r k => exact ⟨rfl, (key r).2 _ (List.take_prefix _ _)⟩

end Verif.Runs
