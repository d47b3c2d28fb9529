/-
Helper lemmas for C16-C18.
-/
import Verif.Handler.Spec
import Mathlib.Logic.Basic

namespace Verif.Handler
open Verif.Py

variable {V : Type}

theorem select_eq {α : Type} (l : List α) (mask : List Bool) (h : l.length = mask.length) :
    (select l mask).map some = (passing mask).map (fun e => l[e]?) := by
  induction mask generalizing l with
  | nil => cases l with
    | nil => rfl
    | cons a l => simp at h
  | cons b mask ih =>
    cases l with
    | nil => simp at h
    | cons a l =>
      have ih := ih l (by simpa using h)
      have hp : passing (b :: mask) = (if b then [0] else []) ++ (passing mask).map (· + 1) := by
        unfold passing
        rw [List.length_cons, List.range_succ_eq_map, List.filter_cons, List.filter_map]
        cases b <;> simp [Function.comp_def]
      have hs : select (a :: l) (b :: mask) = (if b then [a] else []) ++ select l mask := by
        unfold select
        cases b <;> simp
      rw [hp, hs, List.map_append, List.map_append, ih, List.map_map]
      congr 1
      cases b <;> simp

theorem select_map_range {α : Type} (f : Nat → α) (mask : List Bool) :
    select ((List.range mask.length).map f) mask = (passing mask).map f := by
  have h := select_eq ((List.range mask.length).map f) mask (by simp)
  have h2 : (passing mask).map (fun e => ((List.range mask.length).map f)[e]?) =
      ((passing mask).map f).map some := by
    rw [List.map_map]
    refine List.map_congr_left fun e he => ?_
    have := (List.mem_filter.1 he).1
    rw [List.mem_range] at this
    simp [this]
  rw [h2] at h
  exact (List.map_inj_right (fun _ _ h => Option.some.inj h)).1 h

theorem passing_length (mask : List Bool) : (passing mask).length = mask.countP id := by
  induction mask with
  | nil => rfl
  | cons b mask ih =>
    have hp : passing (b :: mask) = (if b then [0] else []) ++ (passing mask).map (· + 1) := by
      unfold passing
      rw [List.length_cons, List.range_succ_eq_map, List.filter_cons, List.filter_map]
      cases b <;> simp [Function.comp_def]
    rw [hp, List.length_append, List.length_map, ih]
    cases b <;> simp [Nat.add_comm]

theorem select_mask_fst (values indices : List (Row V)) (i : Int)
    (h : values.length = indices.length) :
    select values (indices.map (fun r => r.id == i)) = (eventRows values indices i).map Prod.fst ∧
    select indices (indices.map (fun r => r.id == i)) =
      (eventRows values indices i).map Prod.snd := by
  unfold select eventRows
  induction values generalizing indices with
  | nil =>
    cases indices with
    | nil => simp
    | cons x l => simp at h
  | cons v values ih =>
    cases indices with
    | nil => simp at h
    | cons x indices =>
      obtain ⟨h1, h2⟩ := ih indices (by simpa using h)
      by_cases hx : x.id = i
      · simp [hx, h1, h2]
      · simp [hx, h1, h2]

theorem toEventLoop_spec (values indices : Arr V) (i n : Nat)
    (hl : values.isList = false ∧ indices.isList = false)
    (hlen : values.rows.length = indices.rows.length) :
    toEventLoop values indices i n = .ok
      ((List.range' i n).map (fun (e : Nat) =>
        { rows := (eventRows values.rows indices.rows e).map Prod.fst }),
       (List.range' i n).map (fun (e : Nat) =>
        { rows := (eventRows values.rows indices.rows e).map Prod.snd })) := by
  induction n generalizing i with
  | zero => rfl
  | succ n ih =>
    unfold toEventLoop
    rw [if_neg (by simp [hl.2]), if_neg (by simp [hl.1])]
    simp only
    rw [if_neg (by simp [hlen])]
    have := ih (i + 1)
    rw [Int.natCast_add] at this
    rw [show ((i : Int) + (1 : Int)) = (i : Int) + ((1 : Nat) : Int) from rfl, this]
    simp only [List.range'_succ, List.map_cons]
    obtain ⟨h1, h2⟩ := select_mask_fst values.rows indices.rows i hlen
    rw [h1, h2]

theorem batchToEvent_spec (values indices : Arr V) (n : Nat)
    (hl : values.isList = false ∧ indices.isList = false)
    (hlen : values.rows.length = indices.rows.length) :
    batchToEvent values indices n = .ok
      ((List.range n).map (fun (e : Nat) =>
        { rows := (eventRows values.rows indices.rows e).map Prod.fst }),
       (List.range n).map (fun (e : Nat) =>
        { rows := (eventRows values.rows indices.rows e).map Prod.snd })) := by
  have := toEventLoop_spec values indices 0 n hl hlen
  rw [List.range_eq_range']
  exact this

theorem toBatchLoop_spec (f : Nat → List (Row V × Row V)) (events : List Nat) (i : Nat) :
    toBatchLoop (i : Int) (events.map (fun e => ({ rows := (f e).map Prod.fst } : Arr V)))
      (renumber (i : Int) (events.map (fun e => ({ rows := (f e).map Prod.snd } : Arr V)))) =
      .ok (((events.zipIdx i).flatMap (fun ej =>
              (f ej.1).map (fun p => (p.1, { p.2 with id := (ej.2 : Int) })))).map Prod.fst,
           ((events.zipIdx i).flatMap (fun ej =>
              (f ej.1).map (fun p => (p.1, { p.2 with id := (ej.2 : Int) })))).map Prod.snd) := by
  induction events generalizing i with
  | nil => rfl
  | cons e events ih =>
    simp only [List.map_cons, renumber, toBatchLoop, setId]
    rw [if_neg (by simp), if_pos (by simp)]
    have := ih (i + 1)
    rw [Int.natCast_add] at this
    rw [show ((i : Int) + (1 : Int)) = (i : Int) + ((1 : Nat) : Int) from rfl, this]
    simp only [List.zipIdx_cons, List.flatMap_cons, List.map_append]
    congr 2
    · congr 1
      simp [Function.comp_def]
    · congr 1
      simp [Function.comp_def]

theorem renumber_length (i : Int) (l : List (Arr V)) : (renumber i l).length = l.length := by
  induction l generalizing i with
  | nil => rfl
  | cons a l ih => simp [renumber, ih]

theorem eventToBatch_spec (f : Nat → List (Row V × Row V)) (events : List Nat) :
    ∃ v x, eventToBatch (events.map (fun e => ({ rows := (f e).map Prod.fst } : Arr V)))
      (renumber 0 (events.map (fun e => ({ rows := (f e).map Prod.snd } : Arr V))))
      events.length = .ok (v, x) ∧
      v.rows = (events.zipIdx.flatMap (fun ej =>
              (f ej.1).map (fun p => (p.1, { p.2 with id := (ej.2 : Int) })))).map Prod.fst ∧
      x.rows = (events.zipIdx.flatMap (fun ej =>
              (f ej.1).map (fun p => (p.1, { p.2 with id := (ej.2 : Int) })))).map Prod.snd ∧
      (v.isList = true ↔ v.rows = []) ∧ (x.isList = true ↔ x.rows = []) := by
  have h := toBatchLoop_spec f events 0
  unfold eventToBatch
  rw [if_neg (by simp), if_neg (by rw [renumber_length]; simp)]
  rw [Int.natCast_zero] at h
  rw [h]
  simp only
  by_cases hnil : events.zipIdx.flatMap (fun ej =>
      (f ej.1).map (fun p => (p.1, ({ p.2 with id := (ej.2 : Int) } : Row V)))) = []
  · rw [if_neg (by rw [hnil]; simp)]
    exact ⟨_, _, rfl, rfl, rfl, by simp only [hnil]; simp, by simp only [hnil]; simp⟩
  · rw [if_pos (by rw [List.length_map]; exact List.length_pos_iff.2 hnil)]
    refine ⟨_, _, rfl, rfl, rfl, ?_, ?_⟩
    · simp only [Bool.false_eq_true, false_iff, List.map_eq_nil_iff]; exact hnil
    · simp only [Bool.false_eq_true, false_iff, List.map_eq_nil_iff]; exact hnil

/-- Splitting, filtering and joining a vector tensor. -/
theorem filterVector (values indices : Arr V) (n : Nat) (mask : List Bool)
    (hok : VectorOk values indices n) (hm : mask.length = n) :
    ∃ vs xs v x, batchToEvent values indices n = .ok (vs, xs) ∧
      eventToBatch (select vs mask) (renumber 0 (select xs mask)) (mask.countP id) = .ok (v, x) ∧
      v.rows = (keptRows values.rows indices.rows (passing mask)).map Prod.fst ∧
      x.rows = (keptRows values.rows indices.rows (passing mask)).map Prod.snd ∧
      (v.isList = true ↔ v.rows = []) ∧ (x.isList = true ↔ x.rows = []) := by
  obtain ⟨v, x, h1, h2, h3, h4, h5⟩ := eventToBatch_spec
    (fun e => eventRows values.rows indices.rows e) (passing mask)
  refine ⟨_, _, v, x, batchToEvent_spec values indices n hok.isArray hok.length, ?_, h2, h3, h4, h5⟩
  subst hm
  rw [select_map_range, select_map_range, ← passing_length]
  exact h1

end Verif.Handler
