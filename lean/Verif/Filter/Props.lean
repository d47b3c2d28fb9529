/-
C21: the event filter.
-/
import Verif.Filter.Model
import Mathlib.Data.Nat.Basic

namespace Verif.Filter
open Verif.Py

variable {R : Type} [LinearOrder R]

/-! ### specification -/

/-- `x op threshold` for the five known operators. -/
def Holds (threshold : R) (op : String) (x : R) : Prop :=
  (op = ">" ∧ x > threshold) ∨ (op = ">=" ∧ x ≥ threshold) ∨ (op = "<=" ∧ x ≤ threshold) ∨
  (op = "<" ∧ x < threshold) ∨ (op = "==" ∧ x = threshold)

/-- The known operators. -/
def knownOps : List String := [">", ">=", "<=", "<", "=="]

/-- The value of a constraint for event number `e` in a file with `n` events: the named column
has one value per event; in a vector table every event has exactly one row with the index,
and the rows are in event order. -/
structure HasColumn (file : Dict String (Table R)) (c : Constraint R) (value : Nat → R) (n : Nat) :
    Prop where
  column : (∃ s cols, c.column = .name s ∧ Dict.get? file c.key = some (.map cols) ∧
      Dict.get? cols s = some ((List.range n).map value)) ∨
    (∃ i rows, c.column = .idx i ∧ Dict.get? file c.key = some (.vector rows) ∧
      (rows.filter (fun r => r.1 = i)).map Prod.snd = (List.range n).map value)

/-! ### proofs -/

theorem compare_known (op : String) (h : op ∈ knownOps) (values : List R) (t : R) :
    ∃ m, compare op values t = .ok m ∧ m.length = values.length ∧
      ∀ (e : Nat) v, values[e]? = some v → ∃ b, m[e]? = some b ∧ (b = true ↔ Holds t op v) := by
  simp only [knownOps, List.mem_cons, List.not_mem_nil, or_false] at h
  rcases h with rfl | rfl | rfl | rfl | rfl <;> unfold compare
  all_goals
    simp only [String.reduceEq, if_true, if_false]
    refine ⟨_, rfl, by simp, fun e v hv => ⟨_, by rw [List.getElem?_map, hv]; rfl, ?_⟩⟩
    simp [Holds]

/-- An unknown operator raises a ValueError. -/
theorem compare_unknown (op : String) (h : op ∉ knownOps) (values : List R) (t : R) :
    compare op values t = .error .valueError := by
  simp only [knownOps, List.mem_cons, List.not_mem_nil, or_false, not_or] at h
  obtain ⟨h1, h2, h3, h4, h5⟩ := h
  unfold compare
  rw [if_neg h1, if_neg h2, if_neg h3, if_neg h4, if_neg h5]

omit [LinearOrder R] in
theorem hdfValues_spec {file : Dict String (Table R)} {c : Constraint R} {value : Nat → R} {n : Nat}
    (h : HasColumn file c value n) :
    hdfValues file c.key c.column = .ok ((List.range n).map value) := by
  rcases h.column with ⟨s, cols, h1, h2, h3⟩ | ⟨i, rows, h1, h2, h3⟩
  · simp only [hdfValues, h2, h1, h3]
  · simp only [hdfValues, h2, h1, h3]

theorem hdfLoop_spec (file : Dict String (Table R)) (cs : List (Constraint R))
    (value : Constraint R → Nat → R) (n : Nat)
    (hcol : ∀ c ∈ cs, HasColumn file c (value c) n) (hop : ∀ c ∈ cs, c.op ∈ knownOps)
    (mask : List Bool) (hm : mask.length = n) :
    ∃ r, hdfLoop file cs mask = .ok r ∧ r.length = n ∧
      ∀ e < n, r[e]? = some true ↔
        mask[e]? = some true ∧ ∀ c ∈ cs, Holds c.threshold c.op (value c e) := by
  induction cs generalizing mask with
  | nil => exact ⟨mask, rfl, hm, fun e he => by simp⟩
  | cons c cs ih =>
    obtain ⟨m, h1, h2, h3⟩ := compare_known c.op (hop c (by simp)) ((List.range n).map (value c)) c.threshold
    have hl : mask.length = m.length := by rw [hm, h2]; simp
    obtain ⟨r, h4, h5, h6⟩ := ih (fun c' h => hcol c' (by simp [h])) (fun c' h => hop c' (by simp [h]))
      (List.zipWith (· && ·) mask m) (by simp [← hl, hm])
    refine ⟨r, ?_, h5, fun e he => ?_⟩
    · rw [hdfLoop, hdfValues_spec (hcol c (by simp))]
      simp only [h1, logicalAnd, if_pos hl]
      exact h4
    · rw [h6 e he]
      obtain ⟨b, hb, hh⟩ := h3 e (value c e) (by simp [he])
      obtain ⟨a, ha⟩ : ∃ a, mask[e]? = some a := ⟨_, List.getElem?_eq_getElem (by omega)⟩
      rw [List.getElem?_zipWith, ha, hb]
      simp only [Option.some.injEq, Bool.and_eq_true, List.mem_cons, forall_eq_or_imp, hh]
      exact and_assoc

/-- C21 (hdf). The mask has one entry per event, and an event passes exactly when every constraint
holds for its value. -/
theorem C21_hdf_conjunction (file : Dict String (Table R)) (cs : List (Constraint R))
    (value : Constraint R → Nat → R) (n : Nat)
    (hcol : ∀ c ∈ cs, HasColumn file c (value c) n) (hop : ∀ c ∈ cs, c.op ∈ knownOps) :
    ∃ mask, hdfMask file cs n = .ok mask ∧ mask.length = n ∧
      ∀ e < n, mask[e]? = some true ↔ ∀ c ∈ cs, Holds c.threshold c.op (value c e) := by
  obtain ⟨r, h1, h2, h3⟩ := hdfLoop_spec file cs value n hcol hop (List.replicate n true) (by simp)
  exact ⟨r, h1, h2, fun e he => by rw [h3 e he]; simp [he]⟩

/-- C21. Without constraints every event passes. -/
theorem C21_no_constraints (file : Dict String (Table R)) (frame : Dict String (FrameObj R)) (n : Nat) :
    hdfMask file [] n = .ok (List.replicate n true) ∧
    frameMask frame [] n = .ok (List.replicate n true) := ⟨rfl, rfl⟩

/-- C21. The first constraint with an unknown operator raises a ValueError. -/
theorem C21_unknown_operator (file : Dict String (Table R)) (cs rest : List (Constraint R))
    (bad : Constraint R) (value : Constraint R → Nat → R) (n : Nat)
    (hcol : ∀ c ∈ bad :: cs, HasColumn file c (value c) n) (hop : ∀ c ∈ cs, c.op ∈ knownOps)
    (hbad : bad.op ∉ knownOps) :
    hdfMask file (cs ++ bad :: rest) n = .error .valueError := by
  have key : ∀ mask : List Bool, mask.length = n →
      hdfLoop file (cs ++ bad :: rest) mask = .error .valueError := by
    have hcs : ∀ c ∈ cs, HasColumn file c (value c) n := fun c h => hcol c (by simp [h])
    have hb := hcol bad (by simp)
    clear hcol
    induction cs with
    | nil =>
      intro mask hm
      rw [List.nil_append, hdfLoop, hdfValues_spec hb]
      simp only [compare_unknown _ hbad]
    | cons c cs ih =>
      intro mask hm
      obtain ⟨m, h1, h2, -⟩ := compare_known c.op (hop c (by simp)) ((List.range n).map (value c)) c.threshold
      have hl : mask.length = m.length := by rw [hm, h2]; simp
      rw [List.cons_append, hdfLoop, hdfValues_spec (hcs c (by simp))]
      simp only [h1, logicalAnd, if_pos hl]
      exact ih (fun c' h => hop c' (by simp [h])) (fun c' h => hcs c' (by simp [h])) _ (by simp [← hl, hm])
  exact key _ (by simp)

/-- A frame holds the same event as event number `e` of a file: the vectors have the same items. -/
def SameVector (file : Dict String (Table R)) (frame : Dict String (FrameObj R)) (e n : Nat)
    (c : Constraint R) (value : Nat → R) : Prop :=
  HasColumn file c value n ∧ ∃ i items, c.column = .idx i ∧
    Dict.get? frame c.key = some (.vector items) ∧ items[i]? = some (value e)

theorem frameLoop_spec (frame : Dict String (FrameObj R)) (cs : List (Constraint R))
    (v : Constraint R → R)
    (hcol : ∀ c ∈ cs, ∃ i items, c.column = .idx i ∧ Dict.get? frame c.key = some (.vector items) ∧
      items[i]? = some (v c)) (hop : ∀ c ∈ cs, c.op ∈ knownOps) (b : Bool) :
    ∃ r, frameLoop frame cs [b] = .ok [r] ∧
      (r = true ↔ b = true ∧ ∀ c ∈ cs, Holds c.threshold c.op (v c)) := by
  induction cs generalizing b with
  | nil => exact ⟨b, rfl, by simp⟩
  | cons c cs ih =>
    obtain ⟨i, items, h1, h2, h3⟩ := hcol c (by simp)
    obtain ⟨m, h4, h5, h6⟩ := compare_known c.op (hop c (by simp)) [v c] c.threshold
    obtain ⟨x, hx⟩ : ∃ x, m = [x] := by
      match m, h5 with
      | [x], _ => exact ⟨x, rfl⟩
    subst hx
    obtain ⟨b', hb', hh⟩ := h6 0 (v c) rfl
    cases hb'
    obtain ⟨r, h7, h8⟩ := ih (fun c' h => hcol c' (by simp [h])) (fun c' h => hop c' (by simp [h])) (b && x)
    refine ⟨r, ?_, ?_⟩
    · rw [frameLoop]
      simp only [frameValues, h2, h1, h3, h4, logicalAnd, List.length_cons, List.length_nil, if_true,
        List.zipWith_cons_cons, List.zipWith_nil_left]
      exact h7
    · rw [h8, Bool.and_eq_true, hh]
      simp only [List.mem_cons, forall_eq_or_imp]
      exact and_assoc

/-- C21 (frame, partial: constraints on vectors only). The event of a frame passes exactly when
every constraint holds. -/
theorem C21_frame_partial (frame : Dict String (FrameObj R)) (cs : List (Constraint R))
    (v : Constraint R → R)
    (hcol : ∀ c ∈ cs, ∃ i items, c.column = .idx i ∧ Dict.get? frame c.key = some (.vector items) ∧
      items[i]? = some (v c)) (hop : ∀ c ∈ cs, c.op ∈ knownOps) :
    ∃ r, frameMask frame cs 1 = .ok [r] ∧
      (r = true ↔ ∀ c ∈ cs, Holds c.threshold c.op (v c)) := by
  obtain ⟨r, h1, h2⟩ := frameLoop_spec frame cs v hcol hop true
  exact ⟨r, h1, by simpa using h2⟩

/-- C21 (partial: constraints on vectors only). The two paths agree on the same event. -/
theorem C21_paths_agree_partial (file : Dict String (Table R)) (frame : Dict String (FrameObj R))
    (cs : List (Constraint R)) (value : Constraint R → Nat → R) (n e : Nat) (he : e < n)
    (hsame : ∀ c ∈ cs, SameVector file frame e n c (value c)) (hop : ∀ c ∈ cs, c.op ∈ knownOps) :
    ∃ mask r, hdfMask file cs n = .ok mask ∧ frameMask frame cs 1 = .ok [r] ∧ mask[e]? = some r := by
  obtain ⟨mask, h1, h2, h3⟩ := C21_hdf_conjunction file cs value n (fun c h => (hsame c h).1) hop
  obtain ⟨r, h4, h5⟩ := C21_frame_partial frame cs (fun c => value c e) (fun c h => (hsame c h).2) hop
  refine ⟨mask, r, h1, h4, ?_⟩
  have h6 := h3 e he
  obtain ⟨a, ha⟩ : ∃ a, mask[e]? = some a := ⟨_, List.getElem?_eq_getElem (by omega)⟩
  rw [ha] at h6 ⊢
  rw [← h5] at h6
  simp only [Option.some.injEq] at h6 ⊢
  cases a <;> cases r <;> simp_all

/-- C21 is violated: a constraint on a named column of a map works for an hdf file, but in a frame
the same constraint raises an AttributeError, because the key is looked up instead of the
column. -/
theorem C21_named_column_violated (key col op : String) (t : R) (entries : Dict String R) (x : R)
    (hop : op ∈ knownOps) (_hx : Dict.get? entries col = some x)
    (hkey : Dict.get? entries key = none) :
    (∃ mask, hdfMask [(key, Table.map [(col, [x])])] [⟨key, .name col, op, t⟩] 1 = .ok mask) ∧
    frameMask [(key, FrameObj.obj entries [])] [⟨key, .name col, op, t⟩] 1 =
      .error .attributeError := by
  refine ⟨?_, ?_⟩
  · obtain ⟨mask, h, -⟩ := C21_hdf_conjunction [(key, Table.map [(col, [x])])]
      [⟨key, .name col, op, t⟩] (fun _ _ => x) 1 (fun c hc => by
        rw [List.mem_singleton] at hc
        subst hc
        exact ⟨Or.inl ⟨col, [(col, [x])], rfl, by simp [Dict.get?], by simp [Dict.get?]⟩⟩) (fun c hc => by
        rw [List.mem_singleton] at hc
        subst hc
        exact hop)
    exact ⟨mask, h⟩
  · simp [frameMask, frameLoop, frameValues, Dict.get?, hkey]

/-- C21 is violated for an hdf file: if only one of `n` events has an entry with the index of the
constraint, the comparison of that single value decides about all events. -/
theorem C21_missing_entry_violated (key : String) (i : Nat) (x t : R) (n : Nat) (hn : 0 < n) :
    hdfMask [(key, Table.vector [(i, x)])] [⟨key, .idx i, ">", t⟩] n =
      .ok (List.replicate n (decide (x > t))) := by
  by_cases h1 : n = 1
  · subst h1
    simp [hdfMask, hdfLoop, hdfValues, Dict.get?, compare, logicalAnd]
  · obtain ⟨m, rfl⟩ : ∃ m, n = m + 2 := ⟨n - 2, by omega⟩
    simp [hdfMask, hdfLoop, hdfValues, Dict.get?, compare, logicalAnd, List.replicate_succ]

/-- The value for event `e` in a column of `n` values, as numpy broadcasts it. -/
def broadcast (value : Nat → R) (n e : Nat) : R := if n = 1 then value 0 else value e

theorem logicalAnd_lengths (a b : List Bool) :
    (∃ L r, (a.length = 1 ∨ a.length = L) ∧ (b.length = 1 ∨ b.length = L) ∧ (L = a.length ∨ L = b.length) ∧
      logicalAnd a b = .ok r ∧ r.length = L ∧
      ∀ e < L, r[e]? = some true ↔ a[if a.length = 1 then 0 else e]? = some true ∧
        b[if b.length = 1 then 0 else e]? = some true) ∨
    (a.length ≠ 1 ∧ b.length ≠ 1 ∧ a.length ≠ b.length ∧ logicalAnd a b = .error .valueError) := by
  unfold logicalAnd
  by_cases h : a.length = b.length
  · refine .inl ⟨a.length, _, .inr rfl, .inr h.symm, .inl rfl, if_pos h, by simp [← h], fun e he => ?_⟩
    have hb : e < b.length := h ▸ he
    have h0 : (if a.length = 1 then 0 else e) = e := by split <;> omega
    rw [← h, h0, List.getElem?_zipWith, List.getElem?_eq_getElem he, List.getElem?_eq_getElem hb]
    simp
  · simp only [if_neg h]
    rcases a with _ | ⟨x, _ | ⟨x', a⟩⟩
    · rcases b with _ | ⟨y, _ | ⟨y', b⟩⟩
      · simp at h
      · exact .inl ⟨0, [], by simp, by simp, by simp, rfl, rfl, by simp⟩
      · exact .inr ⟨by simp, by simp, by simp, rfl⟩
    · refine .inl ⟨b.length, b.map (x && ·), .inl rfl, .inr rfl, .inr rfl, rfl, by simp, fun e he => ?_⟩
      have hb : b.length ≠ 1 := fun hc => h (by simp [hc])
      simp [hb, List.getElem?_eq_getElem he]
    · rcases b with _ | ⟨y, _ | ⟨y', b⟩⟩
      · exact .inr ⟨by simp, by simp, by simp, rfl⟩
      · refine .inl ⟨_, (x :: x' :: a).map (· && y), .inr rfl, .inl rfl, .inl rfl, rfl, by simp, fun e he => ?_⟩
        have ha : (x :: x' :: a).length ≠ 1 := by simp
        rw [if_neg ha, List.getElem?_map, List.getElem?_eq_getElem he]
        simp
      · refine .inr ⟨by simp, by simp, h, rfl⟩

theorem hdfLoop_lengths (file : Dict String (Table R)) (cs : List (Constraint R))
    (value : Constraint R → Nat → R) (len : Constraint R → Nat)
    (hcol : ∀ c ∈ cs, HasColumn file c (value c) (len c)) (hop : ∀ c ∈ cs, c.op ∈ knownOps)
    (mask : List Bool) :
    (∃ L r, (mask.length = 1 ∨ mask.length = L) ∧ (∀ c ∈ cs, len c = 1 ∨ len c = L) ∧
      hdfLoop file cs mask = .ok r ∧ r.length = L ∧
      ∀ e < L, r[e]? = some true ↔ mask[if mask.length = 1 then 0 else e]? = some true ∧
        ∀ c ∈ cs, Holds c.threshold c.op (broadcast (value c) (len c) e)) ∨
    ((¬ ∃ L, (mask.length = 1 ∨ mask.length = L) ∧ ∀ c ∈ cs, len c = 1 ∨ len c = L) ∧
      hdfLoop file cs mask = .error .valueError) := by
  induction cs generalizing mask with
  | nil =>
    refine .inl ⟨mask.length, mask, .inr rfl, by simp, rfl, rfl, fun e he => ?_⟩
    have : (if mask.length = 1 then 0 else e) = e := by split <;> omega
    simp [this]
  | cons c cs ih =>
    obtain ⟨m, h1, h2, h3⟩ := compare_known c.op (hop c (by simp))
      ((List.range (len c)).map (value c)) c.threshold
    have hm : m.length = len c := by simp [h2]
    have hstep : hdfLoop file (c :: cs) mask = match logicalAnd mask m with
        | .error e => .error e
        | .ok mask' => hdfLoop file cs mask' := by
      rw [hdfLoop, hdfValues_spec (hcol c (by simp))]
      simp only [h1]
      cases logicalAnd mask m <;> rfl
    have hval : ∀ e < len c, m[e]? = some true ↔ Holds c.threshold c.op (value c e) := by
      intro e he
      obtain ⟨b, hb, hh⟩ := h3 e (value c e) (by simp [he])
      rw [hb, ← hh]
      simp
    rcases logicalAnd_lengths mask m with ⟨L, a, k1, k2, k3, k4, k5, k6⟩ | ⟨k1, k2, k3, k4⟩
    · rw [hstep, k4]
      rcases ih (fun c' h => hcol c' (by simp [h])) (fun c' h => hop c' (by simp [h])) a with
        ⟨L', r, j1, j2, j3, j4, j5⟩ | ⟨j1, j2⟩
      · rw [k5] at j1
        have e1 : mask.length = 1 ∨ mask.length = L' := by omega
        have e2 : len c = 1 ∨ len c = L' := by omega
        refine .inl ⟨L', r, e1, ?_, j3, j4, ?_⟩
        · intro c' hc'
          rcases List.mem_cons.1 hc' with rfl | hc'
          · exact e2
          · exact j2 c' hc'
        · intro e he
          rw [j5 e he, k5]
          have hL : (if L = 1 then 0 else e) < L := by split <;> omega
          rw [k6 _ hL]
          have g1 : (if mask.length = 1 then 0 else (if L = 1 then 0 else e)) =
              if mask.length = 1 then 0 else e := by
            split
            · rfl
            · split
              · omega
              · rfl
          have g2 : (if m.length = 1 then 0 else (if L = 1 then 0 else e)) =
              if m.length = 1 then 0 else e := by
            split
            · rfl
            · split
              · omega
              · rfl
          rw [g1, g2, hval _ (by rw [hm]; split <;> omega)]
          have g3 : value c (if m.length = 1 then 0 else e) = broadcast (value c) (len c) e := by
            unfold broadcast
            rw [hm]
            split <;> rfl
          rw [g3]
          simp only [List.mem_cons, forall_eq_or_imp]
          exact and_assoc
      · refine .inr ⟨?_, j2⟩
        rintro ⟨L', e1, e2⟩
        refine j1 ⟨L', ?_, fun c' hc' => e2 c' (by simp [hc'])⟩
        have := e2 c (by simp)
        omega
    · rw [hstep, k4]
      refine .inr ⟨?_, rfl⟩
      rintro ⟨L', e1, e2⟩
      have := e2 c (by simp)
      omega

/-- C21 (entries that are missing or superfluous): constraints on vectors whose columns have any number of
values. If all numbers are equal to one common length `L`, or one, the mask has `L` entries, and a single
value decides about all of them; otherwise there is a ValueError. So only with one value per event does the
mask say what the constraints say (C21_hdf_conjunction); and for a single event the mask can be longer than
one. -/
theorem C21_lengths (file : Dict String (Table R)) (cs : List (Constraint R))
    (value : Constraint R → Nat → R) (len : Constraint R → Nat) (n : Nat)
    (_hidx : ∀ c ∈ cs, ∃ i, c.column = .idx i)
    (hcol : ∀ c ∈ cs, HasColumn file c (value c) (len c)) (hop : ∀ c ∈ cs, c.op ∈ knownOps) :
    (∃ L mask, (n = 1 ∨ n = L) ∧ (∀ c ∈ cs, len c = 1 ∨ len c = L) ∧
      hdfMask file cs n = .ok mask ∧ mask.length = L ∧
      ∀ e < L, mask[e]? = some true ↔
        ∀ c ∈ cs, Holds c.threshold c.op (broadcast (value c) (len c) e)) ∨
    ((¬ ∃ L, (n = 1 ∨ n = L) ∧ ∀ c ∈ cs, len c = 1 ∨ len c = L) ∧
      hdfMask file cs n = .error .valueError) := by
  unfold hdfMask
  have := hdfLoop_lengths file cs value len hcol hop (List.replicate n true)
  rw [List.length_replicate] at this
  rcases this with ⟨L, r, h1, h2, h3, h4, h5⟩ | h
  · refine .inl ⟨L, r, h1, h2, h3, h4, fun e he => ?_⟩
    rw [h5 e he]
    have : (if n = 1 then 0 else e) < n := by split <;> omega
    simp [this]
  · exact .inr h

/-- Three events with two constraints: one of them has a single value. -/
example : hdfMask [("A", Table.vector [(0, 5), (1, 50), (1, 500), (1, 5000)])]
    [⟨"A", .idx 0, ">", (1 : Nat)⟩, ⟨"A", .idx 1, "<", 1000⟩] 3 = .ok [true, true, false] := by decide

/-- A file with a map and a vector (three events, vector index 1 is used), two constraints. -/
example : hdfMask [("MC", Table.map [("energy", [(5 : Nat), 50, 500])]),
      ("Fit", Table.vector [(0, 7), (1, 1), (0, 8), (1, 2), (0, 9), (1, 3)])]
    [⟨"MC", .name "energy", ">=", 50⟩, ⟨"Fit", .idx 1, "<", 3⟩] 3 = .ok [false, true, false] := by
  decide

/-- The columns of that file. -/
example : HasColumn [("MC", Table.map [("energy", [(5 : Nat), 50, 500])]),
      ("Fit", Table.vector [(0, 7), (1, 1), (0, 8), (1, 2), (0, 9), (1, 3)])]
    ⟨"Fit", .idx 1, "<", 3⟩ (fun e => e + 1) 3 :=
  ⟨Or.inr ⟨1, _, rfl, rfl, by decide⟩⟩

end Verif.Filter
