import Verif.Runs.Lemmas

/-!
# The record of training runs: C132
-/

namespace Verif.Runs
open Verif.Py Verif.Checkpoint

variable {C S : Type}

theorem comps_fine (n : Nat) : ∀ (cs : List (String × S)),
    compChanges (C := C) n (cs.map fun p => (p.1, .ok p.2)) =
      (cs.map fun p => .saveComp n p.1 p.2, none)
  | [] => rfl
  | (a, s) :: cs => by
    simp only [List.map_cons, compChanges, comps_fine n cs]

theorem set_append {α : Type} (d : Dict String α) (k : String) (v : α) (h : k ∉ Dict.keys d) :
    Dict.set d k v = d ++ [(k, v)] := by
  induction d with
  | nil => rfl
  | cons p d ih =>
    simp only [Dict.keys, List.map_cons, List.mem_cons, not_or] at h
    rw [Dict.set, if_neg (by simpa using Ne.symm h.1)]
    rw [ih h.2]
    rfl

theorem set_append' {α : Type} (d : Dict Nat α) (k : Nat) (v : α) (h : k ∉ Dict.keys d) :
    Dict.set d k v = d ++ [(k, v)] := by
  induction d with
  | nil => rfl
  | cons p d ih =>
    simp only [Dict.keys, List.map_cons, List.mem_cons, not_or] at h
    rw [Dict.set, if_neg (by simpa using Ne.symm h.1)]
    rw [ih h.2]
    rfl

theorem run_comps (n : Nat) : ∀ (cs pre : List (String × S)) (d : Place C S) (c : YFile C),
    ((pre ++ cs).map Prod.fst).Nodup → Dict.get? d.folders n = some ⟨c, pre⟩ →
    Dict.get? (d.run (cs.map fun p => .saveComp n p.1 p.2)).folders n = some ⟨c, pre ++ cs⟩ ∧
      (d.run (cs.map fun p => .saveComp n p.1 p.2)).book = d.book
  | [], pre, d, c, _, h => by simpa [Place.run] using h
  | (a, s) :: cs, pre, d, c, hn, h => by
    rw [List.map_cons, run_cons]
    have hna : a ∉ Dict.keys pre := by
      intro ha
      rw [List.map_append, List.nodup_append] at hn
      exact hn.2.2 a ha a (by simp) rfl
    have h1 : Dict.get? (d.apply (.saveComp n a s)).folders n = some ⟨c, pre ++ [(a, s)]⟩ := by
      simp only [Place.apply, inFolder_get, if_true, h, Option.map_some]
      rw [set_append _ _ _ hna]
    obtain ⟨h2, h3⟩ := run_comps n cs (pre ++ [(a, s)]) _ c (by simpa using hn) h1
    refine ⟨by simpa using h2, ?_⟩
    rw [h3]
    exact inFolder_book _ _ _

/-- One more run on a directory that holds the runs before. -/
theorem holds_call {d : Place C S} {rs : List (Fine C S)} (h : Holds d rs) (f : Fine C S) :
    (d.attempt (.call f.run)).2 = true ∧ Holds (d.attempt (.call f.run)).1 (rs ++ [f]) := by
  obtain ⟨s, hs, hl, hst⟩ : ∃ s, readBook d = .ok s ∧ s.latest = rs.length ∧
      s.steps = (List.range rs.length).map fun i => (i + 1, 0) := by
    unfold readBook
    rcases h.book with hb | ⟨rfl, hb⟩
    · rw [hb]; exact ⟨_, rfl, rfl, rfl⟩
    · rw [hb]; exact ⟨_, rfl, rfl, rfl⟩
  have hf : Dict.get? d.folders (s.latest + 1) = none := by
    rw [h.folders, if_neg (by omega), hl]; simp
  have hk : s.latest + 1 ∉ Dict.keys s.steps := by
    rw [hst, hl]
    intro hm
    simp only [Dict.keys, List.map_map, List.mem_map, List.mem_range] at hm
    obtain ⟨i, hi, he⟩ := hm
    simp at he
    omega
  have hrec : record d f.run = ([.mkdir (s.latest + 1), .openConfig (s.latest + 1),
      .writeConfig (s.latest + 1) f.config] ++
      (f.comps.map fun p => .saveComp (s.latest + 1) p.1 p.2) ++
      [.openBook, .writeBook ⟨s.latest + 1, Dict.set s.steps (s.latest + 1) 0⟩], none) := by
    unfold record
    rw [hs]
    simp only [(has_none _ _).2 hf, (Dict.has_eq_false_iff _ _).2 hk, Bool.false_eq_true, if_false,
      Fine.run, comps_fine]
  have hfin : ∀ n, Dict.get? (d.run (record d f.run).1).folders n =
      if n = s.latest + 1 then some ⟨.good f.config, f.comps⟩ else Dict.get? d.folders n := by
    intro n
    by_cases hn : n = s.latest + 1
    · subst hn
      rw [if_pos rfl, hrec]
      simp only [List.append_assoc, run_append]
      have h0 : Dict.get? (d.run [.mkdir (s.latest + 1), .openConfig (s.latest + 1),
          .writeConfig (s.latest + 1) f.config]).folders (s.latest + 1) =
          some ⟨.good f.config, []⟩ := by
        simp [Place.run, Place.apply, inFolder_get, Dict.get?_set]
      obtain ⟨h1, -⟩ := run_comps (s.latest + 1) f.comps [] _ _ (by simpa using f.names) h0
      exact h1
    · rw [if_neg hn]
      apply run_other hn
      intro x hx
      obtain ⟨s', e1, e2, -⟩ := record_inside d f.run x hx
      rw [hs] at e1
      cases e1
      exact e2
  have hbook : (d.run (record d f.run).1).book =
      .good ⟨s.latest + 1, Dict.set s.steps (s.latest + 1) 0⟩ := by
    rw [hrec, run_append]
    rfl
  refine ⟨by simp only [Place.attempt, hrec]; rfl, ?_, ?_⟩
  · left
    simp only [Place.attempt]
    rw [hbook, set_append' _ _ _ hk, hl, hst]
    simp [List.range_succ]
  · intro n
    simp only [Place.attempt]
    rw [hfin n, h.folders n, hl]
    by_cases h0 : n = 0
    · subst h0; rfl
    rw [if_neg h0, if_neg h0]
    by_cases hn : n = rs.length + 1
    · subst hn; simp
    · rw [if_neg hn]
      by_cases hlt : n - 1 < rs.length
      · rw [List.getElem?_append_left hlt]
      · rw [List.getElem?_eq_none (by omega), List.getElem?_eq_none (by simp; omega)]

/-- C132. Any number of runs that can be saved are all recorded: they are numbered from 1 in order,
each has a directory with its own configuration and components, and there are no others. -/
theorem C132_recorded (rs : List (Fine C S)) :
    Holds (Place.empty.after (rs.map fun f => .call f.run)) rs ∧
    ∀ f : Fine C S,
      ((Place.empty.after (rs.map fun f => .call f.run)).attempt (.call f.run)).2 = true := by
  have key : ∀ (rs pre : List (Fine C S)) (d : Place C S), Holds d pre →
      Holds (d.after (rs.map fun f => .call f.run)) (pre ++ rs) := by
    intro rs
    induction rs with
    | nil => intro pre d h; simpa [Place.after] using h
    | cons f rs ih =>
      intro pre d h
      have := ih (pre ++ [f]) _ (holds_call h f).2
      simpa [Place.after] using this
  have h := key rs [] Place.empty ⟨.inr ⟨rfl, rfl⟩, fun n => by
    simp [Place.empty]⟩
  simp only [List.nil_append] at h
  exact ⟨h, fun f => (holds_call h f).1⟩

/-- C132. Whatever calls, exceptions and crashes follow, the directory of a run stays as it is. -/
theorem C132_kept (d : Place C S) (as : List (Attempt C S)) (n : Nat) (f : Folder C S)
    (h : Dict.get? d.folders n = some f) : Dict.get? (d.after as).folders n = some f := by
  induction as generalizing d with
  | nil => exact h
  | cons a as ih =>
    refine ih _ ?_
    obtain ⟨r, es, h1, h2⟩ := attempt_run d a
    rw [h1, ← h]
    cases es with
    | nil => rfl
    | cons x es =>
      obtain ⟨s, e1, -, e3⟩ := record_inside d r x (h2.subset (by simp))
      apply run_other (n := s.latest + 1)
      · rintro rfl
        rw [h] at e3
        cases e3
      · intro y hy
        obtain ⟨s', e1', e2', -⟩ := record_inside d r y (h2.subset hy)
        rw [e1] at e1'
        cases e1'
        exact e2'

/-- C132. A call whose configuration and components can be saved comes to its end exactly if the
directory can take the next run. -/
theorem C132_ready (d : Place C S) (f : Fine C S) :
    (d.attempt (.call f.run)).2 = true ↔ Ready d := by
  constructor
  · intro h
    refine Classical.byContradiction fun hc => ?_
    rw [(stuck hc _).1] at h
    cases h
  · rintro ⟨s, hs, hf, he⟩
    simp only [Place.attempt]
    unfold record
    rw [hs]
    simp only [(has_none _ _).2 hf, (has_none _ _).2 he, Bool.false_eq_true, if_false, Fine.run,
      comps_fine]
    rfl

/-- C132. If the configuration or a component cannot be saved, the exception is raised and the list
of runs stays as it is. -/
theorem C132_exception (d : Place C S) (h : Ready d) (c : Except Err C) (e : Err)
    (pre : List (String × S)) (rest : List (String × Except Err S)) (name : String)
    (hc : ∀ e', c = .error e' → e' = e) :
    let r : Run C S := ⟨c, (pre.map fun p => (p.1, .ok p.2)) ++ (name, .error e) :: rest⟩
    (record d r).2 = some e ∧ (d.attempt (.call r)).1.book = d.book := by
  intro r
  obtain ⟨s, hs, hf, he⟩ := h
  have hcomp : ∀ (pre : List (String × S)), ∃ es : List (Change C S), compChanges (s.latest + 1)
      ((pre.map fun p => (p.1, Except.ok p.2)) ++ (name, Except.error e) :: rest) =
        (es, some e) := by
    intro pre
    induction pre with
    | nil => exact ⟨[], rfl⟩
    | cons p pre ih =>
      obtain ⟨es, ih⟩ := ih
      exact ⟨.saveComp (s.latest + 1) p.1 p.2 :: es, by
        simp only [List.map_cons, List.cons_append, compChanges, ih]⟩
  obtain ⟨es, hes⟩ := hcomp pre
  have h2 : (record d r).2 = some e := by
    unfold record
    rw [hs]
    simp only [(has_none _ _).2 hf, (has_none _ _).2 he, Bool.false_eq_true, if_false]
    cases hcc : c with
    | error e' => simp only [r, hcc, hc e' hcc]
    | ok c' => simp only [r, hcc, hes]
  refine ⟨h2, ?_⟩
  simp only [Place.attempt]
  have hno : ∀ x ∈ (record d r).1, x.isBook = false ∧ ∀ d : Place C S, (d.apply x).book = d.book := by
    intro x hx
    unfold record at hx
    rw [hs] at hx
    simp only [(has_none _ _).2 hf, (has_none _ _).2 he, Bool.false_eq_true, if_false] at hx
    cases hcc : c with
    | error e' =>
      simp only [r, hcc, List.mem_cons, List.not_mem_nil, or_false] at hx
      rcases hx with rfl | rfl
      · exact ⟨rfl, fun _ => rfl⟩
      · exact ⟨rfl, fun _ => inFolder_book _ _ _⟩
    | ok c' =>
      simp only [r, hcc, hes, List.cons_append, List.nil_append, List.mem_cons] at hx
      rcases hx with rfl | rfl | rfl | hx
      · exact ⟨rfl, fun _ => rfl⟩
      · exact ⟨rfl, fun _ => inFolder_book _ _ _⟩
      · exact ⟨rfl, fun _ => inFolder_book _ _ _⟩
      · have := compChanges_inside (C := C) (s.latest + 1) r.comps x (by
          simp only [r]; rw [hes]; exact hx)
        obtain ⟨nm, v, rfl⟩ := this
        exact ⟨rfl, fun _ => inFolder_book _ _ _⟩
  have key : ∀ (es : List (Change C S)) (d : Place C S),
      (∀ x ∈ es, ∀ d : Place C S, (d.apply x).book = d.book) → (d.run es).book = d.book := by
    intro es
    induction es with
    | nil => intro d _; rfl
    | cons x es ih =>
      intro d hx
      rw [run_cons, ih _ (fun y hy => hx y (by simp [hy])), hx x (by simp)]
  exact key _ d fun x hx => (hno x hx).2

/-- C132. After a call that died before its first change or came to its end, the directory can take
the next run. What is missing: see `C132_violated`. -/
theorem C132_later_partial (d : Place C S) (h : Ready d) (a : Attempt C S)
    (ha : (∃ r, a = .crash r 0) ∨ (d.attempt a).2 = true ∧
      ∀ s, readBook d = .ok s → ∀ n, s.latest + 1 < n →
        Dict.get? d.folders n = none ∧ Dict.get? s.steps n = none) :
    Ready (d.attempt a).1 := by
  rcases ha with ⟨r, rfl⟩ | ⟨ha, hnext⟩
  · exact h
  · obtain ⟨s, hs, hf, he⟩ := h
    cases a with
    | crash r k => simp [Place.attempt] at ha
    | call r =>
      obtain ⟨es, h1, h2⟩ := record_ready hs hf he r
      have hnone : (record d r).2 = none := by
        simp only [Place.attempt] at ha
        exact Option.isNone_iff_eq_none.1 ha
      rw [hnone] at h2
      simp only at h2
      refine ⟨⟨s.latest + 1, Dict.set s.steps (s.latest + 1) 0⟩, ?_, ?_, ?_⟩
      · simp only [Place.attempt]
        rw [h2, run_append]
        rfl
      · simp only [Place.attempt]
        rw [run_other (n := s.latest + 1) (m := s.latest + 1 + 1) (by omega)]
        · exact (hnext s hs _ (by omega)).1
        · intro x hx
          obtain ⟨s', e1, e2, -⟩ := record_inside d r x hx
          rw [hs] at e1
          cases e1
          exact e2
      · simp only [Dict.get?_set]
        rw [if_neg (by omega)]
        exact (hnext s hs _ (by omega)).2

/-- C132 does not hold for calls that raise or die in between: after an exception of a component or
of the configuration, or a crash after the first and before the last change, no later call ever
comes to its end, whatever it is given. -/
theorem C132_violated (d : Place C S) (h : Ready d) (a : Attempt C S)
    (ha : (∃ r, a = .call r ∧ (record d r).2 ≠ none) ∨
      ∃ r k, a = .crash r k ∧ 0 < k ∧ k < (record d r).1.length)
    (later : List (Attempt C S)) (b : Attempt C S) :
    (((d.attempt a).1.after later).attempt b).2 = false := by
  have hnot : ¬ Ready (d.attempt a).1 := by
    obtain ⟨s, hs, hf, he⟩ := h
    rcases ha with ⟨r, rfl, hr⟩ | ⟨r, k, rfl, hk, hl⟩
    · obtain ⟨es, h1, h2⟩ := record_ready hs hf he r
      cases ho : (record d r).2 with
      | none => exact absurd ho hr
      | some e =>
        rw [ho] at h2
        simp only [Place.attempt]
        rw [h2]
        exact not_ready hs es fun x hx => (h1 x hx).2
    · obtain ⟨es, h1, h2⟩ := record_ready hs hf he r
      simp only [Place.attempt]
      obtain ⟨k, rfl⟩ : ∃ j, k = j + 1 := ⟨k - 1, by omega⟩
      cases ho : (record d r).2 with
      | some e =>
        rw [ho] at h2
        rw [h2]
        exact not_ready hs (es.take k) fun x hx => (h1 x (List.mem_of_mem_take hx)).2
      | none =>
        rw [ho] at h2
        simp only at h2
        have hp := proper_prefix (xs := (record d r).1.take (k + 1))
          (es := .mkdir (s.latest + 1) :: es) (a := .openBook)
          (b := .writeBook ⟨s.latest + 1, Dict.set s.steps (s.latest + 1) 0⟩)
          (by rw [h2]; exact List.take_prefix _ _)
          (by rw [h2] at hl ⊢; rw [List.length_take]; simp only at hl ⊢; omega)
        cases hx : (record d r).1.take (k + 1) with
        | nil =>
          have := congrArg List.length hx
          rw [List.length_take, List.length_nil] at this
          omega
        | cons x xs =>
          rw [hx] at hp
          simp only [List.cons_append, List.cons_prefix_cons] at hp
          obtain ⟨rfl, hp⟩ := hp
          refine not_ready hs xs fun y hy => ?_
          have := hp.subset hy
          simp only [List.mem_append, List.mem_singleton] at this
          rcases this with hm | rfl
          · exact (h1 y hm).2
          · rfl
  have hall : ∀ (later : List (Attempt C S)) (d : Place C S), ¬ Ready d →
      ¬ Ready (d.after later) := by
    intro later
    induction later with
    | nil => intro d hd; exact hd
    | cons a as ih => intro d hd; exact ih _ (stuck hd a).2
  exact (stuck (hall later _ hnot) b).1

namespace Ex

/-- A run of the examples. -/
def first : Fine String Nat := ⟨"first", [("loss_module", 1), ("evaluation_module", 2)], by decide⟩

/-- A run whose evaluation module cannot be saved. -/
def broken : Run String Nat := ⟨.ok "second", [("loss_module", .ok 3), ("evaluation_module", .error .valueError)]⟩

-- the directory after one run can take the next, and a run with a broken component spoils it
example : Ready (Place.empty.after [.call first.run]) ∧
    (record (Place.empty.after [.call first.run]) broken).2 ≠ none ∧
    Dict.get? (Place.empty.after [.call first.run]).folders 1 =
      some ⟨.good "first", [("loss_module", 1), ("evaluation_module", 2)]⟩ := by
  refine ⟨⟨⟨1, [(1, 0)]⟩, rfl, rfl, rfl⟩, by decide, rfl⟩

-- the exception of the component is raised
example : (record (Place.empty.after [.call first.run]) broken).2 = some .valueError :=
  (C132_exception _ ⟨⟨1, [(1, 0)]⟩, rfl, rfl, rfl⟩ (.ok "second") .valueError [("loss_module", 3)] []
    "evaluation_module" (by simp)).1

-- a run that can be saved has seven changes, so there are crashes in between
example : (record Place.empty first.run).1.length = 7 := rfl

end Ex

end Verif.Runs
