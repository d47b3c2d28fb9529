/-
Lemmas for C133 to C135.
-/
import Verif.Endless.Spec
import Mathlib.Data.List.Basic
import Mathlib.Data.Prod.Lex
import Mathlib.Order.WellFounded
import Mathlib.Algebra.Order.BigOperators.Group.Finset
import Mathlib.Tactic.Ring

namespace Verif.Endless
open Verif.Generator (Orders room)

variable {E : Type}

theorem get_set {α : Type} (l : List α) (i j : Nat) (a : α) :
    (l.set i a)[j]? = if i = j then (if i < l.length then some a else none) else l[j]? := by
  rw [List.getElem?_set]

/-- Batches are complete and come from somewhere. -/
structure Inv (c : Cfg E) (s : St E) : Prop where
  len : s.loaders.length = c.jobs
  pend : 0 < c.batchSize → s.pending.length < c.batchSize
  sizes : ∀ b, b ∈ s.finalQ ∨ b ∈ s.got → b.length = c.batchSize ∧ b ≠ []
  held : ∀ (i : Nat) (p : LPc E) (k : Nat), s.loaders[i]? = some (p, k) → ∀ d, p = LPc.put d ∨ p = LPc.load (.events d) → File.events d ∈ c.files
  queue : ∀ d ∈ s.dataQ, File.events d ∈ c.files

theorem Inv.set {c : Cfg E} {s : St E} (h : Inv c s) (i k : Nat) (p : LPc E)
    (hp : ∀ d, p = LPc.put d ∨ p = LPc.load (.events d) → File.events d ∈ c.files) : Inv c (s.setLoader i p k) := by
  refine ⟨by simp [St.setLoader, h.len], h.pend, h.sizes, ?_, h.queue⟩
  intro j q m hj d hd
  simp only [St.setLoader, get_set] at hj
  split_ifs at hj
  · simp only [Option.some.injEq, Prod.mk.injEq] at hj
    obtain ⟨rfl, rfl⟩ := hj
    exact hp d hd
  · exact h.held j q m hj d hd

theorem inv_init (c : Cfg E) : Inv c (init c) := by
  refine ⟨by simp [init], fun h => by simpa [init] using h, by simp [init], ?_, by simp [init]⟩
  intro i p k hi d hd
  simp only [init, List.getElem?_replicate] at hi
  split_ifs at hi
  simp only [Option.some.injEq, Prod.mk.injEq] at hi
  obtain ⟨rfl, rfl⟩ := hi
  rcases hd with h | h <;> cases h

theorem inv_step {c : Cfg E} {s s' : St E} (h : Inv c s) (hs : Step c s s') : Inv c s' := by
  cases hs with
  | pickFile i k f hi hf =>
    refine h.set i _ _ ?_
    intro d hd
    rcases hd with e | e
    · cases e
    · simp only [LPc.load.injEq] at e
      subst e
      exact List.mem_of_getElem? hf
  | pickFail i k hi hf => exact h.set i _ _ (by rintro d (e | e) <;> cases e)
  | loadData i k d hi =>
    refine h.set i _ _ ?_
    rintro d' (e | e)
    · simp only [LPc.put.injEq] at e
      subst e
      exact h.held _ _ _ hi d (Or.inr rfl)
    · cases e
  | loadNothing i k f hi hf => exact h.set i _ _ (by rintro d (e | e) <;> cases e)
  | loadFail i k hi => exact h.set i _ _ (by rintro d (e | e) <;> cases e)
  | putData i k d hi hr =>
    have h' : Inv c { s with dataQ := s.dataQ ++ [d] } := by
      refine ⟨h.len, h.pend, h.sizes, h.held, ?_⟩
      intro d' hd'
      simp only [List.mem_append, List.mem_singleton] at hd'
      rcases hd' with hd' | rfl
      · exact h.queue _ hd'
      · exact h.held _ _ _ hi _ (Or.inl rfl)
    exact h'.set i _ _ (by rintro d (e | e) <;> cases e)
  | aggGet d rest ha hq =>
    exact ⟨h.len, h.pend, h.sizes, h.held, fun d' hd' => h.queue _ (by rw [hq]; simp [hd'])⟩
  | aggAdd n evs d rest ha hw hq =>
    exact ⟨h.len, h.pend, h.sizes, h.held, fun d' hd' => h.queue _ (by rw [hq]; simp [hd'])⟩
  | aggOrder n evs stream ha hw ho => exact ⟨h.len, h.pend, h.sizes, h.held, h.queue⟩
  | aggEvent e rest ha hb =>
    refine ⟨h.len, ?_, h.sizes, h.held, h.queue⟩
    intro h0
    have := h.pend h0
    simp only [List.length_append, List.length_singleton]
    omega
  | aggBatch e rest ha hb hr =>
    refine ⟨h.len, fun h0 => h0, ?_, h.held, h.queue⟩
    intro b hb'
    simp only [List.mem_append, List.mem_singleton] at hb'
    rcases hb' with (hb' | rfl) | hb'
    · exact h.sizes b (Or.inl hb')
    · exact ⟨by simpa using hb, by simp⟩
    · exact h.sizes b (Or.inr hb')
  | aggEmitted ha => exact ⟨h.len, h.pend, h.sizes, h.held, h.queue⟩
  | consGet b rest hq =>
    refine ⟨h.len, h.pend, ?_, h.held, h.queue⟩
    intro b' hb'
    simp only [List.mem_append, List.mem_singleton] at hb'
    rcases hb' with hb' | hb' | rfl
    · exact h.sizes b' (Or.inl (by rw [hq]; simp [hb']))
    · exact h.sizes b' (Or.inr hb')
    · exact h.sizes b' (Or.inl (by rw [hq]; simp))

theorem reach_inv {c : Cfg E} {s : St E} (h : Reach c s) : Inv c s := by
  induction h with
  | init => exact inv_init c
  | step _ hs ih => exact inv_step ih hs

/-! ### The content of the batches -/

theorem want_iff (c : Cfg E) (fs : List (List E)) (n : Nat) (hn : fs.length = n + 1) :
    wantMore c n fs.flatten.length = false ↔ Enough c fs := by
  unfold wantMore Enough
  rw [Bool.or_eq_false_iff, decide_eq_false_iff_not, decide_eq_false_iff_not, hn, pow_two, pow_two]
  omega

/-- What the aggregator still has to put into batches. -/
def todo : APc E → List E
  | .emit rest => rest
  | _ => []

/-- The events that left the aggregator or are in its batch. -/
def St.used (s : St E) : List E := s.got.flatten ++ s.finalQ.flatten ++ s.pending

theorem serves_of_arranged {c : Cfg E} {fs : List (List E)} {o : List E}
    (h : Arranged c fs.flatten o) : Serves c fs o := by
  unfold Arranged at h
  unfold Serves
  cases hs : c.shuffle with
  | false =>
    rw [hs] at h
    refine ⟨_, h, by simp, ?_⟩
    intro r hr
    simp only [Bool.false_eq_true, if_false]
    exact (List.mem_replicate.1 hr).2
  | true =>
    rw [hs] at h
    simp only [if_true] at h ⊢
    generalize c.reps = n at h
    induction h with
    | zero => exact ⟨[], rfl, rfl, by simp⟩
    | succ hp _ ih =>
      obtain ⟨rounds, rfl, h2, h3⟩ := ih
      refine ⟨_ :: rounds, rfl, by simp [h2], ?_⟩
      intro r hr
      rcases List.mem_cons.1 hr with rfl | hr
      · exact hp
      · exact h3 r hr

/-- The files of a pass that is not complete yet. -/
def Open (c : Cfg E) (n : Nat) (evs : List E) : Prop :=
  ∃ fs : List (List E), fs.flatten = evs ∧ fs.length = n + 1 ∧ (∀ d ∈ fs, File.events d ∈ c.files) ∧
    ∀ gs, gs ≠ [] → gs <+: fs → gs ≠ fs → ¬ Enough c gs

/-- Everything so far is a sequence of passes. -/
def Content (c : Cfg E) (s : St E) : Prop :=
  ∃ passes : List (List (List E) × List E),
    (∀ p ∈ passes, Pass c p.1 ∧ (∀ d ∈ p.1, File.events d ∈ c.files) ∧ Serves c p.1 p.2) ∧
    s.used ++ todo s.agg = (passes.map Prod.snd).flatten ∧
    ∀ n evs, s.agg = .add n evs → Open c n evs

theorem content_init (c : Cfg E) : Content c (init c) :=
  ⟨[], by simp, rfl, by intro n evs h; cases h⟩

theorem content_step {c : Cfg E} {s s' : St E} (hi : Inv c s) (h : Content c s) (hs : Step c s s') :
    Content c s' := by
  obtain ⟨passes, h1, h2, h3⟩ := h
  cases hs with
  | pickFile i k f hi hf => exact ⟨passes, h1, h2, h3⟩
  | pickFail i k hi hf => exact ⟨passes, h1, h2, h3⟩
  | loadData i k d hi => exact ⟨passes, h1, h2, h3⟩
  | loadNothing i k f hi hf => exact ⟨passes, h1, h2, h3⟩
  | loadFail i k hi => exact ⟨passes, h1, h2, h3⟩
  | putData i k d hi hr => exact ⟨passes, h1, h2, h3⟩
  | aggGet d rest ha hq =>
    refine ⟨passes, h1, ?_, ?_⟩
    · rw [ha] at h2; exact h2
    · intro n evs e
      simp only [APc.add.injEq] at e
      obtain ⟨rfl, rfl⟩ := e
      refine ⟨[d], by simp, rfl, ?_, ?_⟩
      · intro d' hd'
        simp only [List.mem_singleton] at hd'
        subst hd'
        exact hi.queue _ (by rw [hq]; simp)
      · intro gs g1 g2 g3
        exfalso
        apply g3
        cases gs with
        | nil => exact absurd rfl g1
        | cons x gs =>
          obtain ⟨t, ht⟩ := g2
          simp only [List.cons_append, List.cons.injEq, List.append_eq_nil_iff] at ht
          rw [ht.1, ht.2.1]
  | aggAdd n evs d rest ha hw hq =>
    obtain ⟨fs, f1, f2, f3, f4⟩ := h3 n evs ha
    refine ⟨passes, h1, ?_, ?_⟩
    · rw [ha] at h2; exact h2
    · intro n' evs' e
      simp only [APc.add.injEq] at e
      obtain ⟨rfl, rfl⟩ := e
      refine ⟨fs ++ [d], by simp [f1], by simp [f2], ?_, ?_⟩
      · intro d' hd'
        simp only [List.mem_append, List.mem_singleton] at hd'
        rcases hd' with hd' | rfl
        · exact f3 d' hd'
        · exact hi.queue _ (by rw [hq]; simp)
      · intro gs g1 g2 g3 he
        have hpre : gs <+: fs := by
          rcases List.prefix_concat_iff.1 g2 with e | e
          · exact absurd e g3
          · exact e
        by_cases e : gs = fs
        · subst e
          have := (want_iff c gs n f2).2 he
          rw [f1, hw] at this
          cases this
        · exact f4 gs g1 hpre e he
  | aggOrder n evs stream ha hw ho =>
    obtain ⟨fs, f1, f2, f3, f4⟩ := h3 n evs ha
    refine ⟨passes ++ [(fs, stream)], ?_, ?_, ?_⟩
    · intro p hp
      simp only [List.mem_append, List.mem_singleton] at hp
      rcases hp with hp | rfl
      · exact h1 p hp
      · refine ⟨⟨?_, (want_iff c fs n f2).1 (by rw [f1]; exact hw), f4⟩, f3, serves_of_arranged (by rw [f1]; exact ho)⟩
        intro e
        simp only at e
        rw [e] at f2
        cases f2
    · rw [ha] at h2
      simp only [todo, List.append_nil] at h2
      simp only [List.map_append, List.map_cons, List.map_nil, List.flatten_append, List.flatten_cons,
        List.flatten_nil, List.append_nil, ← h2]
      rfl
    · intro n evs e; cases e
  | aggEvent e rest ha hb =>
    refine ⟨passes, h1, ?_, by intro n evs e; cases e⟩
    rw [ha] at h2
    simpa [St.used, todo] using h2
  | aggBatch e rest ha hb hr =>
    refine ⟨passes, h1, ?_, by intro n evs e; cases e⟩
    rw [ha] at h2
    simpa [St.used, todo] using h2
  | aggEmitted ha =>
    refine ⟨passes, h1, ?_, by intro n evs e; cases e⟩
    rw [ha] at h2
    exact h2
  | consGet b rest hq =>
    refine ⟨passes, h1, ?_, h3⟩
    simpa [St.used, hq] using h2

theorem reach_content {c : Cfg E} {s : St E} (h : Reach c s) : Content c s := by
  induction h with
  | init => exact content_init c
  | step hr hs ih => exact content_step (reach_inv hr) ih hs

end Verif.Endless
