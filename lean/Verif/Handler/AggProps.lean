/-
C19: batches conserve events.
-/
import Verif.Handler.AggLemmas

namespace Verif.Handler
open Verif.Py

variable {V : Type}

/-- A pass of the aggregator together with the events of each of its files. -/
structure Pass (V : Type) where
  chunks : List (Chunk V × List (Event V))
  orders : List (List Nat)

/-- The pass as the program sees it. -/
def Pass.round (p : Pass V) : Round V := { chunks := p.chunks.map (·.1), orders := p.orders }

/-- The events of all files of a pass, in load order. -/
def Pass.events (p : Pass V) : List (Event V) := p.chunks.flatMap (·.2)

/-- A pass reads at least one file, every file holds the tensors of its events, and
every epoch goes through a permutation of the positions of the events. -/
structure Pass.Ok (ts : List TInfo) (exist : Nat → Bool) (p : Pass V) : Prop where
  nonempty : p.chunks ≠ []
  describes : ∀ ce ∈ p.chunks, Describes ts exist ce.1.data ce.2 ∧ ce.1.num = ce.2.length
  orders : ∀ o ∈ p.orders, o.Perm (List.range p.events.length)

theorem roundLoop_spec {ts : List TInfo} (hts : TensorsOk ts) {exist : Nat → Bool} {bs : Nat}
    (hbs : 0 < bs) (passes : List (Pass V)) (hp : ∀ p ∈ passes, p.Ok ts exist)
    (f0 : Option (Fill V)) (s : Agg V) (stream : List (Event V)) (hs : AggOk ts exist bs s stream)
    (hf0 : ∀ f, f0 = some f → ∀ (j : Nat) t, ts[j]? = some t → f.exist[j]? = some (exist j))
    (hstream : f0 = none → stream = []) :
    ∃ f s', roundLoop ts bs (passes.map Pass.round) f0 s = .ok (f, s') ∧
      AggOk ts exist bs s' (stream ++ passes.flatMap (fun p => ordered p.orders p.events)) ∧
      (∀ f', f = some f' → ∀ (j : Nat) t, ts[j]? = some t → f'.exist[j]? = some (exist j)) ∧
      (f = none → stream ++ passes.flatMap (fun p => ordered p.orders p.events) = []) := by
  induction passes generalizing f0 s stream with
  | nil =>
    refine ⟨f0, s, rfl, by simpa using hs, hf0, fun h => by simpa using hstream h⟩
  | cons p passes ih =>
    have hpo := hp p (by simp)
    obtain ⟨f, h1, h2⟩ := round_fill hts p.chunks hpo.nonempty hpo.describes
    have hev : ∀ ev ∈ p.events, EvOk ts exist ev := by
      intro ev hev
      obtain ⟨ce, hce, hev⟩ := List.mem_flatMap.1 hev
      exact (hpo.describes ce hce).1.evOk ev hev
    change FillOk ts exist f p.events at h2
    obtain ⟨s1, h3, h4⟩ := epochLoop_spec hts hbs h2 hev p.orders (fun o ho k hk => by
      have := (hpo.orders o ho).subset hk
      rwa [List.mem_range] at this) s stream hs
    obtain ⟨f', s2, h5, h6, h7, h8⟩ := ih (fun q hq => hp q (by simp [hq])) (some f) s1 _ h4
      (fun f'' h => by cases h; exact h2.flags) (fun h => by cases h)
    refine ⟨f', s2, ?_, ?_, h7, ?_⟩
    · rw [List.map_cons, roundLoop]
      simp only [Pass.round, h1, h3]
      exact h5
    · simpa [List.append_assoc] using h6
    · intro h
      simpa [List.append_assoc] using h8 h

/-- C19. For every sequence of passes over files, the aggregator succeeds and its batches
hold the events of the files in the order in which the epochs visit them: the events are cut
into consecutive groups, all but the last of exactly `batchSize` events and the last not
empty and not larger, and every batch holds the tensors of its group with vector ids
renumbered to the position inside the batch. -/
theorem C19_batches {ts : List TInfo} (hts : TensorsOk ts) (exist : Nat → Bool) (batchSize : Nat)
    (hbs : 0 < batchSize) (passes : List (Pass V)) (hp : ∀ p ∈ passes, p.Ok ts exist) :
    ∃ out groups, aggregate ts batchSize (passes.map Pass.round) = .ok out ∧
      groups.flatten = passes.flatMap (fun p => ordered p.orders p.events) ∧
      (∀ g ∈ groups.dropLast, g.length = batchSize) ∧
      (∀ g ∈ groups, 0 < g.length ∧ g.length ≤ batchSize) ∧
      List.Forall₂ (BatchOf ts exist) out groups := by
  obtain ⟨f, s, h1, ⟨⟨groups, g, h2, h3, h4, h5, h6, h7⟩, h8⟩, h9, h10⟩ :=
    roundLoop_spec hts hbs passes hp none { size := 0, batch := emptyBatch ts, out := [] } []
      ⟨⟨[], [], rfl, by simp, by simpa using hbs, rfl, (mkBatch_nil ts).symm, .nil⟩, by simp⟩
      (fun f h => by cases h) (fun _ => rfl)
  rw [List.nil_append] at h2 h8 h10
  unfold aggregate
  rw [h1]
  simp only
  by_cases hg : g = []
  · rw [if_neg (by rw [h5, hg]; simp)]
    refine ⟨s.out, groups, rfl, by rw [h2, hg]; simp, ?_, ?_, h7⟩
    · exact fun x hx => h3 x (List.dropLast_subset _ hx)
    · exact fun x hx => by rw [h3 x hx]; exact ⟨hbs, Nat.le_refl _⟩
  · have hpos : 0 < g.length := List.length_pos_iff.2 hg
    rw [if_pos (by rw [h5]; exact hpos)]
    cases f with
    | none =>
      have := h10 rfl
      rw [this] at h2
      exact absurd (List.append_eq_nil_iff.1 h2.symm).2 hg
    | some f =>
      obtain ⟨o, ho, hb⟩ := finish_spec hts (h9 f rfl) g hg (fun ev hev => h8 ev (by
        rw [h2]; exact List.mem_append_right _ hev))
      simp only [h6, ho]
      refine ⟨_, groups ++ [g], rfl, by rw [h2]; simp, ?_, ?_, forall₂_append h7 hb⟩
      · intro x hx
        rw [List.dropLast_concat] at hx
        exact h3 x hx
      · intro x hx
        rcases List.mem_append.1 hx with h | h
        · rw [h3 x h]; exact ⟨hbs, Nat.le_refl _⟩
        · rw [List.mem_singleton] at h
          rw [h]; exact ⟨hpos, by omega⟩

theorem filterMap_range {α : Type} (l : List α) :
    (List.range l.length).filterMap (fun k => l[k]?) = l := by
  induction l with
  | nil => rfl
  | cons a l ih =>
    rw [List.length_cons, List.range_succ_eq_map, List.filterMap_cons, List.filterMap_map]
    simp only [List.getElem?_cons_zero, Function.comp_def, List.getElem?_cons_succ]
    rw [ih]

theorem stream_load_order (files : List (List (Chunk V × List (Event V)))) :
    (files.map (fun cs => ({ chunks := cs, orders := [List.range (cs.flatMap (·.2)).length] } :
      Pass V))).flatMap (fun p => ordered p.orders p.events) = files.flatten.flatMap (·.2) := by
  induction files with
  | nil => rfl
  | cons cs files ih =>
    rw [List.map_cons, List.flatMap_cons, List.flatten_cons, List.flatMap_append, ih]
    congr 1
    simp only [ordered, Pass.events, List.flatMap_cons, List.flatMap_nil, List.append_nil]
    exact filterMap_range _

/-- C19. With shuffling off and one repetition, all events appear exactly once and in load
order. -/
theorem C19_load_order {ts : List TInfo} (hts : TensorsOk ts) (exist : Nat → Bool)
    (batchSize : Nat) (hbs : 0 < batchSize) (files : List (List (Chunk V × List (Event V))))
    (hne : ∀ cs ∈ files, cs ≠ [])
    (hd : ∀ cs ∈ files, ∀ ce ∈ cs, Describes ts exist ce.1.data ce.2 ∧ ce.1.num = ce.2.length) :
    ∃ out groups, aggregate ts batchSize (files.map (fun cs =>
        { chunks := cs.map (·.1), orders := [List.range (cs.flatMap (·.2)).length] })) = .ok out ∧
      groups.flatten = files.flatten.flatMap (·.2) ∧
      (∀ g ∈ groups.dropLast, g.length = batchSize) ∧
      (∀ g ∈ groups, 0 < g.length ∧ g.length ≤ batchSize) ∧
      List.Forall₂ (BatchOf ts exist) out groups := by
  obtain ⟨out, groups, h1, h2, h3, h4, h5⟩ := C19_batches hts exist batchSize hbs
    (files.map (fun cs => ({ chunks := cs, orders := [List.range (cs.flatMap (·.2)).length] } : Pass V)))
    (fun p hp => by
      obtain ⟨cs, hcs, rfl⟩ := List.mem_map.1 hp
      refine ⟨hne cs hcs, hd cs hcs, fun o ho => ?_⟩
      rw [List.mem_singleton] at ho
      rw [ho]
      exact List.Perm.refl _)
  refine ⟨out, groups, ?_, ?_, h3, h4, h5⟩
  · rw [← h1, List.map_map]; rfl
  · rw [h2]
    exact stream_load_order files

/-- C19. With any shuffling, every loaded event appears exactly once per repetition. -/
theorem C19_exactly_once (p : Pass V) (ts : List TInfo) (exist : Nat → Bool) (hp : p.Ok ts exist) :
    (ordered p.orders p.events).Perm (p.orders.flatMap (fun _ => p.events)) := by
  have h := hp.orders
  unfold ordered
  generalize p.orders = orders at h
  induction orders with
  | nil => exact List.Perm.refl _
  | cons o orders ih =>
    rw [List.flatMap_cons, List.flatMap_cons]
    refine List.Perm.append ?_ (ih (fun o' ho' => h o' (by simp [ho'])))
    have := (h o (by simp)).filterMap (fun k => p.events[k]?)
    rwa [filterMap_range] at this

/-! ### a concrete case: two files with three and two events, batches of two -/

/-- A plain tensor, a vector tensor with its indices, and a tensor that does not exist. -/
def exTensors : List TInfo :=
  [⟨"labels", .label, true, .plain⟩, ⟨"pulses", .data, true, .value⟩,
   ⟨"pulse_ids", .data, true, .index "pulses"⟩, ⟨"window", .data, false, .plain⟩]

def exExist : Nat → Bool := fun i => i != 3

def exFile1 : Chunk Nat :=
  { num := 3, data := [some { rows := [⟨0, 10⟩, ⟨0, 11⟩, ⟨0, 12⟩] },
      some { rows := [⟨0, 100⟩, ⟨0, 101⟩, ⟨0, 102⟩] },
      some { rows := [⟨2, 5⟩, ⟨0, 6⟩, ⟨2, 7⟩] }, none] }

def exEvents1 : List (Event Nat) :=
  [[.row ⟨0, 10⟩, .vals [⟨0, 101⟩], .idxs [6], .missing],
   [.row ⟨0, 11⟩, .vals [], .idxs [], .missing],
   [.row ⟨0, 12⟩, .vals [⟨0, 100⟩, ⟨0, 102⟩], .idxs [5, 7], .missing]]

theorem exTensors_ok : TensorsOk exTensors := by
  constructor
  · decide
  · intro i t ref h hk
    have : i = 2 := by
      match i with
      | 0 => cases h; cases hk
      | 1 => cases h; cases hk
      | 2 => rfl
      | 3 => cases h; cases hk
      | n + 4 => cases h
    subst this; cases h; cases hk
    exact ⟨1, _, rfl, rfl, rfl⟩
  · intro vi tv h hk
    have : vi = 1 := by
      match vi with
      | 0 => cases h; cases hk
      | 1 => rfl
      | 2 => cases h; cases hk
      | 3 => cases h; cases hk
      | n + 4 => cases h
    subst this; cases h
    refine ⟨2, _, rfl, rfl, fun i' t' h' hk' => ?_⟩
    match i' with
    | 0 => cases h'; cases hk'
    | 1 => cases h'; cases hk'
    | 2 => rfl
    | 3 => cases h'; cases hk'
    | n + 4 => cases h'

theorem exFile1_describes : Describes exTensors exExist exFile1.data exEvents1 := by
  constructor
  · rfl
  · intro i t h hx
    match i with
    | 0 => cases hx
    | 1 => cases hx
    | 2 => cases hx
    | 3 => exact ⟨rfl, by decide⟩
    | n + 4 => cases h
  · intro i t h hk hx
    match i with
    | 0 =>
      refine ⟨_, rfl, rfl, rfl, fun e ev he => ?_⟩
      match e with
      | 0 => cases he; exact ⟨_, rfl, rfl⟩
      | 1 => cases he; exact ⟨_, rfl, rfl⟩
      | 2 => cases he; exact ⟨_, rfl, rfl⟩
      | n + 3 => cases he
    | 1 => cases h; cases hk
    | 2 => cases h; cases hk
    | 3 => cases hx
    | n + 4 => cases h
  · intro i vi t tv h hk hv
    have hi : i = 2 := by
      match i with
      | 0 => cases h; cases hk
      | 1 => cases h; cases hk
      | 2 => rfl
      | 3 => cases h; cases hk
      | n + 4 => cases h
    subst hi
    cases h
    have hvi : vi = 1 := by
      match vi with
      | 0 => cases hv; simp at hk
      | 1 => rfl
      | 2 => cases hv; simp at hk
      | 3 => cases hv; simp at hk
      | n + 4 => cases hv
    subst hvi
    refine ⟨rfl, fun _ => ⟨_, _, rfl, rfl, ⟨⟨rfl, rfl⟩, rfl, by decide⟩, fun e ev he => ?_⟩⟩
    match e with
    | 0 => cases he; exact ⟨by decide, by decide⟩
    | 1 => cases he; exact ⟨by decide, by decide⟩
    | 2 => cases he; exact ⟨by decide, by decide⟩
    | n + 3 => cases he

/-- The hypotheses of `C19_batches` hold for two passes, the second of which shuffles. -/
example : ∀ p ∈ [(⟨[(exFile1, exEvents1), (exFile1, exEvents1)],
      [[0, 1, 2, 3, 4, 5]]⟩ : Pass Nat), ⟨[(exFile1, exEvents1)], [[2, 0, 1], [1, 2, 0]]⟩],
    p.Ok exTensors exExist := by
  intro p hp
  simp only [List.mem_cons, List.not_mem_nil, or_false] at hp
  rcases hp with rfl | rfl
  · refine ⟨by simp, ?_, by decide⟩
    intro ce hce
    simp only [List.mem_cons, List.not_mem_nil, or_false, or_self] at hce
    subst hce
    exact ⟨exFile1_describes, rfl⟩
  · refine ⟨by simp, ?_, by decide⟩
    intro ce hce
    simp only [List.mem_cons, List.not_mem_nil, or_false] at hce
    subst hce
    exact ⟨exFile1_describes, rfl⟩

/-- The plain tensor of the batches in that case: three events per pass, shuffled. -/
example : ((aggregate exTensors 2
      [{ chunks := [exFile1], orders := [[0, 1, 2]] },
       { chunks := [exFile1], orders := [[2, 0, 1]] }]).toOption.map
    (fun out => out.map (fun o => ((outData o).headD none).map (fun a => a.rows.map Row.rest)))) =
    some [some [10, 11], some [12, 12], some [10, 11]] := by decide

end Verif.Handler
