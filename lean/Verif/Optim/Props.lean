import Verif.Optim.LoopLemmas
import Mathlib.Algebra.Order.Ring.Int
import Mathlib.Data.Rat.Floor
import Mathlib.Tactic.NormNum

/-!
# C45, C46 and C68: replacements and history of the spherical optimizer
-/

namespace Verif.Optim
open Verif.Py

variable {P α : Type} [LinearOrder α]

/-! ## C45 -/

/-- **C45.** For all sorted orders of old and new values, with no more new than old ones, the pairs
are distinct positions, each new value is lower than the old one it replaces, and no other such set
of pairs is larger. -/
theorem C45_maximal (argsort : List α → List Nat) (hsort : IsArgsort argsort) (old new : List α)
    (hlen : new.length ≤ old.length) :
    ∃ ps, findReplacements argsort old new none none = .ok ps ∧
      Matching old new (List.range old.length) (List.range new.length) ps ∧
      ∀ qs, Matching old new (List.range old.length) (List.range new.length) qs →
        qs.length ≤ ps.length := by
  obtain ⟨o1, o2, o3, o4, o5⟩ := hsort.facts old
  obtain ⟨n1, n2, n3, n4, n5⟩ := hsort.facts new
  obtain ⟨N, h1, h2, h3, h4, h5⟩ := find_spec argsort old new none none (argsort old)
    (argsort new) rfl rfl o3 n3 o2 n2 o5 n5
    (by omega)
  refine ⟨_, h2, ⟨h3.olds, h3.news, fun p hp => ?_, h3.lower⟩, fun qs hq => ?_⟩
  · have := h3.mem p hp
    exact ⟨by simpa using o3 _ this.1, by simpa using n3 _ this.2⟩
  · rw [h4]
    refine h5 qs ⟨hq.olds, hq.news, fun p hp => ?_, hq.lower⟩
    have := hq.mem p hp
    simp only [List.mem_range] at this
    exact ⟨o4 _ this.1, n4 _ this.2⟩

example : IsArgsort (stableArgsort (α := Int)) ∧ ([1, 7] : List Int).length ≤ [3, 5, 4].length :=
  ⟨stableArgsort_ok, by decide⟩

example : findReplacements stableArgsort ([3, 5, 4] : List Int) [1, 7] none none = .ok [(1, 0)] := by
  decide

/-- **C45**, for given sorted orders of some of the positions (these are not changed by sorting
again), as in the mutation step: same, among the given positions. -/
theorem C45_given (argsort : List α → List Nat) (old new : List α) (so sn : List Nat)
    (ho : ∀ i ∈ so, i < old.length) (hn : ∀ i ∈ sn, i < new.length) (hod : so.Nodup)
    (hnd : sn.Nodup) (hao : Ascending old so) (han : Ascending new sn)
    (hlen : sn.length ≤ so.length) :
    ∃ ps, findReplacements argsort old new (some so) (some sn) = .ok ps ∧
      Matching old new so sn ps ∧ ∀ qs, Matching old new so sn qs → qs.length ≤ ps.length := by
  obtain ⟨N, h1, h2, h3, h4, h5⟩ := find_spec argsort old new (some so) (some sn) so sn rfl rfl ho hn
    hod hnd hao han hlen
  exact ⟨_, h2, h3, fun qs hq => by rw [h4]; exact h5 qs hq⟩

example : Ascending ([3, 5, 4] : List Int) [0, 2] ∧ Ascending ([4, 1] : List Int) [1, 0] ∧
    findReplacements stableArgsort ([3, 5, 4] : List Int) [4, 1] (some [0, 2]) (some [1, 0]) =
      .ok [(2, 1)] := by
  refine ⟨?_, ?_, by decide⟩ <;> · unfold Ascending; simp

/-- **C45.** The replaced values are the highest old ones, the replacements are the lowest new
ones. -/
theorem C45_lowest_for_highest (argsort : List α → List Nat) (hsort : IsArgsort argsort)
    (old new : List α) (hlen : new.length ≤ old.length) (ps : List (Nat × Nat))
    (h : findReplacements argsort old new none none = .ok ps) :
    (∀ p ∈ ps, ∀ i a b, i ∉ ps.map Prod.fst → old[i]? = some a → old[p.1]? = some b → a ≤ b) ∧
    (∀ p ∈ ps, ∀ j a b, j ∉ ps.map Prod.snd → new[j]? = some a → new[p.2]? = some b → b ≤ a) := by
  obtain ⟨o1, o2, o3, o4, o5⟩ := hsort.facts old
  obtain ⟨n1, n2, n3, n4, n5⟩ := hsort.facts new
  obtain ⟨N, h1, h2, h3, h4, h5⟩ := find_spec argsort old new none none (argsort old)
    (argsort new) rfl rfl o3 n3 o2 n2 o5 n5
    (by omega)
  rw [h2] at h
  cases h
  have hl1 : (lastN (argsort old) N).length = N := lastN_length _ _ (by omega)
  have hl2 : ((argsort new).take N).length = N := by rw [List.length_take]; omega
  rw [zip_map_fst _ _ (by omega), zip_map_snd _ _ (by omega)]
  constructor
  · intro p hp i a b hi ha hb
    have hp1 := (List.of_mem_zip (show (p.1, p.2) ∈ _ from hp)).1
    obtain ⟨k, hk, ek⟩ := List.getElem_of_mem hp1
    have hi' := o4 i (List.getElem?_eq_some_iff.1 ha).1
    obtain ⟨m, hm, em⟩ := List.getElem_of_mem hi'
    have hk' : (argsort old)[(argsort old).length - N + k]? = some p.1 := by
      rw [← lastN_getElem, List.getElem?_eq_getElem hk, ek]
    refine o5.le (i := m) (j := (argsort old).length - N + k) ?_
      (by rw [List.getElem?_eq_getElem hm, em]) hk' ha hb
    by_contra hgt
    refine hi ?_
    refine List.mem_of_getElem? (i := m - ((argsort old).length - N)) ?_
    rw [lastN_getElem, show (argsort old).length - N + (m - ((argsort old).length - N)) = m by omega,
      List.getElem?_eq_getElem hm, em]
  · intro p hp j a b hj ha hb
    have hp2 := (List.of_mem_zip (show (p.1, p.2) ∈ _ from hp)).2
    obtain ⟨k, hk, ek⟩ := List.getElem_of_mem hp2
    have hj' := n4 j (List.getElem?_eq_some_iff.1 ha).1
    obtain ⟨m, hm, em⟩ := List.getElem_of_mem hj'
    have hk' : (argsort new)[k]? = some p.2 := by
      have : ((argsort new).take N)[k]? = some p.2 := by rw [List.getElem?_eq_getElem hk, ek]
      rwa [List.getElem?_take, if_pos (by omega)] at this
    refine n5.le (i := k) (j := m) ?_ hk' (by rw [List.getElem?_eq_getElem hm, em]) hb ha
    by_contra hlt
    refine hj ?_
    refine List.mem_of_getElem? (i := m) ?_
    rw [List.getElem?_take, if_pos (by omega), List.getElem?_eq_getElem hm, em]

example : findReplacements stableArgsort ([3, 5, 4, 9] : List Int) [4, 10, 1] none none =
    .ok [(1, 2), (3, 0)] := by decide

/-- **C45.** More new than old values are refused, if there are two or more old ones. -/
theorem C45_more_new (argsort : List α → List Nat) (hsort : IsArgsort argsort) (old new : List α)
    (h2 : 2 ≤ old.length) (hlen : old.length < new.length) :
    findReplacements argsort old new none none = .error .valueError := by
  obtain ⟨o1, o2, o3, o4, o5⟩ := hsort.facts old
  obtain ⟨n1, n2, n3, n4, n5⟩ := hsort.facts new
  unfold findReplacements
  simp only [Option.getD_none]
  obtain ⟨m, hm⟩ : ∃ m, (argsort new).length = m + 1 := ⟨(argsort new).length - 1, by omega⟩
  rw [hm, search]
  obtain ⟨a, a1, a2, -⟩ := pick_ok new ((argsort new).take (m + 1))
    (fun i hi => n3 i (List.mem_of_mem_take hi))
  obtain ⟨b, b1, b2, -⟩ := pick_ok old (lastN (argsort old) (m + 1))
    (fun i hi => o3 i (List.mem_of_mem_drop hi))
  simp only [a1, b1]
  rw [List.length_take] at a2
  rw [lastN, List.length_drop] at b2
  have la : a.length = m + 1 := by omega
  have lb : b.length = old.length := by omega
  have : lessThans a b = .error .valueError := by
    unfold lessThans
    rw [if_neg (by omega)]
    match a, b, la, lb with
    | [], _, la, _ => simp at la
    | [_], _, la, _ => simp at la; omega
    | _ :: _ :: _, [], _, lb => simp at lb; omega
    | _ :: _ :: _, [_], _, lb => simp at lb; omega
    | _ :: _ :: _, _ :: _ :: _, _, _ => rfl
  rw [this]

example : findReplacements stableArgsort ([3, 5] : List Int) [1, 7, 2] none none =
    .error .valueError := by decide

/-! ## C46 -/

/-- A line: points are integers, the simplex consists of two of them. -/
def line (f : Int → Int) (spread : Int) (maxIter : Nat) : Settings Int Int where
  method := "Nelder-Mead"
  batch := 1
  dim := 1
  maxIter := maxIter
  maxCalls := 0
  maxNoImp := 1000
  fConv := fun l => l.all fun a => l.all fun b => decide (a - b < spread)
  cConv := fun _ => false
  argsort := stableArgsort
  geo :=
    { batch := fun _ _ _ => [0]
      mutate := fun _ _ _ qs => qs
      reflect := fun ps s => 2 * ps.getD (s.getD 0 0) 0 - ps.getD (s.getD 1 0) 0
      expand := fun ps s => 3 * ps.getD (s.getD 0 0) 0 - 2 * ps.getD (s.getD 1 0) 0
      contractOut := fun ps s => (3 * ps.getD (s.getD 0 0) 0 - ps.getD (s.getD 1 0) 0) / 2
      contractIn := fun ps s => (ps.getD (s.getD 0 0) 0 + ps.getD (s.getD 1 0) 0) / 2
      shrink := fun b p => (b + p) / 2 }
  f := f

theorem line_accepted (f : Int → Int) (spread : Int) (maxIter : Nat) :
    Accepted (line f spread maxIter) 2 where
  sort := stableArgsort_ok
  geo := ⟨fun _ _ _ => rfl, fun _ _ _ _ => rfl⟩
  dim := Nat.one_pos
  args := Or.inl ⟨rfl, Nat.le_refl 1, rfl⟩

/-- **C46.** Each iteration, from each state that satisfies `Sound`, goes through, leaves such a
state behind, evaluates the function at one more list of points, and its lowest value is not higher
than before: for each point there is now one that is not worse. -/
theorem C46_iteration (c : Settings P α) (n it : Nat) (hc : Accepted c n) (s : State P α)
    (h : Sound c n s.pts s.calls s.log) :
    ∃ s', step c it s = .ok s' ∧ Sound c n s'.pts s'.calls s'.log ∧
      (∃ b, s'.log = s.log ++ [b]) ∧ ∀ e ∈ s.pts, ∃ e' ∈ s'.pts, e'.2 ≤ e.2 := by
  obtain ⟨s', h1, h2⟩ := step_ok c n it hc s h
  obtain ⟨b, hb, -⟩ := h2.grown
  exact ⟨s', h1, h2.sound, ⟨b, hb⟩, h2.lower⟩

/-- **C46.** `Sound` holds at the start. -/
theorem C46_start (c : Settings P α) (initial : List P) (hne : initial ≠ []) :
    ∃ s, init c initial = .ok s ∧ s.log = [initial] ∧
      s.pts = initial.map (fun p => (p, c.f p)) ∧
      Sound c initial.length s.pts s.calls s.log := by
  obtain ⟨s, h1, h2, -, -, h3, h4⟩ := init_ok c initial hne
  exact ⟨s, h1, h3, h2, h4⟩

theorem run_ok (c : Settings P α) (initial : List P) (hc : Accepted c initial.length) :
    ∃ s0 s' flag nit bs e, init c initial = .ok s0 ∧ s0.pts = c.eval initial ∧ s0.best = 0 ∧
      s0.calls = initial.length ∧ s0.log = [initial] ∧
      LoopOk c initial.length (c.maxIter + 1) 0 s0 s' flag nit bs ∧ Tracked c s' ∧
      s'.pts[s'.best]? = some e ∧
      run c initial = .ok
        { flag, calls := s'.calls, nit, value := e.2, point := e.1, final := s'.pts
          success := flag > 0, log := s'.log } := by
  obtain ⟨h2, -, hck⟩ := args_ok hc.args hc.dim
  have hne : initial ≠ [] := by rintro rfl; simp at h2
  obtain ⟨s0, i1, i2, i3, i4, i5, i6⟩ := init_ok c initial hne
  obtain ⟨s', flag, nit, bs, l1, l2⟩ := loop_ok c initial.length hc (c.maxIter + 1) 0 s0 i6
  obtain ⟨e, he⟩ : ∃ e, s'.pts[s'.best]? = some e := by
    by_cases hbs : bs = []
    · rw [l2.none hbs, i3, i2]
      exact ⟨_, List.getElem?_eq_getElem (by rw [eval_length]; omega)⟩
    · obtain ⟨e, g, -⟩ := l2.best hbs
      exact ⟨e, g⟩
  refine ⟨s0, s', flag, nit, bs, e, i1, i2, i3, i4, i5, l2,
    loop_tracked c _ hc _ _ s0 s' flag nit i6 (init_tracked c initial s0 i1) l1, he, ?_⟩
  rw [run]
  simp only [hck, i1, l1, he]

/-- **C46**, partial: whatever the function, the proposals and the stopping conditions, a run with
valid arguments ends and returns a point that was evaluated and is in the final simplex, with its
value; all values in the final simplex are those of their points; calls are counted; no point that
was ever evaluated is better than all of the final simplex. If at least one iteration was done, the
reported value is not above that of any point that was evaluated before the last iteration; if none
was done, the first initial point is reported. Missing: the reported point need not be the best of
all (see `C46_violated_start` and `C46_violated_last`). -/
theorem C46_run_partial (c : Settings P α) (initial : List P) (hc : Accepted c initial.length) :
    ∃ r, run c initial = .ok r ∧ r.final.length = initial.length ∧
      (∀ e ∈ r.final, e.2 = c.f e.1 ∧ ∃ b ∈ r.log, e.1 ∈ b) ∧
      r.calls = (r.log.map List.length).sum ∧
      (r.point, r.value) ∈ r.final ∧ r.value = c.f r.point ∧
      (∀ b ∈ r.log, ∀ p ∈ b, ∃ e ∈ r.final, e.2 ≤ c.f p) ∧
      (∃ bs, r.log = initial :: bs) ∧
      (2 ≤ r.log.length → ∀ b ∈ r.log.dropLast, ∀ p ∈ b, r.value ≤ c.f p) ∧
      (r.log.length = 1 → initial.head? = some r.point) := by
  obtain ⟨s0, s', flag, nit, bs, e, i1, i2, i3, i4, i5, l, tr, he, hr⟩ := run_ok c initial hc
  have hmem := List.mem_of_getElem? he
  refine ⟨_, hr, l.sound.len, fun e he => ⟨l.sound.value e he, l.sound.seen e he⟩, l.sound.calls,
    hmem, l.sound.value e hmem, l.sound.kept, ⟨bs, by simp only; rw [l.log, i5]; rfl⟩, ?_, ?_⟩
  · simp only
    intro h2
    have hbs : bs ≠ [] := by
      rintro rfl
      rw [l.log, i5] at h2
      simp at h2
    obtain ⟨e', g1, g2⟩ := l.best hbs
    rw [he] at g1
    cases g1
    rw [l.log]
    exact g2
  · simp only
    intro h1
    have hbs : bs = [] := by
      rw [l.log, i5] at h1
      simpa using h1
    rw [l.none hbs, i3, i2] at he
    cases initial with
    | nil => simp [Settings.eval] at he
    | cons p ps =>
      simp [Settings.eval] at he
      subst he
      rfl

example : Accepted (line (fun x => x * x) 3 50) [10, 4].length := line_accepted _ _ _

/-- **C46**, refuted: if a stopping condition holds before the first iteration, the first of the
initial points is reported as a success although another one is better. -/
theorem C46_violated_start :
    ∃ (c : Settings Int Int) (initial : List Int) (r : Result Int Int),
      Accepted c initial.length ∧ run c initial = .ok r ∧ r.success = true ∧ 1 ∈ initial ∧
      r.value = 2 ∧ c.f 1 < r.value :=
  ⟨line (fun x => x) 2 50, [2, 1],
    { flag := 1, calls := 2, nit := 0, value := 2, point := 2, final := [(2, 2), (1, 1)]
      success := true, log := [[2, 1]] },
    line_accepted _ _ _, rfl, rfl, by decide, rfl, by decide⟩

/-- **C46**, refuted: a better point that was found in the last iteration is stored, but not
reported. The function is the absolute value; from 10 and 4 the point -2 is reached. -/
theorem C46_violated_last :
    ∃ (c : Settings Int Int) (initial : List Int) (r : Result Int Int),
      Accepted c initial.length ∧ run c initial = .ok r ∧ r.success = true ∧
      (-2, 2) ∈ r.final ∧ r.value = 4 ∧ r.point = 4 :=
  ⟨line (fun x => x.natAbs) 3 50, [10, 4],
    { flag := 1, calls := 4, nit := 1, value := 4, point := 4, final := [(-2, 2), (4, 4)]
      success := true, log := [[10, 4], [-2, -8]] },
    line_accepted _ _ _, rfl, rfl, by decide, rfl, rfl⟩

/-- **C46.** Arguments that do not fit are refused. -/
theorem C46_refused (c : Settings P α) (initial : List P) (hd : 0 < c.dim)
    (h : ¬ ValidArgs c initial.length) :
    run c initial = .error .valueError ∨ run c initial = .error .assertionError := by
  rw [run]
  have : check c initial.length = .error .valueError ∨
      check c initial.length = .error .assertionError := by
    unfold check
    split
    · exact Or.inl rfl
    · split
      · exact Or.inl rfl
      · split
        · rename_i h1 h2 h3
          split
          · rename_i h4
            refine absurd (Or.inl ⟨h3, ?_, h4⟩) h
            by_contra hb
            exact h2 ⟨by omega, by rw [h3]; decide⟩
          · exact Or.inr rfl
        · rename_i h1 h2 h3
          have hm : c.method = "CRS2" := by
            by_contra hm
            exact h1 ⟨h3, hm⟩
          split
          · exact Or.inr rfl
          · split
            · omega
            · split
              · rename_i h4 h5 h6
                exact absurd (Or.inr ⟨hm, by omega, h6⟩) h
              · exact Or.inr rfl
  rcases this with h1 | h1
  · rw [h1]; exact Or.inl rfl
  · rw [h1]; exact Or.inr rfl

example : ¬ ValidArgs (line id 1 1) 3 ∧ run (line id 1 1) [1, 2, 3] = .error .assertionError :=
  ⟨by unfold ValidArgs; decide, rfl⟩

/-! ## C68 -/

/-- **C68.** The stopping flag tells why the run ended: -1 if all of the `max_iter + 1` iterations
were done, 0 if the calls reached the limit, 2 if the best value at the start of the last iteration was
known already more than `max_noimprovement` iterations before, 1 if the values and 3 if the points are
close; the run is a success for 1, 2 and 3. -/
theorem C68_flag (c : Settings P α) (initial : List P) (hc : Accepted c initial.length) :
    ∃ r, run c initial = .ok r ∧ r.log.length ≤ c.maxIter + 2 ∧
      (r.flag = -1 ↔ r.log.length = c.maxIter + 2) ∧
      (r.flag = -1 → r.nit = c.maxIter) ∧
      (r.flag ≠ -1 → r.nit = r.log.length - 1) ∧
      (r.flag = 0 → c.maxCalls ≠ 0 ∧ c.maxCalls ≤ r.calls) ∧
      (r.flag = 1 → c.fConv (r.final.map Prod.snd) = true) ∧
      (r.flag = 2 → c.maxNoImp ≠ 0 ∧ c.maxNoImp + 3 ≤ r.log.length ∧
        ∀ b ∈ r.log.dropLast, ∀ p ∈ b, ∃ b' ∈ r.log.take (r.log.length - 2 - c.maxNoImp), ∃ q ∈ b',
          c.f q ≤ c.f p) ∧
      (r.flag = 3 → c.cConv (r.final.map Prod.fst) = true) ∧
      (-1 ≤ r.flag ∧ r.flag ≤ 3) ∧ (r.success = true ↔ 1 ≤ r.flag) := by
  obtain ⟨s0, s', flag, nit, bs, e, i1, i2, i3, i4, i5, l, tr, he, hr⟩ := run_ok c initial hc
  have hll : s'.log.length = bs.length + 1 := by rw [l.log, i5]; simp
  have hle : bs.length ≤ c.maxIter + 1 := by
    by_cases hf : flag = -1
    · exact le_of_eq (l.full hf).1
    · exact le_of_lt (l.stopped hf).1
  have hst : flag ≠ -1 → stop c s' = some flag := fun hf => (l.stopped hf).2.2
  refine ⟨_, hr, ?_, ⟨fun hf => ?_, fun hf => ?_⟩, fun hf => ?_, fun hf => ?_,
    fun hf => ?_, fun hf => ?_, fun hf => ?_, fun hf => ?_, ?_, ?_⟩
  · simp only; omega
  · simp only at hf ⊢
    have := (l.full hf).1
    omega
  · simp only at hf ⊢
    by_contra hn
    have := (l.stopped hn).1
    omega
  · simp only at hf ⊢
    have := (l.full hf).2
    omega
  · simp only at hf ⊢
    have := (l.stopped hf).2.1
    omega
  all_goals simp only at *
  · have := hst (by omega)
    rw [hf] at this
    unfold stop at this
    split at this
    · rename_i h; exact h
    · split at this
      · cases this
      · split at this
        · cases this
        · split at this <;> cases this
  · have := hst (by omega)
    rw [hf] at this
    unfold stop at this
    split at this
    · cases this
    · split at this
      · cases this
      · split at this
        · rename_i h; exact h
        · split at this <;> cases this
  · have := hst (by omega)
    rw [hf] at this
    unfold stop at this
    split at this
    · cases this
    · split at this
      · rename_i h
        refine ⟨h.1, ?_⟩
        rcases tr with ⟨t1, -⟩ | ⟨k, t1, t2, t3, b', t4, q, t5, t6⟩
        · have := h.2
          omega
        · have h2 := h.2
          refine ⟨by omega, fun b hb p hp => ?_⟩
          refine ⟨b', ?_, q, t5, by rw [t6]; exact t3 b hb p hp⟩
          have e : s'.log.take (s'.log.length - 1 - k) =
              (s'.log.take (s'.log.length - 2 - c.maxNoImp)).take (s'.log.length - 1 - k) := by
            rw [List.take_take, min_eq_left (by omega)]
          rw [e] at t4
          exact List.mem_of_mem_take t4
      · split at this
        · cases this
        · split at this <;> cases this
  · have := hst (by omega)
    rw [hf] at this
    unfold stop at this
    split at this
    · cases this
    · split at this
      · cases this
      · split at this
        · cases this
        · split at this
          · rename_i h; exact h
          · cases this
  · by_cases hf : flag = -1
    · omega
    · have := stop_flag (hst hf)
      omega
  · rw [decide_eq_true_eq]
    omega

example : Accepted (line (fun x => x * x) 3 0) [10, 4].length ∧
    (∃ r, run (line (fun x => x * x) 3 0) [10, 4] = .ok r ∧ r.flag = -1) ∧
    ∃ r, run (line (fun x => x * x) 3 9) [10, 4] = .ok r ∧ r.flag = 1 ∧ r.log.length = 4 :=
  ⟨line_accepted _ _ _, ⟨_, rfl, by decide⟩, ⟨_, rfl, by decide, by decide⟩⟩

/-- **C68.** With a limit of calls, the function is called less often than the limit plus the calls
of one iteration, unless the initial points are more. -/
theorem C68_calls (c : Settings P α) (initial : List P) (hc : Accepted c initial.length)
    (hm : c.maxCalls ≠ 0) :
    ∃ r, run c initial = .ok r ∧ r.calls = (r.log.map List.length).sum ∧
      r.calls ≤ max initial.length
        (c.maxCalls - 1 + max (2 * c.batch) (initial.length + 1)) := by
  obtain ⟨s0, s', flag, nit, bs, e, i1, i2, i3, i4, i5, l, tr, he, hr⟩ := run_ok c initial hc
  refine ⟨_, hr, l.sound.calls, ?_⟩
  have := l.calls hm
  rwa [i4] at this

example : Accepted { line (fun x => x * x) 1 9 with maxCalls := 3 } [10, 4].length ∧
    ∃ r, run { line (fun x => x * x) 1 9 with maxCalls := 3 } [10, 4] = .ok r ∧ r.flag = 0 ∧
      r.calls = 4 :=
  ⟨⟨stableArgsort_ok, ⟨fun _ _ _ => rfl, fun _ _ _ _ => rfl⟩, by decide, Or.inl ⟨rfl, by decide, rfl⟩⟩,
    ⟨_, rfl, by decide, by decide⟩⟩

/-- **C68.** The points drawn for a batch are distinct, valid and different from the best one: the
shifted positions below `n - 1` are exactly those below `n` other than the best. -/
theorem C68_skip (n best : Nat) (hb : best < n) :
    (∀ i j, skipBest best i = skipBest best j → i = j) ∧
    ∀ k, (∃ i < n - 1, skipBest best i = k) ↔ k < n ∧ k ≠ best := by
  unfold skipBest
  refine ⟨fun i j h => ?_, fun k => ⟨?_, fun ⟨h1, h2⟩ => ?_⟩⟩
  · split at h <;> split at h <;> omega
  · rintro ⟨i, hi, rfl⟩
    split <;> omega
  · by_cases hk : k < best
    · exact ⟨k, by omega, by rw [if_neg (by omega)]⟩
    · exact ⟨k - 1, by omega, by rw [if_pos (by omega)]; omega⟩

/-! ## C69 -/

section
variable {K : Type} [Ring K] [LinearOrder K] [FloorRing K]

/-- **C69**, partial: with thresholds for the Cartesian coordinates of which at least one is positive,
the run stops if and only if the standard deviation of each coordinate with a positive threshold is
below the threshold rounded up. Missing: below the threshold itself (`C69_violated`). -/
theorem C69_cartesian_partial (thr std : List K) (sstd : K) (h : ∃ t ∈ thr, 0 < t) :
    ∃ b, pointsClose (some thr) none std sstd = .ok b ∧
      (b = true ↔ ∀ p ∈ thr.zip std, 0 < p.1 → p.2 < (⌈p.1⌉ : K)) := by
  have ha : active (some thr) = some thr := by
    obtain ⟨t, ht, hp⟩ := h
    unfold active
    rw [Option.bind_some, if_pos (List.any_eq_true.2 ⟨t, ht, by simpa using hp⟩)]
  unfold pointsClose
  rw [ha]
  refine ⟨_, rfl, ?_⟩
  unfold cartClose
  rw [List.all_eq_true]
  refine forall_congr' fun p => forall_congr' fun _ => ?_
  rw [Bool.or_eq_true, Bool.not_eq_true', decide_eq_false_iff_not, decide_eq_true_eq, ← Int.lt_ceil,
    Int.floor_lt]
  constructor
  · rintro (h1 | h1) h2
    · exact absurd h2 h1
    · exact h1
  · intro h1
    by_cases h2 : 0 < p.1
    · exact Or.inr (h1 h2)
    · exact Or.inl h2

example : ∃ t ∈ ([5, -1] : List Int), 0 < t := ⟨5, by decide, by decide⟩

/-- **C69.** For thresholds that are whole numbers this is the documented condition. -/
theorem C69_cartesian_whole [IsStrictOrderedRing K] (thr : List Int) (std : List K) (sstd : K) (h : ∃ t ∈ thr, 0 < t) :
    ∃ b, pointsClose (some (thr.map (fun t : Int => (t : K)))) none std sstd = .ok b ∧
      (b = true ↔ ∀ p ∈ (thr.map (fun t : Int => (t : K))).zip std, 0 < p.1 → p.2 < p.1) := by
  obtain ⟨b, h1, h2⟩ := C69_cartesian_partial (thr.map (fun t : Int => (t : K))) std sstd (by
    obtain ⟨t, ht, hp⟩ := h
    exact ⟨t, List.mem_map.2 ⟨t, ht, rfl⟩, by exact_mod_cast hp⟩)
  refine ⟨b, h1, h2.trans ?_⟩
  refine forall_congr' fun p => forall_congr' fun hp => ?_
  obtain ⟨t, ht, e⟩ := List.mem_map.1 (List.of_mem_zip (show (p.1, p.2) ∈ _ from hp)).1
  rw [← e, Int.ceil_intCast]

/-- **C69**, refuted: with a threshold of 1/2, a coordinate that varies by 9/10 counts as converged,
since its standard deviation is cut to 0. -/
theorem C69_violated :
    pointsClose (some [(1 / 2 : Rat)]) none [9 / 10] 0 = .ok true := by
  have h1 : ⌊(9 / 10 : Rat)⌋ = 0 := by decide +kernel
  unfold pointsClose active cartClose
  simp [h1]

/-- **C69.** With thresholds for the directions that are all positive, the spread of the directions
has to be below each of them, and the coordinates have to be close. -/
theorem C69_directions (cthr : Option (List K)) (sthr std : List K) (sstd : K) (hne : sthr ≠ [])
    (hp : ∀ t ∈ sthr, 0 < t) :
    ∃ b, pointsClose cthr (some sthr) std sstd = .ok b ∧
      (b = true ↔ (∀ t ∈ sthr, sstd < t) ∧
        ∀ c, cthr = some c → ∀ p ∈ c.zip std, 0 < p.1 → p.2 < (⌈p.1⌉ : K)) := by
  have key : ∀ (l : List K) (b : Bool), (∀ t ∈ l, 0 < t) →
      ∃ b', spherClose sstd l b = .ok b' ∧ (b' = true ↔ b = true ∧ ∀ t ∈ l, sstd < t) := by
    intro l
    induction l with
    | nil => intro b _; exact ⟨b, rfl, by simp⟩
    | cons t ts ih =>
      intro b hl
      obtain ⟨b', g1, g2⟩ := ih (b && decide (sstd < t)) (fun x hx => hl x (by simp [hx]))
      refine ⟨b', by rw [spherClose, if_pos (hl t (by simp)), g1], ?_⟩
      rw [g2]
      simp [and_assoc]
  have hs : active (some sthr) = some sthr := by
    obtain ⟨t, ht⟩ := List.exists_mem_of_ne_nil sthr hne
    unfold active
    rw [Option.bind_some, if_pos (List.any_eq_true.2 ⟨t, ht, by simpa using hp t ht⟩)]
  have hz : ∀ c : List K, active (some c) = none → ∀ p ∈ c.zip std, ¬ 0 < p.1 := by
    intro c hc p hpm h0
    unfold active at hc
    rw [Option.bind_some] at hc
    split at hc
    · cases hc
    · rename_i hn
      exact hn (List.any_eq_true.2 ⟨p.1, (List.of_mem_zip (show (p.1, p.2) ∈ _ from hpm)).1,
        by simpa using h0⟩)
  unfold pointsClose
  rw [hs]
  cases ha : active cthr with
  | none =>
    simp only
    obtain ⟨b', g1, g2⟩ := key sthr true hp
    refine ⟨b', g1, g2.trans ?_⟩
    simp only [true_and]
    refine ⟨fun h => ⟨h, ?_⟩, fun h => h.1⟩
    rintro c rfl p hpm h0
    exact absurd h0 (hz c ha p hpm)
  | some c =>
    simp only
    obtain ⟨b', g1, g2⟩ := key sthr (cartClose c std) hp
    refine ⟨b', g1, g2.trans ?_⟩
    have hc : cthr = some c ∧ ∃ t ∈ c, 0 < t := by
      unfold active at ha
      cases cthr with
      | none => cases ha
      | some t =>
        rw [Option.bind_some] at ha
        split at ha
        · rename_i h
          cases ha
          refine ⟨rfl, ?_⟩
          obtain ⟨x, hx, h0⟩ := List.any_eq_true.1 h
          exact ⟨x, hx, by simpa using h0⟩
        · cases ha
    obtain ⟨b, c1, c2⟩ := C69_cartesian_partial c std sstd hc.2
    have hb : cartClose c std = b := by
      have : active (some c) = some c := by
        rw [hc.1] at ha
        exact ha
      unfold pointsClose at c1
      rw [this] at c1
      exact Except.ok.inj c1
    rw [hb, c2, and_comm]
    refine and_congr Iff.rfl ⟨fun h c' hc' => ?_, fun h => h c hc.1⟩
    rw [hc.1] at hc'
    cases hc'
    exact h

example : ([1, 2] : List Int) ≠ [] ∧ ∀ t ∈ ([1, 2] : List Int), 0 < t := by decide

/-- **C69**, refuted: one threshold for directions that is not positive, "coordinate will be ignored",
makes the run fail. -/
theorem C69_ignored_violated :
    pointsClose none (some [(1 : Rat), -1]) [] 0 = .error .nameError := by
  unfold pointsClose active
  simp [spherClose]

/-- **C69.** Without positive thresholds there is no such condition. -/
theorem C69_none (cthr sthr : Option (List K)) (std : List K) (sstd : K)
    (hc : ∀ c, cthr = some c → ∀ t ∈ c, ¬ 0 < t) (hs : ∀ c, sthr = some c → ∀ t ∈ c, ¬ 0 < t) :
    pointsClose cthr sthr std sstd = .ok false := by
  have key : ∀ o : Option (List K), (∀ c, o = some c → ∀ t ∈ c, ¬ 0 < t) → active o = none := by
    intro o ho
    unfold active
    cases o with
    | none => rfl
    | some c =>
      rw [Option.bind_some, if_neg]
      intro h
      obtain ⟨x, hx, h0⟩ := List.any_eq_true.1 h
      exact ho c rfl x hx (by simpa using h0)
  unfold pointsClose
  rw [key cthr hc, key sthr hs]

end

end Verif.Optim
