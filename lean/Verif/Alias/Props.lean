/-
C125: a configuration is a snapshot. C126: configuring a multi source leaves other objects alone.
-/
import Verif.Alias.Lemmas

namespace Verif.Alias
open Verif.Py

variable {C K : Type}

/-! ## C125: a configuration is isolated from the objects of the program -/

/-- A new configuration shows the settings it was made from. Unknown dependent sub components are a KeyError,
a setting that is both constant and mutable a ValueError. -/
theorem C125_new (m : Mem C) (settings mutab : Dict String Nat) (deps muts subs : List String)
    (hm : mutab.Ok) (h1 : ∀ k a, (k, a) ∈ settings → a < m.length) (h2 : ∀ k a, (k, a) ∈ mutab → a < m.length) :
    (¬ (∀ n, n ∈ deps → n ∈ subs) → (Cfg.init m settings mutab deps muts subs).2 = .error .keyError) ∧
    ((∀ n, n ∈ deps → n ∈ subs) → (∃ k, k ∈ settings.keys ∧ k ∈ mutab.keys) →
      (Cfg.init m settings mutab deps muts subs).2 = .error .valueError) ∧
    ((∀ n, n ∈ deps → n ∈ subs) → (∀ k, k ∈ settings.keys → k ∉ mutab.keys) →
      ∃ s : St C, Cfg.init m settings mutab deps muts subs = (s.mem, .ok s.cfg) ∧
        s.settings = view m settings ∧ s.mutableSettings = view m mutab ∧
        (∀ k, Dict.get? s.config k =
          match Dict.get? (view m mutab) k with
          | some o => some o
          | none => Dict.get? (view m settings) k) ∧
        s.dependent = some (.names deps) ∧ s.mutableSubs = some (.names muts)) := by
  obtain ⟨z1, z2⟩ := init_spec m settings mutab deps muts subs hm h1 h2
  refine ⟨z1, fun hd => (z2 hd).1, fun hd hs => ?_⟩
  obtain ⟨e, c, q1, q2, q3, q4, q5, q6, -⟩ := (z2 hd).2 hs
  exact ⟨⟨m ++ e, c, []⟩, q1, q2, q3, q4, q5, q6⟩

/-- Whatever the program does, the settings never change, and the combined configuration changes only with
`update_mutable_settings`. -/
theorem C125_isolated (s : St C) (hs : Made s) (ops : List (Op C)) (op : Op C) :
    ((s.run ops).step op).1.settings = (s.run ops).settings ∧
    ((∀ new, op ≠ .update new) → ((s.run ops).step op).1.config = (s.run ops).config) := by
  obtain ⟨given, h, -⟩ := run_inv ops (made_spec hs).1
  have hset : ((s.run ops).step op).1.cfg.settings = (s.run ops).cfg.settings := by
    cases op with
    | update new =>
      simp only [St.step]
      split
      · rename_i hall
        exact (update_inv h new (fun k a ha => by
          have := List.all_eq_true.1 hall (k, a) ha
          simpa using this)).2.2.1
      · rfl
    | _ => rw [cfg_step _ _ (by simp)]
  refine ⟨?_, fun hop => ?_⟩
  · unfold St.settings
    rw [hset]
    exact view_step h op _ (fun k a ha => (h.settings k a ha).1)
      (fun k a ha _ _ _ _ => (h.settings k a ha).2.1) (fun k a ha _ _ => (h.settings k a ha).2.2.1)
      (fun k a ha _ _ => (h.settings k a ha).2.2.2)
  · unfold St.config
    rw [cfg_step _ _ hop]
    exact view_step h op _ (fun k a ha => (h.config k a ha).1)
      (fun k a ha _ _ _ _ => (h.config k a ha).2.1) (fun k a ha _ _ => (h.config k a ha).2.2.1)
      (fun k a ha _ _ => (h.config k a ha).2.2.2)

/-- The settings at any later time are those at the start. -/
theorem C125_constant (s : St C) (hs : Made s) (ops : List (Op C)) : (s.run ops).settings = s.settings := by
  have key : ∀ n, (s.run (ops.take n)).settings = s.settings := by
    intro n
    induction n with
    | zero => rfl
    | succ n ih =>
      by_cases hn : n < ops.length
      · rw [List.take_succ_eq_append_getElem hn, run_append]
        exact ((C125_isolated s hs (ops.take n) ops[n]).1).trans ih
      · rw [List.take_of_length_le (by omega)] at ih ⊢
        exact ih
  simpa using key ops.length

/-- `update_mutable_settings` with objects of the program: if all settings are mutable there is no exception,
the given settings have the content of the given objects, the others stay, and the configuration combines both
kinds of settings. Otherwise it is a KeyError and the combined configuration stays. -/
theorem C125_update (s : St C) (hs : Made s) (ops : List (Op C)) (new : Dict String Nat) (hok : new.Ok)
    (hn : ∀ k a, (k, a) ∈ new → a ∈ (s.run ops).known) :
    let t := (s.run ops).step (.update new)
    ((∀ k, k ∈ new.keys → k ∈ (s.run ops).mutableSettings.keys) →
      t.2 = none ∧
      (∀ k, Dict.get? t.1.mutableSettings k =
        match Dict.get? (view (s.run ops).mem new) k with
        | some o => some o
        | none => Dict.get? (s.run ops).mutableSettings k) ∧
      (∀ k, Dict.get? t.1.config k =
        match Dict.get? t.1.mutableSettings k with
        | some o => some o
        | none => Dict.get? t.1.settings k)) ∧
    (¬ (∀ k, k ∈ new.keys → k ∈ (s.run ops).mutableSettings.keys) →
      t.2 = some .keyError ∧ t.1.config = (s.run ops).config) := by
  obtain ⟨given, h, -⟩ := run_inv ops (made_spec hs).1
  generalize s.run ops = q at *
  intro t
  have hall : (new.all fun ka => q.known.contains ka.2) = true := by
    rw [List.all_eq_true]
    rintro ⟨k, a⟩ ha
    simpa using hn k a ha
  have ht : t = ({ q with mem := (q.cfg.update q.mem new).1, cfg := (q.cfg.update q.mem new).2.1 },
      (q.cfg.update q.mem new).2.2) := by
    show St.step _ _ = _
    simp only [St.step, hall, if_true]
  obtain ⟨i, ⟨e, he⟩, u1, -, -, -, u2, u3, u4⟩ := update_inv h new hn
  have hkeys : Dict.keys q.mutableSettings = q.cfg.mutable.keys := keys_view _ _
  obtain ⟨v1, v2, v3, v4, v5, v6⟩ := updateLoop_spec new q.cfg.mutable h.ok
  have hlt : ∀ k a, (k, a) ∈ (updateLoop q.cfg.mutable new).1 → a < q.mem.length := by
    intro k a ha
    rcases v3 k a ha with ha | ha
    · exact (h.mutable k a ha).1
    · exact h.known a (hn k a ha)
  have hmv : t.1.mutableSettings = view q.mem (updateLoop q.cfg.mutable new).1 := by
    rw [ht]
    show view _ _ = _
    rw [u2, he]
    exact view_congr fun k a ha => get_append (hlt k a ha)
  have hsv : t.1.settings = q.settings := by
    rw [ht]
    show view _ _ = view _ _
    simp only
    rw [u1, he]
    exact view_congr fun k a ha => get_append (h.settings k a ha).1
  rw [hkeys]
  refine ⟨fun hk => ?_, fun hk => ?_⟩
  · obtain ⟨w1, w2⟩ := u3 hk
    refine ⟨by rw [ht]; exact w1, fun k => ?_, fun k => ?_⟩
    · rw [hmv, v5 (v4.2 hk), get?_view, Dict.get?_update _ _ hok, get?_view]
      have : Dict.get? q.mutableSettings k = _ := get?_view _ _ _
      rw [this]
      cases Dict.get? new k <;> rfl
    · rw [hmv, hsv, ht]
      exact w2 k
  · obtain ⟨w1, w2, w3⟩ := u4 hk
    refine ⟨by rw [ht]; exact w1, ?_⟩
    rw [ht]
    show view _ _ = view _ _
    simp only
    rw [w2, w3]

/-- If the program does not change objects after it has passed them to `update_mutable_settings` and does not
ask for the lists of names, then the mutable settings change only with `update_mutable_settings`.
Missing for the full property: the mutable settings share the objects passed to `update_mutable_settings`,
see `C125_mutable_violated`. -/
theorem C125_mutable_partial (s : St C) (hs : Made s) (pre post : List (Op C)) (op : Op C)
    (hc : Careful (pre ++ op :: post)) (hl : NoLists (pre ++ op :: post)) (hop : ∀ new, op ≠ .update new) :
    ((s.run pre).step op).1.mutableSettings = (s.run pre).mutableSettings := by
  obtain ⟨hi, k1, k2, -⟩ := made_spec hs
  obtain ⟨given, h, hg⟩ := run_inv pre hi
  have hl' : NoLists pre := ⟨fun hc => hl.1 (by simp [hc]), fun hc => hl.2 (by simp [hc])⟩
  obtain ⟨-, -, -, r1, r2⟩ := run_lists pre hi hl' ⟨k1, k2⟩
  unfold St.mutableSettings
  rw [cfg_step _ _ hop]
  refine view_step h op _ (fun k a ha => (h.mutable k a ha).1) ?_ ?_ ?_
  · intro k a ha b o hw hab hk
    subst hab
    rcases (h.mutable k a ha).2 with h1 | h1
    · exact h1.1 hk
    · rcases hg a h1 with h2 | ⟨new, h2, h3⟩
      · simp at h2
      · obtain ⟨p1, p2, rfl⟩ := List.append_of_mem h2
        obtain ⟨⟨k', a'⟩, h4, rfl⟩ := List.mem_map.1 h3
        exact hc p1 new (p2 ++ op :: post) (by simp) k' a' h4 o (by simp [hw])
  · intro k a ha new _ hd
    rcases (h.mutable k a ha).2 with h1 | h1
    · exact h1.2.1 hd
    · exact r1 (hd ▸ h.given a h1)
  · intro k a ha new _ hd
    rcases (h.mutable k a ha).2 with h1 | h1
    · exact h1.2.2 hd
    · exact r2 (hd ▸ h.given a h1)

/-- If the program does not ask for the lists of names, the lists of dependent and mutable sub components
change only when existing sub components are added, at the end. Unknown names are a KeyError.
Missing for the full property: the lists themselves are handed out, see `C125_lists_violated`. -/
theorem C125_lists_partial (s : St C) (hs : Made s) (ops : List (Op C)) (op : Op C) (hl : NoLists ops) :
    ∃ l l', (s.run ops).dependent = some (.names l) ∧ (s.run ops).mutableSubs = some (.names l') ∧
    ((s.run ops).step op).1.dependent = some (.names (match op with
      | .addDeps new => if ∀ n, n ∈ new → n ∈ s.cfg.subs then l ++ new else l
      | _ => l)) ∧
    ((s.run ops).step op).1.mutableSubs = some (.names (match op with
      | .addMuts new => if ∀ n, n ∈ new → n ∈ s.cfg.subs then l' ++ new else l'
      | _ => l')) ∧
    (∀ new, op = .addDeps new ∨ op = .addMuts new →
      ((s.run ops).step op).2 = if ∀ n, n ∈ new → n ∈ s.cfg.subs then none else some .keyError) := by
  obtain ⟨hi, k1, k2, k3, k4⟩ := made_spec hs
  obtain ⟨given, h, -⟩ := run_inv ops hi
  obtain ⟨-, -, r0, r1, r2⟩ := run_lists ops hi hl ⟨k1, k2⟩
  obtain ⟨⟨l, h1⟩, ⟨l', h2⟩⟩ := run_names ops hi hl ⟨k1, k2⟩ k3 k4
  have := names_step h ⟨r1, r2⟩ h1 h2 op
  rw [r0] at this
  exact ⟨l, l', h1, h2, this⟩

/-- The full property for the mutable settings is false: for every configuration, an object that was passed to
`update_mutable_settings` can be changed afterwards, and this changes the mutable setting, but not the combined
configuration: the two are different then. -/
theorem C125_mutable_violated (s : St C) (hs : Made s) (ops : List (Op C)) (k : String)
    (hk : k ∈ (s.run ops).mutableSettings.keys) (o o' : Obj C) :
    let a := (s.run ops).mem.length
    let t := s.run (ops ++ [.new o, .update [(k, a)], .write a o'])
    Dict.get? t.mutableSettings k = some (some o') ∧ Dict.get? t.config k = some (some o) := by
  intro a t
  obtain ⟨given, h, -⟩ := run_inv (ops ++ [.new o]) (made_spec hs).1
  have hq1 : s.run (ops ++ [.new o]) =
      { s.run ops with mem := (s.run ops).mem ++ [o], known := (s.run ops).known ++ [a] } := by
    rw [run_append]; rfl
  have hkn : ∀ k' a', (k', a') ∈ [(k, a)] → a' ∈ (s.run (ops ++ [.new o])).known := by
    intro k' a' h'
    simp only [List.mem_singleton, Prod.mk.injEq] at h'
    rw [hq1, h'.2]; simp
  have hkm : k ∈ (s.run ops).cfg.mutable.keys := by rw [← keys_view (s.run ops).mem]; exact hk
  have hall : ∀ k', k' ∈ Dict.keys [(k, a)] → k' ∈ (s.run (ops ++ [.new o])).mutableSettings.keys := by
    intro k' h'
    simp only [Dict.keys, List.map_cons, List.map_nil, List.mem_singleton] at h'
    rw [h']
    show k ∈ Dict.keys (view _ _)
    rw [keys_view, hq1]
    exact hkm
  obtain ⟨u, -⟩ := C125_update s hs (ops ++ [.new o]) [(k, a)] (by simp [Dict.Ok, Dict.keys]) hkn
  obtain ⟨-, u2, u3⟩ := u hall
  have hm2 : Dict.get? ((s.run (ops ++ [.new o])).step (.update [(k, a)])).1.mutableSettings k = some (some o) := by
    rw [u2 k, hq1, get?_view]
    simp [Dict.get?_cons, a]
  have ht : t = ((s.run (ops ++ [.new o, .update [(k, a)]])).step (.write a o')).1 := by
    show s.run _ = _
    rw [run_append, run_append]; rfl
  have h2 : s.run (ops ++ [.new o, .update [(k, a)]]) =
      ((s.run (ops ++ [.new o])).step (.update [(k, a)])).1 := by
    rw [run_append, run_append]; rfl
  have hc := (C125_isolated s hs (ops ++ [.new o, .update [(k, a)]]) (.write a o')).2 (by simp)
  rw [← ht, h2] at hc
  refine ⟨?_, by rw [hc, u3 k, hm2]⟩
  have hcfg : t.cfg.mutable = (updateLoop (s.run ops).cfg.mutable [(k, a)]).1 := by
    rw [ht, cfg_step _ _ (by simp), h2]
    have := (update_inv h [(k, a)] hkn).2.2.2.2.2.2.1
    have hcon : ([(k, a)].all fun ka => (s.run (ops ++ [.new o])).known.contains ka.2) = true := by
      rw [hq1]; simp
    simp only [St.step, hcon, if_true]
    rw [this, hq1]
  have hget : Dict.get? t.cfg.mutable k = some a := by
    rw [hcfg]
    have : (s.run ops).cfg.mutable.has k = true := (Dict.has_iff _ _).2 hkm
    simp only [updateLoop, this, if_true]
    rw [Dict.get?_set]; simp
  show Dict.get? (view _ _) k = _
  rw [get?_view, hget]
  have hlt : a < (s.run (ops ++ [.new o, .update [(k, a)]])).mem.length := by
    rw [h2]
    obtain ⟨e, he⟩ := (update_inv h [(k, a)] hkn).2.1
    have hcon : ([(k, a)].all fun ka => (s.run (ops ++ [.new o])).known.contains ka.2) = true := by
      rw [hq1]; simp
    simp only [St.step, hcon, if_true]
    rw [he, hq1]
    simp only [List.length_append, List.length_singleton]
    show (s.run ops).mem.length < _
    omega
  have hknown : (s.run (ops ++ [.new o, .update [(k, a)]])).known.contains a = true := by
    rw [h2]
    have hcon : ([(k, a)].all fun ka => (s.run (ops ++ [.new o])).known.contains ka.2) = true := by
      rw [hq1]; simp
    simp only [St.step, hcon, if_true]
    rw [hq1]; simp
  rw [ht]
  simp only [St.step, hknown, if_true, Option.map_some]
  simp [hlt]

/-- The full property for the lists is false: for every configuration, the program can replace the content of
the list of dependent sub components, by names that do not exist. -/
theorem C125_lists_violated (s : St C) (ops : List (Op C)) (hs : Made s) (l : List String) :
    (s.run (ops ++ [.getDeps, .write (s.run ops).cfg.deps (.names l)])).dependent = some (.names l) := by
  obtain ⟨given, h, -⟩ := run_inv ops (made_spec hs).1
  rw [run_append]
  simp only [St.run, St.step, St.dependent]
  simp [h.lists.1]

namespace Ex

/-- A configuration with the constant setting `a` and the mutable setting `b`, and two sub components. -/
def mem0 : Mem Nat := [.val 1, .val 2]

def st : St Nat :=
  match Cfg.init mem0 [("a", 0)] [("b", 1)] ["x"] [] ["x", "y"] with
  | (m, .ok c) => ⟨m, c, [0, 1]⟩
  | (m, .error _) => ⟨m, ⟨[], [], [], 0, 0, []⟩, []⟩

theorem made : Made st :=
  ⟨mem0, [("a", 0)], [("b", 1)], ["x"], [], ["x", "y"], rfl, rfl, by decide, by decide,
    by simp [mem0], by simp [mem0]⟩

/-- A program that changes its own objects, the copies that it gets, and updates `b`. -/
def prog : List (Op Nat) :=
  [.write 0 (.val 7), .getConfig, .getMutable, .write 8 (.val 9), .write 9 (.val 10), .new (.val 3),
    .update [("b", 11)], .addDeps ["y"]]

end Ex

example : Ex.st.settings = [("a", some (.val 1))] ∧ (Ex.st.run Ex.prog).settings = [("a", some (.val 1))] ∧
    (Ex.st.run Ex.prog).mem[0]? = some (.val 7) ∧
    (Ex.st.run Ex.prog).config = [("a", some (.val 1)), ("b", some (.val 3))] := by decide +kernel

example : (Ex.st.run Ex.prog).settings = Ex.st.settings := C125_constant _ Ex.made _

/-- The program is careful and does not ask for the lists. -/
example : NoLists Ex.prog ∧ Careful Ex.prog := by
  refine ⟨by simp [NoLists, Ex.prog], ?_⟩
  intro pre new post h k a hk o hw
  have hlen := congrArg List.length h
  match pre, h with
  | [_, _, _, _, _, _], h =>
    simp only [Ex.prog, List.cons_append, List.nil_append, List.cons.injEq, Op.update.injEq] at h
    obtain ⟨-, -, -, -, -, -, rfl, rfl⟩ := h
    simp at hw
  | [], h => simp [Ex.prog] at h
  | [_], h => simp [Ex.prog] at h
  | [_, _], h => simp [Ex.prog] at h
  | [_, _, _], h => simp [Ex.prog] at h
  | [_, _, _, _], h => simp [Ex.prog] at h
  | [_, _, _, _, _], h => simp [Ex.prog] at h
  | [_, _, _, _, _, _, _], h => simp [Ex.prog] at h
  | _ :: _ :: _ :: _ :: _ :: _ :: _ :: _ :: _, h => simp [Ex.prog] at h

/-- The object 11 is now shared: a change of it shows in the mutable settings only. -/
example : (Ex.st.run (Ex.prog ++ [.write 11 (.val 4)])).mutableSettings = [("b", some (.val 4))] ∧
    (Ex.st.run (Ex.prog ++ [.write 11 (.val 4)])).config = [("a", some (.val 1)), ("b", some (.val 3))] := by
  decide +kernel

example : (Ex.st.run (Ex.prog ++ [.getDeps, .write 4 (.names ["no_such"])])).dependent =
    some (.names ["no_such"]) := by decide +kernel

/-! ## C126: a multi source takes over the dictionary of sources -/

/-- If each dictionary of sources is passed to one multi source only and is not changed after that, every
multi source has the sub components that it was configured with at all times.
Missing for the full property: the dictionary of the caller is changed and shared, see the next theorems. -/
theorem C126_own_partial (acts : List (Act K)) (h : OwnDicts acts) :
    ∀ m, m ∈ ((⟨[], []⟩ : World K).run acts).multis →
      m.Right (((⟨[], []⟩ : World K).run acts).subComponents m) := by
  suffices key : ∀ (acts : List (Act K)) (w : World K), OwnDicts acts →
      (∀ m, m ∈ w.multis → m.subs < w.dicts.length ∧ m.Right (w.subComponents m) ∧
        ∀ x, x ∈ acts → ¬ Touches x m.subs) →
      ∀ m, m ∈ (w.run acts).multis → m.Right ((w.run acts).subComponents m) from
    key acts ⟨[], []⟩ h (by simp)
  intro acts
  induction acts with
  | nil => intro w _ hw m hm; exact (hw m hm).2.1
  | cons x acts ih =>
    intro w ho hw
    refine ih (w.step x) (fun pre a t post he => ho (x :: pre) a t post (by rw [he]; rfl)) ?_
    have hset : ∀ (a : Nat) (d : Dict String K) (m : Multi K), m ∈ w.multis → a ≠ m.subs →
        m.subs < (w.dicts.set a d).length ∧ m.Right (((w.dicts.set a d)[m.subs]?).getD []) ∧
        ∀ y, y ∈ acts → ¬ Touches y m.subs := by
      intro a d m hm hne
      obtain ⟨h1, h2, h3⟩ := hw m hm
      refine ⟨by simpa using h1, ?_, fun y hy => h3 y (by simp [hy])⟩
      rw [List.getElem?_set_ne hne]
      exact h2
    cases x with
    | new d =>
      intro m hm
      obtain ⟨h1, h2, h3⟩ := hw m hm
      refine ⟨by simp only [World.step, List.length_append]; omega, ?_, fun y hy => h3 y (by simp [hy])⟩
      simp only [World.subComponents, World.step] at h2 ⊢
      rw [List.getElem?_append_left h1]
      exact h2
    | set a k v =>
      simp only [World.step]
      split
      · intro m hm
        exact hset a _ m hm ((hw m hm).2.2 (.set a k v) (by simp))
      · exact fun m hm => ⟨(hw m hm).1, (hw m hm).2.1, fun y hy => (hw m hm).2.2 y (by simp [hy])⟩
    | del a k =>
      simp only [World.step]
      split
      · intro m hm
        exact hset a _ m hm ((hw m hm).2.2 (.del a k) (by simp))
      · exact fun m hm => ⟨(hw m hm).1, (hw m hm).2.1, fun y hy => (hw m hm).2.2 y (by simp [hy])⟩
    | configure a t =>
      simp only [World.step]
      split
      · rename_i d hd
        have ha : a < w.dicts.length := by
          refine Classical.byContradiction fun hc => ?_
          rw [List.getElem?_eq_none (by omega)] at hd
          cases hd
        intro m hm
        rcases List.mem_append.1 hm with hm | hm
        · exact hset a _ m hm ((hw m hm).2.2 (.configure a t) (by simp))
        · simp only [List.mem_singleton] at hm
          subst hm
          refine ⟨by simpa using ha, ?_, fun y hy => ho [] a t acts rfl y hy⟩
          simp only [World.subComponents, List.getElem?_set_self ha, Option.getD_some, Multi.Right]
          cases t with
          | none => rfl
          | some t =>
            refine ⟨by simp [Dict.get?_set], fun k hk => ?_⟩
            rw [Dict.get?_set, if_neg (Ne.symm hk)]
      · exact fun m hm => ⟨(hw m hm).1, (hw m hm).2.1, fun y hy => (hw m hm).2.2 y (by simp [hy])⟩

/-- Configuring changes no other dictionary, and none at all without a data transformation. -/
theorem C126_others_partial (w : World K) (a : Nat) (t : Option K) (b : Nat) (h : b ≠ a ∨ t = none) :
    (w.step (.configure a t)).dicts[b]? = w.dicts[b]? := by
  simp only [World.step]
  cases hd : w.dicts[a]? with
  | none => rfl
  | some d =>
    rcases h with h | rfl
    · simp only
      rw [List.getElem?_set_ne (Ne.symm h)]
    · simp only
      by_cases hab : a = b
      · subst hab
        have ha : a < w.dicts.length := by
          refine Classical.byContradiction fun hc => ?_
          rw [List.getElem?_eq_none (by omega)] at hd
          cases hd
        rw [List.getElem?_set_self ha, hd]
      · rw [List.getElem?_set_ne hab]

/-- The full property is false: with a data transformation, configuring always adds the entry `data_trafo` to
the dictionary of the caller. -/
theorem C126_argument_violated (w : World K) (a : Nat) (d : Dict String K) (t : K) (hd : w.dicts[a]? = some d)
    (hk : "data_trafo" ∉ d.keys) :
    ∃ d', (w.step (.configure a (some t))).dicts[a]? = some d' ∧ d'.keys = d.keys ++ ["data_trafo"] ∧
      Dict.get? d' "data_trafo" = some t := by
  have ha : a < w.dicts.length := by
    refine Classical.byContradiction fun hc => ?_
    rw [List.getElem?_eq_none (by omega)] at hd
    cases hd
  refine ⟨d.set "data_trafo" t, ?_, by rw [Dict.keys_set, if_neg hk], by simp [Dict.get?_set]⟩
  simp only [World.step, hd]
  rw [List.getElem?_set_self ha]

/-- The full property is false: a second multi source from the same dictionary replaces the data transformation
of the first one by its own. -/
theorem C126_shared_violated (w : World K) (a : Nat) (d : Dict String K) (t t' : K) (hd : w.dicts[a]? = some d)
    (hne : t ≠ t') :
    let w' := w.run [.configure a (some t), .configure a (some t')]
    ∃ m, m ∈ w'.multis ∧ m.trafo = some t ∧ ¬ m.Right (w'.subComponents m) ∧
      Dict.get? (w'.subComponents m) "data_trafo" = some t' := by
  have ha : a < w.dicts.length := by
    refine Classical.byContradiction fun hc => ?_
    rw [List.getElem?_eq_none (by omega)] at hd
    cases hd
  have hget : Dict.get? ((w.run [.configure a (some t), .configure a (some t')]).subComponents
      ⟨a, d, some t⟩) "data_trafo" = some t' := by
    simp only [World.run, World.step, World.subComponents, hd, List.getElem?_set_self ha]
    rw [List.getElem?_set_self (by simpa using ha)]
    simp [Dict.get?_set]
  refine ⟨⟨a, d, some t⟩, ?_, rfl, fun hc => ?_, hget⟩
  · simp only [World.run, World.step, hd, List.getElem?_set_self ha]
    simp
  · have := hc.1
    rw [hget] at this
    exact hne (Option.some.inj this).symm

namespace Ex

/-- Two dictionaries, each for its own multi source. -/
def acts : List (Act Nat) :=
  [.new [("cascade", 1)], .set 0 "track" 2, .new [("cascade", 3)], .configure 0 (some 8), .configure 1 none]

end Ex

example : OwnDicts Ex.acts := by
  intro pre a t post h
  match pre, h with
  | [_, _, _], h =>
    simp only [Ex.acts, List.cons_append, List.nil_append, List.cons.injEq, Act.configure.injEq] at h
    obtain ⟨-, -, -, ⟨rfl, rfl⟩, rfl⟩ := h
    simp [Touches]
  | [_, _, _, _], h =>
    simp only [Ex.acts, List.cons_append, List.nil_append, List.cons.injEq, Act.configure.injEq] at h
    obtain ⟨-, -, -, -, ⟨rfl, rfl⟩, rfl⟩ := h
    simp
  | [], h => simp [Ex.acts] at h
  | [_], h => simp [Ex.acts] at h
  | [_, _], h => simp [Ex.acts] at h
  | _ :: _ :: _ :: _ :: _ :: _, h => simp [Ex.acts] at h

example : ((⟨[], []⟩ : World Nat).run Ex.acts).dicts =
    [[("cascade", 1), ("track", 2), ("data_trafo", 8)], [("cascade", 3)]] := by decide +kernel

end Verif.Alias
