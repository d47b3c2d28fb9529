import Verif.Alias.Spec

namespace Verif.Alias
open Verif.Py

variable {C K : Type}

theorem view_congr {m m' : Mem C} {d : Dict String Nat} (h : ∀ k a, (k, a) ∈ d → m'[a]? = m[a]?) :
    view m' d = view m d := by
  unfold view
  apply List.map_congr_left
  rintro ⟨k, a⟩ hka
  simp only [h k a hka]

theorem get?_view (m : Mem C) (d : Dict String Nat) (k : String) :
    Dict.get? (view m d) k = (Dict.get? d k).map (fun a => m[a]?) := by
  induction d with
  | nil => rfl
  | cons ka d ih =>
    obtain ⟨k', a⟩ := ka
    show Dict.get? ((k', m[a]?) :: view m d) k = _
    rw [Dict.get?_cons, Dict.get?_cons]
    split
    · rfl
    · exact ih

theorem keys_view (m : Mem C) (d : Dict String Nat) : Dict.keys (view m d) = Dict.keys d := by
  simp [view, Dict.keys, Function.comp_def]

theorem get_append {m e : Mem C} {a : Nat} (h : a < m.length) : (m ++ e)[a]? = m[a]? :=
  List.getElem?_append_left h

/-- What `copyDict` does. -/
theorem copyDict_spec (d : Dict String Nat) : ∀ (m : Mem C), (∀ k a, (k, a) ∈ d → a < m.length) →
    ∃ e, (copyDict m d).1 = m ++ e ∧
      (∀ k a, (k, a) ∈ (copyDict m d).2 → m.length ≤ a ∧ a < (copyDict m d).1.length) ∧
      view (copyDict m d).1 (copyDict m d).2 = view m d ∧ Dict.keys (copyDict m d).2 = Dict.keys d := by
  induction d with
  | nil => intro m _; exact ⟨[], by simp [copyDict], by simp [copyDict], rfl, rfl⟩
  | cons ka d ih =>
    intro m h
    obtain ⟨k, a⟩ := ka
    have ha : a < m.length := h k a (by simp)
    have hm : m[a]? = some m[a] := List.getElem?_eq_getElem ha
    have hstep : copyDict m ((k, a) :: d) =
        ((copyDict (m ++ [m[a]]) d).1, (k, m.length) :: (copyDict (m ++ [m[a]]) d).2) := by
      rw [copyDict]; simp only [hm]
    obtain ⟨e, e1, e2, e3, e4⟩ := ih (m ++ [m[a]]) (fun k' a' h' => by
      have := h k' a' (by simp [h']); simp only [List.length_append, List.length_singleton]; omega)
    rw [hstep]
    refine ⟨m[a] :: e, by rw [e1]; simp, ?_, ?_, ?_⟩
    · intro k' a' h'
      simp only [List.mem_cons, Prod.mk.injEq] at h'
      rcases h' with ⟨-, rfl⟩ | h'
      · refine ⟨Nat.le_refl _, ?_⟩
        rw [e1]; simp
      · have := e2 k' a' h'
        simp only [List.length_append, List.length_singleton] at this
        exact ⟨by omega, this.2⟩
    · show (k, (copyDict (m ++ [m[a]]) d).1[m.length]?) :: view _ _ = (k, m[a]?) :: view m d
      rw [e3, e1, hm]
      congr 1
      · simp
      · exact view_congr fun k' a' h' => get_append (h k' a' (by simp [h']))
    · rw [Dict.keys_cons, Dict.keys_cons, e4]

theorem mem_view_keys {d : Dict String Nat} {k : String} : k ∈ d.keys ↔ ∃ a, (k, a) ∈ d := by
  simp [Dict.keys]

/-- What `combine` does for dictionaries of existing objects. -/
theorem combine_spec (m : Mem C) (settings mutab : Dict String Nat) (hm : mutab.Ok)
    (h1 : ∀ k a, (k, a) ∈ settings → a < m.length) (h2 : ∀ k a, (k, a) ∈ mutab → a < m.length)
    (hd : ∀ k, k ∈ settings.keys → k ∉ mutab.keys) :
    ∃ e config, combine m settings mutab = (m ++ e, .ok config) ∧
      (∀ k a, (k, a) ∈ config → m.length ≤ a ∧ a < (m ++ e).length) ∧
      ∀ k, Dict.get? (view (m ++ e) config) k =
        match Dict.get? (view m mutab) k with
        | some o => some o
        | none => Dict.get? (view m settings) k := by
  have hany : (settings.keys.any fun k => mutab.has k) = false := by
    rw [List.any_eq_false]
    intro k hk
    rw [Dict.has_iff]
    exact hd k hk
  obtain ⟨e1, a1, a2, a3, a4⟩ := copyDict_spec settings m h1
  have h2' : ∀ k a, (k, a) ∈ mutab → a < (copyDict m settings).1.length := by
    intro k a h; have := h2 k a h; rw [a1, List.length_append]; omega
  obtain ⟨e2, b1, b2, b3, b4⟩ := copyDict_spec mutab (copyDict m settings).1 h2'
  have hok : Dict.Ok (copyDict (copyDict m settings).1 mutab).2 := by
    unfold Dict.Ok; rw [b4]; exact hm
  have hmem : (copyDict (copyDict m settings).1 mutab).1 = m ++ (e1 ++ e2) := by rw [b1, a1, List.append_assoc]
  have hv1 : view (m ++ (e1 ++ e2)) (copyDict m settings).2 = view m settings := by
    rw [← a3]
    apply view_congr
    intro k a h
    rw [← hmem, b1]
    exact get_append (a2 k a h).2
  have hv2 : view (m ++ (e1 ++ e2)) (copyDict (copyDict m settings).1 mutab).2 = view m mutab := by
    rw [← hmem, b3]
    apply view_congr
    intro k a h
    rw [a1]; exact get_append (h2 k a h)
  refine ⟨e1 ++ e2, Dict.update (copyDict m settings).2 (copyDict (copyDict m settings).1 mutab).2, ?_, ?_, ?_⟩
  · unfold combine
    rw [hany, ← hmem]
    rfl
  · intro k a h
    have hlen : (m ++ (e1 ++ e2)).length = (copyDict (copyDict m settings).1 mutab).1.length := by rw [hmem]
    have hle : (copyDict m settings).1.length ≤ (copyDict (copyDict m settings).1 mutab).1.length := by
      rw [b1, List.length_append]; omega
    have hm1 : m.length ≤ (copyDict m settings).1.length := by rw [a1, List.length_append]; omega
    have : (k, a) ∈ (copyDict m settings).2 ∨ (k, a) ∈ (copyDict (copyDict m settings).1 mutab).2 := by
      clear hv1 hv2 b1 b2 b3 b4 a1 a2 a3 a4 hlen hle hm1 hmem h2' hok
      generalize (copyDict (copyDict m settings).1 mutab).2 = q at h ⊢
      generalize (copyDict m settings).2 = p at h ⊢
      unfold Dict.update at h
      induction q generalizing p with
      | nil => exact Or.inl h
      | cons kv q ih =>
        rcases ih _ h with h | h
        · have : ∀ p : Dict String Nat, (k, a) ∈ p.set kv.1 kv.2 → (k, a) ∈ p ∨ (k, a) = kv := by
            intro p
            induction p with
            | nil => intro h; simp [Dict.set] at h; exact Or.inr (by rw [h.1, h.2])
            | cons x p ih =>
              intro h
              unfold Dict.set at h
              split at h
              · rename_i heq
                rcases List.mem_cons.1 h with h | h
                · right; rw [h]; simp [heq]
                · left; simp [h]
              · rcases List.mem_cons.1 h with h | h
                · left; simp [h]
                · rcases ih h with h | h
                  · left; simp [h]
                  · right; exact h
          rcases this p h with h | h
          · exact Or.inl h
          · right; simp [h]
        · right; simp [h]
    rw [hlen]
    rcases this with h | h
    · have := a2 k a h; omega
    · have := b2 k a h; omega
  · intro k
    rw [get?_view, Dict.get?_update _ _ hok, ← hv1, ← hv2, get?_view, get?_view]
    cases Dict.get? (copyDict (copyDict m settings).1 mutab).2 k <;> rfl

/-- What separates the objects of the configuration from those of the program. `given` are the objects that
were passed to `update_mutable_settings`. -/
structure Inv (s : St C) (given : List Nat) : Prop where
  known : ∀ a, a ∈ s.known → a < s.mem.length
  settings : ∀ k a, (k, a) ∈ s.cfg.settings → a < s.mem.length ∧ a ∉ s.known ∧ a ≠ s.cfg.deps ∧ a ≠ s.cfg.muts
  config : ∀ k a, (k, a) ∈ s.cfg.config → a < s.mem.length ∧ a ∉ s.known ∧ a ≠ s.cfg.deps ∧ a ≠ s.cfg.muts
  mutable : ∀ k a, (k, a) ∈ s.cfg.mutable → a < s.mem.length ∧
    ((a ∉ s.known ∧ a ≠ s.cfg.deps ∧ a ≠ s.cfg.muts) ∨ a ∈ given)
  given : ∀ a, a ∈ given → a ∈ s.known
  lists : s.cfg.deps < s.mem.length ∧ s.cfg.muts < s.mem.length ∧ s.cfg.deps ≠ s.cfg.muts
  ok : s.cfg.mutable.Ok
  disjoint : ∀ k, k ∈ s.cfg.settings.keys → k ∉ s.cfg.mutable.keys

/-- The objects that a step hands to the configuration. -/
def handed : Op C → List Nat
  | .update new => new.map Prod.snd
  | _ => []

theorem updateLoop_spec (new : Dict String Nat) : ∀ mutab : Dict String Nat, mutab.Ok →
    (updateLoop mutab new).1.Ok ∧ Dict.keys (updateLoop mutab new).1 = Dict.keys mutab ∧
    (∀ k a, (k, a) ∈ (updateLoop mutab new).1 → (k, a) ∈ mutab ∨ (k, a) ∈ new) ∧
    ((updateLoop mutab new).2 = none ↔ ∀ k, k ∈ new.keys → k ∈ mutab.keys) ∧
    ((updateLoop mutab new).2 = none → (updateLoop mutab new).1 = Dict.update mutab new) ∧
    ((updateLoop mutab new).2 ≠ none → (updateLoop mutab new).2 = some .keyError) := by
  induction new with
  | nil => intro mutab h; simp [updateLoop, Dict.update, h]
  | cons ka new ih =>
    intro mutab hok
    obtain ⟨k, a⟩ := ka
    unfold updateLoop
    by_cases hk : mutab.has k = true
    · rw [if_pos hk]
      have hk' := (Dict.has_iff _ _).1 hk
      obtain ⟨h1, h2, h3, h4, h5, h6⟩ := ih (mutab.set k a) (Dict.ok_set hok k a)
      have hkeys : (mutab.set k a).keys = mutab.keys := by rw [Dict.keys_set, if_pos hk']
      refine ⟨h1, h2.trans hkeys, ?_, ?_, h5, h6⟩
      · intro k' a' h'
        rcases h3 k' a' h' with h | h
        · have := Dict.get?_of_mem (Dict.ok_set hok k a) h
          rw [Dict.get?_set] at this
          split at this
          · rename_i e; cases this; right; simp [e]
          · left; exact Dict.mem_of_get? this
        · right; simp [h]
      · rw [h4, hkeys]
        simp only [Dict.keys_cons, List.mem_cons]
        constructor
        · rintro h k' (rfl | h')
          · exact hk'
          · exact h k' h'
        · exact fun h k' h' => h k' (Or.inr h')
    · rw [if_neg hk]
      refine ⟨hok, rfl, fun k' a' h => Or.inl h, ?_, by simp, by simp⟩
      simp only [reduceCtorEq, false_iff]
      intro h
      exact hk ((Dict.has_iff _ _).2 (h k (by simp)))

/-- Everything about a new configuration. -/
theorem init_spec (m : Mem C) (settings mutab : Dict String Nat) (deps muts subs : List String) (o2 : mutab.Ok)
    (v1 : ∀ k a, (k, a) ∈ settings → a < m.length) (v2 : ∀ k a, (k, a) ∈ mutab → a < m.length) :
    (¬ (∀ n, n ∈ deps → n ∈ subs) → (Cfg.init m settings mutab deps muts subs).2 = .error .keyError) ∧
    ((∀ n, n ∈ deps → n ∈ subs) →
      ((∃ k, k ∈ settings.keys ∧ k ∈ mutab.keys) →
        (Cfg.init m settings mutab deps muts subs).2 = .error .valueError) ∧
      ((∀ k, k ∈ settings.keys → k ∉ mutab.keys) →
        ∃ e c, Cfg.init m settings mutab deps muts subs = (m ++ e, .ok c) ∧
          view (m ++ e) c.settings = view m settings ∧ view (m ++ e) c.mutable = view m mutab ∧
          (∀ k, Dict.get? (view (m ++ e) c.config) k =
            match Dict.get? (view m mutab) k with
            | some o => some o
            | none => Dict.get? (view m settings) k) ∧
          (m ++ e)[c.deps]? = some (.names deps) ∧ (m ++ e)[c.muts]? = some (.names muts) ∧ c.subs = subs ∧
          m.length ≤ c.deps ∧ m.length ≤ c.muts ∧
          Inv ⟨m ++ e, c, List.range m.length⟩ [])) := by
  obtain ⟨e1, a1, a2, a3, a4⟩ := copyDict_spec settings m v1
  have v2' : ∀ k a, (k, a) ∈ mutab → a < (copyDict m settings).1.length := by
    intro k a h; have := v2 k a h; rw [a1, List.length_append]; omega
  obtain ⟨e2, b1, b2, b3, b4⟩ := copyDict_spec mutab (copyDict m settings).1 v2'
  unfold Cfg.init
  generalize hr : copyDict m settings = r at *
  generalize hs : copyDict r.1 mutab = q at *
  have l1 : m.length ≤ r.1.length := by rw [a1, List.length_append]; omega
  have l2 : r.1.length ≤ q.1.length := by rw [b1, List.length_append]; omega
  have hok : q.2.Ok := by unfold Dict.Ok; rw [b4]; exact o2
  have hlen : (q.1 ++ [Obj.names deps, Obj.names muts]).length = q.1.length + 2 := by simp
  refine ⟨fun hdeps => ?_, fun hdeps => ?_⟩
  · rw [if_pos]
    simpa using hdeps
  have hif : ¬ (deps.any fun n => !subs.contains n) = true := by simpa using hdeps
  rw [if_neg hif]
  refine ⟨fun ⟨k, k1, k2⟩ => ?_, fun hdis => ?_⟩
  · have hany : (r.2.keys.any fun k => q.2.has k) = true :=
      List.any_eq_true.2 ⟨k, by rw [a4]; exact k1, (Dict.has_iff _ _).2 (by rw [b4]; exact k2)⟩
    simp only [hs]
    unfold combine
    rw [if_pos hany]
  have hdis' : ∀ k, k ∈ r.2.keys → k ∉ q.2.keys := by rw [a4, b4]; exact hdis
  obtain ⟨e, config, c1, c2, c3⟩ := combine_spec (q.1 ++ [Obj.names deps, Obj.names muts]) r.2 q.2 hok
    (fun k a h => by have := a2 k a h; rw [hlen]; omega)
    (fun k a h => by have := b2 k a h; rw [hlen]; omega) hdis'
  have hq : q.1 = m ++ (e1 ++ e2) := by rw [b1, a1, List.append_assoc]
  have hmem : q.1 ++ [Obj.names deps, Obj.names muts] ++ e =
      m ++ (e1 ++ e2 ++ [Obj.names deps, Obj.names muts] ++ e) := by rw [hq]; simp only [List.append_assoc]
  have hlow : ∀ a, a < q.1.length → (q.1 ++ [Obj.names deps, Obj.names muts] ++ e)[a]? = q.1[a]? := by
    intro a ha
    rw [List.append_assoc]; exact get_append ha
  have w1 : view q.1 r.2 = view m settings := by
    rw [← a3, b1]
    exact view_congr fun k a h => get_append (a2 k a h).2
  have w2 : view q.1 q.2 = view m mutab := by
    rw [b3, a1]
    exact view_congr fun k a h => get_append (v2 k a h)
  have x1 : view (q.1 ++ [Obj.names deps, Obj.names muts] ++ e) r.2 = view m settings := by
    rw [← w1]
    exact view_congr fun k a h => hlow a (by have := a2 k a h; omega)
  have x2 : view (q.1 ++ [Obj.names deps, Obj.names muts] ++ e) q.2 = view m mutab := by
    rw [← w2]
    exact view_congr fun k a h => hlow a (b2 k a h).2
  have y1 : view (q.1 ++ [Obj.names deps, Obj.names muts]) r.2 = view m settings := by
    rw [← w1]
    exact view_congr fun k a h => get_append (by have := a2 k a h; omega)
  have y2 : view (q.1 ++ [Obj.names deps, Obj.names muts]) q.2 = view m mutab := by
    rw [← w2]
    exact view_congr fun k a h => get_append (b2 k a h).2
  rw [y1, y2] at c3
  simp only [hs]
  rw [c1]
  have hl : (q.1 ++ [Obj.names deps, Obj.names muts] ++ e).length = q.1.length + 2 + e.length := by
    rw [List.length_append, hlen]
  refine ⟨e1 ++ e2 ++ [Obj.names deps, Obj.names muts] ++ e,
    { settings := r.2, mutable := q.2, config := config, deps := q.1.length, muts := q.1.length + 1
      subs := subs }, by rw [← hmem], ?_⟩
  rw [← hmem]
  refine ⟨x1, x2, c3, ?_, ?_, rfl, by simp only; omega, by simp only; omega, ?_⟩
  · simp
  · simp [List.append_assoc]
  have hnk : ∀ a, m.length ≤ a → a ∉ List.range m.length := by
    intro a ha hc
    rw [List.mem_range] at hc
    omega
  refine ⟨?_, ?_, ?_, ?_, by simp, ?_, hok, hdis'⟩
  · intro a ha; simp only [List.mem_range] at ha; simp only [hl]; omega
  · intro k a h
    have := a2 k a h
    exact ⟨by simp only [hl]; omega, hnk a this.1, by simp only; omega, by simp only; omega⟩
  · intro k a h
    have h1 := c2 k a h
    rw [hlen] at h1
    exact ⟨h1.2, hnk a (by omega), by simp only; omega, by simp only; omega⟩
  · intro k a h
    have := b2 k a h
    exact ⟨by simp only [hl]; omega, Or.inl ⟨hnk a (by omega), by simp only; omega, by simp only; omega⟩⟩
  · simp only [hl]; omega

theorem made_spec {s : St C} (h : Made s) : Inv s [] ∧ s.cfg.deps ∉ s.known ∧ s.cfg.muts ∉ s.known ∧
    (∃ l, s.dependent = some (.names l)) ∧ ∃ l, s.mutableSubs = some (.names l) := by
  obtain ⟨m, settings, mutab, deps, muts, subs, hi, hk, -, o2, v1, v2⟩ := h
  obtain ⟨z1, z2⟩ := init_spec m settings mutab deps muts subs o2 v1 v2
  rw [hi] at z1 z2
  by_cases hdeps : ∀ n, n ∈ deps → n ∈ subs
  · obtain ⟨z3, z4⟩ := z2 hdeps
    by_cases hdis : ∀ k, k ∈ settings.keys → k ∉ mutab.keys
    · obtain ⟨e, c, q1, -, -, -, q2, q3, -, q4, q5, q6⟩ := z4 hdis
      obtain ⟨mem, cfg, known⟩ := s
      simp only [Prod.mk.injEq, Except.ok.injEq] at q1 hk
      obtain ⟨rfl, rfl⟩ := q1
      subst hk
      exact ⟨q6, by simp only [List.mem_range]; omega, by simp only [List.mem_range]; omega, ⟨_, q2⟩, ⟨_, q3⟩⟩
    · have : ∃ k, k ∈ settings.keys ∧ k ∈ mutab.keys := by
        refine Classical.byContradiction fun hc => hdis fun k h1 h2 => hc ⟨k, h1, h2⟩
      exact absurd (z3 this) (by simp)
  · exact absurd (z1 hdeps) (by simp)

theorem give_inv {s : St C} {given : List Nat} (h : Inv s given) (d : Dict String Nat)
    (hd : ∀ k a, (k, a) ∈ d → a < s.mem.length) :
    Inv (s.give d) given ∧ ∃ e, (s.give d).mem = s.mem ++ e := by
  obtain ⟨e, a1, a2, -, -⟩ := copyDict_spec d s.mem hd
  have hl : (s.give d).mem.length = s.mem.length + e.length := by
    show (copyDict s.mem d).1.length = _
    rw [a1, List.length_append]
  have hk : ∀ a, a ∈ (s.give d).known ↔ a ∈ s.known ∨ ∃ k, (k, a) ∈ (copyDict s.mem d).2 := by
    intro a
    show a ∈ s.known ++ _ ↔ _
    simp
  have hout : ∀ a, a < s.mem.length → a ∉ s.known → a ∉ (s.give d).known := by
    intro a h1 h2 h3
    rcases (hk a).1 h3 with h3 | ⟨k, h3⟩
    · exact h2 h3
    · have := a2 k a h3; omega
  refine ⟨⟨?_, ?_, ?_, ?_, ?_, ?_, h.ok, h.disjoint⟩, e, a1⟩
  · intro a ha
    rcases (hk a).1 ha with ha | ⟨k, ha⟩
    · have := h.known a ha; omega
    · exact (a2 k a ha).2
  · intro k a ha
    obtain ⟨x1, x2, x3⟩ := h.settings k a ha
    exact ⟨by omega, hout a x1 x2, x3⟩
  · intro k a ha
    obtain ⟨x1, x2, x3⟩ := h.config k a ha
    exact ⟨by omega, hout a x1 x2, x3⟩
  · intro k a ha
    obtain ⟨x1, x2⟩ := h.mutable k a ha
    exact ⟨by omega, x2.imp (fun y => ⟨hout a x1 y.1, y.2⟩) (fun y => y)⟩
  · intro a ha; exact (hk a).2 (Or.inl (h.given a ha))
  · obtain ⟨x1, x2, x3⟩ := h.lists
    exact ⟨by show s.cfg.deps < _; omega, by show s.cfg.muts < _; omega, x3⟩

theorem addNames_length (m : Mem C) (c : Cfg) (a : Nat) (new : List String) :
    (addNames m c a new).1.length = m.length ∧ ∀ b, b ≠ a → (addNames m c a new).1[b]? = m[b]? := by
  unfold addNames
  split
  · exact ⟨rfl, fun _ _ => rfl⟩
  · split
    · exact ⟨by simp, fun b hb => by rw [List.getElem?_set_ne (Ne.symm hb)]⟩
    · exact ⟨rfl, fun _ _ => rfl⟩

theorem same_mem_length {s : St C} {given : List Nat} (h : Inv s given) (m : Mem C)
    (hm : m.length = s.mem.length) : Inv { s with mem := m } given := by
  refine ⟨?_, ?_, ?_, ?_, h.given, ?_, h.ok, h.disjoint⟩ <;> simp only [hm]
  · exact h.known
  · exact h.settings
  · exact h.config
  · exact h.mutable
  · exact h.lists

theorem update_inv {s : St C} {given : List Nat} (h : Inv s given) (new : Dict String Nat)
    (hn : ∀ k a, (k, a) ∈ new → a ∈ s.known) :
    Inv { s with mem := (s.cfg.update s.mem new).1, cfg := (s.cfg.update s.mem new).2.1 }
      (given ++ new.map Prod.snd) ∧
    (∃ e, (s.cfg.update s.mem new).1 = s.mem ++ e) ∧
    (s.cfg.update s.mem new).2.1.settings = s.cfg.settings ∧
    (s.cfg.update s.mem new).2.1.deps = s.cfg.deps ∧ (s.cfg.update s.mem new).2.1.muts = s.cfg.muts ∧
    (s.cfg.update s.mem new).2.1.subs = s.cfg.subs ∧
    (s.cfg.update s.mem new).2.1.mutable = (updateLoop s.cfg.mutable new).1 ∧
    ((∀ k, k ∈ new.keys → k ∈ s.cfg.mutable.keys) → (s.cfg.update s.mem new).2.2 = none ∧
      ∀ k, Dict.get? (view (s.cfg.update s.mem new).1 (s.cfg.update s.mem new).2.1.config) k =
        match Dict.get? (view s.mem (updateLoop s.cfg.mutable new).1) k with
        | some o => some o
        | none => Dict.get? (view s.mem s.cfg.settings) k) ∧
    (¬ (∀ k, k ∈ new.keys → k ∈ s.cfg.mutable.keys) → (s.cfg.update s.mem new).2.2 = some .keyError ∧
      (s.cfg.update s.mem new).2.1.config = s.cfg.config ∧ (s.cfg.update s.mem new).1 = s.mem) := by
  obtain ⟨u1, u2, u3, u4, u5, u6⟩ := updateLoop_spec new s.cfg.mutable h.ok
  have hmutab : ∀ k a, (k, a) ∈ (updateLoop s.cfg.mutable new).1 → a < s.mem.length ∧
      ((a ∉ s.known ∧ a ≠ s.cfg.deps ∧ a ≠ s.cfg.muts) ∨ a ∈ given ++ new.map Prod.snd) := by
    intro k a ha
    rcases u3 k a ha with ha | ha
    · obtain ⟨x1, x2⟩ := h.mutable k a ha
      exact ⟨x1, x2.imp (fun y => y) (fun y => by simp [y])⟩
    · exact ⟨h.known a (hn k a ha), Or.inr (List.mem_append_right _ (List.mem_map.2 ⟨(k, a), ha, rfl⟩))⟩
  have hgiven : ∀ a, a ∈ given ++ new.map Prod.snd → a ∈ s.known := by
    intro a ha
    rcases List.mem_append.1 ha with ha | ha
    · exact h.given a ha
    · obtain ⟨⟨k, b⟩, hb, rfl⟩ := List.mem_map.1 ha
      exact hn k b hb
  have hdis : ∀ k, k ∈ s.cfg.settings.keys → k ∉ (updateLoop s.cfg.mutable new).1.keys := by
    rw [u2]; exact h.disjoint
  by_cases hall : ∀ k, k ∈ new.keys → k ∈ s.cfg.mutable.keys
  · have hnone := u4.2 hall
    obtain ⟨e, config, c1, c2, c3⟩ := combine_spec s.mem s.cfg.settings (updateLoop s.cfg.mutable new).1 u1
      (fun k a ha => (h.settings k a ha).1) (fun k a ha => (hmutab k a ha).1) hdis
    have hu : s.cfg.update s.mem new = (s.mem ++ e,
        { s.cfg with mutable := (updateLoop s.cfg.mutable new).1, config := config }, none) := by
      unfold Cfg.update
      have : updateLoop s.cfg.mutable new = ((updateLoop s.cfg.mutable new).1, none) := by rw [← hnone]
      rw [this]
      simp only [c1]
    rw [hu]
    have hl : s.mem.length ≤ (s.mem ++ e).length := by simp
    refine ⟨⟨?_, ?_, ?_, ?_, hgiven, ?_, u1, hdis⟩, ⟨e, rfl⟩, rfl, rfl, rfl, rfl, rfl, fun _ => ⟨rfl, c3⟩,
      fun hc => absurd hall hc⟩
    · intro a ha; exact Nat.lt_of_lt_of_le (h.known a ha) hl
    · intro k a ha
      obtain ⟨x1, x2⟩ := h.settings k a ha
      exact ⟨Nat.lt_of_lt_of_le x1 hl, x2⟩
    · intro k a ha
      have := c2 k a ha
      obtain ⟨y1, y2, -⟩ := h.lists
      exact ⟨this.2, fun hc => by have := h.known a hc; omega, by simp only; omega, by simp only; omega⟩
    · intro k a ha
      obtain ⟨x1, x2⟩ := hmutab k a ha
      exact ⟨Nat.lt_of_lt_of_le x1 hl, x2⟩
    · obtain ⟨y1, y2, y3⟩ := h.lists
      exact ⟨Nat.lt_of_lt_of_le y1 hl, Nat.lt_of_lt_of_le y2 hl, y3⟩
  · have herr : (updateLoop s.cfg.mutable new).2 = some .keyError := u6 (fun hc => hall (u4.1 hc))
    have hu : s.cfg.update s.mem new = (s.mem,
        { s.cfg with mutable := (updateLoop s.cfg.mutable new).1 }, some .keyError) := by
      unfold Cfg.update
      have : updateLoop s.cfg.mutable new = ((updateLoop s.cfg.mutable new).1, some .keyError) := by rw [← herr]
      rw [this]
    rw [hu]
    exact ⟨⟨h.known, h.settings, h.config, hmutab, hgiven, h.lists, u1, hdis⟩, ⟨[], by simp⟩, rfl, rfl, rfl, rfl,
      rfl, fun hc => absurd hc hall, fun _ => ⟨rfl, rfl, rfl⟩⟩

theorem step_inv {s : St C} {given : List Nat} (h : Inv s given) (op : Op C) :
    ∃ given', Inv (s.step op).1 given' ∧ ∀ a, a ∈ given' → a ∈ given ∨ a ∈ handed op := by
  cases op with
  | new o =>
    refine ⟨given, ⟨?_, ?_, ?_, ?_, ?_, ?_, h.ok, h.disjoint⟩, fun a ha => Or.inl ha⟩ <;> simp only [St.step]
    · intro a ha
      rcases List.mem_append.1 ha with ha | ha
      · have := h.known a ha; simp; omega
      · simp at ha; simp [ha]
    · intro k a ha
      obtain ⟨x1, x2, x3⟩ := h.settings k a ha
      exact ⟨by simp; omega, by simp [x2]; omega, x3⟩
    · intro k a ha
      obtain ⟨x1, x2, x3⟩ := h.config k a ha
      exact ⟨by simp; omega, by simp [x2]; omega, x3⟩
    · intro k a ha
      obtain ⟨x1, x2⟩ := h.mutable k a ha
      exact ⟨by simp; omega, x2.imp (fun y => ⟨by simp [y.1]; omega, y.2⟩) (fun y => y)⟩
    · intro a ha; exact List.mem_append_left _ (h.given a ha)
    · obtain ⟨y1, y2, y3⟩ := h.lists
      exact ⟨by simp; omega, by simp; omega, y3⟩
  | write a o =>
    refine ⟨given, ?_, fun a ha => Or.inl ha⟩
    simp only [St.step]
    split
    · exact same_mem_length h _ (by simp)
    · exact h
  | getSettings => exact ⟨given, (give_inv h _ (fun k a ha => (h.settings k a ha).1)).1, fun a ha => Or.inl ha⟩
  | getMutable => exact ⟨given, (give_inv h _ (fun k a ha => (h.mutable k a ha).1)).1, fun a ha => Or.inl ha⟩
  | getConfig => exact ⟨given, (give_inv h _ (fun k a ha => (h.config k a ha).1)).1, fun a ha => Or.inl ha⟩
  | getDeps =>
    refine ⟨given, ⟨?_, ?_, ?_, ?_, ?_, h.lists, h.ok, h.disjoint⟩, fun a ha => Or.inl ha⟩ <;>
      simp only [St.step, List.mem_append, List.mem_singleton]
    · rintro a (ha | rfl)
      · exact h.known a ha
      · exact h.lists.1
    · intro k a ha
      obtain ⟨x1, x2, x3, x4⟩ := h.settings k a ha
      exact ⟨x1, by simp [x2, x3], x3, x4⟩
    · intro k a ha
      obtain ⟨x1, x2, x3, x4⟩ := h.config k a ha
      exact ⟨x1, by simp [x2, x3], x3, x4⟩
    · intro k a ha
      obtain ⟨x1, x2⟩ := h.mutable k a ha
      exact ⟨x1, x2.imp (fun y => ⟨by simp [y.1, y.2.1], y.2⟩) (fun y => y)⟩
    · intro a ha; exact Or.inl (h.given a ha)
  | getMuts =>
    refine ⟨given, ⟨?_, ?_, ?_, ?_, ?_, h.lists, h.ok, h.disjoint⟩, fun a ha => Or.inl ha⟩ <;>
      simp only [St.step, List.mem_append, List.mem_singleton]
    · rintro a (ha | rfl)
      · exact h.known a ha
      · exact h.lists.2.1
    · intro k a ha
      obtain ⟨x1, x2, x3, x4⟩ := h.settings k a ha
      exact ⟨x1, by simp [x2, x4], x3, x4⟩
    · intro k a ha
      obtain ⟨x1, x2, x3, x4⟩ := h.config k a ha
      exact ⟨x1, by simp [x2, x4], x3, x4⟩
    · intro k a ha
      obtain ⟨x1, x2⟩ := h.mutable k a ha
      exact ⟨x1, x2.imp (fun y => ⟨by simp [y.1, y.2.2], y.2⟩) (fun y => y)⟩
    · intro a ha; exact Or.inl (h.given a ha)
  | update new =>
    simp only [St.step]
    split
    · rename_i hn
      refine ⟨_, (update_inv h new ?_).1, ?_⟩
      · intro k a ha
        have := List.all_eq_true.1 hn (k, a) ha
        simpa using this
      · intro a ha; exact List.mem_append.1 ha
    · exact ⟨given, h, fun a ha => Or.inl ha⟩
  | addDeps new =>
    exact ⟨given, same_mem_length h _ (addNames_length _ _ _ _).1, fun a ha => Or.inl ha⟩
  | addMuts new =>
    exact ⟨given, same_mem_length h _ (addNames_length _ _ _ _).1, fun a ha => Or.inl ha⟩

/-- An object that no step of the program touches. -/
theorem view_step {s : St C} {given : List Nat} (h : Inv s given) (op : Op C) (d : Dict String Nat)
    (hd : ∀ k a, (k, a) ∈ d → a < s.mem.length)
    (hw : ∀ k a, (k, a) ∈ d → ∀ b o, op = .write b o → a = b → a ∉ s.known)
    (hdeps : ∀ k a, (k, a) ∈ d → ∀ new, op = .addDeps new → a ≠ s.cfg.deps)
    (hmuts : ∀ k a, (k, a) ∈ d → ∀ new, op = .addMuts new → a ≠ s.cfg.muts) :
    view (s.step op).1.mem d = view s.mem d := by
  have hap : ∀ e : Mem C, view (s.mem ++ e) d = view s.mem d := by
    intro e
    refine view_congr fun k a hk => ?_
    rw [List.getElem?_append_left (hd k a hk)]
  cases op with
  | new o => exact hap [o]
  | write b o =>
    simp only [St.step]
    split
    · rename_i hb
      refine view_congr fun k a hk => ?_
      have : b ≠ a := by
        rintro rfl
        exact hw k b hk b o rfl rfl (by simpa using hb)
      simp only
      rw [List.getElem?_set_ne this]
    · rfl
  | getSettings =>
    obtain ⟨e, he⟩ := (give_inv h _ (fun k a ha => (h.settings k a ha).1)).2
    simp only [St.step]; rw [he]; exact hap e
  | getMutable =>
    obtain ⟨e, he⟩ := (give_inv h _ (fun k a ha => (h.mutable k a ha).1)).2
    simp only [St.step]; rw [he]; exact hap e
  | getConfig =>
    obtain ⟨e, he⟩ := (give_inv h _ (fun k a ha => (h.config k a ha).1)).2
    simp only [St.step]; rw [he]; exact hap e
  | getDeps => rfl
  | getMuts => rfl
  | update new =>
    simp only [St.step]
    split
    · rename_i hn
      obtain ⟨e, he⟩ := (update_inv h new (fun k a ha => by
        have := List.all_eq_true.1 hn (k, a) ha
        simpa using this)).2.1
      simp only
      rw [he]; exact hap e
    · rfl
  | addDeps new =>
    refine view_congr fun k a hk => ?_
    exact (addNames_length _ _ _ _).2 a (hdeps k a hk new rfl)
  | addMuts new =>
    refine view_congr fun k a hk => ?_
    exact (addNames_length _ _ _ _).2 a (hmuts k a hk new rfl)

/-- The dictionaries of the configuration are replaced only by updates. -/
theorem cfg_step (s : St C) (op : Op C) (h : ∀ new, op ≠ .update new) : (s.step op).1.cfg = s.cfg := by
  cases op with
  | update new => exact absurd rfl (h new)
  | write a o => simp only [St.step]; split <;> rfl
  | _ => rfl

theorem run_append (s : St C) (xs ys : List (Op C)) : s.run (xs ++ ys) = (s.run xs).run ys := by
  induction xs generalizing s with
  | nil => rfl
  | cons x xs ih => exact ih _

theorem run_inv (ops : List (Op C)) : ∀ {s : St C} {given : List Nat}, Inv s given →
    ∃ given', Inv (s.run ops) given' ∧
      ∀ a, a ∈ given' → a ∈ given ∨ ∃ new, .update new ∈ ops ∧ a ∈ new.map Prod.snd := by
  induction ops with
  | nil => intro s given h; exact ⟨given, h, fun a ha => Or.inl ha⟩
  | cons op ops ih =>
    intro s given h
    obtain ⟨g1, i1, j1⟩ := step_inv h op
    obtain ⟨g2, i2, j2⟩ := ih i1
    refine ⟨g2, i2, fun a ha => ?_⟩
    rcases j2 a ha with ha | ⟨new, hn, ha⟩
    · rcases j1 a ha with ha | ha
      · exact Or.inl ha
      · cases op with
        | update new => exact Or.inr ⟨new, by simp, ha⟩
        | _ => simp [handed] at ha
    · exact Or.inr ⟨new, by simp [hn], ha⟩

theorem cfg_names_step {s : St C} {given : List Nat} (h : Inv s given) (op : Op C) :
    (s.step op).1.cfg.deps = s.cfg.deps ∧ (s.step op).1.cfg.muts = s.cfg.muts ∧
      (s.step op).1.cfg.subs = s.cfg.subs := by
  cases op with
  | update new =>
    simp only [St.step]
    split
    · rename_i hall
      obtain ⟨-, -, -, u1, u2, u3, -⟩ := update_inv h new (fun k a ha => by
        have := List.all_eq_true.1 hall (k, a) ha
        simpa using this)
      exact ⟨u1, u2, u3⟩
    · exact ⟨rfl, rfl, rfl⟩
  | _ => rw [cfg_step s _ (by simp)]; exact ⟨rfl, rfl, rfl⟩

/-- Without asking for the lists, the program never gets to know them. -/
theorem run_lists (ops : List (Op C)) : ∀ {s : St C} {given : List Nat}, Inv s given → NoLists ops →
    s.cfg.deps ∉ s.known ∧ s.cfg.muts ∉ s.known →
    (s.run ops).cfg.deps = s.cfg.deps ∧ (s.run ops).cfg.muts = s.cfg.muts ∧ (s.run ops).cfg.subs = s.cfg.subs ∧
    (s.run ops).cfg.deps ∉ (s.run ops).known ∧ (s.run ops).cfg.muts ∉ (s.run ops).known := by
  induction ops with
  | nil => intro s given h _ hk; exact ⟨rfl, rfl, rfl, hk⟩
  | cons op ops ih =>
    intro s given h hn hk
    obtain ⟨g1, i1, -⟩ := step_inv h op
    have hn' : NoLists ops := ⟨fun hc => hn.1 (by simp [hc]), fun hc => hn.2 (by simp [hc])⟩
    have hc := cfg_names_step h op
    have hgive : ∀ (d : Dict String Nat) (a : Nat), (∀ k a, (k, a) ∈ d → a < s.mem.length) → a < s.mem.length →
        a ∉ s.known → a ∉ (s.give d).known := by
      intro d a hd ha hb hc
      obtain ⟨-, -, a2, -, -⟩ := copyDict_spec d s.mem hd
      rcases List.mem_append.1 hc with hc | hc
      · exact hb hc
      · obtain ⟨⟨k, b⟩, hm, rfl⟩ := List.mem_map.1 hc
        have := a2 k b hm
        simp only at ha
        omega
    have hkn : ∀ a, a < s.mem.length → a ∉ s.known → a ∉ (s.step op).1.known := by
      intro a ha hb
      cases op with
      | new o => simp only [St.step, List.mem_append, List.mem_singleton]; exact fun h => h.elim hb (by omega)
      | write b o => simp only [St.step]; split <;> exact hb
      | getSettings => exact hgive _ a (fun k a ha => (h.settings k a ha).1) ha hb
      | getMutable => exact hgive _ a (fun k a ha => (h.mutable k a ha).1) ha hb
      | getConfig => exact hgive _ a (fun k a ha => (h.config k a ha).1) ha hb
      | getDeps => exact absurd (by simp) hn.1
      | getMuts => exact absurd (by simp) hn.2
      | update new => simp only [St.step]; split <;> exact hb
      | addDeps new => exact hb
      | addMuts new => exact hb
    obtain ⟨r1, r2, r3, r4, r5⟩ := ih i1 hn' (by
      rw [hc.1, hc.2.1]
      exact ⟨hkn _ h.lists.1 hk.1, hkn _ h.lists.2.1 hk.2⟩)
    exact ⟨r1.trans hc.1, r2.trans hc.2.1, r3.trans hc.2.2, r4, r5⟩

theorem addNames_spec {m : Mem C} {c : Cfg} {a : Nat} {l : List String} (new : List String)
    (hl : m[a]? = some (.names l)) :
    (addNames m c a new).1[a]? = some (.names (if ∀ n, n ∈ new → n ∈ c.subs then l ++ new else l)) ∧
    (addNames m c a new).2 = if ∀ n, n ∈ new → n ∈ c.subs then none else some .keyError := by
  have ha : a < m.length := by
    refine Classical.byContradiction fun hc => ?_
    rw [List.getElem?_eq_none (by omega)] at hl
    cases hl
  unfold addNames
  by_cases h : ∀ n, n ∈ new → n ∈ c.subs
  · rw [if_pos h, if_pos h, if_neg (by simpa using h), hl]
    exact ⟨by simp [ha], rfl⟩
  · rw [if_neg h, if_neg h, if_pos (by simpa using h)]
    exact ⟨hl, rfl⟩

/-- The effect of a step on the lists, if the program does not know them. -/
theorem names_step {s : St C} {given : List Nat} (h : Inv s given) (hk : s.cfg.deps ∉ s.known ∧ s.cfg.muts ∉ s.known)
    {l l' : List String} (hl : s.dependent = some (.names l)) (hl' : s.mutableSubs = some (.names l')) (op : Op C) :
    (s.step op).1.dependent = some (.names (match op with
      | .addDeps new => if ∀ n, n ∈ new → n ∈ s.cfg.subs then l ++ new else l
      | _ => l)) ∧
    (s.step op).1.mutableSubs = some (.names (match op with
      | .addMuts new => if ∀ n, n ∈ new → n ∈ s.cfg.subs then l' ++ new else l'
      | _ => l')) ∧
    (∀ new, op = .addDeps new ∨ op = .addMuts new →
      (s.step op).2 = if ∀ n, n ∈ new → n ∈ s.cfg.subs then none else some .keyError) := by
  obtain ⟨c1, c2, c3⟩ := cfg_names_step h op
  have hd : (∀ new, op ≠ .addDeps new) → (s.step op).1.dependent = some (.names l) := by
    intro hn
    have := view_step h op [("", s.cfg.deps)] (by simp [h.lists.1]) (by simp [hk.1])
      (fun _ _ _ new hc => absurd hc (hn new)) (by
        intro k a ha new _
        simp only [List.mem_singleton, Prod.mk.injEq] at ha
        rw [ha.2]; exact h.lists.2.2)
    simp only [view, List.map_cons, List.map_nil, List.cons.injEq, Prod.mk.injEq, true_and, and_true] at this
    unfold St.dependent
    rw [c1, this]
    exact hl
  have hm : (∀ new, op ≠ .addMuts new) → (s.step op).1.mutableSubs = some (.names l') := by
    intro hn
    have := view_step h op [("", s.cfg.muts)] (by simp [h.lists.2.1]) (by simp [hk.2])
      (by
        intro k a ha new _
        simp only [List.mem_singleton, Prod.mk.injEq] at ha
        rw [ha.2]; exact fun hc => h.lists.2.2 hc.symm)
      (fun _ _ _ new hc => absurd hc (hn new))
    simp only [view, List.map_cons, List.map_nil, List.cons.injEq, Prod.mk.injEq, true_and, and_true] at this
    unfold St.mutableSubs
    rw [c2, this]
    exact hl'
  cases op with
  | addDeps new =>
    refine ⟨(addNames_spec (c := s.cfg) new hl).1, hm (by simp), ?_⟩
    rintro new' (heq | heq) <;> cases heq
    exact (addNames_spec (c := s.cfg) new hl).2
  | addMuts new =>
    refine ⟨hd (by simp), (addNames_spec (c := s.cfg) new hl').1, ?_⟩
    rintro new' (heq | heq) <;> cases heq
    exact (addNames_spec (c := s.cfg) new hl').2
  | _ => exact ⟨hd (by simp), hm (by simp), by simp⟩

theorem run_names (ops : List (Op C)) : ∀ {s : St C} {given : List Nat}, Inv s given → NoLists ops →
    s.cfg.deps ∉ s.known ∧ s.cfg.muts ∉ s.known →
    (∃ l, s.dependent = some (.names l)) → (∃ l, s.mutableSubs = some (.names l)) →
    (∃ l, (s.run ops).dependent = some (.names l)) ∧ ∃ l, (s.run ops).mutableSubs = some (.names l) := by
  induction ops with
  | nil => intro s given _ _ _ h1 h2; exact ⟨h1, h2⟩
  | cons op ops ih =>
    rintro s given h hn hk ⟨l, h1⟩ ⟨l', h2⟩
    obtain ⟨g1, i1, -⟩ := step_inv h op
    have hn' : NoLists ops := ⟨fun hc => hn.1 (by simp [hc]), fun hc => hn.2 (by simp [hc])⟩
    have hn1 : NoLists [op] := ⟨fun hc => hn.1 (by simp at hc; simp [hc]), fun hc => hn.2 (by simp at hc; simp [hc])⟩
    obtain ⟨-, -, -, r1, r2⟩ := run_lists [op] h hn1 hk
    obtain ⟨n1, n2, -⟩ := names_step h hk h1 h2 op
    exact ih i1 hn' ⟨r1, r2⟩ ⟨_, n1⟩ ⟨_, n2⟩

end Verif.Alias
