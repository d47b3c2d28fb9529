/- Helper lemmas for the `BaseComponent` properties. -/
import Verif.Component.Props
import Verif.Component.ObjectSpec

namespace Verif.Component
open Verif.Py
variable {V D : Type}

/-! ### configure -/

theorem collectItems_spec (params : Dict String (Comp V D)) (all : Bool)
    (items : List (String × Item V D)) (p' : Dict String (Comp V D)) (b : Bool)
    (h : collectItems params all items = .ok (p', b)) (hok : params.Ok) :
    p'.Ok ∧
    (∀ n c, (n, Item.comp c) ∈ items → c.configured = true ∧ n ∈ p'.keys) ∧
    (∀ n, n ∈ params.keys → n ∈ p'.keys) ∧
    (∀ n c, p'.get? n = some c → params.get? n = some c ∨ (n, Item.comp c) ∈ items) ∧
    (b = (all && items.all (fun x => match x.2 with | .comp _ => true | .val _ => false))) := by
  induction items generalizing params all with
  | nil =>
    simp only [collectItems, Except.ok.injEq, Prod.mk.injEq] at h
    obtain ⟨rfl, rfl⟩ := h
    exact ⟨hok, by simp, fun _ h => h, fun _ _ h => Or.inl h, by simp⟩
  | cons x rest ih =>
    obtain ⟨n, it⟩ := x
    cases it with
    | val v =>
      rw [collectItems] at h
      obtain ⟨h1, h2, h3, h4, h5⟩ := ih _ _ h hok
      refine ⟨h1, ?_, h3, ?_, by simp [h5]⟩
      · intro m c hm
        rcases List.mem_cons.1 hm with hm | hm
        · cases hm
        · exact h2 m c hm
      · intro m c hm
        rcases h4 m c hm with h | h
        · exact Or.inl h
        · exact Or.inr (List.mem_cons_of_mem _ h)
    | comp c0 =>
      rw [collectItems] at h
      split at h
      · rename_i hc
        obtain ⟨h1, h2, h3, h4, h5⟩ := ih _ _ h (Dict.ok_set hok _ _)
        refine ⟨h1, ?_, ?_, ?_, by simp [h5]⟩
        · intro m c hm
          rcases List.mem_cons.1 hm with hm | hm
          · cases hm
            exact ⟨hc, h3 n (by rw [Dict.mem_keys_set]; exact Or.inl rfl)⟩
          · exact h2 m c hm
        · intro m hm
          exact h3 m (by rw [Dict.mem_keys_set]; exact Or.inr hm)
        · intro m c hm
          rcases h4 m c hm with h | h
          · rw [Dict.get?_set] at h
            by_cases e : n = m
            · rw [if_pos e] at h; cases h; subst e; exact Or.inr (by simp)
            · rw [if_neg e] at h; exact Or.inl h
          · exact Or.inr (List.mem_cons_of_mem _ h)
      · cases h

theorem mem_listItems (key : String) (i : Nat) (items : List (Item V D)) (n : String)
    (x : Item V D) :
    (n, x) ∈ listItems key i items ↔ ∃ j, items[j]? = some x ∧ n = listName key (i + j) := by
  induction items generalizing i with
  | nil => simp [listItems]
  | cons y rest ih =>
    simp only [listItems, List.mem_cons, Prod.mk.injEq, ih]
    constructor
    · rintro (⟨rfl, rfl⟩ | ⟨j, h1, h2⟩)
      · exact ⟨0, by simp⟩
      · exact ⟨j + 1, by simpa using h1, by rw [h2]; congr 1; omega⟩
    · rintro ⟨j, h1, h2⟩
      cases j with
      | zero =>
        left
        simp only [List.getElem?_cons_zero, Option.some.injEq] at h1
        exact ⟨by simpa using h2, h1.symm⟩
      | succ j =>
        right
        exact ⟨j, by simpa using h1, by rw [h2]; congr 1; omega⟩

theorem listItems_all (key : String) (i : Nat) (items : List (Item V D)) (f : Item V D → Bool) :
    (listItems key i items).all (fun x => f x.2) = items.all f := by
  induction items generalizing i with
  | nil => rfl
  | cons y rest ih => simp [listItems, ih]

/-- Does the argument have to show up in the settings? -/
def Arg.isSetting : Arg V D → Bool
  | .comp _ => false
  | .dict items => !(items.all (fun x => match x.2 with | .comp _ => true | .val _ => false))
  | .list items => !(items.all (fun x => match x with | .comp _ => true | .val _ => false))
  | .plain _ => true

theorem Passed.cons {a : String × Arg V D} {kwargs : Dict String (Arg V D)} {n : String}
    {c : Comp V D} (h : Passed kwargs n c) : Passed (a :: kwargs) n c := by
  cases h with
  | direct _ _ h => exact .direct _ _ (List.mem_cons_of_mem _ h)
  | inDict k _ _ items h1 h2 => exact .inDict k _ _ items (List.mem_cons_of_mem _ h1) h2
  | inList k i _ items h1 h2 => exact .inList k i _ items (List.mem_cons_of_mem _ h1) h2

theorem Passed.cases_cons {a : String × Arg V D} {kwargs : Dict String (Arg V D)} {n : String}
    {c : Comp V D} (h : Passed (a :: kwargs) n c) : Passed [a] n c ∨ Passed kwargs n c := by
  cases h with
  | direct _ _ h =>
    rcases List.mem_cons.1 h with h | h
    · exact Or.inl (.direct _ _ (by simp [h]))
    · exact Or.inr (.direct _ _ h)
  | inDict k _ _ items h1 h2 =>
    rcases List.mem_cons.1 h1 with h | h
    · exact Or.inl (.inDict k _ _ items (by simp [h]) h2)
    · exact Or.inr (.inDict k _ _ items h h2)
  | inList k i _ items h1 h2 =>
    rcases List.mem_cons.1 h1 with h | h
    · exact Or.inl (.inList k i _ items (by simp [h]) h2)
    · exact Or.inr (.inList k i _ items h h2)

theorem passed_singleton_comp {k : String} {c : Comp V D} {n : String} {c' : Comp V D} :
    Passed [(k, Arg.comp c)] n c' ↔ n = k ∧ c' = c := by
  constructor
  · intro h
    cases h with
    | direct _ _ h => simp at h; exact ⟨h.1, h.2⟩
    | inDict _ _ _ _ h _ => simp at h
    | inList _ _ _ _ h _ => simp at h
  · rintro ⟨rfl, rfl⟩; exact .direct _ _ (by simp)

theorem passed_singleton_dict {k : String} {items : Dict String (Item V D)} {n : String}
    {c : Comp V D} : Passed [(k, Arg.dict items)] n c ↔ (n, Item.comp c) ∈ items := by
  constructor
  · intro h
    cases h with
    | direct _ _ h => simp at h
    | inDict _ _ _ _ h h2 => simp at h; rw [← h.2]; exact h2
    | inList _ _ _ _ h _ => simp at h
  · intro h; exact .inDict k _ _ items (by simp) h

theorem passed_singleton_list {k : String} {items : List (Item V D)} {n : String}
    {c : Comp V D} : Passed [(k, Arg.list items)] n c ↔
      (n, Item.comp c) ∈ listItems k 0 items := by
  rw [mem_listItems]
  constructor
  · intro h
    cases h with
    | direct _ _ h => simp at h
    | inDict _ _ _ _ h _ => simp at h
    | inList _ i _ _ h h2 =>
      simp at h
      obtain ⟨rfl, rfl⟩ := h
      exact ⟨i, h2, by simp [listName]⟩
  · rintro ⟨j, h1, rfl⟩
    rw [Nat.zero_add]
    exact .inList k j _ items (by simp) h1

theorem passed_singleton_plain {k : String} {v : V} {n : String}
    {c : Comp V D} : ¬ Passed [(k, Arg.plain v)] n c := by
  intro h
  cases h with
  | direct _ _ h => simp at h
  | inDict _ _ _ _ h _ => simp at h
  | inList _ _ _ _ h _ => simp at h

/-- The collecting step for one argument. -/
def collectStep (params : Dict String (Comp V D)) (k : String) :
    Arg V D → Except Err (Dict String (Comp V D) × Bool)
  | .comp c => if c.configured then .ok (params.set k c, true) else .error .valueError
  | .dict items => collectItems params true items
  | .list items => collectItems params true (listItems k 0 items)
  | .plain _ => .ok (params, false)

theorem collect_cons (missing : Dict String (Arg V D)) (params : Dict String (Comp V D))
    (k : String) (a : Arg V D) (rest : Dict String (Arg V D)) :
    collect missing params ((k, a) :: rest) =
      match collectStep params k a with
      | .error e => .error e
      | .ok (params, true) => collect missing params rest
      | .ok (params, false) => collect (missing.set k a) params rest := by
  cases a with
  | comp c => simp only [collect, collectStep]; split <;> simp_all
  | dict items =>
    simp only [collect, collectStep]
    rcases collectItems params true items with _ | ⟨_, _ | _⟩ <;> rfl
  | list items =>
    simp only [collect, collectStep]
    rcases collectItems params true (listItems k 0 items) with _ | ⟨_, _ | _⟩ <;> rfl
  | plain v => simp only [collect, collectStep]

theorem collectStep_spec (params : Dict String (Comp V D)) (k : String) (a : Arg V D)
    (p' : Dict String (Comp V D)) (b : Bool)
    (h : collectStep params k a = .ok (p', b)) (hok : params.Ok) :
    p'.Ok ∧
    (∀ n c, Passed [(k, a)] n c → c.configured = true ∧ n ∈ p'.keys) ∧
    (∀ n, n ∈ params.keys → n ∈ p'.keys) ∧
    (∀ n c, p'.get? n = some c → params.get? n = some c ∨ Passed [(k, a)] n c) ∧
    (b = !a.isSetting) := by
  cases a with
  | comp c =>
    simp only [collectStep] at h
    split at h
    · rename_i hc
      simp only [Except.ok.injEq, Prod.mk.injEq] at h
      obtain ⟨rfl, rfl⟩ := h
      refine ⟨Dict.ok_set hok _ _, ?_, ?_, ?_, rfl⟩
      · intro n c' hp
        obtain ⟨rfl, rfl⟩ := passed_singleton_comp.1 hp
        exact ⟨hc, by rw [Dict.mem_keys_set]; exact Or.inl rfl⟩
      · intro n hn; rw [Dict.mem_keys_set]; exact Or.inr hn
      · intro n c' hn
        rw [Dict.get?_set] at hn
        by_cases e : k = n
        · rw [if_pos e] at hn; cases hn
          exact Or.inr (passed_singleton_comp.2 ⟨e.symm, rfl⟩)
        · rw [if_neg e] at hn; exact Or.inl hn
    · cases h
  | dict items =>
    obtain ⟨h1, h2, h3, h4, h5⟩ := collectItems_spec _ _ _ _ _ h hok
    refine ⟨h1, fun n c hp => h2 n c (passed_singleton_dict.1 hp), h3, ?_, ?_⟩
    · intro n c hn
      rcases h4 n c hn with h | h
      · exact Or.inl h
      · exact Or.inr (passed_singleton_dict.2 h)
    · rw [h5]; simp [Arg.isSetting]
  | list items =>
    obtain ⟨h1, h2, h3, h4, h5⟩ := collectItems_spec _ _ _ _ _ h hok
    refine ⟨h1, fun n c hp => h2 n c (passed_singleton_list.1 hp), h3, ?_, ?_⟩
    · intro n c hn
      rcases h4 n c hn with h | h
      · exact Or.inl h
      · exact Or.inr (passed_singleton_list.2 h)
    · rw [h5, listItems_all k 0 items
        (fun x => match x with | .comp _ => true | .val _ => false)]
      simp [Arg.isSetting]
  | plain v =>
    simp only [collectStep, Except.ok.injEq, Prod.mk.injEq] at h
    obtain ⟨rfl, rfl⟩ := h
    exact ⟨hok, fun n c hp => absurd hp passed_singleton_plain, fun _ h => h,
      fun _ _ h => Or.inl h, rfl⟩

theorem collect_spec (missing : Dict String (Arg V D)) (params : Dict String (Comp V D))
    (kwargs : Dict String (Arg V D)) (m' : Dict String (Arg V D)) (p' : Dict String (Comp V D))
    (h : collect missing params kwargs = .ok (m', p')) (hok : params.Ok) (hm : missing.Ok)
    (hk : kwargs.Ok) (hdisj : ∀ k, k ∈ kwargs.keys → k ∉ missing.keys) :
    p'.Ok ∧ m'.Ok ∧
    (∀ n c, Passed kwargs n c → c.configured = true ∧ n ∈ p'.keys) ∧
    (∀ n, n ∈ params.keys → n ∈ p'.keys) ∧
    (∀ n c, p'.get? n = some c → params.get? n = some c ∨ Passed kwargs n c) ∧
    (∀ k a, m'.get? k = some a ↔
      missing.get? k = some a ∨ ((k, a) ∈ kwargs ∧ a.isSetting = true)) := by
  induction kwargs generalizing missing params with
  | nil =>
    simp only [collect, Except.ok.injEq, Prod.mk.injEq] at h
    obtain ⟨rfl, rfl⟩ := h
    refine ⟨hok, hm, ?_, fun _ h => h, fun _ _ h => Or.inl h, by simp⟩
    intro n c hp
    cases hp with
    | direct _ _ h => simp at h
    | inDict _ _ _ _ h _ => simp at h
    | inList _ _ _ _ h _ => simp at h
  | cons ka rest ih =>
    obtain ⟨k, a⟩ := ka
    rw [collect_cons] at h
    simp only [Dict.Ok, Dict.keys_cons, List.nodup_cons] at hk
    cases hs : collectStep params k a with
    | error e => rw [hs] at h; cases h
    | ok r =>
      obtain ⟨p1, b⟩ := r
      obtain ⟨s1, s2, s3, s4, s5⟩ := collectStep_spec _ _ _ _ _ hs hok
      rw [hs] at h
      have hnew : ∀ missing', missing'.Ok → (∀ k', k' ∈ Dict.keys rest → k' ∉ missing'.keys) →
          collect missing' p1 rest = .ok (m', p') →
          (∀ k' a', missing'.get? k' = some a' ↔
            missing.get? k' = some a' ∨ (k' = k ∧ a' = a ∧ a.isSetting = true)) →
          p'.Ok ∧ m'.Ok ∧
          (∀ n c, Passed ((k, a) :: rest) n c → c.configured = true ∧ n ∈ p'.keys) ∧
          (∀ n, n ∈ params.keys → n ∈ p'.keys) ∧
          (∀ n c, p'.get? n = some c → params.get? n = some c ∨ Passed ((k, a) :: rest) n c) ∧
          (∀ k' a', m'.get? k' = some a' ↔
            missing.get? k' = some a' ∨ ((k', a') ∈ (k, a) :: rest ∧ a'.isSetting = true)) := by
        intro missing' hm' hd' hc hmiss
        obtain ⟨t1, t2, t3, t4, t5, t6⟩ := ih missing' p1 hc s1 hm' hk.2 hd'
        refine ⟨t1, t2, ?_, fun n hn => t4 n (s3 n hn), ?_, ?_⟩
        · intro n c hp
          rcases hp.cases_cons with hp | hp
          · exact ⟨(s2 n c hp).1, t4 n (s2 n c hp).2⟩
          · exact t3 n c hp
        · intro n c hn
          rcases t5 n c hn with hn | hn
          · rcases s4 n c hn with hn | hn
            · exact Or.inl hn
            · right
              cases hn with
              | direct _ _ h => exact .direct _ _ (by simp at h; simp [h])
              | inDict k' _ _ items h1 h2 =>
                exact .inDict k' _ _ items (by simp at h1; simp [h1]) h2
              | inList k' i _ items h1 h2 =>
                exact .inList k' i _ items (by simp at h1; simp [h1]) h2
          · exact Or.inr hn.cons
        · intro k' a'
          rw [t6, hmiss]
          simp only [List.mem_cons, Prod.mk.injEq]
          constructor
          · rintro ((h | ⟨rfl, rfl, h⟩) | ⟨h1, h2⟩)
            · exact Or.inl h
            · exact Or.inr ⟨Or.inl ⟨rfl, rfl⟩, h⟩
            · exact Or.inr ⟨Or.inr h1, h2⟩
          · rintro (h | ⟨⟨rfl, rfl⟩ | h1, h2⟩)
            · exact Or.inl (Or.inl h)
            · exact Or.inl (Or.inr ⟨rfl, rfl, h2⟩)
            · exact Or.inr ⟨h1, h2⟩
      cases b with
      | true =>
        simp only at h
        refine hnew missing hm (fun k' hk' => hdisj k' (by simp [hk'])) h ?_
        have : a.isSetting = false := by simpa using s5
        simp [this]
      | false =>
        simp only at h
        have hset : a.isSetting = true := by simpa using s5
        refine hnew (missing.set k a) (Dict.ok_set hm _ _) ?_ h ?_
        · intro k' hk'
          rw [Dict.mem_keys_set]
          rintro (rfl | hk2)
          · exact hk.1 hk'
          · exact hdisj k' (by simp [hk']) hk2
        · intro k' a'
          rw [Dict.get?_set]
          by_cases e : k = k'
          · subst e
            have hn : missing.get? k = none :=
              (Dict.get?_eq_none_iff _ _).2 (hdisj k (by simp))
            rw [if_pos rfl]
            simp only [Option.some.injEq, hn, reduceCtorEq, hset, and_true, true_and, false_or]
            exact eq_comm
          · rw [if_neg e]
            simp [Ne.symm e]

theorem checkMissing_none [DecidableEq V] (C : Containers V) (config : Dict String V)
    (m : Dict String (Arg V D)) (h : checkMissing C config m = none) (k : String) (a : Arg V D)
    (hk : (k, a) ∈ m) : ∃ v, config.get? k = some v ∧ a.val? C = some v := by
  induction m with
  | nil => simp at hk
  | cons x rest ih =>
    obtain ⟨k', a'⟩ := x
    unfold checkMissing at h
    cases e : config.get? k' with
    | none => rw [e] at h; cases h
    | some v =>
      rw [e] at h
      simp only at h
      split at h
      · rename_i hv
        rcases List.mem_cons.1 hk with hk | hk
        · cases hk; exact ⟨v, e, hv⟩
        · exact ih h hk
      · cases h

theorem checkMissing_some [DecidableEq V] (C : Containers V) (config : Dict String V)
    (m : Dict String (Arg V D)) (k : String) (a : Arg V D) (hk : (k, a) ∈ m)
    (hbad : ∀ v, config.get? k = some v → a.val? C ≠ some v) :
    checkMissing C config m = some .valueError := by
  induction m with
  | nil => simp at hk
  | cons x rest ih =>
    obtain ⟨k', a'⟩ := x
    unfold checkMissing
    cases e : config.get? k' with
    | none => rfl
    | some v =>
      simp only
      rcases List.mem_cons.1 hk with hk | hk
      · cases hk; rw [if_neg (hbad v e)]
      · split
        · exact ih hk
        · rfl

/-- The successful run of `configure`, taken apart. -/
theorem configure_success [DecidableEq V] (C : Containers V) (hook : Hook V D) (self : Comp V D)
    (kwargs : Dict String (Arg V D)) (h : (self.configure C hook kwargs).2 = none) :
    self.configured = false ∧ self.attrs = [] ∧
    ∃ missing params conf0 data subs conf1 d,
      collect [] [] kwargs = .ok (missing, params) ∧
      hook kwargs = .ok (conf0, data, subs) ∧ subs ≠ .other ∧
      conf0.addSubs (params.map (fun nc => (nc.1, nc.2.toSubArg))) = (conf1, none) ∧
      (∀ n, n ∈ Dict.keys (match subs with | .dict d => d | _ => []) →
        n ∈ Dict.keys conf1.dict.subs) ∧
      (∀ n, n ∈ conf1.dict.muts → n ∈ Dict.keys conf1.dict.subs) ∧
      (data = .none ∧ d = [] ∨ data = .dict d) ∧
      checkMissing C conf1.config missing = none ∧
      (self.configure C hook kwargs).1 =
        { cls := self.cls, configured := true, data := some d, attrs := self.attrs
          conf := some { conf1 with dict := { conf1.dict with
            deps := conf1.dict.deps ++ Dict.keys (match subs with | .dict d => d | _ => []) } }
          subs := (match subs with | .dict d => d | _ => []) } := by
  unfold Comp.configure at h ⊢
  by_cases h1 : self.configured = true
  · simp [h1] at h
  by_cases h2 : self.attrs ≠ []
  · simp [h1, h2] at h
  rw [if_neg h1, if_neg h2] at h ⊢
  refine ⟨by simpa using h1, by simpa using h2, ?_⟩
  cases h3 : collect [] [] kwargs with
  | error e => rw [h3] at h; cases h
  | ok r =>
    obtain ⟨missing, params⟩ := r
    rw [h3] at h
    simp only at h ⊢
    cases h4 : hook kwargs with
    | error e => rw [h4] at h; cases h
    | ok r =>
      obtain ⟨conf0, data, subs⟩ := r
      rw [h4] at h
      cases subs with
      | other => simp at h
      | none =>
        simp only at h ⊢
        cases h5 : conf0.addSubs (params.map (fun nc => (nc.1, nc.2.toSubArg))) with
        | mk conf1 e =>
        rw [h5] at h
        cases e with
        | some e => simp at h
        | none =>
          have h6 : conf1.addDependent (Dict.keys ([] : Dict String (Comp V D))) =
              ({ conf1 with dict := { conf1.dict with deps := conf1.dict.deps ++ [] } }, none) := by
            simp [Conf.addDependent, checkNames]
          simp only [h6] at h ⊢
          by_cases h7 : ∀ n, n ∈ conf1.dict.muts → n ∈ Dict.keys conf1.dict.subs
          · rw [(checkNames_ok_iff _ _).2 h7] at h ⊢
            cases data with
            | other => simp at h
            | none =>
              simp only at h ⊢
              cases h8 : checkMissing C conf1.config missing with
              | some e => rw [h8] at h; simp at h
              | none =>
                exact ⟨missing, params, conf0, .none, .none, conf1, [], rfl, rfl, by simp, h5,
                  by simp, h7, Or.inl ⟨rfl, rfl⟩, h8, by simp⟩
            | dict dd =>
              simp only at h ⊢
              cases h8 : checkMissing C conf1.config missing with
              | some e => rw [h8] at h; simp at h
              | none =>
                exact ⟨missing, params, conf0, .dict dd, .none, conf1, dd, rfl, rfl, by simp, h5,
                  by simp, h7, Or.inr rfl, h8, by simp⟩
          · rw [checkNames_error _ _ h7] at h
            simp at h
      | dict sd =>
        simp only at h ⊢
        cases h5 : conf0.addSubs (params.map (fun nc => (nc.1, nc.2.toSubArg))) with
        | mk conf1 e =>
        rw [h5] at h
        cases e with
        | some e => simp at h
        | none =>
          simp only at h ⊢
          by_cases hsub : ∀ n, n ∈ Dict.keys sd → n ∈ Dict.keys conf1.dict.subs
          · rw [((C04_add_names conf1 _).1 hsub).1] at h ⊢
            simp only at h ⊢
            by_cases h7 : ∀ n, n ∈ conf1.dict.muts → n ∈ Dict.keys conf1.dict.subs
            · rw [(checkNames_ok_iff _ _).2 h7] at h ⊢
              cases data with
              | other => simp at h
              | none =>
                simp only at h ⊢
                cases h8 : checkMissing C conf1.config missing with
                | some e => rw [h8] at h; simp at h
                | none =>
                  exact ⟨missing, params, conf0, .none, .dict sd, conf1, [], rfl, rfl, by simp, h5,
                    hsub, h7, Or.inl ⟨rfl, rfl⟩, h8, by simp⟩
              | dict dd =>
                simp only at h ⊢
                cases h8 : checkMissing C conf1.config missing with
                | some e => rw [h8] at h; simp at h
                | none =>
                  exact ⟨missing, params, conf0, .dict dd, .dict sd, conf1, dd, rfl, rfl, by simp,
                    h5, hsub, h7, Or.inr rfl, h8, by simp⟩
            · rw [checkNames_error _ _ h7] at h
              simp at h
          · have : ∃ n, n ∈ Dict.keys sd ∧ n ∉ Dict.keys conf1.dict.subs := by
              simpa using hsub
            rw [((C04_add_names conf1 _).2 this).1] at h
            simp at h

end Verif.Component
