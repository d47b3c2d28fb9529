/- Helper lemmas for saving and loading components. -/
import Verif.Component.ObjectLemmas

namespace Verif.Component
open Verif.Py
variable {V D : Type}

/-! ### Effects -/

theorem Eff.apply_ne (fs : FS V D) (e : Eff V D) (q : Path) (h : q ≠ e.path) :
    e.apply fs q = fs q := by
  cases e <;> simp only [Eff.path] at h <;> simp [Eff.apply, h]

theorem Eff.apply_eq (fs : FS V D) (e : Eff V D) : (e.apply fs e.path).isSome := by
  cases e <;> simp [Eff.apply, Eff.path]

theorem applyAll_append (fs : FS V D) (a b : List (Eff V D)) :
    applyAll fs (a ++ b) = applyAll (applyAll fs a) b := by
  simp [applyAll]

theorem applyAll_ne (fs : FS V D) (effs : List (Eff V D)) (q : Path)
    (h : ∀ e, e ∈ effs → e.path ≠ q) : applyAll fs effs q = fs q := by
  unfold applyAll
  induction effs generalizing fs with
  | nil => rfl
  | cons e rest ih =>
    rw [List.foldl_cons, ih _ (fun e he => h e (List.mem_cons_of_mem _ he)),
      Eff.apply_ne _ _ _ (Ne.symm (h e (by simp)))]

theorem applyAll_none (fs : FS V D) (effs : List (Eff V D)) (q : Path)
    (h : applyAll fs effs q = none) : fs q = none := by
  unfold applyAll at h
  induction effs generalizing fs with
  | nil => exact h
  | cons e rest ih =>
    rw [List.foldl_cons] at h
    have := ih _ h
    by_cases hq : q = e.path
    · have h2 := Eff.apply_eq fs e
      rw [← hq, this] at h2
      cases h2
    · rwa [Eff.apply_ne _ _ _ hq] at this

/-- The writes of a component's own two files. -/
def ownEffs (dir : Path) (conf : Conf V) (data : Option (Dict String D)) : List (Eff V D) :=
  [.trunc (cfgPath dir), .write (cfgPath dir) (.config conf.dict),
   .trunc (dataPath dir),
   .write (dataPath dir) (.data (match data with | none => .none | some d => .dict d))]

theorem cfgPath_ne_dataPath (dir : Path) : cfgPath dir ≠ dataPath dir := by
  simp [cfgPath, dataPath]

theorem applyAll_own_cfg (fs : FS V D) (dir : Path) (conf : Conf V) (data : Option (Dict String D)) :
    applyAll fs (ownEffs dir conf data) (cfgPath dir) = some (.config conf.dict) := by
  simp [applyAll, ownEffs, Eff.apply, cfgPath_ne_dataPath]

theorem applyAll_own_data (fs : FS V D) (dir : Path) (conf : Conf V)
    (data : Option (Dict String D)) :
    applyAll fs (ownEffs dir conf data) (dataPath dir) =
      some (.data (match data with | none => .none | some d => .dict d)) := by
  simp [applyAll, ownEffs, Eff.apply]

/-- `save` with the cases spelled out. -/
theorem save_eq (ow allow : Bool) (fs : FS V D) (parent : Path) (name : String) (c : Comp V D) :
    c.save ow allow fs parent name =
      if c.configured = false then ([], some .valueError)
      else if c.attrs ≠ [] ∧ allow = false then ([], some .attributeError)
      else if ((fs (cfgPath (parent ++ [stem name]))).isSome ∨
        (fs (dataPath (parent ++ [stem name]))).isSome) ∧ ow = false then ([], some .ioError)
      else
        match c.conf with
        | none => ([], some .attributeError)
        | some conf =>
          (ownEffs (parent ++ [stem name]) conf c.data ++
            (saveSubs ow allow
              (applyAll fs (ownEffs (parent ++ [stem name]) conf c.data))
              (parent ++ [stem name]) c.subs).1,
           (saveSubs ow allow
              (applyAll fs (ownEffs (parent ++ [stem name]) conf c.data))
              (parent ++ [stem name]) c.subs).2) := by
  obtain ⟨cls, configured, conf, data, subs, attrs⟩ := c
  rw [Comp.save.eq_def]
  cases configured <;> simp
  split
  · rfl
  · split
    · rfl
    · cases conf <;> rfl

theorem saveSubs_cons (ow allow : Bool) (fs : FS V D) (dir : Path) (n : String) (c : Comp V D)
    (rest : List (String × Comp V D)) :
    saveSubs ow allow fs dir ((n, c) :: rest) =
      match c.save ow allow fs dir n with
      | (effs, some e) => (effs, some e)
      | (effs, none) =>
        (effs ++ (saveSubs ow allow (applyAll fs effs) dir rest).1,
          (saveSubs ow allow (applyAll fs effs) dir rest).2) := by
  rw [saveSubs]
  rcases c.save ow allow fs dir n with ⟨_, _ | _⟩ <;> rfl

theorem saveSubs_nil (ow allow : Bool) (fs : FS V D) (dir : Path) :
    saveSubs ow allow fs dir ([] : List (String × Comp V D)) = ([], none) := by
  rw [saveSubs]

/-- Induction over component trees. -/
theorem Comp.induct {motive : Comp V D → Prop}
    (h : ∀ c : Comp V D, (∀ n s, (n, s) ∈ c.subs → motive s) → motive c) (c : Comp V D) :
    motive c := by
  refine Comp.rec (motive_1 := motive) (motive_2 := fun l => ∀ n s, (n, s) ∈ l → motive s)
    (motive_3 := fun p => motive p.2) ?_ ?_ ?_ ?_ c
  · intro cls configured conf data subs attrs ih
    exact h _ ih
  · intro n s hm; cases hm
  · intro head tail h1 h2 n s hm
    rcases List.mem_cons.1 hm with hm | hm
    · rw [← hm] at h1; exact h1
    · exact h2 n s hm
  · intro n s ih; exact ih

theorem exists_depth (c : Comp V D) : ∃ k, DepthLe c k := by
  have mono : ∀ (c : Comp V D) (k : Nat), DepthLe c k → ∀ k', k ≤ k' → DepthLe c k' := by
    intro c k h
    induction h with
    | mk c k _ ih =>
      intro k' hk'
      cases k' with
      | zero => omega
      | succ k' => exact DepthLe.mk _ _ (fun n s hm => ih n s hm k' (by omega))
  induction c using Comp.induct with
  | h c ih =>
    have : ∃ k, ∀ n s, (n, s) ∈ c.subs → DepthLe s k := by
      have : ∀ l : List (String × Comp V D), (∀ n s, (n, s) ∈ l → ∃ k, DepthLe s k) →
          ∃ k, ∀ n s, (n, s) ∈ l → DepthLe s k := by
        intro l
        induction l with
        | nil => intro _; exact ⟨0, by simp⟩
        | cons x rest ihl =>
          intro hl
          obtain ⟨k1, h1⟩ := hl x.1 x.2 (by simp)
          obtain ⟨k2, h2⟩ := ihl (fun n s hm => hl n s (List.mem_cons_of_mem _ hm))
          refine ⟨max k1 k2, ?_⟩
          intro n s hm
          rcases List.mem_cons.1 hm with hm | hm
          · rw [← hm] at h1; exact mono _ _ h1 _ (Nat.le_max_left _ _)
          · exact mono _ _ (h2 n s hm) _ (Nat.le_max_right _ _)
      exact this c.subs ih
    obtain ⟨k, hk⟩ := this
    exact ⟨k + 1, DepthLe.mk _ _ hk⟩

/-- Every file a save touches is below the directory of the component. -/
theorem save_paths (ow allow : Bool) (c : Comp V D) :
    ∀ (fs : FS V D) (parent : Path) (name : String) (e : Eff V D),
      e ∈ (c.save ow allow fs parent name).1 →
      ∃ t, t ≠ [] ∧ e.path = parent ++ [stem name] ++ t := by
  induction c using Comp.induct with
  | h c ih =>
    have hsubs : ∀ (l : List (String × Comp V D)), (∀ x, x ∈ l → x ∈ c.subs) →
        ∀ (fs : FS V D) (dir : Path) (e : Eff V D), e ∈ (saveSubs ow allow fs dir l).1 →
        ∃ t, t ≠ [] ∧ e.path = dir ++ t := by
      intro l
      induction l with
      | nil => intro _ fs dir e he; rw [saveSubs_nil] at he; simp at he
      | cons x rest ihl =>
        intro hl fs dir e he
        obtain ⟨n, s⟩ := x
        have key : ∀ e, e ∈ (s.save ow allow fs dir n).1 → ∃ t, t ≠ [] ∧ e.path = dir ++ t := by
          intro e he
          obtain ⟨t, ht, h2⟩ := ih n s (hl _ (by simp)) fs dir n e he
          exact ⟨[stem n] ++ t, by simp, by rw [h2]; simp⟩
        rw [saveSubs_cons] at he
        rcases hs : s.save ow allow fs dir n with ⟨effs, _ | err⟩
        · rw [hs] at he key
          rcases List.mem_append.1 he with he | he
          · exact key e he
          · exact ihl (fun x hx => hl x (List.mem_cons_of_mem _ hx)) _ _ _ he
        · rw [hs] at he key
          exact key e he
    intro fs parent name e he
    rw [save_eq] at he
    split at he
    · simp at he
    · split at he
      · simp at he
      · split at he
        · simp at he
        · cases hc : c.conf with
          | none => rw [hc] at he; simp at he
          | some conf =>
            rw [hc] at he
            rcases List.mem_append.1 he with he | he
            · simp only [ownEffs, List.mem_cons, List.not_mem_nil, or_false] at he
              rcases he with rfl | rfl | rfl | rfl
              · exact ⟨["configuration.yaml"], by simp, by simp [Eff.path, cfgPath]⟩
              · exact ⟨["configuration.yaml"], by simp, by simp [Eff.path, cfgPath]⟩
              · exact ⟨["data.pickle"], by simp, by simp [Eff.path, dataPath]⟩
              · exact ⟨["data.pickle"], by simp, by simp [Eff.path, dataPath]⟩
            · exact hsubs c.subs (fun _ h => h) _ _ _ he

theorem saveSubs_paths (ow allow : Bool) (l : List (String × Comp V D)) (fs : FS V D) (dir : Path)
    (e : Eff V D) (he : e ∈ (saveSubs ow allow fs dir l).1) :
    ∃ n s t, (n, s) ∈ l ∧ t ≠ [] ∧ e.path = dir ++ [stem n] ++ t := by
  induction l generalizing fs with
  | nil => rw [saveSubs_nil] at he; simp at he
  | cons x rest ih =>
    obtain ⟨n, s⟩ := x
    have key : ∀ e, e ∈ (s.save ow allow fs dir n).1 →
        ∃ m s' t, (m, s') ∈ (n, s) :: rest ∧ t ≠ [] ∧ e.path = dir ++ [stem m] ++ t := by
      intro e he
      obtain ⟨t, ht, h2⟩ := save_paths ow allow s fs dir n e he
      exact ⟨n, s, t, by simp, ht, h2⟩
    rw [saveSubs_cons] at he
    rcases hs : s.save ow allow fs dir n with ⟨effs, _ | err⟩
    · rw [hs] at he key
      rcases List.mem_append.1 he with he | he
      · exact key e he
      · obtain ⟨m, s', t, h1, h2, h3⟩ := ih _ he
        exact ⟨m, s', t, List.mem_cons_of_mem _ h1, h2, h3⟩
    · rw [hs] at he key
      exact key e he

/-- Without overwrite, every file a save touches did not exist at the start. -/
theorem save_fresh (allow : Bool) (c : Comp V D) :
    ∀ (fs : FS V D) (parent : Path) (name : String) (e : Eff V D),
      e ∈ (c.save false allow fs parent name).1 → fs e.path = none := by
  induction c using Comp.induct with
  | h c ih =>
    have hsubs : ∀ (l : List (String × Comp V D)), (∀ x, x ∈ l → x ∈ c.subs) →
        ∀ (fs : FS V D) (dir : Path) (e : Eff V D), e ∈ (saveSubs false allow fs dir l).1 →
        fs e.path = none := by
      intro l
      induction l with
      | nil => intro _ fs dir e he; rw [saveSubs_nil] at he; simp at he
      | cons x rest ihl =>
        intro hl fs dir e he
        obtain ⟨n, s⟩ := x
        have key := ih n s (hl _ (by simp)) fs dir n
        rw [saveSubs_cons] at he
        rcases hs : s.save false allow fs dir n with ⟨effs, _ | err⟩
        · rw [hs] at he key
          rcases List.mem_append.1 he with he | he
          · exact key e he
          · exact applyAll_none _ _ _ (ihl (fun x hx => hl x (List.mem_cons_of_mem _ hx)) _ _ _ he)
        · rw [hs] at he key
          exact key e he
    intro fs parent name e he
    rw [save_eq] at he
    split at he
    · simp at he
    · split at he
      · simp at he
      · split at he
        · simp at he
        · rename_i hex
          have hex : fs (cfgPath (parent ++ [stem name])) = none ∧
              fs (dataPath (parent ++ [stem name])) = none := by
            simpa using hex
          cases hc : c.conf with
          | none => rw [hc] at he; simp at he
          | some conf =>
            rw [hc] at he
            rcases List.mem_append.1 he with he | he
            · simp only [ownEffs, List.mem_cons, List.not_mem_nil, or_false] at he
              rcases he with rfl | rfl | rfl | rfl
              · exact hex.1
              · exact hex.1
              · exact hex.2
              · exact hex.2
            · exact applyAll_none _ _ _ (hsubs c.subs (fun _ h => h) _ _ _ he)

/-! ### What a successful save leaves behind -/

/-- The files of a component tree are below `dir`. -/
inductive Stored (fs : FS V D) : Path → Comp V D → Prop where
  | mk (dir : Path) (c : Comp V D) (conf : Conf V) (hconf : c.conf = some conf)
      (h1 : fs (cfgPath dir) = some (.config conf.dict))
      (h2 : fs (dataPath dir) = some (.data (match c.data with | none => .none | some d => .dict d)))
      (h3 : ∀ n s, (n, s) ∈ c.subs → Stored fs (dir ++ [stem n]) s) : Stored fs dir c

theorem Stored.frame {fs fs' : FS V D} {dir : Path} {c : Comp V D} (h : Stored fs dir c)
    (heq : ∀ t, t ≠ [] → fs' (dir ++ t) = fs (dir ++ t)) : Stored fs' dir c := by
  induction h with
  | mk dir c conf hconf h1 h2 h3 ih =>
    refine Stored.mk dir c conf hconf ?_ ?_ ?_
    · rw [cfgPath, heq _ (by simp)]; exact h1
    · rw [dataPath, heq _ (by simp)]; exact h2
    · intro n s hm
      apply ih n s hm
      intro t ht
      rw [List.append_assoc]
      exact heq _ (by simp)

theorem append_stem_inj {dir : Path} {a b : String} {s t : Path}
    (h : dir ++ [a] ++ s = dir ++ [b] ++ t) : a = b := by
  simp only [List.append_assoc, List.append_cancel_left_eq, List.cons_append, List.nil_append,
    List.cons.injEq] at h
  exact h.1

theorem save_stored (E : Env) (known : String → Bool) (ow allow : Bool) (c : Comp V D)
    (hsv : Saveable E known c) :
    ∀ (fs : FS V D) (parent : Path) (name : String), (c.save ow allow fs parent name).2 = none →
      Stored (applyAll fs (c.save ow allow fs parent name).1) (parent ++ [stem name]) c := by
  induction hsv with
  | mk c conf hcfg hattrs hconf hcls hver hwf hconfig hdeps hnodup hfiles hrecord hrec ih =>
    have hsubs : ∀ (l : List (String × Comp V D)), (∀ x, x ∈ l → x ∈ c.subs) →
        (l.map (fun nc => stem nc.1)).Nodup →
        ∀ (fs : FS V D) (dir : Path), (saveSubs ow allow fs dir l).2 = none →
        ∀ n s, (n, s) ∈ l →
        Stored (applyAll fs (saveSubs ow allow fs dir l).1) (dir ++ [stem n]) s := by
      intro l
      induction l with
      | nil => intro _ _ fs dir _ n s hm; cases hm
      | cons x rest ihl =>
        intro hl hnd fs dir hok n s hm
        obtain ⟨n0, s0⟩ := x
        rw [List.map_cons, List.nodup_cons] at hnd
        have key := ih n0 s0 (hl _ (by simp)) fs dir n0
        rw [saveSubs_cons] at hok ⊢
        rcases hs : s0.save ow allow fs dir n0 with ⟨effs, _ | err⟩
        · rw [hs] at hok key
          simp only at hok key ⊢
          rw [applyAll_append]
          rcases List.mem_cons.1 hm with hm | hm
          · cases hm
            refine (key trivial).frame ?_
            intro t ht
            apply applyAll_ne
            intro e he heq
            obtain ⟨n', s', t', h1, h2, h3⟩ := saveSubs_paths _ _ _ _ _ _ he
            rw [h3] at heq
            have := append_stem_inj heq
            exact hnd.1 (List.mem_map.2 ⟨(n', s'), h1, this⟩)
          · exact ihl (fun x hx => hl x (List.mem_cons_of_mem _ hx)) hnd.2 _ _ hok n s hm
        · rw [hs] at hok; simp at hok
    intro fs parent name hok
    rw [save_eq] at hok ⊢
    simp only [hcfg, hattrs, Bool.true_eq_false, if_false, ne_eq, not_true_eq_false, false_and,
      hconf] at hok ⊢
    split at hok
    · simp at hok
    · rename_i hex
      rw [if_neg hex]
      simp only [] at hok ⊢
      rw [applyAll_append]
      have hother : ∀ q : Path, (∀ n t, q ≠ parent ++ [stem name] ++ [stem n] ++ t ∨ t = []) →
          applyAll (applyAll fs (ownEffs (parent ++ [stem name]) conf c.data))
            (saveSubs ow allow (applyAll fs (ownEffs (parent ++ [stem name]) conf c.data))
              (parent ++ [stem name]) c.subs).1 q =
          applyAll fs (ownEffs (parent ++ [stem name]) conf c.data) q := by
        intro q hq
        apply applyAll_ne
        intro e he heq
        obtain ⟨n', s', t', h1, h2, h3⟩ := saveSubs_paths _ _ _ _ _ _ he
        rcases hq n' t' with h | h
        · exact h (by rw [← heq, h3])
        · exact h2 h
      refine Stored.mk _ c conf hconf ?_ ?_ ?_
      · rw [hother, applyAll_own_cfg]
        intro n t
        by_cases ht : t = []
        · exact Or.inr ht
        · left
          intro h
          have := congrArg List.length h
          have h0 : 0 < t.length := List.length_pos_iff.2 ht
          simp only [List.length_append, List.length_cons, List.length_nil, cfgPath] at this
          omega
      · rw [hother, applyAll_own_data]
        intro n t
        by_cases ht : t = []
        · exact Or.inr ht
        · left
          intro h
          have := congrArg List.length h
          have h0 : 0 < t.length := List.length_pos_iff.2 ht
          simp only [List.length_append, List.length_cons, List.length_nil, dataPath] at this
          omega
      · intro n s hm
        exact hsubs c.subs (fun _ h => h) hnodup _ _ hok n s hm

/-- Into an empty location a save succeeds. -/
theorem save_succeeds (E : Env) (known : String → Bool) (ow allow : Bool) (c : Comp V D)
    (hsv : Saveable E known c) :
    ∀ (fs : FS V D) (parent : Path) (name : String),
      (∀ t, t ≠ [] → fs (parent ++ [stem name] ++ t) = none) →
      (c.save ow allow fs parent name).2 = none := by
  induction hsv with
  | mk c conf hcfg hattrs hconf hcls hver hwf hconfig hdeps hnodup hfiles hrecord hrec ih =>
    have hsubs : ∀ (l : List (String × Comp V D)), (∀ x, x ∈ l → x ∈ c.subs) →
        (l.map (fun nc => stem nc.1)).Nodup →
        ∀ (fs : FS V D) (dir : Path),
        (∀ n s t, (n, s) ∈ l → t ≠ [] → fs (dir ++ [stem n] ++ t) = none) →
        (saveSubs ow allow fs dir l).2 = none := by
      intro l
      induction l with
      | nil => intro _ _ fs dir _; rw [saveSubs_nil]
      | cons x rest ihl =>
        intro hl hnd fs dir hempty
        obtain ⟨n0, s0⟩ := x
        rw [List.map_cons, List.nodup_cons] at hnd
        have key := ih n0 s0 (hl _ (by simp)) fs dir n0
          (fun t ht => hempty n0 s0 t (by simp) ht)
        rw [saveSubs_cons]
        have hp := save_paths ow allow s0 fs dir n0
        rcases hs : s0.save ow allow fs dir n0 with ⟨effs, _ | err⟩
        · rw [hs] at hp
          simp only at hp ⊢
          apply ihl (fun x hx => hl x (List.mem_cons_of_mem _ hx)) hnd.2
          intro n s t hm ht
          rw [applyAll_ne, hempty n s t (List.mem_cons_of_mem _ hm) ht]
          intro e he heq
          obtain ⟨t', ht', h2⟩ := hp e he
          rw [h2] at heq
          have := append_stem_inj heq
          exact hnd.1 (List.mem_map.2 ⟨(n, s), hm, this.symm⟩)
        · rw [hs] at key; simp at key
    intro fs parent name hempty
    rw [save_eq]
    simp only [hcfg, hattrs, Bool.true_eq_false, if_false, ne_eq, not_true_eq_false, false_and,
      hconf]
    have e1 : fs (cfgPath (parent ++ [stem name])) = none := hempty _ (by simp)
    have e2 : fs (dataPath (parent ++ [stem name])) = none := hempty _ (by simp)
    rw [if_neg (by simp [e1, e2])]
    apply hsubs c.subs (fun _ h => h) hnodup
    intro n s t hm ht
    rw [applyAll_ne, List.append_assoc]
    · exact hempty _ (by simp)
    · intro e he heq
      have h0 : 0 < t.length := List.length_pos_iff.2 ht
      simp only [ownEffs, List.mem_cons, List.not_mem_nil, or_false] at he
      rcases he with rfl | rfl | rfl | rfl <;>
      · have := congrArg List.length heq
        simp only [List.length_append, List.length_cons, List.length_nil, Eff.path, cfgPath, dataPath] at this
        omega

/-! ### load -/

theorem loadLoop_plain [DecidableEq V] (L : LoadEnv V D)
    (rec : Comp V D → Path → String → Dict String (Mod V D) → LoadResult V D)
    (dir : Path) (conf : Conf V) (pre post : Dict String (Comp V D))
    (hnd : (Dict.keys (pre ++ post)).Nodup)
    (hpost : ∀ n s, (n, s) ∈ post → rec (Comp.fresh s.cls) dir n [] = ⟨s, [], none⟩ ∧
      L.known s.cls = true ∧ ∃ d, Dict.get? conf.dict.subs n = some d ∧ d.cls = s.cls) :
    loadLoop L rec dir ⟨pre, conf, [], []⟩ (Dict.keys post) = (⟨pre ++ post, conf, [], []⟩, none) := by
  induction post generalizing pre with
  | nil => simp [loadLoop, Dict.keys]
  | cons x rest ih =>
    obtain ⟨n, s⟩ := x
    obtain ⟨h1, h2, d, h3, h4⟩ := hpost n s (by simp)
    have hn : n ∉ Dict.keys pre := by
      unfold Dict.keys at hnd ⊢
      rw [List.map_append, List.nodup_append] at hnd
      intro hmem
      exact hnd.2.2 n hmem n (by simp) rfl
    have hset : Dict.set pre n s = pre ++ [(n, s)] := by
      clear hnd ih hpost
      induction pre with
      | nil => rfl
      | cons y pre ih =>
        simp only [Dict.keys_cons, List.mem_cons, not_or] at hn
        simp only [Dict.set, if_neg (Ne.symm hn.1), List.cons_append, ih hn.2]
    have hone : loadOne L rec dir ⟨pre, conf, [], []⟩ n =
        (⟨pre ++ [(n, s)], conf, [], []⟩, none) := by
      simp [loadOne, takeNested, h3, h4, h2, h1, storeLoaded, storeReplacement, hset]
    rw [Dict.keys_cons, loadLoop, hone]
    simp only
    rw [ih (pre ++ [(n, s)]) (by simpa using hnd)
      (fun n s hm => hpost n s (List.mem_cons_of_mem _ hm))]
    simp

theorem load_stored [DecidableEq V] (L : LoadEnv V D) (fs : FS V D) (c : Comp V D)
    (hsv : Saveable L.env L.known c) :
    ∀ (k : Nat) (parent : Path) (name : String), DepthLe c k →
      Stored fs (parent ++ [stem name]) c →
      load L fs k (Comp.fresh c.cls) parent name [] = ⟨c, [], none⟩ := by
  induction hsv with
  | mk c conf hcfg hattrs hconf hcls hver hwf hconfig hdeps hnodup hfiles hrecord hrec ih =>
    intro k parent name hd hst
    cases hd with
    | mk _ k hd =>
    cases hst with
    | mk _ _ conf' hconf' h1 h2 h3 =>
    rw [hconf] at hconf'
    cases hconf'
    have hinit : Conf.init L.env (some conf.dict.sha) conf.dict = .ok conf := by
      simp only [Conf.init, hwf.checkNames, hwf.combine, bind, Except.bind]
      obtain ⟨⟨⟩, config⟩ := conf
      simp only [Option.getD_some, Except.ok.injEq, Conf.mk.injEq, Cfg.mk.injEq, and_true]
        at hver hconfig ⊢
      exact ⟨hver.symm, hconfig.symm⟩
    have hkeys : (Dict.keys c.subs).Nodup := by
      have : (c.subs.map (fun nc => stem nc.1)) = (Dict.keys c.subs).map stem := by
        simp [Dict.keys]
      rw [this] at hnodup
      exact List.Pairwise.of_map stem (fun a b h => fun hab => h (by rw [hab])) hnodup
    have hloop := loadLoop_plain L (load L fs k) (parent ++ [stem name]) conf [] c.subs
      (by simpa using hkeys) (fun n s hm => ⟨ih n s hm k _ n (hd n s hm) (h3 n s hm),
        (hrecord n s hm).1, (hrecord n s hm).2⟩)
    rw [← hdeps] at hloop
    rw [load]
    simp only [Comp.fresh, Bool.false_eq_true, if_false, ne_eq, not_true_eq_false, h1, h2, hinit,
      hver, hcls, hloop, List.nil_append]
    obtain ⟨cls, configured, conf0, data, subs, attrs⟩ := c
    simp only at hcfg hattrs hconf ⊢
    subst hcfg hattrs hconf
    cases data <;> rfl

end Verif.Component
