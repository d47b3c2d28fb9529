import Verif.Retry.Spec
import Verif.Component.ObjectProps

/-! Helper lemmas for repeated attempts. -/

namespace Verif.Retry
open Verif.Py Verif.Component Verif.Access
variable {V D : Type}

theorem get?_update_or {α : Type} (s ps : Dict String α) (n : String) :
    Dict.get? (s.update ps) n =
      if n ∈ ps.keys then Dict.get? (Dict.update [] ps) n else Dict.get? s n := by
  induction ps generalizing s with
  | nil => simp [Dict.update, Dict.keys]
  | cons x ps ih =>
    obtain ⟨k, v⟩ := x
    have e1 : ∀ s : Dict String α, Dict.update s ((k, v) :: ps) = (s.set k v).update ps := fun _ => rfl
    rw [e1, e1, ih, ih (Dict.set [] k v)]
    simp only [Dict.keys_cons, List.mem_cons]
    by_cases h1 : n ∈ Dict.keys ps
    · simp [h1]
    · by_cases h2 : n = k
      · subst h2; simp [h1, Dict.get?_set]
      · simp [h1, h2, Dict.get?_set, Ne.symm h2]

theorem isSome_update {α : Type} (s ps : Dict String α) (n : String) (h : n ∈ ps.keys) :
    (Dict.get? (s.update ps) n).isSome = true := by
  induction ps generalizing s with
  | nil => simp [Dict.keys] at h
  | cons x ps ih =>
    obtain ⟨k, v⟩ := x
    show (Dict.get? ((s.set k v).update ps) n).isSome = true
    by_cases h1 : n ∈ Dict.keys ps
    · exact ih _ h1
    · rw [get?_update_or, if_neg h1]
      simp only [Dict.keys_cons, List.mem_cons, h1, or_false] at h
      simp [h, Dict.get?_set]

/-- Without replacements, what is loaded does not depend on the sub components that are there. -/
theorem loadLoop_subs [DecidableEq V] (L : LoadEnv V D)
    (rec : Comp V D → Path → String → Dict String (Mod V D) → LoadResult V D)
    (dir : Path) (conf : Conf V) (names : List String) :
    ∃ (ps : Dict String (Comp V D)) (e : Option Err), (e = none → ps.keys = names) ∧
      ∀ s, loadLoop L rec dir ⟨s, conf, [], []⟩ names = (⟨s.update ps, conf, [], []⟩, e) := by
  induction names with
  | nil => exact ⟨[], none, fun _ => rfl, fun s => rfl⟩
  | cons n names ih =>
    obtain ⟨ps, e, h1, h2⟩ := ih
    cases hg : Dict.get? conf.dict.subs n with
    | none => exact ⟨[], some .keyError, by simp, fun s => by simp [loadLoop, loadOne, takeNested, hg, Dict.update]⟩
    | some d =>
      by_cases hk : L.known d.cls = true
      · cases hr : (rec (Comp.fresh d.cls) dir n []).err with
        | some e' =>
          exact ⟨[], some e', by simp,
            fun s => by simp [loadLoop, loadOne, takeNested, hg, hk, hr, Dict.update]⟩
        | none =>
          refine ⟨(n, (rec (Comp.fresh d.cls) dir n []).obj) :: ps, e, fun h => by
            rw [Dict.keys_cons, h1 h], fun s => ?_⟩
          have hone : loadOne L rec dir ⟨s, conf, [], []⟩ n =
              (⟨s.set n (rec (Comp.fresh d.cls) dir n []).obj, conf, [], []⟩, none) := by
            simp [loadOne, takeNested, hg, hk, hr, storeLoaded, storeReplacement]
          rw [loadLoop, hone]
          exact h2 _
      · exact ⟨[], some .importError, by simp,
          fun s => by simp [loadLoop, loadOne, takeNested, hg, hk, Dict.update]⟩

theorem configure_base [DecidableEq V] (C : Containers V) (hook : Hook V D) (c : Comp V D)
    (kwargs : Dict String (Arg V D)) :
    (c.configure C hook kwargs).1.cls = c.cls ∧ (c.configure C hook kwargs).1.attrs = c.attrs := by
  generalize hr : c.configure C hook kwargs = r
  unfold Comp.configure at hr
  simp only at hr
  repeat' split at hr
  all_goals
    subst hr
    exact ⟨rfl, rfl⟩

theorem load_base [DecidableEq V] (L : LoadEnv V D)
    (hupd : ∀ c names, (L.update c names).1.cls = c.cls ∧ (L.update c names).1.attrs = c.attrs)
    (fs : FS V D) (k : Nat) (c : Comp V D) (p : Path) (n : String) (mods : Dict String (Mod V D)) :
    (Component.load L fs k c p n mods).obj.cls = c.cls ∧
      (Component.load L fs k c p n mods).obj.attrs = c.attrs := by
  cases k with
  | zero => exact ⟨rfl, rfl⟩
  | succ k =>
    generalize hr : Component.load L fs (k + 1) c p n mods = r
    unfold Component.load at hr
    simp only at hr
    repeat' split at hr
    all_goals
      subst hr
      first
        | exact ⟨rfl, rfl⟩
        | exact hupd _ _

theorem attempt_fails [DecidableEq V] (C : Containers V) (c : Comp V D) (a : Attempt V D)
    (hp : a.proper) (e : Err) (hf : (a.run C c).2 = some e) (hc : c.configured = false) :
    (a.run C c).1.configured = false ∧ (a.run C c).1.cls = c.cls ∧ (a.run C c).1.attrs = c.attrs := by
  cases a with
  | configure hook kwargs =>
    refine ⟨?_, configure_base C hook c kwargs⟩
    rw [← Bool.not_eq_true]
    intro h
    have := (configure_configured_iff C hook c kwargs hc).1 h
    simp only [Attempt.run] at hf
    rw [this] at hf
    cases hf
  | load L fs depth parent name mods =>
    refine ⟨?_, load_base L (fun c n => (hp c n).2) fs depth c parent name mods⟩
    rw [← Bool.not_eq_true]
    intro h
    have := (load_configured_iff L (fun c n => (hp c n).1) fs depth c parent name mods hc).1 h
    simp only [Attempt.run] at hf
    rw [this] at hf
    cases hf

theorem failed_base [DecidableEq V] (C : Containers V) (cls : String) (c : Comp V D)
    (h : Failed C (Comp.fresh cls) c) : c.configured = false ∧ c.cls = cls ∧ c.attrs = [] := by
  induction h with
  | none => exact ⟨rfl, rfl, rfl⟩
  | more c' a e _ hp hf ih =>
    obtain ⟨h1, h2, h3⟩ := attempt_fails C c' a hp e hf ih.1
    exact ⟨h1, h2.trans ih.2.1, h3.trans ih.2.2⟩

/-- The outcome of `configure` depends on nothing that a failed attempt leaves behind. -/
theorem configure_same [DecidableEq V] (C : Containers V) (hook : Hook V D) (c d : Comp V D)
    (kwargs : Dict String (Arg V D)) (h1 : c.configured = d.configured) (h2 : c.cls = d.cls)
    (h3 : c.attrs = d.attrs) :
    (c.configure C hook kwargs).2 = (d.configure C hook kwargs).2 ∧
      ((c.configure C hook kwargs).2 = none →
        (c.configure C hook kwargs).1 = (d.configure C hook kwargs).1) := by
  have herr : (c.configure C hook kwargs).2 = (d.configure C hook kwargs).2 := by
    obtain ⟨ccls, cconf, cc, cd, cs, ca⟩ := c
    obtain ⟨dcls, dconf, dc, dd, ds, da⟩ := d
    simp only at h1 h2 h3
    subst h1 h2 h3
    unfold Comp.configure
    simp only
    repeat' split
    all_goals first | rfl | simp_all
  refine ⟨herr, fun h => ?_⟩
  obtain ⟨-, -, m, p, c0, da, su, c1, dd, a1, a2, -, a3, -, -, a4, -, a5⟩ :=
    configure_success C hook c kwargs h
  obtain ⟨-, -, m', p', c0', da', su', c1', dd', b1, b2, -, b3, -, -, b4, -, b5⟩ :=
    configure_success C hook d kwargs (herr ▸ h)
  rw [a1, Except.ok.injEq, Prod.mk.injEq] at b1
  obtain ⟨rfl, rfl⟩ := b1
  rw [a2, Except.ok.injEq, Prod.mk.injEq, Prod.mk.injEq] at b2
  obtain ⟨rfl, rfl, rfl⟩ := b2
  rw [a3, Prod.mk.injEq] at b3
  obtain ⟨rfl, -⟩ := b3
  have : dd = dd' := by
    rcases a4 with ⟨a, b⟩ | a <;> rcases b4 with ⟨a', b'⟩ | a'
    · rw [b, b']
    · rw [a] at a'; cases a'
    · rw [a] at a'; cases a'
    · rw [a] at a'; exact MaybeDict.dict.inj a'
  rw [a5, b5, h2, h3, this]

/-- The outcome of `load` without replacements: only sub components that are not saved may differ. -/
theorem load_same [DecidableEq V] (L : LoadEnv V D) (fs : FS V D) (k : Nat) (c d : Comp V D)
    (parent : Path) (name : String) (h1 : c.configured = d.configured) (h2 : c.cls = d.cls)
    (h3 : c.attrs = d.attrs) :
    (Component.load L fs k c parent name []).err = (Component.load L fs k d parent name []).err ∧
      ((Component.load L fs k c parent name []).err = none →
        ∃ cfg conf, fs (cfgPath (parent ++ [stem name])) = some (.config cfg) ∧
          Conf.init L.env (some cfg.sha) cfg = .ok conf ∧
          (Component.load L fs k c parent name []).obj.conf = some conf ∧
          ∃ s, (Component.load L fs k c parent name []).obj =
            { (Component.load L fs k d parent name []).obj with subs := s } ∧
          (∀ n, Dict.get? s n = if n ∈ conf.dict.deps
            then Dict.get? (Component.load L fs k d parent name []).obj.subs n
            else Dict.get? c.subs n) ∧
          ∀ n ∈ conf.dict.deps, (Dict.get? s n).isSome = true) := by
  cases k with
  | zero => exact ⟨rfl, by simp [Component.load]⟩
  | succ k =>
    unfold Component.load
    rw [h1, h2, h3]
    by_cases hc : d.configured = true
    · rw [if_pos hc, if_pos hc]; exact ⟨rfl, by simp⟩
    rw [if_neg hc, if_neg hc]
    by_cases ha : d.attrs ≠ []
    · rw [if_pos ha, if_pos ha]; exact ⟨rfl, by simp⟩
    rw [if_neg ha, if_neg ha]
    simp only
    cases hf : fs (cfgPath (parent ++ [stem name])) with
    | none => exact ⟨rfl, by simp⟩
    | some f =>
    cases f with
    | partialFile => exact ⟨rfl, by simp⟩
    | data _ => exact ⟨rfl, by simp⟩
    | config cfg =>
    simp only
    cases hg : fs (dataPath (parent ++ [stem name])) with
    | none => exact ⟨rfl, by simp⟩
    | some g =>
    cases g with
    | partialFile => exact ⟨rfl, by simp⟩
    | config _ => exact ⟨rfl, by simp⟩
    | data data =>
    simp only
    cases hi : Conf.init L.env (some cfg.sha) cfg with
    | error e => exact ⟨rfl, by simp⟩
    | ok conf =>
    simp only
    by_cases hv : cfg.version ≠ L.env.version
    · rw [if_pos hv, if_pos hv]; exact ⟨rfl, by simp⟩
    rw [if_neg hv, if_neg hv]
    by_cases hcl : conf.dict.cls ≠ d.cls
    · rw [if_pos hcl, if_pos hcl]; exact ⟨rfl, by simp⟩
    rw [if_neg hcl, if_neg hcl]
    obtain ⟨ps, e, hk, hl⟩ := loadLoop_subs L (Component.load L fs k) (parent ++ [stem name]) conf
      conf.dict.deps
    cases data with
    | other => exact ⟨rfl, by simp⟩
    | none =>
      simp only [hl, ne_eq, not_true_eq_false, if_false]
      cases e with
      | some e => exact ⟨rfl, by simp⟩
      | none =>
        refine ⟨rfl, fun _ => ⟨cfg, conf, rfl, hi, rfl, Dict.update c.subs ps, rfl, fun n => ?_,
          fun n hn => ?_⟩⟩
        · rw [get?_update_or c.subs, get?_update_or d.subs, hk rfl]
          by_cases hn : n ∈ conf.dict.deps <;> simp [hn]
        · exact isSome_update c.subs ps n (by rw [hk rfl]; exact hn)
    | dict x =>
      simp only [hl, ne_eq, not_true_eq_false, if_false]
      cases e with
      | some e => exact ⟨rfl, by simp⟩
      | none =>
        refine ⟨rfl, fun _ => ⟨cfg, conf, rfl, hi, rfl, Dict.update c.subs ps, rfl, fun n => ?_,
          fun n hn => ?_⟩⟩
        · rw [get?_update_or c.subs, get?_update_or d.subs, hk rfl]
          by_cases hn : n ∈ conf.dict.deps <;> simp [hn]
        · exact isSome_update c.subs ps n (by rw [hk rfl]; exact hn)

/-! ### Handlers -/

section
variable [DecidableEq V]

theorem handlerHook_loaded (X : HEnv V D) (cls : String) (kwargs : Dict String (Arg V D)) :
    (handlerHook X cls true kwargs).1 = true ∧ ∀ r, (handlerHook X cls true kwargs).2 ≠ .ok r := by
  unfold handlerHook
  split
  · simp
  · split
    · simp
    · split
      · simp
      · simp [loadModules]

theorem configure_loaded (X : HEnv V D) (h : Handler V D) (kwargs : Dict String (Arg V D))
    (hl : h.loaded = true) : (h.configure X kwargs).2 ≠ none ∧ (h.configure X kwargs).1.loaded = true := by
  constructor
  · intro hn
    obtain ⟨-, -, m, p, c0, da, su, c1, dd, a1, a2, -⟩ := configure_success _ _ h.comp kwargs hn
    rw [hl] at a2
    exact (handlerHook_loaded X _ kwargs).2 _ a2
  · simp only [Handler.configure]
    split
    · rw [hl]; exact (handlerHook_loaded X _ kwargs).1
    · exact hl

theorem hattempt_base (h : Handler V D) (a : HAttempt V D) (hp : a.proper) (e : Err)
    (he : (a.run h).2 = some e) (hc : h.comp.configured = false) :
    (a.run h).1.comp.configured = false ∧ (a.run h).1.comp.cls = h.comp.cls ∧
      (a.run h).1.comp.attrs = h.comp.attrs := by
  cases a with
  | configure X kwargs =>
    refine ⟨?_, configure_base _ _ h.comp kwargs⟩
    rw [← Bool.not_eq_true]
    intro hcon
    have := (configure_configured_iff _ _ h.comp kwargs hc).1 hcon
    simp only [HAttempt.run, Handler.configure] at he
    rw [this] at he
    cases he
  | load L fs depth parent name mods =>
    refine ⟨?_, load_base L (fun c n => (hp c n).2) fs depth h.comp parent name mods⟩
    rw [← Bool.not_eq_true]
    intro hcon
    have := (load_configured_iff L (fun c n => (hp c n).1) fs depth h.comp parent name mods hc).1 hcon
    simp only [HAttempt.run, Handler.load] at he
    rw [this] at he
    cases he

theorem hfailed_base (cls : String) (h : Handler V D) (hf : HFailed (Handler.fresh cls) h) :
    h.comp.configured = false ∧ h.comp.cls = cls ∧ h.comp.attrs = [] := by
  induction hf with
  | none => exact ⟨rfl, rfl, rfl⟩
  | more h' a e _ hp he ih =>
    obtain ⟨h1, h2, h3⟩ := hattempt_base h' a hp e he ih.1
    exact ⟨h1, h2.trans ih.2.1, h3.trans ih.2.2⟩

theorem hfailed_loaded (h h' : Handler V D) (hl : h.loaded = true) (hf : HFailed h h') :
    h'.loaded = true := by
  induction hf with
  | none => exact hl
  | more h' a e _ hp he ih =>
    cases a with
    | configure X kwargs => exact (configure_loaded X h' kwargs ih).2
    | load L fs depth parent name mods => exact ih

/-- The settings that a handler records. -/
theorem build_config (X : HEnv V D) (cls : String) (config : V) (files : Option (List String))
    (ms : Dict String (Comp V D)) (conf : Conf V) (data : MaybeDict (Dict String D))
    (subs : MaybeDict (Dict String (Comp V D))) (h : build X cls config files ms = .ok (conf, data, subs)) :
    conf.config = [("config", config)] := by
  unfold build at h
  split at h
  · cases h
  · split at h
    · cases h
    · split at h
      · cases h
      · rename_i conf' hmc
        cases h
        unfold moduleConf at hmc
        simp only [Conf.init, checkNames, List.all_nil, if_true, combineSettings, bind,
          Except.bind] at hmc
        rw [if_neg (by simp [Dict.keys])] at hmc
        simp only [Conf.addSubs] at hmc
        split at hmc
        · cases hmc
        · rename_i he
          cases hmc
          have := congrArg (fun p => p.1.config) he
          exact this.symm

/-- The call of `_configure` that ends in `build`. -/
theorem handlerHook_ok (X : HEnv V D) (cls : String) (kwargs : Dict String (Arg V D)) (b : Bool)
    (r : Conf V × MaybeDict (Dict String D) × MaybeDict (Dict String (Comp V D)))
    (h : handlerHook X cls false kwargs = (b, .ok r)) :
    ∃ config files ms, (Dict.get? kwargs "config").bind (Arg.val? X.containers) = some config ∧
      testFiles X.glob (X.read (Dict.get? kwargs "config_data")) = .ok files ∧
      createModules X config packages = .ok ms ∧ build X cls config files ms = .ok r ∧ b = true := by
  unfold handlerHook at h
  split at h
  · cases h
  · split at h
    · cases h
    · rename_i config hc
      split at h
      · cases h
      · rename_i files hf
        simp only [loadModules, Bool.false_eq_true, if_false] at h
        cases hm : createModules X config packages with
        | error e => rw [hm] at h; cases h
        | ok ms =>
          rw [hm] at h
          simp only [Prod.mk.injEq] at h
          exact ⟨config, files, ms, hc, hf, hm, h.2, h.1.symm⟩

/-- Whatever `configure` does after `_configure`, the sub components are stored. -/
theorem configure_subs (C : Containers V) (hook : Hook V D) (c : Comp V D)
    (kwargs : Dict String (Arg V D)) (hc : c.configured = false) (ha : c.attrs = [])
    (m : Dict String (Arg V D)) (p : Dict String (Comp V D)) (hcol : collect [] [] kwargs = .ok (m, p))
    (conf : Conf V) (data : MaybeDict (Dict String D)) (subs : Dict String (Comp V D))
    (hh : hook kwargs = .ok (conf, data, .dict subs)) :
    (c.configure C hook kwargs).1.subs = subs := by
  unfold Comp.configure
  rw [if_neg (by simp [hc]), if_neg (by simp [ha]), hcol]
  simp only [hh]
  repeat' split
  all_goals rfl

omit [DecidableEq V] in
theorem createModules_spec (X : HEnv V D) (config : V) (l : List (String × String))
    (ms : Dict String (Comp V D)) (h : createModules X config l = .ok ms) :
    ms.keys = l.map (fun kp => kp.1 ++ "_module") ∧
    ∀ n m, (n, m) ∈ ms → ∃ kp ∈ l, ∃ v cls, n = kp.1 ++ "_module" ∧ m = Comp.fresh cls ∧
      X.entry config (kp.1 ++ "_module") = .ok v ∧
      X.loadClass ("egenerator.data.modules." ++ kp.2 ++ "." ++ X.text v) = .ok cls := by
  induction l generalizing ms with
  | nil => cases h; exact ⟨rfl, by simp⟩
  | cons kp l ih =>
    obtain ⟨k, p⟩ := kp
    unfold createModules at h
    split at h
    · cases h
    · rename_i v hv
      split at h
      · cases h
      · rename_i cls hcl
        split at h
        · cases h
        · rename_i ms' hms
          cases h
          obtain ⟨h1, h2⟩ := ih ms' hms
          refine ⟨by rw [Dict.keys_cons, h1]; rfl, fun n m hm => ?_⟩
          rcases List.mem_cons.1 hm with hm | hm
          · cases hm
            exact ⟨(k, p), by simp, v, cls, rfl, rfl, hv, hcl⟩
          · obtain ⟨kp, hkp, rest⟩ := h2 n m hm
            exact ⟨kp, List.mem_cons_of_mem _ hkp, rest⟩

theorem configureModules_spec (X : HEnv V D) (config : V) (files : Option (List String))
    (ks : List String) (hnd : (ks.map (· ++ "_module")).Nodup)
    (ms ms' : Dict String (Comp V D)) (data data' : Dict String D)
    (h : configureModules X config files ks ms data = .ok (ms', data')) :
    (∀ n, n ∉ ks.map (· ++ "_module") → Dict.get? ms' n = Dict.get? ms n) ∧
    (∀ n ∈ ks.map (· ++ "_module"), ∃ m m', Dict.get? ms n = some m ∧ Dict.get? ms' n = some m' ∧
      m'.configured = true ∧ m'.cls = m.cls) ∧
    data' = (ks.map (· ++ "_module")).foldl
      (fun d n => d.update (((Dict.get? ms' n).bind Comp.data).getD [])) data := by
  induction ks generalizing ms data with
  | nil => cases h; exact ⟨fun _ _ => rfl, by simp, rfl⟩
  | cons k ks ih =>
    rw [List.map_cons, List.nodup_cons] at hnd
    unfold configureModules at h
    split at h
    · cases h
    · cases h
    · rename_i m settings hm hs
      split at h
      · cases h
      · rename_i kwargs hk
        split at h
        · cases h
        · split at h
          · cases h
          · rename_i m1 hconf
            obtain ⟨i1, i2, i3⟩ := ih hnd.2 _ _ h
            have hm1 : m1.configured = true ∧ m1.cls = m.cls := by
              have hsuc : (m.configure X.containers (X.hooks m.cls)
                  (("config_data", X.ofFiles files) :: kwargs)).2 = none := by rw [hconf]
              have hfst : (m.configure X.containers (X.hooks m.cls)
                  (("config_data", X.ofFiles files) :: kwargs)).1 = m1 := by rw [hconf]
              obtain ⟨hun, -⟩ := configure_success _ _ m _ hsuc
              rw [← hfst]
              exact ⟨(configure_configured_iff _ _ m _ hun).2 hsuc, (configure_base _ _ m _).1⟩
            have hget : Dict.get? ms' (k ++ "_module") = some m1 := by
              rw [i1 _ hnd.1, Dict.get?_set, if_pos rfl]
            refine ⟨fun n hn => ?_, fun n hn => ?_, ?_⟩
            · simp only [List.map_cons, List.mem_cons, not_or] at hn
              rw [i1 n hn.2, Dict.get?_set, if_neg (Ne.symm hn.1)]
            · simp only [List.map_cons, List.mem_cons] at hn
              rcases hn with rfl | hn
              · exact ⟨m, m1, hm, hget, hm1⟩
              · obtain ⟨a, b, h1, h2, h3⟩ := i2 n hn
                have hne : k ++ "_module" ≠ n := fun hh => hnd.1 (hh ▸ hn)
                rw [Dict.get?_set, if_neg hne] at h1
                exact ⟨a, b, h1, h2, h3⟩
            · rw [List.map_cons, List.foldl_cons, hget]
              exact i3

end

end Verif.Retry
