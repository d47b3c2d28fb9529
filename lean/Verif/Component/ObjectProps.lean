/-
Properties C05-C09 and C63 of `BaseComponent`.
-/
import Verif.Component.LoadLemmas

namespace Verif.Component
open Verif.Py
variable {V D : Type}

/-! ## C05: a component is configured at most once -/

/-- Is the call a `configure` or a `load`? -/
def ObjOp.configures : ObjOp V D → Bool
  | .configure _ _ => true
  | .load _ _ _ => true
  | .save _ _ _ _ => false

theorem configure_of_configured [DecidableEq V] (C : Containers V) (hook : Hook V D)
    (c : Comp V D) (kwargs : Dict String (Arg V D)) (h : c.configured = true) :
    c.configure C hook kwargs = (c, some .valueError) := by
  unfold Comp.configure; rw [if_pos h]

theorem load_of_configured [DecidableEq V] (L : LoadEnv V D) (fs : FS V D) (k : Nat)
    (c : Comp V D) (p : Path) (n : String) (mods : Dict String (Mod V D))
    (h : c.configured = true) :
    (load L fs k c p n mods).obj = c ∧ (load L fs k c p n mods).err ≠ none := by
  cases k with
  | zero => simp [load]
  | succ k => unfold load; rw [if_pos h]; simp

theorem configure_configured_iff [DecidableEq V] (C : Containers V) (hook : Hook V D)
    (c : Comp V D) (kwargs : Dict String (Arg V D)) (h : c.configured = false) :
    (c.configure C hook kwargs).1.configured = true ↔ (c.configure C hook kwargs).2 = none := by
  constructor
  · intro h1
    generalize hr : c.configure C hook kwargs = r at h1 ⊢
    unfold Comp.configure at hr
    simp only at hr
    repeat' split at hr
    all_goals
      subst hr
      first
        | rfl
        | (simp only at h1; rw [h] at h1; cases h1)
  · intro h1
    obtain ⟨-, -, m, p, c0, d, s, c1, dd, -, -, -, -, -, -, -, -, e⟩ :=
      configure_success C hook c kwargs h1
    rw [e]

theorem load_configured_iff [DecidableEq V] (L : LoadEnv V D)
    (hupd : ∀ c names, (L.update c names).1.configured = c.configured)
    (fs : FS V D) (k : Nat) (c : Comp V D) (p : Path) (n : String) (mods : Dict String (Mod V D))
    (h : c.configured = false) :
    (load L fs k c p n mods).obj.configured = true ↔ (load L fs k c p n mods).err = none := by
  constructor
  · intro h1
    cases k with
    | zero => simp [load, h] at h1
    | succ k =>
      generalize hr : load L fs (k + 1) c p n mods = r at h1 ⊢
      unfold load at hr
      have key : ∀ (obj : Comp V D) (names : List String), obj.configured = false →
          (if names ≠ [] then L.update obj names else (obj, none)).1.configured = false := by
        intro obj names ho
        split
        · rw [hupd, ho]
        · exact ho
      simp only at hr
      repeat' split at hr
      all_goals
        subst hr
        first
          | rfl
          | (simp only at h1; rw [h] at h1; cases h1)
          | (simp only at h1; rw [hupd] at h1; simp only at h1; rw [h] at h1; cases h1)
  · intro h1
    obtain ⟨k', d, data, conf, st, obj, -, -, -, -, -, -, -, -, -, -, -, -, hu1, hu2⟩ :=
      load_success L fs k c p n mods h1
    by_cases hu : st.updated = []
    · rw [hu1 hu]
    · rw [(hu2 hu).2]

/-- C05. Once a component is configured, every history of configure, load and
save calls leaves its configuration, data and sub components (the whole object)
as they were, and every configure or load in it raises. -/
theorem C05_configured_is_final [DecidableEq V] (C : Containers V) (L : LoadEnv V D) (depth : Nat)
    (c : Comp V D) (fs : FS V D) (hc : c.configured = true) (ops : List (ObjOp V D)) :
    (objRun C L depth (c, fs) ops).1.1 = c ∧
    ∀ op o, (op, o) ∈ (objRun C L depth (c, fs) ops).2 → op.configures = true → o ≠ none := by
  induction ops generalizing fs with
  | nil => simp [objRun]
  | cons op rest ih =>
    have hs : (objStep C L depth (c, fs) op).1.1 = c ∧
        (op.configures = true → (objStep C L depth (c, fs) op).2 ≠ none) := by
      cases op with
      | configure hook kwargs =>
        simp only [objStep, configure_of_configured C hook c kwargs hc]
        simp
      | load p n mods =>
        exact ⟨(load_of_configured L fs depth c p n mods hc).1,
          fun _ => (load_of_configured L fs depth c p n mods hc).2⟩
      | save ow al p n => exact ⟨rfl, fun h => by cases h⟩
    obtain ⟨h1, h2⟩ := hs
    obtain ⟨fs', he⟩ : ∃ fs', (objStep C L depth (c, fs) op).1 = (c, fs') :=
      ⟨_, Prod.ext h1 rfl⟩
    simp only [objRun]
    rw [he]
    refine ⟨(ih _).1, ?_⟩
    intro op' o hm hcf
    rcases List.mem_cons.1 hm with hm | hm
    · cases hm; exact h2 hcf
    · exact (ih _).2 op' o hm hcf

/-- C05. A single call: it turns an unconfigured component into a configured one
exactly if it is a `configure` or `load` that does not raise; `save` on an
unconfigured component raises ValueError and changes neither the object nor the
files. -/
theorem C05_step [DecidableEq V] (C : Containers V) (L : LoadEnv V D) (depth : Nat)
    (hupd : ∀ c names, (L.update c names).1.configured = c.configured)
    (c : Comp V D) (fs : FS V D) (hc : c.configured = false) (op : ObjOp V D) :
    ((objStep C L depth (c, fs) op).1.1.configured = true ↔
      op.configures = true ∧ (objStep C L depth (c, fs) op).2 = none) ∧
    (op.configures = false →
      objStep C L depth (c, fs) op = ((c, fs), some .valueError)) := by
  cases op with
  | configure hook kwargs =>
    exact ⟨by simpa [ObjOp.configures, objStep] using configure_configured_iff C hook c kwargs hc,
      fun h => by cases h⟩
  | load p n mods =>
    exact ⟨by simpa [ObjOp.configures, objStep] using
      load_configured_iff L hupd fs depth c p n mods hc, fun h => by cases h⟩
  | save ow al p n =>
    have : objStep C L depth (c, fs) (.save ow al p n) = ((c, fs), some .valueError) := by
      simp only [objStep, save_eq, hc, if_true]
      rfl
    refine ⟨?_, fun _ => this⟩
    rw [this]
    simp [ObjOp.configures, hc]

/-- C05. In every history at most one `configure` or `load` succeeds. -/
theorem C05_at_most_one_success [DecidableEq V] (C : Containers V) (L : LoadEnv V D) (depth : Nat)
    (hupd : ∀ c names, (L.update c names).1.configured = c.configured)
    (c : Comp V D) (fs : FS V D) (ops : List (ObjOp V D)) :
    ((objRun C L depth (c, fs) ops).2.filter
      (fun x => x.1.configures && decide (x.2 = none))).length ≤ 1 := by
  have hnone : ∀ (c : Comp V D) (fs : FS V D) (ops : List (ObjOp V D)), c.configured = true →
      (objRun C L depth (c, fs) ops).2.filter
        (fun x => x.1.configures && decide (x.2 = none)) = [] := by
    intro c fs ops hc
    rw [List.filter_eq_nil_iff]
    rintro ⟨op, o⟩ hm
    simp only [Bool.and_eq_true, decide_eq_true_eq, not_and]
    exact (C05_configured_is_final C L depth c fs hc ops).2 op o hm
  induction ops generalizing c fs with
  | nil => simp [objRun]
  | cons op rest ih =>
    by_cases hc : c.configured = true
    · rw [hnone c fs _ hc]; simp
    · have hc : c.configured = false := by simpa using hc
      have h1 := (C05_step C L depth hupd c fs hc op).1
      simp only [objRun]
      by_cases hs : op.configures = true ∧ (objStep C L depth (c, fs) op).2 = none
      · have := h1.2 hs
        have h3 := hnone (objStep C L depth (c, fs) op).1.1 (objStep C L depth (c, fs) op).1.2 rest
          this
        rw [List.filter_cons]
        rw [Prod.eta] at h3
        rw [h3]
        split <;> simp
      · rw [List.filter_cons_of_neg]
        · exact ih (objStep C L depth (c, fs) op).1.1 (objStep C L depth (c, fs) op).1.2
        · simpa using hs

/-! ## C06: configure never drops an argument -/

theorem itemVals_eq_some {items : List (Item V D)} {vs : List V} :
    itemVals items = some vs ↔ items = vs.map Item.val := by
  induction items generalizing vs with
  | nil => cases vs <;> simp [itemVals]
  | cons x rest ih =>
    cases x with
    | comp c => cases vs <;> simp [itemVals]
    | val v =>
      cases vs with
      | nil => simp [itemVals]
      | cons w ws => simp only [List.map_cons, itemVals, Option.map_eq_some_iff, ih, List.cons.injEq,
          Item.val.injEq]; exact ⟨fun ⟨a, h1, h2, h3⟩ => ⟨h2, h3 ▸ h1⟩, fun ⟨h1, h2⟩ => ⟨ws, h2, h1, rfl⟩⟩

theorem itemDictVals_eq_some {items : Dict String (Item V D)} {vs : Dict String V} :
    itemDictVals items = some vs ↔ items = vs.map (fun kv => (kv.1, Item.val kv.2)) := by
  induction items generalizing vs with
  | nil => cases vs <;> simp [itemDictVals]
  | cons x rest ih =>
    obtain ⟨k, x⟩ := x
    cases x with
    | comp c => cases vs <;> simp [itemDictVals]
    | val v =>
      cases vs with
      | nil => simp [itemDictVals]
      | cons w ws =>
        obtain ⟨k', w⟩ := w
        simp only [itemDictVals, Option.map_eq_some_iff, ih, List.map_cons, List.cons.injEq,
          Prod.mk.injEq, Item.val.injEq]
        constructor
        · rintro ⟨a, rfl, h2, rfl⟩; exact ⟨h2, rfl⟩
        · rintro ⟨h2, h3⟩; exact ⟨ws, h3, h2, rfl⟩

/-- C06, for arguments whose components have distinct names. If
`configure(**kwargs)` succeeds then
* every component handed over - directly, in a dictionary or in a list - is
  configured, is not among the names the class itself registered, and is recorded
  with its own configuration under its name;
* every plain argument is in the resulting `config` with this value, and every
  list or dictionary either holds components only or is, with its values, in the
  resulting `config`.
Missing: an empty list or dictionary counts as `components only` and a name used
twice is not detected, see the two theorems below. -/
theorem C06_arguments_recorded_partial [DecidableEq V] (C : Containers V) (hook : Hook V D)
    (self : Comp V D) (kwargs : Dict String (Arg V D)) (hk : kwargs.Ok)
    (huniq : ∀ n c c', Passed kwargs n c → Passed kwargs n c' → c = c')
    (h : (self.configure C hook kwargs).2 = none) :
    ∃ conf, (self.configure C hook kwargs).1.conf = some conf ∧
    (∀ n c, Passed kwargs n c → c.configured = true ∧
      (∀ hc hd hs, hook kwargs = .ok (hc, hd, hs) → n ∉ Dict.keys hc.dict.subs) ∧
      ∃ cc, c.conf = some cc ∧ Dict.get? conf.dict.subs n = some cc.dict) ∧
    (∀ k v, (k, .plain v) ∈ kwargs → conf.config.get? k = some v) ∧
    (∀ k items, (k, .list items) ∈ kwargs →
      (∀ x, x ∈ items → ∃ c, x = .comp c) ∨
      ∃ vs, items = vs.map Item.val ∧ conf.config.get? k = some (C.ofList vs)) ∧
    (∀ k items, (k, .dict items) ∈ kwargs →
      (∀ x, x ∈ items → ∃ n c, x = (n, .comp c)) ∨
      ∃ vs : Dict String V, items = vs.map (fun kv => (kv.1, Item.val kv.2)) ∧
        conf.config.get? k = some (C.ofDict vs)) := by
  obtain ⟨-, -, missing, params, conf0, data, subs, conf1, d, hcol, hhook, -, hadd, -, -, -, hmiss,
    hres⟩ := configure_success C hook self kwargs h
  obtain ⟨pok, mok, c1, -, c3, c4⟩ := collect_spec [] [] kwargs missing params hcol
    (by simp [Dict.Ok, Dict.keys]) (by simp [Dict.Ok, Dict.keys]) hk (by simp [Dict.keys])
  refine ⟨_, by rw [hres], ?_, ?_⟩
  · intro n c hp
    obtain ⟨hcfg, hmem⟩ := c1 n c hp
    have hget : params.get? n = some c := by
      have h1 := (Dict.get?_isSome_iff params n).2 hmem
      obtain ⟨c', hc'⟩ := Option.isSome_iff_exists.1 h1
      rcases c3 n c' hc' with h2 | h2
      · simp at h2
      · rw [huniq n c c' hp h2]; exact hc'
    have hnew : Dict.Ok (params.map (fun nc => (nc.1, nc.2.toSubArg))) := by
      have : Dict.keys (params.map (fun nc => (nc.1, nc.2.toSubArg))) = params.keys := by
        simp [Dict.keys]
      unfold Dict.Ok; rw [this]; exact pok
    have hm2 : (n, c.toSubArg) ∈ params.map (fun nc => (nc.1, nc.2.toSubArg)) :=
      List.mem_map.2 ⟨(n, c), Dict.mem_of_get? hget, rfl⟩
    have hok : (addSubsLoop conf0.dict.subs (params.map (fun nc => (nc.1, nc.2.toSubArg)))).2
        = none := by
      have := congrArg Prod.snd hadd
      exact this
    obtain ⟨hn, dd, hdd⟩ := (addSubsLoop_ok_iff conf0.dict.subs _ hnew).1 hok n _ hm2
    obtain ⟨-, cc, hcc, rfl⟩ := toSubArg_configured hdd
    refine ⟨hcfg, ?_, cc, hcc, ?_⟩
    · intro hc hd hs he
      rw [hhook] at he
      cases he
      exact hn
    · have h2 := addSubsLoop_get conf0.dict.subs _ hnew hok n
      rw [Dict.get?_of_mem hnew hm2, hdd] at h2
      have h3 : conf1.dict.subs = (addSubsLoop conf0.dict.subs
        (params.map (fun nc => (nc.1, nc.2.toSubArg)))).1 := by
        have := congrArg (fun x => x.1.dict.subs) hadd
        exact this.symm
      simp only
      rw [h3]
      exact h2
  · have hset : ∀ k a, (k, a) ∈ kwargs → a.isSetting = true →
        ∃ v, conf1.config.get? k = some v ∧ a.val? C = some v := by
      intro k a hm hs
      have := (c4 k a).2 (Or.inr ⟨hm, hs⟩)
      exact checkMissing_none C conf1.config missing hmiss k a (Dict.mem_of_get? this)
    refine ⟨?_, ?_, ?_⟩
    · intro k v hm
      obtain ⟨w, h1, h2⟩ := hset k _ hm rfl
      simp only [Arg.val?, Option.some.injEq] at h2
      rw [h2]; exact h1
    · intro k items hm
      by_cases hs : (Arg.list items : Arg V D).isSetting = true
      · right
        obtain ⟨w, h1, h2⟩ := hset k _ hm hs
        simp only [Arg.val?, Option.map_eq_some_iff] at h2
        obtain ⟨vs, h3, rfl⟩ := h2
        exact ⟨vs, itemVals_eq_some.1 h3, h1⟩
      · left
        intro x hx
        simp only [Arg.isSetting, Bool.not_eq_true, Bool.not_eq_false', List.all_eq_true] at hs
        have := hs x hx
        cases x with
        | comp c => exact ⟨c, rfl⟩
        | val v => simp at this
    · intro k items hm
      by_cases hs : (Arg.dict items : Arg V D).isSetting = true
      · right
        obtain ⟨w, h1, h2⟩ := hset k _ hm hs
        simp only [Arg.val?, Option.map_eq_some_iff] at h2
        obtain ⟨vs, h3, rfl⟩ := h2
        exact ⟨vs, itemDictVals_eq_some.1 h3, h1⟩
      · left
        intro x hx
        simp only [Arg.isSetting, Bool.not_eq_true, Bool.not_eq_false', List.all_eq_true] at hs
        have := hs x hx
        obtain ⟨n, x⟩ := x
        cases x with
        | comp c => exact ⟨n, c, rfl⟩
        | val v => simp at this

/-- The installation of the examples. -/
def exEnv : Env := ⟨"1", "s"⟩

/-- A configured leaf component of the examples. -/
def exLeaf (x : Nat) : Comp Nat Nat :=
  { cls := "pkg.Leaf", configured := true, data := some [("mean", x)], subs := [], attrs := []
    conf := some
      { dict := ⟨"1", "s", "pkg.Leaf", [], [("x", x)], [("y", 2)], [], [], []⟩
        config := [("x", x), ("y", 2)] } }

/-- The hook `_configure` of an example class: it stores all plain arguments as
settings, has its own part "own", and returns the sub components given. -/
def exHook (settings : Dict String Nat) (subs : Dict String (Comp Nat Nat)) : Hook Nat Nat :=
  fun _ => .ok (⟨⟨"1", "s", "pkg.Top", [], settings, [],
    [("own", ⟨"1", "s", "pkg.Leaf", [], [("x", 9)], [("y", 2)], [], [], []⟩)], [], ["own"]⟩,
    settings⟩, .none, .dict subs)

/-- Values of the examples: containers are told apart by their size. -/
def exContainers : Containers Nat := ⟨fun d => 100 + d.length, fun l => 200 + l.length⟩

/-- The arguments of the example call: a component, a list of components, a list
of values and a plain value. -/
def exArgs : Dict String (Arg Nat Nat) :=
  [("trafo", .comp (exLeaf 1)), ("models", .list [.comp (exLeaf 2), .comp (exLeaf 3)]),
   ("names", .list [.val 4, .val 5]), ("depth", .plain 6)]

theorem exConfigure_ok : ((Comp.fresh "pkg.Top").configure exContainers
    (exHook [("names", 202), ("depth", 6)] [("own", exLeaf 9), ("models_0001", exLeaf 3)])
    exArgs).2 = none := by decide

-- the hypotheses of C06 are met by a call with a component, a list of components,
-- a list of values and a plain value
example : exArgs.Ok ∧ (∀ n c c', Passed exArgs n c → Passed exArgs n c' → c = c') ∧
    ((Comp.fresh "pkg.Top").configure exContainers
      (exHook [("names", 202), ("depth", 6)] [("own", exLeaf 9), ("models_0001", exLeaf 3)])
      exArgs).2 = none := by
  refine ⟨by decide, ?_, exConfigure_ok⟩
  have key : ∀ n c, Passed exArgs n c → (n = "trafo" ∧ c = exLeaf 1) ∨
      (n = "models_0000" ∧ c = exLeaf 2) ∨ (n = "models_0001" ∧ c = exLeaf 3) := by
    intro n c h
    cases h with
    | direct _ _ h => simp [exArgs] at h; exact Or.inl h
    | inDict _ _ _ _ h _ => simp [exArgs] at h
    | inList k i _ items h h2 =>
      simp only [exArgs, List.mem_cons, Prod.mk.injEq, Arg.list.injEq, List.not_mem_nil,
        or_false, reduceCtorEq, and_false, false_or] at h
      rcases h with ⟨rfl, rfl⟩ | ⟨rfl, rfl⟩
      · rcases i with _ | _ | i
        · simp at h2; right; left; exact ⟨by decide, h2.symm⟩
        · simp at h2; right; right; exact ⟨by decide, h2.symm⟩
        · simp at h2
      · rcases i with _ | _ | i <;> simp at h2
  intro n c c' h1 h2
  rcases key n c h1 with ⟨a, b⟩ | ⟨a, b⟩ | ⟨a, b⟩ <;>
  rcases key n c' h2 with ⟨a', b'⟩ | ⟨a', b'⟩ | ⟨a', b'⟩ <;>
  first
    | (rw [b, b']; done)
    | (rw [a] at a'; exact absurd a' (by decide))

/-- C06 is false for empty containers: a call with `names=[]` and `extra={}`
succeeds although the class forgot both arguments. -/
theorem C06_empty_container_violated :
    ∃ (hook : Hook Nat Nat) (kwargs : Dict String (Arg Nat Nat)) (conf : Conf Nat),
      kwargs = [("names", .list []), ("extra", .dict []), ("depth", .plain 6)] ∧
      ((Comp.fresh "pkg.Top").configure exContainers hook kwargs).2 = none ∧
      ((Comp.fresh "pkg.Top").configure exContainers hook kwargs).1.conf = some conf ∧
      conf.config.get? "names" = none ∧ conf.config.get? "extra" = none ∧
      Dict.get? conf.dict.subs "names" = none ∧ Dict.get? conf.dict.subs "extra" = none := by
  refine ⟨exHook [("depth", 6)] [], _, _, rfl, by decide, rfl, by decide, by decide, by decide,
    by decide⟩

/-- C06 is false when two arguments use the same name: of the two different
components handed over as `part`, one is dropped without an exception. -/
theorem C06_name_used_twice_violated :
    ∃ (hook : Hook Nat Nat) (kwargs : Dict String (Arg Nat Nat)) (conf : Conf Nat),
      Passed kwargs "part" (exLeaf 1) ∧ Passed kwargs "part" (exLeaf 2) ∧
      ((Comp.fresh "pkg.Top").configure exContainers hook kwargs).2 = none ∧
      ((Comp.fresh "pkg.Top").configure exContainers hook kwargs).1.conf = some conf ∧
      (∀ n cc, (exLeaf 1).conf = some cc → ∀ d, Dict.get? conf.dict.subs n = some d →
        d.settings ≠ cc.dict.settings) := by
  refine ⟨exHook [] [], [("part", .comp (exLeaf 1)), ("parts", .dict [("part", .comp (exLeaf 2))])],
    _, .direct _ _ (by simp), .inDict "parts" _ _ _ (by simp) (List.mem_singleton.2 rfl),
    by decide, rfl, ?_⟩
  intro n cc hcc d hd
  cases hcc
  have hm := Dict.mem_of_get? hd
  have hm : (n, d) ∈ [("own", (⟨"1", "s", "pkg.Leaf", [], [("x", 9)], [("y", 2)], [], [], []⟩ : Cfg Nat)),
      ("part", ⟨"1", "s", "pkg.Leaf", [], [("x", 2)], [("y", 2)], [], [], []⟩)] := hm
  simp only [List.mem_cons, Prod.mk.injEq, List.not_mem_nil, or_false] at hm
  rcases hm with ⟨-, rfl⟩ | ⟨-, rfl⟩ <;> decide

/-! ## C07: save and load -/

/-- C07. A component tree that was saved is loaded back: the same class,
configuration, data and sub components, recursively. `k` bounds the recursion. -/
theorem C07_save_load_round_trip [DecidableEq V] (L : LoadEnv V D) (c : Comp V D)
    (hsv : Saveable L.env L.known c) (overwrite allow : Bool) (fs : FS V D) (parent : Path)
    (name : String) (k : Nat) (hk : DepthLe c k)
    (hsaved : (c.save overwrite allow fs parent name).2 = none) :
    load L (applyAll fs (c.save overwrite allow fs parent name).1) k (Comp.fresh c.cls)
      parent name [] = ⟨c, [], none⟩ :=
  load_stored L _ c hsv k parent name hk (save_stored L.env L.known overwrite allow c hsv fs
    parent name hsaved)

/-- C07. Saving to a location below which no file exists succeeds, and every tree
has a depth, so that the round trip works for some recursion bound. -/
theorem C07_save_to_empty_location [DecidableEq V] (L : LoadEnv V D) (c : Comp V D)
    (hsv : Saveable L.env L.known c) (overwrite allow : Bool) (fs : FS V D) (parent : Path)
    (name : String) (hempty : ∀ t, t ≠ [] → fs (parent ++ [stem name] ++ t) = none) :
    (c.save overwrite allow fs parent name).2 = none ∧
    ∃ k, load L (applyAll fs (c.save overwrite allow fs parent name).1) k (Comp.fresh c.cls)
      parent name [] = ⟨c, [], none⟩ := by
  have h := save_succeeds L.env L.known overwrite allow c hsv fs parent name hempty
  obtain ⟨k, hk⟩ := exists_depth c
  exact ⟨h, k, C07_save_load_round_trip L c hsv overwrite allow fs parent name k hk h⟩

/-- C07. `configure` produces such trees: if the class builds its configuration
with its own class string, well formed, with no dependent names of its own, and
the returned sub components are themselves saveable, were either handed over or
recorded by the class, and have names that stay apart as file names. -/
theorem C07_configure_is_saveable [DecidableEq V] (C : Containers V) (E : Env)
    (known : String → Bool) (cls : String) (hook : Hook V D) (kwargs : Dict String (Arg V D))
    (hk : kwargs.Ok)
    (huniq : ∀ n c c', Passed kwargs n c → Passed kwargs n c' → c = c')
    (hpassed : ∀ n c cc, Passed kwargs n c → c.conf = some cc → WF cc.dict ∧ cc.dict.cls = c.cls)
    (conf0 : Conf V) (data : MaybeDict (Dict String D)) (subs : Dict String (Comp V D))
    (hhook : hook kwargs = .ok (conf0, data, .dict subs))
    (hcls : conf0.dict.cls = cls) (hver : conf0.dict.version = E.version) (hwf : WF conf0.dict)
    (hconfig : conf0.config = conf0.dict.settings.update conf0.dict.mutable)
    (hdeps : conf0.dict.deps = [])
    (hnodup : (subs.map (fun nc => stem nc.1)).Nodup)
    (hfiles : ∀ n s, (n, s) ∈ subs → stem n ≠ "configuration.yaml" ∧ stem n ≠ "data.pickle")
    (hsubs : ∀ n s, (n, s) ∈ subs → Saveable E known s ∧ known s.cls = true ∧
      (Passed kwargs n s ∨ ∃ d, Dict.get? conf0.dict.subs n = some d ∧ d.cls = s.cls))
    (h : ((Comp.fresh cls).configure C hook kwargs).2 = none) :
    Saveable E known ((Comp.fresh cls).configure C hook kwargs).1 := by
  obtain ⟨conf, hconf, hp, -⟩ := C06_arguments_recorded_partial C hook (Comp.fresh cls) kwargs hk
    huniq h
  obtain ⟨-, -, missing, params, conf0', data', subs', conf1, d, hcol, hhook', -, hadd, hd1, hm1, -,
    -, hres⟩ := configure_success C hook (Comp.fresh cls) kwargs h
  rw [hhook] at hhook'
  cases hhook'
  obtain ⟨pok, -, c1, -, c3, -⟩ := collect_spec [] [] kwargs missing params hcol
    (by simp [Dict.Ok, Dict.keys]) (by simp [Dict.Ok, Dict.keys]) hk (by simp [Dict.keys])
  have hnew : Dict.Ok (params.map (fun nc => (nc.1, nc.2.toSubArg))) := by
    have : Dict.keys (params.map (fun nc => (nc.1, nc.2.toSubArg))) = params.keys := by
      simp [Dict.keys]
    unfold Dict.Ok; rw [this]; exact pok
  have hc1 : conf1 = { conf0 with dict := { conf0.dict with subs := conf1.dict.subs } } := by
    have : conf1 = (conf0.addSubs (params.map (fun nc => (nc.1, nc.2.toSubArg)))).1 := by
      rw [hadd]
    rw [this]; rfl
  rw [hres] at hconf ⊢
  simp only [Option.some.injEq] at hconf
  obtain ⟨g1, g2, g3, g4, g5, g6, g7⟩ : WF conf0.dict ∧ conf1.dict.cls = cls ∧
      conf1.dict.version = E.version ∧ conf1.dict.settings = conf0.dict.settings ∧
      conf1.dict.mutable = conf0.dict.mutable ∧ conf1.dict.deps = [] ∧
      conf1.config = conf0.config := by
    rw [hc1]; exact ⟨hwf, hcls, hver, rfl, rfl, hdeps, rfl⟩
  have hcheck : conf1.dict.check = conf0.dict.check := by rw [hc1]
  have hsubsdef : conf1.dict.subs = (addSubsLoop conf0.dict.subs
      (params.map (fun nc => (nc.1, nc.2.toSubArg)))).1 := by
    have := congrArg (fun x => x.1.dict.subs) hadd
    exact this.symm
  have haddok : (addSubsLoop conf0.dict.subs (params.map (fun nc => (nc.1, nc.2.toSubArg)))).2
      = none := congrArg Prod.snd hadd
  cases hwf with
  | mk _ w1 w2 w3 w4 w5 w6 w7 =>
  have inv := addSubsLoop_inv conf0.dict.subs (params.map (fun nc => (nc.1, nc.2.toSubArg))) w4
  refine Saveable.mk _ _ rfl rfl rfl ?_ ?_ ?_ ?_ ?_ hnodup hfiles ?_ ?_
  · exact g2
  · exact g3
  · refine WF.mk _ ?_ ?_ ?_ ?_ ?_ ?_ ?_
    · simp only; rw [g4]; exact w1
    · simp only; rw [g5]; exact w2
    · simp only; rw [hcheck]; exact w3
    · simp only; rw [hsubsdef]; exact inv.1
    · simp only; rw [g4, g5]; exact w5
    · simp only; rw [g6]; simpa using hd1
    · intro n cd hm
      simp only at hm
      have hg := Dict.get?_of_mem (by rw [hsubsdef]; exact inv.1) hm
      rw [hsubsdef, addSubsLoop_get conf0.dict.subs _ hnew haddok n] at hg
      split at hg
      · rename_i d' hd'
        cases hg
        obtain ⟨⟨n', c'⟩, hm', he⟩ := List.mem_map.1 (Dict.mem_of_get? hd')
        simp only [Prod.mk.injEq] at he
        obtain ⟨rfl, he⟩ := he
        obtain ⟨-, cc, hcc, rfl⟩ := toSubArg_configured he
        rcases c3 n' c' (Dict.get?_of_mem pok hm') with h2 | h2
        · simp at h2
        · exact (hpassed n' c' cc h2 hcc).1
      · exact w7 n cd (Dict.mem_of_get? hg)
  · show conf1.config = conf1.dict.settings.update conf1.dict.mutable
    rw [g4, g5, g7]; exact hconfig
  · show conf1.dict.deps ++ _ = _
    rw [g6]; rfl
  · intro n s hm
    obtain ⟨-, e2, e3⟩ := hsubs n s hm
    refine ⟨e2, ?_⟩
    rcases e3 with e3 | ⟨d', e3, e4⟩
    · obtain ⟨-, -, cc, k1, k2⟩ := hp n s e3
      refine ⟨cc.dict, ?_, (hpassed n s cc e3 k1).2⟩
      rw [← hconf] at k2
      exact k2
    · refine ⟨d', ?_, e4⟩
      simp only
      rw [hsubsdef]
      exact inv.2.1 n d' e3
  · intro n s hm
    exact (hsubs n s hm).1

theorem exLeaf_saveable (x : Nat) : Saveable exEnv (fun _ => true) (exLeaf x) := by
  refine Saveable.mk _ _ rfl rfl rfl rfl rfl ?_ rfl rfl ?_ ?_ ?_ ?_
  · refine WF.mk _ ?_ ?_ ?_ ?_ ?_ ?_ ?_ <;> simp [Dict.Ok, Dict.keys]
  · simp [exLeaf]
  · intro n s h; simp [exLeaf] at h
  · intro n s h; simp [exLeaf] at h
  · intro n s h; simp [exLeaf] at h

/-- A parent with two parts, as used in the examples. -/
def exTop (n1 n2 : String) : Comp Nat Nat :=
  { cls := "pkg.Top", configured := true, data := none, attrs := []
    subs := [(n1, exLeaf 1), (n2, exLeaf 2)]
    conf := some
      { dict := ⟨"1", "s", "pkg.Top", [], [("depth", 6)], [("rate", 7)],
          [(n1, ⟨"1", "s", "pkg.Leaf", [], [("x", 1)], [("y", 2)], [], [], []⟩),
           (n2, ⟨"1", "s", "pkg.Leaf", [], [("x", 2)], [("y", 2)], [], [], []⟩)],
          [n1, n2], [n2]⟩
        config := [("depth", 6), ("rate", 7)] } }

-- a tree that meets the hypotheses of C07
theorem exTop_saveable : Saveable exEnv (fun _ => true) (exTop "left" "right") := by
  refine Saveable.mk _ _ rfl rfl rfl rfl rfl ?_ rfl rfl ?_ ?_ ?_ ?_
  · refine WF.mk _ ?_ ?_ ?_ ?_ ?_ ?_ ?_
    · simp [Dict.Ok, Dict.keys]
    · simp [Dict.Ok, Dict.keys]
    · simp [Dict.Ok, Dict.keys]
    · simp [Dict.Ok, Dict.keys]
    · simp [Dict.keys]
    · simp [Dict.keys]
    · intro n c h
      simp only [List.mem_cons, Prod.mk.injEq, List.not_mem_nil, or_false] at h
      rcases h with ⟨-, rfl⟩ | ⟨-, rfl⟩ <;>
      refine WF.mk _ ?_ ?_ ?_ ?_ ?_ ?_ ?_ <;> simp [Dict.Ok, Dict.keys]
  · decide
  · intro n s h
    simp only [exTop, List.mem_cons, Prod.mk.injEq, List.not_mem_nil, or_false] at h
    rcases h with ⟨rfl, -⟩ | ⟨rfl, -⟩ <;> decide
  · intro n s h
    simp only [exTop, List.mem_cons, Prod.mk.injEq, List.not_mem_nil, or_false] at h
    rcases h with ⟨rfl, rfl⟩ | ⟨rfl, rfl⟩
    · exact ⟨rfl, _, rfl, rfl⟩
    · exact ⟨rfl, _, rfl, rfl⟩
  · intro n s h
    simp only [exTop, List.mem_cons, Prod.mk.injEq, List.not_mem_nil, or_false] at h
    rcases h with ⟨-, rfl⟩ | ⟨-, rfl⟩
    · exact exLeaf_saveable 1
    · exact exLeaf_saveable 2

example : ∃ (fs : FS Nat Nat) (parent : Path) (name : String),
    ((exTop "left" "right").save false false fs parent name).2 = none ∧
    DepthLe (exTop "left" "right") 2 := by
  refine ⟨fun _ => none, ["tmp"], "model", by decide, DepthLe.mk _ _ ?_⟩
  intro n s h
  simp only [exTop, List.mem_cons, Prod.mk.injEq, List.not_mem_nil, or_false] at h
  rcases h with ⟨-, rfl⟩ | ⟨-, rfl⟩ <;>
  exact DepthLe.mk _ _ (by intro n s h; simp [exLeaf] at h)

/-- The environment in which the example trees are loaded. -/
def exLoad : LoadEnv Nat Nat := ⟨exEnv, fun _ => true, fun c _ => (c, none)⟩

/-- C07 is false for names with dots in them: the names `part.a` and `part.b` are
saved in the same directory. Without `overwrite` an empty location is refused
half way through; with `overwrite` the tree loads, but with the wrong part. -/
theorem C07_dotted_names_violated :
    ∃ (c : Comp Nat Nat) (fs : FS Nat Nat), (∀ p, fs p = none) ∧
      (c.save false false fs [] "model").2 = some .ioError ∧
      (c.save true false fs [] "model").2 = none ∧
      (load exLoad (applyAll fs (c.save true false fs [] "model").1) 3 (Comp.fresh c.cls) []
        "model" []).err = none ∧
      ((Dict.get? (load exLoad (applyAll fs (c.save true false fs [] "model").1) 3
        (Comp.fresh c.cls) [] "model" []).obj.subs "part.a").bind Comp.data) ≠
      ((Dict.get? c.subs "part.a").bind Comp.data) := by
  refine ⟨exTop "part.a" "part.b", fun _ => none, fun _ => rfl, by decide, by decide, by decide,
    by decide⟩

/-! ## C08: save without overwrite keeps existing files -/

/-- C08. With `overwrite=False`, whatever the component and the files, after any
prefix of the file operations of `save` (that is, at every point during the call
and after a crash at it) every file that existed before has its old content. -/
theorem C08_existing_files_untouched (c : Comp V D) (allow : Bool) (fs : FS V D) (parent : Path)
    (name : String) (done rest : List (Eff V D))
    (h : (c.save false allow fs parent name).1 = done ++ rest) (p : Path) (f : File V D)
    (hf : fs p = some f) : applyAll fs done p = some f := by
  rw [applyAll_ne, hf]
  rintro e he rfl
  have := save_fresh allow c fs parent name e (by rw [h]; simp [he])
  rw [hf] at this
  cases this

/-- C08. If the configuration or the data file of the component exists, a save
without `overwrite` raises and performs no file operation at all. -/
theorem C08_own_file_exists (c : Comp V D) (allow : Bool) (fs : FS V D) (parent : Path)
    (name : String)
    (h : fs (parent ++ [stem name] ++ ["configuration.yaml"]) ≠ none ∨
      fs (parent ++ [stem name] ++ ["data.pickle"]) ≠ none) :
    (c.save false allow fs parent name).1 = [] ∧ (c.save false allow fs parent name).2 ≠ none := by
  rw [save_eq]
  split
  · simp
  · split
    · simp
    · rw [if_pos]
      · simp
      · refine ⟨?_, rfl⟩
        rcases h with h | h
        · exact Or.inl (Option.isSome_iff_ne_none.2 h)
        · exact Or.inr (Option.isSome_iff_ne_none.2 h)

/-- C08. A save only ever touches files below its own location, overwriting or not. -/
theorem C08_only_below_location (c : Comp V D) (overwrite allow : Bool) (fs : FS V D)
    (parent : Path) (name : String) (p : Path)
    (h : ∀ t, p ≠ parent ++ [stem name] ++ t) :
    applyAll fs (c.save overwrite allow fs parent name).1 p = fs p := by
  apply applyAll_ne
  intro e he hp
  obtain ⟨t, -, ht⟩ := save_paths overwrite allow c fs parent name e he
  exact h t (hp ▸ ht)

-- a save that stops half way at an existing file of the second part: 8 file
-- operations were done, the existing file is among those C08 talks about
example : ∃ (fs : FS Nat Nat) (p : Path) (f : File Nat Nat), fs p = some f ∧
    ((exTop "left" "right").save false false fs [] "model").1.length = 8 ∧
    ((exTop "left" "right").save false false fs [] "model").2 = some .ioError :=
  ⟨fun p => if p = ["model", "right", "data.pickle"] then some .partialFile else none,
    ["model", "right", "data.pickle"], .partialFile, rfl, by decide, by decide⟩

/-! ## C09: load with replacements -/

/-- C09. If `load` with replacements succeeds on a fresh instance then the
result is as described by `LoadedAs`, at every level of nested replacements. -/
theorem C09_load_with_replacements [DecidableEq V] (L : LoadEnv V D) (fs : FS V D)
    (hhook : UpdateHookOk L.update)
    (hdeps : ∀ p d, fs p = some (.config d) → d.deps.Nodup) (k : Nat) (cls : String)
    (parent : Path) (name : String) (mods : Dict String (Mod V D))
    (h : (load L fs k (Comp.fresh cls) parent name mods).err = none) :
    LoadedAs fs (parent ++ [stem name]) mods (load L fs k (Comp.fresh cls) parent name mods).obj :=
  load_loadedAs L fs hhook hdeps k _ parent name mods rfl h

/-- C09. A given name that is not a dependent sub component of the saved
component makes `load` raise. -/
theorem C09_unknown_name_raises [DecidableEq V] (L : LoadEnv V D) (fs : FS V D)
    (hhook : UpdateHookOk L.update)
    (hdeps : ∀ p d, fs p = some (.config d) → d.deps.Nodup) (k : Nat) (cls : String)
    (parent : Path) (name : String) (mods : Dict String (Mod V D)) (d : Cfg V) (n : String)
    (hfile : fs (parent ++ [stem name] ++ ["configuration.yaml"]) = some (.config d))
    (hn : n ∈ mods.keys) (hbad : n ∉ d.deps) :
    (load L fs k (Comp.fresh cls) parent name mods).err ≠ none := by
  intro h
  have := C09_load_with_replacements L fs hhook hdeps k cls parent name mods h
  cases this with
  | mk _ _ _ d' _ hf _ _ hused =>
    rw [hfile] at hf
    cases hf
    exact hbad (hused n hn)

/-- C09. A replacement that is not configured, or is not compatible with the
saved part although its name is not mutable, makes `load` raise. -/
theorem C09_bad_replacement_raises [DecidableEq V] (L : LoadEnv V D) (fs : FS V D)
    (hhook : UpdateHookOk L.update)
    (hdeps : ∀ p d, fs p = some (.config d) → d.deps.Nodup) (k : Nat) (cls : String)
    (parent : Path) (name : String) (mods : Dict String (Mod V D)) (d : Cfg V) (n : String)
    (m : Comp V D)
    (hfile : fs (parent ++ [stem name] ++ ["configuration.yaml"]) = some (.config d))
    (hn : mods.get? n = some (.comp m))
    (hbad : m.configured = false ∨ (n ∉ d.muts ∧
      ∀ s : Comp V D, LoadedAs fs (parent ++ [stem name] ++ [stem n]) [] s →
        s.cls ≠ m.cls ∨ ∀ sc mc, s.conf = some sc → m.conf = some mc →
          WF sc.dict ∧ WF mc.dict ∧ ¬ Compat sc.dict mc.dict)) :
    (load L fs k (Comp.fresh cls) parent name mods).err ≠ none := by
  intro h
  have := C09_load_with_replacements L fs hhook hdeps k cls parent name mods h
  cases this with
  | mk _ _ _ d' saved hf _ _ hused hplain _ _ hrepl =>
    rw [hfile] at hf
    cases hf
    have hmem := hused n ((Dict.get?_isSome_iff _ _).1 (by rw [hn]; rfl))
    obtain ⟨-, h2, h3⟩ := hrepl n m hmem hn
    rcases hbad with hbad | ⟨hb1, hb2⟩
    · rw [h2] at hbad; cases hbad
    · rcases h3 with h3 | ⟨h3, sc, mc, hsc, hmc, hcompat⟩
      · exact hb1 h3
      · have hs := hplain n hmem (by intro m' hm'; rw [hn] at hm'; cases hm')
        rcases hb2 (saved n) hs with hb | hb
        · exact hb h3
        · obtain ⟨w1, w2, w3⟩ := hb sc mc hsc hmc
          exact w3 (hcompat w1 w2)

/-- C09. Everything else is as saved. Before the hook `_update_sub_components` the component has the
saved data, and the saved configuration in which only the records of the given names are exchanged.
The hook is called exactly if names were given, with exactly these names. -/
theorem C09_rest_as_saved [DecidableEq V] (L : LoadEnv V D) (fs : FS V D)
    (hdeps : ∀ p d, fs p = some (.config d) → d.deps.Nodup) (k : Nat) (cls : String)
    (parent : Path) (name : String) (mods : Dict String (Mod V D))
    (h : (load L fs k (Comp.fresh cls) parent name mods).err = none) :
    ∃ d data records names c,
      fs (parent ++ [stem name] ++ ["configuration.yaml"]) = some (.config d) ∧
      fs (parent ++ [stem name] ++ ["data.pickle"]) = some (.data data) ∧
      (data = .none ∧ c.data = none ∨ ∃ x, data = .dict x ∧ c.data = some x) ∧
      c.cls = cls ∧ c.attrs = [] ∧
      c.conf = some ⟨{ d with subs := records }, d.settings.update d.mutable⟩ ∧
      (∀ n, n ∉ mods.keys → Dict.get? records n = Dict.get? d.subs n) ∧
      (∀ n, n ∈ names ↔ n ∈ mods.keys) ∧
      (load L fs k (Comp.fresh cls) parent name mods).obj =
        { (if names = [] then c else (L.update c names).1) with configured := true } := by
  obtain ⟨k', d, data, conf, st, obj, hk, -, -, hf1, hf2, hdata, hinit, hver, hcls, hloop, hobj,
    hmods, hu1, hu2⟩ := load_success L fs k (Comp.fresh cls) parent name mods h
  have hconf : conf = ⟨d, d.settings.update d.mutable⟩ := by
    simp only [Conf.init, combineSettings, bind, Except.bind] at hinit
    split at hinit
    · cases hinit
    · split at hinit
      · cases hinit
      · rename_i hx
        split at hx
        · cases hx
        · cases hx
          cases hinit
          rw [← hver]
          rcases d with ⟨⟩
          rfl
  subst hconf
  have hnd : d.deps.Nodup := hdeps _ _ hf1
  obtain ⟨a1, a2, -⟩ := loadLoop_rest L _ _ _ _ _ hnd (by simp) hloop
  obtain ⟨saved, -, -, -, a4, -, -, a7, -⟩ := loadLoop_spec L _ _ _ _ _ hnd (by simp) hloop
  simp only at a1 a2 a4 a7
  have hnames : ∀ n, n ∈ st.updated ↔ n ∈ mods.keys := by
    intro n
    constructor
    · intro hn
      by_cases hm : n ∈ mods.keys
      · exact hm
      · have := (a2 n ((Dict.get?_eq_none_iff _ _).2 hm)).2 hn
        simp at this
    · intro hn
      have hm : Dict.get? mods n ≠ none := fun h => (Dict.get?_eq_none_iff _ _).1 h hn
      have := a4 n
      rw [hmods] at this
      by_cases hd : n ∈ d.deps
      · exact a7 n hd hm
      · rw [if_neg hd] at this
        exact absurd this.symm hm
  refine ⟨d, data, st.conf.dict.subs, st.updated, obj, hf1, hf2, ?_, ?_, ?_, ?_, ?_, hnames, ?_⟩
  · cases data with
    | none => exact Or.inl ⟨rfl, by rw [hobj]⟩
    | dict x => exact Or.inr ⟨x, rfl, by rw [hobj]⟩
    | other => exact absurd rfl hdata
  · rw [hobj]; rfl
  · rw [hobj]; rfl
  · rw [hobj]; simp only; rw [a1]
  · intro n hn
    exact (a2 n ((Dict.get?_eq_none_iff _ _).2 hn)).1
  · by_cases hu : st.updated = []
    · rw [hu1 hu, if_pos hu]
    · rw [(hu2 hu).2, if_neg hu]

/-- C09. A successful load has removed every entry from the dictionary of
replacements the caller passed in (so that a second load with the same
dictionary gets no replacements). -/
theorem C09_caller_dictionary_emptied [DecidableEq V] (L : LoadEnv V D) (fs : FS V D) (k : Nat)
    (c : Comp V D) (parent : Path) (name : String) (mods : Dict String (Mod V D))
    (h : (load L fs k c parent name mods).err = none) :
    (load L fs k c parent name mods).mods = [] := by
  obtain ⟨k', d, data, conf, st, obj, -, -, -, -, -, -, -, -, -, -, -, -, hu1, hu2⟩ :=
    load_success L fs k c parent name mods h
  by_cases hu : st.updated = []
  · rw [hu1 hu]
  · rw [(hu2 hu).2]

/-- The files of the example tree. -/
def exFiles : FS Nat Nat :=
  applyAll (fun _ => none) ((exTop "left" "right").save false false (fun _ => none) [] "model").1

-- C05: a history in which save raises, a load fails, a load succeeds and the later
-- configure and load raise
example : (∀ c names, (exLoad.update c names).1.configured = c.configured) ∧
    (objRun exContainers exLoad 3 (Comp.fresh "pkg.Top", exFiles)
      [.save false false [] "copy", .load [] "nowhere" [], .load [] "model" [],
       .configure (exHook [] []) [], .load [] "model" [], .save false false [] "copy"]).2.map
      (fun x => x.2)
      = [some .valueError, some .fileNotFoundError, none, some .valueError, some .valueError, none] :=
  ⟨fun _ _ => rfl, by decide⟩
theorem applyAll_source (fs : FS V D) (effs : List (Eff V D)) (p : Path) (f : File V D)
    (h : applyAll fs effs p = some f) :
    fs p = some f ∨ f = .partialFile ∨ Eff.write p f ∈ effs := by
  unfold applyAll at h
  induction effs generalizing fs with
  | nil => exact Or.inl h
  | cons e rest ih =>
    rcases ih _ h with h1 | h1 | h1
    · cases e with
      | trunc q =>
        simp only [Eff.apply] at h1
        split at h1
        · cases h1; exact Or.inr (Or.inl rfl)
        · exact Or.inl h1
      | write q g =>
        simp only [Eff.apply] at h1
        split at h1
        · rename_i hq; cases h1; subst hq; exact Or.inr (Or.inr (by simp))
        · exact Or.inl h1
    · exact Or.inr (Or.inl h1)
    · exact Or.inr (Or.inr (by simp [h1]))

theorem exFiles_deps : ∀ p d, exFiles p = some (.config d) → d.deps.Nodup := by
  intro p d h
  rcases applyAll_source _ _ _ _ h with h | h | h
  · cases h
  · cases h
  · have : ∀ e, e ∈ ((exTop "left" "right").save false false (fun _ => none) [] "model").1 →
        ∀ p d, e = Eff.write p (.config d) → d.deps.Nodup := by
      have hall : ((exTop "left" "right").save false false (fun _ => none) [] "model").1.all
          (fun e => match e with
            | .write _ (.config d) => decide d.deps.Nodup
            | _ => true) = true := by decide
      intro e he p d hd
      have := List.all_eq_true.1 hall e he
      rw [hd] at this
      simpa using this
    exact this _ h p d rfl

-- a load with a replacement meets the hypotheses of C09
example : UpdateHookOk exLoad.update ∧
    (∀ p d, exFiles p = some (.config d) → d.deps.Nodup) ∧
    (load exLoad exFiles 3 (Comp.fresh "pkg.Top") [] "model"
      [("right", .comp (exLeaf 5)), ("left", .comp (exLeaf 1))]).err = none ∧
    ((Dict.get? (load exLoad exFiles 3 (Comp.fresh "pkg.Top") [] "model"
      [("right", .comp (exLeaf 5)), ("left", .comp (exLeaf 1))]).obj.subs "right").bind Comp.data)
      = some [("mean", 5)] :=
  ⟨fun c _ _ => ⟨rfl, rfl, fun conf h => ⟨conf, h, rfl⟩⟩, exFiles_deps, by decide, by decide⟩
-- an incompatible replacement of a part that is not mutable is refused
example : (load exLoad exFiles 3 (Comp.fresh "pkg.Top") [] "model"
    [("left", .comp (exLeaf 5))]).err = some .valueError := by decide

/-! ## C63: another version -/

/-- C63 is false: loading what another version of the software saved is meant to
warn and go on, but always raises. -/
theorem C63_other_version_violated [DecidableEq V] (L : LoadEnv V D) (fs : FS V D) (k : Nat)
    (c : Comp V D) (parent : Path) (name : String) (mods : Dict String (Mod V D)) (d : Cfg V)
    (hfile : fs (parent ++ [stem name] ++ ["configuration.yaml"]) = some (.config d))
    (hver : d.version ≠ L.env.version) :
    (load L fs k c parent name mods).err ≠ none := by
  intro h
  obtain ⟨k', d', data, conf, st, obj, -, -, -, hf, -, -, -, hv, -⟩ :=
    load_success L fs k c parent name mods h
  rw [cfgPath, hfile] at hf
  cases hf
  exact hver hv

-- the example tree loaded by version "2"
example : (load { exLoad with env := ⟨"2", "s"⟩ } exFiles 3 (Comp.fresh "pkg.Top") [] "model"
    []).err = some .attributeError ∧
    (load exLoad exFiles 3 (Comp.fresh "pkg.Top") [] "model" []).err = none := by decide

end Verif.Component
