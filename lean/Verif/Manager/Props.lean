/- C137: the models of a loaded manager can be used with its data handler. -/
import Verif.Manager.Model
import Verif.Manager.Spec
import Verif.Component.ResaveProps
import Verif.Training.Lemmas

namespace Verif.Manager
open Verif.Py Verif.Component Verif.Training
variable {V D : Type} [DecidableEq V]

theorem checkModel_iff (c m : Comp V D)
    (hh : ∀ handler h, Dict.get? c.subs "data_handler" = some handler → handler.conf = some h →
      WF h.dict) (hm : ∀ conf, m.conf = some conf → WF conf.dict) :
    checkModel c.subs m = .ok () ↔ Serves c m := by
  unfold checkModel Serves
  cases h1 : m.conf with
  | none => simp
  | some conf =>
  have w := hm conf h1
  cases w with
  | mk _ _ _ _ _ _ _ wrec =>
  cases h2 : Dict.get? conf.dict.subs "data_trafo" with
  | none => simp [h2]
  | some trafo =>
  have wt := wrec _ _ (Dict.mem_of_get? h2)
  have it := initChecks_of_wf wt
  cases wt with
  | mk _ _ _ _ _ _ _ wrec' =>
  cases h3 : Dict.get? trafo.subs "data_handler" with
  | none => simp [h2, it, h3]
  | some recorded =>
  have wr := wrec' _ _ (Dict.mem_of_get? h3)
  cases h4 : Dict.get? c.subs "data_handler" with
  | none => simp [h2, it, h3, initChecks_of_wf wr]
  | some handler =>
  cases h5 : handler.conf with
  | none => simp [h2, it, h3, initChecks_of_wf wr, h5]
  | some h =>
  rcases C03_is_compatible_decides _ _ (hh handler h h4 h5) wr with ⟨e1, e2⟩ | ⟨e1, e2⟩
  · simp [h2, it, h3, initChecks_of_wf wr, h5, e1, e2]
  · simp [h2, it, h3, initChecks_of_wf wr, h5, e1, e2]

theorem checkAll_iff (c : Comp V D) (l : List (String × Comp V D))
    (hh : ∀ handler h, Dict.get? c.subs "data_handler" = some handler → handler.conf = some h →
      WF h.dict) (hm : ∀ n m conf, (n, m) ∈ l → m.conf = some conf → WF conf.dict) :
    checkAll c.subs l = .ok () ↔ ∀ n m, (n, m) ∈ l → n ≠ "data_handler" → Serves c m := by
  induction l with
  | nil => simp [checkAll]
  | cons x rest ih =>
    obtain ⟨name, m⟩ := x
    have ih := ih (fun n m conf hm' => hm n m conf (List.mem_cons_of_mem _ hm'))
    have hone := checkModel_iff c m hh (fun conf hc => hm name m conf (by simp) hc)
    rw [checkAll]
    split
    · rename_i hn
      rw [ih]
      constructor
      · intro h n m' hmem hne
        rcases List.mem_cons.1 hmem with he | he
        · cases he; exact absurd hn hne
        · exact h n m' he hne
      · intro h n m' hmem hne
        exact h n m' (List.mem_cons_of_mem _ hmem) hne
    · rename_i hn
      cases hc : checkModel c.subs m with
      | error e =>
        simp only
        constructor
        · intro h; cases h
        · intro h
          have := hone.2 (h name m (by simp) hn)
          rw [hc] at this; cases this
      | ok u =>
        simp only
        rw [ih]
        constructor
        · intro h n m' hmem hne
          rcases List.mem_cons.1 hmem with he | he
          · cases he; exact hone.1 hc
          · exact h n m' he hne
        · intro h n m' hmem hne
          exact h n m' (List.mem_cons_of_mem _ hmem) hne

omit [DecidableEq V] in
theorem PartsWF.handler {c : Comp V D} (h : PartsWF c) (handler : Comp V D) (hc : Conf V)
    (h1 : Dict.get? c.subs "data_handler" = some handler) (h2 : handler.conf = some hc) :
    WF hc.dict := h _ _ hc (Dict.mem_of_get? h1) h2

theorem check_iff (c : Comp V D) (h : PartsWF c) :
    checkAll c.subs c.subs = .ok () ↔ Consistent c :=
  checkAll_iff c c.subs h.handler (fun n m conf => h n m conf)

theorem loadManager_success (L : LoadEnv V D) (fs : FS V D) (k : Nat) (cls : String)
    (parent : Path) (name : String) (mods : Dict String (Mod V D))
    (h : (loadManager L fs k cls parent name mods).err = none) :
    (load (withHook L cls) fs k (Comp.fresh cls) parent name mods).err = none ∧
    loadManager L fs k cls parent name mods = load (withHook L cls) fs k (Comp.fresh cls) parent name mods ∧
    checkAll (loadManager L fs k cls parent name mods).obj.subs
      (loadManager L fs k cls parent name mods).obj.subs = .ok () := by
  unfold loadManager at h ⊢
  simp only at h ⊢
  generalize load _ fs k (Comp.fresh cls) parent name mods = r at h ⊢
  cases h1 : r.err with
  | some e => rw [h1] at h; simp only at h; rw [h1] at h; cases h
  | none =>
    rw [h1] at h
    simp only at h ⊢
    cases h2 : checkAll r.obj.subs r.obj.subs with
    | error e => rw [h2] at h; simp at h
    | ok u => simp only [h2, and_self]

theorem hook_ok (L : LoadEnv V D) (hhook : UpdateHookOk L.update) (cls : String) :
    UpdateHookOk (withHook L cls).update := by
  intro c names h
  simp only [withHook] at h ⊢
  by_cases hc : c.cls = cls
  · simp only [if_pos hc] at h ⊢
    have : (managerUpdate c names).1 = c := by
      unfold managerUpdate
      split
      · rfl
      · split <;> rfl
    rw [this]
    exact ⟨rfl, rfl, fun conf hconf => ⟨conf, hconf, rfl⟩⟩
  · simp only [if_neg hc] at h ⊢
    exact hhook c names h

/-- C137. In every manager that was loaded, with any replacements, the data handler is compatible
with the one recorded in the data transformation of each model. -/
theorem C137_consistent (L : LoadEnv V D) (fs : FS V D) (k : Nat) (cls : String) (parent : Path)
    (name : String) (mods : Dict String (Mod V D))
    (h : (loadManager L fs k cls parent name mods).err = none)
    (hwf : PartsWF (loadManager L fs k cls parent name mods).obj) :
    Consistent (loadManager L fs k cls parent name mods).obj :=
  (check_iff _ hwf).1 (loadManager_success L fs k cls parent name mods h).2.2

/-- C137. Only the data handler of a manager can be replaced: naming anything else raises. -/
theorem C137_only_handler (L : LoadEnv V D) (fs : FS V D) (k : Nat) (cls : String) (parent : Path)
    (name : String) (mods : Dict String (Mod V D))
    (hdeps : ∀ p d, fs p = some (.config d) → d.deps.Nodup) (n : String) (hn : n ∈ mods.keys)
    (hne : n ≠ "data_handler") : (loadManager L fs k cls parent name mods).err ≠ none := by
  intro h
  obtain ⟨h1, -, -⟩ := loadManager_success L fs k cls parent name mods h
  obtain ⟨k', d, data, conf, st, obj, -, -, -, hf, -, -, hinit, -, -, hloop, hobj, hmods, -, hu⟩ :=
    load_success _ fs k (Comp.fresh cls) parent name mods h1
  have hnd : conf.dict.deps.Nodup := by
    have : conf.dict.deps = d.deps := by
      simp only [Conf.init, bind, Except.bind] at hinit
      split at hinit
      · cases hinit
      · split at hinit
        · cases hinit
        · cases hinit; rfl
    rw [this]; exact hdeps _ _ hf
  obtain ⟨saved, -, -, -, a4, -, -, a7, -⟩ := loadLoop_spec _ _ _ _ _ _ hnd (by simp) hloop
  simp only at a4 a7
  have hm : Dict.get? mods n ≠ none := fun h => (Dict.get?_eq_none_iff _ _).1 h hn
  have hup : n ∈ st.updated := by
    have := a4 n
    rw [hmods] at this
    by_cases hd : n ∈ conf.dict.deps
    · exact a7 n hd hm
    · rw [if_neg hd] at this
      exact absurd this.symm hm
  have hne' : st.updated ≠ [] := by intro e; rw [e] at hup; simp at hup
  have := (hu hne').1
  have hc : obj.cls = cls := by rw [hobj]; rfl
  simp only [withHook, if_pos hc] at this
  unfold managerUpdate at this
  rw [if_pos (List.any_eq_true.2 ⟨n, hup, by simpa using hne⟩)] at this
  simp at this

/-- C137. The models of a loaded manager are the saved ones, whatever is replaced. -/
theorem C137_saved_models (L : LoadEnv V D) (fs : FS V D) (hhook : UpdateHookOk L.update)
    (k : Nat) (cls : String) (parent : Path) (name : String) (mods : Dict String (Mod V D))
    (hdeps : ∀ p d, fs p = some (.config d) → d.deps.Nodup)
    (h : (loadManager L fs k cls parent name mods).err = none) :
    ∃ d, fs (parent ++ [stem name] ++ ["configuration.yaml"]) = some (.config d) ∧
      ∀ n ∈ d.deps, n ≠ "data_handler" → ∃ m,
        Dict.get? (loadManager L fs k cls parent name mods).obj.subs n = some m ∧
        LoadedAs fs (parent ++ [stem name] ++ [stem n]) [] m := by
  have hno : ∀ n, n ≠ "data_handler" → Dict.get? mods n = none := by
    intro n hn
    rw [Dict.get?_eq_none_iff]
    intro hk
    exact C137_only_handler L fs k cls parent name mods hdeps n hk hn h
  obtain ⟨h1, h2, -⟩ := loadManager_success L fs k cls parent name mods h
  have := C09_load_with_replacements _ fs (hook_ok L hhook cls) hdeps k cls parent name mods h1
  rw [h2]
  cases this with
  | mk _ _ _ d saved hf _ _ _ hplain _ hkeep =>
    refine ⟨d, hf, fun n hn hne => ⟨saved n, hkeep n hn ?_, hplain n hn ?_⟩⟩
    · intro m hm; rw [hno n hne] at hm; cases hm
    · intro m hm; rw [hno n hne] at hm; cases hm

omit [DecidableEq V] in
theorem partsWF_of_saveable {env : Env} {known : String → Bool} {c : Comp V D}
    (hsv : Saveable env known c) : PartsWF c := by
  cases hsv with
  | mk _ _ _ _ _ _ _ _ _ _ _ _ _ hrec =>
    intro n m conf hm hc
    exact ((hrec n m hm).conf_spec hc).2

/-- C137. A saved manager can be loaded as it is exactly if it is consistent; then it is what was
saved. -/
theorem C137_reload (L : LoadEnv V D) (c : Comp V D) (hsv : Saveable L.env L.known c)
    (ow allow : Bool) (fs : FS V D) (parent : Path) (name : String) (k : Nat) (hk : DepthLe c k)
    (hsaved : (c.save ow allow fs parent name).2 = none) :
    (Consistent c → loadManager L (applyAll fs (c.save ow allow fs parent name).1) k c.cls parent
      name [] = ⟨c, [], none⟩) ∧
    (¬ Consistent c → (loadManager L (applyAll fs (c.save ow allow fs parent name).1) k c.cls parent
      name []).err ≠ none) := by
  have hwf : PartsWF c := partsWF_of_saveable hsv
  have hl := C07_save_load_round_trip (withHook L c.cls) c hsv ow allow fs parent name k
    hk hsaved
  unfold loadManager
  rw [hl]
  constructor
  · intro hc
    simp only [(check_iff c hwf).2 hc]
  · intro hc
    simp only
    cases h : checkAll c.subs c.subs with
    | ok u => exact absurd ((check_iff c hwf).1 h) hc
    | error e => simp

theorem hook_keeps (L : LoadEnv V D) (hhook : HookKeeps L.update) (cls : String) :
    HookKeeps (withHook L cls).update := by
  intro c names h
  simp only [withHook] at h ⊢
  by_cases hc : c.cls = cls
  · simp only [if_pos hc] at h ⊢
    have : (managerUpdate c names).1 = c := by
      unfold managerUpdate
      split
      · rfl
      · split <;> rfl
    rw [this]
    exact ⟨rfl, rfl, rfl, fun conf hconf => Or.inl hconf⟩
  · simp only [if_neg hc] at h ⊢
    exact hhook c names h

/-- C137, for managers and replacements that were configured (C06) or loaded before: whatever is
loaded from where the manager was saved is consistent, can be saved and loaded again, and does come
back then. -/
theorem C137_history (L : LoadEnv V D) (hhook : HookKeeps L.update) (c : Comp V D)
    (hsv : Saveable L.env L.known c) (ow allow : Bool) (fs : FS V D) (parent : Path) (name : String)
    (hsaved : (c.save ow allow fs parent name).2 = none) (k : Nat) (cls : String)
    (mods : Dict String (Mod V D))
    (hmods : ∀ n m r, (n, m) ∈ mods → Replaces r m →
      Saveable L.env L.known r ∧ L.known r.cls = true)
    (h : (loadManager L (applyAll fs (c.save ow allow fs parent name).1) k cls parent name
      mods).err = none) :
    Saveable L.env L.known
      (loadManager L (applyAll fs (c.save ow allow fs parent name).1) k cls parent name mods).obj ∧
    Consistent
      (loadManager L (applyAll fs (c.save ow allow fs parent name).1) k cls parent name mods).obj := by
  obtain ⟨h1, h2, -⟩ := loadManager_success L _ k cls parent name mods h
  have hst := save_stored L.env L.known ow allow c hsv fs parent name hsaved
  have hs := (load_saveable (withHook L cls) _ (hook_keeps L hhook cls) c hsv k cls parent name mods
    hst hmods h1).1
  rw [← h2] at hs
  exact ⟨hs, C137_consistent L _ k cls parent name mods h (partsWF_of_saveable hs)⟩

/-- C137. A replacement that does not fit one of the models is refused. -/
theorem C137_refused (L : LoadEnv V D) (fs : FS V D) (k : Nat) (cls : String) (parent : Path)
    (name : String) (mods : Dict String (Mod V D)) (n : String) (m : Comp V D)
    (hwf : PartsWF (loadManager L fs k cls parent name mods).obj)
    (hm : (n, m) ∈ (loadManager L fs k cls parent name mods).obj.subs) (hn : n ≠ "data_handler")
    (hbad : ¬ Serves (loadManager L fs k cls parent name mods).obj m) :
    (loadManager L fs k cls parent name mods).err ≠ none := by
  intro h
  exact hbad (C137_consistent L fs k cls parent name mods h hwf n m hm hn)

/-! A manager with a data handler and a model, whose data transformation is recorded with the data
handler it was made for. -/

def exHandlerConf (x y : Nat) : Cfg Nat :=
  ⟨"1", "s", "pkg.Handler", [], [("x", x)], [("y", y)], [], [], []⟩
def exHandler (x y : Nat) : Comp Nat Nat :=
  { cls := "pkg.Handler", configured := true, data := none, subs := [], attrs := []
    conf := some { dict := exHandlerConf x y, config := [("x", x), ("y", y)] } }
def exModelConf (x : Nat) : Cfg Nat :=
  ⟨"1", "s", "pkg.Model", [], [], [],
    [("data_trafo", ⟨"1", "s", "pkg.Trafo", [], [], [], [("data_handler", exHandlerConf x 2)],
      [], []⟩)], [], []⟩
def exModel (x : Nat) : Comp Nat Nat :=
  { cls := "pkg.Model", configured := true, data := none, subs := [], attrs := []
    conf := some { dict := exModelConf x, config := [] } }
def exManager (x x' y : Nat) : Comp Nat Nat :=
  { cls := "pkg.Manager", configured := true, data := none, attrs := []
    subs := [("data_handler", exHandler x y), ("models_0000", exModel x')]
    conf := some
      { dict := ⟨"1", "s", "pkg.Manager", [], [], [],
          [("data_handler", exHandlerConf x y), ("models_0000", exModelConf x')],
          ["data_handler", "models_0000"], []⟩
        config := [] } }

theorem exHandlerConf_wf (x y : Nat) : WF (exHandlerConf x y) := by
  refine WF.mk _ ?_ ?_ ?_ ?_ ?_ ?_ ?_ <;> simp [Dict.Ok, Dict.keys, exHandlerConf]
theorem exModelConf_wf (x : Nat) : WF (exModelConf x) := by
  refine WF.mk _ ?_ ?_ ?_ ?_ ?_ ?_ ?_ <;> try simp [Dict.Ok, Dict.keys, exModelConf]
  refine WF.mk _ ?_ ?_ ?_ ?_ ?_ ?_ ?_ <;> simp [Dict.Ok, Dict.keys, exHandlerConf_wf]
theorem exHandler_saveable (x y : Nat) : Saveable exEnv (fun _ => true) (exHandler x y) := by
  refine Saveable.mk _ _ rfl rfl rfl rfl rfl (exHandlerConf_wf x y) rfl rfl ?_ ?_ ?_ ?_ <;>
    simp [exHandler, exHandlerConf]
theorem exModel_saveable (x : Nat) : Saveable exEnv (fun _ => true) (exModel x) := by
  refine Saveable.mk _ _ rfl rfl rfl rfl rfl (exModelConf_wf x) rfl rfl ?_ ?_ ?_ ?_ <;>
    simp [exModel, exModelConf]
theorem exManager_saveable (x x' y : Nat) :
    Saveable exEnv (fun _ => true) (exManager x x' y) := by
  refine Saveable.mk _ _ rfl rfl rfl rfl rfl ?_ rfl rfl ?_ ?_ ?_ ?_
  · refine WF.mk _ ?_ ?_ ?_ ?_ ?_ ?_ ?_ <;> try simp [Dict.Ok, Dict.keys]
    intro n c h
    rcases h with ⟨-, rfl⟩ | ⟨-, rfl⟩
    · exact exHandlerConf_wf x y
    · exact exModelConf_wf x'
  · show [stem "data_handler", stem "models_0000"].Nodup
    decide
  · intro n s h
    simp only [exManager, List.mem_cons, Prod.mk.injEq, List.not_mem_nil, or_false] at h
    rcases h with ⟨rfl, -⟩ | ⟨rfl, -⟩ <;> decide
  · intro n s h
    simp only [exManager, List.mem_cons, Prod.mk.injEq, List.not_mem_nil, or_false] at h
    rcases h with ⟨rfl, rfl⟩ | ⟨rfl, rfl⟩
    · exact ⟨rfl, _, rfl, rfl⟩
    · exact ⟨rfl, _, rfl, rfl⟩
  · intro n s h
    simp only [exManager, List.mem_cons, Prod.mk.injEq, List.not_mem_nil, or_false] at h
    rcases h with ⟨-, rfl⟩ | ⟨-, rfl⟩
    · exact exHandler_saveable x y
    · exact exModel_saveable x'

/-- The files of the example. -/
def exManagerFiles (x x' y : Nat) : FS Nat Nat :=
  applyAll (fun _ => none) ((exManager x x' y).save false false (fun _ => none) [] "manager").1

-- C137: loaded with a data handler that has another mutable setting; replacing the model raises,
-- and so does a data handler with other settings
example : (loadManager exLoad (exManagerFiles 1 1 2) 3 "pkg.Manager" [] "manager"
    [("data_handler", .comp (exHandler 1 5))]).err = none ∧
    Dict.get? (loadManager exLoad (exManagerFiles 1 1 2) 3 "pkg.Manager" [] "manager"
      [("data_handler", .comp (exHandler 1 5))]).obj.subs "data_handler" = some (exHandler 1 5) := by
  exact ⟨by decide, by rfl⟩
example : (loadManager exLoad (exManagerFiles 1 1 2) 3 "pkg.Manager" [] "manager"
    [("models_0000", .comp (exModel 1))]).err = some .valueError := by decide
example : (loadManager exLoad (exManagerFiles 1 1 2) 3 "pkg.Manager" [] "manager"
    [("data_handler", .comp (exHandler 2 2))]).err ≠ none := by decide
-- the hypotheses of C137_reload, for a consistent and for an inconsistent manager
example : ((exManager 1 1 2).save false false (fun _ => none) [] "manager").2 = none ∧
    ((exManager 1 7 2).save false false (fun _ => none) [] "manager").2 = none ∧
    (loadManager exLoad (exManagerFiles 1 7 2) 3 "pkg.Manager" [] "manager" []).err =
      some .valueError := by decide
-- a manager without its own consistent handler: the file is for a replaced one
example : ¬ Consistent (exManager 1 7 2) := by
  intro h
  have := (C137_reload exLoad (exManager 1 7 2) (exManager_saveable 1 7 2) false false (fun _ => none)
    [] "manager" 3 (by
      refine DepthLe.mk _ _ ?_
      intro n s h
      simp only [exManager, List.mem_cons, Prod.mk.injEq, List.not_mem_nil, or_false] at h
      rcases h with ⟨-, rfl⟩ | ⟨-, rfl⟩
      · exact DepthLe.mk _ _ (by intro n s h; simp [exHandler] at h)
      · exact DepthLe.mk _ _ (by intro n s h; simp [exModel] at h)) (by decide)).1 h
  have h2 : (loadManager exLoad (exManagerFiles 1 7 2) 3 "pkg.Manager" [] "manager" []).err =
      some .valueError := by decide
  have h3 := congrArg LoadResult.err this
  exact absurd (h2.symm.trans h3) (by simp)

end Verif.Manager
