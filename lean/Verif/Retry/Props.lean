import Verif.Retry.Lemmas

/-!
Properties C128 and C129: repeated attempts to set up a component, and what a data handler says about
itself.
-/

namespace Verif.Retry
open Verif.Py Verif.Component Verif.Access
variable {V D : Type} [DecidableEq V]

/-! ## C128: a failed attempt does not spoil a component -/

/-- C128. After any number of failed attempts to configure or load a component it is not configured, and
`configure` acts as on a new object: it raises the same exception, or it ends with the same component. -/
theorem C128_configure (C : Containers V) (cls : String) (c : Comp V D)
    (hf : Failed C (Comp.fresh cls) c) (hook : Hook V D) (kwargs : Dict String (Arg V D)) :
    c.configured = false ∧
    (c.configure C hook kwargs).2 = ((Comp.fresh cls).configure C hook kwargs).2 ∧
    ((c.configure C hook kwargs).2 = none →
      (c.configure C hook kwargs).1 = ((Comp.fresh cls).configure C hook kwargs).1) := by
  obtain ⟨h1, h2, h3⟩ := failed_base C cls c hf
  exact ⟨h1, configure_same C hook c (Comp.fresh cls) kwargs h1 h2 h3⟩

/-- C128. After any number of failed attempts `load` raises the same exception as on a new object, or it
ends with the same configuration, the same data, and the same sub components as far as they are saved in
the directory. What is missing: sub components that are not saved there but were left by a failed attempt
remain, see `C128_stale_violated`; loading with replacements. -/
theorem C128_load_partial (C : Containers V) (cls : String) (c : Comp V D)
    (hf : Failed C (Comp.fresh cls) c) (L : LoadEnv V D) (fs : FS V D) (depth : Nat) (parent : Path)
    (name : String) :
    (load L fs depth c parent name []).err = (load L fs depth (Comp.fresh cls) parent name []).err ∧
    ((load L fs depth c parent name []).err = none →
      ∃ cfg conf, fs (parent ++ [stem name] ++ ["configuration.yaml"]) = some (.config cfg) ∧
        Conf.init L.env (some cfg.sha) cfg = .ok conf ∧
        (load L fs depth c parent name []).obj.conf = some conf ∧
        (load L fs depth (Comp.fresh cls) parent name []).obj.conf = some conf ∧
        (load L fs depth c parent name []).obj.data =
          (load L fs depth (Comp.fresh cls) parent name []).obj.data ∧
        (load L fs depth c parent name []).obj.configured = true ∧
        ∀ n, Dict.get? (load L fs depth c parent name []).obj.subs n =
          if n ∈ conf.dict.deps
          then Dict.get? (load L fs depth (Comp.fresh cls) parent name []).obj.subs n
          else Dict.get? c.subs n) := by
  obtain ⟨h1, h2, h3⟩ := failed_base C cls c hf
  obtain ⟨a, b⟩ := load_same L fs depth c (Comp.fresh cls) parent name h1 h2 h3
  refine ⟨a, fun h => ?_⟩
  obtain ⟨cfg, conf, e1, e2, e3, s, e4, e5, -⟩ := b h
  have hconf : (load L fs depth c parent name []).obj.configured = true := by
    obtain ⟨k', d, data, conf, st, obj, -, -, -, -, -, -, -, -, -, -, -, -, hu1, hu2⟩ :=
      load_success L fs depth c parent name [] h
    by_cases hu : st.updated = []
    · rw [hu1 hu]
    · rw [(hu2 hu).2]
  refine ⟨cfg, conf, e1, e2, e3, ?_, ?_, hconf, fun n => ?_⟩
  · rw [e4] at e3; exact e3
  · rw [e4]
  · rw [e4]; exact e5 n

namespace Ex

/-- The recorded configuration of a model. -/
def leafCfg (x : Nat) : Cfg Nat := ⟨"1", "s", "pkg.Leaf", [], [("x", x)], [("y", 2)], [], [], []⟩

/-- A manager with the given models. -/
def manager (l : List (String × Nat)) : Comp Nat Nat :=
  { cls := "pkg.Manager", configured := true, data := some [], attrs := []
    subs := l.map fun nx => (nx.1, exLeaf nx.2)
    conf := some
      { dict := ⟨"1", "s", "pkg.Manager", [], [("depth", 6)], [], l.map fun nx => (nx.1, leafCfg nx.2),
          l.map Prod.fst, []⟩
        config := [("depth", 6)] } }

/-- A manager with three models, the files of the last of which are lost, and a manager with one. -/
def files : FS Nat Nat := fun p =>
  if p = ["a", "models_0002", "data.pickle"] then none
  else applyAll (applyAll (fun _ => none)
    ((manager [("models_0000", 1), ("models_0001", 2), ("models_0002", 3)]).save false false
      (fun _ => none) [] "a").1)
    ((manager [("models_0000", 7)]).save false false (fun _ => none) [] "b").1 p

end Ex

/-- C128 is false for `load`: a manager that could not be loaded from a first directory is loaded from a
second one, with a single model in it. It now has a second model, that of the first directory. -/
theorem C128_stale_violated :
    ∃ (fs : FS Nat Nat) (c : Comp Nat Nat),
      Failed exContainers (Comp.fresh "pkg.Manager") c ∧
      (load exLoad fs 3 c [] "b" []).err = none ∧
      Dict.keys (load exLoad fs 3 (Comp.fresh "pkg.Manager") [] "b" []).obj.subs = ["models_0000"] ∧
      Dict.keys (load exLoad fs 3 c [] "b" []).obj.subs = ["models_0000", "models_0001"] ∧
      ((Dict.get? (load exLoad fs 3 c [] "b" []).obj.subs "models_0001").bind Comp.data) =
        some [("mean", 2)] := by
  refine ⟨Ex.files, ((Attempt.load exLoad Ex.files 3 [] "a" []).run exContainers
    (Comp.fresh "pkg.Manager")).1, Failed.more _ _ .fileNotFoundError Failed.none ?_ ?_, ?_, ?_, ?_, ?_⟩
  · exact fun c names => ⟨rfl, rfl, rfl⟩
  all_goals decide

/-- C128. A modular data handler with failed attempts behind it acts as a new one when it is configured, as
long as its attribute `modules_are_loaded` is `False`. What is missing: see `C128_handler_violated`. -/
theorem C128_handler_partial (cls : String) (h : Handler V D) (hf : HFailed (Handler.fresh cls) h)
    (hl : h.modulesAreLoaded = false) (X : HEnv V D) (kwargs : Dict String (Arg V D)) :
    (h.configure X kwargs).2 = ((Handler.fresh cls).configure X kwargs).2 ∧
    ((h.configure X kwargs).2 = none →
      (h.configure X kwargs).1 = ((Handler.fresh cls).configure X kwargs).1) := by
  obtain ⟨h1, h2, h3⟩ := hfailed_base cls h hf
  have hl : h.loaded = false := hl
  have hcls : (Handler.fresh cls : Handler V D).comp.cls = cls := rfl
  obtain ⟨a, b⟩ := configure_same X.containers (fun kw => (handlerHook X cls false kw).2)
    h.comp (Comp.fresh cls) kwargs h1 h2 h3
  have hr : reached h.comp kwargs = reached (Comp.fresh cls : Comp V D) kwargs := by
    simp only [reached, h1, h3]; rfl
  refine ⟨?_, fun hn => ?_⟩
  · simp only [Handler.configure, h2, hl]
    exact a
  · simp only [Handler.configure, h2, hl] at hn ⊢
    rw [b hn, hr]
    rfl

/-- C128. A data handler that is configured stays as it is, `modules_are_loaded` included, whatever further
calls of `configure` and `load` there are: they raise `ValueError`. -/
theorem C128_handler_final (h : Handler V D) (hc : h.comp.configured = true) (X : HEnv V D)
    (kwargs : Dict String (Arg V D)) (L : LoadEnv V D) (fs : FS V D) (depth : Nat) (hd : depth ≠ 0)
    (parent : Path) (name : String) (mods : Dict String (Mod V D)) :
    h.configure X kwargs = (h, some .valueError) ∧
    h.load L fs depth parent name mods = (h, some .valueError) := by
  obtain ⟨depth, rfl⟩ := Nat.exists_eq_succ_of_ne_zero hd
  have hr : reached h.comp kwargs = false := by
    unfold reached
    split <;> simp [hc]
  constructor
  · simp only [Handler.configure, Comp.configure, hc, if_true, hr]
    rfl
  · simp only [Handler.load, load, hc, if_true]

/-- C128. A call of `configure` after which `modules_are_loaded` is `True` for the first time found the
classes of all modules: if a class is misspelled, the handler can be configured in a second attempt. -/
theorem C128_flag (h : Handler V D) (hl : h.modulesAreLoaded = false) (X : HEnv V D)
    (kwargs : Dict String (Arg V D)) (ha : (h.configure X kwargs).1.modulesAreLoaded = true) :
    ∃ config, (Dict.get? kwargs "config").bind (Arg.val? X.containers) = some config ∧
      ∀ kp ∈ [("data_module", "data"), ("label_module", "labels"), ("weight_module", "weights"),
          ("misc_module", "misc"), ("filter_module", "filters")],
        ∃ v c, X.entry config kp.1 = .ok v ∧
          X.loadClass ("egenerator.data.modules." ++ kp.2 ++ "." ++ X.text v) = .ok c := by
  have hl : h.loaded = false := hl
  simp only [Handler.modulesAreLoaded, Handler.configure, hl] at ha
  split at ha
  · unfold handlerHook at ha
    split at ha
    · cases ha
    · split at ha
      · cases ha
      · rename_i config hc
        refine ⟨config, hc, fun kp hkp => ?_⟩
        split at ha
        · cases ha
        · simp only [loadModules, Bool.false_eq_true, if_false] at ha
          cases hm : createModules X config packages with
          | error e => rw [hm] at ha; cases ha
          | ok ms =>
            obtain ⟨k1, k2⟩ := createModules_spec X config packages ms hm
            have hin : kp.1 ∈ ms.keys := by
              rw [k1]
              simp only [List.mem_cons, List.not_mem_nil, or_false] at hkp
              rcases hkp with rfl | rfl | rfl | rfl | rfl <;> decide
            obtain ⟨nm, hnm, hfst⟩ := List.mem_map.1 hin
            obtain ⟨kp', hkp', v, c, e1, -, e3, e4⟩ := k2 nm.1 nm.2 hnm
            rw [hfst] at e1
            have hsame : kp'.2 = kp.2 := by
              simp only [packages, List.mem_cons, List.not_mem_nil, or_false] at hkp hkp'
              rcases hkp with rfl | rfl | rfl | rfl | rfl <;>
              rcases hkp' with rfl | rfl | rfl | rfl | rfl <;>
              first | rfl | (exact absurd e1 (by decide))
            exact ⟨v, c, e1 ▸ e3, hsame ▸ e4⟩
  · cases ha

/-- C128. A modular data handler with failed attempts behind it - even if it can never be configured again -
can be loaded: `load` raises the same exception as for a new handler, or it ends with the same configuration
and data, and with the same modules as far as they are saved. What is missing: see `C128_load_partial`. -/
theorem C128_handler_load_partial (cls : String) (h : Handler V D) (hf : HFailed (Handler.fresh cls) h)
    (L : LoadEnv V D) (fs : FS V D) (depth : Nat) (parent : Path) (name : String) :
    (h.load L fs depth parent name []).2 = ((Handler.fresh cls).load L fs depth parent name []).2 ∧
    ((h.load L fs depth parent name []).2 = none → ∃ conf,
      (h.load L fs depth parent name []).1.comp.conf = some conf ∧
      ((Handler.fresh cls).load L fs depth parent name []).1.comp.conf = some conf ∧
      (∀ n, (h.load L fs depth parent name []).1.tensors n =
        ((Handler.fresh cls).load L fs depth parent name []).1.tensors n) ∧
      ∀ n ∈ conf.dict.deps, (h.load L fs depth parent name []).1.module n =
        ((Handler.fresh cls).load L fs depth parent name []).1.module n) := by
  obtain ⟨h1, h2, h3⟩ := hfailed_base cls h hf
  obtain ⟨a, b⟩ := load_same L fs depth h.comp (Comp.fresh cls) parent name h1 h2 h3
  refine ⟨a, fun hn => ?_⟩
  obtain ⟨cfg, conf, -, -, e3, s, e4, e5, -⟩ := b hn
  refine ⟨conf, e3, ?_, fun n => ?_, fun n hd => ?_⟩
  · rw [e4] at e3; exact e3
  · simp only [Handler.tensors, Handler.load]
    rw [e4]
    rfl
  · simp only [Handler.module, Handler.load]
    rw [e4]
    have := e5 n
    rw [if_pos hd] at this
    exact this

/-- C128 is false for the modular data handler: once the classes of its modules were found and the call
failed for any other reason, the handler can never be configured again, whatever the arguments are and
whatever is changed. In particular every call with test data (`config_data`) fails like this. -/
theorem C128_handler_violated (X : HEnv V D) (cls : String) (config test : V)
    (ms : Dict String (Comp V D)) (files : Option (List String))
    (hms : createModules X config packages = .ok ms)
    (hfiles : testFiles X.glob (X.read (some (.plain test))) = .ok files) :
    ((Handler.fresh cls).configure X [("config", .plain config), ("config_data", .plain test)]).2 ≠ none ∧
    ∀ h', HFailed ((Handler.fresh cls).configure X
        [("config", .plain config), ("config_data", .plain test)]).1 h' →
      ∀ (X' : HEnv V D) (kwargs : Dict String (Arg V D)), (h'.configure X' kwargs).2 ≠ none := by
  have hkeys : (Dict.keys ([("config", Arg.plain config), ("config_data", Arg.plain test)] :
      Dict String (Arg V D))).any (fun k => !["config", "config_data"].contains k) = false := by
    simp [Dict.keys]
  have hg1 : (Dict.get? ([("config", Arg.plain config), ("config_data", Arg.plain test)] :
      Dict String (Arg V D)) "config").bind (Arg.val? X.containers) = some config := rfl
  have hg2 : Dict.get? ([("config", Arg.plain config), ("config_data", Arg.plain test)] :
      Dict String (Arg V D)) "config_data" = some (.plain test) := rfl
  have hhook : handlerHook X cls false [("config", Arg.plain config), ("config_data", Arg.plain test)] =
      (true, build X cls config files ms) := by
    unfold handlerHook
    rw [hkeys, hg1, hg2, hfiles]
    simp [loadModules, hms]
  have hcol : collect (V := V) (D := D) [] []
      [("config", .plain config), ("config_data", .plain test)] =
      .ok ([("config", .plain config), ("config_data", .plain test)], []) := rfl
  constructor
  · intro h
    obtain ⟨-, -, missing, params, conf0, data, subs, conf1, d, h1, h2, -, h3, -, -, -, h4, -⟩ :=
      configure_success X.containers _ (Comp.fresh cls : Comp V D) _ h
    have h2' : build X cls config files ms = .ok (conf0, data, subs) := by
      have : (handlerHook X cls false
        [("config", Arg.plain config), ("config_data", Arg.plain test)]).2 = .ok (conf0, data, subs) := h2
      rw [hhook] at this
      exact this
    have hc0 := build_config X cls config files ms conf0 data subs h2'
    have hc1 : conf1.config = conf0.config := by
      have := congrArg Prod.fst h3
      simp only [Conf.addSubs] at this
      rw [← this]
    rw [hcol] at h1
    cases h1
    rw [hc1, hc0] at h4
    obtain ⟨v, hv, -⟩ := checkMissing_none X.containers _ _ h4 "config_data" (.plain test) (by simp)
    simp [Dict.get?_cons] at hv
  · intro h' hf X' kwargs
    have hl : ((Handler.fresh cls : Handler V D).configure X
        [("config", .plain config), ("config_data", .plain test)]).1.loaded = true := by
      simp only [Handler.configure]
      rw [if_pos]
      · show (handlerHook X cls false _).1 = true
        rw [hhook]
      · simp only [reached, hcol]; rfl
    exact (configure_loaded X' h' kwargs (hfailed_loaded _ _ hl hf)).1

namespace Ex

/-- The settings of a handler are the number 0; every class is there; modules have no arguments. -/
def henv : HEnv Nat Nat where
  env := ⟨"1", "s"⟩
  containers := exContainers
  entry := fun _ _ => .ok 5
  text := fun _ => "Module"
  args := fun _ => .ok []
  ofFiles := fun _ => .plain 9
  read := fun a => match a with
    | none => .none
    | some _ => .pattern "*.hdf5"
  glob := fun _ => []
  loadClass := fun s => .ok s
  hooks := fun cls _ => .ok (⟨⟨"1", "s", cls, [], [("config_data", 9)], [], [], [], []⟩,
    [("config_data", 9)]⟩, .dict [(cls, 1)], .none)
  combine := fun d => .ok d.length

end Ex

-- the hypotheses of `C128_handler_violated` are met, and a new handler can be configured with these
-- settings: only the attempt with test data made it impossible
example : (createModules Ex.henv 0 packages).toOption.isSome = true ∧
    (testFiles Ex.henv.glob (Ex.henv.read (some (.plain 3)))).toOption.isSome = true ∧
    ((Handler.fresh "H").configure Ex.henv [("config", .plain 0)]).2 = none ∧
    ((((Handler.fresh "H").configure Ex.henv [("config", .plain 0), ("config_data", .plain 3)]).1).configure
      Ex.henv [("config", .plain 0)]).2 = some .valueError := by
  decide

-- a class that is misspelled: the second attempt succeeds
example : ((Handler.fresh "H").configure { Ex.henv with loadClass := fun _ => .error .importError }
      [("config", .plain 0)]).2 = some .importError ∧
    ((((Handler.fresh "H").configure { Ex.henv with loadClass := fun _ => .error .importError }
      [("config", .plain 0)]).1).configure Ex.henv [("config", .plain 0)]).2 = none := by
  decide

/-! ## C129: the attributes of a data handler -/

omit [DecidableEq V] in
/-- C129. A new handler has no modules and no tensors, and says so. -/
theorem C129_new (cls name : String) :
    (Handler.fresh cls : Handler V D).module name = none ∧
    (Handler.fresh cls : Handler V D).tensors name = none ∧
    (Handler.fresh cls : Handler V D).modulesAreLoaded = false := ⟨rfl, rfl, rfl⟩

/-- C129. A handler that was configured says that its modules are loaded; its attributes are the modules,
each configured and of the class that the settings name, the list of all tensors, and the tensor lists of
the modules. What is missing: handlers that were loaded (`C129_loaded_violated`) and failed calls
(`C129_failed_violated`). -/
theorem C129_configured_partial (X : HEnv V D) (cls : String) (kwargs : Dict String (Arg V D))
    (hs : ((Handler.fresh cls).configure X kwargs).2 = none) :
    ((Handler.fresh cls).configure X kwargs).1.modulesAreLoaded = true ∧
    (∃ config, (Dict.get? kwargs "config").bind (Arg.val? X.containers) = some config ∧
      ∀ kp ∈ [("data_module", "data"), ("label_module", "labels"), ("weight_module", "weights"),
          ("misc_module", "misc"), ("filter_module", "filters")],
        ∃ m v c, ((Handler.fresh cls).configure X kwargs).1.module kp.1 = some m ∧
          m.configured = true ∧ X.entry config kp.1 = .ok v ∧
          X.loadClass ("egenerator.data.modules." ++ kp.2 ++ "." ++ X.text v) = .ok c ∧ m.cls = c) ∧
    (∃ t, X.combine (gathered ((Handler.fresh cls).configure X kwargs).1) = .ok t ∧
      ((Handler.fresh cls).configure X kwargs).1.tensors "tensors" = some t) ∧
    ∀ name, name ≠ "tensors" → ((Handler.fresh cls).configure X kwargs).1.tensors name =
      Dict.get? (gathered ((Handler.fresh cls).configure X kwargs).1) name := by
  have hs' : ((Comp.fresh cls : Comp V D).configure X.containers
      (fun kw => (handlerHook X cls false kw).2) kwargs).2 = none := hs
  obtain ⟨-, -, m, p, c0, da, su, c1, dd, a1, a2, -, -, -, -, a4, -, a5⟩ :=
    configure_success _ _ _ kwargs hs'
  obtain ⟨config, files, ms, b1, -, b2, b3, b4⟩ := handlerHook_ok X cls kwargs
    (handlerHook X cls false kwargs).1 (c0, da, su) (Prod.ext rfl a2)
  have hreach : reached (Comp.fresh cls : Comp V D) kwargs = true := by
    simp only [reached, a1]; rfl
  have hcomp : ((Handler.fresh cls).configure X kwargs).1.comp =
      ((Comp.fresh cls : Comp V D).configure X.containers
        (fun kw => (handlerHook X cls false kw).2) kwargs).1 := rfl
  unfold build at b3
  split at b3
  · cases b3
  · rename_i ms' data' hcm
    split at b3
    · cases b3
    · rename_i t ht
      split at b3
      · cases b3
      · cases b3
        have hdd : dd = data'.set "tensors" t := by
          rcases a4 with ⟨a, -⟩ | a
          · cases a
          · exact (MaybeDict.dict.inj a).symm
        obtain ⟨s1, s2, s3⟩ := configureModules_spec X config files
          ["data", "label", "weight", "misc", "filter"] (by decide) ms ms' [] data' hcm
        obtain ⟨c1', c2⟩ := createModules_spec X config packages ms b2
        have hmod : ∀ n, ((Handler.fresh cls).configure X kwargs).1.module n = Dict.get? ms' n := by
          intro n
          simp only [Handler.module]
          rw [hcomp, a5]
        have hgath : gathered ((Handler.fresh cls).configure X kwargs).1 = data' := by
          rw [s3]
          simp only [gathered, hmod]
          rfl
        have htens : ∀ n, ((Handler.fresh cls).configure X kwargs).1.tensors n =
            Dict.get? (data'.set "tensors" t) n := by
          intro n
          simp only [Handler.tensors]
          rw [hcomp, a5, hdd]
        have hmsok : ms.Ok := by rw [Dict.Ok, c1']; decide
        refine ⟨?_, ⟨config, b1, fun kp hkp => ?_⟩, ⟨t, ?_, ?_⟩, fun name hn => ?_⟩
        · show (if reached (Comp.fresh cls : Comp V D) kwargs then (handlerHook X cls false kwargs).1
            else false) = true
          rw [if_pos hreach]; exact b4
        · have hin : kp.1 ∈ (["data", "label", "weight", "misc", "filter"] : List String).map
              (· ++ "_module") := by
            simp only [List.mem_cons, List.not_mem_nil, or_false] at hkp
            rcases hkp with rfl | rfl | rfl | rfl | rfl <;> decide
          obtain ⟨m0, m1, g1, g2, g3, g4⟩ := s2 kp.1 hin
          obtain ⟨kp', hkp', v, c, e1, e2, e3, e4⟩ := c2 kp.1 m0 (Dict.mem_of_get? g1)
          have hsame : kp'.2 = kp.2 := by
            simp only [packages, List.mem_cons, List.not_mem_nil, or_false] at hkp hkp'
            rcases hkp with rfl | rfl | rfl | rfl | rfl <;>
            rcases hkp' with rfl | rfl | rfl | rfl | rfl <;>
            first | rfl | (exact absurd e1 (by decide))
          rw [hmod]
          refine ⟨m1, v, c, g2, g3, e1 ▸ e3, hsame ▸ e4, ?_⟩
          rw [g4, e2]; rfl
        · rw [hgath]; exact ht
        · rw [htens, Dict.get?_set, if_pos rfl]
        · rw [htens, Dict.get?_set, if_neg (Ne.symm hn), hgath]

/-- C129 is false for handlers that are loaded: a handler that was loaded has all its modules, and it is
configured, but it says that its modules are not loaded. -/
theorem C129_loaded_violated (cls : String) (L : LoadEnv V D) (fs : FS V D) (depth : Nat) (parent : Path)
    (name : String) (hs : ((Handler.fresh cls).load L fs depth parent name []).2 = none) :
    ∃ conf, ((Handler.fresh cls).load L fs depth parent name []).1.comp.conf = some conf ∧
      (∀ n ∈ conf.dict.deps, (((Handler.fresh cls).load L fs depth parent name []).1.module n).isSome = true) ∧
      ((Handler.fresh cls).load L fs depth parent name []).1.modulesAreLoaded = false := by
  obtain ⟨cfg, conf, -, -, e3, s, e4, -, e6⟩ :=
    (load_same L fs depth (Comp.fresh cls : Comp V D) (Comp.fresh cls) parent name rfl rfl rfl).2 hs
  refine ⟨conf, e3, fun n hn => ?_, rfl⟩
  have := e6 n hn
  simp only [Handler.module, Handler.load, Handler.fresh]
  rw [e4]
  exact this

/-- C129 is false after failed calls. If the modules could be set up, a call with test data, which fails,
leaves a handler that is not configured but has modules. -/
theorem C129_failed_violated (X : HEnv V D) (cls : String) (config test : V)
    (ms : Dict String (Comp V D)) (files : Option (List String)) (conf : Conf V)
    (data : MaybeDict (Dict String D)) (subs : Dict String (Comp V D))
    (hms : createModules X config packages = .ok ms)
    (hfiles : testFiles X.glob (X.read (some (.plain test))) = .ok files)
    (hb : build X cls config files ms = .ok (conf, data, .dict subs)) :
    ((Handler.fresh cls).configure X
      [("config", .plain config), ("config_data", .plain test)]).1.comp.configured = false ∧
    ∀ n, ((Handler.fresh cls).configure X
      [("config", .plain config), ("config_data", .plain test)]).1.module n = Dict.get? subs n := by
  constructor
  · rw [← Bool.not_eq_true]
    intro hc
    exact (C128_handler_violated X cls config test ms files hms hfiles).1
      ((configure_configured_iff _ _ (Comp.fresh cls : Comp V D) _ rfl).1 hc)
  · intro n
    simp only [Handler.module]
    have hhook : (handlerHook X cls false
        [("config", Arg.plain config), ("config_data", Arg.plain test)]).2 =
        .ok (conf, data, .dict subs) := by
      unfold handlerHook
      rw [if_neg (by simp [Dict.keys])]
      have hg1 : (Dict.get? ([("config", Arg.plain config), ("config_data", Arg.plain test)] :
          Dict String (Arg V D)) "config").bind (Arg.val? X.containers) = some config := rfl
      have hg2 : Dict.get? ([("config", Arg.plain config), ("config_data", Arg.plain test)] :
          Dict String (Arg V D)) "config_data" = some (.plain test) := rfl
      rw [hg1, hg2, hfiles]
      simp [loadModules, hms, hb]
    have := configure_subs X.containers (fun kw => (handlerHook X cls false kw).2)
      (Comp.fresh cls : Comp V D) [("config", Arg.plain config), ("config_data", Arg.plain test)]
      rfl rfl _ _ rfl conf data subs hhook
    exact congrArg (fun s => Dict.get? s n) this

/-- C129 is false the other way round, too: if a module cannot be set up, the handler has no modules but
says that they are loaded. -/
theorem C129_no_modules_violated (X : HEnv V D) (cls : String) (config : V)
    (ms : Dict String (Comp V D)) (e : Err) (hread : X.read none = .none)
    (hms : createModules X config packages = .ok ms)
    (hb : build X cls config none ms = .error e) :
    ((Handler.fresh cls).configure X [("config", .plain config)]).1.modulesAreLoaded = true ∧
    ∀ n, ((Handler.fresh cls).configure X [("config", .plain config)]).1.module n = none := by
  have hhook : handlerHook X cls false [("config", Arg.plain config)] = (true, .error e) := by
    unfold handlerHook
    rw [if_neg (by simp [Dict.keys])]
    have hg1 : (Dict.get? ([("config", Arg.plain config)] : Dict String (Arg V D)) "config").bind
        (Arg.val? X.containers) = some config := rfl
    have hg2 : Dict.get? ([("config", Arg.plain config)] : Dict String (Arg V D)) "config_data" = none := rfl
    rw [hg1, hg2, hread]
    simp [testFiles, loadModules, hms, hb]
  constructor
  · show (if reached (Comp.fresh cls : Comp V D) [("config", Arg.plain config)]
      then (handlerHook X cls false [("config", Arg.plain config)]).1 else false) = true
    rw [hhook]; rfl
  · intro n
    have : ((Comp.fresh cls : Comp V D).configure X.containers (fun kw => (handlerHook X cls false kw).2)
        [("config", Arg.plain config)]).1.subs = [] := by
      have hcol : collect (V := V) (D := D) [] [] [("config", .plain config)] =
        .ok ([("config", .plain config)], []) := rfl
      unfold Comp.configure
      simp only [hhook, hcol, Comp.fresh]
      rfl
    show Dict.get? _ n = none
    have h2 : ((Handler.fresh cls : Handler V D).configure X [("config", .plain config)]).1.comp.subs = [] :=
      this
    rw [h2]; rfl

-- a handler that is configured, with its attributes
example : ((Handler.fresh "H").configure Ex.henv [("config", .plain 0)]).2 = none ∧
    ((Handler.fresh "H").configure Ex.henv [("config", .plain 0)]).1.modulesAreLoaded = true ∧
    (((Handler.fresh "H").configure Ex.henv [("config", .plain 0)]).1.module "misc_module").map Comp.cls =
      some "egenerator.data.modules.misc.Module" ∧
    ((Handler.fresh "H").configure Ex.henv [("config", .plain 0)]).1.tensors "tensors" = some 5 := by
  decide

-- a handler that is loaded
example : ((Handler.fresh "pkg.Manager").load exLoad Ex.files 3 [] "b" []).2 = none ∧
    (((Handler.fresh "pkg.Manager").load exLoad Ex.files 3 [] "b" []).1.module "models_0000").isSome = true := by
  decide

-- the hypotheses about failing calls are met
example : ∃ ms e, createModules Ex.henv 0 packages = .ok ms ∧
    build { Ex.henv with combine := fun _ => .error .keyError } "H" 0 none ms = .error e :=
  ⟨_, _, rfl, rfl⟩

example : ∃ ms conf data subs, createModules Ex.henv 0 packages = .ok ms ∧
    build Ex.henv "H" 0 (some []) ms = .ok (conf, data, .dict subs) ∧
    (Dict.get? subs "label_module").isSome = true :=
  ⟨_, _, _, _, rfl, rfl, rfl⟩

end Verif.Retry
