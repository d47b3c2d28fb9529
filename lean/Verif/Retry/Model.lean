import Verif.Access.Model

/-!
# Repeated attempts to set up a component

Models the part of `ModuleDataHandler` (`egenerator/data/handler/modular.py`) that outlives a failed call
of `configure`: the flag `modules_are_loaded`, and the attributes through which modules and tensors are
read. What a failed call leaves behind in any component is in `Verif.Component`: `Comp.configure` and
`load` give the object after the call, whether or not it raised.
-/

namespace Verif.Retry
open Verif.Py Verif.Component Verif.Access
variable {V D : Type}

/-- A modular data handler: what every component has, and
`_untracked_data['modules_are_loaded']`. -/
structure Handler (V D : Type) where
  comp : Comp V D
  loaded : Bool

/-- A new handler (data/handler/modular.py:93-104). -/
def Handler.fresh (cls : String) : Handler V D := ⟨Comp.fresh cls, false⟩

/-- What surrounds the set up of a handler: `entry v k` is `v[k]`, `text v` is `v` in a formatted string,
`args v` are the keyword arguments `**v`, `ofFiles` is the list of test files as an argument, `read`
recognises the value of `config_data`, `loadClass` is `misc.load_class` (the full class string of the
class it finds), `hooks` are the methods `_configure` of the classes, `combine` is the list of all tensors
made from the data of the modules. -/
structure HEnv (V D : Type) where
  env : Env
  containers : Containers V
  entry : V → String → Except Err V
  text : V → String
  args : V → Except Err (Dict String (Arg V D))
  ofFiles : Option (List String) → Arg V D
  read : Option (Arg V D) → Source
  glob : String → List String
  loadClass : String → Except Err String
  hooks : String → Hook V D
  combine : Dict String D → Except Err D

/-- Kinds of modules and their packages, in the order of loading (data/handler/modular.py:121-144). -/
def packages : List (String × String) :=
  [("data", "data"), ("label", "labels"), ("weight", "weights"), ("misc", "misc"), ("filter", "filters")]

/-- The modules are created (data/handler/modular.py:121-144). -/
def createModules (X : HEnv V D) (config : V) :
    List (String × String) → Except Err (Dict String (Comp V D))
  | [] => .ok []
  | (k, p) :: rest =>
    match X.entry config (k ++ "_module") with
    | .error e => .error e
    | .ok name =>
      match X.loadClass ("egenerator.data.modules." ++ p ++ "." ++ X.text name) with
      | .error e => .error e
      | .ok cls =>
        match createModules X config rest with
        | .error e => .error e
        | .ok ms => .ok ((k ++ "_module", Comp.fresh cls) :: ms)

/-- `_load_modules` (data/handler/modular.py:106-147): the flag afterwards, and the new modules. -/
def loadModules (X : HEnv V D) (loaded : Bool) (config : V) :
    Bool × Except Err (Dict String (Comp V D)) :=
  if loaded then (loaded, .error .valueError)
  else
    match createModules X config packages with
    | .error e => (loaded, .error e)
    | .ok ms => (true, .ok ms)

/-- The modules are configured and their data collected (data/handler/modular.py:206-210). The keyword
`config_data` must not be given twice. The object of a module after a failed call is not needed: it is
dropped with the local dictionary. -/
def configureModules [DecidableEq V] (X : HEnv V D) (config : V) (files : Option (List String)) :
    List String → Dict String (Comp V D) → Dict String D →
      Except Err (Dict String (Comp V D) × Dict String D)
  | [], ms, data => .ok (ms, data)
  | k :: ks, ms, data =>
    match Dict.get? ms (k ++ "_module"), X.entry config (k ++ "_settings") with
    | none, _ => .error .keyError
    | _, .error e => .error e
    | some m, .ok settings =>
      match X.args settings with
      | .error e => .error e
      | .ok kwargs =>
        if kwargs.has "config_data" then .error .typeError
        else
          match m.configure X.containers (X.hooks m.cls) (("config_data", X.ofFiles files) :: kwargs) with
          | (_, some e) => .error e
          | (m, none) =>
            configureModules X config files ks (ms.set (k ++ "_module") m)
              (data.update (m.data.getD []))

/-- `_configure_derived_class` after the modules have been loaded (data/handler/modular.py:203-230). -/
def build [DecidableEq V] (X : HEnv V D) (cls : String) (config : V) (files : Option (List String))
    (ms : Dict String (Comp V D)) :
    Except Err (Conf V × MaybeDict (Dict String D) × MaybeDict (Dict String (Comp V D))) :=
  match configureModules X config files ["data", "label", "weight", "misc", "filter"] ms [] with
  | .error e => .error e
  | .ok (ms, data) =>
    match X.combine data with
    | .error e => .error e
    | .ok t =>
      match moduleConf X.env cls config ms with
      | .error e => .error e
      | .ok conf => .ok (conf, .dict (data.set "tensors" t), .dict ms)

/-- `_configure(config, config_data=None)` (data/handler/base.py:131-143, data/handler/modular.py:149-230):
the flag afterwards, and the result. The data always has the tensor list that data/handler/base.py:146-152
asks for. -/
def handlerHook [DecidableEq V] (X : HEnv V D) (cls : String) (loaded : Bool)
    (kwargs : Dict String (Arg V D)) :
    Bool × Except Err (Conf V × MaybeDict (Dict String D) × MaybeDict (Dict String (Comp V D))) :=
  if kwargs.keys.any fun k => !["config", "config_data"].contains k then (loaded, .error .typeError)
  else
    match (Dict.get? kwargs "config").bind (Arg.val? X.containers) with
    | none => (loaded, .error .typeError)
    | some config =>
      match testFiles X.glob (X.read (Dict.get? kwargs "config_data")) with
      | .error e => (loaded, .error e)
      | .ok files =>
        match loadModules X loaded config with
        | (loaded, .error e) => (loaded, .error e)
        | (loaded, .ok ms) => (loaded, build X cls config files ms)

/-- Is `_configure` called by `configure` (manager/component.py:596-663)? -/
def reached (c : Comp V D) (kwargs : Dict String (Arg V D)) : Bool :=
  match collect [] [] kwargs with
  | .error _ => false
  | .ok _ => !c.configured && c.attrs.isEmpty

/-- `configure` of a handler (manager/component.py:581-710). -/
def Handler.configure [DecidableEq V] (X : HEnv V D) (h : Handler V D)
    (kwargs : Dict String (Arg V D)) : Handler V D × Option Err :=
  let r := h.comp.configure X.containers (fun kw => (handlerHook X h.comp.cls h.loaded kw).2) kwargs
  (⟨r.1, if reached h.comp kwargs then (handlerHook X h.comp.cls h.loaded kwargs).1 else h.loaded⟩, r.2)

/-- `load` of a handler (manager/component.py:861-999): the flag is not touched. -/
def Handler.load [DecidableEq V] (L : LoadEnv V D) (fs : FS V D) (depth : Nat) (h : Handler V D)
    (parent : Path) (name : String) (mods : Dict String (Mod V D)) : Handler V D × Option Err :=
  let r := Component.load L fs depth h.comp parent name mods
  (⟨r.obj, h.loaded⟩, r.err)

/-- The attributes `data_module`, `label_module`, `weight_module`, `misc_module` and `filter_module`
(data/handler/modular.py:47-55, 61-67, 73-75, 85-87): `none` is `None`. -/
def Handler.module (h : Handler V D) (name : String) : Option (Comp V D) := Dict.get? h.comp.subs name

/-- The attributes `data_tensors`, `label_tensors`, `weight_tensors`, `misc_tensors`
(data/handler/modular.py:47-51, 57-59, 69-71, 77-79, 89-91) and `tensors` (data/handler/base.py:38-42). -/
def Handler.tensors (h : Handler V D) (name : String) : Option D :=
  match h.comp.data with
  | none => none
  | some d => Dict.get? d name

/-- The attribute `modules_are_loaded` (data/handler/modular.py:81-83). -/
def Handler.modulesAreLoaded (h : Handler V D) : Bool := h.loaded

end Verif.Retry
