/-
Model of loading a `BaseModelManager` (manager/base.py): the checks on its sub components while it is
loaded, with or without replacements.
-/
import Verif.Component.Object
import Verif.Training.Model

namespace Verif.Manager
open Verif.Py Verif.Component Verif.Training
variable {V D : Type} [DecidableEq V]

/-- The body of the loop of `_check_sub_component_compatibility` (manager/base.py:204-225) for the
model `m`; `subs` are the sub components of the manager. -/
def checkModel (subs : Dict String (Comp V D)) (m : Comp V D) : Except Err Unit :=
  match m.conf with
  | none => .error .attributeError
  | some conf =>
    match Dict.get? conf.dict.subs "data_trafo" with
    | none => .error .keyError
    | some trafo =>
      match initChecks trafo with
      | .error e => .error e
      | .ok _ =>
        match Dict.get? trafo.subs "data_handler" with
        | none => .error .keyError
        | some recorded =>
          match initChecks recorded with
          | .error e => .error e
          | .ok _ =>
            match Dict.get? subs "data_handler" with
            | none => .error .keyError
            | some handler =>
              match handler.conf with
              | none => .error .attributeError
              | some h =>
                match h.dict.isCompatible recorded with
                | .error e => .error e
                | .ok true => .ok ()
                | .ok false => .error .valueError

/-- `_check_sub_component_compatibility(subs)` (manager/base.py:185-225), from the entries `l` on. -/
def checkAll (subs : Dict String (Comp V D)) : List (String × Comp V D) → Except Err Unit
  | [] => .ok ()
  | (name, m) :: rest =>
    if name = "data_handler" then checkAll subs rest
    else
      match checkModel subs m with
      | .error e => .error e
      | .ok _ => checkAll subs rest

/-- The hook `_update_sub_components` of a manager (manager/base.py:253-258). -/
def managerUpdate (c : Comp V D) (names : List String) : Comp V D × Option Err :=
  if names.any (fun n => n != "data_handler") then (c, some .valueError)
  else
    match checkAll c.subs c.subs with
    | .error e => (c, some e)
    | .ok _ => (c, none)

/-- The hooks `_update_sub_components` when a manager of the class `cls` is loaded: its own one
(manager/base.py:227-258) and those of the other classes. -/
def withHook (L : LoadEnv V D) (cls : String) : LoadEnv V D :=
  { L with update := fun c names => if c.cls = cls then managerUpdate c names else L.update c names }

/-- `load` of a manager of the class `cls` (component.py:861-999): the hooks are those of the classes,
and the hook `_load` of managers (manager/base.py:429-430) is called at the end, before the manager
counts as configured (component.py:997-999). The hook `_load` of other classes (weights of models,
C27-C28, C117) is not part of this model, and a manager is not part of another manager. -/
def loadManager (L : LoadEnv V D) (fs : FS V D) (k : Nat) (cls : String) (parent : Path)
    (name : String) (mods : Dict String (Mod V D)) : LoadResult V D :=
  let r := load (withHook L cls) fs k (Comp.fresh cls) parent name mods
  match r.err with
  | some _ => r
  | none =>
    match checkAll r.obj.subs r.obj.subs with
    | .error e => ⟨{ r.obj with configured := false }, r.mods, some e⟩
    | .ok _ => r

end Verif.Manager
