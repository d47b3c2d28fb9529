/-
Model of `egenerator/manager/component.py`, class `Configuration`.

`V` is the type of setting values; only equality of values is used by the code.
Deep copies are not modelled (values are immutable here). The logger calls are
not modelled.
-/
import Verif.Py.Dict

namespace Verif.Component
open Verif.Py

/-- The dictionary `Configuration._dict` (component.py:186-202).
`sha` stands for the three git provenance fields; the short sha is not stored.
`subs` is `sub_component_configurations`, `deps` is `dependent_sub_components`
and `muts` is `mutable_sub_components`. -/
structure Cfg (V : Type) where
  version : String
  sha : String
  cls : String
  check : Dict String V
  settings : Dict String V
  mutable : Dict String V
  subs : List (String × Cfg V)
  deps : List String
  muts : List String

/-- The state of the installation: `egenerator.__version__` and the result of
`version_control.get_git_infos()` (component.py:174-183). -/
structure Env where
  version : String
  sha : String

/-- A `Configuration` object: `_dict` and the merged view `_config`. -/
structure Conf (V : Type) where
  dict : Cfg V
  config : Dict String V

section
variable {V : Type}

/-- `Configuration._combine_settings`, component.py:251-274. -/
def combineSettings (settings mutable : Dict String V) : Except Err (Dict String V) :=
  if settings.keys.any (fun k => mutable.has k) then .error .valueError
  else .ok (settings.update mutable)

/-- `Configuration._check_dependent_names`, component.py:227-241. -/
def checkNames (subs : Dict String (Cfg V)) (names : List String) : Except Err Unit :=
  if names.all (fun n => subs.has n) then .ok () else .error .keyError

/-- `Configuration(**d)`, component.py:117-207: the stored version is always the
running one (line 187), a missing git sha is taken from the installation; the
mutable names are not checked here (line 206 is commented out). `sha = none` is
the default argument. -/
def Conf.init (E : Env) (sha : Option String) (d : Cfg V) : Except Err (Conf V) := do
  checkNames d.subs d.deps
  let config ← combineSettings d.settings d.mutable
  .ok { dict := { d with version := E.version, sha := sha.getD E.sha }, config := config }

/-- The loop of `update_mutable_settings`, component.py:218-222: returns the
mutable settings as left by the loop and whether it ran to the end. -/
def updateLoop (mutable : Dict String V) : Dict String V → Dict String V × Option Err
  | [] => (mutable, none)
  | (k, v) :: rest =>
    if mutable.has k then updateLoop (mutable.set k v) rest else (mutable, some .keyError)

/-- `Configuration.update_mutable_settings`, component.py:209-225: object after
the call, and the exception if one was raised. -/
def Conf.updateMutable (c : Conf V) (new : Dict String V) : Conf V × Option Err :=
  match updateLoop c.dict.mutable new with
  | (m, some e) => ({ c with dict := { c.dict with mutable := m } }, some e)
  | (m, none) =>
    match combineSettings c.dict.settings m with
    | .ok config => ({ dict := { c.dict with mutable := m }, config := config }, none)
    | .error e => ({ c with dict := { c.dict with mutable := m } }, some e)

/-- `Configuration.add_dependent_sub_components`, component.py:243-245. -/
def Conf.addDependent (c : Conf V) (names : List String) : Conf V × Option Err :=
  match checkNames c.dict.subs names with
  | .ok _ => ({ c with dict := { c.dict with deps := c.dict.deps ++ names } }, none)
  | .error e => (c, some e)

/-- `Configuration.add_mutable_sub_components`, component.py:247-249. -/
def Conf.addMutable (c : Conf V) (names : List String) : Conf V × Option Err :=
  match checkNames c.dict.subs names with
  | .ok _ => ({ c with dict := { c.dict with muts := c.dict.muts ++ names } }, none)
  | .error e => (c, some e)

/-- A value handed to `add_sub_components`/`replace_sub_components`: not a
component, an unconfigured component, or a configured one with its
`configuration.dict`. -/
inductive SubArg (V : Type) where
  | other
  | unconfigured
  | configured (d : Cfg V)

/-- `Configuration.add_sub_components`, component.py:276-296, on the
`sub_component_configurations` dictionary; what was added before the failing
entry stays. -/
def addSubsLoop (subs : Dict String (Cfg V)) :
    Dict String (SubArg V) → Dict String (Cfg V) × Option Err
  | [] => (subs, none)
  | (_, .other) :: _ => (subs, some .typeError)
  | (n, .unconfigured) :: _ =>
    if subs.has n then (subs, some .keyError) else (subs, some .valueError)
  | (n, .configured d) :: rest =>
    if subs.has n then (subs, some .keyError) else addSubsLoop (subs.set n d) rest

/-- `Configuration.replace_sub_components`, component.py:298-320. -/
def replaceSubsLoop (subs : Dict String (Cfg V)) :
    Dict String (SubArg V) → Dict String (Cfg V) × Option Err
  | [] => (subs, none)
  | (_, .other) :: _ => (subs, some .typeError)
  | (n, .unconfigured) :: _ =>
    if subs.has n then (subs, some .valueError) else (subs, some .keyError)
  | (n, .configured d) :: rest =>
    if subs.has n then replaceSubsLoop (subs.set n d) rest else (subs, some .keyError)

/-- component.py:276-296. -/
def Conf.addSubs (c : Conf V) (new : Dict String (SubArg V)) : Conf V × Option Err :=
  let r := addSubsLoop c.dict.subs new
  ({ c with dict := { c.dict with subs := r.1 } }, r.2)

/-- component.py:298-320. -/
def Conf.replaceSubs (c : Conf V) (new : Dict String (SubArg V)) : Conf V × Option Err :=
  let r := replaceSubsLoop c.dict.subs new
  ({ c with dict := { c.dict with subs := r.1 } }, r.2)

/-- The public calls that change a `Configuration` object. -/
inductive ConfOp (V : Type) where
  | updateMutable (new : Dict String V)
  | addDependent (names : List String)
  | addMutable (names : List String)
  | addSubs (new : Dict String (SubArg V))
  | replaceSubs (new : Dict String (SubArg V))

/-- One call on the object; the object lives on after an exception. -/
def Conf.step (c : Conf V) : ConfOp V → Conf V × Option Err
  | .updateMutable new => c.updateMutable new
  | .addDependent names => c.addDependent names
  | .addMutable names => c.addMutable names
  | .addSubs new => c.addSubs new
  | .replaceSubs new => c.replaceSubs new

/-- A history of calls, exceptions being caught by the caller. -/
def Conf.run (c : Conf V) (ops : List (ConfOp V)) : Conf V :=
  ops.foldl (fun c op => (c.step op).1) c

variable [DecidableEq V]

mutual
/-- `Configuration.is_compatible`, component.py:322-377, on the underlying
dictionaries. The two `Configuration(**...)` calls (component.py:349-351) are
modelled by their checks, which may raise. The report on changed mutable
settings (component.py:361-375) has no effect on the result. -/
def Cfg.isCompatible (a b : Cfg V) : Except Err Bool :=
  match a with
  | ⟨_, _, cls, check, settings, _, subs, _, muts⟩ =>
    if !(settings.beq b.settings) || !(check.beq b.check) || cls != b.cls then .ok false
    else if !((Dict.keys subs).all (fun n => Dict.has b.subs n) &&
        (Dict.keys b.subs).all (fun n => Dict.has subs n)) then .ok false
    else subsCompatible subs b.subs muts
/-- The loop over the sub components, component.py:346-358. -/
def subsCompatible (subs : List (String × Cfg V)) (other : Dict String (Cfg V))
    (muts : List String) : Except Err Bool :=
  match subs with
  | [] => .ok true
  | (n, c) :: rest =>
    match checkNames c.subs c.deps, combineSettings c.settings c.mutable with
    | .error e, _ => .error e
    | _, .error e => .error e
    | .ok _, .ok _ =>
      match other.get? n with
      | none => .error .keyError
      | some o =>
        match checkNames o.subs o.deps, combineSettings o.settings o.mutable with
        | .error e, _ => .error e
        | _, .error e => .error e
        | .ok _, .ok _ =>
          match Cfg.isCompatible c o with
          | .error e => .error e
          | .ok true => subsCompatible rest other muts
          | .ok false => if muts.contains n then subsCompatible rest other muts else .ok false
end

end
end Verif.Component
