/-
Model of `egenerator/manager/component.py`, class `BaseComponent`:
configure, is_compatible, save and load.

`V` is the type of setting values and `D` the type of data entries; the code
only copies and compares them. Logging is not modelled.
-/
import Verif.Component.Model

namespace Verif.Component
open Verif.Py

/-- A `BaseComponent` object (component.py:500-513). `cls` is the full class
string of its class, `attrs` the member attributes that are not among the
tracked ones (component.py:515-563), `data = none` is Python's `None`. The
untracked data are not modelled. -/
structure Comp (V D : Type) where
  cls : String
  configured : Bool
  conf : Option (Conf V)
  data : Option (Dict String D)
  subs : List (String × Comp V D)
  attrs : List String

/-- A new instance of a class, component.py:500-513. -/
def Comp.fresh {V D : Type} (cls : String) : Comp V D := ⟨cls, false, none, none, [], []⟩

/-- A Python value that should be `None` or a dictionary. -/
inductive MaybeDict (α : Type) where
  | none
  | dict (d : α)
  | other

/-- An entry of a list or dictionary argument. -/
inductive Item (V D : Type) where
  | comp (c : Comp V D)
  | val (v : V)

/-- A keyword argument of `configure`. Tuples are lists. -/
inductive Arg (V D : Type) where
  | comp (c : Comp V D)
  | dict (items : Dict String (Item V D))
  | list (items : List (Item V D))
  | plain (v : V)

/-- How Python lists and dictionaries of values are values themselves. -/
structure Containers (V : Type) where
  ofDict : Dict String V → V
  ofList : List V → V

section
variable {V D : Type}

/-- The plain values of a list of items, if it holds no component. -/
def itemVals : List (Item V D) → Option (List V)
  | [] => some []
  | .comp _ :: _ => none
  | .val v :: rest => (itemVals rest).map (v :: ·)

/-- The plain values of a dictionary of items, if it holds no component. -/
def itemDictVals : Dict String (Item V D) → Option (Dict String V)
  | [] => some []
  | (_, .comp _) :: _ => none
  | (k, .val v) :: rest => (itemDictVals rest).map ((k, v) :: ·)

/-- The value of an argument as far as it can equal a stored setting: the
stored settings are deep copies and components compare by identity, so an
argument with a component in it never equals a stored setting. -/
def Arg.val? (C : Containers V) : Arg V D → Option V
  | .comp _ => none
  | .dict items => (itemDictVals items).map C.ofDict
  | .list items => (itemVals items).map C.ofList
  | .plain v => some v

/-- `'{:04d}'.format(i)`. -/
def pad4 (i : Nat) : String :=
  String.ofList (List.replicate (4 - (toString i).length) '0' ++ (toString i).toList)

/-- The name of the i-th entry of a list argument, component.py:645. -/
def listName (key : String) (i : Nat) : String := key ++ "_" ++ pad4 i

/-- The inner loops over dictionary and list entries, component.py:625-635 and
644-655: the collected components so far and `all_components`. -/
def collectItems (params : Dict String (Comp V D)) (all : Bool) :
    List (String × Item V D) → Except Err (Dict String (Comp V D) × Bool)
  | [] => .ok (params, all)
  | (n, .comp c) :: rest =>
    if c.configured then collectItems (params.set n c) all rest else .error .valueError
  | (_, .val _) :: rest => collectItems params false rest

/-- The entries of a list with the names they are recorded under. -/
def listItems (key : String) (i : Nat) : List (Item V D) → List (String × Item V D)
  | [] => []
  | x :: rest => (listName key i, x) :: listItems key (i + 1) rest

/-- The loop over the keyword arguments, component.py:607-661:
`missing_settings` and `parameter_sub_components`. -/
def collect (missing : Dict String (Arg V D)) (params : Dict String (Comp V D)) :
    Dict String (Arg V D) → Except Err (Dict String (Arg V D) × Dict String (Comp V D))
  | [] => .ok (missing, params)
  | (k, .comp c) :: rest =>
    if c.configured then collect missing (params.set k c) rest else .error .valueError
  | (k, .dict items) :: rest =>
    match collectItems params true items with
    | .error e => .error e
    | .ok (params, true) => collect missing params rest
    | .ok (params, false) => collect (missing.set k (.dict items)) params rest
  | (k, .list items) :: rest =>
    match collectItems params true (listItems k 0 items) with
    | .error e => .error e
    | .ok (params, true) => collect missing params rest
    | .ok (params, false) => collect (missing.set k (.list items)) params rest
  | (k, .plain v) :: rest => collect (missing.set k (.plain v)) params rest

/-- What `add_sub_components` sees of a component. -/
def Comp.toSubArg (c : Comp V D) : SubArg V :=
  match c.configured, c.conf with
  | true, some conf => .configured conf.dict
  | _, _ => .unconfigured

/-- The last loop of configure, component.py:697-708. -/
def checkMissing [DecidableEq V] (C : Containers V) (config : Dict String V) :
    Dict String (Arg V D) → Option Err
  | [] => none
  | (k, a) :: rest =>
    match config.get? k with
    | none => some .valueError
    | some v => if a.val? C = some v then checkMissing C config rest else some .valueError

/-- The hook `_configure(**kwargs)` of a derived class: a configuration object,
the data and the sub components. -/
abbrev Hook (V D : Type) :=
  Dict String (Arg V D) →
    Except Err (Conf V × MaybeDict (Dict String D) × MaybeDict (Dict String (Comp V D)))

/-- `BaseComponent.configure`, component.py:581-710: the object after the call
and the exception if one was raised. When the hook returns something that is
not a dictionary the wrong value itself is not represented in the object. -/
def Comp.configure [DecidableEq V] (C : Containers V) (hook : Hook V D) (self : Comp V D)
    (kwargs : Dict String (Arg V D)) : Comp V D × Option Err :=
  if self.configured then (self, some .valueError)
  else if self.attrs ≠ [] then (self, some .valueError)
  else
    match collect [] [] kwargs with
    | .error e => (self, some e)
    | .ok (missing, params) =>
      match hook kwargs with
      | .error e => (self, some e)
      | .ok (_, _, .other) => (self, some .typeError)
      | .ok (conf, data, subs) =>
        let subs := match subs with
          | .dict d => d
          | _ => []
        let self := { self with subs := subs }
        match conf.addSubs (params.map (fun nc => (nc.1, nc.2.toSubArg))) with
        | (conf, some e) => ({ self with conf := some conf }, some e)
        | (conf, none) =>
          match conf.addDependent (Dict.keys subs) with
          | (conf, some e) => ({ self with conf := some conf }, some e)
          | (conf, none) =>
            let self := { self with conf := some conf }
            match checkNames conf.dict.subs conf.dict.muts with
            | .error e => (self, some e)
            | .ok _ =>
              match data with
              | .other => (self, some .typeError)
              | .none =>
                match checkMissing C conf.config missing with
                | some e => ({ self with data := some [] }, some e)
                | none => ({ self with data := some [], configured := true }, none)
              | .dict data =>
                match checkMissing C conf.config missing with
                | some e => ({ self with data := some data }, some e)
                | none => ({ self with data := some data, configured := true }, none)

/-- `BaseComponent.is_compatible`, component.py:760-778. Without a
configuration the attribute access on `None` raises. -/
def Comp.isCompatible [DecidableEq V] (self other : Comp V D) : Except Err Bool :=
  if self.cls ≠ other.cls then .ok false
  else
    match self.conf, other.conf with
    | some a, some b => a.dict.isCompatible b.dict
    | _, _ => .error .attributeError

/-! ### The file system -/

/-- A path: the directories from the root and the last component. -/
abbrev Path := List String

/-- The content of a file: opened but not yet written, a yaml dump of a
configuration dictionary, or a pickle of the data. -/
inductive File (V D : Type) where
  | partialFile
  | config (d : Cfg V)
  | data (d : MaybeDict (Dict String D))

/-- A file system: the content of each file that exists. Directories are not
represented; creating them is not modelled. -/
abbrev FS (V D : Type) := Path → Option (File V D)

/-- The effects of `save`: opening a file for writing truncates it, then its
content is written. A crash happens between two effects. -/
inductive Eff (V D : Type) where
  | trunc (p : Path)
  | write (p : Path) (f : File V D)

/-- The file an effect changes. -/
def Eff.path : Eff V D → Path
  | .trunc p => p
  | .write p _ => p

/-- One effect on the file system. -/
def Eff.apply (fs : FS V D) : Eff V D → FS V D
  | .trunc p => fun q => if q = p then some .partialFile else fs q
  | .write p f => fun q => if q = p then some f else fs q

/-- A sequence of effects. -/
def applyAll (fs : FS V D) (effs : List (Eff V D)) : FS V D := effs.foldl Eff.apply fs

/-- `os.path.splitext(name)[0]` for a single path component: everything before
the last dot, unless only dots come before it. -/
def stem (s : String) : String :=
  match s.toList.reverse.dropWhile (· ≠ '.') with
  | [] => s
  | _ :: pre => if pre.all (· = '.') then s else String.ofList pre.reverse

/-- component.py:825, 903. -/
def cfgPath (dir : Path) : Path := dir ++ ["configuration.yaml"]
/-- component.py:826, 904. -/
def dataPath (dir : Path) : Path := dir ++ ["data.pickle"]

mutual
/-- `BaseComponent.save(join(parent, name))`, component.py:780-859: the effects
in order, and the exception that ends it, if any. The hook `_save` of derived
classes is not modelled here. -/
def Comp.save (overwrite allow : Bool) (fs : FS V D) (parent : Path) (name : String)
    (c : Comp V D) : List (Eff V D) × Option Err :=
  match c with
  | ⟨_, configured, conf, data, subs, attrs⟩ =>
    if !configured then ([], some .valueError)
    else if attrs ≠ [] && !allow then ([], some .attributeError)
    else if ((fs (cfgPath (parent ++ [stem name]))).isSome ||
        (fs (dataPath (parent ++ [stem name]))).isSome) && !overwrite then ([], some .ioError)
    else
      match conf with
      | none => ([], some .attributeError)
      | some conf =>
        let own := [.trunc (cfgPath (parent ++ [stem name])),
          .write (cfgPath (parent ++ [stem name])) (.config conf.dict),
          .trunc (dataPath (parent ++ [stem name])),
          .write (dataPath (parent ++ [stem name]))
            (.data (match data with | none => .none | some d => .dict d))]
        let r := saveSubs overwrite allow (applyAll fs own) (parent ++ [stem name]) subs
        (own ++ r.1, r.2)
/-- The loop over the sub components, component.py:850-856. -/
def saveSubs (overwrite allow : Bool) (fs : FS V D) (dir : Path) (subs : List (String × Comp V D)) :
    List (Eff V D) × Option Err :=
  match subs with
  | [] => ([], none)
  | (n, c) :: rest =>
    match Comp.save overwrite allow fs dir n c with
    | (effs, some e) => (effs, some e)
    | (effs, none) =>
      let r := saveSubs overwrite allow (applyAll fs effs) dir rest
      (effs ++ r.1, r.2)
end

/-- A replacement passed to `load`: a component or a nested dictionary. -/
inductive Mod (V D : Type) where
  | comp (c : Comp V D)
  | nested (d : List (String × Mod V D))

/-- `d.pop(name)`. -/
def pop {α : Type} (d : Dict String α) (name : String) : Dict String α :=
  d.filter (fun kv => kv.1 ≠ name)

/-- What surrounds a load: the installation, which class strings can be
imported, the hook `_update_sub_components` of the classes. -/
structure LoadEnv (V D : Type) where
  env : Env
  known : String → Bool
  update : Comp V D → List String → Comp V D × Option Err

/-- The result of `load`: the object, what is left of the caller's dictionary
of replacements, and the exception if one was raised. -/
structure LoadResult (V D : Type) where
  obj : Comp V D
  mods : Dict String (Mod V D)
  err : Option Err

/-- The state of the loop in `load`. -/
structure LoopState (V D : Type) where
  subs : Dict String (Comp V D)
  conf : Conf V
  mods : Dict String (Mod V D)
  updated : List String

/-- component.py:943-949: take a nested dictionary of replacements for `name`. -/
def takeNested (mods : Dict String (Mod V D)) (updated : List String) (name : String) :
    Dict String (Mod V D) × Dict String (Mod V D) × List String :=
  match mods.get? name with
  | some (.nested d) => (d, pop mods name, updated ++ [name])
  | _ => ([], mods, updated)

/-- component.py:960-963: `self._sub_components[name] = sub_component`, and the
recorded configuration when a nested dictionary was used. -/
def storeLoaded (st : LoopState V D) (name : String) (sub : Comp V D) :
    LoopState V D × Option Err :=
  let subs := st.subs.set name sub
  if st.updated.contains name then
    let r := st.conf.replaceSubs [(name, sub.toSubArg)]
    ({ st with subs := subs, conf := r.1 }, r.2)
  else ({ st with subs := subs }, none)

/-- component.py:965-985: replace the loaded sub component by a given one. -/
def storeReplacement [DecidableEq V] (st : LoopState V D) (name : String) (sub : Comp V D) :
    LoopState V D × Option Err :=
  match st.mods.get? name with
  | none => (st, none)
  | some (.nested _) => (st, some .attributeError)
  | some (.comp m) =>
    let st := { st with mods := pop st.mods name }
    if !m.configured then (st, some .valueError)
    else
      let compatible : Except Err Bool :=
        if st.conf.dict.muts.contains name then .ok true else sub.isCompatible m
      match compatible with
      | .error e => (st, some e)
      | .ok false => (st, some .valueError)
      | .ok true =>
        let r := st.conf.replaceSubs [(name, m.toSubArg)]
        ({ st with subs := st.subs.set name m, conf := r.1, updated := st.updated ++ [name] }, r.2)

/-- One pass of the loop over the dependent sub components, component.py:941-985.
`rec` is `load` of the sub component. -/
def loadOne [DecidableEq V] (L : LoadEnv V D)
    (rec : Comp V D → Path → String → Dict String (Mod V D) → LoadResult V D)
    (dir : Path) (st : LoopState V D) (name : String) : LoopState V D × Option Err :=
  let t := takeNested st.mods st.updated name
  let st := { st with mods := t.2.1, updated := t.2.2 }
  match Dict.get? st.conf.dict.subs name with
  | none => (st, some .keyError)
  | some subCfg =>
    if !L.known subCfg.cls then (st, some .importError)
    else
      let r := rec (Comp.fresh subCfg.cls) dir name t.1
      match r.err with
      | some e => (st, some e)
      | none =>
        match storeLoaded st name r.obj with
        | (st, some e) => (st, some e)
        | (st, none) => storeReplacement st name r.obj

/-- The loop, component.py:939-985. -/
def loadLoop [DecidableEq V] (L : LoadEnv V D)
    (rec : Comp V D → Path → String → Dict String (Mod V D) → LoadResult V D)
    (dir : Path) : LoopState V D → List String → LoopState V D × Option Err
  | st, [] => (st, none)
  | st, name :: rest =>
    match loadOne L rec dir st name with
    | (st, some e) => (st, some e)
    | (st, none) => loadLoop L rec dir st rest

/-- `BaseComponent.load(join(parent, name), mods)`, component.py:861-999, on the
object `self`. The first argument bounds the recursion depth, as Python's
recursion limit does. A file that is not what `save` writes makes reading raise
(modelled as ValueError). A version mismatch ends in `self.logger.warning`
(component.py:921): there is no attribute `logger`, so it raises. The hook
`_load` is not modelled. -/
def load [DecidableEq V] (L : LoadEnv V D) (fs : FS V D) : Nat → Comp V D → Path → String →
    Dict String (Mod V D) → LoadResult V D
  | 0, self, _, _, mods => ⟨self, mods, some .recursionError⟩
  | depth + 1, self, parent, name, mods =>
    if self.configured then ⟨self, mods, some .valueError⟩
    else if self.attrs ≠ [] then ⟨self, mods, some .valueError⟩
    else
      let dir := parent ++ [stem name]
      match fs (cfgPath dir) with
      | none => ⟨self, mods, some .fileNotFoundError⟩
      | some (.config d) =>
        match fs (dataPath dir) with
        | none => ⟨self, mods, some .fileNotFoundError⟩
        | some (.data data) =>
          match Conf.init L.env (some d.sha) d with
          | .error e => ⟨self, mods, some e⟩
          | .ok conf =>
            if d.version ≠ L.env.version then
              ⟨{ self with conf := some conf }, mods, some .attributeError⟩
            else if conf.dict.cls ≠ self.cls then
              ⟨{ self with conf := some conf }, mods, some .typeError⟩
            else
              match data with
              | .other => ⟨{ self with conf := some conf }, mods, some .valueError⟩
              | data =>
                let data : Option (Dict String D) := match data with
                  | .dict x => some x
                  | _ => none
                let r := loadLoop L (load L fs depth) dir ⟨self.subs, conf, mods, []⟩ conf.dict.deps
                let obj : Comp V D :=
                  { self with conf := some r.1.conf, data := data, subs := r.1.subs }
                match r.2 with
                | some e => ⟨obj, r.1.mods, some e⟩
                | none =>
                  let u := if r.1.updated ≠ [] then L.update obj r.1.updated else (obj, none)
                  match u.2 with
                  | some e => ⟨u.1, r.1.mods, some e⟩
                  | none =>
                    if r.1.mods ≠ [] then ⟨u.1, r.1.mods, some .valueError⟩
                    else ⟨{ u.1 with configured := true }, r.1.mods, none⟩
        | some _ => ⟨self, mods, some .valueError⟩
      | some _ => ⟨self, mods, some .valueError⟩

/-- A call on a component object, component.py:581, 780, 861. -/
inductive ObjOp (V D : Type) where
  | configure (hook : Hook V D) (kwargs : Dict String (Arg V D))
  | load (parent : Path) (name : String) (mods : Dict String (Mod V D))
  | save (overwrite allow : Bool) (parent : Path) (name : String)

/-- The world of a history: the object and the files. -/
abbrev World (V D : Type) := Comp V D × FS V D

/-- One call: the world after it and the exception if one was raised. -/
def objStep [DecidableEq V] (C : Containers V) (L : LoadEnv V D) (depth : Nat) (w : World V D) :
    ObjOp V D → World V D × Option Err
  | .configure hook kwargs =>
    let r := w.1.configure C hook kwargs
    ((r.1, w.2), r.2)
  | .load parent name mods =>
    let r := load L w.2 depth w.1 parent name mods
    ((r.obj, w.2), r.err)
  | .save overwrite allow parent name =>
    let r := w.1.save overwrite allow w.2 parent name
    ((w.1, applyAll w.2 r.1), r.2)

/-- A history of calls: the world after it and the outcome of each call. -/
def objRun [DecidableEq V] (C : Containers V) (L : LoadEnv V D) (depth : Nat) (w : World V D) :
    List (ObjOp V D) → World V D × List (ObjOp V D × Option Err)
  | [] => (w, [])
  | op :: rest =>
    let s := objStep C L depth w op
    let r := objRun C L depth s.1 rest
    (r.1, (op, s.2) :: r.2)

end
end Verif.Component
