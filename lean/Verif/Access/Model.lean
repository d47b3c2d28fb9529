import Verif.Component.Object
import Verif.Handler.AggModel

/-!
# Access to the data of a data handler

Models the public methods of `egenerator/data/handler/base.py` through which data is obtained: the checks
of the data, conversion to tensors, the signature of the data set, set up, biased selection and the end of
the processes; and how arguments are handed to the modules (`egenerator/data/handler/modular.py`). Assembly
of batches is in `Verif.Handler`.
-/

namespace Verif.Access
open Verif.Py

/-! ## Structure of the data -/

/-- The part of a `DataTensor` that is read here: `shape` has `none` for unknown sizes, `present` is
`exists`, `vector` says whether `vector_info` is not `None`. -/
structure Info where
  name : String
  shape : List (Option Nat)
  dtype : String
  present : Bool
  vector : Bool
deriving DecidableEq

/-- An entry of a data tuple: `None`, or an array with its type, shape and content. -/
inductive Val (V : Type) where
  | none
  | arr (dtype : String) (shape : List Nat) (v : V)
deriving DecidableEq

section
variable {V : Type}

/-- The comparison of the sizes (data/handler/base.py:239-243). -/
def checkDims : List Nat → List (Option Nat) → Except Err Unit
  | s1 :: r1, some s2 :: r2 => if s1 ≠ s2 then .error .valueError else checkDims r1 r2
  | _ :: r1, none :: r2 => checkDims r1 r2
  | _, _ => .ok ()

/-- The check of one tensor (data/handler/base.py:233-248): nothing is checked for vectors. -/
def checkOne (v : Val V) (t : Info) : Except Err Unit :=
  if t.present && !t.vector then
    match v with
    | .none => .error .attributeError
    | .arr _ shape _ =>
      if shape.length ≠ t.shape.length then .error .valueError
      else checkDims shape t.shape
  else .ok ()

/-- The loop over the tensors (data/handler/base.py:232). -/
def checkLoop : List (Val V) → List Info → Except Err Unit
  | v :: vs, t :: ts =>
    match checkOne v t with
    | .error e => .error e
    | .ok _ => checkLoop vs ts
  | _, _ => .ok ()

/-- `_check_data_structure` (data/handler/base.py:204-248), with the default
`check_vector_tensors=False`. `len(None)` is a TypeError. -/
def check (ts : List Info) : Option (List (Val V)) → Except Err Unit
  | none => .error .typeError
  | some data => if data.length ≠ ts.length then .error .valueError else checkLoop data ts

/-- What the derived class returns: the number of events and the data. -/
abbrev Loaded (V : Type) := Option Nat × Option (List (Val V))

/-- `get_data_from_hdf` (data/handler/base.py:271-277) and `create_data_from_frame` (428-434): `res` is
what the method of the derived class gives. -/
def getChecked (configured : Bool) (ts : List Info) (res : Except Err (Loaded V)) :
    Except Err (Loaded V) :=
  if !configured then .error .valueError
  else
    match res with
    | .error e => .error e
    | .ok (none, none) => .ok (none, none)
    | .ok (n, data) =>
      match check ts data with
      | .error e => .error e
      | .ok _ => .ok (n, data)

/-- `getattr(np, tensor.dtype)()` (data/handler/base.py:339, 386): `np` gives the content of the
scalar. -/
def scalar (np : String → Except Err V) (dtype : String) : Except Err (Val V) :=
  match np dtype with
  | .error e => .error e
  | .ok v => .ok (.arr dtype [] v)

/-- The loop that replaces missing tensors (data/handler/base.py:334-339): the data have been checked, so
there is an entry for each tensor. -/
def fillMissing (np : String → Except Err V) : List (Val V) → List Info → Except Err (List (Val V))
  | _, [] => .ok []
  | [], _ :: _ => .error .indexError
  | v :: vs, t :: ts =>
    match (if t.present then .ok v else scalar np t.dtype) with
    | .error e => .error e
    | .ok x =>
      match fillMissing np vs ts with
      | .error e => .error e
      | .ok xs => .ok (x :: xs)

/-- `get_data_from_frame` (data/handler/base.py:327-341). -/
def getFrame (configured : Bool) (np : String → Except Err V) (ts : List Info)
    (res : Except Err (Loaded V)) : Except Err (Loaded V) :=
  match getChecked configured ts res with
  | .error e => .error e
  | .ok (n, none) => .ok (n, none)
  | .ok (n, some data) =>
    match fillMissing np data ts with
    | .error e => .error e
    | .ok xs => .ok (n, some xs)

/-- `data[i]` for a tuple or `None`. -/
def at? (data : Option (List (Val V))) (i : Nat) : Except Err (Val V) :=
  match data with
  | none => .error .typeError
  | some l =>
    match l[i]? with
    | none => .error .indexError
    | some v => .ok v

/-- The loop of `convert_data_to_tensor` (data/handler/base.py:381-387): `tf` is
`tf.convert_to_tensor`. -/
def convertLoop (np : String → Except Err V) (tf : Val V → Except Err (Val V))
    (data : Option (List (Val V))) : Nat → List Info → Except Err (List (Val V))
  | _, [] => .ok []
  | i, t :: ts =>
    match (if t.present then (at? data i).bind tf else scalar np t.dtype) with
    | .error e => .error e
    | .ok x =>
      match convertLoop np tf data (i + 1) ts with
      | .error e => .error e
      | .ok xs => .ok (x :: xs)

/-- `convert_data_to_tensor` (data/handler/base.py:368-387). -/
def convert (np : String → Except Err V) (tf : Val V → Except Err (Val V)) (ts : List Info)
    (data : Option (List (Val V))) : Except Err (List (Val V)) :=
  convertLoop np tf data 0 ts

/-- `get_tensor_from_frame` (data/handler/base.py:364-366). -/
def getTensors (configured : Bool) (np : String → Except Err V) (tf : Val V → Except Err (Val V))
    (ts : List Info) (res : Except Err (Loaded V)) : Except Err (List (Val V)) :=
  match getFrame configured np ts res with
  | .error e => .error e
  | .ok (_, data) => convert np tf ts data

end

/-! ## The signature of the data set -/

section
variable {T : Type}

/-- `tf.TensorShape(..)`: `none` is an unknown shape. -/
abbrev TShape := Option (List (Option Nat))

/-- The shape of a tensor in the data set (data/handler/base.py:1118-1121, 1142-1145). -/
def shapeOf (t : Info) : TShape := if t.present then some t.shape else none

/-- Types and shapes of the data set (data/handler/base.py:1114-1124): `tf` is `getattr(tf, ..)`. -/
def datasetLoop (tf : String → Option T) : List Info → List T × List TShape →
    Except Err (List T × List TShape)
  | [], acc => .ok acc
  | t :: ts, (types, shapes) =>
    match tf t.dtype with
    | none => .error .attributeError
    | some ty => datasetLoop tf ts (types ++ [ty], shapes ++ [shapeOf t])

/-- The types and shapes `get_tf_dataset` declares (data/handler/base.py:1113-1130). -/
def dataset (tf : String → Option T) (ts : List Info) : Except Err (List T × List TShape) :=
  datasetLoop tf ts ([], [])

/-- `get_data_set_signature` (data/handler/base.py:1132-1148). -/
def signature (tf : String → Option T) : List Info → Except Err (List (TShape × T))
  | [] => .ok []
  | t :: ts =>
    match tf t.dtype with
    | none => .error .attributeError
    | some ty =>
      match signature tf ts with
      | .error e => .error e
      | .ok l => .ok ((shapeOf t, ty) :: l)

end

/-! ## Arguments -/

section
variable {A : Type}

/-- How Python binds a call to the parameters `params` (without `self`) of a function that also takes
`*args` and `**kwargs`, where all parameters are required: the values of the parameters, the further
positional and the further keyword arguments. -/
def bindCall (params : List String) (pos : List A) (kw : Dict String A) :
    Except Err (List A × List A × Dict String A) :=
  if kw.keys.any (fun k => (params.take pos.length).contains k) then .error .typeError
  else if kw.has "self" then .error .typeError
  else
    match (params.drop pos.length).mapM (fun p => Dict.get? kw p) with
    | none => .error .typeError
    | some vs => .ok (pos.take params.length ++ vs, pos.drop params.length,
        kw.filter fun kv => !params.contains kv.1)

/-- From `get_data_from_hdf(*pos, **kw)` to the call of a module: the arguments of the module
(data/handler/base.py:250, 273; data/handler/modular.py:516, 536, 287, 323-324). The name of the first
parameter is `file` or `frame` (279, 329; 389, 430; data/handler/modular.py:538, 556, 558, 577-578);
`methodName` is the value of `method`. -/
def reach (first : String) (methodName : A) (pos : List A) (kw : Dict String A) :
    Except Err (List A × Dict String A) :=
  match bindCall [first] pos kw with
  | .error e => .error e
  | .ok (vs, args, kwargs) =>
    -- self._get_data_from_hdf(file, *args, **kwargs)
    match bindCall [first] (vs ++ args) kwargs with
    | .error e => .error e
    | .ok (vs, args, kwargs) =>
      -- self._get_data(file, method='get_from_hdf', *args, **kwargs)
      if kwargs.has "method" then .error .typeError
      else
        match bindCall ["file_or_frame", "method"] (vs ++ args) (("method", methodName) :: kwargs) with
        | .error e => .error e
        | .ok (vs, args, kwargs) => .ok (vs.take 1 ++ args, kwargs)

end

/-! ## Set up -/

section
open Verif.Component
variable {V D : Type}

/-- The argument `config_data` of `configure`: `None`, a pattern, a list of patterns, or something
else. -/
inductive Source where
  | none
  | pattern (s : String)
  | patterns (l : List String)
  | other

/-- The files for the set up (data/handler/base.py:134-141). `glob.glob` of something that is not a
string is a TypeError. -/
def testFiles (glob : String → List String) : Source → Except Err (Option (List String))
  | .none => .ok none
  | .patterns l => .ok (some ((l.take 3).flatMap glob))
  | .pattern s => .ok (some (glob s))
  | .other => .error .typeError

/-- `_configure` of the base class (data/handler/base.py:70-154): `derived` is
`_configure_derived_class` with the settings; `isTensors` recognises a `DataTensorList`. -/
def configureBase {C S : Type} (glob : String → List String) (isTensors : D → Bool) (configured : Bool)
    (derived : Option (List String) → Except Err (C × Dict String D × S)) (src : Source) :
    Except Err (C × Dict String D × S) :=
  if configured then .error .valueError
  else
    match testFiles glob src with
    | .error e => .error e
    | .ok files =>
      match derived files with
      | .error e => .error e
      | .ok (c, data, subs) =>
        match Dict.get? data "tensors" with
        | none => .error .keyError
        | some t => if !isTensors t then .error .typeError else .ok (c, data, subs)

/-- The modules that may be replaced (data/handler/modular.py:224-225). -/
def mutableModules : List String := ["weight_module", "misc_module", "filter_module", "label_module"]

/-- The end of `_configure_derived_class` of the modular handler (data/handler/modular.py:217-230): the
configuration records the settings `config` and the modules. `data` and `modules` come from
`Verif.Modules`. -/
def moduleConf (E : Env) (cls : String) (config : V) (modules : Dict String (Comp V D)) :
    Except Err (Conf V) :=
  match Conf.init E none ⟨"", "", cls, [], [], [("config", config)], [], [], mutableModules⟩ with
  | .error e => .error e
  | .ok conf =>
    match conf.addSubs (modules.map fun nm => (nm.1, nm.2.toSubArg)) with
    | (_, some e) => .error e
    | (conf, none) => .ok conf

/-- `_configure(config, config_data=None)` of a modular handler as `BaseComponent.configure` calls it:
`read` recognises the value of `config_data`, `build` gives data and modules for the settings and test
files. -/
def moduleHook (E : Env) (C : Containers V) (cls : String) (glob : String → List String)
    (isTensors : D → Bool) (read : Option (Arg V D) → Source)
    (build : V → Option (List String) → Except Err (Dict String D × Dict String (Comp V D))) :
    Hook V D := fun kwargs =>
  if kwargs.keys.any fun k => !["config", "config_data"].contains k then .error .typeError
  else
    match (Dict.get? kwargs "config").bind (Arg.val? C) with
    | none => .error .typeError
    | some config =>
      match configureBase glob isTensors false (fun files =>
          match build config files with
          | .error e => .error e
          | .ok (data, modules) =>
            match moduleConf E cls config modules with
            | .error e => .error e
            | .ok conf => .ok (conf, data, modules)) (read (Dict.get? kwargs "config_data")) with
      | .error e => .error e
      | .ok (conf, data, modules) => .ok (conf, .dict data, .dict modules)

/-- The type check of `config_data` in modules (data/modules/weights/dummy.py:57-58,
data/modules/misc/dummy.py:57-58, data/modules/labels/dummy.py:57-58,
data/modules/misc/seed_loader.py:101-102): a list is none of the accepted types. -/
def moduleAccepts : Option (List String) → Bool
  | none => true
  | some _ => false

end

/-! ## Biased selection -/

section
open Verif.Handler
variable {V : Type}

/-- What a `file_loader` puts on the queue for one existing file (data/handler/base.py:755-785): `sel` is the
`select` method of the biased selection. The number of events is that of the loaded file. -/
def loadFile (sel : Option (Option (List (Option (Arr V))) → Except Err (Option (List (Option (Arr V))))))
    (numSplits : Bool) (res : Except Err (Option Nat × Option (List (Option (Arr V))))) :
    Except Err (Option (Option Nat × List (Option (Arr V)))) :=
  match res with
  | .error e => .error e
  | .ok (n, data) =>
    match sel.elim (.ok data) (fun f => f data) with
    | .error e => .error e
    | .ok none => .ok none
    | .ok (some data) => if numSplits then .error .notImplementedError else .ok (some (n, data))

end

/-! ## Processes -/

/-- The processes of a handler and whether they run, and the number of queues it keeps
(data/handler/base.py:56-57). -/
structure Procs where
  running : List Bool
  queues : Nat
deriving DecidableEq

/-- What is done with a handler and its processes: a generator is started with a number of jobs, a process
ends by itself, or `kill` is called (also by `__del__`). -/
inductive Act where
  | generate (jobs : Nat)
  | ends (i : Nat)
  | kill

/-- `get_batch_generator` appends three queues and starts the loaders and the aggregator
(data/handler/base.py:713-715, 1007-1018); `kill` (1150-1160) terminates all processes and forgets the
queues, the list of processes is kept; `__del__` (1162-1163). -/
def procStep (s : Procs) : Act → Procs
  | .generate jobs => ⟨s.running ++ List.replicate jobs true ++ [true], s.queues + 3⟩
  | .ends i => { s with running := s.running.set i false }
  | .kill => ⟨s.running.map fun _ => false, 0⟩

/-- A new handler and a history. -/
def procRun (acts : List Act) : Procs := acts.foldl procStep ⟨[], 0⟩

end Verif.Access
