import Verif.Py.Dict

/-!
# Building of models and managers, class strings, and the check of source parameters

Models `egenerator/utils/build_components.py`, `egenerator/misc.py` and the check of source parameters
of `egenerator/model/multi_source/base.py`.
-/

namespace Verif.Build
open Verif.Py

/-! ## Models and managers -/

section
variable {Cls S Tr H M Cfg : Type}

/-- What the classes and files of the settings give: classes, models from a directory, models
configured with settings, a transformation and maybe base sources, transformations from a directory,
data handlers from settings, and managers from a directory or from settings and parts. -/
structure Env (Cls S Tr H M Cfg : Type) where
  cls : String → Except Err Cls
  load : Cls → String → Except Err S
  configure : Cls → Cfg → Tr → Option (Dict String S) → Except Err S
  loadTrafo : String → Except Err Tr
  handler : Except Err H
  managerCls : Except Err Cls
  loadManager : Cls → Except Err M
  configureManager : Cls → H → List S → Except Err M

/-- The settings of a base source: its class, the directory to load it from (`None` counts as no
directory), the directory of its own transformation, and its configuration. -/
structure BaseSettings (Cfg : Type) where
  cls : String
  loadDir : Option String
  trafoDir : Option String
  config : Cfg

/-- The settings of a model (`model_settings`). Without `multi_source_bases` there are no bases. -/
structure ModelSettings (Cfg : Type) where
  cls : String
  bases : List (String × BaseSettings Cfg)
  config : Cfg

/-- The transformation of a base source (utils/build_components.py:130-135). -/
def baseTrafo (E : Env Cls S Tr H M Cfg) (trafo : Tr) (s : BaseSettings Cfg) : Except Err Tr :=
  match s.trafoDir with
  | some dir => E.loadTrafo dir
  | none => .ok trafo

/-- A base source (utils/build_components.py:114-137). -/
def buildBase (E : Env Cls S Tr H M Cfg) (allow : Bool) (trafo : Tr) (s : BaseSettings Cfg) :
    Except Err S :=
  match E.cls s.cls with
  | .error e => .error e
  | .ok c =>
    match s.loadDir with
    | some dir => E.load c dir
    | none =>
      if !allow then .error .valueError
      else
        match baseTrafo E trafo s with
        | .error e => .error e
        | .ok t => E.configure c s.config t none

/-- The loop over the base sources (utils/build_components.py:104-139). The keys of a dictionary are
distinct. -/
def buildBases (E : Env Cls S Tr H M Cfg) (allow : Bool) (trafo : Tr) :
    List (String × BaseSettings Cfg) → Except Err (Dict String S)
  | [] => .ok []
  | (name, s) :: rest =>
    match buildBase E allow trafo s with
    | .error e => .error e
    | .ok x =>
      match buildBases E allow trafo rest with
      | .error e => .error e
      | .ok d => .ok ((name, x) :: d)

/-- `build_model` (utils/build_components.py:78-150). -/
def buildModel (E : Env Cls S Tr H M Cfg) (allow : Bool) (trafo : Tr) (s : ModelSettings Cfg) :
    Except Err S :=
  match buildBases E allow trafo s.bases with
  | .error e => .error e
  | .ok bases =>
    match E.cls s.cls with
    | .error e => .error e
    | .ok c => E.configure c s.config trafo (if bases.isEmpty then none else some bases)

/-- `build_manager` (utils/build_components.py:153-239). `trafoDir` is the directory of the
transformation in the settings. -/
def buildManager (E : Env Cls S Tr H M Cfg) (restore allow : Bool) (handler : Option H)
    (trafo : Option Tr) (models : Option (List S)) (trafoDir : String) (s : ModelSettings Cfg) :
    Except Err M :=
  match E.managerCls with
  | .error e => .error e
  | .ok c =>
    if restore then E.loadManager c
    else
      match handler.elim E.handler .ok with
      | .error e => .error e
      | .ok h =>
        match trafo.elim (E.loadTrafo trafoDir) .ok with
        | .error e => .error e
        | .ok t =>
          match models with
          | some ms => E.configureManager c h ms
          | none =>
            match buildModel E allow t s with
            | .error e => .error e
            | .ok m => E.configureManager c h [m]

end

/-! ## Loss modules -/

section
variable {L Cfg : Type}

/-- The loss modules of a list of settings (utils/build_components.py:64-69). -/
def buildLosses (make : String → Cfg → Except Err L) : List (String × Cfg) → Except Err (List L)
  | [] => .ok []
  | (c, s) :: rest =>
    match make c s with
    | .error e => .error e
    | .ok x =>
      match buildLosses make rest with
      | .error e => .error e
      | .ok xs => .ok (x :: xs)

/-- `build_loss_module` (utils/build_components.py:39-75): settings are one dictionary or a list of
them; `multi` puts loss modules together (loss/multi_loss.py, `Verif.Loss`). -/
def buildLoss (make : String → Cfg → Except Err L) (multi : List L → Except Err L) :
    (String × Cfg) ⊕ List (String × Cfg) → Except Err L
  | .inl s => make s.1 s.2
  | .inr l =>
    match buildLosses make l with
    | .error e => .error e
    | .ok xs => multi xs

end

/-! ## The parameters of the sources of a multi source -/

/-- A tensor of a graph: the name, whether its operation is a constant, and the inputs of the operation.
Simplification: the graph is a tree, shared inputs are repeated. -/
inductive Tensor where
  | node (name : String) (const : Bool) (inputs : List Tensor)

mutual
/-- `_find_top_nodes` (model/multi_source/base.py:683-714). -/
def topNodes (collect : String) : Tensor → List String
  | .node name const inputs =>
    match inputs with
    | [] => if const && name == collect then [name] else []
    | t :: ts => topNodesAll collect (t :: ts)
/-- The union over the inputs (model/multi_source/base.py:709-714). -/
def topNodesAll (collect : String) : List Tensor → List String
  | [] => []
  | t :: ts => topNodes collect t ++ topNodesAll collect ts
end

/-- `source_parameters_i[:, i]` (model/multi_source/base.py:645): the operation has the tensor and
three constants as inputs. -/
def slice (name : String) (consts : Nat → String) (t : Tensor) : Tensor :=
  .node name false [t, .node (consts 0) true [], .node (consts 1) true [], .node (consts 2) true []]

/-- The loop over the parameters (model/multi_source/base.py:644-668). -/
def checkColumns (input : String) (fresh : Nat → Nat → String) (t : Tensor) :
    List Nat → Except Err Unit
  | [] => .ok ()
  | i :: is =>
    let top := topNodes input (slice (fresh i 3) (fresh i) t)
    if !top.contains input then .error .valueError
    else if top.any fun n => n != input then .error .valueError
    else checkColumns input fresh t is

/-- The parameters of a source: the number of columns and the tensor. -/
structure SourceParams where
  columns : Nat
  tensor : Tensor

/-- `check_source_parameter_creation` (model/multi_source/base.py:601-671). `params` are the parameters
of the sources, made from the input tensor with the name `input`; `expected` are the numbers of
parameters of the bases; the sources come with their bases; `fresh` are the names of new tensors. In
eager mode the name of a tensor is an AttributeError, which is caught (669-671). -/
def checkSources (eager : Bool) (input : String) (fresh : Nat → Nat → String)
    (params : Dict String SourceParams) (expected : Dict String Nat) :
    List (String × String) → Except Err Unit
  | [] => .ok ()
  | (name, base) :: rest =>
    match Dict.get? expected base with
    | none => .error .keyError
    | some n =>
      match Dict.get? params name with
      | none => .error .keyError
      | some p =>
        if p.columns ≠ n then .error .valueError
        else if eager then checkSources eager input fresh params expected rest
        else
          let top := topNodes input p.tensor
          if top ≠ [] ∧ top.all (fun x => x == input) then
            checkSources eager input fresh params expected rest
          else
            match checkColumns input fresh p.tensor (List.range n) with
            | .error e => .error e
            | .ok _ => checkSources eager input fresh params expected rest

/-! ## Class strings -/

/-- `s.split(c)`. -/
def split (c : Char) : List Char → List (List Char)
  | [] => [[]]
  | x :: xs =>
    if x = c then [] :: split c xs
    else
      match split c xs with
      | [] => [[x]]
      | w :: ws => (x :: w) :: ws

/-- `c.join(parts)`. -/
def join (c : Char) : List (List Char) → List Char
  | [] => []
  | [w] => w
  | w :: ws => w ++ c :: join c ws

/-- A class: the module it is defined in (`__module__`, which may be `None`), and the names on the way
to it (`__qualname__`). -/
structure Class where
  module : Option (List Char)
  outer : List (List Char)
  name : List Char
deriving DecidableEq

/-- What modules have as attributes; `none` if there is no such module. -/
abbrev World := List Char → Option (List Char → Option Class)

/-- `load_class` (misc.py:5-28). Importing a module without a name is a ValueError. -/
def loadClass (W : World) (s : List Char) : Except Err Class :=
  let parts := split '.' s
  let path := join '.' parts.dropLast
  if path.isEmpty then .error .valueError
  else
    match W path with
    | none => .error .importError
    | some attr =>
      match attr (parts.getLastD []) with
      | none => .error .attributeError
      | some c => .ok c

/-- `get_full_class_string_of_object` (misc.py:31-60): `str.__class__.__module__` is `builtins`. -/
def classString (c : Class) : List Char :=
  match c.module with
  | none => c.name
  | some m => if m = "builtins".toList then c.name else m ++ '.' :: c.name

end Verif.Build
