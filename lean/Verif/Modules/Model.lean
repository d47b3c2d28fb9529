import Verif.Tensor.Model

/-!
# Modules of a data handler

Models how `ModuleDataHandler` (`egenerator/data/handler/modular.py`) sets up its modules, how it is
updated when modules are replaced, and how it distributes data that is written to a frame. How data is
loaded and filtered is in `Verif.Handler`.
-/

namespace Verif.Modules
open Verif.Py Verif.Tensor

/-- The data of a module: tensor lists and other values. -/
inductive DVal where
  | tensors (l : List DataTensor)
  | other (n : Nat)
deriving Inhabited

section
variable {V : Type}

/-- A configured module: its full class string, its data, and the settings that it records
(`configuration.config`, which has `config_data` in it). -/
structure Module (V : Type) where
  cls : String
  data : Dict String DVal
  config : Dict String V

/-- The settings of a data handler: classes and settings of the modules, by kind. -/
structure Config (V : Type) where
  classes : Dict String String
  settings : Dict String (Dict String V)

/-- A data handler: its modules by kind, its data, the list of all tensors, and its settings. -/
structure Handler (V : Type) where
  modules : Dict String (Module V)
  data : Dict String DVal
  tensors : TensorList
  config : Config V

/-- The kinds of modules in the order of the loop (data/handler/modular.py:206). -/
def kinds : List String := ["data", "label", "weight", "misc", "filter"]

/-- The packages of the kinds (data/handler/modular.py:121-144). -/
def package : String → String
  | "label" => "labels"
  | "weight" => "weights"
  | "filter" => "filters"
  | k => k

/-- The class that is loaded for a kind of modules (data/handler/modular.py:121-144). -/
def className (kind cls : String) : String := "egenerator.data.modules." ++ package kind ++ "." ++ cls

/-- The modules are created and configured (data/handler/modular.py:106-147, 206-208): `make` is the
outcome for a class and keyword arguments. The keyword `config_data` must not be given twice.
Simplification: every module is configured when it is created. -/
def makeModules (make : String → Dict String V → Except Err (Module V)) (c : Config V) (configData : V) :
    List String → Except Err (Dict String (Module V))
  | [] => .ok []
  | k :: ks =>
    match Dict.get? c.classes k, Dict.get? c.settings k with
    | some cls, some s =>
      if Dict.has s "config_data" then .error .typeError
      else
        match make (className k cls) (("config_data", configData) :: s) with
        | .error e => .error e
        | .ok m =>
          match makeModules make c configData ks with
          | .error e => .error e
          | .ok ms => .ok ((k, m) :: ms)
    | _, _ => .error .keyError

/-- The data of the modules is collected (data/handler/modular.py:204-210). -/
def gather (modules : Dict String (Module V)) : List String → Dict String DVal → Except Err (Dict String DVal)
  | [], data => .ok data
  | k :: ks, data =>
    match Dict.get? modules k with
    | none => .error .keyError
    | some m => gather modules ks (Dict.update data m.data)

/-- `data[key].list`. -/
def tensorsAt (data : Dict String DVal) (key : String) : Except Err (List DataTensor) :=
  match Dict.get? data key with
  | none => .error .keyError
  | some (.other _) => .error .attributeError
  | some (.tensors l) => .ok l

/-- The list of all tensors (data/handler/modular.py:213-215, 281-285). -/
def allTensors (data : Dict String DVal) : Except Err TensorList :=
  match tensorsAt data "data_tensors" with
  | .error e => .error e
  | .ok a =>
    match tensorsAt data "label_tensors" with
    | .error e => .error e
    | .ok b =>
      match tensorsAt data "weight_tensors" with
      | .error e => .error e
      | .ok c =>
        match tensorsAt data "misc_tensors" with
        | .error e => .error e
        | .ok d => TensorList.ofTensors (a ++ b ++ c ++ d)

/-- A handler from its modules (data/handler/modular.py:203-230). -/
def assemble (modules : Dict String (Module V)) (c : Config V) : Except Err (Handler V) :=
  match gather modules kinds [] with
  | .error e => .error e
  | .ok data =>
    match allTensors data with
    | .error e => .error e
    | .ok ts => .ok ⟨modules, data, ts, c⟩

/-- `_configure_derived_class` (data/handler/modular.py:149-230). -/
def configure (make : String → Dict String V → Except Err (Module V)) (c : Config V) (configData : V) :
    Except Err (Handler V) :=
  match makeModules make c configData kinds with
  | .error e => .error e
  | .ok modules => assemble modules c

/-- The loop over the replaced modules (data/handler/modular.py:258-278). The names are the kinds with
`_module` appended; the modules themselves are replaced before (manager/component.py, `load`). -/
def updateLoop : List String → Handler V → Except Err (Handler V)
  | [], h => .ok h
  | k :: rest, h =>
    if !kinds.contains k then .error .valueError
    else
      match Dict.get? h.modules k with
      | none => .error .keyError
      | some m =>
        updateLoop rest { h with
          data := Dict.update h.data m.data
          config := ⟨Dict.set h.config.classes k m.cls, Dict.set h.config.settings k m.config⟩ }

/-- `_update_sub_components` (data/handler/modular.py:232-285). -/
def update (names : List String) (h : Handler V) : Except Err (Handler V) :=
  match updateLoop names h with
  | .error e => .error e
  | .ok h =>
    match allTensors h.data with
    | .error e => .error e
    | .ok ts => .ok { h with tensors := ts }

end

/-! ## Writing to frames -/

section
variable {D : Type}

/-- `tensor.type == name`. -/
def isType (k : String) (t : DataTensor) : Bool :=
  match t.type with
  | .str s => s == k
  | _ => false

/-- The tensors of a type are collected (data/handler/modular.py:602-606); `data` is a list with the
values of the tensors. -/
def collect (k : String) : List DataTensor → List D → Except Err (List D)
  | [], _ => .ok []
  | t :: ts, data =>
    if isType k t then
      match data with
      | [] => .error .indexError
      | x :: xs =>
        match collect k ts xs with
        | .error e => .error e
        | .ok l => .ok (x :: l)
    else collect k ts data.tail

/-- `_write_data_to_frame` (data/handler/modular.py:580-609): the modules, in this order, are given data
to write. -/
def writeData (ts : List DataTensor) (data : List D) : List String → Except Err (List (String × List D))
  | [] => .ok []
  | k :: ks =>
    match collect k ts data with
    | .error e => .error e
    | .ok batch =>
      match writeData ts data ks with
      | .error e => .error e
      | .ok l => .ok ((k, batch) :: l)

/-- The order of the modules (data/handler/modular.py:597). -/
def writeOrder : List String := ["data", "label", "misc", "weight"]

end

end Verif.Modules
