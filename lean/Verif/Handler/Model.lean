/-
Model of the event/batch structure, the filters and the assembly of data:
`egenerator/data/handler/base.py` and `egenerator/data/handler/modular.py`.
-/
import Verif.Py.Dict

namespace Verif.Handler
open Verif.Py

/-- A row of an array (an entry along axis 0). For an index array `id` is the
entry `[0]` of the row, the position of the event in the batch, and `rest` are the
other entries. For every other array the whole row is `rest` and `id` is not read. -/
structure Row (V : Type) where
  id : Int
  rest : V
  deriving DecidableEq, Repr

/-- A numpy array as a list of rows, or (`isList`) an ordinary Python list, which
has no multi-dimensional indexing. -/
structure Arr (V : Type) where
  rows : List (Row V)
  isList : Bool := false
  deriving DecidableEq, Repr

variable {V : Type}

/-- `values[mask]` with a boolean mask of the same length. -/
def select {α : Type} (values : List α) (mask : List Bool) : List α :=
  (values.zip mask).filterMap (fun vm => if vm.2 then some vm.1 else none)

/-- The loop of `batch_to_event_structure`, data/handler/base.py:516-521, for `i, i+1, ..`
(`n` passes). A mask of the wrong length is an IndexError; `indices[:, 0]` on a
Python list is a TypeError. -/
def toEventLoop (values indices : Arr V) (i : Int) : Nat →
    Except Err (List (Arr V) × List (Arr V))
  | 0 => .ok ([], [])
  | n + 1 =>
    if indices.isList then .error .typeError
    else if values.isList then .error .typeError
    else
      let mask := indices.rows.map (fun r => r.id == i)
      if values.rows.length ≠ mask.length then .error .indexError
      else
        match toEventLoop values indices (i + 1) n with
        | .error e => .error e
        | .ok (vs, is) =>
          .ok ({ rows := select values.rows mask } :: vs, { rows := select indices.rows mask } :: is)

/-- `BaseDataHandler.batch_to_event_structure`, data/handler/base.py:494-522. -/
def batchToEvent (values indices : Arr V) (n : Nat) : Except Err (List (Arr V) × List (Arr V)) :=
  toEventLoop values indices 0 n

/-- The loop of `event_to_batch_structure`, data/handler/base.py:549-557. -/
def toBatchLoop (i : Int) : List (Arr V) → List (Arr V) → Except Err (List (Row V) × List (Row V))
  | v :: vs, x :: xs =>
    if x.isList then .error .typeError
    else if x.rows.all (fun r => r.id == i) then
      match toBatchLoop (i + 1) vs xs with
      | .error e => .error e
      | .ok (rv, rx) => .ok (v.rows ++ rv, x.rows ++ rx)
    else .error .assertionError
  | _, _ => .ok ([], [])

/-- `BaseDataHandler.event_to_batch_structure`, data/handler/base.py:524-563. Without any row
the two Python lists are returned, not arrays. `np.stack` needs rows of one shape;
this is not modelled. -/
def eventToBatch (values indices : List (Arr V)) (n : Nat) : Except Err (Arr V × Arr V) :=
  if n ≠ values.length then .error .assertionError
  else if n ≠ indices.length then .error .assertionError
  else
    match toBatchLoop 0 values indices with
    | .error e => .error e
    | .ok (rv, rx) =>
      if rv.length > 0 then .ok ({ rows := rv }, { rows := rx })
      else .ok ({ rows := rv, isList := true }, { rows := rx, isList := true })

/-- The four kinds of modules, i.e. `tensor.type`; `prediction` is not used by the
handler. -/
inductive Ty where
  | data | label | misc | weight
  deriving DecidableEq, Repr

/-- `tensor.vector_info`: none, a value tensor, or an index tensor with the name of
its value tensor. -/
inductive Kind where
  | plain
  | value
  | index (ref : String)
  deriving DecidableEq, Repr

/-- The part of a `DataTensor` the handler reads. -/
structure TInfo where
  name : String
  ty : Ty
  present : Bool
  kind : Kind
  deriving DecidableEq, Repr

/-- `self.tensors.get_index(name)`. -/
def indexOf (ts : List TInfo) (name : String) : Except Err Nat :=
  match ts.findIdx? (fun t => t.name == name) with
  | some i => .ok i
  | none => .error .keyError

/-- `l[i]` for a list of tensors in a batch. -/
def getAt (l : List (Option (Arr V))) (i : Nat) : Except Err (Option (Arr V)) :=
  match l[i]? with
  | some x => .ok x
  | none => .error .indexError

/-- The rows get the batch index of their new event: `indices[:, 0] = batch_index`,
data/handler/modular.py:495-497 and data/handler/base.py:928-929. -/
def setId (i : Int) (a : Arr V) : Arr V := { a with rows := a.rows.map (fun r => { r with id := i }) }

/-- `for batch_index in range(n): l[batch_index][:, 0] = batch_index`. -/
def renumber (i : Int) : List (Arr V) → List (Arr V)
  | [] => []
  | a :: l => setId i a :: renumber (i + 1) l

/-- The body of the loop of `_filter_data` for the tensor at position `i`,
data/handler/modular.py:454-512. `out` is `filtered_batch`. -/
def filterOne (ts : List TInfo) (mask : List Bool) (n : Nat) (batch : List (Option (Arr V)))
    (out : List (Option (Arr V))) (i : Nat) (t : TInfo) : Except Err (List (Option (Arr V))) :=
  match t.kind with
  | .value => .ok out
  | .index ref =>
    match indexOf ts ref with
    | .error e => .error e
    | .ok vi =>
      match getAt batch vi, getAt batch i with
      | .ok (some values), .ok (some indices) =>
        match batchToEvent values indices n with
        | .error e => .error e
        | .ok (vs, xs) =>
          match eventToBatch (select vs mask) (renumber 0 (select xs mask))
              (mask.countP id) with
          | .error e => .error e
          | .ok (v, x) => .ok ((out.set vi (some v)).set i (some x))
      | .ok none, .ok none => .ok ((out.set vi none).set i none)
      | .ok _, .ok _ => .error .assertionError
      | .error e, _ => .error e
      | _, .error e => .error e
  | .plain =>
    match getAt batch i with
    | .error e => .error e
    | .ok none => .error .typeError
    | .ok (some a) =>
      if a.isList then .error .typeError
      else if a.rows.length ≠ mask.length then .error .indexError
      else .ok (out.set i (some { rows := select a.rows mask }))

/-- The loop of `_filter_data`. -/
def filterLoop (ts : List TInfo) (mask : List Bool) (n : Nat) (batch : List (Option (Arr V))) :
    List TInfo → Nat → List (Option (Arr V)) → Except Err (List (Option (Arr V)))
  | [], _, out => .ok out
  | t :: rest, i, out =>
    match filterOne ts mask n batch out i t with
    | .error e => .error e
    | .ok out' => filterLoop ts mask n batch rest (i + 1) out'

/-- `ModuleDataHandler._filter_data`, data/handler/modular.py:427-514. -/
def filterData (ts : List TInfo) (mask : List Bool) (n : Nat) (batch : List (Option (Arr V))) :
    Except Err (Nat × List (Option (Arr V))) :=
  if mask.length ≠ n then .error .assertionError
  else
    match filterLoop ts mask n batch ts 0 (ts.map (fun _ => none)) with
    | .error e => .error e
    | .ok out => .ok (mask.countP id, out)

/-- What a module returns: a number of events and a tuple of arrays, each possibly
`None`. -/
structure ModResult (V : Type) where
  num : Option Nat
  data : Option (List (Option (Arr V)))

/-- `check_num_events`, data/handler/modular.py:370-375. -/
def checkNum (cur num : Option Nat) : Except Err (Option Nat) :=
  match cur with
  | none => .ok num
  | some c => if num = some c then .ok cur else .error .valueError

/-- The tensors of one module, sorted by name (C10). -/
def ofTy (ts : List TInfo) (ty : Ty) : List TInfo := ts.filter (fun t => t.ty == ty)

/-- The loop that combines the data in the correct order, data/handler/modular.py:377-404.
`modTensors ty` is the tensor list of the module. -/
def combineLoop (modTensors : Ty → List TInfo) (res : Ty → ModResult V) :
    List TInfo → Option Nat → Except Err (Option Nat × List (Option (Arr V)))
  | [], cur => .ok (cur, [])
  | t :: rest, cur =>
    if t.present then
      match checkNum cur (res t.ty).num with
      | .error e => .error e
      | .ok cur' =>
        match (res t.ty).data with
        | none => .error .typeError
        | some d =>
          match indexOf (modTensors t.ty) t.name with
          | .error e => .error e
          | .ok k =>
            match getAt d k with
            | .error e => .error e
            | .ok a =>
              match combineLoop modTensors res rest cur' with
              | .error e => .error e
              | .ok (c, l) => .ok (c, a :: l)
    else
      match combineLoop modTensors res rest cur with
      | .error e => .error e
      | .ok (c, l) => .ok (c, none :: l)

/-- A module with tensors that returned `(None, None)`, data/handler/modular.py:350-365. -/
def problem (modTensors : Ty → List TInfo) (res : Ty → ModResult V) (ty : Ty) : Bool :=
  decide ((modTensors ty).length > 0) && (res ty).num.isNone && (res ty).data.isNone

/-- `ModuleDataHandler._get_data`, data/handler/modular.py:287-425, after the modules have been
called: `res` are their results and `filter n batch` is the mask of the filter
module. `none` is `(None, None)`. -/
def getData (ts : List TInfo) (modTensors : Ty → List TInfo) (res : Ty → ModResult V)
    (filter : Nat → List (Option (Arr V)) → Except Err (List Bool)) :
    Except Err (Option (Nat × List (Option (Arr V)))) :=
  if problem modTensors res .data || problem modTensors res .label ||
      problem modTensors res .misc || problem modTensors res .weight then .ok none
  else
    match combineLoop modTensors res ts none with
    | .error e => .error e
    | .ok (none, _) => .error .valueError
    | .ok (some n, batch) =>
      match filter n batch with
      | .error e => .error e
      | .ok mask =>
        if mask.all id then
          if n = 0 then .ok none else .ok (some (n, batch))
        else
          match filterData ts mask n batch with
          | .error e => .error e
          | .ok (k, out) => if k = 0 then .ok none else .ok (some (k, out))

end Verif.Handler
