/-
Model of `egenerator/data/tensor.py`: `DataTensor` and `DataTensorList`.
-/
import Verif.Py.Dict
import Verif.Py.Sort

namespace Verif.Tensor
open Verif.Py

/-- The Python values that occur in tensor descriptions. `other` stands for any further value (floats, arrays, objects), which the
code only stores. -/
inductive PyVal where
  | none
  | bool (b : Bool)
  | int (i : Int)
  | str (s : String)
  | list (l : List PyVal)
  | tuple (l : List PyVal)
  | dict (d : List (String × PyVal))
  | other (n : Nat)

/-- A `DataTensor` object, tensor.py:69-80. Simplification: the name is a string
(the code stores any value, but only strings are used). `vectorInfo = .none` is
Python's `None`. -/
structure DataTensor where
  name : String
  shape : PyVal
  type : PyVal
  dtype : PyVal
  exists' : PyVal
  vectorInfo : PyVal
  trafo : PyVal
  trafoReduceAxes : PyVal
  trafoLog : PyVal
  trafoLogAxis : PyVal
  trafoBatchAxis : PyVal
  specs : List (String × PyVal)

/-- The parameter names of the constructor, tensor.py:8-11. -/
def ctorParams : List String :=
  ["name", "shape", "tensor_type", "dtype", "exists", "vector_info", "trafo",
   "trafo_reduce_axes", "trafo_log", "trafo_log_axis", "trafo_batch_axis"]

/-- `isinstance(v, int)`: booleans are integers in Python. -/
def PyVal.asInt : PyVal → Option Int
  | .int i => some i
  | .bool b => some (if b then 1 else 0)
  | _ => Option.none

/-- The items of a list or tuple. -/
def PyVal.items? : PyVal → Option (List PyVal)
  | .list l => some l
  | .tuple l => some l
  | _ => Option.none

/-- Python's `l[i]` with negative indices. -/
def pyIndex {α : Type} (l : List α) (i : Int) : Except Err α :=
  if 0 ≤ i then
    match l[i.toNat]? with
    | some x => .ok x
    | none => .error .indexError
  else if 0 ≤ i + l.length then
    match l[(i + l.length).toNat]? with
    | some x => .ok x
    | none => .error .indexError
  else .error .indexError

/-- `vector_info['type']` and the check of it, tensor.py:101-104. -/
def checkVectorInfo : PyVal → Except Err Unit
  | .none => .ok ()
  | .dict d =>
    match Dict.get? d "type" with
    | some (.str "index") => .ok ()
    | some (.str "value") => .ok ()
    | some _ => .error .valueError
    | none => .error .keyError
  | _ => .error .typeError

/-- The expansion of a boolean `trafo_log`, tensor.py:107-113. -/
def expandLog (shape axis log : PyVal) : Except Err PyVal :=
  match log with
  | .bool b =>
    match shape.items?, axis.asInt with
    | some dims, some i =>
      match pyIndex dims i with
      | .error e => .error e
      | .ok .none => .error .valueError
      | .ok d =>
        match d.asInt with
        | some n => .ok (.list (List.replicate n.toNat (.bool b)))
        | none => .error .typeError
    | _, _ => .error .typeError
  | v => .ok v

/-- The five admissible types, tensor.py:92. -/
def typeNames : List String := ["data", "label", "weight", "misc", "prediction"]

/-- The checks and the expansion of the constructor, tensor.py:83-113.
`np` is `hasattr(numpy, ·)`. -/
def DataTensor.init (np : String → Bool) (t : DataTensor) : Except Err DataTensor :=
  match t.shape with
  | .none => .error .valueError
  | _ =>
    match t.trafoLogAxis.asInt with
    | none => .error .valueError
    | some _ =>
      match t.type with
      | .str ty =>
        if !typeNames.contains ty then .error .valueError
        else
          match t.dtype with
          | .str s =>
            if !np s then .error .valueError
            else
              match checkVectorInfo t.vectorInfo with
              | .error e => .error e
              | .ok _ =>
                match expandLog t.shape t.trafoLogAxis t.trafoLog with
                | .error e => .error e
                | .ok log => .ok { t with trafoLog := log }
          | _ => .error .valueError
      | _ => .error .valueError

/-- A keyword argument with its default. -/
def argOr (kwargs : Dict String PyVal) (k : String) (default : PyVal) : PyVal :=
  match kwargs.get? k with
  | some v => v
  | none => default

/-- `DataTensor(**kwargs)`, tensor.py:8-113: a missing required argument is a
TypeError; every keyword that is not a parameter goes to `specs`. A keyword
`self` would clash with the first positional argument. -/
def construct (np : String → Bool) (kwargs : Dict String PyVal) : Except Err DataTensor :=
  if kwargs.has "self" then .error .typeError
  else
    match kwargs.get? "name", kwargs.get? "shape", kwargs.get? "tensor_type", kwargs.get? "dtype" with
    | some (.str name), some shape, some type, some dtype =>
      DataTensor.init np
        { name := name, shape := shape, type := type, dtype := dtype
          exists' := argOr kwargs "exists" (.bool true)
          vectorInfo := argOr kwargs "vector_info" .none
          trafo := argOr kwargs "trafo" (.bool false)
          trafoReduceAxes := argOr kwargs "trafo_reduce_axes" (.tuple [])
          trafoLog := argOr kwargs "trafo_log" .none
          trafoLogAxis := argOr kwargs "trafo_log_axis" (.int (-1))
          trafoBatchAxis := argOr kwargs "trafo_batch_axis" (.int 0)
          specs := kwargs.filter (fun kv => !ctorParams.contains kv.1) }
    | _, _, _, _ => .error .typeError

/-- `DataTensor.to_dict`, tensor.py:148-160: the attributes in the order in which
the constructor sets them (none of them starts with two underscores). -/
def DataTensor.toDict (t : DataTensor) : Dict String PyVal :=
  [("name", .str t.name), ("shape", t.shape), ("type", t.type), ("dtype", t.dtype),
   ("exists", t.exists'), ("vector_info", t.vectorInfo), ("trafo", t.trafo),
   ("trafo_reduce_axes", t.trafoReduceAxes), ("trafo_log", t.trafoLog),
   ("trafo_log_axis", t.trafoLogAxis), ("trafo_batch_axis", t.trafoBatchAxis),
   ("specs", .dict t.specs)]

/-- A `DataTensorList` object, tensor.py:200-216. -/
structure TensorList where
  len : Nat
  list : List DataTensor
  names : List String
  shapes : List PyVal
  types : List PyVal
  existing : List PyVal
  nameDict : Dict String Nat
  indexDict : Dict Nat String

/-- The loop `for i, data_tensor in enumerate(self.list)`, tensor.py:210-216, on
the two dictionaries. -/
def indexLoop (nd : Dict String Nat) (idict : Dict Nat String) (i : Nat) :
    List DataTensor → Dict String Nat × Dict Nat String
  | [] => (nd, idict)
  | t :: rest => indexLoop (nd.set t.name i) (idict.set i t.name) (i + 1) rest

/-- The constructor on a list of tensors, tensor.py:188-216. `np.argsort(names)`
with distinct names gives the tensors in order of their names; `names` are
compared as numpy does, by code points. -/
def TensorList.ofTensors (ts : List DataTensor) : Except Err TensorList :=
  if (ts.map DataTensor.name).Nodup then
    let l := sortBy (fun a b => decide (a.name ≤ b.name)) ts
    let d := indexLoop [] [] 0 l
    .ok { len := l.length, list := l, names := l.map DataTensor.name
          shapes := l.map DataTensor.shape, types := l.map DataTensor.type
          existing := l.map DataTensor.exists', nameDict := d.1, indexDict := d.2 }
  else .error .valueError

/-- `del d[key]`. -/
def delKey (d : Dict String PyVal) (k : String) : Except Err (Dict String PyVal) :=
  if d.has k then .ok (d.filter (fun kv => kv.1 ≠ k)) else .error .keyError

/-- One pass of the loop in `deserialize`, tensor.py:299-311. -/
def deserializeOne (np : String → Bool) (d : Dict String PyVal) : Except Err DataTensor :=
  match d.get? "type" with
  | none => .error .keyError
  | some ty =>
    let d := d.set "tensor_type" ty
    match d.get? "specs" with
    | none => .error .keyError
    | some (.dict specs) =>
      match delKey (d.update specs) "type" with
      | .error e => .error e
      | .ok d =>
        match delKey d "specs" with
        | .error e => .error e
        | .ok d => construct np d
    | some _ => .error .attributeError

/-- The loop in `deserialize`. -/
def deserializeAll (np : String → Bool) : List (Dict String PyVal) → Except Err (List DataTensor)
  | [] => .ok []
  | d :: rest =>
    match deserializeOne np d with
    | .error e => .error e
    | .ok t =>
      match deserializeAll np rest with
      | .error e => .error e
      | .ok ts => .ok (t :: ts)

/-- `DataTensorList.deserialize`, tensor.py:283-313. -/
def deserialize (np : String → Bool) (ds : List (Dict String PyVal)) : Except Err TensorList :=
  match deserializeAll np ds with
  | .error e => .error e
  | .ok ts => TensorList.ofTensors ts

/-- The argument of `DataTensorList(...)`. -/
inductive ListArg where
  | copy (l : TensorList)
  | tensors (ts : List DataTensor)
  | dicts (ds : List (Dict String PyVal))

/-- `DataTensorList(data_tensors)`, tensor.py:165-216. -/
def TensorList.init (np : String → Bool) : ListArg → Except Err TensorList
  | .copy l => TensorList.ofTensors l.list
  | .tensors ts => TensorList.ofTensors ts
  | .dicts [] => TensorList.ofTensors []
  | .dicts ds =>
    match deserialize np ds with
    | .error e => .error e
    | .ok l => TensorList.ofTensors l.list

/-- `DataTensorList.serialize`, tensor.py:273-281. -/
def TensorList.serialize (l : TensorList) : List (Dict String PyVal) := l.list.map DataTensor.toDict

/-- `DataTensorList.get_index`, tensor.py:315-328. -/
def TensorList.getIndex (l : TensorList) (name : String) : Except Err Nat :=
  match l.nameDict.get? name with
  | some i => .ok i
  | none => .error .keyError

/-- `DataTensorList.get_name`, tensor.py:330-344. -/
def TensorList.getName (l : TensorList) (i : Nat) : Except Err String :=
  match l.indexDict.get? i with
  | some n => .ok n
  | none => .error .keyError

/-- `DataTensorList.__getitem__`, tensor.py:258-271. -/
def TensorList.getItem (l : TensorList) (name : String) : Except Err DataTensor :=
  match l.getIndex name with
  | .error e => .error e
  | .ok i =>
    match l.list[i]? with
    | some t => .ok t
    | none => .error .indexError

end Verif.Tensor
