/-
Model of the comparison of tensor descriptions, `egenerator/data/tensor.py`: `DataTensor.__eq__`,
`DataTensor.__ne__`, `DataTensorList.__eq__`, `DataTensorList.__ne__`, and of the check with it in the
label modules and the pulse module.
-/
import Verif.Tensor.Model

namespace Verif.Equality
open Verif.Py Verif.Tensor

mutual
/-- Python's `==` on the values in tensor descriptions: `True == 1`; a list is never equal to a tuple;
dictionaries are equal if they have as many keys, and each key of the first is one of the second with an
equal value. Simplification: `other` values are compared by identity (numpy arrays, whose comparison has
no truth value, and `nan` are not modelled). -/
def valEq : PyVal → PyVal → Bool
  | .none, w => match w with
    | .none => true
    | _ => false
  | .bool b, w => w.asInt == some (if b then 1 else 0)
  | .int i, w => w.asInt == some i
  | .str s, w => match w with
    | .str s' => s == s'
    | _ => false
  | .list l, w => match w with
    | .list l' => listEq l l'
    | _ => false
  | .tuple l, w => match w with
    | .tuple l' => listEq l l'
    | _ => false
  | .dict d, w => match w with
    | .dict d' => d.length == d'.length && dictEq d d'
    | _ => false
  | .other n, w => match w with
    | .other n' => n == n'
    | _ => false
/-- Two sequences: as long, and equal item by item. -/
def listEq : List PyVal → List PyVal → Bool
  | [], [] => true
  | v :: l, w :: l' => valEq v w && listEq l l'
  | _, _ => false
/-- The entries of the first dictionary are looked up in the second. -/
def dictEq : List (String × PyVal) → List (String × PyVal) → Bool
  | [], _ => true
  | kv :: d, d' => entryEq kv d' && dictEq d d'
/-- One entry. -/
def entryEq : String × PyVal → List (String × PyVal) → Bool
  | (k, v), d' => match Dict.get? d' k with
    | some w => valEq v w
    | none => false
end

/-- The right operand of a comparison with a tensor or a list of tensors. -/
inductive Operand where
  | tensor (t : DataTensor)
  | tensors (l : TensorList)
  | other

/-- `DataTensor.__eq__`, tensor.py:128-130. The attributes (`__dict__`) of a tensor are the entries of
`to_dict`. -/
def tensorEq (t : DataTensor) : Operand → Bool
  | .tensor u => valEq (.dict t.toDict) (.dict u.toDict)
  | _ => false

/-- `DataTensor.__ne__`, tensor.py:146. -/
def tensorNe (t : DataTensor) (o : Operand) : Bool := !tensorEq t o

/-- The loop of `DataTensorList.__eq__`, tensor.py:237-239. -/
def pairsEq : List DataTensor → List DataTensor → Bool
  | t :: ts, u :: us => if tensorNe t (.tensor u) then false else pairsEq ts us
  | _, _ => true

/-- `==` on two Python lists of tensors, which is part of the comparison of the attributes. -/
def tensorsEq : List DataTensor → List DataTensor → Bool
  | [], [] => true
  | t :: ts, u :: us => tensorEq t (.tensor u) && tensorsEq ts us
  | _, _ => false

/-- `==` on dictionaries with plain values. -/
def plainDictEq {κ α : Type} [DecidableEq κ] [DecidableEq α] (d e : Dict κ α) : Bool :=
  d.length == e.length && d.all fun kv => Dict.get? e kv.1 == some kv.2

/-- `self.__dict__ == other.__dict__` for lists of tensors, tensor.py:240, with the attributes of
tensor.py:202-209. -/
def attrsEq (l m : TensorList) : Bool :=
  l.len == m.len && tensorsEq l.list m.list && l.names == m.names && listEq l.shapes m.shapes &&
    listEq l.types m.types && listEq l.existing m.existing && plainDictEq l.nameDict m.nameDict &&
    plainDictEq l.indexDict m.indexDict

/-- `DataTensorList.__eq__`, tensor.py:231-240. -/
def tensorListEq (l : TensorList) : Operand → Bool
  | .tensors m =>
    if l.list.length ≠ m.list.length then false
    else if !pairsEq l.list m.list then false
    else attrsEq l m
  | _ => false

/-- `DataTensorList.__ne__`, tensor.py:256. -/
def tensorListNe (l : TensorList) (o : Operand) : Bool := !tensorListEq l o

/-- `config_data` of a module: nothing, the name of a file, a list of tensors, or another value. -/
inductive ConfigData where
  | none
  | file (name : String)
  | tensors (l : TensorList)
  | other

/-- The end of the set up of the label modules (labels/cascades.py:106-110, muons.py:111-115,
snowstorm_cascades.py:138-142, snowstorm_track_segment.py:126-130, snowstorm_tracks.py:170-174) and of the
pulse module (data/pulse_data.py:179-182, with `not ... ==`): a list of tensors in `config_data` is
compared with the tensors `mine` that the module has built from its settings. The result are the tensors
of the module. -/
def checkedSetUp (pulses : Bool) (mine : Except Err TensorList) (c : ConfigData) : Except Err TensorList :=
  match mine with
  | .error e => .error e
  | .ok mine =>
    match c with
    | .tensors l =>
      if (if pulses then !tensorListEq l (.tensors mine) else tensorListNe l (.tensors mine)) then
        .error .valueError
      else .ok mine
    | _ => .ok mine

/-- The set up of the modules without data (labels/dummy.py:57-62, misc/dummy.py:57-62,
weights/dummy.py:57-62). -/
def dummySetUp (c : ConfigData) : Except Err TensorList :=
  match c with
  | .other => .error .valueError
  | _ => TensorList.ofTensors []

/-- The tensors of the seed loader, misc/seed_loader.py:104-112. -/
def seedTensors (np : String → Bool) (numParams : Nat) (precision : PyVal) :
    List String → Except Err (List DataTensor)
  | [] => .ok []
  | n :: rest =>
    match construct np [("name", .str n), ("shape", .list [.none, .int numParams]),
        ("tensor_type", .str "misc"), ("dtype", precision)] with
    | .error e => .error e
    | .ok t =>
      match seedTensors np numParams precision rest with
      | .error e => .error e
      | .ok ts => .ok (t :: ts)

/-- The set up of the seed loader, misc/seed_loader.py:101-127. -/
def seedSetUp (np : String → Bool) (seedNames params : List String) (precision : PyVal) (c : ConfigData) :
    Except Err TensorList :=
  match c with
  | .other => .error .valueError
  | _ =>
    match seedTensors np params.length precision seedNames with
    | .error e => .error e
    | .ok ts => TensorList.ofTensors ts

end Verif.Equality
