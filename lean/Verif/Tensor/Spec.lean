/-
Independent specification for the tensor properties C10-C12.
-/
import Verif.Tensor.Model

namespace Verif.Tensor
open Verif.Py

/-- `PyIndexes l i x`: in Python, `l[i]` is `x` (negative `i` counts from the end). -/
def PyIndexes {α : Type} (l : List α) (i : Int) (x : α) : Prop :=
  ∃ j : Nat, l[j]? = some x ∧ ((j : Int) = i ∨ (j : Int) = i + l.length)

/-- `IsInt v i`: the Python value is an instance of `int` with value `i`. -/
inductive IsInt : PyVal → Int → Prop where
  | int (i : Int) : IsInt (.int i) i
  | true : IsInt (.bool true) 1
  | false : IsInt (.bool false) 0

/-- The Python value is a list or a tuple with these items. -/
def IsSeq (v : PyVal) (l : List PyVal) : Prop := v = .list l ∨ v = .tuple l

/-- The admissible tensor descriptions: the shape is given; the log axis is an
integer; the type is one of five; the dtype is the name of a numpy attribute; the
vector information, if given, is a dictionary whose type is `index` or `value`;
and if the log flag is a boolean then the shape has an integer along the log axis. -/
structure Admissible (np : String → Bool) (t : DataTensor) : Prop where
  shape : t.shape ≠ .none
  axis : ∃ i, IsInt t.trafoLogAxis i
  type : ∃ s, t.type = .str s ∧ s ∈ ["data", "label", "weight", "misc", "prediction"]
  dtype : ∃ s, t.dtype = .str s ∧ np s = true
  vector : t.vectorInfo = .none ∨ ∃ d, t.vectorInfo = .dict d ∧
    (Dict.get? d "type" = some (.str "index") ∨ Dict.get? d "type" = some (.str "value"))
  log : ∀ b, t.trafoLog = .bool b → ∃ dims i v n, IsSeq t.shape dims ∧ IsInt t.trafoLogAxis i ∧
    PyIndexes dims i v ∧ IsInt v n

/-- A tensor that can exist: the result of a constructor call. -/
def Valid (np : String → Bool) (t : DataTensor) : Prop :=
  ∃ kwargs : Dict String PyVal, kwargs.Ok ∧ construct np kwargs = .ok t

end Verif.Tensor
