/-
Independent specification of equal tensor descriptions, C123 and C124.
-/
import Verif.Tensor.Spec
import Verif.Equality.Model

namespace Verif.Equality
open Verif.Py Verif.Tensor

/-- Two values mean the same: numbers by value, sequences of the same kind item by item, dictionaries key
by key in any order, everything else itself. -/
inductive Same : PyVal → PyVal → Prop where
  | none : Same .none .none
  | num {v w : PyVal} {i : Int} : IsInt v i → IsInt w i → Same v w
  | str (s : String) : Same (.str s) (.str s)
  | other (n : Nat) : Same (.other n) (.other n)
  | list {a b : List PyVal} : a.length = b.length →
      (∀ (i : Nat) (v w : PyVal), a[i]? = some v → b[i]? = some w → Same v w) → Same (.list a) (.list b)
  | tuple {a b : List PyVal} : a.length = b.length →
      (∀ (i : Nat) (v w : PyVal), a[i]? = some v → b[i]? = some w → Same v w) → Same (.tuple a) (.tuple b)
  | dict {d e : List (String × PyVal)} : (∀ k, k ∈ Dict.keys d ↔ k ∈ Dict.keys e) →
      (∀ k v w, Dict.get? d k = some v → Dict.get? e k = some w → Same v w) → Same (.dict d) (.dict e)

/-- A real Python value: every dictionary in it has each key once. -/
inductive Real : PyVal → Prop where
  | none : Real .none
  | bool (b : Bool) : Real (.bool b)
  | int (i : Int) : Real (.int i)
  | str (s : String) : Real (.str s)
  | other (n : Nat) : Real (.other n)
  | list {l : List PyVal} : (∀ v, v ∈ l → Real v) → Real (.list l)
  | tuple {l : List PyVal} : (∀ v, v ∈ l → Real v) → Real (.tuple l)
  | dict {d : List (String × PyVal)} : Dict.Ok d → (∀ k v, (k, v) ∈ d → Real v) → Real (.dict d)

/-- The values in the description of a tensor are real Python values. -/
structure RealTensor (t : DataTensor) : Prop where
  shape : Real t.shape
  type : Real t.type
  dtype : Real t.dtype
  exists' : Real t.exists'
  vectorInfo : Real t.vectorInfo
  trafo : Real t.trafo
  trafoReduceAxes : Real t.trafoReduceAxes
  trafoLog : Real t.trafoLog
  trafoLogAxis : Real t.trafoLogAxis
  trafoBatchAxis : Real t.trafoBatchAxis
  specs : Real (.dict t.specs)

/-- Two descriptions of a tensor mean the same: every setting does. -/
structure SameTensor (t u : DataTensor) : Prop where
  name : t.name = u.name
  shape : Same t.shape u.shape
  type : Same t.type u.type
  dtype : Same t.dtype u.dtype
  exists' : Same t.exists' u.exists'
  vectorInfo : Same t.vectorInfo u.vectorInfo
  trafo : Same t.trafo u.trafo
  trafoReduceAxes : Same t.trafoReduceAxes u.trafoReduceAxes
  trafoLog : Same t.trafoLog u.trafoLog
  trafoLogAxis : Same t.trafoLogAxis u.trafoLogAxis
  trafoBatchAxis : Same t.trafoBatchAxis u.trafoBatchAxis
  specs : Same (.dict t.specs) (.dict u.specs)

/-- Two collections of tensors declare the same: each tensor of one has its equal in the other. -/
def SameTensors (ts us : List DataTensor) : Prop :=
  (∀ t, t ∈ ts → ∃ u, u ∈ us ∧ SameTensor t u) ∧ (∀ u, u ∈ us → ∃ t, t ∈ ts ∧ SameTensor t u)

end Verif.Equality
