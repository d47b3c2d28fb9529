import Verif.Modules.Model

/-!
# Specification for modules of a data handler (C102, C103)
-/

namespace Verif.Modules
open Verif.Py Verif.Tensor
variable {V : Type}

/-- One of the modules of the given kinds has the value `v` in its data as `key`. -/
def Has (modules : Dict String (Module V)) (ks : List String) (key : String) (v : DVal) : Prop :=
  ∃ k ∈ ks, ∃ m, Dict.get? modules k = some m ∧ Dict.get? m.data key = some v

/-- There is a module of every kind, and no two modules have data with the same name. -/
structure Separate (modules : Dict String (Module V)) : Prop where
  all : ∀ k ∈ kinds, ∃ m, Dict.get? modules k = some m
  ok : ∀ k m, Dict.get? modules k = some m → m.data.Ok
  separate : ∀ j k a b key, Dict.get? modules j = some a → Dict.get? modules k = some b →
    key ∈ Dict.keys a.data → key ∈ Dict.keys b.data → j = k

/-- Both fail with the same error, or both give handlers with the same modules, data and tensors. -/
def SameHandler : Except Err (Handler V) → Except Err (Handler V) → Prop
  | .ok a, .ok b => a.modules = b.modules ∧ a.tensors = b.tensors ∧
      ∀ key, Dict.get? a.data key = Dict.get? b.data key
  | .error e, .error e' => e = e'
  | _, _ => False

/-- The tensors of a module as `DataTensorList` has them: in the order of their names. -/
def InOrder (l : List DataTensor) : Prop := l.Pairwise fun a b => a.name ≤ b.name

end Verif.Modules
