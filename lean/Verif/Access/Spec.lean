import Verif.Access.Model
import Verif.Handler.AggSpec
import Mathlib.Data.List.Forall2

/-!
# Specification: access to the data of a data handler (C111 to C116)
-/

namespace Verif.Access
open Verif.Py

/-- A shape fits a declared one: the same rank, and equal sizes where a size is declared. -/
def Fits (shape : List Nat) (declared : List (Option Nat)) : Prop :=
  List.Forall₂ (fun s d => ∀ n, d = some n → s = n) shape declared

/-- A value fits a declared shape; any array fits an unknown shape. -/
def FitsShape {V : Type} (v : Val V) : TShape → Prop
  | none => ∃ ty shape x, v = .arr ty shape x
  | some declared => ∃ ty shape x, v = .arr ty shape x ∧ Fits shape declared

/-- The data has the declared structure as far as tensors in event structure are concerned: one entry for
each tensor; a tensor that exists and is not a vector is an array with a fitting shape. -/
def Structured {V : Type} (ts : List Info) (data : List (Val V)) : Prop :=
  data.length = ts.length ∧ ∀ (i : Nat) (t : Info), ts[i]? = some t → t.present = true → t.vector = false →
    ∃ ty shape x, data[i]? = some (.arr ty shape x) ∧ Fits shape t.shape

/-- The number of jobs and aggregators that were started in a history. -/
def started : List Act → Nat
  | [] => 0
  | .generate jobs :: rest => jobs + 1 + started rest
  | _ :: rest => started rest

/-- The number of batch generators started. -/
def generators : List Act → Nat
  | [] => 0
  | .generate _ :: rest => 1 + generators rest
  | _ :: rest => generators rest

/-- No batch generator is started. -/
def NoStart (acts : List Act) : Prop := ∀ a ∈ acts, ∀ jobs, a ≠ .generate jobs

end Verif.Access
