/-
Independent specification for the trafo properties C13-C15.
-/
import Verif.Trafo.Model

namespace Verif.Trafo
open Verif.Py

noncomputable section

/-- The multi-index lies in an array of the given shape. -/
def InShape (i shape : List Nat) : Prop := List.Forall₂ (fun k d => k < d) i shape

/-- The entry at multi-index `i` is log-transformed: the flag of its position along
the last axis is set. -/
def Logged (mask : Option (List Bool)) (i : List Nat) : Prop :=
  ∃ m k, mask = some m ∧ i.getLast? = some k ∧ m[k]? = some true

/-- A tensor whose log mask, if there is one, has one flag per bin of the last
axis, and whose reduction axes are distinct axes of the shape. -/
structure TensorInfo.WellFormed (t : TensorInfo) : Prop where
  mask : ∀ m, t.logMask = some m → t.shape.getLast? = some m.length
  axes : t.reduceAxes.Nodup ∧ ∀ k ∈ t.reduceAxes, k < t.shape.length

/-- Arithmetic mean and population variance of a list of numbers. -/
def mean (l : List ℝ) : ℝ := l.sum / l.length
def popVar (l : List ℝ) : ℝ := mean (l.map (fun x => (x - mean l) ^ 2))

open Classical in
/-- The values seen at position `i` of tensor number `k`: all rows of all batches,
with the logarithm of `1 + x` where it applies. -/
def column (k : Nat) (mask : Option (List Bool)) (batches : List (List Arr)) (i : List Nat) :
    List ℝ :=
  batches.flatMap (fun b =>
    match b[k]? with
    | none => []
    | some a =>
      match a.shape with
      | [] => []
      | B :: _ => (List.range B).map (fun r =>
          if Logged mask i then Real.log (1 + a.val (r :: i)) else a.val (r :: i)))

/-- The batches have one array per tensor, of the shape of the tensor after the
batch axis. -/
def Conforms (ts : List TensorInfo) (batches : List (List Arr)) : Prop :=
  ∀ b ∈ batches, b.length = ts.length ∧
    ∀ (k : Nat) (t : TensorInfo) (a : Arr), ts[k]? = some t → b[k]? = some a → ∃ B, a.shape = B :: t.shape

/-- `js` lists, each once, the positions over which the value at `i` is averaged. -/
def Averaged (t : TensorInfo) (i : List Nat) (js : List (List Nat)) : Prop :=
  js.Nodup ∧ ∀ j, j ∈ js ↔ InShape j t.shape ∧ ∀ k, k ∉ t.reduceAxes → j[k]? = i[k]?

end

end Verif.Trafo
