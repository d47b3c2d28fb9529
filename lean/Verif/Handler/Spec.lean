/-
Independent specification for the data handler properties C16-C18.
-/
import Verif.Handler.Model

namespace Verif.Handler
open Verif.Py

variable {V : Type}

/-- The rows of a flat vector tensor that belong to event `e`: pairs of a value row
and its index row, in the order of the tensor. -/
def eventRows (values indices : List (Row V)) (e : Int) : List (Row V × Row V) :=
  (values.zip indices).filter (fun p => p.2.id = e)

/-- The positions of the passing events, in increasing order. -/
def passing (mask : List Bool) : List Nat :=
  (List.range mask.length).filter (fun e => mask[e]? = some true)

/-- A pair of a value array and an index array that describes `n` events. -/
structure VectorOk (values indices : Arr V) (n : Nat) : Prop where
  isArray : values.isList = false ∧ indices.isList = false
  length : values.rows.length = indices.rows.length
  ids : ∀ r ∈ indices.rows, 0 ≤ r.id ∧ r.id < n

/-- The rows of a vector tensor after keeping the events at the given positions:
the rows of the first kept event with id 0, then those of the second with id 1, .. -/
def keptRows (values indices : List (Row V)) (events : List Nat) : List (Row V × Row V) :=
  events.zipIdx.flatMap (fun ej =>
    (eventRows values indices ej.1).map (fun p => (p.1, { p.2 with id := (ej.2 : Int) })))

/-- Event data of `n` events in which every tensor exists: plain tensors have one
row per event; every value tensor has exactly one index tensor, and the two
describe `n` events (or both are missing). -/
structure BatchOk (ts : List TInfo) (n : Nat) (batch : List (Option (Arr V))) : Prop where
  length : batch.length = ts.length
  names : (ts.map TInfo.name).Nodup
  plain : ∀ (i : Nat) t, ts[i]? = some t → t.kind = .plain →
    ∃ a, batch[i]? = some (some a) ∧ a.isList = false ∧ a.rows.length = n
  index : ∀ (i : Nat) t ref, ts[i]? = some t → t.kind = .index ref →
    ∃ (vi : Nat) (tv : TInfo), ts[vi]? = some tv ∧ tv.name = ref ∧ tv.kind = .value ∧
      ((batch[vi]? = some none ∧ batch[i]? = some none) ∨
        ∃ v x, batch[vi]? = some (some v) ∧ batch[i]? = some (some x) ∧ VectorOk v x n)
  value : ∀ (vi : Nat) tv, ts[vi]? = some tv → tv.kind = .value →
    ∃ (i : Nat) (t : TInfo), ts[i]? = some t ∧ t.kind = .index tv.name ∧
      ∀ (i' : Nat) t', ts[i']? = some t' → t'.kind = .index tv.name → i' = i

end Verif.Handler
