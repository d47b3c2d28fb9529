/-
Independent specification for C19.
-/
import Verif.Handler.AggModel
import Verif.Handler.Spec

namespace Verif.Handler
open Verif.Py

variable {V : Type}

/-- What one event contributes to one tensor: a row of a plain tensor, the rows of a
value tensor, the rows of an index tensor without the event id, or nothing. -/
inductive Part (V : Type) where
  | row (r : Row V)
  | vals (l : List (Row V))
  | idxs (l : List V)
  | missing
  deriving DecidableEq

/-- An event: one part per tensor. -/
abbrev Event (V : Type) := List (Part V)

/-- The tensors of the handler: distinct names; every index tensor refers to a value
tensor and every value tensor has exactly one index tensor. -/
structure TensorsOk (ts : List TInfo) : Prop where
  names : (ts.map TInfo.name).Nodup
  index : ∀ (i : Nat) t ref, ts[i]? = some t → t.kind = .index ref →
    ∃ (vi : Nat) (tv : TInfo), ts[vi]? = some tv ∧ tv.name = ref ∧ tv.kind = .value
  value : ∀ (vi : Nat) tv, ts[vi]? = some tv → tv.kind = .value →
    ∃ (i : Nat) (t : TInfo), ts[i]? = some t ∧ t.kind = .index tv.name ∧
      ∀ (i' : Nat) t', ts[i']? = some t' → t'.kind = .index tv.name → i' = i

/-- `data` are the tensors of the events `evs`: the rows of a plain tensor are those of
the events in order; the rows of a vector tensor with id `e` are those of event number
`e`, and there are no others. Tensor `i` is missing iff `exist i` is false. -/
structure Describes (ts : List TInfo) (exist : Nat → Bool) (data : List (Option (Arr V)))
    (evs : List (Event V)) : Prop where
  length : data.length = ts.length
  missing : ∀ (i : Nat) t, ts[i]? = some t → exist i = false →
    data[i]? = some none ∧ ∀ ev ∈ evs, ev[i]? = some Part.missing
  plain : ∀ (i : Nat) t, ts[i]? = some t → t.kind = .plain → exist i = true →
    ∃ a, data[i]? = some (some a) ∧ a.isList = false ∧ a.rows.length = evs.length ∧
      ∀ (e : Nat) (ev : Event V), evs[e]? = some ev →
        ∃ r, a.rows[e]? = some r ∧ ev[i]? = some (Part.row r)
  vector : ∀ (i vi : Nat) t tv, ts[i]? = some t → t.kind = .index tv.name → ts[vi]? = some tv →
    exist i = exist vi ∧ (exist i = true →
    ∃ v x, data[vi]? = some (some v) ∧ data[i]? = some (some x) ∧ VectorOk v x evs.length ∧
      ∀ (e : Nat) (ev : Event V), evs[e]? = some ev →
        ev[vi]? = some (Part.vals ((eventRows v.rows x.rows e).map (·.1))) ∧
        ev[i]? = some (Part.idxs ((eventRows v.rows x.rows e).map (·.2.rest))))

/-- A finished batch as data: an array of default values stands for a missing tensor. -/
def outData (o : List (Out V)) : List (Option (Arr V)) :=
  o.map (fun x => match x with | .arr a => some a | .dflts _ => none)

/-- A finished batch with the events `evs`. Missing tensors hold one default value per
event. -/
def BatchOf (ts : List TInfo) (exist : Nat → Bool) (o : List (Out V)) (evs : List (Event V)) :
    Prop :=
  Describes ts exist (outData o) evs ∧ ∀ k, Out.dflts k ∈ o → k = evs.length

/-- The events of one pass in the order in which they are used. -/
def ordered (orders : List (List Nat)) (evs : List (Event V)) : List (Event V) :=
  orders.flatMap (fun o => o.filterMap (fun k => evs[k]?))

end Verif.Handler
