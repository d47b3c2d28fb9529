/-
Specification of labels: events, and the frames and files that hold them.
-/
import Verif.Frames.Model

namespace Verif.Frames
open Verif.Py Verif.Labels

section
variable {ν R : Type}

/-- An event: the value of each label, and its snowstorm parameters. -/
structure Event (ν R : Type) where
  label : ν → R
  snow : List R

/-- The labels of an event as they are in a frame, for the labels `stored` that the simulation has stored. -/
def Event.frame (stored : List ν) (e : Event ν R) : Dict ν R := stored.map fun l => (l, e.label l)

/-- The labels of events as they are in a table of a file: one row for each event. -/
def table (stored : List ν) (es : List (Event ν R)) : Dict ν (List R) :=
  stored.map fun l => (l, es.map fun e => e.label l)

/-- The snowstorm parameters of events in a table of a file: one row for each parameter of each event, with its
index. -/
def snowRows (es : List (Event ν R)) : List (Nat × R) :=
  es.flatMap fun e => e.snow.zipIdx.map fun x => (x.2, x.1)

/-- The row of an event: its labels, followed by its snowstorm parameters, or by ones if no key is
configured. -/
def row (names : List ν) (snow : Nat) (key : Bool) (one : R) (e : Event ν R) : List R :=
  names.map e.label ++ (if key then (if snow > 0 then e.snow else []) else List.replicate snow one)

end

end Verif.Frames
