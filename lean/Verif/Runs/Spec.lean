import Verif.Runs.Model

/-!
# Specification for C132
-/

namespace Verif.Runs
open Verif.Py Verif.Checkpoint

variable {C S : Type}

/-- A call of `save_training_settings`: to its end or its exception, or with the program dying after
`k` changes. -/
inductive Attempt (C S : Type) where
  | call (r : Run C S)
  | crash (r : Run C S) (k : Nat)

/-- The directory after a call, and whether the call came to a regular end. -/
def Place.attempt (d : Place C S) : Attempt C S → Place C S × Bool
  | .call r => (d.run (record d r).1, (record d r).2.isNone)
  | .crash r k => (d.run ((record d r).1.take k), false)

/-- The directory after several calls. -/
def Place.after (d : Place C S) : List (Attempt C S) → Place C S
  | [] => d
  | a :: as => Place.after (d.attempt a).1 as

/-- A run that can be saved: a configuration and components, with different names. -/
structure Fine (C S : Type) where
  config : C
  comps : List (String × S)
  names : (comps.map Prod.fst).Nodup

/-- The arguments of a run that can be saved. -/
def Fine.run (f : Fine C S) : Run C S := ⟨.ok f.config, f.comps.map fun p => (p.1, .ok p.2)⟩

/-- The runs `rs` are recorded, and nothing else: numbered from 1, each with its configuration and
components, no training steps yet. -/
structure Holds (d : Place C S) (rs : List (Fine C S)) : Prop where
  book : d.book = .good ⟨rs.length, (List.range rs.length).map fun i => (i + 1, 0)⟩ ∨
    (rs = [] ∧ d.book = .missing)
  folders : ∀ n, Dict.get? d.folders n =
    if n = 0 then none else (rs[n - 1]?).map fun f => ⟨.good f.config, f.comps⟩

/-- The directory can take the next run: the list of runs can be read, and neither it nor the
directories have the next number. -/
def Ready (d : Place C S) : Prop :=
  ∃ s, readBook d = .ok s ∧ Dict.get? d.folders (s.latest + 1) = none ∧
    Dict.get? s.steps (s.latest + 1) = none

end Verif.Runs
