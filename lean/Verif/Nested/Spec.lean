/-
Specification of nested models: their sources with directories, and the imaginary model that has all
variables in one directory.
-/
import Verif.Nested.Model
import Verif.Checkpoint.Spec

namespace Verif.Nested
open Verif.Py Verif.Checkpoint

mutual
/-- The sources of a component: the names on the way to each, and its variables. -/
def Node.leaves : Node → List (Path × Nat)
  | .other => []
  | .source id => [([], id)]
  | .group subs => subs.leaves

def Nodes.leaves : Nodes → List (Path × Nat)
  | .nil => []
  | .cons name node rest => (node.leaves.map fun l => (name :: l.1, l.2)) ++ rest.leaves
end

/-- The names in a dictionary of sub components. -/
def Nodes.names : Nodes → List String
  | .nil => []
  | .cons name _ rest => name :: rest.names

mutual
/-- In every dictionary the names are distinct and have no file extension. -/
def Node.Named : Node → Prop
  | .other => True
  | .source _ => True
  | .group subs => subs.Named

def Nodes.Named : Nodes → Prop
  | .nil => True
  | .cons name node rest =>
    name ∉ rest.names ∧ Component.stem name = name ∧ node.Named ∧ rest.Named
end

variable {W : Type}

/-- The directory of the source `id`, if the variables of all sources were saved in the directory `d`. -/
def partOf (d : Disk (Nat → W)) (id : Nat) : Disk W :=
  { data := d.data.map (fun x => (x.1, x.2 id)), index := d.index, book := d.book, steps := d.steps,
    stepDirs := d.stepDirs }

/-- A call, for one model that has all variables. -/
def callOne (d : Disk (Nat → W)) : Call W → Disk (Nat → W) × Option Err
  | .weights a => d.call (.weights a)
  | .run a => d.saveNewRun a

/-- A sequence of calls, exceptions do not stop it: the file system and the exceptions. -/
def calls (node : Node) (dir : Path) : Store W → List (Call W) → Store W × List (Option Err)
  | s, [] => (s, [])
  | s, c :: cs =>
    let r := calls node dir (call node dir s c).1 cs
    (r.1, (call node dir s c).2 :: r.2)

/-- The same for one model. -/
def callsOne : Disk (Nat → W) → List (Call W) → Disk (Nat → W) × List (Option Err)
  | d, [] => (d, [])
  | d, c :: cs =>
    let r := callsOne (callOne d c).1 cs
    (r.1, (callOne d c).2 :: r.2)

/-- A component is not saved with variables that were added or removed since its configuration. -/
def Legal : Call W → Prop
  | .weights _ => True
  | .run a => a.changed = false

/-- No negative limits. -/
def Limit : Call W → Prop
  | .weights a => 0 ≤ a.maxKeep
  | .run a => 0 ≤ a.maxKeep

/-- The calls that were made, as those of one directory. -/
def ops : List (Call W) → List (Op (Nat → W))
  | [] => []
  | .weights a :: cs => .weights a :: ops cs
  | .run a :: cs => .settings :: .weights a :: ops cs

end Verif.Nested
