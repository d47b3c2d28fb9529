/-
Model of the weights of nested models: `save_weights`, `load_weights`, `save` and `save_training_settings` of
`egenerator/model/multi_source/base.py` and `egenerator/manager/base.py`, over the model directories of
`Verif.Checkpoint`; and of the role of the data transformation in multi sources.
-/
import Verif.Checkpoint.Model
import Verif.Component.Object

namespace Verif.Nested
open Verif.Py Verif.Checkpoint

/-! ## Components with weights -/

mutual
/-- A component as far as its weights matter: a `source` has variables of its own (`id` says which, one
source can be used under several names) and no models among its sub components (model/source/base.py:222);
a `group` is a multi source or a manager, which has none (model/multi_source/base.py:245,
manager/base.py:115-136); every other component, such as a data transformation or data handler, is no
`Model`. -/
inductive Node where
  | other
  | source (id : Nat)
  | group (subs : Nodes)

/-- Sub components with their names, in the order of the dictionary. -/
inductive Nodes where
  | nil
  | cons (name : String) (node : Node) (rest : Nodes)
end

/-- A directory. -/
abbrev Path := List String

/-- The model directories of a file system. -/
abbrev Store (W : Type) := Path → Disk W

section
variable {W : Type}

/-- All directories are empty. -/
def Store.empty : Store W := fun _ => Disk.empty

/-- One change in one directory. -/
def Store.apply (s : Store W) (e : Path × Eff W) : Store W :=
  fun p => if p = e.1 then (s p).apply e.2 else s p

/-- A sequence of changes. -/
def Store.run (s : Store W) (es : List (Path × Eff W)) : Store W := es.foldl Store.apply s

/-- The arguments of a save for one source: its own variables are saved. -/
def part (a : Save (Nat → W)) (id : Nat) : Save W :=
  { w := a.w id, maxKeep := a.maxKeep, prot := a.prot, numSteps := a.numSteps, changed := a.changed,
    dataFirst := a.dataFirst }

/-- `save_weights` of a source (model/base.py:230-378) with the exception as a value: there are no effects
before an exception. -/
def weightEffs (d : Disk W) (a : Save W) : List (Eff W) × Option Err :=
  match saveWeights d a with
  | .error e => ([], some e)
  | .ok es => (es, none)

/-- `_save` of a source with new settings (model/base.py:494-533). -/
def runEffs (d : Disk W) (a : Save W) : List (Eff W) × Option Err :=
  match saveTrainingSettings d with
  | (es, some e) => (es, some e)
  | (es, none) =>
    let r := weightEffs (d.run es) a
    (es ++ r.1, r.2)

mutual
/-- The recursion over a component: `op` is done for the directory of each source. `f` gives the directory
of a sub component: `save_weights` takes the name (model/multi_source/base.py:483-493,
manager/base.py:318-328), `save` and `load` of components remove an extension first
(manager/component.py:824, 850-856, 902), before the method `_save` of the class is called (859),
which does nothing for groups (model/multi_source/base.py:522-542, manager/base.py:386-406). The effects
before an exception remain. -/
def visit (f : String → String) (op : Disk W → Nat → List (Eff W) × Option Err) (s : Store W)
    (dir : Path) : Node → List (Path × Eff W) × Option Err
  | .other => ([], none)
  | .source id => ((op (s dir) id).1.map fun e => (dir, e), (op (s dir) id).2)
  | .group subs => visitAll f op s dir subs

/-- The loop over the sub components. -/
def visitAll (f : String → String) (op : Disk W → Nat → List (Eff W) × Option Err) (s : Store W)
    (dir : Path) : Nodes → List (Path × Eff W) × Option Err
  | .nil => ([], none)
  | .cons name node rest =>
    match visit f op s (dir ++ [f name]) node with
    | (es, some e) => (es, some e)
    | (es, none) =>
      let r := visitAll f op (s.run es) dir rest
      (es ++ r.1, r.2)
end

/-- `save_weights` of a model in the directory `dir`. -/
def saveAll (node : Node) (dir : Path) (a : Save (Nat → W)) (s : Store W) :
    List (Path × Eff W) × Option Err :=
  visit id (fun d i => weightEffs d (part a i)) s dir node

/-- `save(.., new_training_settings=..)` of a component in the directory `dir` (without extension), as far
as weights and training settings are concerned (manager/component.py:850-859, manager/base.py:714-719).
Configuration and data files are in `Verif.Component`. -/
def saveRun (node : Node) (dir : Path) (a : Save (Nat → W)) (s : Store W) :
    List (Path × Eff W) × Option Err :=
  visit Component.stem (fun d i => runEffs d (part a i)) s dir node

mutual
/-- The recursion of `load_weights` (model/multi_source/base.py:512-520, manager/base.py:376-384) and, with
the other directories, of `load` (manager/component.py:939-960, 997; model/base.py:605-620): the variables, also those
restored before an exception. Simplification: `load` makes one object for each name, here a source that was
used under two names is one afterwards, with the variables that were restored last. -/
def loadNode (f : String → String) (s : Store W) (number : Option Nat) (dir : Path) :
    Node → (Nat → W) → (Nat → W) × Option Err
  | .other, v => (v, none)
  | .source id, v =>
    match loadWeights (s dir) number with
    | .error e => (v, some e)
    | .ok w => (fun i => if i = id then w else v i, none)
  | .group subs, v => loadSubs f s number dir subs v

/-- The loop over the sub components. -/
def loadSubs (f : String → String) (s : Store W) (number : Option Nat) (dir : Path) :
    Nodes → (Nat → W) → (Nat → W) × Option Err
  | .nil, v => (v, none)
  | .cons name node rest, v =>
    match loadNode f s number (dir ++ [f name]) node v with
    | (v, some e) => (v, some e)
    | (v, none) => loadSubs f s number dir rest v
end

/-- `load_weights` of a model. -/
def loadAll (node : Node) (dir : Path) (number : Option Nat) (s : Store W) (v : Nat → W) :
    (Nat → W) × Option Err :=
  loadNode id s number dir node v

/-- `load(.., checkpoint_number=..)` of a component in the directory `dir` (without extension), as far as
the weights are concerned. -/
def loadComponent (node : Node) (dir : Path) (number : Option Nat) (s : Store W) (v : Nat → W) :
    (Nat → W) × Option Err :=
  loadNode Component.stem s number dir node v

/-- `save_training_settings` of a manager (manager/base.py:348-357): multi sources inherit the method of
`Model` (model/base.py:413-492), which writes to their own directory. -/
def managerSettings (s : Store W) (dir : Path) : Nodes → List (Path × Eff W) × Option Err
  | .nil => ([], none)
  | .cons _ .other rest => managerSettings s dir rest
  | .cons name _ rest =>
    match saveTrainingSettings (s (dir ++ [name])) with
    | (es, some e) => (es.map fun x => (dir ++ [name], x), some e)
    | (es, none) =>
      let r := managerSettings (s.run (es.map fun x => (dir ++ [name], x))) dir rest
      ((es.map fun x => (dir ++ [name], x)) ++ r.1, r.2)

/-! ## Calls -/

/-- Saving the weights, or saving the component with the settings of a new training run. -/
inductive Call (W : Type) where
  | weights (a : Save (Nat → W))
  | run (a : Save (Nat → W))

/-- The file system after a call, and the exception. -/
def call (node : Node) (dir : Path) (s : Store W) : Call W → Store W × Option Err
  | .weights a => (s.run (saveAll node dir a s).1, (saveAll node dir a s).2)
  | .run a => (s.run (saveRun node dir a s).1, (saveRun node dir a s).2)

/-- The file system after a call of `save_weights` during which the program dies after `k` changes. -/
def crash (node : Node) (dir : Path) (s : Store W) (a : Save (Nat → W)) (k : Nat) : Store W :=
  s.run ((saveAll node dir a s).1.take k)

end

/-! ## Multi sources and their data transformation -/

section
variable {C : Type}

/-- The sub components of a multi source (model/multi_source/base.py:215-217): the base sources, and the
data transformation if one is given. -/
def multiSubs (base : Dict String C) (trafo : Option C) : Dict String C :=
  match trafo with
  | none => base
  | some t => Dict.set base "data_trafo" t

/-- The base sources that `_load` takes from the sub components (model/multi_source/base.py:578-581),
after the data transformation has been looked up (577). -/
def multiReload (subs : Dict String C) : Except Err (C × Dict String C) :=
  match Dict.get? subs "data_trafo" with
  | none => .error .keyError
  | some t => .ok (t, subs.filter fun nc => nc.1 ≠ "data_trafo")

/-- The data transformation that `get_tensors` uses (model/multi_source/base.py:306, through the property
model/source/base.py:67-73): `None` has no attribute `data`. -/
def multiTrafo (subs : Dict String C) : Except Err C :=
  match Dict.get? subs "data_trafo" with
  | none => .error .attributeError
  | some t => .ok t

/-- The check of a manager that its models fit to the data handler (manager/base.py:213-215): the
configuration of the data transformation of each model is looked up. -/
def managerTrafo (subs : Dict String C) : Except Err C :=
  match Dict.get? subs "data_trafo" with
  | none => .error .keyError
  | some t => .ok t

end

end Verif.Nested
