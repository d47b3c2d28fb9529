import Verif.Checkpoint.Model

/-!
# The record of training runs

`save_training_settings` of egenerator/model/base.py writes a directory with the configuration and the
components of a new training run and then an entry of training_steps.yaml. Verif.Checkpoint has the
entries only; here the content of the directories, exceptions in between and crashes are modelled.
`C` is the type of configurations and `S` that of saved components.
-/

namespace Verif.Runs
open Verif.Py Verif.Checkpoint

variable {C S : Type}

/-- The directory step_{:04d} of a run: training_config.yaml and the directories of components
(model/base.py:479-488). -/
structure Folder (C S : Type) where
  config : YFile C
  comps : Dict String S
  deriving DecidableEq, Repr

/-- The directory `training` of a model: training_steps.yaml and the directories of the runs
(model/base.py:431, 448-450). -/
structure Place (C S : Type) where
  book : YFile Steps
  folders : Dict Nat (Folder C S)
  deriving DecidableEq, Repr

/-- The directory of a model that was never trained. -/
def Place.empty : Place C S := ⟨.missing, []⟩

/-- The arguments: the configuration (the exception if it cannot be dumped) and the components with
their names (the exception if the component cannot be saved). -/
structure Run (C S : Type) where
  config : Except Err C
  comps : List (String × Except Err S)

/-- One change of the directory. Simplification: a component is saved in one step. -/
inductive Change (C S : Type) where
  | mkdir (n : Nat)
  | openConfig (n : Nat)
  | writeConfig (n : Nat) (c : C)
  | saveComp (n : Nat) (name : String) (s : S)
  | openBook
  | writeBook (b : Steps)

/-- A change of the directory of one run. -/
def Place.inFolder (d : Place C S) (n : Nat) (f : Folder C S → Folder C S) : Place C S :=
  match Dict.get? d.folders n with
  | none => d
  | some x => { d with folders := Dict.set d.folders n (f x) }

/-- What one change does. -/
def Place.apply (d : Place C S) : Change C S → Place C S
  | .mkdir n => { d with folders := Dict.set d.folders n ⟨.missing, []⟩ }
  | .openConfig n => d.inFolder n fun f => { f with config := .torn }
  | .writeConfig n c => d.inFolder n fun f => { f with config := .good c }
  | .saveComp n name s => d.inFolder n fun f => { f with comps := Dict.set f.comps name s }
  | .openBook => { d with book := .torn }
  | .writeBook b => { d with book := .good b }

/-- A sequence of changes. -/
def Place.run (d : Place C S) (es : List (Change C S)) : Place C S := es.foldl Place.apply d

/-- The loop over the components (model/base.py:486-488): the changes up to an exception. -/
def compChanges (n : Nat) : List (String × Except Err S) → List (Change C S) × Option Err
  | [] => ([], none)
  | (name, x) :: cs =>
    match x with
    | .error e => ([], some e)
    | .ok s =>
      let r := compChanges n cs
      (.saveComp n name s :: r.1, r.2)

/-- Reading the list of runs or creating it (model/base.py:434-445). -/
def readBook (d : Place C S) : Except Err Steps :=
  match d.book with
  | .missing => .ok ⟨0, []⟩
  | .torn => .error .typeError
  | .good s => .ok s

/-- `save_training_settings` (model/base.py:413-492): the changes, also those before an exception,
and the exception. -/
def record (d : Place C S) (r : Run C S) : List (Change C S) × Option Err :=
  match readBook d with
  | .error e => ([], some e)
  | .ok s =>
    let n := s.latest + 1
    if Dict.has d.folders n then ([], some .ioError)
    else if Dict.has s.steps n then ([.mkdir n], some .keyError)
    else
      match r.config with
      | .error e => ([.mkdir n, .openConfig n], some e)
      | .ok c =>
        match compChanges n r.comps with
        | (es, some e) => ([.mkdir n, .openConfig n, .writeConfig n c] ++ es, some e)
        | (es, none) =>
          ([.mkdir n, .openConfig n, .writeConfig n c] ++ es ++
            [.openBook, .writeBook ⟨n, Dict.set s.steps n 0⟩], none)

end Verif.Runs
