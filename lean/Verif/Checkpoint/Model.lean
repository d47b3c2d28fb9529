/-
Model of the checkpoints and the training bookkeeping of a model directory
(`egenerator/model/base.py`) and of the training loop that drives them
(`egenerator/manager/base.py`).

Every change of the directory is one `Eff`; a crash is a prefix of the effects of a call.
-/
import Verif.Py.Dict
import Verif.Py.Sort

namespace Verif.Checkpoint
open Verif.Py

/-! `W` is the type of the values of all variables of the model. -/

variable {W : Type}

/-- A file that is rewritten by `open(.., 'w')` and `yaml.dump`. Opening truncates the file: `torn` is the
empty file in between, which `yaml.safe_load` reads as `None`. Simplification: the dump itself is one step
(no file that contains a part of the dump). -/
inductive YFile (α : Type) where
  | missing | torn | good (a : α)
  deriving DecidableEq, Repr

/-- The meta data of one checkpoint, model/base.py:341-346. `file` is the number in the base name
'model_checkpoint_{:08d}' (different numbers have different names). Simplification: no dates, no description. -/
structure Info where
  file : Nat
  deriving DecidableEq, Repr

/-- The content of model_checkpoint.yaml, model/base.py:309-313. -/
structure Meta where
  latest : Nat
  unprot : Dict Nat Info
  prot : Dict Nat Info
  deriving DecidableEq, Repr

/-- The content of training/training_steps.yaml, model/base.py:442-445 and 472-477: the number of training
steps of each entry. Simplification: no dates. -/
structure Steps where
  latest : Nat
  steps : Dict Nat Nat
  deriving DecidableEq, Repr

/-- A model directory. A checkpoint consists of a data file with the values and an index file. -/
structure Disk (W : Type) where
  data : Dict Nat W
  index : List Nat
  book : YFile Meta
  steps : YFile Steps
  stepDirs : List Nat
  deriving DecidableEq, Repr

/-- The empty directory. -/
def Disk.empty : Disk W := ⟨[], [], .missing, .missing, []⟩

/-- One change of the directory. -/
inductive Eff (W : Type) where
  | openMeta | writeMeta (m : Meta)
  | openSteps | writeSteps (s : Steps)
  | writeData (n : Nat) (w : W) | writeIndex (n : Nat)
  | rmData (n : Nat) | rmIndex (n : Nat)
  | mkStepDir (n : Nat)
  deriving DecidableEq, Repr

/-- What one change does. -/
def Disk.apply (d : Disk W) : Eff W → Disk W
  | .openMeta => { d with book := .torn }
  | .writeMeta m => { d with book := .good m }
  | .openSteps => { d with steps := .torn }
  | .writeSteps s => { d with steps := .good s }
  | .writeData n w => { d with data := Dict.set d.data n w }
  | .writeIndex n => { d with index := if n ∈ d.index then d.index else d.index ++ [n] }
  | .rmData n => { d with data := d.data.filter (fun p => p.1 ≠ n) }
  | .rmIndex n => { d with index := d.index.filter (fun i => i ≠ n) }
  | .mkStepDir n => { d with stepDirs := d.stepDirs ++ [n] }

/-- A sequence of changes. -/
def Disk.run (d : Disk W) (es : List (Eff W)) : Disk W := es.foldl Disk.apply d

/-- The arguments of save_weights, model/base.py:230-231, the current values `w` of the variables, and
`changed`: whether variables were added or removed since the configuration (290-296). `dataFirst` is the order
in which glob lists the two files of a checkpoint (370). -/
structure Save (W : Type) where
  w : W
  maxKeep : Int := 3
  prot : Bool := false
  numSteps : Option Nat := none
  changed : Bool := false
  dataFirst : Bool := true
  deriving DecidableEq, Repr

/-- `l[:-k]`, Python slicing with any integer k. -/
def sliceToNeg (l : List Nat) (k : Int) : List Nat :=
  if 0 < k then l.take (l.length - k.toNat) else l.take (-k).toNat

/-- `update_num_training_steps`, model/base.py:380-411. -/
def updateNumSteps (d : Disk W) (num : Nat) : Except Err (List (Eff W)) :=
  match d.steps with
  | .missing => .error .ioError
  | .torn => .error .typeError
  | .good s =>
    match Dict.get? s.steps s.latest with
    | none => .error .keyError
    | some _ => .ok [.openSteps, .writeSteps { s with steps := Dict.set s.steps s.latest num }]

/-- The update of the training steps within a save, model/base.py:329-332. -/
def stepEffs (d : Disk W) (a : Save W) : Except Err (List (Eff W)) :=
  match a.numSteps with
  | none => .ok []
  | some num => updateNumSteps d num

/-- Reading the meta data or creating it, model/base.py:300-313. -/
def readMeta (d : Disk W) : Except Err Meta :=
  match d.book with
  | .missing => .ok ⟨0, [], []⟩
  | .torn => .error .typeError
  | .good m => .ok m

/-- The removal of the files of old checkpoints, model/base.py:361-374: the meta data without the removed
entries and the effects. (The numbers are keys of the meta data, so `pop` does not fail and the 0 is never used.) -/
def removeOld (dataFirst : Bool) : List Nat → Dict Nat Info → Dict Nat Info × List (Eff W)
  | [], u => (u, [])
  | n :: ns, u =>
    let file := match Dict.get? u n with
      | some info => info.file
      | none => 0
    let rest := removeOld dataFirst ns (u.filter (fun p => p.1 ≠ n))
    (rest.1, (if dataFirst then [.rmData file, .rmIndex file] else [.rmIndex file, .rmData file]) ++ rest.2)

/-- `save_weights`, model/base.py:230-378: an exception (all are raised before the first effect) or the
effects. -/
def saveWeights (d : Disk W) (a : Save W) : Except Err (List (Eff W)) :=
  if a.changed then .error .valueError
  else
    match readMeta d with
    | .error e => .error e
    | .ok m =>
      let n := m.latest + 1
      if n ∈ d.index then .error .ioError
      else if Dict.has m.unprot n || Dict.has m.prot n then .error .keyError
      else
        match stepEffs d a with
        | .error e => .error e
        | .ok es =>
          if a.prot then
            .ok (es ++ [.writeData n a.w, .writeIndex n] ++
              [.openMeta, .writeMeta ⟨n, m.unprot, Dict.set m.prot n ⟨n⟩⟩])
          else
            let u := Dict.set m.unprot n ⟨n⟩
            let old := sortBy (fun i j => decide (i ≤ j)) (Dict.keys u)
            let r := if a.maxKeep < (old.length : Int)
              then removeOld a.dataFirst (sliceToNeg old a.maxKeep) u else (u, [])
            .ok (es ++ [.writeData n a.w, .writeIndex n] ++ r.2 ++
              [.openMeta, .writeMeta ⟨n, r.1, m.prot⟩])

/-- `save_training_settings`, model/base.py:413-492: the effects, also those before an exception, and the
exception. Simplification: writing the config and the components into the new directory (479-488) is part of
creating it and does not fail. -/
def saveTrainingSettings (d : Disk W) : List (Eff W) × Option Err :=
  match (match d.steps with
    | .missing => (Except.ok ⟨0, []⟩ : Except Err Steps)
    | .torn => .error .typeError
    | .good s => .ok s) with
  | .error e => ([], some e)
  | .ok s =>
    let n := s.latest + 1
    if n ∈ d.stepDirs then ([], some .ioError)
    else if Dict.has s.steps n then ([.mkStepDir n], some .keyError)
    else ([.mkStepDir n, .openSteps, .writeSteps ⟨n, Dict.set s.steps n 0⟩], none)

/-- `load_weights`, model/base.py:535-603: the restored values. Restoring a checkpoint whose files are missing
raises. Simplification: the rebuilding of the graph (556-578) is not modelled here. -/
def loadWeights (d : Disk W) (number : Option Nat) : Except Err W :=
  match d.book with
  | .missing => .error .ioError
  | .torn => .error .typeError
  | .good m =>
    let n := number.getD m.latest
    match (match Dict.get? m.unprot n with
      | some info => some info
      | none => Dict.get? m.prot n) with
    | none => .error .keyError
    | some info =>
      if info.file ∈ d.index then
        match Dict.get? d.data info.file with
        | some w => .ok w
        | none => .error .fileNotFoundError
      else .error .fileNotFoundError

/-! ### Calls and histories -/

/-- The calls that change a model directory. `crashed a k` is a save_weights during which the program dies
after `k` changes. -/
inductive Op (W : Type) where
  | settings
  | weights (a : Save W)
  | crashed (a : Save W) (k : Nat)

/-- The new directory and the exception, if any. A crashed call has no result. -/
def Disk.call (d : Disk W) : Op W → Disk W × Option Err
  | .settings => (d.run (saveTrainingSettings d).1, (saveTrainingSettings d).2)
  | .weights a =>
    match saveWeights d a with
    | .ok es => (d.run es, none)
    | .error e => (d, some e)
  | .crashed a k =>
    match saveWeights d a with
    | .ok es => (d.run (es.take k), none)
    | .error _ => (d, none)

/-- `_save`, model/base.py:494-533, as called with the settings of a new training run. -/
def Disk.saveNewRun (d : Disk W) (a : Save W) : Disk W × Option Err :=
  match d.call .settings with
  | (d', some e) => (d', some e)
  | (d', none) => d'.call (.weights a)

/-! ### The training loop -/

/-- The settings of a training run, manager/base.py:634-865. `update` is one training iteration on the values
of the variables (including the step counter, 777-778), `nan i` whether a loss at the validation in step `i` is
not a number. -/
structure Run (W : Type) where
  update : Nat → W → W
  nan : Nat → Bool
  validationFrequency : Nat
  evaluationFrequency : Nat
  saveFrequency : Nat

/-- The loop `for step in range(start, start + n)`, manager/base.py:771-858. Simplifications: there is one
model (managers call every model of the ensemble in its own directory); the data sets do not end; the modules
for evaluation and profiling do not fail. The result is the directory and the values, with the exception. -/
def trainLoop (r : Run W) : Nat → Nat → W → Disk W → (Disk W × W) × Option Err
  | _, 0, w, d => ((d, w), none)
  | step, n + 1, w, d =>
    let w' := r.update step w
    if r.validationFrequency = 0 then ((d, w'), some .zeroDivisionError)
    else if step % r.validationFrequency = 0 ∧ r.nan step = true then ((d, w'), some .valueError)
    else if r.evaluationFrequency = 0 then ((d, w'), some .zeroDivisionError)
    else if r.saveFrequency = 0 then ((d, w'), some .zeroDivisionError)
    else if step % r.saveFrequency = 0 ∧ step ≠ 0 then
      match d.call (.weights { w := w', numSteps := some step }) with
      | (d', some e) => ((d', w'), some e)
      | (d', none) => trainLoop r (step + 1) n w' d'
    else trainLoop r (step + 1) n w' d

/-- `train`, manager/base.py:634-865, for `n` iterations: the save with the new settings (714-719), the loop
and the last save (862-865). Without an iteration `step` is not bound at the last save. -/
def train (r : Run W) (n : Nat) (w : W) (d : Disk W) : (Disk W × W) × Option Err :=
  match d.saveNewRun { w := w, prot := true } with
  | (d', some e) => ((d', w), some e)
  | (d', none) =>
    match trainLoop r 0 n w d' with
    | (x, some e) => (x, some e)
    | ((d'', w'), none) =>
      if n = 0 then ((d'', w'), some .nameError)
      else
        let c := d''.call (.weights { w := w', numSteps := some (n - 1), prot := true })
        ((c.1, w'), c.2)

end Verif.Checkpoint
