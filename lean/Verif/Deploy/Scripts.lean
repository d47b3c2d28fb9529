import Verif.Component.Object

/-!
# Scripts that write managers and transformations

Models the scripts `egenerator/train_model.py`, `egenerator/export_manager.py` and
`egenerator/create_trafo_model.py` as programs on the files of a disk: which directory they look at,
which one they write to, what they ask for and what they delete.

Simplifications: of a component only its configuration file is represented, the file with its data is
written and read together with it (crashes in between are in `Verif.Component`); of a manager the data
handler and the models, without their own parts; of the checkpoints of a model the number and the
weights of the latest (others are in `Verif.Checkpoint`); of the training steps the number of
iterations each. Log files are not represented. Paths are lists of names, and the last name of a path
given by the user is not empty and has no slash; of the yaml files with settings only the number of
their content is represented.
-/

namespace Verif.Deploy
open Verif.Py Verif.Component

/-- A path given by the user, with its last part. -/
structure Loc where
  parent : Path
  name : String
deriving DecidableEq

/-- The path itself. -/
def Loc.path (l : Loc) : Path := l.parent ++ [l.name]

/-- `os.path.splitext(path)[0]` (manager/component.py:824, 902, create_trafo_model.py:34). -/
def Loc.dir (l : Loc) : Path := l.parent ++ [stem l.name]

/-- The files that matter here. -/
inductive Saved (W : Type) where
  /-- The configuration of a manager: its recorded `manager_dir` (manager/base.py:130-132) and the
  number of its models. -/
  | manager (recorded : Loc) (k : Nat)
  /-- The configuration of another component. -/
  | part
  /-- The training steps of a model with their numbers of iterations. -/
  | steps (l : List Nat)
  /-- The latest checkpoint of a model: its number and its weights. -/
  | ckpt (n : Nat) (w : W)
  /-- A file with settings. -/
  | text (c : Nat)

/-- The files on a disk. Directories exist as far as there are files below them. -/
abbrev Disk (W : Type) := Dict Path (Saved W)

/-- A manager in memory: its recorded directory, and the weights of its models. -/
structure Man (W : Type) where
  loc : Loc
  ws : List W

section
variable {W : Type}

/-- `configuration.yaml` of a component (manager/component.py:825, 903; train_model.py:64, 76). -/
def confFile (d : Path) : Path := d ++ ["configuration.yaml"]
/-- `training_steps.yaml` of a model (model/base.py:390-394, 431-434). -/
def stepsFile (d : Path) : Path := d ++ ["training", "training_steps.yaml"]
/-- `model_checkpoint.yaml` of a model (model/base.py:301, 581). -/
def ckptFile (d : Path) : Path := d ++ ["model_checkpoint.yaml"]
/-- The name of a model in its manager (manager/base.py:120). -/
def modelName (i : Nat) : String := "models_" ++ pad4 i

/-- `os.path.exists`. -/
def isThere (disk : Disk W) (d : Path) : Bool := disk.any fun f => d.isPrefixOf f.1

/-- `shutil.rmtree`. -/
def rmtree (disk : Disk W) (d : Path) : Disk W := disk.filter fun f => !d.isPrefixOf f.1

/-! ## Saving and loading of managers -/

/-- The training steps of a model (model/base.py:435-445): none if there is no file. -/
def stepsOf (disk : Disk W) (d : Path) : List Nat :=
  match Dict.get? disk (stepsFile d) with
  | some (.steps l) => l
  | _ => []

/-- The number of the latest checkpoint of a model (model/base.py:302-313). -/
def ckptOf (disk : Disk W) (d : Path) : Nat :=
  match Dict.get? disk (ckptFile d) with
  | some (.ckpt n _) => n
  | _ => 0

/-- `_save` of a model (model/base.py:528-533) without a number of iterations: a new training step
(413-492), if there are training settings, and a checkpoint (298-378). -/
def saveModel (disk : Disk W) (d : Path) (training : Bool) (w : W) : Disk W :=
  let disk := if training then Dict.set disk (stepsFile d) (.steps (stepsOf disk d ++ [0])) else disk
  Dict.set disk (ckptFile d) (.ckpt (ckptOf disk d + 1) w)

/-- The models of a manager are saved below its directory (manager/component.py:823-859). -/
def saveModels (overwrite training : Bool) (dir : Path) : Nat → List W → Disk W → Disk W × Option Err
  | _, [], disk => (disk, none)
  | i, w :: ws, disk =>
    let d := dir ++ [stem (modelName i)]
    if Dict.has disk (confFile d) && !overwrite then (disk, some .ioError)
    else saveModels overwrite training dir (i + 1) ws
      (saveModel (Dict.set disk (confFile d) .part) d training w)

/-- `save` of a manager (manager/component.py:823-859): the last part of the path loses its extension;
then the files of the manager, of the data handler, and of the models are written. -/
def saveManager (overwrite training : Bool) (man : Man W) (out : Loc) (disk : Disk W) :
    Disk W × Option Err :=
  if Dict.has disk (confFile out.dir) && !overwrite then (disk, some .ioError)
  else
    let disk := Dict.set disk (confFile out.dir) (.manager man.loc man.ws.length)
    let h := confFile (out.dir ++ [stem "data_handler"])
    if Dict.has disk h && !overwrite then (disk, some .ioError)
    else saveModels overwrite training out.dir 0 man.ws (Dict.set disk h .part)

/-- The models of a manager are loaded (manager/component.py:901-911, model/base.py:580-603). -/
def loadModels (disk : Disk W) (dir : Path) : Nat → Nat → Except Err (List W)
  | _, 0 => .ok []
  | i, k + 1 =>
    let d := dir ++ [stem (modelName i)]
    if !Dict.has disk (confFile d) then .error .fileNotFoundError
    else
      match Dict.get? disk (ckptFile d) with
      | some (.ckpt _ w) =>
        match loadModels disk dir (i + 1) k with
        | .error e => .error e
        | .ok ws => .ok (w :: ws)
      | _ => .error .ioError

/-- `load` of a manager (manager/component.py:901-999). Simplification: a file of another kind counts
as missing, and the classes and versions match. -/
def loadManager (disk : Disk W) (l : Loc) : Except Err (Man W) :=
  match Dict.get? disk (confFile l.dir) with
  | some (.manager recorded k) =>
    if !Dict.has disk (confFile (l.dir ++ [stem "data_handler"])) then .error .fileNotFoundError
    else
      match loadModels disk l.dir 0 k with
      | .error e => .error e
      | .ok ws => .ok ⟨recorded, ws⟩
  | _ => .error .fileNotFoundError

/-! ## Training -/

/-- `save_weights` of a manager (manager/base.py:318-328) with the number of the iteration `s`
(model/base.py:298-411): the file of the training steps must be there, and is updated. The path is used
as it is. -/
def saveWeights (dir : Path) (s : Nat) : Nat → List W → Disk W → Disk W × Option Err
  | _, [], disk => (disk, none)
  | i, w :: ws, disk =>
    let d := dir ++ [modelName i]
    match Dict.get? disk (stepsFile d) with
    | some (.steps l) =>
      if l.isEmpty then (disk, some .keyError)
      else
        let disk' := Dict.set disk (stepsFile d) (.steps (l.dropLast ++ [s]))
        saveWeights dir s (i + 1) ws (Dict.set disk' (ckptFile d) (.ckpt (ckptOf disk d + 1) w))
    | _ => (disk, some .ioError)

/-- The iterations after which weights are saved (manager/base.py:846-848, 862-865). -/
def savedSteps (n freq : Nat) : List Nat :=
  (List.range n).filter (fun s => s % freq == 0 && s != 0) ++ [n - 1]

/-- The saves of the training loop (manager/base.py:846-865): `learn i` are the weights after `i`
iterations. -/
def saves (dir : Path) (learn : Nat → W → W) (ws : List W) : List Nat → Disk W → Disk W × Option Err
  | [], disk => (disk, none)
  | s :: rest, disk =>
    match saveWeights dir s 0 (ws.map (learn (s + 1))) disk with
    | (disk, some e) => (disk, some e)
    | (disk, none) => saves dir learn ws rest disk

/-- `train` of a manager (manager/base.py:673-865): it saves itself in its recorded directory, and
trains. Without iterations the variable `step` has no value. -/
def trainManager (learn : Nat → W → W) (n freq : Nat) (man : Man W) (disk : Disk W) :
    Disk W × Option Err :=
  match saveManager true true man man.loc disk with
  | (disk, some e) => (disk, some e)
  | (disk, none) =>
    if n = 0 then (disk, some .nameError)
    else if freq = 0 then (disk, some .zeroDivisionError)
    else saves man.loc.path learn man.ws (savedSteps n freq) disk

/-- The script for training (train_model.py:60-99, utils/build_components.py:194-239). `answer` is
what the user answers if asked, `build` sets up the models from scratch. -/
def train (restore answer : Bool) (build : Disk W → Except Err (List W)) (learn : Nat → W → W)
    (n freq : Nat) (l : Loc) (disk : Disk W) : Disk W × Option Err :=
  let found := Dict.has disk (confFile l.path)
  if restore && found then
    match loadManager disk l with
    | .error e => (disk, some e)
    | .ok man => trainManager learn n freq man disk
  else if found && !answer then (disk, some .valueError)
  else
    let disk := if found then rmtree disk l.path else disk
    match build disk with
    | .error e => (disk, some e)
    | .ok ws => trainManager learn n freq ⟨l, ws⟩ disk

/-! ## Export -/

/-- What the settings of a file with a number say: the directory of the manager, whether the loss
module can be made, and whether models fit together. -/
structure Tools (W : Type) where
  parse : Nat → Except Err Loc
  loss : Nat → Except Err Unit
  fits : List W → Except Err Unit

/-- A file with settings is read (settings/setup_manager.py, `Verif.Setup`). -/
def readText (disk : Disk W) (f : Path) : Except Err Nat :=
  match Dict.get? disk f with
  | some (.text c) => .ok c
  | _ => .error .fileNotFoundError

/-- The managers are loaded and their models collected (export_manager.py:77-88). A manager without
models has `None` as models. -/
def loadAll (t : Tools W) (disk : Disk W) : List Path → Except Err (List W)
  | [] => .ok []
  | f :: fs =>
    match readText disk f with
    | .error e => .error e
    | .ok c =>
      match t.parse c with
      | .error e => .error e
      | .ok l =>
        match loadManager disk l with
        | .error e => .error e
        | .ok man =>
          if man.ws.isEmpty then .error .typeError
          else
            match loadAll t disk fs with
            | .error e => .error e
            | .ok ws => .ok (man.ws ++ ws)

/-- The part of the script after the question (export_manager.py:54-106). -/
def exportTo (t : Tools W) (configs : List Path) (reco : Option Path) (out : Loc) (disk : Disk W) :
    Disk W × Option Err :=
  match reco.or configs.head? with
  | none => (disk, some .indexError)
  | some file =>
    match readText disk file with
    | .error e => (disk, some e)
    | .ok c =>
      match t.loss c with
      | .error e => (disk, some e)
      | .ok _ =>
        match loadAll t disk configs with
        | .error e => (disk, some e)
        | .ok ws =>
          if configs.isEmpty then (disk, some .nameError)
          else
            match t.parse c with
            | .error e => (disk, some e)
            | .ok l =>
              match t.fits ws with
              | .error e => (disk, some e)
              | .ok _ =>
                match saveManager false false ⟨l, ws⟩ out disk with
                | (disk, some e) => (disk, some e)
                | (disk, none) =>
                  if isThere disk out.path then
                    (Dict.set disk (out.path ++ ["reco_config.yaml"]) (.text c), none)
                  else (disk, some .fileNotFoundError)

/-- The script for the export (export_manager.py:17-106): the files given by the user must exist
(click refuses others, here `valueError`); the output directory is deleted if the user agrees. -/
def exportManager (t : Tools W) (answer : Bool) (configs : List Path) (reco : Option Path)
    (out : Loc) (disk : Disk W) : Disk W × Option Err :=
  if !(configs ++ reco.toList).all (isThere disk) then (disk, some .valueError)
  else if isThere disk out.path then
    if !answer then (disk, some .valueError)
    else if Dict.has disk out.path then (disk, some .ioError)
    else exportTo t configs reco out (rmtree disk out.path)
  else exportTo t configs reco out disk

/-! ## Transformations -/

/-- The script for the transformation (create_trafo_model.py:28-58): `ready` is the outcome of creating
it. -/
def createTrafo (answer : Bool) (ready : Except Err Unit) (l : Loc) (disk : Disk W) :
    Disk W × Option Err :=
  if isThere disk l.dir && !answer then (disk, some .valueError)
  else
    match ready with
    | .error e => (disk, some e)
    | .ok _ => (Dict.set disk (confFile l.dir) .part, none)

end

end Verif.Deploy
