import Verif.Deploy.Scripts

/-!
# Specification for scripts that write managers and transformations (C96 to C98)
-/

namespace Verif.Deploy
open Verif.Py Verif.Component
variable {W : Type}

/-- The name of a directory has no extension: `os.path.splitext` leaves it as it is. -/
def Loc.Plain (l : Loc) : Prop := stem l.name = l.name

instance (l : Loc) : Decidable l.Plain := inferInstanceAs (Decidable (stem l.name = l.name))

/-- In the directory `dir` a manager is saved with the recorded directory `recorded` and models with
the weights `ws`, complete so that it can be loaded. -/
structure Holds (disk : Disk W) (dir : Path) (recorded : Loc) (ws : List W) : Prop where
  manager : Dict.get? disk (dir ++ ["configuration.yaml"]) = some (.manager recorded ws.length)
  handler : dir ++ ["data_handler", "configuration.yaml"] ∈ Dict.keys disk
  models : ∀ i w, ws[i]? = some w →
    dir ++ ["models_" ++ pad4 i, "configuration.yaml"] ∈ Dict.keys disk ∧
    ∃ n, Dict.get? disk (dir ++ ["models_" ++ pad4 i, "model_checkpoint.yaml"]) = some (.ckpt n w)

/-- The recorded numbers of iterations of the training steps of `k` models. -/
def History (disk : Disk W) (dir : Path) (k : Nat) (l : List Nat) : Prop :=
  ∀ i < k, Dict.get? disk (dir ++ ["models_" ++ pad4 i, "training", "training_steps.yaml"]) =
    some (.steps l)

/-- Nothing changed outside the directory `dir`. -/
def Untouched (dir : Path) (disk disk' : Disk W) : Prop :=
  ∀ p, ¬ dir <+: p → Dict.get? disk' p = Dict.get? disk p

/-- There is no file at or below `dir`. -/
def Free (disk : Disk W) (dir : Path) : Prop := ∀ p ∈ Dict.keys disk, ¬ dir <+: p

/-- `disk'` are the files of `disk` outside the directory `dir`. -/
def Outside (dir : Path) (disk disk' : Disk W) : Prop := Untouched dir disk disk' ∧ Free disk' dir

/-- The file `f` has settings for a manager, and the models of that manager have the weights `ws`. -/
def Gives (t : Tools W) (disk : Disk W) (f : Path) (ws : List W) : Prop :=
  ∃ c l recorded, Dict.get? disk f = some (.text c) ∧ t.parse c = .ok l ∧
    Holds disk l.dir recorded ws ∧ ws ≠ []

end Verif.Deploy
