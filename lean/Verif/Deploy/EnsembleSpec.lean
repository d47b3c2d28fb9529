import Verif.Deploy.Ensemble
import Verif.Component.ObjectSpec

/-!
# Specification for managers of a reconstruction (C94, C95)
-/

namespace Verif.Deploy
open Verif.Py Verif.Component
variable {V D : Type}

/-- `l` are the models of the manager `m`: its parts `models_...` in the order of their names. -/
def ModelsAre (m : Comp V D) (l : List (Comp V D)) : Prop :=
  "models_0000" ∈ Dict.keys m.subs ∧
  ∃ names : List String,
    names.Perm ((Dict.keys m.subs).filter fun n => decide ("models_".toList <+: n.toList)) ∧
    names.Pairwise (· ≤ ·) ∧ names.map (Dict.get? m.subs) = l.map some

/-- The name of a module and what was asked for. -/
def asked (misc label data : Option (Comp V D)) (n : String) : Option (Comp V D) :=
  if n = "misc_module" then misc
  else if n = "label_module" then label
  else if n = "data_module" then data
  else none

/-- `h` is the data handler saved in `dir`, in which every module that was asked for is in use, and
all others are the saved ones. -/
def UsesModules (fs : FS V D) (dir : Path) (misc label data : Option (Comp V D)) (h : Comp V D) :
    Prop :=
  (∀ n m, asked misc label data n = some m → Dict.get? h.subs n = some m ∧ m.configured = true) ∧
  ∃ d, fs (dir ++ ["configuration.yaml"]) = some (.config d) ∧
    ∀ n ∈ d.deps, asked misc label data n = none →
      ∃ s, Dict.get? h.subs n = some s ∧ LoadedAs fs (dir ++ [stem n]) [] s

/-- The directory of a place. -/
def Place.dir (p : Place) : Path := p.parent ++ [stem p.name]

/-- The settings `s` are the settings `base`, overwritten by `updates`. -/
def Overwritten (base updates s : Dict String Val) : Prop :=
  ∀ k, Dict.get? s k = match Dict.get? updates k with
    | some v => some v
    | none => Dict.get? base k

/-- The module in use at `slot` of the data handler `h` was made from the class `cls` and the settings
`base`, overwritten by `updates`. -/
def InUse (make : Make V D) (kind cls slot : String) (base updates : Dict String Val)
    (h : Comp V D) : Prop :=
  ∃ s m, Overwritten base updates s ∧ make kind cls s = .ok m ∧ Dict.get? h.subs slot = some m

/-- The module in use at `slot` of the data handler `h` is the one saved with it in `dir`. -/
def Kept (fs : FS V D) (dir : Path) (slot : String) (h : Comp V D) : Prop :=
  ∀ d, fs (dir ++ ["configuration.yaml"]) = some (.config d) → slot ∈ d.deps →
    ∃ s, Dict.get? h.subs slot = some s ∧ LoadedAs fs (dir ++ [stem slot]) [] s

/-- A manager saved in `dir` has a data handler. -/
def HasHandler (fs : FS V D) (dir : Path) : Prop :=
  ∀ d, fs (dir ++ ["configuration.yaml"]) = some (.config d) → "data_handler" ∈ d.deps

/-- `base` are the settings of the module for seeds that follow from the settings of the
reconstruction, for the given names of seeds. -/
def SeedBase (reco : Dict String Val) (names : Val) (base : Dict String Val) : Prop :=
  Dict.get? base "seed_names" = some names ∧
  (∃ v, Dict.get? reco "seed_parameter_names" = some v ∧
    Dict.get? base "seed_parameter_names" = some v) ∧
  (∃ v, Dict.get? reco "seed_float_precision" = some v ∧
    Dict.get? base "float_precision" = some v) ∧
  (∃ v, Dict.get? reco "seed_missing_value" = some v ∧
    Dict.get? base "missing_value" = some v) ∧
  (∃ v, Dict.get? reco "seed_missing_value_dict" = some v ∧
    Dict.get? base "missing_value_dict" = some v) ∧
  ∀ k ∈ Dict.keys base, k ∈ ["seed_names", "seed_parameter_names", "float_precision",
    "missing_value", "missing_value_dict"]

/-- The settings ask for other seeds than the labels. -/
def AsksForSeeds (updates : Dict String Val) : Prop :=
  ∃ v, Dict.get? updates "seed_names" = some v ∧ v ≠ .list [.text "x_parameters"]

/-- What the settings of the script ask for: a replaced module, or the saved one. -/
def Served (fs : FS V D) (dir : Path) (make : Make V D) (kind slot : String)
    (handler : Comp V D) : Option Choice → Prop
  | some c => InUse make kind c.cls slot c.settings [] handler
  | none => Kept fs dir slot handler

end Verif.Deploy
