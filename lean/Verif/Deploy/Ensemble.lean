import Verif.Component.Object
import Verif.Py.Sort

/-!
# Managers for a reconstruction

Models `egenerator/utils/configurator.py` (`ManagerConfigurator`), which the module for IceTray uses,
and the set up in `egenerator/reconstruct_test_data.py`: settings of the modules of the data handler
that are replaced, loading of the managers of an ensemble, and collecting of their models.

Not modelled: tensorflow settings, the loss module, reading of the configuration files
(`Verif.Setup`), and the checks when the final manager is configured from the data handler and the
models (`Verif.Training`).
-/

namespace Verif.Deploy
open Verif.Py Verif.Component

/-! ## Settings of the replaced modules -/

/-- Values of settings. -/
inductive Val where
  | text (s : String)
  | list (l : List Val)
  | num (n : Nat)
deriving Repr

/-- `v == ['x_parameters']`. -/
def Val.isLabels : Val → Bool
  | .list [.text s] => s == "x_parameters"
  | _ => false

/-- `reco_config[key]`. -/
def look (d : Dict String Val) (k : String) : Except Err Val :=
  match Dict.get? d k with
  | none => .error .keyError
  | some v => .ok v

/-- The settings of the module for seeds that come from the reconstruction settings
(utils/configurator.py:92-98, reconstruct_test_data.py:76-83), apart from the names of the seeds. -/
def seedSettings (reco : Dict String Val) (names : Val) : Except Err (Dict String Val) :=
  match look reco "seed_parameter_names", look reco "seed_float_precision",
      look reco "seed_missing_value", look reco "seed_missing_value_dict" with
  | .ok params, .ok precision, .ok missing, .ok missingDict =>
    .ok [("seed_names", names), ("seed_parameter_names", params), ("float_precision", precision),
      ("missing_value", missing), ("missing_value_dict", missingDict)]
  | _, _, _, _ => .error .keyError

/-- The settings of the misc module, if it is replaced (utils/configurator.py:88-99). -/
def miscSettings (reco updates : Dict String Val) : Except Err (Option (Dict String Val)) :=
  match Dict.get? updates "seed_names" with
  | none => .ok none
  | some v =>
    if v.isLabels then .ok none
    else
      match look reco "seed" with
      | .error e => .error e
      | .ok seed =>
        match seedSettings reco (.list [seed]) with
        | .error e => .error e
        | .ok s => .ok (some (Dict.update s updates))

/-- A module in the settings of a data handler: its class and its settings. -/
structure Choice where
  cls : String
  settings : Dict String Val

/-- The label module, if it is replaced (utils/configurator.py:112-120). -/
def labelChoice (loadLabels : Bool) (saved : Choice) (updates : Dict String Val) : Option Choice :=
  if !loadLabels || !updates.isEmpty then
    if !loadLabels then some ⟨"dummy.DummyLabelModule", []⟩
    else some ⟨saved.cls, Dict.update saved.settings updates⟩
  else none

/-- The data module, if it is replaced (utils/configurator.py:137-144). -/
def dataChoice (saved : Choice) (updates : Dict String Val) : Option Choice :=
  if !updates.isEmpty then some ⟨saved.cls, Dict.update saved.settings updates⟩ else none

section
variable {V D : Type} [DecidableEq V]

/-- Creating and configuring a module of a kind (`misc`, `labels`, `data`) of a class with settings
(utils/configurator.py:91, 100, 122-127, 140-146). -/
abbrev Make (V D : Type) := String → String → Dict String Val → Except Err (Comp V D)

/-- An optional module is made if it is replaced. -/
def makeOpt (make : Make V D) (kind : String) : Option Choice → Except Err (Option (Comp V D))
  | none => .ok none
  | some c =>
    match make kind c.cls c.settings with
    | .error e => .error e
    | .ok m => .ok (some m)

/-- The dictionary of replaced modules (utils/configurator.py:104-110, 129-135, 148-154;
reconstruct_test_data.py:73, 87-89, 100-106, 116-122): the modules that are given, in their order,
for the data handler. -/
def replacements (misc label data : Option (Comp V D)) : Dict String (Mod V D) :=
  let inner := (misc.map fun m => ("misc_module", Mod.comp m)).toList ++
    (label.map fun m => ("label_module", Mod.comp m)).toList ++
    (data.map fun m => ("data_module", Mod.comp m)).toList
  if inner.isEmpty then [] else [("data_handler", .nested inner)]

/-! ## Loading the managers -/

/-- Where a manager is saved, and the class of managers in the configuration file. -/
structure Place where
  parent : Path
  name : String
  cls : String

/-- The loop of the configurator (utils/configurator.py:162-176, utils/build_components.py:200-205):
all managers get the same dictionary object, from which `load` removes what it uses. -/
def loadShared (L : LoadEnv V D) (fs : FS V D) (k : Nat) :
    List Place → Dict String (Mod V D) → Except Err (List (Comp V D))
  | [], _ => .ok []
  | p :: ps, mods =>
    let r := load L fs k (Comp.fresh p.cls) p.parent p.name mods
    match r.err with
    | some e => .error e
    | none =>
      match loadShared L fs k ps r.mods with
      | .error e => .error e
      | .ok ms => .ok (r.obj :: ms)

/-- The loop of the script (reconstruct_test_data.py:151-159): every manager gets a copy. -/
def loadCopied (L : LoadEnv V D) (fs : FS V D) (k : Nat) (mods : Dict String (Mod V D)) :
    List Place → Except Err (List (Comp V D))
  | [] => .ok []
  | p :: ps =>
    let r := load L fs k (Comp.fresh p.cls) p.parent p.name mods
    match r.err with
    | some e => .error e
    | none =>
      match loadCopied L fs k mods ps with
      | .error e => .error e
      | .ok ms => .ok (r.obj :: ms)

/-- The names of the models among the sub components, sorted (manager/base.py:47-48). -/
def modelNames (m : Comp V D) : List String :=
  sortBy (fun a b : String => decide (a ≤ b))
    ((Dict.keys m.subs).filter fun n => decide ("models_".toList = n.toList.take 7))

/-- `models` of a manager (manager/base.py:38-54); the cache is not modelled. -/
def modelsOf (m : Comp V D) : Option (List (Comp V D)) :=
  if Dict.has m.subs "models_0000" then some ((modelNames m).filterMap (Dict.get? m.subs)) else none

/-- `models.extend(model_manger.models)` (utils/configurator.py:177, reconstruct_test_data.py:160):
`None` cannot be iterated. Simplification: this comes after all managers are loaded. -/
def allModels : List (Comp V D) → Except Err (List (Comp V D))
  | [] => .ok []
  | m :: ms =>
    match modelsOf m with
    | none => .error .typeError
    | some l =>
      match allModels ms with
      | .error e => .error e
      | .ok ls => .ok (l ++ ls)

/-- What the final manager is made of (utils/configurator.py:171, 180-186,
reconstruct_test_data.py:154, 163-169, manager/base.py:23-29): the data handler of the manager that
was loaded last, and all models. Without managers the variable for the data handler is unbound. -/
def parts (loaded : List (Comp V D)) : Except Err (Option (Comp V D) × List (Comp V D)) :=
  match allModels loaded with
  | .error e => .error e
  | .ok models =>
    match loaded.getLast? with
    | none => .error .nameError
    | some m => .ok (Dict.get? m.subs "data_handler", models)

/-- The settings of the reconstruction, as far as they are used here. -/
structure RecoConfig where
  reco : Dict String Val
  label : Choice
  data : Choice

/-- What the user asks the configurator for (utils/configurator.py:13-20). -/
structure Request where
  loadLabels : Bool
  misc : Dict String Val
  label : Dict String Val
  data : Dict String Val

/-- The modules the configurator creates (utils/configurator.py:85-154). -/
def requestedModules (make : Make V D) (c : RecoConfig) (r : Request) :
    Except Err (Option (Comp V D) × Option (Comp V D) × Option (Comp V D)) :=
  match miscSettings c.reco r.misc with
  | .error e => .error e
  | .ok ms =>
    match makeOpt make "misc" (ms.map fun s => ⟨"seed_loader.SeedLoaderMiscModule", s⟩) with
    | .error e => .error e
    | .ok misc =>
      match makeOpt make "labels" (labelChoice r.loadLabels c.label r.label) with
      | .error e => .error e
      | .ok label =>
        match makeOpt make "data" (dataChoice c.data r.data) with
        | .error e => .error e
        | .ok data => .ok (misc, label, data)

/-- The configurator (utils/configurator.py:85-186). -/
def configurator (L : LoadEnv V D) (fs : FS V D) (k : Nat) (make : Make V D) (c : RecoConfig)
    (r : Request) (ps : List Place) : Except Err (Option (Comp V D) × List (Comp V D)) :=
  match requestedModules make c r with
  | .error e => .error e
  | .ok (misc, label, data) =>
    match loadShared L fs k ps (replacements misc label data) with
    | .error e => .error e
    | .ok loaded => parts loaded

/-! ## The script for test data -/

/-- The seeds of the settings of the script, a name or a list of names. -/
inductive Seeds where
  | one (s : String)
  | many (l : List String)

/-- `seed_names` (reconstruct_test_data.py:62-68). -/
def Seeds.names (s : Seeds) : List String :=
  (match s with
   | .one s => [s]
   | .many l => l).filter fun n => n != "x_parameters"

/-- The settings of the script: the seeds, the other reconstruction settings and the replaced modules
(reconstruct_test_data.py:61, 91-92, 108-109). -/
structure ScriptConfig where
  seed : Seeds
  reco : Dict String Val
  label : Option Choice
  data : Option Choice

/-- The modules the script creates (reconstruct_test_data.py:61-122). -/
def scriptModules (make : Make V D) (c : ScriptConfig) :
    Except Err (Option (Comp V D) × Option (Comp V D) × Option (Comp V D)) :=
  let misc : Except Err (Option (Comp V D)) :=
    if c.seed.names.isEmpty then .ok none
    else
      match seedSettings c.reco (.list (c.seed.names.map .text)) with
      | .error e => .error e
      | .ok s => makeOpt make "misc" (some ⟨"seed_loader.SeedLoaderMiscModule", s⟩)
  match misc with
  | .error e => .error e
  | .ok misc =>
    match makeOpt make "labels" c.label with
    | .error e => .error e
    | .ok label =>
      match makeOpt make "data" c.data with
      | .error e => .error e
      | .ok data => .ok (misc, label, data)

/-- The script (reconstruct_test_data.py:61-169). -/
def script (L : LoadEnv V D) (fs : FS V D) (k : Nat) (make : Make V D) (c : ScriptConfig)
    (ps : List Place) : Except Err (Option (Comp V D) × List (Comp V D)) :=
  match scriptModules make c with
  | .error e => .error e
  | .ok (misc, label, data) =>
    match loadCopied L fs k (replacements misc label data) ps with
    | .error e => .error e
    | .ok loaded => parts loaded

end

end Verif.Deploy
