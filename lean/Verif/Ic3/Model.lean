import Verif.Output.Model
import Verif.Tray.Model

/-!
# The set up of the IceTray module for reconstructions, and the tray it runs for an event

Models `Configure` of `egenerator/ic3/reconstruction.py` and the way the modules it adds find the
results of one another. What the modules compute is arbitrary.
-/

namespace Verif.Ic3
open Verif.Py Verif.Reco

/-- A parameter that is a string or a list of strings. -/
inductive OneOrMany where
  | one (s : String)
  | many (l : List String)

/-- A value of `goodness_of_fit_settings`: a flag or another object with its truth value. -/
inductive Arg where
  | flag (b : Bool)
  | other (truthy : Bool) (n : Nat)

/-- `bool(value)`. -/
def Arg.truth : Arg → Bool
  | .flag b => b
  | .other b _ => b

/-- The parameters of the module that matter here (ic3/reconstruction.py:28-150). -/
structure Params where
  seeds : OneOrMany
  models : OneOrMany
  baseDir : Option String
  addCirc : Bool
  addCov : Bool
  addGof : Bool
  trafo : Bool
  fitDict : Dict String Bool
  fitDefault : Bool
  interface : String
  gof : Dict String Arg

/-- What is used of the manager: names of the tensors of the data handler, names of the parameters of
the first model, the flags for logarithms of `x_parameters`, and the entry `I3ParticleMapping`. -/
structure Manager where
  tensors : List String
  names : List String
  logs : List Bool
  mapping : Option (Dict String String)

/-- What a fit returns, with its losses. -/
structure FitOut (V : Type) where
  result : V
  trafo : V
  obj : V
  lossSeed : V
  lossReco : V

/-- The covariance matrices: in both spaces, from the second derivatives and from the sandwich
estimate; `fit` are the four that exist if the minimizer has an estimate of its own. -/
structure CovOut (V : Type) where
  cov : V
  covSand : V
  covTrafo : V
  covSandTrafo : V
  fit : Option (V × V × V × V)

/-- The goodness of fit; `dom` are the values for each DOM, `recos` are fits of samples, their bias and
their covariance. -/
structure GofOut (V : Type) where
  p1 : V
  p2 : V
  num : V
  hypotheses : V
  min : V
  max : V
  mean : V
  median : V
  std : V
  fit : V
  dom : V × V
  recos : V × V × V

/-- The circularised uncertainty. -/
structure CircOut (V : Type) where
  deltaPsi : V
  deltaLoss : V
  unc : V
  uncDeg : V

/-- What the modules compute for the event at hand. `str` and `flag` are strings and truth values as
results; `less` is the comparison of losses. -/
structure Bodies (V : Type) where
  str : String → V
  flag : Bool → V
  less : V → Option V → Bool
  fit : (seed : String) → Except Err (FitOut V)
  cov : (result trafo obj : V) → Except Err (CovOut V)
  gof : (trafo result : V) → (cov : Option V) → Except Err (GofOut V)
  circ : (trafo result : V) → (cov : Option V) → Except Err (CircOut V)

variable {V : Type}

/-! ## The modules -/

/-- `results[m][k]`. -/
def look (r : Results V) (m k : String) : Except Err V :=
  match Dict.get? r m with
  | none => .error .keyError
  | some d =>
    match Dict.get? d k with
    | none => .error .keyError
    | some v => .ok v

/-- `Reconstruction.execute` with a seed of the batch (modules/reconstruction.py:226-284), without
`randomize_seed`. -/
def reconstruction (B : Bodies V) (seed : String) : Module V := fun _ =>
  match B.fit seed with
  | .error e => .error e
  | .ok o => .ok [("result", o.result), ("result_trafo", o.trafo), ("result_object", o.obj),
      ("loss_seed", o.lossSeed), ("loss_reco", o.lossReco), ("seed_tensor_name", B.str seed),
      ("seed_from_previous_module", B.flag false)]

/-- `CovarianceMatrix.execute` (modules/covariance.py:93-175). -/
def covariance (B : Bodies V) (recoKey : String) : Module V := fun r => do
  let result ← look r recoKey "result"
  let trafo ← look r recoKey "result_trafo"
  let obj ← look r recoKey "result_object"
  let o ← B.cov result trafo obj
  let d : Dict String V := [("cov", o.cov), ("cov_sand", o.covSand), ("cov_trafo", o.covTrafo),
    ("cov_sand_trafo", o.covSandTrafo)]
  match o.fit with
  | none => return d
  | some (a, b, c, e) =>
    return Dict.update d [("cov_fit", a), ("cov_sand_fit", b), ("cov_fit_trafo", c),
      ("cov_sand_fit_trafo", e)]

/-- The covariance matrix of an earlier module, if there is a key (modules/fit_quality.py:238-239,
modules/opening_angle.py:269-270). -/
def covOf (r : Results V) : Option String → Except Err (Option V)
  | none => .ok none
  | some k =>
    match look r k "cov_sand" with
    | .error e => .error e
    | .ok v => .ok (some v)

/-- `GoodnessOfFit.execute` (modules/fit_quality.py:209-486). Its own steps are in Quality. -/
def goodness (B : Bodies V) (recoKey : String) (covKey : Option String) (samples perDom : Bool) :
    Module V := fun r => do
  let trafo ← look r recoKey "result_trafo"
  let result ← look r recoKey "result"
  let cov ← covOf r covKey
  let o ← B.gof trafo result cov
  let d : Dict String V := [("event_p_value_1sided", o.p1), ("event_p_value_2sided", o.p2),
    ("num_samples", o.num), ("sampled_hypotheses", o.hypotheses), ("loss_sample_min", o.min),
    ("loss_sample_max", o.max), ("loss_sample_mean", o.mean), ("loss_sample_median", o.median),
    ("loss_sample_std", o.std), ("loss_data_fit", o.fit)]
  let d := if perDom then Dict.set (Dict.set d "dom_p_value1" o.dom.1) "dom_p_value2" o.dom.2 else d
  return if samples then Dict.update d [("sample_recos", o.recos.1),
    ("sample_reco_bias", o.recos.2.1), ("sample_reco_cov", o.recos.2.2)] else d

/-- `CircularizedAngularUncertainty.execute` (modules/opening_angle.py:174-325). Its own steps are in
Quality. -/
def circular (B : Bodies V) (fit : List Bool) (recoKey : String) (covKey : Option String) :
    Module V := fun r => do
  if ¬ fit.all id then throw .assertionError
  let trafo ← look r recoKey "result_trafo"
  let result ← look r recoKey "result"
  let cov ← covOf r covKey
  let o ← B.circ trafo result cov
  return [("delta_psi", o.deltaPsi), ("delta_loss", o.deltaLoss), ("circular_unc", o.unc),
    ("circular_unc_deg", o.uncDeg)]

/-! ## Initializers -/

/-- The outcome of the requests for functions in an initializer (in Tray). By C104 the modules that
were added before do not matter. -/
def functions (a : Tray.ModuleArgs) : Except Err Unit :=
  match (Tray.initModule (fun _ _ => ()) (Tray.State.new Unit) a).1 with
  | .error e => .error e
  | .ok _ => .ok ()

/-- Lookup of a tensor in the data handler (data/tensor.py:315-328) or of a parameter in the model
(model/source/base.py:224-233). -/
def known (names : List String) (n : String) : Except Err Unit :=
  if names.contains n then .ok () else .error .keyError

/-- The initializer of `Reconstruction` (modules/reconstruction.py:85-207). -/
def buildReconstruction (B : Bodies V) (P : Params) (M : Manager) (fit : List Bool) (seed : String) :
    Except Err (Module V) := do
  known M.tensors seed
  functions (.reconstruction fit P.trafo "x_parameters" P.interface)
  return reconstruction B seed

/-- The initializer of `CovarianceMatrix` (modules/covariance.py:41-91). -/
def buildCovariance (B : Bodies V) (P : Params) (fit : List Bool) : Except Err (Module V) := do
  functions (.covariance fit P.trafo "x_parameters")
  return covariance B "reco"

/-- The keywords that can be given to `GoodnessOfFit` beside those of the call
(modules/fit_quality.py:17-25). -/
def gofKeywords : List String :=
  ["scipy_optimizer_settings", "num_samples", "reconstruct_samples", "add_per_dom_calculation",
    "normalize_by_total_charge", "random_seed"]

/-- The initializer of `GoodnessOfFit` (modules/fit_quality.py:11-207) with the keywords of the call
(ic3/reconstruction.py:304-313): other keywords, or keywords that are given twice, raise. -/
def buildGoodness (B : Bodies V) (P : Params) (M : Manager) (fit : List Bool) (gof : Dict String Arg)
    (covKey : Option String) : Except Err (Module V) := do
  if ¬ (Dict.keys gof).all (fun k => gofKeywords.contains k) then throw .typeError
  known M.tensors "x_pulses"
  known M.tensors "x_pulses_ids"
  known M.tensors "x_dom_charge"
  known M.names "time"
  let samples := ((Dict.get? gof "reconstruct_samples").map Arg.truth).getD true
  let perDom := ((Dict.get? gof "add_per_dom_calculation").map Arg.truth).getD true
  functions (.goodness fit P.trafo "x_parameters" perDom)
  return goodness B "reco" covKey samples perDom

/-- The index of zenith or azimuth (modules/opening_angle.py:79-84). -/
def mapped (M : Manager) (key : String) : Except Err Nat :=
  match M.mapping with
  | none => .error .keyError
  | some m =>
    match Dict.get? m key with
    | none => .error .keyError
    | some p =>
      match Dict.get? (Output.nameDict M.names 0 []) p with
      | none => .error .keyError
      | some i => .ok i

/-- The initializer of `CircularizedAngularUncertainty` (modules/opening_angle.py:67-172). -/
def buildCircular (B : Bodies V) (P : Params) (M : Manager) (fit : List Bool)
    (covKey : Option String) : Except Err (Module V) := do
  let z ← mapped M "zenith"
  let a ← mapped M "azimuth"
  functions (.circular fit P.trafo "x_parameters" z a)
  return circular B fit "reco" covKey

/-! ## Configure -/

/-- A single string is a list of one (ic3/reconstruction.py:189-193). -/
def OneOrMany.list : OneOrMany → List String
  | .one s => [s]
  | .many l => l

/-- The settings of the goodness of fit (ic3/reconstruction.py:184-187). -/
def fillGof (d : Dict String Arg) : Dict String Arg :=
  let d := if Dict.has d "reconstruct_samples" then d
    else Dict.set d "reconstruct_samples" (.flag true)
  if Dict.has d "add_per_dom_calculation" then d
  else Dict.set d "add_per_dom_calculation" (.flag true)

/-- `os.path.join(a, b)` on Linux. -/
def joinPath (a b : String) : String :=
  if b.toList.head? = some '/' then b
  else if a.toList = [] ∨ a.toList.getLast? = some '/' then a ++ b
  else a ++ "/" ++ b

/-- The directories of the models (ic3/reconstruction.py:195-200). -/
def managerDirs (P : Params) : List String :=
  P.models.list.map fun name =>
    match P.baseDir with
    | some dir => joinPath dir name
    | none => name

/-- The loop over seeds (ic3/reconstruction.py:267-281). -/
def addRecos (B : Bodies V) (P : Params) (M : Manager) (fit : List Bool) :
    List String → Tray V → Except Err (Tray V)
  | [], t => .ok t
  | s :: ss, t =>
    match t.add (.ok ()) (some ("reco_" ++ s)) (buildReconstruction B P M fit s) with
    | .error e => .error e
    | .ok t => addRecos B P M fit ss t

/-- The key of the covariance matrices (ic3/reconstruction.py:300-303, 317-320). -/
def covKey (P : Params) : Option String := if P.addCov then some "covariance" else none

/-- `if condition: add_module(...)` (ic3/reconstruction.py:289, 299, 316). -/
def addIf (b : Bool) (t : Tray V) (name : String) (build : Except Err (Module V)) :
    Except Err (Tray V) :=
  if b then t.add (.ok ()) (some name) build else .ok t

/-- The attributes of the module after `Configure`. -/
structure Cfg (V : Type) where
  gof : Dict String Arg
  mapping : Option (Dict String String)
  logs : List String
  fit : List Bool
  names : List String
  tray : Tray V

/-- `Configure` (ic3/reconstruction.py:152-331). `setup` is the set up of the manager and the loss
module (in Setup) for directories and seeds. -/
def configure (B : Bodies V) (P : Params)
    (setup : (dirs seeds : List String) → Except Err Manager) : Except Err (Cfg V) := do
  let gof := fillGof P.gof
  let M ← setup (managerDirs P) P.seeds.list
  let logs ← Output.logNames M.names M.logs
  let fit ← Output.fitList M.names P.fitDefault P.fitDict
  let t ← addRecos B P M fit P.seeds.list ⟨[], []⟩
  let t ← t.add (.ok ()) (some "reco")
    (.ok (selectBest B.less (P.seeds.list.map fun s => "reco_" ++ s)))
  let t ← addIf P.addCov t "covariance" (buildCovariance B P fit)
  let t ← addIf P.addGof t "GoodnessOfFit" (buildGoodness B P M fit gof (covKey P))
  let t ← addIf P.addCirc t "CircularizedAngularUncertainty" (buildCircular B P M fit (covKey P))
  return ⟨gof, M.mapping, logs, fit, M.names, t⟩

/-- The entries that `Physics` reads from the results (ic3/reconstruction.py:354-364, 388-393,
399-423, 426-434, 447-451). Simplification: the loop over all covariance matrices (lines 389-393) is
the lookup of the module. -/
def lookups (P : Params) (c : Cfg V) : List (String × String) :=
  [("reco", "result"), ("reco", "result_object")] ++ c.tray.names.map (fun n => (n, "runtime")) ++
  [("reco", "loss_reco"), ("reco", "loss_seed")] ++
  (if P.addCov then [("covariance", "runtime")] else []) ++
  (if P.addGof then
    ["event_p_value_1sided", "event_p_value_2sided", "loss_sample_min", "loss_sample_max",
      "loss_sample_mean", "loss_sample_median", "loss_sample_std", "loss_data_fit"].map
        (fun k => ("GoodnessOfFit", k)) ++
    (if ((Dict.get? c.gof "reconstruct_samples").map Arg.truth).getD false then
      [("GoodnessOfFit", "sample_reco_cov"), ("GoodnessOfFit", "sample_reco_bias")] else []) ++
    (if ((Dict.get? c.gof "add_per_dom_calculation").map Arg.truth).getD false then
      [("GoodnessOfFit", "dom_p_value1"), ("GoodnessOfFit", "dom_p_value2")] else [])
  else []) ++
  (if P.addCirc then [("CircularizedAngularUncertainty", "circular_unc"),
    ("CircularizedAngularUncertainty", "runtime")] else [])

end Verif.Ic3
