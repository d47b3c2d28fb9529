import Verif.Reco.Model

/-!
# Set up of reconstruction modules, and the likelihood scan

Models what the initializers of the modules in `egenerator/manager/reconstruction/modules` do with
the function cache of the tray, and `modules/visualization.py`.
-/

namespace Verif.Tray
open Verif.Py Verif.Reco

/-! ## Functions -/

/-- The methods of the manager that create functions: `get_parameter_loss_function`,
`get_loss_and_gradients_function`, `get_hessian_function`, `get_opg_estimate_function`,
`get_model_tensors_function`. -/
inductive Getter where
  | loss
  | lossGrad
  | hessian
  | opg
  | tensors
  deriving DecidableEq

/-- `__name__` of the created function (manager/source.py:210-226, 273-293, 453-478, 358-410,
509-543). -/
def Getter.fname : Getter → String
  | .loss => "parameter_loss_function"
  | .lossGrad => "loss_and_gradients_function"
  | .hessian => "hessian_function"
  | .opg => "opg_estimate_function"
  | .tensors => "model_tensors_function"

/-- The dictionaries of settings. `width` and `full` are the second dimensions in the signatures of
the parameters and of the seed (`none`: no seed in the signature); `extra` are further keywords.
Simplification: manager, loss module, data type and signature of the batch are the same for all
modules of a tray and are left out. -/
inductive Settings where
  | fn (width : Nat) (full : Option Nat) (fit : List Bool) (trafo : Bool) (seed : Option String)
      (param : String) (extra : List (String × Bool))
  | tensors (index : Nat)
  deriving DecidableEq

/-- `==` of dictionaries of settings. -/
def Settings.eq (a b : Settings) : Bool := decide (a = b)

/-- The cache, and the calls of the methods of the manager so far. -/
structure State (F : Type) where
  cache : Cache Settings F
  made : List (Getter × Settings)

/-- The three statements with which all modules get their functions, for example
modules/reconstruction.py:113-119. `create` is the method of the manager. -/
def request {F : Type} (create : Getter → Settings → F) (st : State F) (g : Getter) (s : Settings) :
    Except Err (F × State F) :=
  match Cache.get Settings.eq st.cache g.fname s with
  | some f => .ok (f, st)
  | none =>
    let f := create g s
    match Cache.add Settings.eq st.cache g.fname s f with
    | .error e => .error e
    | .ok c => .ok (f, ⟨c, st.made ++ [(g, s)]⟩)

/-- Several requests in order. An exception leaves the state of that moment. -/
def requests {F : Type} (create : Getter → Settings → F) :
    State F → List (Getter × Settings) → Except Err (List F) × State F
  | st, [] => (.ok [], st)
  | st, (g, s) :: rest =>
    match request create st g s with
    | .error e => (.error e, st)
    | .ok (f, st) =>
      match requests create st rest with
      | (.error e, st) => (.error e, st)
      | (.ok fs, st) => (.ok (f :: fs), st)

/-- `np.sum(fit_paramater_list, dtype=int)`. -/
def numFit (fit : List Bool) : Nat := (fit.filter id).length

/-- A call of `add_module` with the arguments that matter for the functions. -/
inductive ModuleArgs where
  | reconstruction (fit : List Bool) (trafo : Bool) (param interface : String)
  | covariance (fit : List Bool) (trafo : Bool) (param : String)
  | mcmc (fit : List Bool) (trafo : Bool) (param seed : String)
  | circular (fit : List Bool) (trafo : Bool) (param : String) (zenith azimuth : Nat)
  | goodness (fit : List Bool) (trafo : Bool) (param : String) (perDom : Bool)
  | scan (fit : List Bool) (trafo : Bool) (param seed : String)
  | select

/-- Settings with parameters, batch and seed in the signature, for example
modules/reconstruction.py:122-130. -/
def settings3 (fit : List Bool) (trafo : Bool) (param : String) : Settings :=
  .fn (numFit fit) (some fit.length) fit trafo none param []

/-- Settings with parameters and batch in the signature and the name of a seed
(modules/mcmc.py:87-94, modules/visualization.py:65-72). -/
def settings2 (fit : List Bool) (trafo : Bool) (param seed : String) : Settings :=
  .fn (numFit fit) none fit trafo (some seed) param []

/-- `list[i] = False`. -/
def clear (fit : List Bool) (i : Nat) : Except Err (List Bool) :=
  if i < fit.length then .ok (fit.set i false) else .error .indexError

/-- `str.lower` of the interface, for the letters of its options. -/
def lower (s : String) : String := String.ofList (s.toList.map Char.toLower)

/-- The initializer of `Reconstruction` (modules/reconstruction.py:76-207): losses are evaluated for
all parameters in their own space; an unknown interface is found out after the requests. -/
def initReconstruction {F : Type} (create : Getter → Settings → F) (st : State F) (fit : List Bool)
    (trafo : Bool) (param interface : String) : Except Err (List F) × State F :=
  let all := fit.map fun _ => true
  let first := [(Getter.loss, Settings.fn fit.length none all false none param []),
    (.lossGrad, settings3 fit trafo param)]
  if lower interface = "scipy" ∨ lower interface = "shog" ∨ lower interface = "tfp" then
    requests create st first
  else if lower interface = "spherical_opt" then
    requests create st (first ++ [(.loss, settings3 fit trafo param)])
  else
    match requests create st first with
    | (.error e, st) => (.error e, st)
    | (.ok _, st) => (.error .valueError, st)

/-- The initializer of `CovarianceMatrix` (modules/covariance.py:41-91). -/
def initCovariance {F : Type} (create : Getter → Settings → F) (st : State F) (fit : List Bool)
    (trafo : Bool) (param : String) : Except Err (List F) × State F :=
  if fit.all id then
    requests create st [(.hessian, settings3 fit trafo param), (.opg, settings3 fit trafo param)]
  else (.error .notImplementedError, st)

/-- The initializer of `CircularizedAngularUncertainty` (modules/opening_angle.py:67-172). -/
def initCircular {F : Type} (create : Getter → Settings → F) (st : State F) (fit : List Bool)
    (trafo : Bool) (param : String) (zenith azimuth : Nat) : Except Err (List F) × State F :=
  match clear fit zenith with
  | .error e => (.error e, st)
  | .ok unc =>
    match clear unc azimuth with
    | .error e => (.error e, st)
    | .ok unc =>
      requests create st [(.loss, settings3 fit trafo param), (.lossGrad, settings3 unc trafo param),
        (.loss, settings3 unc trafo param)]

/-- The initializer of `GoodnessOfFit` (modules/fit_quality.py:92-207). -/
def initGoodness {F : Type} (create : Getter → Settings → F) (st : State F) (fit : List Bool)
    (trafo : Bool) (param : String) (perDom : Bool) : Except Err (List F) × State F :=
  requests create st [(.tensors, .tensors 0),
    (.loss, .fn (numFit fit) (some fit.length) fit trafo none param
      [("reduce_to_scalar", !perDom), ("sort_loss_terms", perDom),
        ("normalize_by_total_charge", false)]),
    (.lossGrad, settings3 fit trafo param)]

/-- The initializers of all modules: the functions they keep, in the order of the requests
(for `MarkovChainMonteCarlo` modules/mcmc.py:67-123, for `Visualize1DLikelihoodScan`
modules/visualization.py:44-81, for `SelectBestReconstruction` modules/reconstruction.py:312). -/
def initModule {F : Type} (create : Getter → Settings → F) (st : State F) :
    ModuleArgs → Except Err (List F) × State F
  | .reconstruction fit trafo param interface =>
    initReconstruction create st fit trafo param interface
  | .covariance fit trafo param => initCovariance create st fit trafo param
  | .mcmc fit trafo param seed => requests create st [(.loss, settings2 fit trafo param seed)]
  | .circular fit trafo param zenith azimuth => initCircular create st fit trafo param zenith azimuth
  | .goodness fit trafo param perDom => initGoodness create st fit trafo param perDom
  | .scan fit trafo param seed => requests create st [(.loss, settings2 fit trafo param seed)]
  | .select => (.ok [], st)

/-- A new tray (manager/reconstruction/tray.py:50-58). -/
def State.new (F : Type) : State F := ⟨[], []⟩

/-- The state after modules were added, including those whose initializer raised. -/
def State.after {F : Type} (create : Getter → Settings → F) (ms : List ModuleArgs) : State F :=
  ms.foldl (fun st m => (initModule create st m).2) (State.new F)

/-! ## The likelihood scan -/

/-- A row of parameters: one event. -/
abbrev Row := List ℝ

/-- What the scan needs to know: whether the fit was done in transformed space, which parameters
were fitted, the names of the parameters of the model, the transformation of each column and its
inverse, and the loss of the event for values in parameter space. -/
structure Scan where
  fit : List Bool
  trafo : Bool
  names : List String
  fwd : Nat → ℝ → ℝ
  inv : Nat → ℝ → ℝ
  loss : Row → ℝ

/-- A row with a function of the column applied to each value. -/
def mapCols (f : Nat → ℝ → ℝ) (r : Row) : Row := r.mapIdx f

/-- `data_trafo.transform` and `data_trafo.inverse_transform` of a parameter tensor with one event
(data/trafo.py:267-463): other shapes than that of the tensor raise. -/
def Scan.apply (c : Scan) (f : Nat → ℝ → ℝ) (r : Row) : Except Err Row :=
  if r.length = c.fit.length then .ok (mapCols f r) else .error .valueError

/-- The values of a seed at the positions that are not fitted and the given ones elsewhere
(manager/source.py:94-121). -/
def fill : List Bool → Row → Row → Row
  | true :: fit, p :: ps, _ :: seed => p :: fill fit ps seed
  | false :: fit, ps, s :: seed => s :: fill fit ps seed
  | _, _, _ => []

/-- The loss function of the scan (manager/source.py:210-226): the signature allows as many columns
as there are fitted parameters; `seed` is the tensor of the batch the function was made with. -/
noncomputable def Scan.lossFunction (c : Scan) (seed p : Row) : Except Err ℝ :=
  if p.length ≠ numFit c.fit then .error .valueError
  else
    let all := if c.fit.all id then p
      else fill c.fit p (if c.trafo then mapCols c.fwd seed else seed)
    .ok (c.loss (if c.trafo then mapCols c.inv all else all))

/-- `a[0, i] = v` for a numpy array. -/
def setCol (r : Row) (i : Nat) (v : ℝ) : Except Err Row :=
  if i < r.length then .ok (r.set i v) else .error .indexError

/-- `a[0, i]`. -/
def getCol (r : Row) (i : Nat) : Except Err ℝ :=
  match r[i]? with
  | some v => .ok v
  | none => .error .indexError

/-- `np.linspace(a - 1, a + 1, n)` for `n` at least two. -/
noncomputable def linspace (a : ℝ) (n : Nat) : List ℝ :=
  (List.range n).map fun k : Nat => (a - 1) + (k : ℝ) * (2 / ((n : ℝ) - 1))

/-- One point of a scan: the value on the axis, the losses around the fit and around the truth. -/
structure Point where
  x : ℝ
  reco : ℝ
  truth : ℝ

/-- The body of the loop over values (modules/visualization.py:190-214). -/
noncomputable def scanPoint (c : Scan) (seed result truth : Row) (i : Nat) (v : ℝ) :
    Except Err Point := do
  let p ← setCol result i v
  let reco ← c.lossFunction seed p
  let q ← setCol truth i v
  let t ← c.lossFunction seed q
  let x ← getCol (← c.apply c.inv q) i
  return ⟨x, reco, t⟩

/-- What a figure shows: the curves, two horizontal and two vertical lines. -/
structure Plot where
  points : List Point
  lossTruth : ℝ
  lossReco : ℝ
  truth : ℝ
  reco : ℝ

/-- One pass of the loop over parameters (modules/visualization.py:179-262). `num` is the number
of points, 1000 in the code; `numCov` the number of covariance matrices: their parabolas use a
module that is not imported. -/
noncomputable def scanParameter (c : Scan) (num numCov : Nat) (seed result truth resultInv truthInv : Row)
    (i : Nat) : Except Err Plot := do
  let a ← getCol truth i
  let points ← (linspace a num).mapM (scanPoint c seed result truth i)
  let lossTruth ← c.lossFunction seed truth
  let lossReco ← c.lossFunction seed result
  let t ← getCol truthInv i
  let r ← getCol resultInv i
  if numCov ≠ 0 then throw .nameError
  return ⟨points, lossTruth, lossReco, t, r⟩

/-- The loop over parameters (modules/visualization.py:175-262) with the files it writes: on an
exception the earlier ones have been written. -/
noncomputable def scanLoop (file : String → String) (plot : Nat → Except Err Plot) :
    Nat → List String → Dict String Plot → Option Err × Dict String Plot
  | _, [], d => (none, d)
  | i, name :: names, d =>
    match plot i with
    | .error e => (some e, d)
    | .ok p => scanLoop file plot (i + 1) names (Dict.set d (file name) p)

/-- `make_1d_llh_scans` for one event (modules/visualization.py:119-262). -/
noncomputable def makeScans (c : Scan) (num numCov : Nat) (file : String → String)
    (seed result truth : Row) (d : Dict String Plot) : Option Err × Dict String Plot :=
  match c.apply c.inv truth with
  | .error e => (some e, d)
  | .ok truthInv =>
    match c.apply c.inv result with
    | .error e => (some e, d)
    | .ok resultInv =>
      scanLoop file (scanParameter c num numCov seed result truth resultInv truthInv) 0 c.names d

/-- The files on disk and the counter of the module. -/
structure ScanState where
  files : Dict String Plot
  counter : Nat

/-- `execute` for one event (modules/visualization.py:83-117): `x` is the event's row of the
parameter tensor, `result` the `result_trafo` of the reconstruction, `template` the file name. The
method returns `None`. -/
noncomputable def Scan.execute (c : Scan) (num : Nat) (template : String → Nat → String)
    (seed x result : Row) (st : ScanState) : Option Err × ScanState :=
  match c.apply c.fwd x with
  | .error e => (some e, st)
  | .ok truth =>
    match makeScans c num 0 (fun p => template p st.counter) seed result truth st.files with
    | (some e, d) => (some e, { st with files := d })
    | (none, d) => (none, ⟨d, st.counter + 1⟩)

/-- A module that may return `None`, in a tray: `'runtime' in None` raises
(manager/reconstruction/tray.py:119). -/
def asModule {V : Type} (m : Results V → Except Err (Option (Dict String V))) : Module V :=
  fun r =>
    match m r with
    | .error e => .error e
    | .ok none => .error .typeError
    | .ok (some d) => .ok d

end Verif.Tray
