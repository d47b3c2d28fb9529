/-
Model of the output of a reconstruction in an IceCube frame
(`egenerator/ic3/reconstruction.py:EventGeneratorReconstruction`). Floating point numbers are real
numbers, tray results are given.
-/
import Mathlib.Data.Real.Basic
import Verif.Py.Dict

namespace Verif.Output
open Verif.Py

/-! ### Settings -/

/-- The names of the parameters that are transformed with a logarithm (ic3/reconstruction.py:241-245). -/
def logNames : List String → List Bool → Except Err (List String)
  | [], _ => .ok []
  | _ :: _, [] => .error .indexError
  | n :: names, b :: logs =>
    match logNames names logs with
    | .error e => .error e
    | .ok r => .ok (if b then n :: r else r)

/-- The dictionary from names to indices (model/source/base.py:209-210). -/
def nameDict : List String → ℕ → Dict String ℕ → Dict String ℕ
  | [], _, d => d
  | n :: names, i, d => nameDict names (i + 1) (Dict.set d n i)

/-- The loop over `minimize_parameter_dict` (ic3/reconstruction.py:251-252). -/
def fitLoop (index : Dict String ℕ) : List (String × Bool) → List Bool → Except Err (List Bool)
  | [], l => .ok l
  | (n, v) :: rest, l =>
    match Dict.get? index n with
    | none => .error .keyError
    | some i => fitLoop index rest (l.set i v)

/-- The list of fitted parameters (ic3/reconstruction.py:248-252). -/
def fitList (names : List String) (default : Bool) (fit : Dict String Bool) : Except Err (List Bool) :=
  fitLoop (nameDict names 0 []) fit (List.replicate names.length default)

/-! ### The covariance matrix -/

/-- The name of a parameter in the keys of the matrix (ic3/reconstruction.py:481-482, 488-489). -/
def adjust (logs : List String) (n : String) : String := if logs.contains n then "log_" ++ n else n

/-- An entry of a matrix. -/
def entry (cov : List (List ℝ)) (i j : ℕ) : Except Err ℝ :=
  match cov[i]? with
  | none => .error .indexError
  | some row =>
    match row[j]? with
    | none => .error .indexError
    | some x => .ok x

/-- The inner loop (ic3/reconstruction.py:483-491): `j` counts from the start of the rest of the names. -/
def covRow (logs : List String) (cov : List (List ℝ)) (i : ℕ) (ni : String) :
    List String → ℕ → Dict String ℝ → Except Err (Dict String ℝ)
  | [], _, d => .ok d
  | nj :: rest, j, d =>
    match entry cov i (j + i) with
    | .error e => .error e
    | .ok x => covRow logs cov i ni rest (j + 1) (Dict.set d (ni ++ "_" ++ adjust logs nj) x)

/-- The outer loop (ic3/reconstruction.py:477-491). -/
def covRows (names logs : List String) (cov : List (List ℝ)) :
    List String → ℕ → Dict String ℝ → Except Err (Dict String ℝ)
  | [], _, d => .ok d
  | ni :: rest, i, d =>
    match covRow logs cov i (adjust logs ni) (names.drop i) 0 d with
    | .error e => .error e
    | .ok d' => covRows names logs cov rest (i + 1) d'

/-- The dictionary of a covariance matrix (ic3/reconstruction.py:476-491). -/
def covDict (names logs : List String) (cov : List (List ℝ)) : Except Err (Dict String ℝ) :=
  covRows names logs cov names 0 []

/-! ### The frame -/

/-- A particle: coordinates, direction (zenith and azimuth) and other attributes. -/
structure Particle where
  pos : Dict String ℝ
  dir : Option (ℝ × ℝ)
  attrs : Dict String ℝ

/-- Objects that are written. -/
inductive Obj where
  | map (d : Dict String ℝ)
  | particle (p : Particle)
  | doms (d : Dict (ℕ × ℕ) ℝ)
  | other (n : ℕ)

abbrev Frame := Dict String Obj

/-- Assignment to a key of an `I3Frame`, which refuses keys that exist. -/
def put (frame : Frame) (key : String) (o : Obj) : Except Err Frame :=
  if Dict.has frame key then .error .runtimeError else .ok (Dict.set frame key o)

/-- `write_cov_matrix` (ic3/reconstruction.py:461-492). -/
def writeCov (names logs : List String) (outputKey : String) (frame : Frame) (cov : List (List ℝ))
    (covName : String) : Except Err Frame :=
  match covDict names logs cov with
  | .error e => .error e
  | .ok d => put frame (outputKey ++ "_cov_matrix_" ++ covName) (.map d)

/-- Assignments to an `I3MapStringDouble`. -/
def sets : Dict String ℝ → List (String × ℝ) → Dict String ℝ
  | d, [] => d
  | d, (k, v) :: rest => sets (Dict.set d k v) rest

/-- The values of the parameters (ic3/reconstruction.py:358-359, 421-423). The suffix is empty for the best
fit. -/
def values (suffix : String) : List String → List ℝ → Except Err (List (String × ℝ))
  | [], _ => .ok []
  | _ :: _, [] => .error .indexError
  | n :: names, v :: vs =>
    match values suffix names vs with
    | .error e => .error e
    | .ok r => .ok ((n ++ suffix, v) :: r)

/-- Settings of the module. -/
structure Settings where
  names : List String
  logs : List String
  outputKey : String
  mapping : Option (Dict String String)
  addCov : Bool
  addGof : Bool
  addCirc : Bool
  recoSamples : Bool
  perDom : Bool

/-- Results of the goodness of fit. -/
structure Gof where
  p1 : ℝ
  p2 : ℝ
  min : ℝ
  max : ℝ
  mean : ℝ
  median : ℝ
  std : ℝ
  fit : ℝ
  cov : List (List ℝ)
  bias : List ℝ
  dom1 : ℕ → ℕ → ℝ
  dom2 : ℕ → ℕ → ℝ

/-- Results of the tray. -/
structure Results where
  runtimes : List (String × ℝ)
  best : List ℝ
  success : Bool
  lossReco : ℝ
  lossSeed : ℝ
  covs : List (String × List (List ℝ))
  covRuntime : ℝ
  gof : Gof
  circ : ℝ
  circRuntime : ℝ

/-- The first assignments (ic3/reconstruction.py:357-364). -/
def baseEntries (s : Settings) (r : Results) : Except Err (List (String × ℝ)) :=
  match values "" s.names r.best with
  | .error e => .error e
  | .ok l => .ok (l ++ r.runtimes.map (fun p => ("runtime_" ++ p.1, p.2)) ++
      [("minimization_success", if r.success then 1 else 0), ("loss_reco", r.lossReco),
        ("loss_seed", r.lossSeed)])

/-- The loop over the mapping of particle attributes (ic3/reconstruction.py:370-381). -/
def particleLoop (res : Dict String ℝ) (mapping : Dict String String) :
    List (String × String) → Particle → Except Err Particle
  | [], p => .ok p
  | (key, param) :: rest, p =>
    if ["x", "y", "z"].contains key then
      match Dict.get? res param with
      | none => .error .keyError
      | some v => particleLoop res mapping rest { p with pos := Dict.set p.pos key v }
    else if ["zenith", "azimuth"].contains key then
      match Dict.get? mapping "zenith" with
      | none => .error .keyError
      | some pz =>
        match Dict.get? res pz with
        | none => .error .keyError
        | some z =>
          match Dict.get? mapping "azimuth" with
          | none => .error .keyError
          | some pa =>
            match Dict.get? res pa with
            | none => .error .keyError
            | some a => particleLoop res mapping rest { p with dir := some (z, a) }
    else
      match Dict.get? res param with
      | none => .error .keyError
      | some v => particleLoop res mapping rest { p with attrs := Dict.set p.attrs key v }

/-- The particle (ic3/reconstruction.py:366-385), if there is a mapping that is not empty. The shape of the
particle is constant and left out. -/
def particle (s : Settings) (res : Dict String ℝ) : Except Err (Option Particle) :=
  match s.mapping with
  | none => .ok none
  | some [] => .ok none
  | some (m :: ms) =>
    match particleLoop res (m :: ms) (m :: ms) ⟨[], none, []⟩ with
    | .error e => .error e
    | .ok p => .ok (some p)

/-- The loop over covariance matrices (ic3/reconstruction.py:389-393), without the entry for the runtime. -/
def covLoop (s : Settings) : List (String × List (List ℝ)) → Frame → Except Err Frame
  | [], f => .ok f
  | (name, cov) :: rest, f =>
    match writeCov s.names s.logs s.outputKey f cov name with
    | .error e => .error e
    | .ok f' => covLoop s rest f'

/-- The covariance matrices (ic3/reconstruction.py:388-396). -/
def covStep (s : Settings) (r : Results) (f : Frame) : Except Err (Frame × List (String × ℝ)) :=
  if s.addCov then
    match covLoop s r.covs f with
    | .error e => .error e
    | .ok f' => .ok (f', [("runtime_covariance", r.covRuntime)])
  else .ok (f, [])

/-- The map of values per DOM (ic3/reconstruction.py:428-441). -/
def domMap (v : ℕ → ℕ → ℝ) : Dict (ℕ × ℕ) ℝ :=
  (List.range 86).flatMap (fun s => (List.range 60).map (fun o => ((s + 1, o + 1), v s o)))

/-- The values of the goodness of fit (ic3/reconstruction.py:400-415). -/
def gofEntries (g : Gof) : List (String × ℝ) :=
  [("goodness_of_fit_1sided", g.p1), ("goodness_of_fit_2sided", g.p2),
    ("goodness_loss_sample_min", g.min), ("goodness_loss_sample_max", g.max),
    ("goodness_loss_sample_mean", g.mean), ("goodness_loss_sample_median", g.median),
    ("goodness_loss_sample_std", g.std), ("goodness_loss_data_fit", g.fit)]

/-- Covariance and bias of reconstructed samples (ic3/reconstruction.py:416-423). -/
def sampleStep (s : Settings) (g : Gof) (f : Frame) : Except Err (Frame × List (String × ℝ)) :=
  if s.recoSamples then
    match writeCov s.names s.logs s.outputKey f g.cov "goodness_of_fit" with
    | .error e => .error e
    | .ok f' =>
      match values "_sample_reco_bias" s.names g.bias with
      | .error e => .error e
      | .ok l => .ok (f', l)
  else .ok (f, [])

/-- p-values of the DOMs (ic3/reconstruction.py:425-445). -/
def domStep (s : Settings) (g : Gof) (f : Frame) : Except Err Frame :=
  if s.perDom then
    match put f (s.outputKey ++ "_GoodnessOfFit_1sided") (.doms (domMap g.dom1)) with
    | .error e => .error e
    | .ok f' => put f' (s.outputKey ++ "_GoodnessOfFit_2sided") (.doms (domMap g.dom2))
  else .ok f

/-- The goodness of fit (ic3/reconstruction.py:399-445). -/
def gofStep (s : Settings) (r : Results) (f : Frame) : Except Err (Frame × List (String × ℝ)) :=
  if s.addGof then
    match sampleStep s r.gof f with
    | .error e => .error e
    | .ok (f', l) =>
      match domStep s r.gof f' with
      | .error e => .error e
      | .ok f'' => .ok (f'', gofEntries r.gof ++ l)
  else .ok (f, [])

/-- The circularized uncertainty (ic3/reconstruction.py:447-451). -/
def circEntries (s : Settings) (r : Results) : List (String × ℝ) :=
  if s.addCirc then [("circular_unc", r.circ), ("runtime_circular_err", r.circRuntime)] else []

/-- The last assignment, of the particle (ic3/reconstruction.py:455-456). -/
def putParticle (s : Settings) (p : Option Particle) (f : Frame) : Except Err Frame :=
  match p with
  | none => .ok f
  | some p => put f (s.outputKey ++ "_I3Particle") (.particle p)

/-- `Physics` after the tray was run (ic3/reconstruction.py:347-459): the frame that is pushed. -/
def physics (s : Settings) (r : Results) (f : Frame) : Except Err Frame :=
  match baseEntries s r with
  | .error e => .error e
  | .ok base =>
    match particle s (sets [] base) with
    | .error e => .error e
    | .ok p =>
      match covStep s r f with
      | .error e => .error e
      | .ok (f1, l1) =>
        match gofStep s r f1 with
        | .error e => .error e
        | .ok (f2, l2) =>
          match put f2 s.outputKey (.map (sets [] (base ++ l1 ++ l2 ++ circEntries s r))) with
          | .error e => .error e
          | .ok f3 => putParticle s p f3

end Verif.Output
