import Verif.Component.Object
import Mathlib.Data.Real.Basic

/-!
# Reconstruction of test data

Models `reconstruct_testdata` of `egenerator/manager/source.py` (1255-1822): the flags of the fitted
parameters, the directory of the output file, the settings, the modules of the tray, the loop over
batches and the table that is written. What the modules of the tray compute for a batch is given.
-/

namespace Verif.TestData
open Verif.Py

/-! ## Settings -/

/-- `reco_config['seed']`: a name or a list of names. -/
inductive SeedArg where
  | one (name : String)
  | many (names : List String)

/-- `seed_tensor_names` (manager/source.py:1358-1361). -/
def SeedArg.names : SeedArg → List String
  | .one s => [s]
  | .many l => l

/-- `reco_config['seed'][0]` (manager/source.py:1573): of a name it is the first letter. -/
def SeedArg.first : SeedArg → Except Err String
  | .one s =>
    match s.toList with
    | [] => .error .indexError
    | c :: _ => .ok (String.ofList [c])
  | .many l =>
    match l with
    | [] => .error .indexError
    | s :: _ => .ok s

/-- The settings of the reconstruction that are used here. -/
structure Config where
  seed : SeedArg
  numRandom : Option Nat
  covariance : Bool
  gof : Bool
  circular : Bool
  mcmc : Bool
  scans : Bool

/-- The index of a parameter (model/source/base.py:209-210, 224-233): of the last one of the
name. -/
def indexOf (names : List String) (name : String) : Except Err Nat :=
  match Dict.get? (names.zipIdx.foldl (fun d p => Dict.set d p.1 p.2) ([] : Dict String Nat)) name with
  | none => .error .keyError
  | some i => .ok i

/-- The loop over the flags that are given by name (manager/source.py:1300-1301). -/
def setFlags {V : Type} (names : List String) : List V → List (String × V) → Except Err (List V)
  | flags, [] => .ok flags
  | flags, (name, v) :: rest =>
    match indexOf names name with
    | .error e => .error e
    | .ok i => setFlags names (flags.set i v) rest

/-- `fit_paramater_list` (manager/source.py:1298-1301). -/
def fitList {V : Type} (names : List String) (default : V) (given : Dict String V) :
    Except Err (List V) :=
  setFlags names (List.replicate names.length default) given

/-- `os.path.dirname` of posix, as letters: everything up to the last slash, without trailing
slashes unless there is nothing else. -/
def dirname (p : List Char) : List Char :=
  let head := (p.reverse.dropWhile (· ≠ '/')).reverse
  if head.all (· = '/') then head else (head.reverse.dropWhile (· = '/')).reverse

/-- The directory of the output file is created if it does not exist (manager/source.py:1303-1306):
the directory that was created, if any. `present` are the existing directories; there is none with
an empty name, and `os.makedirs` of it is a `FileNotFoundError`. -/
def prepare (present : List Char → Bool) (file : List Char) : Except Err (Option (List Char)) :=
  let d := dirname file
  if d ≠ [] ∧ present d = true then .ok none
  else if d = [] then .error .fileNotFoundError
  else .ok (some d)

/-- The values that replace the settings of the Markov chains (manager/source.py:1342-1347). -/
inductive Setting where
  | num (n : Nat)
  | text (s : String)
deriving DecidableEq

/-- The settings after manager/source.py:1342-1347. -/
def overwrite (reco : Dict String Setting) : Dict String Setting :=
  let reco := Dict.set reco "mcmc_num_chains" (.num 10)
  let reco := Dict.set reco "mcmc_num_results" (.num 100)
  let reco := Dict.set reco "mcmc_num_burnin_steps" (.num 30)
  let reco := Dict.set reco "mcmc_num_steps_between_results" (.num 0)
  let reco := Dict.set reco "mcmc_num_parallel_iterations" (.num 1)
  Dict.set reco "mcmc_method" (.text "HamiltonianMonteCarlo")

/-! ## The tray -/

/-- A module of the tray with the arguments that refer to other modules or to tensors. -/
inductive Step where
  | fit (seed : String) (fromPrevious : Bool) (randomize : Bool)
  | select (names : List String)
  | covariance (reco : String)
  | gof (reco : String) (cov : Option String)
  | circular (reco : String) (cov : Option String)
  | mcmc (reco : String)
  | scan (reco : String)
deriving DecidableEq

/-- The modules by name, in their order. -/
abbrev Steps := List (String × Step)

/-- `add_module` with a name (manager/reconstruction/tray.py:60-98): names must be new. `tensors` are
the tensors of the data handler; a module that is seeded by a tensor looks it up
(modules/reconstruction.py:84-86). -/
def addStep (tensors : List String) (t : Steps) (name : String) (s : Step) : Except Err Steps :=
  if (t.map Prod.fst).contains name then .error .valueError
  else
    match s with
    | .fit seed false _ =>
      if tensors.contains seed then .ok (t ++ [(name, s)]) else .error .keyError
    | _ => .ok (t ++ [(name, s)])

/-- The name of a fit from random seed `i` (manager/source.py:1379-1380). -/
def randomName (i : Nat) (seed : String) : String := "reco_random_" ++ Component.pad4 i ++ seed

/-- The loop over the random seeds (manager/source.py:1378-1420). -/
def addRandom (tensors : List String) (seed : String) : List Nat → Steps → Except Err Steps
  | [], t => .ok t
  | i :: is, t =>
    match addStep tensors t (randomName i seed) (.fit seed false true) with
    | .error e => .error e
    | .ok t => addRandom tensors seed is t

/-- The modules for one seed (manager/source.py:1369-1456), with the names for the final selection,
which are added to `names`. -/
def addSeed (tensors : List String) (numRandom : Option Nat) (seed : String) (names : List String)
    (t : Steps) : Except Err (List String × Steps) :=
  let names := names ++ ["reco_" ++ seed]
  match numRandom with
  | none =>
    match addStep tensors t ("reco_" ++ seed) (.fit seed false false) with
    | .error e => .error e
    | .ok t => .ok (names, t)
  | some k =>
    match addRandom tensors seed (List.range k) t with
    | .error e => .error e
    | .ok t =>
      match addStep tensors t "sel_reco_random"
          (.select ((List.range k).map fun i => randomName i seed)) with
      | .error e => .error e
      | .ok t =>
        match addStep tensors t ("reco_random_" ++ seed) (.fit "sel_reco_random" true false) with
        | .error e => .error e
        | .ok t =>
          match addStep tensors t ("reco_" ++ seed) (.fit seed false false) with
          | .error e => .error e
          | .ok t => .ok (names ++ ["reco_random_" ++ seed], t)

/-- The loop over the seeds (manager/source.py:1367-1456). -/
def addSeeds (tensors : List String) (numRandom : Option Nat) :
    List String → List String → Steps → Except Err (List String × Steps)
  | [], names, t => .ok (names, t)
  | s :: ss, names, t =>
    match addSeed tensors numRandom s names t with
    | .error e => .error e
    | .ok (names, t) => addSeeds tensors numRandom ss names t

/-- A module that is added on request. -/
def addIf (tensors : List String) (b : Bool) (name : String) (s : Step) (t : Steps) :
    Except Err Steps :=
  if b then addStep tensors t name s else .ok t

/-- The key of the covariance matrix for later modules (manager/source.py:1476-1479,
1492-1495). -/
def Config.covKey (c : Config) : Option String := if c.covariance then some "covariance" else none

/-- The tray (manager/source.py:1363-1538). Simplification: the initializers of the modules after
the selection succeed. -/
def build (tensors : List String) (c : Config) : Except Err Steps :=
  match addSeeds tensors c.numRandom c.seed.names [] [] with
  | .error e => .error e
  | .ok (names, t) => do
    let t ← addStep tensors t "reco" (.select names)
    let t ← addIf tensors c.covariance "covariance" (.covariance "reco") t
    let t ← addIf tensors c.gof "GoodnessOfFit" (.gof "reco" c.covKey) t
    let t ← addIf tensors c.circular "CircularizedAngularUncertainty" (.circular "reco" c.covKey) t
    let t ← addIf tensors c.mcmc "mcmc" (.mcmc "reco") t
    addIf tensors c.scans "visualization" (.scan "reco") t

/-! ## The loop over batches -/

/-- The parameters of an event. -/
abbrev Row := List ℝ

/-- The results of the module for covariance matrices: the roots of the diagonals of the four
matrices and the entries of zenith and azimuth of the first two. -/
structure Cov where
  std : Row
  stdFit : Row
  stdSand : Row
  stdSandFit : Row
  zenAzi : ℝ
  zenAziFit : ℝ

/-- The results of the module for the goodness of fit; `samples`: the roots of the diagonal of
`sample_reco_cov` and `sample_reco_bias`. -/
structure Gof where
  p1 : ℝ
  p2 : ℝ
  samples : Option (Row × Row)

/-- A batch: its tensors by name, and the results of the tray. `fromPrevious` and `seedName` are
those of the selected fit, `accepted` the number of samples of the Markov chains. -/
structure Batch where
  tensors : Dict String (List Row)
  reco : List Row
  fromPrevious : Bool
  seedName : String
  cov : Cov
  gof : Gof
  circular : ℝ
  accepted : Nat

/-- A tensor of the batch by name. -/
def Batch.tensor (b : Batch) (name : String) : Except Err (List Row) :=
  match Dict.get? b.tensors name with
  | none => .error .keyError
  | some rows => .ok rows

/-- `cascade_seed_batch` (manager/source.py:1571-1577, 1581). -/
def seedRows (c : Config) (b : Batch) : Except Err (List Row) :=
  if b.fromPrevious then
    match c.seed.first with
    | .error e => .error e
    | .ok s => b.tensor s
  else b.tensor b.seedName

/-- The lists that are filled (manager/source.py:1542-1558). -/
structure Lists where
  truth : List Row := []
  reco : List Row := []
  seed : List Row := []
  lossTrue : List ℝ := []
  lossReco : List ℝ := []
  lossSeed : List ℝ := []
  std : List Row := []
  stdFit : List Row := []
  stdSand : List Row := []
  stdSandFit : List Row := []
  zenAzi : List ℝ := []
  zenAziFit : List ℝ := []
  circular : List ℝ := []
  p1 : List ℝ := []
  p2 : List ℝ := []
  stdSamples : List Row := []
  bias : List Row := []

/-- The results of a batch that are appended once (manager/source.py:1586-1632). -/
def addBatch (c : Config) (l : Lists) (b : Batch) : Lists :=
  let l := if c.covariance then
      { l with zenAzi := l.zenAzi ++ [b.cov.zenAzi], zenAziFit := l.zenAziFit ++ [b.cov.zenAziFit]
               stdSand := l.stdSand ++ [b.cov.stdSand]
               stdSandFit := l.stdSandFit ++ [b.cov.stdSandFit]
               std := l.std ++ [b.cov.std], stdFit := l.stdFit ++ [b.cov.stdFit] }
    else l
  let l := if c.gof then
      let l := { l with p1 := l.p1 ++ [b.gof.p1], p2 := l.p2 ++ [b.gof.p2] }
      match b.gof.samples with
      | none => l
      | some (s, bias) => { l with stdSamples := l.stdSamples ++ [s], bias := l.bias ++ [bias] }
    else l
  if c.circular then { l with circular := l.circular ++ [b.circular] } else l

/-- The loop over the events of a batch (manager/source.py:1713-1758): reconstructed, seed and true
parameters, as long as there are all of them. `loss b rows` is the loss of the data of the batch
for the parameters `rows`. Simplification: rows have as many entries as there are parameters. -/
def addEvents (loss : Batch → List Row → Except Err ℝ) (b : Batch) (all : List Row) :
    List Row → List Row → List Row → Lists → Except Err Lists
  | r :: rs, s :: ss, t :: ts, l =>
    match loss b all with
    | .error e => .error e
    | .ok lt =>
      match loss b [s] with
      | .error e => .error e
      | .ok ls =>
        match loss b [r] with
        | .error e => .error e
        | .ok lr =>
          addEvents loss b all rs ss ts
            { l with truth := l.truth ++ [t], seed := l.seed ++ [s], reco := l.reco ++ [r]
                     lossTrue := l.lossTrue ++ [lt], lossSeed := l.lossSeed ++ [ls]
                     lossReco := l.lossReco ++ [lr] }
  | _, _, _, l => .ok l

/-- The loop over the batches (manager/source.py:1561-1761). `param` is the name of the parameter
tensor, `assigned`: the variable `cascade_true` has a value, i.e. there was an event before. The
module for scans returns `None`, of which the tray asks whether it contains the run time
(modules/visualization.py:117, tray.py:120-123). -/
def loop (c : Config) (param : String) (loss : Batch → List Row → Except Err ℝ) :
    List Batch → Bool → Lists → Except Err Lists
  | [], _, l => .ok l
  | b :: bs, assigned, l =>
    if c.scans then .error .typeError
    else
      match seedRows c b with
      | .error e => .error e
      | .ok seed =>
        match b.tensor param with
        | .error e => .error e
        | .ok truth =>
          if c.mcmc && decide (0 < b.accepted) && !assigned then .error .nameError
          else
            match addEvents loss b truth b.reco seed truth (addBatch c l b) with
            | .error e => .error e
            | .ok l =>
              loop c param loss bs
                (assigned || !(b.reco.isEmpty || seed.isEmpty || truth.isEmpty)) l

/-! ## The table -/

/-- `np.stack(rows, axis=0)`: there is a row, and all have the same length. -/
def stack (rows : List Row) : Except Err (List Row) :=
  match rows with
  | [] => .error .valueError
  | r :: rs => if rs.all (fun s => s.length = r.length) then .ok rows else .error .valueError

/-- `rows[:, i]`. -/
def column (rows : List Row) (i : Nat) : List ℝ := rows.map fun r => r.getD i 0

/-- The columns of a table: name and values. -/
abbrev Table := Dict String (List ℝ)

/-- `df[name] = values`: the values must be as many as there are rows, unless the table is
empty. -/
def assign (df : Table) (name : String) (values : List ℝ) : Except Err Table :=
  match df with
  | [] => .ok [(name, values)]
  | (_, first) :: _ =>
    if values.length ≠ first.length then .error .valueError else .ok (Dict.set df name values)

/-- Assignments in their order. -/
def assignAll : Table → List (String × List ℝ) → Except Err Table
  | df, [] => .ok df
  | df, (name, values) :: rest =>
    match assign df name values with
    | .error e => .error e
    | .ok df => assignAll df rest

/-- The columns of parameters with a suffix. -/
def columnsOf (names : List String) (kinds : List (String × List Row)) :
    List (String × List ℝ) :=
  names.zipIdx.flatMap fun p => kinds.map fun k => (p.1 ++ k.1, column k.2 p.2)

/-- The assignments (manager/source.py:1780-1818). `samples`: the last result of the goodness of
fit has `sample_reco_cov`. -/
def assignments (c : Config) (names : List String) (samples : Bool) (l : Lists) :
    List (String × List ℝ) :=
  columnsOf names [("", l.truth), ("_reco", l.reco), ("_seed", l.seed)] ++
  (if c.covariance then
    columnsOf names [("_unc", l.std), ("_unc_fit", l.stdFit), ("_unc_sandwhich", l.stdSand),
      ("_unc_sandwhich_fit", l.stdSandFit)] ++
    [("cov_zenith_azimuth", l.zenAzi), ("cov_fit_zenith_azimuth", l.zenAziFit)] else []) ++
  (if c.circular then [("circular_unc", l.circular)] else []) ++
  (if c.gof then
    [("event_p_value_1sided", l.p1), ("event_p_value_2sided", l.p2)] ++
    (if samples then
      columnsOf names [("_unc_samples", l.stdSamples), ("_sample_reco_bias", l.bias)] else [])
    else []) ++
  [("loss_true", l.lossTrue), ("loss_reco", l.lossReco), ("loss_seed", l.lossSeed)]

/-- `np.stack` of several lists, for its errors. -/
def stackAll : List (List Row) → Except Err Unit
  | [] => .ok ()
  | rows :: rest =>
    match stack rows with
    | .error e => .error e
    | .ok _ => stackAll rest

/-- The table that is written (manager/source.py:1763-1822). Simplification: all `np.stack` come
before the first assignment. -/
def table (c : Config) (names : List String) (samples : Bool) (l : Lists) : Except Err Table :=
  match stackAll ([l.truth, l.seed, l.reco] ++
      (if c.covariance then [l.stdFit, l.std, l.stdSand, l.stdSandFit] else []) ++
      (if c.gof && samples then [l.stdSamples, l.bias] else [])) with
  | .error e => .error e
  | .ok _ => assignAll [] (assignments c names samples l)

/-- The last result of the goodness of fit has `sample_reco_cov`. -/
def lastSamples (bs : List Batch) : Bool :=
  match bs.getLast? with
  | none => false
  | some b => b.gof.samples.isSome

/-- The loop and the table (manager/source.py:1542-1822). -/
def run (c : Config) (param : String) (names : List String)
    (loss : Batch → List Row → Except Err ℝ) (bs : List Batch) : Except Err Table :=
  match loop c param loss bs false {} with
  | .error e => .error e
  | .ok l => table c names (lastSamples bs) l

end Verif.TestData
