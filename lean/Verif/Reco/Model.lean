import Verif.Trafo.Model
import Verif.Component.Object

/-!
# Reconstruction

Models the merging of fitted and fixed parameters (`egenerator/manager/source.py`,
`manager/reconstruction/modules/utils/trafo.py`), the loss of an ensemble, the reconstruction tray
and its function cache (`manager/reconstruction/tray.py`), the selection of the best
reconstruction (`modules/reconstruction.py`) and the bisection of `modules/opening_angle.py`.
-/

namespace Verif.Reco
open Verif.Py Verif.Trafo

/-! ## Fitted and fixed parameters -/

/-- A column of a parameter tensor: its length and its entries. -/
abbrev Col := Nat × (Nat → ℝ)

/-- `tf.unstack(x, axis=1)`, or the columns `x[:, i]`. -/
def unstack (a : Arr) : Except Err (List Col) :=
  match a.shape with
  | [B, n] => .ok ((List.range n).map fun j => (B, fun b => a.val [b, j]))
  | _ => .error .valueError

/-- An entry of stacked columns. -/
def entry (cols : List Col) : List Nat → ℝ
  | [b, j] =>
    match cols[j]? with
    | some c => c.2 b
    | none => 0
  | _ => 0

/-- `tf.stack(cols, axis=1)` and `np.array(cols).T`: the columns must have the same length. For
no columns the first raises; the second does not happen, because an empty list of flags counts as
all fitted. -/
def stack : List Col → Except Err Arr
  | [] => .error .valueError
  | c :: cs =>
    if cs.all (fun d => d.1 == c.1) then .ok ⟨[c.1, cs.length + 1], entry (c :: cs)⟩
    else .error .valueError

/-- The loop over the flags, with `i` and `counter` (manager/source.py:112-119,
modules/utils/trafo.py:57-64). -/
def merge (params seed : List Col) : List Bool → Nat → Nat → Except Err (List Col)
  | [], _, _ => .ok []
  | fit :: fits, i, counter =>
    if fit then
      match params[counter]? with
      | none => .error .indexError
      | some c =>
        match merge params seed fits (i + 1) (counter + 1) with
        | .error e => .error e
        | .ok cs => .ok (c :: cs)
    else
      match seed[i]? with
      | none => .error .indexError
      | some c =>
        match merge params seed fits (i + 1) counter with
        | .error e => .error e
        | .ok cs => .ok (c :: cs)

/-- `all_params` of a tensor of fitted values and a seed. -/
def mergeArr (fit : List Bool) (params seed : Arr) : Except Err Arr := do
  let params ← unstack params
  let seed ← unstack seed
  stack (← merge params seed fit 0 0)

/-- The seed in the space in which the minimisation is done (manager/source.py:103-108, 681-684,
modules/utils/trafo.py:42-51). -/
noncomputable def toSpace (T : Transformer) (name : String) (inTrafo : Bool) (a : Arr) :
    Except Err Arr :=
  if inTrafo then T.transform a name else .ok a

/-- Back to parameters (manager/source.py:123-128, modules/utils/trafo.py:67-71). -/
noncomputable def fromSpace (T : Transformer) (name : String) (inTrafo isTf : Bool) (a : Arr) :
    Except Err Arr :=
  if inTrafo then T.inverse a name isTf else .ok a

/-- `parameters_trafo` after the parameters were gathered (manager/source.py:94-121). -/
noncomputable def allParams (T : Transformer) (name : String) (fit : List Bool) (inTrafo : Bool)
    (params seed : Arr) : Except Err Arr :=
  if fit.all id then .ok params
  else
    match toSpace T name inTrafo seed with
    | .error e => .error e
    | .ok seed => mergeArr fit params seed

/-- The parameters at which `parameter_loss_function` evaluates the loss
(manager/source.py:94-130). Simplification: the seed is given as a tensor, not by name. -/
noncomputable def hypothesis (T : Transformer) (name : String) (fit : List Bool) (inTrafo : Bool)
    (params seed : Arr) : Except Err Arr :=
  match allParams T name fit inTrafo params seed with
  | .error e => .error e
  | .ok all => fromSpace T name inTrafo true all

/-- `x[:, fit]` for a numpy array `x` and a list of booleans. -/
def choose (fit : List Bool) (a : Arr) : Except Err Arr :=
  match a.shape with
  | [B, n] =>
    if n ≠ fit.length then .error .indexError
    else
      let chosen := (((List.range n).zip fit).filter Prod.snd).map Prod.fst
      .ok ⟨[B, chosen.length], entry (chosen.map fun j => (B, fun b => a.val [b, j]))⟩
  | _ => .error .indexError

/-- The starting values of `reconstruct_events` and `tf_reconstruct_events`
(manager/source.py:610-613, 662-693). `isTf`: the seed is a tensorflow tensor; those do not allow a
list of flags as index. -/
noncomputable def start (T : Transformer) (name : String) (fit : List Bool) (inTrafo isTf : Bool)
    (seed : Arr) : Except Err Arr :=
  match T.find name with
  | none => .error .keyError
  | some t =>
    match t.shape with
    | [] => .error .indexError
    | n :: _ =>
      if fit.length ≠ n then .error .valueError
      else
        match toSpace T name inTrafo seed with
        | .error e => .error e
        | .ok seed =>
          if fit.all id then .ok seed
          else if isTf then .error .typeError
          else choose fit seed

/-- `get_reco_result_batch` (modules/utils/trafo.py:4-72). `isTf`: the fitted values are a
tensorflow tensor and are used as they are. -/
noncomputable def recoResult (T : Transformer) (name : String) (fit : List Bool)
    (inTrafo isTf : Bool) (result seed : Arr) : Except Err Arr :=
  match toSpace T name inTrafo seed with
  | .error e => .error e
  | .ok seed =>
    if fit.all id then fromSpace T name inTrafo isTf result
    else
      match mergeArr fit result seed with
      | .error e => .error e
      | .ok all => fromSpace T name inTrafo false all

/-! ## Ensembles -/

/-- `for index in range(len(loss_i)): loss[index] += loss_i[index]`
(manager/source.py:154-155). -/
def addTerms {α : Type} [Add α] : List α → List α → Except Err (List α)
  | loss, [] => .ok loss
  | [], _ :: _ => .error .indexError
  | x :: loss, y :: new =>
    match addTerms loss new with
    | .error e => .error e
    | .ok rest => .ok ((x + y) :: rest)

/-- The loop over the models with `reduce_to_scalar` (manager/source.py:133-156). -/
def ensembleScalar {α : Type} [Add α] : Option α → List (Except Err α) → Except Err (Option α)
  | loss, [] => .ok loss
  | loss, m :: ms =>
    match m with
    | .error e => .error e
    | .ok x =>
      match loss with
      | none => ensembleScalar (some x) ms
      | some loss => ensembleScalar (some (loss + x)) ms

/-- The same loop without `reduce_to_scalar`. -/
def ensembleTerms {α : Type} [Add α] :
    Option (List α) → List (Except Err (List α)) → Except Err (Option (List α))
  | loss, [] => .ok loss
  | loss, m :: ms =>
    match m with
    | .error e => .error e
    | .ok x =>
      match loss with
      | none => ensembleTerms (some x) ms
      | some loss =>
        match addTerms loss x with
        | .error e => .error e
        | .ok loss => ensembleTerms (some loss) ms

/-! ## The tray -/

/-- The results of modules by name; the result of a module is a dictionary of values. -/
abbrev Results (V : Type) := Dict String (Dict String V)

/-- What `execute` of a module does for a fixed data batch. Simplification: modules do not modify
the dictionary of results they are given, and return a dictionary of their own. -/
abbrev Module (V : Type) := Results V → Except Err (Dict String V)

/-- `ReconstructionTray`. -/
structure Tray (V : Type) where
  names : List String
  modules : List (Module V)

/-- The name of a module (manager/reconstruction/tray.py:82-83). -/
def moduleName (n : Nat) (name : Option String) : String :=
  match name with
  | some name => name
  | none => "module_" ++ Component.pad4 n

/-- `add_module` (manager/reconstruction/tray.py:60-98). `load` is the outcome of the import of the
class, `build` that of the initializer. -/
def Tray.add {V : Type} (t : Tray V) (load : Except Err Unit) (name : Option String)
    (build : Except Err (Module V)) : Except Err (Tray V) := do
  load
  let name := moduleName t.names.length name
  if t.names.contains name then throw .valueError
  let m ← build
  return ⟨t.names ++ [name], t.modules ++ [m]⟩

/-- The loop of `execute` (manager/reconstruction/tray.py:112-125). `runtime i` is the measured
time of the module at position `i`. -/
def runModules {V : Type} (runtime : Nat → V) :
    Nat → List (String × Module V) → Results V → Except Err (Results V)
  | _, [], r => .ok r
  | i, (name, m) :: ms, r =>
    match m r with
    | .error e => .error e
    | .ok d =>
      if Dict.has d "runtime" then .error .valueError
      else runModules runtime (i + 1) ms (Dict.set r name (Dict.set d "runtime" (runtime i)))

/-- `execute` (manager/reconstruction/tray.py:100-127). -/
def Tray.execute {V : Type} (t : Tray V) (runtime : Nat → V) : Except Err (Results V) :=
  runModules runtime 0 (t.names.zip t.modules) []

/-! ## The function cache -/

/-- `FunctionCache`: functions with their settings, by name. -/
abbrev Cache (S F : Type) := Dict String (List (S × F))

/-- `add` (manager/reconstruction/tray.py:155-183). `eq` is `==` on settings. -/
def Cache.add {S F : Type} (eq : S → S → Bool) (c : Cache S F) (name : String) (settings : S)
    (f : F) : Except Err (Cache S F) :=
  match Dict.get? c name with
  | some entries =>
    if entries.any (fun e => eq settings e.1) then .error .keyError
    else .ok (Dict.set c name (entries ++ [(settings, f)]))
  | none => .ok (Dict.set c name [(settings, f)])

/-- `get` (manager/reconstruction/tray.py:185-209). -/
def Cache.get {S F : Type} (eq : S → S → Bool) (c : Cache S F) (name : String) (settings : S) :
    Option F :=
  match Dict.get? c name with
  | some entries => (entries.find? (fun e => eq settings e.1)).map Prod.snd
  | none => none

/-! ## Selection of the best reconstruction -/

/-- The loop of `SelectBestReconstruction.execute` (modules/reconstruction.py:331-343):
`min_loss` (`none` is infinity), `min_results` and the variable `reco_results` (`none` if never
assigned). `less` is the comparison of losses. -/
def selectLoop {V : Type} (less : V → Option V → Bool) (results : Results V) :
    List String → Option V × Option (Dict String V) × Option (Dict String V) →
    Except Err (Option V × Option (Dict String V) × Option (Dict String V))
  | [], s => .ok s
  | name :: names, (minLoss, minResults, _) =>
    match Dict.get? results name with
    | none => .error .keyError
    | some reco =>
      match Dict.get? reco "loss_reco" with
      | none => .error .keyError
      | some loss =>
        if less loss minLoss then selectLoop less results names (some loss, some reco, some reco)
        else selectLoop less results names (minLoss, minResults, some reco)

/-- `dict.pop(k)`. -/
def pop {V : Type} (d : Dict String V) (k : String) : Except Err (V × Dict String V) :=
  match Dict.get? d k with
  | none => .error .keyError
  | some v => .ok (v, d.filter fun e => e.1 ≠ k)

/-- `SelectBestReconstruction.execute` (modules/reconstruction.py:314-357). Line 344 assigns
`dict(reco_results)` to `min_results` after the loop, so that it is never `None`. -/
def selectBest {V : Type} (less : V → Option V → Bool) (names : List String) : Module V :=
  fun results =>
    match selectLoop less results names (none, none, none) with
    | .error e => .error e
    | .ok (_, _, none) => .error .nameError
    | .ok (_, _, some reco) =>
      match pop reco "runtime" with
      | .error e => .error e
      | .ok (v, d) => .ok (Dict.set d "reco_runtime" v)

/-! ## Bisection -/

/-- `bisection_step` (modules/opening_angle.py:248-267): the new bounds and the center. `cdf` is
the value of the chi-square distribution at a direction with the given opening angle. -/
noncomputable def bisectionStep (cdf : ℝ → ℝ) (target low high : ℝ) : ℝ × ℝ × ℝ :=
  let center := low + (high - low) / 2
  if cdf center > target then (low, center, center) else (center, high, center)

/-- The loop over the steps (modules/opening_angle.py:283-285): lower bound, upper bound and last
center; each step samples a direction anew. -/
noncomputable def bisect (cdf : Nat → ℝ → ℝ) (target : ℝ) : Nat → ℝ × ℝ × ℝ → ℝ × ℝ × ℝ
  | 0, s => s
  | n + 1, s =>
    let s := bisect cdf target n s
    bisectionStep (cdf n) target s.1 s.2.1

/-- `unc_upper_bound` without a covariance matrix (modules/opening_angle.py:280-286). -/
noncomputable def uncBound (cdf : Nat → ℝ → ℝ) (target : ℝ) : ℝ :=
  min 89.9 (bisect cdf target 4 (0, 90, 0)).2.2

end Verif.Reco
