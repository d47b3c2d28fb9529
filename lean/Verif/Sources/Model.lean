import Verif.Py.Dict
import Verif.Py.Sort
import Mathlib.Algebra.Field.Defs

/-!
# Model of `egenerator/model/source/base.py` and `egenerator/model/multi_source`

Tensors of shape `[-1, n_params]` are modelled by the list of their columns, with values in an
arbitrary type `V`.  For a single event `V` is the type of numbers `K`; for a batch it is
`Fin B → K` (see `Verif.Batch.MultiProps`).  Predictions are functions of the DOM (an index type
`D`, for a batch the pairs of event and DOM) and of the pulse (an index type `P`).
-/

namespace Verif.Sources
open Verif.Py

/-- `InputTensorIndexer.__init__` (model/source/base.py:13-25), on one row of the tensor:
the dictionary from names to entries. -/
def indexer {κ K : Type} [DecidableEq κ] (row : List K) (names : List κ) :
    Except Err (Dict κ K) :=
  if row.length ≠ names.length then .error .valueError
  else .ok ((names.zip row).foldl (fun d nv => Dict.set d nv.1 nv.2) [])

/-- `parameter_name_dict` (model/source/base.py:209-210, model/multi_source/base.py:234-235):
`{name: index for index, name in enumerate(parameter_names)}`, starting to count at `i`. -/
def nameDictFrom (i : Int) (d : Dict String Int) : List String → Dict String Int
  | [] => d
  | n :: ns => nameDictFrom (i + 1) (Dict.set d n i) ns

/-- `parameter_index_dict` (model/source/base.py:211-212, model/multi_source/base.py:236-237):
`{index: name for index, name in enumerate(parameter_names)}`, starting to count at `i`. -/
def indexDictFrom (i : Int) (d : Dict Int String) : List String → Dict Int String
  | [] => d
  | n :: ns => indexDictFrom (i + 1) (Dict.set d i n) ns

/-- `Source.get_index` (model/source/base.py:224-233) of a configured source. -/
def getIndex (names : List String) (name : String) : Except Err Int :=
  match Dict.get? (nameDictFrom 0 [] names) name with
  | some i => .ok i
  | none => .error .keyError

/-- `Source.get_name` (model/source/base.py:235-249) of a configured source. -/
def getName (names : List String) (i : Int) : Except Err String :=
  match Dict.get? (indexDictFrom 0 [] names) i with
  | some n => .ok n
  | none => .error .keyError

/-- `sorted(sources.keys())`. -/
def sortedKeys {α : Type} (sources : Dict String α) : List String :=
  sortBy (fun a b => decide (a ≤ b)) (Dict.keys sources)

/-- `d[k]`. -/
def item {κ α : Type} [DecidableEq κ] (d : Dict κ α) (k : κ) : Except Err α :=
  match Dict.get? d k with
  | some v => .ok v
  | none => .error .keyError

/-- The loop of `IndependentMultiSource.get_parameters_and_mapping`
(model/multi_source/independent.py:62-66) over the remaining source names.  Of the base
sources only their parameter names matter. -/
def independentLoop (sources : Dict String String) (baseNames : Dict String (List String)) :
    List String → Except Err (List String)
  | [] => .ok []
  | cascade :: rest =>
    match item sources cascade with
    | .error e => .error e
    | .ok base =>
      match item baseNames base with
      | .error e => .error e
      | .ok vs =>
        match independentLoop sources baseNames rest with
        | .error e => .error e
        | .ok ps => .ok (vs.map (fun v => cascade ++ "_" ++ v) ++ ps)

/-- `IndependentMultiSource.get_parameters_and_mapping`
(model/multi_source/independent.py:25-67): the parameter names. -/
def independentParameters (sources : Dict String String)
    (baseNames : Dict String (List String)) : Except Err (List String) :=
  independentLoop sources baseNames (sortedKeys sources)

/-- The loop of `IndependentMultiSource.get_source_parameters`
(model/multi_source/independent.py:88-94) over the remaining source names, with the running
`counter` and the dictionary built so far. `parameters[:, a:b]` on one row. -/
def sliceLoop {K : Type} (sources : Dict String String) (baseNames : Dict String (List String))
    (row : List K) : Nat → Dict String (List K) → List String → Except Err (Dict String (List K))
  | _, d, [] => .ok d
  | counter, d, cascade :: rest =>
    match item sources cascade with
    | .error e => .error e
    | .ok base =>
      match item baseNames base with
      | .error e => .error e
      | .ok vs =>
        let num := vs.length
        sliceLoop sources baseNames row (counter + num)
          (Dict.set d cascade ((row.drop counter).take ((counter + num) - counter))) rest

/-- `IndependentMultiSource.get_source_parameters` (model/multi_source/independent.py:69-96). -/
def independentSlices {K : Type} (sources : Dict String String)
    (baseNames : Dict String (List String)) (row : List K) : Except Err (Dict String (List K)) :=
  sliceLoop sources baseNames row 0 [] (sortedKeys sources)

section Superposition
variable {V K D P : Type} [Field K]

/-- What `get_tensors` of a source returns for one event (model/multi_source/base.py:355-357,
371-373): the charge, its variance and the excluded fraction at each DOM, with the shapes
`shape[1:]` of these tensors, and the density of each pulse. -/
structure Out (K D P : Type) where
  charge : D → K
  variance : D → K
  exclusion : D → K
  pdf : P → K
  chargeShape : List Nat := [86, 60, 1]
  varianceShape : List Nat := [86, 60, 1]
  exclusionShape : List Nat := [86, 60, 1]

/-- A base source: its parameter names and its `get_tensors` for a row of parameters. -/
structure Base (V K D P : Type) where
  names : List String
  eval : List V → Except Err (Out K D P)

/-- The result of `MultiSource.get_tensors` for one event. The excluded fractions are only
meaningful if time exclusions exist. -/
structure Result (K D P : Type) where
  charge : D → K
  variance : D → K
  exclusion : D → K
  pdf : P → K

/-- One round of the accumulation (model/multi_source/base.py:379-403): `none` is the state
before the first source. -/
def accumulate (pulseDom : P → D) (acc : Option (Result K D P)) (o : Out K D P) :
    Option (Result K D P) :=
  match acc with
  | none => some
    { charge := o.charge
      variance := o.variance
      exclusion := fun d => o.exclusion d * o.charge d
      pdf := fun p => o.pdf p * o.charge (pulseDom p) }
  | some a => some
    { charge := fun d => a.charge d + o.charge d
      variance := fun d => a.variance d + o.variance d
      exclusion := fun d => a.exclusion d + o.exclusion d * o.charge d
      pdf := fun p => a.pdf p + o.pdf p * o.charge (pulseDom p) }

/-- The shape checks (model/multi_source/base.py:359-377). -/
def shapesOk (exclusionsExist : Bool) (o : Out K D P) : Bool :=
  o.chargeShape = [86, 60, 1] && o.varianceShape = [86, 60, 1] &&
    (!exclusionsExist || o.exclusionShape = [86, 60, 1])

/-- The loop over the sources (model/multi_source/base.py:337-403). `func` is the function
which the call of `concrete_get_tensors_funcs[base]` runs: a closure over the variable
`base_source` of the loop before, which has its last value by now. -/
def sourceLoop (bases : Dict String (Base V K D P)) (split : Dict String (List V))
    (func : List V → Except Err (Out K D P)) (exclusionsExist : Bool) (pulseDom : P → D) :
    Option (Result K D P) → Dict String String → Except Err (Option (Result K D P))
  | acc, [] => .ok acc
  | acc, (name, base) :: rest =>
    match item bases base with
    | .error e => .error e
    | .ok sub =>
      match item split name with
      | .error e => .error e
      | .ok params =>
        match indexer params sub.names with
        | .error e => .error e
        | .ok _ =>
          match func params with
          | .error e => .error e
          | .ok o =>
            if shapesOk exclusionsExist o then
              sourceLoop bases split func exclusionsExist pulseDom
                (accumulate pulseDom acc o) rest
            else .error .valueError

/-- The value of the loop variable `base_source` after the loop of
model/multi_source/base.py:320-321 over the set of bases, which runs through them in the order
`order`. -/
def lastBase (bases : Dict String (Base V K D P)) :
    Option (Base V K D P) → List String → Except Err (Option (Base V K D P))
  | cur, [] => .ok cur
  | _, base :: rest =>
    match item bases base with
    | .error e => .error e
    | .ok b => lastBase bases (some b) rest

/-- What a call of one of the functions `concrete_function` runs
(model/multi_source/base.py:323-329): the closure over the variable `base_source`, whose value
is now `last`. -/
def closure (last : Option (Base V K D P)) (params : List V) : Except Err (Out K D P) :=
  match last with
  | some b => b.eval params
  | none => .error .nameError

/-- The normalisation at the end (model/multi_source/base.py:405-421). -/
def normalise (pulseDom : P → D) (a : Result K D P) : Result K D P :=
  { a with
    pdf := fun p => a.pdf p / (a.charge (pulseDom p) + 1 / 10 ^ 6)
    exclusion := fun d => a.exclusion d / a.charge d }

/-- `MultiSource.get_tensors` (model/multi_source/base.py:247-423) for one event.

* `names` are the parameter names of the multi source, `split` its `get_source_parameters`;
* `order` is the order in which Python runs through `set(sources.values())`;
* without a source `tf.squeeze(None)` raises a ValueError (line 406).

Simplified: tracing is one call of the function; whether time exclusions exist is an argument. -/
def getTensors (bases : Dict String (Base V K D P)) (sources : Dict String String)
    (names : List String) (split : List V → Except Err (Dict String (List V)))
    (order : List String) (exclusionsExist : Bool) (pulseDom : P → D) (row : List V) :
    Except Err (Result K D P) :=
  match indexer row names with
  | .error e => .error e
  | .ok _ =>
    match split row with
    | .error e => .error e
    | .ok s =>
      match lastBase bases none order with
      | .error e => .error e
      | .ok last =>
        match sourceLoop bases s (closure last) exclusionsExist pulseDom none sources with
        | .error e => .error e
        | .ok none => .error .valueError
        | .ok (some a) => .ok (normalise pulseDom a)

end Superposition

/-- The base sources of a multi source, reduced to their parameter names. -/
def baseNames {V K D P : Type} (bases : Dict String (Base V K D P)) : Dict String (List String) :=
  bases.map fun kb => (kb.1, kb.2.names)

/-- An `IndependentMultiSource` configured with `bases` and `sources`, evaluated on one event
(model/multi_source/base.py:141-245, 247-423 and model/multi_source/independent.py). -/
def independentGetTensors {V K D P : Type} [Field K] (bases : Dict String (Base V K D P))
    (sources : Dict String String) (order : List String) (exclusionsExist : Bool)
    (pulseDom : P → D) (row : List V) : Except Err (Result K D P) :=
  match independentParameters sources (baseNames bases) with
  | .error e => .error e
  | .ok names =>
    getTensors bases sources names (independentSlices sources (baseNames bases)) order
      exclusionsExist pulseDom row

end Verif.Sources
