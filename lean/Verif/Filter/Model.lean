/-
Model of the general event filter:
`egenerator/data/modules/filters/general_filter.py`.
-/
import Verif.Py.Dict
import Mathlib.Order.Defs.LinearOrder

namespace Verif.Filter
open Verif.Py

/-! Values are elements of a linear order; NaN is not modelled. -/

variable {R : Type} [LinearOrder R]

/-- The `column` of a constraint: an `int` or a name. -/
inductive Column where
  | idx (i : Nat)
  | name (s : String)
  deriving DecidableEq

/-- A constraint `(key, column, op, threshold)`. -/
structure Constraint (R : Type) where
  key : String
  column : Column
  op : String
  threshold : R

/-- A table of an hdf file: that of a vector of doubles has the columns `item` and
`vector_index`, that of a map of doubles has a column per entry. -/
inductive Table (R : Type) where
  | vector (rows : List (Nat × R))
  | map (columns : Dict String (List R))

/-- An object of a frame: a vector, or an object with entries and attributes. -/
inductive FrameObj (R : Type) where
  | vector (items : List R)
  | obj (entries attrs : Dict String R)

/-- The comparison, general_filter.py:135-146 and 192-203. -/
def compare (op : String) (values : List R) (threshold : R) : Except Err (List Bool) :=
  if op = ">" then .ok (values.map (fun v => decide (v > threshold)))
  else if op = ">=" then .ok (values.map (fun v => decide (v ≥ threshold)))
  else if op = "<=" then .ok (values.map (fun v => decide (v ≤ threshold)))
  else if op = "<" then .ok (values.map (fun v => decide (v < threshold)))
  else if op = "==" then .ok (values.map (fun v => decide (v = threshold)))
  else .error .valueError

/-- `np.logical_and` of two one-dimensional arrays, with broadcasting; general_filter.py:148, 205.
The values of a named column are a pandas series: for these the lengths must be equal, the behaviour
of pandas otherwise is not modelled. -/
def logicalAnd (a b : List Bool) : Except Err (List Bool) :=
  if a.length = b.length then .ok (List.zipWith (· && ·) a b)
  else
    match a, b with
    | [x], _ => .ok (b.map (x && ·))
    | _, [y] => .ok (a.map (· && y))
    | _, _ => .error .valueError

/-- The values of a constraint, general_filter.py:124-133. -/
def hdfValues (file : Dict String (Table R)) (key : String) (column : Column) :
    Except Err (List R) :=
  match Dict.get? file key, column with
  | none, _ => .error .keyError
  | some (.vector rows), .idx i =>
    .ok ((rows.filter (fun r => r.1 = i)).map Prod.snd)
  | some (.map _), .idx _ => .error .keyError
  | some (.vector _), .name _ => .error .keyError
  | some (.map cols), .name s =>
    match Dict.get? cols s with
    | none => .error .keyError
    | some v => .ok v

/-- The loop of `get_event_filter_mask_from_hdf`, general_filter.py:122-148. -/
def hdfLoop (file : Dict String (Table R)) : List (Constraint R) → List Bool → Except Err (List Bool)
  | [], mask => .ok mask
  | c :: cs, mask =>
    match hdfValues file c.key c.column with
    | .error e => .error e
    | .ok values =>
      match compare c.op values c.threshold with
      | .error e => .error e
      | .ok cm =>
        match logicalAnd mask cm with
        | .error e => .error e
        | .ok mask' => hdfLoop file cs mask'

/-- `get_event_filter_mask_from_hdf`, general_filter.py:93-150. -/
def hdfMask (file : Dict String (Table R)) (cs : List (Constraint R)) (n : Nat) :
    Except Err (List Bool) :=
  hdfLoop file cs (List.replicate n true)

/-- The values of a constraint, general_filter.py:182-190. For a named column the code looks up
the `key`, not the `column`. -/
def frameValues (frame : Dict String (FrameObj R)) (key : String) (column : Column) :
    Except Err (List R) :=
  match Dict.get? frame key, column with
  | none, _ => .error .keyError
  | some (.vector items), .idx i =>
    match items[i]? with
    | none => .error .indexError
    | some v => .ok [v]
  | some (.obj _ _), .idx _ => .error .typeError
  | some (.vector _), .name _ => .error .attributeError
  | some (.obj entries attrs), .name _ =>
    match Dict.get? entries key with
    | some v => .ok [v]
    | none =>
      match Dict.get? attrs key with
      | some v => .ok [v]
      | none => .error .attributeError

/-- The loop of `get_event_filter_mask_from_frame`, general_filter.py:181-205. -/
def frameLoop (frame : Dict String (FrameObj R)) :
    List (Constraint R) → List Bool → Except Err (List Bool)
  | [], mask => .ok mask
  | c :: cs, mask =>
    match frameValues frame c.key c.column with
    | .error e => .error e
    | .ok values =>
      match compare c.op values c.threshold with
      | .error e => .error e
      | .ok cm =>
        match logicalAnd mask cm with
        | .error e => .error e
        | .ok mask' => frameLoop frame cs mask'

/-- `get_event_filter_mask_from_frame`, general_filter.py:152-207. -/
def frameMask (frame : Dict String (FrameObj R)) (cs : List (Constraint R)) (n : Nat) :
    Except Err (List Bool) :=
  frameLoop frame cs (List.replicate n true)

end Verif.Filter
