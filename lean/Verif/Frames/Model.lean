/-
Model of loading labels from frames (`get_data_from_frame` of the modules in `egenerator/data/modules/labels`)
and of the last steps of loading labels from files, next to `Verif.Labels`.
-/
import Verif.Labels.Model

namespace Verif.Frames
open Verif.Py Verif.Labels

section
variable {ν R : Type} [DecidableEq ν]

/-- The loop over the names of the labels in a frame, snowstorm_tracks.py:293-294, snowstorm_cascades.py:266-267
(and the same in the other modules): every value becomes a column with one entry. -/
def frameLabels (labels : Dict ν R) : List ν → Except Err (List (List R))
  | [] => .ok []
  | l :: ls =>
    match Dict.get? labels l with
    | none => .error .keyError
    | some v =>
      match frameLabels labels ls with
      | .error e => .error e
      | .ok rest => .ok ([v] :: rest)

/-- The loop over the snowstorm parameters of a frame, snowstorm_tracks.py:305-309: `_snowstorm_params[i]` is the
entry `i` of the vector, as a column with one entry. -/
def frameSnow (vec : List R) (numEvents : Nat) : List Nat → Except Err (List (List R))
  | [] => .ok []
  | i :: is =>
    match vec[i]? with
    | none => .error .indexError
    | some v =>
      if [v].length ≠ numEvents then .error .assertionError
      else
        match frameSnow vec numEvents is with
        | .error e => .error e
        | .ok rest => .ok ([v] :: rest)

/-- The body of the `try`, snowstorm_tracks.py:290-314, snowstorm_cascades.py:263-287 and
snowstorm_track_segment.py:246-276: `labels` is the object of the label key (`none`: it is missing), `vec` that of
the snowstorm key (`none`: no key is configured; `some none`: it is missing). `extra` is the additional assertion of
the module about the labels, which comes after the loop over the names (snowstorm_track_segment.py:255-256). -/
def frameColumns (labels : Option (Dict ν R)) (names : List ν) (extra : Dict ν R → Except Err Unit) (snow : Nat)
    (vec : Option (Option (List R))) (one : R) : Except Err (List (List R)) :=
  match labels with
  | none => .error .keyError
  | some labels =>
    match frameLabels labels names with
    | .error e => .error e
    | .ok cols =>
      match extra labels with
      | .error e => .error e
      | .ok _ =>
        match cols with
        | [] => .error .indexError
        | first :: _ =>
          if snow > 0 then
            match vec with
            | some none => .error .keyError
            | some (some vec) =>
              if vec.length ≠ snow then .error .assertionError
              else
                match frameSnow vec first.length (List.range snow) with
                | .error e => .error e
                | .ok snowCols => .ok (cols ++ snowCols)
            | none => .ok (cols ++ List.replicate snow (List.replicate first.length one))
          else .ok cols

/-- `np.array(columns).T` for columns of the length `n`: the entry `e` of every column. Simplification: numpy
raises (outside of the `try`) if a column has another length, here the row is then shorter. -/
def transpose (n : Nat) (cols : List (List R)) : List (List R) :=
  (List.range n).map fun e => cols.filterMap fun c => c[e]?

/-- The number of rows: the length of the columns. -/
def numRows (cols : List (List R)) : Nat := (cols.head?.map List.length).getD 0

/-- `get_data_from_frame`, snowstorm_tracks.py:290-330, snowstorm_cascades.py:263-308,
snowstorm_track_segment.py:246-288, cascades.py:201-227 (with no snowstorm parameters): any exception in the `try`
skips the frame; the shift treats all events alike, element by element (snowstorm_tracks.py:321-323). The result
is one row for each event, whose number is the length. -/
def fromFrame (shift : List R → List R) (labels : Option (Dict ν R)) (names : List ν)
    (extra : Dict ν R → Except Err Unit) (snow : Nat) (vec : Option (Option (List R))) (one : R) :
    Option (List (List R)) :=
  match frameColumns labels names extra snow vec one with
  | .error _ => none
  | .ok cols => some ((transpose (numRows cols) cols).map shift)

/-- `get_data_from_hdf`, snowstorm_tracks.py:216-264, snowstorm_cascades.py:184-237,
snowstorm_track_segment.py:170-220, cascades.py:144-175: the columns of `Verif.Labels.loadColumns`, with the
additional assertion about the table of labels, and the same last steps. -/
def fromFile (shift : List R → List R) (table : Option (Dict ν (List R))) (names : List ν)
    (extra : Dict ν (List R) → Except Err Unit) (snow : Nat) (rows : Option (Option (List (Nat × R)))) (one : R) :
    Option (List (List R)) :=
  match table with
  | none => none
  | some table =>
    match loadLabels table names with
    | .error _ => none
    | .ok _ =>
      match extra table with
      | .error _ => none
      | .ok _ =>
        match loadColumns table names snow rows one with
        | .error _ => none
        | .ok cols => some ((transpose (numRows cols) cols).map shift)

/-- `assert (np.atleast_1d(_labels['track_distance_start']) == 0).all()`, snowstorm_track_segment.py:255-256. -/
def startZero [DecidableEq R] (zero : R) (name : ν) (labels : Dict ν R) : Except Err Unit :=
  match Dict.get? labels name with
  | none => .error .keyError
  | some v => if v = zero then .ok () else .error .assertionError

/-- `assert (_labels['track_distance_start'] == 0).all()`, snowstorm_track_segment.py:182-183. -/
def startZeroAll [DecidableEq R] (zero : R) (name : ν) (table : Dict ν (List R)) : Except Err Unit :=
  match Dict.get? table name with
  | none => .error .keyError
  | some col => if col.all (· = zero) then .ok () else .error .assertionError

end

/-- `get_data_from_frame` of the muons, muons.py:208-235: six labels and the same energy for each cascade, at
least 100. A division by zero cascades gives no exception, and there is no column for it. -/
def muonsFromFrame {R : Type} [Div R] [Max R] (ofNat : Nat → R) (labels : Option (Dict String R))
    (numCascades : Nat) : Option (List (List R)) :=
  match labels with
  | none => none
  | some labels =>
    match frameLabels labels ["cascade_x", "cascade_y", "cascade_z", "cascade_zenith", "cascade_azimuth",
        "cascade_t"], Dict.get? labels "cascade_energy" with
    | .ok cols, some e =>
      let all := cols ++ List.replicate numCascades [max (e / ofNat numCascades) (ofNat 100)]
      some (transpose (numRows all) all)
    | _, _ => none

/-- `get_data_from_hdf` of the muons, muons.py:150-182: the columns of `Verif.Labels.loadMuons`. -/
def muonsFromFile {R : Type} [Div R] [Max R] (ofNat : Nat → R) (table : Option (Dict String (List R)))
    (numCascades : Nat) : Option (List (List R)) :=
  match table with
  | none => none
  | some table =>
    match loadMuons ofNat table numCascades with
    | none => none
    | some all => some (transpose (numRows all) all)

end Verif.Frames
