/-
Model of the label modules: `egenerator/data/modules/labels/*.py`.
-/
import Verif.Py.Dict
import Mathlib.Analysis.SpecialFunctions.Log.Basic
import Mathlib.Analysis.SpecialFunctions.Trigonometric.Basic

namespace Verif.Labels
open Verif.Py

/-! ### names and configuration -/

/-- The names of the track labels, snowstorm_tracks.py:131-145. `energy i` is `cascade_{i:04d}_energy`,
`distance i` is `cascade_{i:04d}_distance`; different numbers give different strings. -/
inductive Name where
  | zenith | azimuth | anchorX | anchorY | anchorZ | anchorTime | trackEnergy
  | distanceStart | distanceEnd | stochasticity
  | energy (i : Nat)
  | distance (i : Nat)
  deriving DecidableEq

/-- `parameter_names`, snowstorm_tracks.py:131-145. -/
def parameterNames (n : Nat) : List Name :=
  [.zenith, .azimuth, .anchorX, .anchorY, .anchorZ, .anchorTime, .trackEnergy,
   .distanceStart, .distanceEnd, .stochasticity] ++
  (if n ≥ 1 then
    .energy 0 :: (if n > 1 then
      (List.range' 1 (n - 1)).flatMap (fun i => [.energy i, .distance i]) else [])
   else [])

/-- The `trafo_log` argument. -/
inductive LogArg where
  | none
  | bool (b : Bool)
  | list (l : List Bool)

/-- The declared label tensor: number of columns and log flags (`none` for no log transformation). -/
structure Declared where
  columns : Nat
  flags : Option (List Bool)
  deriving DecidableEq

/-- The extension of the log flags, snowstorm_tracks.py:152-156, snowstorm_cascades.py:115-119 and
snowstorm_track_segment.py:111-115. `list(None)` raises. -/
def extendLog (log : LogArg) (num snow : Nat) : Except Err (List Bool) :=
  match log with
  | .none => .error .typeError
  | .bool b => .ok (List.replicate num b ++ List.replicate snow false)
  | .list l => .ok (l ++ List.replicate snow false)

/-- `_configure` of the tracks, snowstorm_tracks.py:30-185. -/
def tracksConfigure (numCascades : Int) (log : LogArg) (snow : Nat) :
    Except Err (Declared × List Name) :=
  if numCascades < 0 then .error .valueError
  else
    let n := numCascades.toNat
    let numParams := if n = 0 then 10 else if n = 1 then 11 else 11 + (n - 1) * 2
    match extendLog log numParams snow with
    | .error e => .error e
    | .ok flags => .ok (⟨numParams + snow, some flags⟩, parameterNames n)

/-- The base labels of cascades, snowstorm_cascades.py:124-127. -/
def cascadeNames : List String :=
  ["cascade_x", "cascade_y", "cascade_z", "cascade_zenith", "cascade_azimuth", "cascade_energy",
   "cascade_t"]

/-- `_configure` of the snowstorm cascades, snowstorm_cascades.py:30-153. -/
def cascadesConfigure (additional : Option (List String)) (log : LogArg) (snow : Nat) :
    Except Err (Declared × List String) :=
  match extendLog log 7 snow with
  | .error e => .error e
  | .ok flags =>
    let names := cascadeNames ++ additional.getD []
    .ok (⟨names.length + snow, some flags⟩, names)

/-- `_configure` of the track segments, snowstorm_track_segment.py:30-139. -/
def segmentConfigure (log : LogArg) (snow : Nat) : Except Err (Declared × List String) :=
  match extendLog log 9 snow with
  | .error e => .error e
  | .ok flags => .ok (⟨9 + snow, some flags⟩,
      ["track_anchor_x", "track_anchor_y", "track_anchor_z", "zenith", "azimuth", "track_energy",
       "track_anchor_time", "track_distance_end", "track_stochasticity"])

/-- The log flags of a `DataTensor` with a known number of columns, tensor.py:107-113. -/
def tensorFlags (log : LogArg) (columns : Nat) : Option (List Bool) :=
  match log with
  | .none => none
  | .bool b => some (List.replicate columns b)
  | .list l => some l

/-- `_configure` of the plain cascades, cascades.py:30-118. -/
def plainConfigure (log : LogArg) : Declared × List String :=
  (⟨7, tensorFlags log 7⟩, cascadeNames)

/-- `_configure` of the muons, muons.py:32-124. -/
def muonsConfigure (numCascades : Nat) (log : LogArg) : Declared :=
  ⟨6 + numCascades, tensorFlags log (6 + numCascades)⟩

/-! ### loading -/

section loading
variable {ν R : Type} [DecidableEq ν]

/-- The loop over the label names, snowstorm_tracks.py:222-223 (and the same in the other modules). -/
def loadLabels (table : Dict ν (List R)) : List ν → Except Err (List (List R))
  | [] => .ok []
  | l :: ls =>
    match Dict.get? table l with
    | none => .error .keyError
    | some v =>
      match loadLabels table ls with
      | .error e => .error e
      | .ok rest => .ok (v :: rest)

/-- The snowstorm columns, snowstorm_tracks.py:230-241: rows are (vector_index, item). -/
def loadSnow (rows : List (Nat × R)) (numEvents : Nat) : List Nat → Except Err (List (List R))
  | [] => .ok []
  | i :: is =>
    let column := (rows.filter (fun r => r.1 = i)).map Prod.snd
    if column.length ≠ numEvents then .error .assertionError
    else
      match loadSnow rows numEvents is with
      | .error e => .error e
      | .ok rest => .ok (column :: rest)

/-- The body of the `try`, snowstorm_tracks.py:219-246, snowstorm_cascades.py:187-214 and
snowstorm_track_segment.py:173-206: `snow` is the number of snowstorm parameters, `rows` the table of
the snowstorm key (`none`: no key is configured; `some none`: the table is missing). The columns of
the result are the labels followed by the snowstorm parameters. -/
def loadColumns (table : Dict ν (List R)) (names : List ν) (snow : Nat)
    (rows : Option (Option (List (Nat × R)))) (one : R) : Except Err (List (List R)) :=
  match loadLabels table names with
  | .error e => .error e
  | .ok cols =>
    match cols with
    | [] => .error .indexError
    | first :: _ =>
      if snow > 0 then
        match rows with
        | some none => .error .keyError
        | some (some rows) =>
          match (rows.map Prod.fst).max?, (rows.map Prod.fst).min? with
          | some hi, some lo =>
            if hi ≠ snow - 1 then .error .assertionError
            else if lo ≠ 0 then .error .assertionError
            else
              match loadSnow rows first.length (List.range snow) with
              | .error e => .error e
              | .ok snowCols => .ok (cols ++ snowCols)
          | _, _ => .error .valueError
        | none => .ok (cols ++ List.replicate snow (List.replicate first.length one))
      else .ok cols

/-- `get_data_from_hdf` without the shift: any exception skips the file. -/
def load (table : Dict ν (List R)) (names : List ν) (snow : Nat)
    (rows : Option (Option (List (Nat × R)))) (one : R) : Option (List (List R)) :=
  match loadColumns table names snow rows one with
  | .error _ => none
  | .ok cols => some cols

/-- The columns loaded for muons, muons.py:153-167. -/
def loadMuons [Div R] [Max R] (ofNat : Nat → R) (table : Dict String (List R)) (numCascades : Nat) :
    Option (List (List R)) :=
  match loadLabels table ["cascade_x", "cascade_y", "cascade_z", "cascade_zenith", "cascade_azimuth",
      "cascade_t"], Dict.get? table "cascade_energy" with
  | .ok cols, some e =>
    some (cols ++ List.replicate numCascades
      (e.map (fun x => max (x / ofNat numCascades) (ofNat 100))))
  | _, _ => none

end loading

/-! ### shift to the shower maximum -/

/-- `_get_cascade_extension`, snowstorm_tracks.py:433-467; also cascades.py:323-327. For
`ref_energy + eps ≤ 0` numpy has NaN or -inf, while `Real.log` has an arbitrary value. -/
noncomputable def extension (refEnergy : ℝ) : ℝ :=
  let lRad : ℝ := 0.358 / 0.9216
  let a : ℝ := 2.01849 + 0.63176 * Real.log (refEnergy + 1e-6)
  let b : ℝ := lRad / 0.63207
  max ((a - 1) / b * lRad) 0

/-- The index of a parameter, `param_dict[name]`, snowstorm_tracks.py:147-149. -/
def paramIndex (n : Nat) (m : Name) : Option Nat :=
  Dict.get? ((parameterNames n).zipIdx : Dict Name Nat) m

/-- `parameters[param_dict[name]]`. -/
def getParam (n : Nat) (p : List ℝ) (m : Name) : Except Err ℝ :=
  match paramIndex n m with
  | none => .error .keyError
  | some i =>
    match p[i]? with
    | none => .error .indexError
    | some v => .ok v

/-- `parameters[param_dict[name]] += d`. -/
noncomputable def addParam (n : Nat) (p : List ℝ) (m : Name) (d : ℝ) : Except Err (List ℝ) :=
  match paramIndex n m with
  | none => .error .keyError
  | some i =>
    match p[i]? with
    | none => .error .indexError
    | some v => .ok (p.set i (v + d))

/-- A sequence of `+=`. -/
noncomputable def addParams (n : Nat) : List (Name × ℝ) → List ℝ → Except Err (List ℝ)
  | [], p => .ok p
  | (m, d) :: rest, p =>
    match addParam n p m d with
    | .error e => .error e
    | .ok p' => addParams n rest p'

/-- The loop over the remaining cascades, snowstorm_tracks.py:417-429. -/
noncomputable def shiftOthers (n : Nat) (shift : ℝ) : List Nat → List ℝ → Except Err (List ℝ)
  | [], p => .ok p
  | i :: is, p =>
    match getParam n p (.energy i) with
    | .error e => .error e
    | .ok energy =>
      match addParams n [(.distance i, -shift), (.distance i, extension energy)] p with
      | .error e => .error e
      | .ok p' => shiftOthers n shift is p'

/-- The speed of light in m/ns. -/
noncomputable def c : ℝ := 0.299792458

/-- `_shift_parameters`, snowstorm_tracks.py:378-431, for one event (the arrays of all events are
treated element by element). -/
noncomputable def shiftParameters (n : Nat) (p : List ℝ) : Except Err (List ℝ) :=
  match getParam n p .zenith, getParam n p .azimuth with
  | .ok zenith, .ok azimuth =>
    let dirX := -Real.sin zenith * Real.cos azimuth
    let dirY := -Real.sin zenith * Real.sin azimuth
    let dirZ := -Real.cos zenith
    if n > 0 then
      match getParam n p (.energy 0) with
      | .error e => .error e
      | .ok energy =>
        let shift := extension energy
        match addParams n [(.anchorX, dirX * shift), (.anchorY, dirY * shift),
            (.anchorZ, dirZ * shift), (.anchorTime, shift / c),
            (.distanceStart, -shift), (.distanceEnd, -shift)] p with
        | .error e => .error e
        | .ok p' => shiftOthers n shift (List.range' 1 (n - 1)) p'
    else .ok p
  | .error e, _ => .error e
  | _, .error e => .error e

/-- `_shift_to_maximum`, cascades.py:275-332. -/
noncomputable def shiftToMaximum (x y z zenith azimuth refEnergy t : ℝ) : ℝ × ℝ × ℝ × ℝ :=
  let dirX := -Real.sin zenith * Real.cos azimuth
  let dirY := -Real.sin zenith * Real.sin azimuth
  let dirZ := -Real.cos zenith
  let length := extension refEnergy
  (x + dirX * length, y + dirY * length, z + dirZ * length, t + length / c)

end Verif.Labels
