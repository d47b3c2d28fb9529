/-
Model of the seed loader: `egenerator/data/modules/misc/seed_loader.py`.
-/
import Verif.Py.Dict

namespace Verif.Seeds
open Verif.Py

/-! `R` is the type of values. A tensor of shape [num_events, num_params] is represented by its list of
columns. -/

variable {R : Type}

/-- The configuration, seed_loader.py:35-127. `names` are the names of the tensors in the order of the
data tensor list. -/
structure Config (R : Type) where
  names : List String
  params : List String
  missing : Option R
  missingDict : Dict String R

/-- The columns read so far and the exceptions inside the `try`, seed_loader.py:162-173. -/
def hdfColumns (cfg : Config R) (table : Dict String (List R)) :
    List String → List (List R) → Except Err (List (List R))
  | [], cols => .ok cols
  | l :: ls, cols =>
    match Dict.get? table l with
    | some v => hdfColumns cfg table ls (cols ++ [v])
    | none =>
      match Dict.get? cfg.missingDict l with
      | some d =>
        match cols.getLast? with
        | none => .error .indexError
        | some c => hdfColumns cfg table ls (cols ++ [List.replicate c.length d])
      | none =>
        match cfg.missing with
        | some d =>
          match cols.getLast? with
          | none => .error .indexError
          | some c => hdfColumns cfg table ls (cols ++ [List.replicate c.length d])
        | none => .error .keyError

/-- `np.array(seed_parameters).T` and its length, seed_loader.py:182-188: raises if the columns have
different lengths. -/
def transpose (cols : List (List R)) : Except Err (Nat × List (List R)) :=
  match cols with
  | [] => .ok (0, [])
  | c :: cs => if cs.all (fun x => x.length = c.length) then .ok (c.length, c :: cs) else .error .valueError

/-- The loop over the tensors, seed_loader.py:156-188. `isOpen` is whether the file is still open: the
`finally` closes it at the end of every pass. The inner `none` is `return None, None`. -/
def hdfLoop (cfg : Config R) (file : Dict String (Dict String (List R))) :
    List String → Bool → List (Nat × List (List R)) → Except Err (Option (List (Nat × List (List R))))
  | [], _, seeds => .ok (some seeds)
  | name :: names, isOpen, seeds =>
    if isOpen = false then .ok none
    else
      match Dict.get? file name with
      | none => .ok none
      | some table =>
        match hdfColumns cfg table cfg.params [] with
        | .error _ => .ok none
        | .ok cols =>
          match transpose cols with
          | .error e => .error e
          | .ok t => hdfLoop cfg file names false (seeds ++ [t])

/-- The check of the numbers of events, seed_loader.py:190-194 and 269-273. Without any seed `num_events`
is unbound. -/
def finish (seeds : List (Nat × List (List R))) : Except Err (Nat × List (List (List R))) :=
  match seeds.getLast? with
  | none => .error .nameError
  | some l =>
    if seeds.all (fun s => s.1 = l.1) then .ok (l.1, seeds.map Prod.snd) else .error .valueError

/-- `get_data_from_hdf`, seed_loader.py:129-196. -/
def fromHdf (cfg : Config R) (file : Dict String (Dict String (List R))) :
    Except Err (Option (Nat × List (List (List R)))) :=
  match hdfLoop cfg file cfg.names true [] with
  | .error e => .error e
  | .ok none => .ok none
  | .ok (some seeds) => (finish seeds).map some

/-- An object of a frame: a mapping, or a particle with attributes, position and direction. -/
inductive FrameObj (R : Type) where
  | map (m : Dict String R)
  | particle (attrs : Dict String R) (x y z zenith azimuth : R)

/-- The value of a parameter, seed_loader.py:233-254. -/
def frameValue (cfg : Config R) (o : FrameObj R) (l : String) : Except Err R :=
  let default : Except Err R :=
    match Dict.get? cfg.missingDict l with
    | some d => .ok d
    | none =>
      match cfg.missing with
      | some d => .ok d
      | none => .error .keyError
  match o with
  | .particle attrs x y z zenith azimuth =>
    match Dict.get? attrs l with
    | some v => .ok v
    | none =>
      if l = "x" then .ok x
      else if l = "y" then .ok y
      else if l = "z" then .ok z
      else if l = "zenith" then .ok zenith
      else if l = "azimuth" then .ok azimuth
      else default
  | .map m =>
    match Dict.get? m l with
    | some v => .ok v
    | none => default

/-- The loop over the parameters, seed_loader.py:232-254. -/
def frameColumns (cfg : Config R) (o : FrameObj R) : List String → Except Err (List (List R))
  | [] => .ok []
  | l :: ls =>
    match frameValue cfg o l with
    | .error e => .error e
    | .ok v =>
      match frameColumns cfg o ls with
      | .error e => .error e
      | .ok cols => .ok ([v] :: cols)

/-- The loop over the tensors, seed_loader.py:226-267. Only KeyErrors are caught (no other error occurs
in `frameColumns`). -/
def frameLoop (cfg : Config R) (frame : Dict String (FrameObj R)) :
    List String → List (Nat × List (List R)) → Except Err (Option (List (Nat × List (List R))))
  | [], seeds => .ok (some seeds)
  | name :: names, seeds =>
    match Dict.get? frame name with
    | none => .ok none
    | some o =>
      match frameColumns cfg o cfg.params with
      | .error .keyError => .ok none
      | .error e => .error e
      | .ok cols =>
        match transpose cols with
        | .error e => .error e
        | .ok t => frameLoop cfg frame names (seeds ++ [t])

/-- `get_data_from_frame`, seed_loader.py:198-275. -/
def fromFrame (cfg : Config R) (frame : Dict String (FrameObj R)) :
    Except Err (Option (Nat × List (List (List R)))) :=
  match frameLoop cfg frame cfg.names [] with
  | .error e => .error e
  | .ok none => .ok none
  | .ok (some seeds) => (finish seeds).map some

end Verif.Seeds
