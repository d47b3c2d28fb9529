/-
Model of `egenerator/ic3/simulation.py`: collection of light sources from a particle tree and the
table of source parameters. A floating point number is `some x`, or `none` for `nan`.
-/
import Verif.Py.Dict
import Verif.Py.Sort

namespace Verif.Sim
open Verif.Py

variable {α : Type} [LT α] [DecidableLT α] [Sub α]

/-- `a < b` of floating point numbers: false if one of them is `nan`. -/
def flt : Option α → Option α → Bool
  | some a, some b => decide (a < b)
  | _, _ => false

/-- `a - b` of floating point numbers. -/
def fsub : Option α → Option α → Option α
  | some a, some b => some (a - b)
  | _, _ => none

/-- What the code reads of an `I3Particle`. `magnitude` is `pos.magnitude`. The type is its name. -/
structure Particle (α : Type) where
  kind : String
  energy : Option α
  time : Option α
  length : Option α
  magnitude : Option α
  x : Option α
  y : Option α
  z : Option α
  zenith : Option α
  azimuth : Option α

/-- An `I3MCTree` below a particle: `get_daughters` gives the daughters in this order. The lookup of a
particle in the tree by its identifier is not modelled. -/
inductive Tree (α : Type) where
  | node (p : Particle α) (daughters : List (Tree α))

/-- The settings of the walk: `em_cascades`, `tracks`, `dark_particles`, `allowed_parent_particles`,
`min_simulation_energy` and `max_simulation_distance`. -/
structure Walk (α : Type) where
  em : List String
  tracks : List String
  dark : List String
  parents : List String
  minEnergy : Option α
  maxDistance : Option α

/-- The lists of particle types set in `Configure` (simulation.py:177-214). -/
def configured (minEnergy maxDistance : Option α) : Walk α :=
  { em := ["Pi0", "Gamma", "PairProd", "Brems", "DeltaE", "EMinus", "EPlus"]
    tracks := []
    dark := ["NuE", "NuMu", "NuTau", "NuEBar", "NuMuBar", "NuTauBar"]
    parents := ["NuE", "NuMu", "NuTau", "NuEBar", "NuMuBar", "NuTauBar", "Hadrons"]
    minEnergy := minEnergy
    maxDistance := maxDistance }

/-- The condition that ends the recursion (simulation.py:436-439). -/
def skipped (C : Walk α) (p : Particle α) : Bool :=
  flt p.energy C.minEnergy || flt C.maxDistance (fsub p.magnitude p.length)

mutual
/-- `_get_light_sources` (simulation.py:417-473). The limit of the depth of recursion of Python is not
modelled. -/
def walk (C : Walk α) : Tree α → Except Err (List (Particle α) × List (Particle α))
  | .node p daughters =>
    if skipped C p then .ok ([], [])
    else if C.em.contains p.kind then .ok ([p], [])
    else if C.tracks.contains p.kind then .ok ([], [p])
    else if daughters.isEmpty && !C.dark.contains p.kind then .error .notImplementedError
    else if !daughters.isEmpty && !C.parents.contains p.kind then .error .valueError
    else walkAll C daughters
/-- The loops over daughters (simulation.py:464-471) and over primaries, `get_light_sources`
(simulation.py:475-506). -/
def walkAll (C : Walk α) : List (Tree α) → Except Err (List (Particle α) × List (Particle α))
  | [] => .ok ([], [])
  | t :: ts =>
    match walk C t with
    | .error e => .error e
    | .ok a =>
      match walkAll C ts with
      | .error e => .error e
      | .ok b => .ok (a.1 ++ b.1, a.2 ++ b.2)
end

/-! ### Source parameters -/

/-- A default value: a number or the name of an entry of the frame. -/
inductive Default (α : Type) where
  | num (v : Option α)
  | key (s : String)

/-- `Model.get_index` (model/source/base.py:209, 224-233): the dictionary is filled in order, so the
last index of a name counts. -/
def getIndex (names : List String) (n : String) : Option Nat :=
  (List.range names.length).reverse.find? (fun i => names[i]? = some n)

/-- The names of the parameters taken from the particles, and their check (simulation.py:138-146). -/
def paramNames (names : List String) (defaults : Dict String (Default α)) : Except Err (List String) :=
  let ns := sortBy (fun a b => decide (a ≤ b)) (names.filter (fun n => !Dict.has defaults n))
  if ns.all (fun n => ["azimuth", "energy", "time", "x", "y", "z", "zenith"].contains n) then .ok ns
  else .error .keyError

/-- `getattr` of the position, the direction or the particle (simulation.py:405-410). Other attributes
of a particle than the listed ones are not modelled. -/
def attr (c : Particle α) (name : String) : Except Err (Option α) :=
  if name = "x" then .ok c.x
  else if name = "y" then .ok c.y
  else if name = "z" then .ok c.z
  else if name = "azimuth" then .ok c.azimuth
  else if name = "zenith" then .ok c.zenith
  else if name = "energy" then .ok c.energy
  else if name = "time" then .ok c.time
  else if name = "length" then .ok c.length
  else .error .attributeError

/-- An array, by row and column. -/
abbrev Table (α : Type) := Nat → Nat → Option α

/-- The loop over default values (simulation.py:392-400). A name of a frame entry is looked up in
`frame`, which is not defined there. -/
def fillDefaults (names : List String) : List (String × Default α) → Table α → Except Err (Table α)
  | [], a => .ok a
  | (_, .key _) :: _, _ => .error .nameError
  | (n, .num v) :: rest, a =>
    match getIndex names n with
    | none => .error .keyError
    | some j => fillDefaults names rest (fun i j' => if j' = j then v else a i j')

/-- The inner loop over parameters (simulation.py:404-413). -/
def fillRow (names : List String) (c : Particle α) (i : Nat) :
    List String → Table α → Except Err (Table α)
  | [], a => .ok a
  | n :: rest, a =>
    match attr c n with
    | .error e => .error e
    | .ok v =>
      match getIndex names n with
      | none => .error .keyError
      | some j => fillRow names c i rest (fun i' j' => if i' = i ∧ j' = j then v else a i' j')

/-- The outer loop over cascades (simulation.py:403). -/
def fillRows (names params : List String) : Nat → List (Particle α) → Table α → Except Err (Table α)
  | _, [], a => .ok a
  | i, c :: rest, a =>
    match fillRow names c i params a with
    | .error e => .error e
    | .ok a' => fillRows names params (i + 1) rest a'

/-- `convert_cascades_to_tensor` before the conversion (simulation.py:389-413). `empty` is the
uninitialised memory of `np.empty`. -/
def fill (names params : List String) (defaults : Dict String (Default α))
    (cascades : List (Particle α)) (empty : Table α) : Except Err (Table α) :=
  match fillDefaults names defaults empty with
  | .error e => .error e
  | .ok a => fillRows names params 0 cascades a

/-- `convert_cascades_to_tensor` (simulation.py:376-415): `self.param_dtype` is only set in code that
is commented out (simulation.py:150-151). -/
def convert (names params : List String) (defaults : Dict String (Default α))
    (cascades : List (Particle α)) (empty : Table α) : Except Err (Table α) :=
  match fill names params defaults cascades empty with
  | .error e => .error e
  | .ok _ => .error .attributeError

section
variable [LT α] [DecidableLT α] [Sub α]

/-- An entry of a frame: a particle tree or sampled pulses. -/
inductive Entry (α P : Type) where
  | tree (f : List (Tree α))
  | pulses (p : P)

/-- `DAQ` (simulation.py:216-261): the frame that is pushed. `pulses` is the evaluation of the model
and the sampling (in Sampling) for the parameters of the sources. An `I3Frame` refuses to overwrite
an entry. -/
def daq {P : Type} (C : Walk α) (names params : List String) (defaults : Dict String (Default α))
    (empty : Table α) (pulses : Table α → Except Err P) (tree output : String)
    (frame : Dict String (Entry α P)) : Except Err (Dict String (Entry α P)) :=
  match Dict.get? frame tree with
  | some (.tree f) =>
    match walkAll C f with
    | .error e => .error e
    | .ok (cascades, tracks) =>
      if tracks.length > 0 then .error .notImplementedError
      else
        match convert names params defaults cascades empty with
        | .error e => .error e
        | .ok a =>
          match pulses a with
          | .error e => .error e
          | .ok p =>
            if Dict.has frame output then .error .runtimeError
            else .ok (Dict.set frame output (.pulses p))
  | some _ => .error .typeError
  | none => .error .keyError

end

end Verif.Sim
