import Verif.Reco.Model
import Mathlib.Algebra.Order.Floor.Ring
import Mathlib.Analysis.SpecialFunctions.Trigonometric.Basic

/-!
# Minimisation of the loss

Models the functions of `egenerator/manager/source.py` that call a minimiser: the limits that are
handed to it, its starting values, the function it minimises and the result, for the interfaces
scipy (`reconstruct_events`), shgo (`scipy_global_reconstruct_events`) and spherical_opt
(`reconstruct_events_spherical_opt`), and the random seeds of
`manager/reconstruction/modules/reconstruction.py`. The minimisers are parameters.
-/

namespace Verif.Fit
open Verif.Py Verif.Trafo Verif.Reco

/-! ## Limits -/

/-- A limit as it is given by the user: an integer, a float, an infinite float or `None`. -/
inductive Bound where
  | int (z : ℤ)
  | real (x : ℝ)
  | inf
  | none

/-- The data type of `np.array(bounds)`: integers if all entries are, objects if there is a `None`,
else floats. Simplification: no further types occur. -/
inductive Kind where
  | ints
  | floats
  | objects
deriving DecidableEq

def Bound.isInt : Bound → Bool
  | .int _ => true
  | _ => false

def Bound.isNone : Bound → Bool
  | .none => true
  | _ => false

/-- The type of an array of limits. An empty array is an array of floats. -/
def kind (bs : List (Bound × Bound)) : Kind :=
  if bs.any (fun b => b.1.isNone || b.2.isNone) then .objects
  else if !bs.isEmpty && bs.all (fun b => b.1.isInt && b.2.isInt) then .ints
  else .floats

/-- The number that stands for a limit, if it is finite. -/
def Bound.num : Bound → Option ℝ
  | .int z => some z
  | .real x => some x
  | .inf => Option.none
  | .none => Option.none

/-- A limit as it is handed to the minimiser: a number, not a number, or `None`. -/
inductive Limit where
  | num (x : ℝ)
  | nan
  | free

/-- `np.log(1.0 + x)`, if it is finite (data/trafo.py:369, 382). -/
noncomputable def log1 (x : ℝ) : Option ℝ := if 0 < 1 + x then some (Real.log (1 + x)) else none

/-- The parameter `i` is transformed by a logarithm: it has a mask, and either all flags are set or
the one of the parameter (data/trafo.py:359-382). -/
def logged (t : TensorInfo) (i : Nat) : Bool :=
  match t.logMask with
  | none => false
  | some m => m.all id || m[i]? == some true

/-- Transformation of one limit of the parameter `i`, `none` if the outcome is not finite
(data/trafo.py:334-396). -/
noncomputable def boundTrafo (T : Transformer) (t : TensorInfo) (f : Trafo.Fit) (i : Nat)
    (b : Bound) : Option ℝ :=
  match b.num with
  | none => none
  | some x =>
    match (if logged t i then log1 x else some x) with
    | none => none
    | some y => some ((y - f.mean.at [0, i]) / (T.norm + f.std.at [0, i]))

/-- `data.astype(dtype)` with the type of the given limits, followed by the replacement of values
that are not finite (data/trafo.py:394-395, manager/source.py:675-678). A conversion to an integer
cuts off the decimals; of values that are not finite it makes some integer, `junk`. In an array of
floats the assignment of `None` stores a value that is not a number. -/
noncomputable def finishLimit (k : Kind) (junk : ℤ) (y : Option ℝ) : Limit :=
  match k, y with
  | .ints, some y => .num ((if 0 ≤ y then ⌊y⌋ else ⌈y⌉ : ℤ) : ℝ)
  | .ints, none => .num (junk : ℝ)
  | .floats, some y => .num y
  | .floats, none => .nan
  | .objects, some y => .num y
  | .objects, none => .free

/-- The transformed limits (manager/source.py:670-679). The array of limits has to have one pair
per parameter. Simplification: the mean and the deviation are the same for all rows (`Arr.at`
ignores the row), so that lower and upper limits are transformed alike; the log axis is the last
one. -/
noncomputable def limits (T : Transformer) (name : String) (junk : ℤ)
    (bs : List (Bound × Bound)) : Except Err (List (Limit × Limit)) :=
  match T.find name with
  | none => .error .valueError
  | some t =>
    if t.shape ≠ [bs.length] then .error .valueError
    else
      match T.fits.get? name with
      | none => .error .keyError
      | some f =>
        .ok (bs.mapIdx fun i b =>
          (finishLimit (kind bs) junk (boundTrafo T t f i b.1),
           finishLimit (kind bs) junk (boundTrafo T t f i b.2)))

/-- A limit that is handed to the minimiser unchanged. -/
def Bound.keep : Bound → Limit
  | .int z => .num z
  | .real x => .num x
  | .inf => .free
  | .none => .free

/-- The limits in the space of the minimisation (manager/source.py:668-684). -/
noncomputable def spaceLimits (T : Transformer) (name : String) (inTrafo : Bool) (junk : ℤ) :
    Option (List (Bound × Bound)) → Except Err (Option (List (Limit × Limit)))
  | none => .ok none
  | some bs =>
    if inTrafo then
      match limits T name junk bs with
      | .error e => .error e
      | .ok l => .ok (some l)
    else .ok (some (bs.map fun b => (b.1.keep, b.2.keep)))

/-! ## The minimised function -/

/-- `np.reshape(x, [-1])`, in C order. -/
def flatten (a : Arr) : List ℝ := (indices a.shape).map a.val

/-- The entries of a vector that is read in rows of `k` values. -/
def inRows (x : List ℝ) (k : Nat) : List Nat → ℝ
  | [b, j] => x.getD (b * k + j) 0
  | _ => 0

/-- `np.reshape(x, [-1, k])` of a vector. -/
def reshape (x : List ℝ) (k : Nat) : Except Err Arr :=
  if k = 0 ∨ x.length % k ≠ 0 then .error .valueError
  else .ok ⟨[x.length / k, k], inRows x k⟩

/-- `func` (manager/source.py:616-625, 914-923): the loss at a vector of fitted values. `loss` is
the loss of an array of parameters. Gradients are not part of it. -/
noncomputable def objective (T : Transformer) (name : String) (fit : List Bool) (inTrafo : Bool)
    (loss : Arr → Except Err ℝ) (seed : Arr) (x : List ℝ) : Except Err ℝ :=
  match reshape x (fit.count true) with
  | .error e => .error e
  | .ok p =>
    match hypothesis T name fit inTrafo p seed with
    | .error e => .error e
    | .ok h => loss h

/-- A minimiser: of the function, the starting values and the limits. -/
abbrev Minimizer :=
  (List ℝ → Except Err ℝ) → List ℝ → Option (List (Limit × Limit)) → Except Err (List ℝ)

/-- The check of the number of flags (manager/source.py:610-613). -/
def checkFit (T : Transformer) (name : String) (fit : List Bool) : Except Err Unit :=
  match T.find name with
  | none => .error .keyError
  | some t =>
    match t.shape with
    | [] => .error .indexError
    | n :: _ => if fit.length ≠ n then .error .valueError else .ok ()

/-- `reconstruct_events` (manager/source.py:545-699). `isTf`: the seed is a tensor. Simplification:
the other keyword arguments belong to the minimiser. -/
noncomputable def reconstruct (T : Transformer) (name : String) (fit : List Bool)
    (inTrafo isTf : Bool) (loss : Arr → Except Err ℝ) (junk : ℤ) (minimize : Minimizer)
    (seed : Arr) (bounds : Option (List (Bound × Bound))) : Except Err Arr :=
  match checkFit T name fit with
  | .error e => .error e
  | .ok _ =>
    match spaceLimits T name inTrafo junk bounds with
    | .error e => .error e
    | .ok lims =>
      match start T name fit inTrafo isTf seed with
      | .error e => .error e
      | .ok x0 =>
        match minimize (objective T name fit inTrafo loss seed) (flatten x0) lims with
        | .error e => .error e
        | .ok x => reshape x (fit.count true)

/-! ## Global minimisation -/

/-- The dictionaries a call of `scipy_global_reconstruct_events` may modify, by identity: the two
default arguments and the ones given by users. -/
abbrev Store (V : Type) := Nat → Dict String V

/-- A call: the dictionaries for `minimizer_kwargs` and `options`, `jac` and the hessian function
that is given, if any; `accepted`: the number of flags is right. -/
structure GlobalCall (V : Type) where
  kwargs : Nat
  options : Nat
  jac : V
  hess : Option V
  accepted : Bool

/-- `d[k] = v` for the dictionary with identity `r`. -/
def Store.put {V : Type} (s : Store V) (r : Nat) (k : String) (v : V) : Store V :=
  fun q => if q = r then Dict.set (s q) k v else s q

/-- What a call does to the dictionaries (manager/source.py:905-935). -/
def globalStore {V : Type} (s : Store V) (c : GlobalCall V) : Store V :=
  if c.accepted then
    let s := (s.put c.kwargs "jac" c.jac).put c.options "jac" c.jac
    match c.hess with
    | none => s
    | some h => (s.put c.kwargs "hess" h).put c.options "hess" h
  else s

/-- The settings shgo is called with: `minimizer_kwargs` and `options` (manager/source.py:959-962),
or nothing if the call is refused. -/
def globalSettings {V : Type} (s : Store V) (c : GlobalCall V) :
    Option (Dict String V × Dict String V) :=
  if c.accepted then
    some (globalStore s c c.kwargs, globalStore s c c.options)
  else none

/-- The dictionaries after some calls. -/
def globalRun {V : Type} (s : Store V) (calls : List (GlobalCall V)) : Store V :=
  calls.foldl globalStore s

/-- The bounds of the global minimisation (manager/source.py:951-954): the rows of
`np.concatenate((seed - 1, seed + 1)).T`, one per parameter. -/
noncomputable def globalBounds (seed : Arr) : Except Err (List (List ℝ)) :=
  match seed.shape with
  | [B, n] =>
    .ok ((List.range n).map fun i =>
      ((List.range B).map fun b => seed.val [b, i] - 1) ++
        (List.range B).map fun b => seed.val [b, i] + 1)
  | _ => .error .valueError

/-- The pairs shgo makes of the rows: it refuses rows that are no pairs. -/
def pairs : List (List ℝ) → Except Err (List (ℝ × ℝ))
  | [] => .ok []
  | r :: rs =>
    match r with
    | [lo, hi] =>
      match pairs rs with
      | .error e => .error e
      | .ok ps => .ok ((lo, hi) :: ps)
    | _ => .error .valueError

/-- A global minimiser: of the function and the bounds. -/
abbrev Global := (List ℝ → Except Err ℝ) → List (ℝ × ℝ) → Except Err (List ℝ)

/-- `scipy_global_reconstruct_events` (manager/source.py:831-965), apart from the settings. -/
noncomputable def reconstructGlobal (T : Transformer) (name : String) (fit : List Bool)
    (inTrafo : Bool) (loss : Arr → Except Err ℝ) (shgo : Global) (seed : Arr) : Except Err Arr :=
  match checkFit T name fit with
  | .error e => .error e
  | .ok _ =>
    match toSpace T name inTrafo seed with
    | .error e => .error e
    | .ok st =>
      if !inTrafo then .error .assertionError
      else
        match globalBounds st with
        | .error e => .error e
        | .ok rows =>
          match pairs rows with
          | .error e => .error e
          | .ok bounds =>
            match shgo (objective T name fit inTrafo loss seed) bounds with
            | .error e => .error e
            | .ok x => reshape x (fit.count true)

/-! ## spherical_opt -/

/-- The number of scales of the random seeds (manager/source.py:814). -/
def scales : List ℝ := [10, 10, 10, 1, 1, 100, 10]

/-- The values of the initial points (manager/source.py:813-814). -/
noncomputable def pointAt (normal : Nat → Nat → ℝ → ℝ → ℝ) (B : Nat) (x0 : Arr) : List Nat → ℝ
  | [r, j] =>
    if r = 0 then x0.val [0, j]
    else normal r j (x0.val [r % B, j]) (scales.getD j 0)
  | _ => 0

/-- The initial points (manager/source.py:810-814): the starting values are repeated, and all rows
but the first are replaced by `normal loc scale` for a draw `(row, column)`. Simplification: a
starting array with a single column is refused as well (numpy broadcasts to seven columns, which
cannot be stored in one). -/
noncomputable def initialPoints (normal : Nat → Nat → ℝ → ℝ → ℝ) (batchSize : Nat) (x0 : Arr) :
    Except Err Arr :=
  match x0.shape with
  | [B, n] =>
    if n ≠ scales.length then .error .valueError
    else .ok ⟨[batchSize * 20 * B, n], pointAt normal B x0⟩
  | _ => .error .valueError

/-- The loss of every point for `batch_size > 1` (manager/source.py:769-777), from the scalar terms,
the terms per event and the sums of the terms per DOM. Points and events are the same here. -/
noncomputable def pointLoss (scalar : ℝ) (event dom : List ℝ) : List ℝ :=
  List.zipWith (fun e d => scalar / (event.length : ℝ) + e + d) event dom

/-- A minimiser of the interface of spherical_opt: of the function and the initial points, it
returns a point. -/
abbrev Spherical := (List ℝ → Except Err ℝ) → Arr → Except Err (List ℝ)

/-- `reconstruct_events_spherical_opt` (manager/source.py:701-829) for `batch_size = 1`, as used by
the reconstruction module. -/
noncomputable def reconstructSpherical (T : Transformer) (name : String) (fit : List Bool)
    (inTrafo isTf : Bool) (loss : Arr → Except Err ℝ) (normal : Nat → Nat → ℝ → ℝ → ℝ)
    (opt : Spherical) (seed : Arr) : Except Err Arr :=
  match start T name fit inTrafo isTf seed with
  | .error e => .error e
  | .ok x0 =>
    match initialPoints normal 1 x0 with
    | .error e => .error e
    | .ok points =>
      match opt (objective T name fit inTrafo loss seed) points with
      | .error e => .error e
      | .ok x => reshape x (fit.count true)

/-! ## Random seeds -/

/-- What replaces a column of the seed: nothing, a normal distribution around the value with a
scale, or one uniform draw for all rows (modules/reconstruction.py:240-249). -/
inductive Redraw where
  | keep
  | normal (scale : ℝ)
  | uniform (low high : ℝ)

/-- The replacements by column (modules/reconstruction.py:240-249). -/
noncomputable def redraws : List Redraw :=
  [.normal 5, .normal 5, .normal 5, .uniform 0 Real.pi, .uniform 0 (2 * Real.pi), .keep,
    .normal 20, .uniform 0.91 1.09, .uniform 0.01 1.99, .uniform 0.91 1.09,
    .uniform (-0.99) 0.99, .uniform (-0.19) 0.19, .uniform 0.91 1.09]

/-- The draws: `normal r j loc scale` for the row and the column, `uniform j low high` for the
column. -/
structure Draws where
  normal : Nat → Nat → ℝ → ℝ → ℝ
  uniform : Nat → ℝ → ℝ → ℝ

/-- The new value of column `j` in row `r`. -/
noncomputable def redraw (d : Draws) (r j : Nat) (x : ℝ) : ℝ :=
  match redraws[j]? with
  | some (.normal s) => d.normal r j x s
  | some (.uniform lo hi) => d.uniform j lo hi
  | some .keep => x
  | none => x

/-- The values of the random seed (modules/reconstruction.py:240-249). -/
noncomputable def redrawn (d : Draws) (seed : Arr) : List Nat → ℝ
  | [r, j] => redraw d r j (seed.val [r, j])
  | _ => 0

/-- The random seed (modules/reconstruction.py:234-256). Columns that are missing are an
`IndexError`; the slice of the first three columns is not. -/
noncomputable def randomSeed (d : Draws) (seed : Arr) : Except Err Arr :=
  match seed.shape with
  | [B, n] =>
    if n < redraws.length then .error .indexError
    else .ok ⟨[B, n], redrawn d seed⟩
  | _ => .error .indexError

/-- The limits of the fits from random seeds (manager/source.py:1402-1416). -/
noncomputable def randomBounds : List (Bound × Bound) :=
  [(.none, .none), (.none, .none), (.none, .none), (.int 0, .real 3.1416), (.int 0, .real 6.2832),
    (.int 0, .none), (.none, .none), (.real 0.9, .real 1.1), (.real 0, .real 2),
    (.real 0.9, .real 1.1), (.real (-1), .real 1), (.real (-0.2), .real 0.2),
    (.real 0.9, .real 1.1)]

end Verif.Fit
