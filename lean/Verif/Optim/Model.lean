import Verif.Py.Dict
import Mathlib.Order.Defs.LinearOrder
import Mathlib.Algebra.Order.Floor.Ring

/-!
# The spherical optimizer

Models `find_replacements` and `spherical_opt` of `egenerator/utils/spherical_opt.py`. The geometry
of the proposals is left open: the proposed points are arbitrary functions of the state and of the
iteration, so that the theorems hold for all random numbers and all geometries. (The geometry itself
is in `Verif.Optim.Sphere`.) Values of the objective function are from any linear order; `nan` is
not modelled.
-/

namespace Verif.Optim
open Verif.Py

/-! ## Replacements -/

section
variable {α β : Type} [LinearOrder α]

/-- `a[inds]` for an array of indices. -/
def pick (a : List β) : List Nat → Except Err (List β)
  | [] => .ok []
  | i :: is =>
    match a[i]? with
    | none => .error .indexError
    | some x =>
      match pick a is with
      | .error e => .error e
      | .ok xs => .ok (x :: xs)

/-- `a < b` for arrays, with numpy's broadcasting. -/
def lessThans (a b : List α) : Except Err (List Bool) :=
  if a.length = b.length then .ok (List.zipWith (fun x y => decide (x < y)) a b)
  else
    match a, b with
    | a, [y] => .ok (a.map fun x => decide (x < y))
    | [x], b => .ok (b.map fun y => decide (x < y))
    | _, _ => .error .valueError

/-- `xs[-n:]` for positive `n`. -/
def lastN (xs : List β) (n : Nat) : List β := xs.drop (xs.length - n)

/-- The loop over `N_to_replace`, downwards (spherical_opt.py:198-210). -/
def search (old new : List α) (oldInds newInds : List Nat) : Nat → Except Err (List (Nat × Nat))
  | 0 => .ok []
  | n + 1 =>
    let o := lastN oldInds (n + 1)
    let w := newInds.take (n + 1)
    match pick new w with
    | .error e => .error e
    | .ok a =>
      match pick old o with
      | .error e => .error e
      | .ok b =>
        match lessThans a b with
        | .error e => .error e
        | .ok less => if less.count true = n + 1 then .ok (o.zip w) else search old new oldInds newInds n

/-- `find_replacements` (spherical_opt.py:167-210). -/
def findReplacements (argsort : List α → List Nat) (old new : List α)
    (oldInds newInds : Option (List Nat)) : Except Err (List (Nat × Nat)) :=
  let oldInds := oldInds.getD (argsort old)
  let newInds := newInds.getD (argsort new)
  search old new oldInds newInds newInds.length

/-- `np.argmin` with the value: the first position of the lowest value. -/
def argminFrom : List α → Nat → Option (Nat × α)
  | [], _ => none
  | x :: xs, i =>
    match argminFrom xs (i + 1) with
    | none => some (i, x)
    | some (j, y) => if y < x then some (j, y) else some (i, x)

/-- The indices of the points other than the best one, from random positions
(spherical_opt.py:448-449). -/
def skipBest (best : Nat) (i : Nat) : Nat := if i ≥ best then i + 1 else i

end

/-! ## The optimizer -/

variable {P α : Type} [LinearOrder α]

/-- The proposals of points; arguments are the stored points, by the order of their values.
`batch` are the reflected points of CRS2 in an iteration (spherical_opt.py:446-467), `mutate` the
mutated ones of the given points (502-517), `reflect` (541-549), `expand` (567-570),
`contractOut` (590-591), `contractIn` (602-603) and `shrink` (618-619) those of Nelder-Mead. -/
structure Geometry (P : Type) where
  batch : Nat → List P → Nat → List P
  mutate : Nat → List P → Nat → List P → List P
  reflect : List P → List Nat → P
  expand : List P → List Nat → P
  contractOut : List P → List Nat → P
  contractIn : List P → List Nat → P
  shrink : P → P → P

/-- The variables of the loop. `pts` is `s_cart`, `s_spher` and `x` with `fvals`; `log` lists the
points at which the function was evaluated, by iteration. It is not in the code. -/
structure State (P α : Type) where
  pts : List (P × α)
  best : Nat
  bestVal : α
  noImp : Int
  calls : Nat
  log : List (List P)

/-- Settings of the optimizer. `fConv` and `cConv` are the conditions on the spread of the values
and of the points. -/
structure Settings (P α : Type) where
  method : String
  batch : Nat
  dim : Nat
  maxIter : Nat
  maxCalls : Nat
  maxNoImp : Nat
  fConv : List α → Bool
  cConv : List P → Bool
  argsort : List α → List Nat
  geo : Geometry P
  f : P → α

/-- The values of points, `vec_func`. -/
def Settings.eval (c : Settings P α) (ps : List P) : List (P × α) := ps.map fun p => (p, c.f p)

/-- The loop over the replacements (spherical_opt.py:474-478, 523-527). The indices are always
valid. -/
def replaceAll (pts new : List (P × α)) (reps : List (Nat × Nat)) : List (P × α) :=
  reps.foldl (fun pts r =>
    match new[r.2]? with
    | some e => pts.set r.1 e
    | none => pts) pts

/-- One iteration of CRS2 after the best point was determined (spherical_opt.py:444-535). -/
def crs2 (c : Settings P α) (it : Nat) (s : State P α) (sorted : List Nat) :
    Except Err (State P α) :=
  let refl := c.geo.batch it (s.pts.map Prod.fst) s.best
  let new := c.eval refl
  let calls := s.calls + c.batch
  let sortedNew := c.argsort (new.map Prod.snd)
  match findReplacements c.argsort (s.pts.map Prod.snd) (new.map Prod.snd) (some sorted)
      (some sortedNew) with
  | .error e => .error e
  | .ok reps =>
    let pts := replaceAll s.pts new reps
    if reps.length = c.batch then .ok { s with pts, calls, log := s.log ++ [refl] }
    else
      let toReplace := sorted.take (sorted.length - reps.length)
      match pick refl (sortedNew.drop reps.length) with
      | .error e => .error e
      | .ok toMutate =>
        match argminFrom (pts.map Prod.snd) 0 with
        | none => .error .valueError
        | some (best, _) =>
          let mutated := c.geo.mutate it (pts.map Prod.fst) best toMutate
          let new := c.eval mutated
          match findReplacements c.argsort (pts.map Prod.snd) (new.map Prod.snd) (some toReplace)
              none with
          | .error e => .error e
          | .ok reps => .ok { s with
              pts := replaceAll pts new reps
              best := best
              calls := calls + toMutate.length
              log := s.log ++ [refl ++ mutated] }

/-- All points but the best are moved towards it (spherical_opt.py:616-621). -/
def shrinkAll (c : Settings P α) (b : P × α) (best : Nat) (pts : List (P × α)) : List (P × α) :=
  pts.mapIdx fun i e => if i = best then e else (c.geo.shrink b.1 e.1, c.f (c.geo.shrink b.1 e.1))

/-- The points at which the function is evaluated by `shrinkAll`. -/
def shrunk (c : Settings P α) (b : P × α) (best : Nat) (pts : List (P × α)) : List P :=
  ((pts.mapIdx fun i e => (i, e)).filter fun e => e.1 ≠ best).map fun e => c.geo.shrink b.1 e.2.1

/-- One iteration of Nelder-Mead after the best point was determined (spherical_opt.py:537-621). -/
def nelderMead (c : Settings P α) (s : State P α) (sorted : List Nat) :
    Except Err (State P α) :=
  let ps := s.pts.map Prod.fst
  match sorted.getLast?, sorted[sorted.length - 2]? with
  | some worst, some second =>
    if sorted.length < 2 then .error .indexError
    else
      match s.pts[worst]?, s.pts[second]?, s.pts[s.best]? with
      | some w, some n, some b =>
        let p := c.geo.reflect ps sorted
        let v := c.f p
        if v < n.2 ∧ v ≥ b.2 then
          .ok { s with pts := s.pts.set worst (p, v), calls := s.calls + 1, log := s.log ++ [[p]] }
        else if v < b.2 then
          let q := c.geo.expand ps sorted
          let u := c.f q
          .ok { s with
            pts := s.pts.set worst (if u < v then (q, u) else (p, v))
            calls := s.calls + 2
            log := s.log ++ [[p, q]] }
        else
          let q := if v < w.2 then c.geo.contractOut ps sorted else c.geo.contractIn ps sorted
          let u := c.f q
          if u < (if v < w.2 then v else w.2) then
            .ok { s with
              pts := s.pts.set worst (q, u), calls := s.calls + 2, log := s.log ++ [[p, q]] }
          else
            .ok { s with
              pts := shrinkAll c b s.best s.pts
              calls := s.calls + 2 + (s.pts.length - 1)
              log := s.log ++ [[p, q] ++ shrunk c b s.best s.pts] }
      | _, _, _ => .error .indexError
  | _, _ => .error .indexError

/-- One iteration after the break conditions (spherical_opt.py:433-621). -/
def step (c : Settings P α) (it : Nat) (s : State P α) : Except Err (State P α) :=
  let sorted := c.argsort (s.pts.map Prod.snd)
  match sorted.head? with
  | none => .error .indexError
  | some best =>
    match s.pts[best]? with
    | none => .error .indexError
    | some e =>
      let s := if e.2 < s.bestVal then { s with best := best, bestVal := e.2, noImp := 0 }
        else { s with best := best, noImp := s.noImp + 1 }
      if c.method = "CRS2" then crs2 c it s sorted else nelderMead c s sorted

/-- The break conditions, in their order (spherical_opt.py:386-431): the stopping flag. -/
def stop (c : Settings P α) (s : State P α) : Option Int :=
  if c.maxCalls ≠ 0 ∧ s.calls ≥ c.maxCalls then some 0
  else if c.maxNoImp ≠ 0 ∧ s.noImp > c.maxNoImp then some 2
  else if c.fConv (s.pts.map Prod.snd) then some 1
  else if c.cConv (s.pts.map Prod.fst) then some 3
  else none

section
variable {K : Type} [Ring K] [LinearOrder K] [FloorRing K]

/-- Thresholds count only if at least one is positive (spherical_opt.py:323-337). -/
def active (thr : Option (List K)) : Option (List K) :=
  thr.bind fun t => if t.any (fun x => decide (0 < x)) then some t else none

/-- Are the Cartesian coordinates close? The standard deviations are not negative and written to an
array of integers, by which they are truncated (spherical_opt.py:303, 403-409). -/
def cartClose (thr std : List K) : Bool :=
  (thr.zip std).all fun p => !decide (0 < p.1) || decide ((⌊p.2⌋ : K) < p.1)

/-- The loop over the thresholds of the directions (spherical_opt.py:413-427); all pairs have a
common spread. In the branch of thresholds that are not positive, a name is used that is unknown in
the first iteration. Simplification: in all iterations. -/
def spherClose (std : K) : List K → Bool → Except Err Bool
  | [], b => .ok b
  | t :: ts, b => if 0 < t then spherClose std ts (b && decide (std < t)) else .error .nameError

/-- Break condition 3 (spherical_opt.py:401-431), from the standard deviations of the Cartesian
coordinates and the spread of the directions. -/
def pointsClose (cthr sthr : Option (List K)) (cstd : List K) (sstd : K) : Except Err Bool :=
  match active cthr, active sthr with
  | none, none => .ok false
  | some c, none => .ok (cartClose c cstd)
  | none, some s => spherClose sstd s true
  | some c, some s => spherClose sstd s (cartClose c cstd)

end

/-- The loop (spherical_opt.py:383): the remaining iterations and the number of the current one;
returns the state, the stopping flag and the last value of `iter_num`. -/
def loop (c : Settings P α) : Nat → Nat → State P α → Except Err (State P α × Int × Nat)
  | 0, it, s => .ok (s, -1, it - 1)
  | n + 1, it, s =>
    match stop c s with
    | some flag => .ok (s, flag, it)
    | none =>
      match step c it s with
      | .error e => .error e
      | .ok s => loop c n (it + 1) s

/-- What is returned. -/
structure Result (P α : Type) where
  flag : Int
  calls : Nat
  nit : Nat
  value : α
  point : P
  final : List (P × α)
  success : Bool
  log : List (List P)

/-- The checks of the arguments (spherical_opt.py:280-313). -/
def check (c : Settings P α) (n : Nat) : Except Err Unit :=
  if c.method ≠ "Nelder-Mead" ∧ c.method ≠ "CRS2" then .error .valueError
  else if c.batch > 1 ∧ c.method ≠ "CRS2" then .error .valueError
  else if c.method = "Nelder-Mead" then
    if n = c.dim + 1 then .ok () else .error .assertionError
  else if ¬ n > c.dim then .error .assertionError
  else if c.dim = 0 then .error .zeroDivisionError
  else if n - 1 ≥ c.batch * c.dim then .ok ()
  else .error .assertionError

/-- The state before the loop (spherical_opt.py:347-380). -/
def init (c : Settings P α) (initial : List P) : Except Err (State P α) :=
  match argminFrom ((c.eval initial).map Prod.snd) 0 with
  | none => .error .valueError
  | some (_, v) => .ok
    { pts := c.eval initial, best := 0, bestVal := v, noImp := -1, calls := initial.length
      log := [initial] }

/-- `spherical_opt` (spherical_opt.py:213-658). Simplification: `max_iter` is not negative;
`max_calls=None` is zero; the spread of points is one condition; the entries of `meta` are left
out. -/
def run (c : Settings P α) (initial : List P) : Except Err (Result P α) :=
  match check c initial.length with
  | .error e => .error e
  | .ok () =>
    match init c initial with
    | .error e => .error e
    | .ok s =>
      match loop c (c.maxIter + 1) 0 s with
      | .error e => .error e
      | .ok (s, flag, nit) =>
        match s.pts[s.best]? with
        | none => .error .indexError
        | some e => .ok
          { flag, calls := s.calls, nit, value := e.2, point := e.1, final := s.pts
            success := flag > 0, log := s.log }

end Verif.Optim
