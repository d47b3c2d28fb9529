import Verif.Tray.Model
import Verif.Sphere.Model
import Verif.Uncert.Model
import Verif.Sampling.Model

/-!
# Execution of the modules for the angular uncertainty and the goodness of fit

Models `execute` of `egenerator/manager/reconstruction/modules/opening_angle.py` and
`modules/fit_quality.py` for one event, with the state of their random number generators. Floating
point numbers are real numbers; fits are arbitrary functions.
-/

namespace Verif.Quality
open Verif.Py Verif.Tray

/-- `np.random.RandomState`: `draw s n` are the next `n` uniform numbers in [0, 1) in state `s`,
`next s n` is the state afterwards. The numbers of `uniform(low, high, size)` are
`low + (high - low) u` (library contract). -/
structure Rng (σ : Type) where
  draw : σ → Nat → List ℝ
  next : σ → Nat → σ

/-- The rows of `uniform(low=-1, high=1, size=(n, 3))` (utils/angles.py:199). -/
noncomputable def vecs : List ℝ → List Sphere.V3
  | x :: y :: z :: rest => ⟨-1 + 2 * x, -1 + 2 * y, -1 + 2 * z⟩ :: vecs rest
  | _ => []

/-- `get_delta_psi_vector` of one direction and several opening angles in degrees
(modules/opening_angle.py:250-254, 295-299, utils/angles.py:193-199): for no opening angle one
random vector is drawn all the same. -/
noncomputable def directions {σ : Type} (rng : Rng σ) (s : σ) (zen azi : ℝ) (deltas : List ℝ) :
    Except Err (List (ℝ × ℝ) × σ) :=
  let n := 3 * max 1 deltas.length
  match Sphere.deltaPsi true (((vecs (rng.draw s n)).zip deltas).map fun e => ((zen, azi), e.1, e.2)) with
  | .error e => .error e
  | .ok r => .ok (r, rng.next s n)

/-! ## The circularised uncertainty -/

/-- The module with the event at hand: what a scan needs, the positions of zenith and azimuth, the
number of points, the range from the covariance matrix (modules/opening_angle.py:269-278, in Uncert),
the fit of the other parameters for a given seed, and the fit of the width. -/
structure Circ extends Scan where
  zen : Nat
  azi : Nat
  num : Nat
  range : Option ℝ
  reco : Row → Row
  minimize : List (ℝ × ℝ) → ℝ

/-- The flags with zenith and azimuth kept (modules/opening_angle.py:86-88). -/
def Circ.unc (c : Circ) : List Bool := (c.fit.set c.zen false).set c.azi false

/-- The body of the loop of `reconstruct_at_angle` (modules/opening_angle.py:206-225): the loss of
the fit with fixed direction. -/
noncomputable def Circ.lossAt (c : Circ) (result : Row) (d : ℝ × ℝ) : Except Err ℝ := do
  let seed ← setCol result c.zen d.1
  let seed ← setCol seed c.azi d.2
  { c.toScan with fit := c.unc }.lossFunction seed (c.reco seed)

/-- `reconstruct_at_angle` (modules/opening_angle.py:200-230): concatenation of no results raises. -/
noncomputable def Circ.losses (c : Circ) (result : Row) (ds : List (ℝ × ℝ)) :
    Except Err (List ℝ) := do
  let ls ← ds.mapM (c.lossAt result)
  if ls = [] then throw .valueError
  return ls

/-- `bisection_step` (modules/opening_angle.py:248-267) in state `s`: bounds, center, state. -/
noncomputable def Circ.bisection {σ : Type} (c : Circ) (rng : Rng σ) (result : Row) (zen azi best : ℝ)
    (s : σ) (low high : ℝ) : Except Err ((ℝ × ℝ × ℝ) × σ) := do
  let center := low + (high - low) / 2
  let (ds, s) ← directions rng s zen azi [center]
  match ← c.losses result ds with
  | [] => throw .indexError
  | l :: _ =>
    if Uncert.chi2Cdf (Uncert.ddof result.length) (2 * (l - best)) > 0.95 then
      return ((low, center, center), s)
    else return ((center, high, center), s)

/-- The loop of the bisection (modules/opening_angle.py:283-285). -/
noncomputable def Circ.bisect {σ : Type} (c : Circ) (rng : Rng σ) (result : Row) (zen azi best : ℝ) :
    Nat → σ → ℝ → ℝ → ℝ → Except Err (ℝ × σ)
  | 0, s, _, _, center => .ok (center, s)
  | n + 1, s, low, high, _ =>
    match c.bisection rng result zen azi best s low high with
    | .error e => .error e
    | .ok ((low, high, center), s) => c.bisect rng result zen azi best n s low high center

/-- The entries of the result, and the state of the generator. -/
structure CircOut (σ : Type) where
  deltaPsi : List ℝ
  deltaLoss : List ℝ
  unc : ℝ
  uncDeg : ℝ
  state : σ

/-- `execute` (modules/opening_angle.py:191-325): `resultTrafo` and `result` are the row of the fit
and the event. The first opening angles (lines 291-292) are drawn and not used. -/
noncomputable def Circ.execute {σ : Type} (c : Circ) (rng : Rng σ) (resultTrafo result : Row) (s : σ) :
    Except Err (CircOut σ) := do
  if ¬ c.fit.all id then throw .assertionError
  let best ← c.toScan.lossFunction result resultTrafo
  let zen ← getCol result c.zen
  let azi ← getCol result c.azi
  let (upper, s) ← match c.range with
    | some r => pure (r, s)
    | none => do
      let (center, s) ← c.bisect rng result zen azi best 4 s 0 90 0
      pure (min 89.9 center, s)
  let s := rng.next s c.num
  let deltaPsi := Uncert.linspace upper c.num
  let (ds, s) ← directions rng s zen azi deltaPsi
  let ls ← c.losses result ds
  let deltaLoss := ls.map fun l => l - best
  let uncDeg := c.minimize (deltaPsi.zip deltaLoss)
  return ⟨deltaPsi, deltaLoss, uncDeg * Real.pi / 180, uncDeg, s⟩

/-! ## The goodness of fit -/

/-- The loss of an event in terms: a number, a number for the event and one for each DOM
(loss/default.py, with `sort_loss_terms`). -/
structure Terms where
  scalar : ℝ
  event : ℝ
  dom : ℕ × ℕ → ℝ

/-- The sum of the terms (modules/fit_quality.py:359-361, 400-402). Without values for each DOM the
loss function computes this sum (C35). -/
noncomputable def Terms.total (t : Terms) : ℝ := (Sampling.doms.map t.dom).sum + t.event + t.scalar

/-- The module with what it works with. `mvn` are the rows of `multivariate_normal`, `npe` the
sampled numbers of photo electrons for all hypotheses, `pulses` is `sample_event_pulses` (in
Sampling) for a hypothesis and its numbers of photo electrons, `reco` the fit of a batch with a
seed, `terms` the loss of a hypothesis for a batch. -/
structure Goodness (σ β : Type) where
  fit : List Bool
  trafo : Bool
  fwd : Nat → ℝ → ℝ
  inv : Nat → ℝ → ℝ
  isLog : List Bool
  numSamples : Nat
  reconstruct : Bool
  normalize : Bool
  mvn : σ → Row → Nat → List Row × σ
  npe : σ → List Row → List (ℕ × ℕ → ℕ) × σ
  pulses : σ → Row → (ℕ × ℕ → ℕ) → Except Err ((List Sampling.Row × List (ℕ × ℕ × ℕ)) × σ)
  reco : Sampling.Batch β → Row → Row
  terms : Row → Sampling.Batch β → Terms

variable {σ β : Type}

/-- A function applied to the flagged columns (modules/fit_quality.py:239-252). -/
def onLog (f : ℝ → ℝ) : List Bool → Row → Row
  | true :: ms, x :: xs => f x :: onLog f ms xs
  | false :: ms, x :: xs => x :: onLog f ms xs
  | _, xs => xs

/-- `sampled_hypotheses` (modules/fit_quality.py:231-257): `cov` tells whether there is a covariance
matrix. -/
noncomputable def Goodness.hypotheses (g : Goodness σ β) (cov : Bool) (s : σ) (result : Row) :
    List Row × σ :=
  if cov then
    let (rows, s) := g.mvn s (onLog (fun x => Real.log (1 + x)) g.isLog result) g.numSamples
    (rows.map (onLog (fun x => Real.exp x - 1) g.isLog), s)
  else (List.replicate g.numSamples result, s)

/-- The hypothesis in parameter space for a row of fitted values and a seed
(manager/source.py:94-130, modules/utils/trafo.py:42-72). -/
def Goodness.full (g : Goodness σ β) (seed p : Row) : Row :=
  let all := if g.fit.all id then p
    else fill g.fit p (if g.trafo then mapCols g.fwd seed else seed)
  if g.trafo then mapCols g.inv all else all

/-- The loss function (manager/source.py:210-226): the signature refuses rows of other lengths. -/
def Goodness.loss (g : Goodness σ β) (seed p : Row) (b : Sampling.Batch β) : Except Err Terms :=
  if p.length ≠ numFit g.fit then .error .valueError else .ok (g.terms (g.full seed p) b)

/-- Assignment of a row to a row of an array with `n` columns, with broadcasting
(modules/fit_quality.py:346). -/
def assign (n : Nat) (r : Row) : Except Err Row :=
  if r.length = n then .ok r
  else
    match r with
    | [v] => .ok (List.replicate n v)
    | _ => .error .valueError

/-- What is kept of a sample: the row of fitted values and the loss. -/
structure Sample where
  reco : Row
  terms : Terms

/-- The body of the loop over samples (modules/fit_quality.py:298-365). -/
def Goodness.sample (g : Goodness σ β) (data : Sampling.Batch β) (s : σ) (h : Row)
    (charges : ℕ × ℕ → ℕ) : Except Err (Sample × σ) := do
  let (x, s) ← g.pulses s h charges
  let batch := Sampling.sampleBatch data x
  let r := if g.reconstruct then g.reco batch h else if g.trafo then mapCols g.fwd h else h
  let kept ← assign h.length r
  let terms ← g.loss h r batch
  return (⟨kept, terms⟩, s)

/-- The loop over samples (modules/fit_quality.py:297-372). -/
def Goodness.samples (g : Goodness σ β) (data : Sampling.Batch β) :
    σ → List (Row × (ℕ × ℕ → ℕ)) → Except Err (List Sample × σ)
  | s, [] => .ok ([], s)
  | s, (h, q) :: rest => do
    let (a, s) ← g.sample data s h q
    let (as, s) ← g.samples data s rest
    return (a :: as, s)

/-- The sum of the charges of all DOMs (modules/fit_quality.py:267). -/
def total (q : ℕ × ℕ → ℕ) : ℕ := (Sampling.doms.map q).sum

/-- The result, and the state of the generator. `losses` are the values from which minimum, maximum,
mean, median and standard deviation are taken. -/
structure GoodnessOut (σ : Type) where
  hypotheses : List Row
  recos : List Row
  bias : Row
  losses : List ℝ
  dataLoss : ℝ
  event : ℝ × ℝ
  dom : ℕ × ℕ → Except Err (ℝ × ℝ)
  state : σ

/-- `np.mean(sampled_hypotheses - sample_recos, axis=0)` (modules/fit_quality.py:386-387), for rows
of length `n`. -/
noncomputable def bias (n : Nat) (hs rs : List Row) : Row :=
  (List.range n).map fun i =>
    ((hs.zip rs).map fun p => p.1.getD i 0 - p.2.getD i 0).sum / (hs.length : ℝ)

/-- `execute` (modules/fit_quality.py:209-486). `dataTotal` is the sum of the measured charges.
Without samples, the seed of the last line of the loop is not defined (line 395). The values for each
DOM (408-437) are divided by the total charge. -/
noncomputable def Goodness.execute (g : Goodness σ β) (lib : Sampling.Lib) (cov : Bool)
    (resultTrafo result : Row) (data : Sampling.Batch β) (dataTotal : ℝ) (s : σ) :
    Except Err (GoodnessOut σ) := do
  let (hs, s) := g.hypotheses cov s result
  let (qs, s) := g.npe s hs
  let (samples, s) ← g.samples data s (hs.zip qs)
  let recos := (hs.zip samples).map fun p => g.full p.1 p.2.reco
  match hs.getLast? with
  | none => throw .nameError
  | some seed =>
    let dataTerms ← g.loss seed resultTrafo data
    let norm (l : ℝ) (t : ℝ) : ℝ := if g.normalize then l / (t + 1) else l
    let losses := (samples.zip qs).map fun p => norm p.1.terms.total (total p.2)
    let dataLoss := norm dataTerms.total dataTotal
    let event ← Sampling.pValue lib losses dataLoss
    return ⟨hs, recos, bias result.length hs recos, losses, dataLoss, event,
      fun d => Sampling.pValue lib
        ((samples.zip qs).map fun p => norm (p.1.terms.dom d) (total p.2))
        (norm (dataTerms.dom d) dataTotal), s⟩

end Verif.Quality
