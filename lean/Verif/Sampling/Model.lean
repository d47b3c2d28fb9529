/-
Model of the sampling of pulses (`egenerator/ic3/simulation.py:sample_pulses` and
`egenerator/manager/reconstruction/modules/fit_quality.py:sample_event_pulses`) and of the p-values of
the goodness of fit. Floating point numbers are modelled by real numbers.
-/
import Mathlib.Data.Real.Basic
import Mathlib.Algebra.BigOperators.Group.List.Basic
import Verif.Py.Dict

namespace Verif.Sampling
open Verif.Py

/-- The library functions `np.searchsorted(a, v)` (side left), `np.argsort` and `np.sort`. -/
structure Lib where
  search : List ℝ → ℝ → ℕ
  argsort : List ℝ → List ℕ
  sort : List ℝ → List ℝ

/-- `np.cumsum` with a start value. -/
noncomputable def cumsum : ℝ → List ℝ → List ℝ
  | _, [] => []
  | acc, x :: rest => (acc + x) :: cumsum (acc + x) rest

/-- The cumulative weights with the last one replaced (simulation.py:294-302, fit_quality.py:271-280).
-/
noncomputable def cumScale (scale : List ℝ) : List ℝ :=
  (cumsum 0 scale).set (scale.length - 1) 1.00000001

/-- The mixture of one DOM and one source: weights and parameters of the components. -/
structure Mixture where
  scale : List ℝ
  mu : List ℝ
  sigma : List ℝ
  r : List ℝ

/-- The random numbers drawn for one DOM and one source: charges and pairs of uniform numbers. -/
structure Draw where
  charges : List ℝ
  rngs : List (ℝ × ℝ)

/-- The charges (simulation.py:325-327, fit_quality.py:592-593). -/
noncomputable def charges (n : ℕ) (d : Draw) : List ℝ :=
  d.charges.map (fun c => c * ((n : ℝ) / d.charges.sum))

/-- The time of one pulse (simulation.py:334-349, fit_quality.py:600-615). `ppf` is
`asymmetric_gauss_ppf`. Indexing with an index that is too large raises. -/
noncomputable def time (lib : Lib) (ppf : ℝ → ℝ → ℝ → ℝ → ℝ) (m : Mixture) (t0 : ℝ) (u : ℝ × ℝ) :
    Except Err ℝ :=
  let k := lib.search (cumScale m.scale) u.1
  match m.mu[k]?, m.sigma[k]?, m.r[k]? with
  | some mu, some sigma, some r => .ok (ppf u.2 mu sigma r * 1000 + t0)
  | _, _, _ => .error .indexError

/-- All times, or the first exception. -/
noncomputable def times (lib : Lib) (ppf : ℝ → ℝ → ℝ → ℝ → ℝ) (m : Mixture) (t0 : ℝ) :
    List (ℝ × ℝ) → Except Err (List ℝ)
  | [] => .ok []
  | u :: rest =>
    match time lib ppf m t0 u with
    | .error e => .error e
    | .ok t =>
      match times lib ppf m t0 rest with
      | .error e => .error e
      | .ok ts => .ok (t :: ts)

/-- Indexing an array with an array of indices. -/
def take (l : List ℝ) : List ℕ → Except Err (List ℝ)
  | [] => .ok []
  | i :: rest =>
    match l[i]? with
    | none => .error .indexError
    | some x =>
      match take l rest with
      | .error e => .error e
      | .ok xs => .ok (x :: xs)

/-- Sorting in time (simulation.py:357-360, fit_quality.py:617-620). -/
noncomputable def sortPulses (lib : Lib) (ts cs : List ℝ) : Except Err (List ℝ × List ℝ) :=
  match take ts (lib.argsort ts) with
  | .error e => .error e
  | .ok ts' =>
    match take cs (lib.argsort ts) with
    | .error e => .error e
    | .ok cs' => .ok (ts', cs')

/-! ### The simulation module -/

/-- One source of the simulation at one DOM: the sampled number of photo electrons (a natural number:
draws of a negative binomial distribution are not negative), its mixture, time and random numbers. -/
structure Part where
  n : ℕ
  mixture : Mixture
  t0 : ℝ
  draw : Draw

/-- The loop over cascades for one DOM (simulation.py:314-352), with the two concatenations
(simulation.py:354-355): times and charges. -/
noncomputable def parts (lib : Lib) (ppf : ℝ → ℝ → ℝ → ℝ → ℝ) :
    List Part → Except Err (List ℝ × List ℝ)
  | [] => .ok ([], [])
  | p :: rest =>
    if p.n ≤ 0 then parts lib ppf rest
    else
      match times lib ppf p.mixture p.t0 p.draw.rngs with
      | .error e => .error e
      | .ok ts =>
        match parts lib ppf rest with
        | .error e => .error e
        | .ok r => .ok (ts ++ r.1, charges p.n p.draw ++ r.2)

/-- One DOM (simulation.py:310-372): its pulses (time, charge), or nothing. -/
noncomputable def domPulses (lib : Lib) (ppf : ℝ → ℝ → ℝ → ℝ → ℝ) (ps : List Part) :
    Except Err (Option (List (ℝ × ℝ))) :=
  if (ps.map (·.n)).sum ≤ 0 then .ok none
  else
    match parts lib ppf ps with
    | .error e => .error e
    | .ok (ts, cs) =>
      match sortPulses lib ts cs with
      | .error e => .error e
      | .ok (ts', cs') => .ok (some (ts'.zip cs'))

/-- The detector: strings and DOMs in the order of the loops (simulation.py:307-308). -/
def doms : List (ℕ × ℕ) :=
  (List.range 86).flatMap (fun s => (List.range 60).map (fun o => (s, o)))

/-- The loop over DOMs of `sample_pulses` (simulation.py:304-374): the series of pulses by
`OMKey(string + 1, om + 1)`. -/
noncomputable def samplePulses (lib : Lib) (ppf : ℝ → ℝ → ℝ → ℝ → ℝ) (src : ℕ × ℕ → List Part) :
    List (ℕ × ℕ) → Dict (ℕ × ℕ) (List (ℝ × ℝ)) → Except Err (Dict (ℕ × ℕ) (List (ℝ × ℝ)))
  | [], map => .ok map
  | d :: rest, map =>
    match domPulses lib ppf (src d) with
    | .error e => .error e
    | .ok none => samplePulses lib ppf src rest map
    | .ok (some ps) => samplePulses lib ppf src rest (Dict.set map (d.1 + 1, d.2 + 1) ps)

/-! ### The goodness of fit -/

/-- A row of the array of pulses: charge, time and, if asked for, the charge quantile. -/
structure Row where
  charge : ℝ
  time : ℝ
  quantile : Option ℝ

/-- The charge quantiles (fit_quality.py:626). -/
noncomputable def quantiles (cs : List ℝ) : List ℝ := (cumsum 0 cs).map (fun x => x / cs.sum)

/-- `np.stack(pulse_elements, axis=1)` (fit_quality.py:623-627). -/
noncomputable def rows (quant : Bool) (ts cs : List ℝ) : List Row :=
  if quant then
    (cs.zip (ts.zip (quantiles cs))).map (fun p => ⟨p.1, p.2.1, some p.2.2⟩)
  else (cs.zip ts).map (fun p => ⟨p.1, p.2, none⟩)

/-- The loop over DOMs of `sample_event_pulses` (fit_quality.py:578-631): pairs of rows and
identifiers, one list for each hit DOM. -/
noncomputable def eventLoop (lib : Lib) (ppf : ℝ → ℝ → ℝ → ℝ → ℝ) (quant : Bool) (src : ℕ × ℕ → Part) :
    List (ℕ × ℕ) → Except Err (List (List Row × List (ℕ × ℕ × ℕ)))
  | [] => .ok []
  | d :: rest =>
    let p := src d
    if p.n ≤ 0 then eventLoop lib ppf quant src rest
    else
      match times lib ppf p.mixture p.t0 p.draw.rngs with
      | .error e => .error e
      | .ok ts =>
        match sortPulses lib ts (charges p.n p.draw) with
        | .error e => .error e
        | .ok (ts', cs') =>
          match eventLoop lib ppf quant src rest with
          | .error e => .error e
          | .ok r => .ok ((rows quant ts' cs', List.replicate p.n (0, d.1, d.2)) :: r)

/-- `sample_event_pulses` (fit_quality.py:536-636). Concatenation of an empty list raises. -/
noncomputable def eventPulses (lib : Lib) (ppf : ℝ → ℝ → ℝ → ℝ → ℝ) (quant : Bool)
    (src : ℕ × ℕ → Part) : Except Err (List Row × List (ℕ × ℕ × ℕ)) :=
  match eventLoop lib ppf quant src doms with
  | .error e => .error e
  | .ok [] => .error .valueError
  | .ok (c :: cs) => .ok (((c :: cs).map (·.1)).flatten, ((c :: cs).map (·.2)).flatten)

/-- `compute_p_value` (fit_quality.py:488-513). -/
noncomputable def pValue (lib : Lib) (samples : List ℝ) (data : ℝ) : Except Err (ℝ × ℝ) :=
  let n : ℝ := samples.length
  let half := n / 2
  let idx : ℝ := lib.search (lib.sort samples) data
  if samples.length = 0 then .error .zeroDivisionError
  else .ok ((n - idx) / n, (half - |half - idx|) / half)

/-- A batch of data of one event: pulses and their identifiers, charge at each DOM, and the rest. -/
structure Batch (β : Type) where
  pulses : List Row
  ids : List (ℕ × ℕ × ℕ)
  domCharge : ℕ × ℕ → ℝ
  rest : β

/-- The batch of a sampled event (fit_quality.py:321-324): only the entries of pulses and identifiers
are replaced. -/
def sampleBatch {β : Type} (data : Batch β) (x : List Row × List (ℕ × ℕ × ℕ)) : Batch β :=
  { data with pulses := x.1, ids := x.2 }

/-- The test statistics and the p-value of the whole event (fit_quality.py:352-365, 390-426): `loss` is
the loss function of a hypothesis and a batch, `samples` are hypotheses, sampled pulses and total
sampled charges. (The loss of a sample is that of the reconstructed or the sampled hypothesis; here it
is the given one. The per DOM values are computed in the same way.) -/
noncomputable def eventPValue {β γ : Type} (lib : Lib) (loss : γ → Batch β → ℝ) (normalize : Bool)
    (dataTotal : ℝ) (fit : γ) (data : Batch β)
    (samples : List (γ × (List Row × List (ℕ × ℕ × ℕ)) × ℕ)) : Except Err (ℝ × ℝ) :=
  if normalize then
    pValue lib (samples.map (fun s => loss s.1 (sampleBatch data s.2.1) / ((s.2.2 : ℝ) + 1)))
      (loss fit data / (dataTotal + 1))
  else pValue lib (samples.map (fun s => loss s.1 (sampleBatch data s.2.1))) (loss fit data)

end Verif.Sampling
