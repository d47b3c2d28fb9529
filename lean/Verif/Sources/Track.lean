import Verif.Sources.Model
import Mathlib.Analysis.SpecialFunctions.Trigonometric.Basic

/-!
# Model of the multi sources of muons and tracks

`egenerator/model/multi_source/muon/default.py` and
`egenerator/model/multi_source/track/stochastic_track.py`, on one event, over the real numbers.
Parameter names are constructors instead of strings: the names of the code, which are made with
`'cascade_{:04d}'.format(i)`, are distinct for distinct constructors as long as the configured
snowstorm names are.
-/

namespace Verif.Sources.Track
open Verif.Py

/-- The parameter names of both multi sources. -/
inductive PName where
  | x | y | z | zenith | azimuth | time
  | anchorX | anchorY | anchorZ | anchorTime | trackEnergy | distanceStart | distanceEnd
  | stochasticity
  | logEnergy (i : Nat)
  | energy (i : Nat)
  | distance (i : Nat)
  | snowstorm (j : Nat)
  deriving DecidableEq

/-- The names of the sources: `'track'` and `'cascade_{:04d}'`. -/
inductive SName where
  | track
  | cascade (i : Nat)
  deriving DecidableEq

/-- The parameter names of the muon
(`get_parameters_and_mapping`, model/multi_source/muon/default.py:52-65). -/
def muonNames (n : Nat) : List PName :=
  [.x, .y, .z, .zenith, .azimuth, .time] ++ (List.range n).map .logEnergy

/-- The direction of flight (muon/default.py:96-99, track/stochastic_track.py:124-127). -/
noncomputable def dir (zenith azimuth : ℝ) : ℝ × ℝ × ℝ :=
  (-Real.sin zenith * Real.cos azimuth, -Real.sin zenith * Real.sin azimuth, -Real.cos zenith)

/-- `np.linspace(-distance, distance, n)[i]` (muon/default.py:119-121): with one point it is the
start. -/
noncomputable def linspace (distance : ℝ) (n i : Nat) : ℝ :=
  if n ≤ 1 then -distance else -distance + i * (2 * distance / (n - 1))

/-- The energies of cascades far out are set to zero (muon/default.py:134-140). -/
noncomputable def cutEnergy (dThresh x y z e : ℝ) : ℝ :=
  let e := if |x| > dThresh then e * 0 else e
  let e := if |y| > dThresh then e * 0 else e
  if |z| > dThresh then e * 0 else e

/-- The loop over the cascades of a muon (muon/default.py:123-145). -/
noncomputable def muonLoop (p : Dict PName ℝ) (n : Nat) (d : ℝ × ℝ × ℝ) (cx cy cz ct : ℝ)
    (zenith azimuth : ℝ) : List Nat → Except Err (Dict SName (List ℝ))
  | [] => .ok []
  | i :: rest =>
    let dist := linspace 500 n i
    let x := cx + dist * d.1
    let y := cy + dist * d.2.1
    let z := cz + dist * d.2.2
    let t := ct + dist / 0.299792458
    match item p (.logEnergy i) with
    | .error e => .error e
    | .ok le =>
      match muonLoop p n d cx cy cz ct zenith azimuth rest with
      | .error e => .error e
      | .ok r =>
        .ok ((.cascade i, [x, y, z, zenith, azimuth, cutEnergy 700 x y z (Real.exp le), t]) :: r)

/-- `DefaultMultiCascadeModel.get_source_parameters` (muon/default.py:67-147) with `n` cascades,
after `add_parameter_indexing`. The dictionary is written in the order of its keys. -/
noncomputable def muonParameters (n : Nat) (row : List ℝ) : Except Err (Dict SName (List ℝ)) := do
  let p ← indexer row (muonNames n)
  let x ← item p .x
  let y ← item p .y
  let z ← item p .z
  let zenith ← item p .zenith
  let azimuth ← item p .azimuth
  let time ← item p .time
  let d := dir zenith azimuth
  let hx := 0 - x
  let hy := 0 - y
  let hz := 0 - z
  let s := d.1 * hx + d.2.1 * hy + d.2.2 * hz
  muonLoop p n d (x + s * d.1) (y + s * d.2.1) (z + s * d.2.2) (time + s / 0.299792458)
    zenith azimuth (List.range n)

/-- The parameter names of the track with `n` cascades and `k` snowstorm parameters
(`get_parameters_and_mapping`, track/stochastic_track.py:59-88). -/
def trackNames (n k : Nat) : List PName :=
  [.zenith, .azimuth, .anchorX, .anchorY, .anchorZ, .anchorTime, .trackEnergy, .distanceStart,
    .distanceEnd, .stochasticity] ++
  (if 1 ≤ n then
    .energy 0 :: (List.range' 1 (n - 1)).flatMap fun i => [.energy i, .distance i]
   else []) ++
  (List.range k).map .snowstorm

/-- `parameters[:, -k:]` on one row (track/stochastic_track.py:121-122); `-0` is `0`. -/
def lastColumns {K : Type} (k : Nat) (row : List K) : List K :=
  if k = 0 then row else row.drop (row.length - k)

/-- The loop over the further cascades of a track (track/stochastic_track.py:178-199). -/
noncomputable def trackLoop (p : Dict PName ℝ) (snow : List ℝ) (d : ℝ × ℝ × ℝ)
    (ax ay az at' zenith azimuth : ℝ) : List Nat → Except Err (Dict SName (List ℝ))
  | [] => .ok []
  | i :: rest =>
    match item p (.distance i) with
    | .error e => .error e
    | .ok s =>
      match item p (.energy i) with
      | .error e => .error e
      | .ok e =>
        match trackLoop p snow d ax ay az at' zenith azimuth rest with
        | .error e => .error e
        | .ok r =>
          .ok ((.cascade i, [ax + s * d.1, ay + s * d.2.1, az + s * d.2.2, zenith, azimuth, e,
            at' + s / 0.299792458] ++ snow) :: r)

/-- `StochasticTrackModel.get_source_parameters` (track/stochastic_track.py:90-201) with `n`
cascades and `k` snowstorm parameters, after `add_parameter_indexing`. -/
noncomputable def trackParameters (n k : Nat) (row : List ℝ) :
    Except Err (Dict SName (List ℝ)) := do
  let p ← indexer row (trackNames n k)
  let ax ← item p .anchorX
  let ay ← item p .anchorY
  let az ← item p .anchorZ
  let zenith ← item p .zenith
  let azimuth ← item p .azimuth
  let at' ← item p .anchorTime
  let s ← item p .distanceStart
  let e ← item p .distanceEnd
  let snow := lastColumns k row
  let d := dir zenith azimuth
  let energy ← item p .trackEnergy
  let stoch ← item p .stochasticity
  let track := [ax + s * d.1, ay + s * d.2.1, az + s * d.2.2, zenith, azimuth, energy,
    at' + s / 0.299792458, e - s, stoch] ++ snow
  if 1 ≤ n then do
    let e0 ← item p (.energy 0)
    let first := [ax, ay, az, zenith, azimuth, e0, at'] ++ snow
    let rest ← trackLoop p snow d ax ay az at' zenith azimuth (List.range' 1 (n - 1))
    .ok ((.track, track) :: (.cascade 0, first) :: rest)
  else .ok [(.track, track)]

end Verif.Sources.Track
