import Verif.Sphere.Model
import Verif.Sources.Model
import Mathlib.Analysis.SpecialFunctions.Log.Basic
import Mathlib.Analysis.SpecialFunctions.Trigonometric.Basic

/-!
# The inputs of the networks

The part of the source models before the network, for one event and one DOM, over the real numbers:

* `DefaultCascadeModel` (model/source/cascade/default.py:49-81, 185-291) and
  `ChargeQuantileCascadeModel` (model/source/cascade/charge_quantiles.py:61-125, 211-322), which has
  the same lines without additional labels, and whose second network is included (491-529);
* `SystematicsCascadeModel` (model/source/cascade/systematic.py:49-92, 208-352);
* `StochasticTrackSegmentModel` (model/source/track/stochastic_segment.py:49-76, 102-172, 245-503).

A channel is `none` if its value is not a finite number (`nan` or infinite); rounding and overflow
are not modelled. The divisors `std + norm_constant` are taken as they are: they are positive, because
`norm_constant` is.
-/

namespace Verif.Inputs
open Verif.Py Verif.Sphere

/-- One input channel: `none` is a value that is not finite. -/
abbrev Chan := Option ℝ

/-- The settings the sources read when they build their inputs. -/
structure Config where
  /-- `additional_label_names`, empty if not set -/
  additional : List String
  /-- `snowstorm_parameter_names`, empty if not set: templates of names and how many of them -/
  snowstorm : List (String × ℕ)
  /-- `add_opening_angle` -/
  openingAngle : Bool
  /-- `add_anisotropy_angle` (systematics model only) -/
  anisotropyAngle : Bool
  /-- `add_dom_coordinates` -/
  domCoordinates : Bool
  /-- `num_local_vars` -/
  numLocal : ℕ
  /-- `num_filters_list[-1]` -/
  numFilters : ℕ

/-- What is used of the data transformation: the transformation of each column of the parameters,
`..._mean`, `..._std` and `norm_constant`, and `trafo_log[5]`. -/
structure Trafo where
  col : ℕ → ℝ → ℝ
  mean : ℕ → ℝ
  std : ℕ → ℝ
  normConst : ℝ
  logEnergy : Bool

/-- The names of the snowstorm parameters (cascade/default.py:62-67): `param_name.format(i)` is an arbitrary
function. -/
def snowNames (fmt : String → ℕ → String) : List (String × ℕ) → List String
  | [] => []
  | (p, num) :: rest => (List.range num).map (fmt p) ++ snowNames fmt rest

/-- `num_snowstorm_params` (cascade/default.py:62-65). -/
def numSnow : List (String × ℕ) → ℕ
  | [] => 0
  | (_, num) :: rest => num + numSnow rest

/-- The names of the parameters of a cascade (cascade/default.py:54-67). -/
def cascadeNames (fmt : String → ℕ → String) (cfg : Config) : List String :=
  ["x", "y", "z", "zenith", "azimuth", "energy", "time"] ++ cfg.additional ++
    snowNames fmt cfg.snowstorm

/-- The names of the parameters of a track segment (track/stochastic_segment.py:54-62). -/
def segmentNames (fmt : String → ℕ → String) (cfg : Config) : List String :=
  ["x", "y", "z", "zenith", "azimuth", "energy", "time", "length", "stochasticity"] ++
    snowNames fmt cfg.snowstorm

/-- The inputs that are added if the settings say so: opening angle, coordinates of the DOM, local
variables (cascade/default.py:71-81, track/stochastic_segment.py:66-76). -/
def numOptions (cfg : Config) : ℕ :=
  (if cfg.openingAngle then 1 else 0) + (if cfg.domCoordinates then 3 else 0) +
    (if cfg.numLocal > 0 then cfg.numLocal else 0)

/-- `num_inputs` (cascade/default.py:69-81, and cascade/charge_quantiles.py:77-89 without additional labels). -/
def numInputs (cfg : Config) : ℕ := 11 + cfg.additional.length + numSnow cfg.snowstorm + numOptions cfg

/-- `num_inputs` (track/stochastic_segment.py:64-76). -/
def segmentNumInputs (cfg : Config) : ℕ := 16 + numSnow cfg.snowstorm + numOptions cfg

/-- `num_inputs` of the first network of the systematics model (cascade/systematic.py:68, 88-92). -/
def localNumInputs (cfg : Config) : ℕ := 4 + (if cfg.numLocal > 0 then cfg.numLocal else 0)

/-- `num_shared_inputs` of the second network of the systematics model (cascade/systematic.py:69-86). The
subtraction of the code is on integers. -/
def sharedNumInputs (fmt : String → ℕ → String) (cfg : Config) : ℤ :=
  let sys : ℤ := numSnow cfg.snowstorm
  let sys := if "DOMEfficiency" ∈ cascadeNames fmt cfg then sys - 1 else sys
  8 + cfg.additional.length + sys + cfg.numFilters + (if cfg.openingAngle then 1 else 0) +
    (if cfg.anisotropyAngle then 1 else 0) + (if cfg.domCoordinates then 3 else 0)

/-! ## Geometry -/

/-- The direction of flight (cascade/default.py:221-225, track/stochastic_segment.py:291-294). -/
noncomputable def dir (zenith azimuth : ℝ) : V3 :=
  ⟨-Real.sin zenith * Real.cos azimuth, -Real.sin zenith * Real.sin azimuth, -Real.cos zenith⟩

/-- A vector divided by its length, as far as that is possible (cascade/default.py:216-218). -/
noncomputable def normed (v : V3) (d : ℝ) : Option V3 := if d = 0 then none else some (sdiv v d)

/-- The three coordinates as channels. -/
def coords : Option V3 → List Chan
  | none => [none, none, none]
  | some v => [some v.x, some v.y, some v.z]

/-- `np.linalg.norm(params_std[0:3]) + norm_const` (cascade/default.py:242). -/
noncomputable def posScale (t : Trafo) : ℝ :=
  Real.sqrt (t.std 0 ^ 2 + t.std 1 ^ 2 + t.std 2 ^ 2) + t.normConst

/-- The transformed opening angle (cascade/default.py:228-235, 243-244). -/
noncomputable def angleChannel (t : Trafo) (d : V3) (n : Option V3) : Chan :=
  n.map (fun n => (getAngle d n - t.mean 3) / (t.normConst + t.std 3))

/-- The coordinates of the DOM (cascade/default.py:268-280). -/
noncomputable def domChannels (dom : V3) : List Chan :=
  [some (dom.x / 284), some (dom.y / 284), some (dom.z / 284)]

/-- The optional channels (cascade/default.py:265-289, track/stochastic_segment.py:457-481). -/
noncomputable def options (cfg : Config) (t : Trafo) (localVars : List ℝ) (dom : V3) (d : V3)
    (n : Option V3) : List Chan :=
  (if cfg.openingAngle then [angleChannel t d n] else []) ++
    (if cfg.domCoordinates then domChannels dom else []) ++
    (if cfg.numLocal > 0 then localVars.map some else [])

/-! ## Cascades -/

/-- The inputs of the network of a cascade (cascade/default.py:185-291). The code unstacks the parameters;
fewer than seven of them make it raise. -/
noncomputable def defaultInputs (cfg : Config) (t : Trafo) (localVars : List ℝ) (dom : V3) :
    List ℝ → Except Err (List Chan)
  | x :: y :: z :: zenith :: azimuth :: energy :: time :: rest =>
    let tr := (x :: y :: z :: zenith :: azimuth :: energy :: time :: rest).mapIdx t.col
    let v := sub dom ⟨x, y, z⟩
    let distance := norm v
    let n := normed v distance
    let d := dir zenith azimuth
    .ok ((tr.take 3).map some ++ coords (some d) ++ ((tr.drop 5).take 1).map some ++
      (tr.drop 7).map some ++ coords n ++ [some (distance / posScale t)] ++
      options cfg t localVars dom d n)
  | _ => .error .indexError

/-- `num_fc_inputs` of the second network of the quantile model (cascade/charge_quantiles.py:117-125). -/
def fcNumInputs (numFilters nCharge : ℕ) (addPredicted : Bool) : ℤ :=
  (numFilters : ℤ) - 1 + 3 - ((nCharge : ℤ) - 1) + (if addPredicted then 2 else 0)

/-- `tf.math.log`: not finite unless the argument is positive. -/
noncomputable def chanLog (x : Chan) : Chan := x.bind (fun x => if 0 < x then some (Real.log x) else none)

/-- A quotient: not finite if the divisor is zero. -/
noncomputable def chanDiv (x y : ℝ) : Chan := if y = 0 then none else some (x / y)

/-- The inputs of the second network of the quantile model for one pulse (cascade/charge_quantiles.py:491-529):
`out` is the output of the first network at the DOM of the pulse. -/
noncomputable def fcInputs (nCharge : ℕ) (addPredicted : Bool) (out : List ℝ)
    (quantile charge domTrue domPredicted : ℝ) : List Chan :=
  [chanLog (some quantile), (chanLog (some (domTrue + 1))).map (0.1 * ·),
    chanLog (chanDiv charge domTrue)] ++ (out.drop nCharge).map some ++
    (if addPredicted then [(chanLog (some (domPredicted + 1))).map (0.1 * ·),
      chanLog (chanDiv charge domPredicted)] else [])

/-- The parameters for the second network of the systematics model (cascade/systematic.py:338-343): the loop
over `self.parameter_names[7:]`. -/
def addLoop (names : List String) (tr : List ℝ) : List String → Except Err (List ℝ)
  | [] => .ok []
  | p :: ps =>
    if p ≠ "DOMEfficiency" then
      match Sources.getIndex names p with
      | .error e => .error e
      | .ok i =>
        match tr[i.toNat]? with
        | none => .error .indexError
        | some v =>
          match addLoop names tr ps with
          | .error e => .error e
          | .ok vs => .ok (v :: vs)
    else addLoop names tr ps

/-- The azimuth of the displacement (cascade/systematic.py:260-264, 274-275). -/
noncomputable def anisotropyChannel (t : Trafo) (n : Option V3) : Chan :=
  n.map (fun n => (pymod (arctan2 (-n.y) (-n.x) + 2 * Real.pi) (2 * Real.pi) - t.mean 4) /
    (t.normConst + t.std 4))

/-- The inputs of the two networks of the systematics model (cascade/systematic.py:208-352). `layer` is the
first network at this DOM. Stacking an empty list raises. -/
noncomputable def systematicInputs (cfg : Config) (names : List String) (t : Trafo)
    (layer : List Chan → List Chan) (localVars : List ℝ) (dom : V3) :
    List ℝ → Except Err (List Chan × List Chan)
  | x :: y :: z :: zenith :: azimuth :: energy :: time :: rest =>
    let tr := (x :: y :: z :: zenith :: azimuth :: energy :: time :: rest).mapIdx t.col
    let v := sub dom ⟨x, y, z⟩
    let distance := norm v
    let n := normed v distance
    let d := dir zenith azimuth
    let geometry := coords n ++ [some (distance / posScale t)]
    let first := geometry ++ (if cfg.numLocal > 0 then localVars.map some else [])
    match addLoop names tr (names.drop 7) with
    | .error e => .error e
    | .ok [] => .error .indexError
    | .ok (a :: as) =>
      .ok (first, coords (some d) ++ ((tr.drop 5).take 1).map some ++ geometry ++
        (if cfg.openingAngle then [angleChannel t d n] else []) ++
        (if cfg.anisotropyAngle then [anisotropyChannel t n] else []) ++
        (if cfg.domCoordinates then domChannels dom else []) ++ (a :: as).map some ++ layer first)
  | _ => .error .indexError

/-! ## Track segments -/

/-- `tf.math.softplus`. -/
noncomputable def softplus (x : ℝ) : ℝ := Real.log (1 + Real.exp x)

/-- `shift_distance_on_track` (track/stochastic_segment.py:136-172). -/
noncomputable def shift (length distance : ℝ) : ℝ :=
  distance + softplus (-distance) - softplus (distance - length)

/-- `get_dep_energy` (track/stochastic_segment.py:102-134). -/
noncomputable def depEnergy (energy length d1 d2 : ℝ) : Chan :=
  (chanDiv |shift length d2 - shift length d1| length).map (energy * ·)

/-- `cherenkov_angle` (track/stochastic_segment.py:364). -/
noncomputable def cherenkovAngle : ℝ := Real.arccos (1 / 1.3195)

/-- What `get_tensors` computes from the geometry of track and DOM (track/stochastic_segment.py:273-388). -/
structure Geometry where
  /-- `track_length` -/
  length : ℝ
  /-- `dir_x`, `dir_y`, `dir_z` -/
  dir : V3
  /-- `dist_infinite_approach` -/
  infinite : ℝ
  /-- `dist_closest_approach` -/
  closest : ℝ
  /-- `infinite_x`, `infinite_y`, `infinite_z` -/
  infinitePoint : V3
  /-- `closest_x`, `closest_y`, `closest_z` -/
  closestPoint : V3
  /-- `dx`, `dy`, `dz` -/
  displacement : V3
  /-- `distance`, before it is scaled -/
  distance : ℝ
  /-- `dist_cherenkov_pos` -/
  cherenkov : ℝ
  /-- `energy_before` -/
  before : Chan
  /-- `energy_after` -/
  after : Chan
  /-- `energy_cherenkov` -/
  energyCherenkov : Chan

/-- The geometry (track/stochastic_segment.py:268-383) for vertex, angles, energy and length. -/
noncomputable def geometry (dom vertex : V3) (zenith azimuth energy length : ℝ) : Geometry :=
  let energy := energy + 0.1
  let length := length + 1
  let d := dir zenith azimuth
  let h := sub dom vertex
  let infinite := d.x * h.x + d.y * h.y + d.z * h.z
  let closest := shift length infinite
  let closestPoint := add vertex (smul closest d)
  let infinitePoint := add vertex (smul infinite d)
  let distanceInfinite := norm (sub dom infinitePoint)
  let displacement := sub dom closestPoint
  let cherenkov := infinite - distanceInfinite / Real.tan cherenkovAngle
  { length, dir := d, infinite, closest, infinitePoint, closestPoint, displacement
    distance := norm displacement + 0.1
    cherenkov
    before := depEnergy energy length (closest - 100) closest
    after := depEnergy energy length closest (closest + 100)
    energyCherenkov := depEnergy energy length cherenkov infinite }

/-- `tf.math.tanh` of a quotient by the length and by ten (track/stochastic_segment.py:304-309): an infinite
quotient gives plus or minus one. -/
noncomputable def relInfinite (infinite length : ℝ) : Chan :=
  if length = 0 then
    if infinite = 0 then none else some (if 0 < infinite then 1 else -1)
  else some (Real.tanh (infinite / length / 10))

/-- The scaled logarithm of an energy (track/stochastic_segment.py:414-428). -/
noncomputable def energyChannel (t : Trafo) (e : Chan) : Chan :=
  (chanLog (e.map (1 + ·))).map (fun l => (l - t.mean 5) / (t.std 5 + t.normConst))

/-- The inputs of the network of a track segment (track/stochastic_segment.py:245-481), without the checks.
If the energy is not transformed to its logarithm, the code uses variables it never assigned. -/
noncomputable def segmentChannels (cfg : Config) (t : Trafo) (localVars : List ℝ) (dom : V3) :
    List ℝ → Except Err (List Chan)
  | x :: y :: z :: zenith :: azimuth :: energy :: time :: length :: stoch :: rest =>
    let tr := (x :: y :: z :: zenith :: azimuth :: energy :: time :: length :: stoch :: rest).mapIdx
      t.col
    let g := geometry dom ⟨x, y, z⟩ zenith azimuth energy length
    let n := normed g.displacement g.distance
    if t.logEnergy then
      .ok (coords (some g.dir) ++ ((tr.drop 5).take 1).map some ++ (tr.drop 7).map some ++ coords n ++
        [some (g.distance / posScale t), some ((g.infinite - g.closest) / posScale t),
          energyChannel t g.before, energyChannel t g.after, energyChannel t g.energyCherenkov,
          chanDiv g.closest g.length, relInfinite g.infinite g.length] ++
        options cfg t localVars dom g.dir n)
    else .error .nameError
  | _ => .error .indexError

/-- The assertions on energy and length during training (track/stochastic_segment.py:277-288), for this
event. -/
def segmentAssertions (row : List ℝ) : Prop :=
  ∃ energy length : ℝ, row[5]? = some energy ∧ row[7]? = some length ∧ -1e-3 ≤ energy ∧ -1e3 ≤ length

open Classical in
/-- The inputs of the network with the checks during training (track/stochastic_segment.py:277-288,
483-503). The code checks the whole batch; here it is the one event and DOM. -/
noncomputable def segmentInputs (cfg : Config) (t : Trafo) (isTraining : Bool) (localVars : List ℝ)
    (dom : V3) (row : List ℝ) : Except Err (List Chan) :=
  match segmentChannels cfg t localVars dom row with
  | .error e => .error e
  | .ok l =>
    if isTraining then
      if segmentAssertions row then
        if none ∈ l then .error .assertionError else .ok l
      else .error .assertionError
    else .ok l

end Verif.Inputs
