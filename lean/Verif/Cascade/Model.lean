import Verif.Py.Dict
import Verif.Py.Sort
import Verif.Dist.Model
import Mathlib.Algebra.BigOperators.Group.Finset.Basic

/-!
# Model of the predictions of the single sources

The part of `get_tensors` behind the network, for one event and one DOM, over the real numbers:

* `DefaultCascadeModel` (model/source/cascade/default.py:303-699);
* `SystematicsCascadeModel` (model/source/cascade/systematic.py:371-619) and
  `StochasticTrackSegmentModel` (model/source/track/stochastic_segment.py:512-783), which have
  the same lines without time exclusions and without sorting of the components;
* the time density of `ChargeQuantileCascadeModel`
  (model/source/cascade/charge_quantiles.py:536-652);
* `DefaultNoiseModel` (model/source/noise/default.py:114-297).

The network output is arbitrary. Rounding, overflow and `nan` are not modelled; the assertions on
the exclusions are checked for the one DOM only.
-/

namespace Verif.Cascade
open Verif.Py Verif.Dist

/-- `config['estimate_charge_distribution']` (cascade/default.py:336-341): `True`,
`'negative_binomial'` or anything else. -/
inductive Method where
  | asymmetricGaussian
  | negativeBinomial
  | poisson
  deriving DecidableEq

/-- The settings that `get_tensors` reads. -/
structure Config where
  /-- `num_latent_models` -/
  nModels : ℕ
  /-- `num_filters_list[-1]` -/
  nFilters : ℕ
  method : Method
  /-- `scale_charge` -/
  scaleCharge : Bool
  /-- `scale_charge_by_relative_dom_efficiency` -/
  scaleRelEff : Bool
  /-- `scale_charge_by_global_dom_efficiency` -/
  scaleDomEff : Bool
  /-- `prevent_mixture_component_swapping` -/
  sortMu : Bool

/-- The inputs of one event at one DOM. -/
structure Dom where
  /-- The channels of the last layer of the network at this DOM. -/
  out : ℕ → ℝ
  /-- `parameters[:, 5]` -/
  energy : ℝ
  /-- `parameters[:, 6]`, the time of the vertex in ns -/
  time : ℝ
  /-- The parameter `DOMEfficiency`. -/
  domEff : ℝ
  /-- `detector.rel_dom_eff` of the DOM. -/
  relEff : ℝ
  /-- `x_dom_charge`, the measured charge. -/
  chargeTrue : ℝ
  /-- The excluded time windows `(start, stop)` of the DOM in ns; `none` if the tensor
  `x_time_exclusions` does not exist. -/
  windows : Option (List (ℝ × ℝ))

/-- `tf.nn.elu`. -/
noncomputable def elu (x : ℝ) : ℝ := if 0 < x then x else Real.exp x - 1

/-- `clip_by_value_preserve_gradient`. -/
noncomputable def clip (lo hi x : ℝ) : ℝ := max lo (min hi x)

/-- `t_scale` (cascade/default.py:327). -/
noncomputable def tScale : ℝ := 0.001

/-- The number of channels for the charge (cascade/default.py:336-341). -/
def nCharge : Method → ℕ
  | .asymmetricGaussian => 3
  | .negativeBinomial => 2
  | .poisson => 1

/-- The decoded parameters of the mixture components, as functions of the component. -/
structure Latent where
  mu : ℕ → ℝ
  sigma : ℕ → ℝ
  r : ℕ → ℝ
  scale : ℕ → ℝ

/-- `elu(scale) + 1.00001` before the normalisation (cascade/default.py:374, 377). -/
noncomputable def rawScale (channel : ℕ → ℝ) (k : ℕ) : ℝ := elu (1 + 1 * channel k) + 1.00001

/-- The decoding of the network output (cascade/default.py:345-395): the channels of the four
parameters are slices of length `n`; the means are sorted if desired. -/
noncomputable def decodeLatent (cfg : Config) (out : ℕ → ℝ) : Latent :=
  let n := cfg.nModels
  let c := nCharge cfg.method
  let mu := fun k => 1000 * tScale + 1 * out (c + 0 * n + k)
  let total := ∑ k ∈ Finset.range n, rawScale (fun k => out (c + 3 * n + k)) k
  { mu := if cfg.sortMu then
      fun k => (sortBy (fun a b => decide (a ≤ b)) ((List.range n).map mu)).getD k 0 else mu
    sigma := fun k => elu (2 + 1 * out (c + 1 * n + k)) + 1.001
    r := fun k => elu (1 + 1 * out (c + 2 * n + k)) + 1.001
    scale := fun k => rawScale (fun k => out (c + 3 * n + k)) k / total }

/-- The excluded fraction of component `k` by one window before clipping
(cascade/default.py:309-319, 330-331, 419-426). -/
noncomputable def windowExclusion (l : Latent) (time : ℝ) (k : ℕ) (w : ℝ × ℝ) : ℝ :=
  asymGaussCdf ((w.2 - time) * tScale) (l.mu k) (l.sigma k) (l.r k) -
    asymGaussCdf ((w.1 - time) * tScale) (l.mu k) (l.sigma k) (l.r k)

/-- The bounds of the assertions (cascade/default.py:428-443). -/
def inBounds (x : ℝ) : Prop := -1e-4 < x ∧ x < 1.0001

/-- The sum over the windows of component `k` before clipping (cascade/default.py:444-456). -/
noncomputable def rawExclusion (l : Latent) (time : ℝ) (ws : List (ℝ × ℝ)) (k : ℕ) : ℝ :=
  (ws.map fun w => clip 0 1 (windowExclusion l time k w)).sum

/-- `dom_cdf_exclusion` (cascade/default.py:478-480). -/
noncomputable def exclusion (l : Latent) (time : ℝ) (ws : List (ℝ × ℝ)) (k : ℕ) : ℝ :=
  clip 0 1 (rawExclusion l time ws k)

/-- `dom_cdf_exclusion_sum` before clipping (cascade/default.py:483-484). -/
noncomputable def rawExclusionSum (n : ℕ) (l : Latent) (time : ℝ) (ws : List (ℝ × ℝ)) : ℝ :=
  ∑ k ∈ Finset.range n, exclusion l time ws k * l.scale k

/-- All assertions on the exclusions (cascade/default.py:428-443, 463-477, 487-503). -/
def assertions (n : ℕ) (l : Latent) (time : ℝ) (ws : List (ℝ × ℝ)) : Prop :=
  (∀ k < n, ∀ w ∈ ws, inBounds (windowExclusion l time k w)) ∧
    (∀ k < n, inBounds (rawExclusion l time ws k)) ∧ inBounds (rawExclusionSum n l time ws)

/-- The expected charge (cascade/default.py:517-543), with the excluded fraction `e`. -/
noncomputable def domCharge (cfg : Config) (d : Dom) (e : Option ℝ) : ℝ :=
  let q := Real.exp (d.out 0)
  let q := if cfg.scaleCharge then q * (d.energy / 10000) else q
  let q := if cfg.scaleRelEff then q * d.relEff else q
  let q := if cfg.scaleDomEff then q * d.domEff else q
  let q := match e with
    | some e => q * (1 - e + 1e-3)
    | none => q
  q + 1e-7

/-- The parameters of the charge distribution. -/
structure ChargeStats where
  unc : ℝ
  variance : ℝ
  /-- `dom_charges_sigma` and `dom_charges_r` of the asymmetric Gaussian -/
  shape : Option (ℝ × ℝ)
  /-- `dom_charges_alpha` of the negative binomial distribution -/
  alpha : Option ℝ
  /-- `dom_charges_log_pdf_values` -/
  logPdf : Option ℝ

/-- The charge distribution (cascade/default.py:550-658). -/
noncomputable def chargeStats (m : Method) (out : ℕ → ℝ) (chargeTrue q : ℝ) : ChargeStats :=
  match m with
  | .asymmetricGaussian =>
    let sigmaScale := elu (0.1 * out 1 - 2) + 1.9
    let r := elu (0.01 * out 2 - 2) + 1.9
    let sigma := Real.sqrt (max q 0.0001) * sigmaScale
    let unc := if 5 < chargeTrue then sigma * ((1 + r) / 2) else Real.sqrt (q + 1e-7)
    let llh := if 5 < chargeTrue then Real.log (asymGauss chargeTrue q sigma r + 1e-7)
      else chargeTrue * Real.log (q + 1e-7) - q
    { unc := unc, variance := unc ^ 2, shape := some (sigma, r), alpha := none,
      logPdf := some llh }
  | .negativeBinomial =>
    let alpha := elu (out 1 - 5) + 1.000001
    let variance := q + alpha * q ^ 2
    { unc := Real.sqrt variance, variance := variance, shape := none, alpha := some alpha,
      logPdf := some (logNegBinomial chargeTrue q alpha true) }
  | .poisson =>
    { unc := Real.sqrt q, variance := q, shape := none, alpha := none, logPdf := none }

/-- `pulse_latent_scale` (cascade/default.py:668-673). -/
noncomputable def pulseScale (scale : ℝ) : Option ℝ → ℝ
  | some e => scale / (1 - e + 1e-3)
  | none => scale

/-- The mixture density of a pulse at time `t` (ns) (cascade/default.py:306-308, 327-329, 664-695), with
the excluded fractions `e` of the components. -/
noncomputable def pulsePdf (n : ℕ) (l : Latent) (time : ℝ) (e : Option (ℕ → ℝ)) (t : ℝ) : ℝ :=
  ∑ k ∈ Finset.range n,
    asymGauss ((t - time) * tScale) (l.mu k) (l.sigma k) (l.r k) *
      pulseScale (l.scale k) (e.map fun e => e k)

/-- What `get_tensors` returns for one DOM. -/
structure Tensors where
  latent : Latent
  exclusion : Option (ℕ → ℝ)
  exclusionSum : Option ℝ
  charge : ℝ
  stats : ChargeStats
  /-- the value for a pulse at the given time (ns) -/
  pulsePdf : ℝ → ℝ

/-- `get_tensors` with excluded windows (cascade/default.py:402-699). -/
noncomputable def tensorsWith (cfg : Config) (d : Dom) (ws : List (ℝ × ℝ)) : Tensors :=
  let l := decodeLatent cfg d.out
  let e := exclusion l d.time ws
  let s := clip 0 1 (rawExclusionSum cfg.nModels l d.time ws)
  let q := domCharge cfg d (some s)
  { latent := l, exclusion := some e, exclusionSum := some s, charge := q,
    stats := chargeStats cfg.method d.out d.chargeTrue q,
    pulsePdf := pulsePdf cfg.nModels l d.time (some e) }

/-- `get_tensors` without time exclusions (cascade/default.py:513-699). -/
noncomputable def tensorsWithout (cfg : Config) (d : Dom) : Tensors :=
  let l := decodeLatent cfg d.out
  let q := domCharge cfg d none
  { latent := l, exclusion := none, exclusionSum := none, charge := q,
    stats := chargeStats cfg.method d.out d.chargeTrue q,
    pulsePdf := pulsePdf cfg.nModels l d.time none }

open Classical in
/-- `DefaultCascadeModel.get_tensors` behind the network (cascade/default.py:303-699), for one
event and one DOM. -/
noncomputable def getTensors (cfg : Config) (d : Dom) : Except Err Tensors :=
  if cfg.nModels * 4 + nCharge cfg.method ≠ cfg.nFilters then .error .valueError
  else if cfg.nModels ≤ 1 then .error .valueError
  else match d.windows with
    | some ws =>
      if assertions cfg.nModels (decodeLatent cfg d.out) d.time ws then
        .ok (tensorsWith cfg d ws)
      else .error .assertionError
    | none => .ok (tensorsWithout cfg d)

/-- The time density of `ChargeQuantileCascadeModel` (cascade/charge_quantiles.py:544-602,
641-649) of a pulse at `t` ns, from the channels of the last fully connected layer; `lightTime`
is the time of flight of unscattered light to the DOM in ns. -/
noncomputable def quantileTensors (nModels nFilters : ℕ) (out : ℕ → ℝ) (time lightTime : ℝ) :
    Except Err (Latent × (ℝ → ℝ)) :=
  if nModels * 4 ≠ nFilters then .error .valueError
  else if nModels < 1 then .error .valueError
  else
    let n := nModels
    let total := ∑ k ∈ Finset.range n, rawScale (fun k => out (3 * n + k)) k
    let l : Latent :=
      { mu := fun k => lightTime * tScale + 0.1 + 0.1 * out (0 * n + k)
        sigma := fun k => elu (0.3 + 0.1 * out (1 * n + k)) + 1.001
        r := fun k => elu (0.001 * out (2 * n + k)) + 1.001
        scale := fun k => rawScale (fun k => out (3 * n + k)) k / total }
    .ok (l, pulsePdf n l time none)

/-! ## Noise -/

/-- The inputs of the noise model for one event and one DOM. -/
structure NoiseDom where
  /-- `detector.dom_noise_rates` in 1/ns -/
  rate : ℝ
  /-- `x_time_window` -/
  start : ℝ
  stop : ℝ
  /-- the two trained weights `local_vars` -/
  w0 : ℝ
  w1 : ℝ
  windows : Option (List (ℝ × ℝ))

/-- `tf.clip_by_value(t, t_min, t_max)` (noise/default.py:177-181). -/
noncomputable def limit (d : NoiseDom) (t : ℝ) : ℝ := max d.start (min d.stop t)

/-- The excluded fraction of one window before clipping (noise/default.py:173-186). -/
noncomputable def noiseWindow (d : NoiseDom) (w : ℝ × ℝ) : ℝ :=
  (limit d w.2 - limit d w.1) / (d.stop - d.start)

/-- The sum over the windows before clipping (noise/default.py:205-215). -/
noncomputable def noiseRaw (d : NoiseDom) (ws : List (ℝ × ℝ)) : ℝ :=
  (ws.map fun w => clip 0 1 (noiseWindow d w)).sum

/-- The assertions on the exclusions (noise/default.py:188-204, 217-230). -/
def noiseAssertions (d : NoiseDom) (ws : List (ℝ × ℝ)) : Prop :=
  (∀ w ∈ ws, inBounds (noiseWindow d w)) ∧ inBounds (noiseRaw d ws)

/-- What the noise model returns for one DOM. -/
structure NoiseTensors where
  exclusion : Option ℝ
  charge : ℝ
  alpha : ℝ
  unc : ℝ
  variance : ℝ
  /-- the value for every pulse of the DOM -/
  pulsePdf : ℝ

/-- The noise model with the excluded fraction `e` (noise/default.py:150-165, 241-297). -/
noncomputable def noiseTensors (d : NoiseDom) (e : Option ℝ) : NoiseTensors :=
  let livetime := d.stop - d.start
  let meanScaling := elu (elu d.w0 + 1.01) + 1.01
  let alpha := elu (elu d.w1 + 1.01 - 5) + 1.000001
  let q := d.rate * livetime * meanScaling
  let q := match e with
    | some e => q * (1 - e + 1e-3)
    | none => q
  let q := q + 1e-7
  let variance := q + alpha * q ^ 2
  { exclusion := e, charge := q, alpha := alpha, unc := Real.sqrt variance,
    variance := variance
    pulsePdf := match e with
      | some e => 1 / livetime / (1 - e + 1e-3)
      | none => 1 / livetime }

open Classical in
/-- `DefaultNoiseModel.get_tensors` (noise/default.py:65-297) for one event and one DOM. -/
noncomputable def noiseGetTensors (d : NoiseDom) : Except Err NoiseTensors :=
  match d.windows with
  | some ws =>
    if noiseAssertions d ws then .ok (noiseTensors d (some (clip 0 1 (noiseRaw d ws))))
    else .error .assertionError
  | none => .ok (noiseTensors d none)

end Verif.Cascade
