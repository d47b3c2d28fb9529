import Verif.Cascade.Model
import Verif.Loss.Model

/-!
# Model of the predictions for a batch

`get_tensors` of `DefaultCascadeModel` (model/source/cascade/default.py:125-699) and of
`DefaultNoiseModel` (model/source/noise/default.py:65-297) for whole batches: the gathering of
parameters, of decoded network outputs and of excluded fractions by the ids of pulses and windows, the
accumulation of windows, and the assertions over the whole batch. What is computed for a single DOM is in
`Verif.Cascade`. The network is an arbitrary function of the parameters of one event: batch normalisation
in training, and random dropout, are not modelled. The ids are in range. Rounding and `nan` are not
modelled.
-/

namespace Verif.Batch
open Verif.Py Verif.Dist Verif.Cascade
open Verif.Loss (Cell)

/-- A string and a DOM. -/
abbrev DomIx : Type := Fin 86 × Fin 60

/-- A cascade model with trained weights; `X` is the type of rows of the parameter tensor. -/
structure Source (X : Type) where
  cfg : Cascade.Config
  /-- the last layer of the network (cascade/default.py:195-297) -/
  net : X → DomIx → ℕ → ℝ
  /-- `parameters[:, 5]` -/
  energy : X → ℝ
  /-- `parameters[:, 6]` -/
  time : X → ℝ
  /-- the parameter `DOMEfficiency` -/
  domEff : X → ℝ
  /-- `detector.rel_dom_eff` -/
  relEff : DomIx → ℝ

/-- The entries of a data batch that the models read: parameters, `x_dom_charge`, `x_pulses[:, 1]`,
`x_pulses_ids`, and `x_time_exclusions` with `x_time_exclusions_ids`, if this tensor exists
(cascade/default.py:166-187). -/
structure Data (X : Type) (B P W : ℕ) where
  x : Fin B → X
  domCharge : Cell B → ℝ
  pulseTime : Fin P → ℝ
  ids : Fin P → Cell B
  windows : Option (Fin W → (ℝ × ℝ) × Cell B)

/-- The tensors that `get_tensors` returns. -/
structure Tensors (B P : ℕ) where
  latent : Cell B → Latent
  exclusion : Option (Cell B → ℕ → ℝ)
  exclusionSum : Option (Cell B → ℝ)
  charge : Cell B → ℝ
  stats : Cell B → ChargeStats
  pulsePdf : Fin P → ℝ

section
variable {X : Type} {B P W : ℕ}

/-- What is known about one DOM in one event, except for time windows. -/
def Source.dom (M : Source X) (D : Data X B P W) (c : Cell B) : Dom where
  out := M.net (D.x c.1) c.2
  energy := M.energy (D.x c.1)
  time := M.time (D.x c.1)
  domEff := M.domEff (D.x c.1)
  relEff := M.relEff c.2
  chargeTrue := D.domCharge c
  windows := none

/-- `tw_cdf_exclusion` before clipping (cascade/default.py:309-331, 405-426): the latent variables and
the time of the vertex are gathered with the ids of the windows. -/
noncomputable def twExclusion (M : Source X) (D : Data X B P W) (ws : Fin W → (ℝ × ℝ) × Cell B)
    (w : Fin W) (k : ℕ) : ℝ :=
  let c := (ws w).2
  windowExclusion (decodeLatent M.cfg (M.net (D.x c.1) c.2)) (M.time (D.x c.1)) k (ws w).1

/-- `dom_cdf_exclusion` before clipping: the scatter over the ids of the windows
(cascade/default.py:446-456). -/
noncomputable def domExclusion (M : Source X) (D : Data X B P W) (ws : Fin W → (ℝ × ℝ) × Cell B)
    (c : Cell B) (k : ℕ) : ℝ :=
  0 + ∑ w, if (ws w).2 = c then clip 0 1 (twExclusion M D ws w k) else 0

/-- `dom_cdf_exclusion_sum` before clipping (cascade/default.py:483-484). -/
noncomputable def domExclusionSum (M : Source X) (D : Data X B P W) (ws : Fin W → (ℝ × ℝ) × Cell B)
    (c : Cell B) : ℝ :=
  ∑ k ∈ Finset.range M.cfg.nModels, clip 0 1 (domExclusion M D ws c k) *
    (decodeLatent M.cfg (M.net (D.x c.1) c.2)).scale k

/-- The assertions (cascade/default.py:428-443, 463-477, 487-503), over the whole batch. -/
def batchAssertions (M : Source X) (D : Data X B P W) (ws : Fin W → (ℝ × ℝ) × Cell B) : Prop :=
  (∀ w, ∀ k < M.cfg.nModels, inBounds (twExclusion M D ws w k)) ∧
    (∀ c, ∀ k < M.cfg.nModels, inBounds (domExclusion M D ws c k)) ∧
    ∀ c, inBounds (domExclusionSum M D ws c)

/-- The tensors (cascade/default.py:345-400, 505-511, 513-699), with the excluded fractions `e` of the
components and their sum `s`. The pulses gather all they need with their ids. -/
noncomputable def tensors (M : Source X) (D : Data X B P W) (e : Option (Cell B → ℕ → ℝ))
    (s : Option (Cell B → ℝ)) : Tensors B P :=
  let latent := fun c : Cell B => decodeLatent M.cfg (M.net (D.x c.1) c.2)
  let charge := fun c => domCharge M.cfg (M.dom D c) (s.map fun s => s c)
  { latent := latent
    exclusion := e
    exclusionSum := s
    charge := charge
    stats := fun c => chargeStats M.cfg.method (M.net (D.x c.1) c.2) (D.domCharge c) (charge c)
    pulsePdf := fun p => pulsePdf M.cfg.nModels (latent (D.ids p)) (M.time (D.x (D.ids p).1))
      (e.map fun e => e (D.ids p)) (D.pulseTime p) }

open Classical in
/-- `DefaultCascadeModel.get_tensors` (cascade/default.py:125-699) for a batch. -/
noncomputable def getTensors (M : Source X) (D : Data X B P W) : Except Err (Tensors B P) :=
  if M.cfg.nModels * 4 + nCharge M.cfg.method ≠ M.cfg.nFilters then .error .valueError
  else if M.cfg.nModels ≤ 1 then .error .valueError
  else match D.windows with
    | some ws =>
      if batchAssertions M D ws then
        .ok (tensors M D (some fun c k => clip 0 1 (domExclusion M D ws c k))
          (some fun c => clip 0 1 (domExclusionSum M D ws c)))
      else .error .assertionError
    | none => .ok (tensors M D none none)

/-! ## Noise -/

/-- The noise model with its two weights and `detector.dom_noise_rates`. -/
structure NoiseSource where
  rate : DomIx → ℝ
  w0 : ℝ
  w1 : ℝ

/-- What the noise model knows about one DOM; `x` is the time window of the readout,
`x_time_window`. -/
def NoiseSource.dom (N : NoiseSource) (D : Data (ℝ × ℝ) B P W) (c : Cell B) : NoiseDom where
  rate := N.rate c.2
  start := (D.x c.1).1
  stop := (D.x c.1).2
  w0 := N.w0
  w1 := N.w1
  windows := none

/-- `tw_cdf_exclusion` before clipping (noise/default.py:174-186). -/
noncomputable def noiseTw (N : NoiseSource) (D : Data (ℝ × ℝ) B P W)
    (ws : Fin W → (ℝ × ℝ) × Cell B) (w : Fin W) : ℝ :=
  noiseWindow (N.dom D (ws w).2) (ws w).1

/-- `dom_cdf_exclusion` before clipping (noise/default.py:207-213). -/
noncomputable def noiseScatter (N : NoiseSource) (D : Data (ℝ × ℝ) B P W)
    (ws : Fin W → (ℝ × ℝ) × Cell B) (c : Cell B) : ℝ :=
  0 + ∑ w, if (ws w).2 = c then clip 0 1 (noiseTw N D ws w) else 0

/-- The tensors of the noise model for a batch. -/
structure NoiseBatch (B P : ℕ) where
  exclusion : Option (Cell B → ℝ)
  charge : Cell B → ℝ
  variance : Cell B → ℝ
  pulsePdf : Fin P → ℝ

/-- The result of the noise model (noise/default.py:150-165, 241-297) with the excluded fractions. -/
noncomputable def noiseBatch (N : NoiseSource) (D : Data (ℝ × ℝ) B P W)
    (e : Option (Cell B → ℝ)) : NoiseBatch B P :=
  let t := fun c => noiseTensors (N.dom D c) (e.map fun e => e c)
  { exclusion := e, charge := fun c => (t c).charge, variance := fun c => (t c).variance
    pulsePdf := fun p => (t (D.ids p)).pulsePdf }

open Classical in
/-- `DefaultNoiseModel.get_tensors` (noise/default.py:65-297) for a batch. -/
noncomputable def noiseGetBatch (N : NoiseSource) (D : Data (ℝ × ℝ) B P W) :
    Except Err (NoiseBatch B P) :=
  match D.windows with
  | some ws =>
    if (∀ w, inBounds (noiseTw N D ws w)) ∧ ∀ c, inBounds (noiseScatter N D ws c) then
      .ok (noiseBatch N D (some fun c => clip 0 1 (noiseScatter N D ws c)))
    else .error .assertionError
  | none => .ok (noiseBatch N D none)

end

end Verif.Batch
