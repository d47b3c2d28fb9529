import Verif.Py.Dict
import Verif.Dist.Model
import Verif.Sources.Model
import Mathlib.Algebra.BigOperators.Group.Finset.Basic
import Mathlib.Data.Fintype.Prod
import Mathlib.Data.Fintype.BigOperators

/-!
# Model of the loss modules

`DefaultLossModule` (loss/default.py), `MultiLossModule` (loss/multi_loss.py) and
`SnowstormPriorLossModule` (loss/snowstorm.py) over the real numbers. `B` is the number of events,
`P` the number of pulses in the batch. Rounding, `nan` and overflow are not modelled. Tensors of
shape `[n_batch, 86, 60]` are functions on `Cell B`; the ids of the pulses are in range.
-/

namespace Verif.Loss
open Verif.Py Verif.Dist

/-- The index `(event, string, dom)` of a tensor of shape `[n_batch, 86, 60]`. -/
abbrev Cell (B : ℕ) : Type := Fin B × Fin 86 × Fin 60

/-- `config['loss_function_name']` (loss/default.py:86-88). -/
inductive Function where
  | extended          -- unbinned_extended_pulse_llh
  | pulseTime         -- unbinned_pulse_time_llh
  | pulseAndDom       -- unbinned_pulse_and_dom_charge_pdf
  | chargeQuantile    -- unbinned_charge_quantile_pdf
  | domAndEvent       -- dom_and_event_charge_pdf
  | negBinomial       -- negative_binomial_charge_pdf
  | negBinomialEvent  -- negative_binomial_event_charge_pdf
  | normalizedDom     -- normalized_dom_charge_pdf
  deriving DecidableEq

/-- The settings that the loss functions read. -/
structure Config where
  function : Function
  /-- `add_normalization_term` -/
  addNorm : Bool
  /-- `min_charge_quantile` -/
  minQuantile : Option ℝ
  /-- `max_charge_quantile` -/
  maxQuantile : Option ℝ

/-- The data batch. -/
structure Batch (B P : ℕ) where
  /-- `x_pulses[:, 0]` -/
  charge : Fin P → ℝ
  /-- `x_pulses[:, 2]` -/
  quantile : Fin P → ℝ
  /-- `x_pulses_ids` -/
  ids : Fin P → Cell B
  /-- `x_dom_charge` -/
  domCharge : Cell B → ℝ
  /-- `x_dom_exclusions`, cast to a float; `none` if the tensor does not exist -/
  mask : Option (Cell B → ℝ)
  /-- whether the tensor `x_time_exclusions` exists -/
  timeExclusions : Bool

/-- The result tensors of the model; `none` if the key is missing. -/
structure Results (B P : ℕ) where
  domCharges : Option (Cell B → ℝ)
  domLogPdf : Option (Cell B → ℝ)
  domVariance : Option (Cell B → ℝ)
  pulsePdf : Option (Fin P → ℝ)
  quantilePdf : Option (Fin P → ℝ)
  /-- whether the key `dom_cdf_exclusion_sum` is there -/
  exclusionSum : Bool

/-- A loss term: a tensor with its shape. -/
inductive Term (B P : ℕ) where
  /-- shape `[]` -/
  | scalar (x : ℝ)
  /-- shape `[n_batch]` -/
  | event (x : Fin B → ℝ)
  /-- shape `[n_batch, 86, 60]` -/
  | dom (x : Cell B → ℝ)
  /-- shape `[n_batch, 86, 60, 1]` -/
  | dom1 (x : Cell B → ℝ)
  /-- shape `[n_pulses]` -/
  | pulse (x : Fin P → ℝ)

/-- `tf.reduce_sum`. -/
def Term.total {B P : ℕ} : Term B P → ℝ
  | .scalar x => x
  | .event x => ∑ b, x b
  | .dom x => ∑ c, x c
  | .dom1 x => ∑ c, x c
  | .pulse x => ∑ p, x p

/-- The list `[scalar, event, dom]` of a loss function with `sort_loss_terms`; `None` as `none`. -/
structure Partial (B : ℕ) where
  scalar : Option ℝ
  event : Option (Fin B → ℝ)
  dom : Option (Cell B → ℝ)

/-- The list `[scalar, event, dom]` that `get_loss` returns with `sort_loss_terms`. -/
structure Sorted (B : ℕ) where
  scalar : ℝ
  event : Fin B → ℝ
  dom : Cell B → ℝ

/-- The terms without or with `sort_loss_terms`. -/
inductive Terms (B P : ℕ) where
  | plain (l : List (Term B P))
  | sorted (s : Partial B)

section
variable {B P : ℕ}

/-- `d[key]`. -/
def need {α : Type} : Option α → Except Err α
  | some x => .ok x
  | none => .error .keyError

/-- The assertion on time exclusions, at the start of all loss functions
(loss/default.py:294-301, 417-424, ...). -/
def checkTime (d : Batch B P) (r : Results B P) : Except Err Unit :=
  if d.timeExclusions && !r.exclusionSum then .error .assertionError else .ok ()

/-- Multiplication with `mask_valid`, if DOM exclusions exist (loss/default.py:303-310, ...). -/
def masked (d : Batch B P) (x : Cell B → ℝ) : Cell B → ℝ :=
  match d.mask with
  | some m => fun c => x c * m c
  | none => x

/-- `tf.tensor_scatter_nd_add`. -/
def scatterAdd (x : Cell B → ℝ) (ids : Fin P → Cell B) (u : Fin P → ℝ) : Cell B → ℝ :=
  fun c => x c + ∑ p, if ids p = c then u p else 0

/-- `tf.reduce_sum(x, axis=[1, 2])`. -/
def perEvent (x : Cell B → ℝ) : Fin B → ℝ := fun b => ∑ s, x (b, s)

/-- `log_faculty` (loss/default.py:210-224). -/
noncomputable def logFaculty (x : ℝ) : ℝ := lgamma (max (x + 1) 2)

/-- `-pulse_charges * log(pulse_pdf + eps)` (loss/default.py:312-321). -/
noncomputable def timeLoss (d : Batch B P) (pdf : Fin P → ℝ) : Fin P → ℝ :=
  fun p => -d.charge p * Real.log (pdf p + 1e-7)

/-- The broadcast of two dimensions of a tensor. -/
def broadcastDim (a b : ℕ) : Option ℕ :=
  if a = b then some a else if a = 1 then some b else if b = 1 then some a else none

/-- The broadcast of two shapes, in reversed order; `none` if they do not fit. -/
def broadcast : List ℕ → List ℕ → Option (List ℕ)
  | [], s => some s
  | s, [] => some s
  | a :: s, b :: t =>
    match broadcastDim a b, broadcast s t with
    | some c, some u => some (c :: u)
    | _, _ => none

/-- `unbinned_extended_pulse_llh` (loss/default.py:226-354). With sorting, the normalization terms
replace the loss (line 344). -/
noncomputable def extended (cfg : Config) (d : Batch B P) (r : Results B P) (sort : Bool) :
    Except Err (Terms B P) := do
  let pdf ← need r.pulsePdf
  let pred ← need r.domCharges
  checkTime d r
  let qTrue := masked d d.domCharge
  let qPred := masked d pred
  let time := timeLoss d pdf
  let poisson := fun c => qPred c - qTrue c * Real.log (qPred c + 1e-7)
  let normPulses := fun p => logFaculty (d.charge p)
  let normDoms := fun c => logFaculty (qTrue c)
  if sort then
    let doms := scatterAdd poisson d.ids time
    if cfg.addNorm then
      return .sorted ⟨none, none, some (scatterAdd normDoms d.ids normPulses)⟩
    else return .sorted ⟨none, none, some doms⟩
  else if cfg.addNorm then
    return .plain [.dom poisson, .pulse time, .pulse normPulses, .dom normDoms]
  else return .plain [.dom poisson, .pulse time]

/-- `unbinned_pulse_time_llh` (loss/default.py:356-460). -/
noncomputable def pulseTime (cfg : Config) (d : Batch B P) (r : Results B P) (sort : Bool) :
    Except Err (Terms B P) := do
  let pdf ← need r.pulsePdf
  checkTime d r
  let time := timeLoss d pdf
  let norm := fun p => logFaculty (d.charge p)
  if sort then
    let doms := scatterAdd (fun _ => 0) d.ids time
    if cfg.addNorm then
      return .sorted ⟨none, none, some (scatterAdd doms d.ids norm)⟩
    else return .sorted ⟨none, none, some doms⟩
  else if cfg.addNorm then return .plain [.pulse time, .pulse norm]
  else return .plain [.pulse time]

/-- `unbinned_pulse_and_dom_charge_pdf` (loss/default.py:462-593). The normalization term of the
DOMs has shape `[n_batch, 86, 60, 1]`; with sorting it is added to a tensor of shape
`[n_batch, 86, 60]` (line 583), which raises if the shapes do not fit. What the sum would be if
they did is not modelled: `C35_shapes_violated` shows that they never do. -/
noncomputable def pulseAndDom (cfg : Config) (d : Batch B P) (r : Results B P) (sort : Bool) :
    Except Err (Terms B P) := do
  let pdf ← need r.pulsePdf
  let logPdf ← need r.domLogPdf
  checkTime d r
  let llh := masked d logPdf
  let time := timeLoss d pdf
  let normPulses := fun p => logFaculty (d.charge p)
  let normDoms := fun c => logFaculty (d.domCharge c)
  if sort then
    let doms := scatterAdd (fun c => -llh c) d.ids time
    if cfg.addNorm then
      match broadcast [60, 86, B] [1, 60, 86, B] with
      | none => throw .valueError
      | some _ => throw .notImplementedError
    else return .sorted ⟨none, none, some doms⟩
  else if cfg.addNorm then
    return .plain [.dom fun c => -llh c, .pulse time, .pulse normPulses, .dom1 normDoms]
  else return .plain [.dom fun c => -llh c, .pulse time]

/-- The limits on the charge quantiles (loss/default.py:689-704). -/
noncomputable def limitQuantiles (cfg : Config) (d : Batch B P) (time : Fin P → ℝ) : Fin P → ℝ :=
  let time := match cfg.minQuantile with
    | some lo => fun p => if d.quantile p < lo then 0 else time p
    | none => time
  match cfg.maxQuantile with
  | some hi => fun p => if d.quantile p > hi then 0 else time p
  | none => time

/-- `unbinned_charge_quantile_pdf` (loss/default.py:595-727). -/
noncomputable def chargeQuantile (cfg : Config) (d : Batch B P) (r : Results B P) (sort : Bool) :
    Except Err (Terms B P) := do
  let pdf ← need r.quantilePdf
  checkTime d r
  let time := limitQuantiles cfg d fun p => -Real.log (pdf p + 1e-7)
  if sort then return .sorted ⟨none, none, some (scatterAdd (fun _ => 0) d.ids time)⟩
  else return .plain [.pulse time]

/-- `dom_and_event_charge_pdf` (loss/default.py:729-851). -/
noncomputable def domAndEvent (d : Batch B P) (r : Results B P) (sort : Bool) :
    Except Err (Terms B P) := do
  let pred ← need r.domCharges
  let logPdf ← need r.domLogPdf
  let variance ← need r.domVariance
  checkTime d r
  let llh := masked d logPdf
  let eventTrue := perEvent (masked d d.domCharge)
  let eventPred := perEvent (masked d pred)
  let eventUnc := fun b => Real.sqrt (perEvent (masked d variance) b)
  let llhEvent := fun b => logGauss (eventTrue b) (eventPred b) (eventUnc b)
  if sort then return .sorted ⟨none, some fun b => -llhEvent b, some fun c => -llh c⟩
  else return .plain [.dom fun c => -llh c, .event fun b => -llhEvent b]

/-- `negative_binomial_charge_pdf` (loss/default.py:853-971). -/
noncomputable def negBinomial (d : Batch B P) (r : Results B P) (sort : Bool) :
    Except Err (Terms B P) := do
  let pred ← need r.domCharges
  let variance ← need r.domVariance
  let alpha := fun c => max ((variance c - pred c) / (pred c ^ 2 + 5e-5)) 5e-5
  let llh := fun c => logNegBinomial (d.domCharge c) (pred c) (alpha c) false
  checkTime d r
  let llh := masked d llh
  if sort then return .sorted ⟨none, none, some fun c => -llh c⟩
  else return .plain [.dom fun c => -llh c]

/-- `negative_binomial_event_charge_pdf` (loss/default.py:973-1102). -/
noncomputable def negBinomialEvent (d : Batch B P) (r : Results B P) (sort : Bool) :
    Except Err (Terms B P) := do
  let pred ← need r.domCharges
  let variance ← need r.domVariance
  checkTime d r
  let eventTrue := perEvent (masked d d.domCharge)
  let eventPred := perEvent (masked d pred)
  let eventVariance := perEvent (masked d variance)
  let alpha := fun b => max ((eventVariance b - eventPred b) / eventPred b ^ 2) 5e-5
  let llhEvent := fun b => logNegBinomial (eventTrue b) (eventPred b) (alpha b) false
  if sort then return .sorted ⟨none, some fun b => -llhEvent b, none⟩
  else return .plain [.event fun b => -llhEvent b]

/-- `normalized_dom_charge_pdf` (loss/default.py:1104-1216). -/
noncomputable def normalizedDom (d : Batch B P) (r : Results B P) (sort : Bool) :
    Except Err (Terms B P) := do
  let pred ← need r.domCharges
  let _ ← need r.domVariance
  let domPdf := fun c : Cell B => pred c / perEvent pred c.1
  let llh := fun c => d.domCharge c * Real.log (domPdf c + 5e-5)
  checkTime d r
  let llh := masked d llh
  if sort then return .sorted ⟨none, none, some fun c => -llh c⟩
  else return .plain [.dom fun c => -llh c]

/-- `self.loss_function` (loss/default.py:86-88). -/
noncomputable def lossFunction (cfg : Config) (d : Batch B P) (r : Results B P) (sort : Bool) :
    Except Err (Terms B P) :=
  match cfg.function with
  | .extended => extended cfg d r sort
  | .pulseTime => pulseTime cfg d r sort
  | .pulseAndDom => pulseAndDom cfg d r sort
  | .chargeQuantile => chargeQuantile cfg d r sort
  | .domAndEvent => domAndEvent d r sort
  | .negBinomial => negBinomial d r sort
  | .negBinomialEvent => negBinomialEvent d r sort
  | .normalizedDom => normalizedDom d r sort

/-- What `get_loss` returns. -/
inductive Out (B P : ℕ) where
  | scalar (x : ℝ)
  | terms (l : List (Term B P))
  | sorted (s : Sorted B)

/-- Filling of `None` with zeros (loss/default.py:177-187); `dom_tensor[0, 0, 0]` raises for an
empty batch. -/
def fill (s : Partial B) : Except Err (Sorted B) :=
  match s.scalar with
  | none =>
    if B = 0 then .error .indexError
    else .ok ⟨0, s.event.getD fun _ => 0, s.dom.getD fun _ => 0⟩
  | some x => .ok ⟨x, s.event.getD fun _ => 0, s.dom.getD fun _ => 0⟩

/-- `loss / approx_number_of_terms`. -/
noncomputable def Term.divide (n : ℝ) : Term B P → Term B P
  | .scalar x => .scalar (x / n)
  | .event x => .event fun b => x b / n
  | .dom x => .dom fun c => x c / n
  | .dom1 x => .dom1 fun c => x c / n
  | .pulse x => .pulse fun p => x p / n

/-- `loss / approx_number_of_terms`. -/
noncomputable def Sorted.divide (n : ℝ) (s : Sorted B) : Sorted B :=
  ⟨s.scalar / n, fun b => s.event b / n, fun c => s.dom c / n⟩

/-- `approx_number_of_terms` (loss/default.py:190-201). -/
def numTerms (d : Batch B P) : ℝ := (∑ p, d.charge p) + 5160 * (B : ℝ)

/-- `get_loss` (loss/default.py:97-208). -/
noncomputable def getLoss (cfg : Config) (d : Batch B P) (r : Results B P)
    (reduce normalize sort : Bool) : Except Err (Out B P) :=
  if reduce && sort then .error .valueError
  else
    match lossFunction cfg d r sort with
    | .error e => .error e
    | .ok (.sorted s) =>
      match fill s with
      | .error e => .error e
      | .ok s => .ok (.sorted (if normalize then s.divide (numTerms d) else s))
    | .ok (.plain l) =>
      let l := if normalize then l.map (Term.divide (numTerms d)) else l
      if reduce then .ok (.scalar (l.map Term.total).sum) else .ok (.terms l)

/-! ## Several loss modules -/

/-- A loss module for one data batch: what `get_loss` returns with `reduce_to_scalar`, with neither
option, and with `sort_loss_terms`. -/
structure Module (B P : ℕ) where
  scalar : Except Err ℝ
  terms : Except Err (List (Term B P))
  sorted : Except Err (Sorted B)

/-- `+` on the three terms. -/
def Sorted.add (s t : Sorted B) : Sorted B :=
  ⟨s.scalar + t.scalar, fun b => s.event b + t.event b, fun c => s.dom c + t.dom c⟩

/-- The loop of `MultiLossModule.get_loss` with `reduce_to_scalar` (loss/multi_loss.py:145-178);
`none` is `None`. -/
def multiScalar : Option ℝ → List (Module B P) → Except Err (Option ℝ)
  | loss, [] => .ok loss
  | loss, m :: ms =>
    match m.scalar with
    | .error e => .error e
    | .ok x =>
      match loss with
      | none => multiScalar (some x) ms
      | some loss => multiScalar (some (loss + x)) ms

/-- The loop with neither option. -/
def multiTerms : List (Term B P) → List (Module B P) → Except Err (List (Term B P))
  | l, [] => .ok l
  | l, m :: ms =>
    match m.terms with
    | .error e => .error e
    | .ok x => multiTerms (l ++ x) ms

/-- The loop with `sort_loss_terms`; `none` is the empty list. -/
def multiSorted : Option (Sorted B) → List (Module B P) → Except Err (Option (Sorted B))
  | s, [] => .ok s
  | s, m :: ms =>
    match m.sorted with
    | .error e => .error e
    | .ok x =>
      match s with
      | none => multiSorted (some x) ms
      | some s => multiSorted (some (s.add x)) ms

/-! ## The prior on systematic parameters -/

/-- `loss_excess` (loss/snowstorm.py:166-167). -/
noncomputable def lossExcess (x : ℝ) : ℝ := Real.exp ((x + 1) * 10) - Real.exp 10

/-- `uniform_log_prior_loss` (loss/snowstorm.py:140-175). -/
noncomputable def uniformPrior (low high eps v : ℝ) : ℝ :=
  (if v > high - eps then lossExcess ((v - high) / (high - low)) else 0) +
    (if v < low + eps then lossExcess ((low - v) / (high - low)) else 0)

/-- `'{:02d}'.format(i)` -/
def pad2 (i : ℕ) : String :=
  String.ofList (List.replicate (2 - (toString i).length) '0' ++ (toString i).toList)

/-- `'IceWavePlusModes_{:02d}'.format(i)` -/
def modeName (i : ℕ) : String := "IceWavePlusModes_" ++ pad2 i

/-- The settings and inputs of the prior. -/
structure Prior (B : ℕ) where
  /-- `uniform_parameters`: the name with `low`, `high` and `eps` (0 if not given) -/
  uniform : List (String × ℝ × ℝ × ℝ)
  sigmas : List ℝ
  /-- `model.parameter_names` -/
  names : List String
  /-- the number of columns of the parameter tensor -/
  columns : ℕ
  /-- the parameter tensor -/
  value : Fin B → ℕ → ℝ

/-- The loop over the uniform priors (loss/snowstorm.py:246-249): `parameters.params[name]` is the
column of the name. -/
noncomputable def uniformTerms (p : Prior B) :
    List (String × ℝ × ℝ × ℝ) → Except Err (List (Term B P))
  | [] => .ok []
  | (name, low, high, eps) :: rest =>
    match Sources.getIndex p.names name with
    | .error e => .error e
    | .ok i =>
      match uniformTerms p rest with
      | .error e => .error e
      | .ok ts => .ok (.event (fun b => uniformPrior low high eps (p.value b i.toNat)) :: ts)

/-- The loop over the modes that checks the indices (loss/snowstorm.py:258-260). -/
def checkModes (names : List String) (start : ℤ) : List ℕ → Except Err Unit
  | [] => .ok ()
  | i :: rest =>
    match Sources.getIndex names (modeName i) with
    | .error e => .error e
    | .ok index => if start + i ≠ index then .error .assertionError else checkModes names start rest

/-- The loss of the Fourier modes (loss/snowstorm.py:251-274). The sum over the modes of one event
stands for the row of the tensor of shape `[n_batch, n_modes]`. -/
noncomputable def fourierTerm (p : Prior B) : Except Err (Option (Term B P)) :=
  if p.sigmas.length = 0 then .ok none
  else
    match Sources.getIndex p.names (modeName 0), Sources.getIndex p.names (modeName p.sigmas.length) with
    | .error e, _ => .error e
    | .ok _, .error e => .error e
    | .ok start, .ok last =>
      if last + 1 - start ≠ p.sigmas.length then .error .assertionError
      else
        match checkModes p.names start (List.range p.sigmas.length) with
        | .error e => .error e
        | .ok () =>
          .ok (some (.event fun b => ((p.sigmas.zipIdx).map fun (s, i) =>
            -logGauss (p.value b (start.toNat + i)) 0 s).sum))

/-- All terms of the prior. -/
noncomputable def priorTerms (p : Prior B) : Except Err (List (Term B P)) :=
  if p.columns ≠ p.names.length then .error .valueError
  else
    match uniformTerms p p.uniform with
    | .error e => .error e
    | .ok ts =>
      match fourierTerm p with
      | .error e => .error e
      | .ok none => .ok ts
      | .ok (some t) => .ok (ts ++ [t])

/-- `SnowstormPriorLossModule.get_loss` (loss/snowstorm.py:177-297) as a loss module. With sorting,
`loss_term.shape > 1` raises a `TypeError` (line 279) for the first term; without any term the loss
of the events is `None`, which no caller can use. `accumulate_n` raises for an empty list. -/
noncomputable def priorModule (p : Prior B) : Module B P where
  scalar := match priorTerms (P := P) p with
    | .error e => .error e
    | .ok [] => .error .valueError
    | .ok ts => .ok (ts.map Term.total).sum
  terms := priorTerms p
  sorted := match priorTerms (P := P) p with
    | .error e => .error e
    | .ok _ => .error .typeError

end

end Verif.Loss
