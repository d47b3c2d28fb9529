import Verif.Batch.Model
import Verif.Loss.BatchSpec

/-!
# Specification for C139: an event on its own
-/

namespace Verif.Batch
open Verif.Loss (Cell)
variable {X : Type} {B P W n m : ℕ}

/-- `e` lists, each once, the items that belong to event `b`. -/
structure ItemsOf (event : Fin P → Fin B) (b : Fin B) (e : Fin n → Fin P) : Prop where
  once : ∀ q q', e q = e q' → q = q'
  all : ∀ p, event p = b ↔ ∃ q, e q = p

/-- `e` and `v` list the pulses and the time windows of event `b`. -/
def Belongs (D : Data X B P W) (b : Fin B) (e : Fin n → Fin P) (v : Fin m → Fin W) : Prop :=
  ItemsOf (fun p => (D.ids p).1) b e ∧ ∀ ws, D.windows = some ws → ItemsOf (fun w => (ws w).2.1) b v

/-- The batch that consists of event `b` only. -/
def Data.only (D : Data X B P W) (b : Fin B) (e : Fin n → Fin P) (v : Fin m → Fin W) :
    Data X 1 n m where
  x _ := D.x b
  domCharge c := D.domCharge (b, c.2)
  pulseTime q := D.pulseTime (e q)
  ids q := (0, (D.ids (e q)).2)
  windows := D.windows.map fun ws w => ((ws (v w)).1, (0, (ws (v w)).2.2))

/-- The time windows of a DOM in an event, if there are any windows. -/
def Data.windowsAt (D : Data X B P W) (c : Cell B) : Option (List (ℝ × ℝ)) :=
  D.windows.map fun ws => ((List.finRange W).filter fun w => (ws w).2 = c).map fun w => (ws w).1

/-- The part of the predictions that belongs to event `b` is that of the event on its own. -/
structure SamePart (T : Tensors B P) (b : Fin B) (e : Fin n → Fin P) (T' : Tensors 1 n) : Prop where
  latent : ∀ c, T'.latent (0, c) = T.latent (b, c)
  exclusion : T'.exclusion = T.exclusion.map fun x c => x (b, c.2)
  exclusionSum : T'.exclusionSum = T.exclusionSum.map fun x c => x (b, c.2)
  charge : ∀ c, T'.charge (0, c) = T.charge (b, c)
  stats : ∀ c, T'.stats (0, c) = T.stats (b, c)
  pulsePdf : ∀ q, T'.pulsePdf q = T.pulsePdf (e q)

/-- `D'` is `D` with events, pulses and windows in another order: event `b` of `D'` is event `π b` of `D`,
and so on. -/
structure Reordered (D D' : Data X B P W) (π : Fin B ≃ Fin B) (σ : Fin P ≃ Fin P) (τ : Fin W ≃ Fin W) :
    Prop where
  x : ∀ b, D'.x b = D.x (π b)
  domCharge : ∀ b c, D'.domCharge (b, c) = D.domCharge (π b, c)
  pulseTime : ∀ p, D'.pulseTime p = D.pulseTime (σ p)
  ids : ∀ p, D.ids (σ p) = (π (D'.ids p).1, (D'.ids p).2)
  windows : (D.windows = none ∧ D'.windows = none) ∨ ∃ ws ws', D.windows = some ws ∧ D'.windows = some ws' ∧
    ∀ w, (ws' w).1 = (ws (τ w)).1 ∧ (ws (τ w)).2 = (π (ws' w).2.1, (ws' w).2.2)

/-- The part of the noise predictions that belongs to event `b` is that of the event on its own. -/
structure SameNoise (T : NoiseBatch B P) (b : Fin B) (e : Fin n → Fin P) (T' : NoiseBatch 1 n) :
    Prop where
  exclusion : T'.exclusion = T.exclusion.map fun x c => x (b, c.2)
  charge : ∀ c, T'.charge (0, c) = T.charge (b, c)
  variance : ∀ c, T'.variance (0, c) = T.variance (b, c)
  pulsePdf : ∀ q, T'.pulsePdf q = T.pulsePdf (e q)

/-- What the loss reads besides the entries in `Data`: charges and quantiles of the pulses and the
mask of DOMs. -/
structure Extra (B P : ℕ) where
  charge : Fin P → ℝ
  quantile : Fin P → ℝ
  mask : Option (Cell B → ℝ)

/-- The part that belongs to event `b`. -/
def Extra.only (E : Extra B P) (b : Fin B) (e : Fin n → Fin P) : Extra 1 n where
  charge q := E.charge (e q)
  quantile q := E.quantile (e q)
  mask := E.mask.map fun m c => m (b, c.2)

/-- The batch as the loss sees it. -/
def lossBatch (D : Data X B P W) (E : Extra B P) : Loss.Batch B P where
  charge := E.charge
  quantile := E.quantile
  ids := D.ids
  domCharge := D.domCharge
  mask := E.mask
  timeExclusions := D.windows.isSome

/-- The predictions as the loss sees them; with a Poisson distribution there is no
`dom_charges_log_pdf_values`. -/
noncomputable def lossResults (m : Cascade.Method) (T : Tensors B P) : Loss.Results B P where
  domCharges := some T.charge
  domLogPdf := if m = .poisson then none else some fun c => (T.stats c).logPdf.getD 0
  domVariance := some fun c => (T.stats c).variance
  pulsePdf := some T.pulsePdf
  quantilePdf := none
  exclusionSum := T.exclusionSum.isSome

/-- The loss of a batch, from the parameters and the data. -/
noncomputable def endToEnd (M : Source X) (cfg : Loss.Config) (D : Data X B P W) (E : Extra B P) :
    Except Verif.Py.Err ℝ :=
  match getTensors M D with
  | .error e => .error e
  | .ok T => Loss.scalarLoss cfg (lossBatch D E) (lossResults M.cfg.method T) false

end Verif.Batch
