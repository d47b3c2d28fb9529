import Verif.Loss.Model

/-!
# Specification for C138: an event on its own
-/

namespace Verif.Loss
open Verif.Py
variable {B P n : ℕ}

/-- `e` lists the pulses of event `b`, each once. -/
structure PulsesOf (d : Batch B P) (b : Fin B) (e : Fin n → Fin P) : Prop where
  once : ∀ q q', e q = e q' → q = q'
  all : ∀ p, (d.ids p).1 = b ↔ ∃ q, e q = p

/-- The batch that consists of event `b` only, with the pulses `e`. -/
def Batch.only (d : Batch B P) (b : Fin B) (e : Fin n → Fin P) : Batch 1 n where
  charge q := d.charge (e q)
  quantile q := d.quantile (e q)
  ids q := (0, (d.ids (e q)).2)
  domCharge c := d.domCharge (b, c.2)
  mask := d.mask.map fun m c => m (b, c.2)
  timeExclusions := d.timeExclusions

/-- The predictions for event `b` only. -/
def Results.only (r : Results B P) (b : Fin B) (e : Fin n → Fin P) : Results 1 n where
  domCharges := r.domCharges.map fun x c => x (b, c.2)
  domLogPdf := r.domLogPdf.map fun x c => x (b, c.2)
  domVariance := r.domVariance.map fun x c => x (b, c.2)
  pulsePdf := r.pulsePdf.map fun x q => x (e q)
  quantilePdf := r.quantilePdf.map fun x q => x (e q)
  exclusionSum := r.exclusionSum

/-- The parameters of event `b` only. -/
def Prior.only (p : Prior B) (b : Fin B) : Prior 1 := { p with value := fun _ i => p.value b i }

/-- The total of a batch is the sum over its events, or all are refused with the same error. -/
def Adds {E : Type} (total : Except E ℝ) (single : Fin B → Except E ℝ) : Prop :=
  (∃ (x : ℝ) (xs : Fin B → ℝ), total = .ok x ∧ (∀ b, single b = .ok (xs b)) ∧ x = ∑ b, xs b) ∨
    ∃ e, total = .error e ∧ ∀ b, single b = .error e

/-- The scalar loss, as a number. -/
noncomputable def scalarLoss (cfg : Config) (d : Batch B P) (r : Results B P) (normalize : Bool) :
    Except Err ℝ :=
  match getLoss cfg d r true normalize false with
  | .error e => .error e
  | .ok (.scalar x) => .ok x
  | .ok _ => .error .typeError

/-- The result of the loop over several modules, as a number. -/
def multiLoss (ms : List (Module B P)) : Except Err ℝ :=
  match multiScalar none ms with
  | .error e => .error e
  | .ok none => .error .typeError
  | .ok (some x) => .ok x

end Verif.Loss
