import Verif.Loss.BatchSpec

/-!
# Specification for C142: other ways to divide the charge of a DOM into pulses
-/

namespace Verif.Loss
open Verif.Py
variable {B P Q : ℕ}

/-- `d'` is `d` with pulses that are put together: the pulse `p` of `d` becomes a part of the pulse `f p` of `d'`,
or is left out, if it has no charge. A pulse of `d'` has the charge of its parts and is on the same DOM. -/
structure Merged (f : Fin P → Option (Fin Q)) (d : Batch B P) (d' : Batch B Q) : Prop where
  left : ∀ p, f p = none → d.charge p = 0
  charge : ∀ q, d'.charge q = ∑ p, if f p = some q then d.charge p else 0
  ids : ∀ p q, f p = some q → d.ids p = d'.ids q
  domCharge : d'.domCharge = d.domCharge
  mask : d'.mask = d.mask
  time : d'.timeExclusions = d.timeExclusions

/-- The predictions agree, and the density of a pulse is that of the pulse it is a part of. -/
structure SamePredictions (f : Fin P → Option (Fin Q)) (r : Results B P) (r' : Results B Q) : Prop where
  domCharges : r'.domCharges = r.domCharges
  domLogPdf : r'.domLogPdf = r.domLogPdf
  domVariance : r'.domVariance = r.domVariance
  exclusionSum : r'.exclusionSum = r.exclusionSum
  pulsePdf : (r.pulsePdf = none ∧ r'.pulsePdf = none) ∨ ∃ x x', r.pulsePdf = some x ∧ r'.pulsePdf = some x' ∧
    ∀ p q, f p = some q → x p = x' q

/-- The loss functions that weight pulses with their charge, or use none. -/
def Config.ByCharge (cfg : Config) : Prop :=
  cfg.function ≠ .chargeQuantile ∧
    (cfg.function = .extended ∨ cfg.function = .pulseTime ∨ cfg.function = .pulseAndDom → cfg.addNorm = false)

/-- The loss with sorted terms. -/
noncomputable def sortedLoss (cfg : Config) (d : Batch B P) (r : Results B P) (normalize : Bool) :
    Except Err (Sorted B) :=
  match getLoss cfg d r false normalize true with
  | .error e => .error e
  | .ok (.sorted s) => .ok s
  | .ok _ => .error .typeError

end Verif.Loss
