import Verif.Loss.Spec
import Verif.Pulses.Spec

/-!
# Specification for C140

From the table of pulses to the loss.
-/

namespace Verif.Loss
variable {κ : Type} [DecidableEq κ] {B P : ℕ}

/-- The position of a DOM of an event in the tensors of the pulse module. -/
def place (c : Cell B) : Pulses.Cell := (c.1, c.2.1, c.2.2)

/-- The tensors of the batch are those that the pulse module returned. -/
structure Carries (d : Pulses.Data ℝ) (b : Batch B P) : Prop where
  count : d.pulses.length = P
  pulses : ∀ p : Fin P, ∃ x, d.pulses[p.1]? = some (x, Pulses.idsOf (place (b.ids p))) ∧
    x.charge = b.charge p ∧ ∀ q, x.extra = some q → b.quantile p = q
  domCharge : ∀ c, b.domCharge c = d.domCharge (place c)
  mask : b.mask = d.domExclusions.map fun x c => if x (place c) = true then 1 else 0
  time : b.timeExclusions = d.timeExclusions.isSome

/-- The source predicts the charges `q` and, for a pulse, the density `g` of its DOM at its time, and knows about
excluded time windows, if there are any. -/
structure Predicts (d : Pulses.Data ℝ) (b : Batch B P) (r : Results B P) (q : Pulses.Cell → ℝ)
    (g : Pulses.Cell → ℝ → ℝ) : Prop where
  charges : r.domCharges = some fun c => q (place c)
  density : ∃ pdf : Fin P → ℝ, r.pulsePdf = some pdf ∧ ∀ (p : Fin P) (x : Pulses.Pulse ℝ × Pulses.Ids),
    d.pulses[p.1]? = some x → pdf p = g (place (b.ids p)) x.1.time
  charge_nonneg : ∀ c, 0 ≤ q c
  density_nonneg : ∀ c t, 0 ≤ g c t
  windows : d.timeExclusions.isSome = true → r.exclusionSum = true

/-- The negative logarithm of the Poisson likelihood of a table of pulses, up to the constants `1e-7`: the
charges predicted for the DOMs that are not excluded, less for each row on such a DOM its charge times the
logarithm of the rate at its time. -/
noncomputable def tableLoss (B : ℕ) (labels : List κ) (rows : List (Pulses.Row κ ℝ)) (valid : Pulses.Cell → Bool)
    (q : Pulses.Cell → ℝ) (g : Pulses.Cell → ℝ → ℝ) : ℝ :=
  (∑ c : Cell B with valid (place c) = true, q (place c)) -
    ((rows.filter fun r => valid (Pulses.cellOf labels r)).map fun r =>
      r.charge * Real.log ((q (Pulses.cellOf labels r) + 1e-7) *
        (g (Pulses.cellOf labels r) r.time + 1e-7))).sum

end Verif.Loss
