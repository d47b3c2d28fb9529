import Verif.Pulses.Spec

/-!
# Specification for C141: tables with later times
-/

namespace Verif.Pulses
open Verif.Py
variable {κ K : Type} [DecidableEq κ] [Field K] [LinearOrder K]

/-- The file with all times of event `k` later by `τ k`: those of pulses and of excluded windows. -/
def HdfFile.later (file : HdfFile κ K) (τ : κ → K) : HdfFile κ K where
  labels := file.labels
  pulses := file.pulses.map fun rows => rows.map fun r => { r with time := r.time + τ r.event }
  domExclusions := file.domExclusions
  timeExclusions := file.timeExclusions.map fun rows => rows.map fun r =>
    { r with start := r.start + τ r.event, stop := r.stop + τ r.event }

/-- The data with all times of the event with index `i` later by `σ i`: those of pulses, the range of these
times, and excluded windows. -/
def Data.later (d : Data K) (σ : ℕ → K) : Data K where
  domCharge := d.domCharge
  domExclusions := d.domExclusions
  pulses := d.pulses.map fun p => ({ p.1 with time := p.1.time + σ p.2.event.toNat }, p.2)
  timeWindow i := ((d.timeWindow i).1.map (· + σ i), (d.timeWindow i).2.map (· + σ i))
  timeExclusions := d.timeExclusions.map fun l => l.map fun w =>
    ((w.1.1 + σ w.2.event.toNat, w.1.2 + σ w.2.event.toNat), w.2)

end Verif.Pulses
