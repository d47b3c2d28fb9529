import Verif.Batch.FitSpec
import Verif.Batch.ShiftSpec
import Verif.Cascade.Spec

/-!
# Specification for C144: the best parameters of the events of a file
-/

namespace Verif.Batch
open Verif.Py
variable {X κ : Type} [DecidableEq κ] {B P W : ℕ}

/-- The position of a row among the strings and DOMs, counted from zero. -/
def domOf (r : Pulses.Row κ ℝ) : ℕ × ℕ := ((r.string - 1).toNat, (r.dom - 1).toNat)

/-- The rows of the event `k`. -/
def rowsOf (k : κ) (rows : List (Pulses.Row κ ℝ)) : List (Pulses.Row κ ℝ) := rows.filter fun r => r.event = k

/-- The negative logarithm of the Poisson likelihood of the pulses of one event, up to the constants `1e-7`, with the
charges `q` and densities `g` of the DOMs, for the DOMs that are `good`. -/
noncomputable def eventLoss (good : ℕ × ℕ → Bool) (rows : List (Pulses.Row κ ℝ)) (q : ℕ × ℕ → ℝ)
    (g : ℕ × ℕ → ℝ → ℝ) : ℝ :=
  (∑ s : DomIx with good (s.1, s.2) = true, q (s.1, s.2)) -
    ((rows.filter fun r => good (domOf r)).map fun r =>
      r.charge * Real.log ((q (domOf r) + 1e-7) * (g (domOf r) r.time + 1e-7))).sum

/-- The excluded time windows of a DOM of the event `k` in the file. -/
def windowsOf (times : List (Pulses.TimeRow κ ℝ)) (k : κ) (s : ℕ × ℕ) : List (ℝ × ℝ) :=
  (times.filter fun r => r.event = k ∧ ((r.string - 1).toNat, (r.dom - 1).toNat) = s).map fun r => (r.start, r.stop)

/-- The windows that are used, if any. -/
def usedWindows (pc : Pulses.Config) (times : List (Pulses.TimeRow κ ℝ)) (k : κ) (s : ℕ × ℕ) :
    Option (List (ℝ × ℝ)) :=
  if pc.timeExclusionsExist then some (windowsOf times k s) else none

/-- What the model knows about a DOM, if the parameters are `x` and the excluded windows `ws`, before anything is
measured. -/
def Source.alone (M : Source X) (x : X) (ws : Option (List (ℝ × ℝ))) (s : DomIx) : Cascade.Dom where
  out := M.net x s
  energy := M.energy x
  time := M.time x
  domEff := M.domEff x
  relEff := M.relEff s
  chargeTrue := 0
  windows := ws

/-- `q x ws s` and `g x ws s t` are the charge and the density that the model predicts for the DOM `s`, if the
parameters are `x` and the excluded windows `ws`, which do not overlap. -/
def Describes (M : Source X) (q : X → Option (List (ℝ × ℝ)) → ℕ × ℕ → ℝ)
    (g : X → Option (List (ℝ × ℝ)) → ℕ × ℕ → ℝ → ℝ) : Prop :=
  ∀ x ws (s : DomIx), (∀ l ∈ ws, Cascade.DisjointWindows l) →
    ∃ T, Cascade.getTensors M.cfg (M.alone x ws s) = .ok T ∧ q x ws (s.1, s.2) = T.charge ∧
      ∀ t, g x ws (s.1, s.2) t = T.pulsePdf t

/-- `d` was loaded from a file with the given event ids, pulses, excluded DOMs and excluded windows, which do not
overlap. -/
structure Loaded (pc : Pulses.Config) (labels : List κ) (rows : List (Pulses.Row κ ℝ))
    (excl : Option (List (Pulses.DomRow κ))) (times : List (Pulses.TimeRow κ ℝ)) (d : Pulses.Data ℝ) : Prop where
  nodup : labels.Nodup
  used : ∀ r ∈ rows, r.Used
  valid : ∀ r ∈ rows, r.Valid labels
  validExcl : ∀ l, excl = some l → ∀ r ∈ l, r.Valid labels
  validTimes : ∀ r ∈ times, r.event ∈ labels ∧ 1 ≤ r.string ∧ r.string ≤ 86 ∧ 1 ≤ r.dom ∧ r.dom ≤ 60
  keys : pc.domExclusionsExist = true → excl.isSome = true ∧ pc.discard = true
  disjoint : ∀ k s, Cascade.DisjointWindows (windowsOf times k s)
  load : ∃ mem tmem, Pulses.fromHdf pc ⟨some labels, some rows, excl, some times⟩ mem tmem =
    .ok (some (labels.length, d))

/-- The DOM `s` counts for the event `k`: unless excluded DOMs are loaded, all do. -/
def Counts (pc : Pulses.Config) (excl : Option (List (Pulses.DomRow κ))) (k : κ) (s : ℕ × ℕ) : Prop :=
  pc.domExclusionsExist = true → pc.good s.1 s.2 = true ∧ ∀ l, excl = some l → ∀ r ∈ l, r.dom ≤ 60 → r.event = k →
    ((r.string - 1).toNat, (r.dom - 1).toNat) ≠ s

/-- The negative logarithm of the likelihood of the event `k` in the file. -/
noncomputable def fileLoss (pc : Pulses.Config) (rows : List (Pulses.Row κ ℝ)) (times : List (Pulses.TimeRow κ ℝ))
    (good : ℕ × ℕ → Bool) (k : κ) (q : Option (List (ℝ × ℝ)) → ℕ × ℕ → ℝ)
    (g : Option (List (ℝ × ℝ)) → ℕ × ℕ → ℝ → ℝ) : ℝ :=
  eventLoss good (rowsOf k rows) (fun s => q (usedWindows pc times k s) s) (fun s => g (usedWindows pc times k s) s)

end Verif.Batch
