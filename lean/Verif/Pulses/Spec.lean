/-
What C22 and C23 say, in terms of the rows of the pulse table.
-/
import Verif.Pulses.Model

namespace Verif.Pulses

variable {κ K : Type} [DecidableEq κ] [Field K] [LinearOrder K]

/-- The row is used: its DOM is one of the sixty in-ice DOMs (others are skipped). -/
def Row.Used (r : Row κ K) : Prop := r.dom ≤ 60

instance (r : Row κ K) : Decidable r.Used := inferInstanceAs (Decidable (_ ≤ _))

/-- The cell of a row: the position of its event among the labels, and string and DOM counted
from zero. -/
def cellOf (labels : List κ) (r : Row κ K) : Cell :=
  (labels.idxOf r.event, (r.string - 1).toNat, (r.dom - 1).toNat)

/-- The ids of a cell. -/
def idsOf (c : Cell) : Ids := ⟨c.1, c.2.1, c.2.2⟩

/-- Table rows name a known event, strings 1 to 86 and DOMs from 1. -/
def Row.Valid (labels : List κ) (r : Row κ K) : Prop :=
  r.Used → r.event ∈ labels ∧ 1 ≤ r.string ∧ r.string ≤ 86 ∧ 1 ≤ r.dom

/-- The charge the used rows deposit in a cell. -/
def chargeIn (labels : List κ) (rows : List (Row κ K)) (c : Cell) : K :=
  ((rows.filter (fun r => decide (r.Used ∧ cellOf labels r = c))).map Row.charge).sum

/-- The times of the used rows of an event. -/
def timesOf (labels : List κ) (rows : List (Row κ K)) (e : Nat) : List K :=
  (rows.filter (fun r => decide (r.Used ∧ (cellOf labels r).1 = e))).map Row.time

/-- Least element, `none` (infinity) for no elements. -/
def IsLeast (l : List K) : Option K → Prop
  | none => l = []
  | some m => m ∈ l ∧ ∀ t ∈ l, m ≤ t

/-- Greatest element, `none` (minus infinity) for no elements. -/
def IsGreatest (l : List K) : Option K → Prop
  | none => l = []
  | some m => m ∈ l ∧ ∀ t ∈ l, t ≤ m

/-- The DOM exclusions that a list of rows asks for. -/
def ExcludedBy (labels : List κ) (rows : List (DomRow κ)) (c : Cell) : Prop :=
  ∃ r ∈ rows, r.dom ≤ 60 ∧ labels.idxOf r.event = c.1 ∧ (r.string - 1).toNat = c.2.1 ∧
    (r.dom - 1).toNat = c.2.2

/-- DOM exclusion rows name a known event, strings 1 to 86 and DOMs from 1. -/
def DomRow.Valid (labels : List κ) (r : DomRow κ) : Prop :=
  r.dom ≤ 60 → r.event ∈ labels ∧ 1 ≤ r.string ∧ r.string ≤ 86 ∧ 1 ≤ r.dom

/-- The rows of a pulse series map: one per pulse on an in-ice DOM, all of the single event. -/
def frameRows (pulses : List ((Int × Int) × List (K × K))) : List (Row Unit K) :=
  pulses.flatMap (fun p =>
    if p.1.2 ≤ 60 then p.2.map (fun q => ⟨(), p.1.1, p.1.2, q.2, q.1⟩) else [])

/-- The row of `x_pulses` and of `x_pulses_ids` of row number `rk.2` of the table: charge, time, and
as quantile the fraction of the charge of the DOM that has arrived up to and including this row. -/
def pulseOf (labels : List κ) (quantiles : Bool) (rows : List (Row κ K)) (rk : Row κ K × Nat) :
    Pulse K × Ids :=
  (⟨rk.1.charge, rk.1.time,
    if quantiles then
      some (chargeIn labels (rows.take (rk.2 + 1)) (cellOf labels rk.1) /
        chargeIn labels rows (cellOf labels rk.1))
    else none⟩, idsOf (cellOf labels rk.1))

/-- What the module returns for a table of pulses: the charge of every DOM is the sum over its rows, the
time window of every event is that of its rows, and the pulses are those rows for which `keep`
is true, in their order. -/
structure Extracted (labels : List κ) (quantiles : Bool) (rows : List (Row κ K)) (keep : Cell → Bool)
    (d : Data K) : Prop where
  charge : ∀ c, d.domCharge c = chargeIn labels rows c
  lo : ∀ e, IsLeast (timesOf labels rows e) (d.timeWindow e).1
  hi : ∀ e, IsGreatest (timesOf labels rows e) (d.timeWindow e).2
  pulses : d.pulses = (rows.zipIdx.filter (fun rk => keep (cellOf labels rk.1))).map
    (pulseOf labels quantiles rows)

end Verif.Pulses
