import Verif.Batch.Spec
import Verif.Sources.Model

/-!
# Specification for C139: several sources

A tensor of parameters is the list of its columns; a column has one entry for each event.
-/

namespace Verif.Batch
open Verif.Py Verif.Sources
open Verif.Loss (Cell)
variable {B P W : ℕ}

/-- The columns with the parameters of event `b` only. -/
def colsOnly (b : Fin B) (cols : List (Fin B → ℝ)) : List (Fin 1 → ℝ) := cols.map fun col _ => col b

/-- The part of the prediction of a source that belongs to event `b` is that for the event on its own. -/
structure SameOut {n : ℕ} (o : Out ℝ (Cell B) (Fin P)) (b : Fin B) (e : Fin n → Fin P)
    (o' : Out ℝ (Cell 1) (Fin n)) : Prop where
  charge : ∀ c, o'.charge (0, c) = o.charge (b, c)
  variance : ∀ c, o'.variance (0, c) = o.variance (b, c)
  exclusion : ∀ c, o'.exclusion (0, c) = o.exclusion (b, c)
  pdf : ∀ q, o'.pdf q = o.pdf (e q)
  chargeShape : o'.chargeShape = o.chargeShape
  varianceShape : o'.varianceShape = o.varianceShape
  exclusionShape : o'.exclusionShape = o.exclusionShape

/-- The same for the prediction of a multi source. -/
structure SameResult {n : ℕ} (r : Result ℝ (Cell B) (Fin P)) (b : Fin B) (e : Fin n → Fin P)
    (r' : Result ℝ (Cell 1) (Fin n)) : Prop where
  charge : ∀ c, r'.charge (0, c) = r.charge (b, c)
  variance : ∀ c, r'.variance (0, c) = r.variance (b, c)
  exclusion : ∀ c, r'.exclusion (0, c) = r.exclusion (b, c)
  pdf : ∀ q, r'.pdf q = r.pdf (e q)

/-- A function for batches gives what the functions `fs` give for the events on their own, and fails if and
only if one of them does. -/
def EventWise {n : Fin B → ℕ} (e : ∀ b, Fin (n b) → Fin P)
    (f : List (Fin B → ℝ) → Except Err (Out ℝ (Cell B) (Fin P)))
    (fs : ∀ b, List (Fin 1 → ℝ) → Except Err (Out ℝ (Cell 1) (Fin (n b)))) : Prop :=
  ∀ cols,
    (∃ (o : Out ℝ (Cell B) (Fin P)) (os : ∀ b, Out ℝ (Cell 1) (Fin (n b))), f cols = .ok o ∧
      (∀ b, fs b (colsOnly b cols) = .ok (os b)) ∧ ∀ b, SameOut o b (e b) (os b)) ∨
    (∃ err, f cols = .error err) ∧ ∃ b err, fs b (colsOnly b cols) = .error err

/-- The base sources, evaluated on a batch, and `alone`, evaluated on single events: they have the same
names and parameters, and each is evaluated event by event. -/
structure SameBases {n : Fin B → ℕ} (e : ∀ b, Fin (n b) → Fin P)
    (bases : Dict String (Base (Fin B → ℝ) ℝ (Cell B) (Fin P)))
    (alone : ∀ b, Dict String (Base (Fin 1 → ℝ) ℝ (Cell 1) (Fin (n b)))) : Prop where
  names : ∀ b, baseNames (alone b) = baseNames bases
  eval : ∀ k s, Dict.get? bases k = some s → ∀ ss : ∀ b, Base (Fin 1 → ℝ) ℝ (Cell 1) (Fin (n b)),
    (∀ b, Dict.get? (alone b) k = some (ss b)) → EventWise e s.eval fun b => (ss b).eval

/-- A cascade model as a base source (model/multi_source/base.py:349-357). -/
noncomputable def Source.base (M : Source (List ℝ)) (names : List String) (D : Data Unit B P W) :
    Base (Fin B → ℝ) ℝ (Cell B) (Fin P) where
  names := names
  eval cols :=
    match getTensors M ⟨fun b => cols.map fun col => col b, D.domCharge, D.pulseTime, D.ids, D.windows⟩ with
    | .error err => .error err
    | .ok T => .ok { charge := T.charge, variance := fun c => (T.stats c).variance,
                     exclusion := fun c => (T.exclusionSum.map fun x => x c).getD 0, pdf := T.pulsePdf }

/-- The noise model as a base source; it has no parameters, `window` is the readout window of each event. -/
noncomputable def NoiseSource.base (N : NoiseSource) (window : Fin B → ℝ × ℝ) (D : Data Unit B P W) :
    Base (Fin B → ℝ) ℝ (Cell B) (Fin P) where
  names := []
  eval _ :=
    match noiseGetBatch N ⟨window, D.domCharge, D.pulseTime, D.ids, D.windows⟩ with
    | .error err => .error err
    | .ok T => .ok { charge := T.charge, variance := T.variance,
                     exclusion := fun c => (T.exclusion.map fun x => x c).getD 0, pdf := T.pulsePdf }

/-- The predictions of a multi source as the loss sees them. -/
def multiResults (exclusionsExist : Bool) (r : Result ℝ (Cell B) (Fin P)) : Loss.Results B P where
  domCharges := some r.charge
  domLogPdf := none
  domVariance := some r.variance
  pulsePdf := some r.pdf
  quantilePdf := none
  exclusionSum := exclusionsExist

end Verif.Batch
