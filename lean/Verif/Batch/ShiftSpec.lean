import Verif.Batch.MultiSpec
import Verif.Inputs.Spec
import Verif.Loss.FileSpec
import Verif.Pulses.ShiftSpec
import Verif.Inputs.Model

/-!
# Specification for C141: another origin of time
-/

namespace Verif.Batch
open Verif.Py Verif.Sources
open Verif.Loss (Cell)
variable {X : Type} {B P W : ℕ}

/-- `D'` is `D` with all times of event `b` later by `τ b`: those of pulses and of excluded windows. -/
structure LaterData (τ : Fin B → ℝ) (D D' : Data X B P W) : Prop where
  domCharge : D'.domCharge = D.domCharge
  ids : D'.ids = D.ids
  pulseTime : ∀ p, D'.pulseTime p = D.pulseTime p + τ (D.ids p).1
  windows : D'.windows = D.windows.map fun ws w =>
    (((ws w).1.1 + τ (ws w).2.1, (ws w).1.2 + τ (ws w).2.1), (ws w).2)

/-- For the model `M`, the parameters `x'` are `x` with a time that is later by `t`. -/
structure LaterParameters (M : Source X) (t : ℝ) (x x' : X) : Prop where
  net : M.net x' = M.net x
  energy : M.energy x' = M.energy x
  domEff : M.domEff x' = M.domEff x
  time : M.time x' = M.time x + t

/-- A cascade at a later time. -/
def _root_.Verif.Inputs.Hyp.later (h : Inputs.Hyp) (t : ℝ) : Inputs.Hyp := { h with time := h.time + t }

/-- A cascade model whose network works on the inputs that the code computes from the parameters
(cascade/default.py:185-297); `layers` are the trained layers and `pos` the positions of the DOMs, `eff`
the column of the DOM efficiency, counted from behind the time. -/
noncomputable def cascadeSource (cfg : Cascade.Config) (icfg : Inputs.Config) (t : Inputs.Trafo) (localVars : List ℝ)
    (pos : DomIx → Sphere.V3) (layers : (DomIx → Except Err (List Inputs.Chan)) → DomIx → ℕ → ℝ) (eff : ℕ)
    (relEff : DomIx → ℝ) : Source Inputs.Hyp where
  cfg := cfg
  net h := layers fun c => Inputs.defaultInputs icfg t localVars (pos c) h.row
  energy h := h.energy
  time h := h.time
  domEff h := h.rest.getD eff 1
  relEff := relEff

/-- Columns of parameters, the seventh of which (the time) is later. -/
def laterCols (τ : Fin B → ℝ) (cols : List (Fin B → ℝ)) : List (Fin B → ℝ) :=
  cols.modify 6 fun col b => col b + τ b

/-- `f'` gives for later parameters what `f` gives, for all numbers of parameters in `lens`. -/
def SameLater (lens : List ℕ) (τ : Fin B → ℝ) (f f' : List (Fin B → ℝ) → Except Err (Out ℝ (Cell B) (Fin P))) : Prop :=
  ∀ cols, cols.length ∈ lens → f' (laterCols τ cols) = f cols

/-- The base sources with the names `k` in `bases` and in `bases'` have the same parameters, and give the same for
later parameters. -/
structure LaterBases (τ : Fin B → ℝ) (bases bases' : Dict String (Base (Fin B → ℝ) ℝ (Cell B) (Fin P))) : Prop where
  names : baseNames bases' = baseNames bases
  eval : ∀ k s s', Dict.get? bases k = some s → Dict.get? bases' k = some s' →
    SameLater ((baseNames bases).map fun x => x.2.length) τ s.eval s'.eval

/-- A cascade model on rows of parameters whose seventh entry is the time and is used as such only. -/
def SeesTimeOnly (M : Source (List ℝ)) : Prop :=
  ∀ x : List ℝ, 6 < x.length → ∀ t, LaterParameters M t x (x.modify 6 (· + t))

/-- The batch holds the data that the pulse module returned, with the times of pulses and excluded windows. -/
structure Holds (d : Pulses.Data ℝ) (D : Data X B P W) (E : Extra B P) : Prop where
  carries : Loss.Carries d (lossBatch D E)
  times : ∀ (p : Fin P) y, d.pulses[p.1]? = some y → D.pulseTime p = y.1.time
  windows : ∀ l, d.timeExclusions = some l → ∃ ws, D.windows = some ws ∧ ∀ w : Fin W,
    l[w.1]? = some ((ws w).1, Pulses.idsOf (Loss.place (ws w).2))

end Verif.Batch
