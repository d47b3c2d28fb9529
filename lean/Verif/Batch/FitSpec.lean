import Verif.Batch.Spec
import Verif.Fit.Spec

/-!
# Specification for C143: the best parameters of measured events
-/

namespace Verif.Batch
open Verif.Py
variable {X : Type} {B P W : ℕ}

/-- The loss of the measured events `D`, as a function of their parameters. -/
noncomputable def fitLoss (M : Source X) (cfg : Loss.Config) (D : Data X B P W) (E : Extra B P) (x : Fin B → X) :
    Except Err ℝ :=
  endToEnd M cfg { D with x := x } E

/-- The loss at `x` is a number, and not larger than any other number it gives. -/
def BestFit (loss : (Fin B → X) → Except Err ℝ) (x : Fin B → X) : Prop :=
  ∃ v, loss x = .ok v ∧ ∀ y w, loss y = .ok w → v ≤ w

/-- The same loss as a function of the array of parameters that the reconstruction works with, `n` for each event. -/
noncomputable def arrayLoss (n : ℕ) (M : Source (List ℝ)) (cfg : Loss.Config) (D : Data (List ℝ) B P W)
    (E : Extra B P) (h : Trafo.Arr) : Except Err ℝ :=
  fitLoss M cfg D E fun b => Fit.rowOf n h b

end Verif.Batch
