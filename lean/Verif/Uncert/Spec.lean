/-
What the uncertainties of a reconstruction should be, independent of the code.
-/
import Mathlib.Analysis.Calculus.FDeriv.Basic
import Mathlib.LinearAlgebra.Matrix.NonsingularInverse
import Mathlib.Analysis.SpecialFunctions.Exp

namespace Verif.Uncert

/-- The matrix of second derivatives of a function at a point. -/
noncomputable def secondDerivatives {n : ℕ} (f : (Fin n → ℝ) → ℝ) (p : Fin n → ℝ) :
    Matrix (Fin n) (Fin n) ℝ :=
  Matrix.of fun i j => fderiv ℝ (fderiv ℝ f) p (Pi.single j 1) (Pi.single i 1)

/-- The gradient of a function at a point. -/
noncomputable def gradient {n : ℕ} (f : (Fin n → ℝ) → ℝ) (p : Fin n → ℝ) : Fin n → ℝ :=
  fun i => fderiv ℝ f p (Pi.single i 1)

/-- The sum of the outer products of the gradients of functions. -/
noncomputable def gradientProducts {n : ℕ} (fs : List ((Fin n → ℝ) → ℝ)) (p : Fin n → ℝ) :
    Matrix (Fin n) (Fin n) ℝ :=
  Matrix.of fun i j => (fs.map fun f => gradient f p i * gradient f p j).sum

/-- The parameters before normalisation: a function of parameters as function of values to which
`unlog` has yet to be applied (the exponential for parameters in logarithmic space). -/
def beforeUnlog {n : ℕ} (f : (Fin n → ℝ) → ℝ) (unlog : Fin n → ℝ → ℝ) : (Fin n → ℝ) → ℝ :=
  fun y => f fun i => unlog i (y i)

/-- Opening angles and differences of the loss of a likelihood that is a parabola in the angle, with
the width `sigma`. -/
noncomputable def parabola (sigma : ℝ) (angles : List ℝ) : List (ℝ × ℝ) :=
  angles.map fun a => (a, a ^ 2 / (2 * sigma ^ 2))

end Verif.Uncert
