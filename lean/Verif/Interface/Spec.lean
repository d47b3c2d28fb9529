import Verif.Interface.Model

/-!
# Specification for C130 and C131
-/

namespace Verif.Interface
open Verif.Py Verif.Trafo Verif.Reco Verif.Fit

/-- The names of the interfaces. -/
def Choice.title : Choice → String
  | .scipy => "scipy"
  | .shog => "shog"
  | .tfp => "tfp"
  | .sphericalOpt => "spherical_opt"

/-- What a function must do to be minimised with tensorflow probability: return one value for every
row of an array of `B` rows of `n` values. -/
def RowWise (B n : ℕ) (g : Arr → Except Err (List ℝ)) : Prop :=
  ∀ x : Arr, x.shape = [B, n] → ∀ v, g x = .ok v → v.length = B

/-- The loss depends on the parameters of the events in the batch only. -/
def Local (B n : ℕ) (loss : Arr → Except Err ℝ) : Prop :=
  ∀ a a' : Arr, a.shape = [B, n] → a'.shape = [B, n] →
    (∀ b < B, ∀ i < n, a.val [b, i] = a'.val [b, i]) → loss a = loss a'

/-- A minimiser without limits returns as many values as it was given, and no worse ones. -/
def Descends (minimize : Minimizer) : Prop :=
  ∀ g x0 x, minimize g x0 none = .ok x → x.length = x0.length ∧
    ∃ v, g x = .ok v ∧ ∀ w, g x0 = .ok w → v ≤ w

/-- A global minimiser returns a value that is not worse than any other within the bounds. -/
def Lowest (shgo : Global) : Prop :=
  ∀ g bounds x, shgo g bounds = .ok x → x.length = bounds.length ∧
    ∃ v, g x = .ok v ∧ ∀ y : List ℝ, y.length = bounds.length →
      (∀ (i : ℕ) lo hi z, bounds[i]? = some (lo, hi) → y[i]? = some z → lo ≤ z ∧ z ≤ hi) →
      ∀ u, g y = .ok u → v ≤ u

/-- A minimiser of tensorflow probability returns an array like the one it was given, and, if the
function has one value per row, no worse values. -/
def DescendsTf (tfp : Tfp) : Prop :=
  ∀ g x0 x, tfp g x0 = .ok x → x.shape = x0.shape ∧
    ∀ n, x0.shape = [1, n] → RowWise 1 n g →
      ∃ v, g x = .ok [v] ∧ ∀ w, g x0 = .ok [w] → v ≤ w

/-- A minimiser with several starting points returns nothing worse than the first one. -/
def DescendsFrom (opt : Spherical) : Prop :=
  ∀ g a x, opt g a = .ok x → ∀ m n, a.shape = [m, n] → x.length = n ∧
    ∃ v, g x = .ok v ∧ ∀ w, g (rowOf n a 0) = .ok w → v ≤ w

/-- The values of the logarithmic parameters of a seed are within the limits of the
transformation. -/
def SeedInRange (t : TensorInfo) (inTrafo : Bool) (B n : ℕ) (seed : Arr) : Prop :=
  ∀ b < B, ∀ i < n, inTrafo = true → IsLog t i → InRange (seed.val [b, i])

/-- The fitted values of logarithmic parameters are within the limits of the transformation. -/
def FitInRange (T : Transformer) (t : TensorInfo) (f : Trafo.Fit) (inTrafo : Bool)
    (fit : List Bool) (B : ℕ) (p : Arr) : Prop :=
  ∀ b < B, ∀ k i : ℕ, (positions fit)[k]? = some i → inTrafo = true → IsLog t i →
    |p.val [b, k] * (T.norm + f.std.at [b, i]) + f.mean.at [b, i]| ≤ 60

end Verif.Interface
