import Verif.Tray.Model

/-!
# Specification for C104 and C105
-/

namespace Verif.Tray
open Verif.Py Verif.Reco

/-- The functions a module gets in a tray of its own, or its exception. -/
def alone {F : Type} (create : Getter → Settings → F) (m : ModuleArgs) : Except Err (List F) :=
  (initModule create (State.new F) m).1

/-- A plot shows the loss `L` in dependence of parameter `i`, with all other parameters as in the
true event `x` and in the reconstructed one `r`, at the values `xs`. -/
structure Shows (L : Row → ℝ) (x r : Row) (i : Nat) (xs : List ℝ) (p : Plot) : Prop where
  axis : p.points.map Point.x = xs
  truthCurve : ∀ q ∈ p.points, q.truth = L (x.set i q.x)
  recoCurve : ∀ q ∈ p.points, q.reco = L (r.set i q.x)
  lossTruth : p.lossTruth = L x
  lossReco : p.lossReco = L r
  truth : x[i]? = some p.truth
  reco : r[i]? = some p.reco

end Verif.Tray
