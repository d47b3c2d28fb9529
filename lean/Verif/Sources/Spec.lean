import Verif.Sources.Model
import Mathlib.Algebra.BigOperators.Group.List.Basic

/-!
# Specification of multi sources

What "superposition of the sources" means, apart from how the code computes it.
-/

namespace Verif.Sources
open Verif.Py
variable {V K D P : Type} [Field K]

/-- `r` is the superposition of the predictions `outs`: charges and variances add up, the density
of a pulse is the mean of the densities weighted with the charges at its DOM, and the excluded
fraction at a DOM is the mean of the excluded fractions weighted with the charges there.
`eps` is added to the total charge in the density; the true mean has `eps = 0`. -/
structure IsSuperposition (eps : K) (outs : List (Out K D P)) (pulseDom : P → D)
    (r : Result K D P) : Prop where
  charge : ∀ d, r.charge d = (outs.map fun o => o.charge d).sum
  variance : ∀ d, r.variance d = (outs.map fun o => o.variance d).sum
  pdf : ∀ p, r.pdf p = (outs.map fun o => o.charge (pulseDom p) * o.pdf p).sum /
    ((outs.map fun o => o.charge (pulseDom p)).sum + eps)
  exclusion : ∀ d, r.exclusion d = (outs.map fun o => o.charge d * o.exclusion d).sum /
    (outs.map fun o => o.charge d).sum

/-- `outs` are the predictions of the sources, each by its own base on its own parameters. -/
def OwnPredictions (bases : Dict String (Base V K D P)) (split : Dict String (List V))
    (sources : Dict String String) (outs : List (Out K D P)) : Prop :=
  List.Forall₂ (fun (s : String × String) o => ∃ b params, Dict.get? bases s.2 = some b ∧
    Dict.get? split s.1 = some params ∧ b.eval params = .ok o) sources outs

/-- `order` is an order in which Python may run through `set(sources.values())`. -/
def IsSetOrder (order : List String) (sources : Dict String String) : Prop :=
  order.Nodup ∧ ∀ b, b ∈ order ↔ ∃ s, (s, b) ∈ sources

/-- The prediction has one charge and variance for each of the 86 x 60 DOMs and, if DOMs are excluded in time,
one excluded fraction. -/
def RightShapes (exclusionsExist : Bool) (o : Out K D P) : Prop :=
  o.chargeShape = [86, 60, 1] ∧ o.varianceShape = [86, 60, 1] ∧
    (exclusionsExist = true → o.exclusionShape = [86, 60, 1])

end Verif.Sources
