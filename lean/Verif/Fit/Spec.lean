import Verif.Fit.Model
import Verif.Reco.Props

/-!
# Specification for C84 to C88
-/

namespace Verif.Fit
open Verif.Py Verif.Trafo Verif.Reco

/-- A value is not below a lower limit of the user; `None` and infinity do not limit. -/
def Bound.Lower : Bound → ℝ → Prop
  | .int z, x => (z : ℝ) ≤ x
  | .real y, x => y ≤ x
  | .inf, _ => True
  | .none, _ => True

/-- A value is not above an upper limit of the user. -/
def Bound.Upper : Bound → ℝ → Prop
  | .int z, x => x ≤ (z : ℝ)
  | .real y, x => x ≤ y
  | .inf, _ => True
  | .none, _ => True

/-- A value is not below a limit a minimiser was given. A limit that is not a number guarantees
nothing. -/
def Limit.Lower : Limit → ℝ → Prop
  | .num y, x => y ≤ x
  | .nan, _ => True
  | .free, _ => True

/-- A value is not above a limit a minimiser was given. -/
def Limit.Upper : Limit → ℝ → Prop
  | .num y, x => x ≤ y
  | .nan, _ => True
  | .free, _ => True

open Classical in
/-- The transformed value of a parameter. -/
noncomputable def transformed (T : Transformer) (t : TensorInfo) (f : Trafo.Fit) (i : ℕ) (x : ℝ) :
    ℝ :=
  ((if IsLog t i then Real.log (1 + x) else x) - f.mean.at [0, i]) / (T.norm + f.std.at [0, i])

/-- What is relied on of `scipy.optimize.minimize`: it returns as many values as it was given, it
refuses limits of another number, and the values respect the limits. -/
def Respects (minimize : Minimizer) : Prop :=
  ∀ g x0 lims x, minimize g x0 lims = .ok x → x.length = x0.length ∧
    ∀ l, lims = some l → l.length = x0.length ∧
      ∀ (i : ℕ) lo hi y, l[i]? = some (lo, hi) → x[i]? = some y → lo.Lower y ∧ hi.Upper y

/-- `g` has its smallest value among vectors of length `m` at `x`. -/
def Minimises (g : List ℝ → Except Err ℝ) (m : ℕ) (x : List ℝ) : Prop :=
  ∃ v, g x = .ok v ∧ ∀ y : List ℝ, y.length = m → ∃ w, g y = .ok w ∧ v ≤ w

/-- Row `b` of a two-dimensional array. -/
def rowOf (n : ℕ) (a : Arr) (b : ℕ) : List ℝ := (List.range n).map fun i => a.val [b, i]

/-- The array of one event of a batch. -/
def eventOf (n : ℕ) (a : Arr) (b : ℕ) : Arr :=
  ⟨[1, n], fun i =>
    match i with
    | [_, j] => a.val [b, j]
    | _ => 0⟩

/-- The part of a vector that belongs to event `b`, if there are `k` values per event. -/
def part (k b : ℕ) (x : List ℝ) : List ℝ := (x.drop (b * k)).take k

/-- The loss of a batch is a constant and a sum of one term per event, each of which depends on the
parameters of the event only. -/
def Additive (B n : ℕ) (loss : Arr → Except Err ℝ) (c : ℝ) (term : ℕ → List ℝ → ℝ) : Prop :=
  ∀ h : Arr, h.shape = [B, n] →
    loss h = .ok (c + ((List.range B).map fun b => term b (rowOf n h b)).sum)

/-- What is relied on of `scipy.optimize.shgo`: the values respect the bounds, and the function
could be evaluated at them. -/
def RespectsBounds (shgo : Global) : Prop :=
  ∀ g bounds x, shgo g bounds = .ok x → x.length = bounds.length ∧ (∃ v, g x = .ok v) ∧
    ∀ (i : ℕ) lo hi y, bounds[i]? = some (lo, hi) → x[i]? = some y → lo ≤ y ∧ y ≤ hi

/-- The last value in a list of optional values that is given. -/
def lastGiven {V : Type} : List (Option V) → Option V
  | [] => none
  | v :: vs =>
    match lastGiven vs with
    | some w => some w
    | none => v

/-- A call is accepted and uses the dictionary with identity `r`, as `minimizer_kwargs` or as
`options`. -/
def Uses {V : Type} (r : ℕ) (c : GlobalCall V) : Prop :=
  c.accepted = true ∧ (c.kwargs = r ∨ c.options = r)

instance {V : Type} (r : ℕ) (c : GlobalCall V) : Decidable (Uses r c) := by
  unfold Uses; infer_instance

end Verif.Fit
