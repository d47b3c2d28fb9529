import Verif.Quality.Model
import Verif.Reco.Spec
import Verif.Sphere.Spec
import Mathlib.Algebra.BigOperators.Group.Finset.Basic

/-!
# Specification for C106 to C108
-/

namespace Verif.Quality
open Verif.Py Verif.Tray

/-- Drawn numbers are as many as asked for. -/
def Rng.Counts {σ : Type} (rng : Rng σ) : Prop := ∀ s n, (rng.draw s n).length = n

/-- No drawn vector is parallel to the direction. -/
def Rng.Generic {σ : Type} (rng : Rng σ) (zen azi : ℝ) : Prop :=
  ∀ s n, ∀ v ∈ vecs (rng.draw s n), Sphere.cross (Sphere.direction zen azi) v ≠ ⟨0, 0, 0⟩

/-- `h` is the result of the fit that starts at the event `result` turned to the direction
`(zen, azi)` and keeps this direction: it has the direction, and the other parameters are those of
the fit. -/
structure FitAt (c : Circ) (result h : Row) (zen azi : ℝ) : Prop where
  length : h.length = c.fit.length
  zenith : h[c.zen]? = some zen
  azimuth : h[c.azi]? = some azi
  others : ∀ k i : Nat,
    (((List.range c.fit.length).filter fun i => i ≠ c.zen ∧ i ≠ c.azi)[k]?) = some i →
    h[i]? = ((c.reco ((result.set c.zen zen).set c.azi azi))[k]?).map
      fun v => if c.trafo then c.inv i v else v

/-- The module is set up for events of this kind: all parameters are fitted, zenith and azimuth are
two of them, the fit of the others returns the others, the range is one that the code computes, and
the transformation can be inverted. -/
structure Circ.Ready (c : Circ) : Prop where
  all : ∀ b ∈ c.fit, b = true
  zen : c.zen < c.fit.length
  azi : c.azi < c.fit.length
  ne : c.zen ≠ c.azi
  reco : ∀ seed, (c.reco seed).length = c.fit.length - 2
  num : 1 ≤ c.num
  range : ∀ r, c.range = some r → 0 ≤ r ∧ r ≤ 89.9
  inverse : ∀ i v, c.inv i (c.fwd i v) = v

/-- `result` is the event of the fitted values `resultTrafo`. -/
def Circ.Result (c : Circ) (resultTrafo result : Row) : Prop :=
  resultTrafo.length = c.fit.length ∧ result = if c.trafo then mapCols c.inv resultTrafo else resultTrafo

/-- There is a bound for the opening angle: fits at larger opening angles are excluded at 95% (the
distribution function of the chi-square distribution, with as many degrees of freedom as there are
other parameters, at twice the difference of the losses), and those at smaller ones are not. -/
def Circ.SharpAt (c : Circ) (result : Row) (zen azi bound : ℝ) : Prop :=
  ∀ (psi zen' azi' : ℝ) (e : Row), 0 < psi → psi < 90 →
    (Sphere.direction zen azi).angle (Sphere.direction zen' azi') = psi * Real.pi / 180 →
    FitAt c result e zen' azi' →
    (0.95 < Uncert.chi2Cdf (c.fit.length - 2) (2 * (c.loss e - c.loss result)) ↔ bound < psi)

/-- The state of the generator after an event. -/
def Circ.after {σ : Type} (c : Circ) (rng : Rng σ) (s : σ) : σ :=
  let s := if c.range.isSome then s
    else rng.next (rng.next (rng.next (rng.next s 3) 3) 3) 3
  rng.next (rng.next s c.num) (3 * c.num)

/-! ## The goodness of fit -/

variable {σ β : Type}

/-- `r` is put together from the fitted values `p` and the other parameters of `seed`. -/
structure Merged (g : Goodness σ β) (seed p r : Row) : Prop where
  length : r.length = g.fit.length
  kept : ∀ i : Nat, g.fit[i]? = some false → r[i]? = seed[i]?
  fitted : ∀ k i : Nat, (((List.range g.fit.length).filter fun i => g.fit[i]? = some true)[k]?) = some i →
    r[i]? = (p[k]?).map fun v => if g.trafo then g.inv i v else v

/-- A sample in state `s` of the generator: pulses are simulated for the hypothesis `h` with charges
`q` and replace those of the event; `r` is the reconstruction of this batch that starts at `h` (or
`h` itself, if samples are not reconstructed), and `t` is the loss of `r` for this batch. -/
def SampleOf (g : Goodness σ β) (data : Sampling.Batch β) (s : σ) (h : Row) (q : ℕ × ℕ → ℕ)
    (r : Row) (t : Terms) (s' : σ) : Prop :=
  ∃ x, g.pulses s h q = .ok (x, s') ∧
    (if g.reconstruct then Merged g h (g.reco { data with pulses := x.1, ids := x.2 } h) r else r = h) ∧
    t = g.terms r { data with pulses := x.1, ids := x.2 }

/-- Samples one after the other. -/
def SamplesOf (g : Goodness σ β) (data : Sampling.Batch β) :
    σ → List (Row × (ℕ × ℕ → ℕ)) → List (Row × Terms) → σ → Prop
  | s, [], [], s' => s = s'
  | s, (h, q) :: hs, (r, t) :: rs, s' =>
    ∃ s1, SampleOf g data s h q r t s1 ∧ SamplesOf g data s1 hs rs s'
  | _, _, _, _ => False

/-- The loss of an event: the sum of its parts for the 86 strings with 60 DOMs, and the two other
parts. -/
noncomputable def Terms.all (t : Terms) : ℝ :=
  t.scalar + t.event + ∑ string ∈ Finset.range 86, ∑ om ∈ Finset.range 60, t.dom (string, om)

/-- The charge of an event. -/
def charge (q : ℕ × ℕ → ℕ) : ℕ := ∑ string ∈ Finset.range 86, ∑ om ∈ Finset.range 60, q (string, om)

/-- A loss divided by a charge, if this is wanted. -/
noncomputable def Goodness.norm (g : Goodness σ β) (l charge : ℝ) : ℝ :=
  if g.normalize then l / (charge + 1) else l

/-- The library functions return arrays of the expected shape, the fit as many values as it fits, and
the transformation can be inverted. -/
structure Goodness.Ready (g : Goodness σ β) : Prop where
  mvn : ∀ s r n, (g.mvn s r n).1.length = n ∧ ∀ h ∈ (g.mvn s r n).1, h.length = g.fit.length
  npe : ∀ s hs, (g.npe s hs).1.length = hs.length
  reco : ∀ b h, (g.reco b h).length = g.fit.count true
  inverse : ∀ i v, g.inv i (g.fwd i v) = v
  log : g.isLog.length = g.fit.length

end Verif.Quality
