/-
Specification for C59, C60 and C73.
-/
import Mathlib.Data.List.Forall2
import Verif.Sampling.Model

namespace Verif.Sampling

/-- What the library functions promise. -/
structure LibOk (lib : Lib) : Prop where
  /-- for a sorted array: the number of entries below the value -/
  search : ∀ a v, a.Pairwise (· ≤ ·) → lib.search a v = a.countP (fun x => decide (x < v))
  /-- all positions once, values in order -/
  argsort_perm : ∀ l, (lib.argsort l).Perm (List.range l.length)
  argsort_sorted : ∀ l, ((lib.argsort l).map (fun i => l.getD i 0)).Pairwise (· ≤ ·)
  sort_perm : ∀ l, (lib.sort l).Perm l
  sort_sorted : ∀ l, (lib.sort l).Pairwise (· ≤ ·)

/-- The component `k` belongs to the random number `u`: `u` is above the sum of the weights before `k`
(any `u` for the first one) and not above the sum up to `k`. -/
def Component (w : List ℝ) (u : ℝ) (k : ℕ) : Prop :=
  k < w.length ∧ (k = 0 ∨ (w.take k).sum < u) ∧ u ≤ (w.take (k + 1)).sum

/-- Weights of a mixture. -/
def WeightsOk (w : List ℝ) : Prop := (∀ x ∈ w, 0 ≤ x) ∧ w.sum = 1

/-- A mixture: weights, and parameters for every component. -/
def MixtureOk (m : Mixture) : Prop :=
  WeightsOk m.scale ∧ m.mu.length = m.scale.length ∧ m.sigma.length = m.scale.length ∧
    m.r.length = m.scale.length

/-- Draws of `uniform(0.25, 1.75, n)` and of `uniform(size=(n, 2))`. -/
def DrawOk (n : ℕ) (d : Draw) : Prop :=
  d.charges.length = n ∧ (∀ c ∈ d.charges, 0.25 ≤ c ∧ c < 1.75) ∧
  d.rngs.length = n ∧ ∀ u ∈ d.rngs, (0 ≤ u.1 ∧ u.1 < 1) ∧ 0 ≤ u.2 ∧ u.2 < 1

def PartOk (p : Part) : Prop := MixtureOk p.mixture ∧ DrawOk p.n p.draw

/-- The time of a pulse: a quantile of the component that belongs to the random number, in nanoseconds
after the time of the source. -/
def PulseTime (ppf : ℝ → ℝ → ℝ → ℝ → ℝ) (m : Mixture) (t0 : ℝ) (u : ℝ × ℝ) (t : ℝ) : Prop :=
  ∃ k mu sigma r, Component m.scale u.1 k ∧ m.mu[k]? = some mu ∧ m.sigma[k]? = some sigma ∧
    m.r[k]? = some r ∧ t = 1000 * ppf u.2 mu sigma r + t0

/-- The pulses of one source at one DOM, before sorting: one for each photo electron, with times as
above, positive charges that sum to the number of photo electrons. -/
def PulsesOf (ppf : ℝ → ℝ → ℝ → ℝ → ℝ) (p : Part) (q : List (ℝ × ℝ)) : Prop :=
  q.length = p.n ∧ (q.map (·.2)).sum = p.n ∧ (∀ x ∈ q, 0 < x.2) ∧
  List.Forall₂ (fun u x => PulseTime ppf p.mixture p.t0 u x.1) p.draw.rngs q

/-- The rows of one DOM of a sampled event: sorted in time, the pulses as above, and the charge quantile
of a pulse is the fraction of the charge up to this pulse. -/
def RowsOk (ppf : ℝ → ℝ → ℝ → ℝ → ℝ) (quant : Bool) (p : Part) (rs : List Row) : Prop :=
  (rs.map (·.time)).Pairwise (· ≤ ·) ∧
  (∃ q, PulsesOf ppf p q ∧ (rs.map (fun r => (r.time, r.charge))).Perm q) ∧
  ∀ (i : ℕ) (r : Row), rs[i]? = some r → r.quantile =
    if quant then some (((rs.take (i + 1)).map (·.charge)).sum / p.n) else none

/-- The entries of the batch belong to the same event: the charge at each DOM is the sum of the charges
of its pulses. -/
def Consistent {β : Type} (b : Batch β) : Prop :=
  ∀ s o, b.domCharge (s, o) =
    (((b.ids.zip b.pulses).filter (fun p => decide (p.1 = (0, s, o)))).map (fun p => p.2.charge)).sum

end Verif.Sampling
