import Verif.Cascade.Model
import Verif.Dist.Spec

/-!
# Specification for C33 and C34
-/

namespace Verif.Cascade
open MeasureTheory Verif.Dist

/-- The times that are excluded by the windows `(start, stop)`. -/
def excluded (ws : List (ℝ × ℝ)) : Set ℝ := {t | ∃ w ∈ ws, w.1 < t ∧ t ≤ w.2}

/-- The windows are intervals that do not overlap (they may touch). -/
def DisjointWindows (ws : List (ℝ × ℝ)) : Prop :=
  (∀ w ∈ ws, w.1 ≤ w.2) ∧ ws.Pairwise fun v w => v.2 ≤ w.1 ∨ w.2 ≤ v.1

/-- The density in ns of component `k`: an asymmetric Gaussian whose parameters are in
microseconds after the time of the vertex. -/
noncomputable def component (l : Latent) (time : ℝ) (k : ℕ) (t : ℝ) : ℝ :=
  asymGauss ((t - time) / 1000) (l.mu k) (l.sigma k) (l.r k) / 1000

/-- The density in ns of the mixture of `n` components. -/
noncomputable def mixture (n : ℕ) (l : Latent) (time t : ℝ) : ℝ :=
  ∑ k ∈ Finset.range n, l.scale k * component l time k t

/-- The first `n` components are admissible: positive weights with sum one, widths and
asymmetries of more than `1e-3`. -/
structure Admissible (n : ℕ) (l : Latent) : Prop where
  weight : ∀ k < n, 0 < l.scale k
  total : ∑ k ∈ Finset.range n, l.scale k = 1
  width : ∀ k < n, 1e-3 < l.sigma k
  asymmetry : ∀ k < n, 1e-3 < l.r k

end Verif.Cascade
