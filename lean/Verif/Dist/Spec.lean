import Mathlib.MeasureTheory.Integral.Bochner.Set
import Mathlib.MeasureTheory.Constructions.BorelSpace.Order
import Mathlib.MeasureTheory.Measure.Lebesgue.Basic
import Mathlib.Analysis.Calculus.Deriv.Basic
import Mathlib.Topology.Algebra.InfiniteSum.Basic

/-!
# Specification: densities, distribution functions, quantile functions

Independent of the model: what it means for functions to be a probability density, the
distribution function of a density, the quantile function of a distribution function,
and a distribution on the counts `0, 1, 2, …` with given mean and variance.
-/

namespace Verif.Dist

open MeasureTheory Filter Topology

/-- `f` is a continuous, everywhere positive probability density on the real line. -/
structure PositiveDensity (f : ℝ → ℝ) : Prop where
  pos : ∀ x, 0 < f x
  cont : Continuous f
  integrable : Integrable f
  total : ∫ x, f x = 1

/-- `F` is the distribution function of the density `f`. -/
structure DistributionOf (F f : ℝ → ℝ) : Prop where
  increasing : StrictMono F
  start : Tendsto F atBot (𝓝 0)
  finish : Tendsto F atTop (𝓝 1)
  deriv : ∀ x, HasDerivAt F (f x) x
  mass : ∀ x, F x = ∫ t in Set.Iic x, f t

/-- `Q` inverts the distribution function `F`. -/
structure QuantileOf (Q F : ℝ → ℝ) : Prop where
  right : ∀ q, 0 < q → q < 1 → F (Q q) = q
  left : ∀ x, Q (F x) = x

/-- `P` is a probability distribution on the counts `0, 1, 2, …` with mean `m` and
variance `v`. -/
structure CountDistribution (P : ℕ → ℝ) (m v : ℝ) : Prop where
  nonneg : ∀ k, 0 ≤ P k
  total : HasSum P 1
  mean : HasSum (fun k : ℕ => (k : ℝ) * P k) m
  variance : HasSum (fun k : ℕ => ((k : ℝ) - m) ^ 2 * P k) v

end Verif.Dist
