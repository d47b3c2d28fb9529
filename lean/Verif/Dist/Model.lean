import Mathlib.Analysis.SpecialFunctions.Gaussian.GaussianIntegral
import Mathlib.Analysis.SpecialFunctions.Gamma.Basic
import Mathlib.Analysis.SpecialFunctions.Log.Basic
import Mathlib.MeasureTheory.Integral.IntervalIntegral.Basic

/-!
# Model of `egenerator/utils/basis_functions.py`

Every function exists twice in the file: `tf_<name>` on tensors and `<name>` on
numpy arrays, with the same formula.  Both are modelled by one definition on one
element of the broadcast arrays.  Floating point numbers are modelled by real
numbers: rounding, overflow and underflow are not modelled.
-/

namespace Verif.Dist

/-- The error function of `tf.math.erf` / `scipy.special.erf`, by its textbook
definition.  It is library code: only this definition is trusted. -/
noncomputable def erf (x : ℝ) : ℝ :=
  2 / Real.sqrt Real.pi * ∫ t in (0 : ℝ)..x, Real.exp (-t ^ 2)

/-- What the library function `tf.math.erfinv` / `scipy.special.erfinv` promises:
on `(-1, 1)` it is a right inverse of the error function. -/
def IsErfInv (erfinv : ℝ → ℝ) : Prop :=
  ∀ y, -1 < y → y < 1 → erf (erfinv y) = y

/-- The library function `tf.math.lgamma` / `scipy.special.gammaln`: the logarithm
of (the absolute value of) the Gamma function. -/
noncomputable def lgamma (x : ℝ) : ℝ := Real.log |Real.Gamma x|

/-- `tf_gauss` and `gauss` (utils/basis_functions.py:6-23, 26-43).
`(…)**0.5` is the square root. -/
noncomputable def gauss (x mu sigma : ℝ) : ℝ :=
  Real.exp (-0.5 * ((x - mu) / sigma) ^ 2) / Real.sqrt (2 * Real.pi * sigma ^ 2)

/-- `tf_log_gauss` and `log_gauss` (utils/basis_functions.py:46-64, 67-85). -/
noncomputable def logGauss (x mu sigma : ℝ) : ℝ :=
  let norm := Real.log (Real.sqrt (2 * Real.pi))
  (-0.5 * ((x - mu) / sigma) ^ 2) - Real.log sigma - norm

/-- `tf_log_asymmetric_gauss` and `log_asymmetric_gauss`
(utils/basis_functions.py:88-113, 116-141). -/
noncomputable def logAsymGauss (x mu sigma r : ℝ) : ℝ :=
  let norm := Real.log (2 / (Real.sqrt (2 * Real.pi * sigma ^ 2) * (r + 1)))
  let ex := if x < mu then -0.5 * ((x - mu) / sigma) ^ 2
    else -0.5 * ((x - mu) / (sigma * r)) ^ 2
  norm + ex

/-- `tf_asymmetric_gauss` and `asymmetric_gauss`
(utils/basis_functions.py:144-168, 171-195). -/
noncomputable def asymGauss (x mu sigma r : ℝ) : ℝ :=
  let norm := 2 / (Real.sqrt (2 * Real.pi * sigma ^ 2) * (r + 1))
  let ex := if x < mu then Real.exp (-0.5 * ((x - mu) / sigma) ^ 2)
    else Real.exp (-0.5 * ((x - mu) / (sigma * r)) ^ 2)
  norm * ex

/-- `tf_asymmetric_gauss_cdf` and `asymmetric_gauss_cdf`
(utils/basis_functions.py:198-222, 225-249). -/
noncomputable def asymGaussCdf (x mu sigma r : ℝ) : ℝ :=
  let norm := 1 / (r + 1)
  let ex := if x < mu then 1 + erf ((x - mu) / (Real.sqrt 2 * sigma))
    else 1 + r * erf ((x - mu) / (Real.sqrt 2 * r * sigma))
  norm * ex

/-- `tf_asymmetric_gauss_ppf` and `asymmetric_gauss_ppf`
(utils/basis_functions.py:252-274, 277-299).  The library function `erfinv` is a
parameter. -/
noncomputable def asymGaussPpf (erfinv : ℝ → ℝ) (q mu sigma r : ℝ) : ℝ :=
  if q < 1 / (r + 1) then mu + Real.sqrt 2 * sigma * erfinv (q * (r + 1) - 1)
  else mu + r * Real.sqrt 2 * sigma * erfinv ((q * (r + 1) - 1) / r)

/-- `tf_log_negative_binomial` and `log_negative_binomial`
(utils/basis_functions.py:302-348, 351-404).  At `mu = 0` the code takes the
logarithm of zero (and returns `nan` at `x = 0`); the real logarithm of the model is
only meant for `mu > 0`. -/
noncomputable def logNegBinomial (x mu alpha : ℝ) (addNormalization : Bool) : ℝ :=
  let invAlpha := 1 / alpha
  let alphaMu := alpha * mu
  let gammaTerms := lgamma (x + invAlpha) - lgamma invAlpha
  let gammaTerms := if addNormalization then gammaTerms - lgamma (x + 1) else gammaTerms
  let term1 := -invAlpha * Real.log (1 + alphaMu)
  let term2 := x * Real.log (alphaMu / (1 + alphaMu))
  gammaTerms + term1 + term2

/-- The variance used by `sample_from_negative_binomial`
(utils/basis_functions.py:446-449). -/
noncomputable def sampleVar (mu alphaOrVar : ℝ) (paramIsAlpha : Bool) : ℝ :=
  if paramIsAlpha then mu + alphaOrVar * mu ^ 2 else alphaOrVar

/-- The parameters `(r, p)` which `sample_from_negative_binomial` passes to
`rng.negative_binomial` (utils/basis_functions.py:445-452). -/
noncomputable def sampleParams (mu alphaOrVar : ℝ) (paramIsAlpha : Bool) : ℝ × ℝ :=
  let eps := 1e-6
  let var := sampleVar mu alphaOrVar paramIsAlpha
  let p := 1 - (var - mu) / var
  let r := mu ^ 2 / (var - mu + eps)
  (r, p)

/-- The law of the library function `rng.negative_binomial(n, p)` of numpy, as its
documentation states it: the probability of the count `k`. -/
noncomputable def numpyNegBinomial (n p : ℝ) (k : ℕ) : ℝ :=
  Real.Gamma (k + n) / (k.factorial * Real.Gamma n) * p ^ n * (1 - p) ^ k

/-- The law of the numbers returned by `sample_from_negative_binomial`
(utils/basis_functions.py:407-452): the probability of the count `k`. -/
noncomputable def sampleLaw (mu alphaOrVar : ℝ) (paramIsAlpha : Bool) (k : ℕ) : ℝ :=
  let rp := sampleParams mu alphaOrVar paramIsAlpha
  numpyNegBinomial rp.1 rp.2 k

/-- `tf_rayleigh` and `rayleigh` (utils/basis_functions.py:455-470, 473-488). -/
noncomputable def rayleigh (x sigma : ℝ) : ℝ :=
  x / sigma ^ 2 * Real.exp (-0.5 * (x / sigma) ^ 2)

/-- `tf_rayleigh_cdf` and `rayleigh_cdf` (utils/basis_functions.py:491-506, 509-524). -/
noncomputable def rayleighCdf (x sigma : ℝ) : ℝ :=
  1 - Real.exp (-0.5 * (x / sigma) ^ 2)

end Verif.Dist
