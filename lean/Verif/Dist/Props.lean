import Verif.Dist.Lemmas
import Verif.Dist.NegBinomial
import Mathlib.Probability.Distributions.Gaussian.Real

/-!
# C48, C49, C50: the distributions of `egenerator/utils/basis_functions.py`

The theorems speak about the model functions `gauss`, `logGauss`, `asymGauss`,
`logAsymGauss`, `asymGaussCdf`, `asymGaussPpf`, `rayleigh`, `rayleighCdf`,
`logNegBinomial` and `sampleLaw`, and the specification in `Verif.Dist.Spec`.
-/

namespace Verif.Dist

open MeasureTheory Filter Topology

/-- C48 (asymmetric Gaussian): for every location, positive width and positive
asymmetry, the density is a positive continuous probability density, the exponential of
the log density; the distribution function is the distribution function of that
density; the quantile function inverts it. -/
theorem C48_asymmetric_gaussian (mu sigma r : ℝ) (hs : 0 < sigma) (hr : 0 < r)
    (erfinv : ℝ → ℝ) (he : IsErfInv erfinv) :
    PositiveDensity (fun x => asymGauss x mu sigma r) ∧
      (∀ x, asymGauss x mu sigma r = Real.exp (logAsymGauss x mu sigma r)) ∧
      DistributionOf (fun x => asymGaussCdf x mu sigma r) (fun x => asymGauss x mu sigma r) ∧
      QuantileOf (fun q => asymGaussPpf erfinv q mu sigma r)
        (fun x => asymGaussCdf x mu sigma r) := by
  obtain ⟨hd, hF⟩ := density_of_distribution (cdf_hasDerivAt (mu := mu) hs hr)
    (asymGauss_pos hs hr) pdf_continuous (cdf_tendsto_bot hs) (cdf_tendsto_top hs hr)
  have hr1 : 0 < r + 1 := by linarith
  have hright : ∀ q, 0 < q → q < 1 →
      asymGaussCdf (asymGaussPpf erfinv q mu sigma r) mu sigma r = q := by
    intro q h0 h1
    have hs2 : 0 < Real.sqrt 2 := Real.sqrt_pos.2 (by norm_num)
    unfold asymGaussPpf
    split_ifs with hq
    · rw [lt_div_iff₀ hr1] at hq
      have hy1 : -1 < q * (r + 1) - 1 := by nlinarith
      have hy2 : q * (r + 1) - 1 < 0 := by linarith
      have hz : erfinv (q * (r + 1) - 1) < 0 := by
        apply erf_strictMono.lt_iff_lt.1
        rw [erf_zero, he _ hy1 (by linarith)]
        exact hy2
      rw [cdf_eq_left (by nlinarith [mul_pos hs2 hs])]
      have : (mu + Real.sqrt 2 * sigma * erfinv (q * (r + 1) - 1) - mu) / (Real.sqrt 2 * sigma) =
          erfinv (q * (r + 1) - 1) := by
        have := hs.ne'
        have := hs2.ne'
        field_simp
        ring
      rw [this, he _ hy1 (by linarith)]
      field_simp
      ring
    · rw [not_lt, div_le_iff₀ hr1] at hq
      have hy1 : 0 ≤ (q * (r + 1) - 1) / r := div_nonneg (by linarith) hr.le
      have hy2 : (q * (r + 1) - 1) / r < 1 := by
        rw [div_lt_one hr]
        nlinarith
      have hz : 0 ≤ erfinv ((q * (r + 1) - 1) / r) := by
        apply erf_strictMono.le_iff_le.1
        rw [erf_zero, he _ (by linarith) hy2]
        exact hy1
      rw [cdf_eq_right (by
        have : 0 ≤ r * Real.sqrt 2 * sigma * erfinv ((q * (r + 1) - 1) / r) := by positivity
        linarith)]
      have : (mu + r * Real.sqrt 2 * sigma * erfinv ((q * (r + 1) - 1) / r) - mu) /
          (Real.sqrt 2 * r * sigma) = erfinv ((q * (r + 1) - 1) / r) := by
        have := hs.ne'
        have := hs2.ne'
        have := hr.ne'
        field_simp
        ring
      rw [this, he _ (by linarith) hy2]
      have := hr.ne'
      field_simp
      ring
  refine ⟨hd, ?_, hF, hright, ?_⟩
  · intro x
    unfold logAsymGauss asymGauss
    have : 0 < Real.sqrt (2 * Real.pi * sigma ^ 2) := Real.sqrt_pos.2 (by positivity)
    rw [Real.exp_add, Real.exp_log (by positivity)]
    split_ifs <;> rfl
  · intro x
    have hlow : 0 < asymGaussCdf x mu sigma r := by
      have h1 : asymGaussCdf (x - 1) mu sigma r < asymGaussCdf x mu sigma r :=
        hF.increasing (by linarith)
      have h2 : 0 ≤ asymGaussCdf (x - 1) mu sigma r :=
        hF.increasing.monotone.le_of_tendsto hF.start (x - 1)
      linarith
    have hup : asymGaussCdf x mu sigma r < 1 := by
      have h1 : asymGaussCdf x mu sigma r < asymGaussCdf (x + 1) mu sigma r :=
        hF.increasing (by linarith)
      have h2 : asymGaussCdf (x + 1) mu sigma r ≤ 1 :=
        hF.increasing.monotone.ge_of_tendsto hF.finish (x + 1)
      linarith
    exact hF.increasing.injective (hright _ hlow hup)

/-- C48 (shape): below the location the density falls off like a Gaussian of width
`sigma`, above it like one of width `sigma * r`, with the same factor. -/
theorem C48_asymmetric_gaussian_shape (mu sigma r : ℝ) (hs : 0 < sigma) (hr : 0 < r) :
    ∃ c > 0,
      (∀ x ≤ mu, asymGauss x mu sigma r = c * Real.exp (-(x - mu) ^ 2 / (2 * sigma ^ 2))) ∧
      ∀ x ≥ mu, asymGauss x mu sigma r =
        c * Real.exp (-(x - mu) ^ 2 / (2 * (r * sigma) ^ 2)) := by
  have hp : 0 < Real.sqrt (2 * Real.pi * sigma ^ 2) := Real.sqrt_pos.2 (by positivity)
  refine ⟨2 / (Real.sqrt (2 * Real.pi * sigma ^ 2) * (r + 1)), by positivity, ?_, ?_⟩
  · intro x hx
    rw [pdf_eq_left hx]
    congr 2
    have := hs.ne'
    field_simp
    ring
  · intro x hx
    rw [pdf_eq_right hx]
    congr 2
    have := hs.ne'
    have := hr.ne'
    field_simp
    ring

/-- C48 (Gaussian): the density is the Gaussian density with mean `mu` and variance
`sigma²` of Mathlib's probability library; it is a positive continuous probability
density and the exponential of the log density. -/
theorem C48_gaussian (mu sigma : ℝ) (hs : 0 < sigma) :
    PositiveDensity (fun x => gauss x mu sigma) ∧
      (∀ x, gauss x mu sigma = Real.exp (logGauss x mu sigma)) ∧
      ∀ x, gauss x mu sigma =
        ProbabilityTheory.gaussianPDFReal mu (Real.toNNReal (sigma ^ 2)) x := by
  obtain ⟨erfinv, he⟩ := exists_erfInv
  have heq : (fun x => gauss x mu sigma) = fun x => asymGauss x mu sigma 1 := by
    funext x
    unfold gauss asymGauss
    simp only [mul_one, ite_self]
    have : Real.sqrt (2 * Real.pi * sigma ^ 2) ≠ 0 :=
      (Real.sqrt_pos.2 (by positivity)).ne'
    field_simp
    norm_num
  refine ⟨?_, ?_, ?_⟩
  · rw [heq]
    exact (C48_asymmetric_gaussian mu sigma 1 hs one_pos erfinv he).1
  · intro x
    unfold gauss logGauss
    have h2 : 0 < Real.sqrt (2 * Real.pi) := Real.sqrt_pos.2 (by positivity)
    rw [Real.exp_sub, Real.exp_sub, Real.exp_log hs, Real.exp_log h2,
      Real.sqrt_mul (by positivity), Real.sqrt_sq hs.le]
    field_simp
  · intro x
    unfold gauss ProbabilityTheory.gaussianPDFReal
    rw [Real.coe_toNNReal _ (sq_nonneg sigma)]
    rw [div_eq_inv_mul]
    congr 2
    have := hs.ne'
    field_simp
    ring

/-- The hypotheses of C48 are met: there is an inverse error function, and a width and
an asymmetry as the models use them. -/
example : (∃ g, IsErfInv g) ∧ (0 : ℝ) < 0.3 ∧ (0 : ℝ) < 2.5 :=
  ⟨exists_erfInv, by norm_num, by norm_num⟩

/-- The median of the symmetric case: the distribution function at the location. -/
example : asymGaussCdf 3 3 2 1 = 1 / 2 := by
  norm_num [asymGaussCdf, erf_zero]

/-- C49: for every positive width the Rayleigh distribution function starts at zero,
increases strictly to one on the non-negative numbers, has the Rayleigh density as
derivative and is its integral; the density is not negative there. -/
theorem C49_rayleigh (sigma : ℝ) (hs : 0 < sigma) :
    rayleighCdf 0 sigma = 0 ∧
      StrictMonoOn (fun x => rayleighCdf x sigma) (Set.Ici 0) ∧
      Tendsto (fun x => rayleighCdf x sigma) atTop (𝓝 1) ∧
      (∀ x, HasDerivAt (fun x => rayleighCdf x sigma) (rayleigh x sigma) x) ∧
      (∀ x, 0 ≤ x → 0 ≤ rayleigh x sigma) ∧
      (∀ x, ∫ t in (0 : ℝ)..x, rayleigh t sigma = rayleighCdf x sigma) ∧
      ∫ x in Set.Ioi 0, rayleigh x sigma = 1 := by
  have h0 : rayleighCdf 0 sigma = 0 := by simp [rayleighCdf]
  have hd : ∀ x, HasDerivAt (fun x => rayleighCdf x sigma) (rayleigh x sigma) x := by
    intro x
    have h1 : HasDerivAt (fun x : ℝ => -0.5 * (x / sigma) ^ 2)
        (-0.5 * (2 * (x / sigma) ^ 1 * (1 / sigma))) x := by
      have := (((hasDerivAt_id x).div_const sigma).pow 2).const_mul (-0.5)
      simpa using this
    have h2 := (h1.exp).const_sub 1
    refine h2.congr_deriv ?_
    unfold rayleigh
    have := hs.ne'
    rw [pow_one]
    field_simp
    ring
  have hnn : ∀ x, 0 ≤ x → 0 ≤ rayleigh x sigma := by
    intro x hx
    unfold rayleigh
    positivity
  have htop : Tendsto (fun x => rayleighCdf x sigma) atTop (𝓝 1) := by
    unfold rayleighCdf
    have h1 : Tendsto (fun x : ℝ => 0.5 * (x / sigma) ^ 2) atTop atTop :=
      ((tendsto_pow_atTop two_ne_zero).comp
        (tendsto_id.atTop_div_const hs)).const_mul_atTop (by norm_num)
    have h2 := (Real.tendsto_exp_neg_atTop_nhds_zero.comp h1).const_sub 1
    simp only [sub_zero] at h2
    refine h2.congr ?_
    intro x
    simp
  have hc : Continuous fun x => rayleigh x sigma := by
    unfold rayleigh
    fun_prop
  refine ⟨h0, ?_, htop, hd, hnn, ?_, ?_⟩
  · intro x hx y hy hxy
    simp only [Set.mem_Ici] at hx
    unfold rayleighCdf
    have h1 : x / sigma < y / sigma := div_lt_div_of_pos_right hxy hs
    have h2 : 0 ≤ x / sigma := by positivity
    have h3 : (x / sigma) ^ 2 < (y / sigma) ^ 2 := by nlinarith
    have := Real.exp_lt_exp.2 (show -0.5 * (y / sigma) ^ 2 < -0.5 * (x / sigma) ^ 2 by linarith)
    simp only
    linarith
  · intro x
    rw [intervalIntegral.integral_eq_sub_of_hasDerivAt (fun x _ => hd x)
      (hc.intervalIntegrable _ _), h0, sub_zero]
  · rw [integral_Ioi_of_hasDerivAt_of_nonneg' (fun x _ => hd x) (fun x hx => hnn x (le_of_lt hx))
      htop, h0, sub_zero]

example : (0 : ℝ) < 1.5 := by norm_num

/-- C50 (log density): for every positive mean and over-dispersion, the exponential of
the normalised log density is a probability distribution on the counts with mean `mu`
and variance `mu + alpha * mu²`. -/
theorem C50_negative_binomial (mu alpha : ℝ) (hm : 0 < mu) (ha : 0 < alpha) :
    CountDistribution (fun k => Real.exp (logNegBinomial k mu alpha true))
      mu (mu + alpha * mu ^ 2) := by
  have ham : 0 < alpha * mu := by positivity
  have hq : 0 < 1 + alpha * mu := by positivity
  have h := nb_countDistribution (a := 1 / alpha) (p := alpha * mu / (1 + alpha * mu))
    (by positivity) (by positivity) (by rw [div_lt_one hq]; linarith)
  have e1 : 1 / alpha * (alpha * mu / (1 + alpha * mu)) / (1 - alpha * mu / (1 + alpha * mu)) =
      mu := by
    have := hq.ne'
    have := ha.ne'
    have h3 : 1 - alpha * mu / (1 + alpha * mu) = 1 / (1 + alpha * mu) := by field_simp; ring
    rw [h3]
    field_simp
  have e2 : 1 / alpha * (alpha * mu / (1 + alpha * mu)) /
      (1 - alpha * mu / (1 + alpha * mu)) ^ 2 = mu + alpha * mu ^ 2 := by
    have := hq.ne'
    have := ha.ne'
    have h3 : 1 - alpha * mu / (1 + alpha * mu) = 1 / (1 + alpha * mu) := by field_simp; ring
    rw [h3]
    field_simp
  rw [e1, e2] at h
  have : (fun k : ℕ => Real.exp (logNegBinomial k mu alpha true)) = _ :=
    funext fun k => exp_logNegBinomial hm ha k
  rw [this]
  exact h

/-- C50 (left out normalisation): leaving the normalisation term out changes the log
density of a count by the logarithm of a factorial, which depends on neither the mean
nor the over-dispersion: minima over these do not move. -/
theorem C50_without_normalisation (k : ℕ) (mu alpha : ℝ) :
    logNegBinomial k mu alpha false =
      logNegBinomial k mu alpha true + Real.log k.factorial := by
  unfold logNegBinomial
  simp only [if_true, Bool.false_eq_true, if_false]
  have : lgamma ((k : ℝ) + 1) = Real.log k.factorial := by
    unfold lgamma
    rw [Real.Gamma_nat_eq_factorial, abs_of_pos (by positivity)]
  rw [this]
  ring

/-- C50 (sampling), what holds: for every positive mean and every variance above the
mean, however it is given, the sampled counts have a negative binomial law whose mean is
`mu` times `d / (d + 1e-6)`, where `d` is the excess of the variance over the mean, and
whose ratio of variance to mean is the requested one.  Missing for the full property:
the factor is not one (see `C50_sampling_violated`). -/
theorem C50_sampling_partial (mu alphaOrVar v : ℝ) (paramIsAlpha : Bool) (hm : 0 < mu)
    (hvar : v = if paramIsAlpha then mu + alphaOrVar * mu ^ 2 else alphaOrVar) (hv' : mu < v) :
    let f := (v - mu) / (v - mu + 1e-6)
    CountDistribution (sampleLaw mu alphaOrVar paramIsAlpha) (mu * f) (v * f) := by
  intro f
  have hvar' : sampleVar mu alphaOrVar paramIsAlpha = v := hvar.symm
  have hvp : 0 < v := hm.trans hv'
  have hd : 0 < v - mu + 1e-6 := by norm_num; linarith
  have h := nb_countDistribution (a := mu ^ 2 / (v - mu + 1e-6)) (p := (v - mu) / v)
    (by positivity) (div_nonneg (by linarith) hvp.le) (by rw [div_lt_one hvp]; linarith)
  have e0 : 1 - (v - mu) / v = mu / v := by field_simp; ring
  have e1 : mu ^ 2 / (v - mu + 1e-6) * ((v - mu) / v) / (1 - (v - mu) / v) = mu * f := by
    rw [e0]
    simp only [f]
    have := hd.ne'
    field_simp
  have e2 : mu ^ 2 / (v - mu + 1e-6) * ((v - mu) / v) / (1 - (v - mu) / v) ^ 2 = v * f := by
    rw [e0]
    simp only [f]
    have := hd.ne'
    field_simp
  rw [e1, e2] at h
  have : sampleLaw mu alphaOrVar paramIsAlpha = fun n =>
      (1 - (v - mu) / v) ^ (mu ^ 2 / (v - mu + 1e-6)) *
        (nbc (mu ^ 2 / (v - mu + 1e-6)) n * ((v - mu) / v) ^ n) := by
    funext k
    unfold sampleLaw numpyNegBinomial sampleParams nbc
    simp only
    rw [hvar', show 1 - (1 - (v - mu) / v) = (v - mu) / v by ring]
    ring
  rw [this]
  exact h

/-- C50 (sampling) is false of the code: for every positive mean and over-dispersion the
mean of the sampled counts is smaller than `mu`; for the mean 0.001 and the
over-dispersion 1 it is one half of `mu`. -/
theorem C50_sampling_violated :
    (∀ mu alpha : ℝ, 0 < mu → 0 < alpha →
      ∃ m < mu, HasSum (fun k : ℕ => (k : ℝ) * sampleLaw mu alpha true k) m) ∧
    HasSum (fun k : ℕ => (k : ℝ) * sampleLaw 0.001 1 true k) (0.001 / 2) := by
  constructor
  · intro mu alpha hm ha
    have h1 : 0 < alpha * mu ^ 2 := by positivity
    refine ⟨_, ?_, (C50_sampling_partial mu alpha _ true hm rfl (by simp; linarith)).mean⟩
    simp only [if_true]
    have h2 : (mu + alpha * mu ^ 2 - mu) / (mu + alpha * mu ^ 2 - mu + 1e-6) < 1 := by
      rw [div_lt_one (by norm_num; linarith)]
      norm_num
    nlinarith
  · have h := (C50_sampling_partial 0.001 1 _ true (by norm_num) rfl (by norm_num)).mean
    norm_num at h
    norm_num
    exact h

example : (0 : ℝ) < 0.001 ∧ (0.001 : ℝ) < 0.001 + 1 * 0.001 ^ 2 := by norm_num

end Verif.Dist
