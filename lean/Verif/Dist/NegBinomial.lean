import Verif.Dist.Model
import Verif.Dist.Spec
import Mathlib.Analysis.Analytic.Binomial

/-! # Lemmas: the negative binomial series -/

namespace Verif.Dist

open Real

/-- The coefficients of the negative binomial series. -/
noncomputable def nbc (a : ℝ) (n : ℕ) : ℝ := Real.Gamma (n + a) / (n.factorial * Real.Gamma a)

theorem ascPoch_eq (a : ℝ) (ha : 0 < a) (n : ℕ) :
    (ascPochhammer ℝ n).eval a = Real.Gamma (n + a) / Real.Gamma a := by
  have hg := (Real.Gamma_pos_of_pos ha).ne'
  induction n with
  | zero => simp [hg]
  | succ n ih =>
    rw [ascPochhammer_succ_eval, ih]
    have : ((n + 1 : ℕ) : ℝ) + a = (n + a) + 1 := by push_cast; ring
    rw [this, Real.Gamma_add_one (by positivity)]
    ring

theorem choose_eq_nbc (a : ℝ) (ha : 0 < a) (n : ℕ) : Ring.choose (a + n - 1) n = nbc a n := by
  have h := Ring.factorial_nsmul_multichoose_eq_ascPochhammer a n
  rw [Polynomial.ascPochhammer_smeval_eq_eval, ascPoch_eq a ha, nsmul_eq_mul] at h
  have e : Ring.choose (a + n - 1) n = Ring.multichoose a n := by
    unfold Ring.choose
    congr 1
    ring
  have hf : (n.factorial : ℝ) ≠ 0 := by positivity
  have hg := (Real.Gamma_pos_of_pos ha).ne'
  rw [e, nbc]
  field_simp
  field_simp at h
  linarith

theorem nbc_nonneg {a : ℝ} (ha : 0 < a) (n : ℕ) : 0 < nbc a n := by
  unfold nbc
  have h1 := Real.Gamma_pos_of_pos ha
  have h2 := Real.Gamma_pos_of_pos (show 0 < (n : ℝ) + a by positivity)
  positivity

theorem nbc_hasSum {a p : ℝ} (ha : 0 < a) (h0 : 0 ≤ p) (h1 : p < 1) :
    HasSum (fun n => nbc a n * p ^ n) ((1 - p) ^ (-a)) := by
  have h := (Real.one_div_one_sub_rpow_hasFPowerSeriesOnBall_zero a).hasSum (y := p)
    (by
      rw [← ENNReal.ofReal_one, Metric.eball_ofReal]
      simp [abs_of_nonneg h0, h1])
  rw [zero_add, one_div, ← Real.rpow_neg (by linarith)] at h
  refine h.congr_fun ?_
  intro n
  rw [FormalMultilinearSeries.ofScalars_apply_eq, choose_eq_nbc a ha, smul_eq_mul]

theorem nbc_succ {a : ℝ} (ha : 0 < a) (n : ℕ) :
    ((n + 1 : ℕ) : ℝ) * nbc a (n + 1) = a * nbc (a + 1) n := by
  unfold nbc
  have e : ((n + 1 : ℕ) : ℝ) + a = n + (a + 1) := by push_cast; ring
  rw [e, Real.Gamma_add_one ha.ne', Nat.factorial_succ]
  have hf : (n.factorial : ℝ) ≠ 0 := by positivity
  have hg := (Real.Gamma_pos_of_pos ha).ne'
  have := ha.ne'
  push_cast
  have : (n : ℝ) + 1 ≠ 0 := by positivity
  field_simp

theorem nbc_hasSum_one {a p : ℝ} (ha : 0 < a) (h0 : 0 ≤ p) (h1 : p < 1) :
    HasSum (fun n : ℕ => (n : ℝ) * (nbc a n * p ^ n)) (a * p * (1 - p) ^ (-(a + 1))) := by
  have h := (nbc_hasSum (a := a + 1) (by linarith) h0 h1).mul_left (a * p)
  have h2 : HasSum (fun n : ℕ => ((n + 1 : ℕ) : ℝ) * (nbc a (n + 1) * p ^ (n + 1)))
      (a * p * (1 - p) ^ (-(a + 1))) := by
    refine h.congr_fun ?_
    intro n
    rw [← mul_assoc, nbc_succ ha]
    ring
  have h3 := (hasSum_nat_add_iff (f := fun n : ℕ => (n : ℝ) * (nbc a n * p ^ n)) 1).1 h2
  simpa using h3

theorem nbc_hasSum_two {a p : ℝ} (ha : 0 < a) (h0 : 0 ≤ p) (h1 : p < 1) :
    HasSum (fun n : ℕ => (n : ℝ) * (n - 1) * (nbc a n * p ^ n))
      (a * (a + 1) * p ^ 2 * (1 - p) ^ (-(a + 2))) := by
  have h := (nbc_hasSum_one (a := a + 1) (by linarith) h0 h1).mul_left (a * p)
  have h2 : HasSum (fun n : ℕ => ((n + 1 : ℕ) : ℝ) * (((n + 1 : ℕ) : ℝ) - 1) *
      (nbc a (n + 1) * p ^ (n + 1))) (a * (a + 1) * p ^ 2 * (1 - p) ^ (-(a + 2))) := by
    have e : a * (a + 1) * p ^ 2 * (1 - p) ^ (-(a + 2)) =
        a * p * ((a + 1) * p * (1 - p) ^ (-(a + 1 + 1))) := by
      rw [show -(a + 1 + 1) = -(a + 2) by ring]; ring
    rw [e]
    refine h.congr_fun ?_
    intro n
    have := nbc_succ ha n
    calc ((n + 1 : ℕ) : ℝ) * (((n + 1 : ℕ) : ℝ) - 1) * (nbc a (n + 1) * p ^ (n + 1))
        = (((n + 1 : ℕ) : ℝ) * nbc a (n + 1)) * ((((n + 1 : ℕ) : ℝ) - 1) * p ^ (n + 1)) := by ring
      _ = _ := by rw [this]; push_cast; ring
  have h3 := (hasSum_nat_add_iff
    (f := fun n : ℕ => (n : ℝ) * (n - 1) * (nbc a n * p ^ n)) 1).1 h2
  simpa using h3

/-- The negative binomial distribution with `a` failures and success probability `p`. -/
theorem nb_countDistribution {a p : ℝ} (ha : 0 < a) (h0 : 0 ≤ p) (h1 : p < 1) :
    CountDistribution (fun n => (1 - p) ^ a * (nbc a n * p ^ n))
      (a * p / (1 - p)) (a * p / (1 - p) ^ 2) := by
  have hq : 0 < 1 - p := by linarith
  have hqa : 0 < (1 - p) ^ a := Real.rpow_pos_of_pos hq a
  have e0 : (1 - p) ^ a * (1 - p) ^ (-a) = 1 := by
    rw [← Real.rpow_add hq]; simp
  have e1 : (1 - p) ^ a * (1 - p) ^ (-(a + 1)) = 1 / (1 - p) := by
    rw [← Real.rpow_add hq, show a + -(a + 1) = -1 by ring, Real.rpow_neg_one, one_div]
  have e2 : (1 - p) ^ a * (1 - p) ^ (-(a + 2)) = 1 / (1 - p) ^ 2 := by
    rw [← Real.rpow_add hq, show a + -(a + 2) = -2 by ring, Real.rpow_neg hq.le, one_div]
    norm_cast
  have s0 := (nbc_hasSum ha h0 h1).mul_left ((1 - p) ^ a)
  have s1 := (nbc_hasSum_one ha h0 h1).mul_left ((1 - p) ^ a)
  have s2 := (nbc_hasSum_two ha h0 h1).mul_left ((1 - p) ^ a)
  rw [e0] at s0
  rw [show (1 - p) ^ a * (a * p * (1 - p) ^ (-(a + 1))) =
    a * p * ((1 - p) ^ a * (1 - p) ^ (-(a + 1))) by ring, e1] at s1
  rw [show (1 - p) ^ a * (a * (a + 1) * p ^ 2 * (1 - p) ^ (-(a + 2))) =
    a * (a + 1) * p ^ 2 * ((1 - p) ^ a * (1 - p) ^ (-(a + 2))) by ring, e2] at s2
  refine ⟨?_, s0, ?_, ?_⟩
  · intro k
    have := nbc_nonneg ha k
    positivity
  · rw [show a * p / (1 - p) = a * p * (1 / (1 - p)) by ring]
    refine s1.congr_fun ?_
    intro n; ring
  · have h := (s2.add (s1.mul_left (1 - 2 * (a * p / (1 - p))))).add
      (s0.mul_left ((a * p / (1 - p)) ^ 2))
    have e : a * (a + 1) * p ^ 2 * (1 / (1 - p) ^ 2) +
        (1 - 2 * (a * p / (1 - p))) * (a * p * (1 / (1 - p))) + (a * p / (1 - p)) ^ 2 * 1 =
        a * p / (1 - p) ^ 2 := by
      have := hq.ne'
      field_simp
      ring
    rw [e] at h
    refine h.congr_fun ?_
    intro n; ring

/-- The log density of the model, exponentiated. -/
theorem exp_logNegBinomial {mu alpha : ℝ} (hm : 0 < mu) (ha : 0 < alpha) (k : ℕ) :
    Real.exp (logNegBinomial k mu alpha true) =
      (1 - alpha * mu / (1 + alpha * mu)) ^ (1 / alpha) *
        (nbc (1 / alpha) k * (alpha * mu / (1 + alpha * mu)) ^ k) := by
  have hia : 0 < 1 / alpha := by positivity
  have ham : 0 < alpha * mu := by positivity
  have hq : 0 < 1 + alpha * mu := by positivity
  have hg1 := Real.Gamma_pos_of_pos hia
  have hg2 := Real.Gamma_pos_of_pos (show 0 < (k : ℝ) + 1 / alpha by positivity)
  have hg3 := Real.Gamma_pos_of_pos (show 0 < (k : ℝ) + 1 by positivity)
  have hp : 0 < alpha * mu / (1 + alpha * mu) := by positivity
  unfold logNegBinomial lgamma
  simp only [if_true]
  rw [abs_of_pos hg1, abs_of_pos hg2, abs_of_pos hg3, Real.exp_add, Real.exp_add, Real.exp_sub,
    Real.exp_sub, Real.exp_log hg1, Real.exp_log hg2, Real.exp_log hg3,
    Real.Gamma_nat_eq_factorial]
  have e1 : Real.exp (-(1 / alpha) * Real.log (1 + alpha * mu)) =
      (1 - alpha * mu / (1 + alpha * mu)) ^ (1 / alpha) := by
    have : 1 - alpha * mu / (1 + alpha * mu) = (1 + alpha * mu)⁻¹ := by
      have := hq.ne'
      field_simp
      ring
    rw [this, Real.inv_rpow hq.le, ← Real.rpow_neg hq.le, Real.rpow_def_of_pos hq]
    ring_nf
  have e2 : Real.exp ((k : ℝ) * Real.log (alpha * mu / (1 + alpha * mu))) =
      (alpha * mu / (1 + alpha * mu)) ^ k := by
    rw [Real.exp_nat_mul, Real.exp_log hp]
  rw [e1, e2]
  unfold nbc
  have := hg1.ne'
  have hf : (k.factorial : ℝ) ≠ 0 := by positivity
  field_simp

end Verif.Dist
