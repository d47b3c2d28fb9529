import Verif.Dist.Model
import Verif.Dist.Spec
import Mathlib.MeasureTheory.Integral.IntegralEqImproper
import Mathlib.MeasureTheory.Integral.IntervalIntegral.FundThmCalculus
import Mathlib.Analysis.Calculus.Deriv.MeanValue
import Mathlib.Analysis.SpecialFunctions.ExpDeriv

/-! # Lemmas: the error function and the asymmetric Gaussian -/

namespace Verif.Dist

open MeasureTheory Filter Topology Real

theorem cont_exp_sq : Continuous fun t : ℝ => Real.exp (-t ^ 2) := by fun_prop

theorem erf_hasDerivAt (x : ℝ) :
    HasDerivAt erf (2 / Real.sqrt Real.pi * Real.exp (-x ^ 2)) x := by
  unfold erf
  exact (intervalIntegral.integral_hasDerivAt_right
    (cont_exp_sq.intervalIntegrable _ _)
    (cont_exp_sq.stronglyMeasurableAtFilter _ _) cont_exp_sq.continuousAt).const_mul _

theorem sqrt_pi_pos : 0 < Real.sqrt Real.pi := Real.sqrt_pos.2 Real.pi_pos

theorem erf_strictMono : StrictMono erf := by
  apply strictMono_of_hasDerivAt_pos erf_hasDerivAt
  intro x
  have := sqrt_pi_pos
  positivity

theorem erf_zero : erf 0 = 0 := by simp [erf]

theorem erf_neg (x : ℝ) : erf (-x) = -erf x := by
  unfold erf
  have h := intervalIntegral.integral_comp_neg (a := 0) (b := x) (fun t : ℝ => Real.exp (-t ^ 2))
  simp only [neg_zero, even_two, Even.neg_pow] at h
  rw [intervalIntegral.integral_symm, ← h]
  ring

theorem erf_tendsto_top : Tendsto erf atTop (𝓝 1) := by
  have hi : IntegrableOn (fun t : ℝ => Real.exp (-t ^ 2)) (Set.Ioi 0) := by
    have := (integrable_exp_neg_mul_sq (b := 1) one_pos).integrableOn (s := Set.Ioi 0)
    simpa using this
  have h := intervalIntegral_tendsto_integral_Ioi (0 : ℝ) hi tendsto_id
  have hg := integral_gaussian_Ioi 1
  simp only [neg_mul, one_mul, div_one] at hg
  rw [hg] at h
  have := h.const_mul (2 / Real.sqrt Real.pi)
  have e : 2 / Real.sqrt Real.pi * (Real.sqrt Real.pi / 2) = 1 := by
    have := sqrt_pi_pos.ne'
    field_simp
  rw [e] at this
  exact this

theorem erf_tendsto_bot : Tendsto erf atBot (𝓝 (-1)) := by
  have h := (erf_tendsto_top.comp tendsto_neg_atBot_atTop).neg
  refine h.congr ?_
  intro x
  simp [erf_neg]

theorem erf_lt_one (x : ℝ) : erf x < 1 := by
  have h1 : erf x < erf (x + 1) := erf_strictMono (by linarith)
  have h2 : erf (x + 1) ≤ 1 := erf_strictMono.monotone.ge_of_tendsto erf_tendsto_top _
  linarith

theorem neg_one_lt_erf (x : ℝ) : -1 < erf x := by
  have := erf_lt_one (-x)
  rw [erf_neg] at this
  linarith

theorem erf_continuous : Continuous erf :=
  continuous_iff_continuousAt.2 fun x => (erf_hasDerivAt x).continuousAt

theorem erf_surj {y : ℝ} (h1 : -1 < y) (h2 : y < 1) : ∃ x, erf x = y := by
  obtain ⟨a, ha⟩ := (erf_tendsto_bot.eventually_lt_const h1).exists
  obtain ⟨b, hb⟩ := (erf_tendsto_top.eventually_const_lt h2).exists
  have := mem_range_of_exists_le_of_exists_ge erf_continuous ⟨a, ha.le⟩ ⟨b, hb.le⟩
  exact this

/-- The promise of `erfinv` can be kept. -/
theorem exists_erfInv : ∃ g, IsErfInv g := by
  classical
  refine ⟨fun y => if h : -1 < y ∧ y < 1 then (erf_surj h.1 h.2).choose else 0, ?_⟩
  intro y h1 h2
  show erf (dite _ _ _) = y
  rw [dif_pos ⟨h1, h2⟩]
  exact (erf_surj h1 h2).choose_spec

theorem IsErfInv.left {g : ℝ → ℝ} (h : IsErfInv g) (x : ℝ) : g (erf x) = x :=
  erf_strictMono.injective (h _ (neg_one_lt_erf x) (erf_lt_one x))

/-! ## The asymmetric Gaussian -/

variable {mu sigma r : ℝ}

theorem asymGauss_pos (hs : 0 < sigma) (hr : 0 < r) (x : ℝ) : 0 < asymGauss x mu sigma r := by
  unfold asymGauss
  have : 0 < Real.sqrt (2 * Real.pi * sigma ^ 2) := Real.sqrt_pos.2 (by positivity)
  have h1 : 0 < 2 / (Real.sqrt (2 * Real.pi * sigma ^ 2) * (r + 1)) := by positivity
  apply mul_pos h1
  split_ifs <;> exact Real.exp_pos _

theorem sqrt_two_pi_sq (hs : 0 < sigma) :
    Real.sqrt (2 * Real.pi * sigma ^ 2) = Real.sqrt 2 * Real.sqrt Real.pi * sigma := by
  rw [Real.sqrt_mul (by positivity), Real.sqrt_mul (by positivity), Real.sqrt_sq hs.le]

theorem left_deriv (hs : 0 < sigma) (hr : 0 < r) (x : ℝ) :
    HasDerivAt (fun x => 1 / (r + 1) * (1 + erf ((x - mu) / (Real.sqrt 2 * sigma))))
      (2 / (Real.sqrt (2 * Real.pi * sigma ^ 2) * (r + 1)) *
        Real.exp (-0.5 * ((x - mu) / sigma) ^ 2)) x := by
  have hin : HasDerivAt (fun x => (x - mu) / (Real.sqrt 2 * sigma)) (1 / (Real.sqrt 2 * sigma)) x :=
    ((hasDerivAt_id x).sub_const mu).div_const _
  have h := (((erf_hasDerivAt _).comp x hin).const_add 1).const_mul (1 / (r + 1))
  refine h.congr_deriv ?_
  rw [sqrt_two_pi_sq hs]
  have e : -((x - mu) / (Real.sqrt 2 * sigma)) ^ 2 = -0.5 * ((x - mu) / sigma) ^ 2 := by
    rw [div_pow, div_pow, mul_pow, Real.sq_sqrt (by norm_num : (0 : ℝ) ≤ 2)]
    have := hs.ne'
    field_simp
    ring
  rw [e]
  have h1 := sqrt_pi_pos.ne'
  have h2 : Real.sqrt 2 ≠ 0 := (Real.sqrt_pos.2 (by norm_num)).ne'
  have h3 := hs.ne'
  have h4 : r + 1 ≠ 0 := by positivity
  field_simp

theorem right_deriv (hs : 0 < sigma) (hr : 0 < r) (x : ℝ) :
    HasDerivAt (fun x => 1 / (r + 1) * (1 + r * erf ((x - mu) / (Real.sqrt 2 * r * sigma))))
      (2 / (Real.sqrt (2 * Real.pi * sigma ^ 2) * (r + 1)) *
        Real.exp (-0.5 * ((x - mu) / (sigma * r)) ^ 2)) x := by
  have hin : HasDerivAt (fun x => (x - mu) / (Real.sqrt 2 * r * sigma))
      (1 / (Real.sqrt 2 * r * sigma)) x :=
    ((hasDerivAt_id x).sub_const mu).div_const _
  have h := ((((erf_hasDerivAt _).comp x hin).const_mul r).const_add 1).const_mul (1 / (r + 1))
  refine h.congr_deriv ?_
  rw [sqrt_two_pi_sq hs]
  have e : -((x - mu) / (Real.sqrt 2 * r * sigma)) ^ 2 = -0.5 * ((x - mu) / (sigma * r)) ^ 2 := by
    rw [div_pow, div_pow, mul_pow, mul_pow, mul_pow, Real.sq_sqrt (by norm_num : (0 : ℝ) ≤ 2)]
    have := hs.ne'
    have := hr.ne'
    field_simp
    ring
  rw [e]
  have h1 := sqrt_pi_pos.ne'
  have h2 : Real.sqrt 2 ≠ 0 := (Real.sqrt_pos.2 (by norm_num)).ne'
  have h3 := hs.ne'
  have h5 := hr.ne'
  have h4 : r + 1 ≠ 0 := by positivity
  field_simp

theorem cdf_eq_left {x : ℝ} (h : x ≤ mu) : asymGaussCdf x mu sigma r =
    1 / (r + 1) * (1 + erf ((x - mu) / (Real.sqrt 2 * sigma))) := by
  unfold asymGaussCdf
  rcases lt_or_eq_of_le h with h | rfl
  · simp [h]
  · simp [erf_zero]

theorem cdf_eq_right {x : ℝ} (h : mu ≤ x) : asymGaussCdf x mu sigma r =
    1 / (r + 1) * (1 + r * erf ((x - mu) / (Real.sqrt 2 * r * sigma))) := by
  unfold asymGaussCdf
  simp [not_lt.2 h]

theorem pdf_eq_left {x : ℝ} (h : x ≤ mu) : asymGauss x mu sigma r =
    2 / (Real.sqrt (2 * Real.pi * sigma ^ 2) * (r + 1)) *
        Real.exp (-0.5 * ((x - mu) / sigma) ^ 2) := by
  unfold asymGauss
  rcases lt_or_eq_of_le h with h | rfl
  · simp [h]
  · simp

theorem pdf_eq_right {x : ℝ} (h : mu ≤ x) : asymGauss x mu sigma r =
    2 / (Real.sqrt (2 * Real.pi * sigma ^ 2) * (r + 1)) *
        Real.exp (-0.5 * ((x - mu) / (sigma * r)) ^ 2) := by
  unfold asymGauss
  simp [not_lt.2 h]

theorem cdf_hasDerivAt (hs : 0 < sigma) (hr : 0 < r) (x : ℝ) :
    HasDerivAt (fun x => asymGaussCdf x mu sigma r) (asymGauss x mu sigma r) x := by
  rcases lt_trichotomy x mu with h | h | h
  · rw [pdf_eq_left h.le]
    refine (left_deriv hs hr x).congr_of_eventuallyEq ?_
    filter_upwards [Iio_mem_nhds h] with y hy
    exact cdf_eq_left (le_of_lt hy)
  · subst h
    rw [← hasDerivWithinAt_univ, ← Set.Iic_union_Ici (a := x)]
    apply HasDerivWithinAt.union
    · rw [pdf_eq_left le_rfl]
      refine (left_deriv hs hr x).hasDerivWithinAt.congr ?_ (cdf_eq_left le_rfl)
      intro y hy
      exact cdf_eq_left hy
    · rw [pdf_eq_right le_rfl]
      refine (right_deriv hs hr x).hasDerivWithinAt.congr ?_ (cdf_eq_right le_rfl)
      intro y hy
      exact cdf_eq_right hy
  · rw [pdf_eq_right h.le]
    refine (right_deriv hs hr x).congr_of_eventuallyEq ?_
    filter_upwards [Ioi_mem_nhds h] with y hy
    exact cdf_eq_right (le_of_lt hy)

theorem cdf_tendsto_bot (hs : 0 < sigma) :
    Tendsto (fun x => asymGaussCdf x mu sigma r) atBot (𝓝 0) := by
  have hs2 : 0 < Real.sqrt 2 * sigma := mul_pos (Real.sqrt_pos.2 (by norm_num)) hs
  have hin : Tendsto (fun x : ℝ => (x - mu) / (Real.sqrt 2 * sigma)) atBot atBot :=
    (tendsto_atBot_add_const_right _ (-mu) tendsto_id).atBot_div_const hs2
  have h := ((erf_tendsto_bot.comp hin).const_add 1).const_mul (1 / (r + 1))
  rw [show (1 : ℝ) / (r + 1) * (1 + -1) = 0 by ring] at h
  refine h.congr' ?_
  filter_upwards [eventually_le_atBot mu] with x hx
  exact (cdf_eq_left hx).symm

theorem cdf_tendsto_top (hs : 0 < sigma) (hr : 0 < r) :
    Tendsto (fun x => asymGaussCdf x mu sigma r) atTop (𝓝 1) := by
  have hs2 : 0 < Real.sqrt 2 * r * sigma :=
    mul_pos (mul_pos (Real.sqrt_pos.2 (by norm_num)) hr) hs
  have hin : Tendsto (fun x : ℝ => (x - mu) / (Real.sqrt 2 * r * sigma)) atTop atTop :=
    (tendsto_atTop_add_const_right _ (-mu) tendsto_id).atTop_div_const hs2
  have h := (((erf_tendsto_top.comp hin).const_mul r).const_add 1).const_mul (1 / (r + 1))
  rw [show (1 : ℝ) / (r + 1) * (1 + r * 1) = 1 by
    have : r + 1 ≠ 0 := by positivity
    field_simp; ring] at h
  refine h.congr' ?_
  filter_upwards [eventually_ge_atTop mu] with x hx
  exact (cdf_eq_right hx).symm

theorem pdf_continuous :
    Continuous fun x => asymGauss x mu sigma r := by
  unfold asymGauss
  refine continuous_const.mul ?_
  simp only [← not_le]
  simp only [ite_not]
  refine Continuous.if_le ?_ ?_ continuous_const continuous_id ?_
  · fun_prop
  · fun_prop
  · rintro x rfl
    simp

/-- A function with a positive continuous derivative, rising from 0 to 1. -/
theorem density_of_distribution {F f : ℝ → ℝ} (hd : ∀ x, HasDerivAt F (f x) x)
    (hpos : ∀ x, 0 < f x) (hc : Continuous f) (h0 : Tendsto F atBot (𝓝 0))
    (h1 : Tendsto F atTop (𝓝 1)) : PositiveDensity f ∧ DistributionOf F f := by
  have hint : Integrable f := by
    refine integrable_of_intervalIntegral_norm_tendsto (l := atTop) (a := fun y : ℝ => -y)
      (b := fun y : ℝ => y) 1 (fun i => hc.integrableOn_Ioc) tendsto_neg_atTop_atBot tendsto_id ?_
    have e : ∀ y : ℝ, (∫ x in -y..y, ‖f x‖) = F y - F (-y) := by
      intro y
      have : (fun x => ‖f x‖) = f := funext fun x => abs_of_pos (hpos x)
      rw [this]
      exact intervalIntegral.integral_eq_sub_of_hasDerivAt (fun x _ => hd x)
        (hc.intervalIntegrable _ _)
    simp only [e]
    simpa using h1.sub (h0.comp tendsto_neg_atTop_atBot)
  refine ⟨⟨hpos, hc, hint, ?_⟩, strictMono_of_hasDerivAt_pos hd hpos, h0, h1, hd, ?_⟩
  · rw [integral_of_hasDerivAt_of_tendsto hd hint h0 h1]; ring
  · intro x
    rw [integral_Iic_of_hasDerivAt_of_tendsto' (fun y _ => hd y) hint.integrableOn h0]
    ring

end Verif.Dist
