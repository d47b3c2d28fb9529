import Mathlib.Analysis.Calculus.Deriv.CompMul
import Mathlib.Analysis.Calculus.FDeriv.Symmetric
import Mathlib.Analysis.Calculus.DerivativeTest
import Mathlib.LinearAlgebra.Matrix.PosDef
import Mathlib.Analysis.Matrix.Order
import Mathlib.Algebra.Order.Star.Real
import Mathlib.MeasureTheory.Integral.IntegralEqImproper
import Verif.Uncert.Model
import Verif.Uncert.Spec

namespace Verif.Uncert
open Verif.Py Matrix Filter Topology

variable {n : ℕ}

theorem tangent_eq (i : Fin n) : tangent i = Pi.single i (1 : ℝ) := by
  funext k
  simp only [tangent, Pi.single_apply]

/-! ### Change of variables -/

/-- The affine map. -/
def affine (scale mean t : Vec n) : Vec n := fun i => scale i * t i + mean i

theorem affine_add (scale mean t : Vec n) (i : Fin n) (s : ℝ) :
    affine scale mean (t + s • tangent i) = affine scale mean t + (scale i * s) • tangent i := by
  funext k
  simp only [affine, tangent, Pi.add_apply, Pi.smul_apply, smul_eq_mul]
  by_cases h : k = i
  · subst h; simp; ring
  · simp [h]

theorem jvp_affine (f : Vec n → ℝ) (scale mean t : Vec n) (i : Fin n) :
    jvp (fun q => f (affine scale mean q)) t (tangent i) =
      scale i * jvp f (affine scale mean t) (tangent i) := by
  unfold jvp
  simp only [affine_add]
  have := deriv_comp_mul_left (scale i) (fun s : ℝ => f (affine scale mean t + s • tangent i)) 0
  simpa using this

theorem jvp_const_mul (c : ℝ) (f : Vec n → ℝ) (p v : Vec n) :
    jvp (fun q => c * f q) p v = c * jvp f p v := by
  unfold jvp
  exact deriv_const_mul_field c

theorem inTrafo_eq (loss : Vec n → ℝ) (unlog : Fin n → ℝ → ℝ) (scale mean : Vec n) :
    inTrafo loss unlog scale mean = fun q => beforeUnlog loss unlog (affine scale mean q) := rfl

theorem hessians_affine (f : Vec n → ℝ) (scale mean t : Vec n) :
    hessians (fun q => f (affine scale mean q)) t =
      diagonal scale * hessians f (affine scale mean t) * diagonal scale := by
  ext i j
  rw [mul_diagonal, diagonal_mul]
  show jvp (fun q => jvp (fun q => f (affine scale mean q)) q (tangent i)) t (tangent j) = _
  have : (fun q => jvp (fun q => f (affine scale mean q)) q (tangent i)) =
      fun q => scale i * (fun r => jvp f r (tangent i)) (affine scale mean q) := by
    funext q
    exact jvp_affine f scale mean q i
  rw [this]
  rw [jvp_const_mul (scale i) (fun q => (fun r => jvp f r (tangent i)) (affine scale mean q)),
    jvp_affine (fun r => jvp f r (tangent i)) scale mean t j]
  show _ = scale i * jvp (fun q => jvp f q (tangent i)) (affine scale mean t) (tangent j) * scale j
  ring

theorem opg_apply (tensors : List (List (Vec n → ℝ))) (p : Vec n) (i j : Fin n) :
    opgEstimate tensors p i j =
      (tensors.flatten.map fun f => jvp f p (tangent i) * jvp f p (tangent j)).sum := by
  unfold opgEstimate
  induction tensors.flatten with
  | nil => rfl
  | cons f l ih => simp [ih]

theorem opg_affine (tensors : List (List (Vec n → ℝ))) (scale mean t : Vec n) :
    opgEstimate (tensors.map fun l => l.map fun f q => f (affine scale mean q)) t =
      diagonal scale * opgEstimate tensors (affine scale mean t) * diagonal scale := by
  ext i j
  rw [mul_diagonal, diagonal_mul, opg_apply, opg_apply]
  rw [← List.map_flatten, List.map_map, mul_right_comm, ← List.sum_map_mul_left]
  congr 1
  apply List.map_congr_left
  intro f _
  simp only [Function.comp]
  rw [jvp_affine, jvp_affine]
  ring

/-! ### Derivatives -/

theorem jvp_eq (f : Vec n → ℝ) (p v : Vec n) (h : DifferentiableAt ℝ f p) :
    jvp f p v = fderiv ℝ f p v := by
  unfold jvp
  have h1 : HasDerivAt (fun s : ℝ => p + s • v) v 0 := by
    have := ((hasDerivAt_id (0 : ℝ)).smul_const v).const_add p
    simpa using this
  have h2 : HasFDerivAt f (fderiv ℝ f p) (p + (0 : ℝ) • v) := by
    simpa using h.hasFDerivAt
  exact (h2.comp_hasDerivAt 0 h1).deriv

theorem eventually_jvp (f : Vec n → ℝ) (p : Vec n) (h : ContDiffAt ℝ 2 f p) :
    ∀ᶠ q in 𝓝 p, DifferentiableAt ℝ f q := by
  have := h.eventually (by simp)
  exact this.mono fun q hq => hq.differentiableAt (by simp)

theorem jvp_congr (f g : Vec n → ℝ) (p v : Vec n) (h : f =ᶠ[𝓝 p] g) : jvp f p v = jvp g p v := by
  unfold jvp
  apply Filter.EventuallyEq.deriv_eq
  have hc : Tendsto (fun s : ℝ => p + s • v) (𝓝 0) (𝓝 p) := by
    have : Continuous fun s : ℝ => p + s • v := by fun_prop
    simpa using this.tendsto 0
  exact hc.eventually h

theorem differentiable_fderiv (f : Vec n → ℝ) (p : Vec n) (h : ContDiffAt ℝ 2 f p) :
    DifferentiableAt ℝ (fderiv ℝ f) p :=
  (h.fderiv_right (m := 1) (by norm_num)).differentiableAt (by simp)

theorem jvp_jvp (f : Vec n → ℝ) (p v w : Vec n) (h : ContDiffAt ℝ 2 f p) :
    jvp (fun q => jvp f q v) p w = fderiv ℝ (fderiv ℝ f) p w v := by
  rw [jvp_congr _ (fun q => fderiv ℝ f q v) p w
    ((eventually_jvp f p h).mono fun q hq => jvp_eq f q v hq)]
  have hd := differentiable_fderiv f p h
  rw [jvp_eq _ p w (hd.clm_apply (differentiableAt_const v))]
  rw [fderiv_clm_apply hd (differentiableAt_const v)]
  simp

theorem hessians_eq (f : Vec n → ℝ) (p : Vec n) (h : ContDiffAt ℝ 2 f p) :
    hessians f p = secondDerivatives f p := by
  ext i j
  show jvp (fun q => jvp f q (tangent i)) p (tangent j) = _
  rw [jvp_jvp f p _ _ h, tangent_eq, tangent_eq]
  rfl

theorem opg_eq (tensors : List (List (Vec n → ℝ))) (p : Vec n)
    (h : ∀ f ∈ tensors.flatten, DifferentiableAt ℝ f p) :
    opgEstimate tensors p = gradientProducts tensors.flatten p := by
  ext i j
  rw [opg_apply]
  show _ = (tensors.flatten.map fun f => gradient f p i * gradient f p j).sum
  congr 1
  apply List.map_congr_left
  intro f hf
  rw [jvp_eq f p _ (h f hf), jvp_eq f p _ (h f hf), tangent_eq, tangent_eq]
  rfl

theorem second_symm (f : Vec n → ℝ) (p : Vec n) (h : ContDiffAt ℝ 2 f p) :
    (secondDerivatives f p).IsHermitian := by
  have hs := h.isSymmSndFDerivAt (by simp)
  ext i j
  simp only [conjTranspose_apply, star_trivial]
  exact hs.eq _ _

theorem quadratic (f : Vec n → ℝ) (p v : Vec n) :
    v ⬝ᵥ (secondDerivatives f p *ᵥ v) = fderiv ℝ (fderiv ℝ f) p v v := by
  have hv : v = ∑ i, v i • (Pi.single i (1 : ℝ) : Vec n) := by
    funext k
    simp [Finset.sum_apply, Pi.single_apply]
  have hL : ∀ (L : Vec n →L[ℝ] ℝ), L v = ∑ i, v i * L (Pi.single i 1) := by
    intro L
    conv_lhs => rw [hv]
    simp [map_sum]
  have hL2 : fderiv ℝ (fderiv ℝ f) p v = ∑ i, v i • fderiv ℝ (fderiv ℝ f) p (Pi.single i 1) := by
    conv_lhs => rw [hv]
    simp [map_sum]
  simp only [dotProduct, mulVec]
  rw [hL2]
  simp only [_root_.sum_apply, _root_.smul_apply, smul_eq_mul]
  simp only [hL (fderiv ℝ (fderiv ℝ f) p (Pi.single _ 1)), Finset.mul_sum]
  rw [Finset.sum_comm]
  apply Finset.sum_congr rfl
  intro j _
  apply Finset.sum_congr rfl
  intro i _
  simp only [secondDerivatives, of_apply]
  ring

theorem second_nonneg (f : Vec n → ℝ) (p v : Vec n) (h : ContDiffAt ℝ 2 f p) (hm : IsLocalMin f p) :
    0 ≤ fderiv ℝ (fderiv ℝ f) p v v := by
  by_contra hneg
  push Not at hneg
  let g : ℝ → ℝ := fun s => f (p + s • v)
  have hc : ∀ s, HasDerivAt (fun s : ℝ => p + s • v) v s := by
    intro s
    have := ((hasDerivAt_id s).smul_const v).const_add p
    simpa using this
  have ht : Tendsto (fun s : ℝ => p + s • v) (𝓝 0) (𝓝 p) := by
    have : Continuous fun s : ℝ => p + s • v := by fun_prop
    simpa using this.tendsto 0
  have hg : deriv g =ᶠ[𝓝 0] fun s => fderiv ℝ f (p + s • v) v := by
    have := ht.eventually (eventually_jvp f p h)
    refine this.mono fun s hs => ?_
    exact (hs.hasFDerivAt.comp_hasDerivAt s (hc s)).deriv
  have hgg : deriv (deriv g) 0 = fderiv ℝ (fderiv ℝ f) p v v := by
    rw [hg.deriv_eq]
    exact (jvp_eq (fun q => fderiv ℝ f q v) p v
      ((differentiable_fderiv f p h).clm_apply (differentiableAt_const v))).trans (by
        rw [fderiv_clm_apply (differentiable_fderiv f p h) (differentiableAt_const v)]
        simp)
  have hp : p + (0 : ℝ) • v = p := by simp
  have hmin : IsLocalMin g 0 := by
    have := ht.eventually hm
    refine this.mono fun s hs => ?_
    show f (p + (0 : ℝ) • v) ≤ f (p + s • v)
    rw [hp]; exact hs
  have hcg : ContinuousAt g 0 := by
    have h1 : ContinuousAt f (p + (0 : ℝ) • v) := by rw [hp]; exact h.continuousAt
    exact ContinuousAt.comp (f := fun s : ℝ => p + s • v) h1 (hc 0).continuousAt
  have hmax : IsLocalMax g 0 :=
    isLocalMax_of_deriv_deriv_neg (by rw [hgg]; exact hneg) hmin.deriv_eq_zero hcg
  have hconst : g =ᶠ[𝓝 0] fun _ => g 0 := by
    filter_upwards [hmin, hmax] with s h1 h2
    exact le_antisymm h2 h1
  have hd : deriv g =ᶠ[𝓝 0] fun _ => 0 := by
    refine hconst.eventuallyEq_nhds.mono fun s hs => ?_
    rw [hs.deriv_eq]; simp
  have : deriv (deriv g) 0 = 0 := by rw [hd.deriv_eq]; simp
  rw [this] at hgg
  linarith

theorem second_posSemidef (f : Vec n → ℝ) (p : Vec n) (h : ContDiffAt ℝ 2 f p)
    (hm : IsLocalMin f p) : (secondDerivatives f p).PosSemidef := by
  apply PosSemidef.of_dotProduct_mulVec_nonneg (second_symm f p h)
  intro v
  rw [star_trivial, quadratic]
  exact second_nonneg f p v h hm

theorem gradientProducts_posSemidef (fs : List (Vec n → ℝ)) (p : Vec n) :
    (gradientProducts fs p).PosSemidef := by
  induction fs with
  | nil =>
    have : gradientProducts ([] : List (Vec n → ℝ)) p = 0 := by ext i j; simp [gradientProducts]
    rw [this]; exact PosSemidef.zero
  | cons f l ih =>
    have : gradientProducts (f :: l) p =
        vecMulVec (gradient f p) (star (gradient f p)) + gradientProducts l p := by
      ext i j
      simp [gradientProducts, vecMulVec_apply]
    rw [this]
    exact (posSemidef_vecMulVec_self_star _).add ih

/-! ### Matrices -/

theorem inv_conj (d : Vec n) (h : Mat n) (hd : ∀ i, d i ≠ 0) :
    diagonal d * (diagonal d * h * diagonal d)⁻¹ * diagonal d = h⁻¹ := by
  have hdet : (diagonal d).det ≠ 0 := by
    rw [det_diagonal]
    exact Finset.prod_ne_zero_iff.mpr fun i _ => hd i
  have hu : IsUnit (diagonal d).det := isUnit_iff_ne_zero.mpr hdet
  rw [Matrix.mul_inv_rev, Matrix.mul_inv_rev]
  rw [← Matrix.mul_assoc, Matrix.mul_nonsing_inv _ hu, Matrix.one_mul, Matrix.mul_assoc,
    Matrix.nonsing_inv_mul _ hu, Matrix.mul_one]

theorem det_conj (d : Vec n) (h : Mat n) (hd : ∀ i, d i ≠ 0) :
    (diagonal d * h * diagonal d).det = 0 ↔ h.det = 0 := by
  have hdet : (diagonal d).det ≠ 0 := by
    rw [det_diagonal]
    exact Finset.prod_ne_zero_iff.mpr fun i _ => hd i
  rw [det_mul, det_mul, mul_eq_zero, mul_eq_zero]
  tauto

/-! ### The chi² distribution -/

open MeasureTheory Set

theorem integral_pos_of_sign (g : ℝ → ℝ) (t0 : ℝ) (hi : IntegrableOn g (Ioi 0))
    (h0 : ∫ t in Ioi 0, g t = 0) (ht0 : 0 < t0) (hpos : ∀ t, 0 < t → t < t0 → 0 < g t)
    (hneg : ∀ t, t0 < t → g t < 0) (X : ℝ) (hX : 0 < X) : 0 < ∫ t in (0 : ℝ)..X, g t := by
  have hii : ∀ a b, 0 ≤ a → a ≤ b → IntervalIntegrable g volume a b := by
    intro a b ha hab
    rw [intervalIntegrable_iff_integrableOn_Ioc_of_le hab]
    exact hi.mono_set fun t ht => lt_of_le_of_lt ha ht.1
  by_cases hXt : X ≤ t0
  · exact intervalIntegral.intervalIntegral_pos_of_pos_on (hii 0 X le_rfl hX.le)
      (fun t ht => hpos t ht.1 (lt_of_lt_of_le ht.2 hXt)) hX
  · push Not at hXt
    have h1 : 0 < ∫ t in X..(X + 1), -g t := by
      refine intervalIntegral.intervalIntegral_pos_of_pos_on (hii X (X + 1) hX.le (by linarith)).neg
        (fun t ht => ?_) (by linarith)
      have := hneg t (hXt.trans ht.1)
      linarith
    have h2 : ∫ t in Ioi (X + 1), g t ≤ 0 := by
      apply setIntegral_nonpos measurableSet_Ioi
      intro t ht
      have : X + 1 < t := ht
      exact (hneg t (by linarith)).le
    have hs : ∫ t in Ioi 0, g t = (∫ t in (0 : ℝ)..(X + 1), g t) + ∫ t in Ioi (X + 1), g t := by
      rw [intervalIntegral.integral_of_le (by linarith), ← setIntegral_union (by
        rw [Set.disjoint_left]; intro t ht ht'; exact absurd ht.2 (not_le.mpr ht')) measurableSet_Ioi
        (hi.mono_set fun t ht => ht.1) (hi.mono_set fun t ht => by
          have : X + 1 < t := ht
          show (0:ℝ) < t
          linarith)]
      rw [Ioc_union_Ioi_eq_Ioi (by linarith)]
    have ha := intervalIntegral.integral_add_adjacent_intervals (hii 0 X le_rfl hX.le)
      (hii X (X + 1) hX.le (by linarith))
    rw [intervalIntegral.integral_neg] at h1
    rw [h0] at hs
    linarith

theorem chi2_two (x : ℝ) (hx : 0 ≤ x) : chi2Cdf 2 x = 1 - Real.exp (-(x / 2)) := by
  unfold chi2Cdf
  have h1 : ((2 : ℕ) : ℝ) / 2 = 1 := by norm_num
  rw [h1, max_eq_left hx]
  simp [Real.Gamma_one]

theorem chi2_integral (k : ℕ) (X : ℝ) (hk : 0 < k) (hX : 0 ≤ X) :
    ∫ t in (0 : ℝ)..X, (Real.Gamma ((k : ℝ) / 2) - t ^ ((k : ℝ) / 2 - 1)) * Real.exp (-t) =
      Real.Gamma ((k : ℝ) / 2) * (chi2Cdf 2 (2 * X) - chi2Cdf k (2 * X)) := by
  have hk' : (0 : ℝ) < (k : ℝ) / 2 := by positivity
  have hG := Real.Gamma_pos_of_pos hk'
  have hc := Real.GammaIntegral_convergent hk'
  have hii : IntervalIntegrable (fun t => t ^ ((k : ℝ) / 2 - 1) * Real.exp (-t)) volume 0 X := by
    rw [intervalIntegrable_iff_integrableOn_Ioc_of_le hX]
    refine (hc.mono_set fun t ht => ht.1).congr_fun (fun t _ => mul_comm _ _) measurableSet_Ioc
  have he : IntervalIntegrable (fun t => Real.Gamma ((k : ℝ) / 2) * Real.exp (-t)) volume 0 X :=
    Continuous.intervalIntegrable (by fun_prop) 0 X
  have hsplit : (fun t : ℝ => (Real.Gamma ((k : ℝ) / 2) - t ^ ((k : ℝ) / 2 - 1)) * Real.exp (-t)) =
      fun t => Real.Gamma ((k : ℝ) / 2) * Real.exp (-t) - t ^ ((k : ℝ) / 2 - 1) * Real.exp (-t) := by
    funext t; ring
  rw [hsplit, intervalIntegral.integral_sub he hii]
  rw [chi2_two _ (by linarith)]
  unfold chi2Cdf
  rw [max_eq_left (by linarith), mul_div_cancel_left₀ X (two_ne_zero), mul_sub,
    mul_div_cancel₀ _ hG.ne']
  simp

theorem chi2_zero_mean (k : ℕ) (hk : 0 < k) :
    IntegrableOn (fun t : ℝ => (Real.Gamma ((k : ℝ) / 2) - t ^ ((k : ℝ) / 2 - 1)) * Real.exp (-t))
      (Ioi 0) ∧
    ∫ t in Ioi (0 : ℝ), (Real.Gamma ((k : ℝ) / 2) - t ^ ((k : ℝ) / 2 - 1)) * Real.exp (-t) = 0 := by
  have hk' : (0 : ℝ) < (k : ℝ) / 2 := by positivity
  have hc := Real.GammaIntegral_convergent hk'
  have hsplit : (fun t : ℝ => (Real.Gamma ((k : ℝ) / 2) - t ^ ((k : ℝ) / 2 - 1)) * Real.exp (-t)) =
      fun t => Real.Gamma ((k : ℝ) / 2) * Real.exp (-t) - Real.exp (-t) * t ^ ((k : ℝ) / 2 - 1) := by
    funext t; ring
  have he : IntegrableOn (fun t : ℝ => Real.Gamma ((k : ℝ) / 2) * Real.exp (-t)) (Ioi 0) :=
    (integrableOn_exp_neg_Ioi 0).const_mul _
  rw [hsplit]
  refine ⟨he.sub hc, ?_⟩
  rw [integral_sub he hc, ← Real.Gamma_eq_integral hk', integral_const_mul, integral_exp_neg_Ioi_zero]
  ring

theorem chi2_lt (k : ℕ) (hk : 3 ≤ k) (x : ℝ) (hx : 0 < x) : chi2Cdf k x < chi2Cdf 2 x := by
  have hk' : (0 : ℝ) < (k : ℝ) / 2 := by positivity
  have hk3 : (3 : ℝ) ≤ k := by exact_mod_cast hk
  have ha : 0 < (k : ℝ) / 2 - 1 := by linarith
  have hG := Real.Gamma_pos_of_pos hk'
  obtain ⟨hi, h0⟩ := chi2_zero_mean k (by omega)
  have hp : 0 < Real.Gamma ((k : ℝ) / 2) ^ ((k : ℝ) / 2 - 1)⁻¹ := Real.rpow_pos_of_pos hG _
  have ht : (Real.Gamma ((k : ℝ) / 2) ^ ((k : ℝ) / 2 - 1)⁻¹) ^ ((k : ℝ) / 2 - 1) =
      Real.Gamma ((k : ℝ) / 2) := by
    rw [← Real.rpow_mul hG.le, inv_mul_cancel₀ ha.ne', Real.rpow_one]
  have h := integral_pos_of_sign _ (Real.Gamma ((k : ℝ) / 2) ^ ((k : ℝ) / 2 - 1)⁻¹) hi h0 hp
    (fun t h1 h2 => by
      have := Real.rpow_lt_rpow h1.le h2 ha
      rw [ht] at this
      exact mul_pos (by linarith) (Real.exp_pos _))
    (fun t h2 => by
      have := Real.rpow_lt_rpow hp.le h2 ha
      rw [ht] at this
      exact mul_neg_of_neg_of_pos (by linarith) (Real.exp_pos _))
    (x / 2) (by linarith)
  rw [chi2_integral k (x / 2) (by omega) (by linarith)] at h
  rw [show 2 * (x / 2) = x by ring] at h
  have := (mul_pos_iff_of_pos_left hG).mp h
  linarith

theorem chi2_gt (x : ℝ) (hx : 0 < x) : chi2Cdf 2 x < chi2Cdf 1 x := by
  have hk' : (0 : ℝ) < ((1 : ℕ) : ℝ) / 2 := by norm_num
  have ha : ((1 : ℕ) : ℝ) / 2 - 1 < 0 := by norm_num
  have hG := Real.Gamma_pos_of_pos hk'
  obtain ⟨hi, h0⟩ := chi2_zero_mean 1 one_pos
  have hp : 0 < Real.Gamma (((1 : ℕ) : ℝ) / 2) ^ (((1 : ℕ) : ℝ) / 2 - 1)⁻¹ := Real.rpow_pos_of_pos hG _
  have ht : (Real.Gamma (((1 : ℕ) : ℝ) / 2) ^ (((1 : ℕ) : ℝ) / 2 - 1)⁻¹) ^ (((1 : ℕ) : ℝ) / 2 - 1) =
      Real.Gamma (((1 : ℕ) : ℝ) / 2) := by
    rw [← Real.rpow_mul hG.le, inv_mul_cancel₀ ha.ne, Real.rpow_one]
  have h := integral_pos_of_sign (fun t : ℝ =>
      -((Real.Gamma (((1 : ℕ) : ℝ) / 2) - t ^ (((1 : ℕ) : ℝ) / 2 - 1)) * Real.exp (-t)))
    (Real.Gamma (((1 : ℕ) : ℝ) / 2) ^ (((1 : ℕ) : ℝ) / 2 - 1)⁻¹) hi.neg
    (by rw [integral_neg, h0, neg_zero]) hp
    (fun t h1 h2 => by
      have := Real.rpow_lt_rpow_of_neg h1 h2 ha
      rw [ht] at this
      have := mul_neg_of_neg_of_pos (sub_neg.mpr this) (Real.exp_pos (-t))
      linarith)
    (fun t h2 => by
      have := Real.rpow_lt_rpow_of_neg hp h2 ha
      rw [ht] at this
      have := mul_pos (sub_pos.mpr this) (Real.exp_pos (-t))
      linarith)
    (x / 2) (by linarith)
  rw [intervalIntegral.integral_neg, chi2_integral 1 (x / 2) one_pos (by linarith)] at h
  rw [show 2 * (x / 2) = x by ring] at h
  have h' : 0 < Real.Gamma (((1 : ℕ) : ℝ) / 2) * (chi2Cdf 1 x - chi2Cdf 2 x) := by linarith
  have := (mul_pos_iff_of_pos_left hG).mp h'
  linarith

theorem chi2_at_zero (k : ℕ) : chi2Cdf k 0 = 0 := by simp [chi2Cdf]

/-! ### The fit of the width -/

theorem rayleigh_abs (a s : ℝ) : Dist.rayleighCdf a |s| = Dist.rayleighCdf a s := by
  unfold Dist.rayleighCdf
  rw [div_pow, div_pow, sq_abs]

theorem rayleigh_zero (s : ℝ) : Dist.rayleighCdf 0 s = 0 := by simp [Dist.rayleighCdf]

theorem rayleigh_lt (a s s' : ℝ) (ha : a ≠ 0) (hs : 0 < s) (h : s < s') :
    Dist.rayleighCdf a s' < Dist.rayleighCdf a s := by
  unfold Dist.rayleighCdf
  have h1 : a ^ 2 / s' ^ 2 < a ^ 2 / s ^ 2 := by
    apply div_lt_div_of_pos_left (by positivity) (by positivity)
    exact pow_lt_pow_left₀ h hs.le two_ne_zero
  have : Real.exp (-0.5 * (a / s) ^ 2) < Real.exp (-0.5 * (a / s') ^ 2) := by
    apply Real.exp_lt_exp.mpr
    rw [div_pow, div_pow]
    linarith
  linarith

theorem rayleigh_le (a s s' : ℝ) (ha : a ≠ 0) (hs : 0 < s) (h : s ≤ s') :
    Dist.rayleighCdf a s' ≤ Dist.rayleighCdf a s := by
  rcases h.eq_or_lt with rfl | h
  · exact le_rfl
  · exact (rayleigh_lt a s s' ha hs h).le

theorem chi2_parabola (a sigma : ℝ) (hs : 0 < sigma) :
    chi2Cdf 2 (2 * (a ^ 2 / (2 * sigma ^ 2))) = Dist.rayleighCdf a sigma := by
  rw [chi2_two _ (by positivity)]
  unfold Dist.rayleighCdf
  congr 2
  field_simp
  ring

theorem lossCdf_parabola (k : ℕ) (angles : List ℝ) (sigma s : ℝ) :
    lossCdf k (parabola sigma angles) s =
      (angles.map fun a => (chi2Cdf k (2 * (a ^ 2 / (2 * sigma ^ 2))) - Dist.rayleighCdf a s) ^ 2).sum := by
  simp [lossCdf, parabola, List.map_map, Function.comp_def]

theorem lossCdf_abs (k : ℕ) (points : List (ℝ × ℝ)) (s : ℝ) :
    lossCdf k points |s| = lossCdf k points s := by
  simp only [lossCdf, rayleigh_abs]

theorem rayleigh_continuous (a sigma : ℝ) (hs : 0 < sigma) :
    ContinuousAt (fun s => Dist.rayleighCdf a s) sigma := by
  unfold Dist.rayleighCdf
  have : ContinuousAt (fun s : ℝ => a / s) sigma :=
    continuousAt_const.div continuousAt_id hs.ne'
  fun_prop

theorem eventually_all_list {α : Type} (l : List α) (f : α → ℝ → Prop) (F : Filter ℝ)
    (h : ∀ a ∈ l, ∀ᶠ s in F, f a s) : ∀ᶠ s in F, ∀ a ∈ l, f a s := by
  induction l with
  | nil => simp
  | cons a l ih =>
    filter_upwards [h a (by simp), ih fun b hb => h b (by simp [hb])] with s h1 h2
    intro b hb
    rcases List.mem_cons.mp hb with rfl | hb
    · exact h1
    · exact h2 b hb

theorem term_zero (k : ℕ) (sigma s : ℝ) :
    (chi2Cdf k (2 * ((0 : ℝ) ^ 2 / (2 * sigma ^ 2))) - Dist.rayleighCdf 0 s) ^ 2 = 0 := by
  simp [chi2_at_zero, rayleigh_zero]

theorem estimate_gt (k : ℕ) (hk : 3 ≤ k) (sigma : ℝ) (hs : 0 < sigma) (angles : List ℝ)
    (hne : ∃ a ∈ angles, a ≠ 0) (s : ℝ) (hs0 : s ≠ 0)
    (hmin : ∀ s', s' ≠ 0 → lossCdf k (parabola sigma angles) s ≤ lossCdf k (parabola sigma angles) s') :
    sigma < |s| := by
  by_contra hle
  push Not at hle
  have hc : ∀ a, a ≠ 0 → chi2Cdf k (2 * (a ^ 2 / (2 * sigma ^ 2))) < Dist.rayleighCdf a sigma := by
    intro a ha
    rw [← chi2_parabola a sigma hs]
    exact chi2_lt k hk _ (by positivity)
  have hev : ∀ᶠ s' in 𝓝 sigma, ∀ a ∈ angles, a ≠ 0 →
      chi2Cdf k (2 * (a ^ 2 / (2 * sigma ^ 2))) < Dist.rayleighCdf a s' := by
    apply eventually_all_list
    intro a _
    by_cases ha : a = 0
    · exact Eventually.of_forall fun _ h => absurd ha h
    · exact ((rayleigh_continuous a sigma hs).eventually_const_lt (hc a ha)).mono fun _ h _ => h
  obtain ⟨s', h1, h2⟩ := ((hev.filter_mono nhdsWithin_le_nhds).and
    (self_mem_nhdsWithin : ∀ᶠ s' in 𝓝[>] sigma, s' ∈ Ioi sigma)).exists
  have h2 : sigma < s' := h2
  have hpos : 0 < |s| := abs_pos.mpr hs0
  have hlt : lossCdf k (parabola sigma angles) s' < lossCdf k (parabola sigma angles) s := by
    rw [← lossCdf_abs k _ s, lossCdf_parabola, lossCdf_parabola]
    apply List.sum_lt_sum
    · intro a ha
      by_cases ha0 : a = 0
      · subst ha0; rw [term_zero, term_zero]
      · have := h1 a ha ha0
        have := rayleigh_lt a sigma s' ha0 hs h2
        have := rayleigh_le a |s| sigma ha0 hpos hle
        nlinarith
    · obtain ⟨a, ha, ha0⟩ := hne
      refine ⟨a, ha, ?_⟩
      have := h1 a ha ha0
      have := rayleigh_lt a sigma s' ha0 hs h2
      have := rayleigh_le a |s| sigma ha0 hpos hle
      nlinarith
  exact absurd (hmin s' (by linarith [hs.trans h2] : s' ≠ 0)) (not_le.mpr hlt)

theorem estimate_lt (sigma : ℝ) (hs : 0 < sigma) (angles : List ℝ)
    (hne : ∃ a ∈ angles, a ≠ 0) (s : ℝ)
    (hmin : ∀ s', s' ≠ 0 → lossCdf 1 (parabola sigma angles) s ≤ lossCdf 1 (parabola sigma angles) s') :
    |s| < sigma := by
  by_contra hle
  push Not at hle
  have hc : ∀ a, a ≠ 0 → Dist.rayleighCdf a sigma < chi2Cdf 1 (2 * (a ^ 2 / (2 * sigma ^ 2))) := by
    intro a ha
    rw [← chi2_parabola a sigma hs]
    exact chi2_gt _ (by positivity)
  have hev : ∀ᶠ s' in 𝓝 sigma, ∀ a ∈ angles, a ≠ 0 →
      Dist.rayleighCdf a s' < chi2Cdf 1 (2 * (a ^ 2 / (2 * sigma ^ 2))) := by
    apply eventually_all_list
    intro a _
    by_cases ha : a = 0
    · exact Eventually.of_forall fun _ h => absurd ha h
    · exact ((rayleigh_continuous a sigma hs).eventually_lt_const (hc a ha)).mono fun _ h _ => h
  have hpos' : ∀ᶠ s' in 𝓝 sigma, 0 < s' := lt_mem_nhds hs
  obtain ⟨s', ⟨h1, h3⟩, h2⟩ := (((hev.and hpos').filter_mono nhdsWithin_le_nhds).and
    (self_mem_nhdsWithin : ∀ᶠ s' in 𝓝[<] sigma, s' ∈ Iio sigma)).exists
  have h2 : s' < sigma := h2
  have hlt : lossCdf 1 (parabola sigma angles) s' < lossCdf 1 (parabola sigma angles) s := by
    rw [← lossCdf_abs 1 _ s, lossCdf_parabola, lossCdf_parabola]
    apply List.sum_lt_sum
    · intro a ha
      by_cases ha0 : a = 0
      · subst ha0; rw [term_zero, term_zero]
      · have := h1 a ha ha0
        have := rayleigh_lt a s' sigma ha0 h3 h2
        have := rayleigh_le a sigma |s| ha0 hs hle
        nlinarith
    · obtain ⟨a, ha, ha0⟩ := hne
      refine ⟨a, ha, ?_⟩
      have := h1 a ha ha0
      have := rayleigh_lt a s' sigma ha0 h3 h2
      have := rayleigh_le a sigma |s| ha0 hs hle
      nlinarith
  exact absurd (hmin s' h3.ne') (not_le.mpr hlt)

theorem loss_nonneg (k : ℕ) (points : List (ℝ × ℝ)) (s : ℝ) : 0 ≤ lossCdf k points s := by
  unfold lossCdf
  apply List.sum_nonneg
  intro x hx
  obtain ⟨p, _, rfl⟩ := List.mem_map.mp hx
  positivity

theorem loss_true (sigma : ℝ) (hs : 0 < sigma) (angles : List ℝ) :
    lossCdf 2 (parabola sigma angles) sigma = 0 := by
  rw [lossCdf_parabola]
  apply List.sum_eq_zero
  intro x hx
  obtain ⟨a, _, rfl⟩ := List.mem_map.mp hx
  rw [chi2_parabola a sigma hs]
  simp

theorem loss_zero (sigma : ℝ) (hs : 0 < sigma) (angles : List ℝ) (hne : ∃ a ∈ angles, a ≠ 0)
    (s : ℝ) (hs0 : s ≠ 0) (h : lossCdf 2 (parabola sigma angles) s = 0) : |s| = sigma := by
  rw [lossCdf_parabola] at h
  obtain ⟨a, ha, ha0⟩ := hne
  have hz := List.all_zero_of_le_zero_le_of_sum_eq_zero (l := angles.map fun a =>
    (chi2Cdf 2 (2 * (a ^ 2 / (2 * sigma ^ 2))) - Dist.rayleighCdf a s) ^ 2)
    (by
      intro x hx
      obtain ⟨b, _, rfl⟩ := List.mem_map.mp hx
      positivity) h (List.mem_map.mpr ⟨a, ha, rfl⟩)
  rw [chi2_parabola a sigma hs] at hz
  have heq : Dist.rayleighCdf a sigma = Dist.rayleighCdf a |s| := by
    rw [rayleigh_abs]
    have := pow_eq_zero_iff (two_ne_zero) |>.mp hz
    linarith
  have hpos : 0 < |s| := abs_pos.mpr hs0
  rcases lt_trichotomy |s| sigma with h1 | h1 | h1
  · exact absurd heq (rayleigh_lt a |s| sigma ha0 hpos h1).ne
  · exact h1
  · exact absurd heq (rayleigh_lt a sigma |s| ha0 hs h1).ne'

end Verif.Uncert
