/-
Properties of the uncertainties of a reconstruction: C81 (covariance matrices), C82 (Markov chains),
C83 (circularised uncertainty).
-/
import Mathlib.Analysis.Calculus.ContDiff.Operations
import Verif.Uncert.Lemmas

namespace Verif.Uncert
open Verif.Py Matrix Filter Topology

variable {n : ℕ}

/-! ### C81 -/

/-- C81 (values): in the transformed space, for every number of parameters except one, every loss
that is twice continuously differentiable in the parameters before normalisation (`M`) and
differentiable terms, `cov` is the inverse of the matrix of second derivatives of the loss there at
the best fit and `cov_sand` the product of this inverse, the sum of the outer products of the
gradients of all terms, and the inverse. The normalisation of the parameters does not matter. -/
theorem C81_covariance_partial (loss : Vec n → ℝ) (tensors : List (List (Vec n → ℝ)))
    (unlog : Fin n → ℝ → ℝ) (scale mean t : Vec n) (hessInv : Option (Mat n)) (hn : n ≠ 1)
    (hscale : ∀ i, scale i ≠ 0) (M : Vec n → ℝ) (y : Vec n) (H G : Mat n)
    (hM : M = beforeUnlog loss unlog) (hy : y = fun i => scale i * t i + mean i)
    (hsmooth : ContDiffAt ℝ 2 M y)
    (hterms : ∀ f ∈ tensors.flatten, DifferentiableAt ℝ (beforeUnlog f unlog) y)
    (hH : H = secondDerivatives M y)
    (hG : G = gradientProducts (tensors.flatten.map fun f => beforeUnlog f unlog) y)
    (hdet : H.det ≠ 0) :
    ∃ d, covariance true scale (inTrafo loss unlog scale mean)
        (tensors.map fun l => l.map fun f => inTrafo f unlog scale mean) hessInv 1 t = .ok d ∧
      Dict.get? d "cov" = some (some H⁻¹) ∧
      Dict.get? d "cov_sand" = some (some (H⁻¹ * G * H⁻¹)) ∧
      Dict.get? d "cov_trafo" =
        some (some (diagonal (fun i => (scale i)⁻¹) * H⁻¹ * diagonal (fun i => (scale i)⁻¹))) ∧
      Dict.get? d "cov_sand_trafo" = some (some (diagonal (fun i => (scale i)⁻¹) *
        (H⁻¹ * G * H⁻¹) * diagonal (fun i => (scale i)⁻¹))) ∧
      (∀ m, hessInv = some m →
        Dict.get? d "cov_fit" = some (some (diagonal scale * m * diagonal scale)) ∧
        Dict.get? d "cov_sand_fit" = some (some ((diagonal scale * m * diagonal scale) * G *
          (diagonal scale * m * diagonal scale))) ∧
        Dict.get? d "cov_fit_trafo" = some (some m) ∧
        Dict.get? d "cov_sand_fit_trafo" =
          some (some (m * (diagonal scale * G * diagonal scale) * m)) ∧
        Dict.keys d = ["cov", "cov_sand", "cov_trafo", "cov_sand_trafo", "cov_fit", "cov_sand_fit",
          "cov_fit_trafo", "cov_sand_fit_trafo"]) ∧
      (hessInv = none → Dict.keys d = ["cov", "cov_sand", "cov_trafo", "cov_sand_trafo"]) := by
  have hy' : y = affine scale mean t := hy
  have hh : hessians (inTrafo loss unlog scale mean) t = diagonal scale * H * diagonal scale := by
    rw [inTrafo_eq, ← hM, hessians_affine, ← hy', hessians_eq M y hsmooth, hH]
  have hg : opgEstimate (tensors.map fun l => l.map fun f => inTrafo f unlog scale mean) t =
      diagonal scale * G * diagonal scale := by
    have e : (tensors.map fun l => l.map fun f => inTrafo f unlog scale mean) =
        ((tensors.map fun l => l.map fun f => beforeUnlog f unlog).map fun l => l.map fun f q =>
          f (affine scale mean q)) := by
      simp [List.map_map, Function.comp_def, inTrafo_eq]
    rw [e, opg_affine, ← hy', opg_eq, hG, List.map_flatten]
    intro f hf
    rw [← List.map_flatten] at hf
    obtain ⟨g, hg, rfl⟩ := List.mem_map.mp hf
    exact hterms g hg
  have hdet' : (diagonal scale * H * diagonal scale).det ≠ 0 := fun h =>
    hdet ((det_conj scale H hscale).mp h)
  have hc := inv_conj scale H hscale
  have hD : diagonal scale * diagonal (fun i => (scale i)⁻¹) = 1 := by
    rw [diagonal_mul_diagonal]
    have : (fun i => scale i * (scale i)⁻¹) = fun _ => (1 : ℝ) := by
      funext i; exact mul_inv_cancel₀ (hscale i)
    rw [this, diagonal_one]
  have hD' : diagonal (fun i => (scale i)⁻¹) * diagonal scale = 1 := by
    rw [diagonal_mul_diagonal]
    have : (fun i => (scale i)⁻¹ * scale i) = fun _ => (1 : ℝ) := by
      funext i; exact inv_mul_cancel₀ (hscale i)
    rw [this, diagonal_one]
  have hinv : (diagonal scale * H * diagonal scale)⁻¹ =
      diagonal (fun i => (scale i)⁻¹) * H⁻¹ * diagonal (fun i => (scale i)⁻¹) := by
    rw [← hc]
    generalize (diagonal scale * H * diagonal scale)⁻¹ = X
    calc X = (diagonal (fun i => (scale i)⁻¹) * diagonal scale) * X *
          (diagonal scale * diagonal (fun i => (scale i)⁻¹)) := by
          rw [hD, hD', Matrix.one_mul, Matrix.mul_one]
      _ = _ := by simp only [Matrix.mul_assoc]
  have hsand : (diagonal scale * H * diagonal scale)⁻¹ * (diagonal scale * G * diagonal scale) *
      (diagonal scale * H * diagonal scale)⁻¹ =
      diagonal (fun i => (scale i)⁻¹) * (H⁻¹ * G * H⁻¹) * diagonal (fun i => (scale i)⁻¹) := by
    rw [hinv]
    calc _ = diagonal (fun i => (scale i)⁻¹) * H⁻¹ *
          (diagonal (fun i => (scale i)⁻¹) * diagonal scale) * G *
          (diagonal scale * diagonal (fun i => (scale i)⁻¹)) * H⁻¹ *
          diagonal (fun i => (scale i)⁻¹) := by simp only [Matrix.mul_assoc]
      _ = _ := by rw [hD, hD']; simp only [Matrix.mul_assoc, Matrix.mul_one]
  have hback : ∀ X : Mat n, diagonal scale * (diagonal (fun i => (scale i)⁻¹) * X *
      diagonal (fun i => (scale i)⁻¹)) * diagonal scale = X := by
    intro X
    calc _ = (diagonal scale * diagonal (fun i => (scale i)⁻¹)) * X *
          (diagonal (fun i => (scale i)⁻¹) * diagonal scale) := by simp only [Matrix.mul_assoc]
      _ = X := by rw [hD, hD', Matrix.one_mul, Matrix.mul_one]
  have hcov : covariance true scale (inTrafo loss unlog scale mean)
      (tensors.map fun l => l.map fun f => inTrafo f unlog scale mean) hessInv 1 t =
      covarianceOf true scale (diagonal scale * G * diagonal scale) hessInv
        (.matrix (diagonal scale * H * diagonal scale)) := by
    simp only [covariance, hessianFunction, hn, if_false, ne_eq, not_true_eq_false, hh, hg]
  rw [hcov]
  simp only [covarianceOf, if_true, invOrNan, if_neg hdet', matmul, inverseCov, hsand]
  rw [hinv, hback, hback]
  have hfit : ∀ m : Mat n, diagonal scale * (m * (diagonal scale * G * diagonal scale) * m) *
      diagonal scale = diagonal scale * m * diagonal scale * G *
      (diagonal scale * m * diagonal scale) := by
    intro m; simp only [Matrix.mul_assoc]
  refine ⟨_, rfl, ?_⟩
  cases hessInv with
  | none =>
    refine ⟨rfl, rfl, rfl, rfl, ?_, fun _ => rfl⟩
    intro m hm; exact absurd hm (by simp)
  | some m =>
    refine ⟨rfl, rfl, rfl, rfl, ?_, fun h => absurd h (by simp)⟩
    intro m' hm'
    cases hm'
    refine ⟨rfl, ?_, rfl, rfl, rfl⟩
    show some (some (diagonal scale * (m * (diagonal scale * G * diagonal scale) * m) *
      diagonal scale)) = _
    rw [hfit]

/-- C81 (variances): at a local minimum the inverse of the second derivatives is symmetric and
positive definite, if it exists, and the sandwich product symmetric and positive semidefinite: so
the variances on its diagonal are not negative. -/
theorem C81_positive (M : Vec n → ℝ) (fs : List (Vec n → ℝ)) (y : Vec n) (H G : Mat n)
    (hsmooth : ContDiffAt ℝ 2 M y) (hmin : IsLocalMin M y) (hH : H = secondDerivatives M y)
    (hG : G = gradientProducts fs y) (hdet : H.det ≠ 0) :
    H⁻¹.PosDef ∧ (H⁻¹ * G * H⁻¹).PosSemidef ∧ (∀ i, 0 < H⁻¹ i i) ∧
      ∀ i, 0 ≤ (H⁻¹ * G * H⁻¹) i i := by
  have hp : H.PosSemidef := by rw [hH]; exact second_posSemidef M y hsmooth hmin
  have hpd : H.PosDef := (PosSemidef.posDef_iff_det_ne_zero hp).mpr hdet
  have hg : G.PosSemidef := by rw [hG]; exact gradientProducts_posSemidef fs y
  have hs : (H⁻¹ * G * H⁻¹).PosSemidef := by
    have := hg.mul_mul_conjTranspose_same H⁻¹
    rwa [hpd.inv.isHermitian.eq] at this
  exact ⟨hpd.inv, hs, fun i => hpd.inv.diag_pos, fun i => hs.diag_nonneg⟩

/-- C81 (singular): if the second derivatives have no inverse, all results made from it are `nan`
and nothing raises. -/
theorem C81_singular (loss : Vec n → ℝ) (tensors : List (List (Vec n → ℝ)))
    (scale t : Vec n) (hessInv : Option (Mat n)) (hn : n ≠ 1) (hdet : (hessians loss t).det = 0) :
    ∃ d, covariance true scale loss tensors hessInv 1 t = .ok d ∧
      ∀ k ∈ ["cov", "cov_sand", "cov_trafo", "cov_sand_trafo"], Dict.get? d k = some none := by
  simp only [covariance, hessianFunction, hn, if_false, ne_eq, not_true_eq_false, covarianceOf,
    if_true, invOrNan, hdet, matmul, inverseCov]
  refine ⟨_, rfl, ?_⟩
  intro k hk
  cases hessInv <;>
  · simp only [List.mem_cons, List.not_mem_nil, or_false] at hk
    rcases hk with rfl | rfl | rfl | rfl <;> rfl

/-- C81 (refused): a covariance matrix is only calculated if all parameters are fitted, and for one
event at a time. -/
theorem C81_refused (fit : List Bool) (useTrafo : Bool) (scale : Vec n) (loss : Vec n → ℝ)
    (tensors : List (List (Vec n → ℝ))) (hessInv : Option (Mat n)) (batch : ℕ) (t : Vec n) :
    (covarianceInit fit = .ok () ↔ ∀ b ∈ fit, b = true) ∧
      (covarianceInit fit ≠ .ok () → covarianceInit fit = .error .notImplementedError) ∧
      (batch ≠ 1 → covariance useTrafo scale loss tensors hessInv batch t = .error .valueError) := by
  refine ⟨?_, ?_, ?_⟩
  · unfold covarianceInit
    split <;> simp_all
  · unfold covarianceInit
    split <;> simp_all
  · intro h
    simp [covariance, hessianFunction, h]

/-- C81 fails outside the transformed space: every event raises a `NameError`
(`UnboundLocalError`), because `cov` is only assigned in the transformed space
(modules/covariance.py:142-166). -/
theorem C81_violated_space (scale : Vec n) (loss : Vec n → ℝ) (tensors : List (List (Vec n → ℝ)))
    (hessInv : Option (Mat n)) (t : Vec n) (hn : n ≠ 1) :
    covariance false scale loss tensors hessInv 1 t = .error .nameError := by
  simp [covariance, hessianFunction, hn, covarianceOf]

/-- C81 fails for a single parameter: the Hessian is squeezed to a number
(manager/source.py:473-474), which can not be multiplied. -/
theorem C81_violated_single (useTrafo : Bool) (scale : Vec 1) (loss : Vec 1 → ℝ)
    (tensors : List (List (Vec 1 → ℝ))) (hessInv : Option (Mat 1)) (t : Vec 1) :
    covariance useTrafo scale loss tensors hessInv 1 t = .error .valueError := by
  simp [covariance, hessianFunction, covarianceOf]

/-- The hypotheses of C81 are met by a parabola in two parameters, one of them in logarithmic
space. -/
example : ∃ (loss : Vec 2 → ℝ) (unlog : Fin 2 → ℝ → ℝ) (y : Vec 2),
    ContDiffAt ℝ 2 (beforeUnlog loss unlog) y ∧ IsLocalMin (beforeUnlog loss unlog) y ∧
      unlog 1 = fun x => Real.exp x - 1 := by
  refine ⟨fun x => x 0 ^ 2 + (x 1) ^ 2, fun i => if i = 1 then fun x => Real.exp x - 1 else id,
    fun _ => 0, ?_, ?_, ?_⟩
  · have : beforeUnlog (fun x : Vec 2 => x 0 ^ 2 + (x 1) ^ 2)
        (fun i => if i = 1 then fun x => Real.exp x - 1 else id) =
        fun y => y 0 ^ 2 + (Real.exp (y 1) - 1) ^ 2 := by
      funext y; simp [beforeUnlog]
    rw [this]
    fun_prop
  · refine Eventually.of_forall fun y => ?_
    simp only [beforeUnlog]
    simp
    positivity
  · simp

/-- The second derivatives of this kind of loss have an inverse. -/
example : (secondDerivatives (fun y : Vec 2 => y 0 ^ 2 + y 1 ^ 2) 0).det ≠ 0 := by
  have h : ContDiffAt ℝ 2 (fun y : Vec 2 => y 0 ^ 2 + y 1 ^ 2) 0 := by fun_prop
  have hj : ∀ (q : Vec 2) (i : Fin 2), jvp (fun y : Vec 2 => y 0 ^ 2 + y 1 ^ 2) q (tangent i) =
      2 * q i := by
    intro q i
    have hd : ∀ c d : ℝ, HasDerivAt (fun s : ℝ => (c + s * d) ^ 2) (2 * c * d) 0 := by
      intro c d
      have := (((hasDerivAt_id (0 : ℝ)).mul_const d).const_add c).fun_pow 2
      simpa using this
    have := (hd (q 0) (tangent i 0)).add (hd (q 1) (tangent i 1))
    have e := this.deriv
    unfold jvp
    simp only [Pi.add_apply, Pi.smul_apply, smul_eq_mul]
    refine e.trans ?_
    fin_cases i <;> simp [tangent]
  rw [← hessians_eq _ _ h]
  have : hessians (fun y : Vec 2 => y 0 ^ 2 + y 1 ^ 2) 0 = diagonal fun _ => 2 := by
    ext i j
    show jvp (fun q => jvp (fun y : Vec 2 => y 0 ^ 2 + y 1 ^ 2) q (tangent i)) 0 (tangent j) = _
    simp only [hj]
    unfold jvp
    simp only [Pi.add_apply, Pi.smul_apply, smul_eq_mul, Pi.zero_apply, zero_add]
    have hd : HasDerivAt (fun s : ℝ => 2 * (s * tangent j i)) (2 * tangent j i) 0 := by
      simpa using ((hasDerivAt_id (0 : ℝ)).mul_const (tangent j i)).const_mul 2
    rw [hd.deriv]
    simp [tangent, diagonal_apply]
  rw [this]
  simp

/-! ### C82 -/

/-- A sampler whose trace holds the logarithm of the probability of each position. -/
def Traced (sampler : Sampler) : Prop :=
  ∀ start lp steps, ∀ row ∈ sampler start lp steps, ∀ s ∈ row, s.logProb = lp s.pos

/-- A sampler that returns the first positions of the chains, all accepted. -/
def firstStates : Sampler := fun start lp _ => [start.map fun x => ⟨x, true, lp x⟩]

theorem mcmc_ok {c : Mcmc} {inv : List ℝ → List ℝ} {loss : List ℝ → ℝ} {sampler : Sampler}
    {results : List (List ℝ)} {out : List (List ℝ) × List ℝ}
    (h : mcmc c inv loss sampler results = .ok out) :
    ∃ result steps, results = [result] ∧
      kernelSteps c.method c.useTrafo c.logs c.std c.fit.length c.fit.length = .ok steps ∧
      out = (selectAccepted (fun s => if c.useTrafo then inv s.pos else s.pos)
          (sampler (List.replicate c.chains result) (logProb loss) steps),
        selectAccepted (fun s => s.logProb)
          (sampler (List.replicate c.chains result) (logProb loss) steps)) := by
  unfold mcmc at h
  split at h
  · rename_i result
    split at h
    · exact absurd h (by simp)
    · split at h
      · exact absurd h (by simp)
      · split at h
        · exact absurd h (by simp)
        · rename_i steps hs
          simp only at h
          split at h
          · exact absurd h (by simp)
          · refine ⟨result, steps, rfl, hs, ?_⟩
            injection h with h
            exact h.symm
  · exact absurd h (by simp)

/-- C82 (probabilities): the second result holds for each sample the logarithm of its probability:
minus the loss of these parameters. `paramLoss` is the loss as function of the parameters, which the
loss of the chain's space has to agree with. -/
theorem C82_pairs (c : Mcmc) (inv : List ℝ → List ℝ) (paramLoss loss : List ℝ → ℝ)
    (sampler : Sampler) (results : List (List ℝ)) (samples : List (List ℝ)) (logProbs : List ℝ)
    (htraced : Traced sampler)
    (hloss : ∀ t, loss t = paramLoss (if c.useTrafo then inv t else t))
    (h : mcmc c inv loss sampler results = .ok (samples, logProbs)) :
    logProbs = samples.map fun x => -paramLoss x := by
  obtain ⟨result, steps, _, _, hout⟩ := mcmc_ok h
  injection hout with h1 h2
  rw [h1, h2]
  simp only [selectAccepted, List.map_map]
  apply List.map_congr_left
  intro s hs
  obtain ⟨row, hrow, hsr⟩ := List.mem_flatten.mp (List.mem_filter.mp hs).1
  rw [htraced _ _ _ row hrow s hsr]
  simp [logProb, hloss]

/-- C82 (samples): the samples are the accepted states of all chains in the order of the results,
undone the transformation, and nothing else. -/
theorem C82_samples (c : Mcmc) (inv : List ℝ → List ℝ) (loss : List ℝ → ℝ)
    (sampler : Sampler) (result : List ℝ) (samples : List (List ℝ)) (logProbs : List ℝ)
    (h : mcmc c inv loss sampler [result] = .ok (samples, logProbs)) :
    ∃ steps, samples =
      (((sampler (List.replicate c.chains result) (fun x => -loss x) steps).flatten.filter
        fun s => s.accepted).map fun s => if c.useTrafo then inv s.pos else s.pos) := by
  obtain ⟨r, steps, hr, _, hout⟩ := mcmc_ok h
  injection hr with hr _
  subst hr
  injection hout with h1 h2
  exact ⟨steps, h1⟩

/-- C82 (start): every chain starts with the numbers of the best fit; this is the best fit itself if
the chain does not use transformed parameters, or if the transformation does not change it. -/
theorem C82_start_partial (c : Mcmc) (inv : List ℝ → List ℝ) (loss : List ℝ → ℝ)
    (result : List ℝ) (samples : List (List ℝ)) (logProbs : List ℝ)
    (h : mcmc c inv loss firstStates [result] = .ok (samples, logProbs)) :
    samples = List.replicate c.chains (if c.useTrafo then inv result else result) ∧
      (0 < c.chains → ((∀ x ∈ samples, x = result) ↔ c.useTrafo = false ∨ inv result = result)) := by
  obtain ⟨steps, hs⟩ := C82_samples c inv loss firstStates result samples logProbs h
  have e : samples = List.replicate c.chains (if c.useTrafo then inv result else result) := by
    rw [hs]
    simp [firstStates, List.map_replicate]
  refine ⟨e, fun hc => ?_⟩
  rw [e]
  constructor
  · intro hx
    have := hx _ (List.mem_replicate.mpr ⟨by omega, rfl⟩)
    cases hu : c.useTrafo
    · exact Or.inl rfl
    · right; rw [hu] at this; simpa using this
  · intro hx x hm
    rw [(List.mem_replicate.mp hm).2]
    rcases hx with hx | hx
    · simp [hx]
    · split
      · exact hx
      · rfl

theorem logSteps_ok (logs : List Bool) (i : ℕ) (steps : List ℝ) (hl : logs.length + i = steps.length) :
    (∃ r, logSteps logs i steps = .ok r ∧ r.length = steps.length) ↔
      ∀ j, logs[j]? = some true → j + i = 5 := by
  induction logs generalizing i steps with
  | nil => simp [logSteps]
  | cons b logs ih =>
    have hl' : logs.length + (i + 1) = steps.length := by simp at hl; omega
    cases b with
    | false =>
      simp only [logSteps]
      rw [if_neg (by simp), ih (i + 1) steps hl']
      constructor
      · intro h j hj
        cases j with
        | zero => simp at hj
        | succ j => have := h j (by simpa using hj); omega
      · intro h j hj
        have := h (j + 1) (by simpa using hj); omega
    | true =>
      simp only [logSteps, if_true]
      by_cases hi : i = 5
      · rw [if_neg (by simpa using hi), if_pos (by simp at hl; omega)]
        have := ih (i + 1) (steps.set i 0.01) (by simpa using hl')
        rw [List.length_set] at this
        rw [this]
        constructor
        · intro h j hj
          cases j with
          | zero => omega
          | succ j => have := h j (by simpa using hj); omega
        · intro h j hj
          have := h (j + 1) (by simpa using hj); omega
      · rw [if_pos hi]
        constructor
        · rintro ⟨r, hr, _⟩; exact absurd hr (by simp)
        · intro h; exact absurd (h 0 (by simp)) (by omega)

theorem logSteps_length (logs : List Bool) (i : ℕ) (steps r : List ℝ)
    (h : logSteps logs i steps = .ok r) : r.length = steps.length := by
  induction logs generalizing i steps with
  | nil => simp only [logSteps, Except.ok.injEq] at h; rw [h]
  | cons b logs ih =>
    simp only [logSteps] at h
    split at h
    · split at h
      · exact absurd h (by simp)
      · split at h
        · rw [ih _ _ h]; simp
        · exact absurd h (by simp)
    · exact ih _ _ h

theorem stepSizes_length (m : Method) (k : ℕ) :
    (stepSizes m k).length = if k = 1 then 7 else k := by
  unfold stepSizes
  by_cases hk : k = 1
  · rw [if_neg (by simpa using hk), if_pos hk]; split <;> rfl
  · rw [if_pos hk, if_neg hk]; simp

theorem kernelSteps_ok (m : Method) (useTrafo : Bool) (logs : List Bool) (std : List ℝ) (k : ℕ)
    (hl : logs.length = k) (hs : std.length = k) :
    (∃ r, kernelSteps m useTrafo logs std k k = .ok r) ↔
      k ≠ 1 ∧ m ≠ .unknown ∧ (useTrafo = true → ∀ j : ℕ, logs[j]? = some true → j = 5) := by
  have hss := stepSizes_length m k
  by_cases hk : k = 1
  · subst hk
    simp only [ne_eq, not_true_eq_false, false_and, iff_false]
    rintro ⟨r, hr⟩
    rw [if_pos rfl] at hss
    simp only [kernelSteps] at hr
    split at hr
    · exact absurd hr (by simp)
    · rename_i steps hsc
      have hlen : steps.length = 7 := by
        unfold scaledSteps at hsc
        cases useTrafo with
        | false =>
          simp only [Bool.false_eq_true, if_false] at hsc
          injection hsc with hsc; rw [← hsc, hss]
        | true =>
          simp only [if_true] at hsc
          split at hsc
          · exact absurd hsc (by simp)
          · rename_i q hq
            have hq7 := logSteps_length _ _ _ _ hq
            unfold divStd at hsc
            rw [if_neg (by omega)] at hsc
            split at hsc
            · injection hsc with hsc; rw [← hsc, List.length_map, hq7, hss]
            · exact absurd hsc (by simp)
      rw [if_pos (by omega)] at hr
      exact absurd hr (by simp)
  · rw [if_neg hk] at hss
    have hsc : (∃ r, scaledSteps useTrafo logs std (stepSizes m k) = .ok r ∧ r.length = k) ↔
        (useTrafo = true → ∀ j : ℕ, logs[j]? = some true → j = 5) := by
      unfold scaledSteps
      cases useTrafo with
      | false => simp [hss]
      | true =>
        simp only [if_true, forall_const]
        have hlo := logSteps_ok logs 0 (stepSizes m k) (by omega)
        simp only [Nat.add_zero] at hlo
        rw [← hlo]
        constructor
        · rintro ⟨r, hr, _⟩
          split at hr
          · exact absurd hr (by simp)
          · rename_i q hq
            exact ⟨q, hq, logSteps_length _ _ _ _ hq⟩
        · rintro ⟨q, hq, hql⟩
          rw [hq]
          simp only [divStd]
          rw [if_pos (by omega)]
          exact ⟨_, rfl, by simp; omega⟩
    rw [← hsc]
    unfold kernelSteps
    constructor
    · rintro ⟨r, hr⟩
      split at hr
      · exact absurd hr (by simp)
      · rename_i q hq
        split at hr
        · exact absurd hr (by simp)
        · rename_i hql
          split at hr
          · exact absurd hr (by simp)
          · rename_i hm
            exact ⟨hk, hm, q, hq, by simpa using hql⟩
    · rintro ⟨_, hm, q, hq, hql⟩
      rw [hq]
      simp only
      rw [if_neg (by simpa using hql), if_neg hm]
      exact ⟨q, rfl⟩

/-- C82 (which settings run): a chain runs exactly for one event whose best fit holds all
parameters, if all of them are fitted, there is not exactly one, the method is known, and, in the
transformed space, no parameter but the sixth is logarithmic; Hamiltonian chains also need seven
parameters. -/
theorem C82_runs (c : Mcmc) (inv : List ℝ → List ℝ) (loss : List ℝ → ℝ) (sampler : Sampler)
    (results : List (List ℝ)) (hl : c.logs.length = c.fit.length)
    (hs : c.std.length = c.fit.length) :
    (∃ out, mcmc c inv loss sampler results = .ok out) ↔
      (∃ result, results = [result] ∧ result.length = c.fit.length) ∧ (∀ b ∈ c.fit, b = true) ∧
        c.fit.length ≠ 1 ∧ c.method ≠ .unknown ∧
        (c.useTrafo = true → ∀ j : ℕ, c.logs[j]? = some true → j = 5) ∧
        (c.method = .hmc → 7 ≤ c.fit.length) := by
  have hk := kernelSteps_ok c.method c.useTrafo c.logs c.std c.fit.length hl hs
  have hcount : c.fit.count true = c.fit.length ↔ ∀ b ∈ c.fit, b = true := by
    rw [List.count_eq_length]
    constructor
    · intro h b hb; exact (h b hb).symm
    · intro h b hb; exact (h b hb).symm
  constructor
  · rintro ⟨out, h⟩
    obtain ⟨result, steps, rfl, hks, _⟩ := mcmc_ok h
    obtain ⟨h1, h2, h3⟩ := hk.mp ⟨steps, hks⟩
    unfold mcmc at h
    simp only [hks] at h
    split at h
    · exact absurd h (by simp)
    · rename_i hlen
      split at h
      · exact absurd h (by simp)
      · rename_i hc
        split at h
        · exact absurd h (by simp)
        · rename_i hh
          refine ⟨⟨result, rfl, by simpa using hlen⟩, hcount.mp (by simpa using hc), h1, h2, h3, ?_⟩
          intro hm
          by_contra hlt
          exact hh ⟨hm, by omega⟩
  · rintro ⟨⟨result, rfl, hlen⟩, hfit, h1, h2, h3, h4⟩
    obtain ⟨steps, hks⟩ := hk.mpr ⟨h1, h2, h3⟩
    unfold mcmc
    simp only [hks]
    rw [if_neg (by simpa using hlen), if_neg (by simpa using hcount.mpr hfit), if_neg (by
      rintro ⟨hm, hlt⟩
      have := h4 hm
      omega)]
    exact ⟨_, rfl⟩

/-- Settings for seven parameters in the transformed space, the energy logarithmic. -/
def exampleMcmc : Mcmc where
  method := .hmc
  useTrafo := true
  fit := List.replicate 7 true
  logs := [false, false, false, false, false, true, false]
  std := List.replicate 7 1
  chains := 2

theorem example_steps : ∃ steps, kernelSteps .hmc true
    [false, false, false, false, false, true, false] (List.replicate 7 1) 7 7 = .ok steps := by
  refine (kernelSteps_ok _ _ _ _ 7 rfl (by simp)).mpr ?_
  refine ⟨by norm_num, by simp, fun _ j hj => ?_⟩
  match j with
  | 0 | 1 | 2 | 3 | 4 | 6 => simp at hj
  | 5 => rfl
  | j + 7 => simp at hj

/-- C82 fails in the transformed space: the best fit is not transformed before the chain starts
there (modules/mcmc.py:164-173), so the first samples are other points. -/
theorem C82_violated_start : ∃ samples logProbs,
    mcmc exampleMcmc (fun t => t.map (2 * · + 1)) (fun _ => 0) firstStates [List.replicate 7 3] =
      .ok (samples, logProbs) ∧ samples ≠ [] ∧ ∀ x ∈ samples, x ≠ List.replicate 7 3 := by
  obtain ⟨⟨samples, logProbs⟩, h⟩ := (C82_runs exampleMcmc (fun t => t.map (2 * · + 1)) (fun _ => 0)
    firstStates [List.replicate 7 3] rfl (by simp [exampleMcmc])).mpr (by
      obtain ⟨s, hs⟩ := example_steps
      have := (kernelSteps_ok .hmc true [false, false, false, false, false, true, false]
        (List.replicate 7 1) 7 rfl (by simp)).mp ⟨s, hs⟩
      exact ⟨⟨_, rfl, by simp [exampleMcmc]⟩, by simp [exampleMcmc], by simp [exampleMcmc],
        by simp [exampleMcmc], this.2.2, by simp [exampleMcmc]⟩)
  refine ⟨samples, logProbs, h, ?_⟩
  have := (C82_start_partial _ _ _ _ _ _ h).1
  rw [this]
  constructor
  · simp [exampleMcmc]
  · intro x hx
    rw [(List.mem_replicate.mp hx).2]
    simp only [exampleMcmc, if_true]
    norm_num [List.replicate]

/-- A sampler whose chain stays where it is for one step, because the step is rejected, and then
moves on. -/
noncomputable def stayAndMove : Sampler := fun start lp _ =>
  [start.map fun x => ⟨x, false, lp x⟩, start.map fun x => ⟨x.map (· + 1), true, lp (x.map (· + 1))⟩]

/-- C82 fails for the weights of the samples: states at which a chain stays, because the next step
is rejected, are removed (modules/mcmc.py:192-193), although they have to count once more. -/
theorem C82_violated_weights : Traced stayAndMove ∧ ∃ samples logProbs,
    mcmc { exampleMcmc with useTrafo := false, chains := 1 } id (fun _ => 0) stayAndMove
      [List.replicate 7 3] = .ok (samples, logProbs) ∧
    samples.count (List.replicate 7 3) = 0 ∧ samples = [List.replicate 7 4] := by
  constructor
  · intro start lp steps row hrow s hs
    simp only [stayAndMove, List.mem_cons, List.not_mem_nil, or_false] at hrow
    rcases hrow with rfl | rfl
    · obtain ⟨x, _, rfl⟩ := List.mem_map.mp hs; rfl
    · obtain ⟨x, _, rfl⟩ := List.mem_map.mp hs; rfl
  obtain ⟨⟨samples, logProbs⟩, h⟩ := (C82_runs { exampleMcmc with useTrafo := false, chains := 1 } id
    (fun _ => 0) stayAndMove [List.replicate 7 3] rfl (by simp [exampleMcmc])).mpr
      ⟨⟨_, rfl, by simp [exampleMcmc]⟩, by simp [exampleMcmc], by simp [exampleMcmc],
        by simp [exampleMcmc], by simp, by simp [exampleMcmc]⟩
  refine ⟨samples, logProbs, h, ?_⟩
  obtain ⟨steps, hs⟩ := C82_samples _ _ _ _ _ _ _ h
  have e : samples = [List.replicate 7 4] := by
    rw [hs]
    norm_num [stayAndMove, List.replicate]
  rw [e]
  refine ⟨?_, rfl⟩
  norm_num [List.count_cons, List.replicate]

/-- C82 fails for the step sizes: those given for the seven parameters of a cascade are never used,
because the length of the outer list is compared with the number of parameters
(manager/source.py:1167-1173). -/
theorem C82_violated_steps (m : Method) :
    stepSizes m 7 = List.replicate 7 0.1 ∧
      (∀ k, k ≠ 1 → ∀ x ∈ stepSizes m k, x = 0.1) ∧
      stepSizes .hmc 7 ≠ [0.1, 0.1, 0.1, 0.01, 0.02, 10, 1] := by
  refine ⟨by simp [stepSizes], ?_, ?_⟩
  · intro k hk x hx
    rw [stepSizes, if_pos hk] at hx
    exact (List.mem_replicate.mp hx).2
  · rw [stepSizes, if_pos (by norm_num)]
    norm_num [List.replicate]

theorem logSteps_get (logs : List Bool) (i : ℕ) (steps r : List ℝ)
    (h : logSteps logs i steps = .ok r) (j : ℕ) :
    r[j]? = if i ≤ j ∧ logs[j - i]? = some true then steps[j]?.map (fun _ => 0.01) else steps[j]? := by
  induction logs generalizing i steps with
  | nil => simp only [logSteps, Except.ok.injEq] at h; simp [h]
  | cons b logs ih =>
    have hstep : ∀ l : List ℝ, (if i + 1 ≤ j ∧ logs[j - (i + 1)]? = some true then
        l[j]?.map (fun _ => (0.01 : ℝ)) else l[j]?) =
        if i ≠ j ∧ i ≤ j ∧ (b :: logs)[j - i]? = some true then l[j]?.map (fun _ => 0.01) else l[j]? := by
      intro l
      by_cases hij : i + 1 ≤ j
      · have : j - i = (j - (i + 1)) + 1 := by omega
        have h1 : i ≠ j := by omega
        have h2 : i ≤ j := by omega
        simp [this, hij, h1, h2]
      · have : ¬(i ≠ j ∧ i ≤ j) := by omega
        rw [if_neg (by tauto), if_neg (by tauto)]
    simp only [logSteps] at h
    split at h
    · rename_i hb
      subst hb
      split at h
      · exact absurd h (by simp)
      · split at h
        · rename_i hlt
          rw [ih _ _ h, hstep]
          by_cases hij : i = j
          · subst hij
            simp [hlt]
          · simp [hij, List.getElem?_set_ne hij]
        · exact absurd h (by simp)
    · rename_i hb
      rw [ih _ _ h, hstep]
      by_cases hij : i = j
      · subst hij; simp [hb]
      · simp [hij]

/-- C82 (step sizes): all step sizes are 0.1, and in the transformed space 0.01 for logarithmic
parameters, divided by the standard deviations. -/
theorem C82_steps (m : Method) (useTrafo : Bool) (logs : List Bool) (std : List ℝ) (k : ℕ)
    (steps : List ℝ) (hk : k ≠ 1) (hs : std.length = k)
    (h : kernelSteps m useTrafo logs std k k = .ok steps) :
    steps.length = k ∧ (useTrafo = false → ∀ x ∈ steps, x = 0.1) ∧
      (useTrafo = true → ∀ (i : ℕ) (s : ℝ), std[i]? = some s →
        steps[i]? = some ((if logs[i]? = some true then 0.01 else 0.1) / s)) := by
  unfold kernelSteps at h
  split at h
  · exact absurd h (by simp)
  · rename_i q hq
    split at h
    · exact absurd h (by simp)
    · rename_i hlen
      split at h
      · exact absurd h (by simp)
      · injection h with h
        subst h
        refine ⟨by simpa using hlen, ?_, ?_⟩
        · intro hu
          simp only [scaledSteps, hu, Bool.false_eq_true, if_false, Except.ok.injEq] at hq
          intro x hx
          rw [← hq, stepSizes, if_pos hk] at hx
          exact (List.mem_replicate.mp hx).2
        · intro hu i s hi
          simp only [scaledSteps, hu, if_true] at hq
          split at hq
          · exact absurd hq (by simp)
          · rename_i r hr
            have hrl := logSteps_length _ _ _ _ hr
            rw [stepSizes_length, if_neg hk] at hrl
            unfold divStd at hq
            rw [if_pos (by omega)] at hq
            injection hq with hq
            have hik : i < k := by
              rw [← hs]; exact (List.getElem?_eq_some_iff.mp hi).1
            have hss : (stepSizes m k)[i]? = some 0.1 := by
              rw [stepSizes, if_pos hk]; simp [hik]
            have hri := logSteps_get _ _ _ _ hr i
            rw [hss] at hri
            simp only [Nat.zero_le, true_and, Nat.sub_zero, Option.map_some] at hri
            rw [← hq, List.getElem?_zipWith, hi, hri]
            by_cases hl : logs[i]? = some true
            · rw [if_pos hl, if_pos hl]
            · rw [if_neg hl, if_neg hl]

/-! ### C83 -/

/-- C83 (four parameters): for a parabola of width `sigma` the result is the width, however the
angles are chosen, as long as one is not zero. -/
theorem C83_four_partial (sigma : ℝ) (hs : 0 < sigma) (angles : List ℝ) (hne : ∃ a ∈ angles, a ≠ 0)
    (s : ℝ) : IsEstimate 4 (parabola sigma angles) s ↔ |s| = sigma := by
  constructor
  · rintro ⟨h0, hmin⟩
    apply loss_zero sigma hs angles hne s h0
    have h1 := hmin sigma hs.ne'
    simp only [ddof] at h1
    rw [loss_true sigma hs] at h1
    exact le_antisymm h1 (loss_nonneg _ _ _)
  · intro h
    have h0 : s ≠ 0 := by
      intro h0; rw [h0, abs_zero] at h; linarith
    refine ⟨h0, fun s' _ => ?_⟩
    simp only [ddof]
    rw [← lossCdf_abs, h, loss_true sigma hs]
    exact loss_nonneg _ _ _

/-- C83 fails for more than four parameters: for every parabola and all angles the result is larger
than the width, because the number of degrees of freedom is the number of parameters that are
fitted again and not of those that are kept (modules/opening_angle.py:197). -/
theorem C83_violated_many (numParams : ℕ) (hn : 5 ≤ numParams) (sigma : ℝ) (hs : 0 < sigma)
    (angles : List ℝ) (hne : ∃ a ∈ angles, a ≠ 0) (s : ℝ)
    (h : IsEstimate numParams (parabola sigma angles) s) : sigma < |s| :=
  estimate_gt (ddof numParams) (by simp only [ddof]; omega) sigma hs angles hne s h.1 h.2

/-- C83 fails for three parameters: the result is smaller than the width. -/
theorem C83_violated_three (sigma : ℝ) (hs : 0 < sigma) (angles : List ℝ)
    (hne : ∃ a ∈ angles, a ≠ 0) (s : ℝ) (h : IsEstimate 3 (parabola sigma angles) s) : |s| < sigma :=
  estimate_lt sigma hs angles hne s h.2

/-- C83 (range): with a covariance matrix the largest angle is twice the circularised width of the
directions (the root of the mean of the variances along and across the meridian) in degrees, but
89.9 at most and if there is none. -/
theorem C83_range (m : Mat n) (zen azi : Fin n) (zenith : ℝ) (hz : 0 ≤ m zen zen)
    (ha : 0 ≤ m azi azi) :
    covBound (circSigma (some m) zen azi zenith) =
        min 89.9 (2 * (Real.sqrt ((m zen zen + m azi azi * Real.sin zenith ^ 2) / 2) * 180 / Real.pi)) ∧
      0 ≤ covBound (circSigma (some m) zen azi zenith) ∧
      covBound (circSigma (none : NMat n) zen azi zenith) = 89.9 ∧
      (∀ m' : Mat n, m' zen zen < 0 ∨ m' azi azi < 0 →
        covBound (circSigma (some m') zen azi zenith) = 89.9) := by
  have e : covBound (circSigma (some m) zen azi zenith) =
      min 89.9 (2 * (Real.sqrt ((m zen zen + m azi azi * Real.sin zenith ^ 2) / 2) * 180 / Real.pi)) := by
    have hnn : 0 ≤ (m zen zen + m azi azi * Real.sin zenith ^ 2) / 2 := by positivity
    simp only [circSigma, Option.map_some, npSqrt, not_lt.mpr hz, not_lt.mpr ha, if_false,
      Real.sq_sqrt hz, Real.sq_sqrt ha, not_lt.mpr hnn, covBound]
    split
    · rename_i h; rw [min_eq_right h.le]
    · rename_i h; rw [min_eq_left (not_lt.mp h)]
  refine ⟨e, ?_, rfl, ?_⟩
  · rw [e]
    apply le_min (by norm_num)
    have := Real.pi_pos
    positivity
  · intro m' hm
    rcases hm with h | h
    · simp [circSigma, npSqrt, h, covBound]
    · simp only [circSigma, Option.map_some]
      rw [show npSqrt (some (m' azi azi)) = none by simp [npSqrt, h]]
      cases npSqrt (some (m' zen zen)) <;> rfl

/-- C83 (angles): the angles run in equal steps from zero to the largest one. -/
theorem C83_angles (upper : ℝ) (num : ℕ) (hu : 0 ≤ upper) :
    (linspace upper num).length = num ∧
      (∀ i : ℕ, i < num → (linspace upper num)[i]? = some (upper * i / (num - 1))) ∧
      (2 ≤ num → (linspace upper num)[0]? = some 0 ∧ (linspace upper num)[num - 1]? = some upper) ∧
      ∀ a ∈ linspace upper num, 0 ≤ a ∧ a ≤ upper := by
  have hget : ∀ i : ℕ, i < num → (linspace upper num)[i]? = some (upper * i / (num - 1)) := by
    intro i hi
    simp [linspace, List.getElem?_map, List.getElem?_range hi]
  refine ⟨by simp [linspace], hget, ?_, ?_⟩
  · intro h2
    constructor
    · rw [hget 0 (by omega)]; simp
    · rw [hget (num - 1) (by omega)]
      have h1 : ((num - 1 : ℕ) : ℝ) = (num : ℝ) - 1 := by
        rw [Nat.cast_sub (by omega)]; simp
      have h3 : (num : ℝ) - 1 ≠ 0 := by
        have : (2 : ℝ) ≤ num := by exact_mod_cast h2
        intro h; linarith
      rw [h1, mul_div_assoc, div_self h3, mul_one]
  · intro a ha
    obtain ⟨i, hi, rfl⟩ := List.mem_map.mp ha
    have hi' := List.mem_range.mp hi
    rcases Nat.lt_or_ge num 2 with h | h
    · have : i = 0 := by omega
      subst this
      simpa using hu
    · have h2 : (2 : ℝ) ≤ num := by exact_mod_cast h
      have h1 : (i : ℝ) ≤ (num : ℝ) - 1 := by
        have : (i : ℝ) + 1 ≤ num := by exact_mod_cast hi'
        linarith
      have h3 : (0 : ℝ) < (num : ℝ) - 1 := by linarith
      constructor
      · positivity
      · rw [div_le_iff₀ h3]
        exact mul_le_mul_of_nonneg_left h1 hu

/-- The hypotheses of C83 are met: a parabola of width 2 at the angles 0, 1 and 2 has an estimate
with four parameters. -/
example : IsEstimate 4 (parabola 2 [0, 1, 2]) 2 :=
  (C83_four_partial 2 (by norm_num) [0, 1, 2] ⟨1, by simp, by norm_num⟩ 2).mpr (by norm_num)

end Verif.Uncert
