/-
Model of the uncertainties of a reconstruction: covariance matrices
(`manager/reconstruction/modules/covariance.py`, the derivatives of `manager/source.py`), Markov
chains (`manager/reconstruction/modules/mcmc.py`, `manager/source.py:run_mcmc_on_events`) and the
circularised uncertainty (`manager/reconstruction/modules/opening_angle.py`). Floating point
numbers are real numbers; derivatives, inverse matrices, the chi² distribution, the sampler of
tensorflow_probability and the minimizer of scipy are given by their definition or contract.
-/
import Mathlib.LinearAlgebra.Matrix.NonsingularInverse
import Mathlib.Analysis.Calculus.Deriv.Basic
import Mathlib.Analysis.SpecialFunctions.Gamma.Basic
import Mathlib.MeasureTheory.Integral.IntervalIntegral.Basic
import Verif.Py.Dict
import Verif.Dist.Model

namespace Verif.Uncert
open Verif.Py

/-! ### Derivatives of the loss -/

/-- The parameters of one event. -/
abbrev Vec (n : ℕ) := Fin n → ℝ

/-- A matrix over the parameters. -/
abbrev Mat (n : ℕ) := Matrix (Fin n) (Fin n) ℝ

variable {n : ℕ}

/-- The tangent of a parameter (manager/source.py:376-379). -/
def tangent (i : Fin n) : Vec n := fun k => if k = i then 1 else 0

/-- `acc.jvp` (manager/source.py:381-397), and the gradients of tensorflow: the derivative at a
point along a vector. -/
noncomputable def jvp (f : Vec n → ℝ) (p v : Vec n) : ℝ := deriv (fun s : ℝ => f (p + s • v)) 0

/-- The loss as function of the transformed parameters: `inverse_transform`
(data/trafo.py:421-463) is the affine map with `scale` (`norm_constant + std`) and `mean`, followed
by `unlog`, which undoes the logarithm of a parameter and is the identity for the others. -/
def inTrafo (loss : Vec n → ℝ) (unlog : Fin n → ℝ → ℝ) (scale mean : Vec n) : Vec n → ℝ :=
  fun t => loss fun i => unlog i (scale i * t i + mean i)

/-- `opg_estimate_function` (manager/source.py:359-408): the tensors of loss terms are flattened and
joined, the products of their derivatives summed over the terms. -/
noncomputable def opgEstimate (tensors : List (List (Vec n → ℝ))) (p : Vec n) : Mat n :=
  (tensors.flatten.map fun f =>
    (Matrix.of fun i j => jvp f p (tangent i) * jvp f p (tangent j) : Mat n)).sum

/-- `tf.hessians` (manager/source.py:468). -/
noncomputable def hessians (loss : Vec n → ℝ) (p : Vec n) : Mat n :=
  Matrix.of fun i j => jvp (fun q => jvp loss q (tangent i)) p (tangent j)

/-- What `tf.squeeze` leaves of the Hessian (manager/source.py:473-474): with one parameter all
dimensions have size one and a number is left. -/
inductive Squeezed (n : ℕ)
  | number
  | matrix (m : Mat n)

/-- `hessian_function` (manager/source.py:453-476) for `batch` events. -/
noncomputable def hessianFunction (batch : ℕ) (loss : Vec n → ℝ) (p : Vec n) :
    Except Err (Squeezed n) :=
  if batch ≠ 1 then .error .valueError
  else if n = 1 then .ok .number
  else .ok (.matrix (hessians loss p))

/-! ### Covariance matrices -/

/-- A matrix whose entries are all `nan` is `none`. -/
abbrev NMat (n : ℕ) := Option (Mat n)

/-- `np.matmul` of two matrices; a factor of `nan` makes the product `nan`. -/
def matmul : NMat n → NMat n → NMat n
  | some a, some b => some (a * b)
  | _, _ => none

/-- The inverse of the Hessian (modules/covariance.py:124-130); numpy raises `LinAlgError` for
singular matrices, which is caught. -/
noncomputable def invOrNan (h : Mat n) : NMat n := if h.det = 0 then none else some h⁻¹

/-- `inverse_transform_cov` (data/trafo.py:488-510) with `scale` = `norm_constant + std`. -/
def inverseCov (scale : Vec n) (cov : NMat n) : NMat n :=
  matmul (matmul (some (Matrix.diagonal scale)) cov) (some (Matrix.diagonal scale))

/-- The check at the start of `__init__` (modules/covariance.py:41-43). -/
def covarianceInit (fit : List Bool) : Except Err Unit :=
  if fit.all id then .ok () else .error .notImplementedError

/-- The entries that are added if the optimizer gives an inverse Hessian
(modules/covariance.py:134-140, 151-159, 167-173). -/
def fitEntries (scale : Vec n) (opg hessInv : Mat n) : Dict String (NMat n) :=
  let sand := matmul (matmul (some hessInv) (some opg)) (some hessInv)
  [("cov_fit", inverseCov scale (some hessInv)),
   ("cov_sand_fit", inverseCov scale sand),
   ("cov_fit_trafo", some hessInv),
   ("cov_sand_fit_trafo", sand)]

/-- The rest of `execute` (modules/covariance.py:124-175), given Hessian, products of gradients and
`hess_inv` of the optimizer's result. A number instead of a matrix fails in `np.matmul`, after
`np.linalg.inv` failed with the exception that is caught. Outside the transformed space `cov` is
never assigned. -/
noncomputable def covarianceOf (useTrafo : Bool) (scale : Vec n) (opg : Mat n)
    (hessInv : Option (Mat n)) : Squeezed n → Except Err (Dict String (NMat n))
  | .number => .error .valueError
  | .matrix h =>
    let covTrafo := invOrNan h
    let sandTrafo := matmul (matmul covTrafo (some opg)) covTrafo
    if useTrafo then
      .ok (Dict.update
        [("cov", inverseCov scale covTrafo), ("cov_sand", inverseCov scale sandTrafo),
         ("cov_trafo", covTrafo), ("cov_sand_trafo", sandTrafo)]
        (match hessInv with
         | none => []
         | some m => fitEntries scale opg m))
    else .error .nameError

/-- `execute` (modules/covariance.py:93-175) for one event with the best fit `t` in the space of the
minimizer. `loss` and `tensors` are functions of the parameters in that space. -/
noncomputable def covariance (useTrafo : Bool) (scale : Vec n) (loss : Vec n → ℝ)
    (tensors : List (List (Vec n → ℝ))) (hessInv : Option (Mat n)) (batch : ℕ) (t : Vec n) :
    Except Err (Dict String (NMat n)) :=
  match hessianFunction batch loss t with
  | .error e => .error e
  | .ok h => covarianceOf useTrafo scale (opgEstimate tensors t) hessInv h

/-! ### Markov chains -/

/-- The methods (manager/source.py:1191-1214). -/
inductive Method
  | hmc
  | nuts
  | randomWalk
  | unknown
  deriving DecidableEq

/-- The step sizes (manager/source.py:1167-1173): the list of lists has one element. -/
noncomputable def stepSizes (m : Method) (numParams : ℕ) : List ℝ :=
  if numParams ≠ 1 then List.replicate numParams 0.1
  else if m = .hmc then [0.1, 0.1, 0.1, 0.01, 0.02, 10, 1]
  else [0.5, 0.5, 0.5, 0.02, 0.02, 10, 1]

/-- The loop over `trafo_log` (manager/source.py:1181-1185). -/
noncomputable def logSteps : List Bool → ℕ → List ℝ → Except Err (List ℝ)
  | [], _, steps => .ok steps
  | b :: logs, i, steps =>
    if b then
      if i ≠ 5 then .error .notImplementedError
      else if i < steps.length then logSteps logs (i + 1) (steps.set i 0.01)
      else .error .indexError
    else logSteps logs (i + 1) steps

/-- `step_size /= std` (manager/source.py:1186), in place. -/
noncomputable def divStd (steps std : List ℝ) : Except Err (List ℝ) :=
  if std.length = steps.length then .ok (List.zipWith (· / ·) steps std)
  else match std with
    | [s] => .ok (steps.map (· / s))
    | _ => .error .valueError

/-- The scaled step sizes (manager/source.py:1180-1186). -/
noncomputable def scaledSteps (useTrafo : Bool) (logs : List Bool) (std steps : List ℝ) :
    Except Err (List ℝ) :=
  if useTrafo then
    match logSteps logs 0 steps with
    | .error e => .error e
    | .ok steps => divStd steps std
  else .ok steps

/-- The step sizes given to the kernel (manager/source.py:1167-1189); `numFit` is the length of
`fit_paramater_list`. -/
noncomputable def kernelSteps (m : Method) (useTrafo : Bool) (logs : List Bool) (std : List ℝ)
    (numParams numFit : ℕ) : Except Err (List ℝ) :=
  match scaledSteps useTrafo logs std (stepSizes m numParams) with
  | .error e => .error e
  | .ok steps =>
    if steps.length ≠ numFit then .error .valueError
    else if m = .unknown then .error .valueError
    else .ok steps

/-- A state of a chain after a step: position, whether the step was accepted and the traced
logarithm of the probability (manager/source.py:1217-1230). -/
structure State where
  pos : List ℝ
  accepted : Bool
  logProb : ℝ

/-- `tfp.mcmc.sample_chain` (manager/source.py:1234-1242): given the first positions of the chains,
the logarithm of the probability and the step sizes, the states of all chains for every result. -/
abbrev Sampler := List (List ℝ) → (List ℝ → ℝ) → List ℝ → List (List State)

/-- The settings of a chain. -/
structure Mcmc where
  method : Method
  useTrafo : Bool
  fit : List Bool
  /-- `trafo_log` of the parameters -/
  logs : List Bool
  std : List ℝ
  chains : ℕ

/-- `unnormalized_log_prob` for one chain (manager/source.py:1154-1164). -/
def logProb (loss : List ℝ → ℝ) (x : List ℝ) : ℝ := -loss x

/-- `samples[accepted]` and `log_prob_values[accepted]` (modules/mcmc.py:192-193). -/
def selectAccepted {α : Type} (f : State → α) (states : List (List State)) : List α :=
  (states.flatten.filter (·.accepted)).map f

/-- `MarkovChainMonteCarlo.execute` with `run_mcmc_on_events` (modules/mcmc.py:141-209,
manager/source.py:1150-1253): the samples and their logarithms of the probability. `results` is the
best fit, `inv` the inverse transformation, `loss` the loss of the space of the chain. The message
with the step sizes has seven fields (modules/mcmc.py:198-200). -/
noncomputable def mcmc (c : Mcmc) (inv : List ℝ → List ℝ) (loss : List ℝ → ℝ) (sampler : Sampler)
    (results : List (List ℝ)) : Except Err (List (List ℝ) × List ℝ) :=
  match results with
  | [result] =>
    if result.length ≠ c.fit.length then .error .valueError
    else if c.fit.count true ≠ c.fit.length then .error .valueError
    else
      match kernelSteps c.method c.useTrafo c.logs c.std c.fit.length c.fit.length with
      | .error e => .error e
      | .ok steps =>
        let states := sampler (List.replicate c.chains result) (logProb loss) steps
        if c.method = .hmc ∧ c.fit.length < 7 then .error .indexError
        else .ok (selectAccepted (fun s => if c.useTrafo then inv s.pos else s.pos) states,
          selectAccepted (fun s => s.logProb) states)
  | _ => .error .assertionError

/-! ### Circularised uncertainty -/

/-- The distribution function of chi² with `k` degrees of freedom, `scipy.stats.chi2(k).cdf`. -/
noncomputable def chi2Cdf (k : ℕ) (x : ℝ) : ℝ :=
  (∫ t in (0 : ℝ)..(max x 0 / 2), t ^ ((k : ℝ) / 2 - 1) * Real.exp (-t)) / Real.Gamma ((k : ℝ) / 2)

/-- `ddof` (modules/opening_angle.py:197). -/
def ddof (numParams : ℕ) : ℕ := numParams - 2

/-- `loss_cdf` with the values of the distribution function
(modules/opening_angle.py:346-352). -/
noncomputable def lossCdf (k : ℕ) (points : List (ℝ × ℝ)) (sigma : ℝ) : ℝ :=
  (points.map fun p => (chi2Cdf k (2 * p.2) - Dist.rayleighCdf p.1 sigma) ^ 2).sum

/-- `optimize.minimize` in `get_circularized_estimate` (modules/opening_angle.py:354-356): `s` is
a result if it is a minimum over all widths. `points` are opening angles and differences of the
loss. -/
def IsEstimate (numParams : ℕ) (points : List (ℝ × ℝ)) (s : ℝ) : Prop :=
  s ≠ 0 ∧ ∀ s', s' ≠ 0 → lossCdf (ddof numParams) points s ≤ lossCdf (ddof numParams) points s'

/-- A square root of numpy: `nan` for negative numbers. -/
noncomputable def npSqrt (x : Option ℝ) : Option ℝ :=
  match x with
  | none => none
  | some x => if x < 0 then none else some (Real.sqrt x)

/-- `circ_sigma` (modules/opening_angle.py:272-276). -/
noncomputable def circSigma (cov : NMat n) (zenIndex aziIndex : Fin n) (zenith : ℝ) : Option ℝ :=
  match npSqrt (cov.map fun m => m zenIndex zenIndex), npSqrt (cov.map fun m => m aziIndex aziIndex) with
  | some sz, some sa => npSqrt (some ((sz ^ 2 + sa ^ 2 * Real.sin zenith ^ 2) / 2))
  | _, _ => none

/-- `unc_upper_bound` with a covariance matrix (modules/opening_angle.py:278): `min` keeps its first
argument unless the second is smaller, which `nan` never is. -/
noncomputable def covBound (sigma : Option ℝ) : ℝ :=
  match sigma with
  | none => 89.9
  | some s => if 2 * (s * 180 / Real.pi) < 89.9 then 2 * (s * 180 / Real.pi) else 89.9

/-- `np.linspace(0, upper, num)` (modules/opening_angle.py:294). -/
noncomputable def linspace (upper : ℝ) (num : ℕ) : List ℝ :=
  (List.range num).map fun i : ℕ => upper * (i : ℝ) / ((num : ℝ) - 1)

end Verif.Uncert
