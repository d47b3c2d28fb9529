/-
Specification for C61, C74 and C75.
-/
import Verif.Output.Model

namespace Verif.Output
open Verif.Py

/-- The matrix has the entry `x` in row `i` and column `j`. -/
def At (cov : List (List ℝ)) (i j : ℕ) (x : ℝ) : Prop := ∃ row, cov[i]? = some row ∧ row[j]? = some x

/-- The matrix has an entry for every pair of parameters. -/
def Complete (n : ℕ) (cov : List (List ℝ)) : Prop := ∀ i j, i < n → j < n → ∃ x, At cov i j x

/-- The name under which a parameter is written. -/
def Named (logs : List String) (n s : String) : Prop := (n ∈ logs ∧ s = "log_" ++ n) ∨ (n ∉ logs ∧ s = n)

/-- The key of the entry in row `i` and column `j`: the names of the parameters, joined by an
underscore. -/
def Key (names logs : List String) (i j : ℕ) (key : String) : Prop :=
  ∃ a b sa sb, names[i]? = some a ∧ names[j]? = some b ∧ Named logs a sa ∧ Named logs b sb ∧
    key = sa ++ "_" ++ sb

/-- Different entries on or above the diagonal have different keys. -/
def DistinctKeys (names logs : List String) : Prop :=
  ∀ i j i' j' key, i ≤ j → i' ≤ j' → Key names logs i j key → Key names logs i' j' key →
    i = i' ∧ j = j'

/-- The matrix is written completely: every entry on or above the diagonal under its key, nothing else,
one entry of the dictionary for each entry of the triangle. -/
def WrittenCompletely (names logs : List String) (cov : List (List ℝ)) (d : Dict String ℝ) : Prop :=
  (∀ i j key x, i ≤ j → Key names logs i j key → At cov i j x → Dict.get? d key = some x) ∧
  (∀ key x, Dict.get? d key = some x → ∃ i j, i ≤ j ∧ Key names logs i j key ∧ At cov i j x) ∧
  2 * d.length = names.length * (names.length + 1)

/-- Names the module uses for results that are not parameters, before the particle is made. -/
def ReservedBase (r : Results) (n : String) : Prop :=
  n = "minimization_success" ∨ n = "loss_reco" ∨ n = "loss_seed" ∨
  ∃ p ∈ r.runtimes, n = "runtime_" ++ p.1

/-- Names the module uses for results that are not parameters. -/
def Reserved (s : Settings) (r : Results) (n : String) : Prop :=
  ReservedBase r n ∨
  (s.addCov = true ∧ n = "runtime_covariance") ∨
  (s.addGof = true ∧ n ∈ ["goodness_of_fit_1sided", "goodness_of_fit_2sided",
    "goodness_loss_sample_min", "goodness_loss_sample_max", "goodness_loss_sample_mean",
    "goodness_loss_sample_median", "goodness_loss_sample_std", "goodness_loss_data_fit"]) ∨
  (s.addGof = true ∧ s.recoSamples = true ∧ ∃ a ∈ s.names, n = a ++ "_sample_reco_bias") ∨
  (s.addCirc = true ∧ (n = "circular_unc" ∨ n = "runtime_circular_err"))

/-- The fitted value of a parameter. -/
def Fitted (s : Settings) (r : Results) (n : String) (v : ℝ) : Prop :=
  ∃ i : ℕ, s.names[i]? = some n ∧ r.best[i]? = some v

/-- The particle has the fitted values in the attributes the mapping names. -/
def ParticleOk (s : Settings) (r : Results) (mapping : Dict String String) (p : Particle) : Prop :=
  ∀ key param v, (key, param) ∈ mapping → Fitted s r param v → ¬ ReservedBase r param →
    (key ∈ ["x", "y", "z"] → Dict.get? p.pos key = some v) ∧
    (key = "zenith" → ∃ a, p.dir = some (v, a)) ∧
    (key = "azimuth" → ∃ z, p.dir = some (z, v)) ∧
    (key ∉ ["x", "y", "z", "zenith", "azimuth"] → Dict.get? p.attrs key = some v)

/-- The values per DOM by `OMKey`, which counts from one. -/
def DomsOk (v : ℕ → ℕ → ℝ) (d : Dict (ℕ × ℕ) ℝ) : Prop :=
  ∀ s o x, Dict.get? d (s, o) = some x ↔ (1 ≤ s ∧ s ≤ 86) ∧ (1 ≤ o ∧ o ≤ 60) ∧ x = v (s - 1) (o - 1)

/-- The keys of the frame the module writes. -/
def frameKeys (s : Settings) (r : Results) : List String :=
  [s.outputKey] ++
  (if s.mapping.getD [] = [] then [] else [s.outputKey ++ "_I3Particle"]) ++
  (if s.addCov then r.covs.map (fun p => s.outputKey ++ "_cov_matrix_" ++ p.1) else []) ++
  (if s.addGof then
    (if s.recoSamples then [s.outputKey ++ "_cov_matrix_goodness_of_fit"] else []) ++
    (if s.perDom then [s.outputKey ++ "_GoodnessOfFit_1sided", s.outputKey ++ "_GoodnessOfFit_2sided"]
      else [])
   else [])

/-- The mapping can be filled: all parameters exist, the direction has both angles. -/
def MappingOk (s : Settings) : Prop :=
  ∀ m, s.mapping = some m → (∀ p ∈ m, p.2 ∈ s.names) ∧
    ((∃ v, Dict.get? m "zenith" = some v) ↔ ∃ v, Dict.get? m "azimuth" = some v)

/-- Results of the tray for this model: a value for each parameter, complete matrices. -/
def ResultsOk (s : Settings) (r : Results) : Prop :=
  r.best.length = s.names.length ∧
  (∀ p ∈ r.covs, Complete s.names.length p.2) ∧
  (s.addGof = true → s.recoSamples = true → Complete s.names.length r.gof.cov ∧
    r.gof.bias.length = s.names.length)

/-- The list of fitted parameters: the given value for named parameters, the default for the others. -/
def FitOk (names : List String) (default : Bool) (fit : Dict String Bool) (l : List Bool) : Prop :=
  l.length = names.length ∧
  ∀ (i : ℕ) (n : String), names[i]? = some n → l[i]? = some ((Dict.get? fit n).getD default)

end Verif.Output
