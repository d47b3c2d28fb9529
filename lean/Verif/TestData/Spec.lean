import Verif.TestData.Model

/-!
# Specification for C89 to C93
-/

namespace Verif.TestData
open Verif.Py

/-! ## The modules a tray should have -/

/-- The fits for one seed: without random seeds just one; with random seeds, one from each of them,
the best of which is fitted again, and the one from the seed itself. -/
def planSeed (numRandom : Option Nat) (seed : String) : Steps :=
  match numRandom with
  | none => [("reco_" ++ seed, .fit seed false false)]
  | some k =>
    ((List.range k).map fun i => (randomName i seed, Step.fit seed false true)) ++
    [("sel_reco_random", .select ((List.range k).map fun i => randomName i seed)),
     ("reco_random_" ++ seed, .fit "sel_reco_random" true false),
     ("reco_" ++ seed, .fit seed false false)]

/-- The fits of a seed among which the best one is chosen. -/
def candidates (numRandom : Option Nat) (seed : String) : List String :=
  match numRandom with
  | none => ["reco_" ++ seed]
  | some _ => ["reco_" ++ seed, "reco_random_" ++ seed]

/-- The modules on request, all of which use the chosen fit, and the covariance matrix if there is
one. -/
def extras (c : Config) : Steps :=
  (if c.covariance then [("covariance", Step.covariance "reco")] else []) ++
  (if c.gof then [("GoodnessOfFit",
    Step.gof "reco" (if c.covariance then some "covariance" else none))] else []) ++
  (if c.circular then [("CircularizedAngularUncertainty",
    Step.circular "reco" (if c.covariance then some "covariance" else none))] else []) ++
  (if c.mcmc then [("mcmc", Step.mcmc "reco")] else []) ++
  (if c.scans then [("visualization", Step.scan "reco")] else [])

/-- All modules. -/
def plan (c : Config) : Steps :=
  c.seed.names.flatMap (planSeed c.numRandom) ++
  [("reco", .select (c.seed.names.flatMap (candidates c.numRandom)))] ++ extras c

/-- The tensors that are looked up by a module. -/
def Step.needs : Step → List String
  | .fit seed false _ => [seed]
  | _ => []

/-! ## The table -/

/-- The names of all columns of a table. -/
def columnNames (c : Config) (names : List String) (samples : Bool) : List String :=
  names.flatMap (fun p => [p, p ++ "_reco", p ++ "_seed"]) ++
  (if c.covariance then
    names.flatMap (fun p => [p ++ "_unc", p ++ "_unc_fit", p ++ "_unc_sandwhich",
      p ++ "_unc_sandwhich_fit"]) ++ ["cov_zenith_azimuth", "cov_fit_zenith_azimuth"] else []) ++
  (if c.circular then ["circular_unc"] else []) ++
  (if c.gof then ["event_p_value_1sided", "event_p_value_2sided"] ++
    (if samples then names.flatMap (fun p => [p ++ "_unc_samples", p ++ "_sample_reco_bias"])
      else []) else []) ++
  ["loss_true", "loss_reco", "loss_seed"]

/-- Some result that is computed once per batch is asked for. -/
def Config.perBatch (c : Config) : Bool := c.covariance || c.gof || c.circular

/-- A batch for which everything is there: `S` and `T` are the rows of the seed and of the true
parameters; there is an event, and as many rows of each kind. -/
structure Complete (c : Config) (param : String) (n : Nat) (S T : Batch → List Row) (b : Batch) :
    Prop where
  seed : seedRows c b = .ok (S b)
  truth : b.tensor param = .ok (T b)
  some : T b ≠ []
  seeds : (S b).length = (T b).length
  recos : b.reco.length = (T b).length
  width : ∀ r, r ∈ T b ∨ r ∈ S b ∨ r ∈ b.reco → r.length = n

/-- Batches for which a table can be written: there is one, all are complete; there are no scans, no
sample of a Markov chain is accepted for the first batch; batches have one event if something is
computed once per batch, and the results have an entry for each parameter; the names of the columns
are distinct. -/
structure Fine (c : Config) (param : String) (names : List String) (S T : Batch → List Row)
    (samples : Bool) (bs : List Batch) : Prop where
  ne : bs ≠ []
  complete : ∀ b ∈ bs, Complete c param names.length S T b
  noScans : c.scans = false
  noSamples : c.mcmc = true → ∀ b ∈ bs.head?, b.accepted = 0
  one : c.perBatch = true → ∀ b ∈ bs, (T b).length = 1
  cov : c.covariance = true → ∀ b ∈ bs, b.cov.std.length = names.length ∧
    b.cov.stdFit.length = names.length ∧ b.cov.stdSand.length = names.length ∧
    b.cov.stdSandFit.length = names.length
  gof : c.gof = true → ∀ b ∈ bs, ∀ p, b.gof.samples = Option.some p →
    p.1.length = names.length ∧ p.2.length = names.length
  same : ∀ b ∈ bs, b.gof.samples.isSome = samples
  distinct : (columnNames c names samples).Nodup

end Verif.TestData
