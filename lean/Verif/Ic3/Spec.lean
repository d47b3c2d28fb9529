import Verif.Ic3.Model

/-!
# Specification for C109 and C110
-/

namespace Verif.Ic3
open Verif.Py Verif.Reco

variable {V : Type}

/-- The modules of the tray, in the order in which they are run. -/
def modulesOf (P : Params) : List String :=
  P.seeds.list.map (fun s => "reco_" ++ s) ++ ["reco"] ++
    (if P.addCov then ["covariance"] else []) ++ (if P.addGof then ["GoodnessOfFit"] else []) ++
    (if P.addCirc then ["CircularizedAngularUncertainty"] else [])

/-- A parameter is to be fitted. -/
def Fitted (P : Params) (n : String) : Prop := (Dict.get? P.fitDict n).getD P.fitDefault = true

/-- An attribute of the particle is mapped to a parameter of the model. -/
def Mapped (M : Manager) (key : String) : Prop :=
  ∃ m p, M.mapping = some m ∧ Dict.get? m key = some p ∧ p ∈ M.names

/-- Settings that the module accepts for a manager. -/
structure Accepted (P : Params) (M : Manager) : Prop where
  logs : M.names.length ≤ M.logs.length
  fit : ∀ n ∈ Dict.keys P.fitDict, n ∈ M.names
  once : P.seeds.list.Nodup
  seeds : ∀ s ∈ P.seeds.list, s ∈ M.tensors ∧
    Tray.lower P.interface ∈ ["scipy", "shog", "tfp", "spherical_opt"]
  cov : P.addCov = true → ∀ n ∈ M.names, Fitted P n
  gof : P.addGof = true →
    (∀ k ∈ Dict.keys P.gof, k ∈ ["scipy_optimizer_settings", "num_samples", "reconstruct_samples",
      "add_per_dom_calculation", "normalize_by_total_charge", "random_seed"]) ∧
    (∀ t ∈ ["x_pulses", "x_pulses_ids", "x_dom_charge"], t ∈ M.tensors) ∧ "time" ∈ M.names
  circ : P.addCirc = true → Mapped M "zenith" ∧ Mapped M "azimuth"

/-- `results[m][k]` is `v`. -/
def Entry (r : Results V) (m k : String) (v : V) : Prop :=
  ∃ d, Dict.get? r m = some d ∧ Dict.get? d k = some v

/-- The covariance matrix that is used further: that of the fit `o`, if covariances are computed. -/
def CovUsed (B : Bodies V) (P : Params) (o : FitOut V) (c : Option V) : Prop :=
  if P.addCov then ∃ m, B.cov o.result o.trafo o.obj = .ok m ∧ c = some m.covSand else c = none

/-- The results are a report of the fit `o` from the seed `s`: the best fit, its losses, and all
uncertainties and qualities are those of `o`. -/
structure Report (B : Bodies V) (P : Params) (r : Results V) (s : String) (o : FitOut V) : Prop where
  fit : B.fit s = .ok o
  result : Entry r "reco" "result" o.result
  trafo : Entry r "reco" "result_trafo" o.trafo
  obj : Entry r "reco" "result_object" o.obj
  lossSeed : Entry r "reco" "loss_seed" o.lossSeed
  lossReco : Entry r "reco" "loss_reco" o.lossReco
  seed : Entry r "reco" "seed_tensor_name" (B.str s)
  cov : P.addCov = true → ∃ m, B.cov o.result o.trafo o.obj = .ok m ∧
    Entry r "covariance" "cov" m.cov ∧ Entry r "covariance" "cov_sand" m.covSand ∧
    Entry r "covariance" "cov_trafo" m.covTrafo ∧ Entry r "covariance" "cov_sand_trafo" m.covSandTrafo ∧
    ∀ a b c e, m.fit = some (a, b, c, e) →
      Entry r "covariance" "cov_fit" a ∧ Entry r "covariance" "cov_sand_fit" b ∧
      Entry r "covariance" "cov_fit_trafo" c ∧ Entry r "covariance" "cov_sand_fit_trafo" e
  gof : P.addGof = true → ∃ c g, CovUsed B P o c ∧ B.gof o.trafo o.result c = .ok g ∧
    Entry r "GoodnessOfFit" "event_p_value_1sided" g.p1 ∧
    Entry r "GoodnessOfFit" "event_p_value_2sided" g.p2 ∧
    Entry r "GoodnessOfFit" "loss_sample_min" g.min ∧
    Entry r "GoodnessOfFit" "loss_sample_max" g.max ∧
    Entry r "GoodnessOfFit" "loss_sample_mean" g.mean ∧
    Entry r "GoodnessOfFit" "loss_sample_median" g.median ∧
    Entry r "GoodnessOfFit" "loss_sample_std" g.std ∧
    Entry r "GoodnessOfFit" "loss_data_fit" g.fit ∧
    (Dict.get? P.gof "reconstruct_samples" = none ∨
      (∃ v, Dict.get? P.gof "reconstruct_samples" = some v ∧ v.truth = true) →
      Entry r "GoodnessOfFit" "sample_reco_bias" g.recos.2.1 ∧
      Entry r "GoodnessOfFit" "sample_reco_cov" g.recos.2.2) ∧
    (Dict.get? P.gof "add_per_dom_calculation" = none ∨
      (∃ v, Dict.get? P.gof "add_per_dom_calculation" = some v ∧ v.truth = true) →
      Entry r "GoodnessOfFit" "dom_p_value1" g.dom.1 ∧
      Entry r "GoodnessOfFit" "dom_p_value2" g.dom.2)
  circ : P.addCirc = true → ∃ c u, CovUsed B P o c ∧ B.circ o.trafo o.result c = .ok u ∧
    Entry r "CircularizedAngularUncertainty" "circular_unc" u.unc ∧
    Entry r "CircularizedAngularUncertainty" "circular_unc_deg" u.uncDeg

/-- The computations of the modules raise no exception. -/
structure Works (B : Bodies V) : Prop where
  fit : ∀ s, ∃ o, B.fit s = .ok o
  cov : ∀ a b c, ∃ o, B.cov a b c = .ok o
  gof : ∀ a b c, ∃ o, B.gof a b c = .ok o
  circ : ∀ a b c, ∃ o, B.circ a b c = .ok o

end Verif.Ic3
