import Verif.Tray.Lemmas
import Verif.Reco.Props

/-!
# C104 and C105: functions shared by modules, and likelihood scans

C104: every module of a tray works with the functions it would have alone, whatever modules were
added before, and no function is created twice.

C105: for each event and parameter, the scan stores a figure of the loss in dependence of that
parameter, around the true and around the reconstructed event. Holds if all parameters are fitted
in transformed space and the module is not part of a tray.
-/

namespace Verif.Tray
open Verif.Py Verif.Reco

/-! ## C104 -/

/-- In a tray with any modules, a further module gets the functions it would get in a tray of its
own, or raises the same exception. -/
theorem C104_alone {F : Type} (create : Getter → Settings → F) (ms : List ModuleArgs)
    (m : ModuleArgs) :
    (initModule create (State.after create ms) m).1 = alone create m :=
  (init_spec (inv_after create ms) m).1

/-- No function is created twice. -/
theorem C104_once {F : Type} (create : Getter → Settings → F) (ms : List ModuleArgs) :
    (State.after create ms).made.Nodup :=
  (inv_after create ms).nodup

/-- A reconstruction evaluates losses for all parameters in their own space, and fits those that are
to be fitted in the space it was told. -/
theorem C104_reconstruction {F : Type} (create : Getter → Settings → F) (fit : List Bool)
    (trafo : Bool) (param i : String) :
    (lower i ∈ ["scipy", "shog", "tfp"] →
      alone create (.reconstruction fit trafo param i) = .ok
        [create .loss (.fn fit.length none (List.replicate fit.length true) false none param []),
          create .lossGrad (.fn (fit.count true) (some fit.length) fit trafo none param [])]) ∧
    (lower i = "spherical_opt" → alone create (.reconstruction fit trafo param i) = .ok
      [create .loss (.fn fit.length none (List.replicate fit.length true) false none param []),
        create .lossGrad (.fn (fit.count true) (some fit.length) fit trafo none param []),
        create .loss (.fn (fit.count true) (some fit.length) fit trafo none param [])]) ∧
    (lower i ∉ ["scipy", "shog", "tfp", "spherical_opt"] →
      alone create (.reconstruction fit trafo param i) = .error .valueError) := by
  have hc : numFit fit = fit.count true := by
    unfold numFit
    rw [List.count_eq_countP, List.countP_eq_length_filter]
    congr 1
    apply List.filter_congr
    intro b _
    cases b <;> rfl
  have ha : (fit.map fun _ => true) = List.replicate fit.length true := by
    rw [List.map_const']
  have key : ∀ rs : List (Getter × Settings),
      ∃ st, requests create (State.new F) rs = (.ok (rs.map fun r => create r.1 r.2), st) := by
    intro rs
    obtain ⟨st, h, _⟩ := requests_spec rs (inv_new create)
    exact ⟨st, h⟩
  refine ⟨?_, ?_, ?_⟩
  · intro hi
    have hl : lower i = "scipy" ∨ lower i = "shog" ∨ lower i = "tfp" := by simpa using hi
    simp only [alone, initModule, initReconstruction]
    rw [if_pos hl]
    obtain ⟨st, h⟩ := key
      [(Getter.loss, Settings.fn fit.length none (fit.map fun _ => true) false none param []),
        (.lossGrad, settings3 fit trafo param)]
    rw [h, ha]
    simp [settings3, hc]
  · intro hi
    simp only [alone, initModule, initReconstruction]
    rw [if_neg (by rw [hi]; decide), if_pos hi]
    obtain ⟨st, h⟩ := key
      ([(Getter.loss, Settings.fn fit.length none (fit.map fun _ => true) false none param []),
        (.lossGrad, settings3 fit trafo param)] ++ [(.loss, settings3 fit trafo param)])
    rw [h, ha]
    simp [settings3, hc]
  · intro hi
    simp only [List.mem_cons, List.not_mem_nil, or_false, not_or] at hi
    simp only [alone, initModule, initReconstruction]
    rw [if_neg (by simp [hi]), if_neg (by simp [hi])]
    obtain ⟨st, h⟩ := key
      [(Getter.loss, Settings.fn fit.length none (fit.map fun _ => true) false none param []),
        (.lossGrad, settings3 fit trafo param)]
    rw [h]

/-- The circularised uncertainty compares losses of all parameters with losses of fits in which
zenith and azimuth are kept. -/
theorem C104_circular {F : Type} (create : Getter → Settings → F) (fit : List Bool)
    (trafo : Bool) (param : String) (z a : Nat) (hz : z < fit.length) (ha : a < fit.length) :
    alone create (.circular fit trafo param z a) = .ok
      [create .loss (.fn (fit.count true) (some fit.length) fit trafo none param []),
        create .lossGrad (.fn (((fit.set z false).set a false).count true) (some fit.length)
          ((fit.set z false).set a false) trafo none param []),
        create .loss (.fn (((fit.set z false).set a false).count true) (some fit.length)
          ((fit.set z false).set a false) trafo none param [])] := by
  have hc : ∀ f : List Bool, numFit f = f.count true := by
    intro f
    unfold numFit
    rw [List.count_eq_countP, List.countP_eq_length_filter]
    congr 1
    apply List.filter_congr
    intro b _
    cases b <;> rfl
  have e1 : clear fit z = .ok (fit.set z false) := by unfold clear; rw [if_pos hz]
  have e2 : clear (fit.set z false) a = .ok ((fit.set z false).set a false) := by
    unfold clear; rw [if_pos (by simpa using ha)]
  simp only [alone, initModule, initCircular, e1, e2]
  obtain ⟨st, h, _⟩ := requests_spec
    [(.loss, settings3 fit trafo param),
      (.lossGrad, settings3 ((fit.set z false).set a false) trafo param),
      (.loss, settings3 ((fit.set z false).set a false) trafo param)] (inv_new create)
  rw [h]
  simp [settings3, hc]

/-- The other modules: the covariance matrix needs all parameters; chains and scans take the other
parameters from the named tensor; the goodness of fit has losses that are not normalised, for each
DOM if asked for. -/
theorem C104_others {F : Type} (create : Getter → Settings → F) (fit : List Bool)
    (trafo : Bool) (param seed : String) (perDom : Bool) :
    alone create (.covariance fit trafo param) =
      (if (∀ b ∈ fit, b = true) then
        .ok [create .hessian (.fn (fit.count true) (some fit.length) fit trafo none param []),
          create .opg (.fn (fit.count true) (some fit.length) fit trafo none param [])]
      else .error .notImplementedError) ∧
    alone create (.mcmc fit trafo param seed) =
      .ok [create .loss (.fn (fit.count true) none fit trafo (some seed) param [])] ∧
    alone create (.scan fit trafo param seed) =
      .ok [create .loss (.fn (fit.count true) none fit trafo (some seed) param [])] ∧
    alone create (.goodness fit trafo param perDom) =
      .ok [create .tensors (.tensors 0),
        create .loss (.fn (fit.count true) (some fit.length) fit trafo none param
          [("reduce_to_scalar", !perDom), ("sort_loss_terms", perDom),
            ("normalize_by_total_charge", false)]),
        create .lossGrad (.fn (fit.count true) (some fit.length) fit trafo none param [])] ∧
    alone create .select = .ok [] := by
  have hc : numFit fit = fit.count true := by
    unfold numFit
    rw [List.count_eq_countP, List.countP_eq_length_filter]
    congr 1
    apply List.filter_congr
    intro b _
    cases b <;> rfl
  have key : ∀ rs : List (Getter × Settings),
      (requests create (State.new F) rs).1 = .ok (rs.map fun r => create r.1 r.2) := by
    intro rs
    obtain ⟨st, h, _⟩ := requests_spec rs (inv_new create)
    rw [h]
  refine ⟨?_, ?_, ?_, ?_, rfl⟩
  · simp only [alone, initModule, initCovariance]
    have hall : (fit.all id = true) ↔ ∀ b ∈ fit, b = true := by simp
    by_cases h : fit.all id = true
    · rw [if_pos h, if_pos (hall.1 h), key]
      simp [settings3, hc]
    · rw [if_neg h, if_neg (fun g => h (hall.2 g))]
  · simp only [alone, initModule]
    rw [key]
    simp [settings2, hc]
  · simp only [alone, initModule]
    rw [key]
    simp [settings2, hc]
  · simp only [alone, initModule, initGoodness]
    rw [key]
    simp [settings3, hc]

namespace SharingEx

example : lower "SciPy" = "scipy" ∧ lower "Spherical_Opt" = "spherical_opt" := by decide

/-- Two reconstructions, a covariance matrix and a circularised uncertainty. -/
def modules : List ModuleArgs :=
  [.reconstruction [true, true, true] true "x_parameters" "scipy",
    .reconstruction [true, false, true] true "x_parameters" "spherical_opt",
    .covariance [true, true, true] true "x_parameters",
    .circular [true, true, true] true "x_parameters" 1 2]

-- nine functions are created for the ten requests
example : (State.after (fun g s => (g, s)) modules).made.length = 9 ∧
    (modules.flatMap fun m =>
      match alone (fun g s => (g, s)) m with
      | .ok fs => fs
      | .error _ => []).length = 10 := by
  constructor <;> decide

end SharingEx

/-! ## C105 -/

/-- If all parameters are fitted in transformed space, `execute` raises no exception, counts the
event, and stores for every parameter a figure of the loss around the true event `x` and around the
reconstructed one. -/
theorem C105_scan_partial (c : Scan) (num : Nat) (template : String → Nat → String)
    (seed x result : Row) (st : ScanState)
    (hall : ∀ b ∈ c.fit, b = true) (htrafo : c.trafo = true)
    (hx : x.length = c.fit.length) (hr : result.length = c.fit.length)
    (hn : c.names.length = c.fit.length)
    (hinv : ∀ i v, c.inv i (c.fwd i v) = v)
    (hfile : (c.names.map fun n => template n st.counter).Nodup) :
    ∃ st', c.execute num template seed x result st = (none, st') ∧
      st'.counter = st.counter + 1 ∧
      ∀ (i : Nat) n, c.names[i]? = some n → ∃ p xi, x[i]? = some xi ∧
        Dict.get? st'.files (template n st.counter) = some p ∧
        Shows c.loss x (mapCols c.inv result) i
          ((List.range num).map fun k : Nat =>
            c.inv i (c.fwd i xi - 1 + (k : ℝ) * (2 / ((num : ℝ) - 1)))) p := by
  have hall' : c.fit.all id = true := by simpa using hall
  have e1 : c.apply c.fwd x = .ok (mapCols c.fwd x) := by
    unfold Scan.apply; rw [if_pos hx]
  have ht : (mapCols c.fwd x).length = c.fit.length := by rw [length_mapCols, hx]
  have e2 : c.apply c.inv (mapCols c.fwd x) = .ok x := by
    unfold Scan.apply; rw [if_pos ht, mapCols_inv hinv]
  have e3 : c.apply c.inv result = .ok (mapCols c.inv result) := by
    unfold Scan.apply; rw [if_pos hr]
  -- the plots
  let plotOf : Nat → Plot := fun i =>
    ⟨(linspace (c.fwd i (x.getD i 0)) num).map fun v =>
        ⟨c.inv i v, c.loss ((mapCols c.inv result).set i (c.inv i v)), c.loss (x.set i (c.inv i v))⟩,
      c.loss x, c.loss (mapCols c.inv result), x.getD i 0, c.inv i (result.getD i 0)⟩
  have hplot : ∀ i < c.names.length,
      scanParameter c num 0 seed result (mapCols c.fwd x) (mapCols c.inv result) x (0 + i) =
        .ok (plotOf (0 + i)) := by
    intro i hi
    rw [Nat.zero_add]
    rw [hn] at hi
    have gx : x[i]? = some (x.getD i 0) := by
      rw [List.getD_eq_getElem?_getD, List.getElem?_eq_getElem (by omega)]; rfl
    have gr : result[i]? = some (result.getD i 0) := by
      rw [List.getD_eq_getElem?_getD, List.getElem?_eq_getElem (by omega)]; rfl
    rw [scanParameter_all hall' num seed hr ht hi (a := c.fwd i (x.getD i 0)) (t := x.getD i 0)
      (r := c.inv i (result.getD i 0)) (by rw [get_mapCols, gx]; rfl) gx
      (by rw [get_mapCols, gr]; rfl)]
    simp only [htrafo, if_true, plotOf, mapCols_set, mapCols_inv hinv]
  obtain ⟨d', h1, h2, _⟩ := scanLoop_ok (fun n => template n st.counter) _ plotOf c.names 0 st.files
    hplot hfile
  refine ⟨⟨d', st.counter + 1⟩, ?_, rfl, ?_⟩
  · unfold Scan.execute makeScans
    simp only [e1, e2, e3, h1]
  · intro i n hin
    have hi : i < c.names.length := by
      rw [List.getElem?_eq_some_iff] at hin; exact hin.1
    rw [hn] at hi
    have gx : x[i]? = some (x.getD i 0) := by
      rw [List.getD_eq_getElem?_getD, List.getElem?_eq_getElem (by omega)]; rfl
    have gr : result[i]? = some (result.getD i 0) := by
      rw [List.getD_eq_getElem?_getD, List.getElem?_eq_getElem (by omega)]; rfl
    refine ⟨plotOf i, x.getD i 0, gx, ?_, ?_⟩
    · have := h2 i n hin
      rwa [Nat.zero_add] at this
    · constructor
      · simp [plotOf, linspace, Function.comp_def]
      · intro q hq
        simp only [plotOf, List.mem_map] at hq
        obtain ⟨v, _, rfl⟩ := hq
        rfl
      · intro q hq
        simp only [plotOf, List.mem_map] at hq
        obtain ⟨v, _, rfl⟩ := hq
        rfl
      · rfl
      · rfl
      · exact gx
      · rw [get_mapCols, gr]; rfl

/-- Figures of earlier events stay if the template names event and parameter, also when an exception
is raised. -/
theorem C105_kept (c : Scan) (num : Nat) (template : String → Nat → String) (seed x result : Row)
    (st : ScanState)
    (hinj : ∀ n k n' k', template n k = template n' k' → k = k')
    (n : String) (k : Nat) (hk : k < st.counter) :
    Dict.get? (c.execute num template seed x result st).2.files (template n k) =
      Dict.get? st.files (template n k) := by
  have hnot : template n k ∉ c.names.map fun n => template n st.counter := by
    intro h
    rw [List.mem_map] at h
    obtain ⟨n', _, e⟩ := h
    have := hinj _ _ _ _ e
    omega
  unfold Scan.execute
  cases c.apply c.fwd x with
  | error e => rfl
  | ok truth =>
    simp only
    have key : Dict.get? (makeScans c num 0 (fun p => template p st.counter) seed result truth
        st.files).2 (template n k) = Dict.get? st.files (template n k) := by
      unfold makeScans
      cases c.apply c.inv truth with
      | error e => rfl
      | ok truthInv =>
        simp only
        cases c.apply c.inv result with
        | error e => rfl
        | ok resultInv => exact scanLoop_other _ _ _ _ _ _ hnot
    revert key
    generalize makeScans c num 0 (fun p => template p st.counter) seed result truth st.files = o
    intro key
    obtain ⟨e, d⟩ := o
    cases e <;> exact key

/-- If a parameter is not fitted, the scan of every event raises a ValueError before it writes
anything. -/
theorem C105_fixed_violated (c : Scan) (num : Nat) (template : String → Nat → String)
    (seed x result : Row) (st : ScanState)
    (hfix : ∃ b ∈ c.fit, b = false) (hr : result.length = c.fit.count true) :
    c.execute num template seed x result st = (some .valueError, st) := by
  have hall : c.fit.all id = false := by
    rw [List.all_eq_false]
    obtain ⟨b, hb, e⟩ := hfix
    exact ⟨b, hb, by simp [e]⟩
  have hlt := numFit_lt hall
  have hc : numFit c.fit = c.fit.count true := by
    unfold numFit
    rw [List.count_eq_countP, List.countP_eq_length_filter]
    congr 1
    apply List.filter_congr
    intro b _
    cases b <;> rfl
  unfold Scan.execute makeScans Scan.apply
  by_cases hx : x.length = c.fit.length
  · rw [if_pos hx]
    simp only
    rw [if_pos (by rw [length_mapCols, hx])]
    simp only
    rw [if_neg (by omega)]
  · rw [if_neg hx]

/-- If parameters are not fitted in transformed space, the scan still evaluates the loss at the
transformed values: the line for the truth is not at the loss of the true event. -/
theorem C105_space_violated : ∃ (c : Scan) (x result : Row) (d : Dict String Plot) (p : Plot),
    (∀ b ∈ c.fit, b = true) ∧ c.trafo = false ∧ (∀ i v, c.inv i (c.fwd i v) = v) ∧
    c.execute 1000 (fun n _ => n) x x result ⟨[], 0⟩ = (none, ⟨d, 1⟩) ∧
    Dict.get? d "energy" = some p ∧ p.lossTruth ≠ c.loss x ∧ p.reco ≠ result.getD 0 0 := by
  let c : Scan := ⟨[true], false, ["energy"], fun _ v => v - 1, fun _ v => v + 1, fun r => r.sum⟩
  have hall : c.fit.all id = true := rfl
  have hp := scanParameter_all (c := c) hall 1000 [3] (result := [5]) (truth := [2])
    (resultInv := [6]) (truthInv := [3]) rfl rfl (i := 0) (by decide) (a := 2) (t := 3) (r := 6)
    rfl rfl rfl
  have f1 : c.apply c.fwd [3] = .ok [2] := by
    simp only [Scan.apply, c, mapCols]; norm_num
  have f2 : c.apply c.inv [2] = .ok [3] := by
    simp only [Scan.apply, c, mapCols]; norm_num
  have f3 : c.apply c.inv [5] = .ok [6] := by
    simp only [Scan.apply, c, mapCols]; norm_num
  obtain ⟨p, hp, hl, hr⟩ : ∃ p, scanParameter c 1000 0 [3] [5] [2] [6] [3] 0 = .ok p ∧
      p.lossTruth = 2 ∧ p.reco = 6 := ⟨_, hp, by simp [c], rfl⟩
  refine ⟨c, [3], [5], [("energy", p)], p, by simp [c], rfl, by simp [c], ?_, rfl, ?_, ?_⟩
  · unfold Scan.execute makeScans
    simp only [f1, f2, f3]
    have hc : c.names = ["energy"] := rfl
    rw [hc]
    clear_value c
    rw [scanLoop, hp]
    simp only [scanLoop]
    rfl
  · rw [hl]
    simp [c]
  · rw [hr]
    norm_num

/-- With a covariance matrix, the parabolas use a module that is not imported: nothing is stored. -/
theorem C105_covariance_violated (c : Scan) (num numCov : Nat) (file : String → String)
    (seed result truth : Row) (d : Dict String Plot)
    (hall : ∀ b ∈ c.fit, b = true) (ht : truth.length = c.fit.length)
    (hr : result.length = c.fit.length) (hn : c.names.length = c.fit.length) (h0 : c.names ≠ [])
    (hc : numCov ≠ 0) :
    makeScans c num numCov file seed result truth d = (some .nameError, d) := by
  have hall' : c.fit.all id = true := by simpa using hall
  have e2 : c.apply c.inv truth = .ok (mapCols c.inv truth) := by
    unfold Scan.apply; rw [if_pos ht]
  have e3 : c.apply c.inv result = .ok (mapCols c.inv result) := by
    unfold Scan.apply; rw [if_pos hr]
  unfold makeScans
  simp only [e2, e3]
  obtain ⟨n, ns, hns⟩ := List.exists_cons_of_ne_nil h0
  have hpos : 0 < c.fit.length := by rw [← hn, hns]; simp
  have g1 : ∀ r : Row, r.length = c.fit.length → getCol r 0 = .ok (r.getD 0 0) := by
    intro r h
    unfold getCol
    rw [List.getElem?_eq_getElem (by omega)]
    simp [show 0 < r.length by omega]
  rw [hns, scanLoop]
  have : scanParameter c num numCov seed result truth (mapCols c.inv result) (mapCols c.inv truth) 0 =
      .error .nameError := by
    unfold scanParameter
    rw [g1 truth ht, g1 _ (by rw [length_mapCols, ht]), g1 _ (by rw [length_mapCols, hr]),
      lossFunction_all hall' hr, lossFunction_all hall' ht]
    simp only [bind, Except.bind]
    rw [mapM_ok (scanPoint_all hall' seed hr ht hpos)]
    simp [hc, throw, throwThe, MonadExceptOf.throw]
  rw [this]

/-- In a tray with a module that returns `None`, no event can be processed. -/
theorem C105_tray_violated {V : Type} (t : Reco.Tray V) (runtime : Nat → V)
    (hlen : t.names.length = t.modules.length)
    (m : Results V → Except Err (Option (Dict String V)))
    (hnone : ∀ r, m r = .ok none) (hm : asModule m ∈ t.modules) :
    ∃ e, t.execute runtime = .error e := by
  unfold Tray.execute
  apply runModules_error
  obtain ⟨i, hi, e⟩ := List.getElem_of_mem hm
  refine ⟨(t.names[i]'(by omega), t.modules[i]), ?_, ?_⟩
  · rw [List.mem_iff_getElem]
    exact ⟨i, by simp [hlen, hi], by simp⟩
  · intro r
    simp only [e, asModule, hnone]
    exact ⟨_, rfl⟩

namespace ScanEx

/-- Two parameters, fitted in units of ten. -/
noncomputable def scan : Scan :=
  ⟨[true, true], true, ["x", "y"], fun _ v => v / 10, fun _ v => v * 10, fun r => r.sum⟩

-- the hypotheses of `C105_scan_partial`
example : (∀ b ∈ scan.fit, b = true) ∧ scan.trafo = true ∧ scan.names.length = scan.fit.length ∧
    (∀ i v, scan.inv i (scan.fwd i v) = v) ∧
    (scan.names.map fun n => n ++ "_0").Nodup := by
  refine ⟨by simp [scan], rfl, rfl, ?_, ?_⟩
  · intro i v
    simp [scan]
  · simp [scan]

-- a template that does not name the event: the figures of the first event are replaced
example : (fun (n : String) (_ : Nat) => n) "x" 0 = (fun (n : String) (_ : Nat) => n) "x" 1 := rfl

-- the hypotheses of `C105_tray_violated`
example : asModule (fun _ : Results Nat => .ok none) ∈
    (⟨["scan"], [asModule fun _ => .ok none]⟩ : Reco.Tray Nat).modules := by
  simp

end ScanEx

end Verif.Tray
