import Verif.Ic3.Lemmas

/-!
# C109 and C110: reconstructions in IceTray

C109: everything in the results of an event (best fit, losses, covariance matrices, goodness of fit,
circularised uncertainty) belongs to one fit, that of one of the seeds, and every entry the output
needs is there.

C110: which settings the module accepts, and what tray it builds for them. That an accepted module
works for events is false, see `C110_fixed_violated` and `C110_empty_violated`.
-/

namespace Verif.Ic3
open Verif.Py Verif.Reco

variable {V : Type}

/-! ## C110 -/

/-- The module is configured exactly if the settings are admissible; an exception of the set up of
the manager is passed on. -/
theorem C110_accepted (B : Bodies V) (P : Params)
    (setup : List String → List String → Except Err Manager) :
    (∀ e, setup (managerDirs P) P.seeds.list = .error e → configure B P setup = .error e) ∧
    ∀ M, setup (managerDirs P) P.seeds.list = .ok M → M.names.Nodup → Dict.Ok P.fitDict →
      ((∃ c, configure B P setup = .ok c) ↔ Accepted P M) := by
  constructor
  · intro e h
    unfold configure
    simp only [bind, Except.bind, h]
  · intro M hs hn hf
    constructor
    · rintro ⟨c, hc⟩
      exact ((configure_ok_iff B P setup M hs hn hf c).1 hc).1
    · intro ha
      obtain ⟨logs, hl⟩ := (logNames_ok_iff M.names M.logs).2 ha.logs
      obtain ⟨fit, h1, _⟩ := Output.C76_fit hn P.fitDefault hf (fun q hq =>
        ha.fit q.1 (List.mem_map_of_mem hq))
      exact ⟨_, (configure_ok_iff B P setup M hs hn hf _).2 ⟨ha, logs, fit, hl, h1, rfl⟩⟩

/-- The tray has one fit for each seed, in the order of the seeds, the selection, and what was asked
for; parameters are fitted as the settings say; missing flags of the goodness of fit are true. -/
theorem C110_tray (B : Bodies V) (P : Params)
    (setup : List String → List String → Except Err Manager) (M : Manager)
    (hs : setup (managerDirs P) P.seeds.list = .ok M) (hn : M.names.Nodup) (hf : Dict.Ok P.fitDict)
    (c : Cfg V) (hc : configure B P setup = .ok c) :
    c.tray.names = modulesOf P ∧ c.names = M.names ∧ c.mapping = M.mapping ∧
    (∀ (i : Nat) (n : String), M.names[i]? = some n →
      (c.fit[i]? = some true ↔ Fitted P n) ∧ (n ∈ c.logs ↔ M.logs[i]? = some true)) ∧
    c.fit.length = M.names.length ∧
    (∀ k v, Dict.get? P.gof k = some v → Dict.get? c.gof k = some v) ∧
    (∀ k, Dict.get? P.gof k = none → k ∈ ["reconstruct_samples", "add_per_dom_calculation"] →
      Dict.get? c.gof k = some (.flag true)) ∧
    (∀ k, Dict.get? P.gof k = none → k ∉ ["reconstruct_samples", "add_per_dom_calculation"] →
      Dict.get? c.gof k = none) := by
  obtain ⟨ha, logs, fit, h1, h2, rfl⟩ := (configure_ok_iff B P setup M hs hn hf c).1 hc
  obtain ⟨fit', h3, h4, h5⟩ := Output.C76_fit hn P.fitDefault hf (fun q hq =>
    ha.fit q.1 (List.mem_map_of_mem hq))
  rw [h2] at h3; cases h3
  obtain ⟨l, h6, h7⟩ := Output.C61_logs hn ha.logs
  rw [h1] at h6; cases h6
  refine ⟨rfl, rfl, rfl, ?_, h4, ?_, ?_, ?_⟩
  · intro i n hi
    refine ⟨?_, h7 i n hi⟩
    simp only
    rw [h5 i n hi, Option.some.injEq]
    exact Iff.rfl
  · intro k v hv
    simp only
    rw [get_fillGof, hv]
  · intro k hk hm
    simp only
    rw [get_fillGof, hk]
    simp only
    rw [if_pos (by simpa using hm)]
  · intro k hk hm
    simp only
    rw [get_fillGof, hk]
    simp only
    rw [if_neg (by simpa using hm)]

/-- A single seed or model can be given as a string. -/
theorem C110_single (B : Bodies V) (P : Params) (s m : String)
    (setup : List String → List String → Except Err Manager) :
    configure B { P with seeds := .one s, models := .one m } setup =
      configure B { P with seeds := .many [s], models := .many [m] } setup := rfl

/-- Models are looked for in the base directory; names that are absolute paths, and names without a
base directory, are taken as they are. -/
theorem C110_directories (P : Params) :
    (P.baseDir = none → managerDirs P = P.models.list) ∧
    ∀ dir, P.baseDir = some dir → (managerDirs P).length = P.models.list.length ∧
      ∀ (i : Nat) (n : String), P.models.list[i]? = some n →
      (∀ rest, n.toList = '/' :: rest → (managerDirs P)[i]? = some n) ∧
      ((∀ rest, n.toList ≠ '/' :: rest) → (∀ pre, dir.toList ≠ pre ++ ['/']) → dir ≠ "" →
        (managerDirs P)[i]? = some (dir ++ "/" ++ n)) ∧
      ((∀ rest, n.toList ≠ '/' :: rest) → (∃ pre, dir.toList = pre ++ ['/']) →
        (managerDirs P)[i]? = some (dir ++ n)) := by
  constructor
  · intro h
    unfold managerDirs
    rw [h]
    simp
  · intro dir hd
    have e : managerDirs P = P.models.list.map (joinPath dir) := by
      unfold managerDirs
      rw [hd]
    rw [e]
    refine ⟨by simp, ?_⟩
    intro i n hi
    rw [List.getElem?_map, hi]
    simp only [Option.map_some, Option.some.injEq]
    have hh : ∀ l : List Char, (∀ rest, l ≠ '/' :: rest) → l.head? ≠ some '/' := by
      intro l hl h
      cases l with
      | nil => cases h
      | cons c l => cases h; exact hl l rfl
    refine ⟨?_, ?_, ?_⟩
    · intro rest hr
      unfold joinPath
      rw [if_pos (by rw [hr]; rfl)]
    · intro h1 h2 h3
      unfold joinPath
      rw [if_neg (hh _ h1), if_neg]
      rintro (h | h)
      · exact h3 (String.toList_inj.1 h)
      · obtain ⟨pre, hp⟩ := List.getLast?_eq_some_iff.1 h
        exact h2 pre hp
    · rintro h1 ⟨pre, hp⟩
      unfold joinPath
      rw [if_neg (hh _ h1), if_pos (.inr (by rw [hp]; simp))]

/-! ## C109 -/

/-- Whenever the tray of a configured module runs through for an event, all its results belong to one
fit `o`, started from one of the seeds. -/
theorem C109_one_fit (B : Bodies V) (P : Params)
    (setup : List String → List String → Except Err Manager) (M : Manager)
    (hs : setup (managerDirs P) P.seeds.list = .ok M) (hn : M.names.Nodup) (hf : Dict.Ok P.fitDict)
    (c : Cfg V) (hc : configure B P setup = .ok c) (rt : Nat → V) (r : Results V)
    (hr : c.tray.execute rt = .ok r) :
    Dict.keys r = modulesOf P ∧ ∃ s ∈ P.seeds.list, ∃ o, Report B P r s o := by
  obtain ⟨ha, logs, fit, h1, h2, rfl⟩ := (configure_ok_iff B P setup M hs hn hf c).1 hc
  unfold Tray.execute at hr
  simp only at hr
  constructor
  · have hlen : (modulesOf P).length = (trayModules B P fit).length := by
      unfold modulesOf trayModules
      cases P.addCov <;> cases P.addGof <;> cases P.addCirc <;> simp
    rcases runModules_spec rt _ _ hlen [] (by simpa using nodup_modules ha.once) with
      ⟨new, g1, g2, _⟩ | ⟨e, g1, _⟩
    · have g1' : runModules rt 0 ((modulesOf P).zip (trayModules B P fit)) [] = .ok new := by
        simpa using g1
      rw [g1'] at hr
      cases hr
      exact g2
    · have g1' : runModules rt 0 ((modulesOf P).zip (trayModules B P fit)) [] = .error e := by
        simpa using g1
      rw [g1'] at hr
      cases hr
  · rw [zip_tray] at hr
    unfold trayPairs at hr
    obtain ⟨r1, f1, _, hr⟩ := run_recos B rt _ _ _ _ _ ha.once hr
    obtain ⟨d, s1, _, hr⟩ := (run_cons _ _ _ _ _ _ _).1 hr
    cases hl : P.seeds.list.getLast? with
    | none =>
      rw [List.getLast?_eq_none_iff] at hl
      rw [hl] at s1
      simp only [List.map_nil] at s1
      rw [C43_empty] at s1
      cases s1
    | some last =>
      refine ⟨last, List.mem_of_getLast? hl, ?_⟩
      obtain ⟨d', o, s2, _, s3, s4⟩ := select_spec hl f1
      rw [s2] at s1
      cases s1
      have b2 := s4 (rt (0 + P.seeds.list.length))
      generalize hr2 : Dict.set r1 "reco" (Dict.set d "runtime" (rt (0 + P.seeds.list.length))) = r2
        at b2 hr
      clear s4 hr2
      refine ⟨o, ?_⟩
      -- the covariance matrices
      obtain ⟨i3, r3, b3, c3, hr⟩ : ∃ i3 r3, Best B r3 last o ∧
          (P.addCov = true → ∃ m t, B.cov o.result o.trafo o.obj = .ok m ∧
            Dict.get? r3 "covariance" = some (Dict.set (covDict m) "runtime" t)) ∧
          runModules rt i3 ((if P.addGof then [("GoodnessOfFit", goodness B "reco" (covKey P)
            (((Dict.get? (fillGof P.gof) "reconstruct_samples").map Arg.truth).getD true)
            (((Dict.get? (fillGof P.gof) "add_per_dom_calculation").map Arg.truth).getD true))]
              else []) ++
            ((if P.addCirc then [("CircularizedAngularUncertainty", circular B fit "reco" (covKey P))]
              else []) ++ [])) r3 = .ok r := by
        rcases (run_opt _ _ _ _ _ _ _ _).1 hr with ⟨h, hr⟩ | ⟨h, d, h3, _, hr⟩
        · exact ⟨_, r2, b2, by simp [h], hr⟩
        · obtain ⟨m, h4, rfl⟩ := (covariance_ok_iff b2 d).1 h3
          exact ⟨_, _, b2.set (by decide) _, fun _ => ⟨m, _, h4, by rw [Dict.get?_set, if_pos rfl]⟩,
            hr⟩
      clear b2
      -- the covariance matrix that is used further
      have used : ∃ v, CovUsed B P o v ∧ ∀ r' : Results V,
          Dict.get? r' "covariance" = Dict.get? r3 "covariance" → covOf r' (covKey P) = .ok v := by
        unfold CovUsed covKey
        cases h : P.addCov with
        | false => exact ⟨none, by simp, fun _ _ => rfl⟩
        | true =>
          obtain ⟨m, t, h4, h5⟩ := c3 h
          refine ⟨some m.covSand, by simp only [if_true]; exact ⟨m, h4, rfl⟩, ?_⟩
          intro r' hr'
          simp only [if_true, covOf]
          rw [(look_iff r' "covariance" "cov_sand" m.covSand).2
            ⟨_, by rw [hr', h5], by
              rw [Dict.get?_set, if_neg (by decide)]
              unfold covDict
              cases m.fit with
              | none => simp [Dict.get?]
              | some q => simp [Dict.get?, Dict.update, Dict.set]⟩]
      obtain ⟨v, u1, u2⟩ := used
      -- the goodness of fit
      obtain ⟨i4, r4, b4, c4, g4, hr⟩ : ∃ i4 r4, Best B r4 last o ∧
          Dict.get? r4 "covariance" = Dict.get? r3 "covariance" ∧
          (P.addGof = true → ∃ g t, B.gof o.trafo o.result v = .ok g ∧
            Dict.get? r4 "GoodnessOfFit" = some (Dict.set (gofDict
              (((Dict.get? (fillGof P.gof) "reconstruct_samples").map Arg.truth).getD true)
              (((Dict.get? (fillGof P.gof) "add_per_dom_calculation").map Arg.truth).getD true) g)
              "runtime" t)) ∧
          runModules rt i4 ((if P.addCirc then
            [("CircularizedAngularUncertainty", circular B fit "reco" (covKey P))]
              else []) ++ []) r4 = .ok r := by
        rcases (run_opt _ _ _ _ _ _ _ _).1 hr with ⟨h, hr⟩ | ⟨h, d, h3, _, hr⟩
        · exact ⟨_, r3, b3, rfl, by simp [h], hr⟩
        · obtain ⟨g, h4, rfl⟩ := (goodness_ok_iff b3 (u2 r3 rfl) _ _ d).1 h3
          exact ⟨_, _, b3.set (by decide) _, by rw [Dict.get?_set, if_neg (by decide)],
            fun _ => ⟨g, _, h4, by rw [Dict.get?_set, if_pos rfl]⟩, hr⟩
      -- the circularised uncertainty
      obtain ⟨b5, c5, g5, k5⟩ : Best B r last o ∧
          Dict.get? r "covariance" = Dict.get? r3 "covariance" ∧
          Dict.get? r "GoodnessOfFit" = Dict.get? r4 "GoodnessOfFit" ∧
          (P.addCirc = true → ∃ u t, B.circ o.trafo o.result v = .ok u ∧
            Dict.get? r "CircularizedAngularUncertainty" = some (Dict.set
              [("delta_psi", u.deltaPsi), ("delta_loss", u.deltaLoss), ("circular_unc", u.unc),
                ("circular_unc_deg", u.uncDeg)] "runtime" t)) := by
        rcases (run_opt _ _ _ _ _ _ _ _).1 hr with ⟨h, hr⟩ | ⟨h, d, h3, _, hr⟩
        · cases hr
          exact ⟨b4, c4, rfl, by simp [h]⟩
        · obtain ⟨_, u, h4, rfl⟩ := (circular_ok_iff b4 (u2 r4 c4) fit d).1 h3
          cases hr
          exact ⟨b4.set (by decide) _, by rw [Dict.get?_set, if_neg (by decide), c4],
            by rw [Dict.get?_set, if_neg (by decide)],
            fun _ => ⟨u, _, h4, by rw [Dict.get?_set, if_pos rfl]⟩⟩
      refine ⟨s3, b5.result, b5.trafo, b5.obj, b5.lossSeed, b5.lossReco, b5.seed, ?_, ?_, ?_⟩
      · intro h
        obtain ⟨m, t, h4, h5⟩ := c3 h
        rw [← c5] at h5
        have key : ∀ k v, k ≠ "runtime" → Dict.get? (covDict m) k = some v →
            Entry r "covariance" k v := by
          intro k v hk hv
          exact ⟨_, h5, by rw [Dict.get?_set, if_neg (fun h => hk h.symm), hv]⟩
        refine ⟨m, h4, key _ _ (by decide) ?_, key _ _ (by decide) ?_, key _ _ (by decide) ?_,
          key _ _ (by decide) ?_, ?_⟩
        iterate 4
          · unfold covDict
            cases m.fit with
            | none => simp [Dict.get?]
            | some q => simp [Dict.get?, Dict.update, Dict.set]
        · intro a b c e hm
          refine ⟨key _ _ (by decide) ?_, key _ _ (by decide) ?_, key _ _ (by decide) ?_,
            key _ _ (by decide) ?_⟩ <;>
          · unfold covDict
            rw [hm]
            simp [Dict.get?, Dict.update, Dict.set]
      · intro h
        obtain ⟨g, t, h4, h5⟩ := g4 h
        rw [← g5] at h5
        generalize hS : ((Dict.get? (fillGof P.gof) "reconstruct_samples").map Arg.truth).getD true
          = S at h5
        generalize hD : ((Dict.get? (fillGof P.gof) "add_per_dom_calculation").map Arg.truth).getD
          true = D at h5
        have key : ∀ k v, k ≠ "runtime" → Dict.get? (gofDict S D g) k = some v →
            Entry r "GoodnessOfFit" k v := by
          intro k v hk hv
          exact ⟨_, h5, by rw [Dict.get?_set, if_neg (fun h => hk h.symm), hv]⟩
        refine ⟨v, g, u1, h4, key _ _ (by decide) ?_, key _ _ (by decide) ?_, key _ _ (by decide) ?_,
          key _ _ (by decide) ?_, key _ _ (by decide) ?_, key _ _ (by decide) ?_,
          key _ _ (by decide) ?_, key _ _ (by decide) ?_, ?_, ?_⟩
        iterate 8 (unfold gofDict; cases S <;> cases D <;> simp [Dict.get?, Dict.update, Dict.set])
        · intro h6
          have : S = true := by
            rw [← hS, get_fillGof]
            rcases h6 with h6 | ⟨w, h6, h7⟩
            · rw [h6]; rfl
            · rw [h6]; simpa using h7
          subst this
          refine ⟨key _ _ (by decide) ?_, key _ _ (by decide) ?_⟩ <;>
          · unfold gofDict; cases D <;> simp [Dict.get?, Dict.update, Dict.set]
        · intro h6
          have : D = true := by
            rw [← hD, get_fillGof]
            rcases h6 with h6 | ⟨w, h6, h7⟩
            · rw [h6]; rfl
            · rw [h6]; simpa using h7
          subst this
          refine ⟨key _ _ (by decide) ?_, key _ _ (by decide) ?_⟩ <;>
          · unfold gofDict; cases S <;> simp [Dict.get?, Dict.update, Dict.set]
      · intro h
        obtain ⟨u, t, h4, h5⟩ := k5 h
        refine ⟨v, u, u1, h4, ⟨_, h5, ?_⟩, ⟨_, h5, ?_⟩⟩ <;> simp [Dict.get?, Dict.set]

/-- If the computations raise no exception, there is a seed, and all parameters are fitted if the
circularised uncertainty is asked for, then the tray runs through. -/
theorem C109_complete (B : Bodies V) (hB : Works B) (P : Params)
    (setup : List String → List String → Except Err Manager) (M : Manager)
    (hs : setup (managerDirs P) P.seeds.list = .ok M) (hn : M.names.Nodup) (hf : Dict.Ok P.fitDict)
    (c : Cfg V) (hc : configure B P setup = .ok c) (hseed : P.seeds.list ≠ [])
    (hcirc : P.addCirc = true → ∀ n ∈ M.names, Fitted P n) (rt : Nat → V) :
    ∃ r, c.tray.execute rt = .ok r := by
  obtain ⟨ha, logs, fit, h1, h2, rfl⟩ := (configure_ok_iff B P setup M hs hn hf c).1 hc
  unfold Tray.execute
  simp only
  rw [zip_tray]
  unfold trayPairs
  obtain ⟨r1, f1, e1, _⟩ := run_recos_total B rt
    (("reco", selectBest B.less (P.seeds.list.map fun s => "reco_" ++ s)) ::
    ((if P.addCov then [("covariance", covariance B "reco")] else []) ++
    ((if P.addGof then [("GoodnessOfFit", goodness B "reco" (covKey P)
      (((Dict.get? (fillGof P.gof) "reconstruct_samples").map Arg.truth).getD true)
      (((Dict.get? (fillGof P.gof) "add_per_dom_calculation").map Arg.truth).getD true))] else []) ++
    ((if P.addCirc then [("CircularizedAngularUncertainty", circular B fit "reco" (covKey P))]
      else []) ++ [])))) P.seeds.list 0 [] ha.once (fun s _ => hB.fit s)
  rw [e1]
  cases hl : P.seeds.list.getLast? with
  | none => exact absurd (List.getLast?_eq_none_iff.1 hl) hseed
  | some last =>
    obtain ⟨d, o, s2, s0, s3, s4⟩ := select_spec hl f1
    simp only [run_cons]
    rw [s2]
    simp only [Except.ok.injEq]
    suffices h : ∃ r, runModules rt (0 + P.seeds.list.length + 1)
        ((if P.addCov then [("covariance", covariance B "reco")] else []) ++
        ((if P.addGof then [("GoodnessOfFit", goodness B "reco" (covKey P)
          (((Dict.get? (fillGof P.gof) "reconstruct_samples").map Arg.truth).getD true)
          (((Dict.get? (fillGof P.gof) "add_per_dom_calculation").map Arg.truth).getD true))]
            else []) ++
        ((if P.addCirc then [("CircularizedAngularUncertainty", circular B fit "reco" (covKey P))]
          else []) ++ [])))
        (Dict.set r1 "reco" (Dict.set d "runtime" (rt (0 + P.seeds.list.length)))) = .ok r by
      obtain ⟨r, hr⟩ := h
      exact ⟨r, d, rfl, s0, hr⟩
    have b2 := s4 (rt (0 + P.seeds.list.length))
    generalize Dict.set r1 "reco" (Dict.set d "runtime" (rt (0 + P.seeds.list.length))) = r2 at b2 ⊢
    simp only [run_opt]
    -- the covariance matrices
    suffices h : ∀ i r3, Best B r3 last o → (∃ v, covOf r3 (covKey P) = .ok v ∧ ∀ n x, n ≠ "covariance" →
        covOf (Dict.set r3 n x) (covKey P) = .ok v) → ∃ r, runModules rt i
          ((if P.addGof then [("GoodnessOfFit", goodness B "reco" (covKey P)
            (((Dict.get? (fillGof P.gof) "reconstruct_samples").map Arg.truth).getD true)
            (((Dict.get? (fillGof P.gof) "add_per_dom_calculation").map Arg.truth).getD true))]
              else []) ++
          ((if P.addCirc then [("CircularizedAngularUncertainty", circular B fit "reco" (covKey P))]
            else []) ++ [])) r3 = .ok r by
      cases hcov : P.addCov with
      | false =>
        obtain ⟨r, hr⟩ := h (0 + P.seeds.list.length + 1) r2 b2
          ⟨none, by simp [covKey, hcov, covOf], by simp [covKey, hcov, covOf]⟩
        simp only [run_opt] at hr
        exact ⟨r, .inl ⟨rfl, hr⟩⟩
      | true =>
        obtain ⟨m, hm⟩ := hB.cov o.result o.trafo o.obj
        have hs1 : Dict.get? (covDict m) "cov_sand" = some m.covSand := by
          unfold covDict
          cases m.fit with
          | none => simp [Dict.get?]
          | some q => simp [Dict.get?, Dict.update, Dict.set]
        have hs2 : Dict.has (covDict m) "runtime" = false := by
          unfold Dict.has covDict
          cases m.fit with
          | none => simp [Dict.get?]
          | some q => simp [Dict.get?, Dict.update, Dict.set]
        have hE := entry_set (r := r2) (n := "covariance") (k := "cov_sand") (d := covDict m)
          (t := rt (0 + P.seeds.list.length + 1)) (by decide) hs1
        obtain ⟨r, hr⟩ := h (0 + P.seeds.list.length + 1 + 1) _
          (b2.set (n := "covariance") (by decide)
            (Dict.set (covDict m) "runtime" (rt (0 + P.seeds.list.length + 1))))
          ⟨some m.covSand, by
            simp only [covKey, hcov, if_true, covOf]
            rw [(look_iff _ _ _ _).2 hE], by
            intro n x hnx
            simp only [covKey, hcov, if_true, covOf]
            rw [(look_iff _ _ _ _).2 ((entry_set_ne hnx).2 hE)]⟩
        simp only [run_opt] at hr
        exact ⟨r, .inr ⟨rfl, covDict m, (covariance_ok_iff b2 _).2 ⟨m, hm, rfl⟩, hs2, hr⟩⟩
    -- the goodness of fit
    intro i r3 b3 hv
    obtain ⟨v, hv, hv'⟩ := hv
    simp only [run_opt]
    suffices h : ∀ i r4, Best B r4 last o → covOf r4 (covKey P) = .ok v → ∃ r, runModules rt i
          ((if P.addCirc then [("CircularizedAngularUncertainty", circular B fit "reco" (covKey P))]
            else []) ++ []) r4 = .ok r by
      cases hg : P.addGof with
      | false =>
        obtain ⟨r, hr⟩ := h i r3 b3 hv
        simp only [run_opt] at hr
        exact ⟨r, .inl ⟨rfl, hr⟩⟩
      | true =>
        obtain ⟨g, hm⟩ := hB.gof o.trafo o.result v
        generalize ((Dict.get? (fillGof P.gof) "reconstruct_samples").map Arg.truth).getD true = S
        generalize ((Dict.get? (fillGof P.gof) "add_per_dom_calculation").map Arg.truth).getD true = D
        have hs2 : Dict.has (gofDict S D g) "runtime" = false := by
          unfold Dict.has gofDict
          cases S <;> cases D <;> simp [Dict.get?, Dict.update, Dict.set]
        obtain ⟨r, hr⟩ := h (i + 1) _ (b3.set (n := "GoodnessOfFit") (by decide)
            (Dict.set (gofDict S D g) "runtime" (rt i))) (hv' _ _ (by decide))
        simp only [run_opt] at hr
        exact ⟨r, .inr ⟨rfl, gofDict S D g, (goodness_ok_iff b3 hv _ _ _).2 ⟨g, hm, rfl⟩, hs2, hr⟩⟩
    -- the circularised uncertainty
    intro i r4 b4 h4
    simp only [run_opt]
    cases hk : P.addCirc with
    | false => exact ⟨r4, .inl ⟨rfl, rfl⟩⟩
    | true =>
      obtain ⟨u, hu⟩ := hB.circ o.trafo o.result v
      obtain ⟨fit', g1, g2⟩ := Output.C76_fit hn P.fitDefault hf (fun q hq =>
        ha.fit q.1 (List.mem_map_of_mem hq))
      rw [h2] at g1; cases g1
      have hall : fit.all id = true := by
        simpa using (all_fitted_iff g2).2 (hcirc hk)
      exact ⟨_, .inr ⟨rfl, _, (circular_ok_iff b4 h4 fit _).2 ⟨hall, u, hu, rfl⟩,
        by simp [Dict.has, Dict.get?], rfl⟩⟩

/-- Every entry that is written to the frame is there. -/
theorem C109_entries (B : Bodies V) (P : Params)
    (setup : List String → List String → Except Err Manager) (M : Manager)
    (hs : setup (managerDirs P) P.seeds.list = .ok M) (hn : M.names.Nodup) (hf : Dict.Ok P.fitDict)
    (c : Cfg V) (hc : configure B P setup = .ok c) (rt : Nat → V) (r : Results V)
    (hr : c.tray.execute rt = .ok r) :
    ∀ q ∈ lookups P c, ∃ v, look r q.1 q.2 = .ok v := by
  obtain ⟨_, s, _, o, R⟩ := C109_one_fit B P setup M hs hn hf c hc rt r hr
  obtain ⟨ha, logs, fit, h1, h2, rfl⟩ := (configure_ok_iff B P setup M hs hn hf c).1 hc
  have hrt : ∀ n ∈ modulesOf P, ∃ v, Entry r n "runtime" v := by
    intro n hnm
    have hlen : (modulesOf P).length = (trayModules B P fit).length := by
      unfold modulesOf trayModules
      cases P.addCov <;> cases P.addGof <;> cases P.addCirc <;> simp
    unfold Tray.execute at hr
    simp only at hr
    rcases runModules_spec rt _ _ hlen [] (by simpa using nodup_modules ha.once) with
      ⟨new, g1, g2, g3⟩ | ⟨e, g1, _⟩
    · have g1' : runModules rt 0 ((modulesOf P).zip (trayModules B P fit)) [] = .ok new := by
        simpa using g1
      rw [g1'] at hr
      cases hr
      obtain ⟨i, hi⟩ := List.mem_iff_getElem?.1 hnm
      have hlt : i < (trayModules B P fit).length := by
        rw [← hlen]; exact (List.getElem?_eq_some_iff.1 hi).1
      obtain ⟨d, _, _, g4⟩ := g3 i _ (List.getElem?_eq_getElem hlt)
      refine ⟨_, _, get?_of_getElem r (by rw [g2]; exact nodup_modules ha.once) i n _
        (by rw [g2]; exact hi) g4, by rw [Dict.get?_set, if_pos rfl]⟩
    · have g1' : runModules rt 0 ((modulesOf P).zip (trayModules B P fit)) [] = .error e := by
        simpa using g1
      rw [g1'] at hr
      cases hr
  intro q hq
  suffices h : ∃ v, Entry r q.1 q.2 v by
    obtain ⟨v, hv⟩ := h
    exact ⟨v, (look_iff _ _ _ _).2 hv⟩
  have flag : ∀ k, k ∈ ["reconstruct_samples", "add_per_dom_calculation"] →
      ((Dict.get? (fillGof P.gof) k).map Arg.truth).getD false = true →
      Dict.get? P.gof k = none ∨ ∃ v, Dict.get? P.gof k = some v ∧ v.truth = true := by
    intro k _ h
    rw [get_fillGof] at h
    cases hg : Dict.get? P.gof k with
    | none => exact .inl rfl
    | some v =>
      rw [hg] at h
      exact .inr ⟨v, rfl, by simpa using h⟩
  unfold lookups at hq
  simp only [List.mem_append] at hq
  rcases hq with ((((hq | hq) | hq) | hq) | hq) | hq
  · simp only [List.mem_cons, List.not_mem_nil, or_false] at hq
    rcases hq with rfl | rfl
    · exact ⟨_, R.result⟩
    · exact ⟨_, R.obj⟩
  · obtain ⟨n, hnm, rfl⟩ := List.mem_map.1 hq
    exact hrt n hnm
  · simp only [List.mem_cons, List.not_mem_nil, or_false] at hq
    rcases hq with rfl | rfl
    · exact ⟨_, R.lossReco⟩
    · exact ⟨_, R.lossSeed⟩
  · by_cases h : P.addCov = true
    · rw [if_pos h] at hq
      simp only [List.mem_cons, List.not_mem_nil, or_false] at hq
      subst hq
      exact hrt _ (by unfold modulesOf; simp [h])
    · rw [if_neg h] at hq; cases hq
  · by_cases h : P.addGof = true
    · rw [if_pos h] at hq
      obtain ⟨_, g, _, _, e1, e2, e3, e4, e5, e6, e7, e8, e9, e10⟩ := R.gof h
      simp only [List.mem_append] at hq
      rcases hq with (hq | hq) | hq
      · simp only [List.map_cons, List.map_nil, List.mem_cons, List.not_mem_nil, or_false] at hq
        rcases hq with rfl | rfl | rfl | rfl | rfl | rfl | rfl | rfl
        exacts [⟨_, e1⟩, ⟨_, e2⟩, ⟨_, e3⟩, ⟨_, e4⟩, ⟨_, e5⟩, ⟨_, e6⟩, ⟨_, e7⟩, ⟨_, e8⟩]
      · split at hq
        · rename_i hfl
          obtain ⟨x, y⟩ := e9 (flag _ (by simp) hfl)
          simp only [List.mem_cons, List.not_mem_nil, or_false] at hq
          rcases hq with rfl | rfl
          exacts [⟨_, y⟩, ⟨_, x⟩]
        · cases hq
      · split at hq
        · rename_i hfl
          obtain ⟨x, y⟩ := e10 (flag _ (by simp) hfl)
          simp only [List.mem_cons, List.not_mem_nil, or_false] at hq
          rcases hq with rfl | rfl
          exacts [⟨_, x⟩, ⟨_, y⟩]
        · cases hq
    · rw [if_neg h] at hq; cases hq
  · by_cases h : P.addCirc = true
    · rw [if_pos h] at hq
      obtain ⟨_, u, _, _, e1, _⟩ := R.circ h
      simp only [List.mem_cons, List.not_mem_nil, or_false] at hq
      rcases hq with rfl | rfl
      · exact ⟨_, e1⟩
      · exact hrt _ (by unfold modulesOf; simp [h])
    · rw [if_neg h] at hq; cases hq

/-! ## C110 is false: accepted modules that fail for every event -/

/-- With the circularised uncertainty and a parameter that is not fitted, the module can be
configured, and then no event can be reconstructed. -/
theorem C110_fixed_violated (B : Bodies V) (P : Params)
    (setup : List String → List String → Except Err Manager) (M : Manager)
    (hs : setup (managerDirs P) P.seeds.list = .ok M) (hn : M.names.Nodup) (hf : Dict.Ok P.fitDict)
    (c : Cfg V) (hc : configure B P setup = .ok c) (hk : P.addCirc = true) (n : String)
    (hm : n ∈ M.names) (hfit : ¬ Fitted P n) (rt : Nat → V) (r : Results V) :
    c.tray.execute rt ≠ .ok r := by
  intro hr
  obtain ⟨ha, logs, fit, h1, h2, rfl⟩ := (configure_ok_iff B P setup M hs hn hf c).1 hc
  obtain ⟨fit', g1, g2⟩ := Output.C76_fit hn P.fitDefault hf (fun q hq =>
    ha.fit q.1 (List.mem_map_of_mem hq))
  rw [h2] at g1; cases g1
  have hall : fit.all id = false := by
    cases h : fit.all id with
    | false => rfl
    | true =>
      exact absurd ((all_fitted_iff g2).1 (by simpa using h) n hm) hfit
  have hcf : ∀ (x : Results V) (d : Dict String V), circular B fit "reco" (covKey P) x ≠ .ok d := by
    intro x d h
    unfold circular at h
    rw [hall] at h
    simp [bind, Except.bind, throw, throwThe, MonadExceptOf.throw] at h
  unfold Tray.execute at hr
  simp only at hr
  rw [zip_tray] at hr
  unfold trayPairs at hr
  obtain ⟨r1, _, _, hr⟩ := run_recos B rt _ _ _ _ _ ha.once hr
  obtain ⟨d, _, _, hr⟩ := (run_cons _ _ _ _ _ _ _).1 hr
  have key : ∀ i x, runModules rt i ((if P.addCirc then
      [("CircularizedAngularUncertainty", circular B fit "reco" (covKey P))] else []) ++ []) x ≠
        .ok r := by
    intro i x h
    rcases (run_opt _ _ _ _ _ _ _ _).1 h with ⟨h, _⟩ | ⟨_, d, h, _⟩
    · rw [hk] at h; cases h
    · exact hcf _ _ h
  rcases (run_opt _ _ _ _ _ _ _ _).1 hr with ⟨_, hr⟩ | ⟨_, _, _, _, hr⟩
  all_goals
    rcases (run_opt _ _ _ _ _ _ _ _).1 hr with ⟨_, hr⟩ | ⟨_, _, _, _, hr⟩
    all_goals exact key _ _ hr

/-- Without seeds the module can be configured, and every event raises a `NameError`. -/
theorem C110_empty_violated (B : Bodies V) (P : Params)
    (setup : List String → List String → Except Err Manager) (M : Manager)
    (hs : setup (managerDirs P) P.seeds.list = .ok M) (hn : M.names.Nodup) (hf : Dict.Ok P.fitDict)
    (c : Cfg V) (hc : configure B P setup = .ok c) (he : P.seeds.list = []) (rt : Nat → V) :
    c.tray.execute rt = .error .nameError := by
  obtain ⟨ha, logs, fit, h1, h2, rfl⟩ := (configure_ok_iff B P setup M hs hn hf c).1 hc
  unfold Tray.execute
  simp only
  rw [zip_tray]
  unfold trayPairs
  rw [he]
  simp only [List.map_nil, List.nil_append]
  rw [runModules, C43_empty]

namespace Ex

/-- Settings with two seeds and everything asked for. -/
def settings : Params where
  seeds := .many ["seed1", "seed2"]
  models := .one "cascade"
  baseDir := some "/models"
  addCirc := true
  addCov := true
  addGof := true
  trafo := true
  fitDict := []
  fitDefault := true
  interface := "SciPy"
  gof := [("num_samples", .other true 10)]

def manager : Manager where
  tensors := ["x_pulses", "x_pulses_ids", "x_dom_charge", "seed1", "seed2"]
  names := ["x", "zenith", "azimuth", "time"]
  logs := [false, false, false, false]
  mapping := some [("zenith", "zenith"), ("azimuth", "azimuth")]

def setup (dirs seeds : List String) : Except Err Manager :=
  if dirs = ["/models/cascade"] ∧ seeds = ["seed1", "seed2"] then .ok manager
  else .error .fileNotFoundError

/-- Numbers as results. -/
def bodies : Bodies Nat where
  str s := s.length
  flag b := if b then 1 else 0
  less a b := match b with
    | some b => a < b
    | none => true
  fit s := .ok ⟨s.length, 2, 3, 4, 5⟩
  cov a b c := .ok ⟨a + 1, a + 2, b, c, none⟩
  gof a b c := .ok ⟨a, b, c.getD 0, 4, 5, 6, 7, 8, 9, 10, (11, 12), (13, 14, 15)⟩
  circ _ _ c := .ok ⟨0, 0, c.getD 0, 1⟩

theorem dirs : setup (managerDirs settings) settings.seeds.list = .ok manager := by
  unfold setup
  rw [if_pos (by decide)]

theorem accepted : Accepted settings manager := by
  refine ⟨by decide, by decide, by decide, by decide, ?_, ?_, ?_⟩
  · intro _ n _; rfl
  · intro _; decide
  · intro _
    exact ⟨⟨_, "zenith", rfl, by decide, by decide⟩, ⟨_, "azimuth", rfl, by decide, by decide⟩⟩

example : ∃ c r, configure bodies settings setup = .ok c ∧
    c.tray.names = ["reco_seed1", "reco_seed2", "reco", "covariance", "GoodnessOfFit",
      "CircularizedAngularUncertainty"] ∧
    c.tray.execute (fun i => i) = .ok r ∧ ∃ s ∈ settings.seeds.list, ∃ o, Report bodies settings r s o := by
  obtain ⟨c, hc⟩ := ((C110_accepted bodies settings setup).2 manager dirs (by decide)
    (by decide)).2 accepted
  obtain ⟨r, hr⟩ := C109_complete bodies ⟨fun _ => ⟨_, rfl⟩, fun _ _ _ => ⟨_, rfl⟩,
    fun _ _ _ => ⟨_, rfl⟩, fun _ _ _ => ⟨_, rfl⟩⟩ settings setup manager dirs (by decide) (by decide) c hc
    (by decide) (fun _ _ _ => rfl) (fun i => i)
  exact ⟨c, r, hc, (C110_tray bodies settings setup manager dirs (by decide) (by decide) c hc).1, hr,
    (C109_one_fit bodies settings setup manager dirs (by decide) (by decide) c hc _ r hr).2⟩

/-- The same without covariances and with a fixed parameter. -/
def fixed : Params := { settings with addCov := false, fitDict := [("x", false)] }

example : ∃ c, configure bodies fixed setup = .ok c ∧
    ∀ rt r, c.tray.execute rt ≠ .ok r := by
  have hd : setup (managerDirs fixed) fixed.seeds.list = .ok manager := by
    unfold setup
    rw [if_pos (by decide)]
  have ha : Accepted fixed manager := by
    refine ⟨by decide, by decide, by decide, by decide, ?_, ?_, ?_⟩
    · intro h; cases h
    · intro _; decide
    · intro _
      exact ⟨⟨_, "zenith", rfl, by decide, by decide⟩, ⟨_, "azimuth", rfl, by decide, by decide⟩⟩
  obtain ⟨c, hc⟩ := ((C110_accepted bodies fixed setup).2 manager hd (by decide) (by decide)).2 ha
  exact ⟨c, hc, C110_fixed_violated bodies fixed setup manager hd (by decide) (by decide) c hc rfl "x"
    (by decide) (by unfold Fitted; decide)⟩

/-- The same without seeds. -/
def empty : Params := { settings with seeds := .many [] }

example : ∃ c, configure bodies empty (fun _ _ => .ok manager) = .ok c ∧
    ∀ rt, c.tray.execute rt = .error .nameError := by
  have ha : Accepted empty manager := by
    refine ⟨by decide, by decide, by decide, by decide, ?_, ?_, ?_⟩
    · intro _ n _; rfl
    · intro _; decide
    · intro _
      exact ⟨⟨_, "zenith", rfl, by decide, by decide⟩, ⟨_, "azimuth", rfl, by decide, by decide⟩⟩
  obtain ⟨c, hc⟩ := ((C110_accepted bodies empty (fun _ _ => .ok manager)).2 manager rfl (by decide)
    (by decide)).2 ha
  exact ⟨c, hc, C110_empty_violated bodies empty _ manager rfl (by decide) (by decide) c hc rfl⟩

example : (managerDirs { settings with models := .many ["a", "/b/c"] }) = ["/models/a", "/b/c"] := by
  decide

end Ex

end Verif.Ic3
