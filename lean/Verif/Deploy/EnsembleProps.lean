import Verif.Deploy.EnsembleSpec
import Verif.Component.ObjectProps
import Mathlib.Data.List.Forall2
import Mathlib.Data.String.Basic

/-!
# Properties of managers for a reconstruction: C94 and C95
-/

namespace Verif.Deploy
open Verif.Py Verif.Component
variable {V D : Type} [DecidableEq V]

omit [DecidableEq V] in
theorem modelsOf_spec {m : Comp V D} {l : List (Comp V D)} (h : modelsOf m = some l) :
    ModelsAre m l := by
  unfold modelsOf at h
  split at h
  · rename_i hh
    have hl := Option.some.inj h
    refine ⟨(Dict.has_iff _ _).1 hh, modelNames m, ?_, ?_, ?_⟩
    · refine (perm_sortBy _ _).trans ?_
      refine List.Perm.of_eq ?_
      apply List.filter_congr
      intro n _
      simp only [decide_eq_decide, List.prefix_iff_eq_take]
      rfl
    · have := pairwise_sortBy (fun a b : String => decide (a ≤ b))
        (fun a b c h1 h2 => by simp only [decide_eq_true_eq] at *; exact h1.trans h2)
        (fun a b => by simpa using le_total a b)
        ((Dict.keys m.subs).filter fun n => decide ("models_".toList = n.toList.take 7))
      exact this.imp (fun h => by simpa using h)
    · rw [← hl]
      have hmem : ∀ n ∈ modelNames m, n ∈ Dict.keys m.subs := by
        intro n hn
        exact (List.mem_filter.1 ((perm_sortBy _ _).mem_iff.1 hn)).1
      generalize modelNames m = names at hmem
      induction names with
      | nil => rfl
      | cons n ns ih =>
        have h1 := hmem n (by simp)
        cases hg : Dict.get? m.subs n with
        | none => exact absurd h1 ((Dict.get?_eq_none_iff _ _).1 hg)
        | some v =>
          rw [List.map_cons, hg, List.filterMap_cons, hg]
          simp only [List.map_cons, List.cons.injEq, true_and]
          exact ih (fun n hn => hmem n (by simp [hn]))
  · cases h

omit [DecidableEq V] in
theorem allModels_spec : ∀ {ms : List (Comp V D)} {models : List (Comp V D)},
    allModels ms = .ok models → ∃ ls, List.Forall₂ ModelsAre ms ls ∧ models = ls.flatten := by
  intro ms
  induction ms with
  | nil => intro models h; simp only [allModels, Except.ok.injEq] at h; exact ⟨[], .nil, by simp [← h]⟩
  | cons m ms ih =>
    intro models h
    unfold allModels at h
    split at h
    · cases h
    · rename_i l hl
      split at h
      · cases h
      · rename_i ls hls
        cases h
        obtain ⟨ls', h1, rfl⟩ := ih hls
        exact ⟨l :: ls', .cons (modelsOf_spec hl) h1, by simp⟩

theorem loadCopied_spec (L : LoadEnv V D) (fs : FS V D) (k : Nat) (mods : Dict String (Mod V D))
    (hhook : UpdateHookOk L.update) (hdeps : ∀ p d, fs p = some (.config d) → d.deps.Nodup) :
    ∀ {ps : List Place} {ms : List (Comp V D)}, loadCopied L fs k mods ps = .ok ms →
      List.Forall₂ (fun p m => LoadedAs fs p.dir mods m) ps ms := by
  intro ps
  induction ps with
  | nil => intro ms h; simp only [loadCopied, Except.ok.injEq] at h; subst h; exact .nil
  | cons p ps ih =>
    intro ms h
    unfold loadCopied at h
    simp only at h
    split at h
    · cases h
    · rename_i he
      split at h
      · cases h
      · rename_i ms' hms
        cases h
        exact .cons (C09_load_with_replacements L fs hhook hdeps k _ _ _ mods he) (ih hms)

theorem loadShared_nil (L : LoadEnv V D) (fs : FS V D) (k : Nat) : ∀ ps : List Place,
    loadShared L fs k ps [] = loadCopied L fs k [] ps := by
  intro ps
  induction ps with
  | nil => rfl
  | cons p ps ih =>
    unfold loadShared loadCopied
    simp only
    cases he : (load L fs k (Comp.fresh p.cls) p.parent p.name []).err with
    | some e => rfl
    | none =>
      simp only
      rw [C09_caller_dictionary_emptied L fs k _ _ _ _ he, ih]

theorem loadShared_cons (L : LoadEnv V D) (fs : FS V D) (k : Nat) (p : Place) (ps : List Place)
    (mods : Dict String (Mod V D)) (ms : List (Comp V D))
    (h : loadShared L fs k (p :: ps) mods = .ok ms) :
    ∃ m rest, ms = m :: rest ∧ loadCopied L fs k mods [p] = .ok [m] ∧
      loadCopied L fs k [] ps = .ok rest := by
  unfold loadShared at h
  simp only at h
  split at h
  · cases h
  · rename_i he
    rw [C09_caller_dictionary_emptied L fs k _ _ _ _ he, loadShared_nil] at h
    split at h
    · cases h
    · rename_i rest hr
      cases h
      refine ⟨_, rest, rfl, ?_, hr⟩
      unfold loadCopied
      simp only [he]
      rfl

omit [DecidableEq V] in
theorem parts_spec {loaded : List (Comp V D)} {dh : Option (Comp V D)} {models : List (Comp V D)}
    (h : parts loaded = .ok (dh, models)) :
    (∃ ls, List.Forall₂ ModelsAre loaded ls ∧ models = ls.flatten) ∧
    ∃ m, loaded.getLast? = some m ∧ dh = Dict.get? m.subs "data_handler" := by
  unfold parts at h
  split at h
  · cases h
  · rename_i ms hm
    split at h
    · cases h
    · rename_i m hl
      cases h
      exact ⟨allModels_spec hm, m, hl, rfl⟩

omit [DecidableEq V] in
theorem replacements_inner (misc label data : Option (Comp V D)) :
    (misc = none ∧ label = none ∧ data = none ∧ replacements misc label data = []) ∨
    ∃ inner, replacements misc label data = [("data_handler", .nested inner)] ∧
      (∀ n, Dict.get? inner n = (asked misc label data n).map Mod.comp) ∧
      (misc ≠ none ∨ label ≠ none ∨ data ≠ none) := by
  cases misc <;> cases label <;> cases data <;>
    simp only [replacements, Option.map_none, Option.map_some, Option.toList_none,
      Option.toList_some, List.nil_append, List.append_nil, List.isEmpty_nil, if_true,
      List.isEmpty_cons, List.cons_append, Bool.false_eq_true, if_false, true_and, and_self,
      true_or, ne_eq, reduceCtorEq, not_false_eq_true, not_true_eq_false, or_true, or_false,
      false_or, and_true, false_and] <;>
    (refine ⟨_, rfl, fun n => ?_⟩
     simp only [Dict.get?, asked]
     repeat' split
     all_goals first | rfl | simp_all)

omit [DecidableEq V] in
theorem handler_spec (fs : FS V D) (misc label data : Option (Comp V D)) (dir : Path)
    (m : Comp V D) (h : LoadedAs fs dir (replacements misc label data) m)
    (hask : misc ≠ none ∨ label ≠ none ∨ data ≠ none) :
    ∃ handler, Dict.get? m.subs "data_handler" = some handler ∧
      UsesModules fs (dir ++ ["data_handler"]) misc label data handler := by
  rcases replacements_inner misc label data with ⟨rfl, rfl, rfl, -⟩ | ⟨inner, he, hi, -⟩
  · simp at hask
  · rw [he] at h
    cases h with
    | mk _ _ _ d saved hfile hcls hcfg hused hplain hnested hkeep hrepl hrecord =>
      have hdep := hused "data_handler" (by simp [Dict.keys])
      have hget : Dict.get? [("data_handler", Mod.nested inner)] "data_handler" =
          some (.nested inner) := by simp [Dict.get?_cons]
      have hl := hnested _ _ hdep hget
      have hstem : stem "data_handler" = "data_handler" := by decide
      rw [hstem] at hl
      refine ⟨saved "data_handler", hkeep _ hdep (by intro x hx; rw [hget] at hx; cases hx), ?_⟩
      generalize saved "data_handler" = hd at hl
      cases hl with
      | mk _ _ _ d' saved' hfile' hcls' hcfg' hused' hplain' hnested' hkeep' hrepl' hrecord' =>
        refine ⟨?_, d', hfile', ?_⟩
        · intro n x hx
          have hg := hi n
          rw [hx, Option.map_some] at hg
          have := hrepl' n x (hused' n (Dict.mem_keys_of_mem (Dict.mem_of_get? hg))) hg
          exact ⟨this.1, this.2.1⟩
        · intro n hn hx
          have hg := hi n
          rw [hx, Option.map_none] at hg
          refine ⟨saved' n, hkeep' n hn (by intro y hy; rw [hg] at hy; cases hy), ?_⟩
          exact hplain' n hn (by intro y hy; rw [hg] at hy; cases hy)

theorem forall₂_getLast {α β : Type} {R : α → β → Prop} {as : List α} {bs : List β}
    (h : List.Forall₂ R as bs) {b : β} (hb : bs.getLast? = some b) :
    ∃ a, as.getLast? = some a ∧ R a b := by
  induction h with
  | nil => simp at hb
  | @cons a b' as bs hab h ih =>
    cases h with
    | nil =>
      simp only [List.getLast?_singleton, Option.some.injEq] at hb
      subst hb
      exact ⟨a, rfl, hab⟩
    | cons h1 h2 =>
      rw [List.getLast?_cons_cons] at hb ⊢
      exact ih hb

/-! ## C94 -/

/-- C94, for the script: if the script gets as far as the reconstruction, then the managers are those
that are saved, with the modules the settings ask for; the models are all their models, in their
order; and the data handler is the one of the last manager, in which every module that was made is in
use and all others are the saved ones. -/
theorem C94_script (L : LoadEnv V D) (fs : FS V D) (k : Nat) (make : Make V D) (c : ScriptConfig)
    (ps : List Place) (dh : Option (Comp V D)) (models : List (Comp V D))
    (hhook : UpdateHookOk L.update) (hdeps : ∀ p d, fs p = some (.config d) → d.deps.Nodup)
    (h : script L fs k make c ps = .ok (dh, models)) :
    ∃ misc label data managers ls last manager,
      scriptModules make c = .ok (misc, label, data) ∧
      List.Forall₂ (fun p m => LoadedAs fs p.dir (replacements misc label data) m) ps managers ∧
      List.Forall₂ ModelsAre managers ls ∧ models = ls.flatten ∧
      ps.getLast? = some last ∧ managers.getLast? = some manager ∧
      dh = Dict.get? manager.subs "data_handler" ∧
      ((misc ≠ none ∨ label ≠ none ∨ data ≠ none) →
        ∃ handler, dh = some handler ∧
          UsesModules fs (last.dir ++ ["data_handler"]) misc label data handler) := by
  unfold script at h
  split at h
  · cases h
  · rename_i misc label data hm
    split at h
    · cases h
    · rename_i loaded hl
      have hload := loadCopied_spec L fs k _ hhook hdeps hl
      obtain ⟨⟨ls, hls, hml⟩, m, hlast, hdh⟩ := parts_spec h
      obtain ⟨last, hlp, hlm⟩ := forall₂_getLast hload hlast
      refine ⟨misc, label, data, loaded, ls, last, m, hm, hload, hls, hml, hlp, hlast, hdh, ?_⟩
      intro hask
      obtain ⟨handler, h1, h2⟩ := handler_spec fs misc label data last.dir m hlm hask
      exact ⟨handler, by rw [hdh, h1], h2⟩

/-- C94 for the configurator, one manager: as for the script. Missing: more managers, see
`C94_ensemble_violated`. -/
theorem C94_configurator_partial (L : LoadEnv V D) (fs : FS V D) (k : Nat) (make : Make V D)
    (c : RecoConfig) (r : Request) (p : Place) (dh : Option (Comp V D)) (models : List (Comp V D))
    (hhook : UpdateHookOk L.update) (hdeps : ∀ p d, fs p = some (.config d) → d.deps.Nodup)
    (h : configurator L fs k make c r [p] = .ok (dh, models)) :
    ∃ misc label data manager,
      requestedModules make c r = .ok (misc, label, data) ∧
      LoadedAs fs p.dir (replacements misc label data) manager ∧
      ModelsAre manager models ∧ dh = Dict.get? manager.subs "data_handler" ∧
      ((misc ≠ none ∨ label ≠ none ∨ data ≠ none) →
        ∃ handler, dh = some handler ∧
          UsesModules fs (p.dir ++ ["data_handler"]) misc label data handler) := by
  unfold configurator at h
  split at h
  · cases h
  · rename_i misc label data hm
    split at h
    · cases h
    · rename_i loaded hl
      obtain ⟨m, rest, rfl, h1, h2⟩ := loadShared_cons L fs k p [] _ _ hl
      simp only [loadCopied, Except.ok.injEq] at h2
      subst h2
      have hload := loadCopied_spec L fs k _ hhook hdeps h1
      cases hload with
      | cons hm1 _ =>
        obtain ⟨⟨ls, hls, hml⟩, m', hlast, hdh⟩ := parts_spec h
        simp only [List.getLast?_singleton, Option.some.injEq] at hlast
        subst hlast
        cases hls with
        | cons hma hrest =>
          cases hrest
          simp only [List.flatten_cons, List.flatten_nil, List.append_nil] at hml
          subst hml
          refine ⟨misc, label, data, m, hm, hm1, hma, hdh, fun hask => ?_⟩
          obtain ⟨handler, e1, e2⟩ := handler_spec fs misc label data p.dir m hm1 hask
          exact ⟨handler, by rw [hdh, e1], e2⟩

/-- C94 fails for the configurator with more than one manager, whatever the user asks for: all managers
but the first are loaded as they were saved, because the first one takes the replacements out of the
dictionary the others are given; and the data handler is the one of the last manager. -/
theorem C94_ensemble_violated (L : LoadEnv V D) (fs : FS V D) (k : Nat) (make : Make V D)
    (c : RecoConfig) (r : Request) (p q : Place) (ps : List Place) (dh : Option (Comp V D))
    (models : List (Comp V D)) (hhook : UpdateHookOk L.update)
    (hdeps : ∀ p d, fs p = some (.config d) → d.deps.Nodup)
    (h : configurator L fs k make c r (p :: q :: ps) = .ok (dh, models)) :
    ∃ last manager, (q :: ps).getLast? = some last ∧ LoadedAs fs last.dir [] manager ∧
      dh = Dict.get? manager.subs "data_handler" := by
  unfold configurator at h
  split at h
  · cases h
  · rename_i misc label data hm
    split at h
    · cases h
    · rename_i loaded hl
      obtain ⟨m, rest, rfl, h1, h2⟩ := loadShared_cons L fs k p (q :: ps) _ _ hl
      have hload := loadCopied_spec L fs k _ hhook hdeps h2
      obtain ⟨-, m', hlast, hdh⟩ := parts_spec h
      have hrne : rest ≠ [] := by
        rintro rfl; cases hload
      rw [List.getLast?_cons_of_ne_nil hrne] at hlast
      obtain ⟨last, e1, e2⟩ := forall₂_getLast hload hlast
      exact ⟨last, m', e1, e2, hdh⟩

/-! ### An example -/

/-- A data handler with a module. -/
def exHandler (x : Nat) : Comp Nat Nat :=
  { cls := "pkg.Handler", configured := true, data := none, attrs := []
    subs := [("data_module", exLeaf 1), ("misc_module", exLeaf x)]
    conf := some
      { dict := ⟨"1", "s", "pkg.Handler", [], [], [],
          [("data_module", ⟨"1", "s", "pkg.Leaf", [], [("x", 1)], [("y", 2)], [], [], []⟩),
           ("misc_module", ⟨"1", "s", "pkg.Leaf", [], [("x", x)], [("y", 2)], [], [], []⟩)],
          ["data_module", "misc_module"], ["data_module", "misc_module"]⟩
        config := [] } }

/-- A manager with a data handler and a model. -/
def exManager (x : Nat) : Comp Nat Nat :=
  { cls := "pkg.Manager", configured := true, data := none, attrs := []
    subs := [("data_handler", exHandler x), ("models_0000", exLeaf (10 + x))]
    conf := some
      { dict := ⟨"1", "s", "pkg.Manager", [], [], [],
          [("data_handler", ⟨"1", "s", "pkg.Handler", [], [], [], [], [], []⟩),
           ("models_0000", ⟨"1", "s", "pkg.Leaf", [], [("x", 10 + x)], [("y", 2)], [], [], []⟩)],
          ["data_handler", "models_0000"], []⟩
        config := [] } }

/-- What is written when two managers are saved. -/
def exEffects : List (Eff Nat Nat) :=
  ((exManager 3).save false false (fun _ => none) [] "a").1 ++
  ((exManager 4).save false false (fun _ => none) [] "b").1

/-- Two saved managers. -/
def exDisk : FS Nat Nat := applyAll (fun _ => none) exEffects

theorem exDisk_deps : ∀ p d, exDisk p = some (.config d) → d.deps.Nodup := by
  intro p d h
  rcases applyAll_source _ _ _ _ h with h | h | h
  · cases h
  · cases h
  · have hall : exEffects.all (fun e => match e with
            | .write _ (.config d) => decide d.deps.Nodup
            | _ => true) = true := by decide
    have := List.all_eq_true.1 hall _ h
    simpa using this

/-- Modules are leaves with the number of their settings. -/
def exMake : Make Nat Nat := fun _ _ s => .ok (exLeaf (100 + s.length))

/-- The settings of the reconstruction. -/
def exReco : RecoConfig :=
  { reco := [("seed", .text "reco"), ("seed_parameter_names", .list []),
      ("seed_float_precision", .text "float32"), ("seed_missing_value", .num 0),
      ("seed_missing_value_dict", .num 1)]
    label := ⟨"labels.Labels", []⟩
    data := ⟨"data.Data", [("key", .num 1)]⟩ }

/-- The user asks for seeds. -/
def exRequest : Request :=
  { loadLabels := true, misc := [("seed_names", .list [.text "seed"])], label := [], data := [] }

/-- The same for the script. -/
def exScript : ScriptConfig :=
  { seed := .many ["seed", "x_parameters"], reco := exReco.reco, label := none, data := none }

/-- The data of the misc module in use. -/
def miscData (r : Except Err (Option (Comp Nat Nat) × List (Comp Nat Nat))) :
    Option (Dict String Nat) :=
  match r with
  | .ok (some h, _) => (Dict.get? h.subs "misc_module").bind Comp.data
  | _ => none

/-- The data of the models. -/
def modelData (r : Except Err (Option (Comp Nat Nat) × List (Comp Nat Nat))) :
    List (Option (Dict String Nat)) :=
  match r with
  | .ok (_, ms) => ms.map Comp.data
  | _ => []

-- the hypotheses of the theorems hold, and the script uses the requested seeds, as does the
-- configurator for one manager; for two managers it uses the saved module of the second
example : UpdateHookOk exLoad.update ∧
    miscData (script exLoad exDisk 4 exMake exScript
      [⟨[], "a", "pkg.Manager"⟩, ⟨[], "b", "pkg.Manager"⟩]) = some [("mean", 105)] ∧
    modelData (script exLoad exDisk 4 exMake exScript
      [⟨[], "a", "pkg.Manager"⟩, ⟨[], "b", "pkg.Manager"⟩]) =
      [some [("mean", 13)], some [("mean", 14)]] ∧
    miscData (configurator exLoad exDisk 4 exMake exReco exRequest
      [⟨[], "b", "pkg.Manager"⟩]) = some [("mean", 105)] ∧
    miscData (configurator exLoad exDisk 4 exMake exReco exRequest
      [⟨[], "a", "pkg.Manager"⟩, ⟨[], "b", "pkg.Manager"⟩]) = some [("mean", 4)] :=
  ⟨fun c _ _ => ⟨rfl, rfl, fun conf h => ⟨conf, h, rfl⟩⟩, by decide, by decide, by decide, by decide⟩

/-! ## C95 -/

omit [DecidableEq V] in
theorem kept_spec (fs : FS V D) (misc label data : Option (Comp V D)) (dir : Path)
    (m : Comp V D) (h : LoadedAs fs dir (replacements misc label data) m) (slot : String)
    (hno : asked misc label data slot = none) (handler : Comp V D)
    (hh : Dict.get? m.subs "data_handler" = some handler)
    (hin : HasHandler fs dir) : Kept fs (dir ++ ["data_handler"]) slot handler := by
  intro d hd hslot
  rcases replacements_inner misc label data with ⟨rfl, rfl, rfl, he⟩ | ⟨inner, -, -, hask⟩
  · rw [he] at h
    cases h with
    | mk _ _ _ d1 saved hfile hcls hcfg hused hplain hnested hkeep hrepl hrecord =>
      have hdep := hin _ hfile
      have hnone : ∀ (n : String) (x : Mod V D), Dict.get? ([] : Dict String (Mod V D)) n ≠ some x := by
        intro n x hx; cases hx
      have hl := hplain _ hdep (fun c => hnone _ _)
      have hs := hkeep _ hdep (fun c => hnone _ _)
      rw [hh, Option.some.injEq] at hs
      have hstem : stem "data_handler" = "data_handler" := by decide
      rw [hstem, ← hs] at hl
      cases hl with
      | mk _ _ _ d' saved' hfile' hcls' hcfg' hused' hplain' hnested' hkeep' hrepl' hrecord' =>
        rw [hfile'] at hd
        cases hd
        exact ⟨saved' slot, hkeep' slot hslot (fun c => hnone _ _), hplain' slot hslot (fun c => hnone _ _)⟩
  · obtain ⟨handler', e1, e2, d', hd', hrest⟩ := handler_spec fs misc label data dir m h hask
    rw [hh, Option.some.injEq] at e1
    subst e1
    rw [hd'] at hd
    cases hd
    exact hrest slot hslot hno

omit [DecidableEq V] in
theorem has_handler (fs : FS V D) (misc label data : Option (Comp V D)) (dir : Path)
    (m : Comp V D) (h : LoadedAs fs dir (replacements misc label data) m) (hin : HasHandler fs dir) :
    ∃ handler, Dict.get? m.subs "data_handler" = some handler := by
  rcases replacements_inner misc label data with ⟨rfl, rfl, rfl, he⟩ | ⟨inner, -, -, hask⟩
  · rw [he] at h
    cases h with
    | mk _ _ _ d1 saved hfile hcls hcfg hused hplain hnested hkeep hrepl hrecord =>
      exact ⟨_, hkeep _ (hin _ hfile) (fun c hx => by cases hx)⟩
  · obtain ⟨handler, e1, -⟩ := handler_spec fs misc label data dir m h hask
    exact ⟨handler, e1⟩

omit [DecidableEq V] in
/-- What is at a slot: what was asked for, or else what was saved. -/
theorem slot_spec (fs : FS V D) (misc label data : Option (Comp V D)) (dir : Path)
    (m : Comp V D) (h : LoadedAs fs dir (replacements misc label data) m)
    (hin : HasHandler fs dir) :
    ∃ handler, Dict.get? m.subs "data_handler" = some handler ∧ ∀ slot,
      match asked misc label data slot with
      | some x => Dict.get? handler.subs slot = some x
      | none => Kept fs (dir ++ ["data_handler"]) slot handler := by
  obtain ⟨handler, hh⟩ := has_handler fs misc label data dir m h hin
  refine ⟨handler, hh, fun slot => ?_⟩
  cases ha : asked misc label data slot with
  | none => exact kept_spec fs misc label data dir m h slot ha handler hh hin
  | some x =>
    have hask : misc ≠ none ∨ label ≠ none ∨ data ≠ none := by
      by_contra hc
      push Not at hc
      obtain ⟨rfl, rfl, rfl⟩ := hc
      simp [asked] at ha
    obtain ⟨handler', e1, e2, -⟩ := handler_spec fs misc label data dir m h hask
    rw [hh, Option.some.injEq] at e1
    subst e1
    exact (e2 slot x ha).1

theorem overwritten_update (base updates : Dict String Val) (h : Dict.Ok updates) :
    Overwritten base updates (Dict.update base updates) := by
  intro k
  rw [Dict.get?_update _ _ h]
  cases Dict.get? updates k <;> rfl

theorem overwritten_nil (base : Dict String Val) : Overwritten base [] base := fun _ => rfl

theorem look_ok {d : Dict String Val} {k : String} {v : Val} (h : look d k = .ok v) :
    Dict.get? d k = some v := by
  unfold look at h
  split at h
  · cases h
  · rename_i w hw
    cases h
    exact hw

theorem seedSettings_spec {reco : Dict String Val} {names : Val} {s : Dict String Val}
    (h : seedSettings reco names = .ok s) : SeedBase reco names s := by
  unfold seedSettings at h
  split at h
  · rename_i a b c d h1 h2 h3 h4
    cases h
    refine ⟨by simp [Dict.get?_cons], ⟨a, look_ok h1, by simp [Dict.get?_cons]⟩,
      ⟨b, look_ok h2, by simp [Dict.get?_cons]⟩, ⟨c, look_ok h3, by simp [Dict.get?_cons]⟩,
      ⟨d, look_ok h4, by simp [Dict.get?_cons]⟩, ?_⟩
    intro k hk
    simpa [Dict.keys] using hk
  · cases h

omit [DecidableEq V] in
theorem makeOpt_none {make : Make V D} {kind : String} {x : Option (Comp V D)}
    (h : makeOpt make kind none = .ok x) : x = none := by
  simp only [makeOpt, Except.ok.injEq] at h
  exact h.symm

omit [DecidableEq V] in
theorem makeOpt_some {make : Make V D} {kind : String} {c : Choice} {x : Option (Comp V D)}
    (h : makeOpt make kind (some c) = .ok x) : ∃ m, x = some m ∧ make kind c.cls c.settings = .ok m := by
  simp only [makeOpt] at h
  split at h
  · cases h
  · rename_i m hm
    cases h
    exact ⟨m, rfl, hm⟩

omit [DecidableEq V] in
theorem requestedModules_ok {make : Make V D} {c : RecoConfig} {r : Request}
    {misc label data : Option (Comp V D)} (h : requestedModules make c r = .ok (misc, label, data)) :
    (∃ ms, miscSettings c.reco r.misc = .ok ms ∧
      makeOpt make "misc" (ms.map fun s => ⟨"seed_loader.SeedLoaderMiscModule", s⟩) = .ok misc) ∧
    makeOpt make "labels" (labelChoice r.loadLabels c.label r.label) = .ok label ∧
    makeOpt make "data" (dataChoice c.data r.data) = .ok data := by
  unfold requestedModules at h
  split at h
  · cases h
  · rename_i ms hms
    split at h
    · cases h
    · rename_i misc' h1
      split at h
      · cases h
      · rename_i label' h2
        split at h
        · cases h
        · rename_i data' h3
          cases h
          exact ⟨⟨ms, hms, h1⟩, h2, h3⟩

/-- The situation of the theorems on the configurator: it gets as far as the reconstruction with one
saved manager that has a data handler, and what the user asks for are dictionaries. -/
structure Configured (L : LoadEnv V D) (fs : FS V D) (k : Nat) (make : Make V D)
    (c : RecoConfig) (r : Request) (p : Place) (dh : Option (Comp V D)) (models : List (Comp V D)) :
    Prop where
  hook : UpdateHookOk L.update
  deps : ∀ p d, fs p = some (.config d) → d.deps.Nodup
  handler : HasHandler fs p.dir
  misc : Dict.Ok r.misc
  label : Dict.Ok r.label
  data : Dict.Ok r.data
  run : configurator L fs k make c r [p] = .ok (dh, models)

theorem Configured.slots {L : LoadEnv V D} {fs : FS V D} {k : Nat} {make : Make V D}
    {c : RecoConfig} {r : Request} {p : Place} {dh : Option (Comp V D)} {models : List (Comp V D)}
    (h : Configured L fs k make c r p dh models) :
    ∃ misc label data handler, requestedModules make c r = .ok (misc, label, data) ∧
      dh = some handler ∧ ∀ slot,
      match asked misc label data slot with
      | some x => Dict.get? handler.subs slot = some x
      | none => Kept fs (p.dir ++ ["data_handler"]) slot handler := by
  obtain ⟨misc, label, data, manager, h1, h2, -, h4, -⟩ :=
    C94_configurator_partial L fs k make c r p dh models h.hook h.deps h.run
  obtain ⟨handler, h5, h6⟩ := slot_spec fs misc label data p.dir manager h2 h.handler
  exact ⟨misc, label, data, handler, h1, by rw [h4, h5], h6⟩

/-- C95, data: with one manager, if the user asks for other settings of the data module, the data
handler uses a module of the same class with the settings of the configuration file overwritten by
those asked for; if the user asks for none, it uses the saved module. -/
theorem C95_data (L : LoadEnv V D) (fs : FS V D) (k : Nat) (make : Make V D) (c : RecoConfig)
    (r : Request) (p : Place) (dh : Option (Comp V D)) (models : List (Comp V D))
    (h : Configured L fs k make c r p dh models) :
    ∃ handler, dh = some handler ∧
      (r.data ≠ [] → InUse make "data" c.data.cls "data_module" c.data.settings r.data handler) ∧
      (r.data = [] → Kept fs (p.dir ++ ["data_handler"]) "data_module" handler) := by
  obtain ⟨misc, label, data, handler, h1, h2, h3⟩ := h.slots
  obtain ⟨-, -, hd⟩ := requestedModules_ok h1
  have h3 := h3 "data_module"
  have ha : asked misc label data "data_module" = data := by simp [asked]
  rw [ha] at h3
  refine ⟨handler, h2, fun hne => ?_, fun he => ?_⟩
  · have : dataChoice c.data r.data = some ⟨c.data.cls, Dict.update c.data.settings r.data⟩ := by
      cases hr : r.data with
      | nil => exact absurd hr hne
      | cons a l => simp [dataChoice]
    rw [this] at hd
    obtain ⟨m, rfl, hm⟩ := makeOpt_some hd
    exact ⟨_, m, overwritten_update _ _ h.data, hm, h3⟩
  · have : dataChoice c.data r.data = none := by simp [dataChoice, he]
    rw [this] at hd
    rw [makeOpt_none hd] at h3
    exact h3

/-- C95, labels: with one manager, no labels are loaded if the user does not want any; otherwise the
label module is as described for the data module. -/
theorem C95_labels (L : LoadEnv V D) (fs : FS V D) (k : Nat) (make : Make V D) (c : RecoConfig)
    (r : Request) (p : Place) (dh : Option (Comp V D)) (models : List (Comp V D))
    (h : Configured L fs k make c r p dh models) :
    ∃ handler, dh = some handler ∧
      (r.loadLabels = false →
        InUse make "labels" "dummy.DummyLabelModule" "label_module" [] [] handler) ∧
      (r.loadLabels = true → r.label ≠ [] →
        InUse make "labels" c.label.cls "label_module" c.label.settings r.label handler) ∧
      (r.loadLabels = true → r.label = [] →
        Kept fs (p.dir ++ ["data_handler"]) "label_module" handler) := by
  obtain ⟨misc, label, data, handler, h1, h2, h3⟩ := h.slots
  obtain ⟨-, hd, -⟩ := requestedModules_ok h1
  have h3 := h3 "label_module"
  have ha : asked misc label data "label_module" = label := by simp [asked]
  rw [ha] at h3
  refine ⟨handler, h2, fun hl => ?_, fun hl hne => ?_, fun hl he => ?_⟩
  · have : labelChoice r.loadLabels c.label r.label = some ⟨"dummy.DummyLabelModule", []⟩ := by
      simp [labelChoice, hl]
    rw [this] at hd
    obtain ⟨m, rfl, hm⟩ := makeOpt_some hd
    exact ⟨_, m, overwritten_nil _, hm, h3⟩
  · have : labelChoice r.loadLabels c.label r.label =
        some ⟨c.label.cls, Dict.update c.label.settings r.label⟩ := by
      cases hr : r.label with
      | nil => exact absurd hr hne
      | cons a l => simp [labelChoice, hl]
    rw [this] at hd
    obtain ⟨m, rfl, hm⟩ := makeOpt_some hd
    exact ⟨_, m, overwritten_update _ _ h.label, hm, h3⟩
  · have : labelChoice r.loadLabels c.label r.label = none := by simp [labelChoice, he, hl]
    rw [this] at hd
    rw [makeOpt_none hd] at h3
    exact h3

theorem isLabels_iff (v : Val) : v.isLabels = true ↔ v = .list [.text "x_parameters"] := by
  constructor
  · intro h
    unfold Val.isLabels at h
    split at h
    · simp only [beq_iff_eq] at h
      rw [h]
    · cases h
  · rintro rfl
    rfl

/-- C95, seeds: with one manager, if the names of the seeds that the user asks for are not just the
labels, the data handler uses a module for seeds with the settings of the configuration file
overwritten by those asked for. Missing: other settings, see `C95_misc_violated`. -/
theorem C95_misc_partial (L : LoadEnv V D) (fs : FS V D) (k : Nat) (make : Make V D)
    (c : RecoConfig) (r : Request) (p : Place) (dh : Option (Comp V D)) (models : List (Comp V D))
    (h : Configured L fs k make c r p dh models) (hseeds : AsksForSeeds r.misc) :
    ∃ handler seed base, dh = some handler ∧ Dict.get? c.reco "seed" = some seed ∧
      SeedBase c.reco (.list [seed]) base ∧
      InUse make "misc" "seed_loader.SeedLoaderMiscModule" "misc_module" base r.misc handler := by
  obtain ⟨misc, label, data, handler, h1, h2, h3⟩ := h.slots
  obtain ⟨⟨ms, hms, hd⟩, -, -⟩ := requestedModules_ok h1
  have h3 := h3 "misc_module"
  have ha : asked misc label data "misc_module" = misc := by simp [asked]
  rw [ha] at h3
  obtain ⟨v, hv, hne⟩ := hseeds
  have hl : v.isLabels = false := by
    rw [← Bool.not_eq_true, isLabels_iff]; exact hne
  unfold miscSettings at hms
  simp only [hv, hl, Bool.false_eq_true, if_false] at hms
  split at hms
  · cases hms
  · rename_i seed hseed
    split at hms
    · cases hms
    · rename_i base hb
      cases hms
      obtain ⟨m, rfl, hm⟩ := makeOpt_some hd
      exact ⟨handler, seed, base, h2, look_ok hseed, seedSettings_spec hb, _, m,
        overwritten_update _ _ h.misc, hm, h3⟩

/-- C95 fails for other settings of the seeds: whatever else the user asks for, if the names of the
seeds are not given or are just the labels, the saved module is used and no error is reported. -/
theorem C95_misc_violated (L : LoadEnv V D) (fs : FS V D) (k : Nat) (make : Make V D)
    (c : RecoConfig) (r : Request) (p : Place) (dh : Option (Comp V D)) (models : List (Comp V D))
    (h : Configured L fs k make c r p dh models) (hseeds : ¬ AsksForSeeds r.misc) :
    ∃ handler, dh = some handler ∧
      Kept fs (p.dir ++ ["data_handler"]) "misc_module" handler := by
  obtain ⟨misc, label, data, handler, h1, h2, h3⟩ := h.slots
  obtain ⟨⟨ms, hms, hd⟩, -, -⟩ := requestedModules_ok h1
  have h3 := h3 "misc_module"
  have ha : asked misc label data "misc_module" = misc := by simp [asked]
  rw [ha] at h3
  have : ms = none := by
    unfold miscSettings at hms
    cases hv : Dict.get? r.misc "seed_names" with
    | none => simp only [hv, Except.ok.injEq] at hms; exact hms.symm
    | some v =>
      have hl : v.isLabels = true := by
        rw [isLabels_iff]
        by_contra hne
        exact hseeds ⟨v, hv, hne⟩
      simp only [hv, hl, if_true, Except.ok.injEq] at hms
      exact hms.symm
  subst this
  rw [makeOpt_none hd] at h3
  exact ⟨handler, h2, h3⟩

omit [DecidableEq V] in
theorem scriptModules_ok {make : Make V D} {c : ScriptConfig} {misc label data : Option (Comp V D)}
    (h : scriptModules make c = .ok (misc, label, data)) :
    (c.seed.names = [] → misc = none) ∧
    (c.seed.names ≠ [] → ∃ s m, seedSettings c.reco (.list (c.seed.names.map .text)) = .ok s ∧
      misc = some m ∧ make "misc" "seed_loader.SeedLoaderMiscModule" s = .ok m) ∧
    makeOpt make "labels" c.label = .ok label ∧ makeOpt make "data" c.data = .ok data := by
  unfold scriptModules at h
  simp only at h
  split at h
  · cases h
  · rename_i misc' h1
    split at h
    · cases h
    · rename_i label' h2
      split at h
      · cases h
      · rename_i data' h3
        cases h
        refine ⟨fun he => ?_, fun hne => ?_, h2, h3⟩
        · rw [he] at h1
          simp only [List.isEmpty_nil, if_true, Except.ok.injEq] at h1
          exact h1.symm
        · have : c.seed.names.isEmpty = false := by simpa using hne
          rw [this] at h1
          simp only [Bool.false_eq_true, if_false] at h1
          split at h1
          · cases h1
          · rename_i s hs
            obtain ⟨m, rfl, hm⟩ := makeOpt_some h1
            exact ⟨s, m, hs, rfl, hm⟩

/-- C95 for the script, any number of managers: the data handler, that of the last manager, uses the
seeds of the configuration file other than the labels, in their order, if there are any; and the label
and data modules of the configuration file; and the saved modules for those that are not given. -/
theorem C95_script (L : LoadEnv V D) (fs : FS V D) (k : Nat) (make : Make V D) (c : ScriptConfig)
    (ps : List Place) (dh : Option (Comp V D)) (models : List (Comp V D))
    (hhook : UpdateHookOk L.update) (hdeps : ∀ p d, fs p = some (.config d) → d.deps.Nodup)
    (hin : ∀ p ∈ ps, HasHandler fs p.dir)
    (h : script L fs k make c ps = .ok (dh, models)) :
    ∃ last handler names, ps.getLast? = some last ∧ dh = some handler ∧
      names = (match c.seed with | .one s => [s] | .many l => l).filter (fun n => n ≠ "x_parameters") ∧
      (names ≠ [] → ∃ base, SeedBase c.reco (.list (names.map .text)) base ∧
        InUse make "misc" "seed_loader.SeedLoaderMiscModule" "misc_module" base [] handler) ∧
      (names = [] → Kept fs (last.dir ++ ["data_handler"]) "misc_module" handler) ∧
      Served fs (last.dir ++ ["data_handler"]) make "labels" "label_module" handler c.label ∧
      Served fs (last.dir ++ ["data_handler"]) make "data" "data_module" handler c.data := by
  obtain ⟨misc, label, data, managers, ls, last, manager, h1, h2, -, -, h5, h6, h7, -⟩ :=
    C94_script L fs k make c ps dh models hhook hdeps h
  obtain ⟨last', hl', hload⟩ := forall₂_getLast h2 h6
  rw [h5, Option.some.injEq] at hl'
  subst hl'
  obtain ⟨handler, h8, h9⟩ := slot_spec fs misc label data last.dir manager hload
    (hin last (List.mem_of_getLast? h5))
  obtain ⟨s1, s2, s3, s4⟩ := scriptModules_ok h1
  have e1 := h9 "misc_module"
  have e2 := h9 "label_module"
  have e3 := h9 "data_module"
  have a1 : asked misc label data "misc_module" = misc := by simp [asked]
  have a2 : asked misc label data "label_module" = label := by simp [asked]
  have a3 : asked misc label data "data_module" = data := by simp [asked]
  rw [a1] at e1
  rw [a2] at e2
  rw [a3] at e3
  refine ⟨last, handler, c.seed.names, h5, by rw [h7, h8], ?_, fun hne => ?_, fun he => ?_, ?_, ?_⟩
  · unfold Seeds.names
    congr 1
    funext n
    rw [bne, beq_eq_decide, ← decide_not]
  · obtain ⟨s, m, hs, rfl, hm⟩ := s2 hne
    exact ⟨s, seedSettings_spec hs, s, m, overwritten_nil _, hm, e1⟩
  · rw [s1 he] at e1
    exact e1
  · cases hc : c.label with
    | none => rw [hc] at s3; rw [makeOpt_none s3] at e2; exact e2
    | some x =>
      rw [hc] at s3
      obtain ⟨m, rfl, hm⟩ := makeOpt_some s3
      exact ⟨_, m, overwritten_nil _, hm, e2⟩
  · cases hc : c.data with
    | none => rw [hc] at s4; rw [makeOpt_none s4] at e3; exact e3
    | some x =>
      rw [hc] at s4
      obtain ⟨m, rfl, hm⟩ := makeOpt_some s4
      exact ⟨_, m, overwritten_nil _, hm, e3⟩

/-! ### An example -/

theorem exDisk_handler : HasHandler exDisk ["b"] := by
  intro d h
  rcases applyAll_source _ _ _ _ h with h | h | h
  · cases h
  · cases h
  · have hall : exEffects.all (fun e => match e with
            | .write p (.config d) =>
              !decide (p = ["b"] ++ ["configuration.yaml"]) || decide ("data_handler" ∈ d.deps)
            | _ => true) = true := by decide
    have := List.all_eq_true.1 hall _ h
    simpa using this

/-- The user asks for a missing value, but not for names of seeds. -/
def exRequest2 : Request :=
  { loadLabels := true, misc := [("missing_value", .num 7)], label := [], data := [] }

/-- The user asks for another setting of the data module. -/
def exRequest3 : Request :=
  { loadLabels := true, misc := [], label := [], data := [("key", .num 2), ("other", .num 3)] }

theorem exConfigured (r : Request) (h1 : Dict.Ok r.misc) (h2 : Dict.Ok r.label) (h3 : Dict.Ok r.data)
    (h : (configurator exLoad exDisk 4 exMake exReco r [⟨[], "b", "pkg.Manager"⟩]).toBool = true) :
    ∃ dh models, Configured exLoad exDisk 4 exMake exReco r ⟨[], "b", "pkg.Manager"⟩ dh models := by
  cases hc : configurator exLoad exDisk 4 exMake exReco r [⟨[], "b", "pkg.Manager"⟩] with
  | error e => rw [hc] at h; cases h
  | ok x => exact ⟨x.1, x.2, fun c _ _ => ⟨rfl, rfl, fun conf h => ⟨conf, h, rfl⟩⟩, exDisk_deps,
      exDisk_handler, h1, h2, h3, hc⟩

-- both cases for the seeds occur: names of seeds are asked for and used; only another setting is
-- asked for, and the saved module is used
example :
    (∃ dh models, Configured exLoad exDisk 4 exMake exReco exRequest ⟨[], "b", "pkg.Manager"⟩ dh
      models) ∧ AsksForSeeds exRequest.misc ∧
    (∃ dh models, Configured exLoad exDisk 4 exMake exReco exRequest2 ⟨[], "b", "pkg.Manager"⟩ dh
      models) ∧ ¬ AsksForSeeds exRequest2.misc ∧
    miscData (configurator exLoad exDisk 4 exMake exReco exRequest2
      [⟨[], "b", "pkg.Manager"⟩]) = some [("mean", 4)] := by
  refine ⟨exConfigured _ ?_ ?_ ?_ (by decide), ⟨_, rfl, by simp⟩, exConfigured _ ?_ ?_ ?_ (by decide),
    ?_, by decide⟩
  any_goals (unfold Dict.Ok; decide)
  rintro ⟨v, h, -⟩
  cases h

-- other settings of the data module are asked for
example : (∃ dh models, Configured exLoad exDisk 4 exMake exReco exRequest3
      ⟨[], "b", "pkg.Manager"⟩ dh models) ∧ exRequest3.data ≠ [] := by
  refine ⟨exConfigured _ ?_ ?_ ?_ (by decide), by simp [exRequest3]⟩
  all_goals (unfold Dict.Ok; decide)

end Verif.Deploy
