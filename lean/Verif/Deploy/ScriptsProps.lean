import Verif.Deploy.ScriptsLemmas
import Mathlib.Data.List.Forall2

/-!
# Properties of scripts that write managers and transformations: C96 to C98
-/

namespace Verif.Deploy
open Verif.Py Verif.Component
variable {W : Type}

/-! ## C96 -/

theorem stepsOf_free {disk : Disk W} {d : Path} (h : Free disk d) (i : Nat) :
    stepsOf disk (d ++ [modelName i]) = [] := by
  unfold stepsOf
  rw [h.get? (below_steps d i)]

theorem history_iff (disk : Disk W) (d : Path) (k : Nat) (l : List Nat) :
    History disk d k l ↔ ∀ i < k, Dict.get? disk (stepsFile (d ++ [modelName i])) = some (.steps l) := by
  have e : ∀ i, d ++ ["models_" ++ pad4 i, "training", "training_steps.yaml"] =
      stepsFile (d ++ [modelName i]) := by simp [stepsFile, modelName]
  unfold History
  simp only [e]

theorem outside_rmtree (disk : Disk W) (d : Path) : Outside d disk (rmtree disk d) :=
  ⟨untouched_rmtree disk d, free_rmtree disk d⟩

/-- C96, training from scratch, for directories without an extension: if nothing is in the directory,
or the user agrees to delete it, the models are trained for all iterations, saved with their final
weights so that they can be loaded, and have one training step. Missing: directories with an extension,
see `C96_violated`. -/
theorem C96_scratch_partial (restore answer : Bool) (build : Disk W → Except Err (List W))
    (learn : Nat → W → W) (n freq : Nat) (l : Loc) (disk : Disk W) (ws : List W)
    (hplain : l.Plain) (hn : n ≠ 0) (hf : freq ≠ 0)
    (hstart : Free disk l.path ∨
      restore = false ∧ l.path ++ ["configuration.yaml"] ∈ Dict.keys disk ∧ answer = true)
    (hbuild : ∀ disk', Outside l.path disk disk' → build disk' = .ok ws) :
    (train restore answer build learn n freq l disk).2 = none ∧
    Holds (train restore answer build learn n freq l disk).1 l.path l (ws.map (learn n)) ∧
    History (train restore answer build learn n freq l disk).1 l.path ws.length [n - 1] := by
  have hrun : ∃ disk', Outside l.path disk disk' ∧
      train restore answer build learn n freq l disk = trainManager learn n freq ⟨l, ws⟩ disk' := by
    rcases hstart with h | ⟨h1, h2, h3⟩
    · have ho : Outside l.path disk disk := ⟨Untouched.refl _ _, h⟩
      refine ⟨disk, ho, ?_⟩
      have hf : Dict.has disk (confFile l.path) = false := by
        rw [Dict.has_eq_false_iff]
        exact fun hk => h _ hk (List.prefix_append _ _)
      unfold train
      simp only [hf, Bool.and_false, Bool.false_and, Bool.false_eq_true, if_false, hbuild _ ho]
    · refine ⟨_, outside_rmtree disk l.path, ?_⟩
      have hf : Dict.has disk (confFile l.path) = true := (Dict.has_iff _ _).2 h2
      unfold train
      simp only [hf, h1, h3, Bool.not_true, Bool.and_false, Bool.false_and, Bool.false_eq_true,
        if_false, if_true, hbuild _ (outside_rmtree disk l.path)]
  obtain ⟨disk', ho, hrun⟩ := hrun
  rw [hrun]
  obtain ⟨h1, h2, h3⟩ := trainManager_ok learn n freq ⟨l, ws⟩ disk' hplain hn hf
  rw [hplain.dir_eq] at h2 h3
  refine ⟨h1, h2, ?_⟩
  rw [history_iff]
  intro i hi
  rw [h3 i hi, stepsOf_free ho.2]
  rfl

/-- C96, continued training, for directories without an extension: a manager that is saved in its own
directory is loaded, its models are trained from the saved weights on, and the iterations are recorded
as a further training step. The user is not asked. -/
theorem C96_continue_partial (answer : Bool) (build : Disk W → Except Err (List W))
    (learn : Nat → W → W) (n freq : Nat) (l : Loc) (disk : Disk W) (ws : List W) (hist : List Nat)
    (hplain : l.Plain) (hn : n ≠ 0) (hf : freq ≠ 0) (hsaved : Holds disk l.path l ws)
    (hhist : History disk l.path ws.length hist) :
    (train true answer build learn n freq l disk).2 = none ∧
    Holds (train true answer build learn n freq l disk).1 l.path l (ws.map (learn n)) ∧
    History (train true answer build learn n freq l disk).1 l.path ws.length (hist ++ [n - 1]) := by
  have hrun : train true answer build learn n freq l disk =
      trainManager learn n freq ⟨l, ws⟩ disk := by
    have hf : Dict.has disk (confFile l.path) = true :=
      (Dict.has_iff _ _).2 ((mem_keys_iff _ _).2 ⟨_, hsaved.manager⟩)
    have hl : loadManager disk l = .ok ⟨l, ws⟩ := by
      rw [loadManager_iff, hplain.dir_eq]; exact hsaved
    unfold train
    simp only [hf, Bool.and_self, if_true, hl]
  rw [hrun]
  obtain ⟨h1, h2, h3⟩ := trainManager_ok learn n freq ⟨l, ws⟩ disk hplain hn hf
  rw [hplain.dir_eq] at h2 h3
  refine ⟨h1, h2, ?_⟩
  rw [history_iff] at hhist ⊢
  intro i hi
  rw [h3 i hi]
  have : stepsOf disk (l.path ++ [modelName i]) = hist := by
    unfold stepsOf
    rw [hhist i hi]
  rw [this]

/-- A number of runs of the script that continue the training. -/
def trainRuns (build : Disk W → Except Err (List W)) (l : Loc) :
    List (Bool × (Nat → W → W) × Nat × Nat) → Disk W → Disk W × Option Err
  | [], disk => (disk, none)
  | (answer, learn, n, freq) :: rest, disk =>
    match train true answer build learn n freq l disk with
    | (disk, some e) => (disk, some e)
    | (disk, none) => trainRuns build l rest disk

/-- C96 for any number of runs: the weights of every run are those of the run before, trained on, and
all training steps are recorded in their order. -/
theorem C96_runs_partial (build : Disk W → Except Err (List W)) (l : Loc) (hplain : l.Plain) :
    ∀ (runs : List (Bool × (Nat → W → W) × Nat × Nat)) (disk : Disk W) (ws : List W)
      (hist : List Nat), (∀ r ∈ runs, r.2.2.1 ≠ 0 ∧ r.2.2.2 ≠ 0) → Holds disk l.path l ws →
      History disk l.path ws.length hist →
      (trainRuns build l runs disk).2 = none ∧
      Holds (trainRuns build l runs disk).1 l.path l
        (runs.foldl (fun ws r => ws.map (r.2.1 r.2.2.1)) ws) ∧
      History (trainRuns build l runs disk).1 l.path ws.length
        (hist ++ runs.map fun r => r.2.2.1 - 1) := by
  intro runs
  induction runs with
  | nil => intro disk ws hist _ h1 h2; exact ⟨rfl, h1, by simpa [trainRuns] using h2⟩
  | cons r rest ih =>
    obtain ⟨answer, learn, n, freq⟩ := r
    intro disk ws hist hr h1 h2
    obtain ⟨hn, hf⟩ := hr _ List.mem_cons_self
    obtain ⟨a1, a2, a3⟩ := C96_continue_partial answer build learn n freq l disk ws hist hplain hn hf
      h1 h2
    obtain ⟨x, hx⟩ : ∃ x, x = train true answer build learn n freq l disk := ⟨_, rfl⟩
    rw [← hx] at a1 a2 a3
    have hrun : trainRuns build l ((answer, learn, n, freq) :: rest) disk =
        trainRuns build l rest x.1 := by
      conv_lhs => unfold trainRuns
      rw [← hx]
      obtain ⟨x1, x2⟩ := x
      simp only at a1
      subst a1
      rfl
    rw [hrun]
    have := ih x.1 (ws.map (learn n)) (hist ++ [n - 1]) (fun r h => hr r (by simp [h])) a2
      (by rw [List.length_map]; exact a3)
    rw [List.length_map] at this
    obtain ⟨b1, b2, b3⟩ := this
    refine ⟨b1, b2, ?_⟩
    rw [List.append_assoc] at b3
    exact b3

theorem dir_not_below {l : Loc} (h : ¬ l.Plain) {p : Path} (hp : l.path <+: p) : ¬ l.dir <+: p := by
  intro hd
  obtain ⟨s, rfl⟩ := hp
  unfold Loc.dir Loc.path at hd
  rw [List.append_assoc, List.singleton_append, below_iff] at hd
  exact h hd

theorem free_of_same {a b : Disk W} {d : Path} (h : Free a d)
    (hs : ∀ p, d <+: p → Dict.get? b p = Dict.get? a p) : Free b d := by
  intro p hp hd
  rw [mem_keys_congr (hs p hd)] at hp
  exact h p hp hd

theorem free_saveManager {l : Loc} (hplain : ¬ l.Plain) (ow tr : Bool) (man : Man W) (disk : Disk W)
    (h : Free disk l.path) : Free (saveManager ow tr man l disk).1 l.path :=
  free_of_same h fun p hp => saveManager_untouched ow tr man l disk p (dir_not_below hplain hp)

/-- Training a manager whose directory has an extension. -/
theorem trainManager_dotted (learn : Nat → W → W) (n freq : Nat) (l : Loc) (ws : List W)
    (disk : Disk W) (hplain : ¬ l.Plain) (hws : ws ≠ []) (hfree : Free disk l.path) :
    (trainManager learn n freq ⟨l, ws⟩ disk).1 = (saveManager true true ⟨l, ws⟩ l disk).1 ∧
    (n ≠ 0 → freq ≠ 0 → (trainManager learn n freq ⟨l, ws⟩ disk).2 = some .ioError) := by
  obtain ⟨h1, -, -⟩ := saveManager_ok true true ⟨l, ws⟩ l disk (.inl rfl)
  have hfree' := free_saveManager hplain true true ⟨l, ws⟩ disk hfree
  obtain ⟨x, hx⟩ : ∃ x, x = saveManager true true ⟨l, ws⟩ l disk := ⟨_, rfl⟩
  rw [← hx] at h1 hfree' ⊢
  obtain ⟨x1, x2⟩ := x
  simp only at h1 hfree' ⊢
  subst h1
  have hsaves : ∀ s rest, saves l.path learn ws (s :: rest) x1 = (x1, some .ioError) := by
    intro s rest
    cases ws with
    | nil => exact absurd rfl hws
    | cons w ws =>
      have hg : Dict.get? x1 (stepsFile (l.path ++ [modelName 0])) = none :=
        hfree'.get? (below_steps _ _)
      unfold saves
      rw [List.map_cons]
      unfold saveWeights
      simp only [hg]
  have hsteps : ∃ s rest, savedSteps n freq = s :: rest := by
    have := savedSteps_last n freq
    cases hc : savedSteps n freq with
    | nil => rw [hc] at this; simp at this
    | cons s rest => exact ⟨s, rest, rfl⟩
  obtain ⟨s, rest, hs⟩ := hsteps
  unfold trainManager
  simp only [← hx]
  by_cases hn : n = 0
  · simp [hn]
  · by_cases hf : freq = 0
    · simp [hn, hf]
    · simp only [hn, hf, if_false, hs, hsaves]
      simp

/-- C96 fails for every directory whose name has an extension: the first time weights are saved in the
training loop the script ends with an error, and as nothing is saved in the directory itself, this is so
again each time. -/
theorem C96_violated (restore answer : Bool) (build : Disk W → Except Err (List W))
    (learn : Nat → W → W) (n freq : Nat) (l : Loc) (disk : Disk W) (ws : List W)
    (hplain : ¬ l.Plain) (hn : n ≠ 0) (hf : freq ≠ 0) (hws : ws ≠ []) (hfree : Free disk l.path)
    (hbuild : build disk = .ok ws) :
    (train restore answer build learn n freq l disk).2 = some .ioError ∧
    Free (train restore answer build learn n freq l disk).1 l.path := by
  have hrun : train restore answer build learn n freq l disk =
      trainManager learn n freq ⟨l, ws⟩ disk := by
    have hf : Dict.has disk (confFile l.path) = false := by
      rw [Dict.has_eq_false_iff]
      exact fun hk => hfree _ hk (List.prefix_append _ _)
    unfold train
    simp only [hf, Bool.and_false, Bool.false_and, Bool.false_eq_true, if_false, hbuild]
  obtain ⟨h1, h2⟩ := trainManager_dotted learn n freq l ws disk hplain hws hfree
  rw [hrun]
  refine ⟨h2 hn hf, ?_⟩
  rw [h1]
  exact free_saveManager hplain _ _ _ _ hfree

/-! ## C97 -/

/-- C97, training, for directories without an extension: if a manager is saved in the directory, the
user does not want to continue its training and does not agree to delete it, nothing is changed. -/
theorem C97_refused_partial (build : Disk W → Except Err (List W)) (learn : Nat → W → W)
    (n freq : Nat) (l : Loc) (disk : Disk W) (recorded : Loc) (ws : List W) (hplain : l.Plain)
    (hsaved : Holds disk l.dir recorded ws) :
    train false false build learn n freq l disk = (disk, some .valueError) := by
  have hf : Dict.has disk (confFile l.path) = true := by
    rw [← hplain.dir_eq]
    exact (Dict.has_iff _ _).2 ((mem_keys_iff _ _).2 ⟨_, hsaved.manager⟩)
  unfold train
  simp [hf]

/-- C97, training, for directories without an extension: if the manager that is continued was saved in
its own directory, nothing is changed outside the directory. -/
theorem C97_outside_partial (restore answer : Bool) (build : Disk W → Except Err (List W))
    (learn : Nat → W → W) (n freq : Nat) (l : Loc) (disk : Disk W) (hplain : l.Plain)
    (hown : restore = true → ∀ recorded ws, Holds disk l.dir recorded ws → recorded = l) :
    Untouched l.path disk (train restore answer build learn n freq l disk).1 := by
  have key : ∀ ws (disk' : Disk W), Untouched l.path disk disk' →
      Untouched l.path disk (trainManager learn n freq ⟨l, ws⟩ disk').1 := by
    intro ws disk' h p hp
    rw [trainManager_untouched learn n freq ⟨l, ws⟩ disk' p (by rw [hplain.dir_eq]; exact hp) hp]
    exact h p hp
  unfold train
  simp only
  split
  · rename_i hr
    split
    · exact Untouched.refl _ _
    · rename_i man hm
      obtain ⟨rc, ws⟩ := man
      have := hown (by simp at hr; exact hr.1) rc ws ((loadManager_iff _ _ _ _).1 hm)
      subst this
      exact key ws disk (Untouched.refl _ _)
  · split
    · exact Untouched.refl _ _
    · have hu : Untouched l.path disk
          (if Dict.has disk (confFile l.path) = true then rmtree disk l.path else disk) := by
        split
        · exact untouched_rmtree _ _
        · exact Untouched.refl _ _
      split
      · exact hu
      · exact key _ _ hu

/-- C97 fails for directories whose name has an extension: any manager that was saved there before is
replaced by the new one, with its initial weights, and the user is not asked. -/
theorem C97_extension_violated (build : Disk W → Except Err (List W)) (learn : Nat → W → W)
    (n freq : Nat) (l : Loc) (disk : Disk W) (recorded : Loc) (old ws : List W)
    (hplain : ¬ l.Plain) (_ : Holds disk l.dir recorded old) (hws : ws ≠ [])
    (hfree : Free disk l.path) (hbuild : build disk = .ok ws) :
    Holds (train false false build learn n freq l disk).1 l.dir l ws := by
  have hrun : train false false build learn n freq l disk =
      trainManager learn n freq ⟨l, ws⟩ disk := by
    have hf : Dict.has disk (confFile l.path) = false := by
      rw [Dict.has_eq_false_iff]
      exact fun hk => hfree _ hk (List.prefix_append _ _)
    unfold train
    simp only [hf, Bool.and_false, Bool.false_and, Bool.false_eq_true, if_false, hbuild]
  obtain ⟨h1, -⟩ := trainManager_dotted learn n freq l ws disk hplain hws hfree
  rw [hrun, h1]
  exact (saveManager_ok true true ⟨l, ws⟩ l disk (.inl rfl)).2.1

/-- C97 fails for managers that were saved elsewhere than in their recorded directory, as exported
managers are: continuing their training writes to the recorded directory, and replaces what is saved
there without asking; the directory that was given is left as it is. -/
theorem C97_recorded_violated (answer : Bool) (build : Disk W → Except Err (List W))
    (learn : Nat → W → W) (n freq : Nat) (l recorded : Loc) (disk : Disk W) (ws : List W)
    (hplain : l.Plain) (hplain' : recorded.Plain) (hn : n ≠ 0) (hf : freq ≠ 0)
    (hsaved : Holds disk l.path recorded ws) :
    Holds (train true answer build learn n freq l disk).1 recorded.path recorded
      (ws.map (learn n)) ∧
    ∀ p, l.path <+: p → ¬ recorded.path <+: p →
      Dict.get? (train true answer build learn n freq l disk).1 p = Dict.get? disk p := by
  have hrun : train true answer build learn n freq l disk =
      trainManager learn n freq ⟨recorded, ws⟩ disk := by
    have hf : Dict.has disk (confFile l.path) = true :=
      (Dict.has_iff _ _).2 ((mem_keys_iff _ _).2 ⟨_, hsaved.manager⟩)
    have hl : loadManager disk l = .ok ⟨recorded, ws⟩ := by
      rw [loadManager_iff, hplain.dir_eq]; exact hsaved
    unfold train
    simp only [hf, Bool.and_self, if_true, hl]
  rw [hrun]
  obtain ⟨-, h2, -⟩ := trainManager_ok learn n freq ⟨recorded, ws⟩ disk hplain' hn hf
  rw [hplain'.dir_eq] at h2
  refine ⟨h2, fun p _ hp => ?_⟩
  exact trainManager_untouched learn n freq ⟨recorded, ws⟩ disk p
    (by rw [hplain'.dir_eq]; exact hp) hp

/-- C97, transformations: if something is saved at the path without its extension and the user does not
agree, nothing is changed; otherwise the transformation is saved there if it can be made, and nothing
else is changed. -/
theorem C97_trafo (answer : Bool) (ready : Except Err Unit) (l : Loc) (disk : Disk W) :
    (¬ Free disk l.dir → answer = false →
      createTrafo answer ready l disk = (disk, some .valueError)) ∧
    (Free disk l.dir ∨ answer = true →
      ((createTrafo answer ready l disk).2 = none ↔ ready = .ok ()) ∧
      (ready = .ok () →
        Dict.get? (createTrafo answer ready l disk).1 (l.dir ++ ["configuration.yaml"]) =
          some .part) ∧
      ∀ p, ready = .ok () ∧ p = l.dir ++ ["configuration.yaml"] ∨
        Dict.get? (createTrafo answer ready l disk).1 p = Dict.get? disk p) := by
  constructor
  · intro h1 h2
    have : isThere disk l.dir = true := by
      rw [← Bool.not_eq_false, not_isThere_iff]; exact h1
    simp [createTrafo, this, h2]
  · intro h
    have : (isThere disk l.dir && !answer) = false := by
      rcases h with h | h
      · rw [(not_isThere_iff _ _).2 h]; rfl
      · simp [h]
    unfold createTrafo
    rw [this]
    simp only [Bool.false_eq_true, if_false]
    cases ready with
    | error e => simp
    | ok u =>
      refine ⟨by simp, fun _ => by
        simp only; rw [Dict.get?_set, if_pos]
        rfl, fun p => ?_⟩
      by_cases hp : p = confFile l.dir
      · exact .inl ⟨rfl, hp⟩
      · refine .inr ?_
        simp only
        rw [Dict.get?_set, if_neg (Ne.symm hp)]

/-! ## C98 -/

theorem readText_iff (disk : Disk W) (f : Path) (c : Nat) :
    readText disk f = .ok c ↔ Dict.get? disk f = some (.text c) := by
  unfold readText
  constructor
  · intro h
    split at h
    · rename_i c' hc
      cases h
      exact hc
    · cases h
  · intro h
    rw [h]

theorem loadAll_iff (t : Tools W) (disk : Disk W) : ∀ (fs : List Path) (ws : List W),
    loadAll t disk fs = .ok ws ↔ ∃ ls, List.Forall₂ (Gives t disk) fs ls ∧ ws = ls.flatten := by
  intro fs
  induction fs with
  | nil =>
    intro ws
    simp only [loadAll, Except.ok.injEq]
    constructor
    · rintro rfl; exact ⟨[], .nil, rfl⟩
    · rintro ⟨ls, h, rfl⟩; cases h; rfl
  | cons f fs ih =>
    intro ws
    constructor
    · intro h
      unfold loadAll at h
      split at h
      · cases h
      · rename_i c hc
        split at h
        · cases h
        · rename_i l hl
          split at h
          · cases h
          · rename_i man hm
            split at h
            · cases h
            · rename_i hne
              split at h
              · cases h
              · rename_i ws' hws
                cases h
                obtain ⟨ls, h1, rfl⟩ := (ih ws').1 hws
                refine ⟨man.ws :: ls, .cons ⟨c, l, man.loc, (readText_iff _ _ _).1 hc, hl,
                  (loadManager_iff _ _ _ _).1 hm, by simpa using hne⟩ h1, by simp⟩
    · rintro ⟨ls, h, rfl⟩
      cases h with
      | @cons _ w _ ls' h1 h2 =>
        obtain ⟨c, l, rc, h3, h4, h5, h6⟩ := h1
        unfold loadAll
        rw [(readText_iff _ _ _).2 h3]
        simp only
        rw [h4]
        simp only
        rw [(loadManager_iff _ _ _ _).2 h5]
        have : w.isEmpty = false := by simpa using h6
        simp only [this, Bool.false_eq_true, if_false]
        rw [(ih ls'.flatten).2 ⟨ls', h2, rfl⟩]
        simp

theorem holds_mono {disk disk' : Disk W} {d : Path} {rc : Loc} {ws : List W} (h : Holds disk d rc ws)
    (hs : ∀ p s, Dict.get? disk p = some s → Dict.get? disk' p = some s) : Holds disk' d rc ws := by
  obtain ⟨h1, h2, h3⟩ := h
  refine ⟨hs _ _ h1, ?_, fun i w hi => ?_⟩
  · rw [mem_keys_iff] at h2 ⊢
    obtain ⟨s, h2⟩ := h2
    exact ⟨s, hs _ _ h2⟩
  · obtain ⟨h4, n, h5⟩ := h3 i w hi
    rw [mem_keys_iff] at h4 ⊢
    obtain ⟨s, h4⟩ := h4
    exact ⟨⟨s, hs _ _ h4⟩, n, hs _ _ h5⟩

theorem gives_mono {t : Tools W} {disk disk' : Disk W} {f : Path} {ws : List W}
    (h : Gives t disk f ws)
    (hs : ∀ p s, Dict.get? disk p = some s → Dict.get? disk' p = some s) : Gives t disk' f ws := by
  obtain ⟨c, l, rc, h1, h2, h3, h4⟩ := h
  exact ⟨c, l, rc, hs _ _ h1, h2, holds_mono h3 hs, h4⟩

theorem outside_sub {d : Path} {disk disk' : Disk W} (h : Outside d disk disk') :
    ∀ p s, Dict.get? disk' p = some s → Dict.get? disk p = some s := by
  intro p s hp
  by_cases hd : d <+: p
  · rw [h.2.get? hd] at hp; cases hp
  · rw [← h.1 p hd]; exact hp

theorem outside_unique {d : Path} {disk a b : Disk W} (ha : Outside d disk a) (hb : Outside d disk b) :
    ∀ p, Dict.get? a p = Dict.get? b p := by
  intro p
  by_cases hd : d <+: p
  · rw [ha.2.get? hd, hb.2.get? hd]
  · rw [ha.1 p hd, hb.1 p hd]

/-- What a successful second part of the script has done. -/
theorem exportTo_ok {t : Tools W} {configs : List Path} {reco : Option Path} {out : Loc}
    {disk disk' : Disk W} (h : exportTo t configs reco out disk = (disk', none)) :
    ∃ file c l ws disk1, reco.or configs.head? = some file ∧ Dict.get? disk file = some (.text c) ∧
      t.loss c = .ok () ∧ loadAll t disk configs = .ok ws ∧ configs ≠ [] ∧ t.parse c = .ok l ∧
      t.fits ws = .ok () ∧ saveManager false false ⟨l, ws⟩ out disk = (disk1, none) ∧
      isThere disk1 out.path = true ∧
      disk' = Dict.set disk1 (out.path ++ ["reco_config.yaml"]) (.text c) := by
  unfold exportTo at h
  split at h
  · cases h
  · rename_i file hfile
    split at h
    · cases h
    · rename_i c hc
      split at h
      · cases h
      · rename_i u hloss
        split at h
        · cases h
        · rename_i ws hws
          split at h
          · cases h
          · rename_i hne
            split at h
            · cases h
            · rename_i l hl
              split at h
              · cases h
              · rename_i u' hfits
                split at h
                · cases h
                · rename_i disk1 hsave
                  split at h
                  · rename_i hthere
                    cases h
                    exact ⟨file, c, l, ws, disk1, hfile, (readText_iff _ _ _).1 hc, hloss, hws,
                      by simpa using hne, hl, hfits, hsave, hthere, rfl⟩
                  · cases h

/-- The disk on which the second part of the script works. -/
theorem export_ok {t : Tools W} {answer : Bool} {configs : List Path} {reco : Option Path} {out : Loc}
    {disk disk' : Disk W} (h : exportManager t answer configs reco out disk = (disk', none)) :
    (¬ Free disk out.path → answer = true) ∧ ∃ disk0, Outside out.path disk disk0 ∧
      exportTo t configs reco out disk0 = (disk', none) := by
  unfold exportManager at h
  split at h
  · cases h
  · split at h
    · rename_i hthere
      split at h
      · cases h
      · rename_i ha
        split at h
        · cases h
        · exact ⟨fun _ => by simpa using ha, _, outside_rmtree _ _, h⟩
    · rename_i hthere
      have hfree : Free disk out.path := (not_isThere_iff _ _).1 (by simpa using hthere)
      exact ⟨fun hc => absurd hfree hc, disk, ⟨Untouched.refl _ _, hfree⟩, h⟩

/-- C98, for output directories without an extension: if the export succeeds, then the user agreed if
there was something in the output directory; the manager that is saved there has the models of all
managers of the given files, in their order, and can be loaded; the settings of the reconstruction are
those of the given file, or else of the first; and nothing outside the directory is changed. The
recorded directory is that of the settings. Missing: directories with an extension, see
`C98_extension_violated`. -/
theorem C98_export_partial (t : Tools W) (answer : Bool) (configs : List Path) (reco : Option Path)
    (out : Loc) (disk disk' : Disk W) (hplain : out.Plain)
    (h : exportManager t answer configs reco out disk = (disk', none)) :
    (¬ Free disk out.path → answer = true) ∧ configs ≠ [] ∧
    ∃ file c l ls, (reco = some file ∨ reco = none ∧ configs.head? = some file) ∧
      Dict.get? disk file = some (.text c) ∧ t.parse c = .ok l ∧
      List.Forall₂ (Gives t disk) configs ls ∧
      Holds disk' out.path l ls.flatten ∧
      Dict.get? disk' (out.path ++ ["reco_config.yaml"]) = some (.text c) ∧
      Untouched out.path disk disk' := by
  obtain ⟨hans, disk0, ho, h⟩ := export_ok h
  obtain ⟨file, c, l, ws, disk1, h1, h2, -, h4, h5, h6, -, h8, -, rfl⟩ := exportTo_ok h
  obtain ⟨ls, hls, rfl⟩ := (loadAll_iff _ _ _ _).1 h4
  refine ⟨hans, h5, file, c, l, ls, ?_, outside_sub ho _ _ h2, h6,
    hls.imp (fun f w hg => gives_mono hg (outside_sub ho)), ?_, ?_, ?_⟩
  · cases reco with
    | none => exact .inr ⟨rfl, by simpa using h1⟩
    | some f => exact .inl (by simpa using h1)
  · have hs := (saveManager_ok false false ⟨l, ls.flatten⟩ out disk0
      (.inr (by rw [hplain.dir_eq]; exact ho.2))).2.1
    rw [h8, hplain.dir_eq] at hs
    have hne : ∀ x y : String, out.path ++ ["reco_config.yaml"] ≠ out.path ++ [x, y] := by
      intro x y he
      have := congrArg List.length he
      simp at this
    have hne' : out.path ++ ["reco_config.yaml"] ≠ out.path ++ ["configuration.yaml"] := by
      intro he
      have := List.append_cancel_left he
      simp at this
    obtain ⟨a, b, c'⟩ := hs
    refine ⟨?_, ?_, fun i w hi => ?_⟩
    · rw [Dict.get?_set, if_neg hne']; exact a
    · rw [Dict.mem_keys_set]; exact .inr b
    · obtain ⟨e1, n, e2⟩ := c' i w hi
      refine ⟨by rw [Dict.mem_keys_set]; exact .inr e1, n, ?_⟩
      rw [Dict.get?_set, if_neg (hne _ _)]; exact e2
  · rw [Dict.get?_set, if_pos rfl]
  · refine ho.1.trans (Untouched.trans (b := disk1) ?_
      (untouched_set _ _ _ _ (List.prefix_append _ _)))
    have := saveManager_untouched false false ⟨l, ls.flatten⟩ out disk0
    rw [h8, hplain.dir_eq] at this
    exact this

/-- C98, for output directories without an extension: the export succeeds whenever the given files and
the managers exist outside the output directory, fit together, and the user agrees to delete what is in
the output directory. -/
theorem C98_succeeds_partial (t : Tools W) (answer : Bool) (configs : List Path)
    (reco : Option Path) (out : Loc) (disk rest : Disk W) (file : Path) (c : Nat) (l : Loc)
    (ls : List (List W)) (hplain : out.Plain) (hrest : Outside out.path disk rest)
    (hne : configs ≠ []) (hfile : reco = some file ∨ reco = none ∧ configs.head? = some file)
    (hread : Dict.get? rest file = some (.text c)) (hloss : t.loss c = .ok ())
    (hparse : t.parse c = .ok l) (hgives : List.Forall₂ (Gives t rest) configs ls)
    (hfits : t.fits ls.flatten = .ok ())
    (hagree : Free disk out.path ∨ answer = true ∧ out.path ∉ Dict.keys disk) :
    (exportManager t answer configs reco out disk).2 = none := by
  have hto : ∀ disk0, Outside out.path disk disk0 →
      (exportTo t configs reco out disk0).2 = none := by
    intro disk0 ho
    have hsame := outside_unique hrest ho
    have h1 : reco.or configs.head? = some file := by
      rcases hfile with rfl | ⟨rfl, h⟩
      · rfl
      · simpa using h
    have h2 : readText disk0 file = .ok c := by
      rw [readText_iff, ← hsame]; exact hread
    have h3 : loadAll t disk0 configs = .ok ls.flatten := by
      rw [loadAll_iff]
      exact ⟨ls, hgives.imp fun f w hg => gives_mono hg (fun p s hp => by rw [← hsame]; exact hp),
        rfl⟩
    have h4 : configs.isEmpty = false := by simpa using hne
    obtain ⟨h5, h6, -⟩ := saveManager_ok false false ⟨l, ls.flatten⟩ out disk0
      (.inr (by rw [hplain.dir_eq]; exact ho.2))
    obtain ⟨x, hx⟩ : ∃ x, x = saveManager false false ⟨l, ls.flatten⟩ out disk0 := ⟨_, rfl⟩
    rw [← hx] at h5 h6
    obtain ⟨x1, x2⟩ := x
    simp only at h5 h6
    subst h5
    have h7 : isThere x1 out.path = true := by
      rw [isThere_iff]
      refine ⟨_, (mem_keys_iff _ _).2 ⟨_, h6.manager⟩, ?_⟩
      rw [hplain.dir_eq]
      exact List.prefix_append _ _
    unfold exportTo
    simp only [h1, h2, hloss, h3, h4, hparse, hfits, ← hx, h7, Bool.false_eq_true, if_false, if_true]
  have hexists : ∀ f, (∃ s, Dict.get? rest f = some s) → isThere disk f = true := by
    rintro f ⟨s, hs⟩
    rw [isThere_iff]
    exact ⟨f, (mem_keys_iff _ _).2 ⟨s, outside_sub hrest _ _ hs⟩, List.prefix_refl _⟩
  have hall : (configs ++ reco.toList).all (isThere disk) = true := by
    rw [List.all_eq_true]
    intro f hf
    apply hexists
    rcases List.mem_append.1 hf with hf | hf
    · clear hfile hfits hne hto
      rename_i hf0
      clear hf0
      induction hgives with
      | nil => simp at hf
      | cons hg _ ih =>
        rcases List.mem_cons.1 hf with rfl | hf
        · obtain ⟨c', _, _, h, _⟩ := hg
          exact ⟨_, h⟩
        · exact ih hf
    · rcases hfile with rfl | ⟨rfl, _⟩
      · simp only [Option.toList_some, List.mem_singleton] at hf
        subst hf
        exact ⟨_, hread⟩
      · simp at hf
  unfold exportManager
  simp only [hall, Bool.not_true, Bool.false_eq_true, if_false]
  rcases hagree with hfree | ⟨ha, hk⟩
  · rw [(not_isThere_iff _ _).2 hfree]
    simp only [Bool.false_eq_true, if_false]
    exact hto disk ⟨Untouched.refl _ _, hfree⟩
  · split
    · rw [(Dict.has_eq_false_iff _ _).2 hk]
      simp only [ha, Bool.not_true, Bool.false_eq_true, if_false]
      exact hto _ (outside_rmtree _ _)
    · rename_i hthere
      exact hto disk ⟨Untouched.refl _ _, (not_isThere_iff _ _).1 (by simpa using hthere)⟩

/-- C98 fails for every output directory whose name has an extension: the export never succeeds. -/
theorem C98_extension_violated (t : Tools W) (answer : Bool) (configs : List Path)
    (reco : Option Path) (out : Loc) (disk : Disk W) (hplain : ¬ out.Plain) :
    (exportManager t answer configs reco out disk).2 ≠ none := by
  intro hc
  have h : exportManager t answer configs reco out disk =
      ((exportManager t answer configs reco out disk).1, none) := by
    rw [← hc]
  obtain ⟨-, disk0, ho, h⟩ := export_ok h
  obtain ⟨file, c, l, ws, disk1, -, -, -, -, -, -, -, h8, h9, -⟩ := exportTo_ok h
  have hfree := free_saveManager hplain false false ⟨l, ws⟩ disk0 ho.2
  rw [h8] at hfree
  rw [(not_isThere_iff _ _).2 hfree] at h9
  cases h9

/-- C98 fails if the output directory is the directory of one of the managers, or above it: the manager
is deleted when the user agrees, and then it cannot be loaded; the export fails, and the manager is
lost. -/
theorem C98_own_violated (t : Tools W) (configs : List Path) (reco : Option Path) (out : Loc)
    (disk : Disk W) (f : Path) (c : Nat) (l : Loc) (hmem : f ∈ configs)
    (hfile : Dict.get? disk f = some (.text c)) (hparse : t.parse c = .ok l)
    (hown : out.path <+: l.dir) (hthere : ¬ Free disk out.path)
    (hdir : out.path ∉ Dict.keys disk) (hall : ∀ p ∈ configs ++ reco.toList, p ∈ Dict.keys disk) :
    (exportManager t true configs reco out disk).2 ≠ none ∧
    Free (exportManager t true configs reco out disk).1 out.path := by
  have hrun : exportManager t true configs reco out disk =
      exportTo t configs reco out (rmtree disk out.path) := by
    have h1 : (configs ++ reco.toList).all (isThere disk) = true := by
      rw [List.all_eq_true]
      intro p hp
      rw [isThere_iff]
      exact ⟨p, hall p hp, List.prefix_refl _⟩
    have h2 : isThere disk out.path = true := by
      rw [← Bool.not_eq_false, not_isThere_iff]; exact hthere
    unfold exportManager
    simp [h1, h2, (Dict.has_eq_false_iff _ _).2 hdir]
  have hload : ∀ ws, loadAll t (rmtree disk out.path) configs ≠ .ok ws := by
    intro ws hws
    obtain ⟨ls, hls, -⟩ := (loadAll_iff _ _ _ _).1 hws
    have : ∃ w, Gives t (rmtree disk out.path) f w := by
      clear hws hall hrun
      induction hls with
      | nil => simp at hmem
      | cons hg _ ih =>
        rcases List.mem_cons.1 hmem with rfl | hm
        · exact ⟨_, hg⟩
        · exact ih hm
    obtain ⟨w, c', l', rc, g1, g2, g3, -⟩ := this
    have g1' := outside_sub (outside_rmtree disk out.path) _ _ g1
    rw [hfile] at g1'
    cases g1'
    rw [hparse] at g2
    cases g2
    have := g3.manager
    rw [(free_rmtree disk out.path).get? (hown.trans (List.prefix_append _ _))] at this
    cases this
  rw [hrun]
  have hres : ∃ e, exportTo t configs reco out (rmtree disk out.path) =
      (rmtree disk out.path, some e) := by
    unfold exportTo
    split
    · exact ⟨_, rfl⟩
    · split
      · exact ⟨_, rfl⟩
      · split
        · exact ⟨_, rfl⟩
        · split
          · exact ⟨_, rfl⟩
          · rename_i ws hws
            exact absurd hws (hload ws)
  obtain ⟨e, hres⟩ := hres
  rw [hres]
  exact ⟨by simp, free_rmtree _ _⟩

/-! ## Examples -/

namespace ScriptsEx

def exLoc : Loc := ⟨["out"], "m"⟩
def exDot : Loc := ⟨["out"], "m_v1.0"⟩
def exLearn : Nat → Nat → Nat := fun n w => w + n
def exBuild : Disk Nat → Except Err (List Nat) := fun _ => .ok [5, 6]
/-- A first training of three iterations. -/
def exDisk : Disk Nat := (train false false exBuild exLearn 3 2 exLoc []).1

theorem exLoc_plain : exLoc.Plain := by decide
theorem exDot_dotted : ¬ exDot.Plain := by decide

theorem exDisk_holds : Holds exDisk exLoc.path exLoc [8, 9] ∧ History exDisk exLoc.path 2 [2] := by
  have h := C96_scratch_partial false false exBuild exLearn 3 2 exLoc [] [5, 6] exLoc_plain (by decide)
    (by decide) (.inl (by intro p hp; simp [Dict.keys] at hp)) (fun _ _ => rfl)
  exact h.2

/-- The models are trained from 5 and 6 to 8 and 9, and then, in two further runs, to 25 and 26. -/
example : Holds (trainRuns exBuild exLoc [(false, exLearn, 7, 1), (true, exLearn, 10, 100)] exDisk).1
    exLoc.path exLoc [25, 26] ∧
    History (trainRuns exBuild exLoc [(false, exLearn, 7, 1), (true, exLearn, 10, 100)] exDisk).1
      exLoc.path 2 [2, 6, 9] :=
  (C96_runs_partial exBuild exLoc exLoc_plain [(false, exLearn, 7, 1), (true, exLearn, 10, 100)] exDisk
    [8, 9] [2] (by simp) exDisk_holds.1 exDisk_holds.2).2

/-- A name with a point. -/
example : (train false true exBuild exLearn 3 2 exDot []).2 = some .ioError :=
  (C96_violated false true exBuild exLearn 3 2 exDot [] [5, 6] exDot_dotted (by decide) (by decide)
    (by decide) (by intro p hp; simp [Dict.keys] at hp) rfl).1

/-- Without consent, the trained manager is kept. -/
example : train false false exBuild exLearn 3 2 exLoc exDisk = (exDisk, some .valueError) :=
  C97_refused_partial exBuild exLearn 3 2 exLoc exDisk exLoc [8, 9] exLoc_plain
    (by rw [exLoc_plain.dir_eq]; exact exDisk_holds.1)

/-- Training `out/m.x` replaces the trained manager `out/m` by a new one, without consent. -/
example : Holds (train false false exBuild exLearn 3 2 ⟨["out"], "m.x"⟩ exDisk).1 ["out", "m"]
    ⟨["out"], "m.x"⟩ [5, 6] :=
  C97_extension_violated exBuild exLearn 3 2 ⟨["out"], "m.x"⟩ exDisk exLoc [8, 9] [5, 6]
    (by decide) exDisk_holds.1 (by decide)
    (by unfold Free; decide) rfl

/-- Settings whose manager is `out/m`. -/
def exTools : Tools Nat := ⟨fun _ => .ok exLoc, fun _ => .ok (), fun _ => .ok ()⟩
def exConf : Disk Nat := Dict.set exDisk ["c.yaml"] (.text 1)

theorem exConf_gives : Gives exTools exConf ["c.yaml"] [8, 9] := by
  refine ⟨1, exLoc, exLoc, rfl, rfl, ?_, by decide⟩
  rw [exLoc_plain.dir_eq]
  refine holds_mono exDisk_holds.1 fun p s hp => ?_
  rw [exConf, Dict.get?_set, if_neg]
  · exact hp
  · rintro rfl
    rw [show Dict.get? exDisk ["c.yaml"] = none from by decide] at hp
    cases hp

/-- The same manager twice is exported to `exp/e`. -/
theorem exExport : (exportManager exTools false [["c.yaml"], ["c.yaml"]] none ⟨["exp"], "e"⟩ exConf).2
    = none :=
  C98_succeeds_partial exTools false [["c.yaml"], ["c.yaml"]] none ⟨["exp"], "e"⟩ exConf exConf
    ["c.yaml"] 1 exLoc [[8, 9], [8, 9]] (by decide)
    ⟨Untouched.refl _ _, by unfold Free; decide⟩ (by decide) (.inr ⟨rfl, rfl⟩) rfl rfl rfl
    (.cons exConf_gives (.cons exConf_gives .nil)) rfl (.inl (by unfold Free; decide))

/-- Continuing the training of an exported manager replaces the manager it was exported from. -/
example (disk : Disk Nat) (h : Holds disk ["exp", "e"] exLoc [8, 9, 8, 9]) (answer : Bool) :
    Holds (train true answer exBuild exLearn 1 1 ⟨["exp"], "e"⟩ disk).1 ["out", "m"] exLoc
      [9, 10, 9, 10] :=
  (C97_recorded_violated answer exBuild exLearn 1 1 ⟨["exp"], "e"⟩ exLoc disk [8, 9, 8, 9] (by decide)
    exLoc_plain (by decide) (by decide) h).1

/-- There is such an exported manager. -/
example : Holds (exportManager exTools false [["c.yaml"], ["c.yaml"]] none ⟨["exp"], "e"⟩ exConf).1
    ["exp", "e"] exLoc [8, 9, 8, 9] := by
  obtain ⟨-, -, file, c, l, ls, h1, h2, h3, h4, h5, -, -⟩ := C98_export_partial exTools false
    [["c.yaml"], ["c.yaml"]] none ⟨["exp"], "e"⟩ exConf _ (by decide) (Prod.ext rfl exExport)
  cases h3
  have key : ∀ w, Gives exTools exConf ["c.yaml"] w → w = [8, 9] := by
    rintro w ⟨_, l, rc, -, hl, hw, -⟩
    cases hl
    have := (loadManager_iff _ _ _ _).2 hw
    rw [(loadManager_iff _ _ _ _).2 (show Holds exConf exLoc.dir exLoc [8, 9] from ?_)] at this
    · cases this; rfl
    · obtain ⟨_, _, _, _, hl, h, _⟩ := exConf_gives
      have h' := (loadManager_iff _ _ _ _).2 h
      cases hl
      have hm := h.manager
      rw [show Dict.get? exConf (exLoc.dir ++ ["configuration.yaml"]) = some (.manager exLoc 2) from rfl]
        at hm
      cases hm
      exact h
  cases h4 with
  | cons g1 h4 =>
    cases h4 with
    | cons g2 h4 =>
      cases h4
      rw [key _ g1, key _ g2] at h5
      exact h5

/-- Exporting the manager onto itself loses it. -/
example : Free (exportManager exTools true [["c.yaml"]] none exLoc exConf).1 ["out", "m"] :=
  (C98_own_violated exTools [["c.yaml"]] none exLoc exConf ["c.yaml"] 1 exLoc (by simp) rfl rfl
    (by decide) (by unfold Free; decide) (by decide) (by decide)).2

/-- A transformation that exists is kept without consent. -/
example : createTrafo false (.ok ()) ⟨["t"], "trafo.npy"⟩
    ([(["t", "trafo", "configuration.yaml"], .part)] : Disk Nat) =
    ([(["t", "trafo", "configuration.yaml"], .part)], some .valueError) :=
  (C97_trafo false (.ok ()) ⟨["t"], "trafo.npy"⟩ _).1 (by unfold Free; decide) rfl

end ScriptsEx

end Verif.Deploy
