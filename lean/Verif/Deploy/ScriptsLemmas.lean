import Verif.Deploy.ScriptsSpec
import Verif.Training.Lemmas
import Mathlib.Data.List.TakeWhile

/-!
# Lemmas on scripts that write managers
-/

namespace Verif.Deploy
open Verif.Py Verif.Component
variable {W : Type}

/-! ## Names and paths -/

theorem stem_of_no_dot (s : String) (h : '.' ∉ s.toList) : stem s = s := by
  unfold stem
  have : s.toList.reverse.dropWhile (· ≠ '.') = [] := by
    rw [List.dropWhile_eq_nil_iff]
    intro c hc
    rw [List.mem_reverse] at hc
    simp only [ne_eq, decide_eq_true_eq]
    rintro rfl
    exact h hc
  rw [this]

theorem stem_model (i : Nat) : stem (modelName i) = modelName i := by
  apply stem_of_no_dot
  unfold modelName
  rw [String.toList_append]
  intro h
  rcases List.mem_append.1 h with h | h
  · revert h; decide
  · have := Training.pad4_digits i _ h
    revert this; decide

theorem stem_handler : stem "data_handler" = "data_handler" := by decide

theorem modelName_inj {i j : Nat} (h : modelName i = modelName j) : i = j :=
  Training.name_inj h

theorem handler_ne_model (i : Nat) : "data_handler" ≠ modelName i := Training.handler_key i

theorem below_iff (d : Path) (a b : String) (t : Path) : d ++ [a] <+: d ++ b :: t ↔ a = b := by
  rw [List.prefix_append_right_inj, List.cons_prefix_cons]
  simp

theorem conf_ne_model (i : Nat) : "configuration.yaml" ≠ modelName i := by
  intro h
  have := congrArg (fun s => s.toList.take 1) h
  simp [modelName] at this

/-! ## Disks -/

theorem isThere_iff (disk : Disk W) (d : Path) :
    isThere disk d = true ↔ ∃ p ∈ Dict.keys disk, d <+: p := by
  simp only [isThere, List.any_eq_true, List.isPrefixOf_iff_prefix, Dict.keys, List.mem_map]
  constructor
  · rintro ⟨x, h1, h2⟩
    exact ⟨x.1, ⟨x, h1, rfl⟩, h2⟩
  · rintro ⟨p, ⟨x, h1, rfl⟩, h2⟩
    exact ⟨x, h1, h2⟩

theorem not_isThere_iff (disk : Disk W) (d : Path) : isThere disk d = false ↔ Free disk d := by
  rw [← Bool.not_eq_true, isThere_iff]
  simp [Free]

theorem get?_rmtree (disk : Disk W) (d p : Path) :
    Dict.get? (rmtree disk d) p = if d <+: p then none else Dict.get? disk p := by
  unfold rmtree
  induction disk with
  | nil => simp
  | cons x disk ih =>
    rw [List.filter_cons]
    by_cases hx : d <+: x.1
    · have : d.isPrefixOf x.1 = true := List.isPrefixOf_iff_prefix.2 hx
      simp only [this, Bool.not_true, Bool.false_eq_true, if_false]
      rw [ih, show x :: disk = (x.1, x.2) :: disk from rfl, Dict.get?_cons]
      by_cases hp : d <+: p
      · simp [hp]
      · rw [if_neg hp, if_neg hp, if_neg]
        rintro rfl
        exact hp hx
    · have : d.isPrefixOf x.1 = false := by
        rw [← Bool.not_eq_true, List.isPrefixOf_iff_prefix]; exact hx
      simp only [this, Bool.not_false, if_true]
      rw [show x :: disk = (x.1, x.2) :: disk from rfl,
        show x :: List.filter (fun f => !d.isPrefixOf f.1) disk =
          (x.1, x.2) :: List.filter (fun f => !d.isPrefixOf f.1) disk from rfl,
        Dict.get?_cons, Dict.get?_cons, ih]
      by_cases hp : x.1 = p
      · subst hp; simp [hx]
      · simp [hp]

theorem free_rmtree (disk : Disk W) (d : Path) : Free (rmtree disk d) d := by
  intro p hp hd
  have := (Dict.get?_eq_none_iff (rmtree disk d) p).1 (by rw [get?_rmtree]; simp [hd])
  exact this hp

theorem untouched_rmtree (disk : Disk W) (d : Path) : Untouched d disk (rmtree disk d) := by
  intro p hp
  rw [get?_rmtree, if_neg hp]

theorem Untouched.refl (d : Path) (disk : Disk W) : Untouched d disk disk := fun _ _ => rfl

theorem Untouched.trans {d : Path} {a b c : Disk W} (h1 : Untouched d a b) (h2 : Untouched d b c) :
    Untouched d a c := fun p hp => (h2 p hp).trans (h1 p hp)

theorem untouched_set (d : Path) (disk : Disk W) (p : Path) (s : Saved W) (h : d <+: p) :
    Untouched d disk (Dict.set disk p s) := by
  intro q hq
  rw [Dict.get?_set, if_neg]
  rintro rfl
  exact hq h

theorem mem_keys_iff (disk : Disk W) (p : Path) : p ∈ Dict.keys disk ↔ ∃ s, Dict.get? disk p = some s := by
  rw [← Dict.get?_isSome_iff, Option.isSome_iff_exists]

theorem mem_keys_congr {a b : Disk W} {p : Path} (h : Dict.get? a p = Dict.get? b p) :
    p ∈ Dict.keys a ↔ p ∈ Dict.keys b := by
  rw [mem_keys_iff, mem_keys_iff, h]

theorem Free.mono {disk : Disk W} {d e : Path} (h : Free disk d) (hde : d <+: e) : Free disk e :=
  fun p hp he => h p hp (hde.trans he)

theorem Free.get? {disk : Disk W} {d p : Path} (h : Free disk d) (hp : d <+: p) :
    Dict.get? disk p = none := by
  rw [Dict.get?_eq_none_iff]
  exact fun hk => h p hk hp

/-! ## Saving models -/

theorem get?_saveModel (disk : Disk W) (m : Path) (tr : Bool) (w : W) (p : Path) :
    Dict.get? (saveModel disk m tr w) p =
      if ckptFile m = p then some (.ckpt (ckptOf disk m + 1) w)
      else if tr = true ∧ stepsFile m = p then some (.steps (stepsOf disk m ++ [0]))
      else Dict.get? disk p := by
  have hne : stepsFile m ≠ ckptFile m := by
    intro h
    have := List.append_cancel_left h
    simp at this
  unfold saveModel
  cases tr with
  | false => simp [Dict.get?_set]
  | true =>
    simp only [if_true, true_and]
    rw [Dict.get?_set]
    have : ckptOf (Dict.set disk (stepsFile m) (.steps (stepsOf disk m ++ [0]))) m = ckptOf disk m := by
      unfold ckptOf
      rw [Dict.get?_set, if_neg hne]
    rw [this, Dict.get?_set]

theorem saveModels_untouched (ow tr : Bool) (d : Path) : ∀ (ws : List W) (i : Nat) (disk : Disk W),
    ∀ p, (∀ j, i ≤ j → j < i + ws.length → ¬ d ++ [modelName j] <+: p) →
      Dict.get? (saveModels ow tr d i ws disk).1 p = Dict.get? disk p := by
  intro ws
  induction ws with
  | nil => intro i disk p _; rfl
  | cons w ws ih =>
    intro i disk p hp
    unfold saveModels
    simp only [stem_model]
    split
    · rfl
    · rw [ih (i + 1) _ p (fun j h1 h2 => hp j (by omega) (by simp only [List.length_cons]; omega))]
      have h0 := hp i le_rfl (by simp)
      have e : ∀ t, d ++ [modelName i] ++ t = p → False := by
        rintro t rfl
        exact h0 (List.prefix_append _ _)
      rw [get?_saveModel, if_neg (show ¬ ckptFile _ = p from fun h => e _ h),
        if_neg (show ¬ (tr = true ∧ stepsFile _ = p) from fun h => e _ h.2), Dict.get?_set,
        if_neg (show ¬ confFile _ = p from fun h => e _ h)]

theorem file_ne (m : Path) : confFile m ≠ ckptFile m ∧ stepsFile m ≠ confFile m ∧
    ckptFile m ≠ stepsFile m := by
  refine ⟨?_, ?_, ?_⟩ <;>
  · intro h; have := List.append_cancel_left h; simp at this

theorem model_ne {d : Path} {i j : Nat} (h : i ≠ j) (s t : Path) :
    d ++ [modelName i] ++ s ≠ d ++ [modelName j] ++ t := by
  intro e
  have : d ++ [modelName i] <+: d ++ modelName j :: t := ⟨s, by rw [e]; simp⟩
  exact h (modelName_inj ((below_iff _ _ _ _).1 this))

theorem not_below_model {d : Path} {i j : Nat} (h : i ≠ j) (t : Path) :
    ¬ d ++ [modelName i] <+: d ++ [modelName j] ++ t := by
  rintro ⟨s, e⟩
  exact model_ne h s t e

theorem ckptOf_congr {a b : Disk W} {m : Path}
    (h : Dict.get? a (ckptFile m) = Dict.get? b (ckptFile m)) : ckptOf a m = ckptOf b m := by
  unfold ckptOf; rw [h]

theorem stepsOf_congr {a b : Disk W} {m : Path}
    (h : Dict.get? a (stepsFile m) = Dict.get? b (stepsFile m)) : stepsOf a m = stepsOf b m := by
  unfold stepsOf; rw [h]

/-- What is saved of the models. -/
theorem saveModels_ok (ow tr : Bool) (d : Path) : ∀ (ws : List W) (i : Nat) (disk : Disk W),
    (ow = true ∨ ∀ j, i ≤ j → confFile (d ++ [modelName j]) ∉ Dict.keys disk) →
    (saveModels ow tr d i ws disk).2 = none ∧
    ∀ j w, ws[j]? = some w →
      Dict.get? (saveModels ow tr d i ws disk).1 (confFile (d ++ [modelName (i + j)])) = some .part ∧
      Dict.get? (saveModels ow tr d i ws disk).1 (ckptFile (d ++ [modelName (i + j)])) =
        some (.ckpt (ckptOf disk (d ++ [modelName (i + j)]) + 1) w) ∧
      Dict.get? (saveModels ow tr d i ws disk).1 (stepsFile (d ++ [modelName (i + j)])) =
        if tr = true then some (.steps (stepsOf disk (d ++ [modelName (i + j)]) ++ [0]))
        else Dict.get? disk (stepsFile (d ++ [modelName (i + j)])) := by
  intro ws
  induction ws with
  | nil => intro i disk _; exact ⟨rfl, fun j w h => by simp at h⟩
  | cons w ws ih =>
    intro i disk how
    have hno : (Dict.has disk (confFile (d ++ [modelName i])) && !ow) = false := by
      rcases how with h | h
      · simp [h]
      · rw [(Dict.has_eq_false_iff _ _).2 (h i le_rfl)]; rfl
    obtain ⟨m, hm⟩ : ∃ m, m = d ++ [modelName i] := ⟨_, rfl⟩
    obtain ⟨disk1, hd⟩ : ∃ disk1, disk1 = saveModel (Dict.set disk (confFile m) .part) m tr w :=
      ⟨_, rfl⟩
    have hrun : saveModels ow tr d i (w :: ws) disk = saveModels ow tr d (i + 1) ws disk1 := by
      conv_lhs => unfold saveModels
      simp only [stem_model, hno, Bool.false_eq_true, if_false, hd, hm]
    obtain ⟨hcc, hsc, hcs⟩ := file_ne m
    have hother : ∀ j, i ≠ j → ∀ t, Dict.get? disk1 (d ++ [modelName j] ++ t) =
        Dict.get? disk (d ++ [modelName j] ++ t) := by
      intro j hj t
      have e := fun s => model_ne (d := d) hj s t
      rw [← hm] at e
      rw [hd, get?_saveModel, if_neg (show ¬ ckptFile m = _ from e _),
        if_neg (show ¬ (tr = true ∧ stepsFile m = _) from fun h => e _ h.2), Dict.get?_set,
        if_neg (show ¬ confFile m = _ from e _)]
    have hkeep : ∀ t, Dict.get? (saveModels ow tr d (i + 1) ws disk1).1 (m ++ t) =
        Dict.get? disk1 (m ++ t) := by
      intro t
      apply saveModels_untouched
      intro j h1 h2
      rw [hm]
      exact not_below_model (by omega) t
    have hprem : ow = true ∨ ∀ j, i + 1 ≤ j → confFile (d ++ [modelName j]) ∉ Dict.keys disk1 := by
      rcases how with h | h
      · exact .inl h
      · refine .inr fun j hj => ?_
        rw [confFile, mem_keys_congr (hother j (by omega) _)]
        exact h j (by omega)
    rw [hrun]
    obtain ⟨h1, h2⟩ := ih (i + 1) disk1 hprem
    refine ⟨h1, fun j v hj => ?_⟩
    cases j with
    | zero =>
      simp only [List.getElem?_cons_zero, Option.some.injEq] at hj
      subst hj
      rw [show i + 0 = i from rfl, ← hm]
      have c1 : ckptOf (Dict.set disk (confFile m) .part) m = ckptOf disk m :=
        ckptOf_congr (by rw [Dict.get?_set, if_neg hcc])
      have c2 : stepsOf (Dict.set disk (confFile m) .part) m = stepsOf disk m :=
        stepsOf_congr (by rw [Dict.get?_set, if_neg (Ne.symm hsc)])
      refine ⟨?_, ?_, ?_⟩
      · rw [show Dict.get? (saveModels ow tr d (i + 1) ws disk1).1 (confFile m) =
            Dict.get? disk1 (confFile m) from hkeep _, hd, get?_saveModel, if_neg hcc.symm,
          if_neg (fun h => hsc h.2), Dict.get?_set, if_pos rfl]
      · rw [show Dict.get? (saveModels ow tr d (i + 1) ws disk1).1 (ckptFile m) =
            Dict.get? disk1 (ckptFile m) from hkeep _, hd, get?_saveModel, if_pos rfl, c1]
      · rw [show Dict.get? (saveModels ow tr d (i + 1) ws disk1).1 (stepsFile m) =
            Dict.get? disk1 (stepsFile m) from hkeep _, hd, get?_saveModel, if_neg hcs, c2,
          Dict.get?_set, if_neg hsc.symm]
        by_cases ht : tr = true
        · rw [if_pos ⟨ht, rfl⟩, if_pos ht]
        · rw [if_neg (fun h => ht h.1), if_neg ht]
    | succ j =>
      rw [List.getElem?_cons_succ] at hj
      have h3 := h2 j v hj
      have e : i + 1 + j = i + (j + 1) := by omega
      rw [e] at h3
      rw [ckptOf_congr (hother (i + (j + 1)) (by omega) _),
        stepsOf_congr (hother (i + (j + 1)) (by omega) _),
        show Dict.get? disk1 (stepsFile (d ++ [modelName (i + (j + 1))])) = _ from
          hother (i + (j + 1)) (by omega) _] at h3
      exact h3

theorem conf_not_below (d : Path) (j : Nat) : ¬ d ++ [modelName j] <+: confFile d := by
  intro h
  have : d ++ [modelName j] <+: d ++ "configuration.yaml" :: [] := h
  exact conf_ne_model j ((below_iff _ _ _ _).1 this).symm

theorem handler_not_below (d : Path) (j : Nat) (t : Path) :
    ¬ d ++ [modelName j] <+: d ++ ["data_handler"] ++ t := by
  intro h
  have : d ++ [modelName j] <+: d ++ "data_handler" :: t := by simpa using h
  exact handler_ne_model j ((below_iff _ _ _ _).1 this).symm

theorem conf_ne_handler (d : Path) : confFile d ≠ confFile (d ++ ["data_handler"]) := by
  intro h
  have := congrArg List.length h
  simp [confFile] at this

theorem conf_ne_of_model (d : Path) (j : Nat) (t : Path) : confFile d ≠ d ++ [modelName j] ++ t := by
  intro h
  exact conf_not_below d j (by rw [h]; exact List.prefix_append _ _)

theorem handler_ne_of_model (d : Path) (j : Nat) (t : Path) :
    confFile (d ++ ["data_handler"]) ≠ d ++ [modelName j] ++ t := by
  intro h
  exact handler_not_below d j ["configuration.yaml"] (by
    show _ <+: confFile (d ++ ["data_handler"])
    rw [h]; exact List.prefix_append _ _)

/-- `save` changes nothing outside the directory. -/
theorem saveManager_untouched (ow tr : Bool) (man : Man W) (out : Loc) (disk : Disk W) :
    Untouched out.dir disk (saveManager ow tr man out disk).1 := by
  unfold saveManager
  split
  · exact Untouched.refl _ _
  · simp only
    split
    · exact untouched_set _ _ _ _ (List.prefix_append _ _)
    · refine Untouched.trans (b := _) (untouched_set _ disk (confFile out.dir) (.manager man.loc man.ws.length)
        (List.prefix_append _ _)) (Untouched.trans (untouched_set _ _
          (confFile (out.dir ++ [stem "data_handler"])) .part ?_) ?_)
      · unfold confFile; rw [List.append_assoc]; exact List.prefix_append _ _
      · intro p hp
        apply saveModels_untouched
        intro j _ _ h
        exact hp ((List.prefix_append _ _).trans h)

/-- What is saved of a manager. -/
theorem saveManager_ok (ow tr : Bool) (man : Man W) (out : Loc) (disk : Disk W)
    (how : ow = true ∨ Free disk out.dir) :
    (saveManager ow tr man out disk).2 = none ∧
    Holds (saveManager ow tr man out disk).1 out.dir man.loc man.ws ∧
    ∀ i < man.ws.length,
      Dict.get? (saveManager ow tr man out disk).1 (stepsFile (out.dir ++ [modelName i])) =
        if tr = true then some (.steps (stepsOf disk (out.dir ++ [modelName i]) ++ [0]))
        else Dict.get? disk (stepsFile (out.dir ++ [modelName i])) := by
  obtain ⟨d, hd⟩ : ∃ d, d = out.dir := ⟨_, rfl⟩
  obtain ⟨disk1, hd1⟩ : ∃ x, x = Dict.set disk (confFile d) (.manager man.loc man.ws.length) :=
    ⟨_, rfl⟩
  obtain ⟨disk2, hd2⟩ : ∃ x, x = Dict.set disk1 (confFile (d ++ ["data_handler"])) .part := ⟨_, rfl⟩
  have hn1 : (Dict.has disk (confFile d) && !ow) = false := by
    rcases how with h | h
    · simp [h]
    · rw [(Dict.has_eq_false_iff _ _).2 (fun hk => h _ hk (by rw [← hd]; exact List.prefix_append _ _))]
      rfl
  have hn2 : (Dict.has disk1 (confFile (d ++ ["data_handler"])) && !ow) = false := by
    rcases how with h | h
    · simp [h]
    · rw [(Dict.has_eq_false_iff _ _).2]
      · rfl
      · rw [hd1, Dict.mem_keys_set]
        push Not
        refine ⟨(conf_ne_handler d).symm, fun hk => h _ hk ?_⟩
        rw [← hd]; unfold confFile; rw [List.append_assoc]; exact List.prefix_append _ _
  have hrun : saveManager ow tr man out disk = saveModels ow tr d 0 man.ws disk2 := by
    unfold saveManager
    rw [← hd, hn1]
    simp only [Bool.false_eq_true, if_false, stem_handler]
    rw [← hd1, hn2]
    simp only [Bool.false_eq_true, if_false]
    rw [hd2]
  have hsame : ∀ j t, Dict.get? disk2 (d ++ [modelName j] ++ t) =
      Dict.get? disk (d ++ [modelName j] ++ t) := by
    intro j t
    rw [hd2, Dict.get?_set, if_neg (handler_ne_of_model d j t), hd1, Dict.get?_set,
      if_neg (conf_ne_of_model d j t)]
  have hprem : ow = true ∨ ∀ j, 0 ≤ j → confFile (d ++ [modelName j]) ∉ Dict.keys disk2 := by
    rcases how with h | h
    · exact .inl h
    · refine .inr fun j _ hk => ?_
      rw [confFile, mem_keys_congr (hsame j _)] at hk
      refine h _ hk ?_
      rw [← hd, List.append_assoc]; exact List.prefix_append _ _
  obtain ⟨h1, h2⟩ := saveModels_ok ow tr d man.ws 0 disk2 hprem
  have hk1 : Dict.get? (saveModels ow tr d 0 man.ws disk2).1 (confFile d) =
      some (.manager man.loc man.ws.length) := by
    rw [saveModels_untouched _ _ _ _ _ _ _ (fun j _ _ => conf_not_below d j), hd2, Dict.get?_set,
      if_neg (conf_ne_handler d).symm, hd1, Dict.get?_set, if_pos rfl]
  have hk2 : Dict.get? (saveModels ow tr d 0 man.ws disk2).1 (confFile (d ++ ["data_handler"])) =
      some .part := by
    rw [saveModels_untouched _ _ _ _ _ _ (confFile (d ++ ["data_handler"]))
      (fun j _ _ => handler_not_below d j _), hd2, Dict.get?_set, if_pos rfl]
  rw [hrun, ← hd]
  refine ⟨h1, ⟨hk1, ?_, ?_⟩, ?_⟩
  · have : d ++ ["data_handler", "configuration.yaml"] = confFile (d ++ ["data_handler"]) := by
      simp [confFile]
    rw [this, mem_keys_iff]
    exact ⟨_, hk2⟩
  · intro i w hi
    obtain ⟨h3, h4, -⟩ := h2 i w hi
    rw [Nat.zero_add] at h3 h4
    have e1 : d ++ ["models_" ++ pad4 i, "configuration.yaml"] = confFile (d ++ [modelName i]) := by
      simp [confFile, modelName]
    have e2 : d ++ ["models_" ++ pad4 i, "model_checkpoint.yaml"] = ckptFile (d ++ [modelName i]) := by
      simp [ckptFile, modelName]
    rw [e1, e2, mem_keys_iff]
    exact ⟨⟨_, h3⟩, _, h4⟩
  · intro i hi
    obtain ⟨-, -, h5⟩ := h2 i man.ws[i] (by simp [hi])
    rw [Nat.zero_add, stepsOf_congr (hsame i _)] at h5
    rw [h5]
    rw [show Dict.get? disk2 (stepsFile (d ++ [modelName i])) = _ from hsame i _]
    rfl

/-! ## Loading -/

theorem loadModels_iff (disk : Disk W) (d : Path) : ∀ (k i : Nat) (ws : List W),
    loadModels disk d i k = .ok ws ↔ ws.length = k ∧ ∀ j w, ws[j]? = some w →
      confFile (d ++ [modelName (i + j)]) ∈ Dict.keys disk ∧
      ∃ n, Dict.get? disk (ckptFile (d ++ [modelName (i + j)])) = some (.ckpt n w) := by
  intro k
  induction k with
  | zero =>
    intro i ws
    simp only [loadModels, Except.ok.injEq]
    constructor
    · rintro rfl; simp
    · rintro ⟨h, -⟩; exact (List.eq_nil_of_length_eq_zero h).symm
  | succ k ih =>
    intro i ws
    unfold loadModels
    simp only [stem_model]
    constructor
    · intro h
      split at h
      · cases h
      · rename_i hc
        simp only [Bool.not_eq_true, Bool.not_eq_false'] at hc
        split at h
        · rename_i n w hw
          split at h
          · cases h
          · rename_i ws' hws
            cases h
            obtain ⟨h1, h2⟩ := (ih (i + 1) ws').1 hws
            refine ⟨by simp [h1], fun j v hj => ?_⟩
            cases j with
            | zero =>
              simp only [List.getElem?_cons_zero, Option.some.injEq] at hj
              subst hj
              exact ⟨(Dict.has_iff _ _).1 (by simpa using hc), n, hw⟩
            | succ j =>
              rw [List.getElem?_cons_succ] at hj
              have := h2 j v hj
              rwa [show i + 1 + j = i + (j + 1) by omega] at this
        · cases h
    · rintro ⟨h1, h2⟩
      cases ws with
      | nil => simp at h1
      | cons w ws =>
        obtain ⟨h3, n, h4⟩ := h2 0 w rfl
        rw [Nat.add_zero] at h3 h4
        rw [(Dict.has_iff _ _).2 h3]
        simp only [Bool.not_true, Bool.false_eq_true, if_false]
        rw [h4]
        simp only
        rw [(ih (i + 1) ws).2]
        refine ⟨by simpa using h1, fun j v hj => ?_⟩
        have := h2 (j + 1) v (by rwa [List.getElem?_cons_succ])
        rwa [show i + (j + 1) = i + 1 + j by omega] at this

/-- What can be loaded is what is saved. -/
theorem loadManager_iff (disk : Disk W) (l : Loc) (recorded : Loc) (ws : List W) :
    loadManager disk l = .ok ⟨recorded, ws⟩ ↔ Holds disk l.dir recorded ws := by
  have e0 : l.dir ++ ["data_handler", "configuration.yaml"] =
      confFile (l.dir ++ [stem "data_handler"]) := by simp [confFile, stem_handler]
  have e1 : ∀ i, l.dir ++ ["models_" ++ pad4 i, "configuration.yaml"] =
      confFile (l.dir ++ [modelName i]) := by simp [confFile, modelName]
  have e2 : ∀ i, l.dir ++ ["models_" ++ pad4 i, "model_checkpoint.yaml"] =
      ckptFile (l.dir ++ [modelName i]) := by simp [ckptFile, modelName]
  unfold loadManager
  constructor
  · intro h
    split at h
    · rename_i rc k hc
      split at h
      · cases h
      · rename_i hh
        split at h
        · cases h
        · rename_i ws' hws
          cases h
          obtain ⟨h1, h2⟩ := (loadModels_iff disk l.dir k 0 _).1 hws
          refine ⟨by rw [h1]; exact hc, ?_, fun i w hi => ?_⟩
          · rw [e0, ← Dict.has_iff]; simpa using hh
          · have := h2 i w hi
            rw [Nat.zero_add] at this
            rw [e1, e2]; exact this
    · cases h
  · rintro ⟨h1, h2, h3⟩
    rw [show Dict.get? disk (confFile l.dir) = _ from h1]
    simp only
    rw [e0] at h2
    rw [(Dict.has_iff _ _).2 h2]
    simp only [Bool.not_true, Bool.false_eq_true, if_false]
    rw [(loadModels_iff disk l.dir ws.length 0 ws).2]
    refine ⟨rfl, fun j w hj => ?_⟩
    have := h3 j w hj
    rw [e1, e2] at this
    rw [Nat.zero_add]; exact this

/-! ## Training -/

theorem saveWeights_untouched (d : Path) (s : Nat) : ∀ (ws : List W) (i : Nat) (disk : Disk W),
    ∀ p, (∀ j, i ≤ j → j < i + ws.length →
        p ≠ stepsFile (d ++ [modelName j]) ∧ p ≠ ckptFile (d ++ [modelName j])) →
      Dict.get? (saveWeights d s i ws disk).1 p = Dict.get? disk p := by
  intro ws
  induction ws with
  | nil => intro i disk p _; rfl
  | cons w ws ih =>
    intro i disk p hp
    unfold saveWeights
    simp only
    split
    · split
      · rfl
      · rw [ih (i + 1) _ p (fun j h1 h2 => hp j (by omega) (by simp only [List.length_cons]; omega))]
        obtain ⟨a, b⟩ := hp i le_rfl (by simp)
        rw [Dict.get?_set, if_neg b.symm, Dict.get?_set, if_neg a.symm]
    · rfl

theorem saveWeights_ok (d : Path) (s : Nat) : ∀ (ws : List W) (i : Nat) (disk : Disk W)
    (L : Nat → List Nat),
    (∀ j, i ≤ j → j < i + ws.length →
      Dict.get? disk (stepsFile (d ++ [modelName j])) = some (.steps (L j)) ∧ L j ≠ []) →
    (saveWeights d s i ws disk).2 = none ∧
    ∀ j w, ws[j]? = some w →
      (∃ n, Dict.get? (saveWeights d s i ws disk).1 (ckptFile (d ++ [modelName (i + j)])) =
        some (.ckpt n w)) ∧
      Dict.get? (saveWeights d s i ws disk).1 (stepsFile (d ++ [modelName (i + j)])) =
        some (.steps ((L (i + j)).dropLast ++ [s])) := by
  intro ws
  induction ws with
  | nil => intro i disk L _; exact ⟨rfl, fun j w h => by simp at h⟩
  | cons w ws ih =>
    intro i disk L hL
    obtain ⟨h1, h2⟩ := hL i le_rfl (by simp)
    obtain ⟨m, hm⟩ : ∃ m, m = d ++ [modelName i] := ⟨_, rfl⟩
    obtain ⟨disk1, hd⟩ : ∃ x, x = Dict.set (Dict.set disk (stepsFile m)
        (.steps ((L i).dropLast ++ [s]))) (ckptFile m) (.ckpt (ckptOf disk m + 1) w) := ⟨_, rfl⟩
    have hrun : saveWeights d s i (w :: ws) disk = saveWeights d s (i + 1) ws disk1 := by
      conv_lhs => unfold saveWeights
      simp only [h1]
      have : (L i).isEmpty = false := by simpa using h2
      rw [this]
      simp only [Bool.false_eq_true, if_false, hd, hm]
    obtain ⟨hcc, hsc, hcs⟩ := file_ne m
    have hother : ∀ j, i ≠ j → ∀ t, Dict.get? disk1 (d ++ [modelName j] ++ t) =
        Dict.get? disk (d ++ [modelName j] ++ t) := by
      intro j hj t
      have e := fun s => model_ne (d := d) hj s t
      rw [← hm] at e
      rw [hd, Dict.get?_set, if_neg (show ¬ ckptFile m = _ from e _), Dict.get?_set,
        if_neg (show ¬ stepsFile m = _ from e _)]
    have hkeep : ∀ t, Dict.get? (saveWeights d s (i + 1) ws disk1).1 (m ++ t) =
        Dict.get? disk1 (m ++ t) := by
      intro t
      apply saveWeights_untouched
      intro j h1 h2
      rw [hm]
      exact ⟨model_ne (by omega) t _, model_ne (by omega) t _⟩
    rw [hrun]
    obtain ⟨r1, r2⟩ := ih (i + 1) disk1 L (fun j h3 h4 => by
      rw [show Dict.get? disk1 (stepsFile (d ++ [modelName j])) = _ from hother j (by omega) _]
      exact hL j (by omega) (by simp only [List.length_cons]; omega))
    refine ⟨r1, fun j v hj => ?_⟩
    cases j with
    | zero =>
      simp only [List.getElem?_cons_zero, Option.some.injEq] at hj
      subst hj
      rw [show i + 0 = i from rfl, ← hm]
      refine ⟨⟨ckptOf disk m + 1, ?_⟩, ?_⟩
      · rw [show Dict.get? (saveWeights d s (i + 1) ws disk1).1 (ckptFile m) =
            Dict.get? disk1 (ckptFile m) from hkeep _, hd, Dict.get?_set, if_pos rfl]
      · rw [show Dict.get? (saveWeights d s (i + 1) ws disk1).1 (stepsFile m) =
            Dict.get? disk1 (stepsFile m) from hkeep _, hd, Dict.get?_set, if_neg hcs,
          Dict.get?_set, if_pos rfl]
    | succ j =>
      rw [List.getElem?_cons_succ] at hj
      have := r2 j v hj
      rwa [show i + 1 + j = i + (j + 1) by omega] at this

theorem saves_untouched (d : Path) (learn : Nat → W → W) (ws : List W) :
    ∀ (steps : List Nat) (disk : Disk W), ∀ p, (∀ j, j < ws.length →
        p ≠ stepsFile (d ++ [modelName j]) ∧ p ≠ ckptFile (d ++ [modelName j])) →
      Dict.get? (saves d learn ws steps disk).1 p = Dict.get? disk p := by
  intro steps
  induction steps with
  | nil => intro disk p _; rfl
  | cons s rest ih =>
    intro disk p hp
    have h1 := saveWeights_untouched d s (ws.map (learn (s + 1))) 0 disk p
      (fun j _ h => hp j (by simpa using h))
    unfold saves
    split
    · rename_i x e hx
      rw [hx] at h1; exact h1
    · rename_i x hx
      rw [hx] at h1
      rw [ih x p hp]; exact h1

theorem saves_ok (d : Path) (learn : Nat → W → W) (ws : List W) :
    ∀ (steps : List Nat) (disk : Disk W) (last : Nat) (L : Nat → List Nat),
    steps.getLast? = some last →
    (∀ j < ws.length,
      Dict.get? disk (stepsFile (d ++ [modelName j])) = some (.steps (L j)) ∧ L j ≠ []) →
    (saves d learn ws steps disk).2 = none ∧
    ∀ j w, ws[j]? = some w →
      (∃ n, Dict.get? (saves d learn ws steps disk).1 (ckptFile (d ++ [modelName j])) =
        some (.ckpt n (learn (last + 1) w))) ∧
      Dict.get? (saves d learn ws steps disk).1 (stepsFile (d ++ [modelName j])) =
        some (.steps ((L j).dropLast ++ [last])) := by
  intro steps
  induction steps with
  | nil => intro disk last L h; simp at h
  | cons s rest ih =>
    intro disk last L hlast hL
    obtain ⟨h1, h2⟩ := saveWeights_ok d s (ws.map (learn (s + 1))) 0 disk L
      (fun j _ hj => hL j (by simpa using hj))
    obtain ⟨x, hx⟩ : ∃ x, x = saveWeights d s 0 (ws.map (learn (s + 1))) disk := ⟨_, rfl⟩
    rw [← hx] at h1 h2
    have hrun : saves d learn ws (s :: rest) disk = saves d learn ws rest x.1 := by
      conv_lhs => unfold saves
      rw [← hx]
      obtain ⟨x1, x2⟩ := x
      simp only at h1
      subst h1
      rfl
    rw [hrun]
    cases rest with
    | nil =>
      simp only [List.getLast?_singleton, Option.some.injEq] at hlast
      subst hlast
      refine ⟨rfl, fun j w hj => ?_⟩
      have := h2 j (learn (s + 1) w) (by rw [List.getElem?_map, hj]; rfl)
      rw [Nat.zero_add] at this
      exact this
    | cons s' rest' =>
      rw [List.getLast?_cons_cons] at hlast
      obtain ⟨r1, r2⟩ := ih x.1 last (fun j => (L j).dropLast ++ [s]) hlast (fun j hj => by
        have := h2 j (learn (s + 1) ws[j]) (by simp [hj])
        rw [Nat.zero_add] at this
        exact ⟨this.2, by simp⟩)
      refine ⟨r1, fun j w hj => ?_⟩
      have := r2 j w hj
      rwa [List.dropLast_concat] at this

theorem savedSteps_last (n freq : Nat) : (savedSteps n freq).getLast? = some (n - 1) := by
  simp [savedSteps]

theorem Loc.Plain.dir_eq {l : Loc} (h : l.Plain) : l.dir = l.path := by
  unfold Loc.dir Loc.path; rw [h]

theorem below_steps (d : Path) (j : Nat) : d <+: stepsFile (d ++ [modelName j]) := by
  unfold stepsFile; rw [List.append_assoc]; exact List.prefix_append _ _

theorem below_ckpt (d : Path) (j : Nat) : d <+: ckptFile (d ++ [modelName j]) := by
  unfold ckptFile; rw [List.append_assoc]; exact List.prefix_append _ _

/-- Training writes only in the two directories. -/
theorem trainManager_untouched (learn : Nat → W → W) (n freq : Nat) (man : Man W) (disk : Disk W)
    (p : Path) (h1 : ¬ man.loc.dir <+: p) (h2 : ¬ man.loc.path <+: p) :
    Dict.get? (trainManager learn n freq man disk).1 p = Dict.get? disk p := by
  have h3 := saveManager_untouched true true man man.loc disk p h1
  unfold trainManager
  split
  · rename_i x e hx
    rw [hx] at h3; exact h3
  · rename_i x hx
    rw [hx] at h3
    split
    · exact h3
    · split
      · exact h3
      · rw [saves_untouched]
        · exact h3
        · intro j _
          refine ⟨?_, ?_⟩
          · rintro rfl; exact h2 (below_steps _ _)
          · rintro rfl; exact h2 (below_ckpt _ _)

/-- Training in a directory without extension. -/
theorem trainManager_ok (learn : Nat → W → W) (n freq : Nat) (man : Man W) (disk : Disk W)
    (hp : man.loc.Plain) (hn : n ≠ 0) (hf : freq ≠ 0) :
    (trainManager learn n freq man disk).2 = none ∧
    Holds (trainManager learn n freq man disk).1 man.loc.dir man.loc (man.ws.map (learn n)) ∧
    ∀ i < man.ws.length,
      Dict.get? (trainManager learn n freq man disk).1 (stepsFile (man.loc.dir ++ [modelName i])) =
        some (.steps (stepsOf disk (man.loc.dir ++ [modelName i]) ++ [n - 1])) := by
  obtain ⟨h1, h2, h3⟩ := saveManager_ok true true man man.loc disk (.inl rfl)
  obtain ⟨x, hx⟩ : ∃ x, x = saveManager true true man man.loc disk := ⟨_, rfl⟩
  rw [← hx] at h1 h2 h3
  have hrun : trainManager learn n freq man disk =
      saves man.loc.path learn man.ws (savedSteps n freq) x.1 := by
    unfold trainManager
    rw [← hx]
    obtain ⟨x1, x2⟩ := x
    simp only at h1
    subst h1
    simp only [hn, hf, if_false]
  rw [← hp.dir_eq] at hrun
  rw [hrun]
  obtain ⟨d, hd⟩ : ∃ d, d = man.loc.dir := ⟨_, rfl⟩
  rw [← hd] at h2 h3 ⊢
  obtain ⟨r1, r2⟩ := saves_ok d learn man.ws (savedSteps n freq) x.1 (n - 1)
    (fun i => stepsOf disk (d ++ [modelName i]) ++ [0]) (savedSteps_last n freq)
    (fun j hj => ⟨by rw [h3 j hj]; rfl, by simp⟩)
  have hkeep : ∀ p, (∀ j, p ≠ stepsFile (d ++ [modelName j]) ∧ p ≠ ckptFile (d ++ [modelName j])) →
      Dict.get? (saves d learn man.ws (savedSteps n freq) x.1).1 p = Dict.get? x.1 p :=
    fun p hp => saves_untouched _ _ _ _ _ _ (fun j _ => hp j)
  have hnn : n - 1 + 1 = n := by omega
  refine ⟨r1, ⟨?_, ?_, ?_⟩, ?_⟩
  · rw [List.length_map, hkeep]
    · exact h2.manager
    · exact fun j => ⟨conf_ne_of_model d j _, conf_ne_of_model d j _⟩
  · rw [mem_keys_congr (hkeep _ ?_)]
    · exact h2.handler
    · intro j
      have e : d ++ ["data_handler", "configuration.yaml"] = confFile (d ++ ["data_handler"]) := by
        simp [confFile]
      rw [e]
      exact ⟨handler_ne_of_model d j _, handler_ne_of_model d j _⟩
  · intro i w hi
    rw [List.getElem?_map, Option.map_eq_some_iff] at hi
    obtain ⟨w0, hw0, rfl⟩ := hi
    obtain ⟨⟨k, r3⟩, -⟩ := r2 i w0 hw0
    rw [hnn] at r3
    have e1 : d ++ ["models_" ++ pad4 i, "configuration.yaml"] = confFile (d ++ [modelName i]) := by
      simp [confFile, modelName]
    have e2 : d ++ ["models_" ++ pad4 i, "model_checkpoint.yaml"] = ckptFile (d ++ [modelName i]) := by
      simp [ckptFile, modelName]
    refine ⟨?_, k, by rw [e2]; exact r3⟩
    rw [mem_keys_congr (hkeep _ ?_)]
    · exact (h2.models i w0 hw0).1
    · intro j
      rw [e1]
      by_cases hij : i = j
      · subst hij
        exact ⟨(file_ne _).2.1.symm, (file_ne _).1⟩
      · exact ⟨model_ne hij _ _, model_ne hij _ _⟩
  · intro i hi
    obtain ⟨-, r4⟩ := r2 i man.ws[i] (by simp [hi])
    rw [List.dropLast_concat] at r4
    exact r4

end Verif.Deploy
