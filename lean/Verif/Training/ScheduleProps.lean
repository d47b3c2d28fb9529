import Verif.Training.ScheduleSpec
import Verif.Training.Props

/-! # C145: learning rate schedules from settings -/

namespace Verif.Training
open Verif.Py
variable {K V C O R : Type}

theorem buildScheduler_ok (W : Classes V C O) (s : Dict String V) (o : O) :
    buildScheduler W s = .ok o ↔ DescribedBy W s o := by
  unfold buildScheduler DescribedBy
  constructor
  · intro h
    split at h
    · cases h
    rename_i name h1
    split at h
    · cases h
    rename_i cls h2
    split at h
    · cases h
    rename_i args h3
    exact ⟨name, cls, args, h1, h2, h3, h⟩
  · rintro ⟨name, cls, args, h1, h2, h3, h4⟩
    simp only [h1, h2, h3, h4]

theorem buildSchedulers_ok (W : Classes V C O) (ss : List (Dict String V)) (os : List O) :
    buildSchedulers W ss = .ok os ↔ List.Forall₂ (DescribedBy W) ss os := by
  induction ss generalizing os with
  | nil =>
    simp only [buildSchedulers, Except.ok.injEq, List.forall₂_nil_left_iff]
    exact eq_comm
  | cons s ss ih =>
    unfold buildSchedulers
    constructor
    · intro h
      split at h
      · cases h
      rename_i o h1
      split at h
      · cases h
      rename_i os' h2
      cases h
      exact .cons ((buildScheduler_ok W s o).1 h1) ((ih _).1 h2)
    · intro h
      cases h with
      | cons h1 h2 => simp only [(buildScheduler_ok W s _).2 h1, (ih _).2 h2]

/-- C145: a schedule can be built exactly if there is one boundary less than settings and each settings describe a
scheduler; it then has these schedulers, in this order, and the boundaries. -/
theorem C145_create (W : Classes V C O) (bs : List K) (ss : List (Dict String V)) (name : Option String)
    (m : Schedule K V O) :
    Schedule.create W bs ss name = .ok m ↔
      ss.length = bs.length + 1 ∧ List.Forall₂ (DescribedBy W) ss m.schedulers ∧ m.boundaries = bs ∧
        m.settings = ss ∧ m.name = name.getD "MultiLearningRateScheduler" := by
  unfold Schedule.create
  constructor
  · intro h
    split at h
    · cases h
    rename_i hl
    split at h
    · cases h
    rename_i os hos
    cases h
    refine ⟨by omega, (buildSchedulers_ok W ss os).1 hos, rfl, rfl, ?_⟩
    cases name <;> rfl
  · rintro ⟨hl, hos, h1, h2, h3⟩
    rw [if_neg (by omega), (buildSchedulers_ok W ss _).2 hos]
    rcases m with ⟨b, s, o, n⟩
    simp only at h1 h2 h3
    subst h1 h2 h3
    cases name <;> rfl

/-- C145: what is built from the configuration of a schedule is the same schedule. -/
theorem C145_config (W : Classes V C O) (bs : List K) (ss : List (Dict String V)) (name : Option String)
    (m : Schedule K V O) (h : Schedule.create W bs ss name = .ok m) :
    Schedule.create W m.getConfig.1 m.getConfig.2.1 (some m.getConfig.2.2) = .ok m := by
  rw [C145_create] at h ⊢
  obtain ⟨h1, h2, h3, h4, -⟩ := h
  unfold Schedule.getConfig
  rw [h3, h4]
  exact ⟨h1, h2, rfl, rfl, rfl⟩

/-- C145: for increasing boundaries, at least one, the rate at a step is that of the scheduler which the settings of
the interval of the step describe, at the step counted from the start of the interval (C52). -/
theorem C145_rate [LinearOrder K] [AddCommGroup K] (W : Classes V C O) (rate : O → K → R) (bs : List K)
    (ss : List (Dict String V)) (name : Option String) (m : Schedule K V O) (h : Schedule.create W bs ss name = .ok m)
    (hp : bs.Pairwise (· < ·)) (hne : bs ≠ []) (s : K) :
    ∃ i st o, InInterval bs i s ∧ ss[i]? = some st ∧ DescribedBy W st o ∧
      (m.toLR rate).call false s = .ok (rate o (s - start bs i)) := by
  obtain ⟨h1, h2, h3, -, -⟩ := (C145_create W bs ss name m).1 h
  have hl : (m.schedulers.map rate).length = bs.length + 1 := by
    rw [List.length_map, ← h2.length_eq, h1]
  obtain ⟨l, hl1, i, f, hi, -, hf, hc⟩ := C52_schedule_partial false bs (m.schedulers.map rate) s hp hne hl (.inl rfl)
  have hlr : l = m.toLR rate := by
    unfold MultiLR.init at hl1
    split at hl1
    · cases hl1
    cases hl1
    unfold Schedule.toLR
    rw [h3]
  rw [List.getElem?_map, Option.map_eq_some_iff] at hf
  obtain ⟨o, ho, rfl⟩ := hf
  obtain ⟨ho1, ho2⟩ := List.getElem?_eq_some_iff.1 ho
  have his : i < ss.length := by rw [h2.length_eq]; exact ho1
  refine ⟨i, ss[i], o, hi, List.getElem?_eq_getElem his, ?_, hlr ▸ hc⟩
  have := List.Forall₂.get h2 his ho1
  rw [List.get_eq_getElem, List.get_eq_getElem, ho2] at this
  exact this

theorem get?_popKey {α : Type} (d : Dict String α) (k j : String) (h : j ≠ k) :
    Dict.get? (popKey d k) j = Dict.get? d j := by
  unfold popKey
  induction d with
  | nil => rfl
  | cons kv d ih =>
    obtain ⟨k', v⟩ := kv
    rw [List.filter_cons]
    by_cases hk : k' = k
    · subst hk
      rw [if_neg (by simp), ih, Dict.get?_cons, if_neg (fun h' => h h'.symm)]
    · rw [if_pos (by simpa using hk), Dict.get?_cons, Dict.get?_cons, ih]

theorem get?_inl (d : Dict String V) (j : String) :
    Dict.get? (d.map fun kv => (kv.1, (.inl kv.2 : V ⊕ O))) j = (Dict.get? d j).map .inl := by
  induction d with
  | nil => rfl
  | cons kv d ih =>
    rw [List.map_cons, Dict.get?_cons, Dict.get?_cons, ih]
    split <;> rfl

/-- C145: the optimizer gets all settings as they are, but for a learning rate that is a dictionary: there it gets the
scheduler that the dictionary describes. If the dictionary describes none, training does not start. -/
theorem C145_optimizer (W : Classes V C O) (settings : Dict String V) :
    (∀ args, optimizerArgs W settings = .ok args →
      (∀ k, k ≠ "learning_rate" → Dict.get? args k = (Dict.get? settings k).map .inl) ∧
      (∀ v, Dict.get? settings "learning_rate" = some v →
        (W.asDict v = none → Dict.get? args "learning_rate" = some (.inl v)) ∧
        ∀ cfg, W.asDict v = some cfg → ∃ o, DescribedBy W cfg o ∧ Dict.get? args "learning_rate" = some (.inr o)) ∧
      (Dict.get? settings "learning_rate" = none → Dict.get? args "learning_rate" = none)) ∧
    ((∃ args, optimizerArgs W settings = .ok args) ↔ ∀ v cfg, Dict.get? settings "learning_rate" = some v →
      W.asDict v = some cfg → ∃ o, DescribedBy W cfg o) := by
  unfold optimizerArgs
  dsimp only
  cases h1 : Dict.get? settings "learning_rate" with
  | none =>
    refine ⟨fun args h => ?_, by simp⟩
    cases h
    exact ⟨fun k _ => get?_inl settings k, by simp, fun _ => by rw [get?_inl, h1]; rfl⟩
  | some v =>
    dsimp only
    cases h2 : W.asDict v with
    | none =>
      refine ⟨fun args h => ?_, ?_⟩
      · cases h
        refine ⟨fun k _ => get?_inl settings k, fun v' hv => ?_, by simp⟩
        cases hv
        refine ⟨fun _ => by rw [get?_inl, h1]; rfl, fun cfg hc => ?_⟩
        rw [h2] at hc
        cases hc
      · refine ⟨fun _ v' cfg hv hc => ?_, fun _ => ⟨_, rfl⟩⟩
        cases hv
        rw [h2] at hc
        cases hc
    | some cfg =>
      dsimp only
      cases h3 : buildScheduler W cfg with
      | error e =>
        refine ⟨fun args h => (by cases h), ⟨(by rintro ⟨args, h⟩; cases h), fun h => ?_⟩⟩
        obtain ⟨o, ho⟩ := h v cfg rfl h2
        rw [(buildScheduler_ok W cfg o).2 ho] at h3
        cases h3
      | ok o =>
        have ho := (buildScheduler_ok W cfg o).1 h3
        refine ⟨fun args h => ?_, ⟨fun _ v' cfg' hv hc => ?_, fun _ => ⟨_, rfl⟩⟩⟩
        · cases h
          refine ⟨fun k hk => ?_, fun v' hv => ?_, by simp⟩
          · rw [Dict.get?_set, if_neg (by first | exact hk | exact fun h => hk h.symm), get?_popKey _ _ _ hk, get?_inl]
          · cases hv
            refine ⟨fun hc => ?_, fun cfg' hc => ?_⟩
            · rw [h2] at hc
              cases hc
            · rw [h2] at hc
              cases hc
              exact ⟨o, ho, by rw [Dict.get?_set, if_pos rfl]⟩
        · cases hv
          rw [h2] at hc
          cases hc
          exact ⟨o, ho⟩

/-- Classes and arguments are numbers, a scheduler multiplies. -/
def exClasses : Classes ℕ ℕ (ℕ × ℕ) :=
  ⟨fun n => if n = 0 then .error .importError else .ok n, fun c a => .ok (c, a),
    fun v => if v = 100 then some [("full_class_string", 1), ("settings", 7)] else none⟩

example : ∃ m, Schedule.create exClasses [(10 : ℤ)] [[("full_class_string", 1), ("settings", 5)],
      [("settings", 6), ("full_class_string", 2)]] none = .ok m ∧
    m.schedulers = [(1, 5), (2, 6)] ∧ (m.toLR fun o s => (o, s)).call false 12 = .ok ((2, 6), 2) :=
  ⟨_, rfl, rfl, by decide⟩

example : ([(10 : ℤ)]).Pairwise (· < ·) ∧ [(10 : ℤ)] ≠ [] := by simp

example : optimizerArgs exClasses [("learning_rate", 100), ("beta", 3)] =
    .ok [("beta", .inl 3), ("learning_rate", .inr (1, 7))] := by decide

end Verif.Training
