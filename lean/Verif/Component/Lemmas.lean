/- Helper lemmas for the `Configuration` properties. -/
import Verif.Component.Spec

namespace Verif.Component
open Verif.Py
variable {V : Type}

theorem checkNames_ok_iff (subs : Dict String (Cfg V)) (names : List String) :
    checkNames subs names = .ok () ↔ ∀ n, n ∈ names → n ∈ subs.keys := by
  unfold checkNames
  by_cases h : names.all (fun n => subs.has n) = true
  · rw [if_pos h]
    simp only [List.all_eq_true, Dict.has_iff] at h
    simpa using h
  · rw [if_neg h]
    simp only [List.all_eq_true, Dict.has_iff] at h
    simp only [reduceCtorEq, false_iff]
    exact h

theorem checkNames_error (subs : Dict String (Cfg V)) (names : List String)
    (h : ¬ ∀ n, n ∈ names → n ∈ subs.keys) : checkNames subs names = .error .keyError := by
  unfold checkNames
  rw [if_neg]
  simpa only [List.all_eq_true, Dict.has_iff] using h

theorem combineSettings_ok (s m : Dict String V) (h : ∀ k, k ∈ s.keys → k ∉ m.keys) :
    combineSettings s m = .ok (s.update m) := by
  unfold combineSettings
  rw [if_neg]
  simp only [List.any_eq_true, Dict.has_iff, not_exists, not_and]
  exact h

theorem combineSettings_error (s m : Dict String V) (h : ∃ k, k ∈ s.keys ∧ k ∈ m.keys) :
    combineSettings s m = .error .valueError := by
  unfold combineSettings
  rw [if_pos]
  simp only [List.any_eq_true, Dict.has_iff]
  exact h

theorem WF.checkNames {d : Cfg V} (h : WF d) : checkNames d.subs d.deps = .ok () := by
  cases h; exact (checkNames_ok_iff _ _).2 ‹_›

theorem WF.combine {d : Cfg V} (h : WF d) :
    combineSettings d.settings d.mutable = .ok (d.settings.update d.mutable) := by
  cases h; exact combineSettings_ok _ _ ‹_›

/-- The update loop, in closed form. -/
theorem updateLoop_ok (m new : Dict String V) (h : ∀ k, k ∈ new.keys → k ∈ m.keys) :
    updateLoop m new = (m.update new, none) := by
  induction new generalizing m with
  | nil => rfl
  | cons kv rest ih =>
    obtain ⟨k, v⟩ := kv
    have hk : m.has k = true := (Dict.has_iff _ _).2 (h k (by simp))
    unfold updateLoop
    rw [if_pos hk, ih]
    · rfl
    · intro k' hk'
      rw [Dict.mem_keys_set]
      exact Or.inr (h k' (by simp [hk']))

theorem keys_update_of_subset (m new : Dict String V) (h : ∀ k, k ∈ new.keys → k ∈ m.keys) :
    (m.update new).keys = m.keys := by
  unfold Dict.update
  induction new generalizing m with
  | nil => rfl
  | cons kv rest ih =>
    have hk : kv.1 ∈ m.keys := h kv.1 (by simp)
    have hkeys : (m.set kv.1 kv.2).keys = m.keys := by rw [Dict.keys_set, if_pos hk]
    rw [List.foldl_cons, ih, hkeys]
    intro k' hk'
    rw [hkeys]
    exact h k' (by simp [hk'])

/-- On failure the loop has applied the entries in front of the first unknown key. -/
theorem updateLoop_fail (m pre post : Dict String V) (k : String) (v : V)
    (hpre : ∀ k', k' ∈ pre.keys → k' ∈ m.keys) (hk : k ∉ m.keys) :
    updateLoop m (pre ++ (k, v) :: post) = (m.update pre, some .keyError) := by
  induction pre generalizing m with
  | nil =>
    have : m.has k = false := (Dict.has_eq_false_iff _ _).2 hk
    simp [updateLoop, this, Dict.update]
  | cons kv rest ih =>
    obtain ⟨k', v'⟩ := kv
    have hk' : m.has k' = true := (Dict.has_iff _ _).2 (hpre k' (by simp))
    have hk'' : k' ∈ m.keys := hpre k' (by simp)
    have hkeys : (m.set k' v').keys = m.keys := by rw [Dict.keys_set, if_pos hk'']
    rw [List.cons_append, updateLoop, if_pos hk', ih]
    · rfl
    · intro a ha
      rw [hkeys]
      exact hpre a (by simp [ha])
    · rw [hkeys]; exact hk

theorem exists_first_unknown (m : Dict String V) (new : Dict String V)
    (h : ¬ ∀ k, k ∈ new.keys → k ∈ m.keys) :
    ∃ pre k v post, new = pre ++ (k, v) :: post ∧ (∀ k', k' ∈ Dict.keys pre → k' ∈ m.keys) ∧
      k ∉ m.keys := by
  induction new with
  | nil => simp at h
  | cons kv rest ih =>
    obtain ⟨k, v⟩ := kv
    by_cases hk : k ∈ m.keys
    · have : ¬ ∀ k, k ∈ Dict.keys rest → k ∈ m.keys := by
        intro hr
        apply h
        intro k' hk'
        rw [Dict.keys_cons, List.mem_cons] at hk'
        rcases hk' with rfl | hk'
        · exact hk
        · exact hr _ hk'
      obtain ⟨pre, k0, v0, post, h1, h2, h3⟩ := ih this
      refine ⟨(k, v) :: pre, k0, v0, post, by simp [h1], ?_, h3⟩
      intro k' hk'
      rw [Dict.keys_cons, List.mem_cons] at hk'
      rcases hk' with rfl | hk'
      · exact hk
      · exact h2 _ hk'
    · exact ⟨[], k, v, rest, rfl, by simp, hk⟩

/-- The value registered for a well formed argument. -/
def SubArg.cfg? : SubArg V → Option (Cfg V)
  | .configured d => some d
  | _ => none

theorem addSubsLoop_inv (subs : Dict String (Cfg V)) (new : Dict String (SubArg V))
    (hok : subs.Ok) :
    (addSubsLoop subs new).1.Ok ∧
    (∀ n c, subs.get? n = some c → (addSubsLoop subs new).1.get? n = some c) ∧
    (∀ n, n ∈ (addSubsLoop subs new).1.keys → n ∈ subs.keys ∨ n ∈ new.keys) := by
  induction new generalizing subs with
  | nil => exact ⟨hok, fun _ _ h => h, fun _ h => Or.inl h⟩
  | cons na rest ih =>
    obtain ⟨n, a⟩ := na
    cases a with
    | other => exact ⟨hok, fun _ _ h => h, fun _ h => Or.inl h⟩
    | unconfigured =>
      unfold addSubsLoop
      split <;> exact ⟨hok, fun _ _ h => h, fun _ h => Or.inl h⟩
    | configured d =>
      unfold addSubsLoop
      split
      · exact ⟨hok, fun _ _ h => h, fun _ h => Or.inl h⟩
      · rename_i hn
        have hn' : n ∉ subs.keys := by
          rw [← Dict.has_iff]; exact hn
        obtain ⟨h1, h2, h3⟩ := ih (subs.set n d) (Dict.ok_set hok _ _)
        refine ⟨h1, ?_, ?_⟩
        · intro m c hm
          apply h2
          rw [Dict.get?_set, if_neg]
          · exact hm
          · rintro rfl
            exact hn' ((Dict.get?_isSome_iff _ _).1 (by rw [hm]; rfl))
        · intro m hm
          rcases h3 m hm with h | h
          · rw [Dict.mem_keys_set] at h
            rcases h with rfl | h
            · exact Or.inr (by simp)
            · exact Or.inl h
          · exact Or.inr (by simp [h])

theorem addSubsLoop_ok_iff (subs : Dict String (Cfg V)) (new : Dict String (SubArg V))
    (hnew : new.Ok) :
    (addSubsLoop subs new).2 = none ↔
      ∀ n a, (n, a) ∈ new → n ∉ subs.keys ∧ ∃ d, a = .configured d := by
  induction new generalizing subs with
  | nil => simp [addSubsLoop]
  | cons na rest ih =>
    obtain ⟨n, a⟩ := na
    simp only [Dict.Ok, Dict.keys_cons, List.nodup_cons] at hnew
    cases a with
    | other =>
      simp only [addSubsLoop, reduceCtorEq, false_iff]
      intro h
      obtain ⟨_, d, hd⟩ := h n .other (by simp)
      cases hd
    | unconfigured =>
      have : (addSubsLoop subs ((n, .unconfigured) :: rest)).2 ≠ none := by
        unfold addSubsLoop; split <;> simp
      simp only [this, false_iff]
      intro h
      obtain ⟨_, d, hd⟩ := h n .unconfigured (by simp)
      cases hd
    | configured d =>
      unfold addSubsLoop
      split
      · rename_i hn
        simp only [reduceCtorEq, false_iff]
        intro h
        exact (h n (.configured d) (by simp)).1 ((Dict.has_iff _ _).1 hn)
      · rename_i hn
        have hn' : n ∉ subs.keys := by rw [← Dict.has_iff]; exact hn
        rw [ih _ hnew.2]
        constructor
        · intro h m a hm
          rcases List.mem_cons.1 hm with hm | hm
          · cases hm; exact ⟨hn', d, rfl⟩
          · obtain ⟨h1, h2⟩ := h m a hm
            refine ⟨fun hm' => h1 ?_, h2⟩
            rw [Dict.mem_keys_set]; exact Or.inr hm'
        · intro h m a hm
          obtain ⟨h1, h2⟩ := h m a (List.mem_cons_of_mem _ hm)
          refine ⟨?_, h2⟩
          rw [Dict.mem_keys_set]
          rintro (rfl | hm')
          · exact hnew.1 (Dict.mem_keys_of_mem hm)
          · exact h1 hm'

theorem addSubsLoop_get (subs : Dict String (Cfg V)) (new : Dict String (SubArg V))
    (hnew : new.Ok) (hok : (addSubsLoop subs new).2 = none) (n : String) :
    (addSubsLoop subs new).1.get? n =
      match new.get? n with
      | some (.configured d) => some d
      | _ => subs.get? n := by
  induction new generalizing subs with
  | nil => simp [addSubsLoop]
  | cons na rest ih =>
    obtain ⟨m, a⟩ := na
    have h0 := (addSubsLoop_ok_iff subs _ hnew).1 hok m a (by simp)
    obtain ⟨hm, d, rfl⟩ := h0
    simp only [Dict.Ok, Dict.keys_cons, List.nodup_cons] at hnew
    have hm' : subs.has m = false := (Dict.has_eq_false_iff _ _).2 hm
    unfold addSubsLoop at hok ⊢
    rw [if_neg (by simp [hm'])] at hok ⊢
    rw [ih _ hnew.2 hok, Dict.get?_cons, Dict.get?_set]
    by_cases e : m = n
    · subst e
      have : Dict.get? rest m = none := (Dict.get?_eq_none_iff _ _).2 hnew.1
      simp [this]
    · simp [e]

theorem replaceSubsLoop_inv (subs : Dict String (Cfg V)) (new : Dict String (SubArg V)) :
    (replaceSubsLoop subs new).1.keys = subs.keys ∧
    (∀ n, n ∉ new.keys → (replaceSubsLoop subs new).1.get? n = subs.get? n) := by
  induction new generalizing subs with
  | nil => exact ⟨rfl, fun _ _ => rfl⟩
  | cons na rest ih =>
    obtain ⟨n, a⟩ := na
    cases a with
    | other => exact ⟨rfl, fun _ _ => rfl⟩
    | unconfigured => unfold replaceSubsLoop; split <;> exact ⟨rfl, fun _ _ => rfl⟩
    | configured d =>
      unfold replaceSubsLoop
      split
      · rename_i hn
        have hn' := (Dict.has_iff _ _).1 hn
        obtain ⟨h1, h2⟩ := ih (subs.set n d)
        refine ⟨by rw [h1, Dict.keys_set, if_pos hn'], ?_⟩
        intro m hm
        simp only [Dict.keys_cons, List.mem_cons, not_or] at hm
        rw [h2 m hm.2, Dict.get?_set, if_neg (Ne.symm hm.1)]
      · exact ⟨rfl, fun _ _ => rfl⟩

theorem replaceSubsLoop_ok_iff (subs : Dict String (Cfg V)) (new : Dict String (SubArg V)) :
    (replaceSubsLoop subs new).2 = none ↔
      ∀ n a, (n, a) ∈ new → n ∈ subs.keys ∧ ∃ d, a = .configured d := by
  induction new generalizing subs with
  | nil => simp [replaceSubsLoop]
  | cons na rest ih =>
    obtain ⟨n, a⟩ := na
    cases a with
    | other =>
      simp only [replaceSubsLoop, reduceCtorEq, false_iff]
      intro h
      obtain ⟨_, d, hd⟩ := h n .other (by simp)
      cases hd
    | unconfigured =>
      have : (replaceSubsLoop subs ((n, .unconfigured) :: rest)).2 ≠ none := by
        unfold replaceSubsLoop; split <;> simp
      simp only [this, false_iff]
      intro h
      obtain ⟨_, d, hd⟩ := h n .unconfigured (by simp)
      cases hd
    | configured d =>
      unfold replaceSubsLoop
      split
      · rename_i hn
        have hn' := (Dict.has_iff _ _).1 hn
        rw [ih]
        have hk : (subs.set n d).keys = subs.keys := by rw [Dict.keys_set, if_pos hn']
        rw [hk]
        constructor
        · intro h m a hm
          rcases List.mem_cons.1 hm with hm | hm
          · cases hm; exact ⟨hn', d, rfl⟩
          · exact h m a hm
        · intro h m a hm
          exact h m a (List.mem_cons_of_mem _ hm)
      · rename_i hn
        simp only [reduceCtorEq, false_iff]
        intro h
        exact hn ((Dict.has_iff _ _).2 (h n (.configured d) (by simp)).1)

theorem replaceSubsLoop_get (subs : Dict String (Cfg V)) (new : Dict String (SubArg V))
    (hnew : new.Ok) (hok : (replaceSubsLoop subs new).2 = none) (n : String) :
    (replaceSubsLoop subs new).1.get? n =
      match new.get? n with
      | some (.configured d) => some d
      | _ => subs.get? n := by
  induction new generalizing subs with
  | nil => simp [replaceSubsLoop]
  | cons na rest ih =>
    obtain ⟨m, a⟩ := na
    have h0 := (replaceSubsLoop_ok_iff subs _).1 hok m a (by simp)
    obtain ⟨hm, d, rfl⟩ := h0
    simp only [Dict.Ok, Dict.keys_cons, List.nodup_cons] at hnew
    have hm' : subs.has m = true := (Dict.has_iff _ _).2 hm
    unfold replaceSubsLoop at hok ⊢
    rw [if_pos hm'] at hok ⊢
    rw [ih _ hnew.2 hok, Dict.get?_cons, Dict.get?_set]
    by_cases e : m = n
    · subst e
      have : Dict.get? rest m = none := (Dict.get?_eq_none_iff _ _).2 hnew.1
      simp [this]
    · simp [e]

theorem replaceSubsLoop_ok (subs : Dict String (Cfg V)) (new : Dict String (SubArg V))
    (hok : subs.Ok) : (replaceSubsLoop subs new).1.Ok := by
  unfold Dict.Ok; rw [(replaceSubsLoop_inv subs new).1]; exact hok

theorem mem_addSubsLoop (subs : Dict String (Cfg V)) (new : Dict String (SubArg V)) (n : String)
    (d : Cfg V) (h : (n, d) ∈ (addSubsLoop subs new).1) (hok : subs.Ok) :
    (n, d) ∈ subs ∨ (n, SubArg.configured d) ∈ new := by
  induction new generalizing subs with
  | nil => exact Or.inl h
  | cons na rest ih =>
    obtain ⟨m, a⟩ := na
    cases a with
    | other => exact Or.inl h
    | unconfigured => unfold addSubsLoop at h; split at h <;> exact Or.inl h
    | configured d' =>
      unfold addSubsLoop at h
      split at h
      · exact Or.inl h
      · rcases ih _ h (Dict.ok_set hok _ _) with h | h
        · have h2 := Dict.get?_of_mem (Dict.ok_set hok m d') h
          rw [Dict.get?_set] at h2
          by_cases e : m = n
          · rw [if_pos e] at h2; cases h2; subst e; exact Or.inr (by simp)
          · rw [if_neg e] at h2; exact Or.inl (Dict.mem_of_get? h2)
        · exact Or.inr (List.mem_cons_of_mem _ h)

theorem mem_replaceSubsLoop (subs : Dict String (Cfg V)) (new : Dict String (SubArg V))
    (n : String) (d : Cfg V) (h : (n, d) ∈ (replaceSubsLoop subs new).1) (hok : subs.Ok) :
    (n, d) ∈ subs ∨ (n, SubArg.configured d) ∈ new := by
  induction new generalizing subs with
  | nil => exact Or.inl h
  | cons na rest ih =>
    obtain ⟨m, a⟩ := na
    cases a with
    | other => exact Or.inl h
    | unconfigured => unfold replaceSubsLoop at h; split at h <;> exact Or.inl h
    | configured d' =>
      unfold replaceSubsLoop at h
      split at h
      · rcases ih _ h (Dict.ok_set hok _ _) with h | h
        · have h2 := Dict.get?_of_mem (Dict.ok_set hok m d') h
          rw [Dict.get?_set] at h2
          by_cases e : m = n
          · rw [if_pos e] at h2; cases h2; subst e; exact Or.inr (by simp)
          · rw [if_neg e] at h2; exact Or.inl (Dict.mem_of_get? h2)
        · exact Or.inr (List.mem_cons_of_mem _ h)
      · exact Or.inl h

variable [DecidableEq V]

theorem subsCompatible_spec (subs : List (String × Cfg V)) (other : Dict String (Cfg V))
    (muts : List String) (hother : other.Ok)
    (hwf : ∀ n c, (n, c) ∈ subs → WF c) (hwfo : ∀ n c, (n, c) ∈ other → WF c)
    (hn : ∀ n, n ∈ Dict.keys subs → n ∈ other.keys)
    (ih : ∀ n c, (n, c) ∈ subs → ∀ b, WF b → ∃ r, c.isCompatible b = .ok r ∧ (r = true ↔ Compat c b)) :
    ∃ r, subsCompatible subs other muts = .ok r ∧
      (r = true ↔ ∀ n ca cb, (n, ca) ∈ subs → (n, cb) ∈ other → n ∉ muts → Compat ca cb) := by
  induction subs with
  | nil => exact ⟨true, by simp [subsCompatible]⟩
  | cons nc rest ihl =>
    obtain ⟨n, c⟩ := nc
    have hc : WF c := hwf n c (by simp)
    have hmem : n ∈ other.keys := hn n (by simp)
    obtain ⟨o, ho⟩ := Option.isSome_iff_exists.1 ((Dict.get?_isSome_iff other n).2 hmem)
    have homem := Dict.mem_of_get? ho
    have hwo : WF o := hwfo n o homem
    obtain ⟨r, hr, hriff⟩ := ih n c (by simp) o hwo
    obtain ⟨r', hr', hriff'⟩ := ihl (fun n c h => hwf n c (List.mem_cons_of_mem _ h))
      (fun n h => hn n (by simp [h])) (fun n c h => ih n c (List.mem_cons_of_mem _ h))
    have huniq : ∀ cb, (n, cb) ∈ other → cb = o := by
      intro cb hcb
      have := Dict.get?_of_mem hother hcb
      rw [ho] at this
      exact (Option.some.inj this).symm
    rw [subsCompatible, WF.checkNames hc, WF.combine hc]
    simp only [ho, WF.checkNames hwo, WF.combine hwo, hr]
    have key : (∀ m ca cb, (m, ca) ∈ (n, c) :: rest → (m, cb) ∈ other → m ∉ muts → Compat ca cb) ↔
        (n ∉ muts → Compat c o) ∧
        (∀ m ca cb, (m, ca) ∈ rest → (m, cb) ∈ other → m ∉ muts → Compat ca cb) := by
      constructor
      · intro h
        exact ⟨fun hm => h n c o (by simp) homem hm,
          fun m ca cb h1 h2 h3 => h m ca cb (List.mem_cons_of_mem _ h1) h2 h3⟩
      · rintro ⟨h1, h2⟩ m ca cb hm hb hmu
        rcases List.mem_cons.1 hm with hm | hm
        · cases hm
          rw [huniq cb hb]
          exact h1 hmu
        · exact h2 m ca cb hm hb hmu
    rw [key]
    cases r with
    | true =>
      have hc := hriff.1 rfl
      exact ⟨r', hr', by rw [hriff']; simp [hc]⟩
    | false =>
      have hc : ¬ Compat c o := by simpa using hriff
      by_cases hm : n ∈ muts
      · refine ⟨r', by simp [hm, hr'], ?_⟩
        rw [hriff']; simp [hm]
      · refine ⟨false, by simp [hm], ?_⟩
        simp [hm, hc]

theorem isCompatible_spec (a b : Cfg V) (ha : WF a) (hb : WF b) :
    ∃ r, a.isCompatible b = .ok r ∧ (r = true ↔ Compat a b) := by
  induction ha generalizing b with
  | mk a hs hm hc hsub hdisj hdeps hrec ih =>
    cases hb with
    | mk _ hs' hm' hc' hsub' hdisj' hdeps' hrec' =>
    obtain ⟨ver, sha, cls, check, settings, mutable, subs, deps, muts⟩ := a
    rw [Cfg.isCompatible]
    simp only at hs hm hc hsub hdisj hdeps hrec ih ⊢
    have h1 := Dict.beq_iff hs hs'
    have h2 := Dict.beq_iff hc hc'
    by_cases e1 : Dict.beq settings b.settings = true
    · by_cases e2 : Dict.beq check b.check = true
      · by_cases e3 : cls = b.cls
        · rw [if_neg (by simp [e1, e2, e3])]
          by_cases e4 : ∀ n, n ∈ Dict.keys subs ↔ n ∈ Dict.keys b.subs
          · rw [if_neg]
            · obtain ⟨r, hr, hriff⟩ := subsCompatible_spec subs b.subs muts hsub' hrec hrec'
                (fun n hn => (e4 n).1 hn) (fun n c hmem b hb => ih n c hmem b hb)
              refine ⟨r, hr, ?_⟩
              rw [hriff]
              constructor
              · intro h
                exact Compat.mk _ _ e3 (h1.1 e1) (h2.1 e2) e4 h
              · intro h
                cases h with
                | mk _ _ _ _ _ _ h => exact h
            · simp only [Bool.not_eq_true, Bool.not_eq_false', Bool.and_eq_true,
                List.all_eq_true, Dict.has_iff]
              exact ⟨fun n h => (e4 n).1 h, fun n h => (e4 n).2 h⟩
          · rw [if_pos]
            · refine ⟨false, rfl, ?_⟩
              simp only [Bool.false_eq_true, false_iff]
              intro h
              cases h with
              | mk _ _ _ _ _ h _ => exact e4 h
            · rw [Bool.not_eq_true', ← Bool.not_eq_true]
              simp only [Bool.and_eq_true, List.all_eq_true, Dict.has_iff]
              rintro ⟨h, h'⟩
              exact e4 fun n => ⟨h n, h' n⟩
        · rw [if_pos (by simp [e3])]
          refine ⟨false, rfl, ?_⟩
          simp only [Bool.false_eq_true, false_iff]
          intro h
          cases h with
          | mk _ _ h _ _ _ _ => exact e3 h
      · rw [if_pos (by simp [e2])]
        refine ⟨false, rfl, ?_⟩
        simp only [Bool.false_eq_true, false_iff]
        intro h
        cases h with
        | mk _ _ _ _ h _ _ => exact e2 (h2.2 h)
    · rw [if_pos (by simp [e1])]
      refine ⟨false, rfl, ?_⟩
      simp only [Bool.false_eq_true, false_iff]
      intro h
      cases h with
      | mk _ _ _ h _ _ _ => exact e1 (h1.2 h)

omit [DecidableEq V] in
theorem Compat.refl {a : Cfg V} (h : WF a) : Compat a a := by
  induction h with
  | mk a hs hm hc hsub hdisj hdeps hrec ih =>
    refine Compat.mk _ _ rfl (fun _ => rfl) (fun _ => rfl) (fun _ => Iff.rfl) ?_
    intro n ca cb h1 h2 _
    have e1 := Dict.get?_of_mem hsub h1
    have e2 := Dict.get?_of_mem hsub h2
    rw [e1] at e2
    cases e2
    exact ih n ca h1

omit [DecidableEq V] in
theorem Compat.symm_of {f : String → List String} {a b : Cfg V} (h : Compat a b)
    (ha : MutsByClass f a) (hb : MutsByClass f b) : Compat b a := by
  induction h with
  | mk a b hcls hs hc hn hsub ih =>
    cases ha with
    | mk _ ha hra =>
    cases hb with
    | mk _ hb hrb =>
    refine Compat.mk _ _ hcls.symm (fun k => (hs k).symm) (fun k => (hc k).symm)
      (fun n => (hn n).symm) ?_
    intro n cb ca h1 h2 hm
    apply ih n ca cb h2 h1 _ (hra n ca h2) (hrb n cb h1)
    rw [ha, hcls, ← hb]; exact hm

omit [DecidableEq V] in
theorem Compat.trans_of {f : String → List String} {a b c : Cfg V} (h : Compat a b)
    (h' : Compat b c) (hwb : WF b)
    (ha : MutsByClass f a) (hb : MutsByClass f b) : Compat a c := by
  induction h generalizing c with
  | mk a b hcls hs hc hn hsub ih =>
    cases ha with
    | mk _ ha hra =>
    cases hb with
    | mk _ hb hrb =>
    cases h' with
    | mk _ _ hcls' hs' hc' hn' hsub' =>
    cases hwb with
    | mk _ _ _ _ _ _ _ hwr =>
    refine Compat.mk _ _ (hcls.trans hcls') (fun k => (hs k).trans (hs' k))
      (fun k => (hc k).trans (hc' k)) (fun n => (hn n).trans (hn' n)) ?_
    intro n ca cc h1 h2 hm
    have hmem : n ∈ Dict.keys b.subs := (hn n).1 (Dict.mem_keys_of_mem h1)
    obtain ⟨cb, hcb⟩ := Option.isSome_iff_exists.1 ((Dict.get?_isSome_iff _ n).2 hmem)
    have hcb := Dict.mem_of_get? hcb
    have hm' : n ∉ b.muts := by rw [hb, ← hcls, ← ha]; exact hm
    exact ih n ca cb h1 hcb hm (hsub' n cb cc hcb h2 hm') (hwr n cb hcb) (hra n ca h1)
      (hrb n cb hcb)

end Verif.Component
