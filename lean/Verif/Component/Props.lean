/-
Property theorems C01-C04: `Configuration`.
-/
import Verif.Component.Lemmas

namespace Verif.Component
open Verif.Py
variable {V : Type}

/-! ### C01 -/

/-- C01. `Configuration(...)` raises exactly when a dependent name is not
registered (KeyError) or a key is in both dictionaries (ValueError). Otherwise
the merged view has exactly the keys and values of the two dictionaries, each
key once, and the arguments are stored as given with the running version. -/
theorem C01_merged_view (E : Env) (sha : Option String) (d : Cfg V)
    (hs : d.settings.Ok) (hm : d.mutable.Ok) :
    ((∃ n, n ∈ d.deps ∧ n ∉ Dict.keys d.subs) → Conf.init E sha d = .error .keyError) ∧
    ((∀ n, n ∈ d.deps → n ∈ Dict.keys d.subs) →
      ((∃ k, k ∈ d.settings.keys ∧ k ∈ d.mutable.keys) →
        Conf.init E sha d = .error .valueError) ∧
      ((∀ k, k ∈ d.settings.keys → k ∉ d.mutable.keys) →
        ∃ c, Conf.init E sha d = .ok c ∧
          c.config.Ok ∧
          (∀ k v, c.config.get? k = some v ↔
            d.settings.get? k = some v ∨ d.mutable.get? k = some v) ∧
          c.dict.version = E.version ∧
          (∀ s, sha = some s → c.dict.sha = s) ∧ (sha = none → c.dict.sha = E.sha) ∧
          c.dict.cls = d.cls ∧ c.dict.check = d.check ∧ c.dict.settings = d.settings ∧
          c.dict.mutable = d.mutable ∧ c.dict.subs = d.subs ∧ c.dict.deps = d.deps ∧
          c.dict.muts = d.muts)) := by
  refine ⟨?_, ?_⟩
  · rintro ⟨n, h1, h2⟩
    have : checkNames d.subs d.deps = .error .keyError :=
      checkNames_error _ _ (fun h => h2 (h n h1))
    simp [Conf.init, this, bind, Except.bind]
  · intro hdeps
    have hok := (checkNames_ok_iff d.subs d.deps).2 hdeps
    refine ⟨?_, ?_⟩
    · intro h
      simp [Conf.init, hok, combineSettings_error _ _ h, bind, Except.bind]
    · intro h
      refine ⟨⟨{ d with version := E.version, sha := sha.getD E.sha },
        d.settings.update d.mutable⟩, ?_, Dict.ok_update hs _, ?_, rfl, ?_, ?_, rfl, rfl, rfl, rfl,
        rfl, rfl, rfl⟩
      · simp [Conf.init, hok, combineSettings_ok _ _ h, bind, Except.bind]
      · intro k v
        rw [Dict.get?_update _ _ hm]
        cases e : d.mutable.get? k with
        | none => simp
        | some w =>
          have hk : k ∈ d.mutable.keys := (Dict.get?_isSome_iff _ _).1 (by rw [e]; rfl)
          have hs' : d.settings.get? k = none :=
            (Dict.get?_eq_none_iff _ _).2 (fun h' => h k h' hk)
          simp [hs']
      · rintro s rfl; rfl
      · rintro rfl; rfl

/-- A configuration dictionary used in the examples. -/
def exCfg : Cfg Nat :=
  { version := "0", sha := "s", cls := "pkg.A", check := [("hash", 7)]
    settings := [("depth", 3), ("width", 4)], mutable := [("rate", 1), ("name", 2)]
    subs := [("part", ⟨"1", "s", "pkg.B", [], [("x", 1)], [("y", 2)], [], [], []⟩),
             ("other", ⟨"1", "s", "pkg.C", [], [("x", 2)], [], [], [], []⟩)]
    deps := ["part"], muts := ["other"] }

/-- A sub configuration used in the examples. -/
theorem exCfg_wf : WF exCfg := by
  refine WF.mk _ ?_ ?_ ?_ ?_ ?_ ?_ ?_
  · decide
  · decide
  · decide
  · simp [exCfg, Dict.Ok, Dict.keys]
  · decide
  · simp [exCfg, Dict.keys]
  · intro n c h
    simp only [exCfg, List.mem_cons, Prod.mk.injEq, List.not_mem_nil, or_false] at h
    rcases h with ⟨-, rfl⟩ | ⟨-, rfl⟩
    all_goals
      refine WF.mk _ ?_ ?_ ?_ ?_ ?_ ?_ ?_ <;> simp [Dict.Ok, Dict.keys]

-- the hypotheses of C01 (success branch) hold for a non-trivial configuration
example : exCfg.settings.Ok ∧ exCfg.mutable.Ok ∧
    (∀ n, n ∈ exCfg.deps → n ∈ Dict.keys exCfg.subs) ∧
    (∀ k, k ∈ exCfg.settings.keys → k ∉ exCfg.mutable.keys) := by decide
-- and those of the two error branches
example : ∃ d : Cfg Nat, ∃ k, k ∈ d.settings.keys ∧ k ∈ d.mutable.keys :=
  ⟨{ exCfg with mutable := [("depth", 9)] }, "depth", by decide⟩
example : ∃ d : Cfg Nat, ∃ n, n ∈ d.deps ∧ n ∉ Dict.keys d.subs :=
  ⟨{ exCfg with deps := ["nope"] }, "nope", by decide⟩

/-! ### C02 -/

/-- C02, the part that holds. The call succeeds exactly when every key is an
existing mutable key. On success exactly those keys take the new values in
`mutable_settings` and in `config`, and everything else is untouched. On failure
a KeyError is raised, `config`, the immutable settings, and the set of mutable
keys are untouched and only keys named by the caller may have a new value.
Missing: "on failure nothing has changed", which is false, see
`C02_all_or_nothing_violated`. -/
theorem C02_update_mutable_partial (c : Conf V) (new : Dict String V)
    (hm : c.dict.mutable.Ok) (hnew : new.Ok)
    (hdisj : ∀ k, k ∈ c.dict.settings.keys → k ∉ c.dict.mutable.keys) :
    ((c.updateMutable new).2 = none ↔ ∀ k, k ∈ new.keys → k ∈ c.dict.mutable.keys) ∧
    ((c.updateMutable new).2 = none →
      (∀ k, (c.updateMutable new).1.dict.mutable.get? k =
        if k ∈ new.keys then new.get? k else c.dict.mutable.get? k) ∧
      (∀ k, (c.updateMutable new).1.config.get? k =
        if k ∈ new.keys then new.get? k
        else if k ∈ c.dict.mutable.keys then c.dict.mutable.get? k
        else c.dict.settings.get? k)) ∧
    ((c.updateMutable new).2 ≠ none →
      (c.updateMutable new).2 = some .keyError ∧
      (c.updateMutable new).1.config = c.config ∧
      (∀ k, k ∉ new.keys →
        (c.updateMutable new).1.dict.mutable.get? k = c.dict.mutable.get? k)) ∧
    (c.updateMutable new).1.dict.mutable.keys = c.dict.mutable.keys ∧
    (c.updateMutable new).1.dict =
      { c.dict with mutable := (c.updateMutable new).1.dict.mutable } := by
  by_cases h : ∀ k, k ∈ new.keys → k ∈ c.dict.mutable.keys
  · have hkeys := keys_update_of_subset _ _ h
    have hd : ∀ k, k ∈ c.dict.settings.keys → k ∉ (c.dict.mutable.update new).keys := by
      rw [hkeys]; exact hdisj
    have e : c.updateMutable new = (⟨{ c.dict with mutable := c.dict.mutable.update new },
        c.dict.settings.update (c.dict.mutable.update new)⟩, none) := by
      unfold Conf.updateMutable
      rw [updateLoop_ok _ _ h]
      simp only [combineSettings_ok _ _ hd]
    rw [e]
    have hget : ∀ k, (c.dict.mutable.update new).get? k =
        if k ∈ new.keys then new.get? k else c.dict.mutable.get? k := by
      intro k
      rw [Dict.get?_update _ _ hnew]
      by_cases hk : k ∈ new.keys
      · obtain ⟨v, hv⟩ := Option.isSome_iff_exists.1 ((Dict.get?_isSome_iff _ _).2 hk)
        simp [hv, hk]
      · simp [(Dict.get?_eq_none_iff _ _).2 hk, hk]
    refine ⟨by simpa using h, ?_, by simp, hkeys, rfl⟩
    intro _
    refine ⟨hget, ?_⟩
    intro k
    rw [Dict.get?_update _ _ (Dict.ok_update hm _)]
    by_cases hk : k ∈ new.keys
    · have := hget k
      rw [if_pos hk] at this
      obtain ⟨v, hv⟩ := Option.isSome_iff_exists.1 ((Dict.get?_isSome_iff _ _).2 hk)
      simp [this, hv, hk]
    · by_cases hk' : k ∈ c.dict.mutable.keys
      · obtain ⟨v, hv⟩ := Option.isSome_iff_exists.1 ((Dict.get?_isSome_iff _ _).2 hk')
        rw [hget k]
        simp [hk, hk', hv]
      · rw [hget k]
        simp [hk, hk', (Dict.get?_eq_none_iff _ _).2 hk']
  · obtain ⟨pre, k, v, post, rfl, hpre, hk⟩ := exists_first_unknown _ _ h
    have e : c.updateMutable (pre ++ (k, v) :: post) =
        ({ c with dict := { c.dict with mutable := c.dict.mutable.update pre } },
          some .keyError) := by
      unfold Conf.updateMutable
      rw [updateLoop_fail _ _ _ _ _ hpre hk]
    rw [e]
    have hpreok : Dict.Ok pre := by
      unfold Dict.Ok Dict.keys at hnew ⊢
      rw [List.map_append, List.nodup_append] at hnew
      exact hnew.1
    refine ⟨by simp [h], by simp, ?_, keys_update_of_subset _ _ hpre, rfl⟩
    intro _
    refine ⟨rfl, rfl, ?_⟩
    intro k' hk'
    have hk'' : k' ∉ Dict.keys pre := by
      intro hc
      apply hk'
      unfold Dict.keys at *
      rw [List.map_append, List.mem_append]
      exact Or.inl hc
    show (Dict.update c.dict.mutable pre).get? k' = _
    rw [Dict.get?_update _ _ hpreok, (Dict.get?_eq_none_iff _ _).2 hk'']
    rfl

/-- The configuration object of the examples. -/
def exConf : Conf Nat := ⟨exCfg, exCfg.settings.update exCfg.mutable⟩

-- the hypotheses of C02 are met, for a succeeding and for a failing update
example : exConf.dict.mutable.Ok ∧ Dict.Ok [("name", 5)] ∧
    (∀ k, k ∈ exConf.dict.settings.keys → k ∉ exConf.dict.mutable.keys) ∧
    (exConf.updateMutable [("name", 5)]).2 = none ∧
    (exConf.updateMutable [("name", 5), ("zzz", 1)]).2 = some .keyError := by decide

/-- C02 is false as stated: a failing update has already written the keys in
front of the unknown one, so afterwards `mutable_settings` and `config`
disagree. -/
theorem C02_all_or_nothing_violated :
    ∃ (c : Conf Nat) (new : Dict String Nat),
      Conf.init ⟨"1", "s"⟩ none c.dict = .ok c ∧ new.Ok ∧
      (c.updateMutable new).2 = some .keyError ∧
      (c.updateMutable new).1.dict.mutable.get? "name" = some 5 ∧
      (c.updateMutable new).1.config.get? "name" = some 2 ∧
      c.dict.mutable.get? "name" = some 2 :=
  ⟨⟨{ exCfg with version := "1" }, exCfg.settings.update exCfg.mutable⟩,
    [("name", 5), ("zzz", 1)], rfl, by decide, by decide, by decide, by decide, by decide⟩

/-! ### C03 -/

section
variable [DecidableEq V]

/-- C03. On configurations built by the constructor `is_compatible` never raises,
and answers true exactly for the documented relation `Compat`. -/
theorem C03_is_compatible_decides (a b : Cfg V) (ha : WF a) (hb : WF b) :
    (a.isCompatible b = .ok true ∧ Compat a b) ∨ (a.isCompatible b = .ok false ∧ ¬ Compat a b) := by
  obtain ⟨r, hr, hiff⟩ := isCompatible_spec a b ha hb
  cases r with
  | true => exact Or.inl ⟨hr, hiff.1 rfl⟩
  | false => exact Or.inr ⟨hr, fun h => by simpa using hiff.2 h⟩

/-- C03. Every configuration is compatible with itself. -/
theorem C03_is_compatible_refl (a : Cfg V) (ha : WF a) : a.isCompatible a = .ok true := by
  rcases C03_is_compatible_decides a a ha ha with h | h
  · exact h.1
  · exact absurd (Compat.refl ha) h.2

/-- C03. Mutable settings, and the recorded version and commit, are ignored. -/
theorem C03_is_compatible_ignores_mutable (a b : Cfg V) (m : Dict String V) (v s : String)
    (ha : WF a) (hb : WF b) (hm : m.Ok) (hdisj : ∀ k, k ∈ b.settings.keys → k ∉ m.keys) :
    a.isCompatible { b with mutable := m, version := v, sha := s } = a.isCompatible b := by
  have hb' : WF { b with mutable := m, version := v, sha := s } := by
    cases hb with
    | mk _ h1 h2 h3 h4 h5 h6 h7 => exact WF.mk _ h1 hm h3 h4 hdisj h6 h7
  have hiff : Compat a { b with mutable := m, version := v, sha := s } ↔ Compat a b := by
    constructor
    · intro h
      cases h with
      | mk _ _ h1 h2 h3 h4 h5 => exact Compat.mk _ _ h1 h2 h3 h4 h5
    · intro h
      cases h with
      | mk _ _ h1 h2 h3 h4 h5 => exact Compat.mk _ _ h1 h2 h3 h4 h5
  rcases C03_is_compatible_decides a b ha hb with h | h <;>
    rcases C03_is_compatible_decides a _ ha hb' with h' | h'
  · rw [h.1, h'.1]
  · exact absurd (hiff.2 h.2) h'.2
  · exact absurd (hiff.1 h'.2) h.2
  · rw [h.1, h'.1]

/-- C03, symmetry and transitivity, for configurations whose mutable names are
determined by the class, as everywhere in the code base. Missing for arbitrary
configurations: symmetry is then false, see `C03_symmetric_violated`. -/
theorem C03_is_compatible_equivalence_partial (f : String → List String) (a b c : Cfg V)
    (ha : WF a) (hb : WF b) (hc : WF c)
    (fa : MutsByClass f a) (fb : MutsByClass f b) :
    (a.isCompatible b = .ok true → b.isCompatible a = .ok true) ∧
    (a.isCompatible b = .ok true → b.isCompatible c = .ok true → a.isCompatible c = .ok true) := by
  have key : ∀ x y : Cfg V, WF x → WF y → (x.isCompatible y = .ok true ↔ Compat x y) := by
    intro x y hx hy
    rcases C03_is_compatible_decides x y hx hy with h | h
    · simp [h.1, h.2]
    · simp [h.1, h.2]
  rw [key a b ha hb, key b a hb ha, key b c hb hc, key a c ha hc]
  exact ⟨fun h => h.symm_of fa fb, fun h h' => h.trans_of h' hb fa fb⟩

end

-- the hypotheses of the C03 theorems hold for non-trivial trees
example : WF exCfg ∧ exCfg.isCompatible exCfg = .ok true := ⟨exCfg_wf, by decide⟩
example : exCfg.isCompatible { exCfg with cls := "pkg.Z" } = .ok false := by decide
example : MutsByClass (fun c => if c = "pkg.A" then ["other"] else []) exCfg := by
  refine MutsByClass.mk _ (by simp [exCfg]) ?_
  intro n c h
  simp only [exCfg, List.mem_cons, Prod.mk.injEq, List.not_mem_nil, or_false] at h
  rcases h with ⟨-, rfl⟩ | ⟨-, rfl⟩ <;> exact MutsByClass.mk _ (by simp) (by simp)

/-- C03 is false as stated: `is_compatible` is not symmetric, because only the
mutable names of the left configuration are consulted. -/
theorem C03_symmetric_violated : ∃ a b : Cfg Nat, WF a ∧ WF b ∧
    a.isCompatible b = .ok true ∧ b.isCompatible a = .ok false := by
  refine ⟨exCfg, { exCfg with
    muts := []
    subs := [("part", ⟨"1", "s", "pkg.B", [], [("x", 1)], [("y", 2)], [], [], []⟩),
             ("other", ⟨"1", "s", "pkg.D", [], [("x", 2)], [], [], [], []⟩)] },
    exCfg_wf, ?_, by decide, by decide⟩
  refine WF.mk _ ?_ ?_ ?_ ?_ ?_ ?_ ?_
  · decide
  · decide
  · decide
  · simp [Dict.Ok, Dict.keys]
  · decide
  · simp [exCfg, Dict.keys]
  · intro n c h
    simp only [List.mem_cons, Prod.mk.injEq, List.not_mem_nil, or_false] at h
    rcases h with ⟨-, rfl⟩ | ⟨-, rfl⟩
    all_goals
      refine WF.mk _ ?_ ?_ ?_ ?_ ?_ ?_ ?_ <;> simp [Dict.Ok, Dict.keys]

/-! ### C04 -/

/-- Every component passed to a bookkeeping call has a well formed configuration. -/
def ConfOp.ArgsWF : ConfOp V → Prop
  | .addSubs new => ∀ n d, (n, SubArg.configured d) ∈ new → WF d
  | .replaceSubs new => ∀ n d, (n, SubArg.configured d) ∈ new → WF d
  | .updateMutable new => new.Ok
  | _ => True

theorem step_inv (c : Conf V) (op : ConfOp V) (hwf : WF c.dict)
    (hmut : ∀ n, n ∈ c.dict.muts → n ∈ Dict.keys c.dict.subs) (hop : op.ArgsWF) :
    WF (c.step op).1.dict ∧
    (∀ n, n ∈ (c.step op).1.dict.muts → n ∈ Dict.keys (c.step op).1.dict.subs) ∧
    (∀ n, n ∈ Dict.keys c.dict.subs → n ∈ Dict.keys (c.step op).1.dict.subs) ∧
    (c.step op).1.dict.cls = c.dict.cls ∧ (c.step op).1.dict.settings = c.dict.settings ∧
    (c.step op).1.dict.check = c.dict.check ∧
    (c.step op).1.dict.mutable.keys = c.dict.mutable.keys := by
  cases hwf with
  | mk _ h1 h2 h3 h4 h5 h6 h7 =>
  cases op with
  | updateMutable new =>
    have h := C02_update_mutable_partial c new h2 hop h5
    obtain ⟨-, -, -, hk, hd⟩ := h
    simp only [Conf.step]
    rw [hd]
    refine ⟨WF.mk _ h1 ?_ h3 h4 ?_ h6 h7, hmut, fun _ h => h, rfl, rfl, rfl, hk⟩
    · show Dict.Ok (c.updateMutable new).1.dict.mutable
      unfold Dict.Ok; rw [hk]; exact h2
    · intro k hk' ; show k ∉ Dict.keys (c.updateMutable new).1.dict.mutable
      rw [hk]; exact h5 k hk'
  | addDependent names =>
    simp only [Conf.step, Conf.addDependent]
    by_cases h : ∀ n, n ∈ names → n ∈ Dict.keys c.dict.subs
    · rw [(checkNames_ok_iff _ _).2 h]
      refine ⟨WF.mk _ h1 h2 h3 h4 h5 ?_ h7, hmut, fun _ h => h, rfl, rfl, rfl, rfl⟩
      intro n hn
      rcases List.mem_append.1 hn with hn | hn
      · exact h6 n hn
      · exact h n hn
    · rw [checkNames_error _ _ h]
      exact ⟨WF.mk _ h1 h2 h3 h4 h5 h6 h7, hmut, fun _ h => h, rfl, rfl, rfl, rfl⟩
  | addMutable names =>
    simp only [Conf.step, Conf.addMutable]
    by_cases h : ∀ n, n ∈ names → n ∈ Dict.keys c.dict.subs
    · rw [(checkNames_ok_iff _ _).2 h]
      refine ⟨WF.mk _ h1 h2 h3 h4 h5 h6 h7, ?_, fun _ h => h, rfl, rfl, rfl, rfl⟩
      intro n hn
      rcases List.mem_append.1 hn with hn | hn
      · exact hmut n hn
      · exact h n hn
    · rw [checkNames_error _ _ h]
      exact ⟨WF.mk _ h1 h2 h3 h4 h5 h6 h7, hmut, fun _ h => h, rfl, rfl, rfl, rfl⟩
  | addSubs new =>
    obtain ⟨e1, e2, -⟩ := addSubsLoop_inv c.dict.subs new h4
    have hmono : ∀ n, n ∈ Dict.keys c.dict.subs → n ∈ Dict.keys (addSubsLoop c.dict.subs new).1 := by
      intro n hn
      obtain ⟨d, hd⟩ := Option.isSome_iff_exists.1 ((Dict.get?_isSome_iff _ _).2 hn)
      exact (Dict.get?_isSome_iff _ _).1 (by rw [e2 n d hd]; rfl)
    refine ⟨WF.mk _ h1 h2 h3 e1 h5 (fun n hn => hmono n (h6 n hn)) ?_,
      fun n hn => hmono n (hmut n hn), hmono, rfl, rfl, rfl, rfl⟩
    intro n d hd
    rcases mem_addSubsLoop _ _ _ _ hd h4 with h | h
    · exact h7 n d h
    · exact hop n d h
  | replaceSubs new =>
    have e1 := replaceSubsLoop_ok c.dict.subs new h4
    obtain ⟨e2, -⟩ := replaceSubsLoop_inv c.dict.subs new
    have hmono : ∀ n, n ∈ Dict.keys c.dict.subs →
        n ∈ Dict.keys (replaceSubsLoop c.dict.subs new).1 := by
      intro n hn; rw [e2]; exact hn
    refine ⟨WF.mk _ h1 h2 h3 e1 h5 (fun n hn => hmono n (h6 n hn)) ?_,
      fun n hn => hmono n (hmut n hn), hmono, rfl, rfl, rfl, rfl⟩
    intro n d hd
    rcases mem_replaceSubsLoop _ _ _ _ hd h4 with h | h
    · exact h7 n d h
    · exact hop n d h

/-- C04. After every history of calls, successful or not: the configuration is
well formed (dependent names are registered, every name is registered once, and
so on at every level), mutable names are registered, no registered name is lost,
and class, immutable settings, check values and the set of mutable keys are as
constructed. -/
theorem C04_bookkeeping_invariant (c : Conf V) (ops : List (ConfOp V)) (hwf : WF c.dict)
    (hmut : ∀ n, n ∈ c.dict.muts → n ∈ Dict.keys c.dict.subs)
    (hops : ∀ op, op ∈ ops → op.ArgsWF) :
    WF (c.run ops).dict ∧
    (∀ n, n ∈ (c.run ops).dict.muts → n ∈ Dict.keys (c.run ops).dict.subs) ∧
    (∀ n, n ∈ Dict.keys c.dict.subs → n ∈ Dict.keys (c.run ops).dict.subs) ∧
    (c.run ops).dict.cls = c.dict.cls ∧ (c.run ops).dict.settings = c.dict.settings ∧
    (c.run ops).dict.check = c.dict.check ∧
    (c.run ops).dict.mutable.keys = c.dict.mutable.keys := by
  induction ops generalizing c with
  | nil => exact ⟨hwf, hmut, fun _ h => h, rfl, rfl, rfl, rfl⟩
  | cons op rest ih =>
    obtain ⟨a1, a2, a3, a4, a5, a6, a7⟩ := step_inv c op hwf hmut (hops op (by simp))
    obtain ⟨b1, b2, b3, b4, b5, b6, b7⟩ := ih (c.step op).1 a1 a2
      (fun op h => hops op (List.mem_cons_of_mem _ h))
    exact ⟨b1, b2, fun n hn => b3 n (a3 n hn), b4.trans a4, b5.trans a5, b6.trans a6, b7.trans a7⟩

/-- C04. `add_sub_components` succeeds exactly when every entry is a configured
component under a new name; then exactly these are registered in addition. In
every case nothing that was registered before is changed or removed. -/
theorem C04_add_sub_components (c : Conf V) (new : Dict String (SubArg V))
    (hok : Dict.Ok c.dict.subs) (hnew : new.Ok) :
    ((c.addSubs new).2 = none ↔
      ∀ n a, (n, a) ∈ new → n ∉ Dict.keys c.dict.subs ∧ ∃ d, a = .configured d) ∧
    ((c.addSubs new).2 = none → ∀ n d, Dict.get? (c.addSubs new).1.dict.subs n = some d ↔
      (n, SubArg.configured d) ∈ new ∨ Dict.get? c.dict.subs n = some d) ∧
    (∀ n d, Dict.get? c.dict.subs n = some d → Dict.get? (c.addSubs new).1.dict.subs n = some d) ∧
    ((c.addSubs new).1 =
      { c with dict := { c.dict with subs := (c.addSubs new).1.dict.subs } }) := by
  refine ⟨addSubsLoop_ok_iff _ _ hnew, ?_, (addSubsLoop_inv _ _ hok).2.1, rfl⟩
  intro h n d
  have h0 := addSubsLoop_get c.dict.subs new hnew h n
  have h1 := (addSubsLoop_ok_iff c.dict.subs new hnew).1 h
  show Dict.get? (addSubsLoop c.dict.subs new).1 n = some d ↔ _
  rw [h0]
  cases e : new.get? n with
  | none =>
    have : (n, SubArg.configured d) ∉ new := by
      intro hm
      exact (Dict.get?_eq_none_iff _ _).1 e (Dict.mem_keys_of_mem hm)
    simp [this]
  | some a =>
    have hm := Dict.mem_of_get? e
    obtain ⟨hn, d', rfl⟩ := h1 n a hm
    have hnone : Dict.get? c.dict.subs n = none := (Dict.get?_eq_none_iff _ _).2 hn
    simp only [hnone, reduceCtorEq, or_false, Option.some.injEq]
    constructor
    · rintro rfl; exact hm
    · intro hm'
      have := Dict.get?_of_mem hnew hm'
      rw [e] at this
      cases this; rfl

/-- C04. `replace_sub_components` succeeds exactly when every entry is a
configured component under a registered name; then exactly these entries change.
The set of names never changes. -/
theorem C04_replace_sub_components (c : Conf V) (new : Dict String (SubArg V)) (hnew : new.Ok) :
    ((c.replaceSubs new).2 = none ↔
      ∀ n a, (n, a) ∈ new → n ∈ Dict.keys c.dict.subs ∧ ∃ d, a = .configured d) ∧
    ((c.replaceSubs new).2 = none → ∀ n d, (n, SubArg.configured d) ∈ new →
      Dict.get? (c.replaceSubs new).1.dict.subs n = some d) ∧
    (∀ n, n ∉ new.keys → Dict.get? (c.replaceSubs new).1.dict.subs n = Dict.get? c.dict.subs n) ∧
    Dict.keys (c.replaceSubs new).1.dict.subs = Dict.keys c.dict.subs ∧
    ((c.replaceSubs new).1 =
      { c with dict := { c.dict with subs := (c.replaceSubs new).1.dict.subs } }) := by
  refine ⟨replaceSubsLoop_ok_iff _ _, ?_, (replaceSubsLoop_inv _ _).2, (replaceSubsLoop_inv _ _).1,
    rfl⟩
  intro h n d hm
  have h0 := replaceSubsLoop_get c.dict.subs new hnew h n
  rw [Dict.get?_of_mem hnew hm] at h0
  exact h0

/-- C04. Adding a name that exists, or replacing one that does not, raises KeyError. -/
theorem C04_wrong_name_rejected (c : Conf V) (n : String) (d : Cfg V) :
    (n ∈ Dict.keys c.dict.subs →
      c.addSubs [(n, .configured d)] = (c, some .keyError)) ∧
    (n ∉ Dict.keys c.dict.subs →
      c.replaceSubs [(n, .configured d)] = (c, some .keyError)) := by
  constructor
  · intro h
    have := (Dict.has_iff c.dict.subs n).2 h
    simp only [Conf.addSubs, addSubsLoop, this, if_true]
    obtain ⟨⟨⟩, _⟩ := c; rfl
  · intro h
    have := (Dict.has_eq_false_iff c.dict.subs n).2 h
    simp only [Conf.replaceSubs, replaceSubsLoop, this, if_false, Bool.false_eq_true]
    obtain ⟨⟨⟩, _⟩ := c; rfl

/-- C04. Adding dependent (or mutable) names succeeds exactly when all of them are
registered, and then appends them; otherwise it raises KeyError and changes
nothing. -/
theorem C04_add_names (c : Conf V) (names : List String) :
    ((∀ n, n ∈ names → n ∈ Dict.keys c.dict.subs) →
      c.addDependent names = ({ c with dict := { c.dict with deps := c.dict.deps ++ names } }, none) ∧
      c.addMutable names = ({ c with dict := { c.dict with muts := c.dict.muts ++ names } }, none)) ∧
    ((∃ n, n ∈ names ∧ n ∉ Dict.keys c.dict.subs) →
      c.addDependent names = (c, some .keyError) ∧ c.addMutable names = (c, some .keyError)) := by
  constructor
  · intro h
    simp [Conf.addDependent, Conf.addMutable, (checkNames_ok_iff _ _).2 h]
  · rintro ⟨n, h1, h2⟩
    have := checkNames_error c.dict.subs names (fun h => h2 (h n h1))
    simp [Conf.addDependent, Conf.addMutable, this]

-- the hypotheses of C04 are met by a history with successful and failing calls
example : WF exConf.dict ∧ (∀ n, n ∈ exConf.dict.muts → n ∈ Dict.keys exConf.dict.subs) ∧
    (∀ op, op ∈ ([.addDependent ["other"], .addMutable ["nope"],
      .addSubs [("new", .configured exCfg), ("part", .configured exCfg)],
      .replaceSubs [("other", .configured exCfg)], .updateMutable [("name", 3)]] :
        List (ConfOp Nat)) → op.ArgsWF) := by
  refine ⟨exCfg_wf, by decide, ?_⟩
  simp only [List.mem_cons, List.not_mem_nil, or_false]
  rintro op (rfl | rfl | rfl | rfl | rfl)
  · trivial
  · trivial
  · intro n d h
    simp only [List.mem_cons, Prod.mk.injEq, SubArg.configured.injEq, List.not_mem_nil,
      or_false] at h
    rcases h with ⟨-, rfl⟩ | ⟨-, rfl⟩ <;> exact exCfg_wf
  · intro n d h
    simp only [List.mem_cons, Prod.mk.injEq, SubArg.configured.injEq, List.not_mem_nil,
      or_false] at h
    rw [h.2]; exact exCfg_wf
  · show Dict.Ok _; decide

end Verif.Component
