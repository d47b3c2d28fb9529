/-
Properties C53 and C72: merging of configuration files and expansion of placeholders.
-/
import Verif.Setup.Lemmas

namespace Verif.Setup
open Verif.Py

/-! ## C53: merging -/

/-- C53. Something that is not a list of files, and an empty list, are refused. -/
theorem C53_refused (E : Env) :
    setup E none = .error .valueError ∧ setup E (some []) = .error .valueError := ⟨rfl, rfl⟩

/-- C53. If a key is defined in two of the files, the setup raises. -/
theorem C53_duplicate (E : Env) (ds : List (String × Config)) (i j : Nat) (a b : String × Config)
    (k : String) (hij : i < j) (ha : ds[i]? = some a) (hb : ds[j]? = some b)
    (h1 : k ∈ Dict.keys a.2) (h2 : k ∈ Dict.keys b.2) :
    setup E (some (readFiles ds)) = .error .valueError := by
  have hno : ¬ NoDuplicate ds := by
    intro h
    obtain ⟨hi, rfl⟩ := List.getElem?_eq_some_iff.1 ha
    obtain ⟨hj, rfl⟩ := List.getElem?_eq_some_iff.1 hb
    exact List.pairwise_iff_getElem.1 h i j hi hj hij k ⟨h1, h2⟩
  rcases mergeLoop_readFiles E.base ds [] none with h | h
  · exact absurd h.1 hno
  · cases ds with
    | nil => simp at ha
    | cons d ds =>
      unfold setup
      simp only [readFiles, List.map_cons] at h ⊢
      rw [h.2]

theorem setup_ok {E : Env} {fs : List File} {cfg : Config} (h : setup E (some fs) = .ok cfg) :
    ∃ ds p raw, fs = readFiles ds ∧ ds ≠ [] ∧ NoDuplicate ds ∧
      Dict.get? (Dict.update [("float_precision", .str "float32")]
        (ds.foldl (fun c d => Dict.update c d.2) [])) "float_precision" = some p ∧
      addSettings E (Dict.update [("float_precision", .str "float32")]
        (ds.foldl (fun c d => Dict.update c d.2) [])) (joined E.base none ds) = .ok raw ∧
      expandDict E.shown id [] raw = .ok cfg := by
  unfold setup at h
  cases fs with
  | nil => simp at h
  | cons f fs =>
    simp only at h
    cases hm : mergeLoop E.base [] none (f :: fs) with
    | error e => rw [hm] at h; cases h
    | ok r =>
      obtain ⟨ds, hds⟩ := mergeLoop_ok E.base _ _ _ _ hm
      rw [hm] at h
      obtain ⟨new, name⟩ := r
      simp only at h
      rw [hds] at hm
      rcases mergeLoop_readFiles E.base ds [] none with h' | h'
      · rw [h'.2.2] at hm
        cases hm
        cases ha : addSettings E (Dict.update [("float_precision", .str "float32")]
            (ds.foldl (fun c d => Dict.update c d.2) [])) (joined E.base none ds) with
        | error e => rw [ha] at h; cases h
        | ok raw =>
          rw [ha] at h
          have : ∃ p, Dict.get? (Dict.update [("float_precision", .str "float32")]
              (ds.foldl (fun c d => Dict.update c d.2) [])) "float_precision" = some p := by
            apply Option.isSome_iff_exists.1
            rw [Dict.get?_isSome_iff, Dict.mem_keys_update]
            left; simp
          obtain ⟨p, hp⟩ := this
          refine ⟨ds, p, raw, hds, ?_, h'.1, hp, ha, h⟩
          rintro rfl
          simp [readFiles] at hds
      · rw [h'.2] at hm; cases hm

/-- The settings before the expansion of strings, key by key. -/
theorem addSettings_ok {E : Env} {cfg raw : Config} {name : Option String}
    (h : addSettings E cfg name = .ok raw) (hok : Dict.Ok cfg) :
    Dict.Ok raw ∧ (∀ k, k ∈ Dict.keys raw ↔ k ∈ Dict.keys cfg ∨ k ∈ added) ∧
    (∀ k, k ∉ added → Dict.get? raw k = Dict.get? cfg k) ∧
    Dict.get? raw "git_short_sha" = some (.str E.shortSha) ∧
    Dict.get? raw "git_sha" = some (.str E.sha) ∧
    Dict.get? raw "git_origin" = some (.str E.origin) ∧
    Dict.get? raw "git_uncommited_changes" = some E.uncommitted ∧
    Dict.get? raw "pip_installed_packages" = some E.packages ∧
    Dict.get? raw "config_name" = some (.str (name.getD "None")) ∧
    Dict.get? raw "egenerator_dir" = some (.str E.dir) ∧
    ∃ p t n, Dict.get? cfg "float_precision" = some p ∧ E.tfAttr p = .ok t ∧ E.npAttr p = .ok n ∧
      Dict.get? raw "tf_float_precision" = some t ∧ Dict.get? raw "np_float_precision" = some n := by
  unfold addSettings at h
  cases hp : Dict.get? cfg "float_precision" with
  | none => rw [hp] at h; cases h
  | some p =>
    rw [hp] at h
    simp only at h
    cases ht : E.tfAttr p with
    | error e => rw [ht] at h; cases h
    | ok t =>
      rw [ht] at h
      simp only at h
      cases hn : E.npAttr p with
      | error e => rw [hn] at h; cases h
      | ok n =>
        rw [hn] at h
        cases h
        refine ⟨?_, ?_, ?_, ?_, ?_, ?_, ?_, ?_, ?_, ?_, p, t, n, rfl, ht, hn, ?_, ?_⟩
        · repeat apply Dict.ok_set
          exact hok
        · intro k
          simp only [Dict.mem_keys_set, added, List.mem_cons, List.not_mem_nil, or_false]
          constructor
          · rintro (h | h | h | h | h | h | h | h | h | h) <;> simp [h]
          · rintro (h | h | h | h | h | h | h | h | h | h) <;> simp [h]
        · intro k hk
          simp only [added, List.mem_cons, List.not_mem_nil, or_false, not_or] at hk
          simp only [Dict.get?_set]
          obtain ⟨h1, h2, h3, h4, h5, h6, h7, h8, h9⟩ := hk
          simp [Ne.symm h1, Ne.symm h2, Ne.symm h3, Ne.symm h4, Ne.symm h5, Ne.symm h6, Ne.symm h7,
            Ne.symm h8, Ne.symm h9]
        all_goals simp [Dict.get?_set]

/-- The entries of the result are those before the expansion, with the same keys. -/
theorem expanded_get? {shown : Val → String} {raw cfg : Config} (hok : Dict.Ok raw)
    (h : expandDict shown id [] raw = .ok cfg) :
    Dict.Ok cfg ∧ Dict.keys cfg = Dict.keys raw ∧
    ∀ k v, Dict.get? raw k = some v → Plain v → Dict.get? cfg k = some v := by
  obtain ⟨out, ho, hk, hi⟩ := expandDict_ok shown id raw [] cfg h
  rw [List.nil_append] at ho
  subst ho
  have hok' : Dict.Ok cfg := by unfold Dict.Ok; rw [hk]; exact hok
  refine ⟨hok', hk, ?_⟩
  intro k v hv hp
  obtain ⟨i, hi'⟩ := index_of_get? hv
  obtain ⟨w, h1, h2⟩ := hi i k v hi'
  rw [expandVal_plain _ _ _ hp] at h2
  cases h2
  exact get?_of_index hok' h1

/-- C53. If the setup succeeds, all files were dictionaries and no key is defined twice; the settings
are those of the files, the default and the ones added by the code; every value of a file without
placeholders is kept under its key, unless the code uses that key itself; the default is used exactly
if no file gives the setting. (`Dict.Ok`: a dictionary has every key once.)
Missing: keys in `added`, see `C53_violated_added`; strings with placeholders, see C72. -/
theorem C53_merged_partial (E : Env) (fs : List File) (cfg : Config)
    (hok : ∀ f ∈ fs, ∀ d, f.content = .ok (some d) → Dict.Ok d)
    (h : setup E (some fs) = .ok cfg) :
    ∃ ds, fs = readFiles ds ∧ NoDuplicate ds ∧
    (∀ k, k ∈ Dict.keys cfg ↔ (∃ d ∈ ds, k ∈ Dict.keys d.2) ∨ k = "float_precision" ∨ k ∈ added) ∧
    (∀ d ∈ ds, ∀ k v, k ∉ added → Dict.get? d.2 k = some v → Plain v → Dict.get? cfg k = some v) ∧
    ((∀ d ∈ ds, "float_precision" ∉ Dict.keys d.2) →
      Dict.get? cfg "float_precision" = some (.str "float32")) := by
  obtain ⟨ds, p, raw, rfl, hne, hno, hp, hadd, hexp⟩ := setup_ok h
  have hokd : ∀ d ∈ ds, Dict.Ok d.2 := by
    intro d hd
    exact hok ⟨d.1, .ok (some d.2)⟩ (List.mem_map_of_mem hd) d.2 rfl
  have hokm : Dict.Ok (ds.foldl (fun c d => Dict.update c d.2) []) := ok_foldl ds _ Dict.ok_nil
  have hokdef : Dict.Ok (Dict.update [("float_precision", Val.str "float32")]
      (ds.foldl (fun c d => Dict.update c d.2) [])) := Dict.ok_update (by simp [Dict.Ok]) _
  obtain ⟨r1, r2, r3, -⟩ := addSettings_ok hadd hokdef
  obtain ⟨e1, e2, e3⟩ := expanded_get? r1 hexp
  refine ⟨ds, rfl, hno, ?_, ?_, ?_⟩
  · intro k
    rw [e2, r2, Dict.mem_keys_update, mem_keys_foldl]
    simp only [Dict.keys_cons, Dict.keys_nil, List.mem_singleton, List.not_mem_nil, false_or]
    constructor
    · rintro ((h | h) | h)
      · exact Or.inr (Or.inl h)
      · exact Or.inl h
      · exact Or.inr (Or.inr h)
    · rintro (h | h | h)
      · exact Or.inl (Or.inr h)
      · exact Or.inl (Or.inl h)
      · exact Or.inr h
  · intro d hd k v hk hv hpl
    apply e3 k v _ hpl
    rw [r3 k hk, Dict.get?_update _ _ hokm, get?_foldl ds hokd hno [] d k v hd hv]
    rfl
  · intro hnone
    apply e3 _ _ _ (by decide)
    rw [r3 _ (by decide), Dict.get?_update _ _ hokm, get?_foldl_none ds hokd _ _ hnone]
    rfl

/-- C53. The settings the code adds itself. -/
theorem C53_added (E : Env) (fs : List File) (cfg : Config) (h : setup E (some fs) = .ok cfg) :
    (PlainText E.sha → Dict.get? cfg "git_sha" = some (.str E.sha)) ∧
    (PlainText E.shortSha → Dict.get? cfg "git_short_sha" = some (.str E.shortSha)) ∧
    (PlainText E.origin → Dict.get? cfg "git_origin" = some (.str E.origin)) ∧
    (Plain E.uncommitted → Dict.get? cfg "git_uncommited_changes" = some E.uncommitted) ∧
    (Plain E.packages → Dict.get? cfg "pip_installed_packages" = some E.packages) ∧
    (PlainText E.dir → Dict.get? cfg "egenerator_dir" = some (.str E.dir)) ∧
    (∀ f rest, fs = f :: rest →
      PlainText ((f :: rest).map (fun f => E.base f.name) |> String.intercalate "__") →
      Dict.get? cfg "config_name" =
        some (.str ((f :: rest).map (fun f => E.base f.name) |> String.intercalate "__"))) := by
  obtain ⟨ds, p, raw, rfl, hne, hno, hp, hadd, hexp⟩ := setup_ok h
  have hokdef : Dict.Ok (Dict.update [("float_precision", Val.str "float32")]
      (ds.foldl (fun c d => Dict.update c d.2) [])) := Dict.ok_update (by simp [Dict.Ok]) _
  obtain ⟨r1, -, -, s1, s2, s3, s4, s5, s6, s7, -⟩ := addSettings_ok hadd hokdef
  obtain ⟨e1, e2, e3⟩ := expanded_get? r1 hexp
  have ps : ∀ s : String, PlainText s → Plain (.str s) := by
    intro s hs x hx
    simp only [strings, List.mem_singleton] at hx
    subst hx; exact hs
  refine ⟨fun x => e3 _ _ s2 (ps _ x), fun x => e3 _ _ s1 (ps _ x), fun x => e3 _ _ s3 (ps _ x),
    fun x => e3 _ _ s4 x, fun x => e3 _ _ s5 x, fun x => e3 _ _ s7 (ps _ x), ?_⟩
  intro f rest hfs hpl
  have key : ∀ (ds : List (String × Config)) (acc : String),
      joined E.base (some acc) ds = some (ds.foldl (fun a d => a ++ "__" ++ E.base d.1) acc) := by
    intro ds
    induction ds with
    | nil => intro acc; rfl
    | cons d ds ih =>
      intro acc
      rw [joined, List.foldl_cons, ih]
      simp [addName, String.append_assoc]
  have hname : (joined E.base none ds).getD "None" =
      String.intercalate "__" ((readFiles ds).map (fun f => E.base f.name)) := by
    cases ds with
    | nil => exact absurd rfl hne
    | cons d ds =>
      rw [joined, key]
      have : ∀ (ds : List (String × Config)) (acc : String),
          String.intercalate "__" (acc :: (readFiles ds).map (fun f => E.base f.name)) =
            ds.foldl (fun a d => a ++ "__" ++ E.base d.1) acc := by
        intro ds
        induction ds with
        | nil => intro acc; rfl
        | cons d ds ih =>
          intro acc
          rw [List.foldl_cons, ← ih]
          simp only [readFiles, List.map_cons]
          rw [String.intercalate_cons_cons, String.intercalate_cons_append]
      exact (this ds _).symm
  rw [← hfs] at hpl ⊢
  rw [← hname] at hpl ⊢
  exact e3 _ _ s6 (ps _ hpl)

/-- C53 is false for the keys the code uses itself: a file that defines `git_sha` is accepted and its
value is silently replaced. -/
theorem C53_violated_added (E : Env) (v : Val) (name : String) (t n : Val)
    (ht : E.tfAttr (.str "float32") = .ok t) (hn : E.npAttr (.str "float32") = .ok n)
    (hplain : Plain t ∧ Plain n ∧ PlainText E.sha ∧ PlainText E.shortSha ∧ PlainText E.origin ∧
      PlainText E.dir ∧ PlainText (E.base name) ∧ Plain E.uncommitted ∧ Plain E.packages) :
    ∃ cfg, setup E (some (readFiles [(name, [("git_sha", v)])])) = .ok cfg ∧
      Dict.get? cfg "git_sha" = some (.str E.sha) := by
  obtain ⟨p1, p2, p3, p4, p5, p6, p7, p8, p9⟩ := hplain
  have ps : ∀ s : String, PlainText s → Plain (.str s) := by
    intro s hs x hx
    simp only [strings, List.mem_singleton] at hx
    subst hx; exact hs
  have hset : ∃ cfg, setup E (some (readFiles [(name, [("git_sha", v)])])) = .ok cfg := by
    refine ⟨[("float_precision", .str "float32"), ("git_sha", .str E.sha), ("tf_float_precision", t),
      ("np_float_precision", n), ("git_short_sha", .str E.shortSha), ("git_origin", .str E.origin),
      ("git_uncommited_changes", E.uncommitted), ("pip_installed_packages", E.packages),
      ("config_name", .str (E.base name)), ("egenerator_dir", .str E.dir)], ?_⟩
    have e : setup E (some (readFiles [(name, [("git_sha", v)])])) = expandDict E.shown id []
        [("float_precision", .str "float32"), ("git_sha", .str E.sha), ("tf_float_precision", t),
      ("np_float_precision", n), ("git_short_sha", .str E.shortSha), ("git_origin", .str E.origin),
      ("git_uncommited_changes", E.uncommitted), ("pip_installed_packages", E.packages),
      ("config_name", .str (E.base name)), ("egenerator_dir", .str E.dir)] := by
      simp [setup, readFiles, mergeLoop, addSettings, Dict.update, Dict.set, Dict.keys, Dict.get?_cons,
        addName, ht, hn]
    rw [e]
    simp only [expandDict, expandVal_plain _ _ _ p1, expandVal_plain _ _ _ p2,
      expandVal_plain _ _ _ (ps _ p3), expandVal_plain _ _ _ (ps _ p4),
      expandVal_plain _ _ _ (ps _ p5), expandVal_plain _ _ _ (ps _ p6),
      expandVal_plain _ _ _ (ps _ p7), expandVal_plain _ _ _ p8, expandVal_plain _ _ _ p9,
      expandVal_plain _ _ (.str "float32") (by decide)]
    rfl
  obtain ⟨cfg, hc⟩ := hset
  exact ⟨cfg, hc, (C53_added E _ cfg hc).1 p3⟩

/-- An environment for the examples. -/
def exEnv : Env :=
  { tfAttr := fun _ => .ok (.other 1), npAttr := fun _ => .ok (.other 2), shortSha := "abc",
    sha := "abcdef", origin := "here", uncommitted := .other 0, packages := .other 3, dir := "/e",
    shown := fun _ => "?", base := fun s => s }

example : ∃ cfg, setup exEnv (some (readFiles [("a", [("x", .other 5)]),
    ("b", [("y", .dict [("z", .str "w")])])])) = .ok cfg ∧
    Dict.get? cfg "config_name" = some (.str "a__b") := by
  have h : ∃ cfg, setup exEnv (some (readFiles [("a", [("x", .other 5)]),
      ("b", [("y", .dict [("z", .str "w")])])])) = .ok cfg := by
    refine ⟨[("float_precision", .str "float32"), ("x", .other 5), ("y", .dict [("z", .str "w")]),
      ("tf_float_precision", .other 1), ("np_float_precision", .other 2), ("git_short_sha", .str "abc"),
      ("git_sha", .str "abcdef"), ("git_origin", .str "here"), ("git_uncommited_changes", .other 0),
      ("pip_installed_packages", .other 3), ("config_name", .str "a__b"), ("egenerator_dir", .str "/e")], ?_⟩
    rw [show setup exEnv (some (readFiles [("a", [("x", .other 5)]),
      ("b", [("y", .dict [("z", .str "w")])])])) = expandDict exEnv.shown id []
      [("float_precision", .str "float32"), ("x", .other 5), ("y", .dict [("z", .str "w")]),
      ("tf_float_precision", .other 1), ("np_float_precision", .other 2), ("git_short_sha", .str "abc"),
      ("git_sha", .str "abcdef"), ("git_origin", .str "here"), ("git_uncommited_changes", .other 0),
      ("pip_installed_packages", .other 3), ("config_name", .str "a__b"), ("egenerator_dir", .str "/e")]
      from rfl]
    simp only [expandDict,
      expandVal_plain _ _ (.str "float32") (by decide),
      expandVal_plain _ _ (.other 5) (by decide),
      expandVal_plain _ _ (.dict [("z", .str "w")]) (by decide),
      expandVal_plain _ _ (.other 1) (by decide),
      expandVal_plain _ _ (.other 2) (by decide),
      expandVal_plain _ _ (.str "abc") (by decide),
      expandVal_plain _ _ (.str "abcdef") (by decide),
      expandVal_plain _ _ (.str "here") (by decide),
      expandVal_plain _ _ (.other 0) (by decide),
      expandVal_plain _ _ (.other 3) (by decide),
      expandVal_plain _ _ (.str "a__b") (by decide),
      expandVal_plain _ _ (.str "/e") (by decide)]
    rfl
  obtain ⟨cfg, hc⟩ := h
  exact ⟨cfg, hc, (C53_added exEnv _ cfg hc).2.2.2.2.2.2 _ _ rfl (by decide)⟩
example : setup exEnv (some (readFiles [("a", [("x", .other 5)]), ("b", [("x", .other 5)])])) =
    .error .valueError := rfl

/-! ### The returned copy -/

theorem getConfig_ok {h h' : Heap} {root r : Nat} (hc : Closed h) (hg : getConfig h root = .ok (h', r)) :
    ∃ v, readCell (h.length + 1) h (.ref root) = some v ∧
      readCell (h.length + 1) h' (.ref r) = some v ∧
      h.length ≤ r ∧ r < h'.length ∧ (∀ i : Nat, i < h.length → h'[i]? = h[i]?) ∧
      ∀ (i : Nat) (o : Dict String Cell), h.length ≤ i → h'[i]? = some o →
        ∀ p ∈ o, Between h.length h'.length p.2 := by
  unfold getConfig at hg
  cases hv : readCell (h.length + 1) h (.ref root) with
  | none => rw [hv] at hg; cases hg
  | some v =>
    rw [hv] at hg
    simp only at hg
    obtain ⟨ext, a1, a2, a3⟩ := alloc_spec h.length v h (Nat.le_refl _)
    have hread := alloc_read v h (h.length + 1) hc (readCell_depth _ _ _ _ hv)
    cases ha : alloc h v with
    | mk h1 c =>
      rw [ha] at hg a1 a2 hread
      simp only at a1 a2 hread
      cases c with
      | str s => cases hg
      | other k => cases hg
      | ref r0 =>
        simp only at hg
        cases ho : h1[r0]? with
        | none => rw [ho] at hg; cases hg
        | some o =>
          rw [ho] at hg
          cases hg
          have hb := a2 r0 rfl
          have hclosed : Closed h1 := by have := closed_alloc hc v; rw [ha] at this; exact this
          have hoext : ∀ p ∈ o, Between h.length h1.length p.2 := by
            intro p hp
            rw [a1, List.getElem?_append_right hb.1] at ho
            rw [a1]
            exact a3 o (List.mem_of_getElem? ho) p hp
          refine ⟨v, rfl, ?_, by rw [a1]; simp, by simp, ?_, ?_⟩
          · rw [← hread, readCell, readCell, ho]
            simp only [List.getElem?_append_right (Nat.le_refl _), Nat.sub_self,
              List.getElem?_cons_zero]
            rw [readAll_congr o]
            intro p hp
            exact readCell_append hclosed _ _ (fun r hr => ⟨Nat.zero_le _, (hoext p hp r hr).2⟩)
          · intro i hi
            rw [a1, List.append_assoc, List.getElem?_append_left hi]
          · intro i o' hi ho' p hp r' hr'
            have : Between h.length h1.length p.2 := by
              rcases Nat.lt_or_ge i h1.length with hlt | hge
              · rw [List.getElem?_append_left hlt, a1, List.getElem?_append_right hi] at ho'
                rw [a1]
                exact a3 o' (List.mem_of_getElem? ho') p hp
              · rw [List.getElem?_append_right hge] at ho'
                have : i - h1.length = 0 := by
                  rcases Nat.eq_zero_or_pos (i - h1.length) with h | h
                  · exact h
                  · rw [List.getElem?_eq_none (by simp; omega)] at ho'; cases ho'
                rw [this] at ho'
                simp only [List.getElem?_cons_zero, Option.some.injEq] at ho'
                subst ho'
                exact hoext p hp
            have := this r' hr'
            simp only [List.length_append, List.length_cons, List.length_nil]
            omega

/-- C53. The copy has the value of the stored configuration. -/
theorem C53_copy_equal (h h' : Heap) (root r : Nat) (hc : Closed h)
    (hg : getConfig h root = .ok (h', r)) :
    ∃ v, readCell (h.length + 1) h (.ref root) = some v ∧ readCell (h.length + 1) h' (.ref r) = some v := by
  obtain ⟨v, h1, h2, -⟩ := getConfig_ok hc hg
  exact ⟨v, h1, h2⟩

theorem mem_set_imp {d : Dict String Cell} {k : String} {c : Cell} {p : String × Cell}
    (h : p ∈ Dict.set d k c) : p ∈ d ∨ p.2 = c := by
  induction d with
  | nil => simp [Dict.set] at h; right; rw [h]
  | cons q d ih =>
    obtain ⟨k', v⟩ := q
    rw [Dict.set] at h
    split at h
    · rcases List.mem_cons.1 h with rfl | h
      · exact Or.inr rfl
      · exact Or.inl (by simp [h])
    · rcases List.mem_cons.1 h with rfl | h
      · exact Or.inl (by simp)
      · rcases ih h with h | h
        · exact Or.inl (by simp [h])
        · exact Or.inr h

/-- The invariant of a user who only has objects above `n0`. -/
def Inv (h0 : Heap) (s : Heap × List Nat) : Prop :=
  h0.length ≤ s.1.length ∧ (∀ r : Nat, r < h0.length → s.1[r]? = h0[r]?) ∧
  (∀ r ∈ s.2, h0.length ≤ r) ∧
  ∀ (i : Nat) (o : Dict String Cell), h0.length ≤ i → s.1[i]? = some o →
    ∀ p ∈ o, ∀ r, p.2 = .ref r → h0.length ≤ r

theorem act_inv (h0 : Heap) (s : Heap × List Nat) (a : Act) (h : Inv h0 s) : Inv h0 (act s a) := by
  obtain ⟨i1, i2, i3, i4⟩ := h
  cases a with
  | read r k =>
    rw [act]
    split
    · rename_i hr
      have hr := i3 r (by simpa using hr)
      cases ho : s.1[r]? with
      | none => exact ⟨i1, i2, i3, i4⟩
      | some o =>
        simp only
        cases hg : Dict.get? o k with
        | none => exact ⟨i1, i2, i3, i4⟩
        | some c =>
          cases c with
          | str _ => exact ⟨i1, i2, i3, i4⟩
          | other _ => exact ⟨i1, i2, i3, i4⟩
          | ref r' =>
            refine ⟨i1, i2, ?_, i4⟩
            intro x hx
            rcases List.mem_cons.1 hx with rfl | hx
            · exact i4 r o hr ho (k, .ref x) (Dict.mem_of_get? hg) x rfl
            · exact i3 x hx
    · exact ⟨i1, i2, i3, i4⟩
  | write r k c =>
    rw [act]
    split
    · rename_i hr
      simp only [Bool.and_eq_true, List.contains_iff_mem] at hr
      have hr0 := i3 r hr.1
      cases ho : s.1[r]? with
      | none => exact ⟨i1, i2, i3, i4⟩
      | some o =>
        refine ⟨by simpa using i1, ?_, i3, ?_⟩
        · intro i hi
          simp only
          rw [List.getElem?_set_ne (by omega)]
          exact i2 i hi
        · intro i o' hi ho' p hp r' hr'
          simp only at ho'
          rw [List.getElem?_set] at ho'
          split at ho'
          · split at ho'
            · cases ho'
              rcases mem_set_imp hp with hp | hp
              · exact i4 r o hr0 ho p hp r' hr'
              · rw [hr'] at hp
                have hu := hr.2
                rw [← hp] at hu
                exact i3 r' (by simpa [usable] using hu)
            · cases ho'
          · exact i4 i o' hi ho' p hp r' hr'
    · exact ⟨i1, i2, i3, i4⟩
  | delete r k =>
    rw [act]
    split
    · rename_i hr
      have hr0 := i3 r (by simpa using hr)
      cases ho : s.1[r]? with
      | none => exact ⟨i1, i2, i3, i4⟩
      | some o =>
        refine ⟨by simpa using i1, ?_, i3, ?_⟩
        · intro i hi
          simp only
          rw [List.getElem?_set_ne (by omega)]
          exact i2 i hi
        · intro i o' hi ho' p hp r' hr'
          simp only at ho'
          rw [List.getElem?_set] at ho'
          split at ho'
          · split at ho'
            · cases ho'
              exact i4 r o hr0 ho p (List.mem_filter.1 hp |>.1) r' hr'
            · cases ho'
          · exact i4 i o' hi ho' p hp r' hr'
    · exact ⟨i1, i2, i3, i4⟩
  | new =>
    rw [act]
    refine ⟨by simp; omega, ?_, ?_, ?_⟩
    · intro i hi
      simp only
      rw [List.getElem?_append_left (by omega)]
      exact i2 i hi
    · intro x hx
      rcases List.mem_cons.1 hx with rfl | hx
      · exact i1
      · exact i3 x hx
    · intro i o' hi ho' p hp r' hr'
      simp only at ho'
      rcases Nat.lt_or_ge i s.1.length with hlt | hge
      · rw [List.getElem?_append_left hlt] at ho'
        exact i4 i o' hi ho' p hp r' hr'
      · rw [List.getElem?_append_right hge] at ho'
        have := List.mem_of_getElem? ho'
        simp only [List.mem_singleton] at this
        subst this
        simp at hp

/-- C53. Whatever a user does with the returned copy, to any depth, the stored configuration keeps
its value; so the next copy has it too. -/
theorem C53_copy_safe (h h' : Heap) (root r : Nat) (hc : Closed h) (hroot : root < h.length)
    (hg : getConfig h root = .ok (h', r)) (l : List Act) (n : Nat) :
    readCell n (acts (h', [r]) l).1 (.ref root) = readCell n h (.ref root) := by
  obtain ⟨v, _, _, h3, h4, h5, h6⟩ := getConfig_ok hc hg
  have h0 : Inv h (h', [r]) := by
    refine ⟨by simp only; omega, h5, ?_, ?_⟩
    · intro x hx; simp only [List.mem_singleton] at hx; subst hx; exact h3
    · intro i o hi ho p hp r' hr'
      exact (h6 i o hi ho p hp r' hr').1
  have hinv : ∀ (l : List Act) (s : Heap × List Nat), Inv h s → Inv h (acts s l) := by
    intro l
    induction l with
    | nil => intro s hs; exact hs
    | cons a l ih => intro s hs; exact ih _ (act_inv h s a hs)
  have := hinv l _ h0
  exact readCell_old hc this.2.1 n (.ref root) (fun x hx => by cases hx; exact hroot)

/-- A stored configuration with an inner dictionary; the user changes the inner dictionary of the
copy. -/
def exHeap : Heap := [[("a", .other 1)], [("inner", .ref 0), ("b", .str "x")]]

example : Closed exHeap := by
  intro o ho p hp r hr
  simp only [exHeap, List.mem_cons, List.not_mem_nil, or_false] at ho
  rcases ho with rfl | rfl
  · simp at hp; subst hp; cases hr
  · simp at hp
    rcases hp with rfl | rfl
    · cases hr; simp [exHeap]
    · cases hr

example : ∃ h' r, getConfig exHeap 1 = .ok (h', r) ∧
    (acts (h', [r]) [.read r "inner", .write 2 "a" (.other 7)]).1[2]? = some [("a", .other 7)] ∧
    (acts (h', [r]) [.read r "inner", .write 2 "a" (.other 7)]).1[0]? = some [("a", .other 1)] :=
  ⟨_, _, rfl, rfl, rfl⟩

/-! ## C72: placeholders -/

/-- C72. The general rule for a string of the top level: it is formatted with the settings as they
are at that moment, which are the final ones for the entries before it and the original ones for the
entries from it on. -/
theorem C72_expanded (shown : Val → String) (raw cfg : Config)
    (h : expandDict shown id [] raw = .ok cfg) (i : Nat) (k s : String)
    (hi : raw[i]? = some (k, .str s)) :
    ∃ t, cfg[i]? = some (k, .str t) ∧ format shown s (cfg.take i ++ raw.drop i) = .ok t := by
  obtain ⟨out, rfl, _, h3⟩ := expandDict_ok shown id raw [] cfg h
  obtain ⟨w, e1, e2⟩ := h3 i k _ hi
  rw [expandVal] at e2
  have : raw.drop i = (k, .str s) :: raw.drop (i + 1) := by
    obtain ⟨hlt, he⟩ := List.getElem?_eq_some_iff.1 hi
    rw [List.drop_eq_getElem_cons hlt, he]
  simp only [List.nil_append, id] at e1 e2 ⊢
  rw [← this] at e2
  cases hf : format shown s (cfg.take i ++ raw.drop i) with
  | error e => rw [hf] at e2; cases e2
  | ok t =>
    rw [hf] at e2
    cases e2
    exact ⟨t, e1, rfl⟩

/-- C72. If every placeholder names a setting whose value has no braces (or a setting that does not
exist), then every string at any depth is replaced by the string formatted with the original
settings, or the same exception is raised; and for these settings original and final values are the
same. Missing: placeholders that name settings with placeholders, see `C72_violated`. -/
theorem C72_simple_partial (shown : Val → String) (raw : Config) (hok : Dict.Ok raw)
    (hs : ∀ s ∈ stringsAll raw, ∀ n ∈ placeholders s.toList, ∀ v, Dict.get? raw n = some v → Plain v) :
    expandDict shown id [] raw = substAll (fun s => format shown s raw) raw ∧
    ∀ cfg, expandDict shown id [] raw = .ok cfg →
      ∀ s ∈ stringsAll raw, format shown s cfg = format shown s raw := by
  refine ⟨expandDict_simple shown raw hok hs, ?_⟩
  intro cfg hcfg s hsr
  obtain ⟨_, e2, e3⟩ := expanded_get? hok hcfg
  apply format_congr
  intro n hn
  cases hv : Dict.get? raw n with
  | none => rw [Dict.get?_eq_none_iff, e2, ← Dict.get?_eq_none_iff]; exact hv
  | some v => exact e3 n v hv (hs s hsr n hn v hv)

/-- C72. A placeholder for a setting that does not exist raises. -/
theorem C72_unknown (shown : Val → String) (raw : Config) (i : Nat) (k name : String)
    (hi : raw[i]? = some (k, .str ("{" ++ name ++ "}"))) (hp : PlainText name)
    (hn : name ∉ Dict.keys raw) : ∃ e, expandDict shown id [] raw = .error e := by
  cases h : expandDict shown id [] raw with
  | error e => exact ⟨e, rfl⟩
  | ok cfg =>
    obtain ⟨t, _, ht⟩ := C72_expanded shown raw cfg h i k _ hi
    obtain ⟨out, hout, hk, _⟩ := expandDict_ok shown id raw [] cfg h
    have hnone : Dict.get? (cfg.take i ++ raw.drop i) name = none := by
      rw [Dict.get?_eq_none_iff]
      intro hmem
      simp only [Dict.keys, List.map_append, List.mem_append, List.map_take, List.map_drop] at hmem
      apply hn
      rcases hmem with hm | hm
      · have := List.mem_of_mem_take hm
        rw [hout, List.nil_append] at this
        have e : List.map Prod.fst out = Dict.keys raw := hk
        rwa [e] at this
      · exact List.mem_of_mem_drop hm
    exfalso
    unfold format at ht
    have hl : ("{" ++ name ++ "}").toList = '{' :: (name.toList ++ ['}']) := by
      simp [String.toList_append]
    rw [hl, formatChars_field] at ht
    · rw [field_eq] at ht
      have h1 : '}' ∈ name.toList ++ ['}'] := by simp
      rw [if_pos h1] at ht
      have h2 : (name.toList ++ ['}']).takeWhile (fun c => c ≠ '}') = name.toList := by
        rw [List.takeWhile_append_of_pos]
        · simp
        · intro c hc
          simp only [ne_eq, decide_not, Bool.not_eq_eq_eq_not, Bool.not_true, decide_eq_false_iff_not]
          rintro rfl
          exact hp.2 hc
      simp only [h2, String.ofList_toList, render, hnone] at ht
      cases ht
    · intro r' hr'
      cases hnm : name.toList with
      | nil => rw [hnm] at hr'; simp at hr'
      | cons c cs =>
        rw [hnm] at hr'
        simp only [List.cons_append, List.cons.injEq] at hr'
        exact hp.1 (by rw [hnm, hr'.1]; simp)

/-- C72 is false if a placeholder names a later setting that has a placeholder itself: the braces of
that setting are left in the result. -/
theorem C72_violated (shown : Val → String) :
    expandDict shown id [] [("a", .str "{b}/x"), ("b", .str "{c}"), ("c", .str "y")] =
      .ok [("a", .str "{c}/x"), ("b", .str "y"), ("c", .str "y")] := by
  have e1 : format shown "{b}/x" [("a", .str "{b}/x"), ("b", .str "{c}"), ("c", .str "y")] =
      .ok "{c}/x" := by
    rw [format]
    have hl : "{b}/x".toList = '{' :: ['b', '}', '/', 'x'] := rfl
    rw [hl, formatChars_field _ _ (by intro r h; cases h)]
    have hf : field ['b', '}', '/', 'x'] = some (['b'], ['/', 'x']) := rfl
    have hr : render shown [("a", .str "{b}/x"), ("b", .str "{c}"), ("c", .str "y")]
        (String.ofList ['b']) = .ok "{c}" := rfl
    rw [hf]
    simp only [hr]
    rw [formatChars_plain _ _ (by decide) (by decide)]
    rfl
  have e2 : format shown "{c}" [("a", .str "{c}/x"), ("b", .str "{c}"), ("c", .str "y")] = .ok "y" := by
    rw [format]
    have hl : "{c}".toList = '{' :: ['c', '}'] := rfl
    rw [hl, formatChars_field _ _ (by intro r h; cases h)]
    have hf : field ['c', '}'] = some (['c'], []) := rfl
    have hr : render shown [("a", .str "{c}/x"), ("b", .str "{c}"), ("c", .str "y")]
        (String.ofList ['c']) = .ok "y" := rfl
    rw [hf]
    simp only [hr]
    rw [formatChars_plain _ _ (by decide) (by decide)]
    rfl
  have e3 : format shown "y" [("a", .str "{c}/x"), ("b", .str "y"), ("c", .str "y")] = .ok "y" :=
    format_plain _ _ _ (by decide)
  simp [expandDict, expandVal, e1, e2, e3]

example : ∀ s ∈ stringsAll [("dir", .dict [("log", .str "{root}/log")]), ("root", .str "/d")],
    ∀ n ∈ placeholders s.toList, ∀ v,
    Dict.get? [("dir", .dict [("log", .str "{root}/log")]), ("root", .str "/d")] n = some v → Plain v := by
  intro s hs n hn v hv
  simp only [stringsAll, strings, List.append_nil, List.cons_append, List.nil_append, List.mem_cons,
    List.not_mem_nil, or_false] at hs
  rcases hs with rfl | rfl
  · simp [placeholders] at hn
    subst hn
    simp [Dict.get?_cons] at hv
    subst hv
    decide
  · simp [placeholders] at hn

end Verif.Setup
