/-
Lemmas on merging, expansion and copies of configurations.
-/
import Verif.Setup.Spec

namespace Verif.Setup
open Verif.Py

/-! ### Formatting -/

theorem formatChars_plain (render : String → Except Err String) : ∀ l : List Char,
    '{' ∉ l → '}' ∉ l → formatChars render l = .ok l
  | [], _, _ => by rw [formatChars]
  | c :: r, h1, h2 => by
    simp only [List.mem_cons, not_or] at h1 h2
    rw [formatChars, formatChars_plain render r h1.2 h2.2]
    · intro x hx; exact absurd hx.symm h1.1
    · intro x hx; exact absurd hx.symm h2.1
    · intro hx; exact absurd hx.symm h1.1
    · intro hx; exact absurd hx.symm h2.1

theorem format_plain (shown : Val → String) (s : String) (cfg : Config) (h : PlainText s) :
    format shown s cfg = .ok s := by
  unfold format
  rw [formatChars_plain _ _ h.1 h.2]
  simp

theorem field_eq : ∀ l : List Char,
    field l = if '}' ∈ l then
      some (l.takeWhile (fun c => c ≠ '}'), (l.dropWhile (fun c => c ≠ '}')).drop 1) else none
  | [] => by simp [field]
  | c :: r => by
    by_cases hc : c = '}'
    · subst hc; simp [field]
    · rw [field, field_eq r]
      · have : ¬ '}' = c := fun h => hc h.symm
        by_cases hr : '}' ∈ r <;> simp [hr, hc, this]
      · exact fun h => hc h

theorem formatChars_field (render : String → Except Err String) (r : List Char)
    (h : ∀ r', r = '{' :: r' → False) :
    formatChars render ('{' :: r) =
      match field r with
      | none => .error .valueError
      | some p =>
        match render (String.ofList p.1) with
        | .error e => .error e
        | .ok s =>
          match formatChars render p.2 with
          | .error e => .error e
          | .ok t => .ok (s.toList ++ t) := by
  rw [formatChars.eq_4 render r h]
  split
  · rename_i hf; rw [hf]
  · rename_i name rest hf; rw [hf]; rfl

theorem formatChars_congr (r1 r2 : String → Except Err String) : ∀ (n : Nat) (l : List Char),
    l.length ≤ n → (∀ n ∈ placeholders l, r1 n = r2 n) → formatChars r1 l = formatChars r2 l
  | n, [], _, _ => by rw [formatChars, formatChars]
  | 0, c :: r, hn, _ => by simp at hn
  | n + 1, c :: r, hn, h => by
    have hn' : r.length ≤ n := by simpa using hn
    by_cases hc : c = '{'
    · subst hc
      by_cases hr : ∃ r', r = '{' :: r'
      · obtain ⟨r', rfl⟩ := hr
        rw [placeholders] at h
        rw [formatChars, formatChars, formatChars_congr r1 r2 n r' (by simp at hn'; omega) h]
      · have hr : ∀ r', r = '{' :: r' → False := fun r' e => hr ⟨r', e⟩
        rw [placeholders.eq_4 r hr] at h
        rw [formatChars_field r1 r hr, formatChars_field r2 r hr]
        cases hf : field r with
        | none => rfl
        | some p =>
          have hf' := hf
          rw [field_eq] at hf'
          split at hf'
          · cases hf'
            have e1 := h _ List.mem_cons_self
            have e2 := field_length _ _ _ hf
            have e3 := formatChars_congr r1 r2 n _ (by omega) (fun x hx => h x (List.mem_cons_of_mem _ hx))
            simp only [e1, e3]
          · cases hf'
    · by_cases hc' : c = '}'
      · subst hc'
        by_cases hr : ∃ r', r = '}' :: r'
        · obtain ⟨r', rfl⟩ := hr
          rw [placeholders] at h
          rw [formatChars, formatChars, formatChars_congr r1 r2 n r' (by simp at hn'; omega) h]
        · have hr : ∀ r', r = '}' :: r' → False := fun r' e => hr ⟨r', e⟩
          rw [formatChars.eq_5 r1 r hr, formatChars.eq_5 r2 r hr]
      · rw [placeholders.eq_5 _ _ (fun _ e => absurd e hc) (fun _ e => absurd e hc')
          (fun e => hc e)] at h
        rw [formatChars.eq_6 _ _ _ (fun _ e => absurd e hc) (fun _ e => absurd e hc')
          (fun e => hc e) (fun e => hc' e), formatChars.eq_6 _ _ _ (fun _ e => absurd e hc)
          (fun _ e => absurd e hc') (fun e => hc e) (fun e => hc' e),
          formatChars_congr r1 r2 n r hn' h]

theorem format_congr (shown : Val → String) (s : String) (a b : Config)
    (h : ∀ n ∈ placeholders s.toList, Dict.get? a n = Dict.get? b n) :
    format shown s a = format shown s b := by
  unfold format
  rw [formatChars_congr (render shown a) (render shown b) s.toList.length s.toList (Nat.le_refl _)]
  intro n hn
  unfold render
  rw [h n hn]

theorem placeholders_plain : ∀ l : List Char, '{' ∉ l → '}' ∉ l → placeholders l = []
  | [], _, _ => by rw [placeholders]
  | c :: r, h1, h2 => by
    simp only [List.mem_cons, not_or] at h1 h2
    rw [placeholders.eq_5 _ _ (fun _ e => absurd e.symm h1.1) (fun _ e => absurd e.symm h2.1)
      (fun e => h1.1 e.symm)]
    exact placeholders_plain r h1.2 h2.2

/-! ### Expansion -/

mutual
/-- If the context does not matter, expansion is replacement of every string. -/
theorem expandVal_subst (shown : Val → String) (f : String → Except Err String)
    (ctx : Val → Config) : ∀ v : Val,
    (∀ s ∈ strings v, ∀ w, format shown s (ctx w) = f s) → expandVal shown ctx v = substVal f v
  | .str s, h => by
    rw [expandVal, substVal, h s (by simp [strings])]
    cases f s <;> rfl
  | .other n, _ => by rw [expandVal, substVal]
  | .dict d, h => by
    have := expandDict_subst shown f (fun d' => ctx (.dict d')) [] d
      (fun s hs w => h s (by simpa [strings] using hs) _)
    rw [expandVal, substVal, this]
    cases substAll f d with
    | error e => rfl
    | ok l => simp
theorem expandDict_subst (shown : Val → String) (f : String → Except Err String)
    (ctx : Config → Config) (done : Config) : ∀ d : List (String × Val),
    (∀ s ∈ stringsAll d, ∀ w, format shown s (ctx w) = f s) →
    expandDict shown ctx done d =
      match substAll f d with
      | .error e => .error e
      | .ok l => .ok (done ++ l)
  | [], _ => by simp [expandDict, substAll]
  | (k, v) :: rest, h => by
    have h1 := expandVal_subst shown f (fun w => ctx (done ++ (k, w) :: rest)) v
      (fun s hs w => h s (by simp [stringsAll, hs]) _)
    rw [expandDict, substAll, h1]
    cases hv : substVal f v with
    | error e => rfl
    | ok w =>
      have h2 := expandDict_subst shown f ctx (done ++ [(k, w)]) rest
        (fun s hs w => h s (by simp [stringsAll, hs]) _)
      simp only [h2]
      cases substAll f rest with
      | error e => rfl
      | ok l => simp
end

mutual
theorem substVal_ok (f : String → Except Err String) : ∀ v : Val,
    (∀ s ∈ strings v, f s = .ok s) → substVal f v = .ok v
  | .str s, h => by rw [substVal, h s (by simp [strings])]
  | .other n, _ => by rw [substVal]
  | .dict d, h => by rw [substVal, substAll_ok f d (fun s hs => h s (by simpa [strings] using hs))]
theorem substAll_ok (f : String → Except Err String) : ∀ d : List (String × Val),
    (∀ s ∈ stringsAll d, f s = .ok s) → substAll f d = .ok d
  | [], _ => by rw [substAll]
  | (k, v) :: rest, h => by
    rw [substAll, substVal_ok f v (fun s hs => h s (by simp [stringsAll, hs])),
      substAll_ok f rest (fun s hs => h s (by simp [stringsAll, hs]))]
end

theorem expandVal_plain (shown : Val → String) (ctx : Val → Config) (v : Val) (h : Plain v) :
    expandVal shown ctx v = .ok v := by
  rw [expandVal_subst shown (fun s => .ok s) ctx v (fun s hs w => format_plain _ _ _ (h s hs))]
  exact substVal_ok _ _ (fun _ _ => rfl)

/-- What `expandDict` returns, entry by entry. -/
theorem expandDict_ok (shown : Val → String) (ctx : Config → Config) : ∀ (todo done res : Config),
    expandDict shown ctx done todo = .ok res →
    ∃ out : Config, res = done ++ out ∧ Dict.keys out = Dict.keys todo ∧
      ∀ (i : Nat) (k : String) (v : Val), todo[i]? = some (k, v) → ∃ w, out[i]? = some (k, w) ∧
        expandVal shown (fun w' => ctx (done ++ out.take i ++ (k, w') :: todo.drop (i + 1))) v = .ok w
  | [], done, res, h => by
    rw [expandDict] at h
    cases h
    exact ⟨[], by simp⟩
  | (k, v) :: rest, done, res, h => by
    rw [expandDict] at h
    cases hv : expandVal shown (fun w => ctx (done ++ (k, w) :: rest)) v with
    | error e => rw [hv] at h; cases h
    | ok w =>
      rw [hv] at h
      obtain ⟨out, rfl, h2, h3⟩ := expandDict_ok shown ctx rest (done ++ [(k, w)]) res h
      refine ⟨(k, w) :: out, by simp, by simp [h2], ?_⟩
      intro i k' v' hi
      match i with
      | 0 =>
        simp only [List.getElem?_cons_zero, Option.some.injEq, Prod.mk.injEq] at hi
        obtain ⟨rfl, rfl⟩ := hi
        exact ⟨w, by simp, by simpa using hv⟩
      | i + 1 =>
        obtain ⟨w', e1, e2⟩ := h3 i k' v' (by simpa using hi)
        exact ⟨w', by simpa using e1, by simpa using e2⟩

theorem get?_of_index {d : Config} (hd : Dict.Ok d) {i : Nat} {k : String} {v : Val}
    (h : d[i]? = some (k, v)) : Dict.get? d k = some v :=
  Dict.get?_of_mem hd (List.mem_of_getElem? h)

theorem index_of_get? {d : Config} {k : String} {v : Val} (h : Dict.get? d k = some v) :
    ∃ i : Nat, d[i]? = some (k, v) :=
  List.getElem?_of_mem (Dict.mem_of_get? h)

/-- Lookups in a dictionary that differs from another in the values only. -/
theorem get?_append (a b : Config) (k : String) :
    Dict.get? (a ++ b) k = (Dict.get? a k).orElse (fun _ => Dict.get? b k) := by
  induction a with
  | nil => simp
  | cons p a ih =>
    obtain ⟨k', v⟩ := p
    rw [List.cons_append, Dict.get?_cons, Dict.get?_cons, ih]
    split <;> simp

/-- The whole expansion, if all placeholders of the top level name plain or missing settings. -/
theorem expandDict_simple (shown : Val → String) (cfg : Config) (hok : Dict.Ok cfg)
    (hs : ∀ s ∈ stringsAll cfg, ∀ n ∈ placeholders s.toList, ∀ v, Dict.get? cfg n = some v → Plain v) :
    expandDict shown id [] cfg = substAll (fun s => format shown s cfg) cfg := by
  -- `done` are expanded entries whose plain part is unchanged
  have key : ∀ (todo pre done : Config), cfg = pre ++ todo → Dict.keys done = Dict.keys pre →
      (∀ k v, Dict.get? pre k = some v → Plain v → Dict.get? done k = some v) →
      expandDict shown id done todo =
        match substAll (fun s => format shown s cfg) todo with
        | .error e => .error e
        | .ok l => .ok (done ++ l) := by
    intro todo
    induction todo with
    | nil => intro pre done _ _ _; simp [expandDict, substAll]
    | cons p rest ih =>
      obtain ⟨k, v⟩ := p
      intro pre done hcfg hkeys hplain
      have hmem : ∀ s ∈ strings v, s ∈ stringsAll cfg := by
        have : ∀ (a b : Config) (x : String), x ∈ stringsAll b → x ∈ stringsAll (a ++ b) := by
          intro a b x hx
          induction a with
          | nil => exact hx
          | cons q a iha => obtain ⟨_, _⟩ := q; simp [stringsAll, iha]
        intro s hs
        rw [hcfg]
        exact this _ _ _ (by simp [stringsAll, hs])
      have hkpre : k ∉ Dict.keys pre := by
        have := hok
        unfold Dict.Ok at this
        rw [hcfg, Dict.keys, List.map_append, List.nodup_append] at this
        intro hk
        exact this.2.2 k hk k (by simp) rfl
      have hval : expandVal shown (fun w => id (done ++ (k, w) :: rest)) v =
          substVal (fun s => format shown s cfg) v := by
        by_cases hp : Plain v
        · rw [expandVal_plain _ _ _ hp, substVal_ok]
          exact fun s hs => format_plain _ _ _ (hp s hs)
        · apply expandVal_subst
          intro s hsv w
          apply format_congr
          intro n hn
          have hsn := hs s (hmem s hsv) n hn
          rw [id, hcfg, get?_append, get?_append]
          cases hpre : Dict.get? pre n with
          | some x =>
            have : Dict.get? cfg n = some x := by rw [hcfg, get?_append, hpre]; rfl
            rw [hplain n x hpre (hsn x this)]
            rfl
          | none =>
            have hd : Dict.get? done n = none := by
              rw [Dict.get?_eq_none_iff, hkeys, ← Dict.get?_eq_none_iff]; exact hpre
            rw [hd]
            simp only [Option.orElse_none]
            rw [Dict.get?_cons, Dict.get?_cons]
            by_cases hkn : k = n
            · exfalso
              have : Dict.get? cfg n = some v := by
                rw [hcfg, get?_append, hpre, Dict.get?_cons, if_pos hkn]; rfl
              exact hp (hsn v this)
            · rw [if_neg hkn, if_neg hkn]
      rw [expandDict, substAll, hval]
      cases hv : substVal (fun s => format shown s cfg) v with
      | error e => rfl
      | ok w =>
        have ih := ih (pre ++ [(k, v)]) (done ++ [(k, w)]) (by simp [hcfg])
          (by simp only [Dict.keys, List.map_append] at hkeys ⊢; rw [hkeys]; rfl)
          (by
            intro k' v' h1 h2
            rw [get?_append] at h1 ⊢
            cases hpre : Dict.get? pre k' with
            | some x =>
              rw [hpre] at h1
              cases h1
              rw [hplain k' v' hpre h2]; rfl
            | none =>
              rw [hpre] at h1
              have hd : Dict.get? done k' = none := by
                rw [Dict.get?_eq_none_iff, hkeys, ← Dict.get?_eq_none_iff]; exact hpre
              rw [hd]
              simp only [Option.orElse_none, Dict.get?_cons, Dict.get?_nil] at h1 ⊢
              split at h1
              · cases h1
                rename_i hk
                rw [if_pos hk]
                rw [substVal_ok _ _ (fun s hs => format_plain _ _ _ (h2 s hs))] at hv
                cases hv; rfl
              · cases h1)
        simp only [ih]
        cases substAll (fun s => format shown s cfg) rest with
        | error e => rfl
        | ok l => simp
  have := key cfg [] [] rfl rfl (by simp)
  rw [this]
  cases substAll (fun s => format shown s cfg) cfg <;> simp

/-! ### Merging -/

/-- The name built from the files. -/
def joined (base : String → String) : Option String → List (String × Config) → Option String
  | acc, [] => acc
  | acc, d :: ds => joined base (some (addName base acc d.1)) ds

theorem mergeLoop_readFiles (base : String → String) : ∀ (ds : List (String × Config)) (cfg : Config)
    (name : Option String),
    (NoDuplicate ds ∧ (∀ d ∈ ds, ∀ k, ¬ (k ∈ Dict.keys cfg ∧ k ∈ Dict.keys d.2)) ∧
      mergeLoop base cfg name (readFiles ds) =
        .ok (ds.foldl (fun c d => Dict.update c d.2) cfg, joined base name ds)) ∨
    (¬ (NoDuplicate ds ∧ (∀ d ∈ ds, ∀ k, ¬ (k ∈ Dict.keys cfg ∧ k ∈ Dict.keys d.2))) ∧
      mergeLoop base cfg name (readFiles ds) = .error .valueError)
  | [], cfg, name => by left; simp [NoDuplicate, readFiles, mergeLoop, joined]
  | d :: ds, cfg, name => by
    have e : mergeLoop base cfg name (readFiles (d :: ds)) =
        if cfg.keys.any (fun k => Dict.has d.2 k) then .error .valueError
        else mergeLoop base (Dict.update cfg d.2) (some (addName base name d.1)) (readFiles ds) := rfl
    rw [e]
    by_cases hany : cfg.keys.any (fun k => Dict.has d.2 k) = true
    · right
      rw [if_pos hany]
      refine ⟨?_, rfl⟩
      rintro ⟨_, h⟩
      obtain ⟨k, hk, hk'⟩ := List.any_eq_true.1 hany
      exact h d (by simp) k ⟨hk, (Dict.has_iff _ _).1 hk'⟩
    · rw [if_neg hany]
      have hno : ∀ k, ¬ (k ∈ Dict.keys cfg ∧ k ∈ Dict.keys d.2) := by
        rintro k ⟨h1, h2⟩
        exact hany (List.any_eq_true.2 ⟨k, h1, (Dict.has_iff _ _).2 h2⟩)
      have hiff : (NoDuplicate (d :: ds) ∧ ∀ d' ∈ d :: ds, ∀ k, ¬ (k ∈ Dict.keys cfg ∧ k ∈ Dict.keys d'.2)) ↔
          (NoDuplicate ds ∧ ∀ d' ∈ ds, ∀ k, ¬ (k ∈ Dict.keys (Dict.update cfg d.2) ∧ k ∈ Dict.keys d'.2)) := by
        unfold NoDuplicate
        rw [List.pairwise_cons]
        constructor
        · rintro ⟨⟨h1, h2⟩, h3⟩
          refine ⟨h2, fun d' hd' k hk => ?_⟩
          rcases (Dict.mem_keys_update _ _ _).1 hk.1 with h | h
          · exact h3 d' (by simp [hd']) k ⟨h, hk.2⟩
          · exact h1 d' hd' k ⟨h, hk.2⟩
        · rintro ⟨h1, h2⟩
          refine ⟨⟨fun d' hd' k hk => h2 d' hd' k
            ⟨(Dict.mem_keys_update _ _ _).2 (Or.inr hk.1), hk.2⟩, h1⟩, ?_⟩
          intro d' hd' k hk
          rcases List.mem_cons.1 hd' with rfl | hd'
          · exact hno k hk
          · exact h2 d' hd' k ⟨(Dict.mem_keys_update _ _ _).2 (Or.inl hk.1), hk.2⟩
      rcases mergeLoop_readFiles base ds (Dict.update cfg d.2) (some (addName base name d.1)) with h | h
      · left
        exact ⟨(hiff.2 ⟨h.1, h.2.1⟩).1, (hiff.2 ⟨h.1, h.2.1⟩).2, h.2.2⟩
      · right
        exact ⟨fun x => h.1 (hiff.1 x), h.2⟩

/-- Files that merge were all read. -/
theorem mergeLoop_ok (base : String → String) : ∀ (fs : List File) (cfg : Config) (name : Option String)
    (r : Config × Option String), mergeLoop base cfg name fs = .ok r → ∃ ds, fs = readFiles ds
  | [], _, _, _, _ => ⟨[], rfl⟩
  | ⟨n, .error e⟩ :: fs, cfg, name, r, h => by simp [mergeLoop] at h
  | ⟨n, .ok none⟩ :: fs, cfg, name, r, h => by simp [mergeLoop] at h
  | ⟨n, .ok (some d)⟩ :: fs, cfg, name, r, h => by
    rw [mergeLoop] at h
    simp only at h
    split at h
    · cases h
    · obtain ⟨ds, rfl⟩ := mergeLoop_ok base fs _ _ r h
      exact ⟨(n, d) :: ds, rfl⟩

theorem ok_foldl (ds : List (String × Config)) : ∀ cfg : Config, Dict.Ok cfg →
    Dict.Ok (ds.foldl (fun c d => Dict.update c d.2) cfg) := by
  induction ds with
  | nil => intro cfg h; exact h
  | cons d ds ih => intro cfg h; exact ih _ (Dict.ok_update h _)

theorem mem_keys_foldl (ds : List (String × Config)) : ∀ (cfg : Config) (k : String),
    k ∈ Dict.keys (ds.foldl (fun c d => Dict.update c d.2) cfg) ↔
      k ∈ Dict.keys cfg ∨ ∃ d ∈ ds, k ∈ Dict.keys d.2 := by
  induction ds with
  | nil => intro cfg k; simp
  | cons d ds ih =>
    intro cfg k
    rw [List.foldl_cons, ih, Dict.mem_keys_update]
    simp [or_assoc]

theorem get?_foldl_none (ds : List (String × Config)) (hok : ∀ d ∈ ds, Dict.Ok d.2) :
    ∀ (cfg : Config) (k : String), (∀ d ∈ ds, k ∉ Dict.keys d.2) →
    Dict.get? (ds.foldl (fun c d => Dict.update c d.2) cfg) k = Dict.get? cfg k := by
  induction ds with
  | nil => intro cfg k _; rfl
  | cons d ds ih =>
    intro cfg k h
    rw [List.foldl_cons, ih (fun x hx => hok x (by simp [hx])) _ _ (fun x hx => h x (by simp [hx])),
      Dict.get?_update _ _ (hok d (by simp)), (Dict.get?_eq_none_iff _ _).2 (h d (by simp))]
    rfl

theorem get?_foldl (ds : List (String × Config)) (hok : ∀ d ∈ ds, Dict.Ok d.2) (hno : NoDuplicate ds) :
    ∀ (cfg : Config) (d : String × Config) (k : String) (v : Val), d ∈ ds → Dict.get? d.2 k = some v →
    Dict.get? (ds.foldl (fun c d => Dict.update c d.2) cfg) k = some v := by
  induction ds with
  | nil => intro cfg d k v h; simp at h
  | cons d' ds ih =>
    intro cfg d k v hd hv
    have hk : k ∈ Dict.keys d.2 := (Dict.get?_isSome_iff _ _).1 (by simp [hv])
    have hno' := List.pairwise_cons.1 hno
    rw [List.foldl_cons]
    rcases List.mem_cons.1 hd with rfl | hd
    · rw [get?_foldl_none ds (fun x hx => hok x (by simp [hx])) _ _
        (fun x hx hkx => hno'.1 x hx k ⟨hk, hkx⟩), Dict.get?_update _ _ (hok _ (by simp)), hv]
      rfl
    · exact ih (fun x hx => hok x (by simp [hx])) hno'.2 _ d k v hd hv

/-! ### Copies -/

theorem readAll_congr {f g : Cell → Option Val} : ∀ o : List (String × Cell),
    (∀ p ∈ o, f p.2 = g p.2) → readAll f o = readAll g o
  | [], _ => rfl
  | (k, c) :: rest, h => by
    rw [readAll, readAll, h (k, c) (by simp), readAll_congr rest (fun p hp => h p (by simp [hp]))]

/-- Reading from an old part of the heap does not depend on the rest. -/
theorem readCell_old {h h' : Heap} (hc : Closed h)
    (hold : ∀ r : Nat, r < h.length → h'[r]? = h[r]?) : ∀ (n : Nat) (c : Cell),
    (∀ r, c = .ref r → r < h.length) → readCell n h' c = readCell n h c := by
  intro n
  induction n with
  | zero => intro c _; cases c <;> simp [readCell]
  | succ n ih =>
    intro c hr
    cases c with
    | str s => simp [readCell]
    | other k => simp [readCell]
    | ref r =>
      have hlt := hr r rfl
      rw [readCell, readCell, hold r hlt]
      cases ho : h[r]? with
      | none => rfl
      | some o =>
        simp only
        rw [readAll_congr o]
        intro p hp
        apply ih
        intro r' hr'
        exact hc o (List.mem_of_getElem? ho) p hp r' hr'

/-- The cell points into a heap of this size, but not into its first part. -/
def Between (a b : Nat) (c : Cell) : Prop := ∀ r, c = .ref r → a ≤ r ∧ r < b

mutual
theorem alloc_spec (n0 : Nat) : ∀ (v : Val) (h : Heap), n0 ≤ h.length →
    ∃ ext : Heap, (alloc h v).1 = h ++ ext ∧ Between n0 (h ++ ext).length (alloc h v).2 ∧
      ∀ o ∈ ext, ∀ p ∈ o, Between n0 (h ++ ext).length p.2
  | .str s, h, _ => ⟨[], by simp [alloc], by simp [alloc, Between], by simp⟩
  | .other k, h, _ => ⟨[], by simp [alloc], by simp [alloc, Between], by simp⟩
  | .dict d, h, hn => by
    obtain ⟨ext, h1, h2, h3⟩ := allocAll_spec n0 d h hn
    refine ⟨ext ++ [(allocAll h d).2], ?_, ?_, ?_⟩
    · simp only [alloc, h1, List.append_assoc]
    · intro r hr
      simp only [alloc, Cell.ref.injEq] at hr
      rw [h1] at hr
      subst hr
      simp
      omega
    · intro o ho p hp r hr
      simp only [List.mem_append, List.mem_singleton] at ho
      have : n0 ≤ r ∧ r < (h ++ ext).length := by
        rcases ho with ho | rfl
        · exact h3 o ho p hp r hr
        · exact h2 p hp r hr
      simp at this ⊢
      omega
theorem allocAll_spec (n0 : Nat) : ∀ (d : List (String × Val)) (h : Heap), n0 ≤ h.length →
    ∃ ext : Heap, (allocAll h d).1 = h ++ ext ∧
      (∀ p ∈ (allocAll h d).2, Between n0 (h ++ ext).length p.2) ∧
      ∀ o ∈ ext, ∀ p ∈ o, Between n0 (h ++ ext).length p.2
  | [], h, _ => ⟨[], by simp [allocAll], by simp [allocAll], by simp⟩
  | (k, v) :: rest, h, hn => by
    obtain ⟨e1, a1, a2, a3⟩ := alloc_spec n0 v h hn
    obtain ⟨e2, b1, b2, b3⟩ := allocAll_spec n0 rest (alloc h v).1 (by rw [a1]; simp; omega)
    refine ⟨e1 ++ e2, ?_, ?_, ?_⟩
    · simp only [allocAll]
      rw [b1, a1, List.append_assoc]
    · intro p hp r hr
      simp only [allocAll, List.mem_cons] at hp
      rcases hp with rfl | hp
      · have := a2 r hr
        simp at this ⊢; omega
      · have := b2 p hp r hr
        rw [a1] at this
        simpa [Nat.add_assoc] using this
    · intro o ho p hp r hr
      rcases List.mem_append.1 ho with ho | ho
      · have := a3 o ho p hp r hr
        simp at this ⊢; omega
      · have := b3 o ho p hp r hr
        rw [a1] at this
        simpa [Nat.add_assoc] using this
end

theorem closed_append {h ext : Heap} (hc : Closed h)
    (he : ∀ o ∈ ext, ∀ p ∈ o, Between 0 (h ++ ext).length p.2) : Closed (h ++ ext) := by
  intro o ho p hp r hr
  rcases List.mem_append.1 ho with ho | ho
  · have := hc o ho p hp r hr
    simp; omega
  · exact (he o ho p hp r hr).2

theorem closed_alloc {h : Heap} (hc : Closed h) (v : Val) : Closed (alloc h v).1 := by
  obtain ⟨ext, h1, _, h3⟩ := alloc_spec 0 v h (Nat.zero_le _)
  rw [h1]; exact closed_append hc h3

theorem closed_allocAll {h : Heap} (hc : Closed h) (d : List (String × Val)) :
    Closed (allocAll h d).1 := by
  obtain ⟨ext, h1, _, h3⟩ := allocAll_spec 0 d h (Nat.zero_le _)
  rw [h1]; exact closed_append hc h3

/-- Reading a copy gives the value, if the depth suffices; also after more objects were made. -/
theorem readCell_append {h ext : Heap} (hc : Closed h) (n : Nat) (c : Cell)
    (hb : Between 0 h.length c) : readCell n (h ++ ext) c = readCell n h c :=
  readCell_old hc (fun _ hr => List.getElem?_append_left hr) n c (fun r hr => (hb r hr).2)

mutual
/-- The depth of a value. -/
def depth : Val → Nat
  | .str _ => 0
  | .other _ => 0
  | .dict d => depthAll d + 1
/-- The largest depth of an entry. -/
def depthAll : List (String × Val) → Nat
  | [] => 0
  | (_, v) :: rest => max (depth v) (depthAll rest)
end

mutual
theorem alloc_read : ∀ (v : Val) (h : Heap) (n : Nat), Closed h → depth v ≤ n →
    readCell n (alloc h v).1 (alloc h v).2 = some v
  | .str s, h, n, _, _ => by simp [alloc, readCell]
  | .other k, h, n, _, _ => by simp [alloc, readCell]
  | .dict d, h, n, hc, hn => by
    obtain ⟨n, rfl⟩ : ∃ m, n = m + 1 := ⟨n - 1, by simp [depth] at hn; omega⟩
    have hn' : depthAll d ≤ n := by simpa [depth] using hn
    obtain ⟨ext, h1, h2, h3⟩ := allocAll_spec 0 d h (Nat.zero_le _)
    have ih := allocAll_read d h n hc hn'
    simp only [alloc]
    rw [readCell]
    simp only [List.getElem?_append_right (Nat.le_refl _), Nat.sub_self, List.getElem?_cons_zero]
    rw [readAll_congr (g := readCell n (allocAll h d).1), ih]
    · rfl
    · intro p hp
      apply readCell_append (closed_allocAll hc d)
      rw [h1]; exact h2 p hp
theorem allocAll_read : ∀ (d : List (String × Val)) (h : Heap) (n : Nat), Closed h →
    depthAll d ≤ n → readAll (readCell n (allocAll h d).1) (allocAll h d).2 = some d
  | [], h, n, _, _ => by simp [allocAll, readAll]
  | (k, v) :: rest, h, n, hc, hn => by
    have hn1 : depth v ≤ n := by simp [depthAll] at hn; omega
    have hn2 : depthAll rest ≤ n := by simp [depthAll] at hn; omega
    have ih1 := alloc_read v h n hc hn1
    have ih2 := allocAll_read rest (alloc h v).1 n (closed_alloc hc v) hn2
    obtain ⟨e1, a1, a2, _⟩ := alloc_spec 0 v h (Nat.zero_le _)
    obtain ⟨e2, b1, _, _⟩ := allocAll_spec 0 rest (alloc h v).1 (Nat.zero_le _)
    simp only [allocAll, readAll]
    rw [ih2]
    have : readCell n (allocAll (alloc h v).1 rest).1 (alloc h v).2 = some v := by
      rw [b1, readCell_append (closed_alloc hc v) n _ (by rw [a1]; exact a2), ih1]
    rw [this]
end

theorem depthAll_le {n : Nat} : ∀ (d : List (String × Val)), (∀ p ∈ d, depth p.2 ≤ n) → depthAll d ≤ n
  | [], _ => by simp [depthAll]
  | (k, v) :: rest, h => by
    have h1 := h (k, v) (by simp)
    have h2 := depthAll_le rest (fun p hp => h p (by simp [hp]))
    simp only [depthAll]
    simp only at h1
    omega

/-- What is read to a depth has that depth. -/
theorem readCell_depth : ∀ (n : Nat) (h : Heap) (c : Cell) (v : Val), readCell n h c = some v →
    depth v ≤ n := by
  intro n
  induction n with
  | zero =>
    intro h c v hv
    cases c with
    | str s => simp [readCell] at hv; subst hv; simp [depth]
    | other k => simp [readCell] at hv; subst hv; simp [depth]
    | ref r => simp [readCell] at hv
  | succ n ih =>
    intro h c v hv
    cases c with
    | str s => simp [readCell] at hv; subst hv; simp [depth]
    | other k => simp [readCell] at hv; subst hv; simp [depth]
    | ref r =>
      rw [readCell] at hv
      cases ho : h[r]? with
      | none => rw [ho] at hv; simp at hv
      | some o =>
        rw [ho] at hv
        simp only [Option.map_eq_some_iff] at hv
        obtain ⟨d, hd, rfl⟩ := hv
        have : ∀ (o : List (String × Cell)) (d : List (String × Val)), readAll (readCell n h) o = some d →
            ∀ p ∈ d, depth p.2 ≤ n := by
          intro o
          induction o with
          | nil => intro d hd; simp [readAll] at hd; subst hd; simp
          | cons q o iho =>
            intro d hd
            obtain ⟨k, c⟩ := q
            rw [readAll] at hd
            cases h1 : readCell n h c with
            | none => rw [h1] at hd; simp at hd
            | some x =>
              cases h2 : readAll (readCell n h) o with
              | none => rw [h1, h2] at hd; simp at hd
              | some xs =>
                rw [h1, h2] at hd
                cases hd
                intro p hp
                rcases List.mem_cons.1 hp with rfl | hp
                · exact ih h c x h1
                · exact iho xs h2 p hp
        simp only [depth]
        have := depthAll_le d (this o d hd)
        omega

end Verif.Setup
