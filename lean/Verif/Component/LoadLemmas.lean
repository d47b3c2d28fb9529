/- Helper lemmas for loading with replacements. -/
import Verif.Component.SaveLemmas

namespace Verif.Component
open Verif.Py
variable {V D : Type}

theorem get?_pop {α : Type} (d : Dict String α) (n k : String) :
    Dict.get? (pop d n) k = if k = n then none else Dict.get? d k := by
  unfold pop
  induction d with
  | nil => simp
  | cons x d ih =>
    obtain ⟨a, b⟩ := x
    by_cases ha : a = n
    · rw [List.filter_cons_of_neg (by simp [ha]), ih, Dict.get?_cons]
      by_cases hk : k = n
      · simp [hk]
      · rw [if_neg hk, if_neg hk, if_neg]; rw [ha]; exact Ne.symm hk
    · rw [List.filter_cons_of_pos (by simp [ha]), Dict.get?_cons, ih, Dict.get?_cons]
      by_cases hk : k = n
      · subst hk; simp [ha]
      · simp [hk]

theorem replaceSubs_one {c c' : Conf V} {n : String} {a : SubArg V}
    (h : c.replaceSubs [(n, a)] = (c', none)) :
    ∃ d, a = .configured d ∧ Dict.get? c'.dict.subs n = some d ∧
      (∀ m, m ≠ n → Dict.get? c'.dict.subs m = Dict.get? c.dict.subs m) ∧
      c'.dict.muts = c.dict.muts ∧ c'.dict.deps = c.dict.deps := by
  have h1 := (C04_replace_sub_components c [(n, a)] (by simp [Dict.Ok, Dict.keys])).1
  rw [h] at h1
  obtain ⟨hn, d, rfl⟩ := (h1.1 rfl) n a (by simp)
  have h2 := (C04_replace_sub_components c [(n, SubArg.configured d)]
    (by simp [Dict.Ok, Dict.keys])).2
  rw [h] at h2
  obtain ⟨h3, h4, h5, h6⟩ := h2
  refine ⟨d, rfl, h3 rfl n d (by simp), fun m hm => h4 m (by simp [hm]), ?_, ?_⟩
  · have := congrArg (fun c => c.dict.muts) h6
    exact this
  · have := congrArg (fun c => c.dict.deps) h6
    exact this

theorem toSubArg_configured {c : Comp V D} {d : Cfg V} (h : c.toSubArg = .configured d) :
    c.configured = true ∧ ∃ conf, c.conf = some conf ∧ conf.dict = d := by
  unfold Comp.toSubArg at h
  split at h
  · rename_i conf hc hconf
    cases h
    exact ⟨hc, conf, hconf, rfl⟩
  · cases h

/-- The nested dictionary handed on for a name. -/
def nestedFor (mods : Dict String (Mod V D)) (n : String) : Dict String (Mod V D) :=
  match mods.get? n with
  | some (.nested d) => d
  | _ => []

/-- What one pass of the loop delivers. `mods` are the replacements before the pass. -/
structure OneOk [DecidableEq V] (L : LoadEnv V D)
    (rec : Comp V D → Path → String → Dict String (Mod V D) → LoadResult V D)
    (dir : Path) (st st' : LoopState V D) (name : String) (s : Comp V D) : Prop where
  hload : ∃ cls, (rec (Comp.fresh cls) dir name (nestedFor st.mods name)).err = none ∧
    (rec (Comp.fresh cls) dir name (nestedFor st.mods name)).obj = s
  hother : ∀ m, m ≠ name → Dict.get? st'.subs m = Dict.get? st.subs m
  hotherc : ∀ m, m ≠ name → Dict.get? st'.conf.dict.subs m = Dict.get? st.conf.dict.subs m
  hmods : ∀ m, Dict.get? st'.mods m = if m = name then none else Dict.get? st.mods m
  hmuts : st'.conf.dict.muts = st.conf.dict.muts
  hupd : (∀ m, m ∈ st.updated → m ∈ st'.updated) ∧ (Dict.get? st.mods name ≠ none → name ∈ st'.updated)
    ∧ (∀ m, m ∈ st'.updated → m ∈ st.updated ∨ m = name)
  hkeep : (∀ m, Dict.get? st.mods name ≠ some (.comp m)) → Dict.get? st'.subs name = some s
  hrepl : ∀ m, Dict.get? st.mods name = some (.comp m) →
    Dict.get? st'.subs name = some m ∧ m.configured = true ∧
    (name ∈ st.conf.dict.muts ∨ s.isCompatible m = .ok true)
  hrecord : Dict.get? st.mods name ≠ none → ∃ x xc, Dict.get? st'.subs name = some x ∧
    x.conf = some xc ∧ Dict.get? st'.conf.dict.subs name = some xc.dict

theorem loadOne_spec [DecidableEq V] (L : LoadEnv V D)
    (rec : Comp V D → Path → String → Dict String (Mod V D) → LoadResult V D)
    (dir : Path) (st st' : LoopState V D) (name : String) (hnew : name ∉ st.updated)
    (h : loadOne L rec dir st name = (st', none)) : ∃ s, OneOk L rec dir st st' name s := by
  obtain ⟨subs, conf, mods, updated⟩ := st
  unfold loadOne at h
  have hnest : (takeNested mods updated name).1 = nestedFor mods name := by
    unfold takeNested nestedFor
    rcases Dict.get? mods name with _ | (m | d) <;> rfl
  simp only [hnest] at h
  cases e1 : Dict.get? conf.dict.subs name with
  | none => rw [e1] at h; simp at h
  | some subCfg =>
    rw [e1] at h
    simp only at h
    split at h
    · simp at h
    · cases e2 : (rec (Comp.fresh subCfg.cls) dir name (nestedFor mods name)).err with
      | some e => rw [e2] at h; simp at h
      | none =>
        rw [e2] at h
        simp only at h
        generalize hs : (rec (Comp.fresh subCfg.cls) dir name (nestedFor mods name)).obj = s at h
        refine ⟨s, ?_⟩
        have hl : ∃ cls, (rec (Comp.fresh cls) dir name (nestedFor mods name)).err = none ∧
            (rec (Comp.fresh cls) dir name (nestedFor mods name)).obj = s := ⟨_, e2, hs⟩
        -- the three kinds of replacement
        cases e3 : Dict.get? mods name with
        | none =>
          have ht : takeNested mods updated name = ([], mods, updated) := by
            simp [takeNested, e3]
          have hc : updated.contains name = false := by simpa using hnew
          simp [ht, storeLoaded, hnew, storeReplacement, e3] at h
          subst h
          refine ⟨hl, ?_, fun _ _ => rfl, ?_, rfl, ?_, ?_, ?_, ?_⟩
          · intro m hm; simp only; rw [Dict.get?_set, if_neg (Ne.symm hm)]
          · intro m; simp only
            by_cases hm : m = name
            · rw [if_pos hm, hm, e3]
            · rw [if_neg hm]
          · refine ⟨fun _ h => h, fun h => absurd e3 h, fun _ h => Or.inl h⟩
          · intro _; simp only; rw [Dict.get?_set, if_pos rfl]
          · intro m hm; simp only [e3] at hm; cases hm
          · intro hm; simp only [e3] at hm; exact absurd rfl hm
        | some md =>
          cases md with
          | nested nd =>
            have ht : takeNested mods updated name = (nd, pop mods name, updated ++ [name]) := by
              simp [takeNested, e3]
            have hpop : Dict.get? (pop mods name) name = none := by rw [get?_pop, if_pos rfl]
            simp only [ht, storeLoaded, List.contains_eq_mem, List.mem_append, List.mem_singleton,
              or_true, decide_true, if_true] at h
            rcases hr : conf.replaceSubs [(name, s.toSubArg)] with ⟨conf', _ | err⟩
            · rw [hr] at h
              simp only [storeReplacement, hpop, Prod.mk.injEq, and_true] at h
              subst h
              obtain ⟨d, r1, r2, r3, r4, r5⟩ := replaceSubs_one hr
              obtain ⟨hcfg, sc, hsc, rfl⟩ := toSubArg_configured r1
              refine ⟨hl, ?_, r3, ?_, r4, ?_, ?_, ?_, ?_⟩
              · intro m hm; simp only; rw [Dict.get?_set, if_neg (Ne.symm hm)]
              · intro m; simp only; rw [get?_pop]
              · refine ⟨fun _ h => by simp [h], fun _ => by simp, fun _ h => by simpa using h⟩
              · intro _; simp only; rw [Dict.get?_set, if_pos rfl]
              · intro m hm; simp only [e3] at hm; cases hm
              · intro _
                exact ⟨s, sc, by simp only; rw [Dict.get?_set, if_pos rfl], hsc, r2⟩
            · rw [hr] at h; simp at h
          | comp m =>
            have ht : takeNested mods updated name = ([], mods, updated) := by
              simp [takeNested, e3]
            have hc : updated.contains name = false := by simpa using hnew
            simp only [ht, storeLoaded, hc, Bool.false_eq_true, if_false, storeReplacement, e3] at h
            split at h
            · simp at h
            · rename_i hmc
              have hmc : m.configured = true := by simpa using hmc
              have hcompat : ∃ r, (if conf.dict.muts.contains name = true then Except.ok true
                  else s.isCompatible m) = r := ⟨_, rfl⟩
              obtain ⟨r, hr0⟩ := hcompat
              rw [hr0] at h
              cases r with
              | error e => simp at h
              | ok b =>
                cases b with
                | false => simp at h
                | true =>
                  simp only at h
                  rcases hr : conf.replaceSubs [(name, m.toSubArg)] with ⟨conf', _ | err⟩
                  · rw [hr] at h
                    simp only [Prod.mk.injEq, and_true] at h
                    subst h
                    obtain ⟨d, r1, r2, r3, r4, r5⟩ := replaceSubs_one hr
                    obtain ⟨hcfg, mc, hmconf, rfl⟩ := toSubArg_configured r1
                    have hget : ∀ k, Dict.get? (Dict.set (Dict.set subs name s) name m) k =
                        if name = k then some m else Dict.get? subs k := by
                      intro k
                      rw [Dict.get?_set, Dict.get?_set]
                      by_cases hk : name = k
                      · simp [hk]
                      · simp [hk]
                    refine ⟨hl, ?_, r3, ?_, r4, ?_, ?_, ?_, ?_⟩
                    · intro k hk; simp only; rw [hget, if_neg (Ne.symm hk)]
                    · intro k; simp only; rw [get?_pop]
                    · refine ⟨fun _ h => by simp [h], fun _ => by simp, fun _ h => by simpa using h⟩
                    · intro hk; simp only [e3] at hk; exact absurd rfl (hk m)
                    · intro m' hm'
                      simp only [e3, Option.some.injEq, Mod.comp.injEq] at hm'
                      subst hm'
                      refine ⟨by simp only; rw [hget, if_pos rfl], hmc, ?_⟩
                      by_cases hmu : name ∈ conf.dict.muts
                      · exact Or.inl hmu
                      · right
                        rw [if_neg (by simpa using hmu)] at hr0
                        exact hr0
                    · intro _
                      exact ⟨m, mc, by simp only; rw [hget, if_pos rfl], hmconf, r2⟩
                  · rw [hr] at h; simp at h

/-- What the whole loop delivers, for distinct names. -/
theorem loadLoop_spec [DecidableEq V] (L : LoadEnv V D)
    (rec : Comp V D → Path → String → Dict String (Mod V D) → LoadResult V D)
    (dir : Path) (st st' : LoopState V D) (names : List String) (hnd : names.Nodup)
    (hnew : ∀ n, n ∈ names → n ∉ st.updated)
    (h : loadLoop L rec dir st names = (st', none)) :
    ∃ saved : String → Comp V D,
      (∀ n, n ∈ names → ∃ cls,
        (rec (Comp.fresh cls) dir n (nestedFor st.mods n)).err = none ∧
        (rec (Comp.fresh cls) dir n (nestedFor st.mods n)).obj = saved n) ∧
      (∀ m, m ∉ names → Dict.get? st'.subs m = Dict.get? st.subs m) ∧
      (∀ m, m ∉ names → Dict.get? st'.conf.dict.subs m = Dict.get? st.conf.dict.subs m) ∧
      (∀ m, Dict.get? st'.mods m = if m ∈ names then none else Dict.get? st.mods m) ∧
      st'.conf.dict.muts = st.conf.dict.muts ∧
      (∀ m, m ∈ st.updated → m ∈ st'.updated) ∧
      (∀ n, n ∈ names → Dict.get? st.mods n ≠ none → n ∈ st'.updated) ∧
      (∀ n, n ∈ names → (∀ m, Dict.get? st.mods n ≠ some (.comp m)) →
        Dict.get? st'.subs n = some (saved n)) ∧
      (∀ n m, n ∈ names → Dict.get? st.mods n = some (.comp m) →
        Dict.get? st'.subs n = some m ∧ m.configured = true ∧
        (n ∈ st.conf.dict.muts ∨ (saved n).isCompatible m = .ok true)) ∧
      (∀ n, n ∈ names → Dict.get? st.mods n ≠ none → ∃ x xc, Dict.get? st'.subs n = some x ∧
        x.conf = some xc ∧ Dict.get? st'.conf.dict.subs n = some xc.dict) := by
  induction names generalizing st with
  | nil =>
    simp only [loadLoop, Prod.mk.injEq, and_true] at h
    subst h
    exact ⟨fun _ => Comp.fresh "", by simp⟩
  | cons n0 rest ih =>
    rw [List.nodup_cons] at hnd
    rw [loadLoop] at h
    rcases h1 : loadOne L rec dir st n0 with ⟨st1, _ | e⟩
    · rw [h1] at h
      simp only at h
      obtain ⟨s, ok⟩ := loadOne_spec L rec dir st st1 n0 (hnew n0 (by simp)) h1
      have hnew' : ∀ n, n ∈ rest → n ∉ st1.updated := by
        intro n hn hu
        rcases ok.hupd.2.2 n hu with h | h
        · exact hnew n (by simp [hn]) h
        · exact hnd.1 (h ▸ hn)
      obtain ⟨saved, a1, a2, a3, a4, a5, a6, a7, a8, a9, a10⟩ := ih st1 hnd.2 hnew' h
      have hm1 : ∀ n, n ∈ rest → Dict.get? st1.mods n = Dict.get? st.mods n := by
        intro n hn
        rw [ok.hmods, if_neg]
        rintro rfl; exact hnd.1 hn
      have hnest : ∀ n, n ∈ rest → nestedFor st1.mods n = nestedFor st.mods n := by
        intro n hn; unfold nestedFor; rw [hm1 n hn]
      have hne : ∀ n, n ∈ rest → n ≠ n0 := by
        rintro n hn rfl; exact hnd.1 hn
      refine ⟨fun n => if n = n0 then s else saved n, ?_, ?_, ?_, ?_, a5.trans ok.hmuts,
        fun m hm => a6 m (ok.hupd.1 m hm), ?_, ?_, ?_, ?_⟩
      · intro n hn
        rcases List.mem_cons.1 hn with rfl | hn
        · simpa using ok.hload
        · have := a1 n hn
          rw [hnest n hn] at this
          simpa [hne n hn] using this
      · intro m hm
        simp only [List.mem_cons, not_or] at hm
        rw [a2 m hm.2, ok.hother m hm.1]
      · intro m hm
        simp only [List.mem_cons, not_or] at hm
        rw [a3 m hm.2, ok.hotherc m hm.1]
      · intro m
        rw [a4 m, ok.hmods]
        by_cases e1 : m = n0
        · simp [e1]
        · by_cases e2 : m ∈ rest <;> simp [e1, e2]
      · intro n hn hm
        rcases List.mem_cons.1 hn with rfl | hn
        · exact a6 n (ok.hupd.2.1 hm)
        · exact a7 n hn (by rw [hm1 n hn]; exact hm)
      · intro n hn hm
        rcases List.mem_cons.1 hn with rfl | hn
        · rw [a2 n hnd.1]; simpa using ok.hkeep hm
        · rw [a8 n hn (by rw [hm1 n hn]; exact hm)]; simp [hne n hn]
      · intro n m hn hm
        rcases List.mem_cons.1 hn with rfl | hn
        · rw [a2 n hnd.1]; simpa using ok.hrepl m hm
        · have := a9 n m hn (by rw [hm1 n hn]; exact hm)
          rw [ok.hmuts] at this
          simpa [hne n hn] using this
      · intro n hn hm
        rcases List.mem_cons.1 hn with rfl | hn
        · obtain ⟨x, xc, b1, b2, b3⟩ := ok.hrecord hm
          exact ⟨x, xc, by rw [a2 n hnd.1]; exact b1, b2, by rw [a3 n hnd.1]; exact b3⟩
        · exact a10 n hn (by rw [hm1 n hn]; exact hm)
    · rw [h1] at h; simp at h

/-- What one pass leaves alone: everything in the configuration except the records of the sub
components, and the record of a name without replacement, which is not reported as updated. -/
theorem loadOne_rest [DecidableEq V] (L : LoadEnv V D)
    (rec : Comp V D → Path → String → Dict String (Mod V D) → LoadResult V D)
    (dir : Path) (st st' : LoopState V D) (name : String) (hnew : name ∉ st.updated)
    (h : loadOne L rec dir st name = (st', none)) :
    st'.conf = { st.conf with dict := { st.conf.dict with subs := st'.conf.dict.subs } } ∧
    (Dict.get? st.mods name = none →
      st'.conf = st.conf ∧ st'.updated = st.updated) ∧
    Dict.keys st'.conf.dict.subs = Dict.keys st.conf.dict.subs ∧
    (name ∉ Dict.keys st.subs → Dict.keys st'.subs = Dict.keys st.subs ++ [name]) := by
  obtain ⟨subs, conf, mods, updated⟩ := st
  have hrs : ∀ x : Dict String (SubArg V), (conf.replaceSubs x).1 =
      { conf with dict := { conf.dict with subs := (conf.replaceSubs x).1.dict.subs } } :=
    fun _ => rfl
  have hks : ∀ n a, Dict.keys (conf.replaceSubs [(n, a)]).1.dict.subs = Dict.keys conf.dict.subs :=
    fun n a => (C04_replace_sub_components conf [(n, a)] (by simp [Dict.Ok, Dict.keys])).2.2.2.1
  have hset : ∀ x, name ∉ Dict.keys subs →
      Dict.keys (Dict.set subs name x) = Dict.keys subs ++ [name] := by
    intro x hx; rw [Dict.keys_set, if_neg hx]
  unfold loadOne at h
  cases e1 : Dict.get? conf.dict.subs name with
  | none => simp [e1] at h
  | some subCfg =>
    simp only [e1] at h
    split at h
    · simp at h
    · split at h
      · simp at h
      · cases e3 : Dict.get? mods name with
        | none =>
          have ht : takeNested mods updated name = ([], mods, updated) := by simp [takeNested, e3]
          simp [ht, storeLoaded, hnew, storeReplacement, e3] at h
          subst h
          exact ⟨by rcases conf with ⟨⟨⟩, _⟩; rfl, fun _ => ⟨rfl, rfl⟩, rfl, hset _⟩
        | some md =>
          refine (fun h => ⟨h.1, fun hm => absurd hm (by simp), h.2⟩ : _ ∧ _ → _) ?_
          cases md with
          | nested nd =>
            have ht : takeNested mods updated name = (nd, pop mods name, updated ++ [name]) := by
              simp [takeNested, e3]
            have hpop : Dict.get? (pop mods name) name = none := by rw [get?_pop, if_pos rfl]
            simp only [ht, storeLoaded, List.contains_eq_mem, List.mem_append, List.mem_singleton,
              or_true, decide_true, if_true] at h
            split at h
            · simp at h
            · rename_i st2 heq
              simp only [Prod.mk.injEq] at heq
              obtain ⟨heq, -⟩ := heq
              subst heq
              simp only [storeReplacement, hpop, Prod.mk.injEq, and_true] at h
              subst h
              exact ⟨hrs _, hks _ _, hset _⟩
          | comp m =>
            have ht : takeNested mods updated name = ([], mods, updated) := by
              simp [takeNested, e3]
            have hc : updated.contains name = false := by simpa using hnew
            simp only [ht, storeLoaded, hc, Bool.false_eq_true, if_false, storeReplacement, e3] at h
            split at h
            · simp at h
            · split at h
              · simp at h
              · simp at h
              · simp only [Prod.mk.injEq] at h
                obtain ⟨h, -⟩ := h
                subst h
                refine ⟨hrs _, hks _ _, fun hx => ?_⟩
                have := hset (rec (Comp.fresh subCfg.cls) dir name []).obj hx
                simp only
                rw [Dict.keys_set, if_pos (by rw [this]; simp), this]

theorem loadLoop_rest [DecidableEq V] (L : LoadEnv V D)
    (rec : Comp V D → Path → String → Dict String (Mod V D) → LoadResult V D)
    (dir : Path) (st st' : LoopState V D) (names : List String) (hnd : names.Nodup)
    (hnew : ∀ n, n ∈ names → n ∉ st.updated)
    (h : loadLoop L rec dir st names = (st', none)) :
    st'.conf = { st.conf with dict := { st.conf.dict with subs := st'.conf.dict.subs } } ∧
    (∀ n, Dict.get? st.mods n = none →
      Dict.get? st'.conf.dict.subs n = Dict.get? st.conf.dict.subs n ∧
      (n ∈ st'.updated → n ∈ st.updated)) ∧
    Dict.keys st'.conf.dict.subs = Dict.keys st.conf.dict.subs ∧
    ((∀ n ∈ names, n ∉ Dict.keys st.subs) → Dict.keys st'.subs = Dict.keys st.subs ++ names) := by
  induction names generalizing st with
  | nil =>
    simp only [loadLoop, Prod.mk.injEq, and_true] at h
    subst h
    exact ⟨by rcases st with ⟨_, ⟨⟨⟩, _⟩, _, _⟩; rfl, fun _ _ => ⟨rfl, id⟩, rfl, fun _ => by simp⟩
  | cons n0 rest ih =>
    rw [List.nodup_cons] at hnd
    rw [loadLoop] at h
    rcases h1 : loadOne L rec dir st n0 with ⟨st1, _ | e⟩
    · rw [h1] at h
      simp only at h
      obtain ⟨s, ok⟩ := loadOne_spec L rec dir st st1 n0 (hnew n0 (by simp)) h1
      obtain ⟨o1, o2, o3, o4⟩ := loadOne_rest L rec dir st st1 n0 (hnew n0 (by simp)) h1
      have hnew' : ∀ n, n ∈ rest → n ∉ st1.updated := by
        intro n hn hu
        rcases ok.hupd.2.2 n hu with h | h
        · exact hnew n (by simp [hn]) h
        · exact hnd.1 (h ▸ hn)
      obtain ⟨a1, a2, a3, a4⟩ := ih st1 hnd.2 hnew' h
      refine ⟨?_, fun n hn => ?_, a3.trans o3, fun hfresh => ?_⟩
      · rw [a1]
        generalize st'.conf.dict.subs = x
        rw [o1]
      · have hm1 : Dict.get? st1.mods n = none := by
          rw [ok.hmods]; split
          · rfl
          · exact hn
        obtain ⟨b1, b2⟩ := a2 n hm1
        by_cases hne : n = n0
        · subst hne
          obtain ⟨c1, c2⟩ := o2 hn
          exact ⟨by rw [b1, c1], fun hu => by rw [← c2]; exact b2 hu⟩
        · refine ⟨by rw [b1, ok.hotherc n hne], fun hu => ?_⟩
          rcases ok.hupd.2.2 n (b2 hu) with h | h
          · exact h
          · exact absurd h hne
      · have hk := o4 (hfresh n0 (by simp))
        rw [a4 ?_, hk, List.append_assoc, List.singleton_append]
        intro n hn
        rw [hk, List.mem_append, not_or]
        refine ⟨hfresh n (by simp [hn]), ?_⟩
        rw [List.mem_singleton]
        rintro rfl
        exact hnd.1 hn
    · rw [h1] at h; simp at h

/-- The successful run of `load`, taken apart. -/
theorem load_success [DecidableEq V] (L : LoadEnv V D) (fs : FS V D) (k : Nat) (self : Comp V D)
    (parent : Path) (name : String) (mods : Dict String (Mod V D))
    (h : (load L fs k self parent name mods).err = none) :
    ∃ k' d data conf st obj, k = k' + 1 ∧ self.configured = false ∧ self.attrs = [] ∧
      fs (cfgPath (parent ++ [stem name])) = some (.config d) ∧
      fs (dataPath (parent ++ [stem name])) = some (.data data) ∧ data ≠ .other ∧
      Conf.init L.env (some d.sha) d = .ok conf ∧ d.version = L.env.version ∧
      conf.dict.cls = self.cls ∧
      loadLoop L (load L fs k') (parent ++ [stem name]) ⟨self.subs, conf, mods, []⟩ conf.dict.deps
        = (st, none) ∧
      obj = { self with
        conf := some st.conf, subs := st.subs,
        data := (match data with | .dict x => some x | _ => none) } ∧
      st.mods = [] ∧
      (st.updated = [] → load L fs k self parent name mods =
        ⟨{ obj with configured := true }, [], none⟩) ∧
      (st.updated ≠ [] → (L.update obj st.updated).2 = none ∧
        load L fs k self parent name mods =
          ⟨{ (L.update obj st.updated).1 with configured := true }, [], none⟩) := by
  cases k with
  | zero => simp [load] at h
  | succ k' =>
  generalize hres : load L fs (k' + 1) self parent name mods = res at h ⊢
  unfold load at hres
  by_cases h1 : self.configured = true
  · rw [if_pos h1] at hres; subst hres; simp at h
  by_cases h2 : self.attrs ≠ []
  · rw [if_neg h1, if_pos h2] at hres; subst hres; simp at h
  rw [if_neg h1, if_neg h2] at hres
  simp only at hres
  cases h3 : fs (cfgPath (parent ++ [stem name])) with
  | none => rw [h3] at hres; subst hres; simp at h
  | some f =>
  rw [h3] at hres
  cases f with
  | partialFile => subst hres; simp at h
  | data _ => subst hres; simp at h
  | config d =>
  simp only at hres
  cases h4 : fs (dataPath (parent ++ [stem name])) with
  | none => rw [h4] at hres; subst hres; simp at h
  | some f =>
  rw [h4] at hres
  cases f with
  | partialFile => subst hres; simp at h
  | config _ => subst hres; simp at h
  | data data =>
  simp only at hres
  cases h5 : Conf.init L.env (some d.sha) d with
  | error e => rw [h5] at hres; subst hres; simp at h
  | ok conf =>
  rw [h5] at hres
  simp only at hres
  by_cases h6 : d.version = L.env.version
  case neg => rw [if_pos h6] at hres; subst hres; simp at h
  by_cases h7 : conf.dict.cls = self.cls
  case neg => rw [if_neg (by simp [h6]), if_pos h7] at hres; subst hres; simp at h
  rw [if_neg (by simp [h6]), if_neg (by simp [h7])] at hres
  have hdata : data ≠ .other := by
    rintro rfl
    subst hres; simp at h
  have main : ∀ dd : Option (Dict String D),
      dd = (match data with | .dict x => some x | _ => none) →
      (let r := loadLoop L (load L fs k') (parent ++ [stem name]) ⟨self.subs, conf, mods, []⟩
          conf.dict.deps
       let obj : Comp V D := { self with conf := some r.1.conf, data := dd, subs := r.1.subs }
       match r.2 with
        | some e => (⟨obj, r.1.mods, some e⟩ : LoadResult V D)
        | none =>
          let u := if r.1.updated ≠ [] then L.update obj r.1.updated else (obj, none)
          match u.2 with
          | some e => ⟨u.1, r.1.mods, some e⟩
          | none =>
            if r.1.mods ≠ [] then ⟨u.1, r.1.mods, some .valueError⟩
            else ⟨{ u.1 with configured := true }, r.1.mods, none⟩) = res →
      ∃ st obj,
        loadLoop L (load L fs k') (parent ++ [stem name]) ⟨self.subs, conf, mods, []⟩ conf.dict.deps
          = (st, none) ∧
        obj = { self with conf := some st.conf, subs := st.subs, data := dd } ∧
        st.mods = [] ∧
        (st.updated = [] → res = ⟨{ obj with configured := true }, [], none⟩) ∧
        (st.updated ≠ [] → (L.update obj st.updated).2 = none ∧
          res = ⟨{ (L.update obj st.updated).1 with configured := true }, [], none⟩) := by
    intro dd hdd hm
    rcases hl : loadLoop L (load L fs k') (parent ++ [stem name]) ⟨self.subs, conf, mods, []⟩
      conf.dict.deps with ⟨st, _ | e⟩
    · rw [hl] at hm
      simp only at hm
      by_cases hu : st.updated = []
      · simp only [hu, ne_eq, not_true_eq_false, if_false] at hm
        by_cases hmods : st.mods = []
        · rw [if_neg (by simp [hmods]), hmods] at hm
          exact ⟨st, _, rfl, rfl, hmods, fun _ => hm.symm, fun h => absurd hu h⟩
        · rw [if_pos hmods] at hm; rw [← hm] at h; simp at h
      · simp only [ne_eq, hu, not_false_eq_true, if_true] at hm
        split at hm
        · rw [← hm] at h; simp at h
        · rename_i hu2
          by_cases hmods : st.mods = []
          · rw [if_neg (by simp [hmods]), hmods] at hm
            exact ⟨st, _, rfl, rfl, hmods, fun h => absurd h hu, fun _ => ⟨hu2, hm.symm⟩⟩
          · rw [if_pos hmods] at hm; rw [← hm] at h; simp at h
    · rw [hl] at hm
      simp only at hm
      rw [← hm] at h; simp at h
  cases data with
  | other => exact absurd rfl hdata
  | none =>
    obtain ⟨st, obj, b1, b2, b3, b4, b5⟩ := main none rfl hres
    exact ⟨k', d, .none, conf, st, obj, rfl, by simpa using h1, by simpa using h2, rfl, rfl, hdata,
      h5, h6, h7, b1, b2, b3, b4, b5⟩
  | dict x =>
    obtain ⟨st, obj, b1, b2, b3, b4, b5⟩ := main (some x) rfl hres
    exact ⟨k', d, .dict x, conf, st, obj, rfl, by simpa using h1, by simpa using h2, rfl, rfl, hdata,
      h5, h6, h7, b1, b2, b3, b4, b5⟩

theorem isCompatible_ok_true [DecidableEq V] {s m : Comp V D} (h : s.isCompatible m = .ok true) :
    s.cls = m.cls ∧ ∃ sc mc, s.conf = some sc ∧ m.conf = some mc ∧
      (WF sc.dict → WF mc.dict → Compat sc.dict mc.dict) := by
  unfold Comp.isCompatible at h
  split at h
  · simp at h
  · rename_i hc
    refine ⟨by simpa using hc, ?_⟩
    split at h
    · rename_i a b ha hb
      refine ⟨a, b, ha, hb, ?_⟩
      intro h1 h2
      rcases C03_is_compatible_decides _ _ h1 h2 with h3 | h3
      · exact h3.2
      · rw [h3.1] at h; simp at h
    · simp at h

theorem load_loadedAs [DecidableEq V] (L : LoadEnv V D) (fs : FS V D)
    (hhook : UpdateHookOk L.update)
    (hdeps : ∀ p d, fs p = some (.config d) → d.deps.Nodup) (k : Nat) :
    ∀ (self : Comp V D) (parent : Path) (name : String) (mods : Dict String (Mod V D)),
      self.subs = [] → (load L fs k self parent name mods).err = none →
      LoadedAs fs (parent ++ [stem name]) mods (load L fs k self parent name mods).obj := by
  induction k with
  | zero => intro self parent name mods _ h; simp [load] at h
  | succ k ih =>
    intro self parent name mods hs h
    obtain ⟨k', d, data, conf, st, obj, hk, -, -, hf1, hf2, hdata, hinit, hver, hcls, hloop, hobj,
      hmods, hu1, hu2⟩ := load_success L fs (k + 1) self parent name mods h
    have : k' = k := by omega
    subst this
    have hconf : conf.dict.deps = d.deps ∧ conf.dict.muts = d.muts ∧ conf.dict.cls = d.cls ∧
        conf.dict.subs = d.subs := by
      simp only [Conf.init, bind, Except.bind] at hinit
      split at hinit
      · cases hinit
      · split at hinit
        · cases hinit
        · cases hinit; exact ⟨rfl, rfl, rfl, rfl⟩
    obtain ⟨c1, c2, c3, c4⟩ := hconf
    have hnd : conf.dict.deps.Nodup := by rw [c1]; exact hdeps _ _ hf1
    obtain ⟨saved, a1, a2, a3, a4, a5, a6, a7, a8, a9, a10⟩ :=
      loadLoop_spec L _ _ _ _ _ hnd (by simp) hloop
    simp only at a1 a2 a3 a4 a5 a6 a7 a8 a9 a10
    -- the final object
    have hfinal : ∃ r, (load L fs (k' + 1) self parent name mods).obj = r ∧ r.configured = true ∧
        r.cls = d.cls ∧ r.subs = st.subs ∧ ∃ rc, r.conf = some rc ∧ rc.dict.subs = st.conf.dict.subs := by
      by_cases hu : st.updated = []
      · refine ⟨_, by rw [hu1 hu], rfl, ?_, ?_, ?_⟩
        · rw [hobj]; simp only; rw [← hcls, c3]
        · rw [hobj]
        · rw [hobj]; exact ⟨st.conf, rfl, rfl⟩
      · obtain ⟨e1, e2⟩ := hu2 hu
        obtain ⟨g1, g2, g3⟩ := hhook obj st.updated e1
        obtain ⟨rc, g4, g5⟩ := g3 st.conf (by rw [hobj])
        refine ⟨_, by rw [e2], rfl, ?_, ?_, ?_⟩
        · simp only; rw [g1, hobj]; simp only; rw [← hcls, c3]
        · simp only; rw [g2, hobj]
        · exact ⟨rc, g4, g5⟩
    obtain ⟨r, hr, r1, r2, r3, rc, r4, r5⟩ := hfinal
    rw [hr]
    have hempty : ∀ m, Dict.get? st.mods m = none := by rw [hmods]; simp
    refine LoadedAs.mk _ mods r d saved hf1 r2 r1 ?_ ?_ ?_ ?_ ?_ ?_
    · intro n hn
      have := hempty n
      rw [a4] at this
      by_cases hmem : n ∈ conf.dict.deps
      · rw [← c1]; exact hmem
      · rw [if_neg hmem] at this
        exact absurd hn ((Dict.get?_eq_none_iff _ _).1 this)
    · intro n hn hp
      obtain ⟨cls, e1, e2⟩ := a1 n (by rw [c1]; exact hn)
      have : nestedFor mods n = [] := by
        unfold nestedFor
        split
        · rename_i m hm; exact absurd hm (hp m)
        · rfl
      rw [this] at e1 e2
      have := ih (Comp.fresh cls) (parent ++ [stem name]) n [] rfl e1
      rw [e2] at this
      exact this
    · intro n m hn hm
      obtain ⟨cls, e1, e2⟩ := a1 n (by rw [c1]; exact hn)
      have : nestedFor mods n = m := by
        unfold nestedFor
        rw [hm]
      rw [this] at e1 e2
      have := ih (Comp.fresh cls) (parent ++ [stem name]) n m rfl e1
      rw [e2] at this
      exact this
    · intro n hn hm
      rw [r3]; exact a8 n (by rw [c1]; exact hn) hm
    · intro n m hn hm
      obtain ⟨e1, e2, e3⟩ := a9 n m (by rw [c1]; exact hn) hm
      refine ⟨by rw [r3]; exact e1, e2, ?_⟩
      rcases e3 with e3 | e3
      · left; rw [← c2]; exact e3
      · right; exact isCompatible_ok_true e3
    · intro n hn hm
      obtain ⟨x, xc, e1, e2, e3⟩ := a10 n (by rw [c1]; exact hn)
        (fun h => (Dict.get?_eq_none_iff _ _).1 h hm)
      exact ⟨x, xc, rc, by rw [r3]; exact e1, e2, r4, by rw [r5]; exact e3⟩

end Verif.Component
