/- Helper lemmas for C136: what is loaded with replacements can be saved again. -/
import Verif.Component.LoadLemmas
import Verif.Component.ResaveSpec

namespace Verif.Component
open Verif.Py
variable {V D : Type}

theorem Saveable.conf_spec {E : Env} {known : String → Bool} {c : Comp V D}
    (h : Saveable E known c) {conf : Conf V} (hc : c.conf = some conf) :
    conf.dict.cls = c.cls ∧ WF conf.dict := by
  cases h with
  | mk _ conf' _ _ hconf hcls _ hwf =>
    rw [hc] at hconf
    cases hconf
    exact ⟨hcls, hwf⟩

theorem mem_of_keys_eq {α : Type} {d : Dict String α} {k : String} (h : k ∈ Dict.keys d) :
    ∃ v, (k, v) ∈ d := by
  unfold Dict.keys at h
  rw [List.mem_map] at h
  obtain ⟨⟨a, b⟩, h1, rfl⟩ := h
  exact ⟨b, h1⟩

theorem load_saveable [DecidableEq V] (L : LoadEnv V D) (fs : FS V D)
    (hhook : HookKeeps L.update) (c : Comp V D) (hsv : Saveable L.env L.known c) :
    ∀ (k : Nat) (cls : String) (parent : Path) (name : String) (mods : Dict String (Mod V D)),
      Stored fs (parent ++ [stem name]) c →
      (∀ n m r, (n, m) ∈ mods → Replaces r m →
        Saveable L.env L.known r ∧ L.known r.cls = true) →
      (load L fs k (Comp.fresh cls) parent name mods).err = none →
      Saveable L.env L.known (load L fs k (Comp.fresh cls) parent name mods).obj ∧
      (load L fs k (Comp.fresh cls) parent name mods).obj.cls = c.cls := by
  induction hsv with
  | mk c conf hcfg hattrs hconf hcls hver hwf hconfig hdeps hnodup hfiles hrecord hrec ih =>
    intro k cls parent name mods hst hmods h
    cases hst with
    | mk _ _ conf' hconf' s1 s2 s3 =>
    rw [hconf] at hconf'
    cases hconf'
    obtain ⟨k', d, data, conf1, st, obj, hk, -, -, hf1, hf2, hdata, hinit, hver', hcls', hloop,
      hobj, hmods', hu1, hu2⟩ := load_success L fs k (Comp.fresh cls) parent name mods h
    rw [s1] at hf1
    cases hf1
    have hconf1 : conf1 = conf := by
      have : Conf.init L.env (some conf.dict.sha) conf.dict = .ok conf := by
        simp only [Conf.init, hwf.checkNames, hwf.combine, bind, Except.bind]
        obtain ⟨⟨⟩, config⟩ := conf
        simp only [Option.getD_some, Except.ok.injEq, Conf.mk.injEq, Cfg.mk.injEq, and_true]
          at hver hconfig ⊢
        exact ⟨hver.symm, hconfig.symm⟩
      rw [this] at hinit
      cases hinit
      rfl
    subst hconf1
    have hclsc : cls = c.cls := by rw [← hcls, hcls']; rfl
    have hkeys : (Dict.keys c.subs).Nodup := by
      have : (c.subs.map (fun nc => stem nc.1)) = (Dict.keys c.subs).map stem := by
        simp [Dict.keys]
      rw [this] at hnodup
      exact List.Pairwise.of_map stem (fun a b h => fun hab => h (by rw [hab])) hnodup
    have hnd : conf1.dict.deps.Nodup := by rw [hdeps]; exact hkeys
    obtain ⟨b1, b2, b3, b4⟩ := loadLoop_rest L _ _ _ _ _ hnd (by simp) hloop
    obtain ⟨saved, a1, -, -, a4, -, -, -, a8, a9, a10⟩ :=
      loadLoop_spec L _ _ _ _ _ hnd (by simp) hloop
    simp only at b1 b2 b3 b4 a1 a4 a8 a9 a10
    have b4 : Dict.keys st.subs = conf1.dict.deps := by
      have := b4 (by intro n _; simp [Comp.fresh, Dict.keys])
      simpa [Comp.fresh, Dict.keys] using this
    -- the parts that are loaded
    have hsaved : ∀ n s, (n, s) ∈ c.subs →
        Saveable L.env L.known (saved n) ∧ (saved n).cls = s.cls := by
      intro n s hm
      obtain ⟨cls', e1, e2⟩ := a1 n (by rw [hdeps]; exact List.mem_map.2 ⟨(n, s), hm, rfl⟩)
      have := ih n s hm k' cls' (parent ++ [stem name]) n (nestedFor mods n) (s3 n s hm) ?_ e1
      · rw [e2] at this; exact this
      · intro n' m' r hm' hr
        unfold nestedFor at hm'
        split at hm'
        · rename_i d' hd'
          exact hmods n _ r (Dict.mem_of_get? hd') (Replaces.inside d' n' m' hm' hr)
        · simp at hm'
    -- the parts in use
    have huse : ∀ n x, Dict.get? st.subs n = some x → Saveable L.env L.known x ∧
        L.known x.cls = true ∧ ∃ rd, Dict.get? st.conf.dict.subs n = some rd ∧ rd.cls = x.cls := by
      intro n x hx
      have hn : n ∈ conf1.dict.deps := by
        rw [← b4]; exact (Dict.get?_isSome_iff _ _).1 (by rw [hx]; rfl)
      obtain ⟨s, hs⟩ := mem_of_keys_eq (d := c.subs) (by rw [← hdeps]; exact hn)
      obtain ⟨hs1, hs2⟩ := hsaved n s hs
      obtain ⟨hr1, rd0, hr2, hr3⟩ := hrecord n s hs
      have hx' : Saveable L.env L.known x ∧ L.known x.cls = true ∧
          (Dict.get? mods n = none → x.cls = s.cls) := by
        by_cases hc : ∃ m, Dict.get? mods n = some (.comp m)
        · obtain ⟨m, hm⟩ := hc
          have := (a9 n m hn hm).1
          rw [hx] at this
          cases this
          obtain ⟨p1, p2⟩ := hmods n _ x (Dict.mem_of_get? hm) Replaces.here
          exact ⟨p1, p2, fun h => absurd h (by rw [hm]; simp)⟩
        · have := a8 n hn (fun m hm => hc ⟨m, hm⟩)
          rw [hx] at this
          cases this
          exact ⟨hs1, by rw [hs2]; exact hr1, fun _ => hs2⟩
      refine ⟨hx'.1, hx'.2.1, ?_⟩
      by_cases hm : Dict.get? mods n = none
      · exact ⟨rd0, by rw [(b2 n hm).1]; exact hr2, by rw [hr3, hx'.2.2 hm]⟩
      · obtain ⟨y, yc, y1, y2, y3⟩ := a10 n hn hm
        rw [hx] at y1
        cases y1
        exact ⟨yc.dict, y3, (hx'.1.conf_spec y2).1⟩
    -- the records
    have hwf' : ∀ n rd, (n, rd) ∈ st.conf.dict.subs → WF rd := by
      intro n rd hm
      cases hwf with
      | mk _ _ _ _ hsubs _ _ hrec' =>
      have hok : Dict.Ok st.conf.dict.subs := by unfold Dict.Ok; rw [b3]; exact hsubs
      have hg := Dict.get?_of_mem hok hm
      by_cases hmn : Dict.get? mods n = none
      · rw [(b2 n hmn).1] at hg
        exact hrec' n rd (Dict.mem_of_get? hg)
      · have hn : n ∈ conf1.dict.deps := by
          by_cases hd : n ∈ conf1.dict.deps
          · exact hd
          · have := a4 n
            rw [hmods', if_neg hd] at this
            exact absurd this.symm hmn
        obtain ⟨y, yc, y1, y2, y3⟩ := a10 n hn hmn
        rw [hg] at y3
        cases y3
        exact ((huse n y y1).1.conf_spec y2).2
    -- the component, whatever its mutable settings are
    have hfinal : ∀ (r : Comp V D) (m : Dict String V), r.configured = true → r.attrs = [] →
        r.cls = c.cls → r.subs = st.subs →
        Dict.keys m = Dict.keys conf1.dict.mutable →
        r.conf = some ⟨{ st.conf.dict with mutable := m }, conf1.dict.settings.update m⟩ →
        Saveable L.env L.known r := by
      intro r m r1 r2 r3 r4 r5 r6
      have t1 : st.conf.dict.cls = conf1.dict.cls ∧ st.conf.dict.version = conf1.dict.version ∧
          st.conf.dict.settings = conf1.dict.settings ∧ st.conf.dict.check = conf1.dict.check ∧
          st.conf.dict.deps = conf1.dict.deps := by rw [b1]; exact ⟨rfl, rfl, rfl, rfl, rfl⟩
      obtain ⟨t1, t2, t3, t4, t5⟩ := t1
      have hstem : r.subs.map (fun nc => stem nc.1) = c.subs.map (fun nc => stem nc.1) := by
        have e1 : ∀ d : Dict String (Comp V D), d.map (fun nc => stem nc.1) =
            (Dict.keys d).map stem := by intro d; simp [Dict.keys]
        rw [e1, e1, r4, b4, hdeps]
      have hok : Dict.Ok r.subs := by unfold Dict.Ok; rw [r4, b4]; exact hnd
      have hget : ∀ n s, (n, s) ∈ r.subs → Dict.get? st.subs n = some s := by
        intro n s hm; rw [← r4]; exact Dict.get?_of_mem hok hm
      refine Saveable.mk r _ r1 r2 r6 ?_ ?_ ?_ ?_ ?_ ?_ ?_ ?_ ?_
      · simp only; rw [t1, hcls, r3]
      · simp only; rw [t2, hver]
      · cases hwf with
        | mk _ w1 w2 w3 w4 w5 w6 w7 =>
        refine WF.mk _ ?_ ?_ ?_ ?_ ?_ ?_ hwf'
        · simp only; rw [t3]; exact w1
        · unfold Dict.Ok; simp only; rw [r5]; exact w2
        · simp only; rw [t4]; exact w3
        · unfold Dict.Ok; simp only; rw [b3]; exact w4
        · intro k hk; simp only at hk ⊢; rw [t3] at hk; rw [r5]; exact w5 k hk
        · intro n hn; simp only at hn ⊢; rw [t5] at hn; rw [b3]; exact w6 n hn
      · simp only; rw [t3]
      · simp only; rw [t5, r4, b4]
      · rw [hstem]; exact hnodup
      · intro n s hm
        have : n ∈ Dict.keys c.subs := by
          rw [← hdeps, ← b4, ← r4]; exact List.mem_map.2 ⟨(n, s), hm, rfl⟩
        obtain ⟨s', hs'⟩ := mem_of_keys_eq this
        exact hfiles n s' hs'
      · intro n s hm
        obtain ⟨-, u2, u3⟩ := huse n s (hget n s hm)
        exact ⟨u2, u3⟩
      · intro n s hm
        exact (huse n s (hget n s hm)).1
    have hstconf : st.conf = ⟨{ st.conf.dict with mutable := conf1.dict.mutable },
        conf1.dict.settings.update conf1.dict.mutable⟩ := by
      rw [b1]; simp only; rw [← hconfig]
    have hobjc : obj.conf = some st.conf := by rw [hobj]
    have hobjs : obj.subs = st.subs := by rw [hobj]
    have hobja : obj.attrs = [] := by rw [hobj]; rfl
    have hobjcls : obj.cls = c.cls := by rw [hobj, ← hclsc]; rfl
    by_cases hu : st.updated = []
    · rw [hu1 hu]
      exact ⟨hfinal _ conf1.dict.mutable rfl hobja hobjcls hobjs rfl
        (by simp only; rw [hobjc]; exact congrArg some hstconf), hobjcls⟩
    · obtain ⟨e1, e2⟩ := hu2 hu
      rw [e2]
      obtain ⟨g1, g2, g3, g4⟩ := hhook obj st.updated e1
      refine ⟨?_, g1.trans hobjcls⟩
      rcases g4 st.conf hobjc with g4 | ⟨m, g5, g6⟩
      · exact hfinal _ conf1.dict.mutable rfl (g3.trans hobja) (g1.trans hobjcls) (g2.trans hobjs) rfl
          (by simp only; rw [g4]; exact congrArg some hstconf)
      have t3 : st.conf.dict.settings = conf1.dict.settings ∧
          st.conf.dict.mutable = conf1.dict.mutable := by rw [b1]; exact ⟨rfl, rfl⟩
      refine hfinal _ m rfl (g3.trans hobja) (g1.trans hobjcls) (g2.trans hobjs) ?_ ?_
      · rw [g5, t3.2]
      · simp only; rw [g6, ← t3.1]

end Verif.Component
