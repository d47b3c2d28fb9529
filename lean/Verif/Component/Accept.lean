/- Helper lemmas for C09: replacements that fit are accepted. -/
import Verif.Component.Resave

namespace Verif.Component
open Verif.Py
variable {V D : Type}

theorem loadOne_accepts [DecidableEq V] (L : LoadEnv V D)
    (rec : Comp V D → Path → String → Dict String (Mod V D) → LoadResult V D)
    (dir : Path) (st : LoopState V D) (name : String) (rd : Cfg V) (x : Comp V D)
    (hnew : name ∉ st.updated) (hrd : Dict.get? st.conf.dict.subs name = some rd)
    (hknown : L.known rd.cls = true)
    (herr : (rec (Comp.fresh rd.cls) dir name (nestedFor st.mods name)).err = none)
    (hobj : (rec (Comp.fresh rd.cls) dir name (nestedFor st.mods name)).obj = x)
    (hx : x.configured = true ∧ ∃ xc, x.conf = some xc)
    (hcomp : ∀ m, Dict.get? st.mods name = some (.comp m) → m.configured = true ∧
      (∃ mc, m.conf = some mc) ∧
      (name ∈ st.conf.dict.muts ∨ x.isCompatible m = .ok true)) :
    (loadOne L rec dir st name).2 = none := by
  obtain ⟨subs, conf, mods, updated⟩ := st
  simp only at hnew hrd herr hobj hcomp
  have hkey : name ∈ Dict.keys conf.dict.subs :=
    (Dict.get?_isSome_iff _ _).1 (by rw [hrd]; rfl)
  have hreplace : ∀ c : Comp V D, c.configured = true → (∃ cc, c.conf = some cc) →
      (conf.replaceSubs [(name, c.toSubArg)]).2 = none := by
    rintro c h1 ⟨cc, h2⟩
    refine (C04_replace_sub_components conf [(name, c.toSubArg)]
      (by simp [Dict.Ok, Dict.keys])).1.2 ?_
    intro n a hm
    simp only [List.mem_singleton, Prod.mk.injEq] at hm
    obtain ⟨rfl, rfl⟩ := hm
    exact ⟨hkey, cc.dict, by simp [Comp.toSubArg, h1, h2]⟩
  have hnest : (takeNested mods updated name).1 = nestedFor mods name := by
    unfold takeNested nestedFor
    rcases Dict.get? mods name with _ | (m | d) <;> rfl
  unfold loadOne
  simp only [hnest, hrd, hknown, Bool.not_true, Bool.false_eq_true, if_false, herr, hobj]
  cases e3 : Dict.get? mods name with
  | none =>
    have ht : takeNested mods updated name = ([], mods, updated) := by simp [takeNested, e3]
    simp [ht, storeLoaded, hnew, storeReplacement, e3]
  | some md =>
    cases md with
    | nested nd =>
      have ht : takeNested mods updated name = (nd, pop mods name, updated ++ [name]) := by
        simp [takeNested, e3]
      have hpop : Dict.get? (pop mods name) name = none := by rw [get?_pop, if_pos rfl]
      have := hreplace x hx.1 hx.2
      simp only [ht, storeLoaded, List.contains_eq_mem, List.mem_append, List.mem_singleton,
        or_true, decide_true, if_true, this, storeReplacement, hpop]
    | comp m =>
      obtain ⟨m1, m2, m3⟩ := hcomp m e3
      have ht : takeNested mods updated name = ([], mods, updated) := by simp [takeNested, e3]
      have hc : updated.contains name = false := by simpa using hnew
      have hcompat : (if conf.dict.muts.contains name = true then Except.ok true
          else x.isCompatible m) = .ok true := by
        rcases m3 with m3 | m3
        · rw [if_pos (by simpa using m3)]
        · rw [m3]; split <;> rfl
      have := hreplace m m1 m2
      simp only [ht, storeLoaded, hc, Bool.false_eq_true, if_false, storeReplacement, e3, m1,
        Bool.not_true, hcompat, this]

theorem loadLoop_accepts [DecidableEq V] (L : LoadEnv V D)
    (rec : Comp V D → Path → String → Dict String (Mod V D) → LoadResult V D)
    (dir : Path) (st : LoopState V D) (names : List String) (hnd : names.Nodup)
    (hnew : ∀ n, n ∈ names → n ∉ st.updated)
    (hone : ∀ n ∈ names, ∃ rd x, Dict.get? st.conf.dict.subs n = some rd ∧
      L.known rd.cls = true ∧
      (rec (Comp.fresh rd.cls) dir n (nestedFor st.mods n)).err = none ∧
      (rec (Comp.fresh rd.cls) dir n (nestedFor st.mods n)).obj = x ∧
      (x.configured = true ∧ ∃ xc, x.conf = some xc) ∧
      ∀ m, Dict.get? st.mods n = some (.comp m) → m.configured = true ∧
        (∃ mc, m.conf = some mc) ∧ (n ∈ st.conf.dict.muts ∨ x.isCompatible m = .ok true)) :
    (loadLoop L rec dir st names).2 = none := by
  induction names generalizing st with
  | nil => rfl
  | cons n0 rest ih =>
    rw [List.nodup_cons] at hnd
    obtain ⟨rd, x, o1, o2, o3, o4, o5, o6⟩ := hone n0 (by simp)
    have h0 := loadOne_accepts L rec dir st n0 rd x (hnew n0 (by simp)) o1 o2 o3 o4 o5 o6
    rcases h1 : loadOne L rec dir st n0 with ⟨st1, _ | e⟩
    · obtain ⟨s, ok⟩ := loadOne_spec L rec dir st st1 n0 (hnew n0 (by simp)) h1
      rw [loadLoop, h1]
      simp only
      apply ih st1 hnd.2
      · intro n hn hu
        rcases ok.hupd.2.2 n hu with h | h
        · exact hnew n (by simp [hn]) h
        · exact hnd.1 (h ▸ hn)
      · intro n hn
        have hne : n ≠ n0 := by rintro rfl; exact hnd.1 hn
        have hm1 : Dict.get? st1.mods n = Dict.get? st.mods n := by rw [ok.hmods, if_neg hne]
        have hn1 : nestedFor st1.mods n = nestedFor st.mods n := by unfold nestedFor; rw [hm1]
        have := hone n (by simp [hn])
        rw [ok.hotherc n hne, hn1, hm1, ok.hmuts]
        exact this
    · rw [h1] at h0; simp at h0

theorem load_accepts [DecidableEq V] (L : LoadEnv V D) (fs : FS V D)
    (hhook : HookKeeps L.update) (hok : ∀ c names, (L.update c names).2 = none)
    (c : Comp V D) (hsv : Saveable L.env L.known c) :
    ∀ (k : Nat) (parent : Path) (name : String) (mods : Dict String (Mod V D)), DepthLe c k →
      Stored fs (parent ++ [stem name]) c → Fitting c mods →
      (∀ n m r, (n, m) ∈ mods → Replaces r m →
        Saveable L.env L.known r ∧ L.known r.cls = true) →
      (load L fs k (Comp.fresh c.cls) parent name mods).err = none := by
  induction hsv with
  | mk c conf hcfg hattrs hconf hcls hver hwf hconfig hdeps hnodup hfiles hrecord hrec ih =>
    intro k parent name mods hd hst hfit hmods
    cases hd with
    | mk _ k hd =>
    have hst0 := hst
    cases hst with
    | mk _ _ conf' hconf' h1 h2 h3 =>
    rw [hconf] at hconf'
    cases hconf'
    cases hfit with
    | mk _ conf' _ hconf' f1 f2 f3 =>
    rw [hconf] at hconf'
    cases hconf'
    have hinit : Conf.init L.env (some conf.dict.sha) conf.dict = .ok conf := by
      simp only [Conf.init, hwf.checkNames, hwf.combine, bind, Except.bind]
      obtain ⟨⟨⟩, config⟩ := conf
      simp only [Option.getD_some, Except.ok.injEq, Conf.mk.injEq, Cfg.mk.injEq, and_true]
        at hver hconfig ⊢
      exact ⟨hver.symm, hconfig.symm⟩
    have hkeys : (Dict.keys c.subs).Nodup := by
      have : (c.subs.map (fun nc => stem nc.1)) = (Dict.keys c.subs).map stem := by
        simp [Dict.keys]
      rw [this] at hnodup
      exact List.Pairwise.of_map stem (fun a b h => fun hab => h (by rw [hab])) hnodup
    have hloop : (loadLoop L (load L fs k) (parent ++ [stem name]) ⟨[], conf, mods, []⟩
        conf.dict.deps).2 = none := by
      apply loadLoop_accepts
      · rw [hdeps]; exact hkeys
      · simp
      · intro n hn
        rw [hdeps] at hn
        obtain ⟨s, hs⟩ := mem_of_keys_eq hn
        obtain ⟨r1, rd, r2, r3⟩ := hrecord n s hs
        have hnm : ∀ n' m r, (n', m) ∈ nestedFor mods n → Replaces r m →
            Saveable L.env L.known r ∧ L.known r.cls = true := by
          intro n' m' r hm' hr
          unfold nestedFor at hm'
          split at hm'
          · rename_i d' hd'
            exact hmods n _ r (Dict.mem_of_get? hd') (Replaces.inside d' n' m' hm' hr)
          · simp at hm'
        have hfits : Fitting s (nestedFor mods n) := by
          unfold nestedFor
          split
          · rename_i d' hd'; exact f3 n d' s hd' hs
          · cases hrec n s hs with
            | mk _ sc _ _ hsc =>
              exact Fitting.mk s sc [] hsc (by simp [Dict.keys]) (by simp) (by simp)
        have herr := ih n s hs k (parent ++ [stem name]) n (nestedFor mods n) (hd n s hs)
          (h3 n s hs) hfits hnm
        obtain ⟨q1, q2⟩ := load_saveable L fs hhook s (hrec n s hs) k s.cls
          (parent ++ [stem name]) n (nestedFor mods n) (h3 n s hs) hnm herr
        refine ⟨rd, _, r2, by rw [r3]; exact r1, by rw [r3]; exact herr, rfl, ?_, ?_⟩
        · rw [r3]
          cases q1 with
          | mk _ xc x1 _ x2 => exact ⟨x1, xc, x2⟩
        · intro m hm
          simp only at hm
          obtain ⟨m1, mc, m2, m3, m4⟩ := f2 n m s hm hs
          refine ⟨m1, ⟨mc, m2⟩, ?_⟩
          rcases m4 with m4 | ⟨m4, sc, m5, m6⟩
          · exact Or.inl m4
          · right
            have hnest : nestedFor mods n = [] := by unfold nestedFor; rw [hm]
            rw [hnest, r3, load_stored L fs s (hrec n s hs) k (parent ++ [stem name]) n
              (hd n s hs) (h3 n s hs)]
            unfold Comp.isCompatible
            rw [if_neg (by simpa using m4), m5, m2]
            simp only
            have hswf := ((hrec n s hs).conf_spec m5).2
            rcases C03_is_compatible_decides _ _ hswf m3 with e | e
            · exact e.1
            · exact absurd m6 e.2
    rcases hl : loadLoop L (load L fs k) (parent ++ [stem name]) ⟨[], conf, mods, []⟩
        conf.dict.deps with ⟨st, _ | e⟩
    · obtain ⟨saved, -, -, -, a4, -⟩ :=
        loadLoop_spec L _ _ _ _ _ (by rw [hdeps]; exact hkeys) (by simp) hl
      simp only at a4
      have hempty : st.mods = [] := by
        rcases hs : st.mods with _ | ⟨⟨n, m⟩, rest⟩
        · rfl
        · have := a4 n
          rw [hs, Dict.get?_cons, if_pos rfl] at this
          split at this
          · cases this
          · rename_i hn
            exfalso
            apply hn
            rw [hdeps]
            exact f1 n ((Dict.get?_isSome_iff _ _).1 (by rw [← this]; rfl))
      rw [load]
      simp only [Comp.fresh, Bool.false_eq_true, if_false, ne_eq, not_true_eq_false, h1, h2, hinit,
        hver, hcls, hl, hempty]
      cases c.data with
      | none =>
        simp only
        by_cases hu : st.updated = []
        · simp [hu]
        · simp [hu, hok]
      | some x =>
        simp only
        by_cases hu : st.updated = []
        · simp [hu]
        · simp [hu, hok]
    · rw [hl] at hloop; simp at hloop

/-- Only replacements that fit are accepted. -/
theorem load_fitting [DecidableEq V] (L : LoadEnv V D) (fs : FS V D) (c : Comp V D)
    (hsv : Saveable L.env L.known c) :
    ∀ (k : Nat) (cls : String) (parent : Path) (name : String) (mods : Dict String (Mod V D)),
      DepthLe c k → Stored fs (parent ++ [stem name]) c →
      (∀ n m r, (n, m) ∈ mods → Replaces r m →
        Saveable L.env L.known r ∧ L.known r.cls = true) →
      (load L fs k (Comp.fresh cls) parent name mods).err = none → Fitting c mods := by
  induction hsv with
  | mk c conf hcfg hattrs hconf hcls hver hwf hconfig hdeps hnodup hfiles hrecord hrec ih =>
    intro k cls parent name mods hd hst hmods h
    cases hd with
    | mk _ k hd =>
    cases hst with
    | mk _ _ conf' hconf' h1 h2 h3 =>
    rw [hconf] at hconf'
    cases hconf'
    have hinit : Conf.init L.env (some conf.dict.sha) conf.dict = .ok conf := by
      simp only [Conf.init, hwf.checkNames, hwf.combine, bind, Except.bind]
      obtain ⟨⟨⟩, config⟩ := conf
      simp only [Option.getD_some, Except.ok.injEq, Conf.mk.injEq, Cfg.mk.injEq, and_true]
        at hver hconfig ⊢
      exact ⟨hver.symm, hconfig.symm⟩
    have hkeys : (Dict.keys c.subs).Nodup := by
      have : (c.subs.map (fun nc => stem nc.1)) = (Dict.keys c.subs).map stem := by
        simp [Dict.keys]
      rw [this] at hnodup
      exact List.Pairwise.of_map stem (fun a b h => fun hab => h (by rw [hab])) hnodup
    obtain ⟨k', d, data, conf1, st, obj, hk, -, -, hf1, -, -, hinit', -, -, hloop, -, hmods',
      -, -⟩ := load_success L fs (k + 1) (Comp.fresh cls) parent name mods h
    have : k' = k := by omega
    subst this
    rw [h1] at hf1
    cases hf1
    rw [hinit] at hinit'
    cases hinit'
    obtain ⟨saved, a1, -, -, a4, -, -, -, -, a9, -⟩ :=
      loadLoop_spec L _ _ _ _ _ (by rw [hdeps]; exact hkeys) (by simp) hloop
    simp only at a1 a4 a9
    have hcls : ∀ n s cls', (n, s) ∈ c.subs → ∀ x,
        (load L fs k' (Comp.fresh cls') (parent ++ [stem name]) n x).err = none →
        cls' = s.cls := by
      intro n s cls' hs x he
      obtain ⟨_, ds, _, confs, _, _, -, -, -, g1, -, -, g2, -, g3, -⟩ :=
        load_success L fs k' (Comp.fresh cls') _ n _ he
      have hs3 := h3 n s hs
      cases hs3 with
      | mk _ _ sc hsc t1 _ _ =>
      rw [t1] at g1
      cases g1
      have : confs.dict.cls = sc.dict.cls := by
        simp only [Conf.init, bind, Except.bind] at g2
        split at g2
        · cases g2
        · split at g2
          · cases g2
          · cases g2; rfl
      rw [← ((hrec n s hs).conf_spec hsc).1, ← this, g3]
      rfl
    refine Fitting.mk c conf mods hconf ?_ ?_ ?_
    · intro n hn
      by_cases hm : n ∈ conf.dict.deps
      · rw [← hdeps]; exact hm
      · have := a4 n
        rw [hmods', if_neg hm] at this
        exact absurd hn ((Dict.get?_eq_none_iff _ _).1 this.symm)
    · intro n m s hm hs
      have hn : n ∈ conf.dict.deps := by rw [hdeps]; exact List.mem_map.2 ⟨(n, s), hs, rfl⟩
      obtain ⟨-, e2, e3⟩ := a9 n m hn hm
      have hmsv := (hmods n _ m (Dict.mem_of_get? hm) Replaces.here).1
      cases hmsv with
      | mk _ mc _ _ hmc _ _ hmwf =>
      refine ⟨e2, mc, hmc, hmwf, ?_⟩
      rcases e3 with e3 | e3
      · exact Or.inl e3
      · right
        obtain ⟨cls', l1, l2⟩ := a1 n hn
        have hnest : nestedFor mods n = [] := by unfold nestedFor; rw [hm]
        rw [hnest] at l1 l2
        obtain rfl := hcls n s cls' hs _ l1
        rw [load_stored L fs s (hrec n s hs) k' _ n (hd n s hs) (h3 n s hs)] at l2
        simp only at l2
        rw [← l2] at e3
        obtain ⟨p1, sc, mc', p2, p3, p4⟩ := isCompatible_ok_true e3
        rw [hmc] at p3
        cases p3
        exact ⟨p1, sc, p2, p4 ((hrec n s hs).conf_spec p2).2 hmwf⟩
    · intro n d s hm hs
      have hn : n ∈ conf.dict.deps := by rw [hdeps]; exact List.mem_map.2 ⟨(n, s), hs, rfl⟩
      obtain ⟨cls', l1, -⟩ := a1 n hn
      have hnest : nestedFor mods n = d := by unfold nestedFor; rw [hm]
      rw [hnest] at l1
      refine ih n s hs k' cls' _ n d (hd n s hs) (h3 n s hs) ?_ l1
      intro n' m' r hm' hr
      exact hmods n _ r (Dict.mem_of_get? hm) (Replaces.inside d n' m' hm' hr)

end Verif.Component
