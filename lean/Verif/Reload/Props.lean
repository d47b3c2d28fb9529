/-
Properties C121 and C122: components after loading, and optional arguments of sources.
-/
import Verif.Reload.Spec
import Verif.Component.ObjectProps

namespace Verif.Reload
open Verif.Py Verif.Component

variable {V D F : Type} [DecidableEq V]

/-! ### Lemmas -/

omit [DecidableEq V] in
theorem newConf_two (E : Env) (cls : String) (a b : V) :
    newConf E cls [("config", a)] [("name", b)] =
      .ok ⟨⟨E.version, E.sha, cls, [], [("config", a)], [("name", b)], [], [], []⟩,
        [("config", a), ("name", b)]⟩ := by
  simp [newConf, Conf.init, checkNames, combineSettings, bind, Except.bind, Dict.keys, Dict.has,
    Dict.update, Dict.set, Dict.get?]

omit [DecidableEq V] in
theorem itemComps_map (base : List (String × Comp V D)) :
    itemComps (base.map fun nc => (nc.1, Item.comp nc.2)) = some base := by
  induction base with
  | nil => rfl
  | cons x rest ih =>
    obtain ⟨n, c⟩ := x
    simp only [List.map_cons, itemComps, ih, Option.map_some]

omit [DecidableEq V] in
theorem itemComps_keys (items : List (String × Item V D)) (base : List (String × Comp V D))
    (h : itemComps items = some base) : Dict.keys base = Dict.keys items := by
  induction items generalizing base with
  | nil => cases h; rfl
  | cons x rest ih =>
    obtain ⟨n, c | v⟩ := x
    · simp only [itemComps] at h
      cases hr : itemComps rest with
      | none => rw [hr] at h; cases h
      | some b =>
        rw [hr] at h
        cases h
        simp only [Dict.keys, List.map_cons]
        exact congrArg _ (ih b hr)
    · cases h

theorem get_map_key {α β : Type} (l : List (String × α)) (f : String → β) (n : String)
    (h : n ∈ Dict.keys l) : Dict.get? (l.map fun nc => (nc.1, f nc.1)) n = some (f n) := by
  induction l with
  | nil => cases h
  | cons x rest ih =>
    rw [List.map_cons, Dict.get?_cons]
    by_cases e : x.1 = n
    · simp [e]
    · simp only [e, if_false]
      refine ih ?_
      simp only [Dict.keys, List.map_cons, List.mem_cons] at h
      rcases h with h | h
      · exact absurd h.symm e
      · exact h

omit [DecidableEq V] in
theorem set_append {α : Type} (d : Dict String α) (k : String) (v : α) (h : k ∉ Dict.keys d) :
    Dict.set d k v = d ++ [(k, v)] := by
  induction d with
  | nil => rfl
  | cons x rest ih =>
    obtain ⟨k', v'⟩ := x
    simp only [Dict.keys, List.map_cons, List.mem_cons, not_or] at h
    rw [Dict.set, if_neg (Ne.symm h.1), ih h.2]
    rfl

/-- The configuration of a source or multi source as its class makes it. -/
def sourceConf (E : Env) (cls : String) (config name : V) : Conf V :=
  ⟨⟨E.version, E.sha, cls, [], [("config", config)], [("name", name)], [], [], []⟩,
    [("config", config), ("name", name)]⟩

theorem source_inv {E : Env} {C : Containers V} {P : Vals V} {cls : String} {trees : String → Tree V F}
    {kwargs : Dict String (Arg V D)} {build : V → V → Except Err (List String)} {own : Own V F}
    {conf : Conf V} {data : MaybeDict (Dict String D)} {subs : MaybeDict (Dict String (Comp V D))}
    (h : call E C P cls trees kwargs (.source build) = .ok (own, conf, data, subs)) :
    signature kwargs ["config", "data_trafo"] ["name"] = true ∧ ∃ config given name names trafo,
      (Dict.get? kwargs "config").bind (Arg.val? C) = some config ∧
      Dict.get? kwargs "data_trafo" = some (.comp trafo) ∧
      ((Dict.get? kwargs "name").getD (.plain P.none)).val? C = some given ∧
      name = (if given = P.none then P.str "egenerator.model.source.base" else given) ∧
      build config name = .ok names ∧ own = .source name names ∧ conf = sourceConf E cls config name ∧
      data = .dict [] ∧ subs = .dict [("data_trafo", trafo)] := by
  rw [call] at h
  split at h
  · cases h
  · rename_i hs
    refine ⟨by simpa using hs, ?_⟩
    split at h
    · rename_i config trafo given h1 h2 h3
      simp only [newConf_two] at h
      cases hb : build config (if given = P.none then P.str "egenerator.model.source.base" else given) with
      | error e => rw [hb] at h; cases h
      | ok names =>
        rw [hb] at h
        cases h
        exact ⟨config, given, _, names, trafo, h1, h2, h3, rfl, hb, rfl, rfl, rfl, rfl⟩
    · cases h

theorem multi_inv {E : Env} {C : Containers V} {P : Vals V} {cls : String} {trees : String → Tree V F}
    {kwargs : Dict String (Arg V D)}
    {build : V → List (String × Tree V F) → Except Err (List String × Dict String String)} {own : Own V F}
    {conf : Conf V} {data : MaybeDict (Dict String D)} {subs : MaybeDict (Dict String (Comp V D))}
    (h : call E C P cls trees kwargs (.multi build) = .ok (own, conf, data, subs)) :
    signature kwargs ["base_sources", "config"] ["data_trafo", "name"] = true ∧
    ∃ config given name items base names sources,
      (Dict.get? kwargs "config").bind (Arg.val? C) = some config ∧
      Dict.get? kwargs "base_sources" = some (.dict items) ∧ itemComps items = some base ∧
      ((Dict.get? kwargs "name").getD (.plain P.none)).val? C = some given ∧
      name = (if given = P.none then P.str "egenerator.model.multi_source.base" else given) ∧
      build config (base.map fun nc => (nc.1, trees nc.1)) = .ok (names, sources) ∧
      own = .multi name names sources ∧ conf = sourceConf E cls config name ∧ data = .dict [] ∧
      ((∃ trafo, Dict.get? kwargs "data_trafo" = some (.comp trafo) ∧
        subs = .dict (Dict.set base "data_trafo" trafo)) ∨
       ((∀ t, Dict.get? kwargs "data_trafo" ≠ some (.comp t)) ∧
        ((Dict.get? kwargs "data_trafo").getD (.plain P.none)).val? C = some P.none ∧
        subs = .dict base)) := by
  rw [call] at h
  split at h
  · cases h
  · rename_i hs
    refine ⟨by simpa using hs, ?_⟩
    split at h
    · rename_i config items given h1 h2 h3
      simp only [newConf_two] at h
      split at h
      · cases h
      · rename_i base hbase
        cases hb : build config (base.map fun nc => (nc.1, trees nc.1)) with
        | error e => rw [hb] at h; cases h
        | ok r =>
          obtain ⟨names, sources⟩ := r
          rw [hb] at h
          simp only at h
          refine ⟨config, given, _, items, base, names, sources, h1, h2, hbase, h3, rfl, hb, ?_⟩
          split at h
          · rename_i trafo ht
            cases h
            refine ⟨rfl, rfl, rfl, .inl ⟨trafo, ?_, rfl⟩⟩
            cases hd : Dict.get? kwargs "data_trafo" with
            | none => rw [hd] at ht; cases ht
            | some a => rw [hd] at ht; exact congrArg some ht
          · rename_i other ho
            split at h
            · rename_i hv
              cases h
              refine ⟨rfl, rfl, rfl, .inr ⟨fun t ht => ho t ?_, hv, rfl⟩⟩
              rw [ht]; rfl
            · cases h
    · cases h

/-- The sub components that a class returns. -/
def subsOf : MaybeDict (Dict String (Comp V D)) → Dict String (Comp V D)
  | .dict d => d
  | _ => []

/-- What a successful `configure` leaves, in terms of what the class returned. -/
theorem configure_inv {C : Containers V} {hk : Hook V D} {cls : String} {kwargs : Dict String (Arg V D)}
    {c : Comp V D} (h : (Comp.fresh cls).configure C hk kwargs = (c, none)) {conf : Conf V}
    {data : MaybeDict (Dict String D)} {subs : MaybeDict (Dict String (Comp V D))}
    (hh : hk kwargs = .ok (conf, data, subs)) :
    c.cls = cls ∧ c.subs = subsOf subs ∧
    ∃ cc, c.conf = some cc ∧ cc.config = conf.config := by
  obtain ⟨-, -, missing, params, conf0, data', subs', conf1, d, -, h2, -, h4, -, -, -, -, h8⟩ :=
    configure_success C hk (Comp.fresh cls) kwargs (by rw [h])
  rw [hh] at h2
  cases h2
  rw [h] at h8
  simp only at h8
  subst h8
  refine ⟨rfl, (by cases subs <;> rfl), _, rfl, ?_⟩
  have := congrArg Prod.fst h4
  simp only [Conf.addSubs] at this
  rw [← this]

theorem hook_of_call {E : Env} {C : Containers V} {P : Vals V} {cls : String} {trees : String → Tree V F}
    {kind : Kind V D F} {kwargs : Dict String (Arg V D)} {own : Own V F}
    {conf : Conf V} {data : MaybeDict (Dict String D)} {subs : MaybeDict (Dict String (Comp V D))}
    (h : call E C P cls trees kwargs kind = .ok (own, conf, data, subs)) :
    hook E C P cls trees kind kwargs = .ok (conf, data, subs) := by
  simp only [hook, h]

theorem reloadAll_ok {E : Env} {C : Containers V} {P : Vals V} {kinds : String → Kind V D F}
    (trees : String → Tree V F) (subs : List (String × Comp V D))
    (h : ∀ n s, (n, s) ∈ subs → reload E C P kinds s = .ok (trees n)) :
    reloadAll E C P kinds subs = .ok (subs.map fun nc => (nc.1, trees nc.1)) := by
  induction subs with
  | nil => rfl
  | cons x rest ih =>
    obtain ⟨n, c⟩ := x
    rw [reloadAll, h n c (List.mem_cons_self ..)]
    simp only
    rw [ih fun n s hs => h n s (List.mem_cons_of_mem _ hs)]
    rfl

theorem reload_sources {E : Env} {C : Containers V} {P : Vals V} (hP : ∀ s, P.str s ≠ P.none)
    {kinds : String → Kind V D F} {c : Comp V D} {t : Tree V F} (h : Built E C P kinds SourceArgs c t) :
    reload E C P kinds c = .ok t := by
  induction h with
  | mk cls kwargs trees c own conf data subs hcall hconf hq hsubs ih =>
    obtain ⟨h1, h2, cc, h3, h4⟩ := configure_inv hconf (hook_of_call hcall)
    obtain ⟨ccls, cconfigured, cconf, cdata, csubs, cattrs⟩ := c
    simp only at h1 h2 h3 ih
    subst h1 h3
    rw [reload, reloadAll_ok trees csubs ih]
    simp only
    have key : reloadOwn E C P ccls (some cc) csubs (csubs.map fun nc => (nc.1, trees nc.1))
        (kinds ccls) = .ok own := by
      cases hk : kinds ccls with
      | other hk' =>
        rw [hk, call] at hcall
        split at hcall
        · cases hcall
        · cases hcall; rfl
      | source build =>
        rw [hk] at hcall
        obtain ⟨-, config, given, name, names, trafo, -, -, -, hn, hb, rfl, rfl, -, rfl⟩ :=
          source_inv hcall
        simp only [subsOf] at h2
        subst h2
        have hne : name ≠ P.none := by
          rw [hn]; split
          · exact hP _
          · assumption
        have ha : sourceArgs cc.config [("data_trafo", trafo)] =
            [("config", .plain config), ("name", .plain name), ("data_trafo", .comp trafo)] := by
          rw [h4]
          simp [sourceArgs, sourceConf, Dict.update, Dict.set]
        have hs : signature [("config", Arg.plain config), ("name", .plain name),
            ("data_trafo", Arg.comp trafo)] ["config", "data_trafo"] ["name"] = true := by
          simp [signature, Dict.keys, Dict.has, Dict.get?]
        simp only [reloadOwn, Option.map_some, Option.getD_some, ha, call, hs, Bool.not_true,
          Bool.false_eq_true, if_false, Dict.get?, String.reduceEq, if_true, Option.bind_some, Arg.val?,
          if_neg hne, hb, newConf_two]
      | multi build =>
        rw [hk] at hcall hq
        obtain ⟨⟨t, ht⟩, hbn⟩ := hq
        obtain ⟨-, config, given, name, items, base, names, sources, -, hbase, hitems, -, hn, hb, rfl,
          rfl, -, hsub⟩ := multi_inv hcall
        obtain ⟨trafo, rfl⟩ : ∃ trafo, subs = .dict (Dict.set base "data_trafo" trafo) := by
          rcases hsub with ⟨trafo, -, h⟩ | ⟨hno, -⟩
          · exact ⟨trafo, h⟩
          · exact absurd ht (hno t)
        have hnot : "data_trafo" ∉ Dict.keys base := by
          rw [itemComps_keys items base hitems]; exact hbn items hbase
        simp only [subsOf] at h2
        rw [set_append _ _ _ hnot] at h2
        subst h2
        have hne : name ≠ P.none := by
          rw [hn]; split
          · exact hP _
          · assumption
        have hg : Dict.get? (base ++ [("data_trafo", trafo)]) "data_trafo" = some trafo := by
          rw [← set_append _ _ _ hnot, Dict.get?_set, if_pos rfl]
        have hf : (base ++ [("data_trafo", trafo)]).filter (fun nc => nc.1 ≠ "data_trafo") = base := by
          rw [List.filter_append, List.filter_eq_self.2]
          · simp
          · intro x hx
            simp only [ne_eq, decide_not, Bool.not_eq_true', decide_eq_false_iff_not]
            rintro e
            exact hnot (List.mem_map.2 ⟨x, hx, e⟩)
        have ha : multiArgs cc.config (base ++ [("data_trafo", trafo)]) trafo =
            [("data_trafo", .comp trafo), ("base_sources", .dict (base.map fun nc => (nc.1, .comp nc.2))),
              ("config", .plain config), ("name", .plain name)] := by
          rw [multiArgs, hf, h4]
          rfl
        have hs : signature [("data_trafo", Arg.comp trafo),
            ("base_sources", .dict (base.map fun nc => (nc.1, Item.comp nc.2))),
            ("config", .plain config), ("name", .plain name)] ["base_sources", "config"]
            ["data_trafo", "name"] = true := by
          simp [signature, Dict.keys, Dict.has, Dict.get?]
        have hmap : (base.map fun nc => (nc.1, (Dict.get? ((base ++ [("data_trafo", trafo)]).map
            fun nc => (nc.1, trees nc.1)) nc.1).getD (.node .nothing []))) =
            base.map fun nc => (nc.1, trees nc.1) := by
          refine List.map_congr_left fun nc hnc => ?_
          rw [get_map_key]
          · rfl
          · simp only [Dict.keys, List.map_append, List.mem_append]
            exact .inl (List.mem_map.2 ⟨nc, hnc, rfl⟩)
        simp only [reloadOwn, hg, Option.map_some, Option.getD_some, ha, call, hs, Bool.not_true,
          Bool.false_eq_true, if_false, Dict.get?, String.reduceEq, if_true, Option.bind_some, Arg.val?,
          if_neg hne, itemComps_map, hmap, hb, newConf_two]
      | loss m => rw [hk] at hq; exact hq.elim
      | prior m => rw [hk] at hq; exact hq.elim
      | losses => rw [hk] at hq; exact hq.elim
    rw [key]

/-! ### C121 -/

/-- **C121.** A component tree of sources, multi sources and components without untracked data is after
loading what it was when it was saved: besides settings, data and sub components, every source has its name
and its parameter names, and every multi source knows which base source each of its sources uses. -/
theorem C121_sources_partial {E : Env} (C : Containers V) {P : Vals V} (hP : ∀ s, P.str s ≠ P.none)
    (kinds : String → Kind V D F) (c : Comp V D) (t : Tree V F)
    (hbuilt : Built E C P kinds SourceArgs c t) (L : LoadEnv V D)
    (hsv : Saveable L.env L.known c) (overwrite allow : Bool) (fs : FS V D) (parent : Path)
    (name : String) (k : Nat) (hk : DepthLe c k)
    (hsaved : (c.save overwrite allow fs parent name).2 = none) :
    loadTree E C P kinds L (applyAll fs (c.save overwrite allow fs parent name).1) k c.cls parent name =
      .ok (c, t) := by
  rw [loadTree, C07_save_load_round_trip L c hsv overwrite allow fs parent name k hk hsaved]
  simp only [reload_sources hP hbuilt]

/-! ### Loss modules after loading -/

theorem loss_inv {E : Env} {C : Containers V} {P : Vals V} {cls : String} {trees : String → Tree V F}
    {kwargs : Dict String (Arg V D)} {m : V → Except Err F} {own : Own V F}
    {conf : Conf V} {data : MaybeDict (Dict String D)} {subs : MaybeDict (Dict String (Comp V D))}
    (h : call E C P cls trees kwargs (.loss m) = .ok (own, conf, data, subs)) :
    subsOf subs = [] ∧ ∃ f, own = .loss (some f) := by
  rw [call] at h
  split at h
  · cases h
  · split at h
    · cases h
    · split at h
      · cases h
      · split at h
        · cases h
        · cases h; exact ⟨rfl, _, rfl⟩

theorem prior_inv {E : Env} {C : Containers V} {P : Vals V} {cls : String} {trees : String → Tree V F}
    {kwargs : Dict String (Arg V D)} {m : V → Except Err F} {own : Own V F}
    {conf : Conf V} {data : MaybeDict (Dict String D)} {subs : MaybeDict (Dict String (Comp V D))}
    (h : call E C P cls trees kwargs (.prior m) = .ok (own, conf, data, subs)) :
    subsOf subs = [] ∧ ∃ f, own = .prior (some f) := by
  rw [call] at h
  split at h
  · cases h
  · split at h
    · cases h
    · split at h
      · cases h
      · split at h
        · cases h
        · cases h; exact ⟨rfl, _, rfl⟩

theorem losses_inv {E : Env} {C : Containers V} {P : Vals V} {cls : String} {trees : String → Tree V F}
    {kwargs : Dict String (Arg V D)} {own : Own V F}
    {conf : Conf V} {data : MaybeDict (Dict String D)} {subs : MaybeDict (Dict String (Comp V D))}
    (h : call E C P cls trees kwargs .losses = .ok (own, conf, data, subs)) : own = .losses := by
  rw [call] at h
  split at h
  · cases h
  · split at h
    · split at h
      · cases h
      · split at h
        · cases h
        · cases h; rfl
    · cases h

theorem reloadAll_exists {E : Env} {C : Containers V} {P : Vals V} {kinds : String → Kind V D F}
    (Q : String → Tree V F → Prop) (subs : List (String × Comp V D))
    (h : ∀ n s, (n, s) ∈ subs → ∃ t, reload E C P kinds s = .ok t ∧ Q n t) :
    ∃ ts, reloadAll E C P kinds subs = .ok ts ∧ ∀ n s, (n, s) ∈ subs → ∃ t, (n, t) ∈ ts ∧ Q n t := by
  induction subs with
  | nil => exact ⟨[], rfl, fun _ _ h => by cases h⟩
  | cons x rest ih =>
    obtain ⟨n, c⟩ := x
    obtain ⟨t, h1, h2⟩ := h n c (List.mem_cons_self ..)
    obtain ⟨ts, h3, h4⟩ := ih fun n s hs => h n s (List.mem_cons_of_mem _ hs)
    refine ⟨(n, t) :: ts, ?_, ?_⟩
    · rw [reloadAll, h1]
      simp only [h3]
    · intro n' s' hs
      rcases List.mem_cons.1 hs with e | e
      · cases e
        exact ⟨t, List.mem_cons_self .., h2⟩
      · obtain ⟨t', h5, h6⟩ := h4 n' s' e
        exact ⟨t', List.mem_cons_of_mem _ h5, h6⟩

omit [DecidableEq V] in
theorem getLosses_error {B R : Type} (combine : List R → R) (reduce sort : Bool) (x : B)
    (ts : List (String × Tree V (Bool → Bool → B → Except Err R))) (n : String)
    (t : Tree V (Bool → Bool → B → Except Err R)) (hmem : (n, t) ∈ ts)
    (h : ∃ e, getLoss combine reduce sort x t = .error e) :
    ∃ e, getLosses combine reduce sort x ts = .error e := by
  induction ts with
  | nil => cases hmem
  | cons y rest ih =>
    obtain ⟨m, u⟩ := y
    rw [getLosses]
    rcases List.mem_cons.1 hmem with e | e
    · cases e
      obtain ⟨e, he⟩ := h
      exact ⟨e, by rw [he]⟩
    · cases getLoss combine reduce sort x u with
      | error e => exact ⟨e, rfl⟩
      | ok r =>
        obtain ⟨e', he'⟩ := ih e
        exact ⟨e', by simp only [he']⟩

theorem reload_loss {B R : Type} {E : Env} {C : Containers V} {P : Vals V}
    {kinds : String → Kind V D (Bool → Bool → B → Except Err R)} {c : Comp V D}
    {t : Tree V (Bool → Bool → B → Except Err R)} (h : Built E C P kinds LossArgs c t) :
    ∃ t', reload E C P kinds c = .ok t' ∧
      (Computes t → ∀ combine reduce sort x, ∃ e, getLoss combine reduce sort x t' = .error e) := by
  induction h with
  | mk cls kwargs trees c own conf data subs hcall hconf hq hsubs ih =>
    obtain ⟨h1, h2, cc, h3, h4⟩ := configure_inv hconf (hook_of_call hcall)
    obtain ⟨ccls, cconfigured, cconf, cdata, csubs, cattrs⟩ := c
    simp only at h1 h2 h3 ih
    subst h1 h3
    cases hk : kinds ccls with
    | other m => rw [hk] at hq; exact hq.elim
    | source m => rw [hk] at hq; exact hq.elim
    | multi m => rw [hk] at hq; exact hq.elim
    | loss m =>
      rw [hk] at hcall
      obtain ⟨hs, f, rfl⟩ := loss_inv hcall
      rw [hs] at h2
      subst h2
      refine ⟨.node (.loss none) [], ?_, fun _ combine reduce sort x => ?_⟩
      · rw [reload, reloadAll]
        simp only [hk, reloadOwn]
      · rw [getLoss]
        split
        · exact ⟨_, rfl⟩
        · exact ⟨_, rfl⟩
    | prior m =>
      rw [hk] at hcall
      obtain ⟨hs, f, rfl⟩ := prior_inv hcall
      rw [hs] at h2
      subst h2
      refine ⟨.node (.prior none) [], ?_, fun _ combine reduce sort x => ?_⟩
      · rw [reload, reloadAll]
        simp only [hk, reloadOwn]
      · rw [getLoss]
        exact ⟨_, rfl⟩
    | losses =>
      rw [hk] at hcall
      obtain rfl := losses_inv hcall
      obtain ⟨ts, h5, h6⟩ := reloadAll_exists (fun n t' => Computes (trees n) →
        ∀ combine reduce sort x, ∃ e, getLoss combine reduce sort x t' = .error e) csubs ih
      refine ⟨.node .losses ts, ?_, fun hc combine reduce sort x => ?_⟩
      · rw [reload, h5]
        simp only [hk, reloadOwn]
      · cases hc with
        | losses n u _ hmem hu =>
          obtain ⟨ns, hns, he⟩ := List.mem_map.1 hmem
          cases he
          obtain ⟨t', ht', hf⟩ := h6 ns.1 ns.2 hns
          obtain ⟨e, he⟩ := getLosses_error combine reduce sort x ts _ t' ht' (hf hu combine reduce sort x)
          exact ⟨e, by rw [getLoss, he]⟩

/-- **C121 is false for loss modules.** Whatever the loss module is - with any loss function, prior, or
combination of such modules - when it was saved and loaded, which both succeed, `get_loss` raises for every
batch and all options: the loss function and the parameters of priors are untracked data that nothing
restores. -/
theorem C121_loss_violated {B R : Type} {E : Env} (C : Containers V) {P : Vals V}
    (kinds : String → Kind V D (Bool → Bool → B → Except Err R)) (c : Comp V D)
    (t : Tree V (Bool → Bool → B → Except Err R)) (hbuilt : Built E C P kinds LossArgs c t)
    (hcomp : Computes t) (L : LoadEnv V D)
    (hsv : Saveable L.env L.known c) (overwrite allow : Bool) (fs : FS V D) (parent : Path)
    (name : String) (k : Nat) (hk : DepthLe c k)
    (hsaved : (c.save overwrite allow fs parent name).2 = none) :
    ∃ t', loadTree E C P kinds L (applyAll fs (c.save overwrite allow fs parent name).1) k c.cls parent name =
        .ok (c, t') ∧
      ∀ combine reduce sort x, ∃ e, getLoss combine reduce sort x t' = .error e := by
  obtain ⟨t', h1, h2⟩ := reload_loss hbuilt
  refine ⟨t', ?_, h2 hcomp⟩
  rw [loadTree, C07_save_load_round_trip L c hsv overwrite allow fs parent name k hk hsaved]
  simp only [h1]

/-! ### C122 -/

omit [DecidableEq V] in
theorem toSubArg_of {c : Comp V D} {cc : Conf V} (h : c.configured = true) (hc : c.conf = some cc) :
    c.toSubArg = .configured cc.dict := by
  simp only [Comp.toSubArg, h, hc]

/-- **C122.** A source is configured with the settings, data transformation and name that are given, and
gets the name of the module if none is given: it records them, has the data transformation as its only sub
component, and has the parameters that its class builds for these settings and this name. -/
theorem C122_source_partial (E : Env) (C : Containers V) (P : Vals V) (cls : String)
    (trees : String → Tree V F) (build : V → V → Except Err (List String)) (config : V) (trafo : Comp V D)
    (name : Option V) (tc : Conf V) (names : List String)
    (ht : trafo.configured = true) (htc : trafo.conf = some tc) (hname : name ≠ some P.none)
    (hbuild : build config (name.getD (P.str "egenerator.model.source.base")) = .ok names) :
    let nm := name.getD (P.str "egenerator.model.source.base")
    (∃ rest, call E C P cls trees (sourceCall config trafo name) (.source build) =
      .ok (.source nm names, rest)) ∧
    (Comp.fresh cls).configure C (hook E C P cls trees (.source build)) (sourceCall config trafo name) =
      (⟨cls, true, some ⟨⟨E.version, E.sha, cls, [], [("config", config)], [("name", nm)],
          [("data_trafo", tc.dict)], ["data_trafo"], []⟩, [("config", config), ("name", nm)]⟩,
        some [], [("data_trafo", trafo)], []⟩, none) := by
  intro nm
  have hcall : call E C P cls trees (sourceCall config trafo name) (.source build) =
      .ok (.source nm names, sourceConf E cls config nm, .dict [], .dict [("data_trafo", trafo)]) := by
    cases name with
    | none =>
      have hs : signature (sourceCall config trafo none) ["config", "data_trafo"] ["name"] = true := by
        simp [sourceCall, signature, Dict.keys, Dict.has, Dict.get?]
      rw [Option.getD_none] at hbuild
      rw [call, hs]
      simp only [Bool.not_true, Bool.false_eq_true, sourceCall, List.append_nil, if_false, Dict.get?,
        String.reduceEq, if_true, Option.bind_some, Arg.val?, Option.getD_none, hbuild, newConf_two]
      rfl
    | some n =>
      have hs : signature (sourceCall config trafo (some n)) ["config", "data_trafo"] ["name"] = true := by
        simp [sourceCall, signature, Dict.keys, Dict.has, Dict.get?]
      have hn : n ≠ P.none := fun e => hname (by rw [e])
      rw [Option.getD_some] at hbuild
      rw [call, hs]
      simp only [Bool.not_true, Bool.false_eq_true, sourceCall, List.cons_append, List.nil_append, if_false,
        Dict.get?, String.reduceEq, if_true, Option.bind_some, Arg.val?, Option.getD_some, hn,
        hbuild, newConf_two]
      rfl
  refine ⟨⟨_, hcall⟩, ?_⟩
  have hcol : ∃ missing, collect (V := V) (D := D) [] [] (sourceCall config trafo name) =
      .ok (missing, [("data_trafo", trafo)]) ∧
      checkMissing C [("config", config), ("name", nm)] missing = none := by
    cases name with
    | none =>
      refine ⟨[("config", .plain config)], ?_, ?_⟩
      · simp [sourceCall, collect, ht, Dict.set]
      · simp [checkMissing, Dict.get?, Arg.val?]
    | some n =>
      refine ⟨[("config", .plain config), ("name", .plain n)], ?_, ?_⟩
      · simp [sourceCall, collect, ht, Dict.set]
      · simp [checkMissing, Dict.get?, Arg.val?, nm]
  obtain ⟨missing, hcol, hmiss⟩ := hcol
  unfold Comp.configure
  simp only [Comp.fresh, Bool.false_eq_true, if_false, ne_eq, not_true_eq_false, hcol, hook_of_call hcall,
    List.map_cons, List.map_nil, toSubArg_of ht htc, Conf.addSubs, addSubsLoop, sourceConf, Dict.has,
    Dict.get?, Option.isSome_none, Dict.set, Conf.addDependent, checkNames, Dict.keys, List.all_cons,
    List.all_nil, Option.isSome_some, Bool.and_true, if_true, List.nil_append, hmiss]

omit [DecidableEq V] in
theorem collectItems_comps (items : List (String × Comp V D)) (params : Dict String (Comp V D)) (all : Bool)
    (hc : ∀ n s, (n, s) ∈ items → s.configured = true) (hok : (Dict.keys (params ++ items)).Nodup) :
    collectItems params all (items.map fun nc => (nc.1, Item.comp nc.2)) = .ok (params ++ items, all) := by
  induction items generalizing params with
  | nil => simp [collectItems]
  | cons x rest ih =>
    obtain ⟨n, c⟩ := x
    have h1 := hc n c (List.mem_cons_self ..)
    have hn : n ∉ Dict.keys params := by
      intro hn
      simp only [Dict.keys, List.map_append, List.map_cons] at hok
      have := (List.nodup_append.1 hok).2.2 n hn n (List.mem_cons_self ..)
      exact this rfl
    simp only [List.map_cons, collectItems, h1, if_true]
    rw [set_append _ _ _ hn, ih]
    · simp
    · exact fun n s hs => hc n s (List.mem_cons_of_mem _ hs)
    · simpa using hok

omit [DecidableEq V] in
theorem addSubs_all (subs : Dict String (Comp V D)) (hok : Dict.Ok subs)
    (hc : ∀ n s, (n, s) ∈ subs → ∃ d, s.toSubArg = .configured d) :
    (addSubsLoop ([] : Dict String (Cfg V)) (subs.map fun nc => (nc.1, nc.2.toSubArg))).2 = none ∧
    (∀ n, n ∈ Dict.keys subs → n ∈ Dict.keys (addSubsLoop ([] : Dict String (Cfg V))
      (subs.map fun nc => (nc.1, nc.2.toSubArg))).1) ∧
    ∀ n s d, (n, s) ∈ subs → s.toSubArg = .configured d →
      Dict.get? (addSubsLoop ([] : Dict String (Cfg V)) (subs.map fun nc => (nc.1, nc.2.toSubArg))).1 n =
        some d := by
  have hkeys : Dict.keys (subs.map fun nm => (nm.1, nm.2.toSubArg)) = Dict.keys subs := by
    simp [Dict.keys, List.map_map, Function.comp_def]
  have hnew : Dict.Ok (subs.map fun nm => (nm.1, nm.2.toSubArg)) := by
    rw [Dict.Ok, hkeys]; exact hok
  have hadd : (addSubsLoop ([] : Dict String (Cfg V))
      (subs.map fun nm => (nm.1, nm.2.toSubArg))).2 = none := by
    rw [addSubsLoop_ok_iff _ _ hnew]
    intro n a ha
    obtain ⟨nm, hnm, he⟩ := List.mem_map.1 ha
    cases he
    obtain ⟨d, hd⟩ := hc nm.1 nm.2 hnm
    exact ⟨by simp [Dict.keys], d, hd⟩
  have hget := addSubsLoop_get ([] : Dict String (Cfg V)) _ hnew hadd
  have hval : ∀ n m d, (n, m) ∈ subs → m.toSubArg = .configured d →
      Dict.get? (addSubsLoop ([] : Dict String (Cfg V))
        (subs.map fun nm => (nm.1, nm.2.toSubArg))).1 n = some d := by
    intro n m d hnm hd
    rw [hget n]
    rw [Dict.get?_of_mem hnew (show (n, SubArg.configured d) ∈ _ from
      List.mem_map.2 ⟨(n, m), hnm, by rw [hd]⟩)]
  refine ⟨hadd, fun n hn => ?_, hval⟩
  obtain ⟨nm, hnm, rfl⟩ := List.mem_map.1 hn
  obtain ⟨d, hd⟩ := hc nm.1 nm.2 hnm
  have := hval nm.1 nm.2 d hnm hd
  exact (Dict.get?_isSome_iff _ _).1 (by rw [this]; rfl)

/-- **C122.** A multi source is configured with the base sources, settings, data transformation and name that
are given; without a name it gets that of the module, and without a data transformation it has none: it
records settings and name, its sub components are the base sources and the data transformation, whose
configurations it records, and it has the parameters and sources that its class makes of the settings and
base sources. -/
theorem C122_multi_partial (E : Env) (C : Containers V) (P : Vals V) (cls : String)
    (trees : String → Tree V F)
    (build : V → List (String × Tree V F) → Except Err (List String × Dict String String))
    (base : Dict String (Comp V D)) (config : V) (trafo : Option (Comp V D)) (name : Option V)
    (names : List String) (sources : Dict String String)
    (hok : (Dict.keys base).Nodup) (hnot : "data_trafo" ∉ Dict.keys base)
    (hconf : ∀ s, s ∈ base.map Prod.snd ++ trafo.toList → s.configured = true ∧ ∃ cc, s.conf = some cc)
    (hname : name ≠ some P.none)
    (hbuild : build config (base.map fun nc => (nc.1, trees nc.1)) = .ok (names, sources)) :
    let nm := name.getD (P.str "egenerator.model.multi_source.base")
    let subs := base ++ trafo.toList.map fun t => ("data_trafo", t)
    (∃ rest, call E C P cls trees (multiCall base config trafo name) (.multi build) =
      .ok (.multi nm names sources, rest)) ∧
    ∃ conf, (Comp.fresh cls).configure C (hook E C P cls trees (.multi build))
        (multiCall base config trafo name) = (⟨cls, true, some conf, some [], subs, []⟩, none) ∧
      conf.config = [("config", config), ("name", nm)] ∧ conf.dict.cls = cls ∧
      conf.dict.deps = Dict.keys subs ∧
      ∀ n s cc, (n, s) ∈ subs → s.conf = some cc → Dict.get? conf.dict.subs n = some cc.dict := by
  intro nm subs
  have hsig : signature (multiCall base config trafo name) ["base_sources", "config"]
      ["data_trafo", "name"] = true := by
    cases trafo <;> cases name <;> simp [multiCall, signature, Dict.keys, Dict.has, Dict.get?]
  have hg1 : Dict.get? (multiCall base config trafo name) "config" = some (.plain config) := by
    cases trafo <;> cases name <;> simp [multiCall, Dict.get?]
  have hg2 : Dict.get? (multiCall base config trafo name) "base_sources" =
      some (.dict (base.map fun nc => (nc.1, .comp nc.2))) := by
    cases trafo <;> cases name <;> simp [multiCall, Dict.get?]
  have hg3 : (Dict.get? (multiCall base config trafo name) "name").getD (.plain P.none) =
      .plain (name.getD P.none) := by
    cases trafo <;> cases name <;> simp [multiCall, Dict.get?]
  have hg4 : (Dict.get? (multiCall base config trafo name) "data_trafo").getD (.plain P.none) =
      (match trafo with | none => .plain P.none | some t => .comp t) := by
    cases trafo <;> cases name <;> simp [multiCall, Dict.get?]
  have hnm : (if name.getD P.none = P.none then P.str "egenerator.model.multi_source.base"
      else name.getD P.none) = nm := by
    cases name with
    | none => simp [nm]
    | some n =>
      have hn : n ≠ P.none := fun e => hname (by rw [e])
      simp [nm, hn]
  have hcall : call E C P cls trees (multiCall base config trafo name) (.multi build) =
      .ok (.multi nm names sources, sourceConf E cls config nm, .dict [], .dict subs) := by
    rw [call, hsig]
    simp only [Bool.not_true, Bool.false_eq_true, if_false, hg1, hg2, hg3, hg4, Option.bind_some, Arg.val?,
      itemComps_map, hnm, hbuild, newConf_two]
    cases trafo with
    | none => simp [subs, sourceConf]
    | some t => simp [subs, sourceConf, set_append _ _ _ hnot]
  refine ⟨⟨_, hcall⟩, ?_⟩
  have hsubs : (Dict.keys subs).Nodup := by
    cases trafo with
    | none => simpa [subs] using hok
    | some t =>
      simp only [subs, Option.toList_some, Dict.keys, List.map_cons, List.map_nil, List.map_append]
      rw [List.nodup_append]
      exact ⟨hok, by simp, fun a ha b hb => by
        simp only [List.mem_singleton] at hb
        rintro rfl
        exact hnot (hb ▸ ha)⟩
  have hbc : ∀ n s, (n, s) ∈ base → s.configured = true := fun n s hs =>
    (hconf s (List.mem_append.2 (.inl (List.mem_map.2 ⟨(n, s), hs, rfl⟩)))).1
  have hci := collectItems_comps base [] true hbc (by simpa using hok)
  rw [List.nil_append] at hci
  have hcol : ∃ missing, collect (V := V) (D := D) [] [] (multiCall base config trafo name) =
      .ok (missing, subs) ∧ checkMissing C [("config", config), ("name", nm)] missing = none := by
    cases trafo with
    | none =>
      cases name with
      | none =>
        refine ⟨[("config", .plain config)], ?_, ?_⟩
        · simp [multiCall, collect, hci, Dict.set, subs]
        · simp [checkMissing, Dict.get?, Arg.val?]
      | some n =>
        refine ⟨[("config", .plain config), ("name", .plain n)], ?_, ?_⟩
        · simp [multiCall, collect, hci, Dict.set, subs]
        · simp [checkMissing, Dict.get?, Arg.val?, nm]
    | some t =>
      have ht : t.configured = true := (hconf t (by simp)).1
      cases name with
      | none =>
        refine ⟨[("config", .plain config)], ?_, ?_⟩
        · simp [multiCall, collect, hci, Dict.set, subs, ht, set_append _ _ _ hnot]
        · simp [checkMissing, Dict.get?, Arg.val?]
      | some n =>
        refine ⟨[("config", .plain config), ("name", .plain n)], ?_, ?_⟩
        · simp [multiCall, collect, hci, Dict.set, subs, ht, set_append _ _ _ hnot]
        · simp [checkMissing, Dict.get?, Arg.val?, nm]
  obtain ⟨missing, hcol, hmiss⟩ := hcol
  have hsc : ∀ n s, (n, s) ∈ subs → s.configured = true ∧ ∃ cc, s.conf = some cc := by
    intro n s hs
    refine hconf s ?_
    rcases List.mem_append.1 hs with h | h
    · exact List.mem_append.2 (.inl (List.mem_map.2 ⟨(n, s), h, rfl⟩))
    · obtain ⟨t, ht, he⟩ := List.mem_map.1 h
      cases he
      exact List.mem_append.2 (.inr ht)
  obtain ⟨a1, a2, a3⟩ := addSubs_all subs hsubs fun n s hs => by
    obtain ⟨h1, cc, h2⟩ := hsc n s hs
    exact ⟨_, toSubArg_of h1 h2⟩
  have hcn : checkNames (addSubsLoop ([] : Dict String (Cfg V))
      (subs.map fun nc => (nc.1, nc.2.toSubArg))).1 (Dict.keys subs) = .ok () :=
    (checkNames_ok_iff _ _).2 a2
  refine ⟨⟨⟨E.version, E.sha, cls, [], [("config", config)], [("name", nm)],
      (addSubsLoop ([] : Dict String (Cfg V)) (subs.map fun nc => (nc.1, nc.2.toSubArg))).1,
      Dict.keys subs, []⟩, [("config", config), ("name", nm)]⟩, ?_, rfl, rfl, rfl, ?_⟩
  · unfold Comp.configure
    simp only [Comp.fresh, Bool.false_eq_true, if_false, ne_eq, not_true_eq_false, hcol,
      hook_of_call hcall, Conf.addSubs, sourceConf]
    rw [show addSubsLoop ([] : Dict String (Cfg V)) (subs.map fun nc => (nc.1, nc.2.toSubArg)) =
      ((addSubsLoop ([] : Dict String (Cfg V)) (subs.map fun nc => (nc.1, nc.2.toSubArg))).1, none) from
      Prod.ext rfl a1]
    simp only [Conf.addDependent, hcn, List.nil_append]
    simp only [checkNames, List.all_nil, if_true, hmiss]
  · intro n s cc hs hcc
    exact a3 n s cc.dict hs (toSubArg_of (hsc n s hs).1 hcc)

/-- An argument that is given as a plain value is recorded with this value, or `configure` raises. -/
theorem plain_recorded {E : Env} {C : Containers V} {P : Vals V} {cls : String}
    {trees : String → Tree V F} {kind : Kind V D F} {self : Comp V D} {kwargs : Dict String (Arg V D)}
    (hk : kwargs.Ok) (h : (self.configure C (hook E C P cls trees kind) kwargs).2 = none) (key : String)
    (v : V) (hv : Dict.get? kwargs key = some (.plain v)) :
    ∃ own conf data subs, call E C P cls trees kwargs kind = .ok (own, conf, data, subs) ∧
      Dict.get? conf.config key = some v := by
  obtain ⟨-, -, missing, params, conf0, data, subs, conf1, d, hcol, hhook, -, hadd, -, -, -, hmiss, -⟩ :=
    configure_success C _ self _ h
  obtain ⟨-, -, -, -, -, c4⟩ := collect_spec [] [] _ missing params hcol
    (by simp [Dict.Ok, Dict.keys]) (by simp [Dict.Ok, Dict.keys]) hk (by simp [Dict.keys])
  have hin := Dict.mem_of_get? ((c4 key (.plain v)).2 (.inr ⟨Dict.mem_of_get? hv, rfl⟩))
  obtain ⟨w, hw, hvw⟩ := checkMissing_none C conf1.config missing hmiss _ _ hin
  cases hvw
  have hc1 : conf1.config = conf0.config := by
    have := congrArg Prod.fst hadd
    simp only [Conf.addSubs] at this
    rw [← this]
  rw [hc1] at hw
  unfold hook at hhook
  split at hhook
  · cases hhook
  · rename_i own conf data' subs' hc
    cases hhook
    exact ⟨own, conf0, data, subs, hc, hw⟩

/-- **C122 is false for a name that is given as `None`**, which is the documented default: no source and no
multi source is ever configured with it, whatever the other arguments are. -/
theorem C122_name_violated (E : Env) (C : Containers V) (P : Vals V) (hP : ∀ s, P.str s ≠ P.none)
    (cls : String) (trees : String → Tree V F) (kind : Kind V D F)
    (hkind : (∃ build, kind = .source build) ∨ ∃ build, kind = .multi build) (self : Comp V D)
    (kwargs : Dict String (Arg V D)) (hk : kwargs.Ok)
    (hname : Dict.get? kwargs "name" = some (.plain P.none)) :
    (self.configure C (hook E C P cls trees kind) kwargs).2 ≠ none := by
  intro h
  obtain ⟨own, conf, data, subs, hcall, hget⟩ := plain_recorded hk h "name" P.none hname
  rcases hkind with ⟨build, rfl⟩ | ⟨build, rfl⟩
  · obtain ⟨-, config, given, name, names, trafo, -, -, -, hn, -, -, rfl, -⟩ := source_inv hcall
    have : name = P.none := by simpa [sourceConf, Dict.get?] using hget
    rw [hn] at this
    split at this
    · exact hP _ this
    · contradiction
  · obtain ⟨-, config, given, name, items, base, names, sources, -, -, -, -, hn, -, -, rfl, -⟩ :=
      multi_inv hcall
    have : name = P.none := by simpa [sourceConf, Dict.get?] using hget
    rw [hn] at this
    split at this
    · exact hP _ this
    · contradiction

/-- **C122 is false for a data transformation that is given as `None`**, the documented default of multi
sources: no multi source is ever configured with it, whatever the other arguments are. -/
theorem C122_trafo_violated (E : Env) (C : Containers V) (P : Vals V)
    (cls : String) (trees : String → Tree V F)
    (build : V → List (String × Tree V F) → Except Err (List String × Dict String String)) (self : Comp V D)
    (kwargs : Dict String (Arg V D)) (hk : kwargs.Ok)
    (htrafo : Dict.get? kwargs "data_trafo" = some (.plain P.none)) :
    (self.configure C (hook E C P cls trees (.multi build)) kwargs).2 ≠ none := by
  intro h
  obtain ⟨own, conf, data, subs, hcall, hget⟩ := plain_recorded hk h "data_trafo" P.none htrafo
  obtain ⟨-, config, given, name, items, base, names, sources, -, -, -, -, hn, -, -, rfl, -⟩ :=
    multi_inv hcall
  simp [sourceConf, Dict.get?] at hget

/-! ### Examples -/

namespace Ex

/-- Values are numbers; `None` is 0. -/
def P : Vals Nat := ⟨0, fun s => s.length + 1⟩

def C : Containers Nat := ⟨fun d => 100 + d.length, fun l => 200 + l.length⟩

abbrev Fn := Bool → Bool → Nat → Except Err Nat

/-- The classes of the examples: a data transformation with its settings, a source with as many parameters
as its settings say, a multi source of all its base sources, a loss function and a prior. -/
def kinds (cls : String) : Kind Nat Nat Fn :=
  if cls = "Trafo" then .other fun _ =>
    .ok (⟨⟨"1", "s", "Trafo", [], [("config", 7)], [], [], [], []⟩, [("config", 7)]⟩, .dict [("mean", 4)],
      .dict [])
  else if cls = "Source" then .source fun config _ => .ok ((List.range config).map fun i => listName "p" i)
  else if cls = "Multi" then .multi fun _ base =>
    .ok (base.map (fun nt => nt.1 ++ "_x"), base.map fun nt => (nt.1, nt.1))
  else if cls = "Loss" then .loss fun config => .ok fun _ _ x => .ok (config * x)
  else if cls = "Prior" then .prior fun config => .ok fun _ _ _ => .ok config
  else .losses

def trafo : Comp Nat Nat :=
  ⟨"Trafo", true, some ⟨⟨"1", "s", "Trafo", [], [("config", 7)], [], [], [], []⟩, [("config", 7)]⟩,
    some [("mean", 4)], [], []⟩

def source : Comp Nat Nat :=
  ⟨"Source", true, some ⟨⟨"1", "s", "Source", [], [("config", 2)], [("name", 29)],
    [("data_trafo", ⟨"1", "s", "Trafo", [], [("config", 7)], [], [], [], []⟩)], ["data_trafo"], []⟩,
    [("config", 2), ("name", 29)]⟩, some [], [("data_trafo", trafo)], []⟩

def multi : Comp Nat Nat :=
  ⟨"Multi", true, some ⟨⟨"1", "s", "Multi", [], [("config", 3)], [("name", 50)],
    [("cascade", ⟨"1", "s", "Source", [], [("config", 2)], [("name", 29)],
      [("data_trafo", ⟨"1", "s", "Trafo", [], [("config", 7)], [], [], [], []⟩)], ["data_trafo"], []⟩),
     ("data_trafo", ⟨"1", "s", "Trafo", [], [("config", 7)], [], [], [], []⟩)],
    ["cascade", "data_trafo"], []⟩, [("config", 3), ("name", 50)]⟩, some [],
    [("cascade", source), ("data_trafo", trafo)], []⟩

def none : Tree Nat Fn := .node .nothing []

def sourceTree : Tree Nat Fn := .node (.source 29 ["p_0000", "p_0001"]) [("data_trafo", none)]

def multiTree : Tree Nat Fn :=
  .node (.multi 50 ["cascade_x"] [("cascade", "cascade")]) [("cascade", sourceTree), ("data_trafo", none)]

theorem trafo_built : Built exEnv C P kinds SourceArgs trafo none :=
  Built.mk "Trafo" [("config", .plain 7)] (fun _ => none) trafo .nothing _ _ _ rfl rfl trivial
    (fun _ _ h => by simp [trafo] at h)

theorem source_built : Built exEnv C P kinds SourceArgs source sourceTree :=
  Built.mk "Source" (sourceCall 2 trafo Option.none) (fun _ => none) source
    (.source 29 ["p_0000", "p_0001"]) _ _ _ rfl rfl trivial
    (fun n s h => by
      simp only [source, List.mem_singleton, Prod.mk.injEq] at h
      obtain ⟨rfl, rfl⟩ := h
      exact trafo_built)

/-- A multi source with one base source is configured as in C121 and C122 .. -/
theorem multi_built : Built exEnv C P kinds SourceArgs multi multiTree :=
  Built.mk "Multi" (multiCall [("cascade", source)] 3 (some trafo) (some 50))
    (fun n => if n = "cascade" then sourceTree else none) multi
    (.multi 50 ["cascade_x"] [("cascade", "cascade")]) _ _ _ rfl rfl
    ⟨⟨trafo, rfl⟩, fun items h => by cases h; decide⟩
    (fun n s h => by
      simp only [multi, List.mem_cons, List.not_mem_nil, or_false, Prod.mk.injEq] at h
      rcases h with ⟨rfl, rfl⟩ | ⟨rfl, rfl⟩
      · exact source_built
      · exact trafo_built)

theorem trafo_wf : WF (⟨"1", "s", "Trafo", [], [("config", 7)], [], [], [], []⟩ : Cfg Nat) := by
  refine WF.mk _ ?_ ?_ ?_ ?_ ?_ ?_ ?_ <;> simp [Dict.Ok, Dict.keys]

theorem trafo_saveable : Saveable exEnv (fun _ => true) trafo := by
  refine Saveable.mk _ _ rfl rfl rfl rfl rfl trafo_wf rfl rfl ?_ ?_ ?_ ?_ <;> simp [trafo]

theorem source_wf : WF (⟨"1", "s", "Source", [], [("config", 2)], [("name", 29)],
    [("data_trafo", ⟨"1", "s", "Trafo", [], [("config", 7)], [], [], [], []⟩)], ["data_trafo"], []⟩ :
    Cfg Nat) := by
  refine WF.mk _ ?_ ?_ ?_ ?_ ?_ ?_ ?_
  iterate 6 simp [Dict.Ok, Dict.keys]
  intro n c h
  simp only [List.mem_singleton, Prod.mk.injEq] at h
  obtain ⟨-, rfl⟩ := h
  exact trafo_wf

theorem source_saveable : Saveable exEnv (fun _ => true) source := by
  refine Saveable.mk _ _ rfl rfl rfl rfl rfl source_wf rfl rfl (by decide) ?_ ?_ ?_
  all_goals
    intro n s h
    simp only [source, List.mem_singleton, Prod.mk.injEq] at h
    obtain ⟨rfl, rfl⟩ := h
  · decide
  · exact ⟨rfl, _, rfl, rfl⟩
  · exact trafo_saveable

/-- .. can be saved .. -/
theorem multi_saveable : Saveable exEnv (fun _ => true) multi := by
  refine Saveable.mk _ _ rfl rfl rfl rfl rfl ?_ rfl rfl (by decide) ?_ ?_ ?_
  · refine WF.mk _ ?_ ?_ ?_ ?_ ?_ ?_ ?_
    iterate 6 simp [Dict.Ok, Dict.keys]
    intro n c h
    simp only [List.mem_cons, List.not_mem_nil, or_false, Prod.mk.injEq] at h
    rcases h with ⟨-, rfl⟩ | ⟨-, rfl⟩
    · exact source_wf
    · exact trafo_wf
  all_goals
    intro n s h
    simp only [multi, List.mem_cons, List.not_mem_nil, or_false, Prod.mk.injEq] at h
    rcases h with ⟨rfl, rfl⟩ | ⟨rfl, rfl⟩
  · decide
  · decide
  · exact ⟨rfl, _, rfl, rfl⟩
  · exact ⟨rfl, _, rfl, rfl⟩
  · exact source_saveable
  · exact trafo_saveable

/-- .. and is loaded with its parameters and sources. -/
example : (multi.save false false (fun _ => Option.none) [] "model").2 = Option.none ∧
    loadTree exEnv C P kinds exLoad
      (applyAll (fun _ => Option.none) (multi.save false false (fun _ => Option.none) [] "model").1) 3 "Multi"
      [] "model" = .ok (multi, multiTree) := by
  have h1 : (multi.save false false (fun _ => Option.none) [] "model").2 = Option.none := by decide
  refine ⟨h1, C121_sources_partial C (by intro s; simp [P]) kinds multi multiTree multi_built exLoad
    multi_saveable false false _ [] "model" 3 ?_ h1⟩
  refine DepthLe.mk _ _ fun n s h => ?_
  simp only [multi, List.mem_cons, List.not_mem_nil, or_false, Prod.mk.injEq] at h
  rcases h with ⟨-, rfl⟩ | ⟨-, rfl⟩
  · refine DepthLe.mk _ _ fun n s h => ?_
    simp only [source, List.mem_singleton, Prod.mk.injEq] at h
    obtain ⟨-, rfl⟩ := h
    exact DepthLe.mk _ _ fun n s h => by simp [trafo] at h
  · exact DepthLe.mk _ _ fun n s h => by simp [trafo] at h

def loss : Comp Nat Nat :=
  ⟨"Loss", true, some ⟨⟨"1", "s", "Loss", [], [("config", 5)], [], [], [], []⟩, [("config", 5)]⟩,
    some [], [], []⟩

def prior : Comp Nat Nat :=
  ⟨"Prior", true, some ⟨⟨"1", "s", "Prior", [], [("config", 6)], [], [], [], []⟩, [("config", 6)]⟩,
    some [], [], []⟩

def losses : Comp Nat Nat :=
  ⟨"Losses", true, some ⟨⟨"1", "s", "Losses", [], [], [],
    [("loss_modules_0000", ⟨"1", "s", "Loss", [], [("config", 5)], [], [], [], []⟩),
     ("loss_modules_0001", ⟨"1", "s", "Prior", [], [("config", 6)], [], [], [], []⟩)],
    ["loss_modules_0000", "loss_modules_0001"], []⟩, []⟩, some [],
    [("loss_modules_0000", loss), ("loss_modules_0001", prior)], []⟩

def lossTree : Tree Nat Fn := .node (.loss (some fun _ _ x => .ok (5 * x))) []

def priorTree : Tree Nat Fn := .node (.prior (some fun _ _ _ => .ok 6)) []

def lossesTree : Tree Nat Fn :=
  .node .losses [("loss_modules_0000", lossTree), ("loss_modules_0001", priorTree)]

/-- A multi loss with a loss function and a prior is configured, .. -/
theorem losses_built : Built exEnv C P kinds LossArgs losses lossesTree := by
  refine Built.mk "Losses" [("loss_modules", .list [.comp loss, .comp prior])]
    (fun n => if n = "loss_modules_0000" then lossTree else priorTree) losses .losses _ _ _ rfl rfl trivial
    (fun n s h => ?_)
  simp only [losses, List.mem_cons, List.not_mem_nil, or_false, Prod.mk.injEq] at h
  rcases h with ⟨rfl, rfl⟩ | ⟨rfl, rfl⟩
  · exact Built.mk "Loss" [("config", .plain 5)] (fun _ => none) loss _ _ _ _ rfl rfl trivial
      (fun _ _ h => by simp [loss] at h)
  · exact Built.mk "Prior" [("config", .plain 6)] (fun _ => none) prior _ _ _ _ rfl rfl trivial
      (fun _ _ h => by simp [prior] at h)

/-- .. computes a loss, .. -/
example : getLoss List.sum true false 4 lossesTree = .ok 26 ∧ Computes lossesTree :=
  ⟨rfl, .losses _ _ _ (List.mem_cons_self ..) (.loss _ _)⟩

theorem leaf_wf (cls : String) (v : Nat) :
    WF (⟨"1", "s", cls, [], [("config", v)], [], [], [], []⟩ : Cfg Nat) := by
  refine WF.mk _ ?_ ?_ ?_ ?_ ?_ ?_ ?_ <;> simp [Dict.Ok, Dict.keys]

theorem losses_saveable : Saveable exEnv (fun _ => true) losses := by
  refine Saveable.mk _ _ rfl rfl rfl rfl rfl ?_ rfl rfl (by decide) ?_ ?_ ?_
  · refine WF.mk _ ?_ ?_ ?_ ?_ ?_ ?_ ?_
    iterate 6 simp [Dict.Ok, Dict.keys]
    intro n c h
    simp only [List.mem_cons, List.not_mem_nil, or_false, Prod.mk.injEq] at h
    rcases h with ⟨-, rfl⟩ | ⟨-, rfl⟩ <;> exact leaf_wf _ _
  all_goals
    intro n s h
    simp only [losses, List.mem_cons, List.not_mem_nil, or_false, Prod.mk.injEq] at h
    rcases h with ⟨rfl, rfl⟩ | ⟨rfl, rfl⟩
  · decide
  · decide
  · exact ⟨rfl, _, rfl, rfl⟩
  · exact ⟨rfl, _, rfl, rfl⟩
  · refine Saveable.mk _ _ rfl rfl rfl rfl rfl (leaf_wf _ _) rfl rfl ?_ ?_ ?_ ?_ <;> simp [loss]
  · refine Saveable.mk _ _ rfl rfl rfl rfl rfl (leaf_wf _ _) rfl rfl ?_ ?_ ?_ ?_ <;> simp [prior]

/-- .. is saved and loaded without an exception, and then computes nothing. -/
example : ∃ t, loadTree exEnv C P kinds exLoad
      (applyAll (fun _ => Option.none) (losses.save false false (fun _ => Option.none) [] "loss").1) 2 "Losses"
      [] "loss" = .ok (losses, t) ∧
    ∀ combine reduce sort x, ∃ e, getLoss combine reduce sort x t = .error e := by
  refine C121_loss_violated C kinds losses lossesTree losses_built
    (.losses _ _ _ (List.mem_cons_self ..) (.loss _ _)) exLoad losses_saveable false false _ [] "loss" 2
    (DepthLe.mk _ _ fun n s h => ?_) (by decide)
  simp only [losses, List.mem_cons, List.not_mem_nil, or_false, Prod.mk.injEq] at h
  rcases h with ⟨-, rfl⟩ | ⟨-, rfl⟩
  · exact DepthLe.mk _ _ fun n s h => by simp [loss] at h
  · exact DepthLe.mk _ _ fun n s h => by simp [prior] at h

/-- The names of C122: one that is given, and `None`. -/
example : ((Comp.fresh "Source").configure C (hook exEnv C P "Source" (fun _ => none) (kinds "Source"))
      (sourceCall 2 trafo (some 9))).2 = Option.none ∧
    ((Comp.fresh "Source").configure C (hook exEnv C P "Source" (fun _ => none) (kinds "Source"))
      (sourceCall 2 trafo Option.none)).2 = Option.none ∧
    ((Comp.fresh "Source").configure C (hook exEnv C P "Source" (fun _ => none) (kinds "Source"))
      (sourceCall 2 trafo (some 0))).2 = some .valueError :=
  ⟨rfl, rfl, rfl⟩

end Ex
end Verif.Reload
