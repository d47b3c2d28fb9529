/- C136: components stay usable through any history of saving, loading and replacing. -/
import Verif.Component.Accept
import Verif.Component.ObjectProps

namespace Verif.Component
open Verif.Py
variable {V D : Type}

/-- C09, exactly: for a saved component and replacements that can themselves be saved, loading
succeeds if and only if the replacements fit, at every level of nested dictionaries (for a hook
`_update_sub_components` that does not raise, and with recursion as deep as the component). -/
theorem C09_accepts_exactly [DecidableEq V] (L : LoadEnv V D) (hhook : HookKeeps L.update)
    (hok : ∀ c names, (L.update c names).2 = none) (c : Comp V D)
    (hsv : Saveable L.env L.known c) (ow allow : Bool) (fs : FS V D) (parent : Path)
    (name : String) (hsaved : (c.save ow allow fs parent name).2 = none) (k : Nat)
    (hk : DepthLe c k) (mods : Dict String (Mod V D))
    (hmods : ∀ n m r, (n, m) ∈ mods → Replaces r m →
      Saveable L.env L.known r ∧ L.known r.cls = true) :
    (load L (applyAll fs (c.save ow allow fs parent name).1) k (Comp.fresh c.cls)
      parent name mods).err = none ↔ Fitting c mods := by
  have hst := save_stored L.env L.known ow allow c hsv fs parent name hsaved
  exact ⟨load_fitting L _ c hsv k c.cls parent name mods hk hst hmods,
    fun h => load_accepts L _ hhook hok c hsv k parent name mods hk hst h hmods⟩

/-- C136. Whatever was obtained by saves and loads, with any replacements at any level, has all
that is needed to be saved and loaded again. -/
theorem C136_saveable [DecidableEq V] (L : LoadEnv V D) (hhook : HookKeeps L.update) (c : Comp V D)
    (h : Obtained L c) : Saveable L.env L.known c := by
  induction h with
  | start c h => exact h
  | loaded c _ ow allow fs fs' parent name hsave hfiles k cls mods hmods _ hload ih ihm =>
    have hst : Stored fs' (parent ++ [stem name]) c :=
      (save_stored L.env L.known ow allow c ih fs parent name hsave).frame hfiles
    exact (load_saveable L fs' hhook c ih k cls parent name mods hst
      (fun n m r hm hr => ⟨ihm n m r hm hr, hmods n m r hm hr⟩) hload).1

/-- C136. After any such history a further save and load gives back the component: its class,
configuration, data and sub components, recursively. -/
theorem C136_round_trip [DecidableEq V] (L : LoadEnv V D) (hhook : HookKeeps L.update) (c : Comp V D)
    (h : Obtained L c) (ow allow : Bool) (fs : FS V D) (parent : Path) (name : String)
    (hsaved : (c.save ow allow fs parent name).2 = none) :
    ∃ k, load L (applyAll fs (c.save ow allow fs parent name).1) k (Comp.fresh c.cls)
      parent name [] = ⟨c, [], none⟩ := by
  obtain ⟨k, hk⟩ := exists_depth c
  exact ⟨k, C07_save_load_round_trip L c (C136_saveable L hhook c h) ow allow fs parent name k hk
    hsaved⟩

/-- C136. The further save succeeds wherever there are no files yet. -/
theorem C136_save_succeeds [DecidableEq V] (L : LoadEnv V D) (hhook : HookKeeps L.update)
    (c : Comp V D) (h : Obtained L c) (ow allow : Bool) (fs : FS V D) (parent : Path)
    (name : String) (hempty : ∀ t, t ≠ [] → fs (parent ++ [stem name] ++ t) = none) :
    (c.save ow allow fs parent name).2 = none :=
  (C07_save_to_empty_location L c (C136_saveable L hhook c h) ow allow fs parent name hempty).1

/-- C136. The class of a component does not change, whatever is replaced in it. -/
theorem C136_class [DecidableEq V] (L : LoadEnv V D) (hhook : HookKeeps L.update) (c : Comp V D)
    (h : Obtained L c) (ow allow : Bool) (fs : FS V D) (parent : Path) (name : String)
    (hsaved : (c.save ow allow fs parent name).2 = none) (k : Nat) (cls : String)
    (mods : Dict String (Mod V D))
    (hmods : ∀ n m r, (n, m) ∈ mods → Replaces r m → Obtained L r ∧ L.known r.cls = true)
    (hload : (load L (applyAll fs (c.save ow allow fs parent name).1) k (Comp.fresh cls)
      parent name mods).err = none) :
    cls = c.cls ∧ (load L (applyAll fs (c.save ow allow fs parent name).1) k (Comp.fresh cls)
      parent name mods).obj.cls = c.cls := by
  have hsv := C136_saveable L hhook c h
  have hst := save_stored L.env L.known ow allow c hsv fs parent name hsaved
  refine ⟨?_, (load_saveable L _ hhook c hsv k cls parent name mods hst
    (fun n m r hm hr => ⟨C136_saveable L hhook r (hmods n m r hm hr).1, (hmods n m r hm hr).2⟩)
    hload).2⟩
  obtain ⟨k', d, data, conf, st, obj, -, -, -, hf1, -, -, hinit, -, hcls, -⟩ :=
    load_success L _ k (Comp.fresh cls) parent name mods hload
  cases hst with
  | mk _ _ conf' hconf' s1 _ _ =>
  rw [s1] at hf1
  cases hf1
  have : conf.dict.cls = conf'.dict.cls := by
    simp only [Conf.init, bind, Except.bind] at hinit
    split at hinit
    · cases hinit
    · split at hinit
      · cases hinit
      · cases hinit; rfl
  rw [← (hsv.conf_spec hconf').1, ← this, hcls]
  rfl

-- C09_accepts_exactly: the hook, the replacement and the tree meet the hypotheses; the replacement
-- of the mutable part fits, that of the other does not
example : HookKeeps exLoad.update ∧ (∀ c names, (exLoad.update c names).2 = none) ∧
    Fitting (exTop "left" "right") [("right", .comp (exLeaf 5))] := by
  refine ⟨fun c _ _ => ⟨rfl, rfl, rfl, fun conf h => Or.inl h⟩, fun _ _ => rfl, ?_⟩
  refine Fitting.mk _ _ _ rfl (by simp [Dict.keys, exTop]) ?_ ?_
  · intro n m s hm hs
    have hn : n = "right" := by
      by_cases hn : "right" = n
      · exact hn.symm
      · simp [Dict.get?_cons, hn] at hm
    subst hn
    simp only [Dict.get?_cons, if_true, Option.some.injEq, Mod.comp.injEq] at hm
    subst hm
    refine ⟨rfl, _, rfl, ?_, Or.inl (by decide)⟩
    exact ((exLeaf_saveable 5).conf_spec rfl).2
  · intro n d s hm hs
    by_cases hn : "right" = n
    · simp [Dict.get?_cons, hn] at hm
    · simp [Dict.get?_cons, hn] at hm

/-- A hook that changes mutable settings, as that of data handlers does. -/
def exUpdating : LoadEnv Nat Nat :=
  { exLoad with update := fun c names => match c.conf with
    | none => (c, some .attributeError)
    | some conf =>
      let r := conf.updateMutable [("rate", names.length)]
      ({ c with conf := some r.1 }, r.2) }

theorem exUpdating_keeps : HookKeeps exUpdating.update := by
  intro c names h
  unfold exUpdating at h ⊢
  simp only at h ⊢
  rcases hc : c.conf with _ | conf
  · rw [hc] at h; simp at h
  · rw [hc] at h
    simp only at h ⊢
    refine ⟨by first | rfl | simp, by first | rfl | simp, by first | rfl | simp, ?_⟩
    intro conf' he
    cases he
    refine Or.inr ⟨(conf.updateMutable [("rate", names.length)]).1.dict.mutable, ?_, ?_⟩
    · unfold Conf.updateMutable updateLoop at h ⊢
      by_cases hr : conf.dict.mutable.has "rate" = true
      · simp only [hr, if_true, updateLoop] at h ⊢
        have hk : "rate" ∈ Dict.keys conf.dict.mutable := (Dict.has_iff _ _).1 hr
        split <;> simp only [Dict.keys_set, if_pos hk]
      · rw [if_neg hr] at h; simp at h
    · unfold Conf.updateMutable updateLoop at h ⊢
      by_cases hr : conf.dict.mutable.has "rate" = true
      · simp only [hr, if_true, updateLoop] at h ⊢
        unfold combineSettings at h ⊢
        split at h
        · rename_i heq
          split at heq
          · cases heq
          · cases heq
            rename_i hn
            simp
        · simp at h
      · rw [if_neg hr] at h; simp at h

-- with this hook, the record of the replaced part and the mutable setting have changed in the
-- loaded component, and it is what C136 speaks about
example : Obtained exUpdating
    (load exUpdating exFiles 3 (Comp.fresh "pkg.Top") [] "model" [("right", .comp (exLeaf 5))]).obj := by
  refine Obtained.loaded (exTop "left" "right") (.start _ exTop_saveable) false false
    (fun _ => none) exFiles [] "model" (by decide) (fun _ _ => rfl) 3 "pkg.Top" _ ?_ ?_ (by decide)
  · intro n m r hm hr
    rfl
  · intro n m r hm hr
    simp only [List.mem_singleton, Prod.mk.injEq] at hm
    obtain ⟨rfl, rfl⟩ := hm
    cases hr
    exact .start _ (exLeaf_saveable 5)
example : (load exUpdating exFiles 3 (Comp.fresh "pkg.Top") [] "model"
    [("right", .comp (exLeaf 5))]).obj.conf.map (fun c => c.config) =
    some [("depth", 6), ("rate", 1)] := by decide

end Verif.Component
