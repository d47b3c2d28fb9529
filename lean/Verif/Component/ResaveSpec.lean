/- What C136 speaks about: components obtained by any history of saving and loading. -/
import Verif.Component.ObjectSpec

namespace Verif.Component
open Verif.Py
variable {V D : Type}

/-- The component `c` is one of the replacements in the (nested) dictionary. -/
inductive Replaces (c : Comp V D) : Mod V D → Prop where
  | here : Replaces c (.comp c)
  | inside (d : List (String × Mod V D)) (n : String) (m : Mod V D) (hm : (n, m) ∈ d)
      (h : Replaces c m) : Replaces c (.nested d)

/-- The hook `_update_sub_components` changes at most the data of the component and, by
`update_mutable_settings` (C02), its mutable settings. -/
def HookKeeps (update : Comp V D → List String → Comp V D × Option Err) : Prop :=
  ∀ c names, (update c names).2 = none →
    (update c names).1.cls = c.cls ∧ (update c names).1.subs = c.subs ∧
    (update c names).1.attrs = c.attrs ∧
    ∀ conf, c.conf = some conf → (update c names).1.conf = some conf ∨
      ∃ m, Dict.keys m = Dict.keys conf.dict.mutable ∧ (update c names).1.conf =
        some ⟨{ conf.dict with mutable := m }, conf.dict.settings.update m⟩

/-- Components obtained by any number of saves and loads: those to begin with, and whatever is
loaded, with any replacements obtained in the same way, from where such a component was saved (other
files may have been written in between). -/
inductive Obtained [DecidableEq V] (L : LoadEnv V D) : Comp V D → Prop where
  | start (c : Comp V D) (h : Saveable L.env L.known c) : Obtained L c
  | loaded (c : Comp V D) (hc : Obtained L c) (ow allow : Bool) (fs fs' : FS V D) (parent : Path)
      (name : String) (hsave : (c.save ow allow fs parent name).2 = none)
      (hfiles : ∀ t, t ≠ [] → fs' (parent ++ [stem name] ++ t) =
        applyAll fs (c.save ow allow fs parent name).1 (parent ++ [stem name] ++ t))
      (k : Nat) (cls : String) (mods : Dict String (Mod V D))
      (hmods : ∀ n m r, (n, m) ∈ mods → Replaces r m → L.known r.cls = true)
      (hobt : ∀ n m r, (n, m) ∈ mods → Replaces r m → Obtained L r)
      (hload : (load L fs' k (Comp.fresh cls) parent name mods).err = none) :
      Obtained L (load L fs' k (Comp.fresh cls) parent name mods).obj

/-- Replacements that fit the saved component `c`: every name is one of its sub components; a
component is configured and, unless its name is mutable, has the class of the saved sub component
and a configuration compatible with it; and a nested dictionary fits the saved sub component. -/
inductive Fitting : Comp V D → Dict String (Mod V D) → Prop where
  | mk (c : Comp V D) (conf : Conf V) (mods : Dict String (Mod V D)) (hconf : c.conf = some conf)
      (hnames : ∀ n, n ∈ mods.keys → n ∈ Dict.keys c.subs)
      (hcomp : ∀ n m s, mods.get? n = some (.comp m) → (n, s) ∈ c.subs →
        m.configured = true ∧ ∃ mc, m.conf = some mc ∧ WF mc.dict ∧
          (n ∈ conf.dict.muts ∨ s.cls = m.cls ∧ ∃ sc, s.conf = some sc ∧ Compat sc.dict mc.dict))
      (hnested : ∀ n d s, mods.get? n = some (.nested d) → (n, s) ∈ c.subs → Fitting s d) :
      Fitting c mods

end Verif.Component
