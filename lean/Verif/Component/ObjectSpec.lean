/-
Independent specification for the `BaseComponent` properties C05-C09.
-/
import Verif.Component.Spec
import Verif.Component.Object

namespace Verif.Component
open Verif.Py
variable {V D : Type}

/-- `Passed kwargs n c`: the component `c` is handed to `configure` under the
name `n` - as an argument, as an entry of a dictionary argument, or as entry
number `i` of a list argument `k` (then its name is `k_000i`). -/
inductive Passed (kwargs : Dict String (Arg V D)) : String → Comp V D → Prop where
  | direct (k : String) (c : Comp V D) : (k, .comp c) ∈ kwargs → Passed kwargs k c
  | inDict (k n : String) (c : Comp V D) (items : Dict String (Item V D)) :
      (k, .dict items) ∈ kwargs → (n, .comp c) ∈ items → Passed kwargs n c
  | inList (k : String) (i : Nat) (c : Comp V D) (items : List (Item V D)) :
      (k, .list items) ∈ kwargs → items[i]? = some (.comp c) →
      Passed kwargs (k ++ "_" ++ pad4 i) c

/-- A component tree as `configure` leaves it when the derived classes follow the
documentation, and which is to be saved by the installation `E`:
* it is configured, has no untracked attributes, its class is importable and is
  the recorded one;
* its configuration is well formed, was made by the running version, and the
  merged view is up to date;
* the dependent names are the names of the sub components, each once, and the
  recorded configuration names the class of the sub component;
* the names stay distinct, and do not clash with the two files of the component,
  when the part after the last dot is removed from them (in particular if no
  name has a dot in it);
* the same holds for every sub component. -/
inductive Saveable (E : Env) (known : String → Bool) : Comp V D → Prop where
  | mk (c : Comp V D) (conf : Conf V)
      (hcfg : c.configured = true) (hattrs : c.attrs = [])
      (hconf : c.conf = some conf)
      (hcls : conf.dict.cls = c.cls)
      (hver : conf.dict.version = E.version)
      (hwf : WF conf.dict)
      (hconfig : conf.config = conf.dict.settings.update conf.dict.mutable)
      (hdeps : conf.dict.deps = Dict.keys c.subs)
      (hnodup : (c.subs.map (fun nc => stem nc.1)).Nodup)
      (hfiles : ∀ n s, (n, s) ∈ c.subs → stem n ≠ "configuration.yaml" ∧ stem n ≠ "data.pickle")
      (hrecord : ∀ n s, (n, s) ∈ c.subs → known s.cls = true ∧
        ∃ d, Dict.get? conf.dict.subs n = some d ∧ d.cls = s.cls)
      (hrec : ∀ n s, (n, s) ∈ c.subs → Saveable E known s) : Saveable E known c

/-- Depth of a component tree. -/
inductive DepthLe : Comp V D → Nat → Prop where
  | mk (c : Comp V D) (k : Nat) (h : ∀ n s, (n, s) ∈ c.subs → DepthLe s k) : DepthLe c (k + 1)

/-- What `load` with replacements has to deliver, for the component saved in
the directory `dir`. `saved n` is what is found below `dir` for the sub component
`n`, loaded with the nested dictionary given for `n` if there is one. Every given
name is a dependent sub component; a sub component without replacement is the
saved one; and one with a replacement is the replacement, which is configured
and, unless its name is mutable, of the same class and with a configuration
compatible with the saved one. For every name with a replacement or a nested
dictionary the recorded configuration is that of the sub component in use. -/
inductive LoadedAs (fs : FS V D) : Path → Dict String (Mod V D) → Comp V D → Prop where
  | mk (dir : Path) (mods : Dict String (Mod V D)) (r : Comp V D) (d : Cfg V)
      (saved : String → Comp V D)
      (hfile : fs (dir ++ ["configuration.yaml"]) = some (.config d))
      (hcls : r.cls = d.cls) (hcfg : r.configured = true)
      (hused : ∀ n, n ∈ mods.keys → n ∈ d.deps)
      (hplain : ∀ n, n ∈ d.deps → (∀ m, mods.get? n ≠ some (.nested m)) →
        LoadedAs fs (dir ++ [stem n]) [] (saved n))
      (hnested : ∀ n m, n ∈ d.deps → mods.get? n = some (.nested m) →
        LoadedAs fs (dir ++ [stem n]) m (saved n))
      (hkeep : ∀ n, n ∈ d.deps → (∀ m, mods.get? n ≠ some (.comp m)) →
        Dict.get? r.subs n = some (saved n))
      (hrepl : ∀ n m, n ∈ d.deps → mods.get? n = some (.comp m) →
        Dict.get? r.subs n = some m ∧ m.configured = true ∧
        (n ∈ d.muts ∨ (saved n).cls = m.cls ∧ ∃ sc mc,
          (saved n).conf = some sc ∧ m.conf = some mc ∧
          (WF sc.dict → WF mc.dict → Compat sc.dict mc.dict)))
      (hrecord : ∀ n, n ∈ d.deps → n ∈ mods.keys → ∃ s sc rc,
        Dict.get? r.subs n = some s ∧ s.conf = some sc ∧ r.conf = some rc ∧
        Dict.get? rc.dict.subs n = some sc.dict) :
      LoadedAs fs dir mods r

/-- The hook `_update_sub_components` may change settings and data of the
component, but not its class, its sub components or what is recorded about them. -/
def UpdateHookOk (update : Comp V D → List String → Comp V D × Option Err) : Prop :=
  ∀ c names, (update c names).2 = none →
    (update c names).1.cls = c.cls ∧ (update c names).1.subs = c.subs ∧
    ∀ conf, c.conf = some conf → ∃ conf', (update c names).1.conf = some conf' ∧
      conf'.dict.subs = conf.dict.subs

end Verif.Component
