import Verif.Retry.Model

/-!
# What repeated attempts should mean

An attempt to set up a component is a call of `configure` or `load`. Between two attempts everything else
may change: files, installed classes, arguments.
-/

namespace Verif.Retry
open Verif.Py Verif.Component
variable {V D : Type}

/-- An attempt to set up a component. -/
inductive Attempt (V D : Type) where
  | configure (hook : Hook V D) (kwargs : Dict String (Arg V D))
  | load (L : LoadEnv V D) (fs : FS V D) (depth : Nat) (parent : Path) (name : String)
      (mods : Dict String (Mod V D))

/-- An attempt on a component: the component afterwards, and the exception. -/
def Attempt.run [DecidableEq V] (C : Containers V) (c : Comp V D) : Attempt V D → Comp V D × Option Err
  | .configure hook kwargs => c.configure C hook kwargs
  | .load L fs depth parent name mods =>
    let r := Component.load L fs depth c parent name mods
    (r.obj, r.err)

/-- The methods of the class are sound: `_configure` returns sub components as a dictionary or `None`, and
`_update_sub_components` does not make an object another one. -/
def Attempt.proper : Attempt V D → Prop
  | .configure hook _ => ∀ kwargs conf data, hook kwargs ≠ .ok (conf, data, .other)
  | .load L _ _ _ _ _ => ∀ c names, (L.update c names).1.configured = c.configured ∧
      (L.update c names).1.cls = c.cls ∧ (L.update c names).1.attrs = c.attrs

/-- `c'` is what is left of `c` after attempts that all failed. -/
inductive Failed [DecidableEq V] (C : Containers V) (c : Comp V D) : Comp V D → Prop where
  | none : Failed C c c
  | more (c' : Comp V D) (a : Attempt V D) (e : Err) (h : Failed C c c') (hp : a.proper)
      (hf : (a.run C c').2 = some e) : Failed C c (a.run C c').1

/-- An attempt to set up a handler. -/
inductive HAttempt (V D : Type) where
  | configure (X : HEnv V D) (kwargs : Dict String (Arg V D))
  | load (L : LoadEnv V D) (fs : FS V D) (depth : Nat) (parent : Path) (name : String)
      (mods : Dict String (Mod V D))

/-- An attempt on a handler. -/
def HAttempt.run [DecidableEq V] (h : Handler V D) : HAttempt V D → Handler V D × Option Err
  | .configure X kwargs => h.configure X kwargs
  | .load L fs depth parent name mods => h.load L fs depth parent name mods

/-- See `Attempt.proper`. -/
def HAttempt.proper : HAttempt V D → Prop
  | .configure _ _ => True
  | .load L _ _ _ _ _ => ∀ c names, (L.update c names).1.configured = c.configured ∧
      (L.update c names).1.cls = c.cls ∧ (L.update c names).1.attrs = c.attrs

/-- `h'` is what is left of `h` after attempts that all failed. -/
inductive HFailed [DecidableEq V] (h : Handler V D) : Handler V D → Prop where
  | none : HFailed h h
  | more (h' : Handler V D) (a : HAttempt V D) (e : Err) (hf : HFailed h h') (hp : a.proper)
      (he : (a.run h').2 = some e) : HFailed h (a.run h').1

/-- The names of the modules. -/
def moduleNames : List String :=
  ["data_module", "label_module", "weight_module", "misc_module", "filter_module"]

/-- The data of the modules of a handler, put together in the order of the modules. -/
def gathered (h : Handler V D) : Dict String D :=
  moduleNames.foldl (fun d n => d.update (((h.module n).bind Comp.data).getD [])) []

end Verif.Retry
