/-
Independent specification for the `Configuration` properties C01-C04.
-/
import Verif.Component.Model

namespace Verif.Component
open Verif.Py
variable {V : Type}

/-- What every dictionary built by `Configuration(...)` satisfies, at every
level: Python dictionaries have unique keys, no key is both immutable and
mutable, and every dependent name is a registered sub component. -/
inductive WF : Cfg V → Prop where
  | mk (d : Cfg V)
      (hsettings : d.settings.Ok) (hmutable : d.mutable.Ok) (hcheck : d.check.Ok)
      (hsubs : Dict.Ok d.subs)
      (hdisj : ∀ k, k ∈ d.settings.keys → k ∉ d.mutable.keys)
      (hdeps : ∀ n, n ∈ d.deps → n ∈ Dict.keys d.subs)
      (hrec : ∀ n c, (n, c) ∈ d.subs → WF c) : WF d

/-- The compatibility relation of the documentation: same class, same immutable
settings, same check values, the same sub component names, and every sub
component compatible unless it is named mutable by the first one. -/
inductive Compat : Cfg V → Cfg V → Prop where
  | mk (a b : Cfg V)
      (hcls : a.cls = b.cls)
      (hsettings : ∀ k, a.settings.get? k = b.settings.get? k)
      (hcheck : ∀ k, a.check.get? k = b.check.get? k)
      (hnames : ∀ n, n ∈ Dict.keys a.subs ↔ n ∈ Dict.keys b.subs)
      (hsubs : ∀ n ca cb, (n, ca) ∈ a.subs → (n, cb) ∈ b.subs → n ∉ a.muts → Compat ca cb) :
      Compat a b

/-- The mutable names of every configuration in the tree are a function of its
class (in the code base they are literals in the class' `_configure`). -/
inductive MutsByClass (f : String → List String) : Cfg V → Prop where
  | mk (d : Cfg V) (h : ∀ n, n ∈ d.muts ↔ n ∈ f d.cls)
      (hrec : ∀ n c, (n, c) ∈ d.subs → MutsByClass f c) : MutsByClass f d

end Verif.Component
