import Verif.Build.Model
import Mathlib.Data.List.Forall2

/-!
# Specification for building of models, class strings and the check of source parameters (C99 to C101)
-/

namespace Verif.Build
open Verif.Py
variable {Cls S Tr H M Cfg : Type}

/-- The transformation a base source is configured with: its own if it has one, else that of the
model. -/
def OwnTrafo (E : Env Cls S Tr H M Cfg) (trafo : Tr) (s : BaseSettings Cfg) (t : Tr) : Prop :=
  (∃ dir, s.trafoDir = some dir ∧ E.loadTrafo dir = .ok t) ∨ s.trafoDir = none ∧ t = trafo

/-- The base source `x` is made as the settings say: it is loaded, or configured if that is allowed. -/
def Made (E : Env Cls S Tr H M Cfg) (allow : Bool) (trafo : Tr) (s : BaseSettings Cfg) (x : S) : Prop :=
  ∃ c, E.cls s.cls = .ok c ∧
    ((∃ dir, s.loadDir = some dir ∧ E.load c dir = .ok x) ∨
     (s.loadDir = none ∧ allow = true ∧ ∃ t, OwnTrafo E trafo s t ∧ E.configure c s.config t none = .ok x))

/-- The value of a tensor depends on the constant with the name `input`. -/
inductive DependsOn (input : String) : Tensor → Prop
  | leaf : DependsOn input (.node input true [])
  | step {name const inputs t} : t ∈ inputs → DependsOn input t →
      DependsOn input (.node name const inputs)

/-- A tensor is computed from the constant with the name `input` and other constants only. -/
inductive OnlyBasedOn (input : String) : Tensor → Prop
  | const {name} : OnlyBasedOn input (.node name true [])
  | step {name const inputs} : inputs ≠ [] → (∀ t ∈ inputs, OnlyBasedOn input t) →
      OnlyBasedOn input (.node name const inputs)

/-- The object a name leads to is the class itself: modules have the classes that are defined in them
at their top level. -/
def World.Defines (W : World) (c : Class) : Prop :=
  ∃ m attr, c.module = some m ∧ W m = some attr ∧ attr c.name = some c

end Verif.Build
