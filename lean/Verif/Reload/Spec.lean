/-
Independent specification for C121 and C122.
-/
import Verif.Reload.Model

namespace Verif.Reload
open Verif.Py Verif.Component

variable {V D F : Type}

/-- Components that need no untracked data, sources, and multi sources - with a data transformation, and with
base sources of distinct names other than that of the data transformation. -/
def SourceArgs (kind : Kind V D F) (kwargs : Dict String (Arg V D)) : Prop :=
  match kind with
  | .other _ => True
  | .source _ => True
  | .multi _ => (∃ t, Dict.get? kwargs "data_trafo" = some (.comp t)) ∧
      ∀ items, Dict.get? kwargs "base_sources" = some (.dict items) → "data_trafo" ∉ Dict.keys items
  | .loss _ => False
  | .prior _ => False
  | .losses => False

/-- Loss modules of the three classes. -/
def LossArgs (kind : Kind V D F) (_ : Dict String (Arg V D)) : Prop :=
  match kind with
  | .other _ => False
  | .source _ => False
  | .multi _ => False
  | .loss _ => True
  | .prior _ => True
  | .losses => True

/-- `Built Q c t`: the component `c` is the result of a successful `configure` of a new object, which left the
untracked data `t`; so are its sub components, and the condition `Q` holds for the class and the arguments of
each of them. -/
inductive Built (E : Env) (C : Containers V) (P : Vals V) [DecidableEq V] (kinds : String → Kind V D F)
    (Q : Kind V D F → Dict String (Arg V D) → Prop) : Comp V D → Tree V F → Prop where
  | mk (cls : String) (kwargs : Dict String (Arg V D)) (trees : String → Tree V F) (c : Comp V D)
      (own : Own V F) (conf : Conf V) (data : MaybeDict (Dict String D))
      (subs : MaybeDict (Dict String (Comp V D)))
      (hcall : call E C P cls trees kwargs (kinds cls) = .ok (own, conf, data, subs))
      (hconf : (Comp.fresh cls).configure C (hook E C P cls trees (kinds cls)) kwargs = (c, none))
      (hq : Q (kinds cls) kwargs)
      (hsubs : ∀ n s, (n, s) ∈ c.subs → Built E C P kinds Q s (trees n)) :
      Built E C P kinds Q c (.node own (c.subs.map fun nc => (nc.1, trees nc.1)))

/-- A loss module that computes something: a default loss module, a prior, or a multi loss that has such a
module in it. -/
inductive Computes : Tree V F → Prop where
  | loss (f : Option F) (subs : List (String × Tree V F)) : Computes (.node (.loss f) subs)
  | prior (f : Option F) (subs : List (String × Tree V F)) : Computes (.node (.prior f) subs)
  | losses (n : String) (t : Tree V F) (subs : List (String × Tree V F)) :
      (n, t) ∈ subs → Computes t → Computes (.node .losses subs)

/-- The keyword arguments of `configure` of a source: `name` may be left out. -/
def sourceCall (config : V) (trafo : Comp V D) (name : Option V) : Dict String (Arg V D) :=
  [("config", .plain config), ("data_trafo", .comp trafo)] ++
    (match name with | none => [] | some n => [("name", .plain n)])

/-- The keyword arguments of `configure` of a multi source: `data_trafo` and `name` may be left out. -/
def multiCall (base : Dict String (Comp V D)) (config : V) (trafo : Option (Comp V D)) (name : Option V) :
    Dict String (Arg V D) :=
  [("base_sources", .dict (base.map fun nc => (nc.1, .comp nc.2))), ("config", .plain config)] ++
    (match trafo with | none => [] | some t => [("data_trafo", .comp t)]) ++
    (match name with | none => [] | some n => [("name", .plain n)])

end Verif.Reload
