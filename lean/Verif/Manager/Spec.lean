/- Specification for C137. -/
import Verif.Component.ResaveSpec

namespace Verif.Manager
open Verif.Py Verif.Component
variable {V D : Type}

/-- The data handler of the manager is compatible with the one that is recorded in the data
transformation of the model. -/
def Serves (manager m : Comp V D) : Prop :=
  ∃ handler h conf trafo recorded, Dict.get? manager.subs "data_handler" = some handler ∧
    handler.conf = some h ∧ m.conf = some conf ∧
    Dict.get? conf.dict.subs "data_trafo" = some trafo ∧
    Dict.get? trafo.subs "data_handler" = some recorded ∧
    Compat h.dict recorded

/-- All models of the manager can be used with its data handler. -/
def Consistent (manager : Comp V D) : Prop :=
  ∀ n m, (n, m) ∈ manager.subs → n ≠ "data_handler" → Serves manager m

/-- The configurations of all parts were made by the constructor (C01). -/
def PartsWF (manager : Comp V D) : Prop :=
  ∀ n m conf, (n, m) ∈ manager.subs → m.conf = some conf → WF conf.dict

end Verif.Manager
