/-
Independent specification for C127: the variables that belong to a model.
-/
import Verif.Variables.Model

namespace Verif.Variables

/-- The variable belongs to the model itself or to one of its sub components. -/
def Belongs (o : Obj) (v : Var) : Prop := v ∈ o.attrs ∨ ∃ name vs, (name, some vs) ∈ o.subs ∧ v ∈ vs

/-- The variables of the model are the same as those of the other one. -/
def SameVars (o o' : Obj) : Prop := ∀ v, Belongs o v ↔ Belongs o' v

/-- The variables that the changes bring in. -/
def Mentions (acts : List Act) (v : Var) : Prop := .add v ∈ acts ∨ ∃ name, .addSub name v ∈ acts

/-- One identity stands for one variable. -/
def OneName (o : Obj) (acts : List Act) : Prop :=
  ∀ v w, Belongs o v ∨ Mentions acts v → Belongs o w ∨ Mentions acts w → v.id = w.id → v = w

/-- Each variable is in the object only once. -/
def Once (attrs : List Var) (subs : List (String × Option (List Var))) : Prop :=
  ((attrs ++ subVars subs).map Var.id).Nodup

end Verif.Variables
