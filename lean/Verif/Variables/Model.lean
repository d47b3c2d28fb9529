/-
Model of the check of a model's variables before its weights are saved. `egenerator/model/base.py`:
`Model._configure`, `Model.save_weights`, `Model.load_weights`.
-/
import Verif.Py.Dict
import Verif.Py.Sort
import Mathlib.Data.String.Basic

namespace Verif.Variables
open Verif.Py

/-- A `tf.Variable`: its identity and its name. -/
structure Var where
  id : Nat
  name : String
  deriving DecidableEq

/-- The parts of a model object in which `tf.Module` finds variables: `attrs` are the variables in attributes
and in the untracked data (with the step counter of base.py:117), without the recorded ones; `subs` are the sub
components with their variables, `none` for those that are no `tf.Module`; `linked` is whether the attribute
`_sub_components` has them; `recorded` is `_untracked_data['variables']`. -/
structure Obj where
  attrs : List Var
  subs : List (String × Option (List Var))
  linked : Bool
  recorded : List Var

/-- The first occurrence of each variable: `tf.Module` collects each object once. -/
def dedup : List Var → List Var
  | [] => []
  | v :: l => v :: (dedup l).filter fun w => w.id ≠ v.id

/-- The variables of the sub components that are modules, base.py:123-126. -/
def subVars : List (String × Option (List Var)) → List Var
  | [] => []
  | (_, some vs) :: subs => vs ++ subVars subs
  | (_, none) :: subs => subVars subs

/-- `self.variables` of `tf.Module` (by contract): all variables that are found in the attributes of the object,
among these the untracked data with the recorded variables, and `_sub_components`. The order does not matter
here. -/
def Obj.variables (o : Obj) : List Var :=
  dedup (o.attrs ++ o.recorded ++ if o.linked then subVars o.subs else [])

/-- The end of `Model._configure`, base.py:117-128, called by `configure` (manager/component.py:662-663) or by
`load_weights` (base.py:556-566). Afterwards the sub components are part of the object in both cases. -/
def Obj.record (o : Obj) : Obj :=
  { o with recorded := o.variables ++ subVars o.subs, linked := true }

/-- `configure`: the sub components are not part of the object before. -/
def configure (attrs : List Var) (subs : List (String × Option (List Var))) : Obj :=
  Obj.record { attrs := attrs, subs := subs, linked := false, recorded := [] }

/-- `load`: the sub components are loaded first (manager/component.py:960), then `_load` (997) rebuilds the model
(base.py:566). -/
def load (attrs : List Var) (subs : List (String × Option (List Var))) : Obj :=
  Obj.record { attrs := attrs, subs := subs, linked := true, recorded := [] }

/-- The check at the start of `save_weights`, base.py:288-296. -/
def Obj.check (o : Obj) : Except Err Unit :=
  if sortBy (fun a b => decide (a ≤ b)) (o.variables.map Var.name) =
      sortBy (fun a b => decide (a ≤ b)) (o.recorded.map Var.name) then .ok ()
  else .error .valueError

/-- A change of the model after it was configured. -/
inductive Act where
  /-- a variable is stored in an attribute or in the untracked data -/
  | add (v : Var)
  /-- an attribute with this variable is deleted or overwritten -/
  | remove (v : Var)
  /-- the sub component `name` gets one more variable -/
  | addSub (name : String) (v : Var)
  /-- the sub component `name` is removed -/
  | dropSub (name : String)

def addTo (name : String) (v : Var) (s : String × Option (List Var)) : String × Option (List Var) :=
  if s.1 = name then (s.1, s.2.map (v :: ·)) else s

def Obj.step (o : Obj) : Act → Obj
  | .add v => { o with attrs := v :: o.attrs }
  | .remove v => { o with attrs := o.attrs.filter (· ≠ v) }
  | .addSub name v => { o with subs := o.subs.map (addTo name v) }
  | .dropSub name => { o with subs := o.subs.filter fun s => s.1 ≠ name }

def Obj.run (o : Obj) : List Act → Obj
  | [] => o
  | a :: acts => Obj.run (o.step a) acts

end Verif.Variables
