/-
Model of `egenerator/utils/learning_rate.py` and of the parts of
`egenerator/manager/base.py` that deal with ensembles of models and with a
training step.

Steps and boundaries are elements of any ordered commutative group (integers in
practice), learning rates are of any type. Tensors are of any type; what
TensorFlow computes from them is a parameter.
-/
import Verif.Component.Model
import Verif.Component.Object
import Verif.Py.Sort
import Mathlib.Algebra.Order.Group.Defs
import Mathlib.Algebra.Order.Ring.Defs
import Mathlib.Algebra.Order.Group.Abs
import Mathlib.Data.String.Basic

namespace Verif.Training
open Verif.Py Verif.Component

/-! ### The learning rate schedule -/

/-- A `MultiLearningRateScheduler` object: `boundaries` after the cast to the type of the step
(learning_rate.py:65), and `schedulers`. -/
structure MultiLR (K R : Type) where
  boundaries : List K
  schedulers : List (K → R)

/-- `__init__` (learning_rate.py:41-59). The schedulers are given as built; loading their classes is
not modelled. -/
def MultiLR.init {K R : Type} (boundaries : List K) (schedulers : List (K → R)) :
    Except Err (MultiLR K R) :=
  if (boundaries.length : Int) ≠ (schedulers.length : Int) - 1 then .error .valueError
  else .ok ⟨boundaries, schedulers⟩

/-- `tf.case(pairs, exclusive=True)` without a default: exactly one predicate must be true, else an
`InvalidArgumentError` (here `runtimeError`) is raised. -/
def tfCase {R : Type} (pairs : List (Bool × R)) : Except Err R :=
  match pairs.filter (fun p => p.1) with
  | [p] => .ok p.2
  | _ => .error .runtimeError

/-- The branches of the loop in `__call__` (learning_rate.py:78-86): predicate, scheduler and lower
boundary. -/
def middlePairs {K R : Type} [LinearOrder K] (s : K) : List K → List (K → R) →
    List (Bool × (K → R) × K)
  | low :: high :: bs, f :: fs =>
    (decide (s > low) && decide (s ≤ high), f, low) :: middlePairs s (high :: bs) fs
  | _, _ => []

/-- What the lambdas of the loop return when they are called after the loop (learning_rate.py:83-88).
If `late` is false each lambda has the values of its own iteration, otherwise all have those of the
last iteration. -/
def callPairs {K R : Type} [Sub K] (late : Bool) (s : K) (mid : List (Bool × (K → R) × K)) :
    List (Bool × R) :=
  match late, mid.getLast? with
  | true, some q => mid.map (fun p => (p.1, q.2.1 (s - q.2.2)))
  | _, _ => mid.map (fun p => (p.1, p.2.1 (s - p.2.2)))

/-- `__call__` (learning_rate.py:61-88). The lambdas of the loop are called after the loop. If
`late` is false the loop body has its own variables, as in the code AutoGraph generates for a
`tf.function` (variables that are neither read before nor after the loop are local to the loop
body). If `late` is true the lambdas see the values of the last iteration, as in plain Python
(`tf.config.run_functions_eagerly(True)`). An index into an empty list of boundaries raises. -/
def MultiLR.call {K R : Type} [LinearOrder K] [Sub K] (late : Bool) (m : MultiLR K R) (s : K) :
    Except Err R :=
  match m.boundaries.head?, m.boundaries.getLast?, m.schedulers.head?, m.schedulers.getLast? with
  | some first, some last, some f, some g =>
    tfCase ((decide (s ≤ first), f s) :: (decide (s > last), g (s - last)) ::
      callPairs late s (middlePairs s m.boundaries (m.schedulers.drop 1).dropLast))
  | _, _, _, _ => .error .valueError

/-! ### Ensembles of models -/

/-- A model of an ensemble: its `parameter_names`, its configuration, and the configuration and data
of its `data_trafo`, which is assumed to exist. -/
structure Mdl (V D : Type) where
  names : List String
  conf : Cfg V
  trafo : Cfg V
  data : Dict String D

/-- An entry of `sub_components` of a manager. -/
inductive Sub (V D : Type) where
  | handler (c : Cfg V)
  | model (m : Mdl V D)

section
variable {V D : Type} [DecidableEq V]

/-- `Configuration(**d)` for a stored configuration (component.py:117-207): the checks that may
raise. -/
def initChecks (d : Cfg V) : Except Err Unit :=
  match checkNames d.subs d.deps with
  | .error e => .error e
  | .ok _ =>
    match combineSettings d.settings d.mutable with
    | .error e => .error e
    | .ok _ => .ok ()

/-- The body of the loop of `_check_sub_component_compatibility` for one model
(manager/base.py:204-225). -/
def checkHandler (handler : Cfg V) (m : Mdl V D) : Except Err Unit :=
  match Dict.get? m.conf.subs "data_trafo" with
  | none => .error .keyError
  | some t =>
    match initChecks t with
    | .error e => .error e
    | .ok _ =>
      match Dict.get? t.subs "data_handler" with
      | none => .error .keyError
      | some h =>
        match initChecks h with
        | .error e => .error e
        | .ok _ =>
          match handler.isCompatible h with
          | .error e => .error e
          | .ok true => .ok ()
          | .ok false => .error .valueError

/-- `_check_sub_component_compatibility` (manager/base.py:185-225). Entries other than the data
handler are models. -/
def checkSubs (handler : Cfg V) : Dict String (Sub V D) → Except Err Unit
  | [] => .ok ()
  | (_, .handler _) :: rest => checkSubs handler rest
  | (_, .model m) :: rest =>
    match checkHandler handler m with
    | .error e => .error e
    | .ok _ => checkSubs handler rest

/-- The comparison of the data of two data transformations (manager/base.py:179-183). `differ a b` is
`np.any(a != b)`, which may raise. -/
def checkData (differ : D → D → Except Err Bool) (other : Dict String D) :
    Dict String D → Except Err Unit
  | [] => .ok ()
  | (k, v) :: rest =>
    match Dict.get? other k with
    | none => .error .keyError
    | some w =>
      match differ v w with
      | .error e => .error e
      | .ok true => .error .valueError
      | .ok false => checkData differ other rest

/-- The loop of `_check_model_ensemble_compatibility` (manager/base.py:157-183). If the keys of the
data differ, building the message raises an `AttributeError` (`data_trafo_i.keys()`, line 176). -/
def checkLoop (differ : D → D → Except Err Bool) (first : Mdl V D) :
    List (Mdl V D) → Except Err Unit
  | [] => .ok ()
  | m :: rest =>
    if first.names ≠ m.names then .error .valueError
    else
      match first.trafo.isCompatible m.trafo with
      | .error e => .error e
      | .ok false => .error .valueError
      | .ok true =>
        if !((Dict.keys first.data).all (fun k => Dict.has m.data k) &&
            (Dict.keys m.data).all (fun k => Dict.has first.data k)) then .error .attributeError
        else
          match checkData differ m.data first.data with
          | .error e => .error e
          | .ok _ => checkLoop differ first rest

/-- `_check_model_ensemble_compatibility` (manager/base.py:136-183). -/
def checkEnsemble (differ : D → D → Except Err Bool) : List (Mdl V D) → Except Err Unit
  | [] => .error .indexError
  | m :: rest => checkLoop differ m (m :: rest)

/-- The entries for the models (manager/base.py:119-120), from number `i` on. -/
def modelEntries : Nat → List (Mdl V D) → Dict String (Sub V D)
  | _, [] => []
  | i, m :: rest => ("models_" ++ pad4 i, .model m) :: modelEntries (i + 1) rest

/-- `_configure` (manager/base.py:115-134): returns the sub components. The configuration object is
not modelled. -/
def configure (differ : D → D → Except Err Bool) (handler : Cfg V) (models : List (Mdl V D)) :
    Except Err (Dict String (Sub V D)) :=
  let subs : Dict String (Sub V D) := ("data_handler", .handler handler) :: modelEntries 0 models
  match checkSubs handler subs with
  | .error e => .error e
  | .ok _ =>
    match checkEnsemble differ models with
    | .error e => .error e
    | .ok _ => .ok subs

/-- The loop over the sorted names in `models` (manager/base.py:47-49). -/
def collect (subs : Dict String (Sub V D)) : List String → List (Sub V D)
  | [] => []
  | k :: ks =>
    match Dict.get? subs k with
    | some s => s :: collect subs ks
    | none => collect subs ks

/-- The property `models` (manager/base.py:38-54); the cache is not modelled. `sorted` orders strings
by their characters. -/
def models (subs : Dict String (Sub V D)) : Option (List (Sub V D)) :=
  if Dict.has subs "models_0000" then
    some (collect subs (sortBy (fun a b : String => decide (a ≤ b))
      ((Dict.keys subs).filter (fun k => decide ("models_".toList = k.toList.take 7)))))
  else none
end

/-! ### The training step -/

/-- What TensorFlow provides. `isNan`: whether `tf.is_nan` exists (it does not in TensorFlow 2).
`clean g` replaces nan by zero, `clip c gs` is the factor applied by
`tf.clip_by_global_norm(gs, c)` to each gradient, `finite g` whether the mean of `g` is finite. -/
structure TF (G C : Type) where
  isNan : Bool
  clean : G → G
  clip : C → List (Option G) → G → G
  finite : G → Bool

/-- The removal of nan (manager/base.py:583-585): gradients that are `None` are dropped. -/
def removeNan {G C : Type} (tf : TF G C) (grads : List (Option G)) :
    Except Err (List (Option G)) :=
  match grads.filterMap id with
  | [] => .ok []
  | gs => if tf.isNan then .ok (gs.map (fun g => some (tf.clean g))) else .error .attributeError

/-- The loop of assertions (manager/base.py:598-604): `None` has no mean. -/
def assertFinite {G C : Type} (tf : TF G C) : List (Option G) → Except Err (List G)
  | [] => .ok []
  | none :: _ => .error .valueError
  | some g :: rest =>
    match assertFinite tf rest with
    | .error e => .error e
    | .ok gs => if tf.finite g then .ok (g :: gs) else .error .runtimeError

/-- `optimizer.apply_gradients(zip(gradients, variables))` (manager/base.py:606): the pairs are made by
position, variables without partner keep their value. -/
def applyGradients {W G : Type} (upd : W → G → W) : List G → List W → List W
  | g :: gs, w :: ws => upd w g :: applyGradients upd gs ws
  | _, ws => ws

/-- The clipping (manager/base.py:587-595); `None` stays `None`. -/
def capGradients {G C : Type} (tf : TF G C) (clip : Option C) (grads : List (Option G)) :
    List (Option G) :=
  match clip with
  | some c => grads.map (Option.map (tf.clip c grads))
  | none => grads

/-- `perform_training_step` (manager/base.py:567-608) after the gradients were computed: `vars` are
the variables of all models and `grads` the result of `tape.gradient`, of the same length.
Returns the new values of the variables. `apply_gradients` raises for an empty list. -/
def trainingStep {W G C : Type} (tf : TF G C) (upd : W → G → W) (remove : Bool) (clip : Option C)
    (vars : List W) (grads : List (Option G)) : Except Err (List W) :=
  match (if remove then removeNan tf grads else .ok grads) with
  | .error e => .error e
  | .ok grads =>
    match assertFinite tf (capGradients tf clip grads) with
    | .error e => .error e
    | .ok gs => if gs = [] then .error .valueError else .ok (applyGradients upd gs vars)

section
variable {K : Type} [CommRing K] [LinearOrder K] [IsStrictOrderedRing K]

/-- `tf.add_n([...])`, which raises for an empty list. -/
def addN : List K → Except Err K
  | [] => .error .valueError
  | l => .ok l.sum

/-- `regularization_loss` (manager/base.py:432-456); a variable is the list of its entries. -/
def regLoss (l1 l2 : K) (vars : List (List K)) : Except Err K :=
  match (if l1 > 0 then addN (vars.map (fun v => (v.map (fun x => |x|)).sum)) else .ok 0) with
  | .error e => .error e
  | .ok a =>
    match (if l2 > 0 then addN (vars.map (fun v => (v.map (fun x => x ^ 2)).sum)) else .ok 0) with
    | .error e => .error e
    | .ok b => .ok (a + b)

/-- `get_loss` (manager/base.py:494-534), from a combined loss on: each model is its loss (or the
exception raised) and its trainable variables. `none` is Python's `None`. -/
def getLoss (l1 l2 : K) : Option K → List (Except Err K × List (List K)) → Except Err (Option K)
  | acc, [] => .ok acc
  | acc, (loss, vars) :: rest =>
    match loss with
    | .error e => .error e
    | .ok v =>
      match regLoss l1 l2 vars with
      | .error e => .error e
      | .ok r =>
        match acc with
        | none => getLoss l1 l2 (some (v + r)) rest
        | some a => getLoss l1 l2 (some (a + (v + r))) rest
end

end Verif.Training
