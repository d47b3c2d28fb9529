/-
What the properties of schedules, ensembles and training steps say, without the model's helpers.
-/
import Verif.Training.Model
import Verif.Component.Spec

namespace Verif.Training
open Verif.Py Verif.Component

/-- `s` lies in interval number `i` of the intervals `(-∞, b₀], (b₀, b₁], ..., (bₙ₋₁, ∞)`. -/
def InInterval {K : Type} [LinearOrder K] (bs : List K) (i : Nat) (s : K) : Prop :=
  i ≤ bs.length ∧ (∀ b : K, 0 < i → bs[i - 1]? = some b → b < s) ∧ (∀ b : K, bs[i]? = some b → s ≤ b)

/-- Where interval number `i` starts to count. -/
def start {K : Type} [Zero K] (bs : List K) (i : Nat) : K :=
  if i = 0 then 0 else (bs[i - 1]?).getD 0

/-- The data handler stored in the data transformation of a model is compatible with `handler`. -/
def HandlerFits {V D : Type} (handler : Cfg V) (m : Mdl V D) : Prop :=
  ∃ t h : Cfg V, Dict.get? m.conf.subs "data_trafo" = some t ∧
    Dict.get? t.subs "data_handler" = some h ∧ Compat handler h

/-- The data transformations of two models agree: compatible configurations, the same data. -/
def TrafoFits {V D : Type} (differ : D → D → Except Err Bool) (a b : Mdl V D) : Prop :=
  Compat a.trafo b.trafo ∧ (∀ k, k ∈ Dict.keys a.data ↔ k ∈ Dict.keys b.data) ∧
  ∀ k x y, Dict.get? a.data k = some x → Dict.get? b.data k = some y → differ x y = .ok false

/-- The gradient a variable is updated with, for the gradient `g` of that variable: clipped if asked
for. -/
def clipped {G C : Type} (tf : TF G C) (clip : Option C) (grads : List (Option G)) (g : G) : G :=
  match clip with
  | some c => tf.clip c grads g
  | none => g

/-- The regularization a user asks for. -/
def weighted {K : Type} [CommRing K] [LinearOrder K] (l1 l2 : K) (vars : List (List K)) : K :=
  l1 * (vars.flatten.map (fun x => |x|)).sum + l2 * (vars.flatten.map (fun x => x ^ 2)).sum

end Verif.Training
