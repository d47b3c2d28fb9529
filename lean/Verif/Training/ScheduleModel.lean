import Verif.Training.Model

/-!
Model of how learning rate schedules are built from settings (`egenerator/utils/learning_rate.py`) and of how the
optimizer gets them (`egenerator/manager/base.py`).

`V` are the values in a configuration, `C` classes, `O` schedulers.
-/

namespace Verif.Training
open Verif.Py

/-- What the code asks of Python: `load` is `misc.load_class`, `call` calls a class with keyword arguments, `asDict`
is the dictionary that a value is, if it is one. -/
structure Classes (V C O : Type) where
  load : V → Except Err C
  call : C → V → Except Err O
  asDict : V → Option (Dict String V)

variable {K V C O : Type}

/-- One scheduler from its settings (learning_rate.py:48-51, manager/base.py:697-698). -/
def buildScheduler (W : Classes V C O) (settings : Dict String V) : Except Err O :=
  match Dict.get? settings "full_class_string" with
  | none => .error .keyError
  | some name =>
    match W.load name with
    | .error e => .error e
    | .ok cls =>
      match Dict.get? settings "settings" with
      | none => .error .keyError
      | some args => W.call cls args

/-- The loop over the settings (learning_rate.py:46-51). -/
def buildSchedulers (W : Classes V C O) : List (Dict String V) → Except Err (List O)
  | [] => .ok []
  | s :: rest =>
    match buildScheduler W s with
    | .error e => .error e
    | .ok o =>
      match buildSchedulers W rest with
      | .error e => .error e
      | .ok os => .ok (o :: os)

/-- The attributes of a `MultiLearningRateScheduler` (learning_rate.py:56-59). -/
structure Schedule (K V O : Type) where
  boundaries : List K
  settings : List (Dict String V)
  schedulers : List O
  name : String

/-- `MultiLearningRateScheduler.__init__` (learning_rate.py:10-59). Simplified: the conversion of the boundaries to
a tensor, which leaves a tensor as it is, is left out. -/
def Schedule.create (W : Classes V C O) (boundaries : List K) (settings : List (Dict String V))
    (name : Option String) : Except Err (Schedule K V O) :=
  if (boundaries.length : Int) ≠ (settings.length : Int) - 1 then .error .valueError
  else
    match buildSchedulers W settings with
    | .error e => .error e
    | .ok os =>
      .ok ⟨boundaries, settings, os, match name with | none => "MultiLearningRateScheduler" | some n => n⟩

/-- `get_config` (learning_rate.py:90-95): the keyword arguments. -/
def Schedule.getConfig (m : Schedule K V O) : List K × List (Dict String V) × String :=
  (m.boundaries, m.settings, m.name)

/-- The schedule as `__call__` sees it (learning_rate.py:61-88); `rate` calls a scheduler. -/
def Schedule.toLR {R : Type} (rate : O → K → R) (m : Schedule K V O) : MultiLR K R :=
  ⟨m.boundaries, m.schedulers.map rate⟩

/-- `d.pop(k)` for its effect on the dictionary. -/
def popKey {α : Type} (d : Dict String α) (k : String) : Dict String α := d.filter fun kv => kv.1 ≠ k

/-- The keyword arguments of the optimizer (manager/base.py:683-702), from the settings in the configuration: a copy
of these, in which a learning rate that is a dictionary is replaced by the scheduler it describes. -/
def optimizerArgs (W : Classes V C O) (settings : Dict String V) : Except Err (Dict String (V ⊕ O)) :=
  let copy : Dict String (V ⊕ O) := settings.map fun kv => (kv.1, .inl kv.2)
  match Dict.get? settings "learning_rate" with
  | none => .ok copy
  | some v =>
    match W.asDict v with
    | none => .ok copy
    | some cfg =>
      match buildScheduler W cfg with
      | .error e => .error e
      | .ok o => .ok (Dict.set (popKey copy "learning_rate") "learning_rate" (.inr o))

end Verif.Training
