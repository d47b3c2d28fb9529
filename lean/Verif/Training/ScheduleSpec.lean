import Verif.Training.ScheduleModel

/-! # Specification for C145: what settings describe -/

namespace Verif.Training
open Verif.Py
variable {V C O : Type}

/-- The scheduler `o` is an object of the class that the settings name, made with the arguments they give. -/
def DescribedBy (W : Classes V C O) (settings : Dict String V) (o : O) : Prop :=
  ∃ name cls args, Dict.get? settings "full_class_string" = some name ∧ W.load name = .ok cls ∧
    Dict.get? settings "settings" = some args ∧ W.call cls args = .ok o

end Verif.Training
