/-
Independent specification for C20.
-/
import Verif.Generator.Model

namespace Verif.Generator

variable {E : Type}

/-- The events of all files, in file order. -/
def allEvents (c : Cfg E) : List E := c.files.flatMap (fun f => f.getD [])

/-- What a consumer should receive: all events, once per repetition. -/
def expected (c : Cfg E) : List E := (List.replicate c.reps (allEvents c)).flatten

/-- No process can act. -/
def Stuck (c : Cfg E) (s : St E) : Prop := ∀ s', ¬ Step c s s'

/-- All processes have ended, or wait forever if the consumer has not ended. -/
def Hangs (c : Cfg E) (s : St E) : Prop := Stuck c s ∧ s.cons ≠ .done

end Verif.Generator
