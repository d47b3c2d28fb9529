/-
Independent specification for C125 and C126: what a configuration shows, and programs that leave shared
objects alone.
-/
import Verif.Alias.Model

namespace Verif.Alias
open Verif.Py

variable {C K : Type}

/-- The contents behind a dictionary of objects. -/
def view (m : Mem C) (d : Dict String Nat) : Dict String (Option (Obj C)) := d.map fun ka => (ka.1, m[ka.2]?)

/-- What a configuration shows. -/
def St.settings (s : St C) := view s.mem s.cfg.settings
def St.mutableSettings (s : St C) := view s.mem s.cfg.mutable
def St.config (s : St C) := view s.mem s.cfg.config
def St.dependent (s : St C) : Option (Obj C) := s.mem[s.cfg.deps]?
def St.mutableSubs (s : St C) : Option (Obj C) := s.mem[s.cfg.muts]?

/-- A program that does not change objects after it has passed them to `update_mutable_settings`. -/
def Careful (ops : List (Op C)) : Prop :=
  ∀ pre new post, ops = pre ++ .update new :: post → ∀ k a, (k, a) ∈ new → ∀ o, .write a o ∉ post

/-- A program that does not ask for the lists of names. -/
def NoLists (ops : List (Op C)) : Prop := .getDeps ∉ ops ∧ .getMuts ∉ ops

/-- A configuration that was just made from objects in memory: all of these are known to the program, and of
the memory of the configuration it knows nothing else. -/
def Made (s : St C) : Prop :=
  ∃ (m : Mem C) (settings mutab : Dict String Nat) (deps muts subs : List String),
    Cfg.init m settings mutab deps muts subs = (s.mem, .ok s.cfg) ∧ s.known = List.range m.length ∧
    settings.Ok ∧ mutab.Ok ∧ (∀ k a, (k, a) ∈ settings → a < m.length) ∧ ∀ k a, (k, a) ∈ mutab → a < m.length

/-- The sub components that a multi source should have: the sources it was configured with, and its data
transformation, if any, as `data_trafo`. -/
def Multi.Right (m : Multi K) (d : Dict String K) : Prop :=
  match m.trafo with
  | some t => Dict.get? d "data_trafo" = some t ∧ ∀ k, k ≠ "data_trafo" → Dict.get? d k = Dict.get? m.base k
  | none => d = m.base

/-- The program step changes the dictionary `a` or passes it to a multi source. -/
def Touches : Act K → Nat → Prop
  | .new _, _ => False
  | .set b _ _, a => b = a
  | .del b _, a => b = a
  | .configure b _, a => b = a

/-- A program in which each dictionary is passed to at most one multi source and is not changed after that. -/
def OwnDicts (acts : List (Act K)) : Prop :=
  ∀ pre a t post, acts = pre ++ .configure a t :: post → ∀ x, x ∈ post → ¬ Touches x a

end Verif.Alias
