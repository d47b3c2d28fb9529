/-
Model of the objects behind configurations and multi sources: which of them are copied and which are shared
with the caller. `egenerator/manager/component.py`: `Configuration`, `egenerator/model/multi_source/base.py`:
`MultiSource._configure_derived_class`.
-/
import Verif.Py.Dict

namespace Verif.Alias
open Verif.Py

/-! ## Configurations -/

section
variable {C : Type}

/-- An object that can be changed in place: the value of a setting with its content, or a list of names. -/
inductive Obj (C : Type) where
  | val (c : C)
  | names (l : List String)
  deriving DecidableEq

/-- The memory: the object with address `i` is entry `i`. -/
abbrev Mem (C : Type) := List (Obj C)

/-- The objects of a configuration, component.py:186-207: `settings`, `mutable` and `config` (`_config`) are
dictionaries with addresses as values, `deps` and `muts` are the addresses of the lists of dependent and
mutable sub components, `subs` are the names of the configurations of sub components. The version, the
class string and the check values are not modelled. -/
structure Cfg where
  settings : Dict String Nat
  mutable : Dict String Nat
  config : Dict String Nat
  deps : Nat
  muts : Nat
  subs : List String

/-- `deepcopy` of a dictionary: a new object with the same content for each value. Simplification: one object
under two keys is copied twice (in Python the two copies are one object again). -/
def copyDict (m : Mem C) : Dict String Nat → Mem C × Dict String Nat
  | [] => (m, [])
  | (k, a) :: d =>
    match m[a]? with
    | some o =>
      let r := copyDict (m ++ [o]) d
      (r.1, (k, m.length) :: r.2)
    | none => copyDict m d

/-- `_combine_settings`, component.py:251-274, on copies of both dictionaries (the getters at 82-88 copy). -/
def combine (m : Mem C) (settings mutab : Dict String Nat) : Mem C × Except Err (Dict String Nat) :=
  if settings.keys.any fun k => mutab.has k then (m, .error .valueError)
  else
    let r := copyDict m settings
    let s := copyDict r.1 mutab
    (s.1, .ok (Dict.update r.2 s.2))

/-- `Configuration(...)`, component.py:186-207: `subs` are the keys of `sub_component_configurations`. -/
def Cfg.init (m : Mem C) (settings mutab : Dict String Nat) (deps muts subs : List String) :
    Mem C × Except Err Cfg :=
  let r := copyDict m settings
  let s := copyDict r.1 mutab
  let m := s.1 ++ [.names deps, .names muts]
  if deps.any fun n => !subs.contains n then (m, .error .keyError)
  else
    match combine m r.2 s.2 with
    | (m, .error e) => (m, .error e)
    | (m, .ok config) =>
      (m, .ok { settings := r.2, mutable := s.2, config := config, deps := s.1.length
                muts := s.1.length + 1, subs := subs })

/-- The loop of `update_mutable_settings`, component.py:218-222: the given object itself is stored. -/
def updateLoop (mutab : Dict String Nat) : Dict String Nat → Dict String Nat × Option Err
  | [] => (mutab, none)
  | (k, a) :: new => if mutab.has k then updateLoop (mutab.set k a) new else (mutab, some .keyError)

/-- `update_mutable_settings`, component.py:209-225. -/
def Cfg.update (m : Mem C) (c : Cfg) (new : Dict String Nat) : Mem C × Cfg × Option Err :=
  match updateLoop c.mutable new with
  | (mutab, some e) => (m, { c with mutable := mutab }, some e)
  | (mutab, none) =>
    match combine m c.settings mutab with
    | (m, .error e) => (m, { c with mutable := mutab }, some e)
    | (m, .ok config) => (m, { c with mutable := mutab, config := config }, none)

/-- `add_dependent_sub_components` and `add_mutable_sub_components`, component.py:243-249: the list at `a` is
extended in place. -/
def addNames (m : Mem C) (c : Cfg) (a : Nat) (new : List String) : Mem C × Option Err :=
  if new.any fun n => !c.subs.contains n then (m, some .keyError)
  else
    match m[a]? with
    | some (.names l) => (m.set a (.names (l ++ new)), none)
    | _ => (m, some .attributeError)

/-- What the program that uses the configuration can do. -/
inductive Op (C : Type) where
  /-- it creates an object -/
  | new (o : Obj C)
  /-- it changes an object that it knows -/
  | write (a : Nat) (o : Obj C)
  /-- `settings`, `mutable_settings` and `config`, component.py:82-88, 106-115 -/
  | getSettings | getMutable | getConfig
  /-- `dependent_sub_components` and `mutable_sub_components`, component.py:94-100 -/
  | getDeps | getMuts
  | update (new : Dict String Nat)
  | addDeps (new : List String)
  | addMuts (new : List String)

/-- The state: `known` are the objects that the program can reach. -/
structure St (C : Type) where
  mem : Mem C
  cfg : Cfg
  known : List Nat

/-- A getter that returns copies: the program knows these afterwards. -/
def St.give (s : St C) (d : Dict String Nat) : St C :=
  let r := copyDict s.mem d
  { s with mem := r.1, known := s.known ++ r.2.map Prod.snd }

/-- One step of the program, with the exception that it gets. It can only change and pass objects that it
knows. -/
def St.step (s : St C) : Op C → St C × Option Err
  | .new o => ({ s with mem := s.mem ++ [o], known := s.known ++ [s.mem.length] }, none)
  | .write a o => if s.known.contains a then ({ s with mem := s.mem.set a o }, none) else (s, none)
  | .getSettings => (s.give s.cfg.settings, none)
  | .getMutable => (s.give s.cfg.mutable, none)
  | .getConfig => (s.give s.cfg.config, none)
  | .getDeps => ({ s with known := s.known ++ [s.cfg.deps] }, none)
  | .getMuts => ({ s with known := s.known ++ [s.cfg.muts] }, none)
  | .update new =>
    if new.all fun ka => s.known.contains ka.2 then
      let r := s.cfg.update s.mem new
      ({ s with mem := r.1, cfg := r.2.1 }, r.2.2)
    else (s, none)
  | .addDeps new =>
    let r := addNames s.mem s.cfg s.cfg.deps new
    ({ s with mem := r.1 }, r.2)
  | .addMuts new =>
    let r := addNames s.mem s.cfg s.cfg.muts new
    ({ s with mem := r.1 }, r.2)

/-- A run of the program. -/
def St.run (s : St C) : List (Op C) → St C
  | [] => s
  | op :: ops => St.run (s.step op).1 ops

end

/-! ## Multi sources -/

section
variable {K : Type}

/-- A configured multi source: the address of the dictionary of its sub components, the base sources and the
data transformation that it was configured with. -/
structure Multi (K : Type) where
  subs : Nat
  base : Dict String K
  trafo : Option K

/-- The dictionaries in memory and the multi sources made so far. -/
structure World (K : Type) where
  dicts : List (Dict String K)
  multis : List (Multi K)

/-- What the program that makes multi sources can do: create a dictionary of sources, set or remove an entry,
and configure a multi source with a dictionary. -/
inductive Act (K : Type) where
  | new (d : Dict String K)
  | set (a : Nat) (k : String) (v : K)
  | del (a : Nat) (k : String)
  | configure (a : Nat) (trafo : Option K)

/-- One step. For `configure`: model/multi_source/base.py:215-217 and 245, manager/component.py:662-663:
the data transformation is written to the dictionary of the caller, which becomes the dictionary of sub
components. -/
def World.step (w : World K) : Act K → World K
  | .new d => { w with dicts := w.dicts ++ [d] }
  | .set a k v =>
    match w.dicts[a]? with
    | some d => { w with dicts := w.dicts.set a (d.set k v) }
    | none => w
  | .del a k =>
    match w.dicts[a]? with
    | some d => { w with dicts := w.dicts.set a (d.filter fun kv => kv.1 ≠ k) }
    | none => w
  | .configure a trafo =>
    match w.dicts[a]? with
    | some d =>
      let d' := match trafo with
        | some t => d.set "data_trafo" t
        | none => d
      { dicts := w.dicts.set a d', multis := w.multis ++ [⟨a, d, trafo⟩] }
    | none => w

/-- A run. -/
def World.run (w : World K) : List (Act K) → World K
  | [] => w
  | x :: xs => World.run (w.step x) xs

/-- `multi_source.sub_components`. -/
def World.subComponents (w : World K) (m : Multi K) : Dict String K := (w.dicts[m.subs]?).getD []

end

end Verif.Alias
