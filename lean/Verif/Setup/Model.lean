/-
Model of `egenerator/settings/setup_manager.py`, class `SetupManager`.

Values of settings are strings, dictionaries, and everything else (numbers, lists, types), which the
code does not look into. Keys are strings. Shared nodes of a YAML file (anchors) are not modelled.
-/
import Verif.Py.Dict

namespace Verif.Setup
open Verif.Py

/-- A value of a configuration. -/
inductive Val where
  | str (s : String)
  | other (n : Nat)
  | dict (d : List (String × Val))

/-- A configuration. -/
abbrev Config := Dict String Val

/-! ### Merging -/

/-- The outcome of reading one file: its name and what `yaml_loader.load(open(file))` returns or
raises (setup_manager.py:91-92); `none` is a document that is not a dictionary, which has no `keys`. -/
structure File where
  name : String
  content : Except Err (Option Config)

/-- The name of the configuration (setup_manager.py:83-87). `base` is
`os.path.basename(...).replace('.yaml', '')`. -/
def addName (base : String → String) (acc : Option String) (file : String) : String :=
  match acc with
  | none => base file
  | some s => s ++ ("__" ++ base file)

/-- The loop over the files (setup_manager.py:78-102). -/
def mergeLoop (base : String → String) :
    Config → Option String → List File → Except Err (Config × Option String)
  | cfg, name, [] => .ok (cfg, name)
  | cfg, name, f :: fs =>
    match f.content with
    | .error e => .error e
    | .ok none => .error .attributeError
    | .ok (some new) =>
      if cfg.keys.any (fun k => new.has k) then .error .valueError
      else mergeLoop base (cfg.update new) (some (addName base name f.name)) fs

/-! ### Expansion of strings -/

/-- The text of a replacement field up to the closing brace, and the rest. -/
def field : List Char → Option (List Char × List Char)
  | [] => none
  | '}' :: r => some ([], r)
  | c :: r =>
    match field r with
    | none => none
    | some (a, b) => some (c :: a, b)

theorem field_length : ∀ (l a b : List Char), field l = some (a, b) → b.length < l.length
  | [], a, b, h => by simp [field] at h
  | c :: r, a, b, h => by
    by_cases hc : c = '}'
    · subst hc
      simp [field] at h
      simp [← h.2]
    · rw [field] at h
      · cases hf : field r with
        | none => rw [hf] at h; cases h
        | some p =>
          rw [hf] at h
          cases h
          have := field_length r p.1 p.2 hf
          simp only [List.length_cons]
          omega
      · exact fun h => hc h

/-- `str.format(**cfg)` on the characters of the string: doubled braces stand for themselves, a field
is replaced by what `render` gives for its text. Fields inside a format specification are not
modelled. -/
def formatChars (render : String → Except Err String) : List Char → Except Err (List Char)
  | [] => .ok []
  | '{' :: '{' :: r =>
    match formatChars render r with
    | .error e => .error e
    | .ok t => .ok ('{' :: t)
  | '}' :: '}' :: r =>
    match formatChars render r with
    | .error e => .error e
    | .ok t => .ok ('}' :: t)
  | '{' :: r =>
    match _hf : field r with
    | none => .error .valueError
    | some (name, rest) =>
      match render (String.ofList name) with
      | .error e => .error e
      | .ok s =>
        match formatChars render rest with
        | .error e => .error e
        | .ok t => .ok (s.toList ++ t)
  | '}' :: _ => .error .valueError
  | c :: r =>
    match formatChars render r with
    | .error e => .error e
    | .ok t => .ok (c :: t)
termination_by l => l.length
decreasing_by
  all_goals simp_wf
  · omega
  · omega
  · have := field_length _ _ _ _hf
    omega

/-- The value of a replacement field: a name of a setting stands for `str(value)`, an unknown one
raises a `KeyError`. `shown` is `str` of a value that is not a string; fields with conversions,
attributes or indices are not modelled. -/
def render (shown : Val → String) (cfg : Config) (name : String) : Except Err String :=
  match Dict.get? cfg name with
  | none => .error .keyError
  | some (.str s) => .ok s
  | some v => .ok (shown v)

/-- `value.format(**expand_config)` (setup_manager.py:149). -/
def format (shown : Val → String) (s : String) (cfg : Config) : Except Err String :=
  match formatChars (render shown cfg) s.toList with
  | .error e => .error e
  | .ok t => .ok (String.ofList t)

mutual
/-- `expand_strings` (setup_manager.py:147-152). The dictionary is changed in place while it is read,
and it is part of `expand_config`: `done` are the entries already expanded, and `ctx d` is
`expand_config` when the dictionary is `d`. -/
def expandDict (shown : Val → String) (ctx : Config → Config) (done : Config) :
    List (String × Val) → Except Err Config
  | [] => .ok done
  | (k, v) :: rest =>
    match expandVal shown (fun w => ctx (done ++ (k, w) :: rest)) v with
    | .error e => .error e
    | .ok w => expandDict shown ctx (done ++ [(k, w)]) rest
/-- The two branches for one value (setup_manager.py:148-151). -/
def expandVal (shown : Val → String) (ctx : Val → Config) : Val → Except Err Val
  | .str s =>
    match format shown s (ctx (.str s)) with
    | .error e => .error e
    | .ok t => .ok (.str t)
  | .dict d =>
    match expandDict shown (fun d' => ctx (.dict d')) [] d with
    | .error e => .error e
    | .ok d' => .ok (.dict d')
  | .other n => .ok (.other n)
end

/-! ### The whole setup -/

/-- What the setup reads from its surroundings: `getattr(tf, ·)`, `getattr(np, ·)`, the git and pip
information, the directory, `str` of other values and the base name of a file. -/
structure Env where
  tfAttr : Val → Except Err Val
  npAttr : Val → Except Err Val
  shortSha : String
  sha : String
  origin : String
  uncommitted : Val
  packages : Val
  dir : String
  shown : Val → String
  base : String → String

/-- The settings the code adds after the merge (setup_manager.py:106-127). The setting of
`tfscripts.FLOAT_PRECISION` is not modelled. -/
def addSettings (E : Env) (cfg : Config) (name : Option String) : Except Err Config :=
  match Dict.get? cfg "float_precision" with
  | none => .error .keyError
  | some p =>
    match E.tfAttr p with
    | .error e => .error e
    | .ok t =>
      -- `np` is asked for the value of the same key; the new entry has another key
      match E.npAttr p with
      | .error e => .error e
      | .ok n =>
        let cfg := Dict.set cfg "tf_float_precision" t
        let cfg := Dict.set cfg "np_float_precision" n
        let cfg := Dict.set cfg "git_short_sha" (.str E.shortSha)
        let cfg := Dict.set cfg "git_sha" (.str E.sha)
        let cfg := Dict.set cfg "git_origin" (.str E.origin)
        let cfg := Dict.set cfg "git_uncommited_changes" E.uncommitted
        let cfg := Dict.set cfg "pip_installed_packages" E.packages
        let cfg := Dict.set cfg "config_name" (.str (name.getD "None"))
        let cfg := Dict.set cfg "egenerator_dir" (.str E.dir)
        .ok cfg

/-- `_setup_config` (setup_manager.py:58-130). `none`: the argument is neither list nor tuple. -/
def setup (E : Env) (files : Option (List File)) : Except Err Config :=
  match files with
  | none => .error .valueError
  | some [] => .error .valueError
  | some fs =>
    match mergeLoop E.base [] none fs with
    | .error e => .error e
    | .ok (new, name) =>
      match addSettings E (Dict.update [("float_precision", .str "float32")] new) name with
      | .error e => .error e
      | .ok cfg => expandDict E.shown id [] cfg

/-! ### The returned copy -/

/-- What an entry of a dictionary object holds: an immutable value or a reference to a dictionary. -/
inductive Cell where
  | str (s : String)
  | other (n : Nat)
  | ref (r : Nat)

/-- The dictionary objects in memory. -/
abbrev Heap := List (Dict String Cell)

/-- Reads all entries, or none. -/
def readAll (f : Cell → Option Val) : List (String × Cell) → Option (List (String × Val))
  | [] => some []
  | (k, c) :: rest =>
    match f c, readAll f rest with
    | some v, some vs => some ((k, v) :: vs)
    | _, _ => none

/-- The value an entry stands for, to a depth of at most the first argument. -/
def readCell : Nat → Heap → Cell → Option Val
  | _, _, .str s => some (.str s)
  | _, _, .other n => some (.other n)
  | 0, _, .ref _ => none
  | n + 1, h, .ref r =>
    match h[r]? with
    | none => none
    | some o => (readAll (readCell n h) o).map .dict

mutual
/-- Makes new objects for a value. -/
def alloc (h : Heap) : Val → Heap × Cell
  | .str s => (h, .str s)
  | .other n => (h, .other n)
  | .dict d =>
    let p := allocAll h d
    (p.1 ++ [p.2], .ref p.1.length)
/-- Makes new objects for all entries. -/
def allocAll (h : Heap) : List (String × Val) → Heap × List (String × Cell)
  | [] => (h, [])
  | (k, v) :: rest =>
    let p := alloc h v
    let q := allocAll p.1 rest
    (q.1, (k, p.2) :: q.2)
end

/-- `get_config` (setup_manager.py:154-162), `dict(deepcopy(self.config))`: a copy with new objects at
every level, of which the outermost is copied once more. The configuration has no shared or cyclic
parts; a depth larger than the number of objects raises. -/
def getConfig (h : Heap) (root : Nat) : Except Err (Heap × Nat) :=
  match readCell (h.length + 1) h (.ref root) with
  | none => .error .recursionError
  | some v =>
    match alloc h v with
    | (h', .ref r) =>
      match h'[r]? with
      | none => .error .keyError
      | some o => .ok (h' ++ [o], h'.length)
    | (_, _) => .error .typeError

/-- What a user does with dictionaries it can reach: read an entry (to get at an inner dictionary), set
or delete an entry, make a new dictionary. -/
inductive Act where
  | read (r : Nat) (k : String)
  | write (r : Nat) (k : String) (c : Cell)
  | delete (r : Nat) (k : String)
  | new

/-- Whether a user who knows the references `known` can write this. -/
def usable (known : List Nat) : Cell → Bool
  | .ref r => known.contains r
  | _ => true

/-- One action of a user; actions on unknown objects are impossible and have no effect. -/
def act (s : Heap × List Nat) : Act → Heap × List Nat
  | .read r k =>
    if s.2.contains r then
      match s.1[r]? with
      | none => s
      | some o =>
        match Dict.get? o k with
        | some (.ref r') => (s.1, r' :: s.2)
        | _ => s
    else s
  | .write r k c =>
    if s.2.contains r && usable s.2 c then
      match s.1[r]? with
      | none => s
      | some o => (s.1.set r (Dict.set o k c), s.2)
    else s
  | .delete r k =>
    if s.2.contains r then
      match s.1[r]? with
      | none => s
      | some o => (s.1.set r (o.filter (fun p => p.1 ≠ k)), s.2)
    else s
  | .new => (s.1 ++ [[]], s.1.length :: s.2)

/-- A sequence of actions. -/
def acts (s : Heap × List Nat) (l : List Act) : Heap × List Nat := l.foldl act s

end Verif.Setup
