/-
What the properties of the configuration say, without the model's helpers.
-/
import Verif.Setup.Model

namespace Verif.Setup
open Verif.Py

/-- A text without braces. -/
def PlainText (s : String) : Prop := '{' ∉ s.toList ∧ '}' ∉ s.toList

instance (s : String) : Decidable (PlainText s) := inferInstanceAs (Decidable (_ ∧ _))

mutual
/-- The strings in a value, at any depth. -/
def strings : Val → List String
  | .str s => [s]
  | .other _ => []
  | .dict d => stringsAll d
/-- The strings in a dictionary, at any depth. -/
def stringsAll : List (String × Val) → List String
  | [] => []
  | (_, v) :: rest => strings v ++ stringsAll rest
end

/-- No string in the value has a brace. -/
def Plain (v : Val) : Prop := ∀ s ∈ strings v, PlainText s

instance (v : Val) : Decidable (Plain v) := inferInstanceAs (Decidable (∀ s ∈ strings v, PlainText s))

mutual
/-- Replaces every string of a value, at any depth, by `f` of it. -/
def substVal (f : String → Except Err String) : Val → Except Err Val
  | .str s =>
    match f s with
    | .error e => .error e
    | .ok t => .ok (.str t)
  | .other n => .ok (.other n)
  | .dict d =>
    match substAll f d with
    | .error e => .error e
    | .ok d' => .ok (.dict d')
/-- Replaces every string of a dictionary, at any depth, by `f` of it. -/
def substAll (f : String → Except Err String) : List (String × Val) → Except Err (List (String × Val))
  | [] => .ok []
  | (k, v) :: rest =>
    match substVal f v with
    | .error e => .error e
    | .ok w =>
      match substAll f rest with
      | .error e => .error e
      | .ok ws => .ok ((k, w) :: ws)
end

/-- The replacement fields of a text: after an opening brace that is not doubled, up to the next
closing brace. -/
def placeholders : List Char → List String
  | [] => []
  | '{' :: '{' :: r => placeholders r
  | '}' :: '}' :: r => placeholders r
  | '{' :: r =>
    String.ofList (r.takeWhile (fun c => c ≠ '}')) :: placeholders ((r.dropWhile (fun c => c ≠ '}')).drop 1)
  | _ :: r => placeholders r
termination_by l => l.length
decreasing_by
  all_goals simp_wf
  all_goals first
    | omega
    | (have := (List.dropWhile_suffix (l := r) (fun c => c ≠ '}')).length_le
       simp at this ⊢
       omega)

/-- The settings the code adds itself. -/
def added : List String :=
  ["tf_float_precision", "np_float_precision", "git_short_sha", "git_sha", "git_origin",
    "git_uncommited_changes", "pip_installed_packages", "config_name", "egenerator_dir"]

/-- Files that were read: names and dictionaries. -/
def readFiles (ds : List (String × Config)) : List File := ds.map (fun d => ⟨d.1, .ok (some d.2)⟩)

/-- No setting is defined in two files. -/
def NoDuplicate (ds : List (String × Config)) : Prop :=
  ds.Pairwise (fun a b => ∀ k, ¬ (k ∈ Dict.keys a.2 ∧ k ∈ Dict.keys b.2))

/-- References of a heap point into the heap. -/
def Closed (h : Heap) : Prop := ∀ o ∈ h, ∀ p ∈ o, ∀ r, p.2 = Cell.ref r → r < h.length

end Verif.Setup
