import Verif.Reco.Model
import Verif.Trafo.Props

/-!
# Specification for C39 to C44
-/

namespace Verif.Reco
open Verif.Py Verif.Trafo

/-- The positions of the fitted parameters, in order. -/
def positions (fit : List Bool) : List Nat :=
  (List.range fit.length).filter fun i => fit[i]? = some true

/-- A two-dimensional array `r` is put together from fitted values and a seed: the fitted values
are at the fitted positions, in order, the values of the seed elsewhere. -/
def Merged (fit : List Bool) (B : Nat) (fitted seed r : Nat → Nat → ℝ) : Prop :=
  ∀ b < B, (∀ k i, (positions fit)[k]? = some i → r b i = fitted b k) ∧
    ∀ i < fit.length, i ∉ positions fit → r b i = seed b i

/-- The parameter `i` is transformed by a logarithm. -/
def IsLog (t : TensorInfo) (i : Nat) : Prop := Logged t.logMask [0, i]

/-- The limits within which the transformation of a logarithmic parameter can be inverted. -/
def InRange (x : ℝ) : Prop := Real.exp (-60) ≤ 1 + x ∧ 1 + x ≤ Real.exp 60

/-- What the code reports as the results of the modules: in the order of the modules, each module
was given the results of the modules before it, and its result got a runtime. -/
structure Executed {V : Type} (names : List String) (modules : List (Module V))
    (runtime : Nat → V) (r : Results V) : Prop where
  keys : r.map Prod.fst = names
  result : ∀ (i : Nat) m n, modules[i]? = some m → names[i]? = some n →
    ∃ d, m (r.take i) = .ok d ∧ Dict.get? d "runtime" = none ∧
      Dict.get? r n = some (Dict.set d "runtime" (runtime i))

/-- The name under which a module is added to a tray with `n` modules. -/
def nameFor (n : Nat) : Option String → String
  | some name => name
  | none => "module_" ++ Component.pad4 n

/-- A call of `add_module`. -/
structure Call (V : Type) where
  load : Except Err Unit
  name : Option String
  build : Except Err (Module V)

/-- The tray after calls of `add_module`; calls that raise leave it as it was. -/
def addAll {V : Type} (calls : List (Call V)) : Tray V :=
  calls.foldl (fun t c =>
    match t.add c.load c.name c.build with
    | .ok t => t
    | .error _ => t) ⟨[], []⟩

/-- A call of `FunctionCache.add`. -/
structure AddCall (S F : Type) where
  name : String
  settings : S
  f : F

/-- The cache after calls of `add`; calls that raise leave it as it was. -/
def cacheAll {S F : Type} (eq : S → S → Bool) (calls : List (AddCall S F)) : Cache S F :=
  calls.foldl (fun c a =>
    match Cache.add eq c a.name a.settings a.f with
    | .ok c => c
    | .error _ => c) []

/-- `x` is where the profiles cross the target: they are above it beyond `x`, not before. -/
def Crossing (cdf : Nat → ℝ → ℝ) (target x : ℝ) : Prop :=
  ∀ k c, (c < x → cdf k c ≤ target) ∧ (x < c → target < cdf k c)

/-- `eq` is an equivalence, as `==` on dictionaries of settings. -/
structure IsEq {S : Type} (eq : S → S → Bool) : Prop where
  refl : ∀ a, eq a a = true
  symm : ∀ a b, eq a b = eq b a
  trans : ∀ a b c, eq a b = true → eq b c = true → eq a c = true

end Verif.Reco
