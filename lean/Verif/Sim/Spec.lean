/-
Specification for C57.
-/
import Verif.Sim.Model

namespace Verif.Sim
variable {α : Type} [LT α] [DecidableLT α] [Sub α]

/-- The particle of a tree and the trees below it. -/
def Tree.particle : Tree α → Particle α
  | .node p _ => p
def Tree.daughters : Tree α → List (Tree α)
  | .node _ d => d

/-- Known to have less energy than the minimum. -/
def TooLow (C : Walk α) (p : Particle α) : Prop :=
  ∃ e m, p.energy = some e ∧ C.minEnergy = some m ∧ e < m

/-- Known to be too far away: the distance from the origin, less the length. -/
def TooFar (C : Walk α) (p : Particle α) : Prop :=
  ∃ d l m, p.magnitude = some d ∧ p.length = some l ∧ C.maxDistance = some m ∧ m < d - l

/-- Energetic and close enough. -/
def Kept (C : Walk α) (p : Particle α) : Prop := ¬ TooLow C p ∧ ¬ TooFar C p

/-- Simulated as a cascade or as a track. -/
def IsCascade (C : Walk α) (p : Particle α) : Prop := p.kind ∈ C.em
def IsTrack (C : Walk α) (p : Particle α) : Prop := p.kind ∉ C.em ∧ p.kind ∈ C.tracks

/-- `Reached C f a t`: the search of the trees `f` comes to `t` at the address `a` (the position in
`f`, then positions of daughters): all particles above it are kept and are not light sources
themselves. -/
inductive Reached (C : Walk α) : List (Tree α) → List Nat → Tree α → Prop
  | here {f : List (Tree α)} {i : Nat} {t : Tree α} : f[i]? = some t → Reached C f [i] t
  | deeper {f : List (Tree α)} {i : Nat} {t u : Tree α} {a : List Nat} :
      f[i]? = some t → Kept C t.particle → ¬ IsCascade C t.particle → ¬ IsTrack C t.particle →
      Reached C t.daughters a u → Reached C f (i :: a) u

/-- A kept particle that is no light source and cannot be replaced by its daughters. -/
def Unsupported (C : Walk α) (t : Tree α) : Prop :=
  Kept C t.particle ∧ ¬ IsCascade C t.particle ∧ ¬ IsTrack C t.particle ∧
    (t.daughters = [] ∧ t.particle.kind ∉ C.dark ∨ t.daughters ≠ [] ∧ t.particle.kind ∉ C.parents)

/-- `l` lists, in the order of the trees and each once, the addresses and particles for which `P`
holds. -/
def ListsAll (P : List Nat → Particle α → Prop) (l : List (List Nat × Particle α)) : Prop :=
  l.Pairwise (fun a b => a.1 < b.1) ∧ ∀ a p, (a, p) ∈ l ↔ P a p

end Verif.Sim
