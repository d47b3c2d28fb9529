import Verif.Inputs.Model
import Verif.Sphere.Spec

/-!
# Specification for C62 and C77 to C80
-/

namespace Verif.Inputs
open Verif.Py Verif.Sphere

/-- The point at distance `s` from `p` in direction `d`. -/
def point (p d : V3) (s : ℝ) : V3 := ⟨p.x + s * d.x, p.y + s * d.y, p.z + s * d.z⟩

/-- The distance of two points. -/
noncomputable def dist (p q : V3) : ℝ :=
  Real.sqrt ((p.x - q.x) ^ 2 + (p.y - q.y) ^ 2 + (p.z - q.z) ^ 2)

/-- The vector from `p` to `q`. -/
def toward (p q : V3) : V3 := ⟨q.x - p.x, q.y - p.y, q.z - p.z⟩

/-- `Deposits E L a l s`: the energies deposited between `a` and the first point of `l`, between the
first and the second and so on add up to `s`. -/
inductive Deposits (E L : ℝ) : ℝ → List ℝ → ℝ → Prop
  | nil (a : ℝ) : Deposits E L a [] 0
  | cons {a b : ℝ} {l : List ℝ} {e s : ℝ} : depEnergy E L a b = some e → Deposits E L b l s →
      Deposits E L a (b :: l) (e + s)

/-- A hypothesis: the seven parameters every source has, and the others. -/
structure Hyp where
  vertex : V3
  zenith : ℝ
  azimuth : ℝ
  energy : ℝ
  time : ℝ
  rest : List ℝ

/-- The hypothesis as a row of the tensor of parameters. -/
def Hyp.row (h : Hyp) : List ℝ :=
  [h.vertex.x, h.vertex.y, h.vertex.z, h.zenith, h.azimuth, h.energy, h.time] ++ h.rest

/-- The direction a particle with these angles flies to. -/
noncomputable def Hyp.flight (h : Hyp) : V3 :=
  ⟨-Real.sin h.zenith * Real.cos h.azimuth, -Real.sin h.zenith * Real.sin h.azimuth,
    -Real.cos h.zenith⟩

/-- Two hypotheses look the same from two DOMs, apart from the parameters at the places that are not
in `shown`: relative position, direction of flight and energy agree. -/
structure SameView (shown : ℕ → Prop) (dom : V3) (h : Hyp) (dom' : V3) (h' : Hyp) : Prop where
  position : toward h.vertex dom = toward h'.vertex dom'
  flight : h.flight = h'.flight
  energy : h.energy = h'.energy
  rest : ∀ i, shown i → h.rest[i]? = h'.rest[i]?

end Verif.Inputs
