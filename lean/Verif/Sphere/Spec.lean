import Verif.Sphere.Model

/-!
# Specification for C47, C51 and C70
-/

namespace Verif.Sphere

/-- The scalar product. -/
def V3.dot (v w : V3) : ℝ := v.x * w.x + v.y * w.y + v.z * w.z

/-- On the unit sphere. -/
def V3.Unit (v : V3) : Prop := v.dot v = 1

/-- The opening angle of two directions. -/
noncomputable def V3.angle (v w : V3) : ℝ :=
  Real.arccos (v.dot w / (Real.sqrt (v.dot v) * Real.sqrt (w.dot w)))

/-- Angles, their sines and cosines and the coordinates belong to one and the same direction. -/
structure Spher.Consistent (s : Spher) : Prop where
  sinzen : s.sinzen = Real.sin s.zen
  coszen : s.coszen = Real.cos s.zen
  sinaz : s.sinaz = Real.sin s.az
  cosaz : s.cosaz = Real.cos s.az
  x : s.x = Real.sin s.zen * Real.cos s.az
  y : s.y = Real.sin s.zen * Real.sin s.az
  z : s.z = Real.cos s.zen

end Verif.Sphere
