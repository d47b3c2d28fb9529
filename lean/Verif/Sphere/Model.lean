import Verif.Py.Dict
import Mathlib.Analysis.SpecialFunctions.Trigonometric.Inverse
import Mathlib.Analysis.SpecialFunctions.Complex.Arg
import Mathlib.Algebra.Order.Floor.Ring
import Mathlib.Algebra.BigOperators.Group.List.Basic

/-!
# Directions on the sphere

Models the geometry of `egenerator/utils/spherical_opt.py` and `egenerator/utils/angles.py` over the
real numbers: rounding is not modelled. Arrays are modelled entry by entry.
-/

namespace Verif.Sphere
open Verif.Py

/-- A vector with three components. -/
@[ext] structure V3 where
  x : ℝ
  y : ℝ
  z : ℝ

/-- `np.arctan2(y, x)`, by its textbook definition. -/
noncomputable def arctan2 (y x : ℝ) : ℝ := Complex.arg ⟨x, y⟩

/-- `a % b` for positive `b`. -/
noncomputable def pymod (a b : ℝ) : ℝ := a - b * ⌊a / b⌋

/-- An entry of type `SPHER_T` (spherical_opt.py:32-43). -/
structure Spher where
  zen : ℝ
  az : ℝ
  x : ℝ
  y : ℝ
  z : ℝ
  sinzen : ℝ
  coszen : ℝ
  sinaz : ℝ
  cosaz : ℝ

/-- The vector of an entry. -/
def Spher.vec (s : Spher) : V3 := ⟨s.x, s.y, s.z⟩

/-- `fill_from_spher` (spherical_opt.py:46-60). -/
noncomputable def fillFromSpher (s : Spher) : Spher :=
  let sinzen := Real.sin s.zen
  let coszen := Real.cos s.zen
  let sinaz := Real.sin s.az
  let cosaz := Real.cos s.az
  { s with sinzen, coszen, sinaz, cosaz, x := sinzen * cosaz, y := sinzen * sinaz, z := coszen }

/-- `fill_from_cart` (spherical_opt.py:63-99). -/
noncomputable def fillFromCart (s : Spher) : Spher :=
  let r := Real.sqrt (s.x ^ 2 + s.y ^ 2 + s.z ^ 2)
  if r > 0 then
    let x := s.x / r
    let y := s.y / r
    let z := s.z / r
    let az := pymod (arctan2 y x) (2 * Real.pi)
    let zen := Real.arccos z
    { x, y, z, az, zen, coszen := z, sinzen := Real.sin zen, sinaz := Real.sin az
      cosaz := Real.cos az }
  else
    { s with z := 1, az := 0, zen := 0, coszen := 1, sinzen := 0, cosaz := 1, sinaz := 0 }

/-- An entry of `np.zeros` with the coordinates set. -/
def ofVec (v : V3) : Spher :=
  { zen := 0, az := 0, x := v.x, y := v.y, z := v.z, sinzen := 0, coszen := 0, sinaz := 0, cosaz := 0 }

/-- `reflect` (spherical_opt.py:102-132). -/
noncomputable def reflect (old c : Spher) : Spher :=
  let x := old.x
  let y := old.y
  let z := old.z
  let ca := c.cosaz
  let sa := c.sinaz
  let cz := c.coszen
  let sz := c.sinzen
  fillFromCart (ofVec
    { x := 2 * ca * cz * sz * z + x * (ca * (-ca * cz ^ 2 + ca * sz ^ 2) - sa ^ 2) +
        y * (ca * sa + sa * (-ca * cz ^ 2 + ca * sz ^ 2))
      y := 2 * cz * sa * sz * z + x * (ca * sa + ca * (-cz ^ 2 * sa + sa * sz ^ 2)) +
        y * (-ca ^ 2 + sa * (-cz ^ 2 * sa + sa * sz ^ 2))
      z := 2 * ca * cz * sz * x + 2 * cz * sa * sz * y + z * (cz ^ 2 - sz ^ 2) })

/-- `centroid` for directions (spherical_opt.py:135-157), of one or more points. -/
noncomputable def centroid (ps : List Spher) : Spher :=
  fillFromCart (ofVec
    { x := (ps.map Spher.x).sum / ps.length
      y := (ps.map Spher.y).sum / ps.length
      z := (ps.map Spher.z).sum / ps.length })

/-- `angular_dist` (spherical_opt.py:160-164). -/
noncomputable def angularDist (p q : Spher) : ℝ :=
  Real.arccos (p.coszen * q.coszen + p.sinzen * q.sinzen * Real.cos (p.az - q.az))

/-! ## Opening angles -/

/-- `np.linalg.norm`, `tf.linalg.norm`. -/
noncomputable def norm (v : V3) : ℝ := Real.sqrt (v.x ^ 2 + v.y ^ 2 + v.z ^ 2)

/-- A multiple of a vector. -/
def smul (a : ℝ) (v : V3) : V3 := ⟨a * v.x, a * v.y, a * v.z⟩

/-- A sum of vectors. -/
def add (v w : V3) : V3 := ⟨v.x + w.x, v.y + w.y, v.z + w.z⟩

/-- A difference of vectors. -/
def sub (v w : V3) : V3 := ⟨v.x - w.x, v.y - w.y, v.z - w.z⟩

/-- `np.cross`. -/
def cross (v w : V3) : V3 :=
  ⟨v.y * w.z - v.z * w.y, v.z * w.x - v.x * w.z, v.x * w.y - v.y * w.x⟩

/-- A vector divided by a number. -/
noncomputable def sdiv (v : V3) (a : ℝ) : V3 := ⟨v.x / a, v.y / a, v.z / a⟩

/-- `get_angle` (angles.py:6-43). -/
noncomputable def getAngle (v w : V3) : ℝ :=
  let n1 := norm v
  let n2 := norm w
  let t1 := smul n2 v
  let t2 := smul n1 w
  2 * arctan2 (norm (sub t1 t2)) (norm (add t1 t2))

/-- `tfp.math.clip_by_value_preserve_gradient`, `np.clip`. -/
noncomputable def clip (a lo hi : ℝ) : ℝ := min (max a lo) hi

/-- `get_angle_deviation` (angles.py:46-70). -/
noncomputable def getAngleDeviation (az1 zen1 az2 zen2 : ℝ) : ℝ :=
  Real.arccos (clip (Real.cos (az1 - az2) * Real.sin zen1 * Real.sin zen2 +
    Real.cos zen1 * Real.cos zen2) (-1) 1)

/-- `np.deg2rad`. -/
noncomputable def deg2rad (d : ℝ) : ℝ := d * Real.pi / 180

/-- One entry of the result of `get_delta_psi_vector_dir`, for an angle in radians and the random
vector of the entry (angles.py:201-209). If the random vector is parallel to the direction, the code
returns `nan`. -/
noncomputable def tilted (v temp : V3) (delta : ℝ) : V3 :=
  let orth := cross v temp
  let orth := sdiv orth (norm orth)
  let new := add v (smul (Real.tan delta) orth)
  sdiv new (norm new)

/-- `get_delta_psi_vector_dir` (angles.py:141-209), after broadcasting: a list of directions, random
vectors and opening angles. -/
noncomputable def deltaPsiDir (isDegree : Bool) (es : List (V3 × V3 × ℝ)) :
    Except Err (List V3) :=
  let es := if isDegree then es.map fun e => (e.1, e.2.1, deg2rad e.2.2) else es
  if ∃ e ∈ es, e.2.2 ≥ deg2rad 90 then .error .valueError
  else .ok (es.map fun e => tilted e.1 e.2.1 e.2.2)

/-- The direction of zenith and azimuth (angles.py:119-121). -/
noncomputable def direction (zen az : ℝ) : V3 :=
  ⟨Real.sin zen * Real.cos az, Real.sin zen * Real.sin az, Real.cos zen⟩

/-- The angles of a direction (angles.py:130-135). -/
noncomputable def angles (v : V3) : ℝ × ℝ :=
  (Real.arccos (clip v.z (-1) 1), pymod (arctan2 v.y v.x + 2 * Real.pi) (2 * Real.pi))

/-- `get_delta_psi_vector` with `return_angles` (angles.py:73-138): a list of zenith and azimuth
angles, random vectors and opening angles, after broadcasting. -/
noncomputable def deltaPsi (isDegree : Bool) (es : List ((ℝ × ℝ) × V3 × ℝ)) :
    Except Err (List (ℝ × ℝ)) :=
  match deltaPsiDir isDegree (es.map fun e => (direction e.1.1 e.1.2, e.2.1, e.2.2)) with
  | .error e => .error e
  | .ok vs => .ok (vs.map angles)

end Verif.Sphere
