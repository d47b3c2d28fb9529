import Verif.Sphere.Spec
import Mathlib.Tactic.LinearCombination
import Mathlib.Tactic.FieldSimp

/-! # Lemmas on directions -/

namespace Verif.Sphere
open Verif.Py

theorem pymod_range (a b : ℝ) (hb : 0 < b) : 0 ≤ pymod a b ∧ pymod a b < b := by
  have h1 := Int.floor_le (a / b)
  have h2 := Int.lt_floor_add_one (a / b)
  rw [le_div_iff₀ hb] at h1
  rw [div_lt_iff₀ hb] at h2
  unfold pymod
  constructor <;> nlinarith

theorem cos_pymod (a : ℝ) : Real.cos (pymod a (2 * Real.pi)) = Real.cos a := by
  unfold pymod
  rw [mul_comm, Real.cos_sub_int_mul_two_pi]

theorem sin_pymod (a : ℝ) : Real.sin (pymod a (2 * Real.pi)) = Real.sin a := by
  unfold pymod
  rw [mul_comm, Real.sin_sub_int_mul_two_pi]

theorem arctan2_cos (x y : ℝ) : Real.sqrt (x ^ 2 + y ^ 2) * Real.cos (arctan2 y x) = x := by
  have h := Complex.norm_mul_cos_arg ⟨x, y⟩
  have e : ‖(⟨x, y⟩ : ℂ)‖ = Real.sqrt (x ^ 2 + y ^ 2) := by
    rw [Complex.norm_def, Complex.normSq_mk]
    congr 1
    ring
  rw [e] at h
  exact h

theorem arctan2_sin (x y : ℝ) : Real.sqrt (x ^ 2 + y ^ 2) * Real.sin (arctan2 y x) = y := by
  have h := Complex.norm_mul_sin_arg ⟨x, y⟩
  have e : ‖(⟨x, y⟩ : ℂ)‖ = Real.sqrt (x ^ 2 + y ^ 2) := by
    rw [Complex.norm_def, Complex.normSq_mk]
    congr 1
    ring
  rw [e] at h
  exact h

theorem norm_eq (v : V3) : norm v = Real.sqrt (v.dot v) := by
  unfold norm V3.dot
  congr 1
  ring

theorem dot_self_nonneg (v : V3) : 0 ≤ v.dot v := by
  unfold V3.dot
  nlinarith [mul_self_nonneg v.x, mul_self_nonneg v.y, mul_self_nonneg v.z]

theorem norm_sq (v : V3) : norm v ^ 2 = v.dot v := by
  rw [norm_eq, Real.sq_sqrt (dot_self_nonneg v)]

theorem norm_nonneg (v : V3) : 0 ≤ norm v := Real.sqrt_nonneg _

theorem norm_pos {v : V3} (h : v ≠ ⟨0, 0, 0⟩) : 0 < norm v := by
  rw [norm_eq, Real.sqrt_pos]
  unfold V3.dot
  by_contra hn
  have hx := mul_self_nonneg v.x
  have hy := mul_self_nonneg v.y
  have hz := mul_self_nonneg v.z
  refine h ?_
  ext
  · exact mul_self_eq_zero.1 (by linarith)
  · exact mul_self_eq_zero.1 (by linarith)
  · exact mul_self_eq_zero.1 (by linarith)

theorem unit_sdiv {v : V3} (h : 0 < norm v) : (sdiv v (norm v)).Unit := by
  have h2 := norm_sq v
  unfold V3.Unit V3.dot at *
  simp only [sdiv]
  field_simp
  linarith

/-- Angles from the coordinates of a unit vector give the coordinates back. -/
theorem direction_of_unit {v : V3} (h : v.Unit) (az : ℝ)
    (hc : Real.cos az = Real.cos (arctan2 v.y v.x)) (hs : Real.sin az = Real.sin (arctan2 v.y v.x)) :
    v.x = Real.sin (Real.arccos v.z) * Real.cos az ∧
    v.y = Real.sin (Real.arccos v.z) * Real.sin az ∧ v.z = Real.cos (Real.arccos v.z) := by
  unfold V3.Unit V3.dot at h
  have e : Real.sin (Real.arccos v.z) = Real.sqrt (v.x ^ 2 + v.y ^ 2) := by
    rw [Real.sin_arccos]
    congr 1
    linarith
  refine ⟨?_, ?_, ?_⟩
  · rw [e, hc, arctan2_cos]
  · rw [e, hs, arctan2_sin]
  · rw [Real.cos_arccos] <;> nlinarith [mul_self_nonneg v.x, mul_self_nonneg v.y]

theorem consistent_unit {s : Spher} (h : s.Consistent) : s.vec.Unit := by
  unfold V3.Unit V3.dot Spher.vec
  simp only
  rw [h.x, h.y, h.z]
  have h1 := Real.sin_sq_add_cos_sq s.zen
  have h2 := Real.sin_sq_add_cos_sq s.az
  linear_combination h1 + Real.sin s.zen ^ 2 * h2

theorem unit_bounds {v w : V3} (hv : v.Unit) (hw : w.Unit) : -1 ≤ v.dot w ∧ v.dot w ≤ 1 := by
  unfold V3.Unit V3.dot at *
  constructor
  · nlinarith [mul_self_nonneg (v.x + w.x), mul_self_nonneg (v.y + w.y),
      mul_self_nonneg (v.z + w.z)]
  · nlinarith [mul_self_nonneg (v.x - w.x), mul_self_nonneg (v.y - w.y),
      mul_self_nonneg (v.z - w.z)]

theorem angle_of_unit {v w : V3} (hv : v.Unit) (hw : w.Unit) : v.angle w = Real.arccos (v.dot w) := by
  unfold V3.angle
  unfold V3.Unit at hv hw
  rw [hv, hw, Real.sqrt_one, mul_one, div_one]

theorem fill_pos (s : Spher) (h : 0 < norm s.vec) :
    (fillFromCart s).vec = sdiv s.vec (norm s.vec) ∧ (fillFromCart s).Consistent ∧
      (0 ≤ (fillFromCart s).zen ∧ (fillFromCart s).zen ≤ Real.pi) ∧
      (0 ≤ (fillFromCart s).az ∧ (fillFromCart s).az < 2 * Real.pi) := by
  have hu := unit_sdiv h
  have hr : Real.sqrt (s.x ^ 2 + s.y ^ 2 + s.z ^ 2) = norm s.vec := rfl
  have hd := direction_of_unit hu
    (pymod (arctan2 (s.y / norm s.vec) (s.x / norm s.vec)) (2 * Real.pi)) (cos_pymod _) (sin_pymod _)
  unfold fillFromCart
  simp only [hr]
  rw [if_pos h]
  refine ⟨rfl, ⟨rfl, hd.2.2, rfl, rfl, hd.1, hd.2.1, hd.2.2⟩,
    ⟨Real.arccos_nonneg _, Real.arccos_le_pi _⟩, pymod_range _ _ Real.two_pi_pos⟩

theorem norm_of_unit {v : V3} (h : v.Unit) : norm v = 1 := by
  rw [norm_eq, h, Real.sqrt_one]

theorem sdiv_one (v : V3) : sdiv v 1 = v := by
  unfold sdiv
  ext <;> simp

theorem fill_unit (s : Spher) (h : s.vec.Unit) : (fillFromCart s).vec = s.vec := by
  have h1 := norm_of_unit h
  rw [(fill_pos s (by rw [h1]; exact one_pos)).1, h1, sdiv_one]

/-- The reflected coordinates, before the remaining values are filled in. -/
theorem reflect_formula (old c : Spher) (hc : c.Consistent) (ho : old.vec.Unit) :
    (reflect old c).vec = sub (smul (2 * old.vec.dot c.vec) c.vec) old.vec ∧
      (reflect old c).Consistent := by
  have h1 := Real.sin_sq_add_cos_sq c.zen
  have h2 := Real.sin_sq_add_cos_sq c.az
  have hcu := consistent_unit hc
  have key : V3.mk (2 * c.cosaz * c.coszen * c.sinzen * old.z +
        old.x * (c.cosaz * (-c.cosaz * c.coszen ^ 2 + c.cosaz * c.sinzen ^ 2) - c.sinaz ^ 2) +
        old.y * (c.cosaz * c.sinaz + c.sinaz * (-c.cosaz * c.coszen ^ 2 + c.cosaz * c.sinzen ^ 2)))
      (2 * c.coszen * c.sinaz * c.sinzen * old.z +
        old.x * (c.cosaz * c.sinaz + c.cosaz * (-c.coszen ^ 2 * c.sinaz + c.sinaz * c.sinzen ^ 2)) +
        old.y * (-c.cosaz ^ 2 + c.sinaz * (-c.coszen ^ 2 * c.sinaz + c.sinaz * c.sinzen ^ 2)))
      (2 * c.cosaz * c.coszen * c.sinzen * old.x + 2 * c.coszen * c.sinaz * c.sinzen * old.y +
        old.z * (c.coszen ^ 2 - c.sinzen ^ 2)) =
      sub (smul (2 * old.vec.dot c.vec) c.vec) old.vec := by
    unfold sub smul V3.dot Spher.vec
    simp only [hc.sinzen, hc.coszen, hc.sinaz, hc.cosaz, hc.x, hc.y, hc.z]
    generalize Real.sin c.zen = sz at *
    generalize Real.cos c.zen = cz at *
    generalize Real.sin c.az = sa at *
    generalize Real.cos c.az = ca at *
    ext
    · simp only
      linear_combination (-(ca ^ 2) * old.x - ca * sa * old.y) * h1 - old.x * h2
    · simp only
      linear_combination (-(sa ^ 2) * old.y - ca * sa * old.x) * h1 - old.y * h2
    · simp only
      linear_combination (-old.z) * h1
  have hu : (sub (smul (2 * old.vec.dot c.vec) c.vec) old.vec).Unit := by
    unfold V3.Unit V3.dot sub smul at *
    simp only
    generalize old.vec.x = a at *
    generalize old.vec.y = b at *
    generalize old.vec.z = d at *
    generalize c.vec.x = p at *
    generalize c.vec.y = q at *
    generalize c.vec.z = r at *
    linear_combination ho + 4 * (a * p + b * q + d * r) ^ 2 * hcu
  unfold reflect
  simp only
  rw [key]
  have hv : (ofVec (sub (smul (2 * old.vec.dot c.vec) c.vec) old.vec)).vec =
    sub (smul (2 * old.vec.dot c.vec) c.vec) old.vec := rfl
  constructor
  · rw [fill_unit _ (by rw [hv]; exact hu), hv]
  · exact (fill_pos _ (by rw [hv, norm_of_unit hu]; exact one_pos)).2.1

theorem angularDist_eq {p q : Spher} (hp : p.Consistent) (hq : q.Consistent) :
    angularDist p q = p.vec.angle q.vec := by
  rw [angle_of_unit (consistent_unit hp) (consistent_unit hq)]
  unfold angularDist
  congr 1
  unfold V3.dot Spher.vec
  simp only
  rw [hp.x, hp.y, hp.z, hq.x, hq.y, hq.z, hp.coszen, hp.sinzen, hq.coszen, hq.sinzen, Real.cos_sub]
  ring

end Verif.Sphere
