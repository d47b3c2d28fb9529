import Verif.Sphere.Lemmas
import Mathlib.Data.List.Forall2
import Mathlib.Tactic.NormNum

/-!
# C47, C51 and C70: geometry of directions
-/

namespace Verif.Sphere
open Verif.Py

/-! ## C47 -/

/-- The direction of the x axis. -/
noncomputable def xAxis : Spher := fillFromSpher
  { zen := Real.pi / 2, az := 0, x := 0, y := 0, z := 0, sinzen := 0, coszen := 0, sinaz := 0
    cosaz := 0 }

/-- **C47.** All values that are filled in from the angles belong to the direction of the angles. -/
theorem C47_from_angles (s : Spher) :
    (fillFromSpher s).Consistent ∧ (fillFromSpher s).zen = s.zen ∧ (fillFromSpher s).az = s.az :=
  ⟨⟨rfl, rfl, rfl, rfl, rfl, rfl, rfl⟩, rfl, rfl⟩

/-- **C47.** All values that are filled in from coordinates belong to their direction; the zero
vector becomes the pole. -/
theorem C47_from_coordinates (s : Spher) :
    (fillFromCart s).Consistent ∧ (0 ≤ (fillFromCart s).zen ∧ (fillFromCart s).zen ≤ Real.pi) ∧
      (0 ≤ (fillFromCart s).az ∧ (fillFromCart s).az < 2 * Real.pi) ∧
      (s.vec ≠ ⟨0, 0, 0⟩ → smul (Real.sqrt (s.vec.dot s.vec)) (fillFromCart s).vec = s.vec) ∧
      (s.vec = ⟨0, 0, 0⟩ → (fillFromCart s).vec = ⟨0, 0, 1⟩) := by
  by_cases h : s.vec = ⟨0, 0, 0⟩
  · have hx : s.x = 0 := congrArg V3.x h
    have hy : s.y = 0 := congrArg V3.y h
    have hz : s.z = 0 := congrArg V3.z h
    have hr : ¬ (Real.sqrt (s.x ^ 2 + s.y ^ 2 + s.z ^ 2) > 0) := by simp [hx, hy, hz]
    have e : fillFromCart s = { s with
        z := 1, az := 0, zen := 0, coszen := 1, sinzen := 0, cosaz := 1, sinaz := 0 } := by
      unfold fillFromCart
      simp only
      rw [if_neg hr]
    rw [e]
    refine ⟨⟨?_, ?_, ?_, ?_, ?_, ?_, ?_⟩, ⟨le_refl _, Real.pi_pos.le⟩, ⟨le_refl _, Real.two_pi_pos⟩,
      fun hn => absurd h hn, fun _ => ?_⟩
    · simp
    · simp
    · simp
    · simp
    · simp [hx]
    · simp [hy]
    · simp
    · ext
      · exact hx
      · exact hy
      · rfl
  · have hp := norm_pos h
    obtain ⟨h1, h2, h3, h4⟩ := fill_pos s hp
    refine ⟨h2, h3, h4, fun _ => ?_, fun hn => absurd hn h⟩
    rw [h1, ← norm_eq]
    unfold smul sdiv
    ext
    · simp only; field_simp
    · simp only; field_simp
    · simp only; field_simp

/-- **C47.** The reflected direction is on the sphere, all its values belong together, and it is the
mirror image: its part along the centroid is kept, the part across is reversed. -/
theorem C47_reflect (old c : Spher) (hc : c.Consistent) (ho : old.Consistent) :
    (reflect old c).Consistent ∧ (reflect old c).vec.Unit ∧
      (reflect old c).vec = sub (smul (2 * old.vec.dot c.vec) c.vec) old.vec := by
  obtain ⟨h1, h2⟩ := reflect_formula old c hc (consistent_unit ho)
  exact ⟨h2, consistent_unit h2, h1⟩

/-- **C47.** The angular distance to the centroid is kept, and it is the opening angle. -/
theorem C47_distance (old c : Spher) (hc : c.Consistent) (ho : old.Consistent) :
    angularDist (reflect old c) c = angularDist old c ∧
      angularDist old c = old.vec.angle c.vec := by
  obtain ⟨h1, h2, h3⟩ := C47_reflect old c hc ho
  refine ⟨?_, angularDist_eq ho hc⟩
  have hcu := consistent_unit hc
  rw [angularDist_eq h1 hc, angularDist_eq ho hc, angle_of_unit h2 hcu,
    angle_of_unit (consistent_unit ho) hcu, h3]
  congr 1
  unfold V3.Unit V3.dot sub smul at *
  simp only
  linear_combination 2 * (old.vec.x * c.vec.x + old.vec.y * c.vec.y + old.vec.z * c.vec.z) * hcu

/-- **C47.** Reflecting twice gives the point back. -/
theorem C47_involution (old c : Spher) (hc : c.Consistent) (ho : old.Consistent) :
    (reflect (reflect old c) c).vec = old.vec := by
  obtain ⟨h1, h2, h3⟩ := C47_reflect old c hc ho
  obtain ⟨-, -, h6⟩ := C47_reflect (reflect old c) c hc h1
  have hcu := consistent_unit hc
  rw [h6, h3]
  unfold V3.Unit V3.dot sub smul at *
  simp only
  ext
  · simp only
    linear_combination 4 * (old.vec.x * c.vec.x + old.vec.y * c.vec.y + old.vec.z * c.vec.z) *
      c.vec.x * hcu
  · simp only
    linear_combination 4 * (old.vec.x * c.vec.x + old.vec.y * c.vec.y + old.vec.z * c.vec.z) *
      c.vec.y * hcu
  · simp only
    linear_combination 4 * (old.vec.x * c.vec.x + old.vec.y * c.vec.y + old.vec.z * c.vec.z) *
      c.vec.z * hcu

/-- The point between the x axis and the pole, reflected at the x axis. -/
example : xAxis.Consistent ∧ xAxis.vec = ⟨1, 0, 0⟩ := by
  refine ⟨(C47_from_angles _).1, ?_⟩
  simp [xAxis, fillFromSpher, Spher.vec]

/-- **C47.** Distances between two reflected points are those of the points. -/
theorem C47_isometry (p q c : Spher) (hc : c.Consistent) (hp : p.Consistent) (hq : q.Consistent) :
    angularDist (reflect p c) (reflect q c) = angularDist p q := by
  obtain ⟨h1, h2, h3⟩ := C47_reflect p c hc hp
  obtain ⟨g1, g2, g3⟩ := C47_reflect q c hc hq
  have hcu := consistent_unit hc
  rw [angularDist_eq h1 g1, angularDist_eq hp hq, angle_of_unit h2 g2,
    angle_of_unit (consistent_unit hp) (consistent_unit hq), h3, g3]
  congr 1
  unfold V3.Unit V3.dot sub smul at *
  simp only
  linear_combination 4 * (p.vec.x * c.vec.x + p.vec.y * c.vec.y + p.vec.z * c.vec.z) *
    (q.vec.x * c.vec.x + q.vec.y * c.vec.y + q.vec.z * c.vec.z) * hcu

/-- **C47.** The centroid is on the sphere, in the direction of the sum of the points; if the sum
is zero, it is the pole. -/
theorem C47_centroid (ps : List Spher) (hne : ps ≠ []) :
    (centroid ps).Consistent ∧
      (∃ a, 0 ≤ a ∧ ((ps.map Spher.x).sum, (ps.map Spher.y).sum, (ps.map Spher.z).sum) =
        (a * (centroid ps).vec.x, a * (centroid ps).vec.y, a * (centroid ps).vec.z)) ∧
      ((ps.map Spher.x).sum = 0 → (ps.map Spher.y).sum = 0 → (ps.map Spher.z).sum = 0 →
        (centroid ps).vec = ⟨0, 0, 1⟩) := by
  have hn : (0 : ℝ) < ps.length := by
    rw [Nat.cast_pos]
    exact List.length_pos_of_ne_nil hne
  obtain ⟨h1, -, -, h4, h5⟩ := C47_from_coordinates (ofVec
    { x := (ps.map Spher.x).sum / ps.length
      y := (ps.map Spher.y).sum / ps.length
      z := (ps.map Spher.z).sum / ps.length })
  have hv : ∀ v : V3, (ofVec v).vec = v := fun v => rfl
  rw [hv] at h4 h5
  refine ⟨h1, ?_, fun hx hy hz => ?_⟩
  · by_cases hz : (V3.mk ((ps.map Spher.x).sum / ps.length) ((ps.map Spher.y).sum / ps.length)
      ((ps.map Spher.z).sum / ps.length)) = ⟨0, 0, 0⟩
    · refine ⟨0, le_refl _, ?_⟩
      have e1 : (ps.map Spher.x).sum / (ps.length : ℝ) = 0 := congrArg V3.x hz
      have e2 : (ps.map Spher.y).sum / (ps.length : ℝ) = 0 := congrArg V3.y hz
      have e3 : (ps.map Spher.z).sum / (ps.length : ℝ) = 0 := congrArg V3.z hz
      rw [div_eq_zero_iff] at e1 e2 e3
      have hn' := hn.ne'
      simp [e1.resolve_right hn', e2.resolve_right hn', e3.resolve_right hn']
    · have h := h4 hz
      generalize ha : Real.sqrt (V3.dot _ _) = a at h
      refine ⟨ps.length * a, mul_nonneg hn.le (by rw [← ha]; exact Real.sqrt_nonneg _), ?_⟩
      have e1 : a * (centroid ps).vec.x = (ps.map Spher.x).sum / (ps.length : ℝ) := congrArg V3.x h
      have e2 : a * (centroid ps).vec.y = (ps.map Spher.y).sum / (ps.length : ℝ) := congrArg V3.y h
      have e3 : a * (centroid ps).vec.z = (ps.map Spher.z).sum / (ps.length : ℝ) := congrArg V3.z h
      have m : ∀ u : ℝ, ps.length * (u / ps.length) = u := fun u => by field_simp
      rw [mul_assoc, mul_assoc, mul_assoc, e1, e2, e3, m, m, m]
  · refine h5 ?_
    simp [hx, hy, hz]

/-- **C47.** The centroid of two points that are not opposite is as far from one as from the
other. -/
theorem C47_midpoint (p q : Spher) (hp : p.Consistent) (hq : q.Consistent)
    (hne : p.vec ≠ smul (-1) q.vec) :
    angularDist p (centroid [p, q]) = angularDist q (centroid [p, q]) := by
  obtain ⟨h1, ⟨a, ha, h2⟩, -⟩ := C47_centroid [p, q] (by simp)
  have hpu := consistent_unit hp
  have hqu := consistent_unit hq
  have hcu := consistent_unit h1
  rw [angularDist_eq hp h1, angularDist_eq hq h1, angle_of_unit hpu hcu, angle_of_unit hqu hcu]
  congr 1
  simp only [List.map_cons, List.map_nil, List.sum_cons, List.sum_nil, add_zero, Prod.mk.injEq] at h2
  obtain ⟨e1, e2, e3⟩ := h2
  have hpos : a ≠ 0 := by
    rintro rfl
    rw [zero_mul] at e1 e2 e3
    refine hne ?_
    unfold smul Spher.vec
    ext
    · simp only; linarith
    · simp only; linarith
    · simp only; linarith
  refine mul_left_cancel₀ hpos ?_
  unfold V3.Unit V3.dot Spher.vec at *
  simp only at *
  linear_combination hpu - hqu - p.x * e1 - p.y * e2 - p.z * e3 + q.x * e1 + q.y * e2 + q.z * e3

/-! ## C51 -/

theorem deg2rad_90 : deg2rad 90 = Real.pi / 2 := by
  unfold deg2rad; ring

theorem cross_dot (v w : V3) : v.dot (cross v w) = 0 := by
  unfold V3.dot cross; ring

theorem tilted_spec (v temp : V3) (delta : ℝ) (hv : v.Unit) (ht : cross v temp ≠ ⟨0, 0, 0⟩)
    (h1 : -(Real.pi / 2) < delta) (h2 : delta < Real.pi / 2) :
    (tilted v temp delta).Unit ∧ v.angle (tilted v temp delta) = |delta| := by
  have hp := norm_pos ht
  have hou := unit_sdiv hp
  have hvo : v.dot (sdiv (cross v temp) (norm (cross v temp))) = 0 := by
    have := cross_dot v temp
    unfold V3.dot sdiv at *
    simp only
    field_simp
    linarith
  unfold tilted
  simp only
  generalize sdiv (cross v temp) (norm (cross v temp)) = o at *
  have hcos := Real.cos_pos_of_mem_Ioo ⟨h1, h2⟩
  have hnn : (add v (smul (Real.tan delta) o)).dot (add v (smul (Real.tan delta) o)) =
      1 + Real.tan delta ^ 2 := by
    unfold V3.Unit V3.dot add smul at *
    simp only
    linear_combination hv + 2 * Real.tan delta * hvo + Real.tan delta ^ 2 * hou
  have hpos : 0 < norm (add v (smul (Real.tan delta) o)) := by
    rw [norm_eq, hnn, Real.sqrt_pos]
    nlinarith [sq_nonneg (Real.tan delta)]
  have hu := unit_sdiv hpos
  refine ⟨hu, ?_⟩
  rw [angle_of_unit hv hu]
  have hd : v.dot (sdiv (add v (smul (Real.tan delta) o)) (norm (add v (smul (Real.tan delta) o)))) =
      Real.cos delta := by
    rw [← Real.inv_sqrt_one_add_tan_sq hcos, ← hnn, ← norm_eq]
    generalize norm (add v (smul (Real.tan delta) o)) = m at *
    unfold V3.Unit V3.dot add smul sdiv at *
    simp only
    field_simp
    linear_combination hv + Real.tan delta * hvo
  rw [hd, ← Real.cos_abs, Real.arccos_cos (abs_nonneg _)]
  have : |delta| < Real.pi / 2 := abs_lt.2 ⟨h1, h2⟩
  have := Real.pi_pos
  linarith

/-- **C51**, partial: for unit vectors, random vectors that are not parallel to them, and opening
angles above -90 and below 90 degrees, each result is a unit vector with that opening angle. Missing:
vectors that are not normalised (`C51_violated_length`). -/
theorem C51_dir_partial (isDegree : Bool) (es : List (V3 × V3 × ℝ))
    (h : ∀ e ∈ es, e.1.Unit ∧ cross e.1 e.2.1 ≠ ⟨0, 0, 0⟩ ∧
      |if isDegree then e.2.2 * Real.pi / 180 else e.2.2| < Real.pi / 2) :
    ∃ vs, deltaPsiDir isDegree es = .ok vs ∧
      List.Forall₂ (fun (e : V3 × V3 × ℝ) v => V3.Unit v ∧
        e.1.angle v = |if isDegree then e.2.2 * Real.pi / 180 else e.2.2|) es vs := by
  have key : ∀ fs : List (V3 × V3 × ℝ),
      (∀ e ∈ fs, e.1.Unit ∧ cross e.1 e.2.1 ≠ ⟨0, 0, 0⟩ ∧ |e.2.2| < Real.pi / 2) →
      (¬ ∃ e ∈ fs, e.2.2 ≥ deg2rad 90) ∧
      List.Forall₂ (fun (e : V3 × V3 × ℝ) v => V3.Unit v ∧ e.1.angle v = |e.2.2|) fs
        (fs.map fun e => tilted e.1 e.2.1 e.2.2) := by
    intro fs hf
    constructor
    · rintro ⟨e, he, hge⟩
      rw [deg2rad_90] at hge
      have := abs_lt.1 (hf e he).2.2
      linarith [this.2]
    · rw [List.forall₂_map_right_iff, List.forall₂_same]
      intro e he
      obtain ⟨g1, g2, g3⟩ := hf e he
      obtain ⟨g4, g5⟩ := abs_lt.1 g3
      exact tilted_spec e.1 e.2.1 e.2.2 g1 g2 g4 g5
  unfold deltaPsiDir
  cases isDegree with
  | false =>
    simp only [Bool.false_eq_true, if_false] at h ⊢
    obtain ⟨k1, k2⟩ := key es h
    rw [if_neg k1]
    exact ⟨_, rfl, k2⟩
  | true =>
    simp only [if_true] at h ⊢
    obtain ⟨k1, k2⟩ := key (es.map fun e => (e.1, e.2.1, deg2rad e.2.2)) (by
      intro e he
      obtain ⟨e', he', rfl⟩ := List.mem_map.1 he
      exact h e' he')
    rw [if_neg k1]
    refine ⟨_, rfl, ?_⟩
    rw [List.forall₂_map_left_iff] at k2
    exact k2

example : (V3.mk 0 0 1).Unit ∧ cross ⟨0, 0, 1⟩ ⟨1, 0, 0⟩ ≠ (⟨0, 0, 0⟩ : V3) ∧
    |(30 : ℝ) * Real.pi / 180| < Real.pi / 2 := by
  refine ⟨by simp [V3.Unit, V3.dot], ?_, ?_⟩
  · intro h
    have := congrArg V3.y h
    simp [cross] at this
  · rw [abs_of_pos (by have := Real.pi_pos; positivity)]
    have := Real.pi_pos
    linarith

/-- **C51.** One opening angle of 90 degrees or more is enough for the call to be refused. -/
theorem C51_refused (isDegree : Bool) (es : List (V3 × V3 × ℝ)) (e : V3 × V3 × ℝ) (he : e ∈ es)
    (h : (if isDegree then e.2.2 * Real.pi / 180 else e.2.2) ≥ Real.pi / 2) :
    deltaPsiDir isDegree es = .error .valueError := by
  unfold deltaPsiDir
  cases isDegree with
  | false =>
    simp only [Bool.false_eq_true, if_false] at h ⊢
    rw [if_pos ⟨e, he, by rw [deg2rad_90]; exact h⟩]
  | true =>
    simp only [if_true] at h ⊢
    rw [if_pos ⟨(e.1, e.2.1, deg2rad e.2.2), List.mem_map.2 ⟨e, he, rfl⟩,
      by rw [deg2rad_90]; exact h⟩]

/-- **C51.** The returned zenith and azimuth are those of a direction with the requested opening
angle to the direction of the given zenith and azimuth. -/
theorem C51_angles (isDegree : Bool) (es : List ((ℝ × ℝ) × V3 × ℝ))
    (h : ∀ e ∈ es, cross (direction e.1.1 e.1.2) e.2.1 ≠ ⟨0, 0, 0⟩ ∧
      |if isDegree then e.2.2 * Real.pi / 180 else e.2.2| < Real.pi / 2) :
    ∃ rs, deltaPsi isDegree es = .ok rs ∧
      List.Forall₂ (fun (e : (ℝ × ℝ) × V3 × ℝ) (r : ℝ × ℝ) =>
        (direction e.1.1 e.1.2).angle (direction r.1 r.2) =
          |if isDegree then e.2.2 * Real.pi / 180 else e.2.2| ∧
        (0 ≤ r.1 ∧ r.1 ≤ Real.pi) ∧ (0 ≤ r.2 ∧ r.2 < 2 * Real.pi)) es rs := by
  obtain ⟨vs, h1, h2⟩ := C51_dir_partial isDegree
    (es.map fun e => (direction e.1.1 e.1.2, e.2.1, e.2.2)) (by
      intro e he
      obtain ⟨e', he', rfl⟩ := List.mem_map.1 he
      refine ⟨?_, h e' he'⟩
      unfold V3.Unit V3.dot direction
      have g1 := Real.sin_sq_add_cos_sq e'.1.1
      have g2 := Real.sin_sq_add_cos_sq e'.1.2
      simp only
      linear_combination g1 + Real.sin e'.1.1 ^ 2 * g2)
  unfold deltaPsi
  rw [h1]
  refine ⟨_, rfl, ?_⟩
  rw [List.forall₂_map_left_iff] at h2
  rw [List.forall₂_map_right_iff]
  refine h2.imp ?_
  intro e v hv
  obtain ⟨hu, ha⟩ := hv
  have hz : clip v.z (-1) 1 = v.z := by
    have hu' := hu
    unfold V3.Unit V3.dot at hu'
    unfold clip
    rw [max_eq_left, min_eq_left]
    · nlinarith [mul_self_nonneg v.x, mul_self_nonneg v.y]
    · nlinarith [mul_self_nonneg v.x, mul_self_nonneg v.y]
  have hd : direction (angles v).1 (angles v).2 = v := by
    have := direction_of_unit hu (pymod (arctan2 v.y v.x + 2 * Real.pi) (2 * Real.pi))
      (by rw [cos_pymod, Real.cos_add_two_pi]) (by rw [sin_pymod, Real.sin_add_two_pi])
    unfold direction angles
    simp only [hz]
    ext
    · exact this.1.symm
    · exact this.2.1.symm
    · exact this.2.2.symm
  refine ⟨by rw [hd]; exact ha, ⟨Real.arccos_nonneg _, Real.arccos_le_pi _⟩,
    pymod_range _ _ Real.two_pi_pos⟩

example : cross (direction 0 0) ⟨1, 0, 0⟩ ≠ (⟨0, 0, 0⟩ : V3) := by
  intro h
  have := congrArg V3.y h
  simp [cross, direction] at this

/-- **C51**, refuted for vectors that are not normalised: twice a unit vector and 45 degrees give a
vector at an angle with tangent 1/2. -/
theorem C51_violated_length :
    ∃ v temp : V3, ∃ w, cross v temp ≠ ⟨0, 0, 0⟩ ∧
      deltaPsiDir false [(v, temp, Real.pi / 4)] = .ok [w] ∧ v.angle w ≠ Real.pi / 4 := by
  refine ⟨⟨0, 0, 2⟩, ⟨1, 0, 0⟩, tilted ⟨0, 0, 2⟩ ⟨1, 0, 0⟩ (Real.pi / 4), ?_, ?_, ?_⟩
  · intro h
    have := congrArg V3.y h
    simp [cross] at this
  · unfold deltaPsiDir
    simp only [Bool.false_eq_true, if_false]
    rw [if_neg]
    · simp
    · rintro ⟨e, he, hge⟩
      simp only [List.mem_singleton] at he
      subst he
      rw [deg2rad_90] at hge
      have := Real.pi_pos
      simp only at hge
      linarith
  · have e1 : norm (cross ⟨0, 0, 2⟩ ⟨1, 0, 0⟩) = 2 := by
      rw [norm_eq, show V3.dot (cross ⟨0, 0, 2⟩ ⟨1, 0, 0⟩) (cross ⟨0, 0, 2⟩ ⟨1, 0, 0⟩) = 2 ^ 2 by
        simp [V3.dot, cross]; norm_num]
      exact Real.sqrt_sq (by norm_num)
    have e2 : add ⟨0, 0, 2⟩ (smul (Real.tan (Real.pi / 4)) (sdiv (cross ⟨0, 0, 2⟩ ⟨1, 0, 0⟩) 2)) =
        ⟨0, 1, 2⟩ := by
      rw [Real.tan_pi_div_four]
      simp [add, smul, sdiv, cross]
    unfold tilted
    simp only [e1, e2]
    have e3 : norm ⟨0, 1, 2⟩ = Real.sqrt 5 := by
      rw [norm_eq]; congr 1; simp [V3.dot]; norm_num
    have h5 : Real.sqrt 5 ^ 2 = 5 := Real.sq_sqrt (by norm_num)
    have h5p : 0 < Real.sqrt 5 := Real.sqrt_pos.2 (by norm_num)
    intro h
    have hc := congrArg Real.cos h
    unfold V3.angle at hc
    have hu := unit_sdiv (v := ⟨0, 1, 2⟩) (by rw [e3]; exact h5p)
    unfold V3.Unit at hu
    rw [hu, Real.sqrt_one, mul_one, e3] at hc
    have e4 : V3.dot ⟨0, 0, 2⟩ ⟨0, 0, 2⟩ = 2 ^ 2 := by simp [V3.dot]; norm_num
    rw [e4, Real.sqrt_sq (by norm_num)] at hc
    have e5 : V3.dot ⟨0, 0, 2⟩ (sdiv ⟨0, 1, 2⟩ (Real.sqrt 5)) / 2 = 2 / Real.sqrt 5 := by
      simp [V3.dot, sdiv]
    rw [e5, Real.cos_arccos, Real.cos_pi_div_four] at hc
    · have h2 : Real.sqrt 2 ^ 2 = 2 := Real.sq_sqrt (by norm_num)
      rw [div_eq_div_iff h5p.ne' (by norm_num)] at hc
      have := congrArg (· ^ 2) hc
      simp only [mul_pow, h2, h5] at this
      norm_num at this
    · have : 0 < 2 / Real.sqrt 5 := by positivity
      linarith
    · rw [div_le_one h5p]
      nlinarith

/-- **C51**, refuted for angles of -90 degrees and less: these are not refused, and for -120 degrees
the opening angle is 60 degrees. -/
theorem C51_violated_negative :
    ∃ v temp : V3, ∃ w, v.Unit ∧ cross v temp ≠ ⟨0, 0, 0⟩ ∧
      deltaPsiDir true [(v, temp, -120)] = .ok [w] ∧ v.angle w = Real.pi / 3 := by
  have ht : cross ⟨0, 0, 1⟩ ⟨1, 0, 0⟩ ≠ (⟨0, 0, 0⟩ : V3) := by
    intro h
    have := congrArg V3.y h
    simp [cross] at this
  have hu : (V3.mk 0 0 1).Unit := by simp [V3.Unit, V3.dot]
  have hp := Real.pi_pos
  refine ⟨⟨0, 0, 1⟩, ⟨1, 0, 0⟩, tilted ⟨0, 0, 1⟩ ⟨1, 0, 0⟩ (deg2rad (-120)), hu, ht, ?_, ?_⟩
  · unfold deltaPsiDir
    simp only [if_true]
    rw [if_neg]
    · simp
    · rintro ⟨e, he, hge⟩
      simp only [List.map_cons, List.map_nil, List.mem_singleton] at he
      subst he
      rw [deg2rad_90] at hge
      unfold deg2rad at hge
      simp only at hge
      linarith
  · have e : Real.tan (deg2rad (-120)) = Real.tan (Real.pi / 3) := by
      rw [show deg2rad (-120) = Real.pi / 3 - Real.pi by unfold deg2rad; ring, Real.tan_sub_pi]
    have := (tilted_spec ⟨0, 0, 1⟩ ⟨1, 0, 0⟩ (Real.pi / 3) hu ht (by linarith) (by linarith)).2
    rw [abs_of_pos (by positivity)] at this
    unfold tilted at this ⊢
    simp only [e] at this ⊢
    exact this

/-! ## C70 -/

/-- **C70.** The formula of Kahan gives the opening angle, for all vectors other than zero. -/
theorem C70_angle (v w : V3) (hv : v ≠ ⟨0, 0, 0⟩) (hw : w ≠ ⟨0, 0, 0⟩) :
    getAngle v w = v.angle w := by
  have pv := norm_pos hv
  have pw := norm_pos hw
  unfold getAngle V3.angle
  rw [← norm_eq, ← norm_eq]
  simp only
  have a0 := norm_nonneg (sub (smul (norm w) v) (smul (norm v) w))
  have b0 := norm_nonneg (add (smul (norm w) v) (smul (norm v) w))
  have a2 : norm (sub (smul (norm w) v) (smul (norm v) w)) ^ 2 =
      2 * norm v ^ 2 * norm w ^ 2 - 2 * norm v * norm w * v.dot w := by
    have h1 := norm_sq v
    have h2 := norm_sq w
    rw [norm_sq]
    generalize norm v = m at *
    generalize norm w = n at *
    unfold V3.dot sub smul at *
    simp only
    linear_combination (-n ^ 2) * h1 - m ^ 2 * h2
  have b2 : norm (add (smul (norm w) v) (smul (norm v) w)) ^ 2 =
      2 * norm v ^ 2 * norm w ^ 2 + 2 * norm v * norm w * v.dot w := by
    have h1 := norm_sq v
    have h2 := norm_sq w
    rw [norm_sq]
    generalize norm v = m at *
    generalize norm w = n at *
    unfold V3.dot add smul at *
    simp only
    linear_combination (-n ^ 2) * h1 - m ^ 2 * h2
  generalize norm (sub (smul (norm w) v) (smul (norm v) w)) = a at *
  generalize norm (add (smul (norm w) v) (smul (norm v) w)) = b at *
  have hr : Real.sqrt (b ^ 2 + a ^ 2) = 2 * norm v * norm w := by
    rw [a2, b2, show 2 * norm v ^ 2 * norm w ^ 2 + 2 * norm v * norm w * v.dot w +
      (2 * norm v ^ 2 * norm w ^ 2 - 2 * norm v * norm w * v.dot w) =
      (2 * norm v * norm w) ^ 2 by ring, Real.sqrt_sq (by positivity)]
  have hc := arctan2_cos b a
  have hs := arctan2_sin b a
  rw [hr] at hc hs
  have hcos : Real.cos (2 * arctan2 a b) = v.dot w / (norm v * norm w) := by
    rw [Real.cos_two_mul, eq_div_iff (by positivity)]
    have h1 : (2 * norm v * norm w) ^ 2 * Real.cos (arctan2 a b) ^ 2 = b ^ 2 := by
      rw [← mul_pow, hc]
    have hne : (2 * norm v * norm w) ≠ 0 := by positivity
    refine mul_left_cancel₀ hne ?_
    linear_combination h1 + b2
  have h0 : 0 ≤ arctan2 a b := by
    unfold arctan2
    rw [Complex.arg_nonneg_iff]
    exact a0
  have h1 : arctan2 a b ≤ Real.pi / 2 := by
    have : |arctan2 a b| ≤ Real.pi / 2 := by
      unfold arctan2
      rw [Complex.abs_arg_le_pi_div_two_iff]
      exact b0
    exact (abs_le.1 this).2
  rw [← hcos, Real.arccos_cos (by linarith) (by linarith)]

example : (V3.mk 0 0 2) ≠ ⟨0, 0, 0⟩ ∧ (V3.mk 0 3 0) ≠ ⟨0, 0, 0⟩ := by
  constructor <;> intro h
  · have := congrArg V3.z h; simp at this
  · have := congrArg V3.y h; simp at this

/-- **C70.** The opening angle from zenith and azimuth is that of the two directions, for all
angles; the clipping never changes the value. -/
theorem C70_deviation (az1 zen1 az2 zen2 : ℝ) :
    getAngleDeviation az1 zen1 az2 zen2 = (direction zen1 az1).angle (direction zen2 az2) ∧
    getAngleDeviation az1 zen1 az2 zen2 = getAngle (direction zen1 az1) (direction zen2 az2) := by
  have hu : ∀ z a : ℝ, (direction z a).Unit := by
    intro z a
    unfold V3.Unit V3.dot direction
    have g1 := Real.sin_sq_add_cos_sq z
    have g2 := Real.sin_sq_add_cos_sq a
    simp only
    linear_combination g1 + Real.sin z ^ 2 * g2
  have h1 : getAngleDeviation az1 zen1 az2 zen2 = (direction zen1 az1).angle (direction zen2 az2) := by
    rw [angle_of_unit (hu _ _) (hu _ _)]
    unfold getAngleDeviation
    have hd : Real.cos (az1 - az2) * Real.sin zen1 * Real.sin zen2 + Real.cos zen1 * Real.cos zen2 =
        (direction zen1 az1).dot (direction zen2 az2) := by
      rw [Real.cos_sub]
      unfold V3.dot direction
      ring
    rw [hd]
    obtain ⟨b1, b2⟩ := unit_bounds (hu zen1 az1) (hu zen2 az2)
    congr 1
    unfold clip
    rw [max_eq_left b1, min_eq_left b2]
  refine ⟨h1, ?_⟩
  rw [h1, C70_angle]
  · intro h
    have := hu zen1 az1
    rw [h] at this
    simp [V3.Unit, V3.dot] at this
  · intro h
    have := hu zen2 az2
    rw [h] at this
    simp [V3.Unit, V3.dot] at this

/-- **C70.** The opening angle is symmetric, between 0 and 180 degrees, zero for equal directions
only, and does not change with the length of the vectors. -/
theorem C70_properties (v w : V3) (hv : v ≠ ⟨0, 0, 0⟩) (hw : w ≠ ⟨0, 0, 0⟩) :
    getAngle v w = getAngle w v ∧ 0 ≤ getAngle v w ∧ getAngle v w ≤ Real.pi ∧
      (getAngle v w = 0 ↔ sdiv v (norm v) = sdiv w (norm w)) ∧
      ∀ a : ℝ, 0 < a → getAngle (smul a v) w = getAngle v w := by
  have pv := norm_pos hv
  have pw := norm_pos hw
  refine ⟨?_, ?_, ?_, ?_, ?_⟩
  · rw [C70_angle v w hv hw, C70_angle w v hw hv]
    unfold V3.angle
    rw [show v.dot w = w.dot v by unfold V3.dot; ring, mul_comm]
  · rw [C70_angle v w hv hw]
    exact Real.arccos_nonneg _
  · rw [C70_angle v w hv hw]
    exact Real.arccos_le_pi _
  · rw [C70_angle v w hv hw]
    unfold V3.angle
    rw [← norm_eq, ← norm_eq, Real.arccos_eq_zero]
    have u1 := unit_sdiv pv
    have u2 := unit_sdiv pw
    have hd : v.dot w / (norm v * norm w) = (sdiv v (norm v)).dot (sdiv w (norm w)) := by
      unfold V3.dot sdiv
      simp only
      field_simp
    rw [hd]
    generalize sdiv v (norm v) = p at *
    generalize sdiv w (norm w) = q at *
    constructor
    · intro h
      unfold V3.Unit V3.dot at *
      have hx := mul_self_nonneg (p.x - q.x)
      have hy := mul_self_nonneg (p.y - q.y)
      have hz := mul_self_nonneg (p.z - q.z)
      have hsum : (p.x - q.x) * (p.x - q.x) + (p.y - q.y) * (p.y - q.y) +
        (p.z - q.z) * (p.z - q.z) ≤ 0 := by nlinarith
      ext
      · have := mul_self_eq_zero.1 (show (p.x - q.x) * (p.x - q.x) = 0 by linarith)
        linarith
      · have := mul_self_eq_zero.1 (show (p.y - q.y) * (p.y - q.y) = 0 by linarith)
        linarith
      · have := mul_self_eq_zero.1 (show (p.z - q.z) * (p.z - q.z) = 0 by linarith)
        linarith
    · rintro rfl
      exact le_of_eq u1.symm
  · intro a ha
    have hs : smul a v ≠ ⟨0, 0, 0⟩ := by
      intro h
      refine hv ?_
      have h1 : a * v.x = 0 := congrArg V3.x h
      have h2 : a * v.y = 0 := congrArg V3.y h
      have h3 : a * v.z = 0 := congrArg V3.z h
      ext
      · exact (mul_eq_zero.1 h1).resolve_left ha.ne'
      · exact (mul_eq_zero.1 h2).resolve_left ha.ne'
      · exact (mul_eq_zero.1 h3).resolve_left ha.ne'
    rw [C70_angle _ w hs hw, C70_angle v w hv hw]
    unfold V3.angle
    have e1 : (smul a v).dot w = a * v.dot w := by unfold V3.dot smul; ring
    have e2 : Real.sqrt ((smul a v).dot (smul a v)) = a * Real.sqrt (v.dot v) := by
      rw [show (smul a v).dot (smul a v) = a ^ 2 * v.dot v by unfold V3.dot smul; ring,
        Real.sqrt_mul (sq_nonneg a), Real.sqrt_sq ha.le]
    rw [e1, e2, mul_assoc, mul_div_mul_left _ _ ha.ne']

end Verif.Sphere
