import Verif.Inputs.Spec
import Verif.Inputs.Lemmas
import Verif.Sphere.Props
import Verif.Sources.Props
import Mathlib.Analysis.Complex.ExponentialBounds
import Mathlib.Tactic.NormNum

/-! # C62, C77 to C80: the inputs of the networks -/

namespace Verif.Inputs
open Verif.Py Verif.Sphere

/-! ## C62 -/

/-- **C62.** The position stays strictly inside the track. -/
theorem C62_inside {L : ℝ} (hL : 0 < L) (d : ℝ) : 0 < shift L d ∧ shift L d < L :=
  ⟨shift_pos hL d, shift_lt hL d⟩

/-- **C62.** The position is strictly monotone in the distance. -/
theorem C62_monotone {L : ℝ} (hL : 0 < L) {d d' : ℝ} (h : d < d') : shift L d < shift L d' :=
  shift_strictMono hL h

/-- **C62.** The position is the nearest point of the track up to less than 0.7 m. -/
theorem C62_near {L : ℝ} (hL : 0 < L) (d : ℝ) : |shift L d - max 0 (min L d)| < 0.7 := by
  have := shift_clamp hL.le d
  have := Real.log_two_lt_d9
  linarith

/-- **C62.** The energy deposited between two points is never negative, zero only between equal
points, and less than the total energy; the order of the points does not matter. -/
theorem C62_bounded {E L : ℝ} (hE : 0 < E) (hL : 0 < L) (d1 d2 : ℝ) :
    ∃ e, depEnergy E L d1 d2 = some e ∧ depEnergy E L d2 d1 = some e ∧ 0 ≤ e ∧ e < E ∧
      (e = 0 ↔ d1 = d2) := by
  refine ⟨_, depEnergy_eq hL.ne' d1 d2, ?_, ?_, ?_, ?_⟩
  · rw [depEnergy_eq hL.ne', abs_sub_comm]
  · positivity
  · have h1 := C62_inside hL d1
    have h2 := C62_inside hL d2
    have h : |shift L d2 - shift L d1| < L := by
      rw [abs_lt]
      constructor <;> linarith
    have : |shift L d2 - shift L d1| / L < 1 := by rwa [div_lt_one hL]
    nlinarith
  · constructor
    · intro h
      rcases mul_eq_zero.1 h with h | h
      · exact absurd h hE.ne'
      · rcases div_eq_zero_iff.1 h with h | h
        · exact ((shift_strictMono hL).injective (by
            have := abs_eq_zero.1 h
            linarith : shift L d2 = shift L d1)).symm
        · exact absurd h hL.ne'
    · rintro rfl
      simp

/-- **C62.** The energies of two adjacent parts add up. -/
theorem C62_additive {E L : ℝ} (hL : 0 < L) {d1 d2 d3 : ℝ} (h12 : d1 ≤ d2) (h23 : d2 ≤ d3) :
    ∃ e e', depEnergy E L d1 d2 = some e ∧ depEnergy E L d2 d3 = some e' ∧
      depEnergy E L d1 d3 = some (e + e') := by
  refine ⟨_, _, depEnergy_eq hL.ne' _ _, depEnergy_eq hL.ne' _ _, ?_⟩
  rw [depEnergy_eq hL.ne']
  have m := (shift_strictMono hL).monotone
  rw [abs_of_nonneg (sub_nonneg.2 (m (h12.trans h23))), abs_of_nonneg (sub_nonneg.2 (m h12)),
    abs_of_nonneg (sub_nonneg.2 (m h23))]
  congr 1
  ring

/-- **C62.** However a track is cut into parts, the energies of the parts add up to the energy between
the first and the last point and stay below the total energy. -/
theorem C62_parts {E L : ℝ} (hE : 0 < E) (hL : 0 < L) (a : ℝ) (l : List ℝ)
    (h : (a :: l).Pairwise (· ≤ ·)) :
    ∃ s, Deposits E L a l s ∧ depEnergy E L a ((a :: l).getLast (by simp)) = some s ∧ s < E := by
  suffices hs : ∃ s, Deposits E L a l s ∧
      depEnergy E L a ((a :: l).getLast (by simp)) = some s by
    obtain ⟨s, h1, h2⟩ := hs
    obtain ⟨e, g1, -, -, g2, -⟩ := C62_bounded hE hL a ((a :: l).getLast (by simp))
    rw [g1] at h2
    cases h2
    exact ⟨s, h1, g1, g2⟩
  induction l generalizing a with
  | nil =>
    refine ⟨0, .nil a, ?_⟩
    rw [depEnergy_eq hL.ne']
    simp
  | cons b l ih =>
    rw [List.pairwise_cons] at h
    obtain ⟨s, h1, h2⟩ := ih b h.2
    have hb : b ≤ (b :: l).getLast (by simp) := by
      rcases List.mem_cons.1 (List.getLast_mem (l := b :: l) (by simp)) with g | g
      · exact g.ge
      · exact (List.pairwise_cons.1 h.2).1 _ g
    obtain ⟨e, e', g1, g2, g3⟩ := C62_additive (E := E) hL (h.1 b (by simp)) hb
    rw [g2] at h2
    cases h2
    exact ⟨e + s, .cons g1 h1, by rw [List.getLast_cons (by simp)]; exact g3⟩

/-- **C62.** All of the energy is deposited: the part between two points approaches the total energy
when the points are moved outwards. -/
theorem C62_total {E L : ℝ} (hE : 0 < E) (hL : 0 < L) {ε : ℝ} (hε : 0 < ε) :
    ∃ a, ∀ d1 d2, d1 ≤ -a → L + a ≤ d2 → ∃ e, depEnergy E L d1 d2 = some e ∧ E - ε < e := by
  -- far outside the track the position is within `exp (-a)` of the end
  have key : ∀ a, 0 ≤ a → ∀ d1 d2, d1 ≤ -a → L + a ≤ d2 →
      L - 2 * Real.exp (-a) ≤ shift L d2 - shift L d1 := by
    intro a ha d1 d2 h1 h2
    have sp0 : ∀ x, 0 < softplus x := fun x => lt_of_le_of_lt (le_max_left _ _) (softplus_bounds x).1
    have spe : ∀ x, softplus x ≤ Real.exp x := by
      intro x
      unfold softplus
      have := Real.log_le_sub_one_of_pos (one_exp_pos x)
      linarith
    have b1 : shift L d1 ≤ Real.exp (-a) := by
      have e : shift L d1 = softplus d1 - softplus (d1 - L) := by rw [shift_eq]; rfl
      have := Real.exp_le_exp.2 h1
      linarith [spe d1, sp0 (d1 - L)]
    have b2 : L - Real.exp (-a) ≤ shift L d2 := by
      have e : softplus (d2 - L) = (d2 - L) + softplus (L - d2) := by
        have := shift_eq 0 (d2 - L)
        unfold shift at this
        have e0 : softplus (d2 - L) = Real.log (1 + Real.exp (d2 - L)) := rfl
        rw [sub_zero, ← e0] at this
        rw [show L - d2 = -(d2 - L) by ring]
        linarith
      have : Real.exp (L - d2) ≤ Real.exp (-a) := Real.exp_le_exp.2 (by linarith)
      unfold shift
      linarith [spe (L - d2), sp0 (-d2)]
    linarith
  have hq : 0 < ε * L / (4 * E) := by positivity
  obtain ⟨a, ha, hea⟩ : ∃ a, 0 ≤ a ∧ Real.exp (-a) < ε * L / (2 * E) := by
    refine ⟨max 0 (-Real.log (ε * L / (4 * E))), le_max_left _ _, ?_⟩
    have h1 : Real.exp (-max 0 (-Real.log (ε * L / (4 * E)))) ≤ ε * L / (4 * E) := by
      conv_rhs => rw [← Real.exp_log hq]
      apply Real.exp_le_exp.2
      linarith [le_max_right 0 (-Real.log (ε * L / (4 * E)))]
    have h2 : ε * L / (4 * E) < ε * L / (2 * E) := by
      apply div_lt_div_of_pos_left (by positivity) (by positivity)
      linarith
    exact lt_of_le_of_lt h1 h2
  refine ⟨a, fun d1 d2 h1 h2 => ⟨_, depEnergy_eq hL.ne' _ _, ?_⟩⟩
  have h3 := key a ha d1 d2 h1 h2
  have h4 := le_abs_self (shift L d2 - shift L d1)
  have h5 : Real.exp (-a) * (2 * E) < ε * L := by rwa [lt_div_iff₀ (by positivity)] at hea
  have h6 : E * (L - 2 * Real.exp (-a)) / L ≤ E * (|shift L d2 - shift L d1| / L) := by
    rw [← mul_div_assoc]
    apply div_le_div_of_nonneg_right _ hL.le
    apply mul_le_mul_of_nonneg_left _ hE.le
    linarith
  refine lt_of_lt_of_le ?_ h6
  rw [lt_div_iff₀ hL]
  nlinarith

example : ∃ e, depEnergy 100 50 (-10) 20 = some e ∧ 0 < e ∧ e < 100 := by
  obtain ⟨e, h1, -, h3, h4, h5⟩ := C62_bounded (E := 100) (L := 50) (by norm_num) (by norm_num) (-10) 20
  refine ⟨e, h1, lt_of_le_of_ne h3 ?_, h4⟩
  intro h
  have := h5.1 h.symm
  norm_num at this

example : ([-10, 0, 20, 70] : List ℝ).Pairwise (· ≤ ·) := by
  simp
  norm_num

/-! ## C80 -/

theorem dist_eq (p q : V3) : dist p q = norm (sub p q) := rfl

/-- The square of the distance of a DOM to a point of the line. -/
theorem dist_sq_line (dom vertex d : V3) (hd : d.Unit) (s : ℝ) :
    dist dom (point vertex d s) ^ 2 = dist dom (point vertex d (d.dot (sub dom vertex))) ^ 2 +
      (s - d.dot (sub dom vertex)) ^ 2 := by
  rw [dist_eq, dist_eq, norm_sq, norm_sq]
  unfold V3.Unit V3.dot at hd
  unfold V3.dot sub point
  simp only
  linear_combination (s ^ 2 - (d.x * (dom.x - vertex.x) + d.y * (dom.y - vertex.y) +
    d.z * (dom.z - vertex.z)) ^ 2) * hd

theorem dist_nonneg (p q : V3) : 0 ≤ dist p q := Real.sqrt_nonneg _

/-- Moving along the line changes the distance by no more than the way. -/
theorem dist_move (dom vertex d : V3) (hd : d.Unit) (s s' : ℝ) :
    dist dom (point vertex d s) ≤ dist dom (point vertex d s') + |s - s'| := by
  have h1 := dist_sq_line dom vertex d hd s
  have h2 := dist_sq_line dom vertex d hd s'
  set m := d.dot (sub dom vertex)
  set p := dist dom (point vertex d m)
  have a0 := dist_nonneg dom (point vertex d s)
  have b0 := dist_nonneg dom (point vertex d s')
  set a := dist dom (point vertex d s)
  set b := dist dom (point vertex d s')
  apply abs_le_of_sq_le_sq' _ (by positivity) |>.2
  have hb : |s' - m| ≤ b := by
    apply abs_le_of_sq_le_sq _ b0
    nlinarith [sq_nonneg p]
  have h3 : (s - s') * (s' - m) ≤ |s - s'| * |s' - m| := by
    rw [← abs_mul]
    exact le_abs_self _
  have h4 : |s - s'| * |s' - m| ≤ |s - s'| * b := mul_le_mul_of_nonneg_left hb (abs_nonneg _)
  have h5 : |s - s'| ^ 2 = (s - s') ^ 2 := sq_abs _
  nlinarith

/-- **C80.** The point of closest approach of the infinite track is the point of the line through the
vertex along the direction of flight that is nearest to the DOM. -/
theorem C80_nearest (dom vertex : V3) (zenith azimuth energy length : ℝ) :
    let g := geometry dom vertex zenith azimuth energy length
    g.dir.Unit ∧ g.infinitePoint = point vertex g.dir g.infinite ∧
      ∀ s, dist dom g.infinitePoint ≤ dist dom (point vertex g.dir s) := by
  intro g
  have hu : g.dir.Unit := dir_unit zenith azimuth
  have hp : g.infinitePoint = point vertex g.dir g.infinite := rfl
  refine ⟨hu, hp, ?_⟩
  intro s
  have hm : g.infinite = g.dir.dot (sub dom vertex) := rfl
  have := dist_sq_line dom vertex g.dir hu s
  rw [hp, hm]
  apply abs_le_of_sq_le_sq' _ (dist_nonneg _ _) |>.2
  nlinarith [sq_nonneg (s - g.dir.dot (sub dom vertex))]

/-- **C80.** The point of closest approach lies strictly inside the track, one metre longer than the
hypothesis says, and no point of that track is more than 0.7 m nearer to the DOM. -/
theorem C80_on_track (dom vertex : V3) (zenith azimuth energy : ℝ) {length : ℝ} (hl : 0 ≤ length) :
    let g := geometry dom vertex zenith azimuth energy length
    g.closestPoint = point vertex g.dir g.closest ∧ 0 < g.closest ∧ g.closest < length + 1 ∧
      ∀ s, 0 ≤ s → s ≤ length + 1 →
        dist dom g.closestPoint < dist dom (point vertex g.dir s) + 0.7 := by
  intro g
  have hL : 0 < length + 1 := by linarith
  have hu : g.dir.Unit := dir_unit zenith azimuth
  have hp : g.closestPoint = point vertex g.dir g.closest := rfl
  have hc : g.closest = shift (length + 1) g.infinite := rfl
  have hm : g.infinite = g.dir.dot (sub dom vertex) := rfl
  refine ⟨hp, by rw [hc]; exact shift_pos hL _, by rw [hc]; exact shift_lt hL _, ?_⟩
  intro s h0 h1
  set c := max 0 (min (length + 1) g.infinite) with hcl
  have a1 := dist_move dom vertex g.dir hu g.closest c
  have a2 : |g.closest - c| < 0.7 := by rw [hc]; exact C62_near hL _
  have a3 : dist dom (point vertex g.dir c) ≤ dist dom (point vertex g.dir s) := by
    have e1 := dist_sq_line dom vertex g.dir hu s
    have e2 := dist_sq_line dom vertex g.dir hu c
    rw [← hm] at e1 e2
    have e3 : (c - g.infinite) ^ 2 ≤ (s - g.infinite) ^ 2 := by
      rw [hcl]
      rcases le_total (length + 1) g.infinite with h | h
      · rw [min_eq_left h, max_eq_right hL.le]
        nlinarith
      · rw [min_eq_right h]
        rcases le_total 0 g.infinite with h' | h'
        · rw [max_eq_right h']
          nlinarith [sq_nonneg (s - g.infinite)]
        · rw [max_eq_left h']
          nlinarith
    apply abs_le_of_sq_le_sq' _ (dist_nonneg _ _) |>.2
    linarith
  rw [hp]
  linarith

/-- **C80.** The displacement is the vector from the point of closest approach to the DOM, the distance
is its length plus 0.1 m. -/
theorem C80_displacement (dom vertex : V3) (zenith azimuth energy length : ℝ) :
    let g := geometry dom vertex zenith azimuth energy length
    g.displacement = toward g.closestPoint dom ∧ g.distance = dist dom g.closestPoint + 0.1 :=
  ⟨rfl, rfl⟩

theorem cherenkov_pos : 0 < Real.tan cherenkovAngle ∧ 0 < Real.sin cherenkovAngle ∧
    Real.cos cherenkovAngle = 1 / 1.3195 ∧ cherenkovAngle ∈ Set.Icc 0 Real.pi := by
  have hc : Real.cos cherenkovAngle = 1 / 1.3195 := Real.cos_arccos (by norm_num) (by norm_num)
  have hs : 0 < Real.sin cherenkovAngle := by
    unfold cherenkovAngle
    rw [Real.sin_arccos]
    apply Real.sqrt_pos.2
    norm_num
  refine ⟨?_, hs, hc, Real.arccos_nonneg _, Real.arccos_le_pi _⟩
  rw [Real.tan_eq_sin_div_cos, hc]
  positivity

/-- **C80.** From the Cherenkov position the DOM is seen under the Cherenkov angle (refractive index
1.3195), for every DOM that is not on the line of the track. -/
theorem C80_cherenkov (dom vertex : V3) (zenith azimuth energy length : ℝ) :
    let g := geometry dom vertex zenith azimuth energy length
    dom ≠ g.infinitePoint →
      g.dir.angle (toward (point vertex g.dir g.cherenkov) dom) = Real.arccos (1 / 1.3195) := by
  intro g hne
  have hu : g.dir.Unit := dir_unit zenith azimuth
  obtain ⟨ht, hs, hc, -⟩ := cherenkov_pos
  have hm : g.infinite = g.dir.dot (sub dom vertex) := rfl
  have hch : g.cherenkov = g.infinite - dist dom g.infinitePoint / Real.tan cherenkovAngle := rfl
  have hp : g.infinitePoint = point vertex g.dir g.infinite := rfl
  set w := toward (point vertex g.dir g.cherenkov) dom
  have hpos : 0 < dist dom g.infinitePoint := by
    rw [dist_eq]
    apply norm_pos
    intro h
    apply hne
    have h1 := congrArg V3.x h
    have h2 := congrArg V3.y h
    have h3 := congrArg V3.z h
    simp only [sub] at h1 h2 h3
    exact V3.ext (by linarith) (by linarith) (by linarith)
  have hq := dist_sq_line dom vertex g.dir hu g.cherenkov
  rw [← hm, ← hp] at hq
  set p := dist dom g.infinitePoint
  have hww : w.dot w = dist dom (point vertex g.dir g.cherenkov) ^ 2 := by
    rw [dist_eq, norm_sq]
    rfl
  have hdw : g.dir.dot w = p / Real.tan cherenkovAngle := by
    have e : g.dir.dot w = g.dir.dot (sub dom vertex) - g.cherenkov * g.dir.dot g.dir := by
      unfold V3.dot sub
      simp only [w, toward, point]
      ring
    have hu' : g.dir.dot g.dir = 1 := hu
    rw [e, hu', ← hm, hch]
    ring
  unfold V3.angle
  rw [hdw, show g.dir.dot g.dir = 1 from hu, Real.sqrt_one, one_mul]
  congr 1
  have hn : Real.sqrt (w.dot w) = p / Real.sin cherenkovAngle := by
    rw [hww, hq, hch, Real.tan_eq_sin_div_cos]
    have e : p ^ 2 + (g.infinite - p / (Real.sin cherenkovAngle / Real.cos cherenkovAngle) -
        g.infinite) ^ 2 = (p / Real.sin cherenkovAngle) ^ 2 := by
      have h1 := Real.sin_sq_add_cos_sq cherenkovAngle
      have hc0 : Real.cos cherenkovAngle ≠ 0 := by rw [hc]; norm_num
      field_simp
      linear_combination (p ^ 2) * h1
    rw [e, Real.sqrt_sq (by positivity)]
  rw [hn, Real.tan_eq_sin_div_cos, ← hc]
  have hc0 : Real.cos cherenkovAngle ≠ 0 := by rw [hc]; norm_num
  field_simp

/-- **C80.** The energies before and behind the point of closest approach are those of the adjacent
100 m, the third is that between the Cherenkov position and the point of closest approach of the infinite
track, all for the energy plus 0.1; none is negative and before and behind stay below the total. -/
theorem C80_energies (dom vertex : V3) (zenith azimuth : ℝ) {energy length : ℝ} (he : 0 ≤ energy)
    (hl : 0 ≤ length) :
    let g := geometry dom vertex zenith azimuth energy length
    (g.before = depEnergy (energy + 0.1) (length + 1) (g.closest - 100) g.closest ∧
      g.after = depEnergy (energy + 0.1) (length + 1) g.closest (g.closest + 100) ∧
      g.energyCherenkov = depEnergy (energy + 0.1) (length + 1) g.cherenkov g.infinite) ∧
    ∃ b a c, g.before = some b ∧ g.after = some a ∧ g.energyCherenkov = some c ∧ 0 < b ∧ 0 < a ∧
      0 ≤ c ∧ b + a < energy + 0.1 ∧ c < energy + 0.1 := by
  intro g
  refine ⟨⟨rfl, rfl, rfl⟩, ?_⟩
  have hE : 0 < energy + 0.1 := by norm_num; linarith
  have hL : 0 < length + 1 := by linarith
  obtain ⟨b, b1, -, b2, b3, b4⟩ := C62_bounded hE hL (g.closest - 100) g.closest
  obtain ⟨a, a1, -, a2, a3, a4⟩ := C62_bounded hE hL g.closest (g.closest + 100)
  obtain ⟨c, c1, -, c2, c3, -⟩ := C62_bounded hE hL g.cherenkov g.infinite
  obtain ⟨t, t1, -, -, t3, -⟩ := C62_bounded hE hL (g.closest - 100) (g.closest + 100)
  obtain ⟨b', a', h1, h2, h3⟩ := C62_additive (E := energy + 0.1) hL
    (show g.closest - 100 ≤ g.closest by linarith) (show g.closest ≤ g.closest + 100 by linarith)
  rw [b1] at h1
  rw [a1] at h2
  rw [t1] at h3
  cases h1; cases h2; cases h3
  refine ⟨b, a, c, b1, a1, c1, lt_of_le_of_ne b2 ?_, lt_of_le_of_ne a2 ?_, c2, t3, c3⟩
  · intro h
    have := b4.1 h.symm
    linarith
  · intro h
    have := a4.1 h.symm
    linarith

theorem sdiv_ne_zero {v : V3} {a : ℝ} (ha : a ≠ 0) (hv : v ≠ ⟨0, 0, 0⟩) : sdiv v a ≠ ⟨0, 0, 0⟩ := by
  intro h
  apply hv
  have h1 := congrArg V3.x h
  have h2 := congrArg V3.y h
  have h3 := congrArg V3.z h
  simp only [sdiv, div_eq_zero_iff, ha, or_false] at h1 h2 h3
  exact V3.ext h1 h2 h3

theorem angle_sdiv (d v : V3) {a : ℝ} (ha : 0 < a) : d.angle (sdiv v a) = d.angle v := by
  unfold V3.angle
  have e1 : d.dot (sdiv v a) = d.dot v / a := by
    unfold V3.dot sdiv
    simp only
    field_simp
  have e2 : (sdiv v a).dot (sdiv v a) = v.dot v / a ^ 2 := by
    unfold V3.dot sdiv
    simp only
    field_simp
  rw [e1, e2, Real.sqrt_div (dot_self_nonneg v), Real.sqrt_sq ha.le, ← mul_div_assoc,
    div_div_div_cancel_right₀ ha.ne']

/-- **C80.** The opening angle of a source is the angle between its direction and the displacement of the
DOM, although the displacement is not always divided by its length. -/
theorem C80_opening (t : Trafo) (zenith azimuth : ℝ) (v : V3) (hv : v ≠ ⟨0, 0, 0⟩) {a : ℝ} (ha : 0 < a) :
    angleChannel t (dir zenith azimuth) (normed v a) =
      some (((dir zenith azimuth).angle v - t.mean 3) / (t.std 3 + t.normConst)) := by
  have hd : dir zenith azimuth ≠ ⟨0, 0, 0⟩ := by
    intro h
    have := dir_unit zenith azimuth
    rw [h] at this
    simp [V3.Unit, V3.dot] at this
  unfold angleChannel normed
  rw [if_neg ha.ne', Option.map_some, C70_angle _ _ hd (sdiv_ne_zero ha.ne' hv), angle_sdiv _ _ ha,
    add_comm t.normConst]

example : (⟨1, 2, 3⟩ : V3) ≠ (geometry ⟨1, 2, 3⟩ ⟨0, 0, 0⟩ 0 0 10 20).infinitePoint := by
  intro h
  have := congrArg V3.x h
  simp [geometry, dir, add, smul] at this

/-! ## C77 -/

/-- The row of a hypothesis, split. -/
theorem row_of_length {row : List ℝ} {k : ℕ} (h : row.length = 7 + k) :
    ∃ hyp : Hyp, row = hyp.row ∧ hyp.rest.length = k := by
  match row, h with
  | x :: y :: z :: zen :: az :: e :: t :: rest, h =>
    refine ⟨⟨⟨x, y, z⟩, zen, az, e, t, rest⟩, rfl, ?_⟩
    simp only [List.length_cons] at h
    simp only
    omega
  | [], h => simp at h; omega
  | [_], h => simp at h; omega
  | [_, _], h => simp at h; omega
  | [_, _, _], h => simp at h; omega
  | [_, _, _, _], h => simp at h; omega
  | [_, _, _, _, _], h => simp at h; omega
  | [_, _, _, _, _, _], h => simp at h; omega

/-- The transformed parameters behind the first seven. -/
def restTrafo (t : Trafo) (rest : List ℝ) : List ℝ := rest.mapIdx (fun i => t.col (i + 7))

theorem length_restTrafo (t : Trafo) (rest : List ℝ) : (restTrafo t rest).length = rest.length := by
  simp [restTrafo]

theorem getElem?_restTrafo (t : Trafo) (rest : List ℝ) (i : ℕ) :
    (restTrafo t rest)[i]? = rest[i]?.map (t.col (i + 7)) := by
  simp [restTrafo, List.getElem?_mapIdx]

theorem mapIdx_row (t : Trafo) (h : Hyp) : h.row.mapIdx t.col =
    [t.col 0 h.vertex.x, t.col 1 h.vertex.y, t.col 2 h.vertex.z, t.col 3 h.zenith, t.col 4 h.azimuth,
      t.col 5 h.energy, t.col 6 h.time] ++ restTrafo t h.rest := by
  simp [Hyp.row, restTrafo, List.mapIdx_cons, Nat.add_assoc]

theorem defaultInputs_row (cfg : Config) (t : Trafo) (localVars : List ℝ) (dom : V3) (h : Hyp) :
    defaultInputs cfg t localVars dom h.row = .ok (
      [some (t.col 0 h.vertex.x), some (t.col 1 h.vertex.y), some (t.col 2 h.vertex.z)] ++
      (coords (some h.flight) ++ ([some (t.col 5 h.energy)] ++ ((restTrafo t h.rest).map some ++
      (coords (normed (sub dom h.vertex) (norm (sub dom h.vertex))) ++
      ([some (norm (sub dom h.vertex) / posScale t)] ++
      options cfg t localVars dom h.flight (normed (sub dom h.vertex) (norm (sub dom h.vertex))))))))) := by
  have e : defaultInputs cfg t localVars dom h.row = .ok (((h.row.mapIdx t.col).take 3).map some ++
      coords (some h.flight) ++ (((h.row.mapIdx t.col).drop 5).take 1).map some ++
      ((h.row.mapIdx t.col).drop 7).map some ++
      coords (normed (sub dom h.vertex) (norm (sub dom h.vertex))) ++
      [some (norm (sub dom h.vertex) / posScale t)] ++
      options cfg t localVars dom h.flight (normed (sub dom h.vertex) (norm (sub dom h.vertex)))) := rfl
  rw [e, mapIdx_row]
  simp

/-- **C77.** The inputs of a cascade have the number of channels the network was built for. -/
theorem C77_default (fmt : String → ℕ → String) (cfg : Config) (t : Trafo) {localVars row : List ℝ}
    (dom : V3) (hl : localVars.length = cfg.numLocal)
    (hr : row.length = (cascadeNames fmt cfg).length) :
    ∃ l, defaultInputs cfg t localVars dom row = .ok l ∧ l.length = numInputs cfg := by
  have hn : (cascadeNames fmt cfg).length = 7 + (cfg.additional.length + numSnow cfg.snowstorm) := by
    simp [cascadeNames, length_snowNames]
    omega
  obtain ⟨h, rfl, hk⟩ := row_of_length (hr.trans hn)
  refine ⟨_, defaultInputs_row cfg t localVars dom h, ?_⟩
  simp only [List.length_append, length_coords, List.length_map, length_restTrafo, hk,
    length_options cfg t hl, List.length_cons, List.length_nil]
  unfold numInputs
  omega

/-- A hypothesis of a track segment, split. -/
theorem segmentChannels_row (cfg : Config) (t : Trafo) (localVars : List ℝ) (dom : V3) (h : Hyp)
    (length stoch : ℝ) (more : List ℝ) (hr : h.rest = length :: stoch :: more)
    (ht : t.logEnergy = true) :
    let g := geometry dom h.vertex h.zenith h.azimuth h.energy length
    segmentChannels cfg t localVars dom h.row = .ok (
      coords (some h.flight) ++ ([some (t.col 5 h.energy)] ++ ((restTrafo t h.rest).map some ++
      (coords (normed g.displacement g.distance) ++ ([some (g.distance / posScale t),
        some ((g.infinite - g.closest) / posScale t),
        energyChannel t g.before, energyChannel t g.after, energyChannel t g.energyCherenkov,
        chanDiv g.closest g.length, relInfinite g.infinite g.length] ++
      options cfg t localVars dom h.flight (normed g.displacement g.distance)))))) := by
  intro g
  have e : segmentChannels cfg t localVars dom h.row = if t.logEnergy then .ok (coords (some h.flight) ++
      (((h.row.mapIdx t.col).drop 5).take 1).map some ++
      ((h.row.mapIdx t.col).drop 7).map some ++
      coords (normed g.displacement g.distance) ++ [some (g.distance / posScale t),
        some ((g.infinite - g.closest) / posScale t),
        energyChannel t g.before, energyChannel t g.after, energyChannel t g.energyCherenkov,
        chanDiv g.closest g.length, relInfinite g.infinite g.length] ++
      options cfg t localVars dom h.flight (normed g.displacement g.distance))
      else .error .nameError := by
    obtain ⟨v, zen, az, en, ti, rest⟩ := h
    simp only at hr
    subst hr
    rfl
  rw [e, if_pos ht, mapIdx_row]
  simp

theorem segmentInputs_false (cfg : Config) (t : Trafo) (localVars row : List ℝ) (dom : V3) :
    segmentInputs cfg t false localVars dom row = segmentChannels cfg t localVars dom row := by
  unfold segmentInputs
  cases segmentChannels cfg t localVars dom row <;> rfl

/-- **C77.** The inputs of a track segment have the number of channels the network was built for, if the
energy is transformed to its logarithm. -/
theorem C77_segment (fmt : String → ℕ → String) (cfg : Config) (t : Trafo) {localVars row : List ℝ}
    (dom : V3) (hl : localVars.length = cfg.numLocal) (ht : t.logEnergy = true)
    (hr : row.length = (segmentNames fmt cfg).length) :
    ∃ l, segmentInputs cfg t false localVars dom row = .ok l ∧ l.length = segmentNumInputs cfg := by
  have hn : (segmentNames fmt cfg).length = 7 + (2 + numSnow cfg.snowstorm) := by
    simp [segmentNames, length_snowNames]
    omega
  obtain ⟨h, rfl, hk⟩ := row_of_length (hr.trans hn)
  obtain ⟨length, stoch, more, hm⟩ : ∃ a b l, h.rest = a :: b :: l := by
    match h.rest, hk with
    | a :: b :: l, _ => exact ⟨a, b, l, rfl⟩
    | [], hk => simp at hk; omega
    | [_], hk => simp at hk; omega
  refine ⟨_, (segmentInputs_false ..).trans
    (segmentChannels_row cfg t localVars dom h length stoch more hm ht), ?_⟩
  simp only [List.length_append, length_coords, List.length_map, length_restTrafo, hk,
    length_options cfg t hl, List.length_cons, List.length_nil]
  unfold segmentNumInputs
  omega

/-- **C77 is violated** for track segments whose energy is not transformed to its logarithm: variables are
used that were never assigned, whatever the hypothesis. -/
theorem C77_violated_log (cfg : Config) (t : Trafo) (isTraining : Bool) (localVars row : List ℝ)
    (dom : V3) (ht : t.logEnergy = false) (hr : 9 ≤ row.length) :
    segmentInputs cfg t isTraining localVars dom row = .error .nameError := by
  obtain ⟨h, rfl, hk⟩ := row_of_length (k := row.length - 7) (by omega : row.length = 7 + (row.length - 7))
  obtain ⟨v, zen, az, en, ti, rest⟩ := h
  match rest, hk with
  | a :: b :: l, _ =>
    unfold segmentInputs
    have : segmentChannels cfg t localVars dom (Hyp.row ⟨v, zen, az, en, ti, a :: b :: l⟩) =
        .error .nameError := by
      simp [segmentChannels, Hyp.row, ht]
    rw [this]
  | [], hk => simp at hk; omega
  | [_], hk => simp at hk; omega

/-- **C77.** The inputs of the second network of the quantile model have the number of channels it was
built for, for every way to describe the charge. -/
theorem C77_second {nCharge : ℕ} (addPredicted : Bool) {out : List ℝ} (hn : nCharge ≤ out.length)
    (quantile charge domTrue domPredicted : ℝ) :
    ((fcInputs nCharge addPredicted out quantile charge domTrue domPredicted).length : ℤ) =
      fcNumInputs out.length nCharge addPredicted := by
  unfold fcInputs fcNumInputs
  cases addPredicted <;> simp <;> omega

/-- The loop over the parameters of the systematics model collects the columns of all parameters other
than the efficiency of the DOMs. -/
theorem addLoop_eq {names : List String} (hn : names.Nodup) {tr : List ℝ} (hl : tr.length = names.length) :
    ∀ (ps : List String) (k : ℕ), names.drop k = ps → addLoop names tr ps =
      .ok (((ps.zip (tr.drop k)).filter (fun p => p.1 ≠ "DOMEfficiency")).map Prod.snd) := by
  intro ps
  induction ps with
  | nil => intro k _; rfl
  | cons p ps ih =>
    intro k hk
    have hlt : k < names.length := by
      by_contra h
      rw [List.drop_eq_nil_of_le (by omega)] at hk
      cases hk
    have hp : names[k]? = some p := by
      rw [← List.head?_drop, hk]
      rfl
    have hk' : names.drop (k + 1) = ps := by
      rw [← List.tail_drop, hk]
      rfl
    have hv : tr[k]? = some tr[k] := List.getElem?_eq_getElem (by omega)
    have ht : tr.drop k = tr[k] :: tr.drop (k + 1) := List.drop_eq_getElem_cons (by omega)
    rw [addLoop, ih (k + 1) hk', ((Sources.C30_inverse names hn).1 k p hp).1, ht]
    simp only [Int.toNat_natCast, hv, List.zip_cons_cons, List.filter_cons]
    by_cases h : p = "DOMEfficiency"
    · simp [h]
    · simp [h]

/-- The transformed parameters of the systematics model that go to its second network. -/
def shownParams (names : List String) (t : Trafo) (rest : List ℝ) : List ℝ :=
  (((names.drop 7).zip (restTrafo t rest)).filter (fun p => p.1 ≠ "DOMEfficiency")).map Prod.snd

theorem length_shown (names : List String) : ∀ (r : List ℝ), r.length = names.length → names.Nodup →
    (((names.zip r).filter (fun p => p.1 ≠ "DOMEfficiency")).map Prod.snd).length +
      (if "DOMEfficiency" ∈ names then 1 else 0) = names.length := by
  induction names with
  | nil => intro r _ _; rfl
  | cons n names ih =>
    intro r hr hn
    cases r with
    | nil => simp at hr
    | cons v r =>
      have := ih r (by simpa using hr) (List.nodup_cons.1 hn).2
      have hnm := (List.nodup_cons.1 hn).1
      simp only [ne_eq] at this
      simp only [List.zip_cons_cons, List.filter_cons, List.length_cons]
      by_cases h : n = "DOMEfficiency"
      · subst h
        rw [if_neg hnm] at this
        simp only [ne_eq, not_true_eq_false, decide_false, Bool.false_eq_true, if_false,
          List.mem_cons, true_or, if_true]
        omega
      · simp only [ne_eq, h, not_false_eq_true, decide_true, if_true, List.map_cons, List.length_cons,
          List.mem_cons, Ne.symm h, false_or]
        omega

/-- The inputs of the first network of the systematics model. -/
noncomputable def firstInputs (cfg : Config) (t : Trafo) (localVars : List ℝ) (dom : V3) (h : Hyp) :
    List Chan :=
  coords (normed (sub dom h.vertex) (norm (sub dom h.vertex))) ++
    [some (norm (sub dom h.vertex) / posScale t)] ++
    (if cfg.numLocal > 0 then localVars.map some else [])

theorem systematicInputs_row (cfg : Config) {names : List String} (hn : names.Nodup) (t : Trafo)
    (layer : List Chan → List Chan) (localVars : List ℝ) (dom : V3) (h : Hyp)
    (hr : h.row.length = names.length) :
    systematicInputs cfg names t layer localVars dom h.row =
      if shownParams names t h.rest = [] then .error .indexError else
      .ok (firstInputs cfg t localVars dom h, coords (some h.flight) ++ ([some (t.col 5 h.energy)] ++
        (coords (normed (sub dom h.vertex) (norm (sub dom h.vertex))) ++
        ([some (norm (sub dom h.vertex) / posScale t)] ++
        ((if cfg.openingAngle then
          [angleChannel t h.flight (normed (sub dom h.vertex) (norm (sub dom h.vertex)))] else []) ++
        ((if cfg.anisotropyAngle then
          [anisotropyChannel t (normed (sub dom h.vertex) (norm (sub dom h.vertex)))] else []) ++
        ((if cfg.domCoordinates then domChannels dom else []) ++
        ((shownParams names t h.rest).map some ++ layer (firstInputs cfg t localVars dom h))))))))) := by
  have e : systematicInputs cfg names t layer localVars dom h.row =
      match addLoop names (h.row.mapIdx t.col) (names.drop 7) with
      | .error e => .error e
      | .ok [] => .error .indexError
      | .ok (a :: as) => .ok (firstInputs cfg t localVars dom h,
        coords (some h.flight) ++ (((h.row.mapIdx t.col).drop 5).take 1).map some ++
        (coords (normed (sub dom h.vertex) (norm (sub dom h.vertex))) ++
        [some (norm (sub dom h.vertex) / posScale t)]) ++
        (if cfg.openingAngle then
          [angleChannel t h.flight (normed (sub dom h.vertex) (norm (sub dom h.vertex)))] else []) ++
        (if cfg.anisotropyAngle then
          [anisotropyChannel t (normed (sub dom h.vertex) (norm (sub dom h.vertex)))] else []) ++
        (if cfg.domCoordinates then domChannels dom else []) ++ (a :: as).map some ++
        layer (firstInputs cfg t localVars dom h)) := rfl
  have ha : addLoop names (h.row.mapIdx t.col) (names.drop 7) = .ok (shownParams names t h.rest) := by
    rw [addLoop_eq hn (by rw [List.length_mapIdx, hr]) _ 7 rfl, mapIdx_row]
    rfl
  rw [e, ha, mapIdx_row]
  cases hs : shownParams names t h.rest with
  | nil => rfl
  | cons a as => simp

/-- **C77.** The inputs of both networks of the systematics model have the numbers of channels they were
built for, if there is at least one parameter that goes to the second network; otherwise the model raises. -/
theorem C77_systematics_partial (fmt : String → ℕ → String) (cfg : Config) (t : Trafo)
    (layer : List Chan → List Chan) {localVars row : List ℝ} (dom : V3)
    (hn : (cascadeNames fmt cfg).Nodup) (hlay : ∀ l, (layer l).length = cfg.numFilters)
    (hl : localVars.length = cfg.numLocal) (hr : row.length = (cascadeNames fmt cfg).length) :
    ((∃ p ∈ cfg.additional ++ snowNames fmt cfg.snowstorm, p ≠ "DOMEfficiency") →
      ∃ l l', systematicInputs cfg (cascadeNames fmt cfg) t layer localVars dom row = .ok (l, l') ∧
        l.length = localNumInputs cfg ∧ (l'.length : ℤ) = sharedNumInputs fmt cfg) ∧
    ((¬ ∃ p ∈ cfg.additional ++ snowNames fmt cfg.snowstorm, p ≠ "DOMEfficiency") →
      systematicInputs cfg (cascadeNames fmt cfg) t layer localVars dom row = .error .indexError) := by
  set names := cascadeNames fmt cfg with hnames
  have hd : names.drop 7 = cfg.additional ++ snowNames fmt cfg.snowstorm := by
    rw [hnames]
    simp [cascadeNames]
  have hmem : "DOMEfficiency" ∈ names ↔ "DOMEfficiency" ∈ names.drop 7 := by
    rw [hd, hnames]
    simp [cascadeNames]
  have hlen : names.length = 7 + (cfg.additional.length + numSnow cfg.snowstorm) := by
    rw [hnames]
    simp [cascadeNames, length_snowNames]
    omega
  obtain ⟨h, rfl, hk⟩ := row_of_length (hr.trans hlen)
  have hdl : (names.drop 7).length = cfg.additional.length + numSnow cfg.snowstorm := by
    rw [List.length_drop, hlen]
    omega
  have hsl := length_shown (names.drop 7) (restTrafo t h.rest) (by rw [length_restTrafo, hk, hdl])
    ((List.drop_sublist 7 names).nodup hn)
  rw [hdl] at hsl
  have hsl' : (shownParams names t h.rest).length + (if "DOMEfficiency" ∈ names.drop 7 then 1 else 0) =
      cfg.additional.length + numSnow cfg.snowstorm := hsl
  have hempty : shownParams names t h.rest = [] ↔
      ¬ ∃ p ∈ cfg.additional ++ snowNames fmt cfg.snowstorm, p ≠ "DOMEfficiency" := by
    rw [← hd]
    unfold shownParams
    rw [List.map_eq_nil_iff, List.filter_eq_nil_iff]
    constructor
    · rintro hf ⟨p, hp, hne⟩
      obtain ⟨i, hi⟩ := List.getElem?_of_mem hp
      have hlt : i < (names.drop 7).length := (List.getElem?_eq_some_iff.1 hi).1
      have hv : (restTrafo t h.rest)[i]? = some ((restTrafo t h.rest)[i]'(by
        rw [length_restTrafo]; omega)) := List.getElem?_eq_getElem _
      have hz : ((names.drop 7).zip (restTrafo t h.rest))[i]? = some (p, (restTrafo t h.rest)[i]'(by
        rw [length_restTrafo]; omega)) := by
        rw [List.getElem?_zip_eq_some]
        exact ⟨hi, hv⟩
      have := hf _ (List.mem_of_getElem? hz)
      simp [hne] at this
    · intro hf p hp
      simp only [ne_eq, decide_not, Bool.not_eq_true', decide_eq_false_iff_not, not_not]
      by_contra hne
      exact hf ⟨p.1, (List.of_mem_zip (a := p.1) (b := p.2) hp).1, hne⟩
  rw [systematicInputs_row cfg hn t layer localVars dom h hr]
  constructor
  · intro hex
    rw [if_neg (by rw [hempty]; exact not_not.2 hex)]
    refine ⟨_, _, rfl, ?_, ?_⟩
    · unfold firstInputs localNumInputs
      rw [List.length_append, List.length_append, length_coords]
      simp only [List.length_cons, List.length_nil]
      split
      · rw [List.length_map, hl]
      · rfl
    · simp only [List.length_append, length_coords, List.length_map, hlay,
        List.length_cons, List.length_nil]
      unfold sharedNumInputs
      rw [← hnames]
      simp only [hmem]
      have a1 : (if cfg.openingAngle then [angleChannel t h.flight (normed (sub dom h.vertex)
          (norm (sub dom h.vertex)))] else []).length = if cfg.openingAngle then 1 else 0 := by
        split <;> rfl
      have a2 : (if cfg.anisotropyAngle then [anisotropyChannel t (normed (sub dom h.vertex)
          (norm (sub dom h.vertex)))] else []).length = if cfg.anisotropyAngle then 1 else 0 := by
        split <;> rfl
      have a3 : (if cfg.domCoordinates then domChannels dom else []).length =
          if cfg.domCoordinates then 3 else 0 := by
        split <;> rfl
      rw [a1, a2, a3]
      split at hsl' <;> rename_i hh <;> simp only [hh, if_true, if_false] <;>
        cases cfg.openingAngle <;> cases cfg.anisotropyAngle <;> cases cfg.domCoordinates <;>
        simp <;> omega
  · intro hex
    rw [if_pos (hempty.2 hex)]

/-- **C77 is violated** by the systematics model without additional and snowstorm parameters, which the
configuration allows: every hypothesis makes it raise. -/
theorem C77_violated_systematics (fmt : String → ℕ → String) (t : Trafo) (layer : List Chan → List Chan)
    (h : Hyp) (dom : V3) (hr : h.rest = []) :
    let cfg : Config := ⟨[], [], true, true, true, 0, 20⟩
    systematicInputs cfg (cascadeNames fmt cfg) t layer [] dom h.row = .error .indexError := by
  intro cfg
  obtain ⟨v, zen, az, en, ti, rest⟩ := h
  simp only at hr
  subst hr
  rfl

/-- The hypotheses of C77 can be met: two additional labels, of which one is the efficiency. -/
example : let cfg : Config := ⟨["length"], [("DOMEfficiency", 1), ("Absorption", 1)], true, true, true, 2, 20⟩
    (cascadeNames (fun s _ => s) cfg).Nodup ∧ sharedNumInputs (fun s _ => s) cfg = 35 ∧
      localNumInputs cfg = 6 := by
  decide

/-! ## C78 -/

theorem none_mem_coords (n : Option V3) : none ∈ coords n ↔ n = none := by
  cases n <;> simp [coords]

theorem none_mem_options (cfg : Config) (t : Trafo) (localVars : List ℝ) (dom d : V3) (n : Option V3) :
    none ∈ options cfg t localVars dom d n ↔ cfg.openingAngle = true ∧ n = none := by
  unfold options angleChannel domChannels
  simp only [List.mem_append]
  constructor
  · rintro ((h | h) | h)
    · split at h
      · rename_i ho
        simp only [List.mem_singleton] at h
        exact ⟨ho, by simpa using h.symm⟩
      · simp at h
    · split at h <;> simp at h
    · split at h <;> simp at h
  · rintro ⟨h, rfl⟩
    left; left
    simp [h]

theorem sub_eq_zero_iff {p q : V3} : sub p q = ⟨0, 0, 0⟩ ↔ p = q := by
  constructor
  · intro h
    have h1 := congrArg V3.x h
    have h2 := congrArg V3.y h
    have h3 := congrArg V3.z h
    simp only [sub] at h1 h2 h3
    exact V3.ext (by linarith) (by linarith) (by linarith)
  · rintro rfl
    simp [sub]

theorem norm_zero : Sphere.norm ⟨0, 0, 0⟩ = 0 := by simp [Sphere.norm]

theorem normed_none {dom v : V3} : normed (sub dom v) (norm (sub dom v)) = none ↔ dom = v := by
  unfold normed
  constructor
  · intro h
    split at h
    · rename_i h0
      exact sub_eq_zero_iff.1 (norm_eq_zero h0)
    · cases h
  · intro h
    rw [sub_eq_zero_iff.2 h, norm_zero, if_pos rfl]

/-- **C78.** The inputs of a cascade are finite numbers exactly if the vertex is not at the DOM. -/
theorem C78_default_partial (cfg : Config) (t : Trafo) (localVars : List ℝ) (dom : V3) (h : Hyp) :
    ∃ l, defaultInputs cfg t localVars dom h.row = .ok l ∧ (none ∈ l ↔ dom = h.vertex) := by
  refine ⟨_, defaultInputs_row cfg t localVars dom h, ?_⟩
  simp only [List.mem_append, none_mem_coords, none_mem_options, normed_none, List.mem_map,
    List.mem_cons, List.not_mem_nil, reduceCtorEq, or_false, false_or, and_false, exists_false]
  tauto

/-- **C78.** The same for the systematics model, whatever its first network does with finite inputs. -/
theorem C78_systematics_partial (cfg : Config) {names : List String} (hn : names.Nodup) (t : Trafo)
    (layer : List Chan → List Chan) (hlay : ∀ l, none ∉ l → none ∉ layer l) (localVars : List ℝ) (dom : V3)
    (h : Hyp) (hr : h.row.length = names.length) {l l' : List Chan}
    (hok : systematicInputs cfg names t layer localVars dom h.row = .ok (l, l')) :
    (none ∈ l ↔ dom = h.vertex) ∧ (none ∈ l' ↔ dom = h.vertex) := by
  rw [systematicInputs_row cfg hn t layer localVars dom h hr] at hok
  split at hok
  · cases hok
  have hfirst : none ∈ firstInputs cfg t localVars dom h ↔ dom = h.vertex := by
    unfold firstInputs
    simp only [List.mem_append, none_mem_coords, normed_none, List.mem_cons, List.not_mem_nil,
      reduceCtorEq, or_false]
    constructor
    · rintro (h | h)
      · exact h
      · split at h <;> simp at h
    · exact Or.inl
  cases hok
  refine ⟨hfirst, ?_⟩
  constructor
  · intro hm
    by_contra hne
    have hnn : normed (sub dom h.vertex) (norm (sub dom h.vertex)) ≠ none := fun hh =>
      hne (normed_none.1 hh)
    have hll := hlay _ (fun hh => hne (hfirst.1 hh))
    simp only [List.mem_append, none_mem_coords, List.mem_map, List.mem_cons, List.not_mem_nil,
      reduceCtorEq, or_false, false_or, and_false, exists_false, hnn, hll] at hm
    rcases hm with hm | hm | hm
    · split at hm
      · simp only [List.mem_singleton, angleChannel] at hm
        exact hnn (by simpa using hm.symm)
      · simp at hm
    · split at hm
      · simp only [List.mem_singleton, anisotropyChannel] at hm
        exact hnn (by simpa using hm.symm)
      · simp at hm
    · split at hm <;> simp [domChannels] at hm
  · intro he
    have := normed_none.2 he
    simp [this, coords]

/-- **C78 is violated** for a cascade at a DOM. -/
theorem C78_violated_vertex (cfg : Config) (t : Trafo) (localVars : List ℝ) (h : Hyp) :
    ∃ l, defaultInputs cfg t localVars h.vertex h.row = .ok l ∧ none ∈ l := by
  obtain ⟨l, h1, h2⟩ := C78_default_partial cfg t localVars h.vertex h
  exact ⟨l, h1, h2.2 rfl⟩

theorem distance_pos (dom vertex : V3) (zenith azimuth energy length : ℝ) :
    0 < (geometry dom vertex zenith azimuth energy length).distance := by
  have : (geometry dom vertex zenith azimuth energy length).distance =
      norm (geometry dom vertex zenith azimuth energy length).displacement + 0.1 := rfl
  rw [this]
  have := norm_nonneg (geometry dom vertex zenith azimuth energy length).displacement
  norm_num
  linarith

theorem energyChannel_none (t : Trafo) (e : Chan) :
    energyChannel t e = none ↔ ∀ x, e = some x → x ≤ -1 := by
  unfold energyChannel chanLog
  cases e with
  | none => simp
  | some x =>
    simp only [Option.map_some, Option.bind_some, Option.map_eq_none_iff, Option.some.injEq,
      forall_eq']
    split
    · simp
      linarith
    · simp
      linarith

/-- Which inputs of a track segment are not finite. -/
theorem none_mem_segment (cfg : Config) (t : Trafo) (localVars : List ℝ) (dom : V3) (h : Hyp)
    (length stoch : ℝ) (more : List ℝ) (hr : h.rest = length :: stoch :: more)
    (ht : t.logEnergy = true) :
    let g := geometry dom h.vertex h.zenith h.azimuth h.energy length
    ∃ l, segmentChannels cfg t localVars dom h.row = .ok l ∧
      (none ∈ l ↔ length = -1 ∨ (∀ x, g.before = some x → x ≤ -1) ∨ (∀ x, g.after = some x → x ≤ -1) ∨
        ∀ x, g.energyCherenkov = some x → x ≤ -1) := by
  intro g
  refine ⟨_, segmentChannels_row cfg t localVars dom h length stoch more hr ht, ?_⟩
  have hn : normed g.displacement g.distance ≠ none := by
    unfold normed
    rw [if_neg (distance_pos ..).ne']
    simp
  have hL : g.length = length + 1 := rfl
  have e1 : (none = chanDiv g.closest g.length) ↔ length = -1 := by
    unfold chanDiv
    rw [hL]
    split
    · simp
      linarith
    · rename_i hh
      simp
      intro h
      apply hh
      rw [h]
      norm_num
  have e2 : none = relInfinite g.infinite g.length → length = -1 := by
    unfold relInfinite
    rw [hL]
    split
    · intro _
      linarith
    · simp
  have comm : ∀ e, (none = energyChannel t e) ↔ ∀ x, e = some x → x ≤ -1 := fun e =>
    eq_comm.trans (energyChannel_none t e)
  change none ∈ coords (some h.flight) ++ ([some (t.col 5 h.energy)] ++ ((restTrafo t h.rest).map some ++
      (coords (normed g.displacement g.distance) ++ ([some (g.distance / posScale t),
        some ((g.infinite - g.closest) / posScale t),
        energyChannel t g.before, energyChannel t g.after, energyChannel t g.energyCherenkov,
        chanDiv g.closest g.length, relInfinite g.infinite g.length] ++
      options cfg t localVars dom h.flight (normed g.displacement g.distance))))) ↔ _
  simp only [List.mem_append, none_mem_coords, none_mem_options, List.mem_map,
    List.mem_cons, List.not_mem_nil, reduceCtorEq, or_false, false_or, and_false, exists_false, hn, e1,
    comm]
  constructor
  · rintro (h | h | h | h | h)
    · exact Or.inr (Or.inl h)
    · exact Or.inr (Or.inr (Or.inl h))
    · exact Or.inr (Or.inr (Or.inr h))
    · exact Or.inl h
    · exact Or.inl (e2 h)
  · tauto

/-- **C80.** The networks of a track segment get the three energies on the scale of the energy of the
hypothesis: if energies are transformed with their logarithm, mean and deviation, the three inputs are the
transformed energies before, behind and from the Cherenkov position on. -/
theorem C80_scale (cfg : Config) (t : Trafo) (localVars : List ℝ) (dom : V3)
    (h : Hyp) (length stoch : ℝ) (more : List ℝ) (hr : h.rest = length :: stoch :: more)
    (ht : t.logEnergy = true) (he : 0 ≤ h.energy) (hl : 0 ≤ length)
    (hc : ∀ e, 0 ≤ e → t.col 5 e = (Real.log (1 + e) - t.mean 5) / (t.normConst + t.std 5)) :
    let g := geometry dom h.vertex h.zenith h.azimuth h.energy length
    ∃ l b a c, segmentInputs cfg t false localVars dom h.row = .ok l ∧
      g.before = some b ∧ g.after = some a ∧ g.energyCherenkov = some c ∧
      l[3]? = some (some (t.col 5 h.energy)) ∧
      l[9 + h.rest.length]? = some (some (t.col 5 b)) ∧
      l[10 + h.rest.length]? = some (some (t.col 5 a)) ∧
      l[11 + h.rest.length]? = some (some (t.col 5 c)) := by
  intro g
  obtain ⟨-, b, a, c, hb, ha, hcc, pb, pa, pc, -⟩ :=
    C80_energies dom h.vertex h.zenith h.azimuth he hl
  have key : ∀ x, 0 ≤ x → energyChannel t (some x) = some (t.col 5 x) := by
    intro x hx
    unfold energyChannel chanLog
    simp only [Option.map_some, Option.bind_some]
    rw [if_pos (by linarith), Option.map_some, hc x hx, add_comm t.normConst]
  have hrow := segmentChannels_row cfg t localVars dom h length stoch more hr ht
  rw [← segmentInputs_false] at hrow
  simp only [hb, ha, hcc, key b pb.le, key a pa.le, key c pc] at hrow
  refine ⟨_, b, a, c, hrow, hb, ha, hcc, rfl, ?_, ?_, ?_⟩
  all_goals
    have e9 : ∀ (k : ℕ) (p : List Chan) (q : List Chan), p.length = k → ∀ j, (p ++ q)[k + j]? = q[j]? := by
      intro k p q hp j
      rw [List.getElem?_append_right (by omega)]
      congr 1; omega
    have hco : ∀ v : Option V3, (coords v).length = 3 := by intro v; cases v <;> rfl
    have hre : ((restTrafo t h.rest).map some).length = h.rest.length := by
      rw [List.length_map, length_restTrafo]
  · rw [show 9 + h.rest.length = 3 + (1 + (h.rest.length + (3 + 2))) by omega, e9 _ _ _ (hco _),
      e9 _ _ _ (by rfl), e9 _ _ _ hre, e9 _ _ _ (hco _)]
    rfl
  · rw [show 10 + h.rest.length = 3 + (1 + (h.rest.length + (3 + 3))) by omega, e9 _ _ _ (hco _),
      e9 _ _ _ (by rfl), e9 _ _ _ hre, e9 _ _ _ (hco _)]
    rfl
  · rw [show 11 + h.rest.length = 3 + (1 + (h.rest.length + (3 + 4))) by omega, e9 _ _ _ (hco _),
      e9 _ _ _ (by rfl), e9 _ _ _ hre, e9 _ _ _ (hco _)]
    rfl

-- a transformation and a hypothesis of this kind
example : ∃ (t : Trafo) (h : Hyp), t.logEnergy = true ∧ 0 ≤ h.energy ∧ h.rest = [500, 0.1] ∧
    ∀ e, 0 ≤ e → t.col 5 e = (Real.log (1 + e) - t.mean 5) / (t.normConst + t.std 5) :=
  ⟨⟨fun _ e => (Real.log (1 + e) - 7) / (0.0001 + 2), fun _ => 7, fun _ => 2, 0.0001, true⟩,
    ⟨⟨1, 2, 3⟩, 1, 2, 1000, 10000, [500, 0.1]⟩, rfl, by norm_num, rfl, fun _ _ => rfl⟩

/-- **C78.** The inputs of a track segment are finite numbers for every hypothesis whose energy and
length are not negative. -/
theorem C78_segment_partial (cfg : Config) (t : Trafo) (isTraining : Bool) (localVars : List ℝ) (dom : V3)
    (h : Hyp) (length stoch : ℝ) (more : List ℝ) (hr : h.rest = length :: stoch :: more)
    (ht : t.logEnergy = true) (he : 0 ≤ h.energy) (hl : 0 ≤ length) :
    ∃ l, segmentInputs cfg t isTraining localVars dom h.row = .ok l ∧ none ∉ l := by
  obtain ⟨l, h1, h2⟩ := none_mem_segment cfg t localVars dom h length stoch more hr ht
  have hno : none ∉ l := by
    rw [h2]
    obtain ⟨-, b, a, c, hb, ha, hc, b0, a0, c0, -⟩ :=
      C80_energies dom h.vertex h.zenith h.azimuth he hl
    rintro (g | g | g | g)
    · linarith
    · linarith [g b hb]
    · linarith [g a ha]
    · linarith [g c hc]
  refine ⟨l, ?_, hno⟩
  unfold segmentInputs
  rw [h1]
  simp only
  split
  · have : segmentAssertions h.row := by
      refine ⟨h.energy, length, rfl, ?_, by norm_num; linarith, by norm_num; linarith⟩
      rw [Hyp.row, hr]
      rfl
    simp only [this, if_true]
  · rfl

/-- **C78.** In training, inputs that are not finite are refused, and so are energies below -0.001. -/
theorem C78_checked (cfg : Config) (t : Trafo) (localVars : List ℝ) (dom : V3) (row : List ℝ)
    {l : List Chan} (hok : segmentInputs cfg t true localVars dom row = .ok l) :
    none ∉ l ∧ ∃ e : ℝ, row[5]? = some e ∧ -0.001 ≤ e := by
  unfold segmentInputs at hok
  cases hs : segmentChannels cfg t localVars dom row with
  | error e => rw [hs] at hok; cases hok
  | ok l' =>
    rw [hs] at hok
    simp only [if_true] at hok
    split at hok
    · rename_i ha
      split at hok
      · cases hok
      · rename_i hn
        cases hok
        obtain ⟨e, _, h1, -, h2, -⟩ := ha
        exact ⟨hn, e, h1, by norm_num at h2 ⊢; exact h2⟩
    · cases hok

/-- **C78 is violated** for track segments: outside of training a length of -1 m gives inputs that are
not finite. -/
theorem C78_violated_minus_one (cfg : Config) (t : Trafo) (localVars : List ℝ) (dom : V3) (h : Hyp)
    (stoch : ℝ) (more : List ℝ) (hr : h.rest = -1 :: stoch :: more) (ht : t.logEnergy = true) :
    ∃ l, segmentInputs cfg t false localVars dom h.row = .ok l ∧ none ∈ l := by
  obtain ⟨l, h1, h2⟩ := none_mem_segment cfg t localVars dom h (-1) stoch more hr ht
  exact ⟨l, (segmentInputs_false ..).trans h1, h2.2 (Or.inl rfl)⟩

/-- The position on a track of length minus one. -/
theorem shift_neg_one (d : ℝ) : -1 < shift (-1) d ∧ shift (-1) d < 0 := by
  have e : shift (-1) d = -shift 1 (d + 1) := by
    rw [shift_eq, shift_eq]
    simp only [sub_neg_eq_add, add_sub_cancel_right]
    ring
  have h := C62_inside (L := 1) one_pos (d + 1)
  rw [e]
  constructor <;> linarith

/-- **C78 is violated**: negative lengths are not refused in training, because the check compares with
-1000 instead of -0.001; the energy deposited along such a track is negative. -/
theorem C78_violated_negative (cfg : Config) (t : Trafo) (localVars : List ℝ) (dom : V3)
    (ht : t.logEnergy = true) : let h : Hyp := ⟨⟨0, 0, 0⟩, 0, 0, 0, 0, [-2, 0]⟩
    (∃ l, segmentInputs cfg t true localVars dom h.row = .ok l) ∧
      ∃ b, (geometry dom h.vertex h.zenith h.azimuth h.energy (-2)).before = some b ∧ b < 0 := by
  intro h
  have hdep : ∀ d1 d2, ∃ e, depEnergy (0 + 0.1) (-2 + 1) d1 d2 = some e ∧ -1 < e ∧ (d1 < d2 → e < 0) := by
    intro d1 d2
    have e21 : (-2 + 1 : ℝ) = -1 := by norm_num
    rw [e21]
    refine ⟨_, depEnergy_eq (by norm_num) d1 d2, ?_, ?_⟩
    · have h1 := shift_neg_one d1
      have h2 := shift_neg_one d2
      have : |shift (-1) d2 - shift (-1) d1| < 1 := by
        rw [abs_lt]
        constructor <;> linarith
      norm_num
      linarith
    · intro hd
      have := shift_strictAnti (L := -1) (by norm_num) hd
      have : 0 < |shift (-1) d2 - shift (-1) d1| := abs_pos.2 (by linarith)
      norm_num
      linarith
  obtain ⟨l, h1, h2⟩ := none_mem_segment cfg t localVars dom h (-2) 0 [] rfl ht
  set g := geometry dom h.vertex h.zenith h.azimuth h.energy (-2) with hg
  obtain ⟨b, hb, b1, b2⟩ := hdep (g.closest - 100) g.closest
  obtain ⟨a, ha, a1, -⟩ := hdep g.closest (g.closest + 100)
  obtain ⟨c, hc, c1, -⟩ := hdep g.cherenkov g.infinite
  have hno : none ∉ l := by
    rw [h2]
    rintro (k | k | k | k)
    · norm_num at k
    · linarith [k b hb]
    · linarith [k a ha]
    · linarith [k c hc]
  refine ⟨⟨l, ?_⟩, b, hb, b2 (by linarith)⟩
  unfold segmentInputs
  rw [h1]
  simp only [if_true]
  have : segmentAssertions h.row :=
    ⟨0, -2, rfl, rfl, by norm_num, by norm_num⟩
  rw [if_pos this, if_neg hno]

/-- **C78.** The inputs of the second network of the quantile model are finite for positive quantiles and
charges. -/
theorem C78_second (nCharge : ℕ) (addPredicted : Bool) (out : List ℝ)
    {quantile charge domTrue domPredicted : ℝ} (h1 : 0 < quantile) (h2 : 0 < charge) (h3 : 0 < domTrue)
    (h4 : 0 < domPredicted) :
    none ∉ fcInputs nCharge addPredicted out quantile charge domTrue domPredicted := by
  have e1 : 0 < domTrue + 1 := by linarith
  have e2 : 0 < domPredicted + 1 := by linarith
  have e3 : 0 < charge / domTrue := by positivity
  have e4 : 0 < charge / domPredicted := by positivity
  have e5 : none ∉ (List.map some out).drop nCharge := fun h => by
    have := List.mem_of_mem_drop h
    simp at this
  unfold fcInputs chanLog chanDiv
  cases addPredicted <;> simp [h1, e1, e2, e3, e4, e5, h3.ne', h4.ne']

/-! ## C79 -/

/-- The columns of the transformation can be inverted. -/
def Trafo.Injective (t : Trafo) : Prop := (∀ i, Function.Injective (t.col i)) ∧ posScale t ≠ 0

theorem restTrafo_inj {t : Trafo} (ht : t.Injective) {r r' : List ℝ}
    (h : restTrafo t r = restTrafo t r') : r = r' := by
  apply List.ext_getElem?
  intro i
  have := congrArg (fun l => l[i]?) h
  simp only [getElem?_restTrafo] at this
  exact Option.map_injective (ht.1 _) this

/-- Unit vector and distance determine the displacement. -/
theorem displacement_inj {v w : V3} {a b s : ℝ} (hs : s ≠ 0) (hv : a = 0 → v = ⟨0, 0, 0⟩)
    (hw : b = 0 → w = ⟨0, 0, 0⟩) (h1 : normed v a = normed w b) (h2 : a / s = b / s) : v = w := by
  have hab : a = b := by
    field_simp at h2
    exact h2
  subst hab
  unfold normed at h1
  split at h1
  · rename_i h0
    rw [hv h0, hw h0]
  · rename_i h0
    have h := Option.some.inj h1
    have e1 := congrArg V3.x h
    have e2 := congrArg V3.y h
    have e3 := congrArg V3.z h
    simp only [sdiv] at e1 e2 e3
    field_simp at e1 e2 e3
    exact V3.ext e1 e2 e3

theorem toward_eq (p q : V3) : toward p q = sub q p := rfl

theorem eq_of_toward {p q p' q' : V3} (h : toward p q = toward p' q') (hp : p = p') : q = q' := by
  subst hp
  have h1 := congrArg V3.x h
  have h2 := congrArg V3.y h
  have h3 := congrArg V3.z h
  simp only [toward] at h1 h2 h3
  exact V3.ext (by linarith) (by linarith) (by linarith)

/-- **C79.** The network of a cascade sees every parameter but the time: if the inputs of two hypotheses
are equal, their vertices, directions, energies and all further parameters are, and so are the
positions of the DOMs. -/
theorem C79_default_sees (cfg : Config) {t : Trafo} (ht : t.Injective) (localVars localVars' : List ℝ)
    (dom dom' : V3) (h h' : Hyp) (hr : h.rest.length = h'.rest.length)
    (he : defaultInputs cfg t localVars dom h.row = defaultInputs cfg t localVars' dom' h'.row) :
    SameView (fun _ => True) dom h dom' h' ∧ h.vertex = h'.vertex ∧ dom = dom' := by
  rw [defaultInputs_row, defaultInputs_row] at he
  have he := Except.ok.inj he
  obtain ⟨e1, he⟩ := List.append_inj he (by rfl)
  obtain ⟨e2, he⟩ := List.append_inj he (by rw [length_coords, length_coords])
  obtain ⟨e3, he⟩ := List.append_inj he (by rfl)
  obtain ⟨e4, he⟩ := List.append_inj he (by
    rw [List.length_map, List.length_map, length_restTrafo, length_restTrafo, hr])
  obtain ⟨e5, he⟩ := List.append_inj he (by rw [length_coords, length_coords])
  obtain ⟨e6, -⟩ := List.append_inj he (by rfl)
  simp only [List.cons.injEq, Option.some.injEq, and_true] at e1 e3 e6
  have hv : h.vertex = h'.vertex := V3.ext (ht.1 _ e1.1) (ht.1 _ e1.2.1) (ht.1 _ e1.2.2)
  have hpos : toward h.vertex dom = toward h'.vertex dom' :=
    displacement_inj ht.2 norm_eq_zero norm_eq_zero (coords_inj e5) e6
  refine ⟨⟨hpos, Option.some.inj (coords_inj e2), ht.1 _ e3, ?_⟩, hv, eq_of_toward hpos hv⟩
  intro i _
  rw [restTrafo_inj ht (List.map_injective_iff.2 (Option.some_injective _) e4)]

/-- **C79.** The network of a cascade sees nothing else: neither the time nor the way the direction is
written as angles changes its inputs. -/
theorem C79_default_only (cfg : Config) (t : Trafo) (localVars : List ℝ) (dom : V3) (h h' : Hyp)
    (hs : SameView (fun _ => True) dom h dom h') :
    defaultInputs cfg t localVars dom h.row = defaultInputs cfg t localVars dom h'.row := by
  have hv : h.vertex = h'.vertex := by
    have e := hs.position
    have h1 := congrArg V3.x e
    have h2 := congrArg V3.y e
    have h3 := congrArg V3.z e
    simp only [toward] at h1 h2 h3
    exact V3.ext (by linarith) (by linarith) (by linarith)
  have hrest : h.rest = h'.rest := List.ext_getElem? (fun i => hs.rest i trivial)
  rw [defaultInputs_row, defaultInputs_row, hv, hs.flight, hs.energy, hrest]

/-- **C79.** The network of a track segment sees every parameter but the time, the vertex relative to the
DOM: if the inputs of two hypotheses at two DOMs are equal, their relative positions, directions,
energies, lengths and all further parameters are. -/
theorem C79_segment_sees (cfg : Config) {t : Trafo} (ht : t.Injective) (hlog : t.logEnergy = true)
    (localVars localVars' : List ℝ) (dom dom' : V3) (h h' : Hyp)
    (hr : h.rest.length = h'.rest.length) (h2 : 2 ≤ h.rest.length)
    (he : segmentInputs cfg t false localVars dom h.row = segmentInputs cfg t false localVars' dom' h'.row) :
    SameView (fun _ => True) dom h dom' h' := by
  have split : ∀ h : Hyp, 2 ≤ h.rest.length → ∃ a b l, h.rest = a :: b :: l := by
    intro h hk
    match h.rest, hk with
    | a :: b :: l, _ => exact ⟨a, b, l, rfl⟩
    | [], hk => simp at hk
    | [_], hk => simp at hk
  obtain ⟨len, st, more, hm⟩ := split h h2
  obtain ⟨len', st', more', hm'⟩ := split h' (by omega)
  rw [segmentInputs_false, segmentInputs_false,
    segmentChannels_row cfg t localVars dom h len st more hm hlog,
    segmentChannels_row cfg t localVars' dom' h' len' st' more' hm' hlog] at he
  have he := Except.ok.inj he
  obtain ⟨e2, he⟩ := List.append_inj he (by rw [length_coords, length_coords])
  obtain ⟨e3, he⟩ := List.append_inj he (by rfl)
  obtain ⟨e4, he⟩ := List.append_inj he (by
    rw [List.length_map, List.length_map, length_restTrafo, length_restTrafo, hr])
  obtain ⟨e5, he⟩ := List.append_inj he (by rw [length_coords, length_coords])
  obtain ⟨e6, -⟩ := List.append_inj he (by rfl)
  simp only [List.cons.injEq, Option.some.injEq, and_true] at e3 e6
  have hrest : h.rest = h'.rest :=
    restTrafo_inj ht (List.map_injective_iff.2 (Option.some_injective _) e4)
  have hfl : h.flight = h'.flight := Option.some.inj (coords_inj e2)
  have hlen : len = len' := by
    rw [hm, hm'] at hrest
    exact (List.cons.inj hrest).1
  subst hlen
  set g := geometry dom h.vertex h.zenith h.azimuth h.energy len with hg
  set g' := geometry dom' h'.vertex h'.zenith h'.azimuth h'.energy len with hg'
  have hdisp : g.displacement = g'.displacement := by
    refine displacement_inj ht.2 ?_ ?_ (coords_inj e5) e6.1
    · intro h0
      exact absurd h0 (distance_pos ..).ne'
    · intro h0
      exact absurd h0 (distance_pos ..).ne'
  have hinf : g.infinite = g'.infinite := by
    have e := e6.2.1
    have hps := ht.2
    field_simp at e
    exact (sub_shift_strictMono (len + 1)).injective e
  have hclo : g.closest = g'.closest := by
    change shift (len + 1) g.infinite = shift (len + 1) g'.infinite
    rw [hinf]
  have hpos : ∀ (dom : V3) (h : Hyp) , toward h.vertex dom =
      add (geometry dom h.vertex h.zenith h.azimuth h.energy len).displacement
        (smul (geometry dom h.vertex h.zenith h.azimuth h.energy len).closest h.flight) := by
    intro dom h
    have : (geometry dom h.vertex h.zenith h.azimuth h.energy len).displacement = sub dom (add h.vertex
        (smul (geometry dom h.vertex h.zenith h.azimuth h.energy len).closest h.flight)) := rfl
    rw [this]
    unfold toward add sub smul
    ext <;> simp only <;> ring
  refine ⟨?_, hfl, ht.1 _ e3, fun i _ => by rw [hrest]⟩
  rw [hpos dom h, hpos dom' h', ← hg, ← hg', hdisp, hclo, hfl]

/-- **C79.** The network of a track segment sees nothing else: unless it is given the coordinates of the
DOM or local variables, its inputs depend on the relative position only. -/
theorem C79_segment_only (cfg : Config) {t : Trafo} (hlog : t.logEnergy = true)
    (localVars localVars' : List ℝ) (dom dom' : V3) (h h' : Hyp) (h2 : 2 ≤ h.rest.length)
    (hs : SameView (fun _ => True) dom h dom' h')
    (hc : (dom = dom' ∧ localVars = localVars') ∨ (cfg.domCoordinates = false ∧ cfg.numLocal = 0)) :
    segmentInputs cfg t false localVars dom h.row = segmentInputs cfg t false localVars' dom' h'.row := by
  have hrest : h.rest = h'.rest := List.ext_getElem? (fun i => hs.rest i trivial)
  obtain ⟨len, st, more, hm⟩ : ∃ a b l, h.rest = a :: b :: l := by
    match h.rest, h2 with
    | a :: b :: l, _ => exact ⟨a, b, l, rfl⟩
    | [], hk => simp at hk
    | [_], hk => simp at hk
  rw [segmentInputs_false, segmentInputs_false,
    segmentChannels_row cfg t localVars dom h len st more hm hlog,
    segmentChannels_row cfg t localVars' dom' h' len st more (hrest ▸ hm) hlog]
  set g := geometry dom h.vertex h.zenith h.azimuth h.energy len with hg
  set g' := geometry dom' h'.vertex h'.zenith h'.azimuth h'.energy len with hg'
  have hsub : sub dom h.vertex = sub dom' h'.vertex := hs.position
  have hinf : g.infinite = g'.infinite := by
    have e1 : g.infinite = h.flight.dot (sub dom h.vertex) := rfl
    have e2 : g'.infinite = h'.flight.dot (sub dom' h'.vertex) := rfl
    rw [e1, e2, hsub, hs.flight]
  have hclo : g.closest = g'.closest := by
    change shift (len + 1) g.infinite = shift (len + 1) g'.infinite
    rw [hinf]
  have move : ∀ (p v d : V3) (s : ℝ), sub p (add v (smul s d)) = sub (sub p v) (smul s d) := by
    intro p v d s
    unfold sub add smul
    ext <;> simp <;> ring
  have hdisp : g.displacement = g'.displacement := by
    have e1 : g.displacement = sub dom (add h.vertex (smul g.closest h.flight)) := rfl
    have e2 : g'.displacement = sub dom' (add h'.vertex (smul g'.closest h'.flight)) := rfl
    rw [e1, e2, move, move, hsub, hclo, hs.flight]
  have hdist : g.distance = g'.distance := by
    change Sphere.norm g.displacement + 0.1 = Sphere.norm g'.displacement + 0.1
    rw [hdisp]
  have hch : g.cherenkov = g'.cherenkov := by
    have e1 : g.cherenkov = g.infinite - Sphere.norm (sub dom (add h.vertex (smul g.infinite h.flight))) /
      Real.tan cherenkovAngle := rfl
    have e2 : g'.cherenkov = g'.infinite - Sphere.norm (sub dom' (add h'.vertex
      (smul g'.infinite h'.flight))) / Real.tan cherenkovAngle := rfl
    rw [e1, e2, move, move, hsub, hinf, hs.flight]
  have hb : g.before = g'.before := by
    change depEnergy (h.energy + 0.1) (len + 1) (g.closest - 100) g.closest =
      depEnergy (h'.energy + 0.1) (len + 1) (g'.closest - 100) g'.closest
    rw [hclo, hs.energy]
  have ha : g.after = g'.after := by
    change depEnergy (h.energy + 0.1) (len + 1) g.closest (g.closest + 100) =
      depEnergy (h'.energy + 0.1) (len + 1) g'.closest (g'.closest + 100)
    rw [hclo, hs.energy]
  have hec : g.energyCherenkov = g'.energyCherenkov := by
    change depEnergy (h.energy + 0.1) (len + 1) g.cherenkov g.infinite =
      depEnergy (h'.energy + 0.1) (len + 1) g'.cherenkov g'.infinite
    rw [hch, hinf, hs.energy]
  have hl : g.length = g'.length := rfl
  have hopt : options cfg t localVars dom h.flight (normed g.displacement g.distance) =
      options cfg t localVars' dom' h'.flight (normed g'.displacement g'.distance) := by
    rw [hs.flight, hdisp, hdist]
    rcases hc with ⟨rfl, rfl⟩ | ⟨c1, c2⟩
    · rfl
    · simp [options, c1, c2]
  rw [hopt, hs.flight, hs.energy, hrest, hdisp, hdist, hinf, hclo, hb, ha, hec, hl]

/-- The parameters of the systematics model that are shown determine, and are determined by, the values
of all parameters other than the efficiency. -/
theorem shown_eq_iff {t : Trafo} (ht : t.Injective) : ∀ (names : List String) (k : ℕ) (r r' : List ℝ),
    r.length = names.length → r'.length = names.length →
    ((((names.zip (r.mapIdx (fun i => t.col (i + k)))).filter (fun p => p.1 ≠ "DOMEfficiency")).map
      Prod.snd = ((names.zip (r'.mapIdx (fun i => t.col (i + k)))).filter
        (fun p => p.1 ≠ "DOMEfficiency")).map Prod.snd) ↔
      ∀ i : ℕ, names[i]? ≠ some "DOMEfficiency" → r[i]? = r'[i]?) := by
  intro names
  induction names with
  | nil =>
    intro k r r' h h'
    rw [List.eq_nil_of_length_eq_zero h, List.eq_nil_of_length_eq_zero h']
    simp
  | cons n names ih =>
    intro k r r' h h'
    match r, r', h, h' with
    | v :: r, w :: r', h, h' =>
      have ih := ih (k + 1) r r' (by simpa using h) (by simpa using h')
      have hf : (fun i => t.col (i + 1 + k)) = fun i => t.col (i + (k + 1)) := by
        funext i
        congr 1
        omega
      simp only [List.mapIdx_cons, Nat.zero_add, List.zip_cons_cons, List.filter_cons] at ih ⊢
      rw [hf]
      by_cases hn : n = "DOMEfficiency"
      · subst hn
        simp only [ne_eq, not_true_eq_false, decide_false, Bool.false_eq_true, if_false] at ih ⊢
        rw [ih]
        constructor
        · intro hh i hi
          cases i with
          | zero => simp at hi
          | succ i => simpa using hh i (by simpa using hi)
        · intro hh i hi
          simpa using hh (i + 1) (by simpa using hi)
      · simp only [ne_eq, hn, not_false_eq_true, decide_true, if_true, List.map_cons, List.cons.injEq]
          at ih ⊢
        rw [ih]
        constructor
        · rintro ⟨h1, h2⟩ i hi
          cases i with
          | zero => simpa using ht.1 _ h1
          | succ i => simpa using h2 i (by simpa using hi)
        · intro hh
          refine ⟨?_, fun i hi => by simpa using hh (i + 1) (by simpa using hi)⟩
          have := hh 0 (by simpa using hn)
          simp only [List.getElem?_cons_zero, Option.some.injEq] at this
          rw [this]

/-- **C79.** The systematics model sees the relative position, the direction, the energy and all further
parameters except the efficiency of the DOMs, and nothing else unless it is given the coordinates of
the DOM or local variables. -/
theorem C79_systematics (cfg : Config) {names : List String} (hn : names.Nodup) {t : Trafo}
    (ht : t.Injective) (layer : List Chan → List Chan) {localVars localVars' : List ℝ} {dom dom' : V3}
    {h h' : Hyp} (hr : h.row.length = names.length) (hr' : h'.row.length = names.length)
    (hex : ∃ p ∈ names.drop 7, p ≠ "DOMEfficiency") :
    (systematicInputs cfg names t layer localVars dom h.row =
        systematicInputs cfg names t layer localVars' dom' h'.row →
      SameView (fun i => names[7 + i]? ≠ some "DOMEfficiency") dom h dom' h') ∧
    (SameView (fun i => names[7 + i]? ≠ some "DOMEfficiency") dom h dom' h' →
      ((dom = dom' ∧ localVars = localVars') ∨ (cfg.domCoordinates = false ∧ cfg.numLocal = 0)) →
      systematicInputs cfg names t layer localVars dom h.row =
        systematicInputs cfg names t layer localVars' dom' h'.row) := by
  have hlen : ∀ {h : Hyp}, h.row.length = names.length → h.rest.length = (names.drop 7).length := by
    intro h hr
    rw [List.length_drop, ← hr]
    simp [Hyp.row]
  have hiff := shown_eq_iff ht (names.drop 7) 7 h.rest h'.rest (hlen hr) (hlen hr')
  have hshown : shownParams names t h.rest = shownParams names t h'.rest ↔
      ∀ i : ℕ, names[7 + i]? ≠ some "DOMEfficiency" → h.rest[i]? = h'.rest[i]? := by
    simp only [List.getElem?_drop] at hiff
    exact hiff
  have hne : ∀ {h : Hyp}, h.row.length = names.length → shownParams names t h.rest ≠ [] := by
    intro h hr he
    obtain ⟨p, hp, hpn⟩ := hex
    obtain ⟨i, hi⟩ := List.getElem?_of_mem hp
    have hlt : i < (restTrafo t h.rest).length := by
      rw [length_restTrafo, hlen hr]
      exact (List.getElem?_eq_some_iff.1 hi).1
    have hz : ((names.drop 7).zip (restTrafo t h.rest))[i]? = some (p, (restTrafo t h.rest)[i]) := by
      rw [List.getElem?_zip_eq_some]
      exact ⟨hi, List.getElem?_eq_getElem hlt⟩
    unfold shownParams at he
    rw [List.map_eq_nil_iff, List.filter_eq_nil_iff] at he
    have := he _ (List.mem_of_getElem? hz)
    simp [hpn] at this
  have hsl : (shownParams names t h.rest).length = (shownParams names t h'.rest).length := by
    have e1 := length_shown (names.drop 7) (restTrafo t h.rest)
      (by rw [length_restTrafo, hlen hr]) ((List.drop_sublist 7 names).nodup hn)
    have e2 := length_shown (names.drop 7) (restTrafo t h'.rest)
      (by rw [length_restTrafo, hlen hr']) ((List.drop_sublist 7 names).nodup hn)
    unfold shownParams
    omega
  rw [systematicInputs_row cfg hn t layer localVars dom h hr,
    systematicInputs_row cfg hn t layer localVars' dom' h' hr', if_neg (hne hr), if_neg (hne hr')]
  constructor
  · intro he
    have he := (Prod.mk.inj (Except.ok.inj he)).2
    obtain ⟨e1, he⟩ := List.append_inj he (by rw [length_coords, length_coords])
    obtain ⟨e2, he⟩ := List.append_inj he (by rfl)
    obtain ⟨e3, he⟩ := List.append_inj he (by rw [length_coords, length_coords])
    obtain ⟨e4, he⟩ := List.append_inj he (by rfl)
    obtain ⟨-, he⟩ := List.append_inj he (by split <;> rfl)
    obtain ⟨-, he⟩ := List.append_inj he (by split <;> rfl)
    obtain ⟨-, he⟩ := List.append_inj he (by split <;> rfl)
    obtain ⟨e5, -⟩ := List.append_inj he (by rw [List.length_map, List.length_map, hsl])
    simp only [List.cons.injEq, Option.some.injEq, and_true] at e2 e4
    refine ⟨displacement_inj ht.2 norm_eq_zero norm_eq_zero (coords_inj e3) e4,
      Option.some.inj (coords_inj e1), ht.1 _ e2, ?_⟩
    exact hshown.1 (List.map_injective_iff.2 (Option.some_injective _) e5)
  · intro hs hc
    have hsub : sub dom h.vertex = sub dom' h'.vertex := hs.position
    have hfirst : firstInputs cfg t localVars dom h = firstInputs cfg t localVars' dom' h' := by
      unfold firstInputs
      rw [hsub]
      rcases hc with ⟨-, rfl⟩ | ⟨-, c2⟩
      · rfl
      · simp [c2]
    have hdc : (if cfg.domCoordinates then domChannels dom else []) =
        (if cfg.domCoordinates then domChannels dom' else []) := by
      rcases hc with ⟨rfl, -⟩ | ⟨c1, -⟩
      · rfl
      · simp [c1]
    rw [hfirst, hsub, hs.flight, hs.energy, hdc, hshown.2 hs.rest]

/-- A transformation and two different hypotheses that look the same. -/
example : Trafo.Injective ⟨fun _ x => x, fun _ => 0, fun _ => 1, 1, true⟩ ∧
    SameView (fun _ => True) ⟨1, 2, 3⟩ ⟨⟨0, 0, 0⟩, 1, 2, 10, 5, [20, 1]⟩ ⟨11, 12, 13⟩
      ⟨⟨10, 10, 10⟩, 1, 2 + 2 * Real.pi, 10, 7, [20, 1]⟩ := by
  refine ⟨⟨fun _ => Function.injective_id, ?_⟩, ?_, ?_, rfl, fun _ _ => rfl⟩
  · unfold posScale
    positivity
  · unfold toward
    ext <;> norm_num
  · unfold Hyp.flight
    ext <;> simp

end Verif.Inputs
