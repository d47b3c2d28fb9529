import Verif.Inputs.Model
import Verif.Sphere.Lemmas
import Mathlib.Tactic.Linarith
import Mathlib.Tactic.Ring
import Mathlib.Tactic.FieldSimp
import Mathlib.Tactic.LinearCombination

/-!
# Lemmas on the inputs of the networks
-/

namespace Verif.Inputs
open Verif.Py Verif.Sphere

theorem one_exp_pos (x : ℝ) : 0 < 1 + Real.exp x := by
  have := Real.exp_pos x
  linarith

/-- The position on the track in closed form. -/
theorem shift_eq (L d : ℝ) :
    shift L d = Real.log (1 + Real.exp d) - Real.log (1 + Real.exp (d - L)) := by
  unfold shift softplus
  have h : d + Real.log (1 + Real.exp (-d)) = Real.log (1 + Real.exp d) := by
    have : Real.log (Real.exp d * (1 + Real.exp (-d))) = d + Real.log (1 + Real.exp (-d)) := by
      rw [Real.log_mul (Real.exp_pos d).ne' (one_exp_pos _).ne', Real.log_exp]
    rw [← this, mul_add, mul_one, ← Real.exp_add, add_neg_cancel, Real.exp_zero, add_comm]
  rw [h]

theorem shift_pos {L : ℝ} (hL : 0 < L) (d : ℝ) : 0 < shift L d := by
  rw [shift_eq, sub_pos]
  apply Real.log_lt_log (one_exp_pos _)
  have : Real.exp (d - L) < Real.exp d := Real.exp_lt_exp.2 (by linarith)
  linarith

theorem shift_lt {L : ℝ} (hL : 0 < L) (d : ℝ) : shift L d < L := by
  rw [shift_eq, sub_lt_iff_lt_add]
  have h : L + Real.log (1 + Real.exp (d - L)) = Real.log (Real.exp L + Real.exp d) := by
    have : Real.log (Real.exp L * (1 + Real.exp (d - L))) = L + Real.log (1 + Real.exp (d - L)) := by
      rw [Real.log_mul (Real.exp_pos L).ne' (one_exp_pos _).ne', Real.log_exp]
    rw [← this, mul_add, mul_one, ← Real.exp_add]
    congr 3
    ring
  rw [h]
  apply Real.log_lt_log (one_exp_pos _)
  have : 1 < Real.exp L := Real.one_lt_exp_iff.2 hL
  linarith

/-- The position of a track of any length, as the logarithm of a quotient. -/
theorem shift_lt_iff (L d d' : ℝ) :
    shift L d < shift L d' ↔ 0 < (Real.exp d' - Real.exp d) * (1 - Real.exp (-L)) := by
  have key : shift L d < shift L d' ↔
      (1 + Real.exp d) * (1 + Real.exp (d' - L)) < (1 + Real.exp d') * (1 + Real.exp (d - L)) := by
    rw [← Real.log_lt_log_iff (mul_pos (one_exp_pos _) (one_exp_pos _))
      (mul_pos (one_exp_pos _) (one_exp_pos _)),
      Real.log_mul (one_exp_pos _).ne' (one_exp_pos _).ne',
      Real.log_mul (one_exp_pos _).ne' (one_exp_pos _).ne', shift_eq, shift_eq]
    constructor <;> intro h <;> linarith
  rw [key]
  have e1 : Real.exp (d' - L) = Real.exp d' * Real.exp (-L) := by rw [← Real.exp_add]; congr 1
  have e2 : Real.exp (d - L) = Real.exp d * Real.exp (-L) := by rw [← Real.exp_add]; congr 1
  rw [e1, e2]
  constructor <;> intro h <;> nlinarith

theorem shift_strictMono {L : ℝ} (hL : 0 < L) : StrictMono (shift L) := by
  intro d d' h
  rw [shift_lt_iff]
  have h1 : Real.exp d < Real.exp d' := Real.exp_lt_exp.2 h
  have h2 : Real.exp (-L) < 1 := by rw [← Real.exp_zero]; exact Real.exp_lt_exp.2 (by linarith)
  exact mul_pos (by linarith) (by linarith)

theorem shift_strictAnti {L : ℝ} (hL : L < 0) {d d' : ℝ} (h : d < d') : shift L d' < shift L d := by
  rw [shift_lt_iff]
  have h1 : Real.exp d < Real.exp d' := Real.exp_lt_exp.2 h
  have h2 : 1 < Real.exp (-L) := Real.one_lt_exp_iff.2 (by linarith)
  exact mul_pos_of_neg_of_neg (by linarith) (by linarith)

theorem shift_zero (d : ℝ) : shift 0 d = 0 := by
  rw [shift_eq, sub_zero, sub_self]

/-- What is cut off grows with the distance: the position moves less than the distance. -/
theorem sub_shift_strictMono (L : ℝ) : StrictMono (fun d => d - shift L d) := by
  intro d d' h
  have e : ∀ d, d - shift L d = softplus (d - L) - softplus (-d) := by
    intro d
    unfold shift
    ring
  simp only [e]
  have h1 : softplus (d - L) < softplus (d' - L) := by
    apply Real.log_lt_log (one_exp_pos _)
    have : Real.exp (d - L) < Real.exp (d' - L) := Real.exp_lt_exp.2 (by linarith)
    linarith
  have h2 : softplus (-d') < softplus (-d) := by
    apply Real.log_lt_log (one_exp_pos _)
    have : Real.exp (-d') < Real.exp (-d) := Real.exp_lt_exp.2 (by linarith)
    linarith
  linarith

/-- The smooth version of `max 0`. -/
theorem softplus_bounds (x : ℝ) : max 0 x < softplus x ∧ softplus x ≤ max 0 x + Real.log 2 := by
  unfold softplus
  constructor
  · rw [max_lt_iff]
    constructor
    · apply Real.log_pos
      have := Real.exp_pos x
      linarith
    · conv_lhs => rw [← Real.log_exp x]
      apply Real.log_lt_log (Real.exp_pos _)
      linarith
  · rcases le_total 0 x with h | h
    · rw [max_eq_right h]
      have : x + Real.log 2 = Real.log (Real.exp x * 2) := by
        rw [Real.log_mul (Real.exp_pos x).ne' (by norm_num), Real.log_exp]
      rw [this]
      apply Real.log_le_log (one_exp_pos _)
      have : 1 ≤ Real.exp x := Real.one_le_exp h
      linarith
    · rw [max_eq_left h, zero_add]
      apply Real.log_le_log (one_exp_pos _)
      have : Real.exp x ≤ 1 := Real.exp_le_one_iff.2 h
      linarith

theorem shift_clamp {L : ℝ} (hL : 0 ≤ L) (d : ℝ) :
    |shift L d - max 0 (min L d)| < Real.log 2 := by
  have h1 := softplus_bounds (-d)
  have h2 := softplus_bounds (d - L)
  have e : max 0 (min L d) = d + max 0 (-d) - max 0 (d - L) := by
    rcases le_total 0 d with h | h <;> rcases le_total d L with g | g
    · rw [min_eq_right g, max_eq_right h, max_eq_left (by linarith), max_eq_left (by linarith)]; ring
    · rw [min_eq_left g, max_eq_right hL, max_eq_left (by linarith), max_eq_right (by linarith)]; ring
    · rw [min_eq_right g, max_eq_left h, max_eq_right (by linarith), max_eq_left (by linarith)]; ring
    · have : d = L := by linarith
      subst this
      have : d = 0 := by linarith
      subst this
      simp
  rw [e, abs_lt]
  unfold shift
  constructor <;> linarith [h1.1, h1.2, h2.1, h2.2]

/-- A positive length gives a finite deposited energy. -/
theorem depEnergy_eq {E L : ℝ} (hL : L ≠ 0) (d1 d2 : ℝ) :
    depEnergy E L d1 d2 = some (E * (|shift L d2 - shift L d1| / L)) := by
  unfold depEnergy chanDiv
  rw [if_neg hL]
  rfl

theorem depEnergy_zero (E d1 d2 : ℝ) : depEnergy E 0 d1 d2 = none := by
  unfold depEnergy chanDiv
  rw [if_pos rfl]
  rfl

/-! ## Vectors -/

theorem dir_unit (zenith azimuth : ℝ) : (dir zenith azimuth).Unit := by
  unfold V3.Unit V3.dot dir
  have h1 := Real.sin_sq_add_cos_sq zenith
  have h2 := Real.sin_sq_add_cos_sq azimuth
  simp only
  linear_combination (Real.sin zenith) ^ 2 * h2 + h1

theorem norm_eq_zero {v : V3} (h : norm v = 0) : v = ⟨0, 0, 0⟩ := by
  by_contra hne
  exact (norm_pos hne).ne' h

theorem length_coords (n : Option V3) : (coords n).length = 3 := by
  cases n <;> rfl

theorem coords_inj {n n' : Option V3} (h : coords n = coords n') : n = n' := by
  cases n with
  | none => cases n' with
    | none => rfl
    | some w => simp [coords] at h
  | some v => cases n' with
    | none => simp [coords] at h
    | some w =>
      simp only [coords, List.cons.injEq, Option.some.injEq, and_true] at h
      obtain ⟨h1, h2, h3⟩ := h
      exact congrArg some (V3.ext h1 h2 h3)

theorem length_snowNames (fmt : String → ℕ → String) (l : List (String × ℕ)) :
    (snowNames fmt l).length = numSnow l := by
  induction l with
  | nil => rfl
  | cons p l ih =>
    obtain ⟨p, n⟩ := p
    simp [snowNames, numSnow, ih]

theorem length_options (cfg : Config) (t : Trafo) {localVars : List ℝ}
    (hl : localVars.length = cfg.numLocal) (dom d : V3) (n : Option V3) :
    (options cfg t localVars dom d n).length = numOptions cfg := by
  unfold options numOptions
  rw [List.length_append, List.length_append]
  congr 1
  · congr 1
    · split <;> rfl
    · split <;> rfl
  · split
    · rw [List.length_map, hl]
    · rfl

end Verif.Inputs
