import Mathlib.Tactic.IntervalCases
import Verif.Fit.Lemmas
import Mathlib.Analysis.Real.Pi.Bounds

/-!
# Minimisation of the loss: C84 to C88
-/

namespace Verif.Fit
open Verif.Py Verif.Trafo Verif.Reco

/-! ## C84: limits of the fit -/

theorem boundTrafo_none {T : Transformer} {t : TensorInfo} {f : Trafo.Fit} {i : ℕ} {b : Bound}
    (h : b.num = none) : boundTrafo T t f i b = none := by
  unfold boundTrafo
  rw [h]

theorem boundTrafo_some {T : Transformer} {name : String} {t : TensorInfo} {f : Trafo.Fit}
    (h : Knows T name t f) {n i : ℕ} (ht : t.shape = [n]) (hi : i < n) {b : Bound} {v : ℝ}
    (hb : b.num = some v) :
    boundTrafo T t f i b =
      if logged t i = true ∧ ¬ 0 < 1 + v then none else some (transformed T t f i v) := by
  unfold boundTrafo transformed log1
  rw [hb]
  by_cases hl : logged t i = true
  · have hL := (logged_iff_isLog h.wellFormed ht hi).1 hl
    by_cases hv : 0 < 1 + v
    · simp [hl, hL, hv]
    · simp [hl, hv]
  · have hL : ¬ IsLog t i := fun hh => hl ((logged_iff_isLog h.wellFormed ht hi).2 hh)
    simp [hl, hL]

theorem transformed_le {T : Transformer} {name : String} {t : TensorInfo} {f : Trafo.Fit}
    (h : Knows T name t f) {n i : ℕ} (ht : t.shape = [n]) (hi : i < n) {v x : ℝ}
    (hv : IsLog t i → -1 < v) (hx : IsLog t i → -1 < x) :
    transformed T t f i v ≤ transformed T t f i x ↔ v ≤ x := by
  unfold transformed
  rw [div_le_div_iff_of_pos_right (Knows.pos h ht hi)]
  by_cases hl : IsLog t i
  · rw [if_pos hl, if_pos hl]
    rw [sub_le_sub_iff_right, Real.log_le_log_iff (by linarith [hv hl]) (by linarith [hx hl])]
    constructor <;> intro h <;> linarith
  · rw [if_neg hl, if_neg hl]
    constructor <;> intro h <;> linarith

/-- The transformation of a single lower limit, if the limits are not all integers. -/
theorem finish_lower {T : Transformer} {name : String} {t : TensorInfo} {f : Trafo.Fit}
    (h : Knows T name t f) {n i : ℕ} (ht : t.shape = [n]) (hi : i < n) {k : Kind}
    (hk : k ≠ .ints) (junk : ℤ) (b : Bound) (x : ℝ) (hx : IsLog t i → -1 < x) :
    (finishLimit k junk (boundTrafo T t f i b)).Lower (transformed T t f i x) ↔ b.Lower x := by
  have hfree : (finishLimit k junk none).Lower (transformed T t f i x) := by
    cases k with
    | ints => exact absurd rfl hk
    | floats => trivial
    | objects => trivial
  have hnum : ∀ y, finishLimit k junk (some y) = .num y := by
    intro y
    cases k with
    | ints => exact absurd rfl hk
    | floats => rfl
    | objects => rfl
  have main : ∀ v, b.num = some v → ((finishLimit k junk (boundTrafo T t f i b)).Lower
      (transformed T t f i x) ↔ v ≤ x) := by
    intro v hv
    rw [boundTrafo_some h ht hi hv]
    by_cases hc : logged t i = true ∧ ¬ 0 < 1 + v
    · rw [if_pos hc]
      refine iff_of_true hfree ?_
      have := hx ((logged_iff_isLog h.wellFormed ht hi).1 hc.1)
      linarith [not_lt.1 hc.2]
    · rw [if_neg hc, hnum]
      refine transformed_le h ht hi (fun hl => ?_) hx
      by_contra hcon
      refine hc ⟨(logged_iff_isLog h.wellFormed ht hi).2 hl, ?_⟩
      intro hpos
      exact hcon (by linarith)
  cases b with
  | int z => exact main z rfl
  | real v => exact main v rfl
  | inf => rw [boundTrafo_none rfl]; exact iff_of_true hfree trivial
  | none => rw [boundTrafo_none rfl]; exact iff_of_true hfree trivial

/-- The same for an upper limit, which has to be above -1 for a logarithmic parameter. -/
theorem finish_upper {T : Transformer} {name : String} {t : TensorInfo} {f : Trafo.Fit}
    (h : Knows T name t f) {n i : ℕ} (ht : t.shape = [n]) (hi : i < n) {k : Kind}
    (hk : k ≠ .ints) (junk : ℤ) (b : Bound) (hb : IsLog t i → ∀ v, b.num = some v → -1 < v)
    (x : ℝ) (hx : IsLog t i → -1 < x) :
    (finishLimit k junk (boundTrafo T t f i b)).Upper (transformed T t f i x) ↔ b.Upper x := by
  have hfree : (finishLimit k junk none).Upper (transformed T t f i x) := by
    cases k with
    | ints => exact absurd rfl hk
    | floats => trivial
    | objects => trivial
  have hnum : ∀ y, finishLimit k junk (some y) = .num y := by
    intro y
    cases k with
    | ints => exact absurd rfl hk
    | floats => rfl
    | objects => rfl
  have main : ∀ v, b.num = some v → ((finishLimit k junk (boundTrafo T t f i b)).Upper
      (transformed T t f i x) ↔ x ≤ v) := by
    intro v hv
    rw [boundTrafo_some h ht hi hv]
    have hc : ¬ (logged t i = true ∧ ¬ 0 < 1 + v) := by
      rintro ⟨hc1, hc2⟩
      have := hb ((logged_iff_isLog h.wellFormed ht hi).1 hc1) v hv
      exact hc2 (by linarith)
    rw [if_neg hc, hnum]
    exact transformed_le h ht hi hx (fun hl => hb hl v hv)
  cases b with
  | int z => exact main z rfl
  | real v => exact main v rfl
  | inf => rw [boundTrafo_none rfl]; exact iff_of_true hfree trivial
  | none => rw [boundTrafo_none rfl]; exact iff_of_true hfree trivial

theorem limits_ok {T : Transformer} {name : String} {t : TensorInfo} {f : Trafo.Fit}
    (h : Knows T name t f) (bs : List (Bound × Bound)) (ht : t.shape = [bs.length]) (junk : ℤ) :
    limits T name junk bs = .ok (bs.mapIdx fun i b =>
      (finishLimit (kind bs) junk (boundTrafo T t f i b.1),
       finishLimit (kind bs) junk (boundTrafo T t f i b.2))) := by
  unfold limits
  have hf : T.find name = some t := h.tensor
  rw [hf]
  simp only [ht, ne_eq, not_true_eq_false, if_false, h.fit]

/-- C84. In the transformed space the minimiser gets one pair of limits per parameter, and, unless
all limits are integers, the transformed value of a parameter is within a limit of the minimiser
exactly if the parameter is within the limit of the user. Logarithmic parameters are above -1, and
so have to be their upper limits. If one of the limits is `None`, no limit is handed on as a value
that is not a number. What is missing: integer limits, see `C84_integers_violated`, and infinite
limits without a `None`, see `C84_infinite_violated`. -/
theorem C84_limits_partial (T : Transformer) (name : String) (t : TensorInfo) (f : Trafo.Fit)
    (h : Knows T name t f) (bs : List (Bound × Bound)) (ht : t.shape = [bs.length]) (junk : ℤ) :
    ∃ l, limits T name junk bs = .ok l ∧ l.length = bs.length ∧
      ∀ (i : ℕ) lo hi, bs[i]? = some (lo, hi) → ∃ lo' hi', l[i]? = some (lo', hi') ∧
        ((∃ b ∈ bs, ¬ (b.1.isInt = true ∧ b.2.isInt = true)) →
          ∀ x, (IsLog t i → -1 < x) →
            (lo'.Lower (transformed T t f i x) ↔ lo.Lower x) ∧
            ((IsLog t i → ∀ v, hi.num = some v → -1 < v) →
              (hi'.Upper (transformed T t f i x) ↔ hi.Upper x))) ∧
        ((∃ b ∈ bs, b.1.isNone = true ∨ b.2.isNone = true) → lo' ≠ .nan ∧ hi' ≠ .nan) := by
  refine ⟨_, limits_ok h bs ht junk, by simp, ?_⟩
  · intro i lo hi hb
    have hi' : i < bs.length := (List.getElem?_eq_some_iff.1 hb).1
    refine ⟨_, _, by rw [List.getElem?_mapIdx, hb]; rfl, ?_, ?_⟩
    · intro hmix x hx
      have hk : kind bs ≠ .ints := by
        obtain ⟨b, hb1, hb2⟩ := hmix
        unfold kind
        split
        · simp
        · rw [if_neg]
          · simp
          · intro hh
            rw [Bool.and_eq_true, List.all_eq_true] at hh
            have := hh.2 b hb1
            rw [Bool.and_eq_true] at this
            exact hb2 this
      exact ⟨finish_lower h ht hi' hk junk lo x hx, fun hup =>
        finish_upper h ht hi' hk junk hi hup x hx⟩
    · intro hnone
      have hk : kind bs = .objects := by
        obtain ⟨b, hb1, hb2⟩ := hnone
        unfold kind
        rw [if_pos]
        rw [List.any_eq_true]
        exact ⟨b, hb1, by rw [Bool.or_eq_true]; exact hb2⟩
      rw [hk]
      constructor
      · cases boundTrafo T t f i lo <;> simp [finishLimit]
      · cases boundTrafo T t f i hi <;> simp [finishLimit]

theorem spaceLimits_trafo {T : Transformer} {name : String} {junk : ℤ} {bs : List (Bound × Bound)}
    {l : List (Limit × Limit)} (h : limits T name junk bs = .ok l) :
    spaceLimits T name true junk (some bs) = .ok (some l) := by
  unfold spaceLimits
  simp only [if_true, h]

theorem checkFit_ok {T : Transformer} {name : String} {t : TensorInfo} {f : Trafo.Fit}
    (h : Knows T name t f) (fit : List Bool) (ht : t.shape = [fit.length]) :
    checkFit T name fit = .ok () := by
  unfold checkFit
  have hf : T.find name = some t := h.tensor
  rw [hf]
  simp [ht]

/-- A successful reconstruction: starting values and what the minimiser returned. -/
theorem reconstruct_ok {T : Transformer} {name : String} {fit : List Bool} {inTrafo isTf : Bool}
    {loss : Arr → Except Err ℝ} {junk : ℤ} {minimize : Minimizer} {seed : Arr}
    {bounds : Option (List (Bound × Bound))} {p : Arr}
    (h : reconstruct T name fit inTrafo isTf loss junk minimize seed bounds = .ok p) :
    ∃ lims x0 x, spaceLimits T name inTrafo junk bounds = .ok lims ∧
      start T name fit inTrafo isTf seed = .ok x0 ∧
      minimize (objective T name fit inTrafo loss seed) (flatten x0) lims = .ok x ∧
      reshape x (fit.count true) = .ok p := by
  unfold reconstruct at h
  cases hc : checkFit T name fit with
  | error e => rw [hc] at h; cases h
  | ok u =>
    rw [hc] at h
    simp only at h
    cases hl : spaceLimits T name inTrafo junk bounds with
    | error e => rw [hl] at h; cases h
    | ok lims =>
      rw [hl] at h
      simp only at h
      cases hs : start T name fit inTrafo isTf seed with
      | error e => rw [hs] at h; cases h
      | ok x0 =>
        rw [hs] at h
        simp only at h
        cases hm : minimize (objective T name fit inTrafo loss seed) (flatten x0) lims with
        | error e => rw [hm] at h; cases h
        | ok x =>
          rw [hm] at h
          exact ⟨lims, x0, x, rfl, rfl, hm, h⟩

/-- The shape of the starting values. -/
theorem start_shape {T : Transformer} {name : String} {t : TensorInfo} {f : Trafo.Fit}
    (h : Knows T name t f) (fit : List Bool) (ht : t.shape = [fit.length]) (B : ℕ) (seed : Arr)
    (hs : seed.shape = [B, fit.length]) (inTrafo isTf : Bool) {x0 : Arr}
    (hx : start T name fit inTrafo isTf seed = .ok x0) : x0.shape = [B, fit.count true] := by
  by_cases htf : isTf = true → fit.all id = true
  · obtain ⟨x, a, h1, h2, -⟩ := C39_start_partial T name t f h fit ht B seed hs inTrafo isTf htf
    rw [hx] at h1
    cases h1
    exact h2
  · push Not at htf
    obtain ⟨h1, h2⟩ := htf
    subst h1
    rw [C39_tensor_seed_violated T name t f h fit ht B seed hs inTrafo h2] at hx
    cases hx

/-- C84. If all parameters are fitted in the transformed space, of a single event, the reported
parameters are within the limits of the user, for every minimiser that respects its limits, unless
all limits are integers; the upper limits of logarithmic parameters have to be above -1. What is
missing: see `C84_integers_violated`, `C84_fitted_violated` and `C84_batch_violated`. -/
theorem C84_result_partial (T : Transformer) (name : String) (t : TensorInfo) (f : Trafo.Fit)
    (h : Knows T name t f) (fit : List Bool) (hall : fit.all id = true)
    (ht : t.shape = [fit.length]) (bs : List (Bound × Bound)) (hlen : bs.length = fit.length)
    (hmix : ∃ b ∈ bs, ¬ (b.1.isInt = true ∧ b.2.isInt = true))
    (hup : ∀ (i : ℕ) lo hi v, bs[i]? = some (lo, hi) → IsLog t i → hi.num = some v → -1 < v)
    (seed : Arr) (hs : seed.shape = [1, fit.length]) (isTf : Bool) (loss : Arr → Except Err ℝ)
    (junk : ℤ) (minimize : Minimizer) (hm : Respects minimize) (p : Arr)
    (hp : reconstruct T name fit true isTf loss junk minimize seed (some bs) = .ok p) :
    ∃ r, recoResult T name fit true false p seed = .ok r ∧ r.shape = [1, fit.length] ∧
      ∀ (i : ℕ) lo hi, bs[i]? = some (lo, hi) →
        lo.Lower (r.val [0, i]) ∧ hi.Upper (r.val [0, i]) := by
  obtain ⟨lims, x0, x, e1, e2, e3, e4⟩ := reconstruct_ok hp
  obtain ⟨l, l1, l2, l3⟩ := C84_limits_partial T name t f h bs (by rw [hlen]; exact ht) junk
  rw [spaceLimits_trafo l1] at e1
  cases e1
  have hcnt := count_of_all hall
  have hx0 := start_shape h fit ht 1 seed hs true isTf e2
  obtain ⟨x1, x2⟩ := hm _ _ _ _ e3
  obtain ⟨-, x3⟩ := x2 l rfl
  rw [flatten_length x0 1 _ hx0] at x1
  have hpos : 0 < fit.count true := by
    rw [hcnt]
    obtain ⟨b, hb, -⟩ := hmix
    have := List.length_pos_of_mem hb
    omega
  obtain ⟨p', p1, p2, p3⟩ := reshape_ok x 1 _ hpos x1
  rw [p1] at e4
  cases e4
  rw [hcnt] at p2
  obtain ⟨r, r1, r2, r3⟩ := inverse2 h ht false p 1 p2
  have hst : ∃ st, toSpace T name true seed = .ok st := by
    obtain ⟨st, s1, -⟩ := transform2 h ht seed 1 hs
    exact ⟨st, by rw [toSpace, if_pos rfl, s1]⟩
  obtain ⟨st, hst⟩ := hst
  refine ⟨r, ?_, r2, ?_⟩
  · unfold recoResult
    rw [hst]
    simp only [hall, if_true]
    rw [fromSpace, if_pos rfl, r1]
  · intro i lo hi hb
    have hib : i < bs.length := (List.getElem?_eq_some_iff.1 hb).1
    have hi' : i < fit.length := by omega
    have hix : i < x.length := by rw [x1, hcnt]; omega
    obtain ⟨lo', hi'', m1, m2, -⟩ := l3 i lo hi hb
    have hxi : x[i]? = some (p.val [0, i]) := by
      rw [p3 0 i]
      simp [List.getD, List.getElem?_eq_getElem hix]
    obtain ⟨c1, c2⟩ := x3 i lo' hi'' _ m1 hxi
    have hne := (Knows.pos h ht hi' (b := 0)).ne'
    have hr := r3 0 (by omega) i hi'
    simp only [Bool.false_eq_true, false_and, if_false] at hr
    have hlog : IsLog t i → -1 < r.val [0, i] := by
      intro hl
      rw [hr, if_pos hl]
      linarith [Real.exp_pos (p.val [0, i] * (T.norm + f.std.at [0, i]) + f.mean.at [0, i])]
    have htr : transformed T t f i (r.val [0, i]) = p.val [0, i] := by
      unfold transformed
      by_cases hl : IsLog t i
      · rw [if_pos hl, hr, if_pos hl]
        rw [show (1 : ℝ) + (Real.exp (p.val [0, i] * (T.norm + f.std.at [0, i]) +
          f.mean.at [0, i]) - 1) = Real.exp (p.val [0, i] * (T.norm + f.std.at [0, i]) +
          f.mean.at [0, i]) by ring, Real.log_exp, add_sub_cancel_right, mul_div_cancel_right₀ _ hne]
      · rw [if_neg hl, hr, if_neg hl, add_sub_cancel_right, mul_div_cancel_right₀ _ hne]
    obtain ⟨q1, q2⟩ := m2 hmix (r.val [0, i]) hlog
    rw [htr] at q1 q2
    exact ⟨q1.1 c1, (q2 (fun hl v hv => hup i lo hi v hb hl hv)).1 c2⟩

/-- C84. Without transformation the limits of the user are those of the minimiser, one per fitted
parameter and event: entry `b * k + j` limits the fitted parameter `j` of event `b`, if there are
`k` fitted ones. -/
theorem C84_plain (T : Transformer) (name : String) (t : TensorInfo) (f : Trafo.Fit)
    (h : Knows T name t f) (fit : List Bool) (ht : t.shape = [fit.length])
    (bs : List (Bound × Bound)) (B : ℕ) (seed : Arr) (hs : seed.shape = [B, fit.length])
    (isTf : Bool) (loss : Arr → Except Err ℝ) (junk : ℤ) (minimize : Minimizer)
    (hm : Respects minimize) (p : Arr)
    (hp : reconstruct T name fit false isTf loss junk minimize seed (some bs) = .ok p) :
    p.shape = [B, fit.count true] ∧ bs.length = B * fit.count true ∧
      ∀ b < B, ∀ j < fit.count true, ∀ lo hi, bs[b * fit.count true + j]? = some (lo, hi) →
        lo.Lower (p.val [b, j]) ∧ hi.Upper (p.val [b, j]) := by
  obtain ⟨lims, x0, x, e1, e2, e3, e4⟩ := reconstruct_ok hp
  simp only [spaceLimits, Bool.false_eq_true, if_false, Except.ok.injEq] at e1
  have hx0 := start_shape h fit ht B seed hs false isTf e2
  obtain ⟨x1, x2⟩ := hm _ _ _ _ e3
  obtain ⟨x4, x3⟩ := x2 _ e1.symm
  rw [flatten_length x0 B _ hx0] at x1 x4
  rw [List.length_map] at x4
  have hpos : 0 < fit.count true := by
    rcases Nat.eq_zero_or_pos (fit.count true) with h0 | h0
    · unfold reshape at e4
      rw [if_pos (Or.inl h0)] at e4
      cases e4
    · exact h0
  obtain ⟨p', p1, p2, p3⟩ := reshape_ok x B _ hpos x1
  rw [p1] at e4
  cases e4
  refine ⟨p2, x4, fun b hb j hj lo hi hl => ?_⟩
  have hix : b * fit.count true + j < x.length := by
    rw [x1]
    calc b * fit.count true + j < b * fit.count true + fit.count true := by omega
      _ = (b + 1) * fit.count true := by ring
      _ ≤ B * fit.count true := Nat.mul_le_mul_right _ hb
  have hxi : x[b * fit.count true + j]? = some (p.val [b, j]) := by
    rw [p3 b j]
    simp [List.getD, List.getElem?_eq_getElem hix]
  obtain ⟨c1, c2⟩ := x3 (b * fit.count true + j) lo.keep hi.keep _
    (by rw [List.getElem?_map, hl]; rfl) hxi
  constructor
  · cases lo <;> first | exact c1 | trivial
  · cases hi <;> first | exact c2 | trivial

-- the hypotheses are met, with two events and one fitted parameter
example : reconstruct exTrafo "x_parameters" [false, true, false] false false (fun _ => .ok 0) 0
    (fun _ _ _ => .ok [1, 2]) ⟨[2, 3], fun _ => 1⟩ (some [(.int 0, .real 2), (.int 1, .none)]) =
    .ok ⟨[2, 1], inRows [1, 2] 1⟩ := rfl

/-- C84. A wrong number of flags is refused, also by the global minimisation. -/
theorem C84_flags (T : Transformer) (name : String) (t : TensorInfo) (f : Trafo.Fit)
    (h : Knows T name t f) (fit : List Bool) (n : ℕ) (ht : t.shape = [n]) (hn : fit.length ≠ n)
    (inTrafo isTf : Bool) (loss : Arr → Except Err ℝ) (junk : ℤ) (minimize : Minimizer)
    (shgo : Global) (seed : Arr) (bounds : Option (List (Bound × Bound))) :
    reconstruct T name fit inTrafo isTf loss junk minimize seed bounds = .error .valueError ∧
    reconstructGlobal T name fit inTrafo loss shgo seed = .error .valueError := by
  have hc : checkFit T name fit = .error .valueError := by
    unfold checkFit
    have hf : T.find name = some t := h.tensor
    rw [hf]
    simp [ht, hn]
  constructor
  · unfold reconstruct
    rw [hc]
  · unfold reconstructGlobal
    rw [hc]

/-- A minimiser of the examples: the lower limits, if they are numbers not above the upper ones,
and the starting values if there are no limits. -/
noncomputable def exMinimize : Minimizer := fun _ x0 lims =>
  open Classical in
  match lims with
  | none => .ok x0
  | some l =>
    if l.length = x0.length ∧ ∀ b ∈ l, ∃ u v, b = (.num u, .num v) ∧ u ≤ v then
      .ok (l.map fun b => match b.1 with | .num u => u | _ => 0)
    else .error .valueError

theorem exMinimize_respects : Respects exMinimize := by
  intro g x0 lims x h
  unfold exMinimize at h
  cases lims with
  | none =>
    simp only at h
    cases h
    exact ⟨rfl, by intro l hl; cases hl⟩
  | some l =>
    simp only at h
    split at h
    · rename_i hc
      cases h
      refine ⟨by simp [hc.1], ?_⟩
      intro l' hl'
      cases hl'
      refine ⟨hc.1, ?_⟩
      intro i lo hi y h1 h2
      obtain ⟨u, v, h3, h4⟩ := hc.2 _ (List.mem_of_getElem? h1)
      cases h3
      rw [List.getElem?_map, h1] at h2
      simp only [Option.map_some, Option.some.injEq] at h2
      subst h2
      exact ⟨le_refl u, h4⟩
    · cases h

/-- The fitted values of the examples. -/
noncomputable def exFit : Trafo.Fit := { mean := ⟨[3], fun _ => 0⟩, std := ⟨[3], fun _ => 2⟩ }

theorem exIsLog (i : ℕ) (hi : i < 3) : IsLog exTensor i ↔ i = 2 := by
  unfold IsLog Logged
  constructor
  · rintro ⟨m, k, h1, h2, h3⟩
    cases h1
    simp only [List.getLast?_cons_cons, List.getLast?_singleton, Option.some.injEq] at h2
    subst h2
    match i, hi, h3 with
    | 0, _, h => simp at h
    | 1, _, h => simp at h
    | 2, _, _ => rfl
  · rintro rfl
    exact ⟨_, 2, rfl, rfl, rfl⟩

/-- The lower limits. -/
def lows (l : List (Limit × Limit)) : List ℝ :=
  l.map fun b => match b.1 with | .num u => u | _ => 0

theorem ex_reconstruct {T : Transformer} {name : String} {t : TensorInfo} {f : Trafo.Fit}
    (h : Knows T name t f) (fit : List Bool) (hall : fit.all id = true) (hne : fit ≠ [])
    (ht : t.shape = [fit.length]) (loss : Arr → Except Err ℝ) (junk : ℤ) (seed : Arr)
    (hs : seed.shape = [1, fit.length]) (bs : List (Bound × Bound)) (l : List (Limit × Limit))
    (hl : limits T name junk bs = .ok l) (hlen : l.length = fit.length)
    (hnum : ∀ b ∈ l, ∃ u v, b = (.num u, .num v) ∧ u ≤ v) :
    ∃ p, reconstruct T name fit true false loss junk exMinimize seed (some bs) = .ok p ∧
      p.shape = [1, fit.length] ∧ ∀ j, p.val [0, j] = (lows l).getD j 0 := by
  obtain ⟨x0, a, h1, h2, -⟩ := C39_start_partial T name t f h fit ht 1 seed hs true false
    (fun _ => hall)
  have hcnt := count_of_all hall
  have hlo : (lows l).length = 1 * fit.count true := by
    rw [lows, List.length_map, hlen, hcnt, one_mul]
  obtain ⟨p, p1, p2, p3⟩ := reshape_ok (lows l) 1 (fit.count true)
    (by rw [hcnt]; exact List.length_pos_iff.2 hne) hlo
  refine ⟨p, ?_, by rw [p2, hcnt], fun j => by rw [p3 0 j]; simp⟩
  have hmin : exMinimize (objective T name fit true loss seed) (flatten x0) (some l) =
      .ok (lows l) := by
    unfold exMinimize
    simp only
    rw [if_pos]
    · rfl
    · exact ⟨by rw [flatten_length x0 1 _ h2, hlen, hcnt, one_mul], hnum⟩
  unfold reconstruct
  rw [checkFit_ok h fit ht, spaceLimits_trafo hl, h1]
  simp only
  rw [hmin]
  exact p1

/-- Limits of the examples. -/
noncomputable def exBounds : List (Bound × Bound) :=
  [(.real 0.5, .int 4), (.real (-1), .real 1), (.int 0, .int 9)]

-- the hypotheses of C84 are met: three fitted parameters with different limits, the last of which
-- is logarithmic, and a reconstruction that succeeds
example : ∃ p, Knows exTrafo "x_parameters" exTensor exFit ∧ Respects exMinimize ∧
    (∃ b ∈ exBounds, ¬ (b.1.isInt = true ∧ b.2.isInt = true)) ∧
    (∀ (i : ℕ) lo hi v, exBounds[i]? = some (lo, hi) → IsLog exTensor i → hi.num = some v →
      -1 < v) ∧
    reconstruct exTrafo "x_parameters" [true, true, true] true false (fun _ => .ok 0) 0 exMinimize
      ⟨[1, 3], fun _ => 1⟩ (some exBounds) = .ok p := by
  have hl : ∃ l, limits exTrafo "x_parameters" 0 exBounds = .ok l ∧
      l.length = 3 ∧ ∀ b ∈ l, ∃ u v, b = (.num u, .num v) ∧ u ≤ v := by
    refine ⟨_, rfl, by simp [exBounds], ?_⟩
    simp only [exBounds, List.mapIdx_cons, List.mapIdx_nil, List.mem_cons, List.not_mem_nil,
      or_false]
    have hlog : (0 : ℝ) ≤ Real.log (1 + 9) := Real.log_nonneg (by norm_num)
    rintro b (rfl | rfl | rfl)
    · refine ⟨0.5 / 3, 4 / 3, ?_, by norm_num⟩
      simp [boundTrafo, logged, exTensor, kind, Bound.isNone, Bound.isInt, finishLimit,
          Bound.num, exTrafo, Arr.at]
      norm_num
    · refine ⟨-1 / 3, 1 / 3, ?_, by norm_num⟩
      simp [boundTrafo, logged, exTensor, kind, Bound.isNone, Bound.isInt, finishLimit,
          Bound.num, exTrafo, Arr.at]
      norm_num
    · refine ⟨0, Real.log (1 + 9) / 3, ?_, by positivity⟩
      simp [boundTrafo, logged, log1, exTensor, kind, Bound.isNone, Bound.isInt, finishLimit,
          Bound.num, exTrafo, Arr.at]
      norm_num
  obtain ⟨l, l1, l2, l3⟩ := hl
  obtain ⟨p, hp, -⟩ := ex_reconstruct exKnows [true, true, true] rfl (by simp) rfl
    (fun _ => .ok 0) 0 ⟨[1, 3], fun _ => 1⟩ rfl exBounds l l1 l2 l3
  refine ⟨p, exKnows, exMinimize_respects, ⟨(.real 0.5, .int 4), by simp [exBounds], by
    simp [Bound.isInt]⟩, ?_, hp⟩
  intro i lo hi v h1 h2 h3
  have hi3 : i < 3 := (List.getElem?_eq_some_iff.1 h1).1
  rw [exIsLog i hi3] at h2
  subst h2
  simp only [exBounds, List.getElem?_cons_succ, List.getElem?_cons_zero, Option.some.injEq,
    Prod.mk.injEq] at h1
  rw [← h1.2] at h3
  simp only [Bound.num, Option.some.injEq] at h3
  rw [← h3]
  norm_num

/-- C84 does not hold if all limits are integers: the transformed limits lose their decimals. A
parameter with the limits 1 and 4 can be reported as 0, by a minimiser that respects its limits. -/
theorem C84_integers_violated : ∃ (bs : List (Bound × Bound)) (seed p r : Arr) (z : ℤ) (hi : Bound),
    reconstruct exTrafo "x_parameters" [true, true, true] true false (fun _ => .ok 0) 0 exMinimize
      seed (some bs) = .ok p ∧
    recoResult exTrafo "x_parameters" [true, true, true] true false p seed = .ok r ∧
    bs[0]? = some (.int z, hi) ∧ r.val [0, 0] < z := by
  have hl : ∃ l, limits exTrafo "x_parameters" 0 [(.int 1, .int 4), (.int 1, .int 4),
      (.int 0, .int 0)] = .ok l ∧ l.length = 3 ∧
      (∀ b ∈ l, ∃ u v, b = (.num u, .num v) ∧ u ≤ v) ∧ (lows l).getD 0 0 = 0 := by
    have e0 : (finishLimit .ints 0 (some (1 / 3))) = .num 0 := by
      simp only [finishLimit]
      rw [if_pos (by norm_num), show ⌊(1 / 3 : ℝ)⌋ = 0 from Int.floor_eq_iff.2 (by norm_num)]
      simp
    have e1 : (finishLimit .ints 0 (some (4 / 3))) = .num 1 := by
      simp only [finishLimit]
      rw [if_pos (by norm_num), show ⌊(4 / 3 : ℝ)⌋ = 1 from Int.floor_eq_iff.2 (by norm_num)]
      simp
    have e2 : (finishLimit .ints 0 (some 0)) = .num 0 := by
      simp [finishLimit]
    have b0 : boundTrafo exTrafo exTensor exFit 0 (.int 1) = some (1 / 3) := by
      simp [boundTrafo, logged, exTensor, Bound.num, exTrafo, exFit, Arr.at]
      norm_num
    have b1 : boundTrafo exTrafo exTensor exFit 0 (.int 4) = some (4 / 3) := by
      simp [boundTrafo, logged, exTensor, Bound.num, exTrafo, exFit, Arr.at]
      norm_num
    have b2 : boundTrafo exTrafo exTensor exFit 1 (.int 1) = some (1 / 3) := by
      simp [boundTrafo, logged, exTensor, Bound.num, exTrafo, exFit, Arr.at]
      norm_num
    have b3 : boundTrafo exTrafo exTensor exFit 1 (.int 4) = some (4 / 3) := by
      simp [boundTrafo, logged, exTensor, Bound.num, exTrafo, exFit, Arr.at]
      norm_num
    have b4 : boundTrafo exTrafo exTensor exFit 2 (.int 0) = some 0 := by
      simp [boundTrafo, logged, log1, exTensor, Bound.num, exTrafo, exFit, Arr.at]
    refine ⟨[(.num 0, .num 1), (.num 0, .num 1), (.num 0, .num 0)], ?_, rfl, ?_, rfl⟩
    · have : limits exTrafo "x_parameters" 0 [(.int 1, .int 4), (.int 1, .int 4),
        (.int 0, .int 0)] = .ok
          [(finishLimit .ints 0 (boundTrafo exTrafo exTensor exFit 0 (.int 1)),
            finishLimit .ints 0 (boundTrafo exTrafo exTensor exFit 0 (.int 4))),
           (finishLimit .ints 0 (boundTrafo exTrafo exTensor exFit 1 (.int 1)),
            finishLimit .ints 0 (boundTrafo exTrafo exTensor exFit 1 (.int 4))),
           (finishLimit .ints 0 (boundTrafo exTrafo exTensor exFit 2 (.int 0)),
            finishLimit .ints 0 (boundTrafo exTrafo exTensor exFit 2 (.int 0)))] := rfl
      rw [this, b0, b1, b2, b3, b4, e0, e1, e2]
    · intro b hb
      simp only [List.mem_cons, List.not_mem_nil, or_false] at hb
      rcases hb with rfl | rfl | rfl
      · exact ⟨0, 1, rfl, by norm_num⟩
      · exact ⟨0, 1, rfl, by norm_num⟩
      · exact ⟨0, 0, rfl, le_refl _⟩
  obtain ⟨l, l1, l2, l3, l4⟩ := hl
  obtain ⟨p, hp, hp2, hp3⟩ := ex_reconstruct exKnows [true, true, true] rfl (by simp) rfl
    (fun _ => .ok 0) 0 ⟨[1, 3], fun _ => 1⟩ rfl _ l l1 l2 l3
  obtain ⟨r, r1, r2, r3⟩ := inverse2 exKnows (n := 3) rfl false p 1 hp2
  obtain ⟨st, s1, -⟩ := transform2 exKnows (n := 3) rfl ⟨[1, 3], fun _ => 1⟩ 1 rfl
  refine ⟨_, _, p, r, 1, .int 4, hp, ?_, rfl, ?_⟩
  · unfold recoResult
    rw [toSpace, if_pos rfl, s1]
    simp only
    rw [if_pos (by rfl), fromSpace, if_pos rfl, r1]
  · rw [r3 0 (by omega) 0 (by omega), if_neg (by rw [exIsLog 0 (by omega)]; omega), hp3 0, l4]
    simp [Arr.at]

/-- C84. What happens to integer limits, in general: they are cut off towards zero after the
transformation. -/
theorem C84_integers (T : Transformer) (name : String) (t : TensorInfo) (f : Trafo.Fit)
    (h : Knows T name t f) (bs : List (Bound × Bound)) (ht : t.shape = [bs.length]) (junk : ℤ)
    (hint : ∀ b ∈ bs, b.1.isInt = true ∧ b.2.isInt = true) (i : ℕ) (z w : ℤ)
    (hi : bs[i]? = some (.int z, .int w)) (hl : IsLog t i → 0 ≤ z ∧ 0 ≤ w) :
    ∃ (l : List (Limit × Limit)) (u v : ℤ), limits T name junk bs = .ok l ∧
      l[i]? = some (.num u, .num v) ∧
      (0 ≤ transformed T t f i z → u = ⌊transformed T t f i z⌋) ∧
      (transformed T t f i z < 0 → u = ⌈transformed T t f i z⌉) ∧
      (0 ≤ transformed T t f i w → v = ⌊transformed T t f i w⌋) ∧
      (transformed T t f i w < 0 → v = ⌈transformed T t f i w⌉) := by
  have hib : i < bs.length := (List.getElem?_eq_some_iff.1 hi).1
  have hk : kind bs = .ints := by
    unfold kind
    rw [if_neg, if_pos]
    · rw [Bool.and_eq_true, List.all_eq_true]
      refine ⟨?_, fun b hb => by rw [Bool.and_eq_true]; exact hint b hb⟩
      cases bs with
      | nil => simp at hib
      | cons b bs => rfl
    · intro hh
      obtain ⟨b, hb, hb2⟩ := List.any_eq_true.1 hh
      obtain ⟨h1, h2⟩ := hint b hb
      rw [Bool.or_eq_true] at hb2
      rcases hb2 with hb2 | hb2
      · cases hb1 : b.1 <;> simp_all [Bound.isInt, Bound.isNone]
      · cases hb1 : b.2 <;> simp_all [Bound.isInt, Bound.isNone]
  have hval : ∀ y : ℤ, (IsLog t i → 0 ≤ y) →
      boundTrafo T t f i (.int y) = some (transformed T t f i y) := by
    intro y hy
    rw [boundTrafo_some h ht hib (v := (y : ℝ)) rfl, if_neg]
    rintro ⟨h1, h2⟩
    have := hy ((logged_iff_isLog h.wellFormed ht hib).1 h1)
    have hc : (0 : ℝ) ≤ y := by exact_mod_cast this
    exact h2 (by linarith)
  refine ⟨_, if 0 ≤ transformed T t f i z then ⌊transformed T t f i z⌋
    else ⌈transformed T t f i z⌉, if 0 ≤ transformed T t f i w then ⌊transformed T t f i w⌋
    else ⌈transformed T t f i w⌉, limits_ok h bs ht junk, ?_, ?_, ?_, ?_, ?_⟩
  · rw [List.getElem?_mapIdx, hi, hk]
    simp only [Option.map_some, hval z (fun hh => (hl hh).1), hval w (fun hh => (hl hh).2)]
    rfl
  · intro hh; rw [if_pos hh]
  · intro hh; rw [if_neg (not_le.2 hh)]
  · intro hh; rw [if_pos hh]
  · intro hh; rw [if_neg (not_le.2 hh)]

/-- C84 does not hold for an infinite limit among floats: it is handed to the minimiser as a value
that is not a number. -/
theorem C84_infinite_violated (T : Transformer) (name : String) (t : TensorInfo) (f : Trafo.Fit)
    (h : Knows T name t f) (bs : List (Bound × Bound)) (ht : t.shape = [bs.length]) (junk : ℤ)
    (hnone : ∀ b ∈ bs, b.1.isNone = false ∧ b.2.isNone = false) (i : ℕ) (hi : Bound)
    (hb : bs[i]? = some (.inf, hi)) :
    ∃ l hi', limits T name junk bs = .ok l ∧ l[i]? = some (.nan, hi') := by
  have hk : kind bs = .floats := by
    unfold kind
    rw [if_neg, if_neg]
    · intro hh
      rw [Bool.and_eq_true, List.all_eq_true] at hh
      have := hh.2 _ (List.mem_of_getElem? hb)
      simp [Bound.isInt] at this
    · intro hh
      obtain ⟨b, hb, hb2⟩ := List.any_eq_true.1 hh
      rw [(hnone b hb).1, (hnone b hb).2] at hb2
      simp at hb2
  refine ⟨_, finishLimit .floats junk (boundTrafo T t f i hi), limits_ok h bs ht junk, ?_⟩
  rw [List.getElem?_mapIdx, hb, hk]
  rfl

/-- Without a `None` and with an infinite limit the hypotheses of `C84_infinite_violated` are
met. -/
example : (∀ b ∈ [(Bound.inf, Bound.real 1), (.real 0, .real 2), (.int 0, .inf)],
    b.1.isNone = false ∧ b.2.isNone = false) ∧
    [(Bound.inf, Bound.real 1), (.real 0, .real 2), (.int 0, .inf)][0]? =
      some (.inf, .real 1) := by
  simp [Bound.isNone]

/-- C84 does not hold if some parameter is not fitted: in the transformed space limits, of any
number, make the reconstruction of an event fail, for every minimiser. -/
theorem C84_fitted_violated (T : Transformer) (name : String) (t : TensorInfo) (f : Trafo.Fit)
    (h : Knows T name t f) (fit : List Bool) (hall : ¬ fit.all id = true)
    (ht : t.shape = [fit.length]) (seed : Arr) (hs : seed.shape = [1, fit.length]) (isTf : Bool)
    (loss : Arr → Except Err ℝ) (junk : ℤ) (minimize : Minimizer) (hm : Respects minimize)
    (bs : List (Bound × Bound)) :
    ∃ e, reconstruct T name fit true isTf loss junk minimize seed (some bs) = .error e := by
  cases hr : reconstruct T name fit true isTf loss junk minimize seed (some bs) with
  | error e => exact ⟨e, rfl⟩
  | ok p =>
    exfalso
    obtain ⟨lims, x0, x, e1, e2, e3, -⟩ := reconstruct_ok hr
    have hx0 := start_shape h fit ht 1 seed hs true isTf e2
    obtain ⟨l, hl⟩ : ∃ l, limits T name junk bs = .ok l := by
      unfold spaceLimits at e1
      simp only [if_true] at e1
      cases hh : limits T name junk bs with
      | error e => rw [hh] at e1; cases e1
      | ok l => exact ⟨l, rfl⟩
    rw [spaceLimits_trafo hl] at e1
    cases e1
    have hn : bs.length = fit.length := by
      unfold limits at hl
      have hf : T.find name = some t := h.tensor
      rw [hf] at hl
      simp only [ht] at hl
      split at hl
      · cases hl
      · rename_i hh
        simp only [ne_eq, List.cons.injEq, and_true, Decidable.not_not] at hh
        exact hh.symm
    obtain ⟨l', g1, g2, -⟩ := C84_limits_partial T name t f h bs (by rw [hn]; exact ht) junk
    rw [hl] at g1
    cases g1
    have h3 := ((hm _ _ _ _ e3).2 l rfl).1
    rw [flatten_length x0 1 _ hx0, g2, hn, one_mul] at h3
    refine hall ?_
    rw [List.all_eq_true]
    intro b hb
    have := List.count_eq_length.1 h3.symm b hb
    simpa using this.symm

/-- C84 does not hold for several events at once: with all parameters fitted, limits make the
reconstruction of two or more events fail, with or without the transformation. -/
theorem C84_batch_violated (T : Transformer) (name : String) (t : TensorInfo) (f : Trafo.Fit)
    (h : Knows T name t f) (fit : List Bool) (hall : fit.all id = true) (hne : fit ≠ [])
    (ht : t.shape = [fit.length]) (B : ℕ) (hB : 2 ≤ B) (seed : Arr)
    (hs : seed.shape = [B, fit.length]) (inTrafo isTf : Bool) (loss : Arr → Except Err ℝ)
    (junk : ℤ) (minimize : Minimizer) (hm : Respects minimize) (bs : List (Bound × Bound))
    (hn : bs.length = fit.length) :
    ∃ e, reconstruct T name fit inTrafo isTf loss junk minimize seed (some bs) = .error e := by
  cases hr : reconstruct T name fit inTrafo isTf loss junk minimize seed (some bs) with
  | error e => exact ⟨e, rfl⟩
  | ok p =>
    exfalso
    obtain ⟨lims, x0, x, e1, e2, e3, -⟩ := reconstruct_ok hr
    have hx0 := start_shape h fit ht B seed hs inTrafo isTf e2
    obtain ⟨l, hl, hl2⟩ : ∃ l, lims = some l ∧ l.length = fit.length := by
      cases inTrafo with
      | true =>
        obtain ⟨l, g1, g2, -⟩ := C84_limits_partial T name t f h bs (by rw [hn]; exact ht) junk
        rw [spaceLimits_trafo g1] at e1
        cases e1
        exact ⟨l, rfl, by rw [g2, hn]⟩
      | false =>
        unfold spaceLimits at e1
        simp only [Bool.false_eq_true, if_false] at e1
        cases e1
        exact ⟨_, rfl, by rw [List.length_map, hn]⟩
    have h3 := ((hm _ _ _ _ e3).2 l hl).1
    rw [flatten_length x0 B _ hx0, hl2, count_of_all hall] at h3
    have hpos : 0 < fit.length := List.length_pos_iff.2 hne
    nlinarith

/-! ## C85: several events at once -/

theorem part_length {k b B : ℕ} {x : List ℝ} (hx : x.length = B * k) (hb : b < B) :
    (part k b x).length = k := by
  unfold part
  rw [List.length_take, List.length_drop, hx]
  have : (b + 1) * k ≤ B * k := Nat.mul_le_mul_right _ hb
  have e : (b + 1) * k = b * k + k := by ring
  omega

theorem part_getD {k b j : ℕ} {x : List ℝ} (hj : j < k) :
    (part k b x).getD j 0 = x.getD (b * k + j) 0 := by
  unfold part
  simp [List.getD, hj, List.getElem?_drop]

/-- The vector of the parts. -/
def joinParts (B : ℕ) (y : ℕ → List ℝ) : List ℝ := (List.range B).flatMap y

theorem joinParts_length {B k : ℕ} {y : ℕ → List ℝ} (hy : ∀ b < B, (y b).length = k) :
    (joinParts B y).length = B * k := by
  unfold joinParts
  induction B with
  | zero => simp
  | succ B ih =>
    rw [List.range_succ, List.flatMap_append, List.length_append,
      ih (fun b hb => hy b (by omega))]
    simp [hy B (by omega)]
    ring

theorem part_joinParts {B k : ℕ} {y : ℕ → List ℝ} (hy : ∀ b < B, (y b).length = k) {b : ℕ}
    (hb : b < B) : part k b (joinParts B y) = y b := by
  induction B with
  | zero => omega
  | succ B ih =>
    have hl := joinParts_length (B := B) (fun b hb => hy b (by omega))
    have e : joinParts (B + 1) y = joinParts B y ++ y B := by
      simp [joinParts, List.range_succ]
    rw [e]
    unfold part
    rcases Nat.lt_succ_iff_lt_or_eq.1 hb with h | rfl
    · have hle : (b + 1) * k ≤ B * k := Nat.mul_le_mul_right _ h
      have e' : (b + 1) * k = b * k + k := by ring
      rw [List.drop_append_of_le_length (by omega), List.take_append_of_le_length (by
        rw [List.length_drop]; omega)]
      exact ih (fun b hb => hy b (by omega)) h
    · rw [List.drop_append, List.drop_of_length_le (by omega), hl, Nat.sub_self]
      simp [List.take_of_length_le, hy b (by omega)]

/-- The parameters of event `b` at fitted values `y`. -/
noncomputable def eventRow (T : Transformer) (name : String) (fit : List Bool) (inTrafo : Bool)
    (seed : Arr) (b : ℕ) (y : List ℝ) : List ℝ :=
  match reshape y (fit.count true) with
  | .error _ => []
  | .ok p =>
    match hypothesis T name fit inTrafo p (eventOf fit.length seed b) with
    | .error _ => []
    | .ok a => rowOf fit.length a 0

theorem objective_event {T : Transformer} {name : String} {t : TensorInfo} {f : Trafo.Fit}
    (h : Knows T name t f) (fit : List Bool) (hk : 0 < fit.count true)
    (ht : t.shape = [fit.length]) (inTrafo : Bool) (seed : Arr) (b : ℕ)
    (loss : Arr → Except Err ℝ) (c : ℝ) (term : List ℝ → ℝ)
    (hadd : Additive 1 fit.length loss c (fun _ => term)) (y : List ℝ)
    (hy : y.length = fit.count true) :
    objective T name fit inTrafo loss (eventOf fit.length seed b) y =
      .ok (c + term (eventRow T name fit inTrafo seed b y)) := by
  obtain ⟨p, p1, p2, -⟩ := reshape_ok y 1 (fit.count true) hk (by rw [hy, one_mul])
  obtain ⟨a, -, a1, a2, -⟩ := hypothesis_local h fit ht inTrafo 1 1 p
    (eventOf fit.length seed b) p (eventOf fit.length seed b) p2 rfl p2 rfl
  unfold objective eventRow
  rw [p1]
  simp only
  rw [a1]
  simp only
  rw [hadd a a2]
  simp

theorem objective_batch {T : Transformer} {name : String} {t : TensorInfo} {f : Trafo.Fit}
    (h : Knows T name t f) (fit : List Bool) (hk : 0 < fit.count true)
    (ht : t.shape = [fit.length]) (inTrafo : Bool) (B : ℕ) (seed : Arr)
    (hs : seed.shape = [B, fit.length]) (loss : Arr → Except Err ℝ) (c : ℝ)
    (term : ℕ → List ℝ → ℝ) (hadd : Additive B fit.length loss c term) (x : List ℝ)
    (hx : x.length = B * fit.count true) :
    objective T name fit inTrafo loss seed x = .ok (c + ((List.range B).map fun b =>
      term b (eventRow T name fit inTrafo seed b (part (fit.count true) b x))).sum) := by
  obtain ⟨p, p1, p2, p3⟩ := reshape_ok x B (fit.count true) hk hx
  obtain ⟨a, -, a1, a2, -⟩ := hypothesis_local h fit ht inTrafo B B p seed p seed p2 hs p2 hs
  unfold objective
  rw [p1]
  simp only
  rw [a1]
  simp only
  rw [hadd a a2]
  have : ∀ b ∈ List.range B, term b (rowOf fit.length a b) =
      term b (eventRow T name fit inTrafo seed b (part (fit.count true) b x)) := by
    intro b hb
    have hb' := List.mem_range.1 hb
    obtain ⟨q, q1, q2, q3⟩ := reshape_ok (part (fit.count true) b x) 1 (fit.count true) hk
      (by rw [part_length hx hb', one_mul])
    obtain ⟨a', d, g1, g2, g3, g4, g5⟩ := hypothesis_local h fit ht inTrafo B 1 p seed q
      (eventOf fit.length seed b) p2 hs q2 rfl
    rw [a1] at g1
    cases g1
    unfold eventRow
    rw [q1]
    simp only
    rw [g3]
    simp only
    congr 1
    refine List.map_congr_left fun i hi => ?_
    refine g5 b hb' 0 (by omega) (fun j hj => ?_) (fun i _ => rfl) i (List.mem_range.1 hi)
    rw [p3, q3, zero_mul, zero_add, part_getD hj]
  rw [List.map_congr_left this]

/-- C85. Fitting several events at once is fitting each of them: for every list of flags, with and
without the transformation, a vector is a minimum of the loss of a batch exactly if its parts are
minima of the losses of the events alone, for every loss that is a sum of terms of the events. -/
theorem C85_separate (T : Transformer) (name : String) (t : TensorInfo) (f : Trafo.Fit)
    (h : Knows T name t f) (fit : List Bool) (hk : 0 < fit.count true)
    (ht : t.shape = [fit.length]) (inTrafo : Bool) (B : ℕ) (seed : Arr)
    (hs : seed.shape = [B, fit.length]) (loss : Arr → Except Err ℝ) (c : ℝ)
    (term : ℕ → List ℝ → ℝ) (hadd : Additive B fit.length loss c term)
    (alone : ℕ → Arr → Except Err ℝ) (c' : ℕ → ℝ)
    (hal : ∀ b < B, Additive 1 fit.length (alone b) (c' b) (fun _ => term b)) (x : List ℝ)
    (hx : x.length = B * fit.count true) :
    Minimises (objective T name fit inTrafo loss seed) (B * fit.count true) x ↔
      ∀ b < B, Minimises
        (objective T name fit inTrafo (alone b) (eventOf fit.length seed b)) (fit.count true)
        (part (fit.count true) b x) := by
  have hbatch := objective_batch h fit hk ht inTrafo B seed hs loss c term hadd
  have hevent := fun b (hb : b < B) => objective_event h fit hk ht inTrafo seed b (alone b)
    (c' b) (term b) (hal b hb)
  have hmin := sum_min_iff (α := { y : List ℝ // y.length = fit.count true }) B
    (fun b y => term b (eventRow T name fit inTrafo seed b y.1))
    (fun b => ⟨if b < B then part (fit.count true) b x else List.replicate (fit.count true) 0, by
      split
      · exact part_length hx ‹_›
      · simp⟩)
  have hsum : ((List.range B).map fun b => term b (eventRow T name fit inTrafo seed b
      (if b < B then part (fit.count true) b x else List.replicate (fit.count true) 0))) =
      (List.range B).map fun b => term b (eventRow T name fit inTrafo seed b
        (part (fit.count true) b x)) := by
    refine List.map_congr_left fun b hb => ?_
    rw [if_pos (List.mem_range.1 hb)]
  rw [hsum] at hmin
  constructor
  · rintro ⟨v, hv, hle⟩ b hb
    rw [hbatch x hx] at hv
    cases hv
    refine ⟨_, hevent b hb _ (part_length hx hb), fun y hy => ⟨_, hevent b hb y hy, ?_⟩⟩
    have := hmin.1 (fun z => ?_) b hb ⟨y, hy⟩
    · simp only [hb, if_true] at this
      linarith
    · have hz : ∀ b < B, ((z b).1).length = fit.count true := fun b _ => (z b).2
      obtain ⟨w, hw, hvw⟩ := hle (joinParts B fun b => (z b).1) (joinParts_length hz)
      rw [hbatch _ (joinParts_length hz)] at hw
      cases hw
      have e : ((List.range B).map fun b => term b (eventRow T name fit inTrafo seed b
          (part (fit.count true) b (joinParts B fun b => (z b).1)))) =
          (List.range B).map fun b => term b (eventRow T name fit inTrafo seed b (z b).1) := by
        refine List.map_congr_left fun b hb => ?_
        rw [part_joinParts hz (List.mem_range.1 hb)]
      rw [e] at hvw
      linarith
  · intro hall
    refine ⟨_, hbatch x hx, fun y hy => ⟨_, hbatch y hy, ?_⟩⟩
    refine add_le_add (le_refl _) (List.sum_le_sum fun b hb => ?_)
    have hb' := List.mem_range.1 hb
    obtain ⟨v, hv, hle⟩ := hall b hb'
    rw [hevent b hb' _ (part_length hx hb')] at hv
    cases hv
    obtain ⟨w, hw, hvw⟩ := hle _ (part_length hy hb')
    rw [hevent b hb' _ (part_length hy hb')] at hw
    cases hw
    linarith

-- the hypotheses of C85 are met, by a sum of squares over two events of which two parameters each
-- are fitted
example : Knows exTrafo "x_parameters" exTensor exFit ∧ 0 < [true, false, true].count true ∧
    ∃ (loss : Arr → Except Err ℝ) (alone : ℕ → Arr → Except Err ℝ) (term : ℕ → List ℝ → ℝ),
      Additive 2 3 loss 5 term ∧ (∀ b < 2, Additive 1 3 (alone b) 5 (fun _ => term b)) ∧
      term 1 [1, 2, 3] = 15 := by
  refine ⟨exKnows, by decide,
    fun h => .ok (5 + ((List.range 2).map fun b : ℕ =>
      (b : ℝ) + ((rowOf 3 h b).map fun x => x ^ 2).sum).sum),
    fun b h => .ok (5 + ((b : ℝ) + ((rowOf 3 h 0).map fun x => x ^ 2).sum)),
    fun b r => (b : ℝ) + (r.map fun x => x ^ 2).sum, ?_, ?_, ?_⟩
  · intro h _; rfl
  · intro b _ h _; simp
  · norm_num

/-- C85. Without limits, what `reconstruct_events` returns has one row per event, with the part of
the minimum that belongs to it. -/
theorem C85_rows (T : Transformer) (name : String) (t : TensorInfo) (f : Trafo.Fit)
    (h : Knows T name t f) (fit : List Bool) (hk : 0 < fit.count true)
    (ht : t.shape = [fit.length]) (inTrafo isTf : Bool) (htf : isTf = true → fit.all id = true)
    (B : ℕ) (seed : Arr) (hs : seed.shape = [B, fit.length]) (loss : Arr → Except Err ℝ)
    (junk : ℤ) (minimize : Minimizer) (hm : Respects minimize) :
    ∃ x0 : List ℝ, x0.length = B * fit.count true ∧
      (∀ b < B, ∀ (k i : ℕ), (positions fit)[k]? = some i →
        (part (fit.count true) b x0)[k]? =
          some (if inTrafo then transformed T t f i (seed.val [b, i]) else seed.val [b, i])) ∧
      match minimize (objective T name fit inTrafo loss seed) x0 none with
      | .error e => reconstruct T name fit inTrafo isTf loss junk minimize seed none = .error e
      | .ok x => ∃ p, reconstruct T name fit inTrafo isTf loss junk minimize seed none = .ok p ∧
          p.shape = [B, fit.count true] ∧
          ∀ b < B, rowOf (fit.count true) p b = part (fit.count true) b x := by
  obtain ⟨st, s1, s2, s3⟩ : ∃ st, toSpace T name inTrafo seed = .ok st ∧
      st.shape = [B, fit.length] ∧ ∀ b < B, ∀ i < fit.length, st.val [b, i] =
        if inTrafo then transformed T t f i (seed.val [b, i]) else seed.val [b, i] := by
    cases inTrafo with
    | false => exact ⟨seed, rfl, hs, fun _ _ _ _ => rfl⟩
    | true =>
      obtain ⟨st, g1, g2, g3⟩ := transform2 h ht seed B hs
      exact ⟨st, by rw [toSpace, if_pos rfl, g1], g2, fun b hb i hi => g3 b hb i hi⟩
  obtain ⟨x0, h1, h2, h3⟩ := start_spec T name fit inTrafo t h.tensor ht B seed st s1 s2 isTf htf
  have hlen := flatten_length x0 B _ h2
  refine ⟨flatten x0, hlen, ?_, ?_⟩
  · intro b hb k i hki
    have hkc : k < fit.count true := by
      have := (List.getElem?_eq_some_iff.1 hki).1
      rwa [positions_length] at this
    have hi := (positions_spec hki).1
    rw [part, List.getElem?_take, if_pos hkc, List.getElem?_drop,
      flatten_getElem x0 B _ h2 b k hb hkc, h3 b k i hki, s3 b hb i hi]
  · have hrec : reconstruct T name fit inTrafo isTf loss junk minimize seed none =
        match minimize (objective T name fit inTrafo loss seed) (flatten x0) none with
        | .error e => .error e
        | .ok x => reshape x (fit.count true) := by
      unfold reconstruct
      rw [checkFit_ok h fit ht]
      simp only [spaceLimits, h1]
      cases minimize (objective T name fit inTrafo loss seed) (flatten x0) none <;> rfl
    cases hmm : minimize (objective T name fit inTrafo loss seed) (flatten x0) none with
    | error e => simp only; rw [hrec, hmm]
    | ok x =>
      simp only
      have hx := (hm _ _ _ _ hmm).1
      rw [hlen] at hx
      obtain ⟨p, p1, p2, p3⟩ := reshape_ok x B (fit.count true) hk hx
      refine ⟨p, by rw [hrec, hmm]; exact p1, p2, fun b hb => ?_⟩
      apply List.ext_getElem?
      intro j
      by_cases hj : j < fit.count true
      · have hl := part_length hx hb
        have := part_getD (x := x) (b := b) hj
        rw [List.getD, List.getElem?_eq_getElem (by omega), Option.getD_some] at this
        rw [List.getElem?_eq_getElem (l := part (fit.count true) b x) (by omega), this]
        simp [rowOf, hj, p3]
      · rw [List.getElem?_eq_none (by simp [rowOf]; omega), List.getElem?_eq_none (by
          rw [part_length hx hb]; omega)]

/-! ## C86: settings of the global minimiser -/

theorem put_get {V : Type} (s : Store V) (r q : ℕ) (k k' : String) (v : V) :
    Dict.get? (s.put r k v q) k' =
      if q = r ∧ k' = k then some v else Dict.get? (s q) k' := by
  unfold Store.put
  by_cases hq : q = r
  · rw [if_pos hq, Dict.get?_set]
    by_cases hk : k' = k
    · simp [hq, hk]
    · simp [hq, hk, Ne.symm hk]
  · rw [if_neg hq, if_neg (fun h => hq h.1)]

/-- What one call does to a dictionary. -/
theorem globalStore_get {V : Type} (s : Store V) (c : GlobalCall V) (r : ℕ) (k : String) :
    Dict.get? (globalStore s c r) k =
      if Uses r c then
        (if k = "jac" then some c.jac
         else if k = "hess" then
          (match c.hess with
           | some h => some h
           | none => Dict.get? (s r) k)
         else Dict.get? (s r) k)
      else Dict.get? (s r) k := by
  unfold globalStore
  by_cases ha : c.accepted = true
  · rw [if_pos ha]
    have hU : Uses r c ↔ (r = c.kwargs ∨ r = c.options) := by
      unfold Uses
      simp [ha, eq_comm]
    cases hh : c.hess with
    | none =>
      simp only [put_get, hU]
      by_cases hr : r = c.kwargs <;> by_cases ho : r = c.options <;>
        by_cases hj : k = "jac" <;> simp [hr, ho, hj]
    | some h =>
      simp only [put_get, hU]
      by_cases hj : k = "jac"
      · subst hj
        by_cases hr : r = c.kwargs <;> by_cases ho : r = c.options <;> simp [hr, ho]
      · by_cases hk : k = "hess"
        · subst hk
          by_cases hr : r = c.kwargs <;> by_cases ho : r = c.options <;> simp [hr, ho]
        · by_cases hr : r = c.kwargs <;> by_cases ho : r = c.options <;> simp [hr, ho, hj, hk]
  · rw [if_neg ha, if_neg (fun h => ha h.1)]

theorem lastGiven_append {V : Type} (xs ys : List (Option V)) :
    lastGiven (xs ++ ys) = (lastGiven ys).or (lastGiven xs) := by
  induction xs with
  | nil => simp [lastGiven]
  | cons x xs ih =>
    simp only [List.cons_append, lastGiven, ih]
    cases lastGiven ys <;> simp

/-- C86. The dictionaries after any history of calls: a dictionary has the `jac` of the last
accepted call that used it, the hessian of the last such call that gave one, and is unchanged
otherwise. -/
theorem C86_history {V : Type} (s : Store V) (calls : List (GlobalCall V)) (r : ℕ) :
    Dict.get? (globalRun s calls r) "jac" =
      (lastGiven ((calls.filter fun c => Uses r c).map fun c => some c.jac)).or
        (Dict.get? (s r) "jac") ∧
    Dict.get? (globalRun s calls r) "hess" =
      (lastGiven ((calls.filter fun c => Uses r c).map fun c => c.hess)).or
        (Dict.get? (s r) "hess") ∧
    ∀ k, k ≠ "jac" → k ≠ "hess" → Dict.get? (globalRun s calls r) k = Dict.get? (s r) k := by
  induction calls using List.reverseRecOn with
  | nil => simp [globalRun, lastGiven]
  | append_singleton cs c ih =>
    have e : globalRun s (cs ++ [c]) = globalStore (globalRun s cs) c := by
      simp [globalRun]
    rw [e]
    obtain ⟨h1, h2, h3⟩ := ih
    refine ⟨?_, ?_, ?_⟩
    · rw [globalStore_get, h1, List.filter_append, List.map_append, lastGiven_append]
      by_cases hu : Uses r c
      · simp [hu, lastGiven]
      · simp [hu, lastGiven]
    · rw [globalStore_get, h2, List.filter_append, List.map_append, lastGiven_append]
      by_cases hu : Uses r c
      · cases hh : c.hess <;> simp [hu, lastGiven, hh]
      · simp [hu, lastGiven]
    · intro k hj hk
      rw [globalStore_get, h3 k hj hk]
      by_cases hu : Uses r c <;> simp [hu, hj, hk]

/-- C86. The settings of an accepted call do not depend on the calls before it, if it gives a
hessian, or if none of those with its dictionaries did. What is missing: otherwise the hessian of
an earlier call is used, see `C86_violated`. -/
theorem C86_independent_partial {V : Type} (s : Store V) (calls : List (GlobalCall V))
    (c : GlobalCall V) (ha : c.accepted = true)
    (hh : c.hess ≠ none ∨ ∀ d ∈ calls, Uses c.kwargs d ∨ Uses c.options d → d.hess = none) :
    ∃ kw opt kw' opt', globalSettings (globalRun s calls) c = some (kw, opt) ∧
      globalSettings s c = some (kw', opt') ∧
      (∀ k, Dict.get? kw k = Dict.get? kw' k) ∧ ∀ k, Dict.get? opt k = Dict.get? opt' k := by
  have main : ∀ r, Uses r c → (∀ d ∈ calls, Uses r d → c.hess ≠ none ∨ d.hess = none) →
      ∀ k, Dict.get? (globalStore (globalRun s calls) c r) k = Dict.get? (globalStore s c r) k := by
    intro r hr hd k
    obtain ⟨h1, h2, h3⟩ := C86_history s calls r
    rw [globalStore_get, globalStore_get, if_pos hr, if_pos hr]
    by_cases hj : k = "jac"
    · rw [if_pos hj, if_pos hj]
    · rw [if_neg hj, if_neg hj]
      by_cases hk : k = "hess"
      · rw [if_pos hk, if_pos hk]
        cases hc : c.hess with
        | some v => rfl
        | none =>
          simp only
          rw [hk, h2]
          have : ∀ l : List (Option V), (∀ o ∈ l, o = none) → lastGiven l = none := by
            intro l hl
            induction l with
            | nil => rfl
            | cons o l ih =>
              simp only [lastGiven]
              rw [ih (fun o ho => hl o (by simp [ho]))]
              exact hl o (by simp)
          rw [this]
          · simp
          · intro o ho
            obtain ⟨d, hd1, rfl⟩ := List.mem_map.1 ho
            rw [List.mem_filter] at hd1
            rcases hd d hd1.1 (by simpa using hd1.2) with h | h
            · exact absurd hc h
            · exact h
      · rw [if_neg hk, if_neg hk, h3 k hj hk]
  refine ⟨_, _, _, _, by rw [globalSettings, if_pos ha], by rw [globalSettings, if_pos ha],
    main c.kwargs ⟨ha, Or.inl rfl⟩ ?_, main c.options ⟨ha, Or.inr rfl⟩ ?_⟩
  · intro d hd hu
    rcases hh with h | h
    · exact Or.inl h
    · exact Or.inr (h d hd (Or.inl hu))
  · intro d hd hu
    rcases hh with h | h
    · exact Or.inl h
    · exact Or.inr (h d hd (Or.inr hu))

-- the hypotheses are met by a call with a hessian after one with another hessian
example : ∃ (c d : GlobalCall ℕ), c.accepted = true ∧ c.hess ≠ none ∧ d.hess ≠ c.hess ∧
    Uses c.kwargs d :=
  ⟨⟨0, 1, 5, some 7, true⟩, ⟨0, 1, 5, some 8, true⟩, rfl, by simp, by simp, rfl, Or.inl rfl⟩

/-- C86 does not hold: a call without a hessian, with the default settings, uses the hessian of an
earlier call. -/
theorem C86_violated {V : Type} (s : Store V) (hs : Dict.get? (s 0) "hess" = none) (jac h : V) :
    ∃ kw opt kw' opt',
      globalSettings (globalRun s [⟨0, 1, jac, some h, true⟩]) ⟨0, 1, jac, none, true⟩ =
        some (kw, opt) ∧ Dict.get? kw "hess" = some h ∧
      globalSettings s ⟨0, 1, jac, none, true⟩ = some (kw', opt') ∧
      Dict.get? kw' "hess" = none := by
  refine ⟨_, _, _, _, rfl, ?_, rfl, ?_⟩
  · rw [globalStore_get]
    simp only [Uses, true_or, and_self, if_true]
    rw [(C86_history s _ 0).2.1]
    simp [Uses, lastGiven]
  · rw [globalStore_get]
    simp [Uses, hs]

/-- C86. Dictionaries of users are modified: after an accepted call they have `jac`. -/
theorem C86_argument_violated {V : Type} (s : Store V) (c : GlobalCall V) (ha : c.accepted = true)
    (hk : Dict.get? (s c.kwargs) "jac" = none) :
    Dict.get? (globalStore s c c.kwargs) "jac" = some c.jac ∧
      globalStore s c c.kwargs ≠ s c.kwargs := by
  have : Dict.get? (globalStore s c c.kwargs) "jac" = some c.jac := by
    rw [globalStore_get, if_pos ⟨ha, Or.inl rfl⟩, if_pos rfl]
  refine ⟨this, fun hc => ?_⟩
  rw [hc, hk] at this
  cases this

/-! ## C87: the other minimisers -/

theorem pairs_ok (rows : List (List ℝ)) (ps : List (ℝ × ℝ)) (h : pairs rows = .ok ps) :
    rows = ps.map fun p => [p.1, p.2] := by
  induction rows generalizing ps with
  | nil =>
    cases h
    rfl
  | cons r rs ih =>
    match r, h with
    | [lo, hi], h =>
      unfold pairs at h
      simp only at h
      cases hp : pairs rs with
      | error e => rw [hp] at h; cases h
      | ok qs =>
        rw [hp] at h
        cases h
        rw [ih qs hp]
        rfl
    | [], h => simp [pairs] at h
    | [_], h => simp [pairs] at h
    | _ :: _ :: _ :: _, h => simp [pairs] at h

theorem pairs_map (n : ℕ) (f g : ℕ → ℝ) :
    pairs ((List.range n).map fun i => [f i, g i]) =
      .ok ((List.range n).map fun i => (f i, g i)) := by
  have : ∀ l : List ℕ, pairs (l.map fun i => [f i, g i]) = .ok (l.map fun i => (f i, g i)) := by
    intro l
    induction l with
    | nil => rfl
    | cons a l ih => simp [pairs, ih]
  exact this _

/-- C87. The global minimiser, for a single event all parameters of which are fitted: it succeeds if
shgo does, with one row, and every value is within one (standard deviation) of the transformed seed.
What is missing: see the violations below. -/
theorem C87_global_partial (T : Transformer) (name : String) (t : TensorInfo) (f : Trafo.Fit)
    (h : Knows T name t f) (fit : List Bool) (hall : fit.all id = true) (hne : fit ≠ [])
    (ht : t.shape = [fit.length]) (seed : Arr) (hs : seed.shape = [1, fit.length])
    (loss : Arr → Except Err ℝ) (shgo : Global) (hg : RespectsBounds shgo) :
    ∃ bounds : List (ℝ × ℝ), bounds.length = fit.length ∧
      (∀ i < fit.length, bounds[i]? = some (transformed T t f i (seed.val [0, i]) - 1,
        transformed T t f i (seed.val [0, i]) + 1)) ∧
      match shgo (objective T name fit true loss seed) bounds with
      | .error e => reconstructGlobal T name fit true loss shgo seed = .error e
      | .ok _ => ∃ p, reconstructGlobal T name fit true loss shgo seed = .ok p ∧
          p.shape = [1, fit.length] ∧
          ∀ i < fit.length, |p.val [0, i] - transformed T t f i (seed.val [0, i])| ≤ 1 := by
  obtain ⟨st, s1, s2, s3⟩ := transform2 h ht seed 1 hs
  have hval : ∀ i < fit.length, st.val [0, i] = transformed T t f i (seed.val [0, i]) :=
    fun i hi => s3 0 (by omega) i hi
  have hrec : reconstructGlobal T name fit true loss shgo seed =
      match shgo (objective T name fit true loss seed)
        ((List.range fit.length).map fun i => (st.val [0, i] - 1, st.val [0, i] + 1)) with
      | .error e => .error e
      | .ok x => reshape x (fit.count true) := by
    have hb : globalBounds st = .ok ((List.range fit.length).map fun i =>
        [st.val [0, i] - 1, st.val [0, i] + 1]) := by
      unfold globalBounds
      rw [s2]
      simp
    unfold reconstructGlobal
    rw [checkFit_ok h fit ht, toSpace, if_pos rfl, s1]
    simp only [Bool.not_true, Bool.false_eq_true, if_false, hb]
    rw [pairs_map fit.length (fun i => st.val [0, i] - 1) (fun i => st.val [0, i] + 1)]
    simp only
    cases shgo (objective T name fit true loss seed)
        ((List.range fit.length).map fun i => (st.val [0, i] - 1, st.val [0, i] + 1)) <;> rfl
  refine ⟨(List.range fit.length).map fun i => (st.val [0, i] - 1, st.val [0, i] + 1), by simp,
    ?_, ?_⟩
  · intro i hi
    simp [hi, hval i hi]
  · cases hx : shgo (objective T name fit true loss seed)
        ((List.range fit.length).map fun i => (st.val [0, i] - 1, st.val [0, i] + 1)) with
    | error e => simp only; rw [hrec, hx]
    | ok x =>
      simp only
      obtain ⟨g1, -, g3⟩ := hg _ _ _ hx
      rw [List.length_map, List.length_range] at g1
      have hcnt := count_of_all hall
      obtain ⟨p, p1, p2, p3⟩ := reshape_ok x 1 (fit.count true)
        (by rw [hcnt]; exact List.length_pos_iff.2 hne) (by rw [g1, hcnt, one_mul])
      refine ⟨p, by rw [hrec, hx]; exact p1, by rw [p2, hcnt], fun i hi => ?_⟩
      have hxi : x[i]? = some (p.val [0, i]) := by
        rw [p3 0 i]
        simp [List.getD, List.getElem?_eq_getElem (show i < x.length by omega)]
      obtain ⟨q1, q2⟩ := g3 i (st.val [0, i] - 1) (st.val [0, i] + 1) _ (by simp [hi]) hxi
      rw [← hval i hi, abs_le]
      constructor <;> linarith

open Classical in
/-- A global minimiser of the examples: it returns the lower bounds if the function can be
evaluated there. -/
noncomputable def exGlobal : Global := fun g bounds =>
  if (∃ v, g (bounds.map (·.1)) = .ok v) ∧ ∀ b ∈ bounds, b.1 ≤ b.2 then .ok (bounds.map (·.1))
  else .error .valueError

theorem exGlobal_respects : RespectsBounds exGlobal := by
  intro g bounds x h
  unfold exGlobal at h
  split at h
  · rename_i hc
    cases h
    refine ⟨by simp, hc.1, fun i lo hi y h1 h2 => ?_⟩
    simp only [List.getElem?_map, h1, Option.map_some, Option.some.injEq] at h2
    subst h2
    exact ⟨le_refl _, hc.2 _ (List.mem_of_getElem? h1)⟩
  · cases h

-- the hypotheses of C87 are met for three parameters, and the reconstruction succeeds
example : RespectsBounds exGlobal ∧ ∃ p, reconstructGlobal exTrafo "x_parameters"
    [true, true, true] true (fun _ => .ok 0) exGlobal ⟨[1, 3], fun _ => 1⟩ = .ok p := by
  refine ⟨exGlobal_respects, ?_⟩
  obtain ⟨bounds, h1, h2, h3⟩ := C87_global_partial exTrafo "x_parameters" exTensor exFit exKnows
    [true, true, true] rfl (by simp) rfl ⟨[1, 3], fun _ => 1⟩ rfl (fun _ => .ok 0) exGlobal
    exGlobal_respects
  have hok : exGlobal (objective exTrafo "x_parameters" [true, true, true] true (fun _ => .ok 0)
      ⟨[1, 3], fun _ => 1⟩) bounds = .ok (bounds.map (·.1)) := by
    unfold exGlobal
    rw [if_pos]
    refine ⟨⟨0, ?_⟩, ?_⟩
    · obtain ⟨p, p1, p2, p3⟩ := reshape_ok (bounds.map (·.1)) 1 3 (by omega) (by simpa using h1)
      obtain ⟨q, q1, -⟩ := inverse2 exKnows rfl true p 1 p2
      unfold objective
      rw [show List.count true [true, true, true] = 3 from rfl, p1]
      simp only
      have : hypothesis exTrafo "x_parameters" [true, true, true] true p ⟨[1, 3], fun _ => 1⟩ =
          .ok q := by
        unfold hypothesis allParams
        rw [if_pos (by decide)]
        simpa [fromSpace] using q1
      rw [this]
    · intro b hb
      obtain ⟨i, hi, rfl⟩ := List.getElem_of_mem hb
      have := h2 i (by rw [← h1]; exact hi)
      rw [List.getElem?_eq_getElem hi, Option.some.injEq] at this
      rw [this]
      simp only
      linarith
  rw [hok] at h3
  obtain ⟨p, hp, -⟩ := h3
  exact ⟨p, hp⟩

/-- C87. Outside of the transformed space the global minimiser refuses to work. -/
theorem C87_global_space (T : Transformer) (name : String) (t : TensorInfo) (f : Trafo.Fit)
    (h : Knows T name t f) (fit : List Bool) (ht : t.shape = [fit.length]) (seed : Arr)
    (loss : Arr → Except Err ℝ) (shgo : Global) :
    reconstructGlobal T name fit false loss shgo seed = .error .assertionError := by
  unfold reconstructGlobal
  rw [checkFit_ok h fit ht]
  simp [toSpace]

/-- C87 does not hold for the global minimiser and any other number of events than one. -/
theorem C87_global_batch_violated (T : Transformer) (name : String) (t : TensorInfo)
    (f : Trafo.Fit) (h : Knows T name t f) (fit : List Bool) (hne : fit ≠ [])
    (ht : t.shape = [fit.length]) (B : ℕ) (hB : B ≠ 1) (seed : Arr)
    (hs : seed.shape = [B, fit.length]) (loss : Arr → Except Err ℝ) (shgo : Global) :
    reconstructGlobal T name fit true loss shgo seed = .error .valueError := by
  obtain ⟨st, s1, s2, -⟩ := transform2 h ht seed B hs
  unfold reconstructGlobal
  rw [checkFit_ok h fit ht, toSpace, if_pos rfl, s1]
  simp only [Bool.not_true, Bool.false_eq_true, if_false]
  unfold globalBounds
  rw [s2]
  simp only
  obtain ⟨m, hm⟩ : ∃ m, fit.length = m + 1 :=
    ⟨fit.length - 1, by have := List.length_pos_iff.2 hne; omega⟩
  rw [hm, List.range_succ_eq_map, List.map_cons]
  have hbad : ∀ (r : List ℝ) rs, r.length ≠ 2 → pairs (r :: rs) = .error .valueError := by
    intro r rs hr
    match r, hr with
    | [], _ => rfl
    | [_], _ => rfl
    | [_, _], h => exact absurd rfl h
    | _ :: _ :: _ :: _, _ => rfl
  rw [hbad]
  simp
  omega

/-- Merging columns of different lengths is refused. -/
theorem mergeArr_mismatch (fit : List Bool) (p s : Arr) (m B n k : ℕ) (hp : p.shape = [m, k])
    (hs : s.shape = [B, n]) (hn : fit.length = n) (hk : k = fit.count true) (hm : m ≠ B)
    (h1 : true ∈ fit) (h2 : false ∈ fit) : ∃ e, mergeArr fit p s = .error e := by
  have u1 : unstack p = .ok ((List.range k).map fun j => (m, fun b => p.val [b, j])) := by
    rw [unstack, hp]
  have u2 : unstack s = .ok ((List.range n).map fun j => (B, fun b => s.val [b, j])) := by
    rw [unstack, hs]
  obtain ⟨cs, g1, g2, g3⟩ := merge_spec
    ((List.range k).map fun j => (m, fun b => p.val [b, j]))
    ((List.range n).map fun j => (B, fun b => s.val [b, j])) fit 0 0
    (by simp [hk]) (by simp [hn])
  refine ⟨.valueError, ?_⟩
  unfold mergeArr
  rw [u1, u2, ok_bind, ok_bind, g1, ok_bind]
  obtain ⟨i, hi, hit⟩ := List.getElem_of_mem h1
  obtain ⟨j, hj, hjf⟩ := List.getElem_of_mem h2
  have hci : ∃ c ∈ cs, c.1 = m := by
    have := g3 i hi
    rw [List.getElem?_eq_getElem hi, hit, if_pos rfl, zero_add] at this
    have hlt : (fit.take i).count true < k := by
      have hq : fit[i]? = some true := by rw [List.getElem?_eq_getElem hi, hit]
      have := (List.getElem?_eq_some_iff.1 (positions_of hq)).1
      rw [positions_length] at this
      omega
    rw [List.getElem?_map, List.getElem?_range hlt] at this
    exact ⟨_, List.mem_of_getElem? this, rfl⟩
  have hcj : ∃ c ∈ cs, c.1 = B := by
    have := g3 j hj
    rw [List.getElem?_eq_getElem hj, hjf, if_neg (by simp), zero_add] at this
    rw [List.getElem?_map, List.getElem?_range (by omega)] at this
    exact ⟨_, List.mem_of_getElem? this, rfl⟩
  cases cs with
  | nil => obtain ⟨c, hc, -⟩ := hci; simp at hc
  | cons c cs =>
    rw [stack, if_neg]
    intro hall
    rw [List.all_eq_true] at hall
    have hsame : ∀ d ∈ c :: cs, d.1 = c.1 := by
      intro d hd
      rcases List.mem_cons.1 hd with rfl | hd
      · rfl
      · simpa using hall d hd
    obtain ⟨a, ha1, ha2⟩ := hci
    obtain ⟨b, hb1, hb2⟩ := hcj
    exact hm (by rw [← ha2, ← hb2, hsame a ha1, hsame b hb1])

/-- C87 does not hold for the global minimiser if some parameter is not fitted: the bounds are
those of all parameters, so that the loss cannot be evaluated. -/
theorem C87_global_fitted_violated (T : Transformer) (name : String) (t : TensorInfo)
    (f : Trafo.Fit) (h : Knows T name t f) (fit : List Bool) (hall : ¬ fit.all id = true)
    (ht : t.shape = [fit.length]) (seed : Arr) (hs : seed.shape = [1, fit.length])
    (loss : Arr → Except Err ℝ) (shgo : Global) (hg : RespectsBounds shgo) :
    ∃ e, reconstructGlobal T name fit true loss shgo seed = .error e := by
  cases hr : reconstructGlobal T name fit true loss shgo seed with
  | error e => exact ⟨e, rfl⟩
  | ok p =>
    exfalso
    obtain ⟨st, s1, s2, -⟩ := transform2 h ht seed 1 hs
    unfold reconstructGlobal at hr
    rw [checkFit_ok h fit ht, toSpace, if_pos rfl, s1] at hr
    simp only [Bool.not_true, Bool.false_eq_true, if_false] at hr
    have hb : globalBounds st = .ok ((List.range fit.length).map fun i =>
        [st.val [0, i] - 1, st.val [0, i] + 1]) := by
      unfold globalBounds
      rw [s2]
      simp
    rw [hb] at hr
    simp only at hr
    rw [pairs_map fit.length (fun i => st.val [0, i] - 1) (fun i => st.val [0, i] + 1)] at hr
    simp only at hr
    cases hx : shgo (objective T name fit true loss seed)
        ((List.range fit.length).map fun i => (st.val [0, i] - 1, st.val [0, i] + 1)) with
    | error e => rw [hx] at hr; cases hr
    | ok x =>
      obtain ⟨g1, ⟨v, hv⟩, -⟩ := hg _ _ _ hx
      rw [List.length_map, List.length_range] at g1
      unfold objective at hv
      have hf : false ∈ fit := by
        by_contra hcon
        refine hall ?_
        rw [List.all_eq_true]
        intro b hb
        cases b with
        | true => rfl
        | false => exact absurd hb hcon
      have hlt : fit.count true < fit.length := by
        have h1 := List.count_le_length (a := true) (l := fit)
        rcases Nat.lt_or_ge (fit.count true) fit.length with h2 | h2
        · exact h2
        · have := List.count_eq_length.1 (le_antisymm h1 h2) false hf
          cases this
      by_cases hbad : fit.count true = 0 ∨ x.length % fit.count true ≠ 0
      · have : reshape x (fit.count true) = .error .valueError := by
          unfold reshape
          rw [if_pos hbad]
        rw [this] at hv
        cases hv
      · push Not at hbad
        obtain ⟨hk, hmod⟩ := hbad
        obtain ⟨m, hm⟩ := Nat.dvd_of_mod_eq_zero hmod
        obtain ⟨q, q1, q2, -⟩ := reshape_ok x m (fit.count true) (by omega)
          (by rw [hm, mul_comm])
        rw [q1] at hv
        simp only at hv
        have hm1 : m ≠ 1 := by
          rintro rfl
          rw [mul_one] at hm
          omega
        obtain ⟨e, he⟩ := mergeArr_mismatch fit q st m 1 fit.length _ q2 s2 rfl rfl hm1
          (List.count_pos_iff.1 (by omega)) hf
        have : hypothesis T name fit true q seed = .error e := by
          unfold hypothesis allParams
          rw [if_neg hall, toSpace, if_pos rfl, s1]
          simp only
          rw [he]
        rw [this] at hv
        cases hv

/-- C87. The interface to spherical_opt, for one event with seven fitted parameters: the optimiser
gets twenty points, the first of which is the seed, and what it returns becomes one row. What is
missing: see the violations below. -/
theorem C87_spherical_partial (T : Transformer) (name : String) (t : TensorInfo) (f : Trafo.Fit)
    (h : Knows T name t f) (fit : List Bool) (h7 : fit.count true = 7)
    (ht : t.shape = [fit.length]) (inTrafo isTf : Bool) (htf : isTf = true → fit.all id = true)
    (seed : Arr) (hs : seed.shape = [1, fit.length]) (loss : Arr → Except Err ℝ)
    (normal : ℕ → ℕ → ℝ → ℝ → ℝ) (opt : Spherical)
    (hopt : ∀ g a x, opt g a = .ok x → x.length = 7) :
    ∃ points : Arr, points.shape = [20, 7] ∧
      (∀ k i : ℕ, (positions fit)[k]? = some i → points.val [0, k] =
        if inTrafo then transformed T t f i (seed.val [0, i]) else seed.val [0, i]) ∧
      (∀ r < 20, r ≠ 0 → ∀ k < 7, ∃ s, points.val [r, k] = normal r k (points.val [0, k]) s) ∧
      match opt (objective T name fit inTrafo loss seed) points with
      | .error e => reconstructSpherical T name fit inTrafo isTf loss normal opt seed = .error e
      | .ok x => ∃ p, reconstructSpherical T name fit inTrafo isTf loss normal opt seed = .ok p ∧
          p.shape = [1, 7] ∧ rowOf 7 p 0 = x := by
  obtain ⟨st, s1, s2, s3⟩ : ∃ st, toSpace T name inTrafo seed = .ok st ∧
      st.shape = [1, fit.length] ∧ ∀ i < fit.length, st.val [0, i] =
        if inTrafo then transformed T t f i (seed.val [0, i]) else seed.val [0, i] := by
    cases inTrafo with
    | false => exact ⟨seed, rfl, hs, fun _ _ => rfl⟩
    | true =>
      obtain ⟨st, g1, g2, g3⟩ := transform2 h ht seed 1 hs
      exact ⟨st, by rw [toSpace, if_pos rfl, g1], g2, fun i hi => g3 0 (by omega) i hi⟩
  obtain ⟨x0, h1, h2, h3⟩ := start_spec T name fit inTrafo t h.tensor ht 1 seed st s1 s2 isTf htf
  rw [h7] at h2
  obtain ⟨points, q1, q2, q3, q4⟩ : ∃ points, initialPoints normal 1 x0 = .ok points ∧
      points.shape = [20, 7] ∧ (∀ k, points.val [0, k] = x0.val [0, k]) ∧
      ∀ r k, r ≠ 0 → points.val [r, k] = normal r k (x0.val [0, k]) (scales.getD k 0) := by
    refine ⟨⟨[20, 7], pointAt normal 1 x0⟩, ?_, rfl, fun k => rfl, ?_⟩
    · unfold initialPoints
      rw [h2]
      simp only
      rw [if_neg (by simp [scales])]
    · intro r k hr
      simp only [pointAt]
      rw [if_neg hr, Nat.mod_one]
  refine ⟨points, q2, ?_, ?_, ?_⟩
  · intro k i hki
    rw [q3, h3 0 k i hki, s3 i (positions_spec hki).1]
  · intro r _ hr k _
    exact ⟨_, by rw [q4 r k hr, q3]⟩
  · have hrec : reconstructSpherical T name fit inTrafo isTf loss normal opt seed =
        match opt (objective T name fit inTrafo loss seed) points with
        | .error e => .error e
        | .ok x => reshape x (fit.count true) := by
      unfold reconstructSpherical
      rw [h1]
      simp only [q1]
      cases opt (objective T name fit inTrafo loss seed) points <;> rfl
    cases hx : opt (objective T name fit inTrafo loss seed) points with
    | error e => simp only; rw [hrec, hx]
    | ok x =>
      simp only
      have hl := hopt _ _ _ hx
      obtain ⟨p, p1, p2, p3⟩ := reshape_ok x 1 7 (by omega) (by omega)
      refine ⟨p, by rw [hrec, hx, h7]; exact p1, p2, ?_⟩
      apply List.ext_getElem?
      intro j
      by_cases hj : j < 7
      · rw [List.getElem?_eq_getElem (l := x) (by omega)]
        simp [rowOf, hj, p3, List.getD, List.getElem?_eq_getElem (show j < x.length by omega)]
      · rw [List.getElem?_eq_none (by simp [rowOf]; omega), List.getElem?_eq_none (by omega)]

/-- A transformer of seven parameters. -/
noncomputable def exSeven : Transformer :=
  { tensors := [{ name := "x", shape := [7], present := true, trafo := true, reduceAxes := []
                  logMask := none, logAxis := -1 }], norm := 1
    fits := [("x", { mean := ⟨[7], fun _ => 0⟩, std := ⟨[7], fun _ => 2⟩ })] }

-- the hypotheses of C87 are met for seven parameters
example : ∃ t f, Knows exSeven "x" t f ∧ t.shape = [(List.replicate 7 true).length] ∧
    (List.replicate 7 true).count true = 7 ∧
    ∃ opt : Spherical, ∀ g a x, opt g a = .ok x → x.length = 7 :=
  ⟨{ name := "x", shape := [7], present := true, trafo := true, reduceAxes := []
     logMask := none, logAxis := -1 }, { mean := ⟨[7], fun _ => 0⟩, std := ⟨[7], fun _ => 2⟩ },
    { tensor := rfl, fit := rfl, wellFormed := ⟨(by intro m hm; cases hm), (by decide)⟩, axis := rfl,
      norm := by simp [exSeven], std := by intro i b _; simp [Arr.at] }, rfl, rfl,
    fun _ a => .ok (rowOf 7 a 0), fun g a x h => by cases h; simp [rowOf]⟩

/-- C87 does not hold for spherical_opt and any other number of fitted parameters than seven. -/
theorem C87_spherical_fitted_violated (T : Transformer) (name : String) (t : TensorInfo)
    (f : Trafo.Fit) (h : Knows T name t f) (fit : List Bool) (h7 : fit.count true ≠ 7)
    (ht : t.shape = [fit.length]) (inTrafo : Bool) (B : ℕ) (seed : Arr)
    (hs : seed.shape = [B, fit.length]) (loss : Arr → Except Err ℝ)
    (normal : ℕ → ℕ → ℝ → ℝ → ℝ) (opt : Spherical) :
    reconstructSpherical T name fit inTrafo false loss normal opt seed = .error .valueError := by
  obtain ⟨x0, a, h1, h2, -⟩ := C39_start_partial T name t f h fit ht B seed hs inTrafo false
    (by simp)
  unfold reconstructSpherical
  rw [h1]
  simp only
  unfold initialPoints
  rw [h2]
  simp only
  rw [if_pos (by simpa [scales] using h7)]

/-- C87 does not hold for spherical_opt and several events: it returns one row for all of them. -/
theorem C87_spherical_batch_violated (T : Transformer) (name : String) (fit : List Bool)
    (h7 : fit.count true = 7) (inTrafo isTf : Bool) (B : ℕ) (hB : 2 ≤ B) (seed : Arr)
    (hs : seed.shape = [B, fit.length]) (loss : Arr → Except Err ℝ)
    (normal : ℕ → ℕ → ℝ → ℝ → ℝ) (opt : Spherical)
    (hopt : ∀ g a x, opt g a = .ok x → x.length = 7) (p : Arr)
    (hp : reconstructSpherical T name fit inTrafo isTf loss normal opt seed = .ok p) :
    p.shape = [1, 7] ∧ seed.shape.head? ≠ p.shape.head? := by
  unfold reconstructSpherical at hp
  cases hst : start T name fit inTrafo isTf seed with
  | error e => rw [hst] at hp; cases hp
  | ok x0 =>
    rw [hst] at hp
    simp only at hp
    cases hi : initialPoints normal 1 x0 with
    | error e => rw [hi] at hp; cases hp
    | ok points =>
      rw [hi] at hp
      simp only at hp
      cases hx : opt (objective T name fit inTrafo loss seed) points with
      | error e => rw [hx] at hp; cases hp
      | ok x =>
        rw [hx] at hp
        simp only at hp
        have hl := hopt _ _ _ hx
        obtain ⟨q, q1, q2, -⟩ := reshape_ok x 1 7 (by omega) (by omega)
        rw [h7, q1] at hp
        cases hp
        refine ⟨q2, ?_⟩
        rw [hs, q2]
        simp
        omega

/-- C87. With batches of points, the losses of the points add up to the loss: to the scalar terms
and all terms of events and DOMs. -/
theorem C87_points (scalar : ℝ) (event dom : List ℝ) (hl : dom.length = event.length)
    (hne : event ≠ []) :
    (pointLoss scalar event dom).length = event.length ∧
    (pointLoss scalar event dom).sum = scalar + event.sum + dom.sum ∧
    ∀ (i : ℕ) e d, event[i]? = some e → dom[i]? = some d →
      (pointLoss scalar event dom)[i]? = some (scalar / (event.length : ℝ) + e + d) := by
  have hsum : ∀ (c : ℝ) (es ds : List ℝ), ds.length = es.length →
      (List.zipWith (fun e d => c + e + d) es ds).sum = es.length * c + es.sum + ds.sum := by
    intro c es
    induction es with
    | nil => intro ds h; cases ds <;> simp at h ⊢
    | cons e es ih =>
      intro ds h
      cases ds with
      | nil => simp at h
      | cons d ds =>
        simp only [List.zipWith_cons_cons, List.sum_cons, List.length_cons, Nat.cast_add,
          Nat.cast_one]
        rw [ih ds (by simpa using h)]
        ring
  refine ⟨by simp [pointLoss, hl], ?_, ?_⟩
  · unfold pointLoss
    rw [hsum _ _ _ hl, mul_div_cancel₀]
    exact_mod_cast (List.length_pos_iff.2 hne).ne'
  · intro i e d he hd
    simp [pointLoss, List.getElem?_zipWith, he, hd]

/-! ## C88: random seeds -/

/-- The random draws are in their ranges. -/
def Draws.InRange (d : Draws) : Prop := ∀ j lo hi, lo ≤ hi → lo ≤ d.uniform j lo hi ∧
  d.uniform j lo hi ≤ hi

/-- C88. Of a seed with thirteen parameters the random seed changes position, time, direction and
the parameters of the systematics, and keeps the energy; its values respect the limits of the fits
that start from them, if the energy is not negative. -/
theorem C88_within (d : Draws) (hd : d.InRange) (seed : Arr) (B : ℕ) (hs : seed.shape = [B, 13]) :
    ∃ r, randomSeed d seed = .ok r ∧ r.shape = [B, 13] ∧
      (∀ b, r.val [b, 5] = seed.val [b, 5]) ∧
      (∀ b, ∀ j ∈ [0, 1, 2], r.val [b, j] = d.normal b j (seed.val [b, j]) 5) ∧
      (∀ b, r.val [b, 6] = d.normal b 6 (seed.val [b, 6]) 20) ∧
      randomBounds.length = 13 ∧
      ∀ b, 0 ≤ seed.val [b, 5] → ∀ (i : ℕ) lo hi, randomBounds[i]? = some (lo, hi) →
        lo.Lower (r.val [b, i]) ∧ hi.Upper (r.val [b, i]) := by
  obtain ⟨r, h1, h2, h3⟩ : ∃ r, randomSeed d seed = .ok r ∧ r.shape = [B, 13] ∧
      ∀ b j, r.val [b, j] = redraw d b j (seed.val [b, j]) := by
    refine ⟨⟨[B, 13], redrawn d seed⟩, ?_, rfl, fun b j => rfl⟩
    unfold randomSeed
    rw [hs]
    simp only
    rw [if_neg (by simp [redraws])]
  refine ⟨r, h1, h2, fun b => by rw [h3]; rfl, ?_, fun b => by rw [h3]; rfl, rfl, ?_⟩
  · intro b j hj
    rw [h3]
    simp only [List.mem_cons, List.not_mem_nil, or_false] at hj
    rcases hj with rfl | rfl | rfl <;> rfl
  · intro b he i lo hi hb
    have hi13 : i < 13 := (List.getElem?_eq_some_iff.1 hb).1
    have hpi := Real.pi_lt_d4
    have hpi0 := Real.pi_pos
    rw [h3]
    have h3' := hd 3 0 Real.pi hpi0.le
    have h4' := hd 4 0 (2 * Real.pi) (by linarith)
    have h7' := hd 7 0.91 1.09 (by norm_num)
    have h8' := hd 8 0.01 1.99 (by norm_num)
    have h9' := hd 9 0.91 1.09 (by norm_num)
    have h10' := hd 10 (-0.99) 0.99 (by norm_num)
    have h11' := hd 11 (-0.19) 0.19 (by norm_num)
    have h12' := hd 12 0.91 1.09 (by norm_num)
    interval_cases i <;>
      (simp only [randomBounds, List.getElem?_cons_succ, List.getElem?_cons_zero,
        Option.some.injEq, Prod.mk.injEq] at hb
       obtain ⟨rfl, rfl⟩ := hb
       simp only [redraw, redraws, List.getElem?_cons_succ, List.getElem?_cons_zero,
         Bound.Lower, Bound.Upper, Int.cast_zero, and_true]) <;>
      first
        | trivial
        | exact he
        | (constructor <;> linarith)

-- draws in their ranges exist, and not all of them are at the limits
example : ∃ d : Draws, d.InRange ∧ d.uniform 3 0 2 = 1 :=
  ⟨⟨fun _ _ x _ => x, fun _ lo hi => (lo + hi) / 2⟩, fun _ lo hi h => by
    constructor <;> simp only <;> linarith, by norm_num⟩

/-- C88. Seeds with fewer than thirteen parameters are refused, and further ones are kept. -/
theorem C88_columns (d : Draws) (seed : Arr) (B n : ℕ) (hs : seed.shape = [B, n]) :
    (n < 13 → randomSeed d seed = .error .indexError) ∧
    (13 ≤ n → ∃ r, randomSeed d seed = .ok r ∧ r.shape = [B, n] ∧
      ∀ b i, 13 ≤ i → r.val [b, i] = seed.val [b, i]) := by
  constructor
  · intro hn
    unfold randomSeed
    rw [hs]
    simp only
    rw [if_pos (by simpa [redraws] using hn)]
  · intro hn
    refine ⟨⟨[B, n], redrawn d seed⟩, ?_, rfl, ?_⟩
    · unfold randomSeed
      rw [hs]
      simp only
      rw [if_neg (by simp [redraws]; omega)]
    · intro b i hi
      simp only [redrawn, redraw]
      rw [List.getElem?_eq_none (by simpa [redraws] using hi)]

end Verif.Fit
