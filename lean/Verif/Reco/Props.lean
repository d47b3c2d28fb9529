import Verif.Reco.Lemmas
import Mathlib.Data.List.Induction
import Mathlib.Algebra.BigOperators.Group.List.Basic
import Mathlib.Tactic.Positivity

/-!
# Reconstruction: C39 to C44
-/

namespace Verif.Reco
open Verif.Py Verif.Trafo

/-! ## C39: fitted and fixed parameters -/

/-- C39, without transformation. For every list of flags, seed and tensor of fitted values (one
column per fitted parameter), the loss is evaluated at the fitted values at the fitted positions,
in order, and at the values of the seed elsewhere. -/
theorem C39_hypothesis (T : Transformer) (name : String) (fit : List Bool) (B : Nat)
    (params seed : Arr) (hp : params.shape = [B, fit.count true])
    (hs : seed.shape = [B, fit.length]) :
    ∃ a, hypothesis T name fit false params seed = .ok a ∧ a.shape = [B, fit.length] ∧
      Merged fit B (fun b k => params.val [b, k]) (fun b i => seed.val [b, i])
        (fun b i => a.val [b, i]) := by
  unfold hypothesis
  by_cases hall : fit.all id = true
  · refine ⟨params, ?_, ?_, ?_⟩
    · simp only [allParams, hall, if_true]; rfl
    · have : fit.count true = fit.length := by
        rw [List.count_eq_length]
        intro b hb
        have := List.all_eq_true.1 hall b hb
        simpa using this.symm
      rw [hp, this]
    · apply merged_of rfl
      intro b j hj
      obtain ⟨h1, h2⟩ := all_count hall j hj
      rw [if_pos h1, h2]
  · obtain ⟨a, h1, h2, h3⟩ := mergeArr_spec fit params seed B fit.length _ hp hs rfl rfl
      (ne_nil_of_not_all hall)
    refine ⟨a, ?_, h2, merged_of rfl h3⟩
    simp only [allParams, hall, if_false, Bool.false_eq_true, toSpace, h1]
    rfl

/-- What a fitted value `x` of parameter `i` stands for: the inverse of the transformation. -/
def StandsFor (T : Transformer) (t : TensorInfo) (f : Fit) (b i : Nat) (x y : ℝ) : Prop :=
  (¬ IsLog t i → y = x * (T.norm + f.std.at [b, i]) + f.mean.at [b, i]) ∧
  (IsLog t i → y = Real.exp (x * (T.norm + f.std.at [b, i]) + f.mean.at [b, i]) - 1)

open Classical in
/-- C39, with transformation, for every list of flags. The fitted values are those whose
transformation was fitted, as far as their logarithm is within the limits of the inverse
transformation, and the other parameters have the values of the seed, as far as those are within
these limits (between `exp (-60) - 1` and `exp 60 - 1`, for logarithmic parameters). What is
missing: beyond the limits the seed is not preserved, see `C39_limit_violated`. -/
theorem C39_hypothesis_transformed_partial (T : Transformer) (name : String) (t : TensorInfo)
    (f : Fit) (h : Knows T name t f) (fit : List Bool) (ht : t.shape = [fit.length]) (B : Nat)
    (params seed : Arr) (hp : params.shape = [B, fit.count true])
    (hs : seed.shape = [B, fit.length]) :
    ∃ a, hypothesis T name fit true params seed = .ok a ∧ a.shape = [B, fit.length] ∧
      ∀ b < B,
        (∀ k i, (positions fit)[k]? = some i →
          (IsLog t i → |params.val [b, k] * (T.norm + f.std.at [b, i]) + f.mean.at [b, i]| ≤ 60) →
          StandsFor T t f b i (params.val [b, k]) (a.val [b, i])) ∧
        ∀ i < fit.length, i ∉ positions fit → (IsLog t i → InRange (seed.val [b, i])) →
          a.val [b, i] = seed.val [b, i] := by
  obtain ⟨st, s1, s2, s3⟩ := transform2 h ht seed B hs
  -- the merged tensor in transformed space
  obtain ⟨m, m1, m2, m3⟩ : ∃ m, allParams T name fit true params seed = .ok m ∧
      m.shape = [B, fit.length] ∧
      Merged fit B (fun b k => params.val [b, k]) (fun b i => st.val [b, i])
        (fun b i => m.val [b, i]) := by
    obtain ⟨m, m1, m2, m3⟩ := C39_hypothesis T name fit B params st hp s2
    refine ⟨m, ?_, m2, m3⟩
    rw [← m1]
    unfold hypothesis allParams toSpace fromSpace
    simp only [if_true, s1, Bool.false_eq_true, if_false]
    split
    · rfl
    · cases mergeArr fit params st <;> rfl
  obtain ⟨a, a1, a2, a3⟩ := inverse2 h ht true m B m2
  refine ⟨a, ?_, a2, fun b hb => ⟨?_, ?_⟩⟩
  · unfold hypothesis
    rw [m1]
    exact a1
  · intro k i hk hr
    have hi := (positions_spec hk).1
    have hm := (m3 b hb).1 k i hk
    rw [a3 b hb i hi]
    simp only at hm
    rw [hm]
    refine ⟨fun hl => by rw [if_neg hl], fun hl => ?_⟩
    rw [if_pos hl, clip60_of (hr hl)]
    split <;> rfl
  · intro i hi hni hr
    have hm := (m3 b hb).2 i hi hni
    simp only at hm
    have hne := h.ne_zero (B := B) (i := [b, i]) (by rw [ht]; exact inShape2 hb hi)
    rw [a3 b hb i hi, hm, s3 b hb i hi]
    by_cases hl : IsLog t i
    · rw [if_pos hl, if_pos hl]
      obtain ⟨q1, q2⟩ := log_of_inRange (hr hl)
      have e : (Real.log (1 + seed.val [b, i]) - f.mean.at [b, i]) / (T.norm + f.std.at [b, i]) *
          (T.norm + f.std.at [b, i]) + f.mean.at [b, i] = Real.log (1 + seed.val [b, i]) := by
        rw [div_mul_cancel₀ _ hne]; ring
      rw [e, clip60_of q2, Real.exp_log q1]
      split <;> ring
    · rw [if_neg hl, if_neg hl, div_mul_cancel₀ _ hne]
      ring

/-- C39 does not hold for every seed: where only some of the parameters are logarithmic, a
logarithmic parameter that is not fitted and whose seed is beyond `exp 60 - 1` is set to
`exp 60 - 1`. -/
theorem C39_limit_violated (T : Transformer) (name : String) (t : TensorInfo)
    (f : Fit) (h : Knows T name t f) (fit : List Bool) (ht : t.shape = [fit.length]) (B : Nat)
    (params seed : Arr) (hp : params.shape = [B, fit.count true])
    (hs : seed.shape = [B, fit.length]) (hna : ¬ AllLogged t) (b i : Nat) (hb : b < B)
    (hi : i < fit.length) (hni : i ∉ positions fit) (hl : IsLog t i)
    (hbig : Real.exp 60 < 1 + seed.val [b, i]) :
    ∃ a, hypothesis T name fit true params seed = .ok a ∧ a.val [b, i] = Real.exp 60 - 1 ∧
      a.val [b, i] ≠ seed.val [b, i] := by
  obtain ⟨st, s1, s2, s3⟩ := transform2 h ht seed B hs
  have hall : ¬ fit.all id = true := by
    intro hall
    exact hni (positions_mem.2 (all_count hall i hi).1)
  obtain ⟨m, m1, m2, m3⟩ := mergeArr_spec fit params st B fit.length _ hp s2 rfl rfl
      (ne_nil_of_not_all hall)
  obtain ⟨a, a1, a2, a3⟩ := inverse2 h ht true m B m2
  have hv : a.val [b, i] = Real.exp 60 - 1 := by
    have hne := h.ne_zero (B := B) (i := [b, i]) (by rw [ht]; exact inShape2 hb hi)
    rw [a3 b hb i hi, m3 b i hi, if_neg (fun hh => hni (positions_mem.2 hh)), s3 b hb i hi,
      if_pos hl, if_pos hl, div_mul_cancel₀ _ hne, if_pos ⟨rfl, hna⟩]
    have hlog : 60 < Real.log (1 + seed.val [b, i]) := by
      rw [Real.lt_log_iff_exp_lt (lt_trans (Real.exp_pos _) hbig)]
      exact hbig
    unfold clip60
    rw [min_eq_right (by linarith), max_eq_right (by norm_num)]
  refine ⟨a, ?_, hv, ?_⟩
  · unfold hypothesis
    simp only [allParams, toSpace, fromSpace, hall, if_false, if_true, s1, m1, a1,
      Bool.false_eq_true]
  · rw [hv]
    intro hh
    rw [← hh] at hbig
    linarith

theorem zip_filter_getElem {α : Type} (fit : List Bool) (cols : List α)
    (hl : cols.length = fit.length) :
    (((cols.zip fit).filter Prod.snd).map Prod.fst).length = fit.count true ∧
    ∀ k i : Nat, (positions fit)[k]? = some i →
      (((cols.zip fit).filter Prod.snd).map Prod.fst)[k]? = cols[i]? := by
  have key : ∀ j, j ≤ fit.length →
      ((((cols.zip fit).take j).filter Prod.snd).map Prod.fst).length = (fit.take j).count true := by
    intro j hj
    induction j with
    | zero => simp
    | succ j ih =>
      have h1 : j < fit.length := by omega
      have h2 : j < (cols.zip fit).length := by simp [hl]; omega
      rw [List.take_succ_eq_append_getElem h2, List.take_succ_eq_append_getElem h1,
        List.filter_append, List.map_append, List.length_append, ih (by omega), List.count_append]
      congr 1
      rw [List.getElem_zip]
      cases fit[j] <;> simp
  have hlen : (cols.zip fit).length = fit.length := by simp [hl]
  refine ⟨?_, ?_⟩
  · have := key fit.length (le_refl _)
    rw [List.take_length, ← hlen, List.take_length] at this
    exact this
  · intro k i hk
    obtain ⟨h1, h2, h3⟩ := positions_spec hk
    have hi : i < (cols.zip fit).length := by omega
    have hsplit : cols.zip fit = (cols.zip fit).take i ++ (cols.zip fit)[i] ::
        (cols.zip fit).drop (i + 1) := by
      rw [List.cons_getElem_drop_succ, List.take_append_drop]
    have hlk : ((((cols.zip fit).take i).filter Prod.snd).map Prod.fst).length = k := by
      rw [key i (by omega), h3]
    have hfi : ((cols.zip fit)[i]).2 = true := by
      rw [List.getElem_zip]
      rw [List.getElem?_eq_getElem h1] at h2
      simpa using h2
    have hci : i < cols.length := by omega
    rw [hsplit, List.filter_append, List.filter_cons_of_pos hfi, List.map_append, List.map_cons,
      List.getElem?_append_right (by omega), hlk, Nat.sub_self, List.getElem?_cons_zero,
      List.getElem?_eq_getElem hci, List.getElem_zip]

theorem choose_spec (fit : List Bool) (a : Arr) (B : Nat) (ha : a.shape = [B, fit.length]) :
    ∃ x, choose fit a = .ok x ∧ x.shape = [B, fit.count true] ∧
      ∀ b k i, (positions fit)[k]? = some i → x.val [b, k] = a.val [b, i] := by
  obtain ⟨z1, z2⟩ := zip_filter_getElem fit (List.range fit.length) (by simp)
  refine ⟨⟨[B, ((((List.range fit.length).zip fit).filter Prod.snd).map Prod.fst).length],
    entry (((((List.range fit.length).zip fit).filter Prod.snd).map Prod.fst).map
      fun j => (B, fun b => a.val [b, j]))⟩, ?_, ?_, ?_⟩
  · unfold choose
    rw [ha]
    simp only [ne_eq, not_true_eq_false, if_false]
  · simp only [z1]
  · intro b k i hk
    have := (positions_spec hk).1
    simp only [entry, List.getElem?_map]
    rw [← List.getElem?_map, z2 k i hk]
    simp [this]

/-- The starting values, for seeds given as a numpy array. -/
theorem start_spec (T : Transformer) (name : String) (fit : List Bool) (inTrafo : Bool)
    (t : TensorInfo) (hk : T.find name = some t) (ht : t.shape = [fit.length]) (B : Nat)
    (seed st : Arr) (hst : toSpace T name inTrafo seed = .ok st)
    (hs : st.shape = [B, fit.length]) (isTf : Bool) (htf : isTf = true → fit.all id = true) :
    ∃ x, start T name fit inTrafo isTf seed = .ok x ∧ x.shape = [B, fit.count true] ∧
      ∀ b k i, (positions fit)[k]? = some i → x.val [b, k] = st.val [b, i] := by
  unfold start
  rw [hk]
  simp only [ht, ne_eq, not_true_eq_false, if_false, hst]
  by_cases hall : fit.all id = true
  · rw [if_pos hall]
    refine ⟨st, rfl, ?_, ?_⟩
    · have : fit.count true = fit.length := by
        rw [List.count_eq_length]
        intro b hb
        have := List.all_eq_true.1 hall b hb
        simpa using this.symm
      rw [hs, this]
    · intro b k i hk
      obtain ⟨h1, h2, h3⟩ := positions_spec hk
      rw [(all_count hall i h1).2] at h3
      rw [h3]
  · rw [if_neg hall, if_neg (fun hh => hall (htf hh))]
    exact choose_spec fit st B hs

open Classical in
/-- C39. The starting values of the minimisation, merged back into the seed, give the seed: with
every list of flags, for seeds given as numpy arrays, and for tensors if all parameters are fitted;
without transformation for all seeds, with transformation for seeds within its limits. -/
theorem C39_start_partial (T : Transformer) (name : String) (t : TensorInfo)
    (f : Fit) (h : Knows T name t f) (fit : List Bool) (ht : t.shape = [fit.length]) (B : Nat)
    (seed : Arr) (hs : seed.shape = [B, fit.length]) (inTrafo isTf : Bool)
    (htf : isTf = true → fit.all id = true) :
    ∃ x a, start T name fit inTrafo isTf seed = .ok x ∧ x.shape = [B, fit.count true] ∧
      hypothesis T name fit inTrafo x seed = .ok a ∧ a.shape = [B, fit.length] ∧
      ∀ b < B, ∀ i < fit.length,
        (inTrafo = true → IsLog t i → InRange (seed.val [b, i])) →
        a.val [b, i] = seed.val [b, i] := by
  cases inTrafo with
  | false =>
    obtain ⟨x, x1, x2, x3⟩ := start_spec T name fit false t h.tensor ht B seed seed
      (by rfl) hs isTf htf
    obtain ⟨a, a1, a2, a3⟩ := C39_hypothesis T name fit B x seed x2 hs
    refine ⟨x, a, x1, x2, a1, a2, fun b hb i hi _ => ?_⟩
    by_cases hp : i ∈ positions fit
    · obtain ⟨k, hk⟩ := List.mem_iff_getElem?.1 hp
      have h1 := (a3 b hb).1 k i hk
      simp only at h1
      rw [h1, x3 b k i hk]
    · exact (a3 b hb).2 i hi hp
  | true =>
    obtain ⟨st, s1, s2, s3⟩ := transform2 h ht seed B hs
    obtain ⟨x, x1, x2, x3⟩ := start_spec T name fit true t h.tensor ht B seed st
      (by rw [toSpace, if_pos rfl, s1]) s2 isTf htf
    obtain ⟨a, a1, a2, a3⟩ := C39_hypothesis_transformed_partial T name t f h fit ht B x seed x2 hs
    refine ⟨x, a, x1, x2, a1, a2, fun b hb i hi hr => ?_⟩
    by_cases hp : i ∈ positions fit
    · obtain ⟨k, hk⟩ := List.mem_iff_getElem?.1 hp
      have hne := h.ne_zero (B := B) (i := [b, i]) (by rw [ht]; exact inShape2 hb hi)
      have e : ∀ y : ℝ, (y - f.mean.at [b, i]) / (T.norm + f.std.at [b, i]) *
          (T.norm + f.std.at [b, i]) + f.mean.at [b, i] = y := by
        intro y; rw [div_mul_cancel₀ _ hne]; ring
      have h1 := (a3 b hb).1 k i hk (by
        intro hl
        rw [x3 b k i hk, s3 b hb i hi, if_pos hl, e]
        exact (log_of_inRange (hr rfl hl)).2)
      rw [x3 b k i hk, s3 b hb i hi] at h1
      by_cases hl : IsLog t i
      · have h2 := h1.2 hl
        rw [if_pos hl, e, Real.exp_log (log_of_inRange (hr rfl hl)).1] at h2
        rw [h2]; ring
      · have h2 := h1.1 hl
        rw [if_neg hl, e] at h2
        exact h2
    · exact (a3 b hb).2 i hi hp (hr rfl)

/-- C39 does not hold for seeds given as tensorflow tensors if some parameter is not fitted: the
minimisation raises a `TypeError`, for every such list of flags. -/
theorem C39_tensor_seed_violated (T : Transformer) (name : String) (t : TensorInfo)
    (f : Fit) (h : Knows T name t f) (fit : List Bool) (ht : t.shape = [fit.length]) (B : Nat)
    (seed : Arr) (hs : seed.shape = [B, fit.length]) (inTrafo : Bool)
    (hall : ¬ fit.all id = true) :
    start T name fit inTrafo true seed = .error .typeError := by
  obtain ⟨st, s1, s2, s3⟩ := transform2 h ht seed B hs
  unfold start
  have hf : T.find name = some t := h.tensor
  rw [hf]
  simp only [ht, ne_eq, not_true_eq_false, if_false]
  cases inTrafo with
  | false => simp only [toSpace, Bool.false_eq_true, if_false, hall, if_true]
  | true => simp only [toSpace, if_true, s1, hall, Bool.false_eq_true, if_false]

/-- C39. A list of flags of the wrong length is refused. -/
theorem C39_wrong_length (T : Transformer) (name : String) (t : TensorInfo)
    (hf : T.find name = some t) (n : Nat) (shape : List Nat) (ht : t.shape = n :: shape)
    (fit : List Bool) (hn : fit.length ≠ n) (inTrafo isTf : Bool) (seed : Arr) :
    start T name fit inTrafo isTf seed = .error .valueError := by
  unfold start
  rw [hf]
  simp only [ht]
  rw [if_pos hn]

open Classical in
/-- C39. The reported result leaves parameters that were not fitted at their seed values (for
logarithmic parameters with transformation: if those are above -1), and reports what was fitted;
`isTf`: the minimiser returned a tensor. Where the minimised loss was evaluated at the same fitted
values, within the limits of the transformation, it was evaluated at the reported result. -/
theorem C39_reported_partial (T : Transformer) (name : String) (t : TensorInfo)
    (f : Fit) (h : Knows T name t f) (fit : List Bool) (ht : t.shape = [fit.length]) (B : Nat)
    (result seed : Arr) (hp : result.shape = [B, fit.count true])
    (hs : seed.shape = [B, fit.length]) (inTrafo isTf : Bool) :
    ∃ r a, recoResult T name fit inTrafo isTf result seed = .ok r ∧ r.shape = [B, fit.length] ∧
      hypothesis T name fit inTrafo result seed = .ok a ∧ a.shape = [B, fit.length] ∧
      (inTrafo = false → Merged fit B (fun b k => result.val [b, k]) (fun b i => seed.val [b, i])
        (fun b i => r.val [b, i])) ∧
      (inTrafo = true → ∀ b < B,
        (∀ k i, (positions fit)[k]? = some i → (IsLog t i →
          |result.val [b, k] * (T.norm + f.std.at [b, i]) + f.mean.at [b, i]| ≤ 60) →
          StandsFor T t f b i (result.val [b, k]) (r.val [b, i]) ∧ a.val [b, i] = r.val [b, i]) ∧
        ∀ i < fit.length, i ∉ positions fit → (IsLog t i → 0 < 1 + seed.val [b, i]) →
          r.val [b, i] = seed.val [b, i]) := by
  cases inTrafo with
  | false =>
    obtain ⟨a, a1, a2, a3⟩ := C39_hypothesis T name fit B result seed hp hs
    refine ⟨a, a, ?_, a2, a1, a2, fun _ => a3, fun hh => absurd hh (by simp)⟩
    rw [← a1]
    unfold recoResult hypothesis allParams toSpace fromSpace
    simp only [Bool.false_eq_true, if_false]
    split
    · rfl
    · cases mergeArr fit result seed <;> rfl
  | true =>
    obtain ⟨st, s1, s2, s3⟩ := transform2 h ht seed B hs
    obtain ⟨m, m1, m2, m3⟩ : ∃ m, (if fit.all id then .ok result
        else mergeArr fit result st : Except Err Arr) = .ok m ∧ m.shape = [B, fit.length] ∧
        Merged fit B (fun b k => result.val [b, k]) (fun b i => st.val [b, i])
          (fun b i => m.val [b, i]) := by
      obtain ⟨m, m1, m2, m3⟩ := C39_hypothesis T name fit B result st hp s2
      refine ⟨m, ?_, m2, m3⟩
      rw [← m1]
      unfold hypothesis allParams toSpace fromSpace
      simp only [Bool.false_eq_true, if_false]
      split
      · rfl
      · cases mergeArr fit result st <;> rfl
    obtain ⟨r, r1, r2, r3⟩ := inverse2 h ht (isTf && fit.all id) m B m2
    obtain ⟨a, a1, a2, a3⟩ := C39_hypothesis_transformed_partial T name t f h fit ht B result seed
      hp hs
    have hfit : ∀ b < B, ∀ k i, (positions fit)[k]? = some i → (IsLog t i →
          |result.val [b, k] * (T.norm + f.std.at [b, i]) + f.mean.at [b, i]| ≤ 60) →
          StandsFor T t f b i (result.val [b, k]) (r.val [b, i]) := by
      intro b hb k i hk hr
      have hi := (positions_spec hk).1
      have hm := (m3 b hb).1 k i hk
      simp only at hm
      rw [r3 b hb i hi, hm]
      refine ⟨fun hl => by rw [if_neg hl], fun hl => ?_⟩
      rw [if_pos hl, clip60_of (hr hl)]
      split <;> rfl
    refine ⟨r, a, ?_, r2, a1, a2, fun hh => absurd hh (by simp), fun _ b hb => ⟨?_, ?_⟩⟩
    · unfold recoResult
      simp only [toSpace, if_true, s1]
      by_cases hall : fit.all id = true
      · rw [if_pos hall] at m1 ⊢
        cases m1
        rw [hall, Bool.and_true] at r1
        exact r1
      · rw [if_neg hall] at m1 ⊢
        rw [m1]
        rw [show (isTf && fit.all id) = false by simp [hall]] at r1
        exact r1
    · intro k i hk hr
      refine ⟨hfit b hb k i hk hr, ?_⟩
      have g1 := hfit b hb k i hk hr
      have g2 := (a3 b hb).1 k i hk hr
      by_cases hl : IsLog t i
      · rw [g1.2 hl, g2.2 hl]
      · rw [g1.1 hl, g2.1 hl]
    · intro i hi hni hpos
      have hm := (m3 b hb).2 i hi hni
      simp only at hm
      have hne := h.ne_zero (B := B) (i := [b, i]) (by rw [ht]; exact inShape2 hb hi)
      have hall : ¬ fit.all id = true := by
        intro hall
        exact hni (positions_mem.2 (all_count hall i hi).1)
      rw [r3 b hb i hi, hm, s3 b hb i hi]
      by_cases hl : IsLog t i
      · rw [if_pos hl, if_pos hl, if_neg (by simp [hall]), div_mul_cancel₀ _ hne]
        rw [sub_add_cancel, Real.exp_log (hpos hl)]
        ring
      · rw [if_neg hl, if_neg hl, div_mul_cancel₀ _ hne]
        ring

/-- C39. The reported loss is evaluated, with all parameters counted as fitted and without
transformation, at exactly the reported result. -/
theorem C39_reported_loss (T : Transformer) (name : String) (fit : List Bool) (r seed : Arr) :
    hypothesis T name (fit.map fun _ => true) false r seed = .ok r := by
  unfold hypothesis
  have : (fit.map fun _ => true).all id = true := by simp
  rw [allParams, if_pos this]
  rfl

-- three parameters of which the second, not logarithmic, is fitted
example : positions [false, true, false] = [1] := by decide

example : ∃ a, hypothesis exTrafo "x_parameters" [false, true, false] true ⟨[2, 1], fun _ => 7⟩
    ⟨[2, 3], fun i => i.sum⟩ = .ok a ∧ a.val [1, 1] = 21 ∧ a.val [1, 0] = 1 ∧ a.val [1, 2] = 3 := by
  obtain ⟨a, h1, h2, h3⟩ := C39_hypothesis_transformed_partial exTrafo "x_parameters" exTensor _
    exKnows [false, true, false] rfl 2 ⟨[2, 1], fun _ => 7⟩ ⟨[2, 3], fun i => i.sum⟩ rfl rfl
  obtain ⟨g1, g2⟩ := h3 1 (by omega)
  have hl : ¬ IsLog exTensor 1 := by
    rintro ⟨m, j, hm, hj, hv⟩
    cases hm
    simp at hj
    subst hj
    simp at hv
  refine ⟨a, h1, ?_, ?_, ?_⟩
  · have := (g1 0 1 (by decide) (fun hh => absurd hh hl)).1 hl
    rw [this]
    simp [exTrafo, Arr.at]
    norm_num
  · have := g2 0 (by decide) (by decide) (by
      rintro ⟨m, j, hm, hj, hv⟩
      cases hm
      simp at hj
      subst hj
      simp at hv)
    rw [this]
    norm_num
  · have := g2 2 (by decide) (by decide) (by
      intro _
      refine ⟨?_, ?_⟩
      · have : Real.exp (-60) ≤ 1 := Real.exp_le_one_iff.2 (by norm_num)
        norm_num
        linarith
      · have : (60 : ℝ) + 1 ≤ Real.exp 60 := Real.add_one_le_exp 60
        norm_num
        linarith)
    rw [this]
    norm_num

/-! ## C40: ensembles -/

/-- C40. The loss of an ensemble is the sum of the losses of its models, for any positive number
of models. -/
theorem C40_sum {α : Type} [AddMonoid α] (losses : List α) (hne : losses ≠ []) :
    ensembleScalar none (losses.map Except.ok) = .ok (some losses.sum) := by
  have key : ∀ (xs : List α) (x : α),
      ensembleScalar (some x) (xs.map Except.ok) = .ok (some (x + xs.sum)) := by
    intro xs
    induction xs with
    | nil => intro x; simp [ensembleScalar]
    | cons y ys ih =>
      intro x
      rw [List.map_cons, ensembleScalar]
      rw [ih, List.sum_cons, add_assoc]
  cases losses with
  | nil => exact absurd rfl hne
  | cons x xs =>
    rw [List.map_cons, ensembleScalar]
    rw [key, List.sum_cons]

theorem addTerms_ok {α : Type} [Add α] (xs ys : List α) (h : ys.length ≤ xs.length) :
    ∃ zs, addTerms xs ys = .ok zs ∧ zs.length = xs.length ∧
      ∀ j, j < xs.length → ∀ x, xs[j]? = some x →
        zs[j]? = some (match ys[j]? with | some y => x + y | none => x) := by
  induction xs generalizing ys with
  | nil =>
    cases ys with
    | nil => exact ⟨[], rfl, rfl, by simp⟩
    | cons y ys => simp at h
  | cons x xs ih =>
    cases ys with
    | nil => exact ⟨x :: xs, rfl, rfl, fun j _ x hx => by simp [hx]⟩
    | cons y ys =>
      obtain ⟨zs, h1, h2, h3⟩ := ih ys (by simpa using h)
      refine ⟨(x + y) :: zs, by rw [addTerms, h1], by simp [h2], ?_⟩
      intro j hj x' hx
      cases j with
      | zero => simp at hx; simp [hx]
      | succ j => simpa using h3 j (by simpa using hj) x' (by simpa using hx)

/-- C40, terms of the loss. If all models have the same number of terms, the terms of the
ensemble are the sums of the terms of the models, for any positive number of models. -/
theorem C40_terms {α : Type} [AddMonoid α] (losses : List (List α)) (k : Nat)
    (hne : losses ≠ []) (hk : ∀ l ∈ losses, l.length = k) :
    ∃ r, ensembleTerms none (losses.map Except.ok) = .ok (some r) ∧ r.length = k ∧
      ∀ j < k, r[j]? = some (losses.map fun l => l.getD j 0).sum := by
  have key : ∀ (xs : List (List α)) (x : List α), x.length = k → (∀ l ∈ xs, l.length = k) →
      ∃ r, ensembleTerms (some x) (xs.map Except.ok) = .ok (some r) ∧ r.length = k ∧
        ∀ j < k, r[j]? = some (x.getD j 0 + (xs.map fun l => l.getD j 0).sum) := by
    intro xs
    induction xs with
    | nil =>
      intro x hx _
      exact ⟨x, rfl, hx, fun j hj => by simp [hx, hj]⟩
    | cons y ys ih =>
      intro x hx hl
      have hy := hl y (by simp)
      obtain ⟨z, z1, z2, z3⟩ := addTerms_ok x y (by omega)
      obtain ⟨r, r1, r2, r3⟩ := ih z (by omega) (fun l hm => hl l (by simp [hm]))
      refine ⟨r, ?_, r2, fun j hj => ?_⟩
      · rw [List.map_cons, ensembleTerms]
        simp only [z1]
        exact r1
      · have hxj : j < x.length := by omega
        have hyj : j < y.length := by omega
        have := z3 j hxj x[j] (by simp)
        rw [r3 j hj, List.map_cons, List.sum_cons, ← add_assoc]
        congr 3
        simp only [List.getD_eq_getElem?_getD, this]
        simp [hxj, hyj]
  cases losses with
  | nil => exact absurd rfl hne
  | cons x xs =>
    obtain ⟨r, r1, r2, r3⟩ := key xs x (hk x (by simp)) (fun l hm => hk l (by simp [hm]))
    refine ⟨r, ?_, r2, fun j hj => by rw [r3 j hj, List.map_cons, List.sum_cons]⟩
    rw [List.map_cons, ensembleTerms]
    exact r1

/-- C40. The first model that raises ends the evaluation. -/
theorem C40_error {α : Type} [AddMonoid α] (losses : List α) (e : Err)
    (rest : List (Except Err α)) :
    ensembleScalar none (losses.map Except.ok ++ .error e :: rest) = .error e := by
  have key : ∀ (xs : List α) (x : Option α),
      ensembleScalar x (xs.map Except.ok ++ .error e :: rest) = .error e := by
    intro xs
    induction xs with
    | nil => intro x; simp [ensembleScalar]
    | cons y ys ih =>
      intro x
      rw [List.map_cons, List.cons_append]
      cases x <;> exact ih _
  exact key losses none

theorem addTerms_error {α : Type} [Add α] (xs ys : List α) (h : xs.length < ys.length) :
    addTerms xs ys = .error .indexError := by
  induction xs generalizing ys with
  | nil =>
    cases ys with
    | nil => simp at h
    | cons y ys => rfl
  | cons x xs ih =>
    cases ys with
    | nil => simp at h
    | cons y ys =>
      rw [addTerms, ih ys (by simpa using h)]

/-- C40. A model with more terms than the first is refused. -/
theorem C40_more_terms {α : Type} [Add α] (first second : List α)
    (h : first.length < second.length) (rest : List (Except Err (List α))) :
    ensembleTerms none (.ok first :: .ok second :: rest) = .error .indexError := by
  rw [ensembleTerms]
  rw [ensembleTerms]
  simp only [addTerms_error _ _ h]

example : ensembleScalar none ([1, 2, 4].map Except.ok) = .ok (some 7) := C40_sum [1, 2, 4] (by simp)

example : ∀ l ∈ [[1, 2], [3, 4], [5, 6]], l.length = 2 := by simp

/-! ## C41: the tray -/

theorem pad4_inj {i j : ℕ} (h : Component.pad4 i = Component.pad4 j) : i = j := by
  have h' := congrArg String.toList h
  simp only [Component.pad4, String.toList_ofList] at h'
  have e : ∀ k n : ℕ, Nat.ofDigitChars 10 (List.replicate k '0' ++ (toString n).toList) 0 = n := by
    intro k n
    rw [Nat.ofDigitChars_append, Nat.ofDigitChars_replicate_zero]
    simp only [Nat.mul_zero]
    have : (toString n).toList = Nat.toDigits 10 n := Nat.toList_repr
    rw [this]
    exact Nat.ofDigitChars_ten_toDigits
  rw [← e (4 - (toString i).length) i, ← e (4 - (toString j).length) j, h']

/-- C41. Adding a module: the class must load, the name must be new, the module must build; then
the module is appended under its name, or under a name made from the number of modules. -/
theorem C41_add {V : Type} (t : Tray V) (load : Except Err Unit) (name : Option String)
    (build : Except Err (Module V)) :
    (∀ e, load = .error e → t.add load name build = .error e) ∧
    (load = .ok () → nameFor t.names.length name ∈ t.names →
      t.add load name build = .error .valueError) ∧
    (load = .ok () → nameFor t.names.length name ∉ t.names → ∀ e, build = .error e →
      t.add load name build = .error e) ∧
    (load = .ok () → nameFor t.names.length name ∉ t.names → ∀ m, build = .ok m →
      t.add load name build =
        .ok ⟨t.names ++ [nameFor t.names.length name], t.modules ++ [m]⟩) := by
  have hn : moduleName t.names.length name = nameFor t.names.length name := by
    cases name <;> rfl
  refine ⟨?_, ?_, ?_, ?_⟩
  · rintro e rfl; rfl
  · rintro rfl hm
    unfold Tray.add
    simp only [hn]
    rw [ok_bind, if_pos (by simpa using hm)]
    rfl
  · rintro rfl hm e rfl
    unfold Tray.add
    simp only [hn]
    rw [ok_bind, if_neg (by simpa using hm)]
    rfl
  · rintro rfl hm m rfl
    unfold Tray.add
    simp only [hn]
    rw [ok_bind, if_neg (by simpa using hm)]
    rfl

theorem add_cases {V : Type} (t : Tray V) (c : Call V) :
    (∃ e, t.add c.load c.name c.build = .error e) ∨
    ∃ m n, n ∉ t.names ∧ c.build = .ok m ∧
      t.add c.load c.name c.build = .ok ⟨t.names ++ [n], t.modules ++ [m]⟩ := by
  obtain ⟨h1, h2, h3, h4⟩ := C41_add t c.load c.name c.build
  cases hl : c.load with
  | error e => exact .inl ⟨e, by rw [← hl]; exact h1 e hl⟩
  | ok u =>
    rw [← hl]
    by_cases hm : nameFor t.names.length c.name ∈ t.names
    · exact .inl ⟨_, h2 hl hm⟩
    · cases hb : c.build with
      | error e => exact .inl ⟨e, by rw [← hb]; exact h3 hl hm e hb⟩
      | ok m => exact .inr ⟨m, _, hm, rfl, by rw [← hb]; exact h4 hl hm m hb⟩

/-- C41. After every sequence of calls, whether they raise or not, names are unique and there is
one per module. -/
theorem C41_names {V : Type} (calls : List (Call V)) :
    (addAll calls).names.Nodup ∧ (addAll calls).names.length = (addAll calls).modules.length := by
  unfold addAll
  have key : ∀ t : Tray V, t.names.Nodup → t.names.length = t.modules.length →
      (calls.foldl (fun t c =>
        match t.add c.load c.name c.build with
        | .ok t => t
        | .error _ => t) t).names.Nodup ∧
      (calls.foldl (fun t c =>
        match t.add c.load c.name c.build with
        | .ok t => t
        | .error _ => t) t).names.length = (calls.foldl (fun t c =>
        match t.add c.load c.name c.build with
        | .ok t => t
        | .error _ => t) t).modules.length := by
    induction calls with
    | nil => intro t h1 h2; exact ⟨h1, h2⟩
    | cons c calls ih =>
      intro t h1 h2
      rw [List.foldl_cons]
      apply ih
      · rcases add_cases t c with ⟨e, he⟩ | ⟨m, n, hn, _, he⟩
        · rw [he]; exact h1
        · rw [he]
          simp only [List.nodup_append, h1, true_and]
          refine ⟨by simp, ?_⟩
          rintro a ha b hb rfl
          simp at hb
          exact hn (hb ▸ ha)
      · rcases add_cases t c with ⟨e, he⟩ | ⟨m, n, hn, _, he⟩
        · rw [he]; exact h2
        · rw [he]; simp [h2]
  exact key ⟨[], []⟩ (by simp) rfl

/-- C41. Without names of their own, any number of modules can be added, in order. -/
theorem C41_default_names {V : Type} (ms : List (Module V)) :
    addAll (ms.map fun m => ⟨.ok (), none, .ok m⟩) =
      ⟨(List.range ms.length).map fun i => "module_" ++ Component.pad4 i, ms⟩ := by
  induction ms using List.reverseRecOn with
  | nil => rfl
  | append_singleton ms m ih =>
    unfold addAll at ih ⊢
    rw [List.map_append, List.foldl_append, ih]
    simp only [List.map_cons, List.map_nil, List.foldl_cons, List.foldl_nil, List.length_append,
      List.length_cons, List.length_nil, Nat.zero_add, List.range_succ]
    have := (C41_add (⟨(List.range ms.length).map fun i => "module_" ++ Component.pad4 i, ms⟩ :
      Tray V) (.ok ()) none (.ok m)).2.2.2 rfl (by
        simp only [nameFor, List.length_map, List.length_range, List.mem_map, List.mem_range,
          not_exists, not_and]
        intro i hi h
        have h' := congrArg String.toList h
        simp only [String.toList_append, List.append_cancel_left_eq] at h'
        have := pad4_inj (String.toList_injective h')
        omega) m rfl
    rw [this]
    simp [nameFor]

/-- A name that was not given can still be refused: if an earlier module was given it by hand. -/
theorem C41_default_collides {V : Type} (m₁ m₂ : Module V) :
    (addAll [⟨.ok (), some "module_0001", .ok m₁⟩]).add (.ok ()) none (.ok m₂) =
      .error .valueError := by
  have h : addAll [⟨.ok (), some "module_0001", .ok m₁⟩] = ⟨["module_0001"], [m₁]⟩ := rfl
  rw [h]
  exact (C41_add _ _ _ _).2.1 rfl (by simp only [nameFor]; decide)

theorem set_of_not_mem {V : Type} {r : Results V} {n : String} {d : Dict String V}
    (h : n ∉ r.map Prod.fst) : Dict.set r n d = r ++ [(n, d)] := by
  induction r with
  | nil => rfl
  | cons e r ih =>
    obtain ⟨k, v⟩ := e
    simp only [List.map_cons, List.mem_cons, not_or] at h
    rw [Dict.set, if_neg (Ne.symm h.1), ih h.2]
    rfl

theorem runModules_spec {V : Type} (runtime : Nat → V) (names : List String)
    (modules : List (Module V)) (hlen : names.length = modules.length) (r₀ : Results V)
    (hnd : (r₀.map Prod.fst ++ names).Nodup) :
    (∃ new : Results V, runModules runtime r₀.length (names.zip modules) r₀ = .ok (r₀ ++ new) ∧
      new.map Prod.fst = names ∧
      ∀ (i : Nat) m, modules[i]? = some m → ∃ d, m (r₀ ++ new.take i) = .ok d ∧
        Dict.get? d "runtime" = none ∧
        (new[i]?).map Prod.snd = some (Dict.set d "runtime" (runtime (r₀.length + i)))) ∨
    (∃ e, runModules runtime r₀.length (names.zip modules) r₀ = .error e ∧
      ∃ (i : Nat) (new : Results V) (m : Module V), modules[i]? = some m ∧
        new.map Prod.fst = names.take i ∧ new.length = i ∧
        (∀ (j : Nat) m, j < i → modules[j]? = some m → ∃ d, m (r₀ ++ new.take j) = .ok d ∧
          Dict.get? d "runtime" = none ∧
          (new[j]?).map Prod.snd = some (Dict.set d "runtime" (runtime (r₀.length + j)))) ∧
        (m (r₀ ++ new) = .error e ∨
          ∃ d, m (r₀ ++ new) = .ok d ∧ Dict.get? d "runtime" ≠ none ∧ e = .valueError)) := by
  induction names generalizing modules r₀ with
  | nil =>
    cases modules with
    | nil => exact .inl ⟨[], by simp [runModules], rfl, by simp⟩
    | cons m ms => simp at hlen
  | cons n names ih =>
    cases modules with
    | nil => simp at hlen
    | cons m ms =>
      rw [List.zip_cons_cons, runModules]
      cases hm : m r₀ with
      | error e =>
        refine .inr ⟨e, rfl, 0, [], m, rfl, by simp, rfl, by simp, .inl (by simpa using hm)⟩
      | ok d =>
        simp only
        by_cases hr : Dict.has d "runtime" = true
        · rw [if_pos hr]
          refine .inr ⟨_, rfl, 0, [], m, rfl, by simp, rfl, by simp,
            .inr ⟨d, by simpa using hm, ?_, rfl⟩⟩
          intro h0
          rw [Dict.get?_eq_none_iff] at h0
          exact h0 ((Dict.has_iff _ _).1 hr)
        · rw [if_neg hr]
          have hn : n ∉ r₀.map Prod.fst := by
            intro h
            rw [List.nodup_append] at hnd
            exact hnd.2.2 n h n (by simp) rfl
          have hset : Dict.set r₀ n (Dict.set d "runtime" (runtime r₀.length)) =
              r₀ ++ [(n, Dict.set d "runtime" (runtime r₀.length))] :=
            set_of_not_mem hn
          have hd : Dict.get? d "runtime" = none := by
            rw [Dict.get?_eq_none_iff]
            intro h
            exact hr ((Dict.has_iff _ _).2 h)
          rw [hset]
          have := ih ms (by simpa using hlen)
            (r₀ ++ [(n, Dict.set d "runtime" (runtime r₀.length))]) (by simpa using hnd)
          rw [List.length_append, List.length_singleton] at this
          rcases this with ⟨new, h1, h2, h3⟩ | ⟨e, h1, i, new, m', h2, h3, h4, h5, h6⟩
          · refine .inl ⟨(n, Dict.set d "runtime" (runtime r₀.length)) :: new, ?_, by simp [h2], ?_⟩
            · rw [h1]; simp
            · intro i m' hm'
              cases i with
              | zero =>
                simp at hm'
                subst hm'
                exact ⟨d, by simpa using hm, hd, by simp⟩
              | succ i =>
                obtain ⟨d', g1, g2, g3⟩ := h3 i m' (by simpa using hm')
                refine ⟨d', by simpa using g1, g2, ?_⟩
                rw [List.getElem?_cons_succ, g3]
                congr 3
                omega
          · refine .inr ⟨e, h1, i + 1, (n, Dict.set d "runtime" (runtime r₀.length)) :: new, m',
              by simpa using h2, by simp [h3], by simp [h4], ?_, by simpa using h6⟩
            intro j m'' hj hm''
            cases j with
            | zero =>
              simp at hm''
              subst hm''
              exact ⟨d, by simpa using hm, hd, by simp⟩
            | succ j =>
              obtain ⟨d', g1, g2, g3⟩ := h5 j m'' (by omega) (by simpa using hm'')
              refine ⟨d', by simpa using g1, g2, ?_⟩
              rw [List.getElem?_cons_succ, g3]
              congr 3
              omega

theorem get?_of_getElem {V : Type} (r : Results V) (hnd : (r.map Prod.fst).Nodup) (i : Nat)
    (n : String) (d : Dict String V) (hn : (r.map Prod.fst)[i]? = some n)
    (hd : (r[i]?).map Prod.snd = some d) : Dict.get? r n = some d := by
  induction r generalizing i with
  | nil => simp at hn
  | cons e r ih =>
    rw [Dict.get?_cons]
    cases i with
    | zero =>
      simp at hn hd
      rw [if_pos hn, hd]
    | succ i =>
      simp only [List.map_cons, List.getElem?_cons_succ] at hn hd
      rw [List.map_cons, List.nodup_cons] at hnd
      rw [if_neg]
      · exact ih hnd.2 i hn hd
      · rintro rfl
        exact hnd.1 (List.mem_of_getElem? hn)

/-- C41. For every tray that can be built, and whatever its modules do: if `execute` returns, the
modules ran in the order in which they were added, each was given the results of the modules
before it, and there is exactly one result per module, with a runtime added; if it raises, all
modules before some module ran like this, and that module raised or reported a runtime of its
own (a `ValueError`). -/
theorem C41_execute {V : Type} (calls : List (Call V)) (runtime : Nat → V) :
    (∃ r, (addAll calls).execute runtime = .ok r ∧
      Executed (addAll calls).names (addAll calls).modules runtime r) ∨
    (∃ e, (addAll calls).execute runtime = .error e ∧ ∃ i m r,
      (addAll calls).modules[i]? = some m ∧
      Executed ((addAll calls).names.take i) ((addAll calls).modules.take i) runtime r ∧
      (m r = .error e ∨ ∃ d, m r = .ok d ∧ Dict.get? d "runtime" ≠ none ∧ e = .valueError)) := by
  obtain ⟨hnd, hlen⟩ := C41_names calls
  rcases runModules_spec runtime _ _ hlen [] (by simpa using hnd) with
    ⟨r, h1, h2, h3⟩ | ⟨e, h1, i, r, m, h2, h3, h4, h5, h6⟩
  · refine .inl ⟨r, by simpa [Tray.execute] using h1, h2, ?_⟩
    intro i m n hm hn
    obtain ⟨d, g1, g2, g3⟩ := h3 i m hm
    refine ⟨d, by simpa using g1, g2, ?_⟩
    exact get?_of_getElem r (by rw [h2]; exact hnd) i n _ (by rw [h2]; exact hn) (by simpa using g3)
  · refine .inr ⟨e, by simpa [Tray.execute] using h1, i, m, r, h2, ⟨h3, ?_⟩, by simpa using h6⟩
    intro j m' n hm hn
    rw [List.getElem?_take] at hm hn
    split at hm
    · rename_i hj
      rw [if_pos hj] at hn
      obtain ⟨d, g1, g2, g3⟩ := h5 j m' hj hm
      refine ⟨d, by simpa using g1, g2, ?_⟩
      refine get?_of_getElem r (by rw [h3]; exact hnd.sublist (List.take_sublist _ _)) j n _ ?_
        (by simpa using g3)
      rw [h3, List.getElem?_take, if_pos hj]
      exact hn
    · simp at hm

-- two modules, the second using the result of the first
example : (addAll (V := Nat) [⟨.ok (), some "a", .ok fun _ => .ok [("x", 5)]⟩,
    ⟨.ok (), none, .ok fun r => .ok [("y", (r.map fun e => e.2.length).sum)]⟩]).execute
      (fun i => 100 + i) =
    .ok [("a", [("x", 5), ("runtime", 100)]), ("module_0001", [("y", 2), ("runtime", 101)])] := by
  decide

/-! ## C42: the function cache -/

theorem find?_append {α : Type} (p : α → Bool) (xs ys : List α) :
    (xs ++ ys).find? p = (xs.find? p).or (ys.find? p) := List.find?_append

theorem get_add {S F : Type} {eq : S → S → Bool} {c c' : Cache S F} {name : String} {s : S} {f : F}
    (h : Cache.add eq c name s f = .ok c') (name' : String) (s' : S) :
    Cache.get eq c' name' s' =
      (Cache.get eq c name' s').or (if name = name' ∧ eq s' s = true then some f else none) := by
  unfold Cache.add at h
  cases hg : Dict.get? c name with
  | none =>
    rw [hg] at h
    cases h
    unfold Cache.get
    rw [Dict.get?_set]
    by_cases hn : name = name'
    · subst hn
      rw [if_pos rfl, hg]
      by_cases he : eq s' s = true <;> simp [he]
    · rw [if_neg hn, if_neg (fun hh => hn hh.1), Option.or_none]
  | some entries =>
    rw [hg] at h
    simp only at h
    split at h
    · cases h
    · cases h
      unfold Cache.get
      rw [Dict.get?_set]
      by_cases hn : name = name'
      · subst hn
        rw [if_pos rfl, hg]
        simp only [List.find?_append]
        by_cases he : eq s' s = true
        · cases entries.find? (fun e => eq s' e.1) <;> simp [he]
        · cases entries.find? (fun e => eq s' e.1) <;> simp [he]
      · rw [if_neg hn, if_neg (fun hh => hn hh.1), Option.or_none]

/-- C42. `add` raises a `KeyError` exactly if a function is stored under the name with equal
settings, and nothing else. -/
theorem C42_add {S F : Type} (eq : S → S → Bool) (c : Cache S F) (name : String) (s : S) (f : F) :
    ((Cache.get eq c name s).isSome → Cache.add eq c name s f = .error .keyError) ∧
    (Cache.get eq c name s = none → ∃ c', Cache.add eq c name s f = .ok c') := by
  unfold Cache.add Cache.get
  cases Dict.get? c name with
  | none => simp
  | some entries =>
    simp only [Option.isSome_map, List.find?_isSome, Option.map_eq_none_iff, List.find?_eq_none,
      List.any_eq_true]
    refine ⟨fun h => by rw [if_pos h], fun h => ?_⟩
    rw [if_neg]
    · exact ⟨_, rfl⟩
    · rintro ⟨e, he, hh⟩
      exact h e he hh

/-- C42. After every history of `add`, `get` returns the function that was first added under that
name with equal settings, and `None` if there is none. -/
theorem C42_get {S F : Type} (eq : S → S → Bool) (heq : IsEq eq) (calls : List (AddCall S F))
    (name : String) (s : S) :
    Cache.get eq (cacheAll eq calls) name s =
      (calls.find? fun a => a.name = name && eq s a.settings).map fun a => a.f := by
  induction calls using List.reverseRecOn generalizing name s with
  | nil => rfl
  | append_singleton calls a ih =>
    have e : cacheAll eq (calls ++ [a]) =
        match Cache.add eq (cacheAll eq calls) a.name a.settings a.f with
        | .ok c => c
        | .error _ => cacheAll eq calls := by
      rw [cacheAll, List.foldl_append]
      rfl
    rw [e, List.find?_append]
    cases h : Cache.add eq (cacheAll eq calls) a.name a.settings a.f with
    | ok c =>
      simp only
      rw [get_add h, ih]
      by_cases hc : a.name = name ∧ eq s a.settings = true
      · cases calls.find? (fun a => a.name = name && eq s a.settings) <;> simp [hc]
      · rw [if_neg hc]
        have : (decide (a.name = name) && eq s a.settings) = false := by
          by_cases h1 : a.name = name
          · simp only [h1, true_and] at hc; simp [h1, hc]
          · simp [h1]
        cases calls.find? (fun a => a.name = name && eq s a.settings) <;> simp [this]
    | error err =>
      simp only
      rw [ih]
      by_cases hc : a.name = name ∧ eq s a.settings = true
      · -- something equal was added before
        have hsome : (Cache.get eq (cacheAll eq calls) a.name a.settings).isSome = true := by
          by_contra hn
          obtain ⟨c', hc'⟩ := (C42_add eq (cacheAll eq calls) a.name a.settings a.f).2
            (by simpa using hn)
          rw [h] at hc'
          cases hc'
        rw [ih, Option.isSome_map, List.find?_isSome] at hsome
        obtain ⟨b, hb, hb2⟩ := hsome
        simp only [Bool.and_eq_true, decide_eq_true_eq] at hb2
        have : (calls.find? (fun a => a.name = name && eq s a.settings)).isSome = true := by
          rw [List.find?_isSome]
          refine ⟨b, hb, ?_⟩
          simp only [Bool.and_eq_true, decide_eq_true_eq]
          exact ⟨hb2.1.trans hc.1, heq.trans _ _ _ hc.2 hb2.2⟩
        obtain ⟨x, hx⟩ := Option.isSome_iff_exists.1 this
        rw [hx]
        rfl
      · have : (decide (a.name = name) && eq s a.settings) = false := by
          by_cases h1 : a.name = name
          · simp only [h1, true_and] at hc; simp [h1, hc]
          · simp [h1]
        simp [this]

/-- C42. Of every history no two functions are stored under the same name and settings: whatever
was added is refused when it is added again. -/
theorem C42_unique {S F : Type} (eq : S → S → Bool) (heq : IsEq eq) (calls : List (AddCall S F))
    (a : AddCall S F) (ha : a ∈ calls) (s : S) (hs : eq s a.settings = true) (f : F) :
    Cache.add eq (cacheAll eq calls) a.name s f = .error .keyError := by
  apply (C42_add _ _ _ _ _).1
  rw [C42_get eq heq, Option.isSome_map, List.find?_isSome]
  exact ⟨a, ha, by simp [hs]⟩

-- equality of numbers is an equality of settings
example : IsEq (fun a b : Nat => decide (a = b)) where
  refl := by simp
  symm := by intro a b; simp [eq_comm]
  trans := by simp

/-! ## C43: selecting the best reconstruction -/

theorem selectLoop_last {V : Type} (less : V → Option V → Bool) (results : Results V)
    (names : List String) (hall : ∀ n ∈ names, ∃ d l, Dict.get? results n = some d ∧
      Dict.get? d "loss_reco" = some l) (s) :
    ∃ m x, selectLoop less results names s = .ok (m, x,
      match names.getLast? with
      | some n => Dict.get? results n
      | none => s.2.2) := by
  induction names generalizing s with
  | nil => exact ⟨_, _, rfl⟩
  | cons n names ih =>
    obtain ⟨d, l, h1, h2⟩ := hall n (by simp)
    obtain ⟨s1, s2, s3⟩ := s
    rw [selectLoop, h1]
    simp only [h2]
    have hstep : ∀ s' : Option V × Option (Dict String V) × Option (Dict String V),
        s'.2.2 = some d → ∃ m x, selectLoop less results names s' = .ok (m, x,
          match (n :: names).getLast? with
          | some n => Dict.get? results n
          | none => s3) := by
      intro s' hs'
      obtain ⟨m, x, h⟩ := ih (fun k hk => hall k (by simp [hk])) s'
      refine ⟨m, x, ?_⟩
      rw [h]
      cases names with
      | nil => simp [hs', h1]
      | cons k ks =>
        rw [List.getLast?_cons_cons, List.getLast?_eq_some_getLast (List.cons_ne_nil k ks)]
    split
    · exact hstep _ rfl
    · exact hstep _ rfl

theorem get?_pop {V : Type} {d d' : Dict String V} {k : String} {v : V}
    (h : pop d k = .ok (v, d')) : Dict.get? d k = some v ∧
      ∀ j, Dict.get? d' j = if k = j then none else Dict.get? d j := by
  unfold pop at h
  cases hg : Dict.get? d k with
  | none => rw [hg] at h; cases h
  | some w =>
    rw [hg] at h
    cases h
    refine ⟨rfl, fun j => ?_⟩
    clear hg
    induction d with
    | nil => simp [Dict.get?]
    | cons e d ih =>
      by_cases he : e.1 = k
      · rw [List.filter_cons_of_neg (by simp [he]), ih]
        by_cases hj : k = j
        · rw [if_pos hj, if_pos hj]
        · rw [if_neg hj, if_neg hj, Dict.get?_cons, if_neg (by rw [he]; exact hj)]
      · rw [List.filter_cons_of_pos (by simp [he]), Dict.get?_cons, Dict.get?_cons, ih]
        by_cases hj : k = j
        · rw [if_pos hj, if_pos hj, if_neg (by rw [← hj]; exact he)]
        · rw [if_neg hj, if_neg hj]

/-- C43. What `SelectBestReconstruction` returns, for any comparison of losses: the result of the
last of the given reconstructions, with its runtime renamed. It is thus one of them; what is
missing is that it is the best, see `C43_violated`: it is only if the last one is. -/
theorem C43_select_partial {V : Type} (less : V → Option V → Bool) (results : Results V)
    (names : List String) (last : String) (hl : names.getLast? = some last)
    (hall : ∀ n ∈ names, ∃ d l t, Dict.get? results n = some d ∧
      Dict.get? d "loss_reco" = some l ∧ Dict.get? d "runtime" = some t) :
    ∃ d r, Dict.get? results last = some d ∧ selectBest less names results = .ok r ∧
      Dict.get? r "reco_runtime" = Dict.get? d "runtime" ∧ Dict.get? r "runtime" = none ∧
      ∀ k, k ≠ "runtime" → k ≠ "reco_runtime" → Dict.get? r k = Dict.get? d k := by
  obtain ⟨d, l, t, h1, h2, h3⟩ := hall last (List.mem_of_getLast? hl)
  obtain ⟨m, x, h⟩ := selectLoop_last less results names
    (fun n hn => by obtain ⟨d, l, t, a, b, c⟩ := hall n hn; exact ⟨d, l, a, b⟩) (none, none, none)
  rw [hl] at h
  simp only [h1] at h
  have hp : pop d "runtime" = .ok (t, d.filter fun e => e.1 ≠ "runtime") := by
    rw [pop, h3]
  refine ⟨d, Dict.set (d.filter fun e => e.1 ≠ "runtime") "reco_runtime" t, h1, ?_, ?_, ?_, ?_⟩
  · rw [selectBest, h]
    simp only [hp]
  · rw [Dict.get?_set, if_pos rfl, h3]
  · rw [Dict.get?_set, if_neg (by decide), (get?_pop hp).2, if_pos rfl]
  · intro k hk1 hk2
    rw [Dict.get?_set, if_neg (Ne.symm hk2), (get?_pop hp).2, if_neg (Ne.symm hk1)]

/-- C43 does not hold: whatever losses two reconstructions have, the second is returned, also if
the first has the lower loss; so for any comparison of losses. -/
theorem C43_violated (less : ℝ → Option ℝ → Bool) (l₁ l₂ t₁ t₂ : ℝ) :
    ∃ r, selectBest less ["a", "b"]
      [("a", [("loss_reco", l₁), ("runtime", t₁)]), ("b", [("loss_reco", l₂), ("runtime", t₂)])] =
        .ok r ∧ Dict.get? r "loss_reco" = some l₂ := by
  obtain ⟨d, r, h1, h2, _, _, h3⟩ := C43_select_partial less
    [("a", [("loss_reco", l₁), ("runtime", t₁)]), ("b", [("loss_reco", l₂), ("runtime", t₂)])]
    ["a", "b"] "b" rfl (by
      intro n hn
      simp at hn
      rcases hn with rfl | rfl
      · exact ⟨_, _, _, rfl, rfl, rfl⟩
      · exact ⟨_, _, _, rfl, rfl, rfl⟩)
  refine ⟨r, h2, ?_⟩
  rw [h3 _ (by decide) (by decide)]
  have : d = [("loss_reco", l₂), ("runtime", t₂)] := by
    have h0 : (some [("loss_reco", l₂), ("runtime", t₂)] : Option (Dict String ℝ)) = some d := h1
    simpa using h0.symm
  rw [this]
  rfl

/-- C43. Without reconstructions to choose from it raises a `NameError`. -/
theorem C43_empty {V : Type} (less : V → Option V → Bool) (results : Results V) :
    selectBest less [] results = .error .nameError := rfl

/-! ## C44: bisection -/

theorem bisect_inv (cdf : Nat → ℝ → ℝ) (target lo hi c : ℝ) (h : lo ≤ hi) (n : Nat) :
    (bisect cdf target n (lo, hi, c)).2.1 - (bisect cdf target n (lo, hi, c)).1 =
      (hi - lo) / 2 ^ n ∧
    lo ≤ (bisect cdf target n (lo, hi, c)).1 ∧ (bisect cdf target n (lo, hi, c)).2.1 ≤ hi := by
  induction n with
  | zero => simp [bisect]
  | succ n ih =>
    obtain ⟨h1, h2, h3⟩ := ih
    have hpos : 0 ≤ (hi - lo) / 2 ^ n := by
      apply div_nonneg (by linarith)
      positivity
    have e : (hi - lo) / 2 ^ (n + 1) = (hi - lo) / 2 ^ n / 2 := by
      rw [pow_succ, div_div]
    rw [bisect, bisectionStep]
    split
    · simp only
      rw [e]
      refine ⟨?_, ?_, ?_⟩ <;> linarith
    · simp only
      rw [e]
      refine ⟨?_, ?_, ?_⟩ <;> linarith

/-- C44. Each step halves the interval, and it stays within the interval it started from: for all
profiles and any number of steps. -/
theorem C44_halves (cdf : Nat → ℝ → ℝ) (target lo hi c : ℝ) (h : lo ≤ hi) (n : Nat) :
    (bisect cdf target n (lo, hi, c)).2.1 - (bisect cdf target n (lo, hi, c)).1 =
      (hi - lo) / 2 ^ n ∧
    lo ≤ (bisect cdf target n (lo, hi, c)).1 ∧ (bisect cdf target n (lo, hi, c)).2.1 ≤ hi :=
  bisect_inv cdf target lo hi c h n

/-- C44. The interval keeps containing the crossing. -/
theorem C44_brackets (cdf : Nat → ℝ → ℝ) (target lo hi c x : ℝ) (hx : Crossing cdf target x)
    (h1 : lo ≤ x) (h2 : x ≤ hi) (n : Nat) :
    (bisect cdf target n (lo, hi, c)).1 ≤ x ∧ x ≤ (bisect cdf target n (lo, hi, c)).2.1 := by
  induction n with
  | zero => exact ⟨h1, h2⟩
  | succ n ih =>
    rw [bisect, bisectionStep]
    split
    · rename_i hc
      refine ⟨ih.1, ?_⟩
      simp only
      by_contra hn
      exact absurd ((hx n _).1 (lt_of_not_ge hn)) (not_le.2 hc)
    · rename_i hc
      refine ⟨?_, ih.2⟩
      simp only
      by_contra hn
      exact hc ((hx n _).2 (lt_of_not_ge hn))

/-- C44. The same in terms of a monotone profile which is up to the target at the lower end and
above at the upper end: it is up to the target everywhere below the interval, and above the target
everywhere beyond it, after any number of steps. -/
theorem C44_monotone (g : ℝ → ℝ) (hg : Monotone g) (target lo hi c : ℝ) (hlo : g lo ≤ target)
    (hhi : target < g hi) (n : Nat) :
    (∀ x ≤ (bisect (fun _ => g) target n (lo, hi, c)).1, g x ≤ target) ∧
    ∀ x ≥ (bisect (fun _ => g) target n (lo, hi, c)).2.1, target < g x := by
  have h1 : g (bisect (fun _ => g) target n (lo, hi, c)).1 ≤ target := by
    induction n with
    | zero => exact hlo
    | succ n ih =>
      rw [bisect, bisectionStep]
      split
      · exact ih
      · rename_i h
        exact le_of_not_gt h
  have h2 : target < g (bisect (fun _ => g) target n (lo, hi, c)).2.1 := by
    clear h1
    induction n with
    | zero => exact hhi
    | succ n ih =>
      rw [bisect, bisectionStep]
      split
      · rename_i h
        exact h
      · exact ih
  exact ⟨fun x hx => le_trans (hg hx) h1, fun x hx => lt_of_lt_of_le h2 (hg hx)⟩

/-- C44. The opening angle up to which the profile is sampled: it is the last angle tried, off by
at most 90/16 degrees from the crossing, and always strictly between 0 and 90 degrees, so that
sampling a direction is never refused. -/
theorem C44_bound (cdf : Nat → ℝ → ℝ) (target : ℝ) :
    (∀ i < 4, 0 < (bisect cdf target (i + 1) (0, 90, 0)).2.2 ∧
      (bisect cdf target (i + 1) (0, 90, 0)).2.2 < 90) ∧
    uncBound cdf target = (bisect cdf target 4 (0, 90, 0)).2.2 ∧
    0 < uncBound cdf target ∧ uncBound cdf target < 90 ∧
    ∀ x, Crossing cdf target x → 0 ≤ x → x ≤ 90 → |uncBound cdf target - x| ≤ 90 / 16 := by
  have hc : ∀ i, 90 / 2 ^ (i + 1) ≤ (bisect cdf target (i + 1) (0, 90, 0)).2.2 ∧
      (bisect cdf target (i + 1) (0, 90, 0)).2.2 ≤ 90 - 90 / 2 ^ (i + 1) ∧
      ((bisect cdf target (i + 1) (0, 90, 0)).2.2 = (bisect cdf target (i + 1) (0, 90, 0)).1 ∨
       (bisect cdf target (i + 1) (0, 90, 0)).2.2 = (bisect cdf target (i + 1) (0, 90, 0)).2.1) := by
    intro i
    obtain ⟨h1, h2, h3⟩ := bisect_inv cdf target 0 90 0 (by norm_num) i
    have e : (90 : ℝ) / 2 ^ (i + 1) = (90 - 0) / 2 ^ i / 2 := by
      rw [pow_succ, div_div, sub_zero]
    rw [bisect, bisectionStep, e]
    split
    · simp only
      refine ⟨?_, ?_, by simp⟩ <;> linarith
    · simp only
      refine ⟨?_, ?_, by simp⟩ <;> linarith
  obtain ⟨q1, q2, q3⟩ := hc 3
  norm_num at q1 q2
  have hb : uncBound cdf target = (bisect cdf target 4 (0, 90, 0)).2.2 := by
    unfold uncBound
    rw [min_eq_right]
    norm_num
    linarith
  refine ⟨fun i _ => ?_, hb, ?_, ?_, ?_⟩
  · obtain ⟨h1, h2, _⟩ := hc i
    have : (0 : ℝ) < 90 / 2 ^ (i + 1) := by positivity
    exact ⟨by linarith, by linarith⟩
  · rw [hb]; linarith
  · rw [hb]; linarith
  · intro x hx h0 h90
    obtain ⟨g1, g2⟩ := C44_brackets cdf target 0 90 0 x hx h0 h90 4
    obtain ⟨w, _, _⟩ := bisect_inv cdf target 0 90 0 (by norm_num) 4
    norm_num at w
    rw [hb, abs_le]
    rcases q3 with h | h
    · simp only [Nat.reduceAdd] at h
      constructor <;> linarith
    · simp only [Nat.reduceAdd] at h
      constructor <;> linarith

-- the identity crosses 30 at 30
example : Crossing (fun _ x => x) 30 30 := fun _ _ => ⟨fun h => le_of_lt h, fun h => h⟩

example : Monotone (fun x : ℝ => x) ∧ (0 : ℝ) ≤ 30 ∧ (30 : ℝ) < 90 :=
  ⟨monotone_id, by norm_num, by norm_num⟩

end Verif.Reco
