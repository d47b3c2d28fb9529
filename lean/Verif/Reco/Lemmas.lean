import Verif.Reco.Spec
import Mathlib.Tactic.Linarith
import Mathlib.Data.List.Forall2

/-! # Lemmas on reconstruction -/

namespace Verif.Reco
open Verif.Py Verif.Trafo

theorem error_bind {α β : Type} (e : Err) (f : α → Except Err β) :
    (Except.error e >>= f) = Except.error e := rfl

theorem ok_bind {α β : Type} (a : α) (f : α → Except Err β) :
    (Except.ok a >>= f) = f a := rfl

theorem pure_bind' {α β : Type} (a : α) (f : α → Except Err β) :
    ((pure a : Except Err α) >>= f) = f a := rfl

/-! ## Positions -/

theorem positions_mem {fit : List Bool} {i : Nat} : i ∈ positions fit ↔ fit[i]? = some true := by
  unfold positions
  rw [List.mem_filter, List.mem_range]
  constructor
  · rintro ⟨-, h⟩; simpa using h
  · intro h
    exact ⟨(List.getElem?_eq_some_iff.1 h).1, by simpa using h⟩

theorem filter_range_getElem (p : Nat → Bool) (n k i : Nat)
    (h : ((List.range n).filter p)[k]? = some i) :
    i < n ∧ p i = true ∧ ((List.range i).filter p).length = k := by
  induction n with
  | zero => simp at h
  | succ n ih =>
    rw [List.range_succ, List.filter_append, List.getElem?_append] at h
    split at h
    · obtain ⟨h1, h2, h3⟩ := ih h
      exact ⟨by omega, h2, h3⟩
    · rename_i hk
      by_cases hp : p n = true
      · rw [List.filter_singleton, hp] at h
        rw [show (bif true then [n] else []) = [n] from rfl, List.getElem?_singleton] at h
        split at h
        · rename_i h0
          simp only [Option.some.injEq] at h
          subst h
          exact ⟨by omega, hp, by omega⟩
        · simp at h
      · rw [List.filter_singleton] at h
        simp [hp] at h

theorem count_take (fit : List Bool) (i : Nat) (hi : i ≤ fit.length) :
    ((List.range i).filter fun i => fit[i]? = some true).length = (fit.take i).count true := by
  induction i with
  | zero => simp
  | succ i ih =>
    rw [List.range_succ, List.filter_append, List.length_append, ih (by omega)]
    have hlt : i < fit.length := by omega
    rw [List.take_succ_eq_append_getElem hlt, List.count_append]
    congr 1
    by_cases h : fit[i] = true
    · simp [List.getElem?_eq_getElem hlt, h]
    · simp [List.getElem?_eq_getElem hlt, h]

theorem positions_spec {fit : List Bool} {k i : Nat} (h : (positions fit)[k]? = some i) :
    i < fit.length ∧ fit[i]? = some true ∧ (fit.take i).count true = k := by
  obtain ⟨h1, h2, h3⟩ := filter_range_getElem _ _ _ _ h
  exact ⟨h1, by simpa using h2, by rw [← h3, count_take fit i (by omega)]⟩

theorem positions_of {fit : List Bool} {i : Nat} (h : fit[i]? = some true) :
    (positions fit)[(fit.take i).count true]? = some i := by
  have hm := positions_mem.2 h
  obtain ⟨k, hk, he⟩ := List.getElem_of_mem hm
  have h2 : (positions fit)[k]? = some i := by rw [List.getElem?_eq_getElem hk, he]
  have := (positions_spec h2).2.2
  rw [this]
  exact h2

theorem positions_length (fit : List Bool) : (positions fit).length = fit.count true := by
  have := count_take fit fit.length (le_refl _)
  rw [List.take_length] at this
  exact this

/-! ## Merging -/

theorem merge_spec (params seed : List Col) (fits : List Bool) (i counter : Nat)
    (hp : counter + fits.count true ≤ params.length) (hs : i + fits.length ≤ seed.length) :
    ∃ cs, merge params seed fits i counter = .ok cs ∧ cs.length = fits.length ∧
      ∀ j, j < fits.length → cs[j]? =
        if fits[j]? = some true then params[counter + (fits.take j).count true]?
        else seed[i + j]? := by
  induction fits generalizing i counter with
  | nil => exact ⟨[], rfl, rfl, by simp⟩
  | cons fit fits ih =>
    cases fit with
    | true =>
      simp only [List.count_cons_self, List.length_cons] at hp hs
      have hc : counter < params.length := by omega
      obtain ⟨cs, h1, h2, h3⟩ := ih (i + 1) (counter + 1) (by omega) (by omega)
      refine ⟨params[counter] :: cs, ?_, by simp [h2], ?_⟩
      · rw [merge]
        simp only [if_true, List.getElem?_eq_getElem hc, h1]
      · intro j hj
        cases j with
        | zero => simp [List.getElem?_eq_getElem hc]
        | succ j =>
          simp only [List.getElem?_cons_succ, List.take_succ_cons, List.count_cons_self]
          rw [h3 j (by simpa using hj)]
          rw [show counter + 1 + (fits.take j).count true =
            counter + ((fits.take j).count true + 1) by omega,
            show i + 1 + j = i + (j + 1) by omega]
    | false =>
      have e : (false :: fits).count true = fits.count true := by simp
      rw [e] at hp
      simp only [List.length_cons] at hs
      have hc : i < seed.length := by omega
      obtain ⟨cs, h1, h2, h3⟩ := ih (i + 1) counter (by omega) (by omega)
      refine ⟨seed[i] :: cs, ?_, by simp [h2], ?_⟩
      · rw [merge]
        simp only [Bool.false_eq_true, if_false, List.getElem?_eq_getElem hc, h1]
      · intro j hj
        cases j with
        | zero => simp [List.getElem?_eq_getElem hc]
        | succ j =>
          simp only [List.getElem?_cons_succ, List.take_succ_cons]
          rw [h3 j (by simpa using hj)]
          rw [show i + 1 + j = i + (j + 1) by omega]
          simp

theorem stack_ok {cols : List Col} {B : Nat} (hne : cols ≠ []) (h : ∀ c ∈ cols, c.1 = B) :
    stack cols = .ok ⟨[B, cols.length], entry cols⟩ := by
  cases cols with
  | nil => exact absurd rfl hne
  | cons c cs =>
    have hc : c.1 = B := h c (by simp)
    rw [stack, if_pos]
    · simp [hc]
    · simp only [List.all_eq_true, beq_iff_eq]
      intro d hd
      rw [hc, h d (by simp [hd])]

theorem mergeArr_spec (fit : List Bool) (params seed : Arr) (B n k : Nat)
    (hp : params.shape = [B, k]) (hs : seed.shape = [B, n]) (hn : fit.length = n)
    (hk : k = fit.count true) (h0 : fit ≠ []) :
    ∃ a, mergeArr fit params seed = .ok a ∧ a.shape = [B, n] ∧
      ∀ b j, j < n → a.val [b, j] =
        if fit[j]? = some true then params.val [b, (fit.take j).count true]
        else seed.val [b, j] := by
  have u1 : unstack params = .ok ((List.range k).map fun j => (B, fun b => params.val [b, j])) := by
    rw [unstack, hp]
  have u2 : unstack seed = .ok ((List.range n).map fun j => (B, fun b => seed.val [b, j])) := by
    rw [unstack, hs]
  obtain ⟨cs, h1, h2, h3⟩ := merge_spec
    ((List.range k).map fun j => (B, fun b => params.val [b, j]))
    ((List.range n).map fun j => (B, fun b => seed.val [b, j])) fit 0 0
    (by simp [hk]) (by simp [hn])
  have hcs : ∀ c ∈ cs, c.1 = B := by
    intro c hc
    obtain ⟨j, hj, rfl⟩ := List.getElem_of_mem hc
    have := h3 j (by omega)
    rw [List.getElem?_eq_getElem hj] at this
    split at this
    · obtain ⟨x, -, hx⟩ := List.mem_map.1 (List.mem_of_getElem? this.symm)
      rw [← hx]
    · obtain ⟨x, -, hx⟩ := List.mem_map.1 (List.mem_of_getElem? this.symm)
      rw [← hx]
  have hne : cs ≠ [] := by
    intro h
    rw [h] at h2
    exact h0 (List.length_eq_zero_iff.1 h2.symm)
  refine ⟨⟨[B, cs.length], entry cs⟩, ?_, ?_, ?_⟩
  · unfold mergeArr
    rw [u1, u2, ok_bind, ok_bind, h1, ok_bind, stack_ok hne hcs]
  · simp [h2, hn]
  · intro b j hj
    simp only [entry]
    have := h3 j (by omega)
    by_cases hf : fit[j]? = some true
    · rw [if_pos hf] at this ⊢
      have hlt : (fit.take j).count true < k := by
        have h1 := (List.getElem?_eq_some_iff.1 (positions_of hf)).1
        rw [positions_length] at h1
        omega
      rw [this]
      simp [hlt]
    · rw [if_neg hf] at this ⊢
      rw [this]
      simp [hj]

theorem merged_of {fit : List Bool} {B n : Nat} {p s a : Nat → Nat → ℝ} (hn : fit.length = n)
    (h : ∀ b j, j < n → a b j =
        if fit[j]? = some true then p b ((fit.take j).count true) else s b j) :
    Merged fit B p s a := by
  intro b _
  refine ⟨?_, ?_⟩
  · intro k i hk
    obtain ⟨h1, h2, h3⟩ := positions_spec hk
    rw [h b i (by omega), if_pos h2, h3]
  · intro i hi hni
    rw [positions_mem] at hni
    rw [h b i (by omega), if_neg hni]

theorem all_count {fit : List Bool} (h : fit.all id = true) (j : Nat) (hj : j < fit.length) :
    fit[j]? = some true ∧ (fit.take j).count true = j := by
  have hall : ∀ b ∈ fit, b = true := by simpa using h
  refine ⟨?_, ?_⟩
  · rw [List.getElem?_eq_getElem hj, hall _ (List.getElem_mem hj)]
  · rw [List.count_eq_length.2]
    · simp; omega
    · intro b hb
      exact (hall b (List.mem_of_mem_take hb)).symm

theorem ne_nil_of_not_all {fit : List Bool} (h : ¬ fit.all id = true) : fit ≠ [] := by
  rintro rfl
  exact h rfl

/-! ## Transformations of two-dimensional arrays -/

theorem inShape2 {b i B n : Nat} (hb : b < B) (hi : i < n) : InShape [b, i] [B, n] :=
  .cons hb (.cons hi .nil)

theorem logged_iff (t : TensorInfo) (b i : Nat) : Logged t.logMask [b, i] ↔ IsLog t i := by
  unfold IsLog Logged
  simp

open Classical in
theorem transform2 {T : Transformer} {name : String} {t : TensorInfo} {f : Fit}
    (h : Knows T name t f) {n : Nat} (ht : t.shape = [n]) (a : Arr) (B : Nat)
    (ha : a.shape = [B, n]) :
    ∃ b, T.transform a name = .ok b ∧ b.shape = [B, n] ∧ ∀ r < B, ∀ i < n,
      b.val [r, i] = ((if IsLog t i then Real.log (1 + a.val [r, i]) else a.val [r, i]) -
        f.mean.at [r, i]) / (T.norm + f.std.at [r, i]) := by
  obtain ⟨⟨b, h1, h2, h3⟩, -⟩ := C14_transform_value T name t f h a B (by rw [ht, ha])
  refine ⟨b, h1, by rw [h2, ha], fun r hr i hi => ?_⟩
  rw [h3 [r, i] (by rw [ha]; exact inShape2 hr hi)]
  simp only [logged_iff]

open Classical in
theorem inverse2 {T : Transformer} {name : String} {t : TensorInfo} {f : Fit}
    (h : Knows T name t f) {n : Nat} (ht : t.shape = [n]) (isTf : Bool) (a : Arr) (B : Nat)
    (ha : a.shape = [B, n]) :
    ∃ b, T.inverse a name isTf = .ok b ∧ b.shape = [B, n] ∧ ∀ r < B, ∀ i < n,
      b.val [r, i] = if IsLog t i then
        (if isTf = true ∧ ¬ AllLogged t then
          Real.exp (clip60 (a.val [r, i] * (T.norm + f.std.at [r, i]) + f.mean.at [r, i])) - 1
          else Real.exp (a.val [r, i] * (T.norm + f.std.at [r, i]) + f.mean.at [r, i]) - 1)
        else a.val [r, i] * (T.norm + f.std.at [r, i]) + f.mean.at [r, i] := by
  obtain ⟨b, g1, g2, g3⟩ := expPart_spec h isTf true
    { a with val := fun i =>
        if true then a.val i * (T.norm + f.std.at i) + f.mean.at i
        else a.val i * (T.norm + f.std.at i) } B (by rw [ht]; exact ha)
  have hT : T.inverse a name isTf true = .ok b := by
    unfold Transformer.inverse
    rw [h.check a B (by rw [ht, ha])]; simp only; rw [h.fit]; exact g1
  refine ⟨b, hT, g2.trans ha, fun r hr i hi => ?_⟩
  rw [g3 [r, i] (by simp only; rw [ha]; exact inShape2 hr hi)]
  simp only [logged_iff, true_and, if_true]

theorem clip60_of {x : ℝ} (h : |x| ≤ 60) : clip60 x = x := by
  have hb := abs_le.1 h
  unfold clip60
  rw [min_eq_left hb.2, max_eq_right hb.1]

theorem log_of_inRange {x : ℝ} (h : InRange x) :
    0 < 1 + x ∧ |Real.log (1 + x)| ≤ 60 := by
  have hpos : 0 < 1 + x := lt_of_lt_of_le (Real.exp_pos _) h.1
  refine ⟨hpos, abs_le.2 ⟨?_, ?_⟩⟩
  · rw [Real.le_log_iff_exp_le hpos]; exact h.1
  · rw [Real.log_le_iff_le_exp hpos]; exact h.2

end Verif.Reco
