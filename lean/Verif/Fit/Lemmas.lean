import Verif.Fit.Spec

/-!
# Lemmas for C84 to C88
-/

namespace Verif.Fit
open Verif.Py Verif.Trafo Verif.Reco

theorem logged_iff_isLog {t : TensorInfo} (ht : t.WellFormed) {n i : ℕ} (hs : t.shape = [n])
    (hi : i < n) : logged t i = true ↔ IsLog t i := by
  unfold logged IsLog Logged
  cases hm : t.logMask with
  | none => simp
  | some m =>
    have hl := ht.mask m hm
    rw [hs] at hl
    simp only [List.getLast?_singleton, Option.some.injEq] at hl
    simp only [Bool.or_eq_true, beq_iff_eq, Option.some.injEq]
    constructor
    · rintro (h | h)
      · refine ⟨m, i, rfl, rfl, ?_⟩
        have hall : ∀ b ∈ m, b = true := by simpa using h
        rw [List.getElem?_eq_getElem (by omega), hall _ (List.getElem_mem (by omega))]
      · exact ⟨m, i, rfl, rfl, h⟩
    · rintro ⟨m', k, rfl, hk, h⟩
      simp only [List.getLast?_cons_cons, List.getLast?_singleton, Option.some.injEq] at hk
      subst hk
      exact Or.inr h

/-- Deviation plus constant, of a parameter. -/
theorem Knows.pos {T : Transformer} {name : String} {t : TensorInfo} {f : Trafo.Fit}
    (h : Knows T name t f) {n i b : ℕ} (hs : t.shape = [n]) (hi : i < n) :
    0 < T.norm + f.std.at [b, i] := by
  have := h.std [i] b (by rw [hs]; exact .cons hi .nil)
  have := h.norm
  linarith

theorem at_row (a : Arr) (b b' i : ℕ) : a.at [b, i] = a.at [b', i] := rfl

theorem count_of_all {fit : List Bool} (h : fit.all id = true) : fit.count true = fit.length := by
  rw [List.count_eq_length]
  intro b hb
  have := List.all_eq_true.1 h b hb
  simpa using this.symm

/-! ## Flattening -/

theorem flatten_length (a : Arr) (B k : ℕ) (ha : a.shape = [B, k]) :
    (flatten a).length = B * k := by
  unfold flatten
  rw [ha]
  simp [indices, List.length_flatMap]

theorem flatMap_range_getElem {α : Type} (B k : ℕ) (f : ℕ → ℕ → α) (b j : ℕ) (hb : b < B)
    (hj : j < k) :
    ((List.range B).flatMap fun b => (List.range k).map fun j => f b j)[b * k + j]? =
      some (f b j) := by
  induction B with
  | zero => omega
  | succ B ih =>
    rw [List.range_succ, List.flatMap_append]
    have hl : ((List.range B).flatMap fun b => (List.range k).map fun j => f b j).length = B * k := by
      simp [List.length_flatMap]
    rcases Nat.lt_succ_iff_lt_or_eq.1 hb with h | rfl
    · rw [List.getElem?_append_left (by
        rw [hl]
        calc b * k + j < b * k + k := by omega
          _ = (b + 1) * k := by ring
          _ ≤ B * k := Nat.mul_le_mul_right _ h)]
      exact ih h
    · rw [List.getElem?_append_right (by rw [hl]; omega), hl]
      simp [hj]

theorem flatten_getElem (a : Arr) (B k : ℕ) (ha : a.shape = [B, k]) (b j : ℕ) (hb : b < B)
    (hj : j < k) : (flatten a)[b * k + j]? = some (a.val [b, j]) := by
  have : flatten a = (List.range B).flatMap fun b => (List.range k).map fun j => a.val [b, j] := by
    unfold flatten
    rw [ha]
    simp [indices, List.map_flatMap]
    simp only [List.map_eq_flatMap]
  rw [this]
  exact flatMap_range_getElem B k (fun b j => a.val [b, j]) b j hb hj

theorem reshape_ok (x : List ℝ) (B k : ℕ) (hk : 0 < k) (hx : x.length = B * k) :
    ∃ a, reshape x k = .ok a ∧ a.shape = [B, k] ∧
      ∀ b j, a.val [b, j] = x.getD (b * k + j) 0 := by
  refine ⟨⟨[x.length / k, k], inRows x k⟩, ?_, ?_, fun b j => rfl⟩
  · unfold reshape
    rw [if_neg (by rw [hx, Nat.mul_mod_left]; omega)]
  · rw [hx, Nat.mul_div_cancel _ hk]

/-! ## Locality of the hypothesis -/

/-- The parameters of an event depend on its fitted values and its seed only. -/
theorem hypothesis_local {T : Transformer} {name : String} {t : TensorInfo} {f : Trafo.Fit}
    (h : Knows T name t f) (fit : List Bool) (ht : t.shape = [fit.length]) (inTrafo : Bool)
    (B B' : ℕ) (p s p' s' : Arr) (hp : p.shape = [B, fit.count true])
    (hs : s.shape = [B, fit.length]) (hp' : p'.shape = [B', fit.count true])
    (hs' : s'.shape = [B', fit.length]) :
    ∃ a a', hypothesis T name fit inTrafo p s = .ok a ∧ a.shape = [B, fit.length] ∧
      hypothesis T name fit inTrafo p' s' = .ok a' ∧ a'.shape = [B', fit.length] ∧
      ∀ b < B, ∀ b' < B', (∀ k < fit.count true, p.val [b, k] = p'.val [b', k]) →
        (∀ i < fit.length, s.val [b, i] = s'.val [b', i]) →
        ∀ i < fit.length, a.val [b, i] = a'.val [b', i] := by
  have key : ∀ (B : ℕ) (p s : Arr), p.shape = [B, fit.count true] → s.shape = [B, fit.length] →
      ∃ a m st, hypothesis T name fit inTrafo p s = .ok a ∧ a.shape = [B, fit.length] ∧
        (∀ b < B, ∀ i < fit.length, m.val [b, i] =
          if fit[i]? = some true then p.val [b, (fit.take i).count true] else st.val [b, i]) ∧
        m.shape = [B, fit.length] ∧ fromSpace T name inTrafo true m = .ok a ∧
        toSpace T name inTrafo s = .ok st ∧ st.shape = [B, fit.length] := by
    intro B p s hp hs
    obtain ⟨st, s1, s2⟩ : ∃ st, toSpace T name inTrafo s = .ok st ∧ st.shape = [B, fit.length] := by
      cases inTrafo with
      | false => exact ⟨s, rfl, hs⟩
      | true =>
        obtain ⟨st, g1, g2, -⟩ := transform2 h ht s B hs
        exact ⟨st, by rw [toSpace, if_pos rfl, g1], g2⟩
    obtain ⟨m, m1, m2, m3⟩ : ∃ m, allParams T name fit inTrafo p s = .ok m ∧
        m.shape = [B, fit.length] ∧ ∀ b < B, ∀ i < fit.length, m.val [b, i] =
          if fit[i]? = some true then p.val [b, (fit.take i).count true] else st.val [b, i] := by
      by_cases hall : fit.all id = true
      · refine ⟨p, by rw [allParams, if_pos hall], by rw [hp, count_of_all hall], ?_⟩
        intro b _ i hi
        obtain ⟨h1, h2⟩ := all_count hall i hi
        rw [if_pos h1, h2]
      · obtain ⟨m, m1, m2, m3⟩ := mergeArr_spec fit p st B fit.length _ hp s2 rfl rfl
          (ne_nil_of_not_all hall)
        refine ⟨m, ?_, m2, fun b _ i hi => m3 b i hi⟩
        unfold allParams
        rw [if_neg hall, s1]
        exact m1
    obtain ⟨a, a1, a2⟩ : ∃ a, fromSpace T name inTrafo true m = .ok a ∧
        a.shape = [B, fit.length] := by
      cases inTrafo with
      | false => exact ⟨m, rfl, m2⟩
      | true =>
        obtain ⟨a, g1, g2, -⟩ := inverse2 h ht true m B m2
        exact ⟨a, by rw [fromSpace, if_pos rfl, g1], g2⟩
    refine ⟨a, m, st, ?_, a2, m3, m2, a1, s1, s2⟩
    unfold hypothesis
    rw [m1]
    exact a1
  obtain ⟨a, m, st, a1, a2, a3, a4, a5, a6, a7⟩ := key B p s hp hs
  obtain ⟨a', m', st', b1, b2, b3, b4, b5, b6, b7⟩ := key B' p' s' hp' hs'
  refine ⟨a, a', a1, a2, b1, b2, fun b hb b' hb' hpp hss i hi => ?_⟩
  have hm : m.val [b, i] = m'.val [b', i] := by
    rw [a3 b hb i hi, b3 b' hb' i hi]
    by_cases hf : fit[i]? = some true
    · rw [if_pos hf, if_pos hf]
      refine hpp _ ?_
      have h1 := (List.getElem?_eq_some_iff.1 (positions_of hf)).1
      rw [positions_length] at h1
      exact h1
    · rw [if_neg hf, if_neg hf]
      cases inTrafo with
      | false =>
        have e1 : s = st := by simpa [toSpace] using a6
        have e2 : s' = st' := by simpa [toSpace] using b6
        rw [← e1, ← e2]
        exact hss i hi
      | true =>
        obtain ⟨st₂, g1, -, g3⟩ := transform2 h ht s B hs
        obtain ⟨st₂', g1', -, g3'⟩ := transform2 h ht s' B' hs'
        rw [toSpace, if_pos rfl, g1] at a6
        rw [toSpace, if_pos rfl, g1'] at b6
        cases a6
        cases b6
        rw [g3 b hb i hi, g3' b' hb' i hi, hss i hi]
        rfl
  cases inTrafo with
  | false =>
    have e1 : m = a := by simpa [fromSpace] using a5
    have e2 : m' = a' := by simpa [fromSpace] using b5
    rw [← e1, ← e2]
    exact hm
  | true =>
    obtain ⟨c, g1, -, g3⟩ := inverse2 h ht true m B a4
    obtain ⟨c', g1', -, g3'⟩ := inverse2 h ht true m' B' b4
    rw [fromSpace, if_pos rfl, g1] at a5
    rw [fromSpace, if_pos rfl, g1'] at b5
    cases a5
    cases b5
    rw [g3 b hb i hi, g3' b' hb' i hi, hm]
    rfl

/-! ## Sums that are smallest if every term is -/

/-- A sum of functions of separate parts is smallest exactly where every part is. -/
theorem sum_min_iff {α : Type} (B : ℕ) (g : ℕ → α → ℝ) (x : ℕ → α) :
    (∀ y : ℕ → α, ((List.range B).map fun b => g b (x b)).sum ≤
      ((List.range B).map fun b => g b (y b)).sum) ↔ ∀ b < B, ∀ z, g b (x b) ≤ g b z := by
  constructor
  · intro h b hb z
    have := h (fun c => if c = b then z else x c)
    have e : ∀ l : List ℕ, l.Nodup → b ∈ l →
        (l.map fun c => g c (if c = b then z else x c)).sum =
          (l.map fun c => g c (x c)).sum - g b (x b) + g b z := by
      intro l hl hmem
      induction l with
      | nil => simp at hmem
      | cons c l ih =>
        rw [List.nodup_cons] at hl
        simp only [List.map_cons, List.sum_cons]
        by_cases hc : c = b
        · subst hc
          have : (l.map fun d => g d (if d = c then z else x d)) = l.map fun d => g d (x d) := by
            refine List.map_congr_left fun d hd => ?_
            rw [if_neg]
            rintro rfl
            exact hl.1 hd
          rw [this, if_pos rfl]
          ring
        · rw [if_neg hc, ih hl.2 (by simpa [Ne.symm hc] using hmem)]
          ring
    rw [e _ List.nodup_range (List.mem_range.2 hb)] at this
    linarith
  · intro h y
    exact List.sum_le_sum fun b hb => h b (List.mem_range.1 hb) _

end Verif.Fit
