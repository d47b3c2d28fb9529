import Verif.Loss.Spec
import Verif.Sources.Props
import Mathlib.Tactic.Linarith
import Mathlib.Tactic.Ring

namespace Verif.Loss
open Verif.Py Verif.Dist

variable {B P : ℕ}

theorem sum_scatterAdd (x : Cell B → ℝ) (ids : Fin P → Cell B) (u : Fin P → ℝ) :
    ∑ c, scatterAdd x ids u c = ∑ c, x c + ∑ p, u p := by
  unfold scatterAdd
  rw [Finset.sum_add_distrib, Finset.sum_comm]
  congr 1
  apply Finset.sum_congr rfl
  intro p _
  simp

theorem sum_perEvent (x : Cell B → ℝ) : ∑ b, perEvent x b = ∑ c, x c := by
  unfold perEvent
  exact (Fintype.sum_prod_type x).symm

theorem total_divide (n : ℝ) (t : Term B P) : (t.divide n).total = t.total / n := by
  cases t <;> simp [Term.divide, Term.total, Finset.sum_div]

theorem totals_divide (n : ℝ) (l : List (Term B P)) :
    ((l.map (Term.divide n)).map Term.total).sum = (l.map Term.total).sum / n := by
  induction l with
  | nil => simp
  | cons t l ih =>
    simp only [List.map_cons, List.sum_cons, ih, total_divide]
    ring

theorem sorted_divide (n : ℝ) (s : Sorted B) : (s.divide n).total = s.total / n := by
  simp only [Sorted.total, Sorted.divide, ← Finset.sum_div]
  ring

/-- The sum of the terms before they are filled. -/
def Partial.total (s : Partial B) : ℝ :=
  s.scalar.getD 0 + ∑ b, (s.event.getD fun _ => 0) b + ∑ c, (s.dom.getD fun _ => 0) c

/-- Both ways to call a loss function fail, or they succeed with the same total. -/
def Consistent (plain sorted : Except Err (Terms B P)) : Prop :=
  (∃ e, plain = .error e ∧ sorted = .error e) ∨
    ∃ l s, plain = .ok (.plain l) ∧ sorted = .ok (.sorted s) ∧ s.scalar = none ∧
      s.total = (l.map Term.total).sum

theorem need_bind {α β : Type} (x : Option α) (f : α → Except Err β) :
    (need x >>= f) = match x with | some a => f a | none => .error .keyError := by
  cases x <;> rfl

theorem checkTime_cases (d : Batch B P) (r : Results B P) :
    checkTime d r = .ok () ∨ checkTime d r = .error .assertionError := by
  unfold checkTime
  split_ifs
  · exact .inr rfl
  · exact .inl rfl

theorem ok_bind {α β : Type} (a : α) (f : α → Except Err β) : (Except.ok a >>= f) = f a := rfl

theorem error_bind {α β : Type} (e : Err) (f : α → Except Err β) :
    ((Except.error e : Except Err α) >>= f) = .error e := rfl

theorem consistent_of_ok {l : List (Term B P)} {s : Partial B} {x y : Except Err (Terms B P)}
    (hx : x = .ok (.plain l)) (hy : y = .ok (.sorted s)) (h0 : s.scalar = none)
    (h : s.total = (l.map Term.total).sum) : Consistent x y :=
  .inr ⟨l, s, hx, hy, h0, h⟩

theorem lossFunction_consistent (cfg : Config) (d : Batch B P) (r : Results B P)
    (h : cfg.addNorm = false ∨ (cfg.function ≠ .extended ∧ cfg.function ≠ .pulseAndDom)) :
    Consistent (lossFunction cfg d r false) (lossFunction cfg d r true) := by
  unfold lossFunction
  cases hf : cfg.function with
  | extended =>
    have hn : cfg.addNorm = false := by
      rcases h with h | h
      · exact h
      · exact absurd hf h.1
    simp only [extended, need_bind]
    cases r.pulsePdf with
    | none => exact .inl ⟨_, rfl, rfl⟩
    | some pdf =>
      cases r.domCharges with
      | none => exact .inl ⟨_, rfl, rfl⟩
      | some pred =>
        rcases checkTime_cases d r with ht | ht
        · simp only [ht, ok_bind, hn]
          refine consistent_of_ok rfl rfl rfl ?_
          simp [Partial.total, Term.total, sum_scatterAdd]
        · simp only [ht, error_bind]
          exact .inl ⟨_, rfl, rfl⟩
  | pulseTime =>
    simp only [pulseTime, need_bind]
    cases r.pulsePdf with
    | none => exact .inl ⟨_, rfl, rfl⟩
    | some pdf =>
      rcases checkTime_cases d r with ht | ht
      · simp only [ht, ok_bind]
        cases cfg.addNorm
        · refine consistent_of_ok rfl rfl rfl ?_
          simp [Partial.total, Term.total, sum_scatterAdd]
        · refine consistent_of_ok rfl rfl rfl ?_
          simp [Partial.total, Term.total, sum_scatterAdd]
      · simp only [ht, error_bind]
        exact .inl ⟨_, rfl, rfl⟩
  | pulseAndDom =>
    have hn : cfg.addNorm = false := by
      rcases h with h | h
      · exact h
      · exact absurd hf h.2
    simp only [pulseAndDom, need_bind]
    cases r.pulsePdf with
    | none => exact .inl ⟨_, rfl, rfl⟩
    | some pdf =>
      cases r.domLogPdf with
      | none => exact .inl ⟨_, rfl, rfl⟩
      | some pred =>
        rcases checkTime_cases d r with ht | ht
        · simp only [ht, ok_bind, hn]
          refine consistent_of_ok rfl rfl rfl ?_
          simp [Partial.total, Term.total, sum_scatterAdd]
        · simp only [ht, error_bind]
          exact .inl ⟨_, rfl, rfl⟩
  | chargeQuantile =>
    simp only [chargeQuantile, need_bind]
    cases r.quantilePdf with
    | none => exact .inl ⟨_, rfl, rfl⟩
    | some pdf =>
      rcases checkTime_cases d r with ht | ht
      · simp only [ht, ok_bind]
        refine consistent_of_ok rfl rfl rfl ?_
        simp [Partial.total, Term.total, sum_scatterAdd]
      · simp only [ht, error_bind]
        exact .inl ⟨_, rfl, rfl⟩
  | domAndEvent =>
    simp only [domAndEvent, need_bind]
    cases r.domCharges with
    | none => exact .inl ⟨_, rfl, rfl⟩
    | some pred =>
      cases r.domLogPdf with
      | none => exact .inl ⟨_, rfl, rfl⟩
      | some logPdf =>
        cases r.domVariance with
        | none => exact .inl ⟨_, rfl, rfl⟩
        | some var =>
          rcases checkTime_cases d r with ht | ht
          · simp only [ht, ok_bind]
            refine consistent_of_ok rfl rfl rfl ?_
            simp only [Partial.total, Term.total, Option.getD_none, Option.getD_some, List.map_cons,
              List.map_nil, List.sum_cons, List.sum_nil]
            ring
          · simp only [ht, error_bind]
            exact .inl ⟨_, rfl, rfl⟩
  | negBinomial =>
    simp only [negBinomial, need_bind]
    cases r.domCharges with
    | none => exact .inl ⟨_, rfl, rfl⟩
    | some pred =>
      cases r.domVariance with
      | none => exact .inl ⟨_, rfl, rfl⟩
      | some var =>
        rcases checkTime_cases d r with ht | ht
        · simp only [ht, ok_bind]
          refine consistent_of_ok rfl rfl rfl ?_
          simp [Partial.total, Term.total]
        · simp only [ht, error_bind]
          exact .inl ⟨_, rfl, rfl⟩
  | negBinomialEvent =>
    simp only [negBinomialEvent, need_bind]
    cases r.domCharges with
    | none => exact .inl ⟨_, rfl, rfl⟩
    | some pred =>
      cases r.domVariance with
      | none => exact .inl ⟨_, rfl, rfl⟩
      | some var =>
        rcases checkTime_cases d r with ht | ht
        · simp only [ht, ok_bind]
          refine consistent_of_ok rfl rfl rfl ?_
          simp [Partial.total, Term.total]
        · simp only [ht, error_bind]
          exact .inl ⟨_, rfl, rfl⟩
  | normalizedDom =>
    simp only [normalizedDom, need_bind]
    cases r.domCharges with
    | none => exact .inl ⟨_, rfl, rfl⟩
    | some pred =>
      cases r.domVariance with
      | none => exact .inl ⟨_, rfl, rfl⟩
      | some var =>
        rcases checkTime_cases d r with ht | ht
        · simp only [ht, ok_bind]
          refine consistent_of_ok rfl rfl rfl ?_
          simp [Partial.total, Term.total]
        · simp only [ht, error_bind]
          exact .inl ⟨_, rfl, rfl⟩

/-! ## Names of modes -/

theorem pad2_inj {i j : ℕ} (h : pad2 i = pad2 j) : i = j := by
  have h' := congrArg String.toList h
  simp only [pad2, String.toList_ofList] at h'
  have e : ∀ k n : ℕ, Nat.ofDigitChars 10 (List.replicate k '0' ++ (toString n).toList) 0 = n := by
    intro k n
    rw [Nat.ofDigitChars_append, Nat.ofDigitChars_replicate_zero]
    simp only [Nat.mul_zero]
    have : (toString n).toList = Nat.toDigits 10 n := Nat.toList_repr
    rw [this]
    exact Nat.ofDigitChars_ten_toDigits
  rw [← e (2 - (toString i).length) i, ← e (2 - (toString j).length) j, h']

theorem modeName_inj {i j : ℕ} (h : modeName i = modeName j) : i = j := by
  apply pad2_inj
  have h' := congrArg String.toList h
  simp only [modeName, String.toList_append, List.append_cancel_left_eq] at h'
  exact String.toList_injective h'

theorem nameDict_sound (i : ℤ) (d : Dict String ℤ) (names : List String) (n : String) (j : ℤ)
    (h : Dict.get? (Sources.nameDictFrom i d names) n = some j) :
    Dict.get? d n = some j ∨ ∃ k : ℕ, names[k]? = some n ∧ j = i + k := by
  induction names generalizing i d with
  | nil => exact .inl h
  | cons m names ih =>
    rw [Sources.nameDictFrom] at h
    rcases ih _ _ h with h | ⟨k, hk, rfl⟩
    · rw [Dict.get?_set] at h
      by_cases hm : m = n
      · subst hm
        simp only [if_true, Option.some.injEq] at h
        exact .inr ⟨0, by simp, by simp [h]⟩
      · rw [if_neg hm] at h
        exact .inl h
    · exact .inr ⟨k + 1, by simpa using hk, by push_cast; ring⟩

theorem getIndex_sound {names : List String} {n : String} {i : ℤ}
    (h : Sources.getIndex names n = .ok i) : ∃ k : ℕ, names[k]? = some n ∧ i = k := by
  unfold Sources.getIndex at h
  cases hg : Dict.get? (Sources.nameDictFrom 0 [] names) n with
  | none => rw [hg] at h; simp at h
  | some j =>
    rw [hg] at h
    simp only [Except.ok.injEq] at h
    subst h
    rcases nameDict_sound _ _ _ _ _ hg with h | ⟨k, hk, rfl⟩
    · simp at h
    · exact ⟨k, hk, by simp⟩

theorem C30_index (names : List String) (hnd : names.Nodup) (n : String) (h : n ∈ names) :
    Sources.getIndex names n = .ok (names.idxOf n : ℕ) :=
  ((Sources.C30_inverse names hnd).1 (names.idxOf n) n
    (List.getElem?_idxOf h)).1

theorem getIndex_inj {names : List String} {a b : String} {i : ℤ}
    (ha : Sources.getIndex names a = .ok i) (hb : Sources.getIndex names b = .ok i) : a = b := by
  obtain ⟨k, hk, rfl⟩ := getIndex_sound ha
  obtain ⟨k', hk', h⟩ := getIndex_sound hb
  have : k = k' := by exact_mod_cast h
  subst this
  rw [hk] at hk'
  simpa using hk'

theorem checkModes_ok {names : List String} {start : ℤ} {l : List ℕ}
    (h : checkModes names start l = .ok ()) :
    ∀ i ∈ l, Sources.getIndex names (modeName i) = .ok (start + i) := by
  induction l with
  | nil => simp
  | cons a l ih =>
    rw [checkModes] at h
    cases hg : Sources.getIndex names (modeName a) with
    | error e => rw [hg] at h; simp at h
    | ok j =>
      rw [hg] at h
      simp only at h
      split_ifs at h with hj
      intro i hi
      rcases List.mem_cons.1 hi with rfl | hi
      · rw [hg]; simp only [ne_eq, not_not] at hj; rw [hj]
      · exact ih h i hi

end Verif.Loss
