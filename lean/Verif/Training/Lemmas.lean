/-
Lemmas on schedules, names of models and training steps.
-/
import Verif.Training.Spec
import Verif.Component.Lemmas
import Mathlib.Data.List.Forall2
import Mathlib.Tactic.Ring
import Mathlib.Tactic.Linarith

namespace Verif.Training
open Verif.Py Verif.Component

/-! ### Schedules -/

section
variable {K R : Type} [LinearOrder K]

theorem mid_filter (s : K) : ∀ (bs : List K) (fs : List (K → R)) (i : Nat),
    bs.Pairwise (· < ·) → fs.length + 1 = bs.length → InInterval bs i s →
    (middlePairs s bs fs).filter (fun p => p.1) =
      match i with
      | 0 => []
      | i + 1 => match fs[i]?, bs[i]? with
        | some f, some b => [(true, f, b)]
        | _, _ => []
  | [], fs, i, _, hl, _ => by simp at hl
  | [b], fs, i, _, hl, h => by
    have : fs = [] := by simpa using hl
    subst this
    cases i <;> simp [middlePairs]
  | low :: high :: rest, [], i, _, hl, _ => by simp at hl
  | low :: high :: rest, f :: fs, i, hp, hl, h => by
    have hp' : (high :: rest).Pairwise (· < ·) := (List.pairwise_cons.1 hp).2
    have hlh : low < high := (List.pairwise_cons.1 hp).1 high (by simp)
    have hl' : fs.length + 1 = (high :: rest).length := by simpa using hl
    obtain ⟨h1, h2, h3⟩ := h
    have ih := mid_filter s (high :: rest) fs
    match i with
    | 0 =>
      have hs : s ≤ low := h3 low (by simp)
      have : InInterval (high :: rest) 0 s :=
        ⟨by simp, by simp, fun b hb => by
          simp only [List.getElem?_cons_zero, Option.some.injEq] at hb
          subst hb; exact hs.trans hlh.le⟩
      have ih := ih 0 hp' hl' this
      simp only [middlePairs]
      rw [List.filter_cons_of_neg (by simp [hs]), ih]
    | 1 =>
      have hs : low < s := h2 low (by simp) (by simp)
      have hs' : s ≤ high := h3 high (by simp)
      have : InInterval (high :: rest) 0 s :=
        ⟨by simp, by simp, fun b hb => by
          simp only [List.getElem?_cons_zero, Option.some.injEq] at hb
          subst hb; exact hs'⟩
      have ih := ih 0 hp' hl' this
      simp only [middlePairs]
      rw [List.filter_cons_of_pos (by simp [hs, hs']), ih]
      simp [hs, hs']
    | i + 2 =>
      have hhs : high < s := by
        rcases Nat.eq_zero_or_pos i with rfl | hi
        · exact h2 high (by simp) (by simp)
        · have hlen : i - 1 < rest.length := by simp at h1; omega
          have e : (low :: high :: rest)[i + 2 - 1]? = some (rest[i - 1]'hlen) := by
            obtain ⟨j, rfl⟩ : ∃ j, i = j + 1 := ⟨i - 1, by omega⟩
            simp at hlen ⊢
          have := h2 _ (by omega) e
          have hh : high < rest[i - 1]'hlen := (List.pairwise_cons.1 hp').1 _ (List.getElem_mem _)
          exact hh.trans this
      have : InInterval (high :: rest) (i + 1) s :=
        ⟨by simpa using h1, fun b _ hb => h2 b (by omega) (by simpa using hb),
          fun b hb => h3 b (by simpa using hb)⟩
      have ih := ih (i + 1) hp' hl' this
      simp only [middlePairs]
      rw [List.filter_cons_of_neg (by simp [hhs]), ih]
      simp

theorem interval_unique {bs : List K} (hp : bs.Pairwise (· < ·)) {i j : Nat} {s : K}
    (hi : InInterval bs i s) (hj : InInterval bs j s) : i = j := by
  have key : ∀ i j, InInterval bs i s → InInterval bs j s → ¬ i < j := by
    intro i j hi hj hij
    obtain ⟨_, _, h3⟩ := hi
    obtain ⟨h1, h2, _⟩ := hj
    have a : i < bs.length := by omega
    have b : j - 1 < bs.length := by omega
    have e1 := h3 bs[i] (by simp [a])
    have e2 := h2 bs[j - 1] (by omega) (by simp [b])
    have e3 : bs[i] ≤ bs[j - 1] := by
      rcases Nat.lt_or_ge i (j - 1) with h | h
      · exact (List.pairwise_iff_getElem.1 hp i (j - 1) a b h).le
      · have : i = j - 1 := by omega
        subst this; exact le_refl _
    exact absurd (e1.trans e3) (not_le.2 e2)
  have := key i j hi hj
  have := key j i hj hi
  omega

theorem interval_exists (s : K) : ∀ bs : List K, ∃ i, InInterval bs i s
  | [] => ⟨0, by simp [InInterval]⟩
  | b :: bs => by
    rcases le_or_gt s b with h | h
    · exact ⟨0, by simp, by simp, by simpa using h⟩
    · obtain ⟨i, h1, h2, h3⟩ := interval_exists s bs
      refine ⟨i + 1, by simpa using h1, ?_, by simpa using h3⟩
      intro c _ hc
      match i with
      | 0 => simp at hc; subst hc; exact h
      | i + 1 => exact h2 c (by omega) (by simpa using hc)

theorem middlePairs_length_le (s : K) : ∀ (bs : List K) (fs : List (K → R)),
    (middlePairs s bs fs).length ≤ bs.length - 1
  | [], fs => by simp [middlePairs]
  | [b], fs => by simp [middlePairs]
  | low :: high :: rest, [] => by simp [middlePairs]
  | low :: high :: rest, f :: fs => by
    have := middlePairs_length_le s (high :: rest) fs
    simp [middlePairs] at this ⊢
    omega

end

/-! ### Order of the names of models -/

theorem ofDigit_shift (l : List Char) (a : Nat) :
    Nat.ofDigitChars 10 l a = a * 10 ^ l.length + Nat.ofDigitChars 10 l 0 := by
  induction l generalizing a with
  | nil => simp
  | cons c l ih =>
    rw [Nat.ofDigitChars_cons, ih, Nat.ofDigitChars_cons, ih (10 * 0 + _)]
    simp only [List.length_cons]
    ring

theorem digit_val_le {c : Char} (h : c.isDigit = true) : c.toNat - '0'.toNat ≤ 9 := by
  simp only [Char.isDigit, Bool.and_eq_true, decide_eq_true_eq] at h
  have h2 : c.val.toNat ≤ 57 := h.2
  have : c.toNat = c.val.toNat := rfl
  have : '0'.toNat = 48 := rfl
  omega

theorem ofDigit_lt (l : List Char) (h : ∀ c ∈ l, c.isDigit = true) :
    Nat.ofDigitChars 10 l 0 < 10 ^ l.length := by
  induction l with
  | nil => simp
  | cons c l ih =>
    have := ih (fun d hd => h d (by simp [hd]))
    have hc := digit_val_le (h c (by simp))
    rw [Nat.ofDigitChars_cons, ofDigit_shift, List.length_cons, pow_succ]
    have : (10 * 0 + (c.toNat - '0'.toNat)) * 10 ^ l.length ≤ 9 * 10 ^ l.length :=
      Nat.mul_le_mul_right _ (by omega)
    omega

theorem char_lt_iff {c d : Char} (hc : c.isDigit = true) (hd : d.isDigit = true) :
    c < d ↔ c.toNat - '0'.toNat < d.toNat - '0'.toNat := by
  simp only [Char.isDigit, Bool.and_eq_true, decide_eq_true_eq] at hc hd
  have h1 : 48 ≤ c.val.toNat := hc.1
  have h2 : 48 ≤ d.val.toNat := hd.1
  have e1 : c.toNat = c.val.toNat := rfl
  have e2 : d.toNat = d.val.toNat := rfl
  have : '0'.toNat = 48 := rfl
  have e3 : c < d ↔ c.val.toNat < d.val.toNat := Iff.rfl
  have e4 : '0'.toNat = 48 := rfl
  rw [e3, e1, e2, e4]
  omega

/-- Digit strings of the same length are ordered like the numbers they denote. -/
theorem lex_of_val : ∀ (a b : List Char), a.length = b.length →
    (∀ c ∈ a, c.isDigit = true) → (∀ c ∈ b, c.isDigit = true) →
    Nat.ofDigitChars 10 a 0 < Nat.ofDigitChars 10 b 0 → a < b
  | [], [], _, _, _, h => by simp at h
  | [], _ :: _, h, _, _, _ => by simp at h
  | _ :: _, [], h, _, _, _ => by simp at h
  | c :: a, d :: b, hl, ha, hb, h => by
    have hl' : a.length = b.length := by simpa using hl
    have hc := ha c (by simp)
    have hd := hb d (by simp)
    rw [Nat.ofDigitChars_cons, Nat.ofDigitChars_cons, ofDigit_shift, ofDigit_shift b, hl'] at h
    have hb' := ofDigit_lt b (fun x hx => hb x (by simp [hx]))
    rw [List.cons_lt_cons_iff]
    rcases Nat.lt_trichotomy (c.toNat - '0'.toNat) (d.toNat - '0'.toNat) with hlt | heq | hgt
    · exact Or.inl ((char_lt_iff hc hd).2 hlt)
    · right
      constructor
      · have h1 : ¬ c < d := by rw [char_lt_iff hc hd]; omega
        have h2 : ¬ d < c := by rw [char_lt_iff hd hc]; omega
        exact le_antisymm (not_lt.1 h2) (not_lt.1 h1)
      · apply lex_of_val a b hl' (fun x hx => ha x (by simp [hx])) (fun x hx => hb x (by simp [hx]))
        rw [heq] at h
        omega
    · exfalso
      have : (10 * 0 + (d.toNat - '0'.toNat) + 1) * 10 ^ b.length ≤
          (10 * 0 + (c.toNat - '0'.toNat)) * 10 ^ b.length :=
        Nat.mul_le_mul_right _ (by omega)
      rw [Nat.add_mul] at this
      omega

theorem pad4_val (n : Nat) : Nat.ofDigitChars 10 (pad4 n).toList 0 = n := by
  simp only [pad4, String.toList_ofList]
  rw [Nat.ofDigitChars_append, Nat.ofDigitChars_replicate_zero]
  simp only [Nat.mul_zero]
  have : (toString n).toList = Nat.toDigits 10 n := Nat.toList_repr
  rw [this]
  exact Nat.ofDigitChars_ten_toDigits

theorem pad4_digits (n : Nat) : ∀ c ∈ (pad4 n).toList, c.isDigit = true := by
  intro c hc
  simp only [pad4, String.toList_ofList, List.mem_append] at hc
  rcases hc with hc | hc
  · rw [List.eq_of_mem_replicate hc]; rfl
  · have : (toString n).toList = Nat.toDigits 10 n := Nat.toList_repr
    rw [this] at hc
    exact Nat.isDigit_of_mem_toDigits (by omega) (by omega) hc

theorem pad4_length {n : Nat} (h : n < 10000) : (pad4 n).toList.length = 4 := by
  simp only [pad4, String.toList_ofList, List.length_append, List.length_replicate]
  have e : (toString n).toList = Nat.toDigits 10 n := Nat.toList_repr
  have e2 : (toString n).length = (toString n).toList.length := String.length_toList.symm
  have : (Nat.toDigits 10 n).length ≤ 4 := (Nat.length_toDigits_le_iff (by omega) (by omega)).2 h
  rw [e2, e]
  omega

theorem pad4_lt {i j : Nat} (hij : i < j) (hj : j < 10000) : pad4 i < pad4 j := by
  rw [String.lt_iff_toList_lt]
  apply lex_of_val _ _ _ (pad4_digits i) (pad4_digits j)
  · rwa [pad4_val, pad4_val]
  · rw [pad4_length (by omega), pad4_length hj]

theorem name_lt {i j : Nat} (hij : i < j) (hj : j < 10000) :
    "models_" ++ pad4 i < "models_" ++ pad4 j := by
  have := pad4_lt hij hj
  rw [String.lt_iff_toList_lt] at this ⊢
  rw [String.toList_append, String.toList_append]
  simp only [String.reduceToList, List.cons_append, List.nil_append, List.cons_lt_cons_self]
  exact this

theorem name_inj {i j : Nat} (h : "models_" ++ pad4 i = "models_" ++ pad4 j) : i = j := by
  have h' := congrArg String.toList h
  rw [String.toList_append, String.toList_append] at h'
  have h'' := List.append_cancel_left h'
  rw [← pad4_val i, ← pad4_val j, h'']

theorem name_prefix (i : Nat) : "models_".toList = ("models_" ++ pad4 i).toList.take 7 := by
  rw [String.toList_append]
  simp

/-! ### Ensembles -/

section
variable {V D : Type}

theorem keys_modelEntries (ms : List (Mdl V D)) : ∀ i : Nat,
    Dict.keys (modelEntries i ms) = (List.range' i ms.length).map (fun j => "models_" ++ pad4 j) := by
  induction ms with
  | nil => intro i; simp [modelEntries]
  | cons m ms ih => intro i; simp [modelEntries, ih, List.range'_succ]

theorem get?_modelEntries (ms : List (Mdl V D)) : ∀ i j : Nat, ∀ m : Mdl V D, ms[j]? = some m →
    Dict.get? (modelEntries i ms) ("models_" ++ pad4 (i + j)) = some (.model m) := by
  induction ms with
  | nil => intro i j m h; simp at h
  | cons m ms ih =>
    intro i j m' h
    rw [modelEntries, Dict.get?_cons]
    match j with
    | 0 => simp at h; subst h; simp
    | j + 1 =>
      rw [if_neg (fun e => by have := name_inj e; omega)]
      have := ih (i + 1) j m' (by simpa using h)
      rw [← this]
      congr 3
      omega

theorem handler_key (i : Nat) : "data_handler" ≠ "models_" ++ pad4 i := by
  intro h
  have h' := congrArg (fun s => s.toList.take 1) h
  simp only [String.toList_append] at h'
  simp at h'

theorem collect_models (h : Cfg V) (ms : List (Mdl V D)) : ∀ (l : List Nat),
    (∀ j ∈ l, j < ms.length) →
    collect (("data_handler", Sub.handler h) :: modelEntries 0 ms)
      (l.map (fun j => "models_" ++ pad4 j)) =
      l.filterMap (fun j => (ms[j]?).map Sub.model) := by
  intro l
  induction l with
  | nil => intro _; simp [collect]
  | cons j l ih =>
    intro hl
    have hj := hl j (by simp)
    have e : Dict.get? (("data_handler", Sub.handler h) :: modelEntries 0 ms)
        ("models_" ++ pad4 j) = some (.model ms[j]) := by
      rw [Dict.get?_cons, if_neg (handler_key j)]
      have := get?_modelEntries ms 0 j ms[j] (by simp [hj])
      rwa [Nat.zero_add] at this
    rw [List.map_cons, collect, e]
    simp only
    rw [ih (fun k hk => hl k (by simp [hk]))]
    simp [hj]

theorem model_keys (h : Cfg V) (ms : List (Mdl V D)) :
    (Dict.keys (("data_handler", Sub.handler h) :: modelEntries 0 ms)).filter
      (fun k => decide ("models_".toList = k.toList.take 7)) =
    (List.range ms.length).map (fun j => "models_" ++ pad4 j) := by
  rw [Dict.keys_cons, List.filter_cons_of_neg (by simp), keys_modelEntries,
    ← List.range_eq_range', List.filter_eq_self]
  intro k hk
  obtain ⟨j, _, rfl⟩ := List.mem_map.1 hk
  simp

variable [DecidableEq V]

omit [DecidableEq V] in
theorem initChecks_of_wf {c : Cfg V} (h : WF c) : initChecks c = .ok () := by
  cases h with
  | mk _ h1 h2 h3 h4 h5 h6 h7 =>
    have e1 : checkNames c.subs c.deps = .ok () := by
      unfold checkNames
      rw [if_pos]
      rw [List.all_eq_true]
      intro n hn
      exact (Dict.has_iff _ _).2 (h6 n hn)
    have e2 : combineSettings c.settings c.mutable = .ok (c.settings.update c.mutable) := by
      unfold combineSettings
      rw [if_neg]
      intro hh
      rw [List.any_eq_true] at hh
      obtain ⟨k, hk, hk'⟩ := hh
      exact h5 k hk ((Dict.has_iff _ _).1 hk')
    simp [initChecks, e1, e2]

end
end Verif.Training
