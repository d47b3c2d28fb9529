/-
Lemmas about the label modules.
-/
import Verif.Labels.Model

namespace Verif.Labels
open Verif.Py

/-! ### names -/

theorem mem_names (n : Nat) (m : Name) : m ∈ parameterNames n ↔
    match m with
    | .energy i => i < n
    | .distance i => 1 ≤ i ∧ i < n
    | _ => True := by
  unfold parameterNames
  cases m <;> by_cases h1 : n ≥ 1 <;> by_cases h2 : n > 1 <;>
    simp [h1, h2, List.mem_flatMap, List.mem_range'_1] <;> omega

theorem names_length (n : Nat) :
    (parameterNames n).length = if n = 0 then 10 else if n = 1 then 11 else 11 + (n - 1) * 2 := by
  unfold parameterNames
  rcases n with _ | _ | n
  · rfl
  · rfl
  · have h : ∀ l : List Nat, (l.flatMap (fun i => [Name.energy i, Name.distance i])).length = l.length * 2 := by
      intro l
      induction l with
      | nil => rfl
      | cons a l ih => simp [List.flatMap_cons, ih]; omega
    simp [h]; omega

theorem names_nodup (n : Nat) : (parameterNames n).Nodup := by
  unfold parameterNames
  have h : ∀ l : List Nat, l.Nodup → (∀ i ∈ l, 1 ≤ i) →
      (Name.energy 0 :: l.flatMap (fun i => [Name.energy i, Name.distance i])).Nodup := by
    intro l hl h1
    rw [List.nodup_cons]
    constructor
    · simp only [List.mem_flatMap, List.mem_cons, Name.energy.injEq, reduceCtorEq, List.not_mem_nil, or_false]
      rintro ⟨i, hi, rfl⟩
      exact absurd (h1 0 hi) (by omega)
    · induction l with
      | nil => simp
      | cons a l ih =>
        rw [List.nodup_cons] at hl
        rw [List.flatMap_cons]
        refine List.nodup_append.mpr ⟨by simp, ih hl.2 (fun i hi => h1 i (by simp [hi])), ?_⟩
        intro x hx y hy hxy
        subst hxy
        simp only [List.mem_flatMap, List.mem_cons, List.not_mem_nil, or_false] at hx hy
        obtain ⟨i, hi, hy⟩ := hy
        rcases hx with rfl | rfl
        · simp at hy; exact hl.1 (hy ▸ hi)
        · simp at hy; exact hl.1 (hy ▸ hi)
  refine List.nodup_append.mpr ⟨by decide, ?_, ?_⟩
  · by_cases h1 : n ≥ 1
    · rw [if_pos h1]
      by_cases h2 : n > 1
      · rw [if_pos h2]
        exact h _ List.nodup_range' (fun i hi => (List.mem_range'_1.mp hi).1)
      · rw [if_neg h2]; simp
    · rw [if_neg h1]; simp
  · intro x hx y hy hxy
    subst hxy
    by_cases h1 : n ≥ 1
    · rw [if_pos h1] at hy
      have hy' : (∃ i, x = Name.energy i) ∨ (∃ i, x = Name.distance i) := by
        rcases List.mem_cons.mp hy with e | e
        · exact Or.inl ⟨0, e⟩
        · by_cases h2 : n > 1
          · rw [if_pos h2, List.mem_flatMap] at e
            obtain ⟨i, -, e⟩ := e
            simp only [List.mem_cons, List.not_mem_nil, or_false] at e
            rcases e with e | e
            · exact Or.inl ⟨i, e⟩
            · exact Or.inr ⟨i, e⟩
          · rw [if_neg h2] at e; simp at e
      rcases hy' with ⟨i, rfl⟩ | ⟨i, rfl⟩ <;> simp at hx
    · rw [if_neg h1] at hy; simp at hy

theorem get_zipIdx (l : List Name) (k : Nat) (m : Name) :
    Dict.get? (l.zipIdx k : Dict Name Nat) m = if m ∈ l then some (k + l.idxOf m) else none := by
  induction l generalizing k with
  | nil => simp
  | cons a l ih =>
    rw [List.zipIdx_cons, Dict.get?_cons, ih]
    by_cases h : a = m
    · subst h; simp
    · have h' : m ≠ a := Ne.symm h
      simp only [if_neg h, List.mem_cons, h', false_or]
      by_cases h2 : m ∈ l
      · simp only [h2, if_true, List.idxOf_cons_ne _ h, Option.some.injEq]; omega
      · simp [h2]

theorem paramIndex_eq (n : Nat) (m : Name) : paramIndex n m =
    if m ∈ parameterNames n then some ((parameterNames n).idxOf m) else none := by
  unfold paramIndex; rw [get_zipIdx]; simp

theorem paramIndex_inj {n : Nat} {m m' : Name} {i : Nat} (h : paramIndex n m = some i)
    (h' : paramIndex n m' = some i) : m = m' := by
  rw [paramIndex_eq] at h h'
  split at h
  · rename_i hm
    split at h'
    · rename_i hm'
      have e1 : (parameterNames n).idxOf m = i := Option.some.inj h
      have e2 : (parameterNames n).idxOf m' = i := Option.some.inj h'
      exact (List.idxOf_inj hm).mp (e1.trans e2.symm)
    · cases h'
  · cases h

theorem paramIndex_lt {n : Nat} {m : Name} {i : Nat} (h : paramIndex n m = some i) :
    i < (parameterNames n).length := by
  rw [paramIndex_eq] at h
  split at h
  · rename_i hm
    have : (parameterNames n).idxOf m = i := Option.some.inj h
    rw [← this]; exact List.idxOf_lt_length_of_mem hm
  · cases h

/-! ### parameters -/

/-- The parameters `p` have the values `v`. -/
def Has (n : Nat) (p : List ℝ) (v : Name → ℝ) : Prop :=
  ∀ m ∈ parameterNames n, ∃ i, paramIndex n m = some i ∧ p[i]? = some (v m)

/-- Nothing but the named parameters differs. -/
def SameTail (n : Nat) (p p' : List ℝ) : Prop :=
  p'.length = p.length ∧ ∀ i, (parameterNames n).length ≤ i → p'[i]? = p[i]?

theorem SameTail.refl (n : Nat) (p : List ℝ) : SameTail n p p := ⟨rfl, fun _ _ => rfl⟩

theorem SameTail.trans {n : Nat} {p q r : List ℝ} (h : SameTail n p q) (h' : SameTail n q r) :
    SameTail n p r := ⟨h'.1.trans h.1, fun i hi => (h'.2 i hi).trans (h.2 i hi)⟩

theorem getParam_has {n : Nat} {p : List ℝ} {v : Name → ℝ} (h : Has n p v) {m : Name}
    (hm : m ∈ parameterNames n) : getParam n p m = .ok (v m) := by
  obtain ⟨i, h1, h2⟩ := h m hm
  simp only [getParam, h1, h2]

theorem addParam_has {n : Nat} {p : List ℝ} {v : Name → ℝ} (h : Has n p v) {m : Name}
    (hm : m ∈ parameterNames n) (d : ℝ) :
    ∃ p', addParam n p m d = .ok p' ∧ Has n p' (fun m' => if m' = m then v m + d else v m') ∧
      SameTail n p p' := by
  obtain ⟨i, h1, h2⟩ := h m hm
  have hi : i < p.length := (List.getElem?_eq_some_iff.mp h2).1
  refine ⟨p.set i (v m + d), by simp only [addParam, h1, h2], ?_, by simp, ?_⟩
  · intro m' hm'
    obtain ⟨j, h3, h4⟩ := h m' hm'
    refine ⟨j, h3, ?_⟩
    by_cases e : m' = m
    · subst e
      rw [h1] at h3
      cases h3
      simp [hi]
    · have hij : i ≠ j := fun eij => e (paramIndex_inj h3 (eij ▸ h1))
      simp only [if_neg e]
      rw [List.getElem?_set_ne hij]; exact h4
  · intro j hj
    rw [List.getElem?_set_ne]
    have := paramIndex_lt h1
    omega

/-- Values after a sequence of additions. -/
noncomputable def applyAdds (v : Name → ℝ) (l : List (Name × ℝ)) : Name → ℝ :=
  fun m => v m + (l.filter (fun x => decide (x.1 = m))).foldr (fun x s => x.2 + s) 0

theorem applyAdds_cons (v : Name → ℝ) (m : Name) (d : ℝ) (l : List (Name × ℝ)) :
    applyAdds (fun m' => if m' = m then v m + d else v m') l = applyAdds v ((m, d) :: l) := by
  funext m'
  unfold applyAdds
  by_cases e : m' = m
  · subst e; simp [add_assoc]
  · have : m ≠ m' := Ne.symm e
    simp [e, this]

theorem addParams_has {n : Nat} (l : List (Name × ℝ)) (hl : ∀ x ∈ l, x.1 ∈ parameterNames n)
    {p : List ℝ} {v : Name → ℝ} (h : Has n p v) :
    ∃ p', addParams n l p = .ok p' ∧ Has n p' (applyAdds v l) ∧ SameTail n p p' := by
  induction l generalizing p v with
  | nil =>
    refine ⟨p, rfl, ?_, SameTail.refl n p⟩
    have : applyAdds v [] = v := by funext m; simp [applyAdds]
    rw [this]; exact h
  | cons x l ih =>
    obtain ⟨m, d⟩ := x
    obtain ⟨p1, h1, h2, h3⟩ := addParam_has h (hl (m, d) (by simp)) d
    obtain ⟨p2, h4, h5, h6⟩ := ih (fun x hx => hl x (by simp [hx])) h2
    refine ⟨p2, by simp only [addParams, h1, h4], ?_, h3.trans h6⟩
    rw [← applyAdds_cons]; exact h5

theorem shiftOthers_has {n : Nat} (shift : ℝ) (is : List Nat) (hn : is.Nodup)
    (hi : ∀ i ∈ is, 1 ≤ i ∧ i < n) {p : List ℝ} {v : Name → ℝ} (h : Has n p v) :
    ∃ p' v', shiftOthers n shift is p = .ok p' ∧ Has n p' v' ∧ SameTail n p p' ∧
      (∀ i ∈ is, v' (.distance i) = v (.distance i) - shift + extension (v (.energy i))) ∧
      (∀ m, (∀ i ∈ is, m ≠ .distance i) → v' m = v m) := by
  induction is generalizing p v with
  | nil => exact ⟨p, v, rfl, h, SameTail.refl n p, by simp, fun _ _ => rfl⟩
  | cons i is ih =>
    rw [List.nodup_cons] at hn
    obtain ⟨h1, h2⟩ := hi i (by simp)
    have he : Name.energy i ∈ parameterNames n := (mem_names n _).mpr h2
    have hd : Name.distance i ∈ parameterNames n := (mem_names n _).mpr ⟨h1, h2⟩
    obtain ⟨p1, h3, h4, h5⟩ := addParams_has
      [(.distance i, -shift), (.distance i, extension (v (.energy i)))] (by simp [hd]) h
    obtain ⟨p2, v2, h6, h7, h8, h9, h10⟩ := ih hn.2 (fun j hj => hi j (by simp [hj])) h4
    refine ⟨p2, v2, by simp only [shiftOthers, getParam_has h he, h3, h6], h7, h5.trans h8, ?_, ?_⟩
    · intro j hj
      by_cases e : j = i
      · subst e
        rw [h10 (.distance j) (fun k hk => by
          intro e; cases e; exact hn.1 hk)]
        simp [applyAdds]; ring
      · have hj' : j ∈ is := by simpa [e] using hj
        rw [h9 j hj']
        have e' : i ≠ j := Ne.symm e
        simp [applyAdds, e']
    · intro m hm
      rw [h10 m (fun k hk => hm k (by simp [hk]))]
      have : Name.distance i ≠ m := Ne.symm (hm i (by simp))
      simp [applyAdds, this]

end Verif.Labels
