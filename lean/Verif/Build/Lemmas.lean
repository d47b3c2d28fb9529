import Verif.Build.Spec

namespace Verif.Build
open Verif.Py
variable {Cls S Tr H M Cfg L : Type}

theorem baseTrafo_iff (E : Env Cls S Tr H M Cfg) (trafo : Tr) (s : BaseSettings Cfg) (t : Tr) :
    baseTrafo E trafo s = .ok t ↔ OwnTrafo E trafo s t := by
  unfold baseTrafo OwnTrafo
  cases h : s.trafoDir with
  | none =>
    simp only [Except.ok.injEq, reduceCtorEq, false_and, exists_false, true_and, false_or]
    exact eq_comm
  | some dir => simp

theorem buildBase_iff (E : Env Cls S Tr H M Cfg) (allow : Bool) (trafo : Tr) (s : BaseSettings Cfg)
    (x : S) : buildBase E allow trafo s = .ok x ↔ Made E allow trafo s x := by
  unfold buildBase Made
  cases hc : E.cls s.cls with
  | error e => simp
  | ok c =>
    simp only [Except.ok.injEq, exists_eq_left']
    cases hl : s.loadDir with
    | some dir => simp
    | none =>
      cases allow with
      | false => simp
      | true =>
        simp only [Bool.not_true, Bool.false_eq_true, if_false, reduceCtorEq, false_and, exists_false,
          true_and, false_or]
        cases ht : baseTrafo E trafo s with
        | error e =>
          simp only [reduceCtorEq, false_iff, not_exists, not_and]
          intro t h
          rw [(baseTrafo_iff _ _ _ _).2 h] at ht
          cases ht
        | ok t =>
          simp only
          constructor
          · intro h; exact ⟨t, (baseTrafo_iff _ _ _ _).1 ht, h⟩
          · rintro ⟨t', h1, h2⟩
            rw [(baseTrafo_iff _ _ _ _).2 h1] at ht
            cases ht
            exact h2

theorem buildBases_iff (E : Env Cls S Tr H M Cfg) (allow : Bool) (trafo : Tr) :
    ∀ (l : List (String × BaseSettings Cfg)) (d : Dict String S),
    buildBases E allow trafo l = .ok d ↔
      List.Forall₂ (fun p q => p.1 = q.1 ∧ Made E allow trafo p.2 q.2) l d := by
  intro l
  induction l with
  | nil =>
    intro d
    simp only [buildBases, Except.ok.injEq]
    constructor
    · rintro rfl; exact .nil
    · intro h; cases h; rfl
  | cons p l ih =>
    intro d
    obtain ⟨name, s⟩ := p
    unfold buildBases
    constructor
    · intro h
      split at h
      · cases h
      · rename_i x hx
        split at h
        · cases h
        · rename_i d' hd
          cases h
          exact .cons ⟨rfl, (buildBase_iff _ _ _ _ _).1 hx⟩ ((ih d').1 hd)
    · intro h
      cases h with
      | @cons _ q _ d' h1 h2 =>
        obtain ⟨n', x⟩ := q
        obtain ⟨h1, h3⟩ := h1
        simp only at h1 h3
        subst h1
        rw [(buildBase_iff _ _ _ _ _).2 h3]
        simp only
        rw [(ih d').2 h2]

theorem buildLosses_iff (make : String → Cfg → Except Err L) : ∀ l xs,
    buildLosses make l = .ok xs ↔ List.Forall₂ (fun s x => make s.1 s.2 = .ok x) l xs := by
  intro l
  induction l with
  | nil =>
    intro xs
    simp only [buildLosses, Except.ok.injEq]
    constructor
    · rintro rfl; exact .nil
    · intro h; cases h; rfl
  | cons p l ih =>
    intro xs
    obtain ⟨c, s⟩ := p
    unfold buildLosses
    constructor
    · intro h
      split at h
      · cases h
      · rename_i x hx
        split at h
        · cases h
        · rename_i xs' hd
          cases h
          exact .cons hx ((ih xs').1 hd)
    · intro h
      cases h with
      | cons h1 h2 =>
        simp only at h1
        rw [h1]
        simp only
        rw [(ih _).2 h2]

/-! ## Tensors -/

mutual
theorem mem_topNodes (input : String) : ∀ (t : Tensor) (n : String),
    n ∈ topNodes input t ↔ n = input ∧ DependsOn input t
  | .node name const inputs, n => by
    unfold topNodes
    cases inputs with
    | nil =>
      simp only
      constructor
      · intro h
        split at h
        · rename_i hc
          simp only [Bool.and_eq_true, beq_iff_eq] at hc
          obtain ⟨rfl, rfl⟩ := hc
          simp only [List.mem_singleton] at h
          subst h
          exact ⟨rfl, .leaf⟩
        · cases h
      · rintro ⟨rfl, h⟩
        cases h with
        | leaf => simp
        | step h _ => cases h
    | cons t ts =>
      simp only
      rw [mem_topNodesAll input (t :: ts) n]
      constructor
      · rintro ⟨rfl, u, hu, h⟩; exact ⟨rfl, .step hu h⟩
      · rintro ⟨rfl, h⟩
        cases h with
        | step hu h => exact ⟨rfl, _, hu, h⟩
theorem mem_topNodesAll (input : String) : ∀ (ts : List Tensor) (n : String),
    n ∈ topNodesAll input ts ↔ n = input ∧ ∃ t ∈ ts, DependsOn input t
  | [], n => by simp [topNodesAll]
  | t :: ts, n => by
    unfold topNodesAll
    rw [List.mem_append, mem_topNodes input t n, mem_topNodesAll input ts n]
    constructor
    · rintro (⟨rfl, h⟩ | ⟨rfl, u, hu, h⟩)
      · exact ⟨rfl, t, by simp, h⟩
      · exact ⟨rfl, u, by simp [hu], h⟩
    · rintro ⟨rfl, u, hu, h⟩
      rcases List.mem_cons.1 hu with rfl | hu
      · exact .inl ⟨rfl, h⟩
      · exact .inr ⟨rfl, u, hu, h⟩
end

theorem dependsOn_slice {input : String} {name : String} {consts : Nat → String} {t : Tensor}
    (h : ∀ j, consts j ≠ input) : DependsOn input (slice name consts t) ↔ DependsOn input t := by
  constructor
  · intro hd
    have key : ∀ j, ¬ DependsOn input (.node (consts j) true []) := by
      intro j hj
      cases hj with
      | leaf => exact h _ rfl
      | step hm _ => cases hm
    unfold slice at hd
    cases hd with
    | step hm hd =>
      simp only [List.mem_cons, List.not_mem_nil, or_false] at hm
      rcases hm with rfl | rfl | rfl | rfl
      · exact hd
      · exact absurd hd (key 0)
      · exact absurd hd (key 1)
      · exact absurd hd (key 2)
  · intro hd
    exact .step (by simp) hd

theorem checkColumns_iff {input : String} {fresh : Nat → Nat → String} {t : Tensor}
    (h : ∀ i j, fresh i j ≠ input) : ∀ l : List Nat,
    checkColumns input fresh t l = .ok () ↔ l = [] ∨ DependsOn input t := by
  intro l
  induction l with
  | nil => simp [checkColumns]
  | cons i l ih =>
    unfold checkColumns
    simp only
    have hm := fun n => mem_topNodes input (slice (fresh i 3) (fresh i) t) n
    rw [dependsOn_slice (h i)] at hm
    by_cases hd : DependsOn input t
    · have h1 : (topNodes input (slice (fresh i 3) (fresh i) t)).contains input = true := by
        rw [List.contains_iff_mem, hm]; exact ⟨rfl, hd⟩
      have h2 : ((topNodes input (slice (fresh i 3) (fresh i) t)).any fun n => n != input) = false := by
        rw [List.any_eq_false]
        intro n hn
        simp [((hm n).1 hn).1]
      simp only [h1, h2, Bool.not_true, Bool.false_eq_true, if_false]
      rw [ih]
      simp [hd]
    · have h1 : (topNodes input (slice (fresh i 3) (fresh i) t)).contains input = false := by
        rw [Bool.eq_false_iff, Ne, List.contains_iff_mem, hm]
        exact fun hc => hd hc.2
      simp only [h1, Bool.not_false, if_true, reduceCtorEq, List.cons_ne_nil, false_or, hd]

theorem exists_some {α β : Type} {a : α} {b : β} {Q : α → β → Prop} :
    (∃ x y, some a = some x ∧ some b = some y ∧ Q x y) ↔ Q a b := by
  constructor
  · rintro ⟨x, y, h1, h2, h⟩
    cases h1; cases h2
    exact h
  · intro h; exact ⟨a, b, rfl, rfl, h⟩

/-! ## Class strings -/

theorem split_ne_nil (c : Char) (l : List Char) : split c l ≠ [] := by
  cases l with
  | nil => simp [split]
  | cons x xs =>
    unfold split
    split
    · simp
    · split <;> simp

theorem split_no_dot {c : Char} : ∀ {l : List Char}, c ∉ l → split c l = [l] := by
  intro l
  induction l with
  | nil => intro _; rfl
  | cons x xs ih =>
    intro h
    rw [List.mem_cons, not_or] at h
    unfold split
    rw [if_neg (Ne.symm h.1), ih h.2]

theorem split_append (c : Char) (n : List Char) (hn : c ∉ n) : ∀ m : List Char,
    split c (m ++ c :: n) = split c m ++ [n] := by
  intro m
  induction m with
  | nil => simp [split, split_no_dot hn]
  | cons x xs ih =>
    rw [List.cons_append]
    conv_lhs => unfold split
    conv_rhs => unfold split
    rw [ih]
    by_cases hx : x = c
    · simp [hx]
    · simp only [hx, if_false]
      cases hs : split c xs with
      | nil => exact absurd hs (split_ne_nil c xs)
      | cons w ws => simp

theorem join_split (c : Char) : ∀ m : List Char, join c (split c m) = m := by
  intro m
  induction m with
  | nil => rfl
  | cons x xs ih =>
    unfold split
    cases hs : split c xs with
    | nil => exact absurd hs (split_ne_nil c xs)
    | cons w ws =>
      rw [hs] at ih
      by_cases hx : x = c
      · simp only [hx, if_true]
        rw [show join c ([] :: w :: ws) = [] ++ c :: join c (w :: ws) from rfl, ih]
        rfl
      · simp only [hx, if_false]
        cases ws with
        | nil =>
          simp only [join] at ih ⊢
          rw [ih]
        | cons v vs =>
          rw [show join c ((x :: w) :: v :: vs) = (x :: w) ++ c :: join c (v :: vs) from rfl]
          rw [show join c (w :: v :: vs) = w ++ c :: join c (v :: vs) from rfl] at ih
          rw [List.cons_append, ih]

end Verif.Build
