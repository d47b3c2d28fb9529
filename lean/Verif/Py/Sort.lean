/-
Stable insertion sort, used for `np.argsort`/`sorted` where only the sorted
result matters (keys distinct, or a stable sort in the code).
-/
namespace Verif.Py
variable {α : Type}

/-- Insert into a sorted list, before the first element that is not smaller. -/
def insertBy (le : α → α → Bool) (x : α) : List α → List α
  | [] => [x]
  | y :: rest => if le x y then x :: y :: rest else y :: insertBy le x rest

/-- Stable sort by `le`. -/
def sortBy (le : α → α → Bool) : List α → List α
  | [] => []
  | x :: rest => insertBy le x (sortBy le rest)

theorem perm_insertBy (le : α → α → Bool) (x : α) (l : List α) :
    (insertBy le x l).Perm (x :: l) := by
  induction l with
  | nil => exact List.Perm.refl _
  | cons y rest ih =>
    unfold insertBy
    split
    · exact List.Perm.refl _
    · exact (ih.cons y).trans (List.Perm.swap x y rest)

theorem perm_sortBy (le : α → α → Bool) (l : List α) : (sortBy le l).Perm l := by
  induction l with
  | nil => exact List.Perm.refl _
  | cons x rest ih => exact (perm_insertBy le x _).trans (ih.cons x)

theorem pairwise_insertBy (le : α → α → Bool)
    (htrans : ∀ a b c, le a b = true → le b c = true → le a c = true)
    (htotal : ∀ a b, le a b = true ∨ le b a = true) (x : α) (l : List α)
    (h : l.Pairwise (fun a b => le a b = true)) :
    (insertBy le x l).Pairwise (fun a b => le a b = true) := by
  induction l with
  | nil => simp [insertBy]
  | cons y rest ih =>
    rw [List.pairwise_cons] at h
    unfold insertBy
    split
    · rename_i hxy
      rw [List.pairwise_cons]
      refine ⟨?_, List.pairwise_cons.2 h⟩
      intro b hb
      rcases List.mem_cons.1 hb with rfl | hb
      · exact hxy
      · exact htrans _ _ _ hxy (h.1 b hb)
    · rename_i hxy
      rw [List.pairwise_cons]
      refine ⟨?_, ih h.2⟩
      intro b hb
      rcases List.mem_cons.1 ((perm_insertBy le x rest).mem_iff.1 hb) with rfl | hb
      · rcases htotal b y with h1 | h1
        · exact absurd h1 hxy
        · exact h1
      · exact h.1 b hb

theorem pairwise_sortBy (le : α → α → Bool)
    (htrans : ∀ a b c, le a b = true → le b c = true → le a c = true)
    (htotal : ∀ a b, le a b = true ∨ le b a = true) (l : List α) :
    (sortBy le l).Pairwise (fun a b => le a b = true) := by
  induction l with
  | nil => exact List.Pairwise.nil
  | cons x rest ih => exact pairwise_insertBy le htrans htotal x _ ih

theorem insertBy_of_le (le : α → α → Bool) (x : α) (l : List α)
    (h : ∀ y, y ∈ l → le x y = true) : insertBy le x l = x :: l := by
  cases l with
  | nil => rfl
  | cons y rest => simp [insertBy, h y (by simp)]

/-- A sorted list is not changed by sorting. -/
theorem sortBy_of_pairwise (le : α → α → Bool) (l : List α)
    (h : l.Pairwise (fun a b => le a b = true)) : sortBy le l = l := by
  induction l with
  | nil => rfl
  | cons x rest ih =>
    rw [List.pairwise_cons] at h
    rw [sortBy, ih h.2, insertBy_of_le le x rest h.1]

end Verif.Py
