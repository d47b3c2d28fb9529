import Verif.Variables.Spec
import Mathlib.Data.List.Perm.Subperm
import Mathlib.Data.List.Nodup

namespace Verif.Variables
open Verif.Py

theorem mem_dedup_ids (l : List Var) (i : Nat) : i ∈ (dedup l).map Var.id ↔ i ∈ l.map Var.id := by
  induction l with
  | nil => simp [dedup]
  | cons v l ih =>
    simp only [dedup, List.map_cons, List.mem_cons]
    by_cases h : i = v.id
    · simp [h]
    · simp only [h, false_or]
      rw [← ih]
      simp only [List.mem_map, List.mem_filter]
      constructor
      · rintro ⟨w, ⟨h1, -⟩, h2⟩; exact ⟨w, h1, h2⟩
      · rintro ⟨w, h1, h2⟩; exact ⟨w, ⟨h1, by simpa [h2] using h⟩, h2⟩

theorem mem_of_mem_dedup {l : List Var} {v : Var} (h : v ∈ dedup l) : v ∈ l := by
  induction l with
  | nil => simp [dedup] at h
  | cons w l ih =>
    simp only [dedup, List.mem_cons, List.mem_filter] at h
    rcases h with rfl | h
    · simp
    · simp [ih h.1]

theorem nodup_dedup (l : List Var) : ((dedup l).map Var.id).Nodup := by
  induction l with
  | nil => simp [dedup]
  | cons v l ih =>
    simp only [dedup, List.map_cons, List.nodup_cons]
    refine ⟨by simp, ?_⟩
    exact ih.sublist ((List.filter_sublist (p := fun w : Var => decide (w.id ≠ v.id))).map Var.id)

theorem dedup_of_nodup {l : List Var} (h : (l.map Var.id).Nodup) : dedup l = l := by
  induction l with
  | nil => rfl
  | cons v l ih =>
    simp only [List.map_cons, List.nodup_cons] at h
    rw [dedup, ih h.2, List.filter_eq_self.2]
    intro w hw
    simp only [ne_eq, decide_not, Bool.not_eq_eq_eq_not, Bool.not_true, decide_eq_false_iff_not]
    exact fun hc => h.1 (List.mem_map.2 ⟨w, hw, hc⟩)

theorem mem_subVars {subs : List (String × Option (List Var))} {v : Var} :
    v ∈ subVars subs ↔ ∃ name vs, (name, some vs) ∈ subs ∧ v ∈ vs := by
  induction subs with
  | nil => simp [subVars]
  | cons s subs ih =>
    obtain ⟨n, o⟩ := s
    cases o with
    | none => simp [subVars, ih]
    | some vs =>
      simp only [subVars, List.mem_append, ih, List.mem_cons]
      constructor
      · rintro (h | ⟨name, ws, h1, h2⟩)
        · exact ⟨n, vs, Or.inl rfl, h⟩
        · exact ⟨name, ws, Or.inr h1, h2⟩
      · rintro ⟨name, ws, h1 | h1, h2⟩
        · cases h1; exact Or.inl h2
        · exact Or.inr ⟨name, ws, h1, h2⟩

theorem sort_eq_iff (l m : List String) :
    sortBy (fun a b => decide (a ≤ b)) l = sortBy (fun a b => decide (a ≤ b)) m ↔ l.Perm m := by
  have tr : ∀ a b c : String, decide (a ≤ b) = true → decide (b ≤ c) = true → decide (a ≤ c) = true := by
    intro a b c h1 h2
    simp only [decide_eq_true_eq] at *
    exact le_trans h1 h2
  have tot : ∀ a b : String, decide (a ≤ b) = true ∨ decide (b ≤ a) = true := by
    intro a b
    simp only [decide_eq_true_eq]
    exact le_total a b
  constructor
  · intro h
    exact (perm_sortBy _ l).symm.trans (h ▸ perm_sortBy _ m)
  · intro h
    refine List.Perm.eq_of_pairwise ?_ (pairwise_sortBy _ tr tot l) (pairwise_sortBy _ tr tot m)
      ((perm_sortBy _ l).trans (h.trans (perm_sortBy _ m).symm))
    intro a b _ _ h1 h2
    simp only [decide_eq_true_eq] at h1 h2
    exact le_antisymm h1 h2

/-- The check fails exactly if some variable that is found now was not recorded. -/
theorem check_iff (o : Obj) (hn : (o.recorded.map Var.id).Nodup)
    (hu : ∀ v w, v ∈ o.attrs ++ o.recorded ++ (if o.linked then subVars o.subs else []) →
      w ∈ o.attrs ++ o.recorded ++ (if o.linked then subVars o.subs else []) → v.id = w.id → v = w) :
    (o.check = .ok () ↔ ∀ v, v ∈ o.attrs ++ (if o.linked then subVars o.subs else []) → v ∈ o.recorded) ∧
    (o.check = .ok () ∨ o.check = .error .valueError) := by
  refine ⟨?_, by unfold Obj.check; split <;> simp⟩
  have hc : o.check = .ok () ↔ (o.variables.map Var.name).Perm (o.recorded.map Var.name) := by
    unfold Obj.check
    rw [← sort_eq_iff]
    split <;> simp [*]
  rw [hc]
  constructor
  · intro h v hv
    have hlen := h.length_eq
    simp only [List.length_map] at hlen
    -- the recorded ids are among those found, and there are equally many
    have hsub : ∀ i, i ∈ o.recorded.map Var.id → i ∈ o.variables.map Var.id := by
      intro i hi
      unfold Obj.variables
      rw [mem_dedup_ids]
      simp only [List.map_append, List.mem_append]
      exact Or.inl (Or.inr hi)
    have hperm : (o.recorded.map Var.id).Perm (o.variables.map Var.id) :=
      (List.subperm_of_subset hn hsub).perm_of_length_le (by simp [hlen])
    have : v.id ∈ o.variables.map Var.id := by
      unfold Obj.variables
      rw [mem_dedup_ids]
      refine List.mem_map.2 ⟨v, ?_, rfl⟩
      simp only [List.mem_append] at hv ⊢
      tauto
    obtain ⟨w, hw, hid⟩ := List.mem_map.1 (hperm.mem_iff.2 this)
    have := hu w v (by simp [hw]) (by simp only [List.mem_append] at hv ⊢; tauto) hid
    exact this ▸ hw
  · intro h
    refine List.Perm.map _ ?_
    have hall : ∀ v, v ∈ o.variables → v ∈ o.recorded := by
      intro v hv
      have := mem_of_mem_dedup hv
      simp only [List.mem_append] at this
      rcases this with (h1 | h1) | h1
      · exact h v (by simp [h1])
      · exact h1
      · exact h v (List.mem_append.2 (Or.inr h1))
    have hnd : o.variables.Nodup := List.Nodup.of_map _ (nodup_dedup _)
    refine (List.perm_ext_iff_of_nodup hnd (List.Nodup.of_map _ hn)).2 fun v => ⟨hall v, fun hv => ?_⟩
    have : v.id ∈ o.variables.map Var.id := by
      unfold Obj.variables
      rw [mem_dedup_ids]
      exact List.mem_map.2 ⟨v, by simp [hv], rfl⟩
    obtain ⟨w, hw, hid⟩ := List.mem_map.1 this
    have h2 := hu w v (by simp [hall w hw]) (by simp [hv]) hid
    exact h2 ▸ hw

/-- If something was recorded twice and everything found was recorded, the check fails. -/
theorem check_dup (o : Obj) (hn : ¬ (o.recorded.map Var.id).Nodup)
    (hs : ∀ v, v ∈ o.attrs ++ (if o.linked then subVars o.subs else []) → v.id ∈ o.recorded.map Var.id) :
    o.check = .error .valueError := by
  unfold Obj.check
  rw [if_neg]
  rw [sort_eq_iff]
  intro h
  have hlen := h.length_eq
  simp only [List.length_map] at hlen
  have hsub : ∀ i, i ∈ o.variables.map Var.id → i ∈ o.recorded.map Var.id := by
    intro i hi
    unfold Obj.variables at hi
    rw [mem_dedup_ids] at hi
    obtain ⟨v, hv, rfl⟩ := List.mem_map.1 hi
    simp only [List.mem_append] at hv
    rcases hv with (h1 | h1) | h1
    · exact hs v (by simp [h1])
    · exact List.mem_map.2 ⟨v, h1, rfl⟩
    · exact hs v (List.mem_append.2 (Or.inr h1))
  have hperm := (List.subperm_of_subset (nodup_dedup _) hsub).perm_of_length_le (by
    rw [List.length_map, List.length_map]; exact hlen.ge)
  exact hn (hperm.nodup_iff.1 (nodup_dedup _))

theorem step_linked (o : Obj) (a : Act) : (o.step a).linked = o.linked ∧ (o.step a).recorded = o.recorded := by
  cases a <;> exact ⟨rfl, rfl⟩

theorem run_linked (acts : List Act) : ∀ o : Obj, (o.run acts).linked = o.linked ∧
    (o.run acts).recorded = o.recorded := by
  induction acts with
  | nil => intro o; exact ⟨rfl, rfl⟩
  | cons a acts ih =>
    intro o
    exact ⟨(ih _).1.trans (step_linked o a).1, (ih _).2.trans (step_linked o a).2⟩

theorem belongs_step (o : Obj) (a : Act) (v : Var) (h : Belongs (o.step a) v) : Belongs o v ∨ Mentions [a] v := by
  cases a with
  | add w =>
    rcases h with h | h
    · rcases List.mem_cons.1 h with rfl | h
      · exact Or.inr (Or.inl (by simp))
      · exact Or.inl (Or.inl h)
    · exact Or.inl (Or.inr h)
  | remove w =>
    rcases h with h | h
    · exact Or.inl (Or.inl (List.mem_filter.1 h).1)
    · exact Or.inl (Or.inr h)
  | addSub name w =>
    rcases h with h | ⟨n, vs, h1, h2⟩
    · exact Or.inl (Or.inl h)
    · obtain ⟨⟨n', o'⟩, h3, h4⟩ := List.mem_map.1 h1
      unfold addTo at h4
      split at h4
      · cases o' with
        | none => simp at h4
        | some ws =>
          simp only [Option.map_some, Prod.mk.injEq, Option.some.injEq] at h4
          obtain ⟨rfl, rfl⟩ := h4
          rcases List.mem_cons.1 h2 with rfl | h2
          · exact Or.inr (Or.inr ⟨name, by simp⟩)
          · exact Or.inl (Or.inr ⟨_, ws, h3, h2⟩)
      · exact Or.inl (Or.inr ⟨n, vs, by rw [← h4]; exact h3, h2⟩)
  | dropSub name =>
    rcases h with h | ⟨n, vs, h1, h2⟩
    · exact Or.inl (Or.inl h)
    · exact Or.inl (Or.inr ⟨n, vs, (List.mem_filter.1 h1).1, h2⟩)

theorem belongs_run (acts : List Act) : ∀ (o : Obj) (v : Var), Belongs (o.run acts) v →
    Belongs o v ∨ Mentions acts v := by
  induction acts with
  | nil => intro o v h; exact Or.inl h
  | cons a acts ih =>
    intro o v h
    rcases ih _ v h with h | h
    · rcases belongs_step o a v h with h | h
      · exact Or.inl h
      · rcases h with h | ⟨n, h⟩
        · exact Or.inr (Or.inl (by simp at h; simp [h]))
        · exact Or.inr (Or.inr ⟨n, by simp at h; simp [h]⟩)
    · rcases h with h | ⟨n, h⟩
      · exact Or.inr (Or.inl (by simp [h]))
      · exact Or.inr (Or.inr ⟨n, by simp [h]⟩)

theorem belongs_iff (o : Obj) (v : Var) : Belongs o v ↔ v ∈ o.attrs ++ subVars o.subs := by
  rw [List.mem_append, mem_subVars]; rfl

theorem configure_eq {attrs : List Var} {subs : List (String × Option (List Var))} (h : Once attrs subs) :
    configure attrs subs = ⟨attrs, subs, true, attrs ++ subVars subs⟩ := by
  unfold configure Obj.record Obj.variables
  simp only [List.append_nil, Bool.false_eq_true, if_false]
  rw [dedup_of_nodup]
  unfold Once at h
  rw [List.map_append] at h
  exact h.of_append_left

end Verif.Variables
