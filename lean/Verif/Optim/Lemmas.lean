import Verif.Optim.Spec
import Mathlib.Order.Interval.Finset.Nat
import Mathlib.Data.List.Basic
import Mathlib.Data.Finset.Card
import Mathlib.Algebra.BigOperators.Group.List.Basic

/-! # Lemmas on the spherical optimizer -/

namespace Verif.Optim
open Verif.Py

section
variable {α β : Type} [LinearOrder α]

theorem pick_ok (a : List β) (inds : List Nat) (h : ∀ i ∈ inds, i < a.length) :
    ∃ xs, pick a inds = .ok xs ∧ xs.length = inds.length ∧
      ∀ k i : Nat, inds[k]? = some i → xs[k]? = a[i]? := by
  induction inds with
  | nil => exact ⟨[], rfl, rfl, by simp⟩
  | cons i is ih =>
    obtain ⟨xs, h1, h2, h3⟩ := ih (fun j hj => h j (by simp [hj]))
    have hi := h i (by simp)
    refine ⟨a[i] :: xs, ?_, by simp [h2], ?_⟩
    · rw [pick, List.getElem?_eq_getElem hi, h1]
    · intro k j hk
      cases k with
      | zero => simp at hk; subst hk; simp [List.getElem?_eq_getElem hi]
      | succ k => simpa using h3 k j (by simpa using hk)

theorem nodup_between {l : List Nat} (hnd : l.Nodup) {lo hi : Nat}
    (h : ∀ x ∈ l, lo ≤ x ∧ x < hi) : l.length ≤ hi - lo := by
  have h1 : l.toFinset ⊆ Finset.Ico lo hi := by
    intro x hx
    rw [List.mem_toFinset] at hx
    rw [Finset.mem_Ico]
    exact h x hx
  have h2 := Finset.card_le_card h1
  rwa [List.toFinset_card_of_nodup hnd, Nat.card_Ico] at h2

theorem Ascending.le {l : List α} {inds : List Nat} (h : Ascending l inds) {i j : Nat}
    (hij : i ≤ j) {x y : Nat} (hx : inds[i]? = some x) (hy : inds[j]? = some y) {a b : α}
    (ha : l[x]? = some a) (hb : l[y]? = some b) : a ≤ b := by
  rcases Nat.lt_or_eq_of_le hij with hlt | rfl
  · obtain ⟨h1, rfl⟩ := List.getElem?_eq_some_iff.1 hx
    obtain ⟨h2, rfl⟩ := List.getElem?_eq_some_iff.1 hy
    exact List.pairwise_iff_getElem.1 h i j h1 h2 hlt a b ha hb
  · rw [hx] at hy
    cases hy
    rw [ha] at hb
    cases hb
    exact le_refl _

/-- The `N` lowest new values are lower than the `N` highest old ones, in order. -/
def Good (old new : List α) (so sn : List Nat) (N : Nat) : Prop :=
  ∀ i < N, ∃ x y a b, sn[i]? = some x ∧ so[so.length - N + i]? = some y ∧ new[x]? = some a ∧
    old[y]? = some b ∧ a < b

theorem lastN_getElem {γ : Type} (xs : List γ) (n i : Nat) :
    (lastN xs n)[i]? = xs[xs.length - n + i]? := by
  rw [lastN, List.getElem?_drop]

theorem lastN_length {γ : Type} (xs : List γ) (n : Nat) (h : n ≤ xs.length) :
    (lastN xs n).length = n := by
  rw [lastN, List.length_drop]
  omega

theorem search_spec (old new : List α) (so sn : List Nat) (ho : ∀ i ∈ so, i < old.length)
    (hn : ∀ i ∈ sn, i < new.length) (hlen : sn.length ≤ so.length) (n : Nat) (hle : n ≤ sn.length) :
    ∃ N ≤ n, search old new so sn n = .ok ((lastN so N).zip (sn.take N)) ∧ Good old new so sn N ∧
      ∀ m, N < m → m ≤ n → ¬ Good old new so sn m := by
  induction n with
  | zero => exact ⟨0, le_refl _, by simp [search], fun i hi => absurd hi (by omega), by omega⟩
  | succ n ih =>
    obtain ⟨a, a1, a2, a3⟩ := pick_ok new (sn.take (n + 1))
      (fun i hi => hn i (List.mem_of_mem_take hi))
    obtain ⟨b, b1, b2, b3⟩ := pick_ok old (lastN so (n + 1))
      (fun i hi => ho i (List.mem_of_mem_drop hi))
    have la : a.length = n + 1 := by rw [a2, List.length_take]; omega
    have lb : b.length = n + 1 := by rw [b2, lastN_length _ _ (by omega)]
    have hless : lessThans a b = .ok (List.zipWith (fun x y => decide (x < y)) a b) := by
      unfold lessThans
      rw [if_pos (by omega)]
    have hcount : (List.zipWith (fun x y => decide (x < y)) a b).count true = n + 1 ↔
        Good old new so sn (n + 1) := by
      have hzl : (List.zipWith (fun x y => decide (x < y)) a b).length = n + 1 := by
        simp [la, lb]
      have e := List.count_eq_length (a := true)
        (l := List.zipWith (fun x y => decide (x < y)) a b)
      rw [hzl] at e
      rw [e]
      constructor
      · intro h i hi
        have ha : i < a.length := by omega
        have hb : i < b.length := by omega
        have hs : i < sn.length := by omega
        have hso : so.length - (n + 1) + i < so.length := by omega
        refine ⟨sn[i], so[so.length - (n + 1) + i], a[i], b[i], by simp, by simp, ?_, ?_, ?_⟩
        · rw [← a3 i sn[i] (by rw [List.getElem?_take, if_pos hi]; simp)]
          simp
        · rw [← b3 i _ (by rw [lastN_getElem, List.getElem?_eq_getElem hso])]
          simp
        · have hm : (List.zipWith (fun x y => decide (x < y)) a b)[i]'(by omega) ∈
            List.zipWith (fun x y => decide (x < y)) a b := List.getElem_mem _
          have := h _ hm
          rw [List.getElem_zipWith] at this
          simpa using this.symm
      · intro h v hv
        obtain ⟨i, hi, rfl⟩ := List.getElem_of_mem hv
        rw [hzl] at hi
        obtain ⟨x, y, a', b', h1, h2, h3, h4, h5⟩ := h i hi
        have e1 := a3 i x (by rw [List.getElem?_take, if_pos hi]; exact h1)
        have e2 := b3 i y (by rw [lastN_getElem]; exact h2)
        have ha : i < a.length := by omega
        have hb : i < b.length := by omega
        rw [h3, List.getElem?_eq_getElem ha] at e1
        rw [h4, List.getElem?_eq_getElem hb] at e2
        rw [List.getElem_zipWith]
        cases e1
        cases e2
        simpa using h5
    rw [search]
    simp only [a1, b1, hless]
    by_cases hg : Good old new so sn (n + 1)
    · rw [if_pos (hcount.2 hg)]
      exact ⟨n + 1, le_refl _, rfl, hg, by omega⟩
    · rw [if_neg (fun hh => hg (hcount.1 hh))]
      obtain ⟨N, h1, h2, h3, h4⟩ := ih (by omega)
      refine ⟨N, by omega, h2, h3, fun m hm hmn => ?_⟩
      rcases Nat.lt_or_ge m (n + 1) with hlt | hge
      · exact h4 m hm (by omega)
      · have : m = n + 1 := by omega
        rw [this]
        exact hg

/-- A matching of `m` pairs exists only if the `m` lowest new values are lower than the `m`
highest old values. -/
theorem good_of_matching {old new : List α} {so sn : List Nat}
    (ho : ∀ i ∈ so, i < old.length) (hn : ∀ i ∈ sn, i < new.length)
    (hao : Ascending old so) (han : Ascending new sn) (hlen : sn.length ≤ so.length)
    {qs : List (Nat × Nat)} (hq : Matching old new so sn qs) :
    qs.length ≤ sn.length ∧ Good old new so sn qs.length := by
  have rn : ∀ q ∈ qs, sn.idxOf q.2 < sn.length ∧ sn[sn.idxOf q.2]? = some q.2 := by
    intro q hm
    have h1 := List.idxOf_lt_length_of_mem (hq.mem q hm).2
    exact ⟨h1, by rw [List.getElem?_eq_getElem h1, List.getElem_idxOf]⟩
  have ro : ∀ q ∈ qs, so.idxOf q.1 < so.length ∧ so[so.idxOf q.1]? = some q.1 := by
    intro q hm
    have h1 := List.idxOf_lt_length_of_mem (hq.mem q hm).1
    exact ⟨h1, by rw [List.getElem?_eq_getElem h1, List.getElem_idxOf]⟩
  have nn : ∀ l : List (Nat × Nat), l.Sublist qs → (l.map fun q => sn.idxOf q.2).Nodup := by
    intro l hl
    have h1 : (l.map Prod.snd).Nodup := hq.news.sublist (hl.map _)
    have e : (l.map fun q => sn.idxOf q.2) = (l.map Prod.snd).map (fun x => sn.idxOf x) := by
      rw [List.map_map]; rfl
    rw [e]
    refine List.Nodup.map_on ?_ h1
    intro x hx y hy hxy
    obtain ⟨q, hq1, rfl⟩ := List.mem_map.1 hx
    exact (List.idxOf_inj (hq.mem q (hl.subset hq1)).2).1 hxy
  have no : ∀ l : List (Nat × Nat), l.Sublist qs → (l.map fun q => so.idxOf q.1).Nodup := by
    intro l hl
    have h1 : (l.map Prod.fst).Nodup := hq.olds.sublist (hl.map _)
    have e : (l.map fun q => so.idxOf q.1) = (l.map Prod.fst).map (fun x => so.idxOf x) := by
      rw [List.map_map]; rfl
    rw [e]
    refine List.Nodup.map_on ?_ h1
    intro x hx y hy hxy
    obtain ⟨q, hq1, rfl⟩ := List.mem_map.1 hx
    exact (List.idxOf_inj (hq.mem q (hl.subset hq1)).1).1 hxy
  have hle : qs.length ≤ sn.length := by
    have := nodup_between (nn qs (List.Sublist.refl _)) (lo := 0) (hi := sn.length) (by
      intro x hx
      obtain ⟨q, hm, rfl⟩ := List.mem_map.1 hx
      exact ⟨Nat.zero_le _, (rn q hm).1⟩)
    simpa using this
  refine ⟨hle, fun i hi => ?_⟩
  have hs : i < sn.length := by omega
  have hso : so.length - qs.length + i < so.length := by omega
  have hxi := hn sn[i] (List.getElem_mem _)
  have hy := ho so[so.length - qs.length + i] (List.getElem_mem _)
  refine ⟨sn[i], so[so.length - qs.length + i], new[sn[i]], old[so[so.length - qs.length + i]],
    by simp, by simp, by simp, by simp, ?_⟩
  by_contra hcon
  have hcon := not_lt.1 hcon
  -- pairs with few and with many lower new values
  have hA : (qs.filter fun q => decide (sn.idxOf q.2 < i)).length ≤ i := by
    have := nodup_between (nn (qs.filter fun q => decide (sn.idxOf q.2 < i)) List.filter_sublist)
      (lo := 0) (hi := i) (by
        intro x hx
        obtain ⟨q, hm, rfl⟩ := List.mem_map.1 hx
        have := (List.mem_filter.1 hm).2
        exact ⟨Nat.zero_le _, by simpa using this⟩)
    simpa using this
  have hB : (qs.filter fun q => !decide (sn.idxOf q.2 < i)).length ≤
      so.length - (so.length - qs.length + i + 1) := by
    have := nodup_between (no (qs.filter fun q => !decide (sn.idxOf q.2 < i)) List.filter_sublist)
      (lo := so.length - qs.length + i + 1) (hi := so.length) (by
        intro x hx
        obtain ⟨q, hm, rfl⟩ := List.mem_map.1 hx
        obtain ⟨hm, hr⟩ := List.mem_filter.1 hm
        refine ⟨?_, (ro q hm).1⟩
        obtain ⟨a, b, h1, h2, h3⟩ := hq.lower q hm
        by_contra hlt
        have hle : so.idxOf q.1 ≤ so.length - qs.length + i := by omega
        have g1 := hao.le hle (ro q hm).2 (List.getElem?_eq_getElem hso) h2
          (List.getElem?_eq_getElem hy)
        have hr' : i ≤ sn.idxOf q.2 := by simpa using hr
        have g2 := han.le hr' (List.getElem?_eq_getElem hs) (rn q hm).2
          (List.getElem?_eq_getElem hxi) h1
        exact absurd (lt_of_lt_of_le h3 (le_trans g1 (le_trans hcon g2))) (lt_irrefl _))
    simpa using this
  have hsum := List.length_eq_length_filter_add (l := qs) fun q => decide (sn.idxOf q.2 < i)
  omega

theorem zip_map_fst {γ δ : Type} (xs : List γ) (ys : List δ) (h : xs.length = ys.length) :
    (xs.zip ys).map Prod.fst = xs := List.map_fst_zip (by omega)

theorem zip_map_snd {γ δ : Type} (xs : List γ) (ys : List δ) (h : xs.length = ys.length) :
    (xs.zip ys).map Prod.snd = ys := List.map_snd_zip (by omega)

/-- All about the result of `find_replacements`. -/
theorem find_spec (argsort : List α → List Nat) (old new : List α) (oldInds newInds : Option (List Nat))
    (so sn : List Nat) (hso : oldInds.getD (argsort old) = so) (hsn : newInds.getD (argsort new) = sn)
    (ho : ∀ i ∈ so, i < old.length) (hn : ∀ i ∈ sn, i < new.length) (hod : so.Nodup)
    (hnd : sn.Nodup) (hao : Ascending old so) (han : Ascending new sn)
    (hlen : sn.length ≤ so.length) :
    ∃ N ≤ sn.length, findReplacements argsort old new oldInds newInds =
        .ok ((lastN so N).zip (sn.take N)) ∧
      Matching old new so sn ((lastN so N).zip (sn.take N)) ∧
      ((lastN so N).zip (sn.take N)).length = N ∧
      ∀ qs, Matching old new so sn qs → qs.length ≤ N := by
  obtain ⟨N, h1, h2, h3, h4⟩ := search_spec old new so sn ho hn hlen sn.length (le_refl _)
  have hl1 : (lastN so N).length = N := lastN_length _ _ (by omega)
  have hl2 : (sn.take N).length = N := by rw [List.length_take]; omega
  refine ⟨N, h1, ?_, ⟨?_, ?_, ?_, ?_⟩, by rw [List.length_zip]; omega, ?_⟩
  · rw [findReplacements]
    simp only [hso, hsn]
    exact h2
  · rw [zip_map_fst _ _ (by omega)]
    exact hod.sublist (List.drop_sublist _ _)
  · rw [zip_map_snd _ _ (by omega)]
    exact hnd.sublist (List.take_sublist _ _)
  · intro p hp
    have hp' : (p.1, p.2) ∈ (lastN so N).zip (sn.take N) := hp
    exact ⟨List.mem_of_mem_drop (List.of_mem_zip hp').1, List.mem_of_mem_take (List.of_mem_zip hp').2⟩
  · intro p hp
    obtain ⟨i, hi, rfl⟩ := List.getElem_of_mem hp
    rw [List.length_zip] at hi
    obtain ⟨x, y, a, b, g1, g2, g3, g4, g5⟩ := h3 i (by omega)
    refine ⟨a, b, ?_, ?_, g5⟩
    · rw [List.getElem_zip]
      have : (sn.take N)[i]? = some x := by rw [List.getElem?_take, if_pos (by omega), g1]
      rw [List.getElem?_eq_getElem (by omega)] at this
      simp only [Option.some.injEq] at this
      simp only [this, g3]
    · rw [List.getElem_zip]
      have : (lastN so N)[i]? = some y := by rw [lastN_getElem, g2]
      rw [List.getElem?_eq_getElem (by omega)] at this
      simp only [Option.some.injEq] at this
      simp only [this, g4]
  · intro qs hq
    obtain ⟨q1, q2⟩ := good_of_matching ho hn hao han hlen hq
    by_contra hlt
    exact h4 qs.length (by omega) q1 q2

theorem argmin_spec (l : List α) (i : Nat) :
    (l = [] → argminFrom l i = none) ∧ (l ≠ [] → ∃ j v, argminFrom l i = some (i + j, v) ∧
      l[j]? = some v ∧ ∀ w ∈ l, v ≤ w) := by
  induction l generalizing i with
  | nil => exact ⟨fun _ => rfl, fun h => absurd rfl h⟩
  | cons x xs ih =>
    refine ⟨fun h => by simp at h, fun _ => ?_⟩
    rw [argminFrom]
    by_cases hx : xs = []
    · rw [(ih (i + 1)).1 hx]
      exact ⟨0, x, rfl, rfl, by simp [hx]⟩
    · obtain ⟨j, v, h1, h2, h3⟩ := (ih (i + 1)).2 hx
      rw [h1]
      simp only
      split
      · rename_i hlt
        refine ⟨j + 1, v, by rw [show i + 1 + j = i + (j + 1) by omega], by simpa using h2, ?_⟩
        intro w hw
        rcases List.mem_cons.1 hw with rfl | hw
        · exact le_of_lt hlt
        · exact h3 w hw
      · rename_i hge
        refine ⟨0, x, rfl, rfl, ?_⟩
        intro w hw
        rcases List.mem_cons.1 hw with rfl | hw
        · exact le_refl _
        · exact le_trans (not_lt.1 hge) (h3 w hw)

end

/-! ## Replacing points -/

variable {P α : Type} [LinearOrder α]

omit [LinearOrder α] in
theorem replaceAll_length (pts new : List (P × α)) (reps : List (Nat × Nat)) :
    (replaceAll pts new reps).length = pts.length := by
  unfold replaceAll
  induction reps generalizing pts with
  | nil => rfl
  | cons r reps ih =>
    rw [List.foldl_cons, ih]
    split
    · rw [List.length_set]
    · rfl

omit [LinearOrder α] in
theorem replaceAll_get (pts new : List (P × α)) (reps : List (Nat × Nat))
    (hnd : (reps.map Prod.fst).Nodup) (hnew : ∀ r ∈ reps, r.2 < new.length)
    (hold : ∀ r ∈ reps, r.1 < pts.length) :
    (∀ i, i ∉ reps.map Prod.fst → (replaceAll pts new reps)[i]? = pts[i]?) ∧
    ∀ r ∈ reps, (replaceAll pts new reps)[r.1]? = new[r.2]? := by
  unfold replaceAll
  induction reps generalizing pts with
  | nil => exact ⟨fun _ _ => rfl, by simp⟩
  | cons r reps ih =>
    rw [List.map_cons, List.nodup_cons] at hnd
    have hr := hnew r (by simp)
    rw [List.foldl_cons, List.getElem?_eq_getElem hr]
    simp only
    obtain ⟨h1, h2⟩ := ih (pts.set r.1 new[r.2]) hnd.2 (fun q hq => hnew q (by simp [hq]))
      (fun q hq => by rw [List.length_set]; exact hold q (by simp [hq]))
    refine ⟨fun i hi => ?_, fun q hq => ?_⟩
    · simp only [List.map_cons, List.mem_cons, not_or] at hi
      rw [h1 i hi.2, List.getElem?_set_ne (Ne.symm hi.1)]
    · rcases List.mem_cons.1 hq with rfl | hq
      · rw [h1 _ hnd.1, List.getElem?_set_self (hold q (by simp)), List.getElem?_eq_getElem hr]
      · exact h2 q hq

/-! ## The argument sort -/

theorem IsArgsort.facts {argsort : List α → List Nat} (h : IsArgsort argsort) (l : List α) :
    (argsort l).length = l.length ∧ (argsort l).Nodup ∧ (∀ i ∈ argsort l, i < l.length) ∧
      (∀ i < l.length, i ∈ argsort l) ∧ Ascending l (argsort l) := by
  obtain ⟨h1, h2⟩ := h l
  refine ⟨by simpa using h1.length_eq, h1.nodup_iff.2 List.nodup_range, fun i hi => ?_,
    fun i hi => ?_, h2⟩
  · simpa using h1.mem_iff.1 hi
  · exact h1.mem_iff.2 (by simpa using hi)

/-- The first position of the sorted order has the lowest value. -/
theorem head_lowest {argsort : List α → List Nat} (h : IsArgsort argsort) (l : List α)
    {best : Nat} (hb : (argsort l).head? = some best) :
    best < l.length ∧ ∀ v, l[best]? = some v → ∀ w ∈ l, v ≤ w := by
  obtain ⟨h1, h2, h3, h4, h5⟩ := h.facts l
  have hb0 : (argsort l)[0]? = some best := by rw [← List.head?_eq_getElem?]; exact hb
  refine ⟨h3 best (List.mem_of_getElem? hb0), fun v hv w hw => ?_⟩
  obtain ⟨i, hi, rfl⟩ := List.getElem_of_mem hw
  obtain ⟨k, hk, e⟩ := List.getElem_of_mem (h4 i hi)
  exact h5.le (Nat.zero_le k) hb0 (by rw [List.getElem?_eq_getElem hk, e]) hv
    (List.getElem?_eq_getElem hi)

/-! ## Improving a list of points -/

/-- `new` was merged into `pts`: no entry got worse, all entries come from one of the lists, and
no new entry is lower than all that are stored. -/
structure Improves (pts new pts' : List (P × α)) : Prop where
  len : pts'.length = pts.length
  le : ∀ (i : Nat) e, pts[i]? = some e → ∃ e', pts'[i]? = some e' ∧ e'.2 ≤ e.2
  mem : ∀ e ∈ pts', e ∈ pts ∨ e ∈ new
  bound : ∀ e ∈ new, ∃ e' ∈ pts', e'.2 ≤ e.2

theorem improve (c : Settings P α) (hsort : IsArgsort c.argsort) (pts new : List (P × α))
    (so : List Nat) (sn : Option (List Nat))
    (hsn : sn = none ∨ sn = some (c.argsort (new.map Prod.snd)))
    (ho : ∀ i ∈ so, i < pts.length) (hod : so.Nodup) (hao : Ascending (pts.map Prod.snd) so)
    (hlen : new.length ≤ so.length) :
    ∃ reps, findReplacements c.argsort (pts.map Prod.snd) (new.map Prod.snd) (some so) sn =
        .ok reps ∧ reps.length ≤ new.length ∧
      (∀ r ∈ reps, r.1 ∈ lastN so reps.length) ∧ (reps.map Prod.fst).Nodup ∧
      (∀ r ∈ reps, r.2 < new.length) ∧
      Improves pts new (replaceAll pts new reps) := by
  obtain ⟨n1, n2, n3, n4, n5⟩ := hsort.facts (new.map Prod.snd)
  rw [List.length_map] at n1
  have hsn' : sn.getD (c.argsort (new.map Prod.snd)) = c.argsort (new.map Prod.snd) := by
    rcases hsn with rfl | rfl <;> rfl
  obtain ⟨N, h1, h2, h3, h4, h5⟩ := find_spec c.argsort (pts.map Prod.snd) (new.map Prod.snd)
    (some so) sn so _ rfl hsn' (by simpa using ho) n3 hod n2 hao n5 (by omega)
  have hl1 : (lastN so N).length = N := lastN_length _ _ (by omega)
  have hl2 : ((c.argsort (new.map Prod.snd)).take N).length = N := by
    rw [List.length_take]; omega
  have hr2 : ∀ r ∈ (lastN so N).zip ((c.argsort (new.map Prod.snd)).take N), r.2 < new.length := by
    intro r hr
    have := n3 r.2 (h3.mem r hr).2
    simpa using this
  have hr1 : ∀ r ∈ (lastN so N).zip ((c.argsort (new.map Prod.snd)).take N), r.1 < pts.length :=
    fun r hr => ho r.1 (h3.mem r hr).1
  obtain ⟨g1, g2⟩ := replaceAll_get pts new _ h3.olds hr2 hr1
  refine ⟨_, h2, by omega, ?_, h3.olds, hr2, replaceAll_length _ _ _, ?_, ?_, ?_⟩
  · intro r hr
    rw [h4]
    exact (List.of_mem_zip (show (r.1, r.2) ∈ _ from hr)).1
  · intro i e he
    by_cases hi : i ∈ ((lastN so N).zip ((c.argsort (new.map Prod.snd)).take N)).map Prod.fst
    · obtain ⟨r, hr, rfl⟩ := List.mem_map.1 hi
      rw [g2 r hr, List.getElem?_eq_getElem (hr2 r hr)]
      refine ⟨_, rfl, ?_⟩
      obtain ⟨a, b, q1, q2, q3⟩ := h3.lower r hr
      rw [List.getElem?_map, List.getElem?_eq_getElem (hr2 r hr)] at q1
      rw [List.getElem?_map, he] at q2
      cases q1
      cases q2
      exact le_of_lt q3
    · exact ⟨e, by rw [g1 i hi, he], le_refl _⟩
  · intro e he
    obtain ⟨i, hi, rfl⟩ := List.getElem_of_mem he
    have hg := List.getElem?_eq_getElem hi
    by_cases hm : i ∈ ((lastN so N).zip ((c.argsort (new.map Prod.snd)).take N)).map Prod.fst
    · obtain ⟨r, hr, rfl⟩ := List.mem_map.1 hm
      rw [g2 r hr] at hg
      exact Or.inr (List.mem_of_getElem? hg)
    · rw [g1 i hm] at hg
      exact Or.inl (List.mem_of_getElem? hg)
  · intro e he
    obtain ⟨j, hj, rfl⟩ := List.getElem_of_mem he
    have hjm : j < (new.map Prod.snd).length := by simpa using hj
    obtain ⟨k, hk, ek⟩ := List.getElem_of_mem (n4 j hjm)
    have hk0 : 0 < (c.argsort (new.map Prod.snd)).length := by omega
    have hx := n3 _ (List.getElem_mem hk0)
    have hfirst : (new.map Prod.snd)[(c.argsort (new.map Prod.snd))[0]] ≤ new[j].2 := by
      refine n5.le (Nat.zero_le k) (List.getElem?_eq_getElem hk0)
        (by rw [List.getElem?_eq_getElem hk, ek]) (List.getElem?_eq_getElem hx) ?_
      rw [List.getElem?_map, List.getElem?_eq_getElem hj]; rfl
    by_cases hN : N = 0
    · -- nothing replaced: the lowest new value is not below the highest old one
      have hso : so.length - 1 < so.length := by omega
      have hy := ho _ (List.getElem_mem hso)
      refine ⟨pts[so[so.length - 1]], ?_, ?_⟩
      · have := g1 so[so.length - 1] (by subst hN; simp)
        rw [List.getElem?_eq_getElem hy] at this
        exact List.mem_of_getElem? this
      · refine le_trans ?_ hfirst
        by_contra hlt
        have hlt := not_le.1 hlt
        have := h5 [(so[so.length - 1], (c.argsort (new.map Prod.snd))[0])]
          ⟨by simp, by simp, by simp, by
            intro p hp
            simp only [List.mem_singleton] at hp
            subst hp
            exact ⟨_, pts[so[so.length - 1]].2, List.getElem?_eq_getElem hx, by
              rw [List.getElem?_map, List.getElem?_eq_getElem hy]; rfl, hlt⟩⟩
        simp at this
        omega
    · have hz : 0 < ((lastN so N).zip ((c.argsort (new.map Prod.snd)).take N)).length := by omega
      have hr := List.getElem_mem hz
      have e0 := g2 _ hr
      rw [List.getElem?_eq_getElem (hr2 _ hr)] at e0
      refine ⟨_, List.mem_of_getElem? e0, le_trans (le_of_eq ?_) hfirst⟩
      simp [List.getElem_zip]

/-- The lowest of merged points is kept. -/
theorem Improves.exists_le {pts new pts' : List (P × α)} (h : Improves pts new pts') {e : P × α}
    (he : e ∈ pts) : ∃ e' ∈ pts', e'.2 ≤ e.2 := by
  obtain ⟨i, hi, rfl⟩ := List.getElem_of_mem he
  obtain ⟨e', h1, h2⟩ := h.le i _ (List.getElem?_eq_getElem hi)
  exact ⟨e', List.mem_of_getElem? h1, h2⟩

omit [LinearOrder α] in
theorem mem_eval (c : Settings P α) (ps : List P) (e : P × α) (h : e ∈ c.eval ps) :
    e.1 ∈ ps ∧ e.2 = c.f e.1 := by
  obtain ⟨p, hp, rfl⟩ := List.mem_map.1 h
  exact ⟨hp, rfl⟩

omit [LinearOrder α] in
theorem eval_mem (c : Settings P α) {ps : List P} {p : P} (h : p ∈ ps) : (p, c.f p) ∈ c.eval ps :=
  List.mem_map.2 ⟨p, h, rfl⟩

omit [LinearOrder α] in
theorem eval_length (c : Settings P α) (ps : List P) : (c.eval ps).length = ps.length := by
  simp [Settings.eval]

end Verif.Optim
