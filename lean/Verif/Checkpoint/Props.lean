/-
C27, C28, C29 and C56: the checkpoint history of a model directory, crashes during a save, the training
steps and the training loop.
-/
import Verif.Checkpoint.TrainLemmas
import Mathlib.Algebra.BigOperators.Group.List.Basic

namespace Verif.Checkpoint
open Verif.Py

variable {W : Type}

/-- Calls with non-negative limits in which programs only die before an index file is written. -/
def Fine (ops : List (Op W)) : Prop := ∀ op ∈ ops, GoodLimit op ∧ EarlyCrash op

theorem inv_of_fine {ops : List (Op W)} (h : Fine ops) :
    Inv (saved Disk.empty ops) (exec Disk.empty ops) := by
  simpa using inv_exec ops (inv_empty (W := W)) h

theorem limits_of_fine {ops : List (Op W)} (h : Fine ops) : ∀ a ∈ saved Disk.empty ops, 0 ≤ a.maxKeep :=
  saved_good ops _ (fun op ho => (h op ho).1)

/-! ### C27 -/

/-- **C27.** After every history of calls on a new directory, the index files on disk are exactly those of the
checkpoints that are to be kept, and each of them loads with the values that were saved. -/
theorem C27_kept_partial (ops : List (Op W)) (h : Fine ops) :
    (∀ number, number ∈ (exec Disk.empty ops).index ↔
      ∃ (i : Nat) (a : Save W), number = i + 1 ∧ Kept (saved Disk.empty ops) i a) ∧
    (∀ (i : Nat) (a : Save W), Kept (saved Disk.empty ops) i a →
      loadWeights (exec Disk.empty ops) (some (i + 1)) = .ok a.w) := by
  have hi := inv_of_fine h
  have hl := limits_of_fine h
  refine ⟨?_, ?_⟩
  · intro number
    rw [hi.index]
    constructor
    · intro hm
      have h1 : 1 ≤ number := by
        rcases hm with hm | hm
        · exact ((good_absOf _).u.2 _ hm).1
        · exact ((good_absOf _).p.2 _ hm).1
      obtain ⟨i, rfl⟩ : ∃ i, number = i + 1 := ⟨number - 1, by omega⟩
      obtain ⟨a, ha⟩ := (kept_iff _ hl i).1 hm
      exact ⟨i, a, rfl, ha⟩
    · rintro ⟨i, a, rfl, ha⟩
      exact (kept_iff _ hl i).2 ⟨a, ha⟩
  · intro i a ha
    have hm := (kept_iff _ hl i).2 ⟨a, ha⟩
    have hlt : i < (saved Disk.empty ops).length := (List.getElem?_eq_some_iff.1 ha.1).1
    have hn := absOf_n (saved Disk.empty ops)
    exact load_some hi.book (by omega) _ hm ((hi.index _).2 hm) (hi.data _ a hm ha.1)

/-- **C27.** The bookkeeping file lists exactly the checkpoints on disk, the protected ones as protected, and
its latest checkpoint is the last save, which is what loading without a number gives. -/
theorem C27_book_partial (ops : List (Op W)) (h : Fine ops) (a : Save W)
    (ha : (saved Disk.empty ops).getLast? = some a) :
    ∃ m, (exec Disk.empty ops).book = .good m ∧
      m.latest = (saved Disk.empty ops).length ∧
      (∀ number, (number ∈ Dict.keys m.unprot ∨ number ∈ Dict.keys m.prot) ↔
        number ∈ (exec Disk.empty ops).index) ∧
      (∀ i, i + 1 ∈ Dict.keys m.prot ↔ ∃ b, (saved Disk.empty ops)[i]? = some b ∧ b.prot = true) ∧
      loadWeights (exec Disk.empty ops) none = .ok a.w := by
  have hi := inv_of_fine h
  have hl := limits_of_fine h
  have hn := absOf_n (saved Disk.empty ops)
  have hne : saved Disk.empty ops ≠ [] := by rintro e; rw [e] at ha; cases ha
  have hpos : 0 < (saved Disk.empty ops).length := List.length_pos_iff.2 hne
  have hn0 : (absOf (saved Disk.empty ops)).n ≠ 0 := by omega
  refine ⟨⟨(absOf (saved Disk.empty ops)).n, mk (absOf (saved Disk.empty ops)).U,
    mk (absOf (saved Disk.empty ops)).P⟩, ?_, hn, ?_, ?_, ?_⟩
  · rw [hi.book, bookOf, if_neg hn0]
  · intro number
    rw [keys_mk, keys_mk, hi.index]
  · intro i
    rw [keys_mk, mem_P]
  · rw [load_none hi.book hn0]
    have hlast : (saved Disk.empty ops)[(saved Disk.empty ops).length - 1]? = some a := by
      rw [← List.getLast?_eq_getElem?]; exact ha
    have hk : Kept (saved Disk.empty ops) ((saved Disk.empty ops).length - 1) a := by
      refine ⟨hlast, Or.inr ?_⟩
      intro j b hij hb hbp hb0
      have hjlt : j < (saved Disk.empty ops).length := (List.getElem?_eq_some_iff.1 hb).1
      have hj : j = (saved Disk.empty ops).length - 1 := by omega
      subst hj
      have h0 := hl b (List.mem_of_getElem? hb)
      have : unprotected (saved Disk.empty ops) ((saved Disk.empty ops).length - 1)
          ((saved Disk.empty ops).length - 1) ≤ 1 := by
        unfold unprotected
        refine Nat.le_trans List.countP_le_length ?_
        simp only [List.length_drop, List.length_take]
        omega
      omega
    have := (C27_kept_partial ops h).2 _ a hk
    rw [hn]
    rwa [Nat.sub_add_cancel hpos] at this

/-- **C27.** Saves do not fail: the only reasons are variables that changed since the configuration and a number
of training steps without a usable training steps file. -/
theorem C27_save_succeeds (ops : List (Op W)) (h : Fine ops) (a : Save W) (hk : 0 ≤ a.maxKeep) :
    ((exec Disk.empty ops).call (.weights a)).2 = none ↔
      a.changed = false ∧ ∀ num, a.numSteps = some num →
        ∃ s v, (exec Disk.empty ops).steps = .good s ∧ Dict.get? s.steps s.latest = some v := by
  have hi := inv_of_fine h
  cases hc : a.changed
  · have ho := saveWeights_eq (good_absOf _) hi.book hi.notMem_index a hk hc
    simp only [Disk.call, ho, true_and]
    cases hn : a.numSteps with
    | none => simp [stepEffs, hn]
    | some num =>
      simp only [stepEffs, hn, updateNumSteps]
      cases hs : (exec Disk.empty ops).steps with
      | missing => simp
      | torn => simp
      | good s =>
        simp only
        cases hg : Dict.get? s.steps s.latest with
        | none =>
          simp only [reduceCtorEq, false_iff]
          intro hcon
          obtain ⟨s', v, h1, h2⟩ := hcon num rfl
          cases h1
          rw [hg] at h2; cases h2
        | some v =>
          simp only [true_iff]
          intro _ _
          exact ⟨s, v, rfl, hg⟩
  · simp [Disk.call, saveWeights_changed _ a hc]

/-- **C27.** If all unprotected saves have the same positive limit, exactly the last `limit` unprotected
checkpoints are kept. -/
theorem C27_same_limit (h : List (Save W)) (limit : Nat) (hpos : 0 < limit)
    (hall : ∀ a ∈ h, a.prot = false → a.maxKeep = limit) (i : Nat) (a : Save W) (ha : h[i]? = some a)
    (hp : a.prot = false) : Kept h i a ↔ (h.drop i).countP (fun b => !b.prot) ≤ limit := by
  constructor
  · rintro ⟨_, hc | hc⟩
    · rw [hp] at hc; cases hc
    · -- the last unprotected save
      have hex : ∃ (j : Nat) (b : Save W), i ≤ j ∧ h[j]? = some b ∧ b.prot = false ∧
          unprotected h i j = (h.drop i).countP (fun b => !b.prot) := by
        clear hc hall
        induction h using List.reverseRecOn generalizing a with
        | nil => simp at ha
        | append_singleton h c ih =>
          have hile : i ≤ h.length := by
            have := (List.getElem?_eq_some_iff.1 ha).1
            simp only [List.length_append, List.length_cons, List.length_nil] at this
            omega
          cases hcp : c.prot
          · refine ⟨h.length, c, hile, by simp, hcp, ?_⟩
            rw [unprotected_last _ _ _ hile, List.drop_append_of_le_length hile, List.countP_append]
            simp [hcp]
          · have hlt : i < h.length := by
              rcases Nat.lt_or_ge i h.length with h1 | h1
              · exact h1
              · have : i = h.length := by omega
                subst this
                simp only [List.getElem?_append_right (Nat.le_refl _), Nat.sub_self,
                  List.getElem?_cons_zero, Option.some.injEq] at ha
                subst ha
                rw [hcp] at hp; cases hp
            rw [getElem?_snoc_of_lt _ _ _ hlt] at ha
            obtain ⟨j, b, h1, h2, h3, h4⟩ := ih a ha hp ha
            have hjlt : j < h.length := (List.getElem?_eq_some_iff.1 h2).1
            refine ⟨j, b, h1, by rw [getElem?_snoc_of_lt _ _ _ hjlt]; exact h2, h3, ?_⟩
            rw [unprotected_snoc_lt _ _ _ _ hjlt, h4, List.drop_append_of_le_length (by omega),
              List.countP_append]
            simp [hcp]
      obtain ⟨j, b, h1, h2, h3, h4⟩ := hex
      have hb := hall b (List.mem_of_getElem? h2) h3
      have := hc j b h1 h2 h3 (by omega)
      rw [h4, hb] at this
      omega
  · intro hle
    refine ⟨ha, Or.inr ?_⟩
    intro j b hij hb hbp _
    rw [hall b (List.mem_of_getElem? hb) hbp]
    have : unprotected h i j ≤ (h.drop i).countP (fun b => !b.prot) := by
      unfold unprotected
      apply List.Sublist.countP_le
      exact (List.take_sublist _ _).drop _
    omega

section Examples

/-- Six saves with limit 2, the second protected, and one program that died. -/
def exOps : List (Op Nat) :=
  [.settings, .weights { w := 10, maxKeep := 2 }, .weights { w := 20, maxKeep := 2, prot := true },
   .weights { w := 30, maxKeep := 2, numSteps := some 5 }, .crashed { w := 35, maxKeep := 2 } 1,
   .weights { w := 40, maxKeep := 2 }, .weights { w := 50, maxKeep := 2 }]

example : Fine exOps := by
  intro op hop
  simp only [exOps, List.mem_cons, List.not_mem_nil, or_false] at hop
  rcases hop with rfl | rfl | rfl | rfl | rfl | rfl | rfl <;> exact ⟨by simp [GoodLimit], by simp [EarlyCrash]⟩

example : (saved Disk.empty exOps).length = 5 ∧ (exec Disk.empty exOps).index = [2, 4, 5] ∧
    loadWeights (exec Disk.empty exOps) none = .ok 50 ∧
    loadWeights (exec Disk.empty exOps) (some 2) = .ok 20 ∧
    loadWeights (exec Disk.empty exOps) (some 3) = .error .keyError := by decide

/-- Validation in each third iteration: a `nan` in iterations 2 and 6 stops the run in iteration 6. -/
example : (train (⟨fun _ w => w + 1, fun i => i == 2 || i == 6, 3, 4, 2⟩ : Run Nat) 9 100 Disk.empty).2 =
      some .valueError ∧
    (train (⟨fun _ w => w + 1, fun i => i == 2 || i == 6, 3, 4, 2⟩ : Run Nat) 9 100 Disk.empty).1.1.index =
      [1, 2, 3] := by decide

end Examples

/-- **C27 is violated** for `max_keep = 0`: nothing is deleted, because `l[:-0]` is empty. -/
theorem C27_zero_limit_violated :
    ∃ ops : List (Op Nat), (∀ op ∈ ops, ∃ w, op = .weights { w := w, maxKeep := 0 }) ∧
      (exec Disk.empty ops).index = [1, 2, 3] :=
  ⟨[.weights { w := 1, maxKeep := 0 }, .weights { w := 2, maxKeep := 0 }, .weights { w := 3, maxKeep := 0 }],
    by simp, by decide⟩

/-- **C27 is violated** for negative limits: the first save returns without an exception, but the checkpoint is
deleted at once and the weights cannot be loaded. -/
theorem C27_negative_limit_violated (w : W) (k : Nat) (hk : 0 < k) :
    ∃ m, let r := (Disk.empty (W := W)).call (.weights { w := w, maxKeep := -(k : Int) })
      r.2 = none ∧ r.1.index = [] ∧ r.1.book = .good m ∧ m.latest = 1 ∧
        ∃ e, loadWeights r.1 none = .error e := by
  obtain ⟨k, rfl⟩ : ∃ j, k = j + 1 := ⟨k - 1, by omega⟩
  have h : saveWeights (Disk.empty (W := W)) { w := w, maxKeep := -((k + 1 : Nat) : Int) } =
      .ok [.writeData 1 w, .writeIndex 1, .rmData 1, .rmIndex 1, .openMeta, .writeMeta ⟨1, [], []⟩] := by
    have h1 : sliceToNeg [1] (-((k + 1 : Nat) : Int)) = [1] := by
      unfold sliceToNeg
      rw [if_neg (by omega), Int.neg_neg]
      simp
    have h2 : (-((k + 1 : Nat) : Int)) < (([1] : List Nat).length : Int) := by
      simp only [List.length_cons, List.length_nil]
      omega
    have h3 : sortBy (fun i j => decide (i ≤ j)) (Dict.keys (Dict.set ([] : Dict Nat Info) 1 ⟨1⟩)) = [1] := by
      decide
    simp only [saveWeights, readMeta, Disk.empty, Bool.false_eq_true, if_false, List.not_mem_nil, stepEffs,
      Nat.zero_add]
    rw [h3, h1, if_pos h2]
    rfl
  refine ⟨⟨1, [], []⟩, ?_⟩
  simp only [Disk.call, h]
  exact ⟨trivial, rfl, rfl, trivial, _, rfl⟩

/-! ### C28 -/

/-- **C28.** The later save succeeds exactly if the program died before the index file of the new checkpoint was
written or after the bookkeeping file was written. -/
theorem C28_later_save_partial (ops : List (Op W)) (h : Fine ops) (a b : Save W) (ha : 0 ≤ a.maxKeep)
    (hb : 0 ≤ b.maxKeep) (hbc : b.changed = false) (hbn : b.numSteps = none) (effs : List (Eff W))
    (he : saveWeights (exec Disk.empty ops) a = .ok effs) (k : Nat) :
    (((exec Disk.empty ops).call (.crashed a k)).1.call (.weights b)).2 = none ↔
      k ≤ (if a.numSteps.isSome then 3 else 1) ∨ effs.length ≤ k := by
  have hi := inv_of_fine h
  obtain ⟨es, hse, rfl⟩ := hi.ok_form ha he
  have hcall : ((exec Disk.empty ops).call (.crashed a k)).1 =
      (exec Disk.empty ops).run ((es ++ mainEffs (absOf (saved Disk.empty ops)) a).take k) := by
    simp only [Disk.call, he]
  rw [hcall]
  have hlen := stepEffs_length hse
  have hearly : (k ≤ if a.numSteps.isSome then 3 else 1) ↔ k ≤ es.length + 1 := by
    rw [hlen]; split <;> omega
  rw [hearly]
  have hok : ∀ (h' : List (Save W)) (d' : Disk W), Inv h' d' → (d'.call (.weights b)).2 = none := by
    intro h' d' hi'
    have ho := saveWeights_eq (good_absOf _) hi'.book hi'.notMem_index b hb hbc
    simp [Disk.call, ho, stepEffs, hbn]
  by_cases h1 : k ≤ es.length + 1
  · simp only [h1, true_or, iff_true]
    exact hok _ _ (hi.early a hse k h1)
  · by_cases h2 : (es ++ mainEffs (absOf (saved Disk.empty ops)) a).length ≤ k
    · simp only [h2, or_true, iff_true]
      rw [List.take_of_length_le h2]
      exact hok _ _ (hi.save a hse)
    · simp only [h1, h2, or_self, iff_false]
      by_cases h3 : k + 1 = (es ++ mainEffs (absOf (saved Disk.empty ops)) a).length
      · have ht := run_torn (d := exec Disk.empty ops) es (absOf (saved Disk.empty ops)) a k h3
        simp [Disk.call, saveWeights, hbc, readMeta, ht]
      · obtain ⟨m1, m2, _⟩ := run_middle hi a ha hse k (by omega) (by omega)
        have hr := readMeta_of_book (m1.trans hi.book) (good_absOf _).zero
        simp [Disk.call, saveWeights, hbc, hr, m2]

/-- **C28.** Until the bookkeeping file is opened, every checkpoint that outlives the save can be loaded. -/
theorem C28_survivors_partial (ops : List (Op W)) (h : Fine ops) (a : Save W) (ha : 0 ≤ a.maxKeep)
    (effs : List (Eff W)) (he : saveWeights (exec Disk.empty ops) a = .ok effs) (k : Nat)
    (hk : k + 2 ≤ effs.length) (i : Nat) (c : Save W) (hi0 : Kept (saved Disk.empty ops) i c)
    (hi1 : Kept (saved Disk.empty ops ++ [a]) i c) :
    loadWeights ((exec Disk.empty ops).call (.crashed a k)).1 (some (i + 1)) = .ok c.w := by
  have hi := inv_of_fine h
  have hl := limits_of_fine h
  have hg := good_absOf (saved Disk.empty ops)
  obtain ⟨es, hse, rfl⟩ := hi.ok_form ha he
  have hcall : ((exec Disk.empty ops).call (.crashed a k)).1 =
      (exec Disk.empty ops).run ((es ++ mainEffs (absOf (saved Disk.empty ops)) a).take k) := by
    simp only [Disk.call, he]
  rw [hcall]
  have hm := (kept_iff _ hl i).2 ⟨c, hi0⟩
  have hm1 := (kept_iff (saved Disk.empty ops ++ [a]) (by
    intro x hx
    rcases List.mem_append.1 hx with hx | hx
    · exact hl x hx
    · simp only [List.mem_singleton] at hx; subst hx; exact ha) i).2 ⟨c, hi1⟩
  have hn := absOf_n (saved Disk.empty ops)
  have hlt : i < (saved Disk.empty ops).length := (List.getElem?_eq_some_iff.1 hi0.1).1
  have hn0 : (absOf (saved Disk.empty ops)).n ≠ 0 := by omega
  by_cases h1 : k ≤ es.length + 1
  · have hi' := hi.early a hse k h1
    exact load_some hi'.book hn0 _ hm ((hi'.index _).2 hm) (hi'.data _ c hm hi0.1)
  · obtain ⟨m1, _, m3⟩ := run_middle hi a ha hse k (by omega) hk
    have hnr : i + 1 ∉ removed (absOf (saved Disk.empty ops)).n (absOf (saved Disk.empty ops)).U a := by
      intro hr
      rw [absOf_snoc] at hm1
      have hU := removed_subset _ a _ hg ha hr
      cases hprot : a.prot
      · have happ := removed_append_stepU (absOf (saved Disk.empty ops)).n (absOf (saved Disk.empty ops)).U a hprot
        have hnd := hg.u.snoc.nodup
        rw [← happ, List.nodup_append] at hnd
        rcases hm1 with h4 | h4
        · exact hnd.2.2 _ hr _ h4 rfl
        · simp only [Abs.step, stepP, hprot, Bool.false_eq_true, if_false] at h4
          exact hg.disj _ hU h4
      · simp [removed, hprot] at hr
    obtain ⟨g1, g2⟩ := m3 _ hm hnr
    exact load_some (m1.trans hi.book) hn0 _ hm g1 (by rw [g2]; exact hi.data _ c hm hi0.1)

/-- **C28.** With a limit other than 1, or for a protected save, the latest checkpoint can be loaded at every
crash point at which the bookkeeping file is not open. -/
theorem C28_latest_partial (ops : List (Op W)) (h : Fine ops) (a c : Save W) (ha : 0 ≤ a.maxKeep)
    (hne1 : a.prot = true ∨ a.maxKeep ≠ 1) (effs : List (Eff W))
    (he : saveWeights (exec Disk.empty ops) a = .ok effs) (k : Nat) (hk : k + 2 ≤ effs.length)
    (hc : (saved Disk.empty ops).getLast? = some c) :
    loadWeights ((exec Disk.empty ops).call (.crashed a k)).1 none = .ok c.w := by
  have hi := inv_of_fine h
  have hl := limits_of_fine h
  have hn := absOf_n (saved Disk.empty ops)
  have hne : saved Disk.empty ops ≠ [] := by rintro e; rw [e] at hc; cases hc
  have hpos : 0 < (saved Disk.empty ops).length := List.length_pos_iff.2 hne
  have hn0 : (absOf (saved Disk.empty ops)).n ≠ 0 := by omega
  have hlast : (saved Disk.empty ops)[(saved Disk.empty ops).length - 1]? = some c := by
    rw [← List.getLast?_eq_getElem?]; exact hc
  -- the last checkpoint outlives the save
  have hsmall : ∀ j, unprotected (saved Disk.empty ops ++ [a]) ((saved Disk.empty ops).length - 1) j ≤ 2 := by
    intro j
    unfold unprotected
    refine Nat.le_trans List.countP_le_length ?_
    simp only [List.length_drop, List.length_take, List.length_append, List.length_cons, List.length_nil]
    omega
  have hone : ∀ j, j < (saved Disk.empty ops).length →
      unprotected (saved Disk.empty ops) ((saved Disk.empty ops).length - 1) j ≤ 1 := by
    intro j hj
    unfold unprotected
    refine Nat.le_trans List.countP_le_length ?_
    simp only [List.length_drop, List.length_take]
    omega
  have hk0 : Kept (saved Disk.empty ops) ((saved Disk.empty ops).length - 1) c := by
    refine ⟨hlast, Or.inr ?_⟩
    intro j b hij hb _ hb0
    have hjlt : j < (saved Disk.empty ops).length := (List.getElem?_eq_some_iff.1 hb).1
    have h0 := hl b (List.mem_of_getElem? hb)
    have := hone j hjlt
    omega
  have hk1 : Kept (saved Disk.empty ops ++ [a]) ((saved Disk.empty ops).length - 1) c := by
    refine ⟨by rw [getElem?_snoc_of_lt _ _ _ (by omega)]; exact hlast, Or.inr ?_⟩
    intro j b hij hb hbp hb0
    by_cases hjlt : j < (saved Disk.empty ops).length
    · rw [getElem?_snoc_of_lt _ _ _ hjlt] at hb
      have h0 := hl b (List.mem_of_getElem? hb)
      rw [unprotected_snoc_lt _ _ _ _ hjlt]
      have := hone j hjlt
      omega
    · have hjl : j < (saved Disk.empty ops ++ [a]).length := (List.getElem?_eq_some_iff.1 hb).1
      simp only [List.length_append, List.length_cons, List.length_nil] at hjl
      have hj : j = (saved Disk.empty ops).length := by omega
      subst hj
      rw [List.getElem?_append_right (Nat.le_refl _), Nat.sub_self, List.getElem?_cons_zero,
        Option.some.injEq] at hb
      subst hb
      have := hsmall (saved Disk.empty ops).length
      rcases hne1 with hp | hp
      · rw [hp] at hbp; cases hbp
      · omega
  have hload := C28_survivors_partial ops h a ha effs he k hk _ c hk0 hk1
  rw [Nat.sub_add_cancel hpos] at hload
  obtain ⟨es, hse, rfl⟩ := hi.ok_form ha he
  have hcall : ((exec Disk.empty ops).call (.crashed a k)).1 =
      (exec Disk.empty ops).run ((es ++ mainEffs (absOf (saved Disk.empty ops)) a).take k) := by
    simp only [Disk.call, he]
  rw [hcall] at hload ⊢
  have hbook : ((exec Disk.empty ops).run ((es ++ mainEffs (absOf (saved Disk.empty ops)) a).take k)).book =
      bookOf (absOf (saved Disk.empty ops)) := by
    by_cases h1 : k ≤ es.length + 1
    · exact (hi.early a hse k h1).book
    · exact (run_middle hi a ha hse k (by omega) hk).1.trans hi.book
  rw [load_none hbook hn0, hn]
  exact hload

section Examples

example : ∃ effs, saveWeights (exec Disk.empty exOps) { w := 60, maxKeep := 2 } = .ok effs ∧ effs.length = 6 :=
  ⟨_, rfl, by decide⟩

example : loadWeights ((exec Disk.empty exOps).call (.crashed { w := 60, maxKeep := 2 } 4)).1 none = .ok 50 := by
  decide

end Examples

/-- **C28 is violated**: a program that dies between the index file and the bookkeeping file leaves a checkpoint
that makes every later save raise an IOError. -/
theorem C28_later_save_violated :
    ∃ (ops : List (Op Nat)) (a : Save Nat) (k : Nat), Fine ops ∧
      ∀ b : Save Nat, b.changed = false →
        (((exec Disk.empty ops).call (.crashed a k)).1.call (.weights b)).2 = some .ioError := by
  refine ⟨[.weights { w := 1 }], { w := 2 }, 2, ?_, ?_⟩
  · intro op hop
    simp only [List.mem_singleton] at hop
    subst hop
    exact ⟨by simp [GoodLimit], trivial⟩
  · intro b hb
    have h1 : ((exec Disk.empty [.weights { w := 1 }]).call (.crashed ({ w := 2 } : Save Nat) 2)).1 =
        ⟨[(1, 1), (2, 2)], [1, 2], .good ⟨1, [(1, ⟨1⟩)], []⟩, .missing, []⟩ := by decide
    rw [h1]
    simp [Disk.call, saveWeights, hb, readMeta]

/-- **C28 is violated**: after a crash the bookkeeping file can list a checkpoint whose files are gone; with a
limit of 1 it is the latest. -/
theorem C28_listed_violated :
    ∃ (ops : List (Op Nat)) (a : Save Nat) (k : Nat), Fine ops ∧
      (∃ m, ((exec Disk.empty ops).call (.crashed a k)).1.book = .good m ∧ m.latest = 1 ∧
        1 ∈ Dict.keys m.unprot) ∧
      loadWeights ((exec Disk.empty ops).call (.crashed a k)).1 none = .error .fileNotFoundError := by
  refine ⟨[.weights { w := 1, maxKeep := 1 }], { w := 2, maxKeep := 1 }, 3, ?_, ?_, by decide⟩
  · intro op hop
    simp only [List.mem_singleton] at hop
    subst hop
    exact ⟨by simp [GoodLimit], trivial⟩
  · exact ⟨⟨1, [(1, ⟨1⟩)], []⟩, by decide, rfl, by decide⟩

/-- **C28 is violated**: while the bookkeeping file is open it is empty, and then nothing can be loaded or
saved, whatever happened before. -/
theorem C28_torn_violated (ops : List (Op W)) (h : Fine ops) (a : Save W) (ha : 0 ≤ a.maxKeep)
    (effs : List (Eff W)) (he : saveWeights (exec Disk.empty ops) a = .ok effs) :
    let d := ((exec Disk.empty ops).call (.crashed a (effs.length - 1))).1
    (∀ number, loadWeights d number = .error .typeError) ∧
      (∀ b : Save W, b.changed = false → (d.call (.weights b)).2 = some .typeError) := by
  intro d
  obtain ⟨es, hse, rfl⟩ := (inv_of_fine h).ok_form ha he
  have hbook : d.book = .torn := by
    simp only [d, Disk.call, he]
    apply run_torn
    have := mainEffs_length (absOf (saved Disk.empty ops)) a
    simp only [List.length_append]
    omega
  exact ⟨fun number => by simp [loadWeights, hbook], fun b hb => by
    simp [Disk.call, saveWeights, hb, readMeta, hbook]⟩

/-! ### C29 -/

/-- **C29.** After any number of training runs, each with any saves, the training steps file has one entry
for every run, which is the last number of steps given in that run. -/
theorem C29_recorded_partial (runs : List (List (Save W))) (hne : runs ≠ [])
    (hb : ∀ b ∈ runs, ∀ a ∈ b, 0 ≤ a.maxKeep ∧ a.changed = false) :
    (exec Disk.empty (runs.flatMap (fun b => .settings :: b.map .weights))).steps =
      .good ⟨runs.length, entries (runs.map lastSteps)⟩ := by
  have := (runs_inv runs (inv_empty (W := W)) (sinv_empty (W := W)) hb).2.steps
  rw [this, stepsOf, List.nil_append, if_neg (by simpa using hne), List.length_map]

theorem sum_entries (T : List Nat) : ((entries T).map Prod.snd).sum = T.sum := by
  have : (entries T).map Prod.snd = T := by
    simp [entries, Function.comp_def]
  rw [this]

/-- **C29.** The sum of the recorded steps counts every run once, however often it was saved. -/
theorem C29_total_partial (runs : List (List (Save W)))
    (hb : ∀ b ∈ runs, ∀ a ∈ b, 0 ≤ a.maxKeep ∧ a.changed = false) :
    totalSteps (exec Disk.empty (runs.flatMap (fun b => .settings :: b.map .weights))) =
      (runs.map lastSteps).sum := by
  have := (runs_inv runs (inv_empty (W := W)) (sinv_empty (W := W)) hb).2.steps
  rw [totalSteps, this, stepsOf, List.nil_append]
  by_cases hne : runs = []
  · subst hne; rfl
  · rw [if_neg (by simpa using hne)]
    exact sum_entries _

example : totalSteps (exec Disk.empty ([[{ w := 1, prot := true }, { w := 2, numSteps := some 10 },
    { w := 3, numSteps := some 20 }], [{ w := 4 }, { w := 5, numSteps := some 7 }]].flatMap
    (fun b : List (Save Nat) => .settings :: b.map .weights))) = 27 := by decide

theorem trainAll_inv (runs : List (Run W × Nat)) (hr : ∀ x ∈ runs, x.1.Fine ∧ x.2 ≠ 0) (w : W)
    {h : List (Save W)} {T : List Nat} {d : Disk W} (hi : Inv h d) (hs : SInv T d) :
    (trainAll runs w d).2 = none ∧
      SInv (T ++ runs.map (fun x => x.2 - 1)) (trainAll runs w d).1.1 := by
  induction runs generalizing w h T d with
  | nil => exact ⟨rfl, by simpa [trainAll] using hs⟩
  | cons x runs ih =>
    obtain ⟨r, n⟩ := x
    obtain ⟨h1, h2⟩ := hr _ List.mem_cons_self
    obtain ⟨e1, _, e3, e4⟩ := train_eq r h1 w n h2 hi hs
    have := ih (fun x hx => hr x (List.mem_cons_of_mem _ hx)) (after r w n) e3 e4
    simp only [trainAll, e1]
    refine ⟨this.1, ?_⟩
    have h3 := this.2
    rw [List.append_assoc] at h3
    exact h3

/-- **C29.** For trainings with the manager, each run is recorded with one step less than were made. -/
theorem C29_training_partial (runs : List (Run W × Nat)) (hr : ∀ x ∈ runs, x.1.Fine ∧ x.2 ≠ 0) (w : W) :
    (trainAll runs w Disk.empty).2 = none ∧
    totalSteps (trainAll runs w Disk.empty).1.1 + runs.length = (runs.map (fun x => x.2)).sum := by
  have h := trainAll_inv runs hr w (inv_empty (W := W)) (sinv_empty (W := W))
  refine ⟨h.1, ?_⟩
  have hsum : (runs.map (fun x => x.2 - 1)).sum + runs.length = (runs.map (fun x => x.2)).sum := by
    clear h
    induction runs with
    | nil => rfl
    | cons x runs ih =>
      have := ih (fun y hy => hr y (List.mem_cons_of_mem _ hy))
      have hx := (hr x List.mem_cons_self).2
      simp only [List.map_cons, List.sum_cons, List.length_cons]
      omega
  rw [← hsum]
  congr 1
  have hst := h.2.steps
  rw [List.nil_append] at hst
  rw [totalSteps, hst, stepsOf]
  by_cases hne : runs = []
  · subst hne; rfl
  · rw [if_neg (by simpa using hne)]
    exact sum_entries _

/-- **C29 is violated**: the recorded steps are never the steps that were made. -/
theorem C29_training_violated (runs : List (Run W × Nat)) (hr : ∀ x ∈ runs, x.1.Fine ∧ x.2 ≠ 0) (hne : runs ≠ [])
    (w : W) : totalSteps (trainAll runs w Disk.empty).1.1 ≠ (runs.map (fun x => x.2)).sum := by
  have := (C29_training_partial runs hr w).2
  have : 0 < runs.length := List.length_pos_iff.2 hne
  omega

/-! ### C56 -/

/-- **C56.** On every directory that earlier calls left behind, a training run of `n` iterations makes exactly
the calls of `trainOps` and they all succeed: one protected save before, one in each iteration with a positive
multiple of the frequency, one protected save at the end. -/
theorem C56_schedule_partial (runs : List (List (Save W)))
    (hb : ∀ b ∈ runs, ∀ a ∈ b, 0 ≤ a.maxKeep ∧ a.changed = false) (r : Run W) (hr : r.Fine) (n : Nat)
    (hn : n ≠ 0) (w : W) :
    let d := exec Disk.empty (runs.flatMap (fun b => .settings :: b.map .weights))
    train r n w d = ((exec d (trainOps r n w), after r w n), none) ∧
    saved d (trainOps r n w) =
      [{ w := w, prot := true }] ++
      ((List.range n).filter (fun i => i % r.saveFrequency = 0 ∧ i ≠ 0)).map
        (fun i => { w := after r w (i + 1), numSteps := some i }) ++
      [{ w := after r w n, numSteps := some (n - 1), prot := true }] := by
  intro d
  obtain ⟨h1, h2⟩ := runs_inv runs (inv_empty (W := W)) (sinv_empty (W := W)) hb
  obtain ⟨e1, e2, _, _⟩ := train_eq r hr w n hn h1 h2
  refine ⟨e1, ?_⟩
  rw [e2]
  simp [trainOps, List.filterMap_append, List.filterMap_map]

/-- **C56.** The checkpoint a training run ends with has the values after all iterations. -/
theorem C56_final (runs : List (List (Save W)))
    (hb : ∀ b ∈ runs, ∀ a ∈ b, 0 ≤ a.maxKeep ∧ a.changed = false) (r : Run W) (hr : r.Fine) (n : Nat)
    (hn : n ≠ 0) (w : W) :
    loadWeights (train r n w (exec Disk.empty (runs.flatMap (fun b => .settings :: b.map .weights)))).1.1 none =
      .ok (after r w n) := by
  obtain ⟨h1, h2⟩ := runs_inv runs (inv_empty (W := W)) (sinv_empty (W := W)) hb
  obtain ⟨e1, e2, e3, _⟩ := train_eq r hr w n hn h1 h2
  have hlast := (C56_schedule_partial runs hb r hr n hn w).2
  rw [e1]
  simp only
  rw [hlast, List.nil_append] at e3
  have hm : ∀ x : Save W, Inv (runs.flatten ++ ([({ w := w, prot := true } : Save W)] ++
      ((List.range n).filter (fun i => i % r.saveFrequency = 0 ∧ i ≠ 0)).map
        (fun i => ({ w := after r w (i + 1), numSteps := some i } : Save W)) ++ [x]))
      (exec (exec Disk.empty (runs.flatMap (fun b => .settings :: b.map .weights))) (trainOps r n w)) →
      x.prot = true →
      loadWeights (exec (exec Disk.empty (runs.flatMap (fun b => .settings :: b.map .weights)))
        (trainOps r n w)) none = .ok x.w := by
    intro x hx hp
    rw [← List.append_assoc] at hx
    have hn' := absOf_n (runs.flatten ++ ([({ w := w, prot := true } : Save W)] ++
      ((List.range n).filter (fun i => i % r.saveFrequency = 0 ∧ i ≠ 0)).map
        (fun i => ({ w := after r w (i + 1), numSteps := some i } : Save W))) ++ [x])
    have hn0 : (absOf (runs.flatten ++ ([({ w := w, prot := true } : Save W)] ++
      ((List.range n).filter (fun i => i % r.saveFrequency = 0 ∧ i ≠ 0)).map
        (fun i => ({ w := after r w (i + 1), numSteps := some i } : Save W))) ++ [x])).n ≠ 0 := by
      rw [hn']; simp
    rw [load_none hx.book hn0, hn']
    have hget : (runs.flatten ++ ([({ w := w, prot := true } : Save W)] ++
      ((List.range n).filter (fun i => i % r.saveFrequency = 0 ∧ i ≠ 0)).map
        (fun i => ({ w := after r w (i + 1), numSteps := some i } : Save W))) ++ [x])[(runs.flatten ++
      ([({ w := w, prot := true } : Save W)] ++
      ((List.range n).filter (fun i => i % r.saveFrequency = 0 ∧ i ≠ 0)).map
        (fun i => ({ w := after r w (i + 1), numSteps := some i } : Save W)))).length]? = some x := by
      rw [List.getElem?_append_right (Nat.le_refl _), Nat.sub_self, List.getElem?_cons_zero]
    have hP := (mem_P _ _).2 ⟨x, hget, hp⟩
    rw [List.length_append, List.length_singleton]
    refine load_some hx.book hn0 _ (Or.inr hP) ((hx.index _).2 (Or.inr hP)) (hx.data _ x (Or.inr hP) ?_)
    simp
  exact hm _ e3 rfl

/-- **C56 is violated**: the number of steps that is recorded with a save is one less than the number of
iterations whose result it holds. -/
theorem C56_num_steps_violated (r : Run W) (n : Nat) (hn : n ≠ 0) (w : W) (a : Save W) (s : Nat)
    (ha : Op.weights a ∈ trainOps r n w) (hs : a.numSteps = some s) : a.w = after r w (s + 1) := by
  simp only [trainOps, List.mem_append, List.mem_cons, List.mem_map, List.not_mem_nil, or_false,
    Op.weights.injEq, reduceCtorEq, false_or] at ha
  rcases ha with (rfl | ⟨i, _, rfl⟩) | rfl
  · cases hs
  · cases hs; rfl
  · simp only [Option.some.injEq] at hs
    subst hs
    rw [Nat.sub_add_cancel (Nat.pos_of_ne_zero hn)]

/-- **C56 is violated**: a training run without iterations fails after it has made a new run and a checkpoint. -/
theorem C56_no_iterations_violated (r : Run Nat) :
    (train r 0 5 Disk.empty).2 = some .nameError ∧ (train r 0 5 Disk.empty).1.1.index = [1] := by
  constructor <;> rfl

/-- A loss that is not a number stops the training with a ValueError and without another save. -/
theorem C56_nan (r : Run W) (hv : r.validationFrequency ≠ 0) (w : W) (d : Disk W) (n : Nat) (hn : n ≠ 0)
    (hnan : r.nan 0 = true) (hs : (d.saveNewRun { w := w, prot := true }).2 = none) :
    train r n w d = (((d.saveNewRun { w := w, prot := true }).1, r.update 0 w), some .valueError) := by
  obtain ⟨n', rfl⟩ : ∃ n', n = n' + 1 := ⟨n - 1, by omega⟩
  unfold train
  have : d.saveNewRun { w := w, prot := true } = ((d.saveNewRun { w := w, prot := true }).1, none) := by rw [← hs]
  rw [this]
  simp [trainLoop, hv, hnan]

theorem trainLoop_quiet (r : Run W) : ∀ (n start : Nat) (w : W) (d : Disk W),
    (∀ j, start ≤ j → j < start + n → j % r.validationFrequency = 0 → r.nan j = false) →
    trainLoop r start n w d = trainLoop { r with nan := fun _ => false } start n w d := by
  intro n
  induction n with
  | zero => intros; rfl
  | succ n ih =>
    intro start w d h
    have h0 : ¬ (start % r.validationFrequency = 0 ∧ r.nan start = true) := by
      rintro ⟨h1, h2⟩
      rw [h start (Nat.le_refl _) (by omega) h1] at h2
      cases h2
    have hr : ∀ w d, trainLoop r (start + 1) n w d =
        trainLoop { r with nan := fun _ => false } (start + 1) n w d :=
      fun w d => ih (start + 1) w d fun j h1 h2 => h j (by omega) (by omega)
    simp only [trainLoop, if_neg h0, hr, Bool.false_eq_true, and_false, if_false]

theorem trainLoop_append (r : Run W) (k : Nat) : ∀ (n start : Nat) (w : W) (d : Disk W),
    trainLoop r start (n + k) w d = match trainLoop r start n w d with
      | (x, some e) => (x, some e)
      | ((d', w'), none) => trainLoop r (start + n) k w' d' := by
  intro n
  induction n with
  | zero => intro start w d; simp [trainLoop]
  | succ n ih =>
    intro start w d
    rw [show n + 1 + k = (n + k) + 1 by omega]
    simp only [trainLoop, ih]
    rw [show start + 1 + n = start + (n + 1) by omega]
    split_ifs
    all_goals try rfl
    cases d.call (.weights { w := r.update start w, numSteps := some start }) with
    | mk d' o => cases o <;> rfl

/-- **C56.** A loss that is not a number is noticed in the first iteration with validation that has one: the
training stops there with a ValueError. Until then it has made the protected save at the beginning and those in
the iterations before; neither this iteration nor the end is saved. -/
theorem C56_nan_stops (runs : List (List (Save W)))
    (hb : ∀ b ∈ runs, ∀ a ∈ b, 0 ≤ a.maxKeep ∧ a.changed = false) (r : Run W)
    (hf : r.validationFrequency ≠ 0 ∧ r.evaluationFrequency ≠ 0 ∧ r.saveFrequency ≠ 0) (n i : Nat) (hi : i < n)
    (hv : i % r.validationFrequency = 0) (hnan : r.nan i = true)
    (hq : ∀ j < i, j % r.validationFrequency = 0 → r.nan j = false) (w : W) :
    let d := exec Disk.empty (runs.flatMap (fun b => .settings :: b.map .weights))
    train r n w d =
      ((exec d ([.settings, .weights { w := w, prot := true }] ++
        ((List.range i).filter (fun j => j % r.saveFrequency = 0 ∧ j ≠ 0)).map
          (fun j => .weights { w := after r w (j + 1), numSteps := some j })), after r w (i + 1)),
        some .valueError) := by
  intro d
  obtain ⟨h1, h2⟩ := runs_inv runs (inv_empty (W := W)) (sinv_empty (W := W)) hb
  obtain ⟨s1, s2, s3⟩ := inv_settings h1 h2
  obtain ⟨a1, a2, a3⟩ := save_inv s2 s3 ({ w := w, prot := true } : Save W) (by simp) rfl
  simp only [setLast] at a3
  have hnew : d.saveNewRun { w := w, prot := true } =
      (((d.call .settings).1.call (.weights { w := w, prot := true })).1, none) := by
    unfold Disk.saveNewRun
    have : d.call .settings = ((d.call .settings).1, none) := by rw [← s1]
    rw [this]
    simp only
    rw [← a1]
  have hafter : ∀ m, after { r with nan := fun _ => false } w m = after r w m := by
    intro m
    induction m with
    | zero => rfl
    | succ m ih => simp only [after, ih]
  have hloop := trainLoop_eq { r with nan := fun _ => false } ⟨hf.1, hf.2.1, hf.2.2, fun _ => rfl⟩ w i 0 a2 a3
  simp only [Nat.zero_add, hafter] at hloop
  rw [← trainLoop_quiet r i 0 _ _ (fun j _ h => hq j (by omega)), show after r w 0 = w from rfl] at hloop
  unfold train
  rw [hnew]
  simp only
  rw [show n = i + (n - i - 1 + 1) by omega, trainLoop_append, hloop]
  simp only [Nat.zero_add, trainLoop, if_neg hf.1, hv, hnan, and_self, if_true]
  simp only [exec, List.cons_append, List.nil_append, List.map_map, List.range_eq_range', Function.comp_def]
  rfl

/-- **C56.** In iterations without validation it is not noticed: such a run is the same, with the same saves, as
one in which all losses are numbers. -/
theorem C56_nan_unnoticed (r : Run W) (n : Nat)
    (hq : ∀ j < n, j % r.validationFrequency = 0 → r.nan j = false) (w : W) (d : Disk W) :
    train r n w d = train { r with nan := fun _ => false } n w d := by
  unfold train
  cases d.saveNewRun { w := w, prot := true } with
  | mk d' o =>
    cases o with
    | some e => rfl
    | none =>
      simp only
      rw [trainLoop_quiet r n 0 w d' fun j _ h => hq j (by omega)]

section Examples

def exRun : Run Nat := ⟨fun _ w => w + 1, fun _ => false, 3, 4, 2⟩

example : exRun.Fine := ⟨by decide, by decide, by decide, fun _ => rfl⟩

example : (train exRun 7 100 Disk.empty).1.1.index = [1, 2, 3, 4, 5] ∧
    loadWeights (train exRun 7 100 Disk.empty).1.1 none = .ok 107 ∧
    totalSteps (train exRun 7 100 Disk.empty).1.1 = 6 := by decide

end Examples

end Verif.Checkpoint
