import Verif.Checkpoint.Spec
import Mathlib.Data.List.Induction

namespace Verif.Checkpoint
open Verif.Py

variable {W : Type}

/-! ### Abstract history: the number of saves, the unprotected and the protected checkpoints -/

/-- What a save keeps of the unprotected checkpoints. -/
def trim (k : Int) (l : List Nat) : List Nat := l.drop (if 0 < k then l.length - k.toNat else 0)

def stepU (n : Nat) (U : List Nat) (a : Save W) : List Nat := if a.prot then U else trim a.maxKeep (U ++ [n + 1])
def stepP (n : Nat) (P : List Nat) (a : Save W) : List Nat := if a.prot then P ++ [n + 1] else P

structure Abs where
  n : Nat
  U : List Nat
  P : List Nat

def Abs.step (s : Abs) (a : Save W) : Abs := ⟨s.n + 1, stepU s.n s.U a, stepP s.n s.P a⟩

def absOf (h : List (Save W)) : Abs := h.foldl Abs.step ⟨0, [], []⟩

theorem absOf_snoc (h : List (Save W)) (a : Save W) : absOf (h ++ [a]) = (absOf h).step a := by
  simp [absOf]

theorem absOf_n (h : List (Save W)) : (absOf h).n = h.length := by
  induction h using List.reverseRecOn with
  | nil => rfl
  | append_singleton h a ih => rw [absOf_snoc]; simp [Abs.step, ih]

def removed (n : Nat) (U : List Nat) (a : Save W) : List Nat :=
  if a.prot then [] else
    (U ++ [n + 1]).take (if 0 < a.maxKeep then (U ++ [n + 1]).length - a.maxKeep.toNat else 0)

theorem removed_append_stepU (n : Nat) (U : List Nat) (a : Save W) (h : a.prot = false) :
    removed n U a ++ stepU n U a = U ++ [n + 1] := by
  simp only [removed, stepU, h, trim]
  exact List.take_append_drop _ _

/-- Ascending numbers between 1 and `n`. -/
def Asc (n : Nat) (l : List Nat) : Prop := l.Pairwise (· < ·) ∧ ∀ i ∈ l, 1 ≤ i ∧ i ≤ n

theorem Asc.mono {n m : Nat} {l : List Nat} (h : Asc n l) (hm : n ≤ m) : Asc m l :=
  ⟨h.1, fun i hi => ⟨(h.2 i hi).1, Nat.le_trans (h.2 i hi).2 hm⟩⟩

theorem Asc.snoc {n : Nat} {l : List Nat} (h : Asc n l) : Asc (n + 1) (l ++ [n + 1]) := by
  refine ⟨?_, ?_⟩
  · rw [List.pairwise_append]
    refine ⟨h.1, by simp, ?_⟩
    intro a ha b hb
    simp only [List.mem_singleton] at hb
    have := (h.2 a ha).2
    omega
  · intro i hi
    rcases List.mem_append.1 hi with hi | hi
    · have := h.2 i hi
      omega
    · simp only [List.mem_singleton] at hi
      omega

theorem Asc.drop {n : Nat} {l : List Nat} (h : Asc n l) (k : Nat) : Asc n (l.drop k) :=
  ⟨h.1.sublist (List.drop_sublist _ _), fun i hi => h.2 i (List.mem_of_mem_drop hi)⟩

theorem Asc.nodup {n : Nat} {l : List Nat} (h : Asc n l) : l.Nodup :=
  h.1.imp (fun hab => Nat.ne_of_lt hab)

structure Good (s : Abs) : Prop where
  u : Asc s.n s.U
  p : Asc s.n s.P
  disj : ∀ i ∈ s.U, i ∉ s.P

theorem Good.step {s : Abs} (h : Good s) (a : Save W) : Good (s.step a) := by
  obtain ⟨hu, hp, hd⟩ := h
  cases hprot : a.prot
  · refine ⟨?_, ?_, ?_⟩
    · simpa [Abs.step, stepU, hprot, trim] using hu.snoc.drop _
    · simpa [Abs.step, stepP, hprot] using hp.mono (Nat.le_succ _)
    · intro i hi
      simp only [Abs.step, stepU, hprot, trim] at hi
      have hi' := List.mem_of_mem_drop hi
      simp only [Abs.step, stepP, hprot]
      rcases List.mem_append.1 hi' with h1 | h1
      · exact hd i h1
      · simp only [List.mem_singleton] at h1
        subst h1
        intro hc
        have := (hp.2 _ hc).2
        omega
  · refine ⟨?_, ?_, ?_⟩
    · simpa [Abs.step, stepU, hprot] using hu.mono (Nat.le_succ _)
    · simpa [Abs.step, stepP, hprot] using hp.snoc
    · intro i hi
      simp only [Abs.step, stepU, hprot, if_true] at hi
      simp only [Abs.step, stepP, hprot, if_true, List.mem_append, List.mem_singleton, not_or]
      refine ⟨hd i hi, ?_⟩
      have := (hu.2 _ hi).2
      omega

theorem good_absOf (h : List (Save W)) : Good (absOf h) := by
  induction h using List.reverseRecOn with
  | nil => exact ⟨⟨List.Pairwise.nil, by simp [absOf]⟩, ⟨List.Pairwise.nil, by simp [absOf]⟩, by simp [absOf]⟩
  | append_singleton h a ih => rw [absOf_snoc]; exact ih.step a

/-! ### Dictionaries of numbers -/

def mk (l : List Nat) : Dict Nat Info := l.map (fun i => (i, ⟨i⟩))

theorem keys_mk (l : List Nat) : Dict.keys (mk l) = l := by
  simp [mk, Dict.keys, Function.comp_def]

theorem has_mk (l : List Nat) (i : Nat) : Dict.has (mk l) i = true ↔ i ∈ l := by
  rw [Dict.has_iff, keys_mk]

theorem get_mk (l : List Nat) (i : Nat) : Dict.get? (mk l) i = if i ∈ l then some ⟨i⟩ else none := by
  induction l with
  | nil => rfl
  | cons j l ih =>
    rw [mk, List.map_cons, Dict.get?_cons]
    by_cases h : j = i
    · simp [h]
    · rw [if_neg h]
      have : (i ∈ j :: l) ↔ i ∈ l := by simp [Ne.symm h]
      simp only [this]
      exact ih

theorem set_mk (l : List Nat) (i : Nat) (h : i ∉ l) : Dict.set (mk l) i ⟨i⟩ = mk (l ++ [i]) := by
  induction l with
  | nil => rfl
  | cons j l ih =>
    simp only [List.mem_cons, not_or] at h
    simp only [mk, List.map_cons, List.cons_append, Dict.set, if_neg (Ne.symm h.1)]
    rw [← mk, ih h.2, mk]

theorem filter_mk (l : List Nat) (p : Nat → Bool) : (mk l).filter (fun x => p x.1) = mk (l.filter p) := by
  simp [mk, List.filter_map, Function.comp_def]

def rmEffs (df : Bool) (n : Nat) : List (Eff W) := if df then [.rmData n, .rmIndex n] else [.rmIndex n, .rmData n]

theorem removeOld_mk (df : Bool) (ns rest : List Nat) (h : (ns ++ rest).Nodup) :
    removeOld df ns (mk (ns ++ rest)) = (mk rest, ns.flatMap (rmEffs (W := W) df)) := by
  induction ns with
  | nil => rfl
  | cons n ns ih =>
    have h' : n ∉ ns ++ rest ∧ (ns ++ rest).Nodup := by simpa [List.nodup_cons] using h
    have hf : (mk (n :: ns ++ rest)).filter (fun p => decide (p.1 ≠ n)) = mk (ns ++ rest) := by
      rw [filter_mk _ (fun i => decide (i ≠ n))]
      congr 1
      rw [List.cons_append, List.filter_cons]
      simp only [ne_eq, not_true_eq_false, decide_false, Bool.false_eq_true, if_false]
      rw [List.filter_eq_self]
      intro a ha
      have : a ≠ n := by rintro rfl; exact h'.1 ha
      simpa using this
    simp only [removeOld, hf, ih h'.2, get_mk]
    simp [rmEffs]

theorem get_filter_ne (d : Dict Nat W) (n i : Nat) :
    Dict.get? (d.filter (fun p => decide (p.1 ≠ n))) i = if i = n then none else Dict.get? d i := by
  induction d with
  | nil => simp
  | cons p d ih =>
    obtain ⟨k, v⟩ := p
    by_cases hk : k = n
    · subst hk
      simp only [List.filter_cons, ne_eq, not_true_eq_false, decide_false, Bool.false_eq_true, if_false]
      simp only [ne_eq] at ih
      rw [ih, Dict.get?_cons]
      by_cases hi : i = k
      · simp [hi]
      · simp [hi, Ne.symm hi]
    · have : decide (k ≠ n) = true := by simpa using hk
      simp only [List.filter_cons, this, if_true, Dict.get?_cons, ih]
      by_cases hki : k = i
      · subst hki; simp [hk]
      · simp [hki]

/-! ### Effects -/

theorem run_append (d : Disk W) (a b : List (Eff W)) : d.run (a ++ b) = (d.run a).run b := by
  simp [Disk.run, List.foldl_append]

theorem run_cons (d : Disk W) (e : Eff W) (b : List (Eff W)) : d.run (e :: b) = (d.apply e).run b := rfl

@[simp] theorem run_nil (d : Disk W) : d.run [] = d := rfl

/-- The effects that remove files leave the rest. -/
def IsRm : Eff W → Prop
  | .rmData _ => True
  | .rmIndex _ => True
  | _ => False

theorem run_rm_book (d : Disk W) (es : List (Eff W)) (h : ∀ e ∈ es, IsRm e) :
    (d.run es).book = d.book ∧ (d.run es).steps = d.steps ∧ (d.run es).stepDirs = d.stepDirs := by
  induction es generalizing d with
  | nil => exact ⟨rfl, rfl, rfl⟩
  | cons e es ih =>
    rw [run_cons]
    obtain ⟨h1, h2, h3⟩ := ih (d.apply e) (fun e' he' => h e' (List.mem_cons_of_mem _ he'))
    have he := h e (List.mem_cons_self)
    rw [h1, h2, h3]
    cases e <;> simp_all [IsRm, Disk.apply]

theorem isRm_flatMap (df : Bool) (ns : List Nat) : ∀ e ∈ ns.flatMap (rmEffs (W := W) df), IsRm e := by
  intro e he
  rw [List.mem_flatMap] at he
  obtain ⟨n, _, hn⟩ := he
  unfold rmEffs at hn
  cases df <;> simp at hn <;> rcases hn with rfl | rfl <;> exact trivial

theorem run_rmEffs (d : Disk W) (df : Bool) (n : Nat) :
    (∀ i, i ∈ (d.run (rmEffs df n)).index ↔ i ∈ d.index ∧ i ≠ n) ∧
    (∀ i, Dict.get? (d.run (rmEffs df n)).data i = if i = n then none else Dict.get? d.data i) := by
  cases df
  · refine ⟨fun i => ?_, fun i => ?_⟩
    · simp [rmEffs, Disk.run, Disk.apply]
    · simp only [rmEffs, Disk.run, Disk.apply, List.foldl_cons, List.foldl_nil, Bool.false_eq_true, if_false]
      exact get_filter_ne _ _ _
  · refine ⟨fun i => ?_, fun i => ?_⟩
    · simp [rmEffs, Disk.run, Disk.apply]
    · simp only [rmEffs, Disk.run, Disk.apply, List.foldl_cons, List.foldl_nil, if_true]
      exact get_filter_ne _ _ _

theorem run_rms (d : Disk W) (df : Bool) (ns : List Nat) :
    (∀ i, i ∈ (d.run (ns.flatMap (rmEffs df))).index ↔ i ∈ d.index ∧ i ∉ ns) ∧
    (∀ i, i ∉ ns → Dict.get? (d.run (ns.flatMap (rmEffs df))).data i = Dict.get? d.data i) := by
  induction ns generalizing d with
  | nil => simp
  | cons n ns ih =>
    obtain ⟨h1, h2⟩ := ih (d.run (rmEffs df n))
    obtain ⟨g1, g2⟩ := run_rmEffs d df n
    simp only [List.flatMap_cons, run_append]
    refine ⟨fun i => ?_, fun i hi => ?_⟩
    · rw [h1, g1]
      simp only [List.mem_cons, not_or]
      constructor
      · rintro ⟨⟨a, b⟩, c⟩; exact ⟨a, b, c⟩
      · rintro ⟨a, b, c⟩; exact ⟨⟨a, b⟩, c⟩
    · simp only [List.mem_cons, not_or] at hi
      rw [h2 i hi.2, g2, if_neg hi.1]

/-- Removal in any state of progress: only files of `ns` can be missing. -/
theorem run_rms_prefix (d : Disk W) (es : List (Eff W)) (ns : List Nat)
    (h : ∀ e ∈ es, ∃ n ∈ ns, e = .rmData n ∨ e = .rmIndex n) :
    (∀ i, i ∉ ns → (i ∈ (d.run es).index ↔ i ∈ d.index)) ∧
    (∀ i, i ∈ (d.run es).index → i ∈ d.index) ∧
    (∀ i, i ∉ ns → Dict.get? (d.run es).data i = Dict.get? d.data i) := by
  induction es generalizing d with
  | nil => simp
  | cons e es ih =>
    obtain ⟨h1, h2, h3⟩ := ih (d.apply e) (fun e' he' => h e' (List.mem_cons_of_mem _ he'))
    obtain ⟨n, hn, he⟩ := h e (List.mem_cons_self)
    rw [run_cons]
    rcases he with rfl | rfl
    · refine ⟨fun i hi => ?_, fun i hi => ?_, fun i hi => ?_⟩
      · rw [h1 i hi]; rfl
      · exact h2 i hi
      · have : i ≠ n := by rintro rfl; exact hi hn
        rw [h3 i hi]
        simp only [Disk.apply]
        rw [get_filter_ne, if_neg this]
    · refine ⟨fun i hi => ?_, fun i hi => ?_, fun i hi => ?_⟩
      · have : i ≠ n := by rintro rfl; exact hi hn
        rw [h1 i hi]
        simp [Disk.apply, this]
      · have := h2 i hi
        simp only [Disk.apply, List.mem_filter] at this
        exact this.1
      · rw [h3 i hi]; rfl

/-! ### The effects of a save -/

def bookOf (s : Abs) : YFile Meta := if s.n = 0 then .missing else .good ⟨s.n, mk s.U, mk s.P⟩

/-- The effects of a save after those on the training steps file. -/
def mainEffs (s : Abs) (a : Save W) : List (Eff W) :=
  [.writeData (s.n + 1) a.w, .writeIndex (s.n + 1)] ++ (removed s.n s.U a).flatMap (rmEffs a.dataFirst) ++
    [.openMeta, .writeMeta ⟨s.n + 1, mk (stepU s.n s.U a), mk (stepP s.n s.P a)⟩]

/-- The state of the directory that belongs to the history. -/
structure Inv (h : List (Save W)) (d : Disk W) : Prop where
  book : d.book = bookOf (absOf h)
  index : ∀ i, i ∈ d.index ↔ i ∈ (absOf h).U ∨ i ∈ (absOf h).P
  data : ∀ (i : Nat) (a : Save W), i ∈ (absOf h).U ∨ i ∈ (absOf h).P → h[i - 1]? = some a →
    Dict.get? d.data i = some a.w

theorem readMeta_of_book {d : Disk W} {s : Abs} (hb : d.book = bookOf s) (h0 : s.n = 0 → s.U = [] ∧ s.P = []) :
    readMeta d = .ok ⟨s.n, mk s.U, mk s.P⟩ := by
  unfold readMeta
  rw [hb, bookOf]
  by_cases hn : s.n = 0
  · rw [if_pos hn]
    simp [h0 hn, hn, mk]
  · rw [if_neg hn]

theorem Good.zero {s : Abs} (h : Good s) (hn : s.n = 0) : s.U = [] ∧ s.P = [] := by
  constructor
  · rw [List.eq_nil_iff_forall_not_mem]
    intro i hi
    have := h.u.2 i hi
    omega
  · rw [List.eq_nil_iff_forall_not_mem]
    intro i hi
    have := h.p.2 i hi
    omega

theorem sortBy_asc {n : Nat} {l : List Nat} (h : Asc n l) : sortBy (fun i j => decide (i ≤ j)) l = l := by
  apply sortBy_of_pairwise
  exact h.1.imp (fun hab => by simpa using Nat.le_of_lt hab)

theorem saveWeights_eq {s : Abs} {d : Disk W} (hg : Good s) (hb : d.book = bookOf s)
    (hi : s.n + 1 ∉ d.index) (a : Save W) (hk : 0 ≤ a.maxKeep) (hc : a.changed = false) :
    saveWeights d a =
      match stepEffs d a with
      | .error e => .error e
      | .ok es => .ok (es ++ mainEffs s a) := by
  have hU : s.n + 1 ∉ s.U := fun h => by have := (hg.u.2 _ h).2; omega
  have hP : s.n + 1 ∉ s.P := fun h => by have := (hg.p.2 _ h).2; omega
  have h1 : Dict.has (mk s.U) (s.n + 1) = false := by
    rw [← Bool.not_eq_true, has_mk]; exact hU
  have h2 : Dict.has (mk s.P) (s.n + 1) = false := by
    rw [← Bool.not_eq_true, has_mk]; exact hP
  unfold saveWeights
  rw [hc]
  simp only [Bool.false_eq_true, if_false, readMeta_of_book hb hg.zero, if_neg hi, h1, h2, Bool.or_self]
  cases hse : stepEffs d a with
  | error e => rfl
  | ok es =>
    simp only
    cases hprot : a.prot
    · simp only [Bool.false_eq_true, if_false]
      have hkeys : Dict.keys (Dict.set (mk s.U) (s.n + 1) ⟨s.n + 1⟩) = s.U ++ [s.n + 1] := by
        rw [set_mk _ _ hU, keys_mk]
      rw [hkeys, sortBy_asc hg.u.snoc, set_mk _ _ hU]
      have hr : (if a.maxKeep < ((s.U ++ [s.n + 1]).length : Int)
          then removeOld a.dataFirst (sliceToNeg (s.U ++ [s.n + 1]) a.maxKeep) (mk (s.U ++ [s.n + 1]))
          else (mk (s.U ++ [s.n + 1]), ([] : List (Eff W)))) =
          (mk (stepU s.n s.U a), (removed s.n s.U a).flatMap (rmEffs a.dataFirst)) := by
        have happ := removed_append_stepU s.n s.U a hprot
        split
        · have hsl : sliceToNeg (s.U ++ [s.n + 1]) a.maxKeep = removed s.n s.U a := by
            unfold sliceToNeg removed
            rw [hprot]
            simp only [Bool.false_eq_true, if_false]
            by_cases h0 : 0 < a.maxKeep
            · rw [if_pos h0, if_pos h0]
            · have : a.maxKeep = 0 := by omega
              simp [this]
          rw [hsl]
          conv => lhs; rw [← happ]
          apply removeOld_mk
          rw [happ]
          exact hg.u.snoc.nodup
        · rename_i hlt
          have hz : (if 0 < a.maxKeep then (s.U ++ [s.n + 1]).length - a.maxKeep.toNat else 0) = 0 := by
            split
            · omega
            · rfl
          simp only [stepU, removed, hprot, trim, hz, Bool.false_eq_true, if_false, List.drop_zero, List.take_zero,
            List.flatMap_nil]
      rw [hr]
      simp [mainEffs, stepP, hprot]
    · simp only [if_true]
      rw [set_mk _ _ hP]
      simp [mainEffs, removed, stepU, stepP, hprot]

theorem stepEffs_cases {d : Disk W} {a : Save W} {es : List (Eff W)} (h : stepEffs d a = .ok es) :
    (a.numSteps = none ∧ es = []) ∨ ∃ s', a.numSteps.isSome ∧ es = [.openSteps, .writeSteps s'] := by
  unfold stepEffs at h
  cases hn : a.numSteps with
  | none => rw [hn] at h; cases h; exact Or.inl ⟨rfl, rfl⟩
  | some num =>
    rw [hn] at h
    simp only [updateNumSteps] at h
    cases hs : d.steps with
    | missing => rw [hs] at h; cases h
    | torn => rw [hs] at h; cases h
    | good s =>
      rw [hs] at h
      simp only at h
      cases hg : Dict.get? s.steps s.latest with
      | none => rw [hg] at h; cases h
      | some v => rw [hg] at h; cases h; exact Or.inr ⟨_, rfl, rfl⟩

/-- The fields that the invariant looks at are not changed by the effects on the training steps file. -/
theorem run_stepEffs {d : Disk W} {a : Save W} {es : List (Eff W)} (h : stepEffs d a = .ok es) (k : Nat) :
    (d.run (es.take k)).book = d.book ∧ (d.run (es.take k)).index = d.index ∧
      (d.run (es.take k)).data = d.data := by
  rcases stepEffs_cases h with ⟨_, rfl⟩ | ⟨s', _, rfl⟩
  · simp
  · rcases k with _ | _ | k <;> simp [Disk.run, Disk.apply]

theorem Inv.notMem_index {h : List (Save W)} {d : Disk W} (hi : Inv h d) : (absOf h).n + 1 ∉ d.index := by
  rw [hi.index]
  rintro (hc | hc)
  · have := ((good_absOf h).u.2 _ hc).2; omega
  · have := ((good_absOf h).p.2 _ hc).2; omega

theorem inv_empty : Inv ([] : List (Save W)) Disk.empty :=
  ⟨rfl, by simp [Disk.empty, absOf], by simp [absOf]⟩

theorem getElem?_snoc_of_lt {α : Type} (h : List α) (a : α) (i : Nat) (hi : i < h.length) :
    (h ++ [a])[i]? = h[i]? := by
  rw [List.getElem?_append_left hi]

/-- A completed save. -/
theorem Inv.save {h : List (Save W)} {d : Disk W} (hi : Inv h d) (a : Save W) {es : List (Eff W)}
    (hse : stepEffs d a = .ok es) : Inv (h ++ [a]) (d.run (es ++ mainEffs (absOf h) a)) := by
  have hg := good_absOf h
  have hn := absOf_n h
  obtain ⟨e1, e2, e3⟩ := run_stepEffs hse es.length
  rw [List.take_length] at e1 e2 e3
  have hnot := hi.notMem_index
  obtain ⟨b1, b2, b3⟩ := hi
  have habs : absOf (h ++ [a]) = (absOf h).step a := absOf_snoc h a
  have hr1 := run_rms (((d.run es).apply (.writeData ((absOf h).n + 1) a.w)).apply
    (.writeIndex ((absOf h).n + 1))) a.dataFirst (removed (absOf h).n (absOf h).U a)
  obtain ⟨r1, r2⟩ := hr1
  have hidx : ∀ i, i ∈ (d.run (es ++ mainEffs (absOf h) a)).index ↔
      (i ∈ (absOf h).U ∨ i ∈ (absOf h).P ∨ i = (absOf h).n + 1) ∧ i ∉ removed (absOf h).n (absOf h).U a := by
    intro i
    have : (d.run (es ++ mainEffs (absOf h) a)).index =
        ((((d.run es).apply (.writeData ((absOf h).n + 1) a.w)).apply
          (.writeIndex ((absOf h).n + 1))).run
          ((removed (absOf h).n (absOf h).U a).flatMap (rmEffs a.dataFirst))).index := by
      simp only [mainEffs, run_append, run_cons, run_nil]; rfl
    rw [this, r1]
    have h2 : i ∈ (((d.run es).apply (.writeData ((absOf h).n + 1) a.w)).apply
          (.writeIndex ((absOf h).n + 1))).index ↔ i ∈ (absOf h).U ∨ i ∈ (absOf h).P ∨ i = (absOf h).n + 1 := by
      simp only [Disk.apply, e2, if_neg hnot, List.mem_append, List.mem_singleton]
      rw [b2, or_assoc]
    rw [h2]
  have hdat : ∀ i, i ∉ removed (absOf h).n (absOf h).U a →
      Dict.get? (d.run (es ++ mainEffs (absOf h) a)).data i =
        if (absOf h).n + 1 = i then some a.w else Dict.get? d.data i := by
    intro i hi
    have : (d.run (es ++ mainEffs (absOf h) a)).data =
        ((((d.run es).apply (.writeData ((absOf h).n + 1) a.w)).apply
          (.writeIndex ((absOf h).n + 1))).run
          ((removed (absOf h).n (absOf h).U a).flatMap (rmEffs a.dataFirst))).data := by
      simp only [mainEffs, run_append, run_cons, run_nil]; rfl
    rw [this, r2 i hi]
    simp only [Disk.apply, e3, Dict.get?_set]
  have hmem : ∀ i, (i ∈ stepU (absOf h).n (absOf h).U a ∨ i ∈ stepP (absOf h).n (absOf h).P a) ↔
      (i ∈ (absOf h).U ∨ i ∈ (absOf h).P ∨ i = (absOf h).n + 1) ∧ i ∉ removed (absOf h).n (absOf h).U a := by
    intro i
    cases hprot : a.prot
    · have happ := removed_append_stepU (absOf h).n (absOf h).U a hprot
      have hnd := hg.u.snoc.nodup
      rw [← happ, List.nodup_append] at hnd
      have hU : i ∈ (absOf h).U ++ [(absOf h).n + 1] ↔
          i ∈ removed (absOf h).n (absOf h).U a ∨ i ∈ stepU (absOf h).n (absOf h).U a := by
        rw [← happ, List.mem_append]
      simp only [List.mem_append, List.mem_singleton] at hU
      have hP : stepP (absOf h).n (absOf h).P a = (absOf h).P := by simp [stepP, hprot]
      rw [hP]
      have hdis : i ∈ (absOf h).P → i ∉ removed (absOf h).n (absOf h).U a := by
        intro hp hr
        have := hU.2 (Or.inl hr)
        rcases this with h1 | h1
        · exact hg.disj i h1 hp
        · have := (hg.p.2 i hp).2; omega
      constructor
      · rintro (h1 | h1)
        · refine ⟨?_, fun hr => hnd.2.2 i hr i h1 rfl⟩
          rcases hU.2 (Or.inr h1) with h2 | h2
          · exact Or.inl h2
          · exact Or.inr (Or.inr h2)
        · exact ⟨Or.inr (Or.inl h1), hdis h1⟩
      · rintro ⟨h1 | h1 | h1, h2⟩
        · exact Or.inl ((hU.1 (Or.inl h1)).resolve_left h2)
        · exact Or.inr h1
        · exact Or.inl ((hU.1 (Or.inr h1)).resolve_left h2)
    · simp [stepU, stepP, removed, hprot]
  refine ⟨?_, ?_, ?_⟩
  · rw [habs]
    simp only [mainEffs, run_append, run_cons, run_nil]
    rfl
  · intro i
    rw [hidx, habs]
    exact (hmem i).symm
  · intro i b hib hb
    rw [habs] at hib
    have := (hmem i).1 hib
    rw [hdat i this.2]
    by_cases hlast : (absOf h).n + 1 = i
    · rw [if_pos hlast]
      have : i - 1 = h.length := by omega
      rw [this, List.getElem?_append_right (Nat.le_refl _)] at hb
      simp only [Nat.sub_self, List.getElem?_cons_zero, Option.some.injEq] at hb
      rw [hb]
    · rw [if_neg hlast]
      have hUP : i ∈ (absOf h).U ∨ i ∈ (absOf h).P := by
        rcases this.1 with h1 | h1 | h1
        · exact Or.inl h1
        · exact Or.inr h1
        · exact absurd h1.symm hlast
      have hlt : i - 1 < h.length := by
        rcases hUP with h1 | h1
        · have := hg.u.2 i h1; omega
        · have := hg.p.2 i h1; omega
      rw [getElem?_snoc_of_lt _ _ _ hlt] at hb
      exact b3 i b hUP hb

/-- A crash before the index file. -/
theorem Inv.early {h : List (Save W)} {d : Disk W} (hi : Inv h d) (a : Save W) {es : List (Eff W)}
    (hse : stepEffs d a = .ok es) (k : Nat) (hk : k ≤ es.length + 1) :
    Inv h (d.run ((es ++ mainEffs (absOf h) a).take k)) := by
  obtain ⟨e1, e2, e3⟩ := run_stepEffs hse k
  by_cases hk' : k ≤ es.length
  · rw [List.take_append_of_le_length hk']
    exact ⟨by rw [e1]; exact hi.book, by rw [e2]; exact hi.index, by rw [e3]; exact hi.data⟩
  · have hk2 : k = es.length + 1 := by omega
    have : (es ++ mainEffs (absOf h) a).take k = es.take k ++ [.writeData ((absOf h).n + 1) a.w] := by
      subst hk2
      rw [List.take_append, Nat.add_sub_cancel_left]
      rfl
    rw [this, run_append, run_cons, run_nil]
    refine ⟨by simp only [Disk.apply]; rw [e1]; exact hi.book, by simp only [Disk.apply]; rw [e2]; exact hi.index, ?_⟩
    intro i b hib hb
    simp only [Disk.apply]
    rw [e3, Dict.get?_set]
    have : (absOf h).n + 1 ≠ i := by
      rintro rfl
      exact hi.notMem_index ((hi.index _).2 hib)
    rw [if_neg this]
    exact hi.data i b hib hb

/-! ### Which checkpoints are kept -/

theorem mem_drop_asc {n : Nat} {L : List Nat} (h : Asc n L) {x : Nat} (hx : x ∈ L) (c : Nat) :
    x ∈ L.drop c ↔ L.countP (fun y => decide (x ≤ y)) + c ≤ L.length := by
  obtain ⟨A, B, rfl⟩ := List.append_of_mem hx
  have hp := h.1
  rw [List.pairwise_append, List.pairwise_cons] at hp
  have hA : A.countP (fun y => decide (x ≤ y)) = 0 := by
    rw [List.countP_eq_zero]
    intro a ha
    have := hp.2.2 a ha x List.mem_cons_self
    simp only [decide_eq_true_eq]
    omega
  have hB : B.countP (fun y => decide (x ≤ y)) = B.length := by
    rw [List.countP_eq_length]
    intro b hb
    have := hp.2.1.1 b hb
    simp only [decide_eq_true_eq]
    omega
  rw [List.countP_append, hA, List.countP_cons, hB]
  simp only [Nat.le_refl, decide_true, if_true, List.length_append, List.length_cons]
  by_cases hc : c ≤ A.length
  · rw [List.drop_append_of_le_length hc]
    constructor
    · intro _; omega
    · intro _; simp
  · have : (A ++ x :: B).drop c = B.drop (c - A.length - 1) := by
      rw [List.drop_append]
      have h1 : A.drop c = [] := List.drop_eq_nil_of_le (by omega)
      rw [h1, List.nil_append]
      obtain ⟨m, hm⟩ : ∃ m, c - A.length = m + 1 := ⟨c - A.length - 1, by omega⟩
      rw [hm]
      rfl
    rw [this]
    constructor
    · intro hm
      have := hp.2.1.1 x (List.mem_of_mem_drop hm)
      omega
    · intro _; omega

theorem countP_drop_asc {n : Nat} {L : List Nat} (h : Asc n L) {x : Nat} (c : Nat) (hx : x ∈ L.drop c) :
    (L.drop c).countP (fun y => decide (x ≤ y)) = L.countP (fun y => decide (x ≤ y)) := by
  conv => rhs; rw [← List.take_append_drop c L]
  rw [List.countP_append]
  have hp := h.1
  rw [← List.take_append_drop c L, List.pairwise_append] at hp
  have : (L.take c).countP (fun y => decide (x ≤ y)) = 0 := by
    rw [List.countP_eq_zero]
    intro a ha
    have := hp.2.2 a ha x hx
    simp only [decide_eq_true_eq]
    omega
  omega

theorem mem_trim {n : Nat} {L : List Nat} (h : Asc n L) {x : Nat} (hx : x ∈ L) (k : Int) (hk : 0 ≤ k) :
    x ∈ trim k L ↔ (k ≠ 0 → ((L.countP (fun y => decide (x ≤ y)) : Nat) : Int) ≤ k) := by
  unfold trim
  rw [mem_drop_asc h hx]
  have hle : L.countP (fun y => decide (x ≤ y)) ≤ L.length := List.countP_le_length
  have hpos : 0 < L.countP (fun y => decide (x ≤ y)) := List.countP_pos_iff.2 ⟨x, hx, by simp⟩
  split
  · constructor
    · intro h1 _; omega
    · intro h1
      have := h1 (by omega)
      omega
  · have : k = 0 := by omega
    constructor
    · intro _ h0; exact absurd this h0
    · intro _; omega

theorem unprotected_snoc_lt (h : List (Save W)) (a : Save W) (i j : Nat) (hj : j < h.length) :
    unprotected (h ++ [a]) i j = unprotected h i j := by
  unfold unprotected
  rw [List.take_append_of_le_length (by omega)]

theorem unprotected_last (h : List (Save W)) (a : Save W) (i : Nat) (hi : i ≤ h.length) :
    unprotected (h ++ [a]) i h.length =
      (h.drop i).countP (fun a => !a.prot) + (if a.prot then 0 else 1) := by
  unfold unprotected
  rw [List.take_of_length_le (by simp), List.drop_append_of_le_length hi, List.countP_append]
  cases h : a.prot <;> simp [h]

theorem countP_U (h : List (Save W)) (i : Nat) (hi : i + 1 ∈ (absOf h).U) :
    (absOf h).U.countP (fun y => decide (i + 1 ≤ y)) = (h.drop i).countP (fun a => !a.prot) := by
  induction h using List.reverseRecOn with
  | nil => simp [absOf] at hi
  | append_singleton h a ih =>
    have hg := good_absOf h
    have hn := absOf_n h
    rw [absOf_snoc] at hi ⊢
    cases hprot : a.prot
    · simp only [Abs.step, stepU, hprot, Bool.false_eq_true, if_false] at hi ⊢
      have hmem : i + 1 ∈ (absOf h).U ++ [(absOf h).n + 1] := by
        unfold trim at hi; exact List.mem_of_mem_drop hi
      have h1 : (trim a.maxKeep ((absOf h).U ++ [(absOf h).n + 1])).countP (fun y => decide (i + 1 ≤ y)) =
          ((absOf h).U ++ [(absOf h).n + 1]).countP (fun y => decide (i + 1 ≤ y)) := by
        unfold trim at hi ⊢
        exact countP_drop_asc hg.u.snoc _ hi
      rw [h1, List.countP_append]
      rcases List.mem_append.1 hmem with hU | hU
      · have hlt := (hg.u.2 _ hU).2
        rw [ih hU, List.drop_append_of_le_length (by omega), List.countP_append]
        have : i + 1 ≤ (absOf h).n + 1 := by omega
        simp [hprot]
        omega
      · simp only [List.mem_singleton] at hU
        have hin : i = h.length := by omega
        have h0 : (absOf h).U.countP (fun y => decide (i + 1 ≤ y)) = 0 := by
          rw [List.countP_eq_zero]
          intro y hy
          have := (hg.u.2 y hy).2
          simp only [decide_eq_true_eq]
          omega
        rw [h0, List.drop_append_of_le_length (by omega), List.countP_append, hin]
        have : h.length ≤ (absOf h).n := by omega
        simp [hprot, this]
    · simp only [Abs.step, stepU, hprot, if_true] at hi ⊢
      have hlt := (hg.u.2 _ hi).2
      rw [ih hi, List.drop_append_of_le_length (by omega), List.countP_append]
      simp [hprot]

theorem mem_P (h : List (Save W)) (i : Nat) :
    i + 1 ∈ (absOf h).P ↔ ∃ a, h[i]? = some a ∧ a.prot = true := by
  induction h using List.reverseRecOn with
  | nil => simp [absOf]
  | append_singleton h a ih =>
    have hn := absOf_n h
    rw [absOf_snoc]
    have hcase : i < h.length ∨ i = h.length ∨ h.length < i := by omega
    have hnotin : h.length ≤ i → i + 1 ∉ (absOf h).P := by
      intro hle hc
      have := ((good_absOf h).p.2 _ hc).2
      omega
    rcases hcase with hlt | heq | hgt
    · rw [getElem?_snoc_of_lt _ _ _ hlt, ← ih]
      cases hprot : a.prot
      · simp [Abs.step, stepP, hprot]
      · simp [Abs.step, stepP, hprot]
        omega
    · subst heq
      have := hnotin (Nat.le_refl _)
      cases hprot : a.prot
      · simp [Abs.step, stepP, hprot, this]
      · simp [Abs.step, stepP, hprot, hn]
    · have h1 : (h ++ [a])[i]? = none := by
        rw [List.getElem?_eq_none_iff]; simp; omega
      have := hnotin (by omega)
      cases hprot : a.prot
      · simp [Abs.step, stepP, hprot, this, h1]
      · simp [Abs.step, stepP, hprot, this, h1]
        omega

theorem mem_U (h : List (Save W)) (hk : ∀ a ∈ h, 0 ≤ a.maxKeep) (i : Nat) :
    i + 1 ∈ (absOf h).U ↔ ∃ a, h[i]? = some a ∧ a.prot = false ∧
      ∀ (j : Nat) (b : Save W), i ≤ j → h[j]? = some b → b.prot = false → b.maxKeep ≠ 0 →
        (unprotected h i j : Int) ≤ b.maxKeep := by
  induction h using List.reverseRecOn with
  | nil => simp [absOf]
  | append_singleton h c ih =>
    have hn := absOf_n h
    have hg := good_absOf h
    have ih := ih (fun a ha => hk a (List.mem_append_left _ ha))
    rw [absOf_snoc]
    have hlast : (h ++ [c])[h.length]? = some c := by simp
    have hj : ∀ j b, (h ++ [c])[j]? = some b → j < h.length ∧ h[j]? = some b ∨ j = h.length ∧ b = c := by
      intro j b hb
      by_cases hlt : j < h.length
      · rw [getElem?_snoc_of_lt _ _ _ hlt] at hb; exact Or.inl ⟨hlt, hb⟩
      · have h2 : j < (h ++ [c]).length := by
          rcases Nat.lt_or_ge j (h ++ [c]).length with h3 | h3
          · exact h3
          · rw [List.getElem?_eq_none_iff.2 h3] at hb; cases hb
        simp only [List.length_append, List.length_cons, List.length_nil] at h2
        have : j = h.length := by omega
        subst this
        rw [hlast] at hb
        exact Or.inr ⟨rfl, (Option.some.inj hb).symm⟩
    cases hprot : c.prot
    · simp only [Abs.step, stepU, hprot, Bool.false_eq_true, if_false]
      have hkc := hk c (by simp)
      constructor
      · intro hi
        have hmem : i + 1 ∈ (absOf h).U ++ [(absOf h).n + 1] := by
          unfold trim at hi; exact List.mem_of_mem_drop hi
        rw [mem_trim hg.u.snoc hmem _ hkc, List.countP_append] at hi
        rcases List.mem_append.1 hmem with hU | hU
        · obtain ⟨a, ha, hap, hall⟩ := ih.1 hU
          have hlt := (hg.u.2 _ hU).2
          refine ⟨a, by rw [getElem?_snoc_of_lt _ _ _ (by omega)]; exact ha, hap, ?_⟩
          intro j b hij hb hbp hb0
          rcases hj j b hb with ⟨h1, h2⟩ | ⟨rfl, rfl⟩
          · rw [unprotected_snoc_lt _ _ _ _ h1]; exact hall j b hij h2 hbp hb0
          · rw [unprotected_last _ _ _ (by omega), hprot]
            have := hi hb0
            rw [countP_U h i hU] at this
            have hle : i + 1 ≤ (absOf h).n + 1 := by omega
            simpa [hle] using this
        · simp only [List.mem_singleton] at hU
          have hin : i = h.length := by omega
          subst hin
          refine ⟨c, hlast, hprot, ?_⟩
          intro j b hij hb hbp hb0
          rcases hj j b hb with ⟨h1, h2⟩ | ⟨rfl, rfl⟩
          · omega
          · rw [unprotected_last _ _ _ (by omega), hprot]
            simp
            omega
      · rintro ⟨a, ha, hap, hall⟩
        have hmem : i + 1 ∈ (absOf h).U ++ [(absOf h).n + 1] := by
          rcases hj i a ha with ⟨h1, h2⟩ | ⟨rfl, rfl⟩
          · refine List.mem_append_left _ (ih.2 ⟨a, h2, hap, ?_⟩)
            intro j b hij hb hbp hb0
            have hlt : j < h.length := by
              rcases Nat.lt_or_ge j h.length with h3 | h3
              · exact h3
              · rw [List.getElem?_eq_none_iff.2 h3] at hb; cases hb
            have := hall j b hij (by rw [getElem?_snoc_of_lt _ _ _ hlt]; exact hb) hbp hb0
            rwa [unprotected_snoc_lt _ _ _ _ hlt] at this
          · simp [hn]
        rw [mem_trim hg.u.snoc hmem _ hkc, List.countP_append]
        intro hc0
        have hile : i ≤ h.length := by
          rcases hj i a ha with ⟨h1, _⟩ | ⟨h1, _⟩ <;> omega
        have := hall h.length c hile hlast hprot hc0
        rw [unprotected_last _ _ _ hile, hprot] at this
        have hle : i + 1 ≤ (absOf h).n + 1 := by omega
        rcases List.mem_append.1 hmem with hU | hU
        · rw [countP_U h i hU]
          simpa [hle] using this
        · simp only [List.mem_singleton] at hU
          have h0 : (absOf h).U.countP (fun y => decide (i + 1 ≤ y)) = 0 := by
            rw [List.countP_eq_zero]
            intro y hy
            have := (hg.u.2 y hy).2
            simp only [decide_eq_true_eq]
            omega
          rw [h0]
          have : 0 ≤ c.maxKeep := hkc
          simp [hle]
          omega
    · simp only [Abs.step, stepU, hprot, if_true]
      rw [ih]
      constructor
      · rintro ⟨a, ha, hap, hall⟩
        have hlt : i < h.length := by
          rcases Nat.lt_or_ge i h.length with h3 | h3
          · exact h3
          · rw [List.getElem?_eq_none_iff.2 h3] at ha; cases ha
        refine ⟨a, by rw [getElem?_snoc_of_lt _ _ _ hlt]; exact ha, hap, ?_⟩
        intro j b hij hb hbp hb0
        rcases hj j b hb with ⟨h1, h2⟩ | ⟨rfl, rfl⟩
        · rw [unprotected_snoc_lt _ _ _ _ h1]; exact hall j b hij h2 hbp hb0
        · rw [hprot] at hbp; cases hbp
      · rintro ⟨a, ha, hap, hall⟩
        rcases hj i a ha with ⟨h1, h2⟩ | ⟨rfl, rfl⟩
        · refine ⟨a, h2, hap, ?_⟩
          intro j b hij hb hbp hb0
          have hlt : j < h.length := by
            rcases Nat.lt_or_ge j h.length with h3 | h3
            · exact h3
            · rw [List.getElem?_eq_none_iff.2 h3] at hb; cases hb
          have := hall j b hij (by rw [getElem?_snoc_of_lt _ _ _ hlt]; exact hb) hbp hb0
          rwa [unprotected_snoc_lt _ _ _ _ hlt] at this
        · rw [hprot] at hap; cases hap

theorem kept_iff (h : List (Save W)) (hk : ∀ a ∈ h, 0 ≤ a.maxKeep) (i : Nat) :
    (i + 1 ∈ (absOf h).U ∨ i + 1 ∈ (absOf h).P) ↔ ∃ a, Kept h i a := by
  rw [mem_U h hk, mem_P]
  constructor
  · rintro (⟨a, ha, _, hall⟩ | ⟨a, ha, hp⟩)
    · exact ⟨a, ha, Or.inr hall⟩
    · exact ⟨a, ha, Or.inl hp⟩
  · rintro ⟨a, ha, hp | hall⟩
    · exact Or.inr ⟨a, ha, hp⟩
    · cases hp : a.prot
      · exact Or.inl ⟨a, ha, hp, hall⟩
      · exact Or.inr ⟨a, ha, hp⟩

/-! ### Histories -/

theorem call_settings_fields (d : Disk W) :
    (d.call .settings).1.book = d.book ∧ (d.call .settings).1.index = d.index ∧
      (d.call .settings).1.data = d.data := by
  simp only [Disk.call, saveTrainingSettings]
  cases hs : d.steps with
  | missing =>
    simp only
    split
    · simp
    · split <;> simp [Disk.run, Disk.apply]
  | torn => simp
  | good s =>
    simp only
    split
    · simp
    · split <;> simp [Disk.run, Disk.apply]

theorem Inv.settings {h : List (Save W)} {d : Disk W} (hi : Inv h d) : Inv h (d.call .settings).1 := by
  obtain ⟨h1, h2, h3⟩ := call_settings_fields d
  exact ⟨by rw [h1]; exact hi.book, by rw [h2]; exact hi.index, by rw [h3]; exact hi.data⟩

theorem saveWeights_changed (d : Disk W) (a : Save W) (h : a.changed = true) :
    saveWeights d a = .error .valueError := by
  simp [saveWeights, h]

/-- The form of a successful save. -/
theorem Inv.ok_form {h : List (Save W)} {d : Disk W} (hi : Inv h d) {a : Save W} (hk : 0 ≤ a.maxKeep)
    {effs : List (Eff W)} (ho : saveWeights d a = .ok effs) :
    ∃ es, stepEffs d a = .ok es ∧ effs = es ++ mainEffs (absOf h) a := by
  cases hc : a.changed
  · rw [saveWeights_eq (good_absOf h) hi.book hi.notMem_index a hk hc] at ho
    cases hse : stepEffs d a with
    | error e => rw [hse] at ho; cases ho
    | ok es => rw [hse] at ho; cases ho; exact ⟨es, rfl, rfl⟩
  · rw [saveWeights_changed d a hc] at ho; cases ho

theorem stepEffs_length {d : Disk W} {a : Save W} {es : List (Eff W)} (h : stepEffs d a = .ok es) :
    es.length = if a.numSteps.isSome then 2 else 0 := by
  rcases stepEffs_cases h with ⟨h1, rfl⟩ | ⟨s', h1, rfl⟩
  · simp [h1]
  · simp [h1]

theorem inv_exec (ops : List (Op W)) {h : List (Save W)} {d : Disk W} (hi : Inv h d)
    (hops : ∀ op ∈ ops, GoodLimit op ∧ EarlyCrash op) : Inv (h ++ saved d ops) (exec d ops) := by
  induction ops generalizing h d with
  | nil => simpa [saved, exec] using hi
  | cons op ops ih =>
    have hop := hops op List.mem_cons_self
    have hrest := fun o ho => hops o (List.mem_cons_of_mem _ ho)
    cases op with
    | settings =>
      have : saved d (.settings :: ops) = saved (d.call .settings).1 ops := by
        simp [saved]
      rw [this]
      exact ih hi.settings hrest
    | weights a =>
      cases ho : saveWeights d a with
      | error e =>
        have hcall : d.call (.weights a) = (d, some e) := by simp [Disk.call, ho]
        have : saved d (.weights a :: ops) = saved d ops := by simp [saved, hcall]
        rw [this, exec, hcall]
        exact ih hi hrest
      | ok effs =>
        have hcall : d.call (.weights a) = (d.run effs, none) := by simp [Disk.call, ho]
        have : saved d (.weights a :: ops) = a :: saved (d.run effs) ops := by simp [saved, hcall]
        rw [this, exec, hcall]
        obtain ⟨es, hse, rfl⟩ := hi.ok_form hop.1 ho
        have := ih (hi.save a hse) hrest
        simpa using this
    | crashed a k =>
      cases ho : saveWeights d a with
      | error e =>
        have hcall : d.call (.crashed a k) = (d, none) := by simp [Disk.call, ho]
        have : saved d (.crashed a k :: ops) = saved d ops := by simp [saved, hcall]
        rw [this, exec, hcall]
        exact ih hi hrest
      | ok effs =>
        have hcall : d.call (.crashed a k) = (d.run (effs.take k), none) := by simp [Disk.call, ho]
        have : saved d (.crashed a k :: ops) = saved (d.run (effs.take k)) ops := by simp [saved, hcall]
        rw [this, exec, hcall]
        obtain ⟨es, hse, rfl⟩ := hi.ok_form hop.1 ho
        have hlen := stepEffs_length hse
        have hk : k ≤ es.length + 1 := by
          have := hop.2
          simp only [EarlyCrash] at this
          rw [hlen]
          split at this <;> rename_i hh <;> simp [hh] <;> omega
        exact ih (hi.early a hse k hk) hrest

theorem saved_good (ops : List (Op W)) (d : Disk W) (hops : ∀ op ∈ ops, GoodLimit op) :
    ∀ a ∈ saved d ops, 0 ≤ a.maxKeep := by
  induction ops generalizing d with
  | nil => simp [saved]
  | cons op ops ih =>
    intro a ha
    simp only [saved, List.mem_append] at ha
    rcases ha with ha | ha
    · have := hops op List.mem_cons_self
      split at ha
      · simp only [List.mem_singleton] at ha; subst ha; exact this
      · simp at ha
    · exact ih _ (fun o ho => hops o (List.mem_cons_of_mem _ ho)) a ha

theorem saved_unchanged (ops : List (Op W)) (d : Disk W) : ∀ a ∈ saved d ops, a.changed = false := by
  induction ops generalizing d with
  | nil => simp [saved]
  | cons op ops ih =>
    intro a ha
    simp only [saved, List.mem_append] at ha
    rcases ha with ha | ha
    · split at ha
      · rename_i b heq
        simp only [List.mem_singleton] at ha
        subst ha
        cases hc : a.changed
        · rfl
        · simp [Disk.call, saveWeights_changed d a hc] at heq
      · simp at ha
    · exact ih _ a ha

/-! ### Loading -/

theorem load_some {d : Disk W} {s : Abs} (hb : d.book = bookOf s) (hn : s.n ≠ 0) (i : Nat)
    (hm : i ∈ s.U ∨ i ∈ s.P) (hidx : i ∈ d.index) {w : W} (hd : Dict.get? d.data i = some w) :
    loadWeights d (some i) = .ok w := by
  unfold loadWeights
  rw [hb, bookOf, if_neg hn]
  simp only [Option.getD_some, get_mk]
  by_cases hU : i ∈ s.U
  · simp [hU, hidx, hd]
  · have hP := hm.resolve_left hU
    simp [hU, hP, hidx, hd]

theorem load_none {d : Disk W} {s : Abs} (hb : d.book = bookOf s) (hn : s.n ≠ 0) :
    loadWeights d none = loadWeights d (some s.n) := by
  unfold loadWeights
  rw [hb, bookOf, if_neg hn]
  rfl

theorem load_notListed {d : Disk W} {s : Abs} (hb : d.book = bookOf s) (hn : s.n ≠ 0) (i : Nat)
    (hm : ¬ (i ∈ s.U ∨ i ∈ s.P)) : loadWeights d (some i) = .error .keyError := by
  unfold loadWeights
  rw [hb, bookOf, if_neg hn]
  rw [not_or] at hm
  simp [get_mk, hm.1, hm.2]

/-! ### Crashes -/

theorem removed_notMem_last {s : Abs} (hg : Good s) (a : Save W) (_hk : 0 ≤ a.maxKeep) :
    s.n + 1 ∉ removed s.n s.U a := by
  unfold removed
  split
  · simp
  · intro hm
    split at hm
    · rename_i hpos
      have hle : (s.U ++ [s.n + 1]).length - a.maxKeep.toNat ≤ s.U.length := by
        simp only [List.length_append, List.length_cons, List.length_nil]; omega
      rw [List.take_append_of_le_length hle] at hm
      have := (hg.u.2 _ (List.mem_of_mem_take hm)).2
      omega
    · simp at hm

theorem removed_subset (s : Abs) (a : Save W) (i : Nat) (hg : Good s) (hk : 0 ≤ a.maxKeep)
    (hi : i ∈ removed s.n s.U a) : i ∈ s.U := by
  have hne : i ≠ s.n + 1 := by rintro rfl; exact removed_notMem_last hg a hk hi
  unfold removed at hi
  split at hi
  · simp at hi
  · have := List.mem_of_mem_take hi
    simp only [List.mem_append, List.mem_singleton] at this
    exact this.resolve_right hne

theorem mainEffs_length (s : Abs) (a : Save W) :
    (mainEffs s a).length = 4 + ((removed s.n s.U a).flatMap (rmEffs (W := W) a.dataFirst)).length := by
  simp only [mainEffs, List.length_append, List.length_cons, List.length_nil]; omega

/-- A crash after the index file and before the opening of the bookkeeping file. -/
theorem run_middle {h : List (Save W)} {d : Disk W} (hi : Inv h d) (a : Save W) (hk : 0 ≤ a.maxKeep)
    {es : List (Eff W)} (hse : stepEffs d a = .ok es) (k : Nat) (h1 : es.length + 2 ≤ k)
    (h2 : k + 2 ≤ (es ++ mainEffs (absOf h) a).length) :
    let d' := d.run ((es ++ mainEffs (absOf h) a).take k)
    d'.book = d.book ∧ (absOf h).n + 1 ∈ d'.index ∧
      (∀ i, i ∈ (absOf h).U ∨ i ∈ (absOf h).P → i ∉ removed (absOf h).n (absOf h).U a →
        i ∈ d'.index ∧ Dict.get? d'.data i = Dict.get? d.data i) := by
  intro d'
  obtain ⟨e1, e2, e3⟩ := run_stepEffs hse es.length
  rw [List.take_length] at e1 e2 e3
  obtain ⟨m, rfl⟩ : ∃ m, k = es.length + (2 + m) := ⟨k - es.length - 2, by omega⟩
  rw [List.length_append, mainEffs_length] at h2
  have hm : m ≤ ((removed (absOf h).n (absOf h).U a).flatMap (rmEffs (W := W) a.dataFirst)).length := by omega
  have htake : (es ++ mainEffs (absOf h) a).take (es.length + (2 + m)) =
      es ++ ([.writeData ((absOf h).n + 1) a.w, .writeIndex ((absOf h).n + 1)] ++
        ((removed (absOf h).n (absOf h).U a).flatMap (rmEffs a.dataFirst)).take m) := by
    rw [List.take_length_add_append, mainEffs, List.append_assoc]
    congr 1
    have hl : [Eff.writeData ((absOf h).n + 1) a.w, Eff.writeIndex ((absOf h).n + 1)].length = 2 := rfl
    rw [← hl, List.take_length_add_append, List.take_append_of_le_length hm]
  have hd' : d' = (((d.run es).apply (.writeData ((absOf h).n + 1) a.w)).apply
      (.writeIndex ((absOf h).n + 1))).run
        (((removed (absOf h).n (absOf h).U a).flatMap (rmEffs a.dataFirst)).take m) := by
    simp only [d', htake, run_append, run_cons, run_nil]
  have hrm : ∀ e ∈ ((removed (absOf h).n (absOf h).U a).flatMap (rmEffs (W := W) a.dataFirst)).take m,
      ∃ n ∈ removed (absOf h).n (absOf h).U a, e = .rmData n ∨ e = .rmIndex n := by
    intro e he
    have := List.mem_of_mem_take he
    rw [List.mem_flatMap] at this
    obtain ⟨n, hn, hne⟩ := this
    refine ⟨n, hn, ?_⟩
    unfold rmEffs at hne
    cases hdf : a.dataFirst <;> rw [hdf] at hne <;> simp at hne
    · exact hne.symm
    · exact hne
  obtain ⟨p1, p2, p3⟩ := run_rms_prefix (((d.run es).apply (.writeData ((absOf h).n + 1) a.w)).apply
      (.writeIndex ((absOf h).n + 1))) _ _ hrm
  have hb := run_rm_book (((d.run es).apply (.writeData ((absOf h).n + 1) a.w)).apply
      (.writeIndex ((absOf h).n + 1)))
      (((removed (absOf h).n (absOf h).U a).flatMap (rmEffs a.dataFirst)).take m)
      (fun e he => isRm_flatMap _ _ e (List.mem_of_mem_take he))
  rw [hd']
  refine ⟨?_, ?_, ?_⟩
  · rw [hb.1]
    exact e1
  · rw [p1 _ (removed_notMem_last (good_absOf h) a hk)]
    simp only [Disk.apply, e2, if_neg hi.notMem_index]
    simp
  · intro i hiUP hir
    refine ⟨?_, ?_⟩
    · rw [p1 i hir]
      simp only [Disk.apply, e2, if_neg hi.notMem_index]
      exact List.mem_append_left _ ((hi.index i).2 hiUP)
    · rw [p3 i hir]
      simp only [Disk.apply, e3, Dict.get?_set]
      have : (absOf h).n + 1 ≠ i := by
        rintro rfl
        exact hi.notMem_index ((hi.index _).2 hiUP)
      rw [if_neg this]

theorem run_torn {d : Disk W} (es : List (Eff W)) (s : Abs) (a : Save W) (k : Nat)
    (hk : k + 1 = (es ++ mainEffs s a).length) : (d.run ((es ++ mainEffs s a).take k)).book = .torn := by
  have : (es ++ mainEffs s a).take k = es ++ ([.writeData (s.n + 1) a.w, .writeIndex (s.n + 1)] ++
      (removed s.n s.U a).flatMap (rmEffs a.dataFirst)) ++ [.openMeta] := by
    have hform : es ++ mainEffs s a = (es ++ ([.writeData (s.n + 1) a.w, .writeIndex (s.n + 1)] ++
      (removed s.n s.U a).flatMap (rmEffs a.dataFirst)) ++ [.openMeta]) ++
      [.writeMeta ⟨s.n + 1, mk (stepU s.n s.U a), mk (stepP s.n s.P a)⟩] := by
      simp [mainEffs]
    rw [hform]
    rw [hform, List.length_append] at hk
    apply List.take_left'
    simp only [List.length_cons, List.length_nil] at hk
    omega
  rw [this, run_append]
  rfl

end Verif.Checkpoint
