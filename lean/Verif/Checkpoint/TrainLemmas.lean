import Verif.Checkpoint.Lemmas

namespace Verif.Checkpoint
open Verif.Py

variable {W : Type}

/-! ### The training steps file -/

def stepsOf (T : List Nat) : YFile Steps := if T = [] then .missing else .good ⟨T.length, entries T⟩

structure SInv (T : List Nat) (d : Disk W) : Prop where
  steps : d.steps = stepsOf T
  dirs : d.stepDirs = (List.range T.length).map (· + 1)

theorem keys_entries_aux (T : List Nat) (k : Nat) :
    Dict.keys ((T.zipIdx k).map (fun p => (p.2, p.1))) = List.range' k T.length := by
  induction T generalizing k with
  | nil => rfl
  | cons t T ih => simp [List.zipIdx_cons, Dict.keys_cons, ih, List.range'_succ]

theorem keys_entries (T : List Nat) : Dict.keys (entries T) = List.range' 1 T.length := keys_entries_aux T 1

theorem entries_snoc (T : List Nat) (v : Nat) : entries (T ++ [v]) = entries T ++ [(T.length + 1, v)] := by
  simp [entries, List.zipIdx_append, Nat.add_comm]

theorem set_append_new (d : Dict Nat Nat) (k v : Nat) (h : k ∉ Dict.keys d) : Dict.set d k v = d ++ [(k, v)] := by
  induction d with
  | nil => rfl
  | cons p d ih =>
    obtain ⟨a, b⟩ := p
    simp only [Dict.keys_cons, List.mem_cons, not_or] at h
    simp [Dict.set, Ne.symm h.1, ih h.2]

theorem set_append_last (d : Dict Nat Nat) (k v v' : Nat) (h : k ∉ Dict.keys d) :
    Dict.set (d ++ [(k, v)]) k v' = d ++ [(k, v')] := by
  induction d with
  | nil => simp [Dict.set]
  | cons p d ih =>
    obtain ⟨a, b⟩ := p
    simp only [Dict.keys_cons, List.mem_cons, not_or] at h
    simp [Dict.set, Ne.symm h.1, ih h.2]

theorem get_append_last (d : Dict Nat Nat) (k v : Nat) (h : k ∉ Dict.keys d) :
    Dict.get? (d ++ [(k, v)]) k = some v := by
  induction d with
  | nil => simp [Dict.get?_cons]
  | cons p d ih =>
    obtain ⟨a, b⟩ := p
    simp only [Dict.keys_cons, List.mem_cons, not_or] at h
    rw [List.cons_append, Dict.get?_cons, if_neg (Ne.symm h.1), ih h.2]

theorem notMem_entries (T : List Nat) : T.length + 1 ∉ Dict.keys (entries T) := by
  rw [keys_entries, List.mem_range'_1]; omega

theorem SInv.settings {T : List Nat} {d : Disk W} (hi : SInv T d) :
    (d.call .settings).2 = none ∧ SInv (T ++ [0]) (d.call .settings).1 := by
  have hr : saveTrainingSettings d = ([.mkStepDir (T.length + 1), .openSteps,
      .writeSteps ⟨T.length + 1, entries (T ++ [0])⟩], none) := by
    have hdir : T.length + 1 ∉ d.stepDirs := by
      rw [hi.dirs]; simp
    have hset : Dict.set (entries T) (T.length + 1) 0 = entries (T ++ [0]) := by
      rw [set_append_new _ _ _ (notMem_entries T), entries_snoc]
    have hhas : Dict.has (entries T) (T.length + 1) = false := by
      rw [Dict.has_eq_false_iff]; exact notMem_entries T
    unfold saveTrainingSettings
    rw [hi.steps, stepsOf]
    by_cases hT : T = []
    · subst hT
      simp only [if_true]
      simp only [List.length_nil] at hdir hset hhas
      rw [if_neg hdir]
      rfl
    · rw [if_neg hT]
      simp only
      rw [if_neg hdir, hhas]
      simp only [Bool.false_eq_true, if_false, hset]
  refine ⟨by simp only [Disk.call, hr], ?_⟩
  simp only [Disk.call, hr]
  refine ⟨?_, ?_⟩
  · simp [Disk.run, Disk.apply, stepsOf]
  · simp [Disk.run, Disk.apply, hi.dirs, List.range_succ]

theorem SInv.stepEffs {T : List Nat} {d : Disk W} {t : Nat} (hi : SInv (T ++ [t]) d) (a : Save W) :
    Checkpoint.stepEffs d a = .ok (match a.numSteps with
      | none => []
      | some num => [.openSteps, .writeSteps ⟨T.length + 1, entries (T ++ [num])⟩]) := by
  unfold Checkpoint.stepEffs
  cases hn : a.numSteps with
  | none => rfl
  | some num =>
    simp only [updateNumSteps, hi.steps, stepsOf]
    rw [if_neg (by simp)]
    simp only [entries_snoc, List.length_append, List.length_cons, List.length_nil, Nat.zero_add,
      get_append_last _ _ _ (notMem_entries T), set_append_last _ _ _ _ (notMem_entries T)]

theorem run_main_steps (d : Disk W) (s : Abs) (a : Save W) :
    (d.run (mainEffs s a)).steps = d.steps ∧ (d.run (mainEffs s a)).stepDirs = d.stepDirs := by
  have := run_rm_book ((d.apply (.writeData (s.n + 1) a.w)).apply (.writeIndex (s.n + 1)))
    ((removed s.n s.U a).flatMap (rmEffs a.dataFirst)) (isRm_flatMap _ _)
  simp only [mainEffs, run_append, run_cons, run_nil]
  refine ⟨?_, ?_⟩
  · rw [show ((_ : Disk W).apply (.openMeta)).apply _ = _ from rfl]
    simp only [Disk.apply]
    exact this.2.1
  · simp only [Disk.apply]
    exact this.2.2

def setLast (T : List Nat) (t : Nat) : Option Nat → List Nat
  | none => T ++ [t]
  | some num => T ++ [num]

/-- A save with a training run. -/
theorem save_inv {h : List (Save W)} {T : List Nat} {t : Nat} {d : Disk W} (hi : Inv h d) (hs : SInv (T ++ [t]) d)
    (a : Save W) (hk : 0 ≤ a.maxKeep) (hc : a.changed = false) :
    (d.call (.weights a)).2 = none ∧ Inv (h ++ [a]) (d.call (.weights a)).1 ∧
      SInv (setLast T t a.numSteps) (d.call (.weights a)).1 := by
  have hse := hs.stepEffs a
  have ho := saveWeights_eq (good_absOf h) hi.book hi.notMem_index a hk hc
  rw [hse] at ho
  simp only at ho
  have h1 : d.call (.weights a) = (d.run ((match a.numSteps with
      | none => []
      | some num => [.openSteps, .writeSteps ⟨T.length + 1, entries (T ++ [num])⟩]) ++ mainEffs (absOf h) a),
      none) := by
    simp only [Disk.call, ho]
  rw [h1]
  refine ⟨rfl, hi.save a hse, ?_⟩
  simp only [run_append]
  obtain ⟨m1, m2⟩ := run_main_steps (d.run (match a.numSteps with
      | none => []
      | some num => [.openSteps, .writeSteps ⟨T.length + 1, entries (T ++ [num])⟩])) (absOf h) a
  refine ⟨?_, ?_⟩
  · rw [m1]
    cases hn : a.numSteps with
    | none => exact hs.steps
    | some num => simp [Disk.run, Disk.apply, stepsOf, setLast]
  · rw [m2]
    cases hn : a.numSteps with
    | none => simpa [setLast] using hs.dirs
    | some num => simpa [Disk.run, Disk.apply, setLast] using hs.dirs

theorem inv_settings {h : List (Save W)} {T : List Nat} {d : Disk W} (hi : Inv h d) (hs : SInv T d) :
    (d.call .settings).2 = none ∧ Inv h (d.call .settings).1 ∧ SInv (T ++ [0]) (d.call .settings).1 :=
  ⟨hs.settings.1, hi.settings, hs.settings.2⟩

theorem sinv_empty : SInv ([] : List Nat) (Disk.empty : Disk W) := ⟨rfl, rfl⟩

theorem exec_append (d : Disk W) (a b : List (Op W)) : exec d (a ++ b) = exec (exec d a) b := by
  induction a generalizing d with
  | nil => rfl
  | cons op a ih => simp [exec, ih]

def lastOr (t : Nat) (b : List (Save W)) : Nat := ((b.filterMap (·.numSteps)).getLast?).getD t

theorem lastOr_cons_none (t : Nat) (a : Save W) (b : List (Save W)) (h : a.numSteps = none) :
    lastOr t (a :: b) = lastOr t b := by simp [lastOr, h]

theorem lastOr_cons_some (t num : Nat) (a : Save W) (b : List (Save W)) (h : a.numSteps = some num) :
    lastOr t (a :: b) = lastOr num b := by
  simp only [lastOr, List.filterMap_cons, h]
  cases b.filterMap (·.numSteps) with
  | nil => rfl
  | cons x xs => simp [List.getLast?_cons]

theorem saves_inv (b : List (Save W)) {h : List (Save W)} {T : List Nat} {t : Nat} {d : Disk W} (hi : Inv h d)
    (hs : SInv (T ++ [t]) d) (hb : ∀ a ∈ b, 0 ≤ a.maxKeep ∧ a.changed = false) :
    Inv (h ++ b) (exec d (b.map .weights)) ∧ SInv (T ++ [lastOr t b]) (exec d (b.map .weights)) ∧
      saved d (b.map .weights) = b := by
  induction b generalizing h t d with
  | nil => exact ⟨by simpa [exec] using hi, by simpa [exec, lastOr] using hs, rfl⟩
  | cons a b ih =>
    obtain ⟨h1, h2, h3⟩ := save_inv hi hs a (hb a List.mem_cons_self).1 (hb a List.mem_cons_self).2
    have hrest := fun x hx => hb x (List.mem_cons_of_mem _ hx)
    simp only [List.map_cons, exec, saved]
    cases hn : a.numSteps with
    | none =>
      rw [hn, setLast] at h3
      obtain ⟨g1, g2, g3⟩ := ih h2 h3 hrest
      refine ⟨by simpa using g1, ?_, ?_⟩
      · rw [lastOr_cons_none t a b hn]; exact g2
      · rw [h1]; simp [g3]
    | some num =>
      rw [hn, setLast] at h3
      obtain ⟨g1, g2, g3⟩ := ih h2 h3 hrest
      refine ⟨by simpa using g1, ?_, ?_⟩
      · rw [lastOr_cons_some t num a b hn]; exact g2
      · rw [h1]; simp [g3]

theorem runs_inv (runs : List (List (Save W))) {h : List (Save W)} {T : List Nat} {d : Disk W} (hi : Inv h d)
    (hs : SInv T d) (hb : ∀ b ∈ runs, ∀ a ∈ b, 0 ≤ a.maxKeep ∧ a.changed = false) :
    Inv (h ++ runs.flatten) (exec d (runs.flatMap (fun b => .settings :: b.map .weights))) ∧
      SInv (T ++ runs.map lastSteps) (exec d (runs.flatMap (fun b => .settings :: b.map .weights))) := by
  induction runs generalizing h T d with
  | nil => exact ⟨by simpa [exec] using hi, by simpa [exec] using hs⟩
  | cons b runs ih =>
    obtain ⟨_, h2, h3⟩ := inv_settings hi hs
    obtain ⟨g1, g2, _⟩ := saves_inv b h2 h3 (hb b List.mem_cons_self)
    have := ih g1 g2 (fun x hx => hb x (List.mem_cons_of_mem _ hx))
    simp only [List.flatMap_cons, List.cons_append, exec, exec_append]
    refine ⟨by simpa using this.1, ?_⟩
    have h4 := this.2
    rw [List.append_assoc] at h4
    exact h4

/-! ### The training loop -/

theorem trainLoop_eq (r : Run W) (hr : r.Fine) (w0 : W) (n : Nat) (start : Nat) {h : List (Save W)} {T : List Nat}
    {t : Nat} {d : Disk W} (hi : Inv h d) (hs : SInv (T ++ [t]) d) :
    let b := ((List.range' start n).filter (fun i => i % r.saveFrequency = 0 ∧ i ≠ 0)).map
      (fun i => ({ w := after r w0 (i + 1), numSteps := some i } : Save W))
    trainLoop r start n (after r w0 start) d = ((exec d (b.map .weights), after r w0 (start + n)), none) := by
  induction n generalizing start h t d with
  | zero => simp [trainLoop, exec]
  | succ n ih =>
    intro b
    obtain ⟨f1, f2, f3, f4⟩ := hr
    simp only [trainLoop, if_neg f1, f4, Bool.false_eq_true, and_false, if_false, if_neg f2, if_neg f3]
    have hstep : r.update start (after r w0 start) = after r w0 (start + 1) := rfl
    rw [hstep]
    by_cases hc : start % r.saveFrequency = 0 ∧ start ≠ 0
    · rw [if_pos hc]
      have hb : b = ({ w := after r w0 (start + 1), numSteps := some start } : Save W) ::
          ((List.range' (start + 1) n).filter (fun i => i % r.saveFrequency = 0 ∧ i ≠ 0)).map
          (fun i => ({ w := after r w0 (i + 1), numSteps := some i } : Save W)) := by
        simp only [b, List.range'_succ, List.filter_cons]
        rw [if_pos (by simpa using hc)]
        rfl
      obtain ⟨h1, h2, h3⟩ := save_inv hi hs
        ({ w := after r w0 (start + 1), numSteps := some start } : Save W) (by simp) rfl
      have hcall : d.call (.weights { w := after r w0 (start + 1), numSteps := some start }) =
          ((d.call (.weights { w := after r w0 (start + 1), numSteps := some start })).1, none) := by
        rw [← h1]
      rw [hcall]
      simp only
      rw [ih (start + 1) h2 h3, hb]
      simp only [List.map_cons, exec]
      rw [Nat.add_right_comm, Nat.add_assoc]
    · rw [if_neg hc]
      have hb : b = ((List.range' (start + 1) n).filter (fun i => i % r.saveFrequency = 0 ∧ i ≠ 0)).map
          (fun i => ({ w := after r w0 (i + 1), numSteps := some i } : Save W)) := by
        simp only [b, List.range'_succ, List.filter_cons]
        rw [if_neg (by simpa using hc)]
      rw [ih (start + 1) hi hs, hb, Nat.add_right_comm, Nat.add_assoc]

theorem train_eq (r : Run W) (hr : r.Fine) (w : W) (n : Nat) (hn : n ≠ 0) {h : List (Save W)} {T : List Nat}
    {d : Disk W} (hi : Inv h d) (hs : SInv T d) :
    train r n w d = ((exec d (trainOps r n w), after r w n), none) ∧
    saved d (trainOps r n w) = (trainOps r n w).filterMap (fun
      | .weights a => some a
      | _ => none) ∧
    Inv (h ++ saved d (trainOps r n w)) (exec d (trainOps r n w)) ∧
    SInv (T ++ [n - 1]) (exec d (trainOps r n w)) := by
  obtain ⟨s1, s2, s3⟩ := inv_settings hi hs
  obtain ⟨a1, a2, a3⟩ := save_inv s2 s3 ({ w := w, prot := true } : Save W) (by simp) rfl
  simp only [setLast] at a3
  have hnew : d.saveNewRun { w := w, prot := true } =
      (((d.call .settings).1.call (.weights { w := w, prot := true })).1, none) := by
    unfold Disk.saveNewRun
    have : d.call .settings = ((d.call .settings).1, none) := by rw [← s1]
    rw [this]
    simp only
    rw [← a1]
  have hloop := trainLoop_eq r hr w n 0 a2 a3
  simp only [Nat.zero_add] at hloop
  let b : List (Save W) := ((List.range' 0 n).filter (fun i => i % r.saveFrequency = 0 ∧ i ≠ 0)).map
      (fun i => ({ w := after r w (i + 1), numSteps := some i } : Save W))
  have hb : ∀ a ∈ b, 0 ≤ a.maxKeep ∧ a.changed = false := by
    intro a ha
    simp only [b, List.mem_map] at ha
    obtain ⟨i, _, rfl⟩ := ha
    exact ⟨by simp, rfl⟩
  obtain ⟨b1, b2, b3⟩ := saves_inv b a2 a3 hb
  obtain ⟨l1, l2, l3⟩ := save_inv b1 b2 ({ w := after r w n, numSteps := some (n - 1), prot := true } : Save W)
    (by simp) rfl
  have hops : trainOps r n w = .settings :: .weights { w := w, prot := true } ::
      (b.map .weights ++ [.weights { w := after r w n, numSteps := some (n - 1), prot := true }]) := by
    simp [trainOps, b, List.range_eq_range', Function.comp_def]
  have hexec : exec d (trainOps r n w) =
      ((exec ((d.call .settings).1.call (.weights { w := w, prot := true })).1 (b.map .weights)).call
        (.weights { w := after r w n, numSteps := some (n - 1), prot := true })).1 := by
    rw [hops]
    simp only [exec, exec_append]
  have hsaved_append : ∀ (x y : List (Op W)) (d : Disk W), saved d (x ++ y) = saved d x ++ saved (exec d x) y := by
    intro x
    induction x with
    | nil => intro y d; rfl
    | cons o x ih => intro y d; simp [saved, exec, ih]
  have hsaved : saved d (trainOps r n w) = { w := w, prot := true } :: (b ++
      [{ w := after r w n, numSteps := some (n - 1), prot := true }]) := by
    rw [hops]
    simp only [saved, hsaved_append, b3, a1, l1]
    simp
  refine ⟨?_, ?_, ?_, ?_⟩
  · unfold train
    rw [hnew]
    simp only
    rw [show after r w 0 = w from rfl] at hloop
    rw [hloop]
    simp only [if_neg hn]
    rw [hexec]
    simp only [b] at l1 ⊢
    rw [l1]
  · rw [hsaved, hops]
    simp [List.filterMap_append, List.filterMap_map, Function.comp_def]
  · rw [hsaved, hexec]
    simpa using l2
  · rw [hexec]
    simpa [setLast] using l3

end Verif.Checkpoint
