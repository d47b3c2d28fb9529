/-
Lemmas on the weights of nested models.
-/
import Verif.Nested.Spec
import Verif.Checkpoint.Lemmas
import Mathlib.Data.List.Nodup
import Mathlib.Order.Basic

namespace Verif.Nested
open Verif.Py Verif.Checkpoint

variable {W : Type}

/-! ### Parts of a directory -/

/-- An effect on the directory of one source. -/
def effPart (i : Nat) : Eff (Nat → W) → Eff W
  | .openMeta => .openMeta
  | .writeMeta m => .writeMeta m
  | .openSteps => .openSteps
  | .writeSteps s => .writeSteps s
  | .writeData n w => .writeData n (w i)
  | .writeIndex n => .writeIndex n
  | .rmData n => .rmData n
  | .rmIndex n => .rmIndex n
  | .mkStepDir n => .mkStepDir n

theorem map_set (d : Dict Nat (Nat → W)) (n : Nat) (w : Nat → W) (i : Nat) :
    (Dict.set d n w).map (fun x => (x.1, x.2 i)) = Dict.set (d.map fun x => (x.1, x.2 i)) n (w i) := by
  induction d with
  | nil => rfl
  | cons x d ih =>
    obtain ⟨k, v⟩ := x
    by_cases hk : k = n
    · simp [Dict.set, hk]
    · simp only [Dict.set, hk, if_false, List.map_cons]
      exact congrArg _ ih

theorem map_get (d : Dict Nat (Nat → W)) (n : Nat) (i : Nat) :
    Dict.get? (d.map fun x => (x.1, x.2 i)) n = (Dict.get? d n).map (· i) := by
  induction d with
  | nil => rfl
  | cons x d ih =>
    obtain ⟨k, v⟩ := x
    simp only [List.map_cons, Dict.get?_cons]
    split
    · rfl
    · exact ih

theorem partOf_apply (d : Disk (Nat → W)) (e : Eff (Nat → W)) (i : Nat) :
    partOf (d.apply e) i = (partOf d i).apply (effPart i e) := by
  cases e
  case writeIndex n => rfl
  all_goals simp [Disk.apply, partOf, effPart, map_set, List.filter_map, Function.comp_def]

theorem partOf_run (es : List (Eff (Nat → W))) (d : Disk (Nat → W)) (i : Nat) :
    partOf (d.run es) i = (partOf d i).run (es.map (effPart i)) := by
  induction es generalizing d with
  | nil => rfl
  | cons e es ih => rw [run_cons, ih, partOf_apply]; rfl

theorem removeOld_part (df : Bool) (ns : List Nat) (u : Dict Nat Info) (i : Nat) :
    removeOld (W := W) df ns u =
      ((removeOld (W := Nat → W) df ns u).1, (removeOld (W := Nat → W) df ns u).2.map (effPart i)) := by
  induction ns generalizing u with
  | nil => rfl
  | cons n ns ih =>
    simp only [removeOld]
    rw [ih]
    cases df <;> simp [effPart]

theorem stepEffs_part (d : Disk (Nat → W)) (a : Save (Nat → W)) (i : Nat) :
    stepEffs (partOf d i) (part a i) = (stepEffs d a).map (List.map (effPart i)) := by
  simp only [stepEffs, part]
  cases a.numSteps with
  | none => rfl
  | some n =>
    simp only [updateNumSteps, partOf]
    cases d.steps with
    | missing => rfl
    | torn => rfl
    | good s =>
      simp only
      cases Dict.get? s.steps s.latest <;> rfl

theorem saveWeights_part (d : Disk (Nat → W)) (a : Save (Nat → W)) (i : Nat) :
    saveWeights (partOf d i) (part a i) = (saveWeights d a).map (List.map (effPart i)) := by
  have hm : readMeta (partOf d i) = readMeta d := rfl
  have hc : (part a i).changed = a.changed := rfl
  have hp : (part a i).prot = a.prot := rfl
  have hk : (part a i).maxKeep = a.maxKeep := rfl
  have hf : (part a i).dataFirst = a.dataFirst := rfl
  have hx : (partOf d i).index = d.index := rfl
  have hw : (part a i).w = a.w i := rfl
  unfold saveWeights
  rw [hm, hc, hp, hk, hf, hx, hw, stepEffs_part]
  split
  · rfl
  · cases readMeta d with
    | error e => rfl
    | ok m =>
      simp only
      split
      · rfl
      · split
        · rfl
        · cases stepEffs d a with
          | error e => rfl
          | ok es =>
            simp only [Except.map]
            split
            · simp [effPart]
            · simp only [Except.ok.injEq]
              split
              · rw [removeOld_part _ _ _ i]
                simp [effPart]
              · simp [effPart]

theorem weightEffs_part (d : Disk (Nat → W)) (a : Save (Nat → W)) (i : Nat) :
    weightEffs (partOf d i) (part a i) = ((weightEffs d a).1.map (effPart i), (weightEffs d a).2) := by
  unfold weightEffs
  rw [saveWeights_part]
  cases saveWeights d a <;> rfl

theorem settings_part (d : Disk (Nat → W)) (i : Nat) :
    saveTrainingSettings (partOf d i) =
      ((saveTrainingSettings d).1.map (effPart i), (saveTrainingSettings d).2) := by
  have h1 : (partOf d i).steps = d.steps := rfl
  have h2 : (partOf d i).stepDirs = d.stepDirs := rfl
  unfold saveTrainingSettings
  rw [h1, h2]
  split
  · rfl
  · simp only
    split
    · rfl
    · split <;> rfl

theorem runEffs_part (d : Disk (Nat → W)) (a : Save (Nat → W)) (i : Nat) :
    runEffs (partOf d i) (part a i) = ((runEffs d a).1.map (effPart i), (runEffs d a).2) := by
  unfold runEffs
  rw [settings_part]
  rcases hs : saveTrainingSettings d with ⟨es, _ | e⟩
  · simp only
    rw [← partOf_run, weightEffs_part]
    simp
  · rfl

theorem loadWeights_part (d : Disk (Nat → W)) (number : Option Nat) (i : Nat) :
    loadWeights (partOf d i) number = (loadWeights d number).map (· i) := by
  have h1 : (partOf d i).book = d.book := rfl
  have h2 : (partOf d i).index = d.index := rfl
  have h3 : ∀ n, Dict.get? (partOf d i).data n = (Dict.get? d.data n).map (· i) := fun n => map_get _ _ _
  unfold loadWeights
  rw [h1, h2]
  cases d.book with
  | missing => rfl
  | torn => rfl
  | good m =>
    simp only
    split
    · rfl
    · split
      · rw [h3]
        cases Dict.get? d.data _ <;> rfl
      · rfl

/-! ### The loop over the sources -/

theorem Store.run_append (s : Store W) (a b : List (Path × Eff W)) :
    s.run (a ++ b) = (s.run a).run b := by
  simp [Store.run, List.foldl_append]

theorem Store.run_here (es : List (Eff W)) (s : Store W) (p : Path) :
    (s.run (es.map fun e => (p, e))) p = (s p).run es := by
  induction es generalizing s with
  | nil => rfl
  | cons e es ih =>
    show Store.run (s.apply (p, e)) (es.map fun e => (p, e)) p = _
    rw [ih]
    simp [Store.apply, run_cons]

theorem Store.run_there (es : List (Path × Eff W)) (s : Store W) (p : Path) (h : ∀ e ∈ es, e.1 ≠ p) :
    (s.run es) p = s p := by
  induction es generalizing s with
  | nil => rfl
  | cons e es ih =>
    show Store.run (s.apply e) es p = _
    rw [ih _ (fun x hx => h x (List.mem_cons_of_mem _ hx))]
    simp [Store.apply, (h e (List.mem_cons_self ..)).symm]

/-- The recursion as a loop over a list of sources. -/
def visitL (op : Disk W → Nat → List (Eff W) × Option Err) (s : Store W) :
    List (Path × Nat) → List (Path × Eff W) × Option Err
  | [] => ([], none)
  | (p, i) :: rest =>
    match op (s p) i with
    | (es, some e) => (es.map fun x => (p, x), some e)
    | (es, none) =>
      let r := visitL op (s.run (es.map fun x => (p, x))) rest
      ((es.map fun x => (p, x)) ++ r.1, r.2)

theorem visitL_append (op : Disk W → Nat → List (Eff W) × Option Err) (L M : List (Path × Nat))
    (s : Store W) : visitL op s (L ++ M) =
      match visitL op s L with
      | (es, some e) => (es, some e)
      | (es, none) => (es ++ (visitL op (s.run es) M).1, (visitL op (s.run es) M).2) := by
  induction L generalizing s with
  | nil => simp [visitL, Store.run]
  | cons l L ih =>
    obtain ⟨p, i⟩ := l
    simp only [List.cons_append, visitL]
    rcases op (s p) i with ⟨es, _ | e⟩
    · simp only
      rw [ih]
      rcases visitL op (s.run (es.map fun x => (p, x))) L with ⟨es', _ | e'⟩
      · simp [Store.run_append]
      · rfl
    · rfl

/-- The sources with their directories. -/
def at_ (dir : Path) (L : List (Path × Nat)) : List (Path × Nat) := L.map fun l => (dir ++ l.1, l.2)

mutual
theorem visit_eq (f : String → String) (op : Disk W → Nat → List (Eff W) × Option Err) (node : Node)
    (hn : f = id ∨ (f = Component.stem ∧ node.Named)) (s : Store W) (dir : Path) :
    visit f op s dir node = visitL op s (at_ dir node.leaves) := by
  cases node with
  | other => rfl
  | source i =>
    simp only [visit, Node.leaves, at_, List.map_cons, List.map_nil, visitL, List.append_nil]
    rcases op (s dir) i with ⟨es, _ | e⟩ <;> simp
  | group subs =>
    have := visitAll_eq f op subs (by simpa [Node.Named] using hn) s dir
    simpa [visit, Node.leaves] using this

theorem visitAll_eq (f : String → String) (op : Disk W → Nat → List (Eff W) × Option Err) (subs : Nodes)
    (hn : f = id ∨ (f = Component.stem ∧ subs.Named)) (s : Store W) (dir : Path) :
    visitAll f op s dir subs = visitL op s (at_ dir subs.leaves) := by
  cases subs with
  | nil => rfl
  | cons name node rest =>
    have h1 : f name = name := by
      rcases hn with h | ⟨h, hN⟩
      · rw [h]; rfl
      · rw [h]; exact hN.2.1
    have h2 : f = id ∨ (f = Component.stem ∧ node.Named) := hn.imp id (fun h => ⟨h.1, h.2.2.2.1⟩)
    have h3 : f = id ∨ (f = Component.stem ∧ rest.Named) := hn.imp id (fun h => ⟨h.1, h.2.2.2.2⟩)
    have e : at_ dir (Nodes.cons name node rest).leaves =
        at_ (dir ++ [name]) node.leaves ++ at_ dir rest.leaves := by
      simp [at_, Nodes.leaves]
    rw [e, visitL_append]
    simp only [visitAll]
    rw [h1, visit_eq f op node h2]
    rcases visitL op s (at_ (dir ++ [name]) node.leaves) with ⟨es, _ | e⟩
    · simp only
      rw [visitAll_eq f op rest h3]
    · rfl
end

theorem mem_visitL (op : Disk W → Nat → List (Eff W) × Option Err) (L : List (Path × Nat)) (s : Store W)
    (e : Path × Eff W) (h : e ∈ (visitL op s L).1) : e.1 ∈ L.map Prod.fst := by
  induction L generalizing s with
  | nil => simp [visitL] at h
  | cons l L ih =>
    obtain ⟨p, i⟩ := l
    simp only [visitL] at h
    rcases ho : op (s p) i with ⟨es, _ | x⟩ <;> rw [ho] at h <;> simp only at h
    · rw [List.mem_append] at h
      rcases h with h | h
      · obtain ⟨y, _, rfl⟩ := List.mem_map.1 h
        simp
      · exact List.mem_cons_of_mem _ (ih _ h)
    · obtain ⟨y, _, rfl⟩ := List.mem_map.1 h
      simp

/-- If the operation fails for no source, each directory is changed by it. -/
theorem visitL_ok (op : Disk W → Nat → List (Eff W) × Option Err) (L : List (Path × Nat)) (s : Store W)
    (hnd : (L.map Prod.fst).Nodup) (hok : ∀ l ∈ L, (op (s l.1) l.2).2 = none) :
    (visitL op s L).2 = none ∧
      ∀ l ∈ L, (s.run (visitL op s L).1) l.1 = (s l.1).run (op (s l.1) l.2).1 := by
  induction L generalizing s with
  | nil => exact ⟨rfl, fun l hl => by cases hl⟩
  | cons l L ih =>
    obtain ⟨p, i⟩ := l
    rw [List.map_cons, List.nodup_cons] at hnd
    have h0 := hok (p, i) (List.mem_cons_self ..)
    simp only at h0
    rcases ho : op (s p) i with ⟨es, x⟩
    rw [ho] at h0
    simp only at h0
    subst h0
    have hne : ∀ l ∈ L, l.1 ≠ p := fun l hl e => hnd.1 (List.mem_map.2 ⟨l, hl, e⟩)
    have hs : ∀ l ∈ L, (s.run (es.map fun x => (p, x))) l.1 = s l.1 := by
      intro l hl
      apply Store.run_there
      intro e he
      obtain ⟨y, _, rfl⟩ := List.mem_map.1 he
      exact (hne l hl).symm
    obtain ⟨g1, g2⟩ := ih (s.run (es.map fun x => (p, x))) hnd.2 (by
      intro l hl
      rw [hs l hl]
      exact hok l (List.mem_cons_of_mem _ hl))
    simp only [visitL, ho]
    refine ⟨g1, ?_⟩
    intro l hl
    rw [Store.run_append]
    rcases List.mem_cons.1 hl with rfl | hl
    · rw [Store.run_there, Store.run_here, ho]
      intro e he e'
      exact hnd.1 (e' ▸ mem_visitL _ _ _ _ he)
    · rw [g2 l hl, hs l hl]

/-- If the operation fails without effects for all sources, nothing is changed. -/
theorem visitL_error (op : Disk W → Nat → List (Eff W) × Option Err) (L : List (Path × Nat)) (s : Store W)
    (hne : L ≠ []) (e : Err) (h : ∀ l ∈ L, op (s l.1) l.2 = ([], some e)) :
    visitL op s L = ([], some e) := by
  cases L with
  | nil => exact absurd rfl hne
  | cons l L =>
    obtain ⟨p, i⟩ := l
    have := h (p, i) (List.mem_cons_self ..)
    simp only at this
    simp [visitL, this]

/-- After a crash, the source in position `j` has the effects that are left for it. -/
theorem visitL_crash (op : Disk W → Nat → List (Eff W) × Option Err) (n : Nat) (L : List (Path × Nat))
    (s : Store W) (hnd : (L.map Prod.fst).Nodup)
    (hok : ∀ l ∈ L, (op (s l.1) l.2).2 = none ∧ (op (s l.1) l.2).1.length = n) (k j : Nat)
    (l : Path × Nat) (hl : L[j]? = some l) :
    (s.run ((visitL op s L).1.take k)) l.1 = (s l.1).run ((op (s l.1) l.2).1.take (k - j * n)) := by
  induction L generalizing s k j with
  | nil => simp at hl
  | cons x L ih =>
    obtain ⟨p, i⟩ := x
    rw [List.map_cons, List.nodup_cons] at hnd
    obtain ⟨h0, h1⟩ := hok (p, i) (List.mem_cons_self ..)
    simp only at h0 h1
    rcases ho : op (s p) i with ⟨es, x⟩
    rw [ho] at h0 h1
    simp only at h0 h1
    subst h0
    have hne : ∀ l ∈ L, l.1 ≠ p := fun l hl e => hnd.1 (List.mem_map.2 ⟨l, hl, e⟩)
    have hs : ∀ l ∈ L, (s.run (es.map fun x => (p, x))) l.1 = s l.1 := by
      intro l hl
      apply Store.run_there
      intro e he
      obtain ⟨y, _, rfl⟩ := List.mem_map.1 he
      exact (hne l hl).symm
    simp only [visitL, ho]
    rw [List.take_append, Store.run_append, List.length_map, h1]
    cases j with
    | zero =>
      simp only [List.getElem?_cons_zero, Option.some.injEq] at hl
      subst hl
      rw [Store.run_there, ← List.map_take, Store.run_here, ho]
      · simp
      · intro e he e'
        exact hnd.1 (e' ▸ mem_visitL _ _ _ _ (List.mem_of_mem_take he))
    | succ j =>
      simp only [List.getElem?_cons_succ] at hl
      have hlm := List.mem_of_getElem? hl
      by_cases hk : n ≤ k
      · rw [List.take_of_length_le (by simpa [h1] using hk)]
        rw [ih (s.run (es.map fun x => (p, x))) hnd.2 (by
          intro l hl
          rw [hs l hl]
          exact hok l (List.mem_cons_of_mem _ hl)) (k - n) j hl, hs l hlm]
        congr 2
        rw [Nat.succ_mul]
        omega
      · have h2 : k - n = 0 := by omega
        have h3 : k - (j + 1) * n = 0 := by
          rw [Nat.succ_mul]; omega
        rw [h2, h3]
        simp only [List.take_zero]
        show Store.run s _ l.1 = _
        rw [Store.run_there]
        · rfl
        · intro e he
          obtain ⟨y, _, rfl⟩ := List.mem_map.1 (List.mem_of_mem_take he)
          exact (hne l hlm).symm

/-! ### Loading -/

/-- Loading as a loop over a list of sources. -/
def loadL (s : Store W) (number : Option Nat) : List (Path × Nat) → (Nat → W) → (Nat → W) × Option Err
  | [], v => (v, none)
  | (p, i) :: rest, v =>
    match loadWeights (s p) number with
    | .error e => (v, some e)
    | .ok w => loadL s number rest (fun j => if j = i then w else v j)

theorem loadL_append (s : Store W) (number : Option Nat) (L M : List (Path × Nat)) (v : Nat → W) :
    loadL s number (L ++ M) v =
      match loadL s number L v with
      | (v, some e) => (v, some e)
      | (v, none) => loadL s number M v := by
  induction L generalizing v with
  | nil => rfl
  | cons l L ih =>
    obtain ⟨p, i⟩ := l
    simp only [List.cons_append, loadL]
    cases loadWeights (s p) number with
    | error e => rfl
    | ok w => exact ih _

mutual
theorem loadNode_eq (f : String → String) (s : Store W) (number : Option Nat) (node : Node)
    (hn : f = id ∨ (f = Component.stem ∧ node.Named)) (dir : Path) (v : Nat → W) :
    loadNode f s number dir node v = loadL s number (at_ dir node.leaves) v := by
  cases node with
  | other => rfl
  | source i =>
    simp only [loadNode, Node.leaves, at_, List.map_cons, List.map_nil, loadL, List.append_nil]
    cases loadWeights (s dir) number <;> rfl
  | group subs =>
    have := loadSubs_eq f s number subs (by simpa [Node.Named] using hn) dir v
    simpa [loadNode, Node.leaves] using this

theorem loadSubs_eq (f : String → String) (s : Store W) (number : Option Nat) (subs : Nodes)
    (hn : f = id ∨ (f = Component.stem ∧ subs.Named)) (dir : Path) (v : Nat → W) :
    loadSubs f s number dir subs v = loadL s number (at_ dir subs.leaves) v := by
  cases subs with
  | nil => rfl
  | cons name node rest =>
    have h1 : f name = name := by
      rcases hn with h | ⟨h, hN⟩
      · rw [h]; rfl
      · rw [h]; exact hN.2.1
    have h2 : f = id ∨ (f = Component.stem ∧ node.Named) := hn.imp id (fun h => ⟨h.1, h.2.2.2.1⟩)
    have h3 : f = id ∨ (f = Component.stem ∧ rest.Named) := hn.imp id (fun h => ⟨h.1, h.2.2.2.2⟩)
    have e : at_ dir (Nodes.cons name node rest).leaves =
        at_ (dir ++ [name]) node.leaves ++ at_ dir rest.leaves := by
      simp [at_, Nodes.leaves]
    rw [e, loadL_append]
    simp only [loadSubs]
    rw [h1, loadNode_eq f s number node h2]
    rcases loadL s number (at_ (dir ++ [name]) node.leaves) v with ⟨v', _ | e⟩
    · simp only
      rw [loadSubs_eq f s number rest h3]
    · rfl
end

theorem loadL_ok (s : Store W) (number : Option Nat) (w : Nat → W) (L : List (Path × Nat)) (v : Nat → W)
    (h : ∀ l ∈ L, loadWeights (s l.1) number = .ok (w l.2)) :
    loadL s number L v = (fun i => if i ∈ L.map Prod.snd then w i else v i, none) := by
  induction L generalizing v with
  | nil => simp [loadL]
  | cons l L ih =>
    obtain ⟨p, i⟩ := l
    have h0 := h (p, i) (List.mem_cons_self ..)
    simp only at h0
    simp only [loadL, h0]
    rw [ih _ (fun l hl => h l (List.mem_cons_of_mem _ hl))]
    congr 1
    funext j
    by_cases hj : j ∈ L.map Prod.snd
    · simp [hj]
    · by_cases hji : j = i
      · subst hji; simp
      · simp [hj, hji]

theorem loadL_error (s : Store W) (number : Option Nat) (e : Err) (L : List (Path × Nat)) (hne : L ≠ [])
    (v : Nat → W) (h : ∀ l ∈ L, loadWeights (s l.1) number = .error e) :
    loadL s number L v = (v, some e) := by
  cases L with
  | nil => exact absurd rfl hne
  | cons l L =>
    obtain ⟨p, i⟩ := l
    have h0 := h (p, i) (List.mem_cons_self ..)
    simp only at h0
    simp only [loadL, h0]

/-! ### The directories are distinct -/

theorem head_names (subs : Nodes) : ∀ l ∈ subs.leaves, ∃ n p, l.1 = n :: p ∧ n ∈ subs.names := by
  match subs with
  | .nil => intro l hl; simp [Nodes.leaves] at hl
  | .cons name node rest =>
    intro l hl
    simp only [Nodes.leaves, List.mem_append, List.mem_map] at hl
    rcases hl with ⟨x, _, rfl⟩ | hl
    · exact ⟨name, x.1, rfl, by simp [Nodes.names]⟩
    · obtain ⟨n, p, h1, h2⟩ := head_names rest l hl
      exact ⟨n, p, h1, by simp [Nodes.names, h2]⟩

mutual
theorem leaves_nodup (node : Node) (h : node.Named) : (node.leaves.map Prod.fst).Nodup := by
  cases node with
  | other => simp [Node.leaves]
  | source i => simp [Node.leaves]
  | group subs => simpa [Node.leaves] using subs_nodup subs (by simpa [Node.Named] using h)

theorem subs_nodup (subs : Nodes) (h : subs.Named) : (subs.leaves.map Prod.fst).Nodup := by
  cases subs with
  | nil => simp [Nodes.leaves]
  | cons name node rest =>
    obtain ⟨h1, _, h3, h4⟩ := h
    simp only [Nodes.leaves, List.map_append, List.map_map]
    rw [List.nodup_append]
    refine ⟨?_, subs_nodup rest h4, ?_⟩
    · have := leaves_nodup node h3
      have e : (Prod.fst ∘ fun l : Path × Nat => (name :: l.1, l.2)) = (List.cons name) ∘ Prod.fst := rfl
      rw [e, ← List.map_map]
      exact List.Nodup.map (fun a b hab => by simpa using hab) this
    · intro a ha b hb e
      subst e
      obtain ⟨x, _, rfl⟩ := List.mem_map.1 ha
      obtain ⟨y, hy, e⟩ := List.mem_map.1 hb
      obtain ⟨n, p, g1, g2⟩ := head_names rest y hy
      rw [g1] at e
      simp only [Function.comp_apply, List.cons.injEq] at e
      exact h1 (e.1 ▸ g2)
end

theorem at_nodup (dir : Path) (node : Node) (h : node.Named) :
    ((at_ dir node.leaves).map Prod.fst).Nodup := by
  have e : (at_ dir node.leaves).map Prod.fst = (node.leaves.map Prod.fst).map (dir ++ ·) := by
    simp [at_, Function.comp_def]
  rw [e]
  exact List.Nodup.map (fun a b hab => by simpa using hab) (leaves_nodup node h)

/-! ### Directories in which saves do not fail -/

/-- No file is torn, and no number is used that is yet to come. -/
structure Clean (d : Disk W) : Prop where
  book : ∃ m, readMeta d = .ok m ∧ (∀ n ∈ d.index, n ≤ m.latest) ∧ (∀ n ∈ Dict.keys m.unprot, n ≤ m.latest) ∧
    ∀ n ∈ Dict.keys m.prot, n ≤ m.latest
  steps : d.steps = .missing ∧ d.stepDirs = [] ∨ ∃ s, d.steps = .good s ∧
    (∀ n ∈ d.stepDirs, n ≤ s.latest) ∧ (∀ n ∈ Dict.keys s.steps, n ≤ s.latest) ∧ s.latest ∈ Dict.keys s.steps

theorem clean_empty : Clean (Disk.empty : Disk W) :=
  ⟨⟨⟨0, [], []⟩, rfl, by simp [Disk.empty], by simp [Dict.keys], by simp [Dict.keys]⟩, Or.inl ⟨rfl, rfl⟩⟩

theorem clean_settings {d : Disk W} (h : Clean d) :
    (saveTrainingSettings d).2 = none ∧ Clean (d.run (saveTrainingSettings d).1) ∧
      ∃ s, (d.run (saveTrainingSettings d).1).steps = .good s ∧ s.latest ∈ Dict.keys s.steps := by
  have key : ∀ s : Steps, (∀ n ∈ d.stepDirs, n ≤ s.latest) → (∀ n ∈ Dict.keys s.steps, n ≤ s.latest) →
      s.latest + 1 ∉ d.stepDirs ∧ Dict.has s.steps (s.latest + 1) = false ∧
      (d.run [.mkStepDir (s.latest + 1), .openSteps,
          .writeSteps ⟨s.latest + 1, Dict.set s.steps (s.latest + 1) 0⟩]).steps =
        .good ⟨s.latest + 1, Dict.set s.steps (s.latest + 1) 0⟩ ∧
      Clean (d.run [.mkStepDir (s.latest + 1), .openSteps,
          .writeSteps ⟨s.latest + 1, Dict.set s.steps (s.latest + 1) 0⟩]) := by
    intro s h1 h2
    refine ⟨fun hm => by have := h1 _ hm; omega, ?_, rfl, h.book, Or.inr ⟨_, rfl, ?_, ?_, ?_⟩⟩
    · rw [Dict.has_eq_false_iff]
      intro hm
      have := h2 _ hm
      omega
    · intro n hn
      simp only [Disk.run, List.foldl_cons, List.foldl_nil, Disk.apply, List.mem_append,
        List.mem_singleton] at hn
      rcases hn with hn | hn
      · have := h1 _ hn
        simp only; omega
      · simp only; omega
    · intro n hn
      rw [Dict.mem_keys_set] at hn
      rcases hn with hn | hn
      · simp only; omega
      · have := h2 _ hn
        simp only; omega
    · rw [Dict.mem_keys_set]
      exact Or.inl rfl
  rcases h.steps with ⟨h1, h2⟩ | ⟨s, h1, h2, h3, h4⟩
  · obtain ⟨k1, k2, k3, k4⟩ := key ⟨0, []⟩ (by simp [h2]) (by simp [Dict.keys])
    simp only at k1 k2 k3 k4
    unfold saveTrainingSettings
    rw [h1]
    simp only
    rw [if_neg k1, if_neg (by simp [k2])]
    exact ⟨rfl, k4, _, k3, by rw [Dict.mem_keys_set]; exact Or.inl rfl⟩
  · obtain ⟨k1, k2, k3, k4⟩ := key s h2 h3
    unfold saveTrainingSettings
    rw [h1]
    simp only
    rw [if_neg k1, if_neg (by simp [k2])]
    exact ⟨rfl, k4, _, k3, by rw [Dict.mem_keys_set]; exact Or.inl rfl⟩

theorem removeOld_keys (df : Bool) (ns : List Nat) (u : Dict Nat Info) (n : Nat)
    (h : n ∈ Dict.keys (removeOld (W := W) df ns u).1) : n ∈ Dict.keys u := by
  induction ns generalizing u with
  | nil => exact h
  | cons k ns ih =>
    have := ih _ h
    simp only [Dict.keys, List.mem_map] at this ⊢
    obtain ⟨x, hx, rfl⟩ := this
    exact ⟨x, (List.mem_filter.1 hx).1, rfl⟩

theorem removeOld_rm (df : Bool) (ns : List Nat) (u : Dict Nat Info) :
    ∀ e ∈ (removeOld (W := W) df ns u).2, IsRm e := by
  induction ns generalizing u with
  | nil => intro e he; cases he
  | cons k ns ih =>
    intro e he
    simp only [removeOld, List.mem_append] at he
    rcases he with he | he
    · cases df <;> simp at he <;> rcases he with rfl | rfl <;> trivial
    · exact ih _ e he

theorem run_rm_index (es : List (Eff W)) (d : Disk W) (h : ∀ e ∈ es, IsRm e) :
    (∀ n ∈ (d.run es).index, n ∈ d.index) ∧ (d.run es).stepDirs = d.stepDirs := by
  induction es generalizing d with
  | nil => exact ⟨fun _ h => h, rfl⟩
  | cons e es ih =>
    rw [run_cons]
    obtain ⟨h1, h2⟩ := ih (d.apply e) (fun x hx => h x (List.mem_cons_of_mem _ hx))
    have he := h e (List.mem_cons_self ..)
    rw [h2]
    cases e <;> simp only [IsRm] at he
    · exact ⟨h1, rfl⟩
    · exact ⟨fun n hn => (List.mem_filter.1 (h1 n hn)).1, rfl⟩

/-- The steps file after the update of the number of steps. -/
theorem clean_steps {d : Disk W} (h : Clean d) {a : Save W} {es : List (Eff W)}
    (he : stepEffs d a = .ok es) :
    (d.run es).book = d.book ∧ (d.run es).index = d.index ∧ (d.run es).stepDirs = d.stepDirs ∧
    ((d.run es).steps = .missing ∧ (d.run es).stepDirs = [] ∨ ∃ s, (d.run es).steps = .good s ∧
      (∀ n ∈ (d.run es).stepDirs, n ≤ s.latest) ∧ (∀ n ∈ Dict.keys s.steps, n ≤ s.latest) ∧
      s.latest ∈ Dict.keys s.steps) := by
  unfold stepEffs at he
  cases hn : a.numSteps with
  | none =>
    rw [hn] at he
    cases he
    exact ⟨rfl, rfl, rfl, h.steps⟩
  | some k =>
    rw [hn] at he
    simp only [updateNumSteps] at he
    rcases h.steps with ⟨h1, h2⟩ | ⟨s, h1, h2, h3, h4⟩
    · rw [h1] at he; cases he
    · rw [h1] at he
      simp only at he
      split at he
      · cases he
      · cases he
        refine ⟨rfl, rfl, rfl, Or.inr ⟨_, rfl, h2, ?_, ?_⟩⟩
        · intro n hn
          rw [Dict.mem_keys_set] at hn
          rcases hn with rfl | hn
          · exact Nat.le_refl _
          · exact h3 _ hn
        · rw [Dict.mem_keys_set]
          exact Or.inl rfl

theorem clean_weights {d : Disk W} (h : Clean d) {a : Save W} {es : List (Eff W)}
    (he : saveWeights d a = .ok es) : Clean (d.run es) := by
  obtain ⟨m, hm, h1, h2, h3⟩ := h.book
  unfold saveWeights at he
  split at he
  · cases he
  rw [hm] at he
  simp only at he
  split at he
  · cases he
  split at he
  · cases he
  rcases hst : stepEffs d a with _ | st
  · rw [hst] at he; cases he
  rw [hst] at he
  simp only at he
  obtain ⟨g1, g2, g3, g4⟩ := clean_steps h hst
  -- the effects after the update of the number of steps
  have key : ∀ (rm : List (Eff W)) (u p : Dict Nat Info), (∀ e ∈ rm, IsRm e) →
      (∀ n ∈ Dict.keys u, n ≤ m.latest + 1) → (∀ n ∈ Dict.keys p, n ≤ m.latest + 1) →
      Clean (d.run (st ++ [.writeData (m.latest + 1) a.w, .writeIndex (m.latest + 1)] ++ rm ++
        [.openMeta, .writeMeta ⟨m.latest + 1, u, p⟩])) := by
    intro rm u p hrm hu hp
    rw [Checkpoint.run_append, Checkpoint.run_append, Checkpoint.run_append]
    obtain ⟨r1, r2⟩ := run_rm_index rm ((d.run st).run [.writeData (m.latest + 1) a.w,
      .writeIndex (m.latest + 1)]) hrm
    obtain ⟨_, r3, _⟩ := run_rm_book ((d.run st).run [.writeData (m.latest + 1) a.w,
      .writeIndex (m.latest + 1)]) rm hrm
    refine ⟨⟨_, rfl, ?_, hu, hp⟩, ?_⟩
    · intro n hn
      have hn := r1 n hn
      simp only [Disk.run, List.foldl_cons, List.foldl_nil, Disk.apply] at hn
      change n ∈ (if m.latest + 1 ∈ (d.run st).index then (d.run st).index
        else (d.run st).index ++ [m.latest + 1]) at hn
      rw [g2] at hn
      simp only
      split at hn
      · have := h1 _ hn; omega
      · rw [List.mem_append, List.mem_singleton] at hn
        rcases hn with hn | hn
        · have := h1 _ hn; omega
        · omega
    · have e1 : ∀ x : Disk W, (x.run [.openMeta, .writeMeta ⟨m.latest + 1, u, p⟩]).steps = x.steps :=
        fun _ => rfl
      have e2 : ∀ x : Disk W, (x.run [.openMeta, .writeMeta ⟨m.latest + 1, u, p⟩]).stepDirs = x.stepDirs :=
        fun _ => rfl
      rw [e1, e2, r2, r3]
      exact g4
  have hset : ∀ u : Dict Nat Info, (∀ n ∈ Dict.keys u, n ≤ m.latest) →
      ∀ n ∈ Dict.keys (Dict.set u (m.latest + 1) ⟨m.latest + 1⟩), n ≤ m.latest + 1 := by
    intro u hu n hn
    rw [Dict.mem_keys_set] at hn
    rcases hn with rfl | hn
    · exact Nat.le_refl _
    · have := hu _ hn; omega
  split at he
  · cases he
    have := key [] m.unprot (Dict.set m.prot (m.latest + 1) ⟨m.latest + 1⟩) (by simp)
      (fun n hn => by have := h2 n hn; omega) (hset _ h3)
    simpa using this
  · cases he
    split
    · exact key _ _ _ (removeOld_rm _ _ _)
        (fun n hn => hset _ h2 n (removeOld_keys _ _ _ _ hn)) (fun n hn => by have := h3 n hn; omega)
    · exact key [] _ _ (by simp) (hset _ h2) (fun n hn => by have := h3 n hn; omega)

/-- With unchanged variables a save can fail only because there is no training steps file. -/
theorem clean_save_ok {d : Disk W} (h : Clean d) (a : Save W) (hc : a.changed = false)
    (hs : a.numSteps = none ∨ d.steps ≠ .missing) : ∃ es, saveWeights d a = .ok es := by
  obtain ⟨m, hm, h1, h2, h3⟩ := h.book
  have hst : ∃ st, stepEffs d a = .ok st := by
    unfold stepEffs
    cases hn : a.numSteps with
    | none => exact ⟨_, rfl⟩
    | some k =>
      rw [hn] at hs
      rcases hs with hs | hs
      · cases hs
      rcases h.steps with ⟨g1, _⟩ | ⟨s, g1, _, _, g4⟩
      · exact absurd g1 hs
      · simp only [updateNumSteps, g1]
        cases hg : Dict.get? s.steps s.latest with
        | none => exact absurd g4 ((Dict.get?_eq_none_iff _ _).1 hg)
        | some v => exact ⟨_, rfl⟩
  obtain ⟨st, hst⟩ := hst
  have n1 : m.latest + 1 ∉ d.index := fun hh => by have := h1 _ hh; omega
  have n2 : Dict.has m.unprot (m.latest + 1) = false := by
    rw [Dict.has_eq_false_iff]; intro hh; have := h2 _ hh; omega
  have n3 : Dict.has m.prot (m.latest + 1) = false := by
    rw [Dict.has_eq_false_iff]; intro hh; have := h3 _ hh; omega
  unfold saveWeights
  simp only [hc, hm, n1, n2, n3, hst, Bool.or_self, Bool.false_eq_true, if_false]
  split <;> exact ⟨_, rfl⟩

theorem runEffs_ok {d : Disk W} (h : Clean d) (a : Save W) (hc : a.changed = false) :
    (runEffs d a).2 = none ∧ Clean (d.run (runEffs d a).1) ∧
      d.saveNewRun a = (d.run (runEffs d a).1, none) ∧
      ((d.call .settings).1.call (.weights a)).1 = d.run (runEffs d a).1 := by
  obtain ⟨h1, h2, s, h3, _⟩ := clean_settings h
  obtain ⟨es, he⟩ := clean_save_ok h2 a hc (Or.inr (by rw [h3]; simp))
  unfold runEffs Disk.saveNewRun Disk.call
  rcases hs : saveTrainingSettings d with ⟨st, x⟩
  rw [hs] at h1 h2 he
  simp only at h1 h2 he
  subst h1
  simp only [weightEffs, he]
  rw [Checkpoint.run_append]
  exact ⟨trivial, clean_weights h2 he, rfl, rfl⟩

end Verif.Nested
