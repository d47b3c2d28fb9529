/-
C117 to C119: the weights of nested models, crashes while they are saved, and multi sources without a data
transformation.
-/
import Verif.Nested.Lemmas
import Verif.Checkpoint.Props

namespace Verif.Nested
open Verif.Py Verif.Checkpoint

variable {W : Type}

/-- The directories of the sources are those of one model `d` with all variables, nothing else changed. -/
structure Rel (node : Node) (dir : Path) (s : Store W) (d : Disk (Nat → W)) : Prop where
  clean : Clean d
  leaf : ∀ l ∈ node.leaves, s (dir ++ l.1) = partOf d l.2
  rest : ∀ p, (∀ l ∈ node.leaves, p ≠ dir ++ l.1) → s p = Disk.empty

theorem mem_at {dir : Path} {L : List (Path × Nat)} {l : Path × Nat} :
    l ∈ at_ dir L ↔ ∃ x ∈ L, l = (dir ++ x.1, x.2) := by
  simp only [at_, List.mem_map, eq_comm]

theorem Rel.at_leaf {node : Node} {dir : Path} {s : Store W} {d : Disk (Nat → W)} (h : Rel node dir s d)
    {l : Path × Nat} (hl : l ∈ at_ dir node.leaves) : s l.1 = partOf d l.2 := by
  obtain ⟨x, hx, rfl⟩ := mem_at.1 hl
  exact h.leaf x hx

theorem Rel.ok {node : Node} {dir : Path} {s : Store W} {d : Disk (Nat → W)} (h : Rel node dir s d)
    (hn : node.Named) (op : Disk W → Nat → List (Eff W) × Option Err) (es : List (Eff (Nat → W)))
    (hop : ∀ i, op (partOf d i) i = (es.map (effPart i), none)) (hc : Clean (d.run es)) :
    (visitL op s (at_ dir node.leaves)).2 = none ∧
      Rel node dir (s.run (visitL op s (at_ dir node.leaves)).1) (d.run es) := by
  have hop' : ∀ l ∈ at_ dir node.leaves, op (s l.1) l.2 = (es.map (effPart l.2), none) := by
    intro l hl
    rw [h.at_leaf hl, hop]
  obtain ⟨g1, g2⟩ := visitL_ok op _ s (at_nodup dir node hn) (fun l hl => by rw [hop' l hl])
  refine ⟨g1, hc, ?_, ?_⟩
  · intro x hx
    have hl : (dir ++ x.1, x.2) ∈ at_ dir node.leaves := mem_at.2 ⟨x, hx, rfl⟩
    have := g2 _ hl
    simp only at this
    rw [this, hop' _ hl, h.leaf x hx, partOf_run]
  · intro p hp
    rw [Store.run_there, h.rest p hp]
    intro e he e'
    obtain ⟨l, hl, e2⟩ := List.mem_map.1 (mem_visitL _ _ _ _ he)
    obtain ⟨x, hx, rfl⟩ := mem_at.1 hl
    exact hp x hx (e'.symm.trans e2.symm)

theorem at_ne {dir : Path} {node : Node} (hne : node.leaves ≠ []) : at_ dir node.leaves ≠ [] := by
  simpa [at_] using hne

theorem Rel.call {node : Node} {dir : Path} {s : Store W} {d : Disk (Nat → W)} (h : Rel node dir s d)
    (hn : node.Named) (hne : node.leaves ≠ []) (c : Call W) (hc : Legal c) :
    (Nested.call node dir s c).2 = (callOne d c).2 ∧
      Rel node dir (Nested.call node dir s c).1 (callOne d c).1 := by
  cases c with
  | weights a =>
    simp only [Nested.call, saveAll, callOne, Disk.call]
    rw [visit_eq id _ node (Or.inl rfl)]
    have hw : ∀ i, weightEffs (partOf d i) (part a i) =
        ((weightEffs d a).1.map (effPart i), (weightEffs d a).2) := fun i => weightEffs_part d a i
    rcases hs : saveWeights d a with e | es
    · have hop : ∀ l ∈ at_ dir node.leaves,
          (fun (d : Disk W) (i : Nat) => weightEffs d (part a i)) (s l.1) l.2 = ([], some e) := by
        intro l hl
        rw [h.at_leaf hl]
        simp only [hw]
        simp [weightEffs, hs]
      rw [visitL_error _ _ _ (at_ne hne) e hop]
      exact ⟨rfl, h⟩
    · have := h.ok hn (fun d i => weightEffs d (part a i)) es (by
        intro i
        simp only [hw]
        simp [weightEffs, hs]) (clean_weights h.clean hs)
      exact this
  | run a =>
    obtain ⟨r1, r2, r3, _⟩ := runEffs_ok h.clean a hc
    simp only [Nested.call, saveRun, callOne, r3]
    rw [visit_eq Component.stem _ node (Or.inr ⟨rfl, hn⟩)]
    exact h.ok hn (fun d i => runEffs d (part a i)) (runEffs d a).1 (by
      intro i
      simp only [runEffs_part, r1]) r2

theorem Rel.calls {node : Node} {dir : Path} (hn : node.Named) (hne : node.leaves ≠ []) (cs : List (Call W))
    (hcs : ∀ c ∈ cs, Legal c) {s : Store W} {d : Disk (Nat → W)} (h : Rel node dir s d) :
    (Nested.calls node dir s cs).2 = (callsOne d cs).2 ∧
      Rel node dir (Nested.calls node dir s cs).1 (callsOne d cs).1 := by
  induction cs generalizing s d with
  | nil => exact ⟨rfl, h⟩
  | cons c cs ih =>
    obtain ⟨h1, h2⟩ := h.call hn hne c (hcs c (List.mem_cons_self ..))
    obtain ⟨h3, h4⟩ := ih (fun x hx => hcs x (List.mem_cons_of_mem _ hx)) h2
    exact ⟨by simp only [Nested.calls, callsOne, h1, h3], h4⟩

theorem rel_empty (node : Node) (dir : Path) : Rel node dir (Store.empty : Store W) Disk.empty :=
  ⟨clean_empty, fun _ _ => rfl, fun _ _ => rfl⟩

/-! ### C117 -/

/-- **C117.** A nested model is saved as if it were one model with all variables: the exceptions are the
same, every source has its share in its own directory, and no other directory is changed. -/
theorem C117_one_model_partial (node : Node) (hn : node.Named) (hne : node.leaves ≠ []) (dir : Path)
    (cs : List (Call W)) (hcs : ∀ c ∈ cs, Legal c) :
    (calls node dir Store.empty cs).2 = (callsOne Disk.empty cs).2 ∧
    (∀ path id, (path, id) ∈ node.leaves →
      (calls node dir Store.empty cs).1 (dir ++ path) = partOf (callsOne Disk.empty cs).1 id) ∧
    (∀ p, (∀ path id, (path, id) ∈ node.leaves → p ≠ dir ++ path) →
      (calls node dir Store.empty cs).1 p = Disk.empty) := by
  obtain ⟨h1, h2⟩ := Rel.calls hn hne cs hcs (rel_empty (W := W) node dir)
  exact ⟨h1, fun p i hl => h2.leaf (p, i) hl, fun p hp => h2.rest p (fun l hl => hp l.1 l.2 hl)⟩

theorem load_rel {node : Node} {dir : Path} (hn : node.Named) (hne : node.leaves ≠ []) {s : Store W}
    {d : Disk (Nat → W)} (h : Rel node dir s d) (f : String → String)
    (hf : f = id ∨ f = Component.stem) (number : Option Nat) (v : Nat → W) :
    loadNode f s number dir node v =
      match loadWeights d number with
      | .ok w => (fun i => if i ∈ node.leaves.map Prod.snd then w i else v i, none)
      | .error e => (v, some e) := by
  rw [loadNode_eq f s number node (hf.imp (fun h => h) (fun h => ⟨h, hn⟩))]
  have hl : ∀ l ∈ at_ dir node.leaves, loadWeights (s l.1) number = (loadWeights d number).map (· l.2) := by
    intro l hl
    rw [h.at_leaf hl, loadWeights_part]
  cases hw : loadWeights d number with
  | error e =>
    exact loadL_error s number e _ (at_ne hne) v (fun l hl' => by rw [hl l hl', hw]; rfl)
  | ok w =>
    simp only
    rw [loadL_ok s number w _ v (fun l hl' => by rw [hl l hl', hw]; rfl)]
    have : (at_ dir node.leaves).map Prod.snd = node.leaves.map Prod.snd := by
      simp [at_, Function.comp_def]
    rw [this]

/-- **C117.** And it is loaded as if it were one model: both `load_weights` and `load` restore the variables
of all sources that the one model would restore, or raise its exception and restore none. -/
theorem C117_load_partial (node : Node) (hn : node.Named) (hne : node.leaves ≠ []) (dir : Path)
    (cs : List (Call W)) (hcs : ∀ c ∈ cs, Legal c) (number : Option Nat) (v : Nat → W) :
    let expected := match loadWeights (callsOne Disk.empty cs).1 number with
      | .ok w => ((fun i => if i ∈ node.leaves.map Prod.snd then w i else v i), none)
      | .error e => (v, some e)
    loadAll node dir number (calls node dir Store.empty cs).1 v = expected ∧
    loadComponent node dir number (calls node dir Store.empty cs).1 v = expected := by
  obtain ⟨_, h2⟩ := Rel.calls hn hne cs hcs (rel_empty (W := W) node dir)
  exact ⟨load_rel hn hne h2 id (Or.inl rfl) number v,
    load_rel hn hne h2 Component.stem (Or.inr rfl) number v⟩

theorem clean_callsOne (cs : List (Call W)) (hcs : ∀ c ∈ cs, Legal c) {d : Disk (Nat → W)} (h : Clean d) :
    Clean (callsOne d cs).1 ∧ (callsOne d cs).1 = exec d (ops cs) := by
  induction cs generalizing d with
  | nil => exact ⟨h, rfl⟩
  | cons c cs ih =>
    have hc := hcs c (List.mem_cons_self ..)
    have hcs' := fun x hx => hcs x (List.mem_cons_of_mem _ hx)
    cases c with
    | weights a =>
      have h' : Clean (d.call (.weights a)).1 := by
        simp only [Disk.call]
        cases hs : saveWeights d a with
        | error e => exact h
        | ok es => exact clean_weights h hs
      exact ih hcs' h'
    | run a =>
      obtain ⟨_, r2, r3, r4⟩ := runEffs_ok h a hc
      have h' : Clean (d.saveNewRun a).1 := by rw [r3]; exact r2
      obtain ⟨g1, g2⟩ := ih hcs' h'
      refine ⟨g1, ?_⟩
      show (callsOne (d.saveNewRun a).1 cs).1 = _
      rw [g2, r3]
      simp only [ops, exec]
      rw [r4]

theorem fine_ops (cs : List (Call W)) (h : ∀ c ∈ cs, Limit c) : Checkpoint.Fine (ops cs) := by
  induction cs with
  | nil => intro op hop; cases hop
  | cons c cs ih =>
    have h0 := h c (List.mem_cons_self ..)
    have ih := ih (fun x hx => h x (List.mem_cons_of_mem _ hx))
    cases c with
    | weights a =>
      intro op hop
      rcases List.mem_cons.1 hop with rfl | hop
      · exact ⟨h0, trivial⟩
      · exact ih op hop
    | run a =>
      intro op hop
      rcases List.mem_cons.1 hop with rfl | hop
      · exact ⟨trivial, trivial⟩
      rcases List.mem_cons.1 hop with rfl | hop
      · exact ⟨h0, trivial⟩
      · exact ih op hop

/-- **C117.** So a checkpoint of the history that is to be kept restores the variables of all sources at the
time of that save, and without a number the last save is restored. -/
theorem C117_kept_partial (node : Node) (hn : node.Named) (hne : node.leaves ≠ []) (dir : Path)
    (cs : List (Call W)) (hcs : ∀ c ∈ cs, Legal c ∧ Limit c) (v : Nat → W) :
    (∀ i a, Kept (saved Disk.empty (ops cs)) i a →
      loadAll node dir (some (i + 1)) (calls node dir Store.empty cs).1 v =
        (fun id => if id ∈ node.leaves.map Prod.snd then a.w id else v id, none)) ∧
    (∀ a, (saved Disk.empty (ops cs)).getLast? = some a →
      loadAll node dir none (calls node dir Store.empty cs).1 v =
        (fun id => if id ∈ node.leaves.map Prod.snd then a.w id else v id, none)) := by
  have hL : ∀ c ∈ cs, Legal c := fun c hc => (hcs c hc).1
  have hf := fine_ops cs (fun c hc => (hcs c hc).2)
  have he := (clean_callsOne cs hL (clean_empty (W := Nat → W))).2
  constructor
  · intro i a ha
    rw [(C117_load_partial node hn hne dir cs hL (some (i + 1)) v).1, he,
      (C27_kept_partial (ops cs) hf).2 i a ha]
  · intro a ha
    obtain ⟨m, _, _, _, _, h⟩ := C27_book_partial (ops cs) hf a ha
    rw [(C117_load_partial node hn hne dir cs hL none v).1, he, h]

/-- **C117 is violated** for names with a dot: `save` and `load` use the name without extension as
directory, `save_weights` and `load_weights` the whole name. After a training run is started, saving weights
with a number of training steps raises; weights that are saved without are not those that are loaded. And
names that differ only in the extension share a directory. -/
theorem C117_extension_violated :
    (let node := Node.group (.cons "cascade.v1" (.source 0) .nil)
     let s := (call node ["m"] (Store.empty : Store Nat) (.run { w := fun _ => 10, prot := true })).1
     (call node ["m"] s (.weights { w := fun _ => 20, numSteps := some 5 })).2 = some .ioError ∧
     (call node ["m"] s (.weights { w := fun _ => 20 })).2 = none ∧
     (loadComponent node ["m"] none (call node ["m"] s (.weights { w := fun _ => 20 })).1
       fun _ => 0).1 0 = 10) ∧
    (let node := Node.group (.cons "cascade.v1" (.source 0) (.cons "cascade.v2" (.source 1) .nil))
     let s := (call node ["m"] (Store.empty : Store Nat) (.run { w := fun i => 10 + i })).1
     (loadComponent node ["m"] none s fun _ => 0).2 = none ∧
     (loadComponent node ["m"] none s fun _ => 0).1 0 = 11 ∧
     (loadComponent node ["m"] none s fun _ => 0).1 1 = 11) := by
  decide +kernel

/-- A manager all of whose models are sources. -/
def Nodes.Flat : Nodes → Prop
  | .nil => True
  | .cons _ .other rest => rest.Flat
  | .cons _ (.source _) rest => rest.Flat
  | .cons _ (.group _) _ => False

theorem managerSettings_eq (subs : Nodes) (h : subs.Flat) (s : Store W) (dir : Path) :
    managerSettings s dir subs = visitL (fun d _ => saveTrainingSettings d) s (at_ dir subs.leaves) := by
  match subs with
  | .nil => rfl
  | .cons name .other rest =>
    have := managerSettings_eq rest h s dir
    simpa [managerSettings, Nodes.leaves, Node.leaves] using this
  | .cons name (.source i) rest =>
    have e : at_ dir (Nodes.cons name (.source i) rest).leaves =
        (dir ++ [name], i) :: at_ dir rest.leaves := by
      simp [at_, Nodes.leaves, Node.leaves]
    rw [e]
    simp only [managerSettings, visitL]
    rcases saveTrainingSettings (s (dir ++ [name])) with ⟨es, _ | x⟩
    · simp only
      rw [managerSettings_eq rest h]
    · rfl
  | .cons name (.group g) rest => exact absurd h id

/-- **C117.** A manager whose models are sources adds the training settings as if it were one model: for all
of its sources, and without an exception. -/
theorem C117_settings_partial (subs : Nodes) (hflat : subs.Flat) (hn : subs.Named) (hne : subs.leaves ≠ [])
    (dir : Path) (cs : List (Call W)) (hcs : ∀ c ∈ cs, Legal c) :
    let s := (calls (.group subs) dir Store.empty cs).1
    let one := (callsOne (W := W) Disk.empty cs).1.call .settings
    (managerSettings s dir subs).2 = none ∧ one.2 = none ∧
    (∀ path id, (path, id) ∈ subs.leaves →
      s.run (managerSettings s dir subs).1 (dir ++ path) = partOf one.1 id) ∧
    (∀ p, (∀ path id, (path, id) ∈ subs.leaves → p ≠ dir ++ path) →
      s.run (managerSettings s dir subs).1 p = Disk.empty) := by
  obtain ⟨_, h⟩ := Rel.calls (node := .group subs) (by simpa [Node.Named] using hn)
    (by simpa [Node.leaves] using hne) cs hcs (rel_empty (W := W) (.group subs) dir)
  obtain ⟨h1, h2, _⟩ := clean_settings h.clean
  have := h.ok (by simpa [Node.Named] using hn) (fun d _ => saveTrainingSettings d) _
    (fun i => by rw [settings_part, h1]) h2
  simp only [Node.leaves] at this
  simp only [managerSettings_eq subs hflat]
  refine ⟨this.1, h1, ?_, ?_⟩
  · intro path id hl
    exact this.2.leaf (path, id) (by simpa [Node.leaves] using hl)
  · intro p hp
    exact this.2.rest p (fun l hl => hp l.1 l.2 (by simpa [Node.leaves] using hl))

example : (Nodes.cons "data_handler" .other (.cons "models_0000" (.source 0)
    (.cons "models_0001" (.source 1) .nil))).Flat := trivial

/-- **C117 is violated** for the training settings: a manager that only adds settings writes them for a multi
source, not for its sources, so that saving weights with a number of training steps raises. -/
theorem C117_settings_violated :
    let multi := Node.group (.cons "cascade" (.source 0) .nil)
    let subs := Nodes.cons "data_handler" .other (.cons "models_0000" multi .nil)
    let effs := managerSettings (Store.empty : Store Nat) ["m"] subs
    effs.2 = none ∧
    (effs.1.map Prod.fst) = List.replicate 3 ["m", "models_0000"] ∧
    (saveAll (.group subs) ["m"] { w := fun _ => 20, numSteps := some 5 } (Store.empty.run effs.1)).2 =
      some .ioError ∧
    (saveAll (.group (.cons "models_0000" (.source 0) .nil)) ["m"] { w := fun _ => 20, numSteps := some 5 }
      ((Store.empty : Store Nat).run (managerSettings (Store.empty : Store Nat) ["m"]
        (.cons "models_0000" (.source 0) .nil)).1)).2 = none := by
  decide +kernel

/-! An example: a manager with a multi source, whose two cascades are the same source, and a noise source. -/
namespace Ex

def multi : Node :=
  .group (.cons "cascade_00" (.source 0) (.cons "cascade_01" (.source 0)
    (.cons "noise" (.source 1) (.cons "data_trafo" .other .nil))))

def manager : Node :=
  .group (.cons "data_handler" .other (.cons "models_0000" multi (.cons "models_0001" (.source 2) .nil)))

def history : List (Call Nat) :=
  [.weights { w := fun i => i, numSteps := some 3 }, .run { w := fun i => 10 + i, prot := true },
    .weights { w := fun i => 20 + i, numSteps := some 7 }]

example : manager.leaves = [(["models_0000", "cascade_00"], 0), (["models_0000", "cascade_01"], 0),
    (["models_0000", "noise"], 1), (["models_0001"], 2)] := by decide +kernel

theorem manager_named : manager.Named := by
  simp only [manager, multi, Node.Named, Nodes.Named, Nodes.names]
  decide +kernel

example : ∀ c ∈ history, Legal c ∧ Limit c := by
  intro c hc
  simp only [history, List.mem_cons, List.not_mem_nil, or_false] at hc
  rcases hc with rfl | rfl | rfl <;> simp [Legal, Limit]

example : (calls manager ["m"] Store.empty history).2 = [some .ioError, none, none] := by decide +kernel

example : (List.range 4).map (loadAll manager ["m"] none (calls manager ["m"] Store.empty history).1
    fun _ => 0).1 = [20, 21, 22, 0] := by decide +kernel

example : (List.range 4).map (loadAll manager ["m"] (some 1) (calls manager ["m"] Store.empty history).1
    fun _ => 0).1 = [10, 11, 12, 0] := by decide +kernel

end Ex

/-! ### C118 -/

theorem length_part (d : Disk (Nat → W)) (a : Save (Nat → W)) {es : List (Eff (Nat → W))}
    (he : saveWeights d a = .ok es) (i : Nat) :
    weightEffs (partOf d i) (part a i) = (es.map (effPart i), none) := by
  rw [weightEffs_part]
  simp [weightEffs, he]

theorem crash_rel {node : Node} {dir : Path} (hn : node.Named) {s : Store W} {d : Disk (Nat → W)}
    (h : Rel node dir s d) (a : Save (Nat → W)) {es : List (Eff (Nat → W))}
    (he : saveWeights d a = .ok es) (k j : Nat) (l : Path × Nat) (hl : node.leaves[j]? = some l) :
    crash node dir s a k (dir ++ l.1) = partOf (d.run (es.take (k - j * es.length))) l.2 := by
  have hla : (at_ dir node.leaves)[j]? = some (dir ++ l.1, l.2) := by
    simp [at_, hl]
  have hop : ∀ x ∈ at_ dir node.leaves, weightEffs (s x.1) (part a x.2) = (es.map (effPart x.2), none) := by
    intro x hx
    rw [h.at_leaf hx, length_part d a he]
  have := visitL_crash (fun d i => weightEffs d (part a i)) es.length (at_ dir node.leaves) s
    (at_nodup dir node hn) (fun x hx => by simp only [hop x hx, List.length_map, and_self]) k j _ hla
  unfold crash saveAll
  rw [visit_eq id _ node (Or.inl rfl), this]
  simp only [hop _ (List.mem_of_getElem? hla)]
  rw [h.leaf l (List.mem_of_getElem? hl), partOf_run, List.map_take]

/-- **C118.** If the program dies after `k` changes of the files while the weights of a nested model are
saved, the source in position `j` is as if the program had died after `k - j * n` changes while that source
alone was saved, where `n` is the number of changes for one source: the sources before a position are saved,
those after it are not touched. -/
theorem C118_crash_partial (node : Node) (hn : node.Named) (hne : node.leaves ≠ []) (dir : Path)
    (cs : List (Call W)) (hcs : ∀ c ∈ cs, Legal c) (a : Save (Nat → W)) (effs : List (Eff (Nat → W)))
    (he : saveWeights (callsOne Disk.empty cs).1 a = .ok effs) (k j : Nat) (path : Path) (id : Nat)
    (hl : node.leaves[j]? = some (path, id)) :
    crash node dir (calls node dir Store.empty cs).1 a k (dir ++ path) =
      partOf ((callsOne Disk.empty cs).1.call (.crashed a (k - j * effs.length))).1 id := by
  obtain ⟨_, h2⟩ := Rel.calls hn hne cs hcs (rel_empty (W := W) node dir)
  have := crash_rel hn h2 a he k j (path, id) hl
  simp only at this
  rw [this]
  simp only [Disk.call, he]

/-- Loading with other values for each source. -/
theorem loadL_each (s : Store W) (number : Option Nat) (w : Nat → Nat → W) (L : List (Path × Nat))
    (hnd : (L.map Prod.snd).Nodup) (v : Nat → W)
    (h : ∀ j l, L[j]? = some l → loadWeights (s l.1) number = .ok (w j l.2)) :
    (loadL s number L v).2 = none ∧
    (∀ j l, L[j]? = some l → (loadL s number L v).1 l.2 = w j l.2) ∧
    ∀ i, i ∉ L.map Prod.snd → (loadL s number L v).1 i = v i := by
  induction L generalizing v w with
  | nil => exact ⟨rfl, fun j l hl => by simp at hl, fun _ _ => rfl⟩
  | cons x L ih =>
    obtain ⟨p, i⟩ := x
    rw [List.map_cons, List.nodup_cons] at hnd
    have h0 := h 0 (p, i) rfl
    simp only at h0
    simp only [loadL, h0]
    obtain ⟨g1, g2, g3⟩ := ih (fun j => w (j + 1)) hnd.2 (fun j => if j = i then w 0 i else v j)
      (fun j l hl => h (j + 1) l hl)
    refine ⟨g1, ?_, ?_⟩
    · intro j l hl
      cases j with
      | zero =>
        simp only [List.getElem?_cons_zero, Option.some.injEq] at hl
        subst hl
        rw [g3 _ hnd.1]
        simp
      | succ j => exact g2 j l hl
    · intro m hm
      simp only [List.map_cons, List.mem_cons, not_or] at hm
      rw [g3 m hm.2]
      simp [hm.1]

theorem saved_append (x y : List (Op W)) (d : Disk W) :
    saved d (x ++ y) = saved d x ++ saved (exec d x) y := by
  induction x generalizing d with
  | nil => rfl
  | cons op x ih => simp only [List.cons_append, saved, exec, ih, List.append_assoc]

theorem latest_weights {ops' : List (Op W)} (hf : Checkpoint.Fine ops') (b : Save W) (hb : 0 ≤ b.maxKeep)
    {es : List (Eff W)} (he : saveWeights (exec Disk.empty ops') b = .ok es) :
    loadWeights ((exec Disk.empty ops').run es) none = .ok b.w := by
  have hc : (exec Disk.empty ops').call (.weights b) = ((exec Disk.empty ops').run es, none) := by
    simp only [Disk.call, he]
  have hf' : Checkpoint.Fine (ops' ++ [.weights b]) := by
    intro op hop
    rcases List.mem_append.1 hop with hop | hop
    · exact hf op hop
    · rw [List.mem_singleton] at hop; subst hop; exact ⟨hb, trivial⟩
  obtain ⟨_, _, _, _, _, h⟩ := C27_book_partial (ops' ++ [.weights b]) hf' b (by
    rw [saved_append]
    simp [saved, hc])
  rw [exec_append] at h
  simpa only [exec, hc] using h

/-- **C118.** If the program dies when the first `j` of the sources are saved, the model loads without an
exception, and has new variables for these sources and old ones for the others. -/
theorem C118_mixed_violated (node : Node) (hn : node.Named) (hids : (node.leaves.map Prod.snd).Nodup)
    (hne : node.leaves ≠ []) (dir : Path) (cs : List (Call W)) (hcs : ∀ c ∈ cs, Legal c ∧ Limit c)
    (a c : Save (Nat → W)) (ha : 0 ≤ a.maxKeep) (hc : (saved Disk.empty (ops cs)).getLast? = some c)
    (effs : List (Eff (Nat → W))) (he : saveWeights (callsOne Disk.empty cs).1 a = .ok effs) (j : Nat)
    (v : Nat → W) :
    let s := crash node dir (calls node dir Store.empty cs).1 a (j * effs.length)
    (loadAll node dir none s v).2 = none ∧
    ∀ (i : Nat) path id, node.leaves[i]? = some (path, id) →
      (loadAll node dir none s v).1 id = if i < j then a.w id else c.w id := by
  have hL : ∀ c ∈ cs, Legal c := fun c hc => (hcs c hc).1
  have hf := fine_ops cs (fun c hc => (hcs c hc).2)
  have hex := (clean_callsOne cs hL (clean_empty (W := Nat → W))).2
  obtain ⟨_, h2⟩ := Rel.calls hn hne cs hL (rel_empty (W := W) node dir)
  obtain ⟨_, _, _, _, _, hold⟩ := C27_book_partial (ops cs) hf c hc
  have hnew := latest_weights hf a ha (hex ▸ he)
  have hpos : 0 < effs.length := by
    cases effs with
    | nil =>
      exfalso
      obtain ⟨es, hse, heq⟩ := (inv_of_fine hf).ok_form ha (hex ▸ he)
      have := congrArg List.length heq
      rw [List.length_append, mainEffs_length] at this
      simp only [List.length_nil] at this
      omega
    | cons x xs => simp
  have hat : ∀ (i : Nat) l, (at_ dir node.leaves)[i]? = some l →
      loadWeights (crash node dir (calls node dir Store.empty cs).1 a (j * effs.length) l.1) none =
        .ok (if i < j then a.w l.2 else c.w l.2) := by
    intro i l hl
    simp only [at_, List.getElem?_map, Option.map_eq_some_iff] at hl
    obtain ⟨x, hx, rfl⟩ := hl
    simp only
    rw [crash_rel hn h2 a he _ i x hx, loadWeights_part, ← Nat.mul_sub_right_distrib, hex]
    by_cases hij : i < j
    · rw [List.take_of_length_le (Nat.le_mul_of_pos_left _ (by omega)), hnew, if_pos hij]; rfl
    · have : j - i = 0 := by omega
      rw [this, if_neg hij]
      simp only [Nat.zero_mul, List.take_zero, Checkpoint.run_nil]
      rw [hold]; rfl
  have hnd : ((at_ dir node.leaves).map Prod.snd).Nodup := by
    simpa [at_, Function.comp_def] using hids
  obtain ⟨g1, g2, _⟩ := loadL_each _ none (fun i id => if i < j then a.w id else c.w id) _ hnd v hat
  simp only [loadAll]
  rw [loadNode_eq id _ none node (Or.inl rfl)]
  refine ⟨g1, ?_⟩
  intro i path id hl
  exact g2 i (dir ++ path, id) (by simp [at_, hl])

/-- **C118 is violated** for good: after such a crash the numbers of the checkpoints of the sources are out of
step. The next save succeeds, but number 2 then restores the first source from the crashed save and the second
from the next one, without an exception; number 3 raises and restores the first source before. -/
theorem C118_numbers_violated :
    let node := Node.group (.cons "track" (.source 0) (.cons "noise" (.source 1) .nil))
    let a : Save (Nat → Nat) := { w := fun i => 20 + i }
    let s := crash node ["m"] (call node ["m"] (Store.empty : Store Nat) (.run { w := fun i => 10 + i })).1 a 4
    let s' := (call node ["m"] s (.weights { w := fun i => 30 + i })).1
    (call node ["m"] s (.weights { w := fun i => 30 + i })).2 = none ∧
    (loadAll node ["m"] (some 2) s' fun _ => 0).2 = none ∧
    (loadAll node ["m"] (some 2) s' fun _ => 0).1 0 = 20 ∧
    (loadAll node ["m"] (some 2) s' fun _ => 0).1 1 = 31 ∧
    (loadAll node ["m"] (some 3) s' fun _ => 0).2 = some .keyError ∧
    (loadAll node ["m"] (some 3) s' fun _ => 0).1 0 = 30 := by
  decide +kernel

/-- **C118.** The next save repairs the latest weights if the program died between two sources, or before the
index file of the checkpoint of a source was written: it succeeds, and then all sources have its
variables. -/
theorem C118_repair_partial (node : Node) (hn : node.Named) (hne : node.leaves ≠ []) (dir : Path)
    (cs : List (Call W)) (hcs : ∀ c ∈ cs, Legal c ∧ Limit c)
    (a b : Save (Nat → W)) (ha : 0 ≤ a.maxKeep) (hb : 0 ≤ b.maxKeep) (hbc : b.changed = false)
    (hbn : b.numSteps = none) (effs : List (Eff (Nat → W)))
    (he : saveWeights (callsOne Disk.empty cs).1 a = .ok effs) (k : Nat)
    (hk : k % effs.length ≤ if a.numSteps.isSome then 3 else 1) (v : Nat → W) :
    let s := crash node dir (calls node dir Store.empty cs).1 a k
    (call node dir s (.weights b)).2 = none ∧
    loadAll node dir none (call node dir s (.weights b)).1 v =
      (fun id => if id ∈ node.leaves.map Prod.snd then b.w id else v id, none) := by
  have hL : ∀ c ∈ cs, Legal c := fun c hc => (hcs c hc).1
  have hf := fine_ops cs (fun c hc => (hcs c hc).2)
  have hex := (clean_callsOne cs hL (clean_empty (W := Nat → W))).2
  obtain ⟨_, h2⟩ := Rel.calls hn hne cs hL (rel_empty (W := W) node dir)
  -- each source is in a state of a history of its own
  have hstate : ∀ j : Nat, ∃ os, Checkpoint.Fine os ∧
      (callsOne Disk.empty cs).1.run (effs.take (k - j * effs.length)) = exec Disk.empty os := by
    intro j
    have hrun : ∀ m, (callsOne Disk.empty cs).1.run (effs.take m) =
        exec Disk.empty (ops cs ++ [.crashed a m]) := by
      intro m
      rw [exec_append, ← hex]
      simp only [exec, Disk.call, he]
    by_cases h3 : effs.length ≤ k - j * effs.length
    · refine ⟨ops cs ++ [.weights a], ?_, ?_⟩
      · intro op hop
        rcases List.mem_append.1 hop with hop | hop
        · exact hf op hop
        · rw [List.mem_singleton] at hop; subst hop; exact ⟨ha, trivial⟩
      · rw [exec_append, ← hex]
        simp only [exec, Disk.call, he]
        rw [List.take_of_length_le h3]
    · refine ⟨_, ?_, hrun _⟩
      intro op hop
      rcases List.mem_append.1 hop with hop | hop
      · exact hf op hop
      rw [List.mem_singleton] at hop
      subst hop
      refine ⟨ha, ?_⟩
      show k - j * effs.length ≤ _
      refine Nat.le_trans ?_ hk
      by_cases h4 : j * effs.length ≤ k
      · have hm : (k - j * effs.length) % effs.length = k % effs.length := by
          conv_rhs => rw [← Nat.sub_add_cancel h4]
          rw [Nat.add_mul_mod_self_right]
        rw [← hm, Nat.mod_eq_of_lt (by omega)]
        exact Nat.le_refl _
      · omega
  have hsave : ∀ l ∈ at_ dir node.leaves, ∃ os es, Checkpoint.Fine os ∧
      saveWeights (exec Disk.empty os) b = .ok es ∧
      crash node dir (calls node dir Store.empty cs).1 a k l.1 = partOf (exec Disk.empty os) l.2 := by
    intro l hl
    obtain ⟨x, hx, rfl⟩ := mem_at.1 hl
    obtain ⟨j, hj⟩ := List.getElem?_of_mem hx
    obtain ⟨os, ho, hs⟩ := hstate j
    have hok := (C27_save_succeeds os ho b hb).2 ⟨hbc, by rw [hbn]; intro num hnum; cases hnum⟩
    simp only [Disk.call] at hok
    cases hw : saveWeights (exec Disk.empty os) b with
    | error e => rw [hw] at hok; cases hok
    | ok es =>
      refine ⟨os, es, ho, hw, ?_⟩
      simp only
      rw [crash_rel hn h2 a he k j x hj, hs]
  have hop : ∀ l ∈ at_ dir node.leaves,
      (weightEffs (crash node dir (calls node dir Store.empty cs).1 a k l.1) (part b l.2)).2 = none := by
    intro l hl
    obtain ⟨os, es, _, hw, hs⟩ := hsave l hl
    rw [hs, length_part _ _ hw]
  obtain ⟨g1, g2⟩ := visitL_ok (fun d i => weightEffs d (part b i)) (at_ dir node.leaves)
    (crash node dir (calls node dir Store.empty cs).1 a k) (at_nodup dir node hn) hop
  simp only [Nested.call, saveAll, loadAll]
  rw [visit_eq id _ node (Or.inl rfl), loadNode_eq id _ none node (Or.inl rfl)]
  refine ⟨g1, ?_⟩
  rw [loadL_ok _ none b.w]
  · have : (at_ dir node.leaves).map Prod.snd = node.leaves.map Prod.snd := by
      simp [at_, Function.comp_def]
    rw [this]
  · intro l hl
    rw [g2 l hl]
    obtain ⟨os, es, ho, hw, hs⟩ := hsave l hl
    rw [hs, length_part _ _ hw, ← partOf_run, loadWeights_part, latest_weights ho b hb hw]
    rfl

example : (Node.group (.cons "track" (.source 0) (.cons "noise" (.source 1) .nil))).Named := by
  simp only [Node.Named, Nodes.Named, Nodes.names]
  decide +kernel

/-- The hypotheses of `C118_mixed_violated` and `C118_repair_partial` are met: a save has four effects. -/
example : ∃ effs, saveWeights (callsOne Disk.empty [Call.run { w := fun i => 10 + i }]).1
      ({ w := fun i => 20 + i } : Save (Nat → Nat)) = .ok effs ∧ effs.length = 4 ∧
    (saved Disk.empty (ops [Call.run { w := fun i => 10 + i }])).length = 1 :=
  ⟨_, rfl, rfl, rfl⟩

/-! ### C119 -/

section
variable {C : Type}

/-- **C119.** With a data transformation, a multi source evaluates its tensors with it, passes the check of
managers, and is loaded with it and with its base sources in the same order. -/
theorem C119_trafo_partial (base : Dict String C) (hb : "data_trafo" ∉ Dict.keys base) (t : C) :
    multiTrafo (multiSubs base (some t)) = .ok t ∧
    managerTrafo (multiSubs base (some t)) = .ok t ∧
    multiReload (multiSubs base (some t)) = .ok (t, base) := by
  have hg : Dict.get? (multiSubs base (some t)) "data_trafo" = some t := by
    simp [multiSubs, Dict.get?_set]
  have hs : Dict.set base "data_trafo" t = base ++ [("data_trafo", t)] := by
    induction base with
    | nil => rfl
    | cons x base ih =>
      obtain ⟨k, v⟩ := x
      simp only [Dict.keys_cons, List.mem_cons, not_or] at hb
      simp only [Dict.set, Ne.symm hb.1, if_false, List.cons_append]
      rw [ih hb.2 (by simp [multiSubs, Dict.get?_set])]
  refine ⟨by simp [multiTrafo, hg], by simp [managerTrafo, hg], ?_⟩
  simp only [multiReload, hg]
  simp only [multiSubs, hs, List.filter_append]
  congr 2
  have h1 : base.filter (fun nc => nc.1 ≠ "data_trafo") = base := by
    rw [List.filter_eq_self]
    intro x hx
    have : x.1 ∈ Dict.keys base := List.mem_map_of_mem hx
    simp only [ne_eq, decide_eq_true_eq]
    intro e
    exact hb (e ▸ this)
  rw [h1]
  simp

/-- **C119 is violated**: without a data transformation, which `configure` accepts, a multi source can neither be
evaluated, nor be used in a manager, nor be loaded again. -/
theorem C119_none_violated (base : Dict String C) (hb : "data_trafo" ∉ Dict.keys base) :
    multiTrafo (multiSubs base none) = .error .attributeError ∧
    managerTrafo (multiSubs base none) = .error .keyError ∧
    multiReload (multiSubs base none) = .error .keyError := by
  have hg : Dict.get? (multiSubs base none) "data_trafo" = none := (Dict.get?_eq_none_iff _ _).2 hb
  simp [multiTrafo, managerTrafo, multiReload, hg]

/-- **C119 is violated**: a base source with the name of the data transformation is replaced by it, so that
there are fewer base sources after loading. -/
theorem C119_replaced_violated (base : Dict String C) (hb : "data_trafo" ∈ Dict.keys base) (t : C) :
    ∃ rest, multiReload (multiSubs base (some t)) = .ok (t, rest) ∧ "data_trafo" ∉ Dict.keys rest ∧
      rest.length < base.length := by
  have hg : Dict.get? (multiSubs base (some t)) "data_trafo" = some t := by
    simp [multiSubs, Dict.get?_set]
  have hl : (Dict.set base "data_trafo" t).length = base.length := by
    have := Dict.keys_set base "data_trafo" t
    have h2 := congrArg List.length this
    simp only [hb, if_true] at h2
    simpa [Dict.keys] using h2
  refine ⟨(multiSubs base (some t)).filter fun nc => nc.1 ≠ "data_trafo", by simp only [multiReload, hg], ?_, ?_⟩
  · intro h
    obtain ⟨x, hx, e⟩ := List.mem_map.1 h
    have := (List.mem_filter.1 hx).2
    simp [e] at this
  · rw [← hl]
    refine List.length_filter_lt_length_iff_exists.2 ⟨("data_trafo", t), Dict.mem_of_get? hg, by simp⟩

example : multiReload (multiSubs [("cascade", 1), ("noise", 2)] (some 3)) =
    .ok (3, [("cascade", 1), ("noise", 2)]) :=
  (C119_trafo_partial [("cascade", 1), ("noise", 2)] (by decide) 3).2.2

example : "data_trafo" ∈ Dict.keys [("data_trafo", 1), ("noise", 2)] := by decide

end

end Verif.Nested
