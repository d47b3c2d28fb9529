import Verif.Access.Lemmas
import Verif.Handler.AggProps

/-!
# Access to the data of a data handler (C111 to C116)
-/

namespace Verif.Access
open Verif.Py

/-! ## C111: data that is handed out has the declared structure -/

section
variable {V : Type}

/-- C111 (loading from files, creating from frames). A configured handler hands out exactly what the
derived class gives, and exactly when there is one entry for each tensor and every existing tensor in event
structure has a shape that fits. What is missing: nothing is required of vectors, see
`C111_vector_violated`. -/
theorem C111_accepted_partial (ts : List Info) (n : Option Nat) (data : List (Val V)) (r : Loaded V) :
    getChecked true ts (.ok (n, some data)) = .ok r ↔ r = (n, some data) ∧ Structured ts data := by
  unfold getChecked
  rw [if_neg (by simp)]
  have hc := check_ok ts data
  cases e : check ts (some data) with
  | error err =>
    rw [e] at hc
    cases n <;> simp only [e] <;>
      exact ⟨fun h => (by cases h), fun h => absurd (hc.2 h.2) (by simp)⟩
  | ok u =>
    rw [e] at hc
    have := hc.1 rfl
    cases n <;> simp only [e, Except.ok.injEq] <;>
      exact ⟨fun h => ⟨h.symm, this⟩, fun h => h.1.symm⟩

/-- C111. A file or frame without usable events gives nothing; a number of events without data, an
exception of the derived class and a handler that is not configured raise. -/
theorem C111_nothing (ts : List Info) (n : Nat) (e : Err)
    (res : Except Err (Loaded V)) :
    getChecked true ts (.ok (none, none) : Except Err (Loaded V)) = .ok (none, none) ∧
    getChecked true ts (.ok (some n, none) : Except Err (Loaded V)) = .error .typeError ∧
    getChecked true ts (.error e : Except Err (Loaded V)) = .error e ∧
    getChecked false ts res = .error .valueError := by
  exact ⟨rfl, rfl, rfl, rfl⟩

/-- C111 (loading from frames). In addition, tensors that do not exist are replaced by a scalar of their
type, and all others are handed out as they are. -/
theorem C111_frame_partial (np : String → Except Err V) (ts : List Info) (n : Option Nat)
    (data : List (Val V)) (r : Loaded V) :
    getFrame true np ts (.ok (n, some data)) = .ok r ↔ Structured ts data ∧
      ∃ out, r = (n, some out) ∧ out.length = ts.length ∧ ∀ (i : Nat) (t : Info), ts[i]? = some t →
        (t.present = true → out[i]? = data[i]?) ∧
        (t.present = false → ∃ v, np t.dtype = .ok v ∧ out[i]? = some (.arr t.dtype [] v)) := by
  unfold getFrame
  have hc := C111_accepted_partial ts n data
  cases e : getChecked true ts (.ok (n, some data)) with
  | error err =>
    simp only [reduceCtorEq, false_iff]
    rintro ⟨hs, -⟩
    have := (hc (n, some data)).2 ⟨rfl, hs⟩
    rw [e] at this
    cases this
  | ok x =>
    obtain ⟨rfl, hs⟩ := (hc x).1 e
    simp only [hs, true_and]
    have hf := fillMissing_ok np data ts hs.1
    cases e2 : fillMissing np data ts with
    | error err =>
      simp only [reduceCtorEq, false_iff]
      rintro ⟨out, -, h⟩
      have := (hf out).2 h
      rw [e2] at this
      cases this
    | ok xs =>
      simp only [Except.ok.injEq]
      constructor
      · rintro rfl
        exact ⟨xs, rfl, (hf xs).1 e2⟩
      · rintro ⟨out, rfl, h⟩
        have := (hf out).2 h
        rw [e2] at this
        cases this
        rfl

/-- C111 is false for vectors: an existing vector tensor may have any shape or be missing. -/
theorem C111_vector_violated (t : Info) (hv : t.vector = true) (n : Option Nat) (v : Val V) :
    getChecked true [t] (.ok (n, some [v])) = .ok (n, some [v]) :=
  (C111_accepted_partial _ _ _ _).2 ⟨rfl, rfl, fun i t' hi _ hv' => by
    cases i with
    | zero =>
      simp only [List.getElem?_cons_zero, Option.some.injEq] at hi
      subst hi
      rw [hv] at hv'
      cases hv'
    | succ i => simp at hi⟩

end

/-- Tensors for examples: charges of all DOMs, pulses, and a time window that does not exist. -/
def exInfos : List Info :=
  [⟨"x_dom_charge", [none, some 86, some 60, some 1], "float32", true, false⟩,
   ⟨"x_pulses", [none, some 2], "float32", true, true⟩,
   ⟨"x_time_window", [none, some 2], "float32", false, false⟩]

/-- Data of two events. -/
def exData : List (Val Nat) :=
  [.arr "float32" [2, 86, 60, 1] 7, .arr "float32" [9, 2] 8, .none]

theorem exStructured : Structured exInfos exData := by
  refine ⟨rfl, fun i t hi hp hv => ?_⟩
  match i with
  | 0 =>
    cases hi
    refine ⟨_, _, _, rfl, ?_⟩
    exact .cons (by simp) (.cons (by simp) (.cons (by simp) (.cons (by simp) .nil)))
  | 1 => cases hi; cases hv
  | 2 => cases hi; cases hp
  | n + 3 => cases hi

example : getFrame true (fun _ => .ok 0) exInfos (.ok (some 2, some exData)) =
    .ok (some 2, some [.arr "float32" [2, 86, 60, 1] 7, .arr "float32" [9, 2] 8,
      .arr "float32" [] 0]) := by
  refine (C111_frame_partial _ _ _ _ _).2 ⟨exStructured, _, rfl, rfl, fun i t hi => ?_⟩
  match i with
  | 0 => cases hi; exact ⟨fun _ => rfl, fun h => by cases h⟩
  | 1 => cases hi; exact ⟨fun _ => rfl, fun h => by cases h⟩
  | 2 => cases hi; exact ⟨fun h => (by cases h), fun _ => ⟨0, rfl, rfl⟩⟩
  | n + 3 => cases hi

/-- Charges of 80 strings are rejected. -/
example : getChecked true exInfos (.ok (some 2, some [.arr "float32" [2, 80, 60, 1] 7, .none, .none])) =
    .error .valueError := by decide

/-- An existing tensor without data is not noticed. -/
example : getChecked true exInfos (.ok (some 2, some [.arr "float32" [2, 86, 60, 1] 7, .none, .none])) =
    .ok (some 2, some [.arr "float32" [2, 86, 60, 1] 7, .none, .none]) :=
  (C111_accepted_partial _ _ _ _).2 ⟨rfl, rfl, fun i t hi hp hv => by
    match i with
    | 0 =>
      cases hi
      exact ⟨_, _, _, rfl, .cons (by simp) (.cons (by simp) (.cons (by simp) (.cons (by simp) .nil)))⟩
    | 1 => cases hi; cases hv
    | 2 => cases hi; cases hp
    | n + 3 => cases hi⟩

/-! ## C112: the declared signature -/

section
variable {V T : Type}

/-- C112. The data set and the signature declare the same: for each tensor its type, and its shape if it
exists; both raise exactly when a type is unknown to tensorflow. -/
theorem C112_same (tf : String → Option T) (ts : List Info) :
    (∃ types shapes, dataset tf ts = .ok (types, shapes) ∧ signature tf ts = .ok (shapes.zip types) ∧
      types.length = ts.length ∧ shapes.length = ts.length ∧
      ∀ (i : Nat) (t : Info), ts[i]? = some t → ∃ ty, tf t.dtype = some ty ∧ types[i]? = some ty ∧
        shapes[i]? = some (if t.present then some t.shape else none)) ∨
    ((∃ t ∈ ts, tf t.dtype = none) ∧ dataset tf ts = .error .attributeError ∧
      signature tf ts = .error .attributeError) := by
  rw [dataset, datasetLoop_eq, signature_eq]
  rcases mapM_cases tf ts with ⟨l, h1, h2, h3⟩ | ⟨h1, h2⟩
  · refine .inl ⟨l, ts.map shapeOf, by simp [h1], by simp [h1], h2, by simp, fun i t hi => ?_⟩
    obtain ⟨ty, ha, hb⟩ := h3 i t hi
    exact ⟨ty, ha, hb, by simp [hi, shapeOf]⟩
  · exact .inr ⟨h2, by simp [h1], by simp [h1]⟩

/-- C112. What is loaded from a frame fits the shapes of the signature, for every tensor that is not an
existing vector. What is missing: vectors and types, see the two theorems below. -/
theorem C112_frame_partial (np : String → Except Err V) (tf : String → Option T) (ts : List Info)
    (n m : Option Nat) (data out : List (Val V)) (sig : List (TShape × T))
    (h : getFrame true np ts (.ok (n, some data)) = .ok (m, some out)) (hs : signature tf ts = .ok sig) :
    out.length = sig.length ∧ ∀ (i : Nat) (t : Info), ts[i]? = some t →
      (t.present = false ∨ t.vector = false) →
      ∃ x s, out[i]? = some x ∧ sig[i]? = some s ∧ FitsShape x s.1 ∧ some s.2 = tf t.dtype := by
  obtain ⟨hst, out', ho, hl, hall⟩ := (C111_frame_partial np ts n data _).1 h
  simp only [Prod.mk.injEq, Option.some.injEq] at ho
  obtain ⟨-, rfl⟩ := ho
  rcases C112_same tf ts with ⟨types, shapes, -, h2, h3, h4, h5⟩ | ⟨-, -, h2⟩
  · rw [hs] at h2
    cases h2
    refine ⟨by simp [hl, h3, h4], fun i t hi hor => ?_⟩
    obtain ⟨ty, ha, hb, hc⟩ := h5 i t hi
    obtain ⟨hp1, hp2⟩ := hall i t hi
    cases hp : t.present with
    | false =>
      obtain ⟨v, -, hv⟩ := hp2 hp
      refine ⟨_, (none, ty), hv, ?_, ⟨_, _, _, rfl⟩, by simp [ha]⟩
      rw [List.getElem?_zip_eq_some]
      exact ⟨by simpa [hp] using hc, hb⟩
    | true =>
      have hv : t.vector = false := by simpa [hp] using hor
      obtain ⟨ty', s, x, hx, hf⟩ := hst.2 i t hi hp hv
      refine ⟨_, (some t.shape, ty), (hp1 hp).trans hx, ?_, ⟨_, _, _, rfl, hf⟩, by simp [ha]⟩
      rw [List.getElem?_zip_eq_some]
      exact ⟨by simpa [hp] using hc, hb⟩
  · rw [hs] at h2
    cases h2

/-- C112. Conversion to tensors: what is loaded from a frame is converted, tensor by tensor. -/
theorem C112_tensors (np : String → Except Err V) (conv : Val V → Except Err (Val V)) (ts : List Info)
    (n : Option Nat) (data out : List (Val V)) :
    getTensors true np conv ts (.ok (n, some data)) = .ok out ↔ Structured ts data ∧
      out.length = ts.length ∧ ∀ (i : Nat) (t : Info), ts[i]? = some t →
        (t.present = true → ∃ v x, data[i]? = some v ∧ conv v = .ok x ∧ out[i]? = some x) ∧
        (t.present = false → ∃ v, np t.dtype = .ok v ∧ out[i]? = some (.arr t.dtype [] v)) := by
  unfold getTensors
  have hc := C111_frame_partial np ts n data
  cases e : getFrame true np ts (.ok (n, some data)) with
  | error err =>
    simp only [reduceCtorEq, false_iff]
    rintro ⟨hs, hl, hall⟩
    -- the data with the missing tensors replaced
    have hd : ∀ i : Nat, i < ts.length → i < data.length ∧ i < out.length := fun i hi =>
      ⟨by rw [hs.1]; exact hi, by rw [hl]; exact hi⟩
    let filled : List (Val V) := (List.range ts.length).map fun i =>
      match ts[i]? with
      | some t => if t.present then (data[i]?).getD .none else (out[i]?).getD .none
      | none => .none
    have := (hc (n, some filled)).2 ⟨hs, filled, rfl, by simp [filled], fun i t hi => by
      have hlt : i < ts.length := (List.getElem?_eq_some_iff.1 hi).1
      have hf : filled[i]? = some (if t.present then (data[i]?).getD .none else (out[i]?).getD .none) := by
        simp [filled, List.getElem?_map, List.getElem?_range hlt, hi]
      refine ⟨fun hp => ?_, fun hp => ?_⟩
      · rw [hf, if_pos hp, List.getElem?_eq_getElem (hd i hlt).1]
        rfl
      · obtain ⟨v, hv, ho⟩ := (hall i t hi).2 hp
        refine ⟨v, hv, ?_⟩
        rw [hf, if_neg (by simp [hp]), ho]
        rfl⟩
    rw [e] at this
    cases this
  | ok r =>
    obtain ⟨hs, filled, rfl, hl, hall⟩ := (hc r).1 e
    simp only [hs, true_and, convert]
    rw [convertLoop_ok np conv filled 0 ts (by simp [hl])]
    constructor
    · rintro ⟨h1, h2⟩
      refine ⟨h1, fun i t hi => ⟨fun hp => ?_, (h2 i t hi).2⟩⟩
      obtain ⟨v, x, hv, hx⟩ := (h2 i t hi).1 hp
      rw [Nat.zero_add, (hall i t hi).1 hp] at hv
      exact ⟨v, x, hv, hx⟩
    · rintro ⟨h1, h2⟩
      refine ⟨h1, fun i t hi => ⟨fun hp => ?_, (h2 i t hi).2⟩⟩
      obtain ⟨v, x, hv, hx⟩ := (h2 i t hi).1 hp
      rw [← (hall i t hi).1 hp] at hv
      exact ⟨v, x, by rwa [Nat.zero_add], hx⟩

theorem convertLoop_none (np : String → Except Err V) (hnp : ∀ d, ∃ v, np d = .ok v)
    (conv : Val V → Except Err (Val V)) (k : Nat) (ts : List Info) (h : ∃ t ∈ ts, t.present = true) :
    convertLoop np conv none k ts = .error .typeError := by
  induction ts generalizing k with
  | nil => simp at h
  | cons t ts ih =>
    rw [convertLoop]
    by_cases hp : t.present = true
    · rw [if_pos hp]
      rfl
    · rw [if_neg hp, scalar]
      obtain ⟨v, hv⟩ := hnp t.dtype
      rw [hv]
      simp only
      obtain ⟨t', ht', hp'⟩ := h
      rcases List.mem_cons.1 ht' with ht' | ht'
      · subst ht'; exact absurd hp' hp
      · rw [ih (k + 1) ⟨t', ht', hp'⟩]

/-- C112 is false for frames whose event is filtered out: the conversion raises a TypeError instead of
reporting that there is nothing. -/
theorem C112_filtered_violated (np : String → Except Err V) (hnp : ∀ d, ∃ v, np d = .ok v)
    (conv : Val V → Except Err (Val V)) (ts : List Info) (h : ∃ t ∈ ts, t.present = true) :
    getTensors true np conv ts (.ok (none, none)) = .error .typeError :=
  convertLoop_none np hnp conv 0 ts h

end

/-- C112 is false for vectors and for types: data that is handed out does not fit the declared shape of
the pulses, and has the wrong type for the charges. -/
theorem C112_violated : ∃ (ts : List Info) (data out : List (Val Nat)) (sig : List (TShape × String))
    (x y : Val Nat) (sx sy : TShape × String),
    getFrame true (fun _ => .ok 0) ts (.ok (some 2, some data)) = .ok (some 2, some out) ∧
    signature (fun d => some d) ts = .ok sig ∧
    out[0]? = some x ∧ sig[0]? = some sx ∧ (∀ ty s v, x = .arr ty s v → ty ≠ sx.2) ∧
    out[1]? = some y ∧ sig[1]? = some sy ∧ ¬ FitsShape y sy.1 := by
  refine ⟨exInfos.take 2, [.arr "float64" [2, 86, 60, 1] 7, .arr "float32" [9, 3] 8],
    [.arr "float64" [2, 86, 60, 1] 7, .arr "float32" [9, 3] 8],
    [(some [none, some 86, some 60, some 1], "float32"), (some [none, some 2], "float32")],
    .arr "float64" [2, 86, 60, 1] 7, .arr "float32" [9, 3] 8,
    (some [none, some 86, some 60, some 1], "float32"), (some [none, some 2], "float32"),
    ?_, rfl, rfl, rfl, ?_, rfl, rfl, ?_⟩
  · refine (C111_frame_partial _ _ _ _ _).2 ⟨⟨rfl, fun i t hi hp hv => ?_⟩, _, rfl, rfl, fun i t hi => ?_⟩
    · match i with
      | 0 =>
        cases hi
        exact ⟨_, _, _, rfl, .cons (by simp) (.cons (by simp) (.cons (by simp) (.cons (by simp) .nil)))⟩
      | 1 => cases hi; cases hv
      | n + 2 => cases hi
    · match i with
      | 0 => cases hi; exact ⟨fun _ => rfl, fun h => by cases h⟩
      | 1 => cases hi; exact ⟨fun _ => rfl, fun h => by cases h⟩
      | n + 2 => cases hi
  · rintro ty s v h
    cases h
    decide
  · rintro ⟨ty, s, v, h, hf⟩
    cases h
    cases hf with
    | cons _ hf =>
      cases hf with
      | cons h _ => exact absurd (h 2 rfl) (by decide)

example : signature (fun d => if d = "float32" then some 1 else none) exInfos =
    .ok [(some [none, some 86, some 60, some 1], 1), (some [none, some 2], 1), (none, 1)] := by rfl

/-! ## C113: biased selection -/

section
open Verif.Handler
variable {V : Type}

/-- C113. If the selection of every file gives as many events as were loaded, the loaders put the selected
data on the queue with the right number of events, and the batches hold the selected events in load order.
What is missing: a selection that changes the number of events, see `C113_violated`. -/
theorem C113_same_number_partial {ts : List TInfo} (hts : TensorsOk ts) (exist : Nat → Bool)
    (batchSize : Nat) (hbs : 0 < batchSize)
    (sel : Option (List (Option (Arr V))) → Except Err (Option (List (Option (Arr V)))))
    (files : List (List (Option (Arr V)) × List (Option (Arr V)) × List (Event V)))
    (hsel : ∀ f ∈ files, sel (some f.1) = .ok (some f.2.1) ∧ Describes ts exist f.2.1 f.2.2) :
    ∃ chunks : List (Chunk V), List.Forall₂ (fun f c =>
        loadFile (some sel) false (.ok (some f.2.2.length, some f.1)) = .ok (some (some c.num, c.data)))
        files chunks ∧
      ∃ out groups, aggregate ts batchSize (chunks.map (fun c =>
          { chunks := [c], orders := [List.range c.num] })) = .ok out ∧
        groups.flatten = files.flatMap (·.2.2) ∧
        (∀ g ∈ groups.dropLast, g.length = batchSize) ∧
        (∀ g ∈ groups, 0 < g.length ∧ g.length ≤ batchSize) ∧
        List.Forall₂ (BatchOf ts exist) out groups := by
  refine ⟨files.map fun f => ⟨f.2.2.length, f.2.1⟩, ?_, ?_⟩
  · rw [List.forall₂_map_right_iff]
    exact List.forall₂_same.2 fun f hf => by
      simp [loadFile, (hsel f hf).1]
  · obtain ⟨out, groups, h1, h2, h3⟩ := C19_load_order hts exist batchSize hbs
      (files.map fun f => [((⟨f.2.2.length, f.2.1⟩ : Chunk V), f.2.2)])
      (fun cs hcs => by
        obtain ⟨f, -, rfl⟩ := List.mem_map.1 hcs
        simp)
      (fun cs hcs ce hce => by
        obtain ⟨f, hf, rfl⟩ := List.mem_map.1 hcs
        rw [List.mem_singleton] at hce
        subst hce
        exact ⟨(hsel f hf).2, rfl⟩)
    refine ⟨out, groups, ?_, ?_, h3⟩
    · rw [← h1, List.map_map, List.map_map]
      congr 1
      refine List.map_congr_left fun f _ => ?_
      simp [Function.comp]
    · rw [h2]
      clear h1 h2 h3 hsel
      induction files with
      | nil => rfl
      | cons f files ih => simp [ih]

/-- C113 is false for every selection that removes events: the number of events on the queue is that before
the selection, and the process that makes the batches fails with the first such file, however the events
are ordered, as soon as there is a tensor in event structure. -/
theorem C113_violated {ts : List TInfo} (hts : TensorsOk ts) (exist : Nat → Bool) (batchSize : Nat)
    (sel : Option (List (Option (Arr V))) → Except Err (Option (List (Option (Arr V)))))
    (loaded selected : List (Option (Arr V))) (n : Nat) (evs : List (Event V))
    (hsel : sel (some loaded) = .ok (some selected)) (hd : Describes ts exist selected evs)
    (hlt : evs.length < n)
    (hplain : ∃ (j : Nat) (t : TInfo), ts[j]? = some t ∧ t.kind = .plain ∧ exist j = true) :
    loadFile (some sel) false (.ok (some n, some loaded)) = .ok (some (some n, selected)) ∧
    ∀ (order : List Nat) (more : List (List Nat)) (rest : List (Round V)),
      order.Perm (List.range n) →
      ∃ e, aggregate ts batchSize
        ({ chunks := [⟨n, selected⟩], orders := order :: more } :: rest) = .error e := by
  refine ⟨by simp [loadFile, hsel], fun order more rest hperm => ?_⟩
  obtain ⟨j, tj, hj, hk, hx⟩ := hplain
  obtain ⟨a, ha, -, hlen, -⟩ := hd.plain j tj hj hk hx
  have hjlt : j < ts.length := (List.getElem?_eq_some_iff.1 hj).1
  cases hagg : aggregate ts batchSize
      ({ chunks := [⟨n, selected⟩], orders := order :: more } :: rest) with
  | error e => exact ⟨e, rfl⟩
  | ok out =>
    exfalso
    unfold aggregate at hagg
    rw [roundLoop] at hagg
    simp only [fillAll] at hagg
    cases e1 : fillLoop ts (⟨n, selected⟩ : Chunk V) ts 0
        { exist := ts.map (fun _ => true), events := ts.map (fun _ => []) } with
    | error e => rw [e1] at hagg; cases hagg
    | ok f =>
      rw [e1] at hagg
      simp only [epochLoop] at hagg
      obtain ⟨f1, f2, f3, f4⟩ := fillLoop_plain (c := ⟨n, selected⟩) hts hj hk ha ts 0 rfl _ f e1
      cases e2 : eventLoop ts batchSize f order { size := 0, batch := emptyBatch ts, out := [] } with
      | error e => rw [e2] at hagg; cases hagg
      | ok s =>
        obtain ⟨-, hv⟩ := eventLoop_visits ts batchSize f order _ s e2 (by simpa using f1)
          (by simpa using f2) (by simp [emptyBatch])
        have hmem : evs.length ∈ order := hperm.mem_iff.2 (List.mem_range.2 hlt)
        obtain ⟨size, it, hit⟩ := hv _ hmem j tj true [some a] hj
          (by rw [f3]; simp [hjlt]) (by rw [f4]; simp [hjlt])
        rw [addItem, if_pos rfl, hk] at hit
        simp only [concatRows, List.append_nil] at hit
        rw [List.getElem?_eq_none (by omega)] at hit
        cases hit

end

/-- The selection of the first two of three events: the hypotheses of `C113_violated` are met. -/
example : ∃ e, Verif.Handler.aggregate Verif.Handler.exTensors 2
    [{ chunks := [⟨4, Verif.Handler.exFile1.data⟩], orders := [List.range 4] }] = .error e :=
  (C113_violated Verif.Handler.exTensors_ok Verif.Handler.exExist 2
    (fun _ => .ok (some Verif.Handler.exFile1.data)) [] Verif.Handler.exFile1.data 4
    Verif.Handler.exEvents1 rfl Verif.Handler.exFile1_describes (by decide)
    ⟨0, _, rfl, rfl, rfl⟩).2 _ [] [] (List.Perm.refl _)

/-- The hypotheses of `C113_same_number_partial` are met, by a selection that changes nothing. -/
example : ∀ f ∈ [(Verif.Handler.exFile1.data, Verif.Handler.exFile1.data, Verif.Handler.exEvents1)],
    (fun d : Option (List (Option (Verif.Handler.Arr Nat))) => (.ok d : Except Err _)) (some f.1) =
      .ok (some f.2.1) ∧
    Verif.Handler.Describes Verif.Handler.exTensors Verif.Handler.exExist f.2.1 f.2.2 := by
  intro f hf
  rw [List.mem_singleton] at hf
  subst hf
  exact ⟨rfl, Verif.Handler.exFile1_describes⟩

/-! ## C114: set up of data handlers -/

section
open Verif.Component
variable {V D C S : Type}

/-- C114. A data handler is set up exactly if it is not configured yet, the derived class accepts the test
files and its data has a tensor list; the test files are all files that match the pattern, or, for a list,
the first three patterns, in their order. -/
theorem C114_accepted (glob : String → List String) (isTensors : D → Bool) (configured : Bool)
    (derived : Option (List String) → Except Err (C × Dict String D × S)) (src : Source)
    (r : C × Dict String D × S) :
    configureBase glob isTensors configured derived src = .ok r ↔
      configured = false ∧ (∃ t, Dict.get? r.2.1 "tensors" = some t ∧ isTensors t = true) ∧
      match src with
      | .none => derived none = .ok r
      | .pattern s => derived (some (glob s)) = .ok r
      | .patterns [] => derived (some []) = .ok r
      | .patterns [a] => derived (some (glob a)) = .ok r
      | .patterns [a, b] => derived (some (glob a ++ glob b)) = .ok r
      | .patterns (a :: b :: c :: _) => derived (some (glob a ++ glob b ++ glob c)) = .ok r
      | .other => False := by
  unfold configureBase
  cases configured with
  | true => simp
  | false =>
    rw [if_neg (by simp)]
    simp only [true_and]
    have key : ∀ files, (match derived files with
        | .error e => .error e
        | .ok (c, data, subs) =>
          match Dict.get? data "tensors" with
          | none => .error .keyError
          | some t => if !isTensors t then .error .typeError else .ok (c, data, subs)) =
          (.ok r : Except Err _) ↔
        (∃ t, Dict.get? r.2.1 "tensors" = some t ∧ isTensors t = true) ∧ derived files = .ok r := by
      intro files
      cases derived files with
      | error e => simp
      | ok x =>
        obtain ⟨c, data, subs⟩ := x
        simp only [Except.ok.injEq]
        constructor
        · intro h
          cases e : Dict.get? data "tensors" with
          | none => rw [e] at h; cases h
          | some t =>
            rw [e] at h
            simp only at h
            split at h
            · cases h
            · rename_i ht
              cases h
              exact ⟨⟨t, e, by simpa using ht⟩, rfl⟩
        · rintro ⟨⟨t, h1, h2⟩, rfl⟩
          simp only at h1
          rw [h1]
          simp [h2]
    cases src with
    | none => exact key none
    | other => simp [testFiles]
    | pattern s => exact key _
    | patterns l =>
      match l with
      | [] => exact key _
      | [a] => rw [show testFiles glob (.patterns [a]) = .ok (some (glob a)) by simp [testFiles]]; exact key _
      | [a, b] =>
        rw [show testFiles glob (.patterns [a, b]) = .ok (some (glob a ++ glob b)) by simp [testFiles]]
        exact key _
      | a :: b :: c :: rest =>
        rw [show testFiles glob (.patterns (a :: b :: c :: rest)) =
          .ok (some (glob a ++ glob b ++ glob c)) by simp [testFiles]]
        exact key _

theorem moduleConf_ok (E : Env) (cls : String) (config : V) (modules : Dict String (Comp V D))
    (hok : modules.Ok) (hm : ∀ n m, (n, m) ∈ modules → ∃ d, m.toSubArg = .configured d) :
    ∃ conf, moduleConf E cls config modules = .ok conf ∧ conf.config = [("config", config)] ∧
      conf.dict.muts = mutableModules ∧ conf.dict.cls = cls ∧
      (∀ n, n ∈ Dict.keys conf.dict.subs ↔ n ∈ modules.keys) ∧
      ∀ n m d, (n, m) ∈ modules → m.toSubArg = .configured d → Dict.get? conf.dict.subs n = some d := by
  have hkeys : Dict.keys (modules.map fun nm => (nm.1, nm.2.toSubArg)) = modules.keys := by
    simp [Dict.keys, List.map_map, Function.comp_def]
  have hnew : Dict.Ok (modules.map fun nm => (nm.1, nm.2.toSubArg)) := by
    rw [Dict.Ok, hkeys]; exact hok
  have hadd : (addSubsLoop ([] : Dict String (Cfg V))
      (modules.map fun nm => (nm.1, nm.2.toSubArg))).2 = none := by
    rw [addSubsLoop_ok_iff _ _ hnew]
    intro n a ha
    obtain ⟨nm, hnm, he⟩ := List.mem_map.1 ha
    cases he
    obtain ⟨d, hd⟩ := hm nm.1 nm.2 hnm
    exact ⟨by simp [Dict.keys], d, hd⟩
  have hget := addSubsLoop_get ([] : Dict String (Cfg V)) _ hnew hadd
  unfold moduleConf
  simp only [Conf.init, checkNames, List.all_nil, if_true, combineSettings, bind, Except.bind]
  rw [if_neg (by simp [Dict.keys])]
  simp only [Conf.addSubs]
  rw [hadd]
  have hval : ∀ n m d, (n, m) ∈ modules → m.toSubArg = .configured d →
      Dict.get? (addSubsLoop ([] : Dict String (Cfg V))
        (modules.map fun nm => (nm.1, nm.2.toSubArg))).1 n = some d := by
    intro n m d hnm hd
    rw [hget n]
    rw [Dict.get?_of_mem hnew (show (n, SubArg.configured d) ∈ _ from
      List.mem_map.2 ⟨(n, m), hnm, by rw [hd]⟩)]
  refine ⟨_, rfl, rfl, rfl, rfl, fun n => ⟨fun hn => ?_, fun hn => ?_⟩, hval⟩
  · rcases (addSubsLoop_inv ([] : Dict String (Cfg V)) (modules.map fun nm => (nm.1, nm.2.toSubArg))
      (by simp [Dict.Ok, Dict.keys])).2.2 n hn with h | h
    · simp [Dict.keys] at h
    · rwa [hkeys] at h
  · obtain ⟨nm, hnm, rfl⟩ := List.mem_map.1 hn
    obtain ⟨d, hd⟩ := hm nm.1 nm.2 hnm
    have := hval nm.1 nm.2 d hnm hd
    exact (Dict.get?_isSome_iff _ _).1 (by rw [this]; rfl)

variable [DecidableEq V]

/-- C114. A modular data handler that is given its settings only is set up with them: it holds the data and
the modules, records the settings, and records the configuration of every module. -/
theorem C114_module (E : Env) (Cn : Containers V) (cls : String) (glob : String → List String)
    (isTensors : D → Bool) (read : Option (Arg V D) → Source) (hread : read none = .none)
    (build : V → Option (List String) → Except Err (Dict String D × Dict String (Comp V D)))
    (config : V) (data : Dict String D) (modules : Dict String (Comp V D)) (t : D)
    (hbuild : build config none = .ok (data, modules))
    (ht : Dict.get? data "tensors" = some t) (hist : isTensors t = true) (hok : modules.Ok)
    (hm : ∀ n m, (n, m) ∈ modules → ∃ d, m.toSubArg = .configured d)
    (hmut : ∀ k ∈ ["label_module", "weight_module", "misc_module", "filter_module"], k ∈ modules.keys) :
    ∃ conf, (Comp.fresh cls : Comp V D).configure Cn
        (moduleHook E Cn cls glob isTensors read build) [("config", .plain config)] =
        (⟨cls, true, some conf, some data, modules, []⟩, none) ∧
      conf.config = [("config", config)] ∧
      ∀ n m d, (n, m) ∈ modules → m.toSubArg = .configured d → Dict.get? conf.dict.subs n = some d := by
  obtain ⟨conf, h1, h2, h3, -, h4, h5⟩ := moduleConf_ok E cls config modules hok hm
  have hbase : configureBase glob isTensors false (fun files =>
      match build config files with
      | .error e => .error e
      | .ok (data, modules) =>
        match moduleConf E cls config modules with
        | .error e => .error e
        | .ok conf => .ok (conf, data, modules)) .none = (.ok (conf, data, modules) : Except Err _) := by
    rw [C114_accepted]
    refine ⟨rfl, ⟨t, ht, hist⟩, ?_⟩
    simp only [hbuild, h1]
  have hhook : moduleHook E Cn cls glob isTensors read build [("config", .plain config)] =
      .ok (conf, .dict data, .dict modules) := by
    unfold moduleHook
    rw [if_neg (by simp [Dict.keys])]
    have e1 : (Dict.get? ([("config", Arg.plain config)] : Dict String (Arg V D)) "config").bind
        (Arg.val? Cn) = some config := rfl
    have e2 : Dict.get? ([("config", Arg.plain config)] : Dict String (Arg V D)) "config_data" = none := rfl
    rw [e1, e2, hread]
    simp only
    erw [hbase]
  refine ⟨{ conf with dict := { conf.dict with deps := conf.dict.deps ++ Dict.keys modules } }, ?_, h2, h5⟩
  unfold Comp.configure
  have hcol : collect (V := V) (D := D) [] [] [("config", .plain config)] =
      .ok ([("config", .plain config)], []) := rfl
  simp only [Comp.fresh, Bool.false_eq_true, if_false, ne_eq, not_true_eq_false, hcol, hhook,
    List.map_nil, Conf.addSubs, addSubsLoop]
  have hdep : Conf.addDependent conf (Dict.keys modules) =
      ({ conf with dict := { conf.dict with deps := conf.dict.deps ++ Dict.keys modules } }, none) := by
    unfold Conf.addDependent
    rw [(checkNames_ok_iff conf.dict.subs (Dict.keys modules)).2 fun n hn => (h4 n).2 hn]
  have hmuts : checkNames conf.dict.subs conf.dict.muts = .ok () := by
    rw [checkNames_ok_iff, h3]
    intro n hn
    refine (h4 n).2 (hmut n ?_)
    simp only [mutableModules, List.mem_cons, List.not_mem_nil, or_false] at hn ⊢
    rcases hn with h | h | h | h <;> simp [h]
  have hmiss : checkMissing (D := D) Cn conf.config [("config", .plain config)] = none := by
    rw [h2]
    simp [checkMissing, Dict.get?_cons, Arg.val?]
  obtain ⟨⟨c1, c2, c3, c4, c5, c6, c7, c8, c9⟩, c10⟩ := conf
  simp only at hmuts hmiss
  simp only [hdep]
  rw [hmuts]
  simp only
  rw [hmiss]

/-- C114 is false for test data: whatever the settings and the modules are, a modular data handler that is
given `config_data` - a pattern, a list of patterns, or just `None` - is not configured. The settings it
records lack this argument. -/
theorem C114_config_data_violated (E : Env) (Cn : Containers V) (cls : String)
    (glob : String → List String) (isTensors : D → Bool) (read : Option (Arg V D) → Source)
    (build : V → Option (List String) → Except Err (Dict String D × Dict String (Comp V D)))
    (self : Comp V D) (config : Arg V D) (arg : Arg V D)
    (harg : (∃ v, arg = .plain v) ∨ ∃ items v, arg = .list items ∧ Item.val v ∈ items) :
    (self.configure Cn (moduleHook E Cn cls glob isTensors read build)
      [("config", config), ("config_data", arg)]).2 ≠ none := by
  intro h
  obtain ⟨-, -, missing, params, conf0, data, subs, conf1, d, hcol, hhook, -, hadd, -, -, -, hmiss, -⟩ :=
    configure_success Cn _ self _ h
  have hok : Dict.Ok ([("config", config), ("config_data", arg)] : Dict String (Arg V D)) := by
    simp [Dict.Ok, Dict.keys]
  obtain ⟨-, -, -, -, -, c4⟩ := collect_spec [] [] _ missing params hcol
    (by simp [Dict.Ok, Dict.keys]) (by simp [Dict.Ok, Dict.keys]) hok (by simp [Dict.keys])
  have hset : arg.isSetting = true := by
    rcases harg with ⟨v, rfl⟩ | ⟨items, v, rfl, hv⟩
    · rfl
    · simp only [Arg.isSetting, Bool.not_eq_true', List.all_eq_false]
      exact ⟨_, hv, by simp⟩
  have hin := Dict.mem_of_get? ((c4 "config_data" arg).2 (.inr ⟨by simp, hset⟩))
  obtain ⟨v, hv, -⟩ := checkMissing_none Cn conf1.config missing hmiss _ _ hin
  -- the recorded settings are those of the hook
  have hc1 : conf1.config = conf0.config := by
    have := congrArg Prod.fst hadd
    simp only [Conf.addSubs] at this
    rw [← this]
  have hc0 : ∃ x, conf0.config = [("config", x)] := by
    unfold moduleHook at hhook
    split at hhook
    · cases hhook
    · split at hhook
      · cases hhook
      · rename_i cfg _
        split at hhook
        · cases hhook
        · rename_i conf data' modules' hb
          cases hhook
          refine ⟨cfg, ?_⟩
          unfold configureBase at hb
          rw [if_neg (by simp)] at hb
          split at hb
          · cases hb
          · split at hb
            · cases hb
            · rename_i c dd ss hder
              simp only at hder
              split at hder
              · cases hder
              · rename_i data2 modules2 _
                split at hder
                · cases hder
                · rename_i conf2 hmc
                  cases hder
                  split at hb
                  · cases hb
                  · split at hb
                    · cases hb
                    · cases hb
                      unfold moduleConf at hmc
                      simp only [Conf.init, checkNames, List.all_nil, if_true, combineSettings, bind,
                        Except.bind] at hmc
                      rw [if_neg (by simp [Dict.keys])] at hmc
                      simp only [Conf.addSubs] at hmc
                      split at hmc
                      · cases hmc
                      · rename_i he
                        cases hmc
                        have := congrArg (fun p => p.1.config) he
                        exact this.symm
  obtain ⟨x, hx⟩ := hc0
  rw [hc1, hx] at hv
  simp [Dict.get?_cons] at hv

/-- C114 is false for the modules, too: the dummy modules and the loader of seeds accept no list of files,
which is what the handler makes of any pattern. -/
theorem C114_dummy_violated (glob : String → List String) (src : Source) (files : Option (List String))
    (h : testFiles glob src = .ok files) : moduleAccepts files = true ↔ src = .none := by
  cases src <;> simp only [testFiles, Except.ok.injEq, reduceCtorEq] at h <;> subst h <;>
    simp [moduleAccepts]

end

/-- Only the files of the first three patterns are used. -/
example : testFiles (fun p => [p ++ "0.hdf5", p ++ "1.hdf5"]) (.patterns ["a", "b", "c", "d"]) =
    .ok (some ["a0.hdf5", "a1.hdf5", "b0.hdf5", "b1.hdf5", "c0.hdf5", "c1.hdf5"]) := by rfl

section
open Verif.Component

/-- Modules for an example. -/
def exModule (n : Nat) : Comp Nat Nat :=
  ⟨"m", true, some ⟨⟨"1", "s", "m", [], [("a", n)], [], [], [], []⟩, [("a", n)]⟩, some [], [], []⟩

def exModules : Dict String (Comp Nat Nat) :=
  [("data_module", exModule 1), ("label_module", exModule 2), ("weight_module", exModule 3),
   ("misc_module", exModule 4), ("filter_module", exModule 5)]

/-- The hypotheses of `C114_module` are met. -/
example : exModules.Ok ∧ (∀ n m, (n, m) ∈ exModules → ∃ d, m.toSubArg = .configured d) ∧
    ∀ k ∈ ["label_module", "weight_module", "misc_module", "filter_module"], k ∈ exModules.keys := by
  refine ⟨by decide, fun n m h => ?_, by decide⟩
  simp only [exModules, List.mem_cons, Prod.mk.injEq, List.not_mem_nil, or_false] at h
  rcases h with h | h | h | h | h <;> (rw [h.2]; exact ⟨_, rfl⟩)

end

/-! ## C115: additional arguments -/

section
variable {A : Type}

/-- C115. Additional keyword arguments reach the modules unchanged, together with the file or frame, if
their names are not those of parameters of the handler. What is missing: positional arguments, see
`C115_positional_violated`. -/
theorem C115_keywords_partial (first : String) (hfirst : first = "file" ∨ first = "frame") (m x : A)
    (kw : Dict String A) (hkw : ∀ k ∈ kw.keys, k ∉ ["self", first, "file_or_frame", "method"]) :
    reach first m [x] kw = .ok ([x], kw) := by
  have hno : ∀ k ∈ ["self", first, "file_or_frame", "method"], kw.has k = false := by
    intro k hk
    rw [Dict.has_eq_false_iff]
    exact fun h => hkw k h hk
  have hf : ∀ ps : List String, (∀ p ∈ ps, p ∈ ["self", first, "file_or_frame", "method"]) →
      kw.filter (fun kv => !ps.contains kv.1) = kw := by
    intro ps hps
    rw [List.filter_eq_self]
    intro kv hkv
    simp only [Bool.not_eq_true', List.contains_eq_mem, decide_eq_false_iff_not]
    exact fun h => hkw kv.1 (Dict.mem_keys_of_mem hkv) (hps _ h)
  have h1 : bindCall [first] [x] kw = .ok ([x], [], kw) := by
    unfold bindCall
    rw [if_neg, if_neg]
    · rw [hf [first] (by simp)]
      simp
    · simp [hno "self" (by simp)]
    · simp only [List.length_cons, List.length_nil, List.take_succ_cons, List.take_nil, List.any_eq_true,
        not_exists, not_and, Bool.not_eq_true, List.contains_eq_mem, List.mem_cons, List.not_mem_nil,
        or_false, decide_eq_false_iff_not]
      rintro k hk rfl
      exact hkw _ hk (by simp)
  have h2 : bindCall ["file_or_frame", "method"] [x] (("method", m) :: kw) = .ok ([x, m], [], kw) := by
    unfold bindCall
    rw [if_neg, if_neg]
    · have : (("method", m) :: kw).filter (fun kv => !["file_or_frame", "method"].contains kv.1) = kw := by
        rw [List.filter_cons_of_neg (by simp)]
        exact hf ["file_or_frame", "method"] (by simp)
      rw [this]
      simp [Dict.get?_cons]
    · have := hno "self" (by simp)
      rw [Dict.has_eq_false_iff] at this
      rw [Dict.has_iff]
      simp [Dict.keys_cons, this]
    · simp only [List.length_cons, List.length_nil, List.take_succ_cons, List.take_zero, List.any_eq_true,
        not_exists, not_and, Bool.not_eq_true, List.contains_eq_mem, List.mem_cons, List.not_mem_nil,
        or_false, decide_eq_false_iff_not, Dict.keys_cons]
      rintro k hk rfl
      rcases hk with hk | hk
      · exact absurd hk (by decide)
      · exact hkw _ hk (by simp)
  unfold reach
  rw [h1]
  simp only [List.append_nil, h1]
  rw [if_neg (by simp [hno "method" (by simp)]), h2]
  rfl

/-- C115 is false for positional arguments: with any additional positional argument the call raises a
TypeError. -/
theorem C115_positional_violated (first : String) (m x y : A) (pos : List A) (kw : Dict String A) :
    reach first m (x :: y :: pos) kw = .error .typeError := by
  have key : ∀ kw : Dict String A, bindCall [first] (x :: y :: pos) kw = .error .typeError ∨
      ∃ kw', bindCall [first] (x :: y :: pos) kw = .ok ([x], y :: pos, kw') := by
    intro kw
    unfold bindCall
    split
    · exact .inl rfl
    · split
      · exact .inl rfl
      · exact .inr ⟨_, by simp; rfl⟩
  unfold reach
  rcases key kw with h | ⟨kw1, h⟩ <;> rw [h]
  simp only [List.cons_append, List.nil_append]
  rcases key kw1 with h | ⟨kw2, h⟩ <;> rw [h]
  simp only [List.cons_append, List.nil_append]
  split
  · rfl
  · unfold bindCall
    rw [if_pos (by simp [Dict.keys_cons])]

example : reach "frame" 0 [7] [("pulse_key", 1), ("cleaning", 2)] =
    .ok ([7], [("pulse_key", 1), ("cleaning", 2)]) :=
  C115_keywords_partial _ (.inr rfl) _ _ _ (by decide)

end

/-! ## C116: the end of processes -/

theorem procRun_running (acts : List Act) (s : Procs) :
    (acts.foldl procStep s).running.length = s.running.length + started acts := by
  induction acts generalizing s with
  | nil => rfl
  | cons a acts ih => rw [List.foldl_cons, ih, procStep_length, started_cons a acts]; omega

/-- C116. After `kill`, no process of any batch generator of the handler runs, whatever happened before and
after, unless a new generator is started; nothing is forgotten: the handler keeps track of every process
that was started. -/
theorem C116_killed (before after : List Act) (h : NoStart after) :
    (procRun (before ++ .kill :: after)).running = List.replicate (started before) false ∧
    (procRun (before ++ .kill :: after)).queues = 0 := by
  unfold procRun
  rw [List.foldl_append, List.foldl_cons]
  have hl := procRun_running before ⟨[], 0⟩
  simp only [List.length_nil, Nat.zero_add] at hl
  have hk : procStep (before.foldl procStep ⟨[], 0⟩) .kill =
      ⟨List.replicate (started before) false, 0⟩ := by
    rw [procStep, ← hl]
    simp [List.map_const']
  rw [hk]
  have : after.foldl procStep ⟨List.replicate (started before) false, 0⟩ =
      ⟨List.replicate (started before) false, 0⟩ := by
    induction after with
    | nil => rfl
    | cons a after ih =>
      rw [List.foldl_cons]
      have ha : procStep ⟨List.replicate (started before) false, 0⟩ a =
          ⟨List.replicate (started before) false, 0⟩ := by
        cases a with
        | generate jobs => exact absurd rfl (h _ (by simp) jobs)
        | ends i =>
          simp only [procStep, Procs.mk.injEq, and_true]
          refine List.ext_getElem? fun j => ?_
          rw [List.getElem?_set]
          by_cases e : i = j
          · subst e
            by_cases hi : i < started before <;> simp [hi]
          · simp [e]
        | kill => simp [procStep]
      rw [ha]
      exact ih fun x hx => h x (by simp [hx])
  rw [this]
  exact ⟨rfl, rfl⟩

/-- C116. Before `kill`, a generator with `jobs` loaders runs `jobs + 1` processes. -/
theorem C116_started (before : List Act) (jobs : Nat) :
    (procRun (before ++ [.generate jobs])).running =
      (procRun before).running ++ List.replicate (jobs + 1) true := by
  unfold procRun
  rw [List.foldl_append]
  simp [procStep, List.replicate_succ']

/-- C116. The handler keeps three queues for each generator that was started since the last `kill`. -/
theorem C116_queues (before after : List Act) (h : Act.kill ∉ after) :
    (procRun (before ++ .kill :: after)).queues = 3 * generators after := by
  unfold procRun
  rw [List.foldl_append, List.foldl_cons]
  have key : ∀ (after : List Act) (s : Procs), Act.kill ∉ after →
      (after.foldl procStep s).queues = s.queues + 3 * generators after := by
    intro after
    induction after with
    | nil => intro s _; rfl
    | cons a after ih =>
      intro s h
      rw [List.foldl_cons, ih _ (fun hc => h (by simp [hc]))]
      cases a with
      | generate jobs => simp only [procStep, generators]; omega
      | ends i => rfl
      | kill => exact absurd (by simp) h
  rw [key after _ h]
  simp [procStep]

example : (procRun [.generate 2, .kill, .generate 1, .ends 3, .generate 1]).queues = 6 := by decide

example : (procRun [.generate 2, .ends 1, .generate 1]).running = [true, false, true, true, true] ∧
    (procRun [.generate 2, .ends 1, .generate 1, .kill]).running = [false, false, false, false, false] := by
  decide

end Verif.Access
