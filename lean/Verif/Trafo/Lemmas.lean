/-
Helper lemmas for the trafo properties.
-/
import Verif.Trafo.Spec
import Mathlib.Tactic.Ring
import Mathlib.Tactic.FieldSimp
import Mathlib.Tactic.Linarith

namespace Verif.Trafo
open Verif.Py

theorem mem_indices (shape i : List Nat) : i ∈ indices shape ↔ InShape i shape := by
  induction shape generalizing i with
  | nil =>
    simp only [indices, InShape, List.mem_singleton, List.forall₂_nil_right_iff]
  | cons d ds ih =>
    simp only [indices, List.mem_flatMap, List.mem_range, List.mem_map, InShape,
      List.forall₂_cons_right_iff]
    constructor
    · rintro ⟨a, ha, r, hr, rfl⟩
      exact ⟨a, r, ha, (ih r).1 hr, rfl⟩
    · rintro ⟨a, r, ha, hr, rfl⟩
      exact ⟨a, ha, r, (ih r).2 hr, rfl⟩

theorem nodup_indices (shape : List Nat) : (indices shape).Nodup := by
  induction shape with
  | nil => simp [indices]
  | cons d ds ih =>
    simp only [indices]
    rw [List.nodup_flatMap]
    constructor
    · intro x _
      exact ih.map (fun a b h => by simpa using h)
    · refine List.Pairwise.imp_of_mem ?_ (List.nodup_range (n := d))
      intro a b _ _ hab
      simp only [Function.onFun, List.disjoint_left, List.mem_map]
      rintro x ⟨r, _, rfl⟩ ⟨r', _, h⟩
      exact hab (by simpa using (List.cons.inj h).1.symm)

theorem InShape.length {i shape : List Nat} (h : InShape i shape) : i.length = shape.length :=
  List.Forall₂.length_eq h

theorem InShape.getLast {i shape : List Nat} (h : InShape i shape) (d : Nat)
    (hd : shape.getLast? = some d) : ∃ k, i.getLast? = some k ∧ k < d := by
  induction h with
  | nil => simp at hd
  | @cons a b l l' hab hl ih =>
    cases hl with
    | nil =>
      simp only [List.getLast?_singleton, Option.some.injEq] at hd
      subst hd
      exact ⟨a, rfl, hab⟩
    | @cons a' b' m m' h1 h2 =>
      rw [List.getLast?_cons_cons] at hd
      obtain ⟨k, hk, hlt⟩ := ih hd
      exact ⟨k, by rw [List.getLast?_cons_cons]; exact hk, hlt⟩

open Classical in
theorem maskLoop_spec (f : ℝ → ℝ) (m : List Bool) (bin : Nat) (a : Arr) (d : Nat)
    (hd : a.shape.getLast? = some d) (hm : bin + m.length ≤ d) :
    ∃ b, maskLoop f bin m a = .ok b ∧ b.shape = a.shape ∧
      ∀ i, b.val i = if ∃ k, i.getLast? = some (bin + k) ∧ m[k]? = some true
        then f (a.val i) else a.val i := by
  induction m generalizing bin a with
  | nil => exact ⟨a, rfl, rfl, fun i => by simp⟩
  | cons c m ih =>
    simp only [List.length_cons] at hm
    cases c with
    | false =>
      obtain ⟨b, h1, h2, h3⟩ := ih (bin + 1) a hd (by omega)
      refine ⟨b, h1, h2, fun i => ?_⟩
      rw [h3 i]
      refine if_congr ?_ rfl rfl
      constructor
      · rintro ⟨k, hk, hb⟩
        exact ⟨k + 1, by rw [hk]; congr 1; omega, by simpa using hb⟩
      · rintro ⟨k, hk, hb⟩
        cases k with
        | zero => simp at hb
        | succ k => exact ⟨k, by rw [hk]; congr 1; omega, by simpa using hb⟩
    | true =>
      obtain ⟨b, h1, h2, h3⟩ := ih (bin + 1)
        { a with val := fun i => if i.getLast? = some bin then f (a.val i) else a.val i } hd
        (by omega)
      refine ⟨b, ?_, h2, fun i => ?_⟩
      · unfold maskLoop
        rw [hd]
        simp only
        rw [if_pos (by omega)]
        exact h1
      · rw [h3 i]
        by_cases hb : i.getLast? = some bin
        · have h0 : ¬ ∃ k, i.getLast? = some (bin + 1 + k) ∧ m[k]? = some true := by
            rintro ⟨k, hk, -⟩; rw [hb] at hk; simp only [Option.some.injEq] at hk; omega
          rw [if_neg h0, if_pos ⟨0, by rw [hb]; rfl, rfl⟩]
          simp only [if_pos hb]
        · simp only [if_neg hb]
          refine if_congr ?_ rfl rfl
          constructor
          · rintro ⟨k, hk, hb⟩
            exact ⟨k + 1, by rw [hk]; congr 1; omega, by simpa using hb⟩
          · rintro ⟨k, hk, hb'⟩
            cases k with
            | zero => exact absurd (by simpa using hk) hb
            | succ k => exact ⟨k, by rw [hk]; congr 1; omega, by simpa using hb'⟩

theorem getLast?_cons_of {α : Type} (x : α) {l : List α} {d : α} (h : l.getLast? = some d) :
    (x :: l).getLast? = some d := by
  cases l with
  | nil => simp at h
  | cons y l => rw [List.getLast?_cons_cons]; exact h

open Classical in
theorem applyMask_spec (f g : ℝ → ℝ) (mask : Option (List Bool)) (shape : List Nat) (a : Arr)
    (B : Nat) (ha : a.shape = B :: shape)
    (hm : ∀ m, mask = some m → shape.getLast? = some m.length) :
    ∃ b, applyMask f g mask a = .ok b ∧ b.shape = a.shape ∧
      ∀ i, InShape i a.shape → b.val i =
        if Logged mask i then
          (if ∀ m, mask = some m → m.all id = true then f (a.val i) else g (a.val i))
        else a.val i := by
  cases mask with
  | none =>
    refine ⟨a, rfl, rfl, fun i _ => ?_⟩
    rw [if_neg]; rintro ⟨m, k, h, -⟩; cases h
  | some m =>
    have hl := hm m rfl
    have hl' : a.shape.getLast? = some m.length := by rw [ha]; exact getLast?_cons_of _ hl
    unfold applyMask
    simp only
    by_cases hall : m.all id = true
    · rw [if_pos hall]
      refine ⟨_, rfl, rfl, fun i hi => ?_⟩
      obtain ⟨k, hk, hlt⟩ := hi.getLast _ hl'
      rw [if_pos, if_pos]
      · rintro m' ⟨⟩; exact hall
      · refine ⟨m, k, rfl, hk, ?_⟩
        rw [List.getElem?_eq_getElem hlt]
        have := List.all_eq_true.1 hall m[k] (List.getElem_mem hlt)
        simp only [id] at this
        rw [this]
    · rw [if_neg hall]
      obtain ⟨b, h1, h2, h3⟩ := maskLoop_spec g m 0 a m.length hl' (by omega)
      refine ⟨b, h1, h2, fun i _ => ?_⟩
      rw [h3 i]
      rw [if_neg (c := ∀ m', some m = some m' → m'.all id = true) (fun h => hall (h m rfl))]
      refine if_congr ?_ rfl rfl
      simp only [Nat.zero_add, Logged, Option.some.injEq]
      constructor
      · rintro ⟨k, hk⟩; exact ⟨m, k, rfl, hk.1, hk.2⟩
      · rintro ⟨m', k, rfl, h1, h2⟩; exact ⟨k, h1, h2⟩

/-! ### The online variance -/

/-- The invariant of the online variance at one position. -/
def AccInv (s : Acc) (i : List Nat) (l : List ℝ) : Prop :=
  s.n = l.length ∧ (l.length : ℝ) * s.mean i = l.sum ∧
    s.m2 i = (l.map (fun x => x ^ 2)).sum - (l.length : ℝ) * (s.mean i) ^ 2

theorem AccInv.zero (i : List Nat) : AccInv Acc.zero i [] := by
  simp [AccInv, Acc.zero]

theorem AccInv.push {s : Acc} {i : List Nat} {l : List ℝ} (h : AccInv s i l)
    (x : List Nat → ℝ) : AccInv (s.push x) i (l ++ [x i]) := by
  obtain ⟨h1, h2, h3⟩ := h
  have hn : ((s.n : ℝ) + 1) ≠ 0 := by positivity
  refine ⟨by simp [Acc.push, h1], ?_, ?_⟩
  · simp only [Acc.push, List.length_append, List.length_singleton, List.sum_append,
      List.sum_singleton, ← h1, ← h2]
    push_cast
    field_simp
    ring
  · simp only [Acc.push, List.length_append, List.length_singleton, List.map_append,
      List.map_cons, List.map_nil, List.sum_append, List.sum_singleton, h3, ← h1]
    push_cast
    field_simp
    ring

theorem AccInv.updateVars {s : Acc} {i : List Nat} {l : List ℝ} (h : AccInv s i l)
    (rows : List (List Nat → ℝ)) :
    AccInv (updateVars s rows) i (l ++ rows.map (fun x => x i)) := by
  induction rows generalizing s l with
  | nil => simpa [Verif.Trafo.updateVars] using h
  | cons x rows ih =>
    have := ih (h.push x)
    simpa [Verif.Trafo.updateVars] using this

theorem sum_sq_sub (l : List ℝ) (c : ℝ) :
    (l.map (fun x => (x - c) ^ 2)).sum =
      (l.map (fun x => x ^ 2)).sum - 2 * c * l.sum + (l.length : ℝ) * c ^ 2 := by
  induction l with
  | nil => simp
  | cons x l ih =>
    simp only [List.map_cons, List.sum_cons, List.length_cons, ih]
    push_cast
    ring

theorem AccInv.result {s : Acc} {i : List Nat} {l : List ℝ} (h : AccInv s i l) (hl : l ≠ []) :
    s.mean i = mean l ∧ s.m2 i / (s.n : ℝ) = popVar l := by
  obtain ⟨h1, h2, h3⟩ := h
  have hn : (l.length : ℝ) ≠ 0 := by
    simpa using hl
  have hm : s.mean i = mean l := by
    unfold mean; rw [← h2]; field_simp
  refine ⟨hm, ?_⟩
  unfold popVar
  rw [show mean (l.map (fun x => (x - mean l) ^ 2)) =
    (l.map (fun x => (x - mean l) ^ 2)).sum / (l.length : ℝ) by simp [mean]]
  rw [h3, h1, sum_sq_sub, ← hm, ← h2]
  congr 1
  ring

theorem popVar_nonneg (l : List ℝ) : 0 ≤ popVar l := by
  unfold popVar mean
  refine div_nonneg (List.sum_nonneg ?_) (by positivity)
  intro x hx
  obtain ⟨y, -, rfl⟩ := List.mem_map.1 hx
  positivity

/-! ### The loops over tensors and batches -/

/-- What one batch adds to the column of tensor `k`. -/
theorem column_append (k : Nat) (mask : Option (List Bool)) (bs cs : List (List Arr))
    (i : List Nat) : column k mask (bs ++ cs) i = column k mask bs i ++ column k mask cs i := by
  simp [column]

theorem updateStep_spec (t : TensorInfo) (ht : t.WellFormed) (a : Arr) (B : Nat)
    (ha : a.shape = B :: t.shape) (s : Acc) :
    ∃ s', updateStep t.logMask a s = .ok s' ∧
      ∀ i l, InShape i t.shape → AccInv s i l →
        AccInv s' i (l ++ column 0 t.logMask [[a]] i) := by
  obtain ⟨b, h1, h2, h3⟩ := applyMask_spec (fun x => Real.log (1 + x)) (fun x => Real.log (1 + x))
    t.logMask t.shape a B ha ht.mask
  refine ⟨_, by unfold updateStep; rw [h1], ?_⟩
  intro i l hi hs
  have := hs.updateVars b.rows
  have he : b.rows.map (fun x => x i) = column 0 t.logMask [[a]] i := by
    simp only [Arr.rows, h2, ha, column, List.flatMap_cons, List.flatMap_nil, List.append_nil,
      List.getElem?_cons_zero, List.map_map]
    refine List.map_congr_left ?_
    intro r hr
    have hr : r < B := List.mem_range.1 hr
    have hin : InShape (r :: i) a.shape := by rw [ha]; exact List.Forall₂.cons hr hi
    simp only [Function.comp]
    rw [h3 _ hin, ite_self]
    have hne : t.logMask = none ∨ i ≠ [] := by
      cases hm : t.logMask with
      | none => exact Or.inl rfl
      | some m =>
        right
        rintro rfl
        have h := ht.mask m hm
        have hl := hi.length
        rw [List.eq_nil_of_length_eq_zero hl.symm] at h
        cases h
    have hiff : Logged t.logMask (r :: i) ↔ Logged t.logMask i := by
      rcases hne with h | h
      · constructor <;> · rintro ⟨m, k, hm, -⟩; rw [h] at hm; cases hm
      · obtain ⟨x, i, rfl⟩ := List.exists_cons_of_ne_nil h
        simp only [Logged, List.getLast?_cons_cons]
    by_cases hlg : Logged t.logMask i
    · rw [if_pos (hiff.2 hlg), if_pos hlg]
    · rw [if_neg (fun h => hlg (hiff.1 h)), if_neg hlg]
  rw [he] at this
  exact this

theorem column_one (k : Nat) (mask : Option (List Bool)) (b : List Arr) (a : Arr)
    (h : b[k]? = some a) (i : List Nat) : column k mask [b] i = column 0 mask [[a]] i := by
  simp [column, h]

/-- The active tensors. -/
def Active (t : TensorInfo) : Prop := t.present = true ∧ t.trafo = true

theorem batchStep_spec (ts : List TensorInfo) (b : List Arr) (ss : List Acc)
    (hw : ∀ t ∈ ts, t.WellFormed) (hb : b.length = ts.length) (hs : ss.length = ts.length)
    (hc : ∀ (k : Nat) t a, ts[k]? = some t → b[k]? = some a → ∃ B, a.shape = B :: t.shape) :
    ∃ ss', batchStep ts b ss = .ok ss' ∧ ss'.length = ts.length ∧
      ∀ (k : Nat) t s, ts[k]? = some t → ss[k]? = some s → Active t →
        ∃ s', ss'[k]? = some s' ∧ ∀ i l, InShape i t.shape → AccInv s i l →
          AccInv s' i (l ++ column k t.logMask [b] i) := by
  induction ts generalizing b ss with
  | nil => exact ⟨[], rfl, rfl, fun k t s h => by simp at h⟩
  | cons t ts ih =>
    cases b with
    | nil => simp at hb
    | cons a b =>
      cases ss with
      | nil => simp at hs
      | cons s ss =>
        obtain ⟨ss', h1, h2, h3⟩ := ih b ss (fun t ht => hw t (List.mem_cons_of_mem _ ht))
          (by simpa using hb) (by simpa using hs)
          (fun k t' a' h h' => hc (k + 1) t' a' (by simpa using h) (by simpa using h'))
        obtain ⟨B, hB⟩ := hc 0 t a rfl rfl
        have htail : ∀ (s0' : Acc) (k : Nat) t' s', (t :: ts)[k + 1]? = some t' →
            (s :: ss)[k + 1]? = some s' → Active t' →
            ∃ s'', (s0' :: ss')[k + 1]? = some s'' ∧ ∀ i l, InShape i t'.shape → AccInv s' i l →
              AccInv s'' i (l ++ column (k + 1) t'.logMask [a :: b] i) := by
          intro s0' k t' s' ht' hs' hact
          obtain ⟨s'', h, h'⟩ := h3 k t' s' (by simpa using ht') (by simpa using hs') hact
          refine ⟨s'', by simpa using h, fun i l hi hl => ?_⟩
          have := h' i l hi hl
          simpa [column] using this
        by_cases hact : (t.present && t.trafo) = true
        · obtain ⟨s', e1, e2⟩ := updateStep_spec t (hw t (List.mem_cons_self ..)) a B hB s
          refine ⟨s' :: ss', ?_, by simp [h2], ?_⟩
          · unfold batchStep; rw [if_pos hact, e1]; simp only; rw [h1]
          · intro k t' s'' ht' hs'' hact'
            cases k with
            | zero =>
              simp only [List.getElem?_cons_zero, Option.some.injEq] at ht' hs''
              subst ht' hs''
              refine ⟨s', rfl, fun i l hi hl => ?_⟩
              rw [column_one 0 _ _ a rfl]
              exact e2 i l hi hl
            | succ k => exact htail s' k t' s'' ht' hs'' hact'
        · refine ⟨s :: ss', ?_, by simp [h2], ?_⟩
          · unfold batchStep; rw [if_neg hact, h1]
          · intro k t' s'' ht' hs'' hact'
            cases k with
            | zero =>
              simp only [List.getElem?_cons_zero, Option.some.injEq] at ht'
              subst ht'
              exact absurd (by simp [hact'.1, hact'.2]) hact
            | succ k => exact htail s k t' s'' ht' hs'' hact'

theorem batchLoop_spec (ts : List TensorInfo) (n : Nat) (bs : List (List Arr)) (ss : List Acc)
    (hw : ∀ t ∈ ts, t.WellFormed) (hn : n ≤ bs.length) (hs : ss.length = ts.length)
    (hc : Conforms ts (bs.take n)) :
    ∃ ss', batchLoop ts n bs ss = .ok ss' ∧ ss'.length = ts.length ∧
      ∀ (k : Nat) t s, ts[k]? = some t → ss[k]? = some s → Active t →
        ∃ s', ss'[k]? = some s' ∧ ∀ i l, InShape i t.shape → AccInv s i l →
          AccInv s' i (l ++ column k t.logMask (bs.take n) i) := by
  induction n generalizing bs ss with
  | zero =>
    refine ⟨ss, rfl, hs, fun k t s _ hk _ => ⟨s, hk, fun i l _ hl => ?_⟩⟩
    simpa [column] using hl
  | succ n ih =>
    cases bs with
    | nil => simp at hn
    | cons b bs =>
      rw [List.take_succ_cons] at hc
      obtain ⟨hb1, hb2⟩ := hc b (List.mem_cons_self ..)
      obtain ⟨s1, h1, h2, h3⟩ := batchStep_spec ts b ss hw hb1 hs hb2
      obtain ⟨s2, g1, g2, g3⟩ := ih bs s1 (by simpa using hn) h2
        (fun b' hb' => hc b' (List.mem_cons_of_mem _ hb'))
      refine ⟨s2, by unfold batchLoop; rw [h1]; exact g1, g2, ?_⟩
      intro k t s ht hk hact
      obtain ⟨s', e1, e2⟩ := h3 k t s ht hk hact
      obtain ⟨s'', f1, f2⟩ := g3 k t s' ht e1 hact
      refine ⟨s'', f1, fun i l hi hl => ?_⟩
      have := f2 i _ hi (e2 i l hi hl)
      rw [List.append_assoc, ← column_append] at this
      simpa using this

/-! ### Reduction over axes -/

theorem agreeOff_iff (axes i j : List Nat) (hl : i.length = j.length) :
    agreeOff axes i j = true ↔ ∀ k, k ∉ axes → j[k]? = i[k]? := by
  unfold agreeOff
  rw [List.all_eq_true]
  constructor
  · intro h k hk
    by_cases hlt : k < i.length
    · have := h k (List.mem_range.2 hlt)
      simp only [Bool.or_eq_true, List.contains_iff_mem, beq_iff_eq] at this
      rcases this with h | h
      · exact absurd h hk
      · exact h.symm
    · rw [List.getElem?_eq_none (by omega), List.getElem?_eq_none (by omega)]
  · intro h k _
    simp only [Bool.or_eq_true, List.contains_iff_mem, beq_iff_eq]
    by_cases hk : k ∈ axes
    · exact Or.inl hk
    · exact Or.inr (h k hk).symm

theorem sum_perm {α : Type} (f : α → ℝ) {l1 l2 : List α} (h : l1.Perm l2) :
    (l1.map f).sum / (l1.length : ℝ) = (l2.map f).sum / (l2.length : ℝ) := by
  rw [h.length_eq, (h.map f).sum_eq]

theorem keepDims_length (axes shape : List Nat) : (keepDims axes shape).length = shape.length := by
  simp [keepDims]

theorem bcast_getElem? (s i : List Nat) (h : i.length = s.length) (k : Nat) :
    (bcast s i)[k]? = if s[k]? = some 1 then some 0 else i[k]? := by
  unfold bcast
  rw [List.getElem?_zipWith]
  by_cases hk : k < s.length
  · rw [List.getElem?_eq_getElem hk, List.getElem?_eq_getElem (by omega)]
    simp only [Option.some.injEq]
    split <;> rfl
  · rw [List.getElem?_eq_none (by omega), List.getElem?_eq_none (by omega)]
    simp

theorem InShape.getElem? {i s : List Nat} (h : InShape i s) (k d : Nat) (hd : s[k]? = some d) :
    ∃ x, i[k]? = some x ∧ x < d := by
  induction h generalizing k with
  | nil => simp at hd
  | @cons a b l l' hab hl ih =>
    cases k with
    | zero => simp at hd; subst hd; exact ⟨a, rfl, hab⟩
    | succ k => exact ih k (by simpa using hd)

/-- The mean over the reduction axes, read through broadcasting, is the mean over
the positions that agree off these axes. -/
theorem meanAxes_spec (t : TensorInfo) (ht : t.WellFormed) (f : List Nat → ℝ) :
    ∃ a, meanAxes t.reduceAxes t.shape f = .ok a ∧
      a.shape = keepDims t.reduceAxes t.shape ∧
      ∀ i js b, InShape i t.shape → Averaged t i js → a.at (b :: i) = mean (js.map f) := by
  refine ⟨_, by
    unfold meanAxes
    rw [if_pos]
    simp only [Bool.and_eq_true, List.all_eq_true, decide_eq_true_eq]
    exact ⟨ht.axes.2, ht.axes.1⟩, rfl, ?_⟩
  intro i js b hi hjs
  have hlen : (bcast (keepDims t.reduceAxes t.shape) i).length = t.shape.length := by
    simp [bcast, keepDims_length, hi.length]
  have hb : ∀ k, k ∉ t.reduceAxes → (bcast (keepDims t.reduceAxes t.shape) i)[k]? = i[k]? := by
    intro k hk
    rw [bcast_getElem? _ _ (by rw [keepDims_length, hi.length])]
    split
    · rename_i h
      rw [keepDims, List.getElem?_mapIdx] at h
      cases hd : t.shape[k]? with
      | none => rw [hd] at h; simp at h
      | some d =>
        rw [hd] at h
        have hc : t.reduceAxes.contains k = false := by
          simpa using hk
        simp only [Option.map_some, hc] at h
        obtain ⟨x, hx, hlt⟩ := hi.getElem? k d hd
        simp at h
        rw [hx]; congr 1; omega
    · rfl
  have hperm : ((indices t.shape).filter
      (fun j => agreeOff t.reduceAxes (bcast (keepDims t.reduceAxes t.shape) i) j)).Perm js := by
    rw [List.perm_ext_iff_of_nodup ((nodup_indices _).filter _) hjs.1]
    intro j
    rw [List.mem_filter, mem_indices, hjs.2 j]
    refine and_congr_right fun hj => ?_
    rw [agreeOff_iff _ _ _ (by rw [hlen, hj.length])]
    refine forall_congr' fun k => forall_congr' fun hk => ?_
    rw [hb k hk]
  show ((_ : List ℝ).sum / _ : ℝ) = _
  rw [mean, List.length_map]
  exact sum_perm f hperm

end Verif.Trafo
