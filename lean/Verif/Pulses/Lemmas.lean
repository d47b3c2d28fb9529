/-
Lemmas about the pulse data module.
-/
import Verif.Pulses.Spec
import Mathlib.Algebra.BigOperators.Group.List.Basic

namespace Verif.Pulses
open Verif.Py

set_option linter.unusedSectionVars false
variable {κ K : Type} [DecidableEq κ] [Field K] [LinearOrder K]

/-! ### indices -/

theorem pyIndex_pos {n : Nat} {i : Int} (h1 : 1 ≤ i) (h2 : i ≤ n) :
    pyIndex n (i - 1) = some (i - 1).toNat := by
  unfold pyIndex; rw [if_pos (by omega)]

theorem flatGet_cell {β : Type} (size : Nat) (x : Cell → β) (c : Cell) (h1 : c.1 < size)
    (h2 : c.2.1 < 86) (h3 : c.2.2 < 60) : flatGet size x (flatIndex (idsOf c)) = .ok (x c) := by
  obtain ⟨e, s, d⟩ := c
  simp only at h1 h2 h3
  have hf : flatIndex (idsOf (e, s, d)) = ((e * 86 * 60 + s * 60 + d : Nat) : Int) := by
    simp [flatIndex, idsOf]
  have hb : e * 86 * 60 + s * 60 + d < size * 86 * 60 := by omega
  unfold flatGet
  rw [hf]
  have : pyIndex (size * 86 * 60) ((e * 86 * 60 + s * 60 + d : Nat) : Int) =
      some (e * 86 * 60 + s * 60 + d) := by
    unfold pyIndex
    rw [if_pos ⟨by omega, by exact_mod_cast hb⟩, Int.toNat_natCast]
  rw [this]
  simp only
  congr 2
  refine Prod.ext ?_ (Prod.ext ?_ ?_) <;> simp only <;> omega

/-! ### the dictionary of events -/

theorem eventDict_aux (labels : List κ) (hn : labels.Nodup) (n : Nat) (d : Dict κ Nat)
    (id : κ) : Dict.get? ((labels.zipIdx n).foldl (fun d r => Dict.set d r.1 r.2) d) id =
      if id ∈ labels then some (n + labels.idxOf id) else Dict.get? d id := by
  induction labels generalizing n d with
  | nil => simp
  | cons l ls ih =>
    rw [List.nodup_cons] at hn
    rw [List.zipIdx_cons, List.foldl_cons, ih hn.2, Dict.get?_set]
    by_cases h : l = id
    · subst h
      simp [hn.1]
    · have h' : id ≠ l := Ne.symm h
      simp [h, h']
      by_cases h2 : id ∈ ls
      · simp [h2]; omega
      · simp [h2]

theorem eventDict_get {labels : List κ} (hn : labels.Nodup) {id : κ} (h : id ∈ labels) :
    Dict.get? (eventDict labels) id = some (labels.idxOf id) := by
  rw [eventDict, eventDict_aux labels hn 0 [] id, if_pos h]; simp

/-! ### sums and windows over a growing table -/

theorem chargeIn_append (labels : List κ) (rows : List (Row κ K)) (r : Row κ K) (c : Cell) :
    chargeIn labels (rows ++ [r]) c =
      chargeIn labels rows c + if r.Used ∧ cellOf labels r = c then r.charge else 0 := by
  unfold chargeIn
  rw [List.filter_append, List.map_append, List.sum_append]
  congr 1
  by_cases h : r.Used ∧ cellOf labels r = c <;> simp [h]

theorem timesOf_append (labels : List κ) (rows : List (Row κ K)) (r : Row κ K) (e : Nat) :
    timesOf labels (rows ++ [r]) e =
      timesOf labels rows e ++ if r.Used ∧ (cellOf labels r).1 = e then [r.time] else [] := by
  unfold timesOf
  rw [List.filter_append, List.map_append]
  congr 1
  by_cases h : r.Used ∧ (cellOf labels r).1 = e <;> simp [h]

omit [Field K] in
theorem updateWindow_spec (l : List K) (w : Option K × Option K) (t : K)
    (h1 : IsLeast l w.1) (h2 : IsGreatest l w.2) :
    IsLeast (l ++ [t]) (updateWindow w t).1 ∧ IsGreatest (l ++ [t]) (updateWindow w t).2 := by
  obtain ⟨lo, hi⟩ := w
  constructor
  · cases lo with
    | none =>
      have h1' : l = [] := h1
      subst h1'
      exact ⟨by simp, by simp⟩
    | some m =>
      obtain ⟨hm, hl⟩ : m ∈ l ∧ ∀ t ∈ l, m ≤ t := h1
      simp only [updateWindow]
      split
      · rename_i hlt
        refine ⟨by simp, fun x hx => ?_⟩
        rcases List.mem_append.mp hx with hx | hx
        · exact le_trans (le_of_lt hlt) (hl x hx)
        · rw [List.mem_singleton.mp hx]
      · rename_i hlt
        refine ⟨by simp [hm], fun x hx => ?_⟩
        rcases List.mem_append.mp hx with hx | hx
        · exact hl x hx
        · rw [List.mem_singleton.mp hx]; exact not_lt.mp hlt
  · cases hi with
    | none =>
      have h2' : l = [] := h2
      subst h2'
      exact ⟨by simp, by simp⟩
    | some m =>
      obtain ⟨hm, hl⟩ : m ∈ l ∧ ∀ t ∈ l, t ≤ m := h2
      simp only [updateWindow]
      split
      · rename_i hlt
        refine ⟨by simp, fun x hx => ?_⟩
        rcases List.mem_append.mp hx with hx | hx
        · exact le_trans (hl x hx) (le_of_lt hlt)
        · rw [List.mem_singleton.mp hx]
      · rename_i hlt
        refine ⟨by simp [hm], fun x hx => ?_⟩
        rcases List.mem_append.mp hx with hx | hx
        · exact hl x hx
        · rw [List.mem_singleton.mp hx]; exact not_lt.mp hlt

/-! ### the loop over pulses -/

/-- The output row of row number `k`, before the division. -/
def rawOut (labels : List κ) (quantiles : Bool) (mem : Nat → (K × K × K) × Ids)
    (rows : List (Row κ K)) (rk : Row κ K × Nat) : Pulse K × Ids :=
  if rk.1.Used then
    (⟨rk.1.charge, rk.1.time,
      if quantiles then some (chargeIn labels (rows.take (rk.2 + 1)) (cellOf labels rk.1)) else none⟩,
     idsOf (cellOf labels rk.1))
  else (⟨(mem rk.2).1.1, (mem rk.2).1.2.1, if quantiles then some (mem rk.2).1.2.2 else none⟩,
    (mem rk.2).2)

structure Inv (labels : List κ) (quantiles : Bool) (mem : Nat → (K × K × K) × Ids)
    (rows : List (Row κ K)) (a : Acc K) : Prop where
  charge : ∀ c, a.charge c = chargeIn labels rows c
  out : a.out = rows.zipIdx.map (rawOut labels quantiles mem rows)
  lo : ∀ e, IsLeast (timesOf labels rows e) (a.window e).1
  hi : ∀ e, IsGreatest (timesOf labels rows e) (a.window e).2

theorem inv_init (labels : List κ) (quantiles : Bool) (mem : Nat → (K × K × K) × Ids) :
    Inv labels quantiles mem ([] : List (Row κ K)) Acc.init :=
  ⟨fun _ => rfl, rfl, fun _ => rfl, fun _ => rfl⟩

theorem out_append (labels : List κ) (quantiles : Bool) (mem : Nat → (K × K × K) × Ids)
    (rows : List (Row κ K)) (r : Row κ K) :
    (rows ++ [r]).zipIdx.map (rawOut labels quantiles mem (rows ++ [r])) =
      rows.zipIdx.map (rawOut labels quantiles mem rows) ++
        [rawOut labels quantiles mem (rows ++ [r]) (r, rows.length)] := by
  rw [List.zipIdx_append, List.map_append]
  congr 1
  · refine List.map_congr_left (fun rk hrk => ?_)
    obtain ⟨r', k⟩ := rk
    have hk : k < rows.length := by
      have := List.mem_zipIdx_iff_getElem?.mp hrk
      exact (List.getElem?_eq_some_iff.mp this).1
    unfold rawOut
    simp only
    rw [List.take_append_of_le_length (by omega)]
  · simp

theorem inv_skip {labels : List κ} {quantiles : Bool} {mem : Nat → (K × K × K) × Ids}
    {rows : List (Row κ K)} {a : Acc K} (h : Inv labels quantiles mem rows a) {r : Row κ K}
    (hr : ¬ r.Used) :
    Inv labels quantiles mem (rows ++ [r])
      { a with out := a.out ++ [(⟨(mem rows.length).1.1, (mem rows.length).1.2.1,
            if quantiles then some (mem rows.length).1.2.2 else none⟩, (mem rows.length).2)] } := by
  refine ⟨fun c => ?_, ?_, fun e => ?_, fun e => ?_⟩
  · rw [chargeIn_append, if_neg (c := r.Used ∧ _) (fun h => hr h.1), add_zero]; exact h.charge c
  · rw [out_append, ← h.out]; simp [rawOut, hr]
  · rw [timesOf_append, if_neg (fun h => hr h.1), List.append_nil]; exact h.lo e
  · rw [timesOf_append, if_neg (fun h => hr h.1), List.append_nil]; exact h.hi e

theorem inv_add {labels : List κ} {quantiles : Bool} {mem : Nat → (K × K × K) × Ids}
    {rows : List (Row κ K)} {a : Acc K} (h : Inv labels quantiles mem rows a) {r : Row κ K}
    (hu : r.Used) (hv : r.Valid labels) :
    ∃ a', addPulse quantiles (labels.idxOf r.event) r.string r.dom r.charge r.time a = .ok a' ∧
      Inv labels quantiles mem (rows ++ [r]) a' := by
  obtain ⟨-, h1, h2, h3⟩ := hv hu
  have h4 : r.dom ≤ 60 := hu
  unfold addPulse
  rw [pyIndex_pos h1 (by omega), pyIndex_pos h3 (by omega)]
  refine ⟨_, rfl, fun c => ?_, ?_, fun e => ?_, fun e => ?_⟩
  · rw [chargeIn_append, ← h.charge c]
    simp only [hu, true_and, cellOf]
    by_cases hc : c = (labels.idxOf r.event, (r.string - 1).toNat, (r.dom - 1).toNat)
    · rw [if_pos hc, if_pos hc.symm]
    · rw [if_neg hc, if_neg (Ne.symm hc), add_zero]
  · rw [out_append, ← h.out]
    unfold rawOut
    simp only [if_pos hu]
    refine congrArg (fun z => a.out ++ [z]) (Prod.ext ?_ ?_)
    · simp only
      congr 2
      rw [List.take_of_length_le (by simp), chargeIn_append, if_pos ⟨hu, rfl⟩, ← h.charge]
      rfl
    · simp only [idsOf, cellOf]
      congr 1 <;> omega
  · simp only
    rw [timesOf_append]
    by_cases he : e = labels.idxOf r.event
    · rw [if_pos he, if_pos ⟨hu, he.symm⟩]
      exact (updateWindow_spec _ _ _ (h.lo e) (h.hi e)).1
    · rw [if_neg he, if_neg (fun h => he h.2.symm), List.append_nil]; exact h.lo e
  · simp only
    rw [timesOf_append]
    by_cases he : e = labels.idxOf r.event
    · rw [if_pos he, if_pos ⟨hu, he.symm⟩]
      exact (updateWindow_spec _ _ _ (h.lo e) (h.hi e)).2
    · rw [if_neg he, if_neg (fun h => he h.2.symm), List.append_nil]; exact h.hi e

theorem hdfPulses_inv {labels : List κ} (hn : labels.Nodup) {quantiles : Bool}
    {mem : Nat → (K × K × K) × Ids} (rows : List (Row κ K)) (hv : ∀ r ∈ rows, r.Valid labels)
    (done : List (Row κ K)) (a : Acc K) (h : Inv labels quantiles mem done a) :
    ∃ a', hdfPulses quantiles (eventDict labels) mem rows done.length a = .ok a' ∧
      Inv labels quantiles mem (done ++ rows) a' := by
  induction rows generalizing done a with
  | nil => exact ⟨a, rfl, by simpa using h⟩
  | cons r rows ih =>
    by_cases hu : r.Used
    · obtain ⟨a1, h1, h2⟩ := inv_add h hu (hv r (by simp))
      obtain ⟨a2, h3, h4⟩ := ih (fun r' h => hv r' (by simp [h])) (done ++ [r]) a1 h2
      refine ⟨a2, ?_, by simpa using h4⟩
      have hd : ¬ r.dom > 60 := not_lt.mpr hu
      rw [hdfPulses, if_neg hd, eventDict_get hn (hv r (by simp) hu).1]
      simp only [h1]
      simpa using h3
    · obtain ⟨a2, h3, h4⟩ := ih (fun r' h => hv r' (by simp [h])) (done ++ [r]) _ (inv_skip h hu)
      refine ⟨a2, ?_, by simpa using h4⟩
      have hd : r.dom > 60 := not_le.mp hu
      rw [hdfPulses, if_pos hd]
      simpa using h3

/-! ### division and discarding -/

/-- Inside the array. -/
def CellOk (size : Nat) (c : Cell) : Prop := c.1 < size ∧ c.2.1 < 86 ∧ c.2.2 < 60

omit [Field K] [LinearOrder K] in
theorem cellOk {labels : List κ} {r : Row κ K} (hu : r.Used) (hv : r.Valid labels) :
    CellOk labels.length (cellOf labels r) := by
  obtain ⟨h0, h1, h2, h3⟩ := hv hu
  have h4 : r.dom ≤ 60 := hu
  refine ⟨List.idxOf_lt_length_of_mem h0, ?_, ?_⟩ <;> simp only [cellOf] <;> omega

theorem divide_spec (size : Nat) (charge : Cell → K) {α : Type} (cell : α → Cell) (p : α → Pulse K)
    (l : List α) (h : ∀ x ∈ l, CellOk size (cell x)) :
    divide size charge (l.map (fun x => (p x, idsOf (cell x)))) =
      .ok (l.map (fun x => ({ p x with extra := (p x).extra.map (· / charge (cell x)) },
        idsOf (cell x)))) := by
  induction l with
  | nil => rfl
  | cons x l ih =>
    obtain ⟨h1, h2, h3⟩ := h x (by simp)
    rw [List.map_cons, divide, flatGet_cell size charge _ h1 h2 h3, ih (fun y hy => h y (by simp [hy]))]
    rfl

omit [Field K] [LinearOrder K] in
theorem discard_spec (size : Nat) (x : Cell → Bool) {α : Type} (cell : α → Cell) (p : α → Pulse K)
    (l : List α) (h : ∀ y ∈ l, CellOk size (cell y)) :
    discardExcluded size x (l.map (fun y => (p y, idsOf (cell y)))) =
      .ok ((l.filter (fun y => x (cell y))).map (fun y => (p y, idsOf (cell y)))) := by
  induction l with
  | nil => rfl
  | cons y l ih =>
    obtain ⟨h1, h2, h3⟩ := h y (by simp)
    rw [List.map_cons, discardExcluded, flatGet_cell size x _ h1 h2 h3,
      ih (fun z hz => h z (by simp [hz]))]
    cases hx : x (cell y) <;> simp [hx]

/-! ### exclusions -/

theorem hdfExclusions_spec {labels : List κ} (hn : labels.Nodup) (rows : List (DomRow κ))
    (hv : ∀ r ∈ rows, r.Valid labels) (x : Cell → Bool) :
    ∃ x', hdfExclusions (eventDict labels) rows x = .ok x' ∧
      ∀ c, x' c = true ↔ x c = true ∧ ¬ ExcludedBy labels rows c := by
  induction rows generalizing x with
  | nil => exact ⟨x, rfl, fun c => by simp [ExcludedBy]⟩
  | cons r rows ih =>
    have hv' : ∀ r' ∈ rows, r'.Valid labels := fun r' h => hv r' (by simp [h])
    by_cases hd : r.dom > 60
    · obtain ⟨x', h1, h2⟩ := ih hv' x
      refine ⟨x', by rw [hdfExclusions, if_pos hd]; exact h1, fun c => ?_⟩
      rw [h2]
      have : ¬ r.dom ≤ 60 := not_le.mpr hd
      simp [ExcludedBy, this]
    · have hd' : r.dom ≤ 60 := not_lt.mp hd
      obtain ⟨h3, h4, h5, h6⟩ := hv r (by simp) hd'
      obtain ⟨x', h1, h2⟩ := ih hv' (fun c =>
        if c = (labels.idxOf r.event, (r.string - 1).toNat, (r.dom - 1).toNat) then false else x c)
      refine ⟨x', ?_, fun c => ?_⟩
      · rw [hdfExclusions, if_neg hd, eventDict_get hn h3]
        simp only [pyIndex_pos h4 (show r.string ≤ (86 : Nat) by omega),
          pyIndex_pos h6 (show r.dom ≤ (60 : Nat) by omega)]
        exact h1
      · rw [h2]
        simp only [ExcludedBy, List.mem_cons, exists_eq_or_imp, not_or]
        by_cases hc : c = (labels.idxOf r.event, (r.string - 1).toNat, (r.dom - 1).toNat)
        · subst hc; simp [hd']
        · have : ¬ (r.dom ≤ 60 ∧ labels.idxOf r.event = c.1 ∧ (r.string - 1).toNat = c.2.1 ∧
              (r.dom - 1).toNat = c.2.2) := by
            rintro ⟨-, e1, e2, e3⟩
            exact hc (Prod.ext e1.symm (Prod.ext e2.symm e3.symm))
          rw [if_neg hc]
          exact and_congr_right (fun _ => ⟨fun h => ⟨this, h⟩, fun h => h.2⟩)

omit [Field K] [LinearOrder K] in
theorem hdfTimes_spec {labels : List κ} (hn : labels.Nodup) (mem : Nat → (K × K) × Ids)
    (rows : List (TimeRow κ K)) (hv : ∀ r ∈ rows, r.dom ≤ 60 ∧ r.event ∈ labels) (k : Nat) :
    hdfTimes (eventDict labels) mem rows k =
      .ok (rows.map (fun r => ((r.start, r.stop), ⟨labels.idxOf r.event, r.string - 1, r.dom - 1⟩))) := by
  induction rows generalizing k with
  | nil => rfl
  | cons r rows ih =>
    obtain ⟨h1, h2⟩ := hv r (by simp)
    rw [hdfTimes, if_neg (not_lt.mpr h1), eventDict_get hn h2]
    simp only [ih (fun r' h => hv r' (by simp [h])) (k + 1)]
    rfl

omit [Field K] [LinearOrder K] in
/-- The rows of skipped time exclusions keep what is in memory. -/
theorem hdfTimes_skipped {events : Dict κ Nat} {mem : Nat → (K × K) × Ids} (rows : List (TimeRow κ K)) :
    ∀ (k : Nat) (l : List ((K × K) × Ids)), hdfTimes events mem rows k = .ok l →
    l.length = rows.length ∧ ∀ (i : Nat) (r : TimeRow κ K), rows[i]? = some r → r.dom > 60 →
      l[i]? = some (mem (k + i)) := by
  induction rows with
  | nil => intro k l h; cases h; exact ⟨rfl, by simp⟩
  | cons row rows ih =>
    intro k l h
    rw [hdfTimes] at h
    have key : ∀ (x : (K × K) × Ids) (rest : List ((K × K) × Ids)), hdfTimes events mem rows (k + 1) = .ok rest →
        (row.dom > 60 → x = mem k) → (x :: rest).length = (row :: rows).length ∧
        ∀ (i : Nat) (r : TimeRow κ K), (row :: rows)[i]? = some r → r.dom > 60 →
          (x :: rest)[i]? = some (mem (k + i)) := by
      intro x rest hr hx
      obtain ⟨h1, h2⟩ := ih (k + 1) rest hr
      refine ⟨by simp [h1], fun i r hi hd => ?_⟩
      cases i with
      | zero =>
        simp only [List.getElem?_cons_zero, Option.some.injEq] at hi
        subst hi
        simp [hx hd]
      | succ i =>
        simp only [List.getElem?_cons_succ] at hi ⊢
        rw [h2 i r hi hd]
        congr 2
        omega
    split at h
    · cases hr : hdfTimes events mem rows (k + 1) with
      | error e => simp [hr] at h
      | ok rest =>
        simp only [hr, Except.ok.injEq] at h
        subst h
        exact key _ rest hr (fun _ => rfl)
    · rename_i hd
      cases he : Dict.get? events row.event with
      | none => simp [he] at h
      | some index =>
        cases hr : hdfTimes events mem rows (k + 1) with
        | error e => simp [he, hr] at h
        | ok rest =>
          simp only [he, hr, Except.ok.injEq] at h
          subst h
          exact key _ rest hr (fun hc => absurd hc hd)

/-! ### the frame -/

theorem frameDom_inv {quantiles : Bool} {mem : Nat → (K × K × K) × Ids} (string dom : Int)
    (hs : 1 ≤ string ∧ string ≤ 86 ∧ 1 ≤ dom) (hd : dom ≤ 60) (pulses : List (K × K))
    (done : List (Row Unit K)) (a : Acc K) (h : Inv [()] quantiles mem done a) :
    ∃ a', frameDom quantiles string dom pulses a = .ok a' ∧
      Inv [()] quantiles mem (done ++ pulses.map (fun p => ⟨(), string, dom, p.2, p.1⟩)) a' := by
  induction pulses generalizing done a with
  | nil => exact ⟨a, rfl, by simpa using h⟩
  | cons p pulses ih =>
    obtain ⟨c, t⟩ := p
    obtain ⟨a1, h1, h2⟩ := inv_add (r := ⟨(), string, dom, t, c⟩) h hd
      (fun _ => ⟨by simp, hs.1, hs.2.1, hs.2.2⟩)
    obtain ⟨a2, h3, h4⟩ := ih _ a1 h2
    refine ⟨a2, ?_, by simpa using h4⟩
    have h1' : addPulse quantiles 0 string dom c t a = .ok a1 := h1
    rw [frameDom, h1']
    exact h3

theorem framePulses_inv {quantiles : Bool} {mem : Nat → (K × K × K) × Ids}
    (pulses : List ((Int × Int) × List (K × K)))
    (hv : ∀ p ∈ pulses, p.1.2 ≤ 60 → 1 ≤ p.1.1 ∧ p.1.1 ≤ 86 ∧ 1 ≤ p.1.2)
    (done : List (Row Unit K)) (a : Acc K) (h : Inv [()] quantiles mem done a) :
    ∃ a', framePulses quantiles pulses a = .ok a' ∧
      Inv [()] quantiles mem (done ++ frameRows pulses) a' := by
  induction pulses generalizing done a with
  | nil => exact ⟨a, rfl, by simpa [frameRows] using h⟩
  | cons p pulses ih =>
    obtain ⟨⟨string, dom⟩, ps⟩ := p
    have hv' : ∀ p ∈ pulses, p.1.2 ≤ 60 → 1 ≤ p.1.1 ∧ p.1.1 ≤ 86 ∧ 1 ≤ p.1.2 :=
      fun p h => hv p (by simp [h])
    by_cases hd : dom > 60
    · obtain ⟨a2, h3, h4⟩ := ih hv' done a h
      refine ⟨a2, by rw [framePulses, if_pos hd]; exact h3, ?_⟩
      have : ¬ dom ≤ 60 := not_le.mpr hd
      simpa [frameRows, this] using h4
    · have hd' : dom ≤ 60 := not_lt.mp hd
      obtain ⟨a1, h1, h2⟩ := frameDom_inv string dom (hv ((string, dom), ps) (by simp) hd') hd' ps done a h
      obtain ⟨a2, h3, h4⟩ := ih hv' _ a1 h2
      refine ⟨a2, by rw [framePulses, if_neg hd, h1]; exact h3, ?_⟩
      simpa [frameRows, hd'] using h4

theorem frameExclusions_spec (rows : List (Int × Int))
    (hv : ∀ r ∈ rows, r.2 ≤ 60 → 1 ≤ r.1 ∧ r.1 ≤ 86 ∧ 1 ≤ r.2) (x : Cell → Bool) :
    ∃ x', frameExclusions rows x = .ok x' ∧ ∀ c, x' c = true ↔
      x c = true ∧ ¬ ExcludedBy [()] (rows.map (fun r => ⟨(), r.1, r.2⟩)) c := by
  induction rows generalizing x with
  | nil => exact ⟨x, rfl, fun c => by simp [ExcludedBy]⟩
  | cons r rows ih =>
    obtain ⟨string, dom⟩ := r
    have hv' : ∀ r ∈ rows, r.2 ≤ 60 → 1 ≤ r.1 ∧ r.1 ≤ 86 ∧ 1 ≤ r.2 := fun r h => hv r (by simp [h])
    by_cases hd : dom > 60
    · obtain ⟨x', h1, h2⟩ := ih hv' x
      refine ⟨x', by rw [frameExclusions, if_pos hd]; exact h1, fun c => ?_⟩
      rw [h2]
      have : ¬ dom ≤ 60 := not_le.mpr hd
      simp only [ExcludedBy, List.map_cons, List.mem_cons, exists_eq_or_imp, not_or, this, false_and,
        not_false_eq_true, true_and]
    · have hd' : dom ≤ 60 := not_lt.mp hd
      obtain ⟨h4, h5, h6⟩ := hv (string, dom) (by simp) hd'
      simp only at h4 h5 h6
      obtain ⟨x', h1, h2⟩ := ih hv' (fun c =>
        if c = (0, (string - 1).toNat, (dom - 1).toNat) then false else x c)
      refine ⟨x', ?_, fun c => ?_⟩
      · rw [frameExclusions, if_neg hd]
        simp only [pyIndex_pos h4 (show string ≤ (86 : Nat) by omega),
          pyIndex_pos h6 (show dom ≤ (60 : Nat) by omega)]
        exact h1
      · rw [h2]
        simp only [ExcludedBy, List.map_cons, List.mem_cons, exists_eq_or_imp, not_or]
        by_cases hc : c = (0, (string - 1).toNat, (dom - 1).toNat)
        · subst hc; simp [hd']
        · have : ¬ (dom ≤ 60 ∧ [()].idxOf () = c.1 ∧ (string - 1).toNat = c.2.1 ∧
              (dom - 1).toNat = c.2.2) := by
            rintro ⟨-, e1, e2, e3⟩
            exact hc (Prod.ext e1.symm (Prod.ext e2.symm e3.symm))
          rw [if_neg hc]
          exact and_congr_right (fun _ => ⟨fun h => ⟨this, h⟩, fun h => h.2⟩)

end Verif.Pulses
