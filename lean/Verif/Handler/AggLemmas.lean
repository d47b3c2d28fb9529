/-
Lemmas for C19.
-/
import Verif.Handler.AggSpec
import Verif.Handler.Lemmas
import Mathlib.Data.List.Forall2

namespace Verif.Handler
open Verif.Py

variable {V : Type}

/-- The part of an event for tensor `i`. -/
def partAt (i : Nat) (ev : Event V) : Part V := (ev[i]?).getD .missing

/-- The array of a part; ids are zero. -/
def arrOf : Part V → Arr V
  | .vals l => { rows := l }
  | .idxs l => { rows := l.map (fun v => ⟨0, v⟩) }
  | _ => { rows := [] }

/-- The entry of a batch for an event at position `k`. -/
def mkItem (k : Nat) : Part V → Item V
  | .row r => .row r
  | .vals l => .arr { rows := l }
  | .idxs l => .arr { rows := l.map (fun v => ⟨k, v⟩) }
  | .missing => .dflt

/-- An event fits the tensors. -/
structure EvOk (ts : List TInfo) (exist : Nat → Bool) (ev : Event V) : Prop where
  missing : ∀ (i : Nat) t, ts[i]? = some t → exist i = false → ev[i]? = some Part.missing
  plain : ∀ (i : Nat) t, ts[i]? = some t → t.kind = .plain → exist i = true →
    ∃ r, ev[i]? = some (Part.row r)
  vector : ∀ (i vi : Nat) t tv, ts[i]? = some t → t.kind = .index tv.name → ts[vi]? = some tv →
    exist i = exist vi ∧ (exist i = true → ∃ v x, ev[vi]? = some (Part.vals v) ∧
      ev[i]? = some (Part.idxs x) ∧ v.length = x.length)

theorem Describes.evOk {ts : List TInfo} {exist : Nat → Bool} {data : List (Option (Arr V))}
    {evs : List (Event V)} (h : Describes ts exist data evs) : ∀ ev ∈ evs, EvOk ts exist ev := by
  intro ev hev
  obtain ⟨e, he⟩ := List.getElem?_of_mem hev
  constructor
  · intro i t ht hx
    exact (h.missing i t ht hx).2 ev hev
  · intro i t ht hk hx
    obtain ⟨a, _, _, _, ha⟩ := h.plain i t ht hk hx
    obtain ⟨r, _, hr⟩ := ha e ev he
    exact ⟨r, hr⟩
  · intro i vi t tv ht hk htv
    obtain ⟨h1, h2⟩ := h.vector i vi t tv ht hk htv
    refine ⟨h1, fun hx => ?_⟩
    obtain ⟨v, x, _, _, _, ha⟩ := h2 hx
    obtain ⟨h3, h4⟩ := ha e ev he
    exact ⟨_, _, h3, h4, by simp⟩

/-! ### names -/

theorem indexOf_ok {ts : List TInfo} (hn : (ts.map TInfo.name).Nodup) {vi : Nat} {tv : TInfo}
    (h : ts[vi]? = some tv) : indexOf ts tv.name = .ok vi := by
  unfold indexOf
  have : ts.findIdx? (fun t => t.name == tv.name) = some vi := by
    rw [List.findIdx?_eq_some_iff_getElem]
    obtain ⟨hlt, he⟩ := List.getElem?_eq_some_iff.1 h
    refine ⟨hlt, by simp [he], fun j hj => ?_⟩
    simp only [beq_iff_eq]
    intro hc
    have h2 := (List.pairwise_iff_getElem.1 hn) j vi (by simp; omega) (by simpa using hlt) hj
    simp only [List.getElem_map] at h2
    rw [he] at h2
    exact h2 hc
  rw [this]

/-! ### filling -/

/-- What the step for tensor `i` appends to column `j`. -/
def contrib (ts : List TInfo) (c : Chunk V) (i : Nat) (t : TInfo) (j : Nat) :
    List (Option (Arr V)) :=
  match t.kind with
  | .plain => if j = i then [(c.data[i]?).join] else []
  | .value => []
  | .index ref =>
    match indexOf ts ref with
    | .error _ => []
    | .ok vi =>
      match (c.data[vi]?).join, (c.data[i]?).join with
      | some v, some x =>
        match batchToEvent v x c.num with
        | .error _ => []
        | .ok (vs, xs) => if j = vi then vs.map some else if j = i then xs.map some else []
      | _, _ => if j = vi then [none] else if j = i then [none] else []

theorem modify_get {α : Type} (l : List α) (i j : Nat) (f : α → α) :
    (l.modify i f)[j]? = if j = i then l[j]?.map f else l[j]? := by
  rw [List.getElem?_modify]
  by_cases h : j = i
  · subst h; simp
  · rw [if_neg h]
    have : ¬ i = j := fun e => h e.symm
    cases l[j]? <;> simp [this]

theorem modify_nil {α : Type} (l : Option (List α)) : l.map (· ++ ([] : List α)) = l := by
  cases l <;> simp

theorem fillOne_spec {ts : List TInfo} (hts : TensorsOk ts) {exist : Nat → Bool} {c : Chunk V}
    {evs : List (Event V)} (hc : Describes ts exist c.data evs) (hnum : c.num = evs.length)
    (s : Fill V) (i : Nat) (t : TInfo) (ht : ts[i]? = some t) :
    ∃ s', fillOne ts c s i t = .ok s' ∧
      s'.exist = (if exist i then s.exist else s.exist.set i false) ∧
      ∀ j : Nat, s'.events[j]? = s.events[j]?.map (· ++ contrib ts c i t j) := by
  have hi : i < ts.length := (List.getElem?_eq_some_iff.1 ht).1
  have hget : ∃ d, c.data[i]? = some d := ⟨_, List.getElem?_eq_getElem (by rw [hc.length]; exact hi)⟩
  unfold fillOne contrib
  cases hk : t.kind with
  | plain =>
    cases hx : exist i with
    | true =>
      obtain ⟨a, ha, _⟩ := hc.plain i t ht hk hx
      rw [getAt, ha]
      refine ⟨_, rfl, rfl, fun j => ?_⟩
      rw [modify_get]
      by_cases hj : j = i
      · simp [hj]
      · simp [hj]
    | false =>
      obtain ⟨ha, _⟩ := hc.missing i t ht hx
      rw [getAt, ha]
      refine ⟨_, rfl, rfl, fun j => ?_⟩
      rw [modify_get]
      by_cases hj : j = i
      · simp [hj]
      · simp [hj]
  | value =>
    cases hx : exist i with
    | true =>
      obtain ⟨i', t', ht', hk', -⟩ := hts.value i t ht hk
      obtain ⟨h1, h2⟩ := hc.vector i' i t' t ht' hk' ht
      obtain ⟨v, x, hv, -⟩ := h2 (by rw [h1, hx])
      rw [getAt, hv]
      exact ⟨_, rfl, rfl, fun j => (modify_nil _).symm⟩
    | false =>
      obtain ⟨ha, _⟩ := hc.missing i t ht hx
      rw [getAt, ha]
      exact ⟨_, rfl, rfl, fun j => (modify_nil _).symm⟩
  | index ref =>
    obtain ⟨vi, tv, htv, hname, hkv⟩ := hts.index i t ref ht hk
    subst hname
    have hne : vi ≠ i := by
      intro e
      rw [e, ht, Option.some.injEq] at htv
      rw [← htv, hk] at hkv
      cases hkv
    obtain ⟨h1, h2⟩ := hc.vector i vi t tv ht hk htv
    cases hx : exist i with
    | true =>
      obtain ⟨v, x, hv, hxx, hok, -⟩ := h2 hx
      simp only [getAt, hxx, indexOf_ok hts.names htv, hv, Option.join_some]
      rw [hnum, batchToEvent_spec v x _ hok.isArray hok.length]
      refine ⟨_, rfl, rfl, fun j => ?_⟩
      simp only [modify_get]
      by_cases hj : j = vi
      · subst hj
        simp [hne]
      · by_cases hji : j = i
        · simp [hji, hne.symm]
        · simp [hj, hji]
    | false =>
      obtain ⟨ha, _⟩ := hc.missing i t ht hx
      obtain ⟨hb, _⟩ := hc.missing vi tv htv (by rw [← h1, hx])
      simp only [getAt, ha, indexOf_ok hts.names htv, hb, Option.join_some]
      refine ⟨_, rfl, rfl, fun j => ?_⟩
      simp only [modify_get]
      by_cases hj : j = vi
      · subst hj
        simp [hne]
      · by_cases hji : j = i
        · simp [hji, hne.symm]
        · simp [hj, hji]

theorem fillLoop_spec {ts : List TInfo} (hts : TensorsOk ts) {exist : Nat → Bool} {c : Chunk V}
    {evs : List (Event V)} (hc : Describes ts exist c.data evs) (hnum : c.num = evs.length)
    (rest : List TInfo) (k : Nat) (hrest : ∀ i t, rest[i]? = some t → ts[k + i]? = some t)
    (s : Fill V) (hl : s.exist.length = ts.length) :
    ∃ s', fillLoop ts c rest k s = .ok s' ∧ s'.exist.length = ts.length ∧
      (∀ j : Nat, s'.exist[j]? = s.exist[j]?.map
        (fun b => b && (exist j || !(decide (k ≤ j ∧ j < k + rest.length))))) ∧
      ∀ j : Nat, s'.events[j]? = s.events[j]?.map
        (· ++ (rest.zipIdx k).flatMap (fun ti => contrib ts c ti.2 ti.1 j)) := by
  induction rest generalizing k s with
  | nil =>
    refine ⟨s, rfl, hl, fun j => ?_, fun j => ?_⟩
    · have : ¬ (k ≤ j ∧ j < k + ([] : List TInfo).length) := by
        rw [List.length_nil]; omega
      rw [decide_eq_false this]
      cases s.exist[j]? <;> simp
    · simp
  | cons t rest ih =>
    obtain ⟨s1, h1, h2, h3⟩ := fillOne_spec hts hc hnum s k t (by simpa using hrest 0 t rfl)
    have hl1 : s1.exist.length = ts.length := by
      rw [h2]; split <;> simp [hl]
    obtain ⟨s2, h4, h4', h5, h6⟩ := ih (k + 1)
      (fun i t' h => by have := hrest (i + 1) t' (by simpa using h); rwa [Nat.add_right_comm, Nat.add_assoc]) s1 hl1
    refine ⟨s2, by simp only [fillLoop, h1, h4], h4', fun j => ?_, fun j => ?_⟩
    · rw [h5, h2]
      cases hx : exist k with
      | true =>
        simp only [if_true]
        by_cases hj : j = k
        · subst hj; simp [hx]
        · congr 1; funext b
          have : (k + 1 ≤ j ∧ j < k + 1 + rest.length) ↔ (k ≤ j ∧ j < k + (t :: rest).length) := by
            rw [List.length_cons]; omega
          simp only [this]
      | false =>
        simp only [Bool.false_eq_true, if_false]
        rw [List.getElem?_set]
        by_cases hj : k = j
        · subst hj
          simp only [if_true, hx]
          by_cases hlt : k < s.exist.length
          · rw [if_pos hlt, List.getElem?_eq_getElem hlt]
            simp
          · rw [if_neg hlt, List.getElem?_eq_none (by omega)]
            simp
        · rw [if_neg hj]
          congr 1; funext b
          have : (k + 1 ≤ j ∧ j < k + 1 + rest.length) ↔ (k ≤ j ∧ j < k + (t :: rest).length) := by
            rw [List.length_cons]; omega
          simp only [this]
    · rw [h6, h3]
      cases s.events[j]? with
      | none => rfl
      | some l => simp [List.zipIdx_cons]

theorem flatMap_single {α β : Type} (l : List α) (k i : Nat) (a : α) (f : α × Nat → List β)
    (hi : l[i]? = some a) (h : ∀ (j : Nat) b, l[j]? = some b → j ≠ i → f (b, k + j) = []) :
    (l.zipIdx k).flatMap f = f (a, k + i) := by
  induction l generalizing k i with
  | nil => simp at hi
  | cons b l ih =>
    rw [List.zipIdx_cons, List.flatMap_cons]
    cases i with
    | zero =>
      simp only [List.getElem?_cons_zero, Option.some.injEq] at hi
      subst hi
      have : (l.zipIdx (k + 1)).flatMap f = [] := by
        rw [List.flatMap_eq_nil_iff]
        rintro ⟨x, j⟩ hx
        rw [List.mem_zipIdx_iff_le_and_getElem?_sub] at hx
        have := h (j - (k + 1) + 1) x (by simpa using hx.2) (by omega)
        rwa [show k + (j - (k + 1) + 1) = j by omega] at this
      rw [this, List.append_nil]; rfl
    | succ i =>
      have h0 := h 0 b rfl (by omega)
      rw [Nat.add_zero] at h0
      rw [h0, List.nil_append, ih (k + 1) i (by simpa using hi)]
      · congr 2; omega
      · intro j c hc hne
        have := h (j + 1) c (by simpa using hc) (by omega)
        rwa [show k + (j + 1) = k + 1 + j by omega] at this

/-- The column of tensor `j` holds the events `evs`. -/
def ColOk (t : TInfo) (j : Nat) (col : List (Option (Arr V))) (evs : List (Event V)) : Prop :=
  match t.kind with
  | .plain => ∃ rows, concatRows col = .ok rows ∧ rows.map Part.row = evs.map (partAt j)
  | .value => col = evs.map (fun ev => some (arrOf (partAt j ev)))
  | .index _ => col.map (Option.map (setId 0)) = evs.map (fun ev => some (arrOf (partAt j ev)))

theorem concatRows_append (a b : List (Option (Arr V))) (ra rb : List (Row V))
    (ha : concatRows a = .ok ra) (hb : concatRows b = .ok rb) :
    concatRows (a ++ b) = .ok (ra ++ rb) := by
  induction a generalizing ra with
  | nil => cases ha; exact hb
  | cons x a ih =>
    cases x with
    | none => cases ha
    | some x =>
      unfold concatRows at ha
      split at ha
      · cases ha
      · rename_i r hr
        cases ha
        rw [List.cons_append, concatRows, ih r hr]
        simp

theorem ColOk.append {t : TInfo} {j : Nat} {c1 c2 : List (Option (Arr V))} {e1 e2 : List (Event V)}
    (h1 : ColOk t j c1 e1) (h2 : ColOk t j c2 e2) : ColOk t j (c1 ++ c2) (e1 ++ e2) := by
  unfold ColOk at *
  cases hk : t.kind with
  | plain =>
    rw [hk] at h1 h2
    obtain ⟨r1, a1, b1⟩ := h1
    obtain ⟨r2, a2, b2⟩ := h2
    exact ⟨r1 ++ r2, concatRows_append _ _ _ _ a1 a2, by rw [List.map_append, b1, b2, List.map_append]⟩
  | value =>
    rw [hk] at h1 h2
    simp only at h1 h2 ⊢
    rw [h1, h2, List.map_append]
  | index r =>
    rw [hk] at h1 h2
    simp only at h1 h2 ⊢
    rw [List.map_append, h1, h2, List.map_append]

theorem range_map_ext {α : Type} (f : Nat → α) (evs : List (Event V)) (g : Event V → α)
    (h : ∀ (e : Nat) ev, evs[e]? = some ev → f e = g ev) :
    (List.range evs.length).map f = evs.map g := by
  refine List.ext_getElem? fun e => ?_
  rw [List.getElem?_map, List.getElem?_map]
  by_cases he : e < evs.length
  · rw [List.getElem?_eq_getElem he, List.getElem?_eq_getElem (by simpa using he)]
    simp [h e _ (List.getElem?_eq_getElem he)]
  · rw [List.getElem?_eq_none (l := evs) (by omega), List.getElem?_eq_none (by rw [List.length_range]; omega)]
    rfl

/-- What one file appends to column `j` in total. -/
theorem contrib_total {ts : List TInfo} (hts : TensorsOk ts) {exist : Nat → Bool} {c : Chunk V}
    {evs : List (Event V)} (hc : Describes ts exist c.data evs) (hnum : c.num = evs.length)
    (j : Nat) (tj : TInfo) (htj : ts[j]? = some tj) (hx : exist j = true) :
    ColOk tj j ((ts.zipIdx 0).flatMap (fun ti => contrib ts c ti.2 ti.1 j)) evs := by
  -- the step of an index tensor touches only its own column and that of its values
  have hidx : ∀ (i : Nat) t ref, ts[i]? = some t → t.kind = .index ref → i ≠ j → tj.name ≠ ref →
      contrib ts c i t j = [] := by
    intro i t ref ht hk hij hr
    obtain ⟨vi, tv, htv, hname, _⟩ := hts.index i t ref ht hk
    have hvj : j ≠ vi := by
      intro e
      rw [e, htv, Option.some.injEq] at htj
      exact hr (by rw [← htj]; exact hname)
    unfold contrib
    rw [hk, ← hname]
    simp only [indexOf_ok hts.names htv, if_neg hvj, if_neg (fun e => hij e.symm : ¬ j = i)]
    split
    · split <;> rfl
    · rfl
  cases hk : tj.kind with
  | plain =>
    rw [flatMap_single ts 0 j tj _ htj]
    · obtain ⟨a, ha, _, hlen, hrow⟩ := hc.plain j tj htj hk hx
      unfold ColOk contrib
      simp only [hk, Nat.zero_add, if_true, ha, Option.join_some]
      refine ⟨a.rows ++ [], rfl, ?_⟩
      rw [List.append_nil]
      refine List.ext_getElem? fun e => ?_
      rw [List.getElem?_map, List.getElem?_map]
      by_cases he : e < evs.length
      · obtain ⟨r, h1, h2⟩ := hrow e _ (List.getElem?_eq_getElem he)
        rw [h1, List.getElem?_eq_getElem he]
        simp [partAt, h2]
      · rw [List.getElem?_eq_none (by omega), List.getElem?_eq_none (by omega)]
        rfl
    · intro i t ht hij
      cases hki : t.kind with
      | plain => simp [contrib, hki, hij.symm]
      | value => simp [contrib, hki]
      | index ref =>
        refine hidx _ t ref (by simpa using ht) hki (by omega) ?_
        intro e
        obtain ⟨vi, tv, htv, hname, hkv⟩ := hts.index i t ref ht hki
        have h1 := indexOf_ok hts.names htv
        have h2 := indexOf_ok hts.names htj
        rw [hname] at h1
        rw [e, h1] at h2
        cases h2
        rw [htv] at htj
        cases htj
        rw [hkv] at hk; cases hk
  | value =>
    obtain ⟨i, t, ht, hki, huniq⟩ := hts.value j tj htj hk
    have hij : i ≠ j := by
      intro e
      rw [e, htj] at ht
      cases ht
      rw [hk] at hki; cases hki
    rw [flatMap_single ts 0 i t _ ht]
    · obtain ⟨h1, h2⟩ := hc.vector i j t tj ht hki htj
      obtain ⟨v, x, hv, hxx, hok, hrow⟩ := h2 (by rw [h1, hx])
      unfold ColOk contrib
      simp only [hk, Nat.zero_add, hki, indexOf_ok hts.names htj, hv, hxx, Option.join_some]
      rw [hnum, batchToEvent_spec v x _ hok.isArray hok.length]
      simp only [if_true, List.map_map]
      refine range_map_ext _ _ _ fun e ev he => ?_
      simp [partAt, (hrow e ev he).1, arrOf]
    · intro i' t' ht' hne
      cases hki' : t'.kind with
      | plain =>
        have : j ≠ i' := by
          intro e
          rw [← e, htj] at ht'
          cases ht'
          rw [hk] at hki'; cases hki'
        simp [contrib, hki', this]
      | value => simp [contrib, hki']
      | index ref =>
        refine hidx _ t' ref (by simpa using ht') hki' ?_ ?_
        · intro e
          have e : i' = j := by simpa using e
          rw [e, htj] at ht'
          cases ht'
          rw [hk] at hki'; cases hki'
        · intro e
          exact hne (huniq i' t' ht' (by rw [hki', e]))
  | index ref =>
    obtain ⟨vi, tv, htv, hname, hkv⟩ := hts.index j tj ref htj hk
    subst hname
    have hne : j ≠ vi := by
      intro e
      rw [← e, htj] at htv
      cases htv
      rw [hk] at hkv; cases hkv
    rw [flatMap_single ts 0 j tj _ htj]
    · obtain ⟨h1, h2⟩ := hc.vector j vi tj tv htj hk htv
      obtain ⟨v, x, hv, hxx, hok, hrow⟩ := h2 hx
      unfold ColOk contrib
      simp only [hk, Nat.zero_add, indexOf_ok hts.names htv, hv, hxx, Option.join_some]
      rw [hnum, batchToEvent_spec v x _ hok.isArray hok.length]
      simp only [if_neg hne, if_true, List.map_map]
      refine range_map_ext _ _ _ fun e ev he => ?_
      simp [partAt, (hrow e ev he).2, arrOf, setId]
    · intro i' t' ht' hij
      cases hki' : t'.kind with
      | plain => simp [contrib, hki', hij.symm]
      | value => simp [contrib, hki']
      | index ref' =>
        refine hidx _ t' ref' (by simpa using ht') hki' (by omega) ?_
        intro e
        obtain ⟨vi', tv', htv', hname', hkv'⟩ := hts.index i' t' ref' ht' hki'
        have h1 := indexOf_ok hts.names htv'
        have h2 := indexOf_ok hts.names htj
        rw [hname'] at h1
        rw [e, h1] at h2
        cases h2
        rw [htv'] at htj
        cases htj
        rw [hkv'] at hk; cases hk

/-- The lists of a round hold the events `evs`. -/
structure FillOk (ts : List TInfo) (exist : Nat → Bool) (f : Fill V) (evs : List (Event V)) :
    Prop where
  flags : ∀ (j : Nat) t, ts[j]? = some t → f.exist[j]? = some (exist j)
  col : ∀ (j : Nat) t, ts[j]? = some t → ∃ col, f.events[j]? = some col ∧
    (exist j = true → ColOk t j col evs)

/-- As `FillOk`, before any file (`started = false`) the flags are all true. -/
theorem fillAll_spec {ts : List TInfo} (hts : TensorsOk ts) {exist : Nat → Bool}
    (chunks : List (Chunk V × List (Event V)))
    (hc : ∀ ce ∈ chunks, Describes ts exist ce.1.data ce.2 ∧ ce.1.num = ce.2.length)
    (s : Fill V) (evs : List (Event V)) (hl : s.exist.length = ts.length)
    (hex : ∀ (j : Nat) t, ts[j]? = some t → s.exist[j]? = some true ∨ s.exist[j]? = some (exist j))
    (hcol : ∀ (j : Nat) t, ts[j]? = some t → ∃ col, s.events[j]? = some col ∧
      (exist j = true → ColOk t j col evs)) :
    ∃ f, fillAll ts (chunks.map (·.1)) s = .ok f ∧
      (∀ (j : Nat) t, ts[j]? = some t → f.exist[j]? = some (exist j) ∨
        (chunks = [] ∧ f.exist[j]? = s.exist[j]?)) ∧
      (∀ (j : Nat) t, ts[j]? = some t → ∃ col, f.events[j]? = some col ∧
        (exist j = true → ColOk t j col (evs ++ chunks.flatMap (·.2)))) := by
  induction chunks generalizing s evs with
  | nil => exact ⟨s, rfl, fun j t ht => Or.inr ⟨rfl, rfl⟩, fun j t ht => by simpa using hcol j t ht⟩
  | cons ce chunks ih =>
    obtain ⟨hd, hn⟩ := hc ce (by simp)
    obtain ⟨s1, h1, h2, h3, h4⟩ := fillLoop_spec hts hd hn ts 0 (fun i t h => by simpa using h) s hl
    have hex1 : ∀ (j : Nat) t, ts[j]? = some t → s1.exist[j]? = some (exist j) := by
      intro j t ht
      have hj : j < ts.length := (List.getElem?_eq_some_iff.1 ht).1
      rw [h3]
      rcases hex j t ht with h | h
      · rw [h]; simp [hj]
      · rw [h]; simp [hj]
    obtain ⟨f, h5, h6, h7⟩ := ih (fun x hx => hc x (by simp [hx])) s1 (evs ++ ce.2) h2
      (fun j t ht => Or.inr (hex1 j t ht))
      (fun j t ht => by
        obtain ⟨col, a, b⟩ := hcol j t ht
        rw [h4, a]
        exact ⟨_, rfl, fun hx => (b hx).append (contrib_total hts hd hn j t ht hx)⟩)
    refine ⟨f, by simp only [List.map_cons, fillAll, h1, h5], fun j t ht => Or.inl ?_, fun j t ht => ?_⟩
    · rcases h6 j t ht with h | ⟨-, h⟩
      · exact h
      · rw [h, hex1 j t ht]
    · obtain ⟨col, a, b⟩ := h7 j t ht
      exact ⟨col, a, fun hx => by simpa [List.append_assoc] using b hx⟩

theorem round_fill {ts : List TInfo} (hts : TensorsOk ts) {exist : Nat → Bool}
    (chunks : List (Chunk V × List (Event V))) (hne : chunks ≠ [])
    (hc : ∀ ce ∈ chunks, Describes ts exist ce.1.data ce.2 ∧ ce.1.num = ce.2.length) :
    ∃ f, fillAll ts (chunks.map (·.1))
        { exist := ts.map (fun _ => true), events := ts.map (fun _ => []) } = .ok f ∧
      FillOk ts exist f (chunks.flatMap (·.2)) := by
  obtain ⟨f, h1, h2, h3⟩ := fillAll_spec hts chunks hc
    { exist := ts.map (fun _ => true), events := ts.map (fun _ => []) } []
    (by simp) (fun j t ht => Or.inl (by rw [List.getElem?_map, ht]; rfl))
    (fun j t ht => ⟨[], by rw [List.getElem?_map, ht]; rfl, fun hx => by
      unfold ColOk
      split
      · exact ⟨[], rfl, rfl⟩
      · rfl
      · rfl⟩)
  refine ⟨f, h1, ⟨fun j t ht => ?_, fun j t ht => by simpa using h3 j t ht⟩⟩
  rcases h2 j t ht with h | ⟨h, -⟩
  · exact h
  · exact absurd h hne

/-! ### the pending batch -/

/-- The pending batch with the events `g`. -/
def mkBatch (ts : List TInfo) (g : List (Event V)) : List (List (Item V)) :=
  (ts.zipIdx 0).map (fun ti => (g.zipIdx 0).map (fun ek => mkItem ek.2 (partAt ti.2 ek.1)))

theorem mkBatch_nil (ts : List TInfo) : mkBatch ts ([] : List (Event V)) = emptyBatch ts := by
  unfold mkBatch emptyBatch
  refine List.ext_getElem? fun i => ?_
  simp

theorem addItem_spec {ts : List TInfo} (hts : TensorsOk ts) {exist : Nat → Bool} {evs : List (Event V)}
    {j : Nat} {t : TInfo} (ht : ts[j]? = some t) {col : List (Option (Arr V))}
    (hcol : exist j = true → ColOk t j col evs) {index : Nat} {ev : Event V}
    (hev : evs[index]? = some ev) (hok : EvOk ts exist ev) (size : Nat) :
    addItem t (exist j) col index size = .ok (mkItem size (partAt j ev)) := by
  unfold addItem
  cases hx : exist j with
  | false =>
    simp only [Bool.false_eq_true, if_false]
    rw [partAt, hok.missing j t ht hx]
    rfl
  | true =>
    simp only [if_true]
    have hcol := hcol hx
    unfold ColOk at hcol
    cases hk : t.kind with
    | plain =>
      rw [hk] at hcol
      obtain ⟨rows, h1, h2⟩ := hcol
      obtain ⟨r, hr⟩ := hok.plain j t ht hk hx
      have h3 := congrArg (fun l => l[index]?) h2
      simp only [List.getElem?_map, hev, Option.map_some] at h3
      simp only [h1]
      cases hrow : rows[index]? with
      | none => rw [hrow] at h3; cases h3
      | some r' =>
        rw [hrow] at h3
        simp only [Option.map_some, Option.some.injEq] at h3
        rw [← h3]
        rfl
    | value =>
      rw [hk] at hcol
      simp only at hcol
      obtain ⟨i, ti, hti, hki, -⟩ := hts.value j t ht hk
      obtain ⟨h1, h2⟩ := hok.vector i j ti t hti hki ht
      obtain ⟨v, x, hv, -⟩ := h2 (by rw [h1, hx])
      rw [hcol, List.getElem?_map, hev]
      simp only [Option.map_some, partAt, hv, Option.getD_some, arrOf, mkItem]
    | index ref =>
      rw [hk] at hcol
      simp only at hcol
      obtain ⟨vi, tv, htv, hname, -⟩ := hts.index j t ref ht hk
      obtain ⟨-, h2⟩ := hok.vector j vi t tv ht (by rw [hk, hname]) htv
      obtain ⟨v, x, -, hx', -⟩ := h2 hx
      have h3 := congrArg (fun l => l[index]?) hcol
      simp only [List.getElem?_map, hev, Option.map_some, partAt, hx', Option.getD_some, arrOf] at h3
      cases hc : col[index]? with
      | none => rw [hc] at h3; cases h3
      | some a =>
        rw [hc] at h3
        cases a with
        | none => cases h3
        | some a =>
          simp only [Option.map_some, Option.some.injEq, setId, Arr.mk.injEq] at h3
          simp only [partAt, hx', Option.getD_some, mkItem, setId]
          congr 1
          have h4 := congrArg (List.map (fun r : Row V => ({ r with id := (size : Int) } : Row V))) h3.1
          simp only [List.map_map, Function.comp_def] at h4
          rw [h4]
          cases a
          simp_all

theorem addLoop_spec (index size : Nat) (rest : List TInfo) (k : Nat) (es : List Bool)
    (cols : List (List (Option (Arr V)))) (bs : Nat → List (Item V)) (item : Nat → Item V)
    (h : ∀ (i : Nat) t, rest[i]? = some t → ∃ e col, es[i]? = some e ∧ cols[i]? = some col ∧
      addItem t e col index size = .ok (item (k + i))) :
    addLoop index size rest es cols ((rest.zipIdx k).map (fun ti => bs ti.2)) =
      .ok ((rest.zipIdx k).map (fun ti => bs ti.2 ++ [item ti.2])) := by
  induction rest generalizing k es cols with
  | nil => simp [addLoop]
  | cons t rest ih =>
    obtain ⟨e, col, h1, h2, h3⟩ := h 0 t rfl
    cases es with
    | nil => simp at h1
    | cons e' es =>
      cases cols with
      | nil => simp at h2
      | cons col' cols =>
        simp only [List.getElem?_cons_zero, Option.some.injEq] at h1 h2
        subst h1; subst h2
        rw [List.zipIdx_cons, List.map_cons, addLoop, h3]
        rw [ih (k + 1) es cols (fun i t ht => by
          obtain ⟨e, col, a, b, c⟩ := h (i + 1) t (by simpa using ht)
          refine ⟨e, col, by simpa using a, by simpa using b, ?_⟩
          rw [c]; congr 2; omega)]
        simp

theorem addEvent_spec {ts : List TInfo} (hts : TensorsOk ts) {exist : Nat → Bool} {f : Fill V}
    {evs : List (Event V)} (hf : FillOk ts exist f evs) {index : Nat} {ev : Event V}
    (hev : evs[index]? = some ev) (hok : EvOk ts exist ev) (g : List (Event V)) :
    addLoop index g.length ts f.exist f.events (mkBatch ts g) = .ok (mkBatch ts (g ++ [ev])) := by
  have := addLoop_spec index g.length ts 0 f.exist f.events
    (fun i => (g.zipIdx 0).map (fun ek => mkItem ek.2 (partAt i ek.1)))
    (fun i => mkItem g.length (partAt i ev)) (fun i t ht => by
      obtain ⟨col, h1, h2⟩ := hf.col i t ht
      refine ⟨_, col, hf.flags i t ht, h1, ?_⟩
      rw [Nat.zero_add]
      exact addItem_spec hts ht h2 hev hok g.length)
  unfold mkBatch
  rw [this]
  simp [List.zipIdx_append]

/-! ### finishing a batch -/

theorem rowsOf_spec (g : List (Event V)) (k i : Nat)
    (h : ∀ ev ∈ g, ∃ r, partAt i ev = .row r) :
    ∃ rows, rowsOf ((g.zipIdx k).map (fun ek => mkItem ek.2 (partAt i ek.1))) = .ok rows ∧
      rows.map Part.row = g.map (partAt i) := by
  induction g generalizing k with
  | nil => exact ⟨[], rfl, rfl⟩
  | cons ev g ih =>
    obtain ⟨r, hr⟩ := h ev (by simp)
    obtain ⟨rows, h1, h2⟩ := ih (k + 1) (fun e he => h e (by simp [he]))
    refine ⟨r :: rows, ?_, by simp [hr, h2]⟩
    rw [List.zipIdx_cons, List.map_cons, hr, mkItem, rowsOf, h1]

theorem joinArrs_spec (f : Event V × Nat → List (Row V)) (g : List (Event V)) (k i : Nat) (hg : g ≠ [])
    (h : ∀ (ev : Event V) (j : Nat), ev ∈ g → ∃ b, mkItem j (partAt i ev) = .arr { rows := f (ev, j), isList := b }) :
    joinArrs ((g.zipIdx k).map (fun ek => mkItem ek.2 (partAt i ek.1))) =
      .ok ((g.zipIdx k).flatMap f) := by
  induction g generalizing k with
  | nil => exact absurd rfl hg
  | cons ev g ih =>
    obtain ⟨b, hb⟩ := h ev k (by simp)
    rw [List.zipIdx_cons, List.map_cons, List.flatMap_cons]
    cases g with
    | nil => simp [hb, joinArrs]
    | cons ev' g =>
      have := ih (k + 1) (by simp) (fun e j he => h e j (List.mem_cons_of_mem _ he))
      simp only [hb]
      rw [List.zipIdx_cons, List.map_cons] at this ⊢
      rw [joinArrs, this]
      · simp

theorem allDflt_spec (g : List (Event V)) (k i : Nat) (h : ∀ ev ∈ g, partAt i ev = .missing) :
    allDflt ((g.zipIdx k).map (fun ek => mkItem ek.2 (partAt i ek.1))) = true := by
  induction g generalizing k with
  | nil => rfl
  | cons ev g ih =>
    rw [List.zipIdx_cons, List.map_cons, h ev (by simp)]
    exact ih (k + 1) (fun e he => h e (by simp [he]))

/-- The rows an event contributes to a value tensor. -/
def valsOf : Part V → List (Row V)
  | .vals l => l
  | _ => []

/-- The rows an event contributes to an index tensor. -/
def idxsOf : Part V → List V
  | .idxs l => l
  | _ => []

theorem eventRows_blocks (g : List (Event V)) (vi i k e : Nat)
    (h : ∀ ev ∈ g, (valsOf (partAt vi ev)).length = (idxsOf (partAt i ev)).length) :
    eventRows ((g.zipIdx k).flatMap (fun ek => valsOf (partAt vi ek.1)))
      ((g.zipIdx k).flatMap (fun ek => (idxsOf (partAt i ek.1)).map (fun v => (⟨ek.2, v⟩ : Row V))))
      (e : Int) =
    match (if k ≤ e then g[e - k]? else none) with
    | none => []
    | some ev => (valsOf (partAt vi ev)).zip ((idxsOf (partAt i ev)).map (fun v => (⟨e, v⟩ : Row V))) := by
  induction g generalizing k with
  | nil => simp [eventRows]
  | cons ev g ih =>
    have hl := h ev (by simp)
    have ih := ih (k + 1) (fun x hx => h x (by simp [hx]))
    unfold eventRows at ih ⊢
    rw [List.zipIdx_cons, List.flatMap_cons, List.flatMap_cons]
    rw [List.zip_append (by simpa using hl), List.filter_append, ih]
    by_cases hke : e = k
    · subst hke
      have h1 : ¬ (e + 1 ≤ e) := by omega
      simp only [if_neg h1, Nat.le_refl, if_true, Nat.sub_self, List.getElem?_cons_zero,
        List.append_nil]
      rw [List.filter_eq_self]
      rintro ⟨a, b⟩ hab
      have := List.of_mem_zip hab
      obtain ⟨v, -, rfl⟩ := List.mem_map.1 this.2
      simp
    · have h0 : ((valsOf (partAt vi ev)).zip
          ((idxsOf (partAt i ev)).map (fun v => (⟨(k : Int), v⟩ : Row V)))).filter
            (fun p => decide (p.2.id = (e : Int))) = [] := by
        rw [List.filter_eq_nil_iff]
        rintro ⟨a, b⟩ hab
        have := List.of_mem_zip hab
        obtain ⟨v, -, rfl⟩ := List.mem_map.1 this.2
        simp only [decide_eq_true_eq]
        omega
      rw [h0, List.nil_append]
      by_cases hlt : k + 1 ≤ e
      · rw [if_pos hlt, if_pos (by omega : k ≤ e), show e - k = (e - (k + 1)) + 1 by omega,
          List.getElem?_cons_succ]
      · rw [if_neg hlt, if_neg (by omega : ¬ k ≤ e)]

/-- The finished array of one tensor of a batch with the events `g`. -/
theorem finishOne_spec {ts : List TInfo} (hts : TensorsOk ts) {exist : Nat → Bool}
    (g : List (Event V)) (hg : g ≠ []) (hok : ∀ ev ∈ g, EvOk ts exist ev)
    (i : Nat) (t : TInfo) (ht : ts[i]? = some t) :
    ∃ o, finishOne t (exist i) ((g.zipIdx 0).map (fun ek => mkItem ek.2 (partAt i ek.1))) = .ok o ∧
      (exist i = false → o = .dflts g.length) ∧
      (exist i = true → t.kind = .plain → ∃ rows, o = .arr { rows := rows } ∧
        rows.map Part.row = g.map (partAt i)) ∧
      (exist i = true → t.kind = .value →
        o = .arr { rows := (g.zipIdx 0).flatMap (fun ek => valsOf (partAt i ek.1)) }) ∧
      (exist i = true → ∀ ref, t.kind = .index ref →
        o = .arr { rows := (g.zipIdx 0).flatMap (fun ek =>
          (idxsOf (partAt i ek.1)).map (fun v => (⟨ek.2, v⟩ : Row V))) }) := by
  unfold finishOne
  cases hx : exist i with
  | false =>
    simp only [Bool.false_eq_true, if_false]
    rw [if_pos (allDflt_spec g 0 i (fun ev hev => by rw [partAt, (hok ev hev).missing i t ht hx]; rfl))]
    exact ⟨_, rfl, by simp, by simp, by simp, by simp⟩
  | true =>
    simp only [if_true]
    cases hk : t.kind with
    | plain =>
      obtain ⟨rows, h1, h2⟩ := rowsOf_spec g 0 i (fun ev hev => by
        obtain ⟨r, hr⟩ := (hok ev hev).plain i t ht hk hx
        exact ⟨r, by rw [partAt, hr]; rfl⟩)
      rw [h1]
      exact ⟨_, rfl, by simp, fun _ _ => ⟨rows, rfl, h2⟩, by simp, by simp⟩
    | value =>
      obtain ⟨i', t', ht', hk', -⟩ := hts.value i t ht hk
      rw [joinArrs_spec (fun ek => valsOf (partAt i ek.1)) g 0 i hg (fun ev j hev => by
        obtain ⟨h1, h2⟩ := (hok ev hev).vector i' i t' t ht' hk' ht
        obtain ⟨v, x, hv, -⟩ := h2 (by rw [h1, hx])
        exact ⟨false, by simp [partAt, hv, mkItem, valsOf]⟩)]
      exact ⟨_, rfl, by simp, by simp, fun _ _ => rfl, by simp⟩
    | index ref =>
      obtain ⟨vi, tv, htv, hname, -⟩ := hts.index i t ref ht hk
      rw [joinArrs_spec (fun ek => (idxsOf (partAt i ek.1)).map (fun v => (⟨ek.2, v⟩ : Row V)))
        g 0 i hg (fun ev j hev => by
        obtain ⟨h1, h2⟩ := (hok ev hev).vector i vi t tv ht (by rw [hk, hname]) htv
        obtain ⟨v, x, -, hv, -⟩ := h2 hx
        exact ⟨false, by simp [partAt, hv, mkItem, idxsOf]⟩)]
      exact ⟨_, rfl, by simp, by simp, by simp, fun _ _ _ => rfl⟩

theorem finishLoop_spec (rest : List TInfo) (k : Nat) (es : List Bool) (b : Nat → List (Item V))
    (o : Nat → Out V)
    (h : ∀ (i : Nat) t, rest[i]? = some t → ∃ e, es[i]? = some e ∧
      finishOne t e (b (k + i)) = .ok (o (k + i))) :
    finishLoop rest es ((rest.zipIdx k).map (fun ti => b ti.2)) =
      .ok ((rest.zipIdx k).map (fun ti => o ti.2)) := by
  induction rest generalizing k es with
  | nil => simp [finishLoop]
  | cons t rest ih =>
    obtain ⟨e, h1, h2⟩ := h 0 t rfl
    cases es with
    | nil => simp at h1
    | cons e' es =>
      simp only [List.getElem?_cons_zero, Option.some.injEq] at h1
      subst h1
      rw [List.zipIdx_cons, List.map_cons, finishLoop]
      rw [Nat.add_zero] at h2
      simp only [h2]
      rw [ih (k + 1) es (fun i t ht => by
        obtain ⟨e, a, c⟩ := h (i + 1) t (by simpa using ht)
        refine ⟨e, by simpa using a, ?_⟩
        rw [show k + 1 + i = k + (i + 1) by omega, c])]
      simp

/-- A finished batch describes its events. -/
theorem finish_spec {ts : List TInfo} (hts : TensorsOk ts) {exist : Nat → Bool} {f : Fill V}
    (hf : ∀ (j : Nat) t, ts[j]? = some t → f.exist[j]? = some (exist j))
    (g : List (Event V)) (hg : g ≠ []) (hok : ∀ ev ∈ g, EvOk ts exist ev) :
    ∃ o, finishLoop ts f.exist (mkBatch ts g) = .ok o ∧ BatchOf ts exist o g := by
  have hone : ∀ i : Nat, ∃ o, ∀ t, ts[i]? = some t →
      finishOne t (exist i) ((g.zipIdx 0).map (fun ek => mkItem ek.2 (partAt i ek.1))) = .ok o ∧
      (exist i = false → o = .dflts g.length) ∧
      (exist i = true → t.kind = .plain → ∃ rows, o = .arr { rows := rows } ∧
        rows.map Part.row = g.map (partAt i)) ∧
      (exist i = true → t.kind = .value →
        o = .arr { rows := (g.zipIdx 0).flatMap (fun ek => valsOf (partAt i ek.1)) }) ∧
      (exist i = true → ∀ ref, t.kind = .index ref →
        o = .arr { rows := (g.zipIdx 0).flatMap (fun ek =>
          (idxsOf (partAt i ek.1)).map (fun v => (⟨ek.2, v⟩ : Row V))) }) := by
    intro i
    cases ht : ts[i]? with
    | none => exact ⟨.dflts 0, fun t h => by cases h⟩
    | some t =>
      obtain ⟨o, ho⟩ := finishOne_spec hts g hg hok i t ht
      exact ⟨o, fun t' h => by cases h; exact ho⟩
  obtain ⟨o, ho⟩ := Classical.axiomOfChoice hone
  refine ⟨(ts.zipIdx 0).map (fun ti => o ti.2), ?_, ?_, ?_⟩
  · exact finishLoop_spec ts 0 f.exist _ o (fun i t ht =>
      ⟨_, hf i t ht, by rw [Nat.zero_add]; exact (ho i t ht).1⟩)
  · have hdata : ∀ (i : Nat) t, ts[i]? = some t → (outData ((ts.zipIdx 0).map (fun ti => o ti.2)))[i]? =
        some (match o i with | .arr a => some a | .dflts _ => none) := by
      intro i t ht
      simp only [outData, List.getElem?_map, List.getElem?_zipIdx, ht, Option.map_some, Nat.zero_add]
      cases o i <;> rfl
    constructor
    · simp [outData]
    · intro i t ht hx
      rw [hdata i t ht, (ho i t ht).2.1 hx]
      exact ⟨rfl, fun ev hev => (hok ev hev).missing i t ht hx⟩
    · intro i t ht hk hx
      obtain ⟨rows, h1, h2⟩ := (ho i t ht).2.2.1 hx hk
      rw [hdata i t ht, h1]
      refine ⟨{ rows := rows }, rfl, rfl, by simpa using congrArg List.length h2, fun e ev he => ?_⟩
      have h3 := congrArg (fun l => l[e]?) h2
      simp only [List.getElem?_map, he, Option.map_some] at h3
      obtain ⟨r, hr⟩ := (hok ev (List.mem_of_getElem? he)).plain i t ht hk hx
      cases hrow : rows[e]? with
      | none => rw [hrow] at h3; cases h3
      | some r' =>
        rw [hrow] at h3
        simp only [Option.map_some, Option.some.injEq, partAt, hr, Option.getD_some, Part.row.injEq] at h3
        exact ⟨r', rfl, by rw [hr, h3]⟩
    · intro i vi t tv ht hk htv
      have hgx : ∀ ev ∈ g, exist i = exist vi := fun ev hev =>
        ((hok ev hev).vector i vi t tv ht hk htv).1
      obtain ⟨ev0, hev0⟩ := List.exists_mem_of_ne_nil g hg
      refine ⟨hgx ev0 hev0, fun hx => ?_⟩
      have hxv : exist vi = true := by rw [← hgx ev0 hev0, hx]
      obtain ⟨vi', tv', htv', hname, hkv⟩ := hts.index i t tv.name ht hk
      have hvv : vi' = vi := by
        have h1 := indexOf_ok hts.names htv'
        rw [hname, indexOf_ok hts.names htv] at h1
        cases h1; rfl
      subst hvv
      rw [htv'] at htv
      cases htv
      have hv := (ho vi' tv htv').2.2.2.1 hxv hkv
      have hi := (ho i t ht).2.2.2.2 hx _ hk
      rw [hdata i t ht, hdata vi' tv htv', hv, hi]
      have hp : ∀ ev ∈ g, ∃ v x, ev[vi']? = some (Part.vals v) ∧ ev[i]? = some (Part.idxs x) ∧
          v.length = x.length := fun ev hev => ((hok ev hev).vector i vi' t tv ht hk htv').2 hx
      have hlen : ∀ ev ∈ g, (valsOf (partAt vi' ev)).length = (idxsOf (partAt i ev)).length := by
        intro ev hev
        obtain ⟨v, x, h1, h2, h3⟩ := hp ev hev
        simp [partAt, h1, h2, valsOf, idxsOf, h3]
      refine ⟨_, _, rfl, rfl, ⟨⟨rfl, rfl⟩, ?_, ?_⟩, fun e ev he => ?_⟩
      · simp only [List.length_flatMap, List.length_map]
        congr 1
        refine List.map_congr_left fun ek hek => hlen ek.1 ?_
        rw [List.mem_zipIdx_iff_getElem?] at hek
        exact List.mem_of_getElem? hek
      · intro r hr
        obtain ⟨ek, hek, hr⟩ := List.mem_flatMap.1 hr
        obtain ⟨v, -, rfl⟩ := List.mem_map.1 hr
        rw [List.mem_zipIdx_iff_getElem?] at hek
        have := (List.getElem?_eq_some_iff.1 hek).1
        exact ⟨by simp, by simpa using this⟩
      · obtain ⟨v, x, h1, h2, h3⟩ := hp ev (List.mem_of_getElem? he)
        have hb := eventRows_blocks g vi' i 0 e hlen
        rw [if_pos (Nat.zero_le _), Nat.sub_zero, he] at hb
        simp only [partAt, h1, h2, Option.getD_some, valsOf, idxsOf] at hb
        simp only [partAt, valsOf, idxsOf]
        rw [hb, h1, h2]
        refine ⟨?_, ?_⟩
        · rw [List.map_fst_zip (by simp [h3])]
        · have : (v.zip (x.map (fun y => (⟨(e : Int), y⟩ : Row V)))).map (fun p => p.2.rest) =
              ((v.zip (x.map (fun y => (⟨(e : Int), y⟩ : Row V)))).map Prod.snd).map Row.rest := by
            simp
          rw [this, List.map_snd_zip (by simp [h3])]
          simp [Function.comp_def]
  · intro k hk
    obtain ⟨ti, hti, hk⟩ := List.mem_map.1 hk
    rw [List.mem_zipIdx_iff_getElem?] at hti
    have h := ho ti.2 ti.1 hti
    cases hx : exist ti.2 with
    | false => rw [h.2.1 hx] at hk; cases hk; rfl
    | true =>
      cases hkind : ti.1.kind with
      | plain =>
        obtain ⟨rows, h1, -⟩ := h.2.2.1 hx hkind
        rw [h1] at hk; cases hk
      | value => rw [h.2.2.2.1 hx hkind] at hk; cases hk
      | index ref => rw [h.2.2.2.2 hx ref hkind] at hk; cases hk

/-! ### the loops -/

theorem forall₂_append {α β : Type} {R : α → β → Prop} {l : List α} {m : List β} {a : α} {b : β}
    (h : List.Forall₂ R l m) (hab : R a b) : List.Forall₂ R (l ++ [a]) (m ++ [b]) := by
  induction h with
  | nil => exact .cons hab .nil
  | cons h1 _ ih => exact .cons h1 ih

/-- The state after the events `done` (in finished batches `groups`) and `g`. -/
structure AggOk (ts : List TInfo) (exist : Nat → Bool) (bs : Nat) (s : Agg V)
    (stream : List (Event V)) : Prop where
  inv : ∃ (groups : List (List (Event V))) (g : List (Event V)),
    stream = groups.flatten ++ g ∧ (∀ h ∈ groups, h.length = bs) ∧ g.length < bs ∧
    s.size = g.length ∧ s.batch = mkBatch ts g ∧
    List.Forall₂ (BatchOf ts exist) s.out groups
  evOk : ∀ ev ∈ stream, EvOk ts exist ev

theorem eventLoop_spec {ts : List TInfo} (hts : TensorsOk ts) {exist : Nat → Bool} {bs : Nat}
    (hbs : 0 < bs) {f : Fill V} {evs : List (Event V)} (hf : FillOk ts exist f evs)
    (hok : ∀ ev ∈ evs, EvOk ts exist ev) (order : List Nat) (hord : ∀ k ∈ order, k < evs.length)
    (s : Agg V) (stream : List (Event V)) (hs : AggOk ts exist bs s stream) :
    ∃ s', eventLoop ts bs f order s = .ok s' ∧
      AggOk ts exist bs s' (stream ++ order.filterMap (fun k => evs[k]?)) := by
  induction order generalizing s stream with
  | nil => exact ⟨s, rfl, by simpa using hs⟩
  | cons index order ih =>
    obtain ⟨⟨groups, g, h1, h2, h3, h4, h5, h6⟩, h7⟩ := hs
    have hlt := hord index (by simp)
    have hev := List.getElem?_eq_getElem hlt
    have hadd := addEvent_spec hts hf hev (hok _ (List.mem_of_getElem? hev)) g
    unfold eventLoop
    rw [h4, h5, hadd]
    have hevs : ∀ ev ∈ stream ++ [evs[index]], EvOk ts exist ev := by
      intro ev hev'
      rcases List.mem_append.1 hev' with h | h
      · exact h7 ev h
      · rw [List.mem_singleton] at h
        rw [h]; exact hok _ (List.mem_of_getElem? hev)
    simp only
    by_cases hfull : g.length + 1 = bs
    · rw [if_pos hfull]
      obtain ⟨o, ho, hb⟩ := finish_spec hts hf.flags (g ++ [evs[index]]) (by simp) (fun ev h => by
        refine hevs ev ?_
        rw [h1, List.append_assoc]
        exact List.mem_append_right _ h)
      rw [ho]
      simp only
      obtain ⟨s', h8, h9⟩ := ih (fun k hk => hord k (by simp [hk]))
        { size := 0, batch := emptyBatch ts, out := s.out ++ [o] } (stream ++ [evs[index]])
        ⟨⟨groups ++ [g ++ [evs[index]]], [], by simp [h1], by
            intro h hh
            rcases List.mem_append.1 hh with hh | hh
            · exact h2 h hh
            · rw [List.mem_singleton] at hh; rw [hh]; simpa using hfull,
          by simpa using hbs, rfl, (mkBatch_nil ts).symm, forall₂_append h6 hb⟩, hevs⟩
      refine ⟨s', h8, ?_⟩
      rw [List.filterMap_cons, hev]
      simpa using h9
    · rw [if_neg hfull]
      obtain ⟨s', h8, h9⟩ := ih (fun k hk => hord k (by simp [hk]))
        { s with size := g.length + 1, batch := mkBatch ts (g ++ [evs[index]]) } (stream ++ [evs[index]])
        ⟨⟨groups, g ++ [evs[index]], by simp [h1], h2, by simp; omega, by simp, rfl, h6⟩, hevs⟩
      refine ⟨s', ?_, ?_⟩
      · exact h8
      · rw [List.filterMap_cons, hev]
        simpa using h9

theorem epochLoop_spec {ts : List TInfo} (hts : TensorsOk ts) {exist : Nat → Bool} {bs : Nat}
    (hbs : 0 < bs) {f : Fill V} {evs : List (Event V)} (hf : FillOk ts exist f evs)
    (hok : ∀ ev ∈ evs, EvOk ts exist ev) (orders : List (List Nat))
    (hord : ∀ o ∈ orders, ∀ k ∈ o, k < evs.length)
    (s : Agg V) (stream : List (Event V)) (hs : AggOk ts exist bs s stream) :
    ∃ s', epochLoop ts bs f orders s = .ok s' ∧
      AggOk ts exist bs s' (stream ++ ordered orders evs) := by
  induction orders generalizing s stream with
  | nil => exact ⟨s, rfl, by simpa [ordered] using hs⟩
  | cons o orders ih =>
    obtain ⟨s1, h1, h2⟩ := eventLoop_spec hts hbs hf hok o (hord o (by simp)) s stream hs
    obtain ⟨s2, h3, h4⟩ := ih (fun o' h => hord o' (by simp [h])) s1 _ h2
    refine ⟨s2, by simp only [epochLoop, h1, h3], ?_⟩
    simpa [ordered, List.append_assoc] using h4

end Verif.Handler
