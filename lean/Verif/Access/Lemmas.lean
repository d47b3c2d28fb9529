import Verif.Access.Spec
import Verif.Component.ObjectLemmas
import Verif.Handler.AggLemmas
import Mathlib.Data.List.Forall2

namespace Verif.Access
open Verif.Py

section
variable {V : Type}

theorem checkDims_ok (s : List Nat) (d : List (Option Nat)) (h : s.length = d.length) :
    checkDims s d = .ok () ↔ Fits s d := by
  induction s generalizing d with
  | nil =>
    cases d with
    | nil => exact ⟨fun _ => .nil, fun _ => rfl⟩
    | cons => cases h
  | cons a s ih =>
    cases d with
    | nil => cases h
    | cons x d =>
      have h' : s.length = d.length := by simpa using h
      cases x with
      | none =>
        rw [checkDims, ih d h']
        exact ⟨fun hf => .cons (fun n hn => by cases hn) hf, fun hf => by cases hf; assumption⟩
      | some n =>
        rw [checkDims]
        by_cases e : a = n
        · subst e
          rw [if_neg (by simp), ih d h']
          exact ⟨fun hf => .cons (fun n hn => by cases hn; rfl) hf, fun hf => by cases hf; assumption⟩
        · rw [if_pos e]
          refine ⟨fun hc => (by cases hc), fun hf => ?_⟩
          cases hf with
          | cons h1 _ => exact absurd (h1 n rfl) e

theorem Fits.length {s : List Nat} {d : List (Option Nat)} (h : Fits s d) : s.length = d.length :=
  List.Forall₂.length_eq h

theorem checkOne_ok (v : Val V) (t : Info) :
    checkOne v t = .ok () ↔ (t.present = true → t.vector = false →
      ∃ ty shape x, v = .arr ty shape x ∧ Fits shape t.shape) := by
  unfold checkOne
  by_cases hc : t.present = true ∧ t.vector = false
  · rw [if_pos (by simp [hc.1, hc.2])]
    cases v with
    | none =>
      refine ⟨fun h => (by cases h), fun h => ?_⟩
      obtain ⟨_, _, _, h, _⟩ := h hc.1 hc.2
      cases h
    | arr ty shape x =>
      simp only
      by_cases hl : shape.length = t.shape.length
      · rw [if_neg (by simp [hl]), checkDims_ok _ _ hl]
        refine ⟨fun h _ _ => ⟨ty, shape, x, rfl, h⟩, fun h => ?_⟩
        obtain ⟨_, _, _, he, hf⟩ := h hc.1 hc.2
        cases he
        exact hf
      · rw [if_pos hl]
        refine ⟨fun h => (by cases h), fun h => ?_⟩
        obtain ⟨_, _, _, he, hf⟩ := h hc.1 hc.2
        cases he
        exact absurd hf.length hl
  · rw [if_neg (by
      intro h
      simp only [Bool.and_eq_true, Bool.not_eq_true'] at h
      exact hc h)]
    exact ⟨fun _ hp hv => absurd ⟨hp, hv⟩ hc, fun _ => rfl⟩

theorem checkLoop_ok (data : List (Val V)) (ts : List Info) (h : data.length = ts.length) :
    checkLoop data ts = .ok () ↔ ∀ (i : Nat) (t : Info), ts[i]? = some t → t.present = true →
      t.vector = false → ∃ ty shape x, data[i]? = some (.arr ty shape x) ∧ Fits shape t.shape := by
  induction data generalizing ts with
  | nil =>
    cases ts with
    | nil => simp [checkLoop]
    | cons => cases h
  | cons v vs ih =>
    cases ts with
    | nil => cases h
    | cons t ts =>
      have h' : vs.length = ts.length := by simpa using h
      rw [checkLoop]
      have h1 := checkOne_ok v t
      cases e : checkOne v t with
      | error err =>
        rw [e] at h1
        refine ⟨fun hc => (by cases hc), fun hall => ?_⟩
        exact absurd (h1.2 fun hp hv => by
          obtain ⟨ty, s, x, hx, hf⟩ := hall 0 t rfl hp hv
          exact ⟨ty, s, x, by simpa using hx, hf⟩) (by simp)
      | ok u =>
        rw [e] at h1
        rw [show checkLoop vs ts = .ok () ↔ _ from ih ts h']
        constructor
        · intro hall i t' hi hp hv
          cases i with
          | zero =>
            simp only [List.getElem?_cons_zero, Option.some.injEq] at hi
            subst hi
            obtain ⟨ty, s, x, hx, hf⟩ := h1.1 rfl hp hv
            exact ⟨ty, s, x, by simp [hx], hf⟩
          | succ i => simpa using hall i t' (by simpa using hi) hp hv
        · intro hall i t' hi hp hv
          simpa using hall (i + 1) t' (by simpa using hi) hp hv

theorem check_ok (ts : List Info) (data : List (Val V)) :
    check ts (some data) = .ok () ↔ Structured ts data := by
  unfold check Structured
  by_cases h : data.length = ts.length
  · simp only [h, ne_eq, not_true_eq_false, if_false, checkLoop_ok data ts h, true_and]
  · simp [h]

theorem fillMissing_ok (np : String → Except Err V) (data : List (Val V)) (ts : List Info)
    (h : data.length = ts.length) (out : List (Val V)) :
    fillMissing np data ts = .ok out ↔ out.length = ts.length ∧ ∀ (i : Nat) (t : Info), ts[i]? = some t →
      (t.present = true → out[i]? = data[i]?) ∧
      (t.present = false → ∃ v, np t.dtype = .ok v ∧ out[i]? = some (.arr t.dtype [] v)) := by
  induction data generalizing ts out with
  | nil =>
    cases ts with
    | nil =>
      simp only [fillMissing, Except.ok.injEq, List.length_nil, List.getElem?_nil]
      constructor
      · intro h; subst h; simp
      · intro ⟨h, _⟩; exact (List.length_eq_zero_iff.1 h).symm
    | cons => cases h
  | cons v vs ih =>
    cases ts with
    | nil => cases h
    | cons t ts =>
      have h' : vs.length = ts.length := by simpa using h
      rw [fillMissing]
      constructor
      · intro hok
        cases e : (if t.present = true then Except.ok v else scalar np t.dtype) with
        | error err => rw [e] at hok; cases hok
        | ok x =>
          rw [e] at hok
          simp only at hok
          cases e2 : fillMissing np vs ts with
          | error err => rw [e2] at hok; cases hok
          | ok xs =>
            rw [e2] at hok
            cases hok
            obtain ⟨hl, hall⟩ := (ih ts h' xs).1 e2
            refine ⟨by simp [hl], fun i t' hi => ?_⟩
            cases i with
            | zero =>
              simp only [List.getElem?_cons_zero, Option.some.injEq] at hi
              subst hi
              refine ⟨fun hp => ?_, fun hp => ?_⟩
              · rw [if_pos hp] at e; cases e; rfl
              · rw [if_neg (by simp [hp]), scalar] at e
                cases hn : np t.dtype with
                | error err => rw [hn] at e; cases e
                | ok y => rw [hn] at e; cases e; exact ⟨y, rfl, rfl⟩
            | succ i => simpa using hall i t' (by simpa using hi)
      · rintro ⟨hl, hall⟩
        cases out with
        | nil => simp at hl
        | cons x xs =>
          have h2 := (ih ts h' xs).2 ⟨by simpa using hl, fun i t' hi => by
            simpa using hall (i + 1) t' (by simpa using hi)⟩
          have h1 : (if t.present = true then Except.ok v else scalar np t.dtype) = .ok x := by
            obtain ⟨h1, h2⟩ := hall 0 t rfl
            by_cases hp : t.present = true
            · rw [if_pos hp]
              have := h1 hp
              simp only [List.getElem?_cons_zero, Option.some.injEq] at this
              rw [this]
            · rw [if_neg hp]
              obtain ⟨y, hy, hx⟩ := h2 (by simpa using hp)
              simp only [List.getElem?_cons_zero, Option.some.injEq] at hx
              rw [scalar, hy, hx]
          rw [h1]
          simp only [h2]

theorem convertLoop_ok (np : String → Except Err V) (tf : Val V → Except Err (Val V))
    (data : List (Val V)) (k : Nat) (ts : List Info) (h : data.length = k + ts.length)
    (out : List (Val V)) :
    convertLoop np tf (some data) k ts = .ok out ↔ out.length = ts.length ∧
      ∀ (i : Nat) (t : Info), ts[i]? = some t →
      (t.present = true → ∃ v x, data[k + i]? = some v ∧ tf v = .ok x ∧ out[i]? = some x) ∧
      (t.present = false → ∃ v, np t.dtype = .ok v ∧ out[i]? = some (.arr t.dtype [] v)) := by
  induction ts generalizing k out with
  | nil =>
    simp only [convertLoop, Except.ok.injEq, List.length_nil, List.getElem?_nil]
    constructor
    · intro h; subst h; simp
    · intro ⟨h, _⟩; exact (List.length_eq_zero_iff.1 h).symm
  | cons t ts ih =>
    have hk : k < data.length := by rw [h]; simp
    have hget : at? (some data) k = .ok data[k] := by
      simp [at?, List.getElem?_eq_getElem hk]
    have h' : data.length = k + 1 + ts.length := by rw [h]; simp; omega
    rw [convertLoop, hget]
    simp only [Except.bind]
    constructor
    · intro hok
      cases e : (if t.present = true then tf data[k] else scalar np t.dtype) with
      | error err => rw [e] at hok; cases hok
      | ok x =>
        rw [e] at hok
        simp only at hok
        cases e2 : convertLoop np tf (some data) (k + 1) ts with
        | error err => rw [e2] at hok; cases hok
        | ok xs =>
          rw [e2] at hok
          cases hok
          obtain ⟨hl, hall⟩ := (ih (k + 1) h' xs).1 e2
          refine ⟨by simp [hl], fun i t' hi => ?_⟩
          cases i with
          | zero =>
            simp only [List.getElem?_cons_zero, Option.some.injEq] at hi
            subst hi
            refine ⟨fun hp => ?_, fun hp => ?_⟩
            · rw [if_pos hp] at e
              exact ⟨_, _, by simp [List.getElem?_eq_getElem hk], e, rfl⟩
            · rw [if_neg (by simp [hp]), scalar] at e
              cases hn : np t.dtype with
              | error err => rw [hn] at e; cases e
              | ok y => rw [hn] at e; cases e; exact ⟨y, rfl, rfl⟩
          | succ i =>
            have := hall i t' (by simpa using hi)
            rw [show k + 1 + i = k + (i + 1) by omega] at this
            simpa using this
    · rintro ⟨hl, hall⟩
      cases out with
      | nil => simp at hl
      | cons x xs =>
        have h2 := (ih (k + 1) h' xs).2 ⟨by simpa using hl, fun i t' hi => by
          have := hall (i + 1) t' (by simpa using hi)
          rw [show k + (i + 1) = k + 1 + i by omega] at this
          simpa using this⟩
        have h1 : (if t.present = true then tf data[k] else scalar np t.dtype) = .ok x := by
          obtain ⟨h1, h2⟩ := hall 0 t rfl
          by_cases hp : t.present = true
          · rw [if_pos hp]
            obtain ⟨v, y, hv, ht, hx⟩ := h1 hp
            simp only [Nat.add_zero, List.getElem?_eq_getElem hk, Option.some.injEq] at hv
            simp only [List.getElem?_cons_zero, Option.some.injEq] at hx
            rw [hv, ht, hx]
          · rw [if_neg hp]
            obtain ⟨y, hy, hx⟩ := h2 (by simpa using hp)
            simp only [List.getElem?_cons_zero, Option.some.injEq] at hx
            rw [scalar, hy, hx]
        rw [h1]
        simp only [h2]

end

section
variable {T : Type}

theorem datasetLoop_eq (tf : String → Option T) (ts : List Info) (types : List T)
    (shapes : List TShape) :
    datasetLoop tf ts (types, shapes) = match ts.mapM (fun t => tf t.dtype) with
      | none => .error .attributeError
      | some l => .ok (types ++ l, shapes ++ ts.map shapeOf) := by
  induction ts generalizing types shapes with
  | nil => simp [datasetLoop]
  | cons t ts ih =>
    rw [datasetLoop, List.mapM_cons]
    cases tf t.dtype with
    | none => rfl
    | some ty =>
      simp only [ih]
      cases ts.mapM (fun t => tf t.dtype) <;> simp

theorem signature_eq (tf : String → Option T) (ts : List Info) :
    signature tf ts = match ts.mapM (fun t => tf t.dtype) with
      | none => .error .attributeError
      | some l => .ok ((ts.map shapeOf).zip l) := by
  induction ts with
  | nil => simp [signature]
  | cons t ts ih =>
    rw [signature, List.mapM_cons]
    cases tf t.dtype with
    | none => rfl
    | some ty =>
      simp only [ih]
      cases ts.mapM (fun t => tf t.dtype) <;> simp

theorem mapM_cases (tf : String → Option T) (ts : List Info) :
    (∃ l, ts.mapM (fun t => tf t.dtype) = some l ∧ l.length = ts.length ∧
      ∀ (i : Nat) (t : Info), ts[i]? = some t → ∃ ty, tf t.dtype = some ty ∧ l[i]? = some ty) ∨
    (ts.mapM (fun t => tf t.dtype) = none ∧ ∃ t ∈ ts, tf t.dtype = none) := by
  induction ts with
  | nil => exact .inl ⟨[], rfl, rfl, by simp⟩
  | cons t ts ih =>
    rw [List.mapM_cons]
    cases e : tf t.dtype with
    | none => exact .inr ⟨rfl, t, by simp, e⟩
    | some ty =>
      rcases ih with ⟨l, h1, h2, h3⟩ | ⟨h1, u, hu, h2⟩
      · refine .inl ⟨ty :: l, by simp [h1], by simp [h2], fun i t' hi => ?_⟩
        cases i with
        | zero =>
          simp only [List.getElem?_cons_zero, Option.some.injEq] at hi
          subst hi
          exact ⟨ty, e, rfl⟩
        | succ i => simpa using h3 i t' (by simpa using hi)
      · exact .inr ⟨by simp [h1], u, by simp [hu], h2⟩

end

/-! ### biased selection -/

section
open Verif.Handler
variable {V : Type}

theorem fillOne_plain {ts : List TInfo} (hts : TensorsOk ts) {c : Chunk V} {s s' : Fill V} {i j : Nat}
    {t tj : TInfo} {a : Arr V} (ht : ts[i]? = some t) (hj : ts[j]? = some tj) (hk : tj.kind = .plain)
    (hd : c.data[j]? = some (some a)) (h : fillOne ts c s i t = .ok s') :
    s'.exist.length = s.exist.length ∧ s'.events.length = s.events.length ∧
    s'.exist[j]? = s.exist[j]? ∧
    s'.events[j]? = if i = j then s.events[j]?.map (· ++ [some a]) else s.events[j]? := by
  have hex : ∀ d, c.data[i]? = some d →
      ((if d.isNone then s.exist.set i false else s.exist)[j]? = s.exist[j]? ∧
       (if d.isNone then s.exist.set i false else s.exist).length = s.exist.length) := by
    intro d hd'
    cases d with
    | some => exact ⟨rfl, rfl⟩
    | none =>
      have : i ≠ j := by intro e; subst e; rw [hd] at hd'; cases hd'
      simp only [Option.isNone_none, if_true, List.length_set, and_true]
      rw [List.getElem?_set_ne this]
  unfold fillOne at h
  cases e1 : getAt c.data i with
  | error err => rw [e1] at h; cases h
  | ok d =>
    have hdi : c.data[i]? = some d := by
      unfold getAt at e1
      cases e2 : c.data[i]? with
      | none => rw [e2] at e1; cases e1
      | some x => rw [e2] at e1; cases e1; rfl
    obtain ⟨hx1, hx2⟩ := hex d hdi
    rw [e1] at h
    simp only at h
    cases hki : t.kind with
    | value =>
      rw [hki] at h
      cases h
      have : i ≠ j := by
        intro e; subst e; rw [ht, Option.some.injEq] at hj; subst hj; rw [hki] at hk; cases hk
      exact ⟨hx2, rfl, hx1, by simp [this]⟩
    | plain =>
      rw [hki] at h
      cases h
      refine ⟨hx2, by simp, hx1, ?_⟩
      rw [modify_get]
      by_cases e : i = j
      · subst e
        rw [hd, Option.some.injEq] at hdi
        simp [hdi]
      · rw [if_neg (Ne.symm e), if_neg e]
    | index ref =>
      rw [hki] at h
      simp only at h
      have hij : i ≠ j := by
        intro e; subst e; rw [ht, Option.some.injEq] at hj; subst hj; rw [hki] at hk; cases hk
      obtain ⟨vi, tv, hv, hname, hkv⟩ := hts.index i t ref ht hki
      have hvj : vi ≠ j := by
        intro e; subst e; rw [hv, Option.some.injEq] at hj; subst hj; rw [hkv] at hk; cases hk
      rw [show indexOf ts ref = .ok vi from hname ▸ indexOf_ok hts.names hv] at h
      simp only at h
      have hmod : ∀ f g : List (Option (Arr V)) → List (Option (Arr V)),
          ((s.events.modify vi f).modify i g)[j]? = s.events[j]? := by
        intro f g
        rw [modify_get, if_neg (Ne.symm hij), modify_get, if_neg (Ne.symm hvj)]
      split at h
      · cases h
      · cases h
        exact ⟨hx2, by simp, hx1, by rw [hmod, if_neg hij]⟩
      · split at h
        · cases h
        · cases h
          exact ⟨hx2, by simp, hx1, by rw [hmod, if_neg hij]⟩
      · cases h

theorem fillLoop_plain {ts : List TInfo} (hts : TensorsOk ts) {c : Chunk V} {j : Nat}
    {tj : TInfo} {a : Arr V} (hj : ts[j]? = some tj) (hk : tj.kind = .plain)
    (hd : c.data[j]? = some (some a)) (rest : List TInfo) (p : Nat) (hrest : ts.drop p = rest)
    (s s' : Fill V) (h : fillLoop ts c rest p s = .ok s') :
    s'.exist.length = s.exist.length ∧ s'.events.length = s.events.length ∧
    s'.exist[j]? = s.exist[j]? ∧
    s'.events[j]? = if p ≤ j then s.events[j]?.map (· ++ [some a]) else s.events[j]? := by
  induction rest generalizing p s with
  | nil =>
    cases h
    have : ts.length ≤ p := List.drop_eq_nil_iff.1 hrest
    have hlt : j < ts.length := (List.getElem?_eq_some_iff.1 hj).1
    exact ⟨rfl, rfl, rfl, by rw [if_neg (by omega)]⟩
  | cons t rest ih =>
    have ht : ts[p]? = some t := by
      have := congrArg (fun l => l[0]?) hrest
      simpa using this
    have hr : ts.drop (p + 1) = rest := by
      rw [← List.drop_drop, hrest]; rfl
    rw [fillLoop] at h
    cases e : fillOne ts c s p t with
    | error err => rw [e] at h; cases h
    | ok s1 =>
      rw [e] at h
      obtain ⟨a1, a2, a3, a4⟩ := fillOne_plain hts ht hj hk hd e
      obtain ⟨b1, b2, b3, b4⟩ := ih (p + 1) hr s1 h
      refine ⟨b1.trans a1, b2.trans a2, b3.trans a3, ?_⟩
      rw [b4, a4]
      by_cases e1 : p = j
      · subst e1
        rw [if_neg (by omega), if_pos rfl, if_pos (Nat.le_refl _)]
      · by_cases e2 : p ≤ j
        · rw [if_pos (by omega), if_neg e1, if_pos e2]
        · rw [if_neg (by omega), if_neg e1, if_neg e2]

theorem addLoop_get (index size : Nat) (ts : List TInfo) (ex : List Bool)
    (cols : List (List (Option (Arr V)))) (b r : List (List (Item V)))
    (h : addLoop index size ts ex cols b = .ok r) (h1 : ex.length = ts.length)
    (h2 : cols.length = ts.length) (h3 : b.length = ts.length) :
    r.length = ts.length ∧ ∀ (j : Nat) t e col, ts[j]? = some t → ex[j]? = some e → cols[j]? = some col →
      ∃ it, addItem t e col index size = .ok it := by
  induction ts generalizing ex cols b r with
  | nil =>
    have : ex = [] := List.length_eq_zero_iff.1 h1
    subst this
    cases h
    exact ⟨rfl, by simp⟩
  | cons t ts ih =>
    cases ex with
    | nil => cases h1
    | cons e ex =>
      cases cols with
      | nil => cases h2
      | cons col cols =>
        cases b with
        | nil => cases h3
        | cons b0 b =>
          rw [addLoop] at h
          cases e1 : addItem t e col index size with
          | error err => rw [e1] at h; cases h
          | ok it =>
            rw [e1] at h
            simp only at h
            cases e2 : addLoop index size ts ex cols b with
            | error err => rw [e2] at h; cases h
            | ok r' =>
              rw [e2] at h
              cases h
              obtain ⟨i1, i2⟩ := ih ex cols b r' e2 (by simpa using h1) (by simpa using h2)
                (by simpa using h3)
              refine ⟨by simp [i1], fun j t' e' col' ha hb hc => ?_⟩
              cases j with
              | zero =>
                simp only [List.getElem?_cons_zero, Option.some.injEq] at ha hb hc
                subst ha hb hc
                exact ⟨it, e1⟩
              | succ j => exact i2 j t' e' col' (by simpa using ha) (by simpa using hb) (by simpa using hc)

theorem eventLoop_visits (ts : List TInfo) (bs : Nat) (f : Fill V) (order : List Nat) (s s' : Agg V)
    (h : eventLoop ts bs f order s = .ok s') (h1 : f.exist.length = ts.length)
    (h2 : f.events.length = ts.length) (h3 : s.batch.length = ts.length) :
    s'.batch.length = ts.length ∧ ∀ k ∈ order, ∀ (j : Nat) t e col, ts[j]? = some t →
      f.exist[j]? = some e → f.events[j]? = some col →
      ∃ size it, addItem t e col k size = .ok it := by
  induction order generalizing s with
  | nil => cases h; exact ⟨h3, by simp⟩
  | cons k order ih =>
    rw [eventLoop] at h
    cases e : addLoop k s.size ts f.exist f.events s.batch with
    | error err => rw [e] at h; cases h
    | ok batch =>
      rw [e] at h
      simp only at h
      obtain ⟨hb, hg⟩ := addLoop_get k s.size ts f.exist f.events s.batch batch e h1 h2 h3
      have hrest : ∃ s1 : Agg V, s1.batch.length = ts.length ∧ eventLoop ts bs f order s1 = .ok s' := by
        split at h
        · cases e2 : finishLoop ts f.exist batch with
          | error err => rw [e2] at h; cases h
          | ok o =>
            rw [e2] at h
            exact ⟨_, by simp [emptyBatch], h⟩
        · exact ⟨_, hb, h⟩
      obtain ⟨s1, hs1, hok⟩ := hrest
      obtain ⟨i1, i2⟩ := ih s1 hok hs1
      refine ⟨i1, fun k' hk' j t e' col ha hb hc => ?_⟩
      rcases List.mem_cons.1 hk' with hk' | hk'
      · subst hk'
        exact ⟨s.size, hg j t e' col ha hb hc⟩
      · exact i2 k' hk' j t e' col ha hb hc

end

/-! ### processes -/

theorem procStep_length (s : Procs) (a : Act) :
    (procStep s a).running.length = s.running.length + started [a] := by
  cases a <;> simp [procStep, started]

theorem started_cons (a : Act) (rest : List Act) : started (a :: rest) = started [a] + started rest := by
  cases a <;> simp [started]

end Verif.Access
