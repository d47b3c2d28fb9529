/-
Properties C52, C54, C55 and C71: learning rate schedules, ensembles, training steps.
-/
import Verif.Training.Lemmas
import Verif.Component.Props
import Mathlib.Algebra.Order.Ring.Rat
import Mathlib.Algebra.Order.Ring.Int

namespace Verif.Training
open Verif.Py Verif.Component

/-! ## C52: the schedule -/

section
variable {K R : Type} [LinearOrder K] [AddCommGroup K]

/-- C52. For increasing boundaries, at least one, and one scheduler more than boundaries, every step
lies in exactly one interval, and the schedule is the scheduler of that interval at the step counted
from the start of the interval. Inside a `tf.function` (`late = false`) this holds for any number of
schedulers, in plain Python for up to three. Missing: a single scheduler, see `C52_violated_single`,
and plain Python, see `C52_violated_late`. -/
theorem C52_schedule_partial (late : Bool) (bs : List K) (fs : List (K → R)) (s : K)
    (hp : bs.Pairwise (· < ·)) (hne : bs ≠ []) (hl : fs.length = bs.length + 1)
    (hlate : late = false ∨ bs.length ≤ 2) :
    ∃ m, MultiLR.init bs fs = .ok m ∧
    ∃ i f, InInterval bs i s ∧ (∀ j, InInterval bs j s → j = i) ∧ fs[i]? = some f ∧
      m.call late s = .ok (f (s - start bs i)) := by
  refine ⟨⟨bs, fs⟩, by unfold MultiLR.init; rw [if_neg]; simp [hl], ?_⟩
  obtain ⟨i, hi⟩ := interval_exists s bs
  have hilt : i < fs.length := by have := hi.1; omega
  refine ⟨i, fs[i], hi, fun j hj => interval_unique hp hj hi, by simp [hilt], ?_⟩
  -- the shape of the lists
  obtain ⟨b0, bs', rfl⟩ := List.exists_cons_of_ne_nil hne
  obtain ⟨f0, fs', rfl⟩ : ∃ f0 fs', fs = f0 :: fs' := by
    cases fs with
    | nil => simp at hl
    | cons f0 fs' => exact ⟨f0, fs', rfl⟩
  have hl' : fs'.length = bs'.length + 1 := by simpa using hl
  have hfs' : fs' ≠ [] := by intro h; rw [h] at hl'; simp at hl'
  have hmid := mid_filter s (b0 :: bs') fs'.dropLast i hp (by simp; omega) hi
  have hpairs : callPairs late s (middlePairs s (b0 :: bs') fs'.dropLast) =
      (middlePairs s (b0 :: bs') fs'.dropLast).map (fun p => (p.1, p.2.1 (s - p.2.2))) := by
    rcases hlate with rfl | h2
    · unfold callPairs; simp
    · have := middlePairs_length_le s (b0 :: bs') fs'.dropLast
      generalize middlePairs s (b0 :: bs') fs'.dropLast = mid at this
      match mid with
      | [] => cases late <;> simp [callPairs]
      | [q] => cases late <;> simp [callPairs]
      | _ :: _ :: _ => simp at this h2; omega
  have hlast : fs'.getLast? = some (fs'.getLast hfs') := List.getLast?_eq_some_getLast hfs'
  unfold MultiLR.call
  simp only [List.head?_cons, List.getLast?_eq_some_getLast (List.cons_ne_nil b0 bs'),
    List.getLast?_eq_some_getLast (List.cons_ne_nil f0 fs'), List.drop_succ_cons, List.drop_zero]
  rw [hpairs]
  have hfm : ((middlePairs s (b0 :: bs') fs'.dropLast).map
      (fun p => (p.1, p.2.1 (s - p.2.2)))).filter (fun p => p.1) =
      ((middlePairs s (b0 :: bs') fs'.dropLast).filter (fun p => p.1)).map
      (fun p => (p.1, p.2.1 (s - p.2.2))) := by
    rw [List.filter_map]; rfl
  obtain ⟨h1, h2, h3⟩ := hi
  -- first and last boundary
  have hlastB : (b0 :: bs').getLast (List.cons_ne_nil _ _) = (b0 :: bs')[bs'.length] := by
    rw [List.getLast_eq_getElem]; simp
  have hsorted : ∀ a b : Nat, (ha : a ≤ b) → (hb : b < (b0 :: bs').length) →
      (b0 :: bs')[a]'(by omega) ≤ (b0 :: bs')[b] := by
    intro a b ha hb
    rcases Nat.lt_or_ge a b with h | h
    · exact (List.pairwise_iff_getElem.1 hp a b (by omega) hb h).le
    · have : a = b := by omega
      subst this; exact le_refl _
  unfold tfCase
  rw [hlastB]
  cases i with
  | zero =>
    have hs : s ≤ b0 := h3 b0 (by simp)
    have hs2 : ¬ s > (b0 :: bs')[bs'.length] := not_lt.2 (hs.trans (hsorted 0 bs'.length (by omega) (by simp)))
    rw [List.filter_cons_of_pos (by simp [hs]), List.filter_cons_of_neg (by simpa using hs2), hfm, hmid]
    simp [start]
  | succ i =>
    have hlt : i < (b0 :: bs').length := by simp at h1 ⊢; omega
    have hb : (b0 :: bs')[i] < s := h2 _ (by omega) (List.getElem?_eq_getElem hlt)
    have hs : ¬ s ≤ b0 := not_le.2 (lt_of_le_of_lt (hsorted 0 i (by omega) hlt) hb)
    rw [List.filter_cons_of_neg (by simpa using hs)]
    have hst : start (b0 :: bs') (i + 1) = (b0 :: bs')[i] := by
      simp [start, List.getElem?_eq_getElem hlt]
    rw [hst]
    rcases Nat.lt_or_ge (i + 1) (b0 :: bs').length with hlt | hge
    · have hs2 : ¬ s > (b0 :: bs')[bs'.length] := by
        have e : s ≤ (b0 :: bs')[i + 1] := h3 _ (List.getElem?_eq_getElem hlt)
        exact not_lt.2 (e.trans (hsorted (i + 1) bs'.length (by simp at hlt; omega) (by simp)))
      rw [List.filter_cons_of_neg (by simpa using hs2), hfm, hmid]
      have hlt' : i < bs'.length := by simpa using hlt
      have e1 : fs'.dropLast[i]? = some fs'[i] := by
        rw [List.getElem?_eq_getElem (by simp; omega), List.getElem_dropLast]
      have e2 : (b0 :: bs')[i]? = some (b0 :: bs')[i] := List.getElem?_eq_getElem _
      simp only [e1, e2]
      simp
    · have hi' : i = bs'.length := by simp at hge h1; omega
      subst hi'
      rw [List.filter_cons_of_pos (by simpa using hb), hfm, hmid]
      have e1 : fs'.dropLast[bs'.length]? = none := by
        rw [List.getElem?_eq_none]; simp; omega
      simp only [e1]
      have e3 : (f0 :: fs').getLast (List.cons_ne_nil _ _) = (f0 :: fs')[bs'.length + 1] := by
        rw [List.getLast_eq_getElem]; simp [hl']
      rw [e3]
      simp

omit [LinearOrder K] [AddCommGroup K] in
/-- C52. The number of boundaries must be one less than the number of schedulers. -/
theorem C52_refused (bs : List K) (fs : List (K → R)) (h : fs.length ≠ bs.length + 1) :
    MultiLR.init bs fs = .error .valueError := by
  unfold MultiLR.init
  rw [if_pos]
  omega

/-- C52. A step between a last boundary and a larger first one is refused: boundaries out of order do
not select a scheduler silently. -/
theorem C52_unordered (late : Bool) (bs : List K) (fs : List (K → R)) (s a b : K)
    (ha : bs.head? = some a) (hb : bs.getLast? = some b) (h1 : s ≤ a) (h2 : b < s) :
    ∃ e, (MultiLR.mk bs fs).call late s = .error e := by
  unfold MultiLR.call
  simp only [ha, hb]
  cases fs.head? with
  | none => exact ⟨_, rfl⟩
  | some f =>
    cases fs.getLast? with
    | none => exact ⟨_, rfl⟩
    | some g =>
      simp only
      unfold tfCase
      rw [List.filter_cons_of_pos (by simpa using h1), List.filter_cons_of_pos (by simpa using h2)]
      exact ⟨_, rfl⟩

/-- C52 is false for a single scheduler: the constructor accepts it and every call raises. -/
theorem C52_violated_single (late : Bool) (f : K → R) (s : K) :
    ∃ m, MultiLR.init [] [f] = .ok m ∧ m.call late s = .error .valueError :=
  ⟨⟨[], [f]⟩, by simp [MultiLR.init], rfl⟩
end

/-- C52 is false in plain Python for four schedulers: step 2 of boundaries 1, 2, 3 uses the third
scheduler at step 0 instead of the second at step 1. -/
theorem C52_violated_late :
    ∃ m : MultiLR Int (Nat × Int), MultiLR.init [1, 2, 3]
        [fun s => (0, s), fun s => (1, s), fun s => (2, s), fun s => (3, s)] = .ok m ∧
      InInterval [1, 2, 3] 1 (2 : Int) ∧ m.call false 2 = .ok (1, 1) ∧ m.call true 2 = .ok (2, 0) := by
  refine ⟨⟨[1, 2, 3], [fun s => (0, s), fun s => (1, s), fun s => (2, s), fun s => (3, s)]⟩,
    by simp [MultiLR.init], ⟨by simp, by simp, by simp⟩, by decide, by decide⟩

-- the boundaries of the configuration files
example : ([10000, 1000000] : List Int).Pairwise (· < ·) ∧ ([10000, 1000000] : List Int) ≠ [] ∧
    InInterval [10000, 1000000] 1 (10001 : Int) := by
  refine ⟨by simp, by simp, ⟨by simp, by simp, by simp⟩⟩
example : (MultiLR.mk [10000, 1000000] [fun s : Int => (0, s), fun s => (1, s), fun s => (2, s)]).call
    false 10001 = .ok ((1 : Nat), 1) := by decide

/-! ## C54: ensembles -/

section
variable {V D : Type} [DecidableEq V]

theorem checkHandler_iff {handler : Cfg V} {m : Mdl V D} (hh : WF handler) (hm : WF m.conf) :
    checkHandler handler m = .ok () ↔ HandlerFits handler m := by
  cases hm with
  | mk _ _ _ _ _ _ _ hrec =>
  unfold checkHandler HandlerFits
  cases ht : Dict.get? m.conf.subs "data_trafo" with
  | none => simp
  | some t =>
    have wt : WF t := hrec _ _ (Dict.mem_of_get? ht)
    simp only [initChecks_of_wf wt]
    cases hd : Dict.get? t.subs "data_handler" with
    | none => simp [hd]
    | some h =>
      have wh : WF h := by
        cases wt with
        | mk _ _ _ _ _ _ _ hrec' => exact hrec' _ _ (Dict.mem_of_get? hd)
      simp only [initChecks_of_wf wh]
      rcases C03_is_compatible_decides handler h hh wh with hc | hc
      · simp only [hc.1]
        exact ⟨fun _ => ⟨t, h, rfl, hd, hc.2⟩, fun _ => trivial⟩
      · simp only [hc.1]
        constructor
        · intro x; cases x
        · rintro ⟨t', h', e1, e2, hc'⟩
          cases e1
          rw [hd] at e2
          cases e2
          exact absurd hc' hc.2

theorem checkSubs_iff {handler : Cfg V} (hh : WF handler) (ms : List (Mdl V D)) :
    ∀ i : Nat, (∀ m ∈ ms, WF m.conf) →
    (checkSubs handler (modelEntries i ms) = .ok () ↔ ∀ m ∈ ms, HandlerFits handler m) := by
  induction ms with
  | nil => intro i _; simp [modelEntries, checkSubs]
  | cons m ms ih =>
    intro i h
    have e := checkHandler_iff (m := m) hh (h m (by simp))
    have ih := ih (i + 1) (fun x hx => h x (by simp [hx]))
    rw [modelEntries, checkSubs]
    cases hc : checkHandler handler m with
    | error x => 
      rw [hc] at e
      simp only [List.forall_mem_cons, ← e]
      simp
    | ok u =>
      rw [hc] at e
      simp only [List.forall_mem_cons, ← e, ih]
      simp

theorem checkData_iff (differ : D → D → Except Err Bool) (other : Dict String D) :
    ∀ l : Dict String D, l.Ok → (∀ k, k ∈ l.keys → k ∈ other.keys) →
    (checkData differ other l = .ok () ↔
      ∀ k x y, Dict.get? l k = some x → Dict.get? other k = some y → differ x y = .ok false)
  | [], _, _ => by simp [checkData]
  | (k, v) :: rest, hok, hsub => by
    have hok' : Dict.Ok rest := (List.nodup_cons.1 hok).2
    have hk : k ∉ Dict.keys rest := (List.nodup_cons.1 hok).1
    have ih := checkData_iff differ other rest hok' (fun k' h => hsub k' (by simp [h]))
    obtain ⟨w, hw⟩ : ∃ w, Dict.get? other k = some w := by
      have := (Dict.get?_isSome_iff other k).2 (hsub k (by simp))
      exact Option.isSome_iff_exists.1 this
    have split : (∀ k' x y, Dict.get? ((k, v) :: rest) k' = some x → Dict.get? other k' = some y →
        differ x y = .ok false) ↔ differ v w = .ok false ∧
        ∀ k' x y, Dict.get? rest k' = some x → Dict.get? other k' = some y →
        differ x y = .ok false := by
      constructor
      · intro h
        refine ⟨h k v w (by simp [Dict.get?_cons]) hw, fun k' x y h1 h2 => h k' x y ?_ h2⟩
        rw [Dict.get?_cons, if_neg]
        · exact h1
        · rintro rfl
          exact hk ((Dict.get?_isSome_iff _ _).1 (by simp [h1]))
      · rintro ⟨h1, h2⟩ k' x y e1 e2
        rw [Dict.get?_cons] at e1
        split at e1
        · rename_i hkk
          subst hkk
          cases e1
          rw [hw] at e2
          cases e2
          exact h1
        · exact h2 k' x y e1 e2
    rw [split, checkData, hw]
    simp only
    cases hd : differ v w with
    | error e => simp
    | ok b => cases b <;> simp [ih]

theorem checkLoop_iff (differ : D → D → Except Err Bool) (first : Mdl V D) (hf : WF first.trafo)
    (hd : first.data.Ok) : ∀ ms : List (Mdl V D), (∀ m ∈ ms, WF m.trafo) →
    (checkLoop differ first ms = .ok () ↔
      ∀ m ∈ ms, m.names = first.names ∧ TrafoFits differ first m)
  | [], _ => by simp [checkLoop]
  | m :: ms, h => by
    have ih := checkLoop_iff differ first hf hd ms (fun x hx => h x (by simp [hx]))
    rw [checkLoop, List.forall_mem_cons]
    by_cases hn : first.names = m.names
    · rw [if_neg (by simpa using hn)]
      rcases C03_is_compatible_decides first.trafo m.trafo hf (h m (by simp)) with hc | hc
      · simp only [hc.1]
        have hkeys : ((Dict.keys first.data).all (fun k => Dict.has m.data k) &&
            (Dict.keys m.data).all (fun k => Dict.has first.data k)) = true ↔
            ∀ k, k ∈ Dict.keys first.data ↔ k ∈ Dict.keys m.data := by
          simp only [Bool.and_eq_true, List.all_eq_true, Dict.has_iff]
          exact ⟨fun h k => ⟨h.1 k, h.2 k⟩, fun h => ⟨fun k => (h k).1, fun k => (h k).2⟩⟩
        by_cases hk : ∀ k, k ∈ Dict.keys first.data ↔ k ∈ Dict.keys m.data
        · rw [hkeys.2 hk]
          simp only [Bool.not_true, Bool.false_eq_true, if_false]
          have e := checkData_iff differ m.data first.data hd (fun k => (hk k).1)
          cases hx : checkData differ m.data first.data with
          | error e' =>
            rw [hx] at e
            simp only
            constructor
            · intro x; cases x
            · rintro ⟨⟨_, _, _, h3⟩, _⟩
              exact absurd (e.2 h3) (by simp)
          | ok u =>
            rw [hx] at e
            simp only [ih]
            exact ⟨fun h => ⟨⟨hn.symm, hc.2, hk, e.1 rfl⟩, h⟩, fun h => h.2⟩
        · have : ((Dict.keys first.data).all (fun k => Dict.has m.data k) &&
            (Dict.keys m.data).all (fun k => Dict.has first.data k)) = false := by
            rw [← Bool.not_eq_true]; exact fun h => hk (hkeys.1 h)
          rw [this]
          simp only [Bool.not_false, if_true]
          constructor
          · intro x; cases x
          · rintro ⟨⟨_, _, h2, _⟩, _⟩; exact absurd h2 hk
      · simp only [hc.1]
        constructor
        · intro x; cases x
        · rintro ⟨⟨_, h1, _⟩, _⟩; exact absurd h1 hc.2
    · rw [if_pos (by simpa using hn)]
      constructor
      · intro x; cases x
      · rintro ⟨⟨h1, _⟩, _⟩; exact absurd h1.symm hn

/-- C54. A manager is configured exactly if there is at least one model, the data handler of every
model is compatible with the given one, and every model has the parameter names of the first and a
data transformation that agrees with that of the first. (`WF`: configurations made by the
constructor.) -/
theorem C54_configured (differ : D → D → Except Err Bool) (handler : Cfg V) (ms : List (Mdl V D))
    (hh : WF handler) (hm : ∀ m ∈ ms, WF m.conf ∧ WF m.trafo ∧ Dict.Ok m.data) :
    (∃ subs, configure differ handler ms = .ok subs) ↔
    ∃ first rest, ms = first :: rest ∧ (∀ m ∈ ms, HandlerFits handler m) ∧
      ∀ m ∈ ms, m.names = first.names ∧ TrafoFits differ first m := by
  have e := checkSubs_iff hh ms 0 (fun m h => (hm m h).1)
  unfold configure
  simp only [checkSubs]
  cases hc : checkSubs handler (modelEntries 0 ms) with
  | error x =>
    rw [hc] at e
    simp only
    constructor
    · rintro ⟨_, h⟩; cases h
    · rintro ⟨_, _, _, h, _⟩; exact absurd (e.2 h) (by simp)
  | ok u =>
    rw [hc] at e
    simp only
    cases ms with
    | nil => simp [checkEnsemble]
    | cons m ms =>
      have e2 := checkLoop_iff differ m (hm m (by simp)).2.1 (hm m (by simp)).2.2 (m :: ms)
        (fun x hx => (hm x hx).2.1)
      rw [checkEnsemble]
      cases hl : checkLoop differ m (m :: ms) with
      | error x =>
        rw [hl] at e2
        constructor
        · rintro ⟨_, h⟩; cases h
        · rintro ⟨f, r, hcons, _, h⟩
          cases hcons
          exact absurd (e2.2 h) (by simp)
      | ok u =>
        rw [hl] at e2
        exact ⟨fun _ => ⟨m, ms, rfl, e.1 rfl, e2.1 rfl⟩, fun _ => ⟨_, rfl⟩⟩

/-- C54. All models of a configured manager have the same parameter names, and the data
transformations of any two of them are compatible, if mutable sub components are determined by the
class, as in the code base. -/
theorem C54_homogeneous (differ : D → D → Except Err Bool) (handler : Cfg V) (ms : List (Mdl V D))
    (subs : Dict String (Sub V D)) (f : String → List String)
    (hh : WF handler) (hm : ∀ m ∈ ms, WF m.conf ∧ WF m.trafo ∧ Dict.Ok m.data)
    (hmut : ∀ m ∈ ms, MutsByClass f m.trafo)
    (h : configure differ handler ms = .ok subs) :
    ∀ a ∈ ms, ∀ b ∈ ms, a.names = b.names ∧ Compat a.trafo b.trafo ∧
      ∀ k, k ∈ Dict.keys a.data ↔ k ∈ Dict.keys b.data := by
  obtain ⟨first, rest, rfl, _, h2⟩ := (C54_configured differ handler ms hh hm).1 ⟨subs, h⟩
  intro a ha b hb
  obtain ⟨na, ca, ka, _⟩ := h2 a ha
  obtain ⟨nb, cb, kb, _⟩ := h2 b hb
  refine ⟨na.trans nb.symm, ?_, fun k => (ka k).symm.trans (kb k)⟩
  have hf : first ∈ first :: rest := by simp
  have hs : Compat a.trafo first.trafo := ca.symm_of (hmut _ hf) (hmut a ha)
  exact hs.trans_of cb (hm _ hf).2.1 (hmut a ha) (hmut _ hf)

theorem configure_eq {differ : D → D → Except Err Bool} {handler : Cfg V} {ms : List (Mdl V D)}
    {subs : Dict String (Sub V D)} (h : configure differ handler ms = .ok subs) :
    subs = ("data_handler", .handler handler) :: modelEntries 0 ms ∧ ms ≠ [] := by
  unfold configure at h
  simp only at h
  split at h
  · cases h
  · split at h
    · cases h
    · cases h
      refine ⟨rfl, ?_⟩
      rintro rfl
      simp_all [checkEnsemble]

omit [DecidableEq V] in
theorem has_first (handler : Cfg V) {ms : List (Mdl V D)} (hne : ms ≠ []) :
    Dict.has (("data_handler", Sub.handler handler) :: modelEntries 0 ms) "models_0000" = true := by
  rw [Dict.has_iff, Dict.keys_cons, keys_modelEntries]
  obtain ⟨m, ms, rfl⟩ := List.exists_cons_of_ne_nil hne
  rw [List.length_cons, List.range'_succ, List.map_cons]
  have : "models_" ++ pad4 0 = "models_0000" := by rfl
  simp [this]

/-- C54. Up to ten thousand models keep their order. Missing: larger ensembles, see
`C54_violated_order`. -/
theorem C54_order_partial (differ : D → D → Except Err Bool) (handler : Cfg V) (ms : List (Mdl V D))
    (subs : Dict String (Sub V D)) (h : configure differ handler ms = .ok subs)
    (hlen : ms.length ≤ 10000) : models subs = some (ms.map Sub.model) := by
  obtain ⟨rfl, hne⟩ := configure_eq h
  unfold models
  rw [if_pos (has_first handler hne), model_keys, sortBy_of_pairwise, collect_models]
  · congr 1
    have key : ∀ (l pre : List (Mdl V D)), (List.range' pre.length l.length).filterMap
        (fun j => ((pre ++ l)[j]?).map Sub.model) = l.map Sub.model := by
      intro l
      induction l with
      | nil => intro pre; simp
      | cons m l ih =>
        intro pre
        have := ih (pre ++ [m])
        rw [List.length_cons, List.range'_succ, List.filterMap_cons]
        simp only [List.getElem?_append_right (Nat.le_refl _), Nat.sub_self, List.getElem?_cons_zero,
          Option.map_some, List.map_cons]
        simp only [List.length_append, List.length_cons, List.length_nil, List.append_assoc,
          List.cons_append, List.nil_append] at this
        rw [this]
    have := key ms []
    simpa [List.range_eq_range'] using this
  · intro j hj; simpa using hj
  · rw [List.pairwise_map]
    have := List.pairwise_lt_range (n := ms.length)
    refine List.Pairwise.imp_of_mem ?_ this
    intro a b _ hb hab
    simp only [decide_eq_true_eq]
    exact (name_lt hab (by simp at hb; omega)).le

/-- A model of an ensemble that differs from the others only in the recorded version. -/
def exModel (h : Cfg V) (i : Nat) : Mdl V D :=
  { names := ["x"]
    conf := ⟨pad4 i, "", "Model", [], [], [],
      [("data_trafo", ⟨"", "", "Trafo", [], [], [], [("data_handler", h)], [], []⟩)], [], []⟩
    trafo := ⟨"", "", "Trafo", [], [], [], [("data_handler", h)], [], []⟩
    data := [] }

omit [DecidableEq V] in
theorem exModel_wf {h : Cfg V} (hh : WF h) (i : Nat) :
    WF (exModel (D := D) h i).conf ∧ WF (exModel (D := D) h i).trafo ∧
      Dict.Ok (exModel (D := D) h i).data := by
  have ht : WF (exModel (D := D) h i).trafo := by
    refine WF.mk _ ?_ ?_ ?_ ?_ ?_ ?_ ?_ <;> simp [exModel, Dict.Ok, Dict.keys, hh]
  refine ⟨?_, ht, by simp [exModel, Dict.Ok, Dict.keys]⟩
  refine WF.mk _ ?_ ?_ ?_ ?_ ?_ ?_ ?_ <;> simp [exModel, Dict.Ok, Dict.keys]
  exact ht

theorem exModel_configured (differ : D → D → Except Err Bool) {h : Cfg V} (hh : WF h) (n : Nat)
    (hn : 0 < n) :
    ∃ subs, configure differ h ((List.range n).map (exModel (D := D) h)) = .ok subs := by
  rw [C54_configured differ h _ hh]
  · obtain ⟨k, rfl⟩ : ∃ k, n = k + 1 := ⟨n - 1, by omega⟩
    rw [List.range_succ_eq_map, List.map_cons]
    refine ⟨_, _, rfl, ?_, ?_⟩
    · intro m hm
      obtain ⟨i, rfl⟩ : ∃ i, m = exModel (D := D) h i := by
        simp only [List.mem_cons, List.mem_map] at hm
        rcases hm with rfl | ⟨i, _, rfl⟩ <;> exact ⟨_, rfl⟩
      exact ⟨_, h, rfl, rfl, Compat.refl hh⟩
    · intro m hm
      obtain ⟨i, rfl⟩ : ∃ i, m = exModel (D := D) h i := by
        simp only [List.mem_cons, List.mem_map] at hm
        rcases hm with rfl | ⟨i, _, rfl⟩ <;> exact ⟨_, rfl⟩
      refine ⟨rfl, ?_, fun k => Iff.rfl, fun k x y e => by simp [exModel] at e⟩
      exact Compat.refl (exModel_wf (D := D) hh 0).2.1
  · intro m hm
    obtain ⟨i, _, rfl⟩ := List.mem_map.1 hm
    exact exModel_wf hh i

/-- C54 is false for more than ten thousand models: there is an ensemble that is configured and
whose models are returned in another order (`models_10000` is sorted before `models_9999`). -/
theorem C54_violated_order (differ : D → D → Except Err Bool) {h : Cfg V} (hh : WF h) (n : Nat)
    (hn : 10000 < n) :
    ∃ subs, configure differ h ((List.range n).map (exModel (D := D) h)) = .ok subs ∧
      models subs ≠ some (((List.range n).map (exModel h)).map Sub.model) := by
  obtain ⟨subs, hs⟩ := exModel_configured (D := D) differ hh n (by omega)
  refine ⟨subs, hs, ?_⟩
  obtain ⟨rfl, hne⟩ := configure_eq hs
  unfold models
  rw [if_pos (has_first h hne), model_keys, List.length_map, List.length_range]
  intro heq
  have heq := Option.some.inj heq
  -- the sorted names
  obtain ⟨sorted, hsd⟩ : ∃ l, l = sortBy (fun a b : String => decide (a ≤ b))
      ((List.range n).map (fun j => "models_" ++ pad4 j)) := ⟨_, rfl⟩
  have hperm : sorted.Perm ((List.range n).map (fun j => "models_" ++ pad4 j)) := by
    rw [hsd]; exact perm_sortBy _ _
  have hpw : sorted.Pairwise (fun a b => decide (a ≤ b) = true) := by
    rw [hsd]
    exact pairwise_sortBy _ (fun a b c h1 h2 => by
      simp only [decide_eq_true_eq] at *; exact h1.trans h2)
      (fun a b => by simpa using le_total a b) _
  rw [← hsd] at heq
  let decode : String → Nat := fun s => Nat.ofDigitChars 10 (s.toList.drop 7) 0
  have hdec : ∀ j, decode ("models_" ++ pad4 j) = j := by
    intro j
    simp only [decode, String.toList_append]
    rw [List.drop_left' (by rfl)]
    exact pad4_val j
  have hmem : ∀ s ∈ sorted, ∃ j, j < n ∧ s = "models_" ++ pad4 j := by
    intro s hs
    obtain ⟨j, hj, rfl⟩ := List.mem_map.1 (hperm.mem_iff.1 hs)
    exact ⟨j, by simpa using hj, rfl⟩
  have hback : (sorted.map decode).map (fun j => "models_" ++ pad4 j) = sorted := by
    rw [List.map_map]
    conv_rhs => rw [← List.map_id sorted]
    apply List.map_congr_left
    intro s hs
    obtain ⟨j, _, rfl⟩ := hmem s hs
    simp [hdec]
  have hlt : ∀ j ∈ sorted.map decode, j < n := by
    intro j hj
    obtain ⟨s, hs, rfl⟩ := List.mem_map.1 hj
    obtain ⟨j, hj, rfl⟩ := hmem s hs
    rwa [hdec]
  rw [← hback, collect_models h _ _ (by simpa using hlt)] at heq
  have e1 : (sorted.map decode).filterMap (fun j =>
      (((List.range n).map (exModel (D := D) h))[j]?).map Sub.model) =
      (sorted.map decode).map (fun j => Sub.model (exModel h j)) := by
    have key : ∀ l : List Nat, (∀ j ∈ l, j < n) → l.filterMap (fun j =>
        (((List.range n).map (exModel (D := D) h))[j]?).map Sub.model) =
        l.map (fun j => Sub.model (exModel h j)) := by
      intro l
      induction l with
      | nil => intro _; rfl
      | cons j l ih =>
        intro hl
        have hj := hl j (by simp)
        rw [List.filterMap_cons, List.map_cons, ← ih (fun k hk => hl k (by simp [hk]))]
        simp [hj]
    exact key _ hlt
  rw [e1, List.map_map (l := List.range n)] at heq
  have hinj : Function.Injective (fun j => (Sub.model (exModel h j) : Sub V D)) := by
    intro a b hab
    simp only [Sub.model.injEq] at hab
    have : pad4 a = pad4 b := congrArg (fun m => m.conf.version) hab
    rw [← pad4_val a, ← pad4_val b, this]
  have hl : sorted.map decode = List.range n := List.map_injective_iff.2 hinj heq
  rw [← hback, hl, List.pairwise_map, List.pairwise_iff_getElem] at hpw
  have := hpw 9999 10000 (by simp; omega) (by simp; omega) (by omega)
  simp only [List.getElem_range, decide_eq_true_eq] at this
  refine absurd this (not_le.2 ?_)
  rw [String.lt_iff_toList_lt]
  have d1 : ("models_" ++ pad4 9999).toList = "models_9999".toList := by rfl
  have d2 : ("models_" ++ pad4 10000).toList = "models_10000".toList := by rfl
  rw [d1, d2]
  decide

/-- An ensemble of three models. -/
example (differ : D → D → Except Err Bool) {h : Cfg V} (hh : WF h) :
    ∃ subs, configure differ h [exModel (D := D) h 0, exModel h 1, exModel h 2] = .ok subs :=
  exModel_configured differ hh 3 (by omega)
end

example : configure (V := Nat) (D := Nat) (fun a b => .ok (a != b)) exCfg
    [exModel exCfg 0, { exModel exCfg 1 with names := ["y"] }] = .error .valueError := by rfl

/-! ## C55: gradients and variables -/

section
variable {W G C : Type}

theorem assertFinite_ok {tf : TF G C} : ∀ {l : List (Option G)} {gs : List G},
    assertFinite tf l = .ok gs → l = gs.map some ∧ ∀ g ∈ gs, tf.finite g = true
  | [], gs, h => by cases h; simp
  | none :: _, gs, h => by cases h
  | some g :: rest, gs, h => by
    rw [assertFinite] at h
    cases hr : assertFinite tf rest with
    | error e => rw [hr] at h; cases h
    | ok gs' =>
      rw [hr] at h
      simp only at h
      obtain ⟨h1, h2⟩ := assertFinite_ok hr
      split at h
      · cases h
        rename_i hf
        refine ⟨by rw [h1]; rfl, ?_⟩
        intro x hx
        rcases List.mem_cons.1 hx with rfl | hx
        · exact hf
        · exact h2 x hx
      · cases h

theorem assertFinite_some {tf : TF G C} : ∀ {gs : List G}, (∀ g ∈ gs, tf.finite g = true) →
    assertFinite tf (gs.map some) = .ok gs
  | [], _ => rfl
  | g :: gs, h => by
    rw [List.map_cons, assertFinite, assertFinite_some (fun x hx => h x (by simp [hx]))]
    simp [h g (by simp)]

theorem applyGradients_eq (upd : W → G → W) : ∀ (gs : List G) (ws : List W),
    gs.length = ws.length → applyGradients upd gs ws = List.zipWith upd ws gs
  | [], [], _ => rfl
  | [], _ :: _, h => by simp at h
  | _ :: _, [], h => by simp at h
  | g :: gs, w :: ws, h => by
    simp [applyGradients, applyGradients_eq upd gs ws (by simpa using h)]

/-- C55. Without the removal of nan a step succeeds exactly if there is a variable, all variables
have a gradient, and all (clipped) gradients are finite; then every variable is updated with its own
(clipped) gradient. -/
theorem C55_own_gradient_partial (tf : TF G C) (upd : W → G → W) (clip : Option C)
    (vars : List W) (grads : List (Option G)) (hl : grads.length = vars.length) (new : List W) :
    trainingStep tf upd false clip vars grads = .ok new ↔
    ∃ gs : List G, grads = gs.map some ∧ gs ≠ [] ∧
      (∀ g ∈ gs, tf.finite (clipped tf clip grads g) = true) ∧
      new = List.zipWith (fun w g => upd w (clipped tf clip grads g)) vars gs := by
  unfold trainingStep
  simp only [Bool.false_eq_true, if_false]
  have hcap : capGradients tf clip grads = grads.map (Option.map (clipped tf clip grads)) := by
    cases clip with
    | none => 
      have : clipped tf none grads = id := rfl
      rw [this]; simp [capGradients]
    | some c => rfl
  rw [hcap]
  constructor
  · intro h
    cases ha : assertFinite tf (grads.map (Option.map (clipped tf clip grads))) with
    | error e => rw [ha] at h; cases h
    | ok gs' =>
      rw [ha] at h
      simp only at h
      obtain ⟨h1, h2⟩ := assertFinite_ok ha
      split at h
      · cases h
      · rename_i hne
        cases h
        have hall : ∀ g ∈ grads, ∃ x, g = some x := by
          intro g hg
          have : Option.map (clipped tf clip grads) g ∈ gs'.map some := by
            rw [← h1]; exact List.mem_map_of_mem hg
          obtain ⟨y, _, hy⟩ := List.mem_map.1 this
          cases g with
          | none => simp at hy
          | some x => exact ⟨x, rfl⟩
        obtain ⟨gs, hgs⟩ : ∃ gs : List G, grads = gs.map some := by
          refine ⟨grads.filterMap id, ?_⟩
          have : ∀ l : List (Option G), (∀ g ∈ l, ∃ x, g = some x) → l = (l.filterMap id).map some := by
            intro l
            induction l with
            | nil => intro _; rfl
            | cons a l ih =>
              intro h
              obtain ⟨x, rfl⟩ := h a (by simp)
              have := ih (fun g hg => h g (by simp [hg]))
              rw [List.filterMap_cons_some (f := id) (a := some x) (b := x) rfl, List.map_cons, ← this]
          exact this grads hall
        have hg' : gs' = gs.map (clipped tf clip grads) := by
          have h1 : (gs.map some).map (Option.map (clipped tf clip grads)) = gs'.map some := by
            rw [← hgs]; exact h1
          rw [List.map_map] at h1
          have : (gs.map (clipped tf clip grads)).map some = gs'.map some := by
            rw [List.map_map]; exact h1
          exact (List.map_injective_iff.2 (Option.some_injective _) this).symm
        have hlen : gs.length = vars.length := by rw [← hl, hgs]; simp
        refine ⟨gs, hgs, ?_, ?_, ?_⟩
        · rintro rfl; exact hne (by simp [hg'])
        · intro g hg
          exact h2 _ (by rw [hg']; exact List.mem_map_of_mem hg)
        · rw [applyGradients_eq upd gs' vars (by rw [hg']; simpa using hlen), hg',
            List.zipWith_map_right]
  · rintro ⟨gs, hgs, hne, hfin, rfl⟩
    have e : grads.map (Option.map (clipped tf clip grads)) =
        (gs.map (clipped tf clip grads)).map some := by
      conv_lhs => rw [hgs]
      rw [List.map_map, List.map_map]
      apply List.map_congr_left
      intro g _
      simp [← hgs]
    have hlen : gs.length = vars.length := by rw [← hl, hgs]; simp
    rw [e, assertFinite_some (by
      intro g hg
      obtain ⟨x, hx, rfl⟩ := List.mem_map.1 hg
      exact hfin x hx)]
    simp only
    rw [if_neg (by simpa using hne), applyGradients_eq _ _ _ (by simpa using hlen),
      List.zipWith_map_right]

/-- C55. A missing gradient, without the removal of nan, raises and nothing is updated. -/
theorem C55_missing (tf : TF G C) (upd : W → G → W) (clip : Option C)
    (vars : List W) (grads : List (Option G)) (hl : grads.length = vars.length)
    (h : none ∈ grads) : ∃ e, trainingStep tf upd false clip vars grads = .error e := by
  cases hs : trainingStep tf upd false clip vars grads with
  | error e => exact ⟨e, rfl⟩
  | ok new =>
    obtain ⟨gs, hgs, _⟩ := (C55_own_gradient_partial tf upd clip vars grads hl new).1 hs
    rw [hgs] at h
    simp at h

/-- C55. With the removal of nan, in TensorFlow 2, no step ever succeeds: `tf.is_nan` does not
exist. -/
theorem C55_removal_refused (tf : TF G C) (upd : W → G → W) (clip : Option C) (vars : List W)
    (grads : List (Option G)) (h : tf.isNan = false) :
    ∃ e, trainingStep tf upd true clip vars grads = .error e := by
  unfold trainingStep removeNan
  simp only [if_true]
  cases hg : grads.filterMap id with
  | nil =>
    cases clip <;> exact ⟨.valueError, by simp [assertFinite, capGradients]⟩
  | cons g gs => exact ⟨.attributeError, by simp [h]⟩

/-- C55. With the removal of nan, in a TensorFlow that has `tf.is_nan`, if every variable has a
gradient: each variable is updated with its own gradient with nan replaced by zero. Missing:
variables without gradient, see `C55_violated`. -/
theorem C55_removal_partial (tf : TF G C) (upd : W → G → W) (vars : List W) (gs : List G)
    (hl : gs.length = vars.length) (h : tf.isNan = true) (hne : gs ≠ [])
    (hf : ∀ g ∈ gs, tf.finite (tf.clean g) = true) :
    trainingStep tf upd true none vars (gs.map some) =
      .ok (List.zipWith (fun w g => upd w (tf.clean g)) vars gs) := by
  unfold trainingStep removeNan
  have e : (gs.map some).filterMap id = gs := by simp [List.filterMap_map]
  simp only [if_true, e]
  obtain ⟨g, gs', rfl⟩ := List.exists_cons_of_ne_nil hne
  simp only [h, if_true, capGradients]
  have e2 : (g :: gs').map (fun g => some (tf.clean g)) = ((g :: gs').map tf.clean).map some := by
    rw [List.map_map]; rfl
  rw [e2, assertFinite_some (by
    intro x hx
    obtain ⟨y, hy, rfl⟩ := List.mem_map.1 hx
    exact hf y hy)]
  simp only
  rw [if_neg (by simp), applyGradients_eq _ _ _ (by simpa using hl), List.zipWith_map_right]
end

/-- C55 is false with the removal of nan in a TensorFlow that has `tf.is_nan`: if the first variable
has no gradient it is updated with the gradient of the second, which keeps its value. -/
theorem C55_violated :
    trainingStep (W := Int × Int) (C := Unit) ⟨true, id, fun _ _ g => g, fun _ => true⟩
      (fun w g => (w.1, w.2 - g)) true none [(1, 10), (2, 20)] [none, some 7] =
      .ok [(1, 3), (2, 20)] := by decide

example : trainingStep (W := Int) (C := Int) ⟨false, id, fun c _ g => min c g, fun _ => true⟩
    (fun w g => w - g) false (some 5) [10, 20] [some 3, some 7] = .ok [7, 15] := by decide

/-! ## C71: the regularization -/

section
variable {K : Type} [CommRing K] [LinearOrder K] [IsStrictOrderedRing K]

omit [LinearOrder K] [IsStrictOrderedRing K] in
theorem sum_flatten_map (f : K → K) (vars : List (List K)) :
    (vars.map (fun v => (v.map f).sum)).sum = (vars.flatten.map f).sum := by
  induction vars with
  | nil => simp
  | cons v vars ih => simp [ih]

omit [IsStrictOrderedRing K] in
/-- C71. The regularization loss for at least one variable: each coefficient that is positive counts
as one. -/
theorem C71_switch (l1 l2 : K) (vars : List (List K)) (h : vars ≠ []) :
    regLoss l1 l2 vars =
      .ok (weighted (if 0 < l1 then 1 else 0) (if 0 < l2 then 1 else 0) vars) := by
  obtain ⟨v, vs, rfl⟩ := List.exists_cons_of_ne_nil h
  have e : ∀ f : K → K, addN ((v :: vs).map (fun v => (v.map f).sum)) =
      .ok (((v :: vs).flatten.map f).sum) := by
    intro f
    rw [← sum_flatten_map]
    rfl
  unfold regLoss weighted
  rw [e, e]
  by_cases h1 : 0 < l1 <;> by_cases h2 : 0 < l2 <;> simp [h1, h2]

/-- C71. With coefficients 0 or 1 the regularization is the one asked for. Missing: other
coefficients, see `C71_violated`. -/
theorem C71_weighted_partial (l1 l2 : K) (vars : List (List K)) (h : vars ≠ [])
    (h1 : l1 = 0 ∨ l1 = 1) (h2 : l2 = 0 ∨ l2 = 1) :
    regLoss l1 l2 vars = .ok (weighted l1 l2 vars) := by
  rw [C71_switch l1 l2 vars h]
  rcases h1 with rfl | rfl <;> rcases h2 with rfl | rfl <;> simp

/-- C71 is false for other positive coefficients: whatever they are the loss is the same. -/
theorem C71_violated (l1 l2 : K) (h1 : 0 < l1) (hne : l1 ≠ 1) (vars : List (List K))
    (h : 0 < (vars.flatten.map (fun x => |x|)).sum) (h2 : l2 = 0) :
    regLoss l1 l2 vars = .ok (weighted 1 0 vars) ∧ weighted 1 0 vars ≠ weighted l1 l2 vars := by
  subst h2
  have hv : vars ≠ [] := by rintro rfl; simp at h
  constructor
  · rw [C71_switch l1 0 vars hv]; simp [h1]
  · unfold weighted
    intro he
    simp only [one_mul, zero_mul, add_zero] at he
    rcases lt_or_gt_of_ne hne with hlt | hgt
    · nlinarith
    · nlinarith

omit [IsStrictOrderedRing K] in
/-- C71. A positive coefficient and no variables: an exception. -/
theorem C71_no_variables (l1 l2 : K) :
    regLoss l1 l2 ([] : List (List K)) = if 0 < l1 ∨ 0 < l2 then .error .valueError else .ok 0 := by
  unfold regLoss addN
  by_cases h1 : 0 < l1 <;> by_cases h2 : 0 < l2 <;> simp [h1, h2]

omit [IsStrictOrderedRing K] in
/-- C71. The loss of an ensemble is the sum over the models of the loss of the model and its
regularization. -/
theorem C71_ensemble (l1 l2 : K) (ms : List (K × List (List K))) (hne : ms ≠ [])
    (hv : ∀ m ∈ ms, m.2 ≠ []) :
    getLoss l1 l2 none (ms.map (fun m => (.ok m.1, m.2))) =
      .ok (some ((ms.map (fun m =>
        m.1 + weighted (if 0 < l1 then 1 else 0) (if 0 < l2 then 1 else 0) m.2)).sum)) := by
  have key : ∀ (ms : List (K × List (List K))) (a : K), (∀ m ∈ ms, m.2 ≠ []) →
      getLoss l1 l2 (some a) (ms.map (fun m => (.ok m.1, m.2))) =
      .ok (some (a + (ms.map (fun m =>
        m.1 + weighted (if 0 < l1 then 1 else 0) (if 0 < l2 then 1 else 0) m.2)).sum)) := by
    intro ms
    induction ms with
    | nil => intro a _; simp [getLoss]
    | cons m ms ih =>
      intro a h
      simp only [List.map_cons, getLoss]
      rw [C71_switch l1 l2 m.2 (h m (by simp))]
      simp only
      rw [ih _ (fun x hx => h x (by simp [hx])), List.sum_cons, add_assoc]
  obtain ⟨m, ms, rfl⟩ := List.exists_cons_of_ne_nil hne
  simp only [List.map_cons, getLoss]
  rw [C71_switch l1 l2 m.2 (hv m (by simp))]
  simp only
  rw [key _ _ (fun x hx => hv x (by simp [hx])), List.sum_cons]

omit [IsStrictOrderedRing K] in
/-- C71. An exception of a loss is passed on. -/
theorem C71_error (l1 l2 : K) (acc : Option K) (e : Err) (vars : List (List K))
    (rest : List (Except Err K × List (List K))) :
    getLoss l1 l2 acc ((.error e, vars) :: rest) = .error e := rfl
end

example : regLoss (1/2 : ℚ) 0 [[1, -2], [3]] = .ok 6 := by
  rw [C71_switch _ _ _ (by simp)]; simp [weighted]; norm_num

end Verif.Training
