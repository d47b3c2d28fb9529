import Verif.Sources.Lemmas
import Verif.Sources.Spec
import Mathlib.MeasureTheory.Integral.Bochner.Basic
import Mathlib.MeasureTheory.Measure.Lebesgue.Basic
import Mathlib.Data.Rat.Defs
import Mathlib.Algebra.Field.Rat
import Mathlib.Tactic.NormNum
import Mathlib.Tactic.Positivity
import Mathlib.Tactic.FieldSimp

/-! # C30, C31, C32: sources and multi sources -/

namespace Verif.Sources
open Verif.Py

/-! ## C30 -/

/-- C30: with distinct parameter names, `get_index` and `get_name` are inverse to each other
between the names and `0, …, n-1`, and raise a KeyError for everything else. -/
theorem C30_inverse (names : List String) (hnd : names.Nodup) :
    (∀ i : Nat, ∀ n, names[i]? = some n →
      getIndex names n = .ok i ∧ getName names i = .ok n) ∧
    (∀ n, n ∉ names → getIndex names n = .error .keyError) ∧
    (∀ j : Int, j < 0 ∨ (names.length : Int) ≤ j → getName names j = .error .keyError) := by
  refine ⟨?_, ?_, ?_⟩
  · intro i n hi
    have hlt : i < names.length := by
      rw [List.getElem?_eq_some_iff] at hi
      exact hi.1
    have hidx : names.idxOf n = i := by
      rw [List.getElem?_eq_some_iff] at hi
      obtain ⟨h, rfl⟩ := hi
      exact hnd.idxOf_getElem i h
    constructor
    · unfold getIndex
      rw [nameDict_get? names 0 [] hnd, if_pos (List.mem_of_getElem? hi), hidx]
      simp
    · unfold getName
      rw [indexDict_get?, if_pos ⟨by omega, by omega⟩]
      simp [hi]
  · intro n hn
    unfold getIndex
    rw [nameDict_get? names 0 [] hnd, if_neg hn]
    rfl
  · intro j hj
    unfold getName
    rw [indexDict_get?, if_neg (by omega)]
    rfl

/-- C30: indexing a row of the right length by name selects the entry at the place of the name;
with any other length it raises a ValueError. -/
theorem C30_indexing {K : Type} (names : List String) (hnd : names.Nodup) (row : List K) :
    (row.length ≠ names.length → indexer row names = .error .valueError) ∧
    (row.length = names.length → ∃ d, indexer row names = .ok d ∧
      (∀ (i : Nat) (n : String), names[i]? = some n → Dict.get? d n = row[i]?) ∧
      ∀ n, n ∉ names → Dict.get? d n = none) := by
  constructor
  · intro h
    rw [indexer, if_pos h]
  · intro h
    obtain ⟨d, h1, h2⟩ := indexer_ok h hnd
    refine ⟨d, h1, ?_, ?_⟩
    · intro i n hi
      rw [h2, get?_zip hnd hi h]
    · intro n hn
      rw [h2, Dict.get?_eq_none_iff]
      intro hc
      rw [Dict.keys, List.map_fst_zip (by omega)] at hc
      exact hn hc

example : (["x", "y", "z", "energy"] : List String).Nodup := by decide
example : indexer [1, 2, 3] ["x", "y", "z"] = .ok [("x", 1), ("y", 2), ("z", 3)] := by decide

/-! ## C31 -/

/-- C31: for all sources whose bases exist there is one order of the sources, sorted by name, in
which the parameter names are the base parameters with prefix, and the parameters of a row of
that length are handed out: each source gets as many values as its base has parameters, the
values one after the other are the row, and the pairs of prefixed name and value of all the
sources are the pairs of name and value of the row. -/
theorem C31_partition {K : Type} (sources : Dict String String)
    (baseNames : Dict String (List String)) (hok : Dict.Ok sources)
    (hb : ∀ s b, (s, b) ∈ sources → b ∈ Dict.keys baseNames) :
    ∃ (own : String → List String) (l : List String),
      (∀ s b, (s, b) ∈ sources → Dict.get? baseNames b = some (own s)) ∧
      l.Perm (Dict.keys sources) ∧ l.Pairwise (· ≤ ·) ∧
      ∃ names, independentParameters sources baseNames = .ok names ∧
        names = l.flatMap (fun s => (own s).map fun v => s ++ "_" ++ v) ∧
        ∀ row : List K, row.length = names.length →
          ∃ slices, independentSlices sources baseNames row = .ok slices ∧
            Dict.keys slices = l ∧
            (slices.map Prod.snd).flatten = row ∧
            (∀ s v, (s, v) ∈ slices → v.length = (own s).length) ∧
            slices.flatMap (fun sv => ((own sv.1).map fun v => sv.1 ++ "_" ++ v).zip sv.2) =
              names.zip row := by
  have hmem : ∀ s ∈ sortedKeys sources, s ∈ Dict.keys sources :=
    fun s hs => (sortedKeys_perm sources).mem_iff.1 hs
  have hnd : (sortedKeys sources).Nodup := (sortedKeys_perm sources).nodup_iff.2 hok
  refine ⟨ownNames sources baseNames, sortedKeys sources, ?_, sortedKeys_perm sources,
    sortedKeys_sorted sources, _, independentLoop_ok hb _ hmem, rfl, ?_⟩
  · intro s b hs
    obtain ⟨b', vs, h1, h2, h3⟩ := lookup_of_exists hb (Dict.mem_keys_of_mem hs)
    rw [item_eq_ok, Dict.get?_of_mem hok hs, Option.some.injEq] at h1
    subst h1
    rw [h3]
    exact item_eq_ok.1 h2
  · intro row hrow
    have hlen : row.length =
        ((sortedKeys sources).flatMap fun s => ownNames sources baseNames s).length := by
      rw [hrow]
      simp [List.length_flatMap]
    refine ⟨slicesFrom sources baseNames row (sortedKeys sources), ?_, keys_slicesFrom _ _ _ _,
      flatten_slicesFrom _ _ _ _ hlen, (zip_slicesFrom _ _ _ _ hlen).2,
      (zip_slicesFrom _ _ _ _ hlen).1⟩
    unfold independentSlices
    rw [sliceLoop_ok hb row _ hmem hnd 0 [] (by simp)]
    simp

/-- C31: the order of the entries of the configuration does not matter. -/
theorem C31_order {K : Type} (sources sources' : Dict String String)
    (baseNames : Dict String (List String)) (hok : Dict.Ok sources)
    (hp : sources.Perm sources') (hb : ∀ s b, (s, b) ∈ sources → b ∈ Dict.keys baseNames)
    (row : List K) :
    independentParameters sources baseNames = independentParameters sources' baseNames ∧
      independentSlices sources baseNames row = independentSlices sources' baseNames row := by
  have hb' : ∀ s b, (s, b) ∈ sources' → b ∈ Dict.keys baseNames :=
    fun s b h => hb s b (hp.mem_iff.2 h)
  have hkeys : (Dict.keys sources).Perm (Dict.keys sources') := hp.map _
  have hok' : Dict.Ok sources' := hkeys.nodup_iff.1 hok
  have hsk : sortedKeys sources = sortedKeys sources' := sortedKeys_eq_of_perm hkeys
  have hmem : ∀ s ∈ sortedKeys sources, s ∈ Dict.keys sources :=
    fun s hs => (sortedKeys_perm sources).mem_iff.1 hs
  have hmem' : ∀ s ∈ sortedKeys sources, s ∈ Dict.keys sources' :=
    fun s hs => hkeys.mem_iff.1 (hmem s hs)
  have hnd : (sortedKeys sources).Nodup := (sortedKeys_perm sources).nodup_iff.2 hok
  have hget : ∀ s, Dict.get? sources s = Dict.get? sources' s := by
    intro s
    cases h : Dict.get? sources s with
    | some v => exact (Dict.get?_of_mem hok' (hp.mem_iff.1 (Dict.mem_of_get? h))).symm
    | none =>
      rw [Dict.get?_eq_none_iff] at h
      exact ((Dict.get?_eq_none_iff _ _).2 fun hc => h (hkeys.mem_iff.2 hc)).symm
  have hown : ownNames sources baseNames = ownNames sources' baseNames := by
    funext s
    simp [ownNames, hget]
  constructor
  · unfold independentParameters
    rw [← hsk, independentLoop_ok hb _ hmem, independentLoop_ok hb' _ hmem', hown]
  · unfold independentSlices
    rw [← hsk, sliceLoop_ok hb row _ hmem hnd 0 [] (by simp),
      sliceLoop_ok hb' row _ hmem' hnd 0 [] (by simp)]
    congr 2
    have : ∀ (l : List String) (row : List K),
        slicesFrom sources baseNames row l = slicesFrom sources' baseNames row l := by
      intro l
      induction l with
      | nil => intro _; rfl
      | cons s l ih => intro row; simp [slicesFrom, hown, ih]
    exact this _ _

/-- C31, a limit: the prefixed names of two different parameters of two sources can be equal.
Then a row of parameters cannot be indexed by these names: both names give the last value. -/
theorem C31_names_can_collide :
    ∃ (sources : Dict String String) (baseNames : Dict String (List String)),
      Dict.Ok sources ∧
      independentParameters sources baseNames = .ok ["a_b_c", "a_b_c"] ∧
      indexer [1, 2] ["a_b_c", "a_b_c"] = .ok [("a_b_c", 2)] := by
  refine ⟨[("a", "p"), ("a_b", "q")], [("p", ["b_c"]), ("q", ["c"])], by decide, ?_, by decide⟩
  decide

example : (∀ s b, (s, b) ∈ [("c1", "cascade"), ("c2", "cascade")] →
    b ∈ Dict.keys [("cascade", ["x", "y"])]) := by
  intro s b h
  simp at h
  rcases h with h | h <;> simp [h]

example : independentParameters [("c2", "cascade"), ("c1", "cascade"), ("n", "noise")]
    [("cascade", ["x", "y"]), ("noise", [])] = .ok ["c1_x", "c1_y", "c2_x", "c2_y"] := by decide

example : independentSlices [("c2", "cascade"), ("c1", "cascade"), ("n", "noise")]
    [("cascade", ["x", "y"]), ("noise", [])] [1, 2, 3, 4] =
      .ok [("c1", [1, 2]), ("c2", [3, 4]), ("n", [])] := by decide

/-! ## C32 -/

section
variable {V K D P : Type} [Field K]

/-- C32, what holds for every mapping: a successful evaluation is the superposition (with 1e-6
added to the total charge in the density) of predictions which are all made by one and the
same base: the last one in the order in which Python runs through the set of bases. All of these
have the right shapes. -/
theorem C32_last_base_partial (bases : Dict String (Base V K D P)) (sources : Dict String String)
    (names : List String) (split : List V → Except Err (Dict String (List V)))
    (order : List String) (ex : Bool) (pulseDom : P → D) (row : List V) (r : Result K D P)
    (ho : IsSetOrder order sources)
    (h : getTensors bases sources names split order ex pulseDom row = .ok r) :
    ∃ last b s outs, order.getLast? = some last ∧ Dict.get? bases last = some b ∧
      split row = .ok s ∧
      List.Forall₂ (fun (src : String × String) o => ∃ params,
        Dict.get? s src.1 = some params ∧ b.eval params = .ok o) sources outs ∧
      (∀ o, o ∈ outs → RightShapes ex o) ∧
      IsSuperposition (1 / 10 ^ 6) outs pulseDom r := by
  unfold getTensors at h
  cases hi : indexer row names with
  | error e => simp [hi] at h
  | ok di =>
    cases hs : split row with
    | error e => simp [hi, hs] at h
    | ok s =>
      cases hl : lastBase bases none order with
      | error e => simp [hi, hs, hl] at h
      | ok lb =>
        simp only [hi, hs, hl] at h
        cases hr : sourceLoop bases s (closure lb) ex pulseDom none sources with
        | error e => simp [hr] at h
        | ok a =>
          cases a with
          | none => simp [hr] at h
          | some a =>
            simp only [hr, Except.ok.injEq] at h
            obtain ⟨os, h1, h2⟩ := sourceLoop_eq_ok hr
            rw [foldl_accumulate_none] at h2
            by_cases hos : os = []
            · simp [hos] at h2
            rw [if_neg hos, Option.some.injEq] at h2
            have hsrc : sources ≠ [] := by
              rintro rfl
              cases h1
              exact hos rfl
            have hlast := lastBase_eq_ok hl
            have hone : order ≠ [] := by
              obtain ⟨⟨s0, b0⟩, t, rfl⟩ := List.exists_cons_of_ne_nil hsrc
              have := (ho.2 b0).2 ⟨s0, by simp⟩
              rintro rfl
              simp at this
            rw [List.getLast?_eq_some_getLast hone] at hlast
            simp only at hlast
            obtain ⟨b, hb⟩ : ∃ b, lb = some b := by
              obtain ⟨o0, os', rfl⟩ := List.exists_cons_of_ne_nil hos
              cases h1 with
              | cons hd _ =>
                obtain ⟨params, sub, _, _, _, hfo, _⟩ := hd
                cases lb with
                | none => simp [closure] at hfo
                | some b => exact ⟨b, rfl⟩
            refine ⟨order.getLast hone, b, s, os, List.getLast?_eq_some_getLast hone,
              by rw [← hlast, hb], rfl, ?_, ?_, ?_⟩
            rotate_left
            · clear h2 hos hr ho hsrc
              induction h1 with
              | nil => simp
              | cons hx _ ih =>
                intro o ho
                rcases List.mem_cons.1 ho with rfl | ho
                · obtain ⟨_, _, _, _, _, _, hsh⟩ := hx
                  simpa [shapesOk, RightShapes, and_assoc, Bool.or_eq_true, imp_iff_not_or] using hsh
                · exact ih o ho
            rotate_left
            · refine h1.imp ?_
              rintro src o ⟨params, sub, e1, e2, e3, e4, e5⟩
              refine ⟨params, e1, ?_⟩
              rw [hb] at e4
              exact e4
            · subst h
              subst h2
              constructor
              · intro d; simp [normalise, addAll, zeroResult]
              · intro d; simp [normalise, addAll, zeroResult]
              · intro p; simp [normalise, addAll, zeroResult, mul_comm]
              · intro d; simp [normalise, addAll, zeroResult, mul_comm]

/-- C32, when all the sources share one base (as the cascades of a muon do): a successful
evaluation is the superposition of the predictions of the sources, each by its own base on its
own parameters, in whatever order Python runs through the set of bases. Missing for the full
property: different bases (`C32_own_base_violated`), the 1e-6 (`C32_mass_violated`). -/
theorem C32_superposition_partial (bases : Dict String (Base V K D P))
    (sources : Dict String String) (names : List String)
    (split : List V → Except Err (Dict String (List V))) (order : List String) (ex : Bool)
    (pulseDom : P → D) (row : List V) (r : Result K D P) (base : String)
    (hone : ∀ s b, (s, b) ∈ sources → b = base) (ho : IsSetOrder order sources)
    (h : getTensors bases sources names split order ex pulseDom row = .ok r) :
    ∃ s outs, split row = .ok s ∧ OwnPredictions bases s sources outs ∧
      (∀ o, o ∈ outs → RightShapes ex o) ∧ IsSuperposition (1 / 10 ^ 6) outs pulseDom r := by
  obtain ⟨last, b, s, outs, h1, h2, h3, h4, h6, h5⟩ :=
    C32_last_base_partial bases sources names split order ex pulseDom row r ho h
  refine ⟨s, outs, h3, ?_, h6, h5⟩
  obtain ⟨s0, hs0⟩ := (ho.2 last).1 (List.mem_of_getLast? h1)
  have hl := hone _ _ hs0
  have key : ∀ (src : List (String × String)) outs, (∀ x ∈ src, x ∈ sources) →
      List.Forall₂ (fun (src : String × String) o => ∃ params,
        Dict.get? s src.1 = some params ∧ b.eval params = .ok o) src outs →
      OwnPredictions bases s src outs := by
    intro src
    induction src with
    | nil => intro outs _ h; cases h; exact .nil
    | cons x src ih =>
      intro outs hx h
      cases h with
      | cons hd tl =>
        obtain ⟨params, e1, e2⟩ := hd
        have := hone x.1 x.2 (hx x (by simp))
        refine .cons ⟨b, params, ?_, e1, e2⟩ (ih _ (fun y hy => hx y (by simp [hy])) tl)
        rw [this, ← hl]
        exact h2
  exact key sources outs (fun _ h => h) h4

/-- C32, when all the sources share one base: the evaluation succeeds whenever the row has the
right length, each source gets as many values as the base has parameters, and the base accepts
them with predictions of the right shape. -/
theorem C32_evaluates_partial (bases : Dict String (Base V K D P))
    (sources : Dict String String) (names : List String)
    (split : List V → Except Err (Dict String (List V))) (order : List String) (ex : Bool)
    (pulseDom : P → D) (row : List V) (base : String) (b : Base V K D P) (s : Dict String (List V))
    (hne : sources ≠ []) (hone : ∀ s b, (s, b) ∈ sources → b = base)
    (hb : Dict.get? bases base = some b) (ho : IsSetOrder order sources)
    (hrow : row.length = names.length) (hs : split row = .ok s)
    (hpar : ∀ src ∈ sources, ∃ params o, Dict.get? s src.1 = some params ∧
      params.length = b.names.length ∧ b.eval params = .ok o ∧ o.chargeShape = [86, 60, 1] ∧
      o.varianceShape = [86, 60, 1] ∧ o.exclusionShape = [86, 60, 1]) :
    ∃ r, getTensors bases sources names split order ex pulseDom row = .ok r := by
  obtain ⟨lb, hl⟩ := lastBase_of_mem (bases := bases) (order := order) (by
    intro c hc
    obtain ⟨t, ht⟩ := (ho.2 c).1 hc
    rw [hone _ _ ht, ← Dict.get?_isSome_iff, hb]
    rfl) none
  have hone' : order ≠ [] := by
    obtain ⟨⟨s0, b0⟩, t, rfl⟩ := List.exists_cons_of_ne_nil hne
    have := (ho.2 b0).2 ⟨s0, by simp⟩
    rintro rfl
    simp at this
  have hlb : lb = some b := by
    have := lastBase_eq_ok hl
    rw [List.getLast?_eq_some_getLast hone'] at this
    simp only at this
    obtain ⟨t, ht⟩ := (ho.2 _).1 (List.getLast_mem hone')
    rw [this, hone _ _ ht, hb]
  have hos : ∃ os, List.Forall₂ (fun (src : String × String) o => ∃ params sub,
      Dict.get? s src.1 = some params ∧
      Dict.get? bases src.2 = some sub ∧ params.length = sub.names.length ∧
      b.eval params = .ok o ∧ shapesOk ex o = true) sources os := by
    have : ∀ l : List (String × String), (∀ x ∈ l, x ∈ sources) →
        ∃ os, List.Forall₂ (fun (src : String × String) o => ∃ params sub,
          Dict.get? s src.1 = some params ∧
          Dict.get? bases src.2 = some sub ∧ params.length = sub.names.length ∧
          b.eval params = .ok o ∧ shapesOk ex o = true) l os := by
      intro l
      induction l with
      | nil => intro _; exact ⟨[], .nil⟩
      | cons x l ih =>
        intro hx
        obtain ⟨os, hos⟩ := ih fun y hy => hx y (by simp [hy])
        obtain ⟨params, o, e1, e2, e3, e4, e5, e6⟩ := hpar x (hx x (by simp))
        refine ⟨o :: os, .cons ⟨params, b, e1, ?_, e2, e3, ?_⟩ hos⟩
        · rw [hone x.1 x.2 (hx x (by simp)), hb]
        · simp [shapesOk, e4, e5, e6]
    exact this sources fun _ h => h
  obtain ⟨os, hos⟩ := hos
  have hne' : os ≠ [] := by
    rintro rfl
    cases hos
    exact hne rfl
  unfold getTensors
  have hi : ∃ d, indexer row names = .ok d := by
    unfold indexer
    rw [if_neg (by simp [hrow])]
    exact ⟨_, rfl⟩
  obtain ⟨di, hi⟩ := hi
  simp only [hi, hs, hl, hlb]
  rw [show closure (some b) = b.eval from rfl, sourceLoop_of_forall₂ hos, foldl_accumulate_none, if_neg hne']
  exact ⟨_, rfl⟩

/-- The accumulation does not depend on the order. -/
theorem sourceLoop_perm {bases : Dict String (Base V K D P)} {split : Dict String (List V)}
    {func : List V → Except Err (Out K D P)} {ex : Bool} {pulseDom : P → D}
    {sources sources' : Dict String String} (hp : sources.Perm sources')
    (acc r : Option (Result K D P))
    (h : sourceLoop bases split func ex pulseDom acc sources = .ok r) :
    sourceLoop bases split func ex pulseDom acc sources' = .ok r := by
  have comm : ∀ (acc : Option (Result K D P)) (o1 o2 : Out K D P),
      accumulate pulseDom (accumulate pulseDom acc o1) o2 =
        accumulate pulseDom (accumulate pulseDom acc o2) o1 := by
    intro acc o1 o2
    cases acc with
    | none => simp [accumulate, add_comm]
    | some a => simp [accumulate, add_right_comm]
  induction hp generalizing acc r with
  | nil => exact h
  | cons x _ ih =>
    obtain ⟨name, base⟩ := x
    rw [sourceLoop] at h ⊢
    cases hb : item bases base with
    | error e => simp [hb] at h
    | ok sub =>
      cases hp : item split name with
      | error e => simp [hb, hp] at h
      | ok params =>
        cases hi : indexer params sub.names with
        | error e => simp [hb, hp, hi] at h
        | ok di =>
          cases hf : func params with
          | error e => simp [hb, hp, hi, hf] at h
          | ok o =>
            simp only [hb, hp, hi, hf] at h ⊢
            by_cases hs : shapesOk ex o = true
            · rw [if_pos hs] at h ⊢
              exact ih _ _ h
            · rw [if_neg hs] at h
              cases h
  | swap x y l =>
    obtain ⟨os, h1, h2⟩ := sourceLoop_eq_ok h
    cases h1 with
    | cons hy h1 =>
      cases h1 with
      | cons hx h1 =>
        rename_i oy ox os
        have := sourceLoop_of_forall₂ (pulseDom := pulseDom)
          (List.Forall₂.cons hx (List.Forall₂.cons hy h1)) acc
        rw [this, h2]
        simp only [List.foldl_cons]
        rw [comm]
  | trans _ _ ih1 ih2 => exact ih2 _ _ (ih1 _ _ h)

/-- C32: the result does not depend on the order of the entries of the configuration (given the
same order of the set of bases; with one base there is only one). -/
theorem C32_order (bases : Dict String (Base V K D P)) (sources sources' : Dict String String)
    (order : List String) (ex : Bool) (pulseDom : P → D) (row : List V) (r : Result K D P)
    (hok : Dict.Ok sources) (hb : ∀ s b, (s, b) ∈ sources → b ∈ Dict.keys bases)
    (hp : sources.Perm sources')
    (h : independentGetTensors bases sources order ex pulseDom row = .ok r) :
    independentGetTensors bases sources' order ex pulseDom row = .ok r := by
  have hb' : ∀ s b, (s, b) ∈ sources → b ∈ Dict.keys (baseNames bases) := by
    intro s b hs
    have := hb s b hs
    rw [← Dict.get?_isSome_iff] at this ⊢
    rw [get?_baseNames]
    simpa using this
  obtain ⟨e1, e2⟩ := C31_order sources sources' (baseNames bases) hok hp hb' row
  unfold independentGetTensors at h ⊢
  rw [← e1]
  cases hn : independentParameters sources (baseNames bases) with
  | error e => simp [hn] at h
  | ok names =>
    simp only [hn] at h ⊢
    unfold getTensors at h ⊢
    rw [← e2]
    cases hi : indexer row names with
    | error e => simp [hi] at h
    | ok di =>
      cases hs : independentSlices sources (baseNames bases) row with
      | error e => simp [hi, hs] at h
      | ok s =>
        cases hl : lastBase bases none order with
        | error e => simp [hi, hs, hl] at h
        | ok lb =>
          simp only [hi, hs, hl] at h ⊢
          cases hr : sourceLoop bases s (closure lb) ex pulseDom none sources with
          | error e => simp [hr] at h
          | ok a =>
            rw [sourceLoop_perm hp none a hr]
            rw [hr] at h
            exact h

end

/-! ### Two different bases -/

/-- A prediction of charge and variance `q`. -/
def flatOut (q : ℚ) : Out ℚ Unit Unit where
  charge := fun _ => q
  variance := fun _ => q
  exclusion := fun _ => 0
  pdf := fun _ => 1

/-- A base with one parameter which predicts `f` times this parameter as charge. -/
def linearBase (f : ℚ) : Base ℚ ℚ Unit Unit where
  names := ["q"]
  eval := fun params => match params with
    | [q] => .ok (flatOut (f * q))
    | _ => .error .valueError

/-- C32 is false of the code when the sources have different bases: here two bases with one
parameter each. For every order in which Python can run through the set of the two bases, the
evaluation succeeds and the charge is not the sum of the charges predicted by the sources, each
by its own base on its own parameter. -/
theorem C32_own_base_violated :
    ∃ (bases : Dict String (Base ℚ ℚ Unit Unit)) (sources : Dict String String) (row : List ℚ)
      (s : Dict String (List ℚ)) (outs : List (Out ℚ Unit Unit)),
      Dict.Ok bases ∧ Dict.Ok sources ∧
      independentSlices sources (baseNames bases) row = .ok s ∧
      OwnPredictions bases s sources outs ∧
      ∀ order, IsSetOrder order sources →
        ∃ r, independentGetTensors bases sources order false (fun _ => ()) row = .ok r ∧
          r.charge () ≠ (outs.map fun o => o.charge ()).sum := by
  refine ⟨[("faint", linearBase 1), ("bright", linearBase 10)],
    [("s1", "faint"), ("s2", "bright")], [1, 2], [("s1", [1]), ("s2", [2])],
    [flatOut (1 * 1), flatOut (10 * 2)], by decide, by decide, by rfl, ?_, ?_⟩
  · exact .cons ⟨linearBase 1, [1], rfl, rfl, rfl⟩
      (.cons ⟨linearBase 10, [2], rfl, rfl, rfl⟩ .nil)
  · intro order ho
    have hmem : ∀ b, b ∈ order ↔ b = "faint" ∨ b = "bright" := by
      intro b
      rw [ho.2 b]
      constructor
      · rintro ⟨s, h⟩
        simp at h
        rcases h with h | h <;> simp [h]
      · rintro (rfl | rfl)
        · exact ⟨"s1", by simp⟩
        · exact ⟨"s2", by simp⟩
    have horder : order = ["faint", "bright"] ∨ order = ["bright", "faint"] := by
      have hperm : order.Perm ["faint", "bright"] := by
        refine (List.perm_ext_iff_of_nodup ho.1 (by decide)).2 ?_
        intro b
        rw [hmem b]
        simp
      have hlen := hperm.length_eq
      match order, hlen, hmem, ho with
      | [a, b], _, hmem, ho =>
        have ha := (hmem a).1 (by simp)
        have hb := (hmem b).1 (by simp)
        have hne : a ≠ b := by
          have := ho.1
          simp only [List.nodup_cons, List.mem_singleton] at this
          exact this.1
        rcases ha with rfl | rfl <;> rcases hb with rfl | rfl
        · exact absurd rfl hne
        · exact Or.inl rfl
        · exact Or.inr rfl
        · exact absurd rfl hne
    rcases horder with rfl | rfl
    · refine ⟨_, rfl, ?_⟩
      norm_num [normalise, accumulate, flatOut]
    · refine ⟨_, rfl, ?_⟩
      norm_num [normalise, accumulate, flatOut]

/-! ### The density of the mixture -/

section
open MeasureTheory

theorem integrable_sum_list (l : List (ℝ → ℝ)) (h : ∀ f ∈ l, Integrable f) :
    Integrable (fun t => (l.map fun f => f t).sum) ∧
      ∫ t, (l.map fun f => f t).sum = (l.map fun f => ∫ t, f t).sum := by
  induction l with
  | nil => simp
  | cons f l ih =>
    obtain ⟨h1, h2⟩ := ih fun g hg => h g (by simp [hg])
    have hf := h f (by simp)
    simp only [List.map_cons, List.sum_cons]
    exact ⟨hf.add h1, by rw [integral_add hf h1, h2]⟩

/-- C32, the mass of the mixture. Pulses of one DOM `d`, told apart by their time: if the density
of each source integrates to one, the density of the superposition integrates to
`Q / (Q + 1e-6)`, with `Q` the total charge at the DOM. -/
theorem C32_mass_partial {D : Type} (outs : List (Out ℝ D ℝ)) (d : D) (r : Result ℝ D ℝ)
    (hr : IsSuperposition (1 / 10 ^ 6) outs (fun _ => d) r)
    (hint : ∀ o ∈ outs, Integrable o.pdf ∧ ∫ t, o.pdf t = 1) :
    ∫ t, r.pdf t = r.charge d / (r.charge d + 1 / 10 ^ 6) := by
  have e : r.pdf = fun t => (outs.map fun o => o.charge d * o.pdf t).sum /
      (r.charge d + 1 / 10 ^ 6) := by
    funext t
    rw [hr.pdf t, hr.charge d]
  rw [e, integral_div]
  congr 1
  have h := integrable_sum_list (outs.map fun o => fun t => o.charge d * o.pdf t) (by
    intro f hf
    obtain ⟨o, ho, rfl⟩ := List.mem_map.1 hf
    exact (hint o ho).1.const_mul _)
  simp only [List.map_map, Function.comp_def] at h
  rw [h.2, hr.charge d]
  congr 1
  apply List.map_congr_left
  intro o ho
  rw [integral_const_mul, (hint o ho).2, mul_one]

/-- C32: the density of the superposition is not a proper density: whatever proper densities the
sources have, it integrates to less than one; at a DOM with total charge 1e-6, to one half. -/
theorem C32_mass_violated {D : Type} (outs : List (Out ℝ D ℝ)) (d : D) (r : Result ℝ D ℝ)
    (hr : IsSuperposition (1 / 10 ^ 6) outs (fun _ => d) r)
    (hint : ∀ o ∈ outs, Integrable o.pdf ∧ ∫ t, o.pdf t = 1) (hq : 0 ≤ r.charge d) :
    ∫ t, r.pdf t < 1 ∧ (r.charge d = 1 / 10 ^ 6 → ∫ t, r.pdf t = 1 / 2) := by
  rw [C32_mass_partial outs d r hr hint]
  constructor
  · rw [div_lt_one (by positivity)]
    have : (0 : ℝ) < 1 / 10 ^ 6 := by positivity
    linarith
  · intro h
    rw [h]
    norm_num

end

/-- The hypotheses of the C32 theorems can be met: two sources which share a base. -/
example : ∃ r, independentGetTensors [("c", linearBase 3)] [("s1", "c"), ("s2", "c")] ["c"] false
    (fun _ => ()) [1, 2] = .ok r ∧ r.charge () = 9 := by
  refine ⟨_, rfl, ?_⟩
  norm_num [normalise, accumulate, flatOut]

example : IsSetOrder ["c"] [("s1", "c"), ("s2", "c")] := by
  refine ⟨by decide, ?_⟩
  intro b
  constructor
  · intro h
    exact ⟨"s1", by simp at h; simp [h]⟩
  · rintro ⟨s, h⟩
    simp at h
    rcases h with h | h <;> simp [h]

end Verif.Sources
