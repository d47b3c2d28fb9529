import Verif.Sources.Model
import Mathlib.Algebra.BigOperators.Group.List.Basic
import Mathlib.Data.String.Basic

/-! # Lemmas about source names, slices and superpositions -/

namespace Verif.Sources
open Verif.Py

/-! ## Names and indices -/

theorem foldl_set_get? {κ α : Type} [DecidableEq κ] (l : List (κ × α)) (d : Dict κ α)
    (hnd : (l.map Prod.fst).Nodup) (k : κ) :
    Dict.get? (l.foldl (fun d nv => Dict.set d nv.1 nv.2) d) k =
      (Dict.get? l k).orElse fun _ => Dict.get? d k :=
  Dict.get?_update d l hnd k

theorem indexer_ok {κ K : Type} [DecidableEq κ] {row : List K} {names : List κ}
    (hl : row.length = names.length) (hnd : names.Nodup) :
    ∃ d, indexer row names = .ok d ∧ ∀ k, Dict.get? d k = Dict.get? (names.zip row) k := by
  refine ⟨_, by rw [indexer, if_neg (by simp [hl])], ?_⟩
  intro k
  rw [foldl_set_get?]
  · cases Dict.get? (names.zip row) k <;> rfl
  · rw [List.map_fst_zip (by omega)]; exact hnd

theorem get?_zip {κ K : Type} [DecidableEq κ] {names : List κ} {row : List K}
    (hnd : names.Nodup) {i : Nat} {n : κ} (hi : names[i]? = some n) (hl : row.length = names.length) :
    Dict.get? (names.zip row) n = row[i]? := by
  induction names generalizing row i with
  | nil => simp at hi
  | cons m names ih =>
    cases row with
    | nil => simp at hl
    | cons r row =>
      rw [List.nodup_cons] at hnd
      rw [List.zip_cons_cons, Dict.get?_cons]
      cases i with
      | zero =>
        simp only [List.getElem?_cons_zero, Option.some.injEq] at hi
        simp [hi]
      | succ i =>
        simp only [List.getElem?_cons_succ] at hi ⊢
        have : m ≠ n := by
          rintro rfl
          exact hnd.1 (List.mem_of_getElem? hi)
        rw [if_neg this]
        exact ih hnd.2 hi (by simpa using hl)

/-- The number of the last occurrence is what the name dictionary holds. -/
theorem nameDict_get? (names : List String) (i : Int) (d : Dict String Int)
    (hnd : names.Nodup) (k : String) :
    Dict.get? (nameDictFrom i d names) k =
      if k ∈ names then some (i + (names.idxOf k : Nat)) else Dict.get? d k := by
  induction names generalizing i d with
  | nil => simp [nameDictFrom]
  | cons n names ih =>
    rw [List.nodup_cons] at hnd
    rw [nameDictFrom, ih _ _ hnd.2, Dict.get?_set]
    by_cases h : n = k
    · subst h
      simp [hnd.1]
    · by_cases h2 : k ∈ names
      · rw [if_pos h2, if_pos (List.mem_cons_of_mem _ h2), List.idxOf_cons_ne _ h]
        simp
        omega
      · rw [if_neg h2, if_neg h, if_neg (by simp [h2, Ne.symm h])]

theorem indexDict_get? (names : List String) (i : Int) (d : Dict Int String) (j : Int) :
    Dict.get? (indexDictFrom i d names) j =
      if i ≤ j ∧ j < i + names.length then names[(j - i).toNat]? else Dict.get? d j := by
  induction names generalizing i d with
  | nil =>
    have : ¬ (i ≤ j ∧ j < i + (([] : List String).length : Int)) := by simp
    rw [indexDictFrom, if_neg this]
  | cons n names ih =>
    rw [indexDictFrom, ih, Dict.get?_set]
    by_cases h : i = j
    · subst h
      rw [if_neg (by omega), if_pos rfl, if_pos ⟨le_refl _, by simp⟩]
      simp
    · by_cases h2 : i + 1 ≤ j ∧ j < i + 1 + names.length
      · rw [if_pos h2, if_pos (by simp; omega)]
        have : (j - i).toNat = (j - (i + 1)).toNat + 1 := by omega
        rw [this, List.getElem?_cons_succ]
      · rw [if_neg h2, if_neg h, if_neg (by simp; omega)]

/-! ## Slices -/

theorem item_eq_ok {κ α : Type} [DecidableEq κ] {d : Dict κ α} {k : κ} {v : α} :
    item d k = .ok v ↔ Dict.get? d k = some v := by
  unfold item
  cases Dict.get? d k <;> simp

/-- The parameter names of a source: those of its base. -/
def ownNames (sources : Dict String String) (bn : Dict String (List String)) (s : String) :
    List String :=
  ((Dict.get? sources s).bind fun b => Dict.get? bn b).getD []

/-- Every source has a base. -/
def BasesExist (sources : Dict String String) (bn : Dict String (List String)) : Prop :=
  ∀ s b, (s, b) ∈ sources → b ∈ Dict.keys bn

theorem lookup_of_exists {sources : Dict String String} {bn : Dict String (List String)}
    (h : BasesExist sources bn) {s : String} (hs : s ∈ Dict.keys sources) :
    ∃ b vs, item sources s = .ok b ∧ item bn b = .ok vs ∧ ownNames sources bn s = vs := by
  obtain ⟨b, hb⟩ := Option.isSome_iff_exists.1 ((Dict.get?_isSome_iff sources s).2 hs)
  obtain ⟨vs, hvs⟩ := Option.isSome_iff_exists.1
    ((Dict.get?_isSome_iff bn b).2 (h s b (Dict.mem_of_get? hb)))
  exact ⟨b, vs, item_eq_ok.2 hb, item_eq_ok.2 hvs, by simp [ownNames, hb, hvs]⟩

theorem independentLoop_ok {sources : Dict String String} {bn : Dict String (List String)}
    (h : BasesExist sources bn) (l : List String) (hl : ∀ s ∈ l, s ∈ Dict.keys sources) :
    independentLoop sources bn l =
      .ok (l.flatMap fun s => (ownNames sources bn s).map fun v => s ++ "_" ++ v) := by
  induction l with
  | nil => rfl
  | cons s l ih =>
    obtain ⟨b, vs, h1, h2, h3⟩ := lookup_of_exists h (hl s (by simp))
    rw [independentLoop, h1]
    simp only [h2, ih fun t ht => hl t (by simp [ht]), List.flatMap_cons, h3]

/-- The slices, one after the other. -/
def slicesFrom {K : Type} (sources : Dict String String) (bn : Dict String (List String)) :
    List K → List String → Dict String (List K)
  | _, [] => []
  | row, s :: l =>
    (s, row.take (ownNames sources bn s).length) ::
      slicesFrom sources bn (row.drop (ownNames sources bn s).length) l

theorem keys_slicesFrom {K : Type} (sources : Dict String String)
    (bn : Dict String (List String)) (row : List K) (l : List String) :
    Dict.keys (slicesFrom sources bn row l) = l := by
  induction l generalizing row with
  | nil => rfl
  | cons s l ih => simp [slicesFrom, ih]

theorem set_append_new {α : Type} (d : Dict String α) (k : String) (v : α)
    (h : k ∉ Dict.keys d) : Dict.set d k v = d ++ [(k, v)] := by
  induction d with
  | nil => rfl
  | cons kv d ih =>
    obtain ⟨a, b⟩ := kv
    simp only [Dict.keys_cons, List.mem_cons, not_or] at h
    simp [Dict.set, Ne.symm h.1, ih h.2]

theorem sliceLoop_ok {K : Type} {sources : Dict String String} {bn : Dict String (List String)}
    (h : BasesExist sources bn) (row : List K) (l : List String)
    (hl : ∀ s ∈ l, s ∈ Dict.keys sources) (hnd : l.Nodup) (counter : Nat)
    (d : Dict String (List K)) (hd : ∀ s ∈ l, s ∉ Dict.keys d) :
    sliceLoop sources bn row counter d l =
      .ok (d ++ slicesFrom sources bn (row.drop counter) l) := by
  induction l generalizing counter d with
  | nil => simp [sliceLoop, slicesFrom]
  | cons s l ih =>
    obtain ⟨b, vs, h1, h2, h3⟩ := lookup_of_exists h (hl s (by simp))
    rw [List.nodup_cons] at hnd
    rw [sliceLoop, h1]
    simp only [h2]
    rw [set_append_new _ _ _ (hd s (by simp)),
      ih (fun t ht => hl t (by simp [ht])) hnd.2]
    · rw [slicesFrom, h3, List.append_assoc, List.drop_drop, Nat.add_sub_cancel_left]
      rfl
    · intro t ht
      simp only [Dict.keys, List.map_append, List.map_cons, List.map_nil, List.mem_append,
        List.mem_singleton, not_or]
      refine ⟨hd t (by simp [ht]), ?_⟩
      rintro rfl
      exact hnd.1 ht

theorem zip_slicesFrom {K : Type} (sources : Dict String String)
    (bn : Dict String (List String)) (row : List K) (l : List String)
    (hlen : row.length = (l.flatMap fun s => (ownNames sources bn s)).length) :
    (slicesFrom sources bn row l).flatMap (fun sv =>
        ((ownNames sources bn sv.1).map fun v => sv.1 ++ "_" ++ v).zip sv.2) =
      (l.flatMap fun s => (ownNames sources bn s).map fun v => s ++ "_" ++ v).zip row ∧
    ∀ s v, (s, v) ∈ slicesFrom sources bn row l → v.length = (ownNames sources bn s).length := by
  induction l generalizing row with
  | nil => simp [slicesFrom]
  | cons s l ih =>
    rw [List.flatMap_cons, List.length_append] at hlen
    obtain ⟨h1, h2⟩ := ih (row.drop (ownNames sources bn s).length) (by
      rw [List.length_drop]; omega)
    constructor
    · rw [slicesFrom, List.flatMap_cons, h1, List.flatMap_cons]
      have hr : row = row.take (ownNames sources bn s).length ++
          row.drop (ownNames sources bn s).length := (List.take_append_drop _ _).symm
      conv_rhs => rw [hr]
      rw [List.zip_append (by simp; omega)]
    · intro t v ht
      rw [slicesFrom, List.mem_cons] at ht
      rcases ht with ht | ht
      · cases ht
        rw [List.length_take]
        omega
      · exact h2 t v ht

theorem flatten_slicesFrom {K : Type} (sources : Dict String String)
    (bn : Dict String (List String)) (row : List K) (l : List String)
    (hlen : row.length = (l.flatMap fun s => (ownNames sources bn s)).length) :
    ((slicesFrom sources bn row l).map Prod.snd).flatten = row := by
  induction l generalizing row with
  | nil =>
    simp at hlen
    simp [slicesFrom, hlen]
  | cons s l ih =>
    rw [List.flatMap_cons, List.length_append] at hlen
    rw [slicesFrom, List.map_cons, List.flatten_cons, ih _ (by rw [List.length_drop]; omega)]
    exact List.take_append_drop _ _

theorem sortedKeys_perm {α : Type} (sources : Dict String α) :
    (sortedKeys sources).Perm (Dict.keys sources) := perm_sortBy _ _

theorem sortedKeys_sorted {α : Type} (sources : Dict String α) :
    (sortedKeys sources).Pairwise (· ≤ ·) := by
  have := pairwise_sortBy (fun a b : String => decide (a ≤ b))
    (by
      intro a b c h1 h2
      simp only [decide_eq_true_eq] at *
      exact le_trans h1 h2)
    (by
      intro a b
      simp only [decide_eq_true_eq]
      exact le_total a b) (Dict.keys sources)
  exact this.imp (by intro a b h; simpa using h)

/-- Two sorted arrangements of the same keys are the same. -/
theorem sortedKeys_eq_of_perm {α β : Type} {s : Dict String α} {t : Dict String β}
    (h : (Dict.keys s).Perm (Dict.keys t)) : sortedKeys s = sortedKeys t := by
  refine List.Perm.eq_of_pairwise (le := fun a b : String => a ≤ b)
    (fun a b _ _ h1 h2 => le_antisymm h1 h2) (sortedKeys_sorted s) (sortedKeys_sorted t) ?_
  exact (sortedKeys_perm s).trans (h.trans (sortedKeys_perm t).symm)

/-! ## Superposition -/

set_option linter.unusedSectionVars false

section
variable {V K D P : Type} [Field K]

/-- What the loop has added up, after a state. -/
def addAll (pulseDom : P → D) (a : Result K D P) (os : List (Out K D P)) : Result K D P :=
  { charge := fun d => a.charge d + (os.map fun o => o.charge d).sum
    variance := fun d => a.variance d + (os.map fun o => o.variance d).sum
    exclusion := fun d => a.exclusion d + (os.map fun o => o.exclusion d * o.charge d).sum
    pdf := fun p => a.pdf p + (os.map fun o => o.pdf p * o.charge (pulseDom p)).sum }

def zeroResult : Result K D P := ⟨fun _ => 0, fun _ => 0, fun _ => 0, fun _ => 0⟩

theorem foldl_accumulate_some (pulseDom : P → D) (os : List (Out K D P)) (a : Result K D P) :
    os.foldl (accumulate pulseDom) (some a) = some (addAll pulseDom a os) := by
  induction os generalizing a with
  | nil => simp [addAll]
  | cons o os ih =>
    rw [List.foldl_cons, accumulate, ih]
    simp only [addAll, List.map_cons, List.sum_cons, add_assoc]

theorem foldl_accumulate_none (pulseDom : P → D) (os : List (Out K D P)) :
    os.foldl (accumulate pulseDom) none =
      if os = [] then none else some (addAll pulseDom zeroResult os) := by
  cases os with
  | nil => rfl
  | cons o os =>
    rw [List.foldl_cons, accumulate, foldl_accumulate_some]
    simp [addAll, zeroResult]

theorem sourceLoop_eq_ok {bases : Dict String (Base V K D P)} {split : Dict String (List V)}
    {func : List V → Except Err (Out K D P)} {ex : Bool} {pulseDom : P → D}
    {sources : Dict String String} {acc : Option (Result K D P)} {r : Option (Result K D P)} :
    sourceLoop bases split func ex pulseDom acc sources = .ok r →
      ∃ os : List (Out K D P),
        List.Forall₂ (fun (s : String × String) o => ∃ params sub, Dict.get? split s.1 = some params ∧
          Dict.get? bases s.2 = some sub ∧ params.length = sub.names.length ∧
          func params = .ok o ∧ shapesOk ex o = true) sources os ∧
        r = os.foldl (accumulate pulseDom) acc := by
  intro h
  induction sources generalizing acc with
  | nil =>
    simp only [sourceLoop, Except.ok.injEq] at h
    exact ⟨[], .nil, h.symm⟩
  | cons s rest ih =>
    obtain ⟨name, base⟩ := s
    rw [sourceLoop] at h
    cases hb : item bases base with
    | error e => simp [hb] at h
    | ok sub =>
      cases hp : item split name with
      | error e => simp [hb, hp] at h
      | ok params =>
        cases hi : indexer params sub.names with
        | error e => simp [hb, hp, hi] at h
        | ok di =>
          cases hf : func params with
          | error e => simp [hb, hp, hi, hf] at h
          | ok o =>
            simp only [hb, hp, hi, hf] at h
            by_cases hs : shapesOk ex o = true
            · rw [if_pos hs] at h
              obtain ⟨os, h1, h2⟩ := ih h
              refine ⟨o :: os, .cons ⟨params, sub, item_eq_ok.1 hp, item_eq_ok.1 hb, ?_, hf, hs⟩ h1, h2⟩
              unfold indexer at hi
              by_contra hc
              rw [if_pos hc] at hi
              cases hi
            · rw [if_neg hs] at h
              cases h

theorem sourceLoop_of_forall₂ {bases : Dict String (Base V K D P)} {split : Dict String (List V)}
    {func : List V → Except Err (Out K D P)} {ex : Bool} {pulseDom : P → D}
    {sources : Dict String String} {os : List (Out K D P)}
    (h : List.Forall₂ (fun (s : String × String) o => ∃ params sub,
      Dict.get? split s.1 = some params ∧
      Dict.get? bases s.2 = some sub ∧ params.length = sub.names.length ∧
      func params = .ok o ∧ shapesOk ex o = true) sources os) (acc : Option (Result K D P)) :
    sourceLoop bases split func ex pulseDom acc sources =
      .ok (os.foldl (accumulate pulseDom) acc) := by
  induction h generalizing acc with
  | nil => rfl
  | cons hd _ ih =>
    obtain ⟨params, sub, h1, h2, h3, h4, h5⟩ := hd
    rename_i s o _ _ _
    obtain ⟨name, base⟩ := s
    have hi : ∃ d, indexer params sub.names = .ok d := by
      unfold indexer
      rw [if_neg (by simp [h3])]
      exact ⟨_, rfl⟩
    obtain ⟨di, hi⟩ := hi
    rw [sourceLoop, item_eq_ok.2 h2]
    simp only [item_eq_ok.2 h1, hi, h4, h5, if_true]
    exact ih _

theorem lastBase_eq_ok {bases : Dict String (Base V K D P)} {cur r : Option (Base V K D P)}
    {order : List String} (h : lastBase bases cur order = .ok r) :
    r = match order.getLast? with
      | none => cur
      | some b => Dict.get? bases b := by
  induction order generalizing cur with
  | nil =>
    simp only [lastBase, Except.ok.injEq] at h
    exact h.symm
  | cons b rest ih =>
    rw [lastBase] at h
    cases hb : item bases b with
    | error e => simp [hb] at h
    | ok x =>
      simp only [hb] at h
      have := ih h
      rw [this]
      cases rest with
      | nil => simp [item_eq_ok.1 hb]
      | cons c rest =>
        rw [List.getLast?_cons_cons, List.getLast?_eq_some_getLast (by simp)]

theorem lastBase_of_mem {bases : Dict String (Base V K D P)} {order : List String}
    (h : ∀ b ∈ order, b ∈ Dict.keys bases) (cur : Option (Base V K D P)) :
    ∃ r, lastBase bases cur order = .ok r := by
  induction order generalizing cur with
  | nil => exact ⟨_, rfl⟩
  | cons b rest ih =>
    obtain ⟨x, hx⟩ := Option.isSome_iff_exists.1
      ((Dict.get?_isSome_iff bases b).2 (h b (by simp)))
    rw [lastBase, item_eq_ok.2 hx]
    exact ih (fun c hc => h c (by simp [hc])) _

theorem get?_baseNames (bases : Dict String (Base V K D P)) (b : String) :
    Dict.get? (baseNames bases) b = (Dict.get? bases b).map (·.names) := by
  induction bases with
  | nil => rfl
  | cons kv bases ih =>
    obtain ⟨k, v⟩ := kv
    rw [baseNames, List.map_cons, Dict.get?_cons, Dict.get?_cons]
    by_cases h : k = b
    · simp [h]
    · rw [if_neg h, if_neg h]; exact ih

end

end Verif.Sources
