/-
C120: labels from frames and from files.
-/
import Verif.Frames.Lemmas

namespace Verif.Frames
open Verif.Py Verif.Labels

section
variable {ν R : Type} [DecidableEq ν]

/-- The snowstorm vector of an event in its frame, if a key is configured. -/
def vecOf (key : Bool) (e : Event ν R) : Option (Option (List R)) := if key then some (some e.snow) else none

/-- The snowstorm table of events in a file, if a key is configured. -/
def rowsOf (key : Bool) (es : List (Event ν R)) : Option (Option (List (Nat × R))) :=
  if key then some (some (snowRows es)) else none

/-- An event has what the module asks for: all labels, the additional condition, and as many snowstorm parameters
as are configured, if there are any and they are read. -/
def Complete (stored names : List ν) (extra : Dict ν R → Except Err Unit) (snow : Nat) (key : Bool)
    (e : Event ν R) : Prop :=
  (∀ l ∈ names, l ∈ stored) ∧ extra (e.frame stored) = .ok () ∧ (key = true → 0 < snow → e.snow.length = snow)

/-- **C120.** A frame with a complete event gives one row, with the labels in the order of the names and then the
snowstorm parameters; every other frame is skipped. -/
theorem C120_frame (shift : List R → List R) (stored names : List ν) (hne : names ≠ [])
    (extra : Dict ν R → Except Err Unit) (snow : Nat) (key : Bool) (one : R) (e : Event ν R) :
    (Complete stored names extra snow key e →
      fromFrame shift (some (e.frame stored)) names extra snow (vecOf key e) one =
        some [shift (row names snow key one e)]) ∧
    (¬ Complete stored names extra snow key e →
      fromFrame shift (some (e.frame stored)) names extra snow (vecOf key e) one = none) := by
  obtain ⟨n0, ns, rfl⟩ : ∃ a l, names = a :: l := List.exists_cons_of_ne_nil hne
  have hrow : ∀ ext : List (List R),
      transpose 1 (((n0 :: ns).map fun l => [e.label l]) ++ ext) =
        [(n0 :: ns).map e.label ++ ext.filterMap fun c => c[0]?] := by
    intro ext
    have := rows_transpose (n0 :: ns) [e] ext
    simpa using this
  have hnum : ∀ ext : List (List R), numRows (((n0 :: ns).map fun l => [e.label l]) ++ ext) = 1 := by
    intro ext; rfl
  by_cases hl : ∀ l ∈ n0 :: ns, l ∈ stored
  swap
  · refine ⟨fun h => absurd h.1 hl, fun _ => ?_⟩
    simp only [fromFrame, frameColumns, frameLabels_eq, if_neg hl]
  cases hx : extra (e.frame stored) with
  | error x =>
    refine ⟨fun h => ?_, fun _ => ?_⟩
    · have := h.2.1
      rw [hx] at this
      cases this
    · simp only [fromFrame, frameColumns, frameLabels_eq, if_pos hl, hx]
  | ok u =>
    simp only [fromFrame, frameColumns, frameLabels_eq, if_pos hl, hx, List.map_cons]
    by_cases hs : snow > 0
    · rw [if_pos hs]
      cases key with
      | false =>
        simp only [vecOf, Bool.false_eq_true, if_false]
        refine ⟨fun _ => ?_, fun h => absurd ⟨hl, hx, fun h => (by cases h)⟩ h⟩
        have h1 := hnum (List.replicate snow (List.replicate [e.label n0].length one))
        have h2 := hrow (List.replicate snow (List.replicate [e.label n0].length one))
        simp only [List.map_cons] at h1 h2
        rw [h1, h2]
        simp [row]
      | true =>
        simp only [vecOf, if_true]
        by_cases hv : e.snow.length = snow
        · refine ⟨fun _ => ?_, fun h => absurd ⟨hl, hx, fun _ _ => hv⟩ h⟩
          rw [if_neg (by simpa using hv), List.length_singleton,
            frameSnow_eq _ _ (by rw [hv]; intro i hi; exact List.mem_range.1 hi)]
          simp only
          rw [range_filterMap e.snow (fun v => [v]) snow hv]
          have h1 := hnum (e.snow.map fun v => [v])
          have h2 := hrow (e.snow.map fun v => [v])
          simp only [List.map_cons] at h1 h2
          rw [h1, h2]
          have h3 : (e.snow.map fun v => [v]).filterMap (fun c => c[0]?) = e.snow := by
            rw [List.filterMap_map]
            exact List.filterMap_some
          rw [h3]
          simp [row, hs]
        · refine ⟨fun h => absurd (h.2.2 rfl hs) hv, fun _ => ?_⟩
          rw [if_pos hv]
    · rw [if_neg hs]
      refine ⟨fun _ => ?_, fun h => absurd ⟨hl, hx, fun _ h => absurd h hs⟩ h⟩
      have h1 := hnum []
      have h2 := hrow []
      simp only [List.map_cons, List.append_nil] at h1 h2
      simp only
      rw [h1, h2]
      have : snow = 0 := by omega
      subst this
      simp [row]

/-- **C120.** A frame without the labels is skipped, and so is one without the snowstorm parameters. -/
theorem C120_missing (shift : List R → List R) (names : List ν) (extra : Dict ν R → Except Err Unit) (snow : Nat)
    (hs : 0 < snow) (labels : Option (Dict ν R)) (vec : Option (Option (List R))) (one : R) :
    fromFrame shift none names extra snow vec one = none ∧
    fromFrame shift labels names extra snow (some none) one = none := by
  refine ⟨rfl, ?_⟩
  simp only [fromFrame, frameColumns]
  cases labels with
  | none => rfl
  | some labels =>
    simp only
    cases frameLabels labels names with
    | error e => rfl
    | ok cols =>
      simp only
      cases extra labels with
      | error e => rfl
      | ok u =>
        cases cols with
        | nil => rfl
        | cons c cs => simp [hs]

/-- **C120.** A file with events is loaded exactly if every event in it is complete, and then has the row of each
event, in order. -/
theorem C120_file (shift : List R → List R) (stored names : List ν) (hne : names ≠ [])
    (extra : Dict ν R → Except Err Unit) (extraAll : Dict ν (List R) → Except Err Unit)
    (es : List (Event ν R)) (hes : es ≠ []) (snow : Nat) (key : Bool) (one : R)
    (hextra : (∀ l ∈ names, l ∈ stored) →
      (extraAll (table stored es) = .ok () ↔ ∀ e ∈ es, extra (e.frame stored) = .ok ())) :
    ((∀ e ∈ es, Complete stored names extra snow key e) →
      fromFile shift (some (table stored es)) names extraAll snow (rowsOf key es) one =
        some (es.map fun e => shift (row names snow key one e))) ∧
    ((∃ e ∈ es, ¬ Complete stored names extra snow key e) →
      fromFile shift (some (table stored es)) names extraAll snow (rowsOf key es) one = none) := by
  obtain ⟨n0, ns, rfl⟩ : ∃ a l, names = a :: l := List.exists_cons_of_ne_nil hne
  have hnum : ∀ ext : List (List R),
      numRows (((n0 :: ns).map fun l => es.map fun e => e.label l) ++ ext) = es.length := by
    intro ext; simp [numRows]
  by_cases hl : ∀ l ∈ n0 :: ns, l ∈ stored
  swap
  · have hf : fromFile shift (some (table stored es)) (n0 :: ns) extraAll snow (rowsOf key es) one = none := by
      simp only [fromFile, loadLabels_eq, if_neg hl]
    refine ⟨fun h => ?_, fun _ => hf⟩
    obtain ⟨e, he⟩ := List.exists_mem_of_ne_nil es hes
    exact absurd (h e he).1 hl
  have hextra := hextra hl
  cases hx : extraAll (table stored es) with
  | error x =>
    have hf : fromFile shift (some (table stored es)) (n0 :: ns) extraAll snow (rowsOf key es) one = none := by
      simp only [fromFile, loadLabels_eq, if_pos hl, hx]
    refine ⟨fun h => ?_, fun _ => hf⟩
    have := hextra.2 (fun e he => (h e he).2.1)
    rw [hx] at this
    cases this
  | ok u =>
    have hex := hextra.1 hx
    simp only [fromFile, loadColumns, loadLabels_eq, if_pos hl, hx, List.map_cons]
    -- the rows for additional columns
    have hrows : ∀ ext : List (List R), (∀ x ∈ es.zipIdx, (n0 :: ns).map x.1.label ++ (ext.filterMap fun c => c[x.2]?) =
          row (n0 :: ns) snow key one x.1) →
        (transpose (numRows (((n0 :: ns).map fun l => es.map fun e => e.label l) ++ ext))
          (((n0 :: ns).map fun l => es.map fun e => e.label l) ++ ext)).map shift =
        es.map fun e => shift (row (n0 :: ns) snow key one e) := by
      intro ext hext
      rw [hnum, rows_transpose, List.map_map]
      have : es.zipIdx.map (shift ∘ fun x => (n0 :: ns).map x.1.label ++ ext.filterMap fun c => c[x.2]?) =
          es.zipIdx.map ((fun e => shift (row (n0 :: ns) snow key one e)) ∘ Prod.fst) := by
        apply List.map_congr_left
        intro x hx'
        simp only [Function.comp_apply]
        rw [hext x hx']
      rw [this, ← List.map_map, List.zipIdx_map_fst]
    by_cases hs : snow > 0
    · rw [if_pos hs]
      cases key with
      | false =>
        simp only [rowsOf, Bool.false_eq_true, if_false, List.length_map]
        have hall : ∀ e ∈ es, Complete stored (n0 :: ns) extra snow false e :=
          fun e he => ⟨hl, hex e he, fun h => (by cases h)⟩
        refine ⟨fun _ => ?_, fun ⟨e, he, h⟩ => absurd (hall e he) h⟩
        have := hrows (List.replicate snow (List.replicate es.length one)) (by
          intro x hx'
          have hlt : x.2 < es.length := by
            have := (List.mem_zipIdx hx').2.1
            omega
          have h0 : (List.replicate es.length one)[x.2]? = some one := by
            rw [List.getElem?_replicate, if_pos hlt]
          simp [row, h0])
        simp only [List.map_cons] at this
        rw [this]
      | true =>
        simp only [rowsOf, if_true, List.length_map]
        by_cases hlen : ∀ e ∈ es, e.snow.length = snow
        · have hall : ∀ e ∈ es, Complete stored (n0 :: ns) extra snow true e :=
            fun e he => ⟨hl, hex e he, fun _ _ => hlen e he⟩
          refine ⟨fun _ => ?_, fun ⟨e, he, h⟩ => absurd (hall e he) h⟩
          obtain ⟨e0, he0⟩ := List.exists_mem_of_ne_nil es hes
          have hmax : ((snowRows es).map Prod.fst).max? = some (snow - 1) := by
            rw [List.max?_eq_some_iff]
            refine ⟨(mem_snow_index es _).2 ⟨e0, he0, by rw [hlen e0 he0]; omega⟩, ?_⟩
            intro i hi
            obtain ⟨e, he, hi⟩ := (mem_snow_index es i).1 hi
            rw [hlen e he] at hi
            omega
          have hmin : ((snowRows es).map Prod.fst).min? = some 0 := by
            rw [List.min?_eq_some_iff]
            exact ⟨(mem_snow_index es _).2 ⟨e0, he0, by rw [hlen e0 he0]; omega⟩, fun i _ => Nat.zero_le i⟩
          rw [hmax, hmin]
          simp only [ne_eq, not_true_eq_false, if_false]
          rw [loadSnow_eq, if_pos (by
            intro i hi e he
            rw [hlen e he]
            exact List.mem_range.1 hi)]
          simp only
          have := hrows ((List.range snow).map fun i => es.filterMap fun e => e.snow[i]?) (by
            intro x hx'
            have hxe := (List.mem_zipIdx hx')
            have hlt : x.2 < es.length := by omega
            have hx1 : x.1 = es[x.2] := by
              have := hxe.2.2
              simpa using this
            have hcol : ∀ i ∈ List.range snow, (es.filterMap fun e => e.snow[i]?)[x.2]? = x.1.snow[i]? := by
              intro i hi
              have hi := List.mem_range.1 hi
              have h4 : (es.filterMap fun e => e.snow[i]?).map some = es.map fun e => e.snow[i]? :=
                map_some_snow es i (fun e he => by rw [hlen e he]; exact hi)
              have h5 : ((es.filterMap fun e => e.snow[i]?).map some)[x.2]? = some (x.1.snow[i]?) := by
                rw [h4, List.getElem?_map, List.getElem?_eq_getElem hlt, hx1]
                rfl
              rw [List.getElem?_map] at h5
              cases hc : (es.filterMap fun e => e.snow[i]?)[x.2]? with
              | none => rw [hc] at h5; cases h5
              | some v => rw [hc] at h5; simpa using h5
            rw [List.filterMap_map]
            have h6 : (List.range snow).filterMap ((fun c : List R => c[x.2]?) ∘ fun i => es.filterMap fun e => e.snow[i]?) =
                (List.range snow).filterMap fun i => (x.1.snow[i]?).map id := by
              apply List.filterMap_congr
              intro i hi
              simp only [Function.comp_apply]
              rw [hcol i hi]
              simp
            rw [h6, range_filterMap x.1.snow id snow (hlen x.1 (by rw [hx1]; exact List.getElem_mem _))]
            simp [row, hs])
          simp only [List.map_cons] at this
          rw [this]
        · refine ⟨fun h => absurd (fun e he => (h e he).2.2 rfl hs) hlen, fun _ => ?_⟩
          cases hmax : ((snowRows es).map Prod.fst).max? with
          | none => rfl
          | some hi =>
            cases hmin : ((snowRows es).map Prod.fst).min? with
            | none => rfl
            | some lo =>
              simp only
              by_cases h1 : hi ≠ snow - 1
              · rw [if_pos h1]
              rw [if_neg h1]
              by_cases h2 : lo ≠ 0
              · rw [if_pos h2]
              rw [if_neg h2, loadSnow_eq]
              rw [if_neg]
              intro h3
              apply hlen
              intro e he
              have h4 := h3 (snow - 1) (List.mem_range.2 (by omega)) e he
              have h5 := (List.max?_eq_some_iff.1 hmax).2
              by_contra hc
              have := h5 snow ((mem_snow_index es snow).2 ⟨e, he, by omega⟩)
              push Not at h1
              omega
    · rw [if_neg hs]
      have hall : ∀ e ∈ es, Complete stored (n0 :: ns) extra snow key e :=
        fun e he => ⟨hl, hex e he, fun _ h => absurd h hs⟩
      refine ⟨fun _ => ?_, fun ⟨e, he, h⟩ => absurd (hall e he) h⟩
      have hs0 : snow = 0 := by omega
      subst hs0
      have := hrows [] (by intro x _; simp [row])
      simp only [List.map_cons, List.append_nil] at this
      simp only
      rw [this]

/-- **C120.** Loading a file is the same as loading the frames of its events: it is skipped exactly if one of the
frames would be, and has the rows of all frames. -/
theorem C120_same_partial (shift : List R → List R) (stored names : List ν) (hne : names ≠ [])
    (extra : Dict ν R → Except Err Unit) (extraAll : Dict ν (List R) → Except Err Unit)
    (es : List (Event ν R)) (hes : es ≠ []) (snow : Nat) (key : Bool) (one : R)
    (hextra : (∀ l ∈ names, l ∈ stored) →
      (extraAll (table stored es) = .ok () ↔ ∀ e ∈ es, extra (e.frame stored) = .ok ())) :
    let frame := fun e => fromFrame shift (some (e.frame stored)) names extra snow (vecOf key e) one
    let file := fromFile shift (some (table stored es)) names extraAll snow (rowsOf key es) one
    ((∃ e ∈ es, frame e = none) → file = none) ∧
    (∀ rows, (∀ e ∈ es, frame e = some (rows e)) → file = some (es.flatMap rows)) := by
  obtain ⟨f1, f2⟩ := C120_file shift stored names hne extra extraAll es hes snow key one hextra
  refine ⟨?_, ?_⟩
  · rintro ⟨e, he, h⟩
    refine f2 ⟨e, he, fun hc => ?_⟩
    have := (C120_frame shift stored names hne extra snow key one e).1 hc
    simp only at h
    rw [h] at this
    cases this
  · intro rows h
    have hc : ∀ e ∈ es, Complete stored names extra snow key e := by
      intro e he
      by_contra hc
      have := (C120_frame shift stored names hne extra snow key one e).2 hc
      have h' := h e he
      simp only at h'
      rw [h'] at this
      cases this
    refine (f1 hc).trans ?_
    congr 1
    have hr : ∀ e ∈ es, rows e = [shift (row names snow key one e)] := by
      intro e he
      have h1 := (C120_frame shift stored names hne extra snow key one e).1 (hc e he)
      have h' := h e he
      simp only at h'
      rw [h'] at h1
      exact Option.some.inj h1
    clear h hc f1 f2 hextra hes
    induction es with
    | nil => rfl
    | cons e es ih =>
      rw [List.map_cons, List.flatMap_cons, hr e (List.mem_cons_self ..),
        ih (fun e he => hr e (List.mem_cons_of_mem _ he))]
      rfl

/-- **C120 is violated** for a file without events: with snowstorm parameters it is skipped, as if it were broken,
without them it has no rows. -/
theorem C120_empty_violated (shift : List R → List R) (stored names : List ν) (hne : names ≠ [])
    (hn : ∀ l ∈ names, l ∈ stored) (snow : Nat) (hs : 0 < snow) (one : R) :
    fromFile shift (some (table stored ([] : List (Event ν R)))) names (fun _ => .ok ()) snow
      (rowsOf true ([] : List (Event ν R))) one = none ∧
    fromFile shift (some (table stored ([] : List (Event ν R)))) names (fun _ => .ok ()) snow
      (rowsOf false ([] : List (Event ν R))) one = some [] := by
  obtain ⟨n0, ns, rfl⟩ : ∃ a l, names = a :: l := List.exists_cons_of_ne_nil hne
  simp only [fromFile, loadColumns, loadLabels_eq, if_pos hn, List.map_cons, List.map_nil, if_pos hs]
  refine ⟨rfl, ?_⟩
  simp [rowsOf, numRows, transpose]

/-- The additional condition of track segments holds for a file exactly if it does for all frames. -/
theorem C120_segments [DecidableEq R] (zero : R) (name : ν) (stored : List ν) (es : List (Event ν R))
    (hes : es ≠ []) :
    startZeroAll zero name (table stored es) = .ok () ↔
      ∀ e ∈ es, startZero zero name (e.frame stored) = .ok () := by
  unfold startZeroAll startZero table Event.frame
  rw [get_map]
  by_cases h : name ∈ stored
  · rw [if_pos h]
    simp only [get_map, if_pos h, List.all_map]
    constructor
    · intro h1 e he
      split at h1
      · rename_i h2
        rw [List.all_eq_true] at h2
        have := h2 e he
        simp only [Function.comp_apply, decide_eq_true_eq] at this
        rw [if_pos this]
      · cases h1
    · intro h1
      rw [if_pos]
      rw [List.all_eq_true]
      intro e he
      have := h1 e he
      split at this
      · rename_i h2; simpa using h2
      · cases this
  · rw [if_neg h]
    simp only [get_map, if_neg h]
    obtain ⟨e, he⟩ := List.exists_mem_of_ne_nil es hes
    constructor
    · intro h1; cases h1
    · intro h1; exact absurd (h1 e he) (by simp)

end

/-- **C120 (muons).** Frames and files give the same rows for muons. -/
theorem C120_muons {R : Type} [Div R] [Max R] (ofNat : Nat → R) (stored : List String) (n : Nat)
    (es : List (Event String R)) (e : Event String R) :
    let names := ["cascade_x", "cascade_y", "cascade_z", "cascade_zenith", "cascade_azimuth", "cascade_t"]
    let row := fun e : Event String R =>
      names.map e.label ++ List.replicate n (max (e.label "cascade_energy" / ofNat n) (ofNat 100))
    let ok := ∀ l ∈ names ++ ["cascade_energy"], l ∈ stored
    (ok → muonsFromFrame ofNat (some (e.frame stored)) n = some [row e] ∧
      muonsFromFile ofNat (some (table stored es)) n = some (es.map row)) ∧
    (¬ ok → muonsFromFrame ofNat (some (e.frame stored)) n = none ∧
      muonsFromFile ofNat (some (table stored es)) n = none) := by
  intro names row ok
  have hg1 : Dict.get? (e.frame stored) "cascade_energy" =
      if "cascade_energy" ∈ stored then some (e.label "cascade_energy") else none := get_map stored e.label _
  have hg2 : Dict.get? (table stored es) "cascade_energy" =
      if "cascade_energy" ∈ stored then some (es.map fun e => e.label "cascade_energy") else none :=
    get_map stored (fun l => es.map fun e : Event String R => e.label l) _
  by_cases h1 : ∀ l ∈ names, l ∈ stored
  · by_cases h2 : "cascade_energy" ∈ stored
    · have hok : ok := by
        intro l hl
        rcases List.mem_append.1 hl with hl | hl
        · exact h1 l hl
        · rw [List.mem_singleton] at hl; subst hl; exact h2
      refine ⟨fun _ => ⟨?_, ?_⟩, fun h => absurd hok h⟩
      · have hf := frameLabels_eq stored names e
        rw [if_pos h1] at hf
        unfold muonsFromFrame
        simp only
        change (match frameLabels (e.frame stored) names, Dict.get? (e.frame stored) "cascade_energy" with
          | .ok cols, some e => _
          | _, _ => _) = _
        rw [hf, hg1, if_pos h2]
        simp only
        have := rows_transpose names [e] (List.replicate n [max (e.label "cascade_energy" / ofNat n) (ofNat 100)])
        simp only [List.length_singleton, List.map_cons, List.map_nil, List.zipIdx_singleton] at this
        have hn : numRows ((names.map fun l => [e.label l]) ++
            List.replicate n [max (e.label "cascade_energy" / ofNat n) (ofNat 100)]) = 1 := rfl
        rw [hn, this]
        simp [row]
      · have hf := loadLabels_eq stored names es
        rw [if_pos h1] at hf
        have hm : loadMuons ofNat (table stored es) n = some ((names.map fun l => es.map fun e => e.label l) ++
            List.replicate n ((es.map fun e => e.label "cascade_energy").map
              fun x => max (x / ofNat n) (ofNat 100))) := by
          unfold loadMuons
          rw [show loadLabels (table stored es) ["cascade_x", "cascade_y", "cascade_z", "cascade_zenith", "cascade_azimuth", "cascade_t"] = _ from hf, hg2, if_pos h2]
        unfold muonsFromFile
        simp only [hm]
        have := rows_transpose names es (List.replicate n ((es.map fun e => e.label "cascade_energy").map
          fun x => max (x / ofNat n) (ofNat 100)))
        have hn : numRows ((names.map fun l => es.map fun e => e.label l) ++
            List.replicate n ((es.map fun e => e.label "cascade_energy").map
              fun x => max (x / ofNat n) (ofNat 100))) = es.length := by
          simp [numRows, names]
        rw [hn, this]
        congr 1
        have h3 : es.map row = (es.zipIdx.map Prod.fst).map row := by rw [List.zipIdx_map_fst]
        rw [h3, show (es.zipIdx.map Prod.fst).map row = es.zipIdx.map (row ∘ Prod.fst) from List.map_map]
        apply List.map_congr_left
        intro x hx
        have hxe := List.mem_zipIdx hx
        have hlt : x.2 < es.length := by omega
        have hx1 : x.1 = es[x.2] := by simpa using hxe.2.2
        have h4 : ((es.map fun e => e.label "cascade_energy").map
            fun x => max (x / ofNat n) (ofNat 100))[x.2]? =
            some (max (x.1.label "cascade_energy" / ofNat n) (ofNat 100)) := by
          rw [List.getElem?_map, List.getElem?_map, List.getElem?_eq_getElem hlt, hx1]
          rfl
        simp only [row, Function.comp_apply, List.filterMap_replicate, h4]
    · have hok : ¬ ok := fun h => h2 (h "cascade_energy" (by simp))
      refine ⟨fun h => absurd h hok, fun _ => ⟨?_, ?_⟩⟩
      · unfold muonsFromFrame
        simp only [hg1, if_neg h2]
        cases frameLabels (e.frame stored) names <;> rfl
      · unfold muonsFromFile loadMuons
        simp only [hg2, if_neg h2]
        cases loadLabels (table stored es) names <;> rfl
  · have hok : ¬ ok := fun h => h1 (fun l hl => h l (List.mem_append.2 (Or.inl hl)))
    refine ⟨fun h => absurd h hok, fun _ => ⟨?_, ?_⟩⟩
    · have hf := frameLabels_eq stored names e
      rw [if_neg h1] at hf
      unfold muonsFromFrame
      simp only
      change (match frameLabels (e.frame stored) names, Dict.get? (e.frame stored) "cascade_energy" with
        | .ok cols, some e => _
        | _, _ => _) = _
      rw [hf]
    · have hf := loadLabels_eq stored names es
      rw [if_neg h1] at hf
      have hm : loadMuons ofNat (table stored es) n = none := by
        unfold loadMuons
        rw [show loadLabels (table stored es) ["cascade_x", "cascade_y", "cascade_z", "cascade_zenith", "cascade_azimuth", "cascade_t"] = _ from hf]
      unfold muonsFromFile
      simp only [hm]

/-! An example: two events with two snowstorm parameters, and one with three. -/
namespace Ex

def e1 : Event String Nat := ⟨fun l => l.length, [7, 8]⟩
def e2 : Event String Nat := ⟨fun l => 10 + l.length, [17, 18]⟩
def e3 : Event String Nat := ⟨fun l => 20 + l.length, [27, 28, 29]⟩

example : fromFile id (some (table ["a", "bb", "ccc"] [e1, e2])) ["ccc", "a"] (fun _ => .ok ()) 2
    (rowsOf true [e1, e2]) 1 = some [[3, 1, 7, 8], [13, 11, 17, 18]] := by decide

example : fromFrame id (some (e1.frame ["a", "bb", "ccc"])) ["ccc", "a"] (fun _ => .ok ()) 2 (vecOf true e1) 1 =
    some [[3, 1, 7, 8]] := by decide

example : fromFile id (some (table ["a", "bb", "ccc"] [e1, e3])) ["ccc", "a"] (fun _ => .ok ()) 2
    (rowsOf true [e1, e3]) 1 = none := by decide

example : Complete ["a", "bb", "ccc"] ["ccc", "a"] (fun _ => .ok ()) 2 true e1 := by
  simp [Complete, e1]

end Ex

end Verif.Frames
