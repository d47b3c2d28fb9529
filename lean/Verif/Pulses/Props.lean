/-
C22, C23: pulses.
-/
import Verif.Pulses.Lemmas
import Mathlib.Algebra.Order.Ring.Unbundled.Rat
import Mathlib.Algebra.Field.Rat
import Mathlib.Tactic.NormNum

namespace Verif.Pulses
open Verif.Py

set_option linter.unusedSectionVars false
variable {κ K : Type} [DecidableEq κ] [Field K] [LinearOrder K]

/-! ### C22 -/

theorem raw_used (labels : List κ) (quantiles : Bool) (mem : Nat → (K × K × K) × Ids)
    (rows : List (Row κ K)) (hu : ∀ r ∈ rows, r.Used) :
    rows.zipIdx.map (rawOut labels quantiles mem rows) = rows.zipIdx.map (fun rk =>
      ((⟨rk.1.charge, rk.1.time,
        if quantiles then some (chargeIn labels (rows.take (rk.2 + 1)) (cellOf labels rk.1)) else none⟩ :
          Pulse K), idsOf (cellOf labels rk.1))) := by
  refine List.map_congr_left (fun rk hrk => ?_)
  have : rk.1 ∈ rows := List.fst_mem_of_mem_zipIdx hrk
  unfold rawOut
  rw [if_pos (hu _ this)]

/-- Pulses after the division. -/
theorem divided (labels : List κ) (quantiles : Bool) (mem : Nat → (K × K × K) × Ids)
    (rows : List (Row κ K)) (hu : ∀ r ∈ rows, r.Used) (hv : ∀ r ∈ rows, r.Valid labels) (a : Acc K)
    (h : Inv labels quantiles mem rows a) :
    (if quantiles then divide labels.length a.charge a.out else .ok a.out) =
      .ok (rows.zipIdx.map (pulseOf labels quantiles rows)) := by
  rw [h.out, raw_used labels quantiles mem rows hu]
  cases quantiles with
  | false => rfl
  | true =>
    simp only [if_true]
    rw [divide_spec labels.length a.charge (fun rk : Row κ K × Nat => cellOf labels rk.1)
      (fun rk => ⟨rk.1.charge, rk.1.time,
        some (chargeIn labels (rows.take (rk.2 + 1)) (cellOf labels rk.1))⟩) rows.zipIdx
      (fun rk hrk => by
        have : rk.1 ∈ rows := List.fst_mem_of_mem_zipIdx hrk
        exact cellOk (hu _ this) (hv _ this))]
    simp only [Option.map_some, h.charge]
    rfl

theorem discarded (labels : List κ) (quantiles : Bool) (rows : List (Row κ K))
    (hu : ∀ r ∈ rows, r.Used) (hv : ∀ r ∈ rows, r.Valid labels) (x : Cell → Bool) :
    discardExcluded labels.length x (rows.zipIdx.map (pulseOf labels quantiles rows)) =
      .ok ((rows.zipIdx.filter (fun rk => x (cellOf labels rk.1))).map (pulseOf labels quantiles rows)) := by
  exact discard_spec labels.length x (fun rk : Row κ K × Nat => cellOf labels rk.1)
    (fun rk => (pulseOf labels quantiles rows rk).1) rows.zipIdx (fun rk hrk => by
      have : rk.1 ∈ rows := List.fst_mem_of_mem_zipIdx hrk
      exact cellOk (hu _ this) (hv _ this))

/-- C22 (hdf, partial: all pulses are on in-ice DOMs, and the DOM charge counts discarded pulses). Each
row contributes its charge to the cell of its own event, string and DOM, and to nothing else; the time
window is that of the rows; the pulses are the rows in order, without those on DOMs that are bad or in the
exclusion table if those are to be discarded. -/
theorem C22_hdf_partial (cfg : Config) (labels : List κ) (rows : List (Row κ K))
    (excl : Option (List (DomRow κ))) (times : List (TimeRow κ K))
    (mem : Nat → (K × K × K) × Ids) (tmem : Nat → (K × K) × Ids)
    (hn : labels.Nodup) (hu : ∀ r ∈ rows, r.Used) (hv : ∀ r ∈ rows, r.Valid labels)
    (he : ∀ l, excl = some l → ∀ r ∈ l, r.Valid labels)
    (ht : ∀ r ∈ times, r.dom ≤ 60 ∧ r.event ∈ labels) :
    ∃ d x, fromHdf cfg ⟨some labels, some rows, excl, some times⟩ mem tmem =
        .ok (some (labels.length, d)) ∧
      (∀ c, x c = true ↔ cfg.good c.2.1 c.2.2 = true ∧ ∀ l, excl = some l → ¬ ExcludedBy labels l c) ∧
      d.domExclusions = (if cfg.domExclusionsExist then some x else none) ∧
      d.timeExclusions = (if cfg.timeExclusionsExist then some (times.map (fun r =>
        ((r.start, r.stop), ⟨labels.idxOf r.event, r.string - 1, r.dom - 1⟩))) else none) ∧
      Extracted labels cfg.quantiles rows
        (fun c => !(cfg.domExclusionsExist && excl.isSome && cfg.discard) || x c) d := by
  obtain ⟨a, h1, h2⟩ := hdfPulses_inv hn rows hv [] _ (inv_init labels cfg.quantiles mem)
  rw [List.nil_append] at h2
  rw [List.length_nil] at h1
  have h3 := divided labels cfg.quantiles mem rows hu hv a h2
  have h4 := hdfTimes_spec hn tmem times ht 0
  have h5 : (if cfg.timeExclusionsExist = true then
        (hdfTimes (eventDict labels) tmem ((some times).getD []) 0).map some else .ok none) =
      (.ok (if cfg.timeExclusionsExist then some (times.map (fun r =>
        ((r.start, r.stop), ⟨labels.idxOf r.event, r.string - 1, r.dom - 1⟩))) else none) :
        Except Err _) := by
    cases cfg.timeExclusionsExist with
    | false => rfl
    | true => simp only [if_true, Option.getD_some, h4, Except.map]
  have hall : (rows.zipIdx.filter (fun _ => true)) = rows.zipIdx := by simp
  simp only [fromHdf, Option.isNone_some, Bool.false_eq_true, and_false, if_false, h1, h3, h5]
  cases hde : cfg.domExclusionsExist with
  | false =>
    obtain ⟨x, -, hx⟩ := hdfExclusions_spec hn (excl.getD [])
      (fun r hr => by
        cases excl with
        | none => simp at hr
        | some l => exact he l rfl r hr) (initExclusions cfg)
    refine ⟨_, x, rfl, fun c => ?_, rfl, rfl, h2.charge, h2.lo, h2.hi, by simp⟩
    rw [hx]
    refine and_congr_right (fun _ => ?_)
    cases excl with
    | none => simp [ExcludedBy]
    | some l => simp
  | true =>
    cases excl with
    | none =>
      exact ⟨_, initExclusions cfg, rfl, fun c => by simp [initExclusions], rfl, rfl,
        h2.charge, h2.lo, h2.hi, by simp⟩
    | some l =>
      obtain ⟨x, h6, hx⟩ := hdfExclusions_spec hn l (he l rfl) (initExclusions cfg)
      simp only [h6, discarded labels cfg.quantiles rows hu hv x]
      cases hd : cfg.discard with
      | false =>
        exact ⟨_, x, rfl, fun c => by rw [hx]; simp [initExclusions], rfl, rfl,
          h2.charge, h2.lo, h2.hi, by simp⟩
      | true =>
        exact ⟨_, x, rfl, fun c => by rw [hx]; simp [initExclusions], rfl, rfl,
          h2.charge, h2.lo, h2.hi, by simp⟩

/-- C22 (hdf, with skipped rows). Whatever the settings: whenever the module returns data, charges and time
windows are those of the rows on in-ice DOMs. Without quantiles and without discarding, there is one pulse
for each row, at its place: that of the row, or for a skipped row whatever is in memory. -/
theorem C22_hdf_skipped_partial (cfg : Config) (labels : List κ) (rows : List (Row κ K))
    (excl : Option (List (DomRow κ))) (times : Option (List (TimeRow κ K)))
    (mem : Nat → (K × K × K) × Ids) (tmem : Nat → (K × K) × Ids) (hn : labels.Nodup)
    (hv : ∀ r ∈ rows, r.Valid labels) (size : Nat) (d : Data K)
    (h : fromHdf cfg ⟨some labels, some rows, excl, times⟩ mem tmem = .ok (some (size, d))) :
    size = labels.length ∧ (∀ c, d.domCharge c = chargeIn labels rows c) ∧
    (∀ e, IsLeast (timesOf labels rows e) (d.timeWindow e).1) ∧
    (∀ e, IsGreatest (timesOf labels rows e) (d.timeWindow e).2) ∧
    (cfg.quantiles = false → cfg.discard = false → d.pulses.length = rows.length ∧
      ∀ (k : Nat) (r : Row κ K), rows[k]? = some r →
        (r.Used → d.pulses[k]? = some (⟨r.charge, r.time, none⟩, idsOf (cellOf labels r))) ∧
        (¬ r.Used → d.pulses[k]? = some (⟨(mem k).1.1, (mem k).1.2.1, none⟩, (mem k).2))) := by
  obtain ⟨a, h1, h2⟩ := hdfPulses_inv hn rows hv [] _ (inv_init labels cfg.quantiles mem)
  rw [List.nil_append] at h2
  rw [List.length_nil] at h1
  have key : size = labels.length ∧ d.domCharge = a.charge ∧ d.timeWindow = a.window ∧
      (cfg.quantiles = false → cfg.discard = false → d.pulses = a.out) := by
    simp only [fromHdf, h1] at h
    split at h
    · cases h
    · split at h
      · cases h
      · rename_i out hout
        split at h
        · cases h
        · split at h
          · split at h
            · cases h
            · split at h
              · cases h
              · rename_i out' hout'
                cases h
                refine ⟨rfl, rfl, rfl, fun hq hd => ?_⟩
                rw [hq, if_neg (by decide)] at hout
                rw [hd, if_neg (by decide)] at hout'
                cases hout
                cases hout'
                rfl
          · cases h
            refine ⟨rfl, rfl, rfl, fun hq hd => ?_⟩
            rw [hq, if_neg (by decide)] at hout
            cases hout
            rfl
          · cases h
            refine ⟨rfl, rfl, rfl, fun hq hd => ?_⟩
            rw [hq, if_neg (by decide)] at hout
            cases hout
            rfl
  obtain ⟨k1, k2, k3, k4⟩ := key
  refine ⟨k1, fun c => by rw [k2]; exact h2.charge c, fun e => by rw [k3]; exact h2.lo e,
    fun e => by rw [k3]; exact h2.hi e, fun hq hd => ?_⟩
  rw [k4 hq hd, h2.out, hq]
  refine ⟨by simp, fun k r hr => ?_⟩
  have hz : rows.zipIdx[k]? = some (r, k) := by
    rw [List.getElem?_zipIdx, hr]
    simp
  rw [List.getElem?_map, hz]
  constructor
  · intro hu
    simp [rawOut, hu]
  · intro hu
    simp [rawOut, hu]

/-- C22 (frame, partial: at least one pulse is on an in-ice DOM). The same for a pulse series map. -/
theorem C22_frame_partial (cfg : Config) (pulses : List ((Int × Int) × List (K × K)))
    (excl : Option (List (Int × Int)))
    (hv : ∀ p ∈ pulses, p.1.2 ≤ 60 → 1 ≤ p.1.1 ∧ p.1.1 ≤ 86 ∧ 1 ≤ p.1.2)
    (he : ∀ l, excl = some l → ∀ r ∈ l, r.2 ≤ 60 → 1 ≤ r.1 ∧ r.1 ≤ 86 ∧ 1 ≤ r.2)
    (hne : frameRows pulses ≠ []) :
    ∃ d x, fromFrame cfg ⟨pulses, excl⟩ = .ok (1, d) ∧
      (∀ c, x c = true ↔ cfg.good c.2.1 c.2.2 = true ∧ ∀ l, excl = some l →
        ¬ ExcludedBy [()] (l.map (fun r => ⟨(), r.1, r.2⟩)) c) ∧
      d.domExclusions = (if cfg.domExclusionsExist then some x else none) ∧
      Extracted [()] cfg.quantiles (frameRows pulses)
        (fun c => !(cfg.domExclusionsExist && excl.isSome && cfg.discard) || x c) d := by
  obtain ⟨a, h1, h2⟩ := framePulses_inv pulses hv [] _
    (inv_init [()] cfg.quantiles (fun _ => ((0, 0, 0), ⟨0, 0, 0⟩)))
  rw [List.nil_append] at h2
  have hr : ∀ r ∈ frameRows pulses, r.Used ∧ r.Valid [()] := by
    intro r hr
    simp only [frameRows, List.mem_flatMap] at hr
    obtain ⟨p, hp, hr⟩ := hr
    by_cases hd : p.1.2 ≤ 60
    · rw [if_pos hd, List.mem_map] at hr
      obtain ⟨q, -, rfl⟩ := hr
      exact ⟨hd, fun _ => ⟨by simp, hv p hp hd⟩⟩
    · rw [if_neg hd] at hr; simp at hr
  have hu := fun r h => (hr r h).1
  have hvl := fun r h => (hr r h).2
  have h3 := divided [()] cfg.quantiles _ _ hu hvl a h2
  have hout : a.out.isEmpty = false := by
    rw [h2.out]; cases h : frameRows pulses with
    | nil => exact absurd h hne
    | cons r l => rfl
  have h3' : (if cfg.quantiles = true then divide 1 a.charge a.out else .ok a.out) =
      .ok ((frameRows pulses).zipIdx.map (pulseOf [()] cfg.quantiles (frameRows pulses))) := h3
  simp only [fromFrame, h1, hout, Bool.false_eq_true, if_false, h3']
  cases hde : cfg.domExclusionsExist with
  | false =>
    obtain ⟨x, -, hx⟩ := frameExclusions_spec (excl.getD [])
      (fun r hr => by
        cases excl with
        | none => simp at hr
        | some l => exact he l rfl r hr) (initExclusions cfg)
    refine ⟨_, x, rfl, fun c => ?_, rfl, h2.charge, h2.lo, h2.hi, by simp⟩
    rw [hx]
    refine and_congr_right (fun _ => ?_)
    cases excl with
    | none => simp [ExcludedBy]
    | some l => simp
  | true =>
    cases excl with
    | none =>
      exact ⟨_, initExclusions cfg, rfl, fun c => by simp [initExclusions], rfl,
        h2.charge, h2.lo, h2.hi, by simp⟩
    | some l =>
      obtain ⟨x, h6, hx⟩ := frameExclusions_spec l (he l rfl) (initExclusions cfg)
      have h7 := discarded [()] cfg.quantiles _ hu hvl x
      have h7' : discardExcluded 1 x _ = _ := h7
      simp only [h6, h7']
      cases hd : cfg.discard with
      | false =>
        exact ⟨_, x, rfl, fun c => by rw [hx]; simp [initExclusions], rfl,
          h2.charge, h2.lo, h2.hi, by simp⟩
      | true =>
        exact ⟨_, x, rfl, fun c => by rw [hx]; simp [initExclusions], rfl,
          h2.charge, h2.lo, h2.hi, by simp⟩

/-- C22 is violated: the charge of a discarded pulse stays in the DOM charge, and its time in the time
window. -/
theorem C22_discarded_charge_violated (id : κ) (t q : K) (mem : Nat → (K × K × K) × Ids)
    (tmem : Nat → (K × K) × Ids) (good : Nat → Nat → Bool) :
    ∃ d, fromHdf ⟨false, true, false, true, good⟩
        ⟨some [id], some [⟨id, 21, 30, t, q⟩], some [⟨id, 21, 30⟩], some []⟩ mem tmem =
          .ok (some (1, d)) ∧
      d.pulses = [] ∧ d.domCharge (0, 20, 29) = q ∧ d.timeWindow 0 = (some t, some t) := by
  refine ⟨_, by
    simp [fromHdf, eventDict, Dict.set, hdfPulses, Dict.get?, addPulse, pyIndex, hdfExclusions,
      discardExcluded, flatGet, flatIndex, Acc.init]
    rfl, rfl, ?_, ?_⟩ <;> simp [updateWindow]

/-- C22 is violated: the row of a pulse that is skipped is not left out, but keeps whatever is in the
uninitialised memory. -/
theorem C22_skipped_pulse_violated (id : κ) (t q : K) (m : (K × K × K) × Ids)
    (tmem : Nat → (K × K) × Ids) (good : Nat → Nat → Bool) :
    ∃ d, fromHdf ⟨false, false, false, false, good⟩
        ⟨some [id], some [⟨id, 21, 61, t, q⟩], none, none⟩ (fun _ => m) tmem = .ok (some (1, d)) ∧
      d.pulses = [(⟨m.1.1, m.1.2.1, none⟩, m.2)] ∧ ∀ c, d.domCharge c = 0 :=
  ⟨_, rfl, rfl, fun _ => rfl⟩

/-- C22 is violated: the row of a time exclusion that is skipped is not left out either, in no file. -/
theorem C22_skipped_exclusion_violated (cfg : Config) (labels : List κ) (rows : List (Row κ K))
    (excl : Option (List (DomRow κ))) (times : List (TimeRow κ K)) (mem : Nat → (K × K × K) × Ids)
    (tmem : Nat → (K × K) × Ids) (n : Nat) (d : Data K) (ht : cfg.timeExclusionsExist = true)
    (h : fromHdf cfg ⟨some labels, some rows, excl, some times⟩ mem tmem = .ok (some (n, d))) :
    ∃ l, d.timeExclusions = some l ∧ l.length = times.length ∧
      ∀ (k : Nat) (r : TimeRow κ K), times[k]? = some r → r.dom > 60 → l[k]? = some (tmem k) := by
  simp only [fromHdf, ht, Option.isNone_some, Bool.false_eq_true, and_false, if_false, if_true,
    Option.getD_some] at h
  split at h
  · cases h
  · split at h
    · cases h
    · cases hl : hdfTimes (eventDict labels) tmem times 0 with
      | error e => simp [hl, Except.map] at h
      | ok l =>
        obtain ⟨h1, h2⟩ := hdfTimes_skipped times 0 l hl
        refine ⟨l, ?_, h1, fun k r hk hd => by simpa using h2 k r hk hd⟩
        simp only [hl, Except.map] at h
        split at h
        · split at h
          · cases h
          · split at h
            · cases h
            · simp only [Except.ok.injEq, Option.some.injEq, Prod.mk.injEq] at h
              rw [← h.2]
        · simp only [Except.ok.injEq, Option.some.injEq, Prod.mk.injEq] at h
          rw [← h.2]
        · simp only [Except.ok.injEq, Option.some.injEq, Prod.mk.injEq] at h
          rw [← h.2]

example (t q : ℚ) (tmem : Nat → (ℚ × ℚ) × Ids) :
    ∃ d, fromHdf ⟨false, false, true, false, fun _ _ => true⟩
      ⟨some [7], some [⟨7, 21, 30, t, q⟩], none, some [⟨7, 21, 61, 0, 1⟩, ⟨7, 21, 30, 0, 1⟩]⟩
        (fun _ => ((0, 0, 0), ⟨0, 0, 0⟩)) tmem = .ok (some (1, d)) ∧
      d.timeExclusions = some [tmem 0, ((0, 1), ⟨0, 20, 29⟩)] := ⟨_, rfl, rfl⟩

/-- C22 is violated: a frame without pulses raises if quantiles are requested or pulses are
discarded. -/
theorem C22_no_pulses_violated (cfg : Config) (excl : List (Int × Int))
    (h : cfg.quantiles = true) :
    fromFrame (K := K) cfg ⟨[], some excl⟩ = .error .indexError := by
  simp [fromFrame, framePulses, Acc.init, h]

/-- C22. If the time exclusion table is configured but missing, the hdf path logs a warning and then
raises a TypeError. -/
theorem C22_missing_time_exclusions (cfg : Config) (labels : List κ) (rows : List (Row κ K))
    (excl : Option (List (DomRow κ))) (mem : Nat → (K × K × K) × Ids) (tmem : Nat → (K × K) × Ids)
    (h : cfg.timeExclusionsExist = true) :
    fromHdf cfg ⟨some labels, some rows, excl, none⟩ mem tmem = .error .typeError := by
  simp [fromHdf, h]

/-! ### C23 -/

theorem idsOf_inj {c c' : Cell} (h : idsOf c = idsOf c') : c = c' := by
  simp only [idsOf, Ids.mk.injEq, Nat.cast_inj] at h
  exact Prod.ext h.1 (Prod.ext h.2.1 h.2.2)

/-- The charge of the pulses with some ids. -/
def total (l : List (Pulse K × Ids)) (i : Ids) : K :=
  ((l.filter (fun p => decide (p.2 = i))).map (fun p => p.1.charge)).sum

/-- What C23 asks of the rows of `x_pulses`. -/
structure Quantiles (l : List (Pulse K × Ids)) : Prop where
  range : ∀ p ∈ l, ∃ q, p.1.extra = some q ∧ 0 < q ∧ q ≤ 1
  increasing : ∀ pre p mid p' post q q', l = pre ++ p :: (mid ++ p' :: post) → p.2 = p'.2 →
    p.1.extra = some q → p'.1.extra = some q' → q < q'
  increment : ∀ pre p mid p' post q q', l = pre ++ p :: (mid ++ p' :: post) → p.2 = p'.2 →
    (∀ m ∈ mid, m.2 ≠ p.2) → p.1.extra = some q → p'.1.extra = some q' →
    q' - q = p'.1.charge / total l p.2
  first : ∀ pre p post, l = pre ++ p :: post → (∀ m ∈ pre, m.2 ≠ p.2) →
    p.1.extra = some (p.1.charge / total l p.2)
  last : ∀ pre p post, l = pre ++ p :: post → (∀ m ∈ post, m.2 ≠ p.2) → p.1.extra = some 1

theorem total_append (l l' : List (Pulse K × Ids)) (i : Ids) :
    total (l ++ l') i = total l i + total l' i := by
  simp [total]

theorem total_cons (p : Pulse K × Ids) (l : List (Pulse K × Ids)) (i : Ids) :
    total (p :: l) i = (if p.2 = i then p.1.charge else 0) + total l i := by
  unfold total
  by_cases h : p.2 = i <;> simp [h]

theorem total_none {l : List (Pulse K × Ids)} {i : Ids} (h : ∀ m ∈ l, m.2 ≠ i) : total l i = 0 := by
  have : l.filter (fun p => decide (p.2 = i)) = [] := by
    rw [List.filter_eq_nil_iff]; intro m hm; simpa using h m hm
  simp [total, this]

/-- C22. Charges and pulses agree: the charge of a DOM whose pulses are kept is the sum over its pulses, and
a DOM whose pulses are discarded has none. (`C22_hdf_partial` and `C22_frame_partial` give the hypothesis.) -/
theorem C22_charges_of_pulses (labels : List κ) (quantiles : Bool) (rows : List (Row κ K)) (keep : Cell → Bool)
    (d : Data K) (h : Extracted labels quantiles rows keep d) (hu : ∀ r ∈ rows, r.Used) (c : Cell) :
    (keep c = true → d.domCharge c = total d.pulses (idsOf c)) ∧
      (keep c = false → ∀ p ∈ d.pulses, p.2 ≠ idsOf c) := by
  constructor
  · intro hk
    rw [h.charge, h.pulses]
    have key : ∀ (l : List (Row κ K)) (n : Nat), (∀ r ∈ l, r.Used) →
        total (((l.zipIdx n).filter (fun rk => keep (cellOf labels rk.1))).map
          (pulseOf labels quantiles rows)) (idsOf c) = chargeIn labels l c := by
      intro l
      induction l with
      | nil => intro n _; rfl
      | cons r l ih =>
        intro n hl
        have ih' := ih (n + 1) fun r hr => hl r (by simp [hr])
        have hr : r.Used := hl r (by simp)
        have hcons : chargeIn labels (r :: l) c =
            (if cellOf labels r = c then r.charge else 0) + chargeIn labels l c := by
          unfold chargeIn
          by_cases hc : cellOf labels r = c <;> simp [hc, hr]
        rw [hcons, List.zipIdx_cons]
        by_cases hc : cellOf labels r = c
        · rw [List.filter_cons_of_pos (by simpa [hc] using hk), List.map_cons, total_cons, ih', if_pos hc,
            if_pos (by simp [pulseOf, hc])]
          rfl
        · rw [if_neg hc, zero_add, ← ih', List.filter_cons]
          split
          · have hne : (pulseOf labels quantiles rows (r, n)).2 ≠ idsOf c := fun hi => hc (idsOf_inj hi)
            rw [List.map_cons, total_cons, if_neg hne, zero_add]
          · rfl
    exact (key rows 0 hu).symm
  · intro hk p hp hi
    rw [h.pulses, List.mem_map] at hp
    obtain ⟨rk, hrk, rfl⟩ := hp
    have := (List.mem_filter.1 hrk).2
    rw [idsOf_inj hi, hk] at this
    cases this

theorem total_nonneg [IsStrictOrderedRing K] {l : List (Pulse K × Ids)} (h : ∀ p ∈ l, 0 < p.1.charge)
    (i : Ids) : 0 ≤ total l i := by
  induction l with
  | nil => simp [total]
  | cons p l ih =>
    rw [total_cons]
    have h1 := ih (fun p' hp => h p' (by simp [hp]))
    have h2 := h p (by simp)
    split
    · exact add_nonneg (le_of_lt h2) h1
    · simpa using h1

/-- Cumulative fractions have the five properties. -/
theorem quantiles_of_cumulative [IsStrictOrderedRing K] (l : List (Pulse K × Ids))
    (hpos : ∀ p ∈ l, 0 < p.1.charge)
    (hc : ∀ pre p post, l = pre ++ p :: post →
      p.1.extra = some (total (pre ++ [p]) p.2 / total l p.2)) : Quantiles l := by
  have tpos : ∀ pre p post, l = pre ++ p :: post → 0 < total (pre ++ [p]) p.2 ∧
      total l p.2 = total (pre ++ [p]) p.2 + total post p.2 ∧ 0 ≤ total post p.2 := by
    intro pre p post e
    have h1 : 0 ≤ total pre p.2 := total_nonneg (fun x hx => hpos x (by rw [e]; simp [hx])) _
    have h2 : 0 < p.1.charge := hpos p (by rw [e]; simp)
    refine ⟨?_, ?_, total_nonneg (fun x hx => hpos x (by rw [e]; simp [hx])) _⟩
    · rw [total_append, total_cons, if_pos rfl]
      have : total ([] : List (Pulse K × Ids)) p.2 = 0 := rfl
      rw [this, add_zero]
      exact add_pos_of_nonneg_of_pos h1 h2
    · rw [e, ← total_append]; simp
  refine ⟨?_, ?_, ?_, ?_, ?_⟩
  · intro p hp
    obtain ⟨pre, post, e⟩ := List.append_of_mem hp
    obtain ⟨h1, h2, h3⟩ := tpos pre p post e
    refine ⟨_, hc pre p post e, ?_, ?_⟩
    · exact div_pos h1 (by rw [h2]; exact add_pos_of_pos_of_nonneg h1 h3)
    · rw [div_le_one (by rw [h2]; exact add_pos_of_pos_of_nonneg h1 h3), h2]
      exact le_add_of_nonneg_right h3
  · intro pre p mid p' post q q' e hi hq hq'
    have e' : l = (pre ++ p :: mid) ++ p' :: post := by rw [e]; simp
    rw [hc pre p _ e] at hq
    rw [hc _ p' post e'] at hq'
    obtain ⟨h1, h2, h3⟩ := tpos pre p _ e
    cases hq; cases hq'
    rw [← hi]
    refine div_lt_div_of_pos_right ?_ (by rw [h2]; exact add_pos_of_pos_of_nonneg h1 h3)
    have h4 : 0 ≤ total mid p.2 := total_nonneg (fun x hx => hpos x (by rw [e]; simp [hx])) _
    have h5 : 0 < p'.1.charge := hpos p' (by rw [e]; simp)
    have h6 : total ((pre ++ p :: mid) ++ [p']) p.2 =
        total (pre ++ [p]) p.2 + (total mid p.2 + p'.1.charge) := by
      simp only [total_append, total_cons, if_pos hi.symm, if_true]
      simp only [total, List.filter_nil, List.map_nil, List.sum_nil, add_zero]
      rw [← add_assoc, ← add_assoc]
    rw [h6]
    exact lt_add_of_pos_right _ (add_pos_of_nonneg_of_pos h4 h5)
  · intro pre p mid p' post q q' e hi hmid hq hq'
    have e' : l = (pre ++ p :: mid) ++ p' :: post := by rw [e]; simp
    rw [hc pre p _ e] at hq
    rw [hc _ p' post e'] at hq'
    cases hq; cases hq'
    rw [← hi, ← sub_div]
    congr 1
    have h6 : total ((pre ++ p :: mid) ++ [p']) p.2 =
        total (pre ++ [p]) p.2 + (total mid p.2 + p'.1.charge) := by
      simp only [total_append, total_cons, if_pos hi.symm, if_true]
      simp only [total, List.filter_nil, List.map_nil, List.sum_nil, add_zero]
      rw [← add_assoc, ← add_assoc]
    rw [h6, total_none hmid, zero_add, add_sub_cancel_left]
  · intro pre p post e hpre
    rw [hc pre p post e, total_append, total_none hpre, total_cons, if_pos rfl]
    simp [total]
  · intro pre p post e hpost
    obtain ⟨h1, h2, h3⟩ := tpos pre p post e
    rw [hc pre p post e, h2, total_none hpost, add_zero, div_self (ne_of_gt h1)]

theorem sum_filter_zip (labels : List κ) (rows : List (Row κ K)) (hu : ∀ r ∈ rows, r.Used)
    (keep : Cell → Bool) (all : List (Row κ K)) (n : Nat) (c : Cell) (hk : keep c = true) :
    total (((rows.zipIdx n).filter (fun rk => keep (cellOf labels rk.1))).map
      (pulseOf labels true all)) (idsOf c) = chargeIn labels rows c := by
  induction rows generalizing n with
  | nil => rfl
  | cons r rows ih =>
    have ih' := ih (fun r' h => hu r' (by simp [h])) (n + 1)
    have hch : chargeIn labels (r :: rows) c =
        (if cellOf labels r = c then r.charge else 0) + chargeIn labels rows c := by
      unfold chargeIn
      have := hu r (by simp)
      by_cases h : cellOf labels r = c <;> simp [this, h]
    rw [List.zipIdx_cons, hch, List.filter_cons]
    by_cases h : cellOf labels r = c
    · simp only [h, hk, if_true, List.map_cons]
      rw [total_cons, ih']
      simp [pulseOf, h]
    · rw [if_neg h, zero_add]
      split
      · rw [List.map_cons, total_cons, ih', if_neg, zero_add]
        exact fun e => h (idsOf_inj e)
      · exact ih'

/-- The pulses that are extracted have the quantiles of C23. -/
theorem extracted_quantiles [IsStrictOrderedRing K] {labels : List κ} {rows : List (Row κ K)}
    (hu : ∀ r ∈ rows, r.Used) (hpos : ∀ r ∈ rows, 0 < r.charge) {keep : Cell → Bool} {d : Data K}
    (h : Extracted labels true rows keep d) : Quantiles d.pulses := by
  refine quantiles_of_cumulative _ ?_ ?_
  · intro p hp
    rw [h.pulses, List.mem_map] at hp
    obtain ⟨rk, hrk, rfl⟩ := hp
    exact hpos _ (List.fst_mem_of_mem_zipIdx (List.mem_of_mem_filter hrk))
  · intro pre p post e
    have e0 := e
    rw [h.pulses, List.map_eq_append_iff] at e
    obtain ⟨l1, l2, e1, e2, e3⟩ := e
    rw [List.map_eq_cons_iff] at e3
    obtain ⟨rk, l3, rfl, rfl, e3⟩ := e3
    rw [List.filter_eq_append_iff] at e1
    obtain ⟨m1, m2, e4, e5, e6⟩ := e1
    rw [List.filter_eq_cons_iff] at e6
    obtain ⟨m3, m4, rfl, e7, e8, e9⟩ := e6
    rw [← List.append_assoc, List.zipIdx_eq_append_iff] at e4
    obtain ⟨r1, r2, e10, e11, e12⟩ := e4
    have e12' := e12.symm
    rw [List.zipIdx_eq_cons_iff] at e12'
    obtain ⟨r, r3, rfl, rfl, e13⟩ := e12'
    simp only [pulseOf, if_true]
    have hk : keep (cellOf labels r) = true := e8
    have hpre : pre ++ [pulseOf labels true rows (r, 0 + r1.length)] =
        ((((r1 ++ [r]).zipIdx 0).filter (fun rk => keep (cellOf labels rk.1))).map
          (pulseOf labels true rows)) := by
      rw [List.zipIdx_append, List.filter_append, List.map_append]
      congr 1
      · rw [← e11, List.filter_append, e5, ← e2]
        have : m3.filter (fun rk => keep (cellOf labels rk.1)) = [] := by
          rw [List.filter_eq_nil_iff]; exact e7
        rw [this, List.append_nil]
      · simp [hk]
    have h1 : total (pre ++ [pulseOf labels true rows (r, 0 + r1.length)]) (idsOf (cellOf labels r)) =
        chargeIn labels (r1 ++ [r]) (cellOf labels r) := by
      rw [hpre]
      exact sum_filter_zip labels _ (fun r' hr' => hu r' (by
        rw [e10]; rcases List.mem_append.mp hr' with h | h
        · simp [h]
        · simp [List.mem_singleton.mp h])) keep rows 0 _ hk
    have h2 : total d.pulses (idsOf (cellOf labels r)) = chargeIn labels rows (cellOf labels r) := by
      rw [h.pulses]; exact sum_filter_zip labels rows hu keep rows 0 _ hk
    have h3 : rows.take (0 + r1.length + 1) = r1 ++ [r] := by
      rw [e10, Nat.zero_add]
      have : r1 ++ r :: r3 = (r1 ++ [r]) ++ r3 := by simp
      rw [this]
      exact List.take_left' (by simp)
    have h1' : total (pre ++ [((⟨r.charge, r.time, some (chargeIn labels (rows.take (0 + r1.length + 1))
        (cellOf labels r) / chargeIn labels rows (cellOf labels r))⟩ : Pulse K),
        idsOf (cellOf labels r))]) (idsOf (cellOf labels r)) = chargeIn labels (r1 ++ [r]) (cellOf labels r) := h1
    rw [h1', h2, h3]

/-- C23 (hdf, partial: all pulses are on in-ice DOMs). For positive charges the quantiles are cumulative
fractions of the charge of each DOM. -/
theorem C23_hdf_partial [IsStrictOrderedRing K] (cfg : Config) (labels : List κ) (rows : List (Row κ K))
    (excl : Option (List (DomRow κ))) (times : List (TimeRow κ K))
    (mem : Nat → (K × K × K) × Ids) (tmem : Nat → (K × K) × Ids)
    (hq : cfg.quantiles = true)
    (hn : labels.Nodup) (hu : ∀ r ∈ rows, r.Used) (hv : ∀ r ∈ rows, r.Valid labels)
    (hpos : ∀ r ∈ rows, 0 < r.charge)
    (he : ∀ l, excl = some l → ∀ r ∈ l, r.Valid labels)
    (ht : ∀ r ∈ times, r.dom ≤ 60 ∧ r.event ∈ labels) :
    ∃ d, fromHdf cfg ⟨some labels, some rows, excl, some times⟩ mem tmem =
      .ok (some (labels.length, d)) ∧ Quantiles d.pulses := by
  obtain ⟨d, x, h1, -, -, -, h2⟩ := C22_hdf_partial cfg labels rows excl times mem tmem hn hu hv he ht
  rw [hq] at h2
  exact ⟨d, h1, extracted_quantiles hu hpos h2⟩

/-- C23 (frame). -/
theorem C23_frame [IsStrictOrderedRing K] (cfg : Config) (pulses : List ((Int × Int) × List (K × K)))
    (excl : Option (List (Int × Int))) (hq : cfg.quantiles = true)
    (hv : ∀ p ∈ pulses, p.1.2 ≤ 60 → 1 ≤ p.1.1 ∧ p.1.1 ≤ 86 ∧ 1 ≤ p.1.2)
    (he : ∀ l, excl = some l → ∀ r ∈ l, r.2 ≤ 60 → 1 ≤ r.1 ∧ r.1 ≤ 86 ∧ 1 ≤ r.2)
    (hpos : ∀ p ∈ pulses, ∀ q ∈ p.2, 0 < q.1)
    (hne : frameRows pulses ≠ []) :
    ∃ d, fromFrame cfg ⟨pulses, excl⟩ = .ok (1, d) ∧ Quantiles d.pulses := by
  obtain ⟨d, x, h1, -, -, h2⟩ := C22_frame_partial cfg pulses excl hv he hne
  rw [hq] at h2
  refine ⟨d, h1, extracted_quantiles ?_ ?_ h2⟩
  · intro r hr
    simp only [frameRows, List.mem_flatMap] at hr
    obtain ⟨p, hp, hr⟩ := hr
    by_cases hd : p.1.2 ≤ 60
    · rw [if_pos hd, List.mem_map] at hr
      obtain ⟨q, -, rfl⟩ := hr
      exact hd
    · rw [if_neg hd] at hr; simp at hr
  · intro r hr
    simp only [frameRows, List.mem_flatMap] at hr
    obtain ⟨p, hp, hr⟩ := hr
    by_cases hd : p.1.2 ≤ 60
    · rw [if_pos hd, List.mem_map] at hr
      obtain ⟨q, hq, rfl⟩ := hr
      exact hpos p hp q hq
    · rw [if_neg hd] at hr; simp at hr

/-- Two events, three pulses on two DOMs, one excluded DOM: the hypotheses of C22 and C23 hold. -/
example : ∃ (labels : List Nat) (rows : List (Row Nat ℚ)) (excl : List (DomRow Nat)),
    labels.Nodup ∧ (∀ r ∈ rows, r.Used) ∧ (∀ r ∈ rows, r.Valid labels) ∧ (∀ r ∈ rows, 0 < r.charge) ∧
    (∀ r ∈ excl, r.Valid labels) ∧ chargeIn labels rows (1, 20, 29) = 3 ∧ excl ≠ [] := by
  refine ⟨[7, 9], [⟨9, 21, 30, 100, 1⟩, ⟨7, 1, 60, 50, 4⟩, ⟨9, 21, 30, 120, 2⟩], [⟨7, 1, 60⟩],
    by decide, ?_, ?_, ?_, ?_, ?_, by simp⟩
  · simp [Row.Used]
  · simp [Row.Valid]
  · simp
  · simp [DomRow.Valid]
  · simp [chargeIn, cellOf, Row.Used, List.idxOf, List.findIdx_cons]
    norm_num

/-- A frame with pulses on an in-ice DOM. -/
example : frameRows [((21, 30), [((1 : ℚ), 100), (2, 120)]), ((21, 61), [(5, 10)])] ≠ [] := by
  simp [frameRows]

end Verif.Pulses
