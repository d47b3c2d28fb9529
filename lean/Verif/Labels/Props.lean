/-
C25, C26: labels.
-/
import Verif.Labels.Lemmas

namespace Verif.Labels
open Verif.Py

/-! ### C25: specification -/

/-- The unit vector along the direction of flight of a particle that comes from (zenith, azimuth). -/
noncomputable def direction (v : Name → ℝ) : ℝ × ℝ × ℝ :=
  (-Real.sin (v .zenith) * Real.cos (v .azimuth), -Real.sin (v .zenith) * Real.sin (v .azimuth),
   -Real.cos (v .zenith))

/-- The space-time point of the track at (signed) distance `s` from its anchor: it moves with the speed
of light. -/
noncomputable def pointAt (v : Name → ℝ) (s : ℝ) : ℝ × ℝ × ℝ × ℝ :=
  (v .anchorX + (direction v).1 * s, v .anchorY + (direction v).2.1 * s,
   v .anchorZ + (direction v).2.2 * s, v .anchorTime + s / 0.299792458)

/-- The distance from the vertex of a cascade to its shower maximum. -/
noncomputable def showerLength (energy : ℝ) : ℝ :=
  max 0 (0.63207 * (1.01849 + 0.63176 * Real.log (energy + 1e-6)))

/-- What the shift of the labels of a track with `n` cascades does; the first cascade is at the
anchor. -/
structure Shifted (n : Nat) (v v' : Name → ℝ) : Prop where
  start : pointAt v' (v' .distanceStart) = pointAt v (v .distanceStart)
  stop : pointAt v' (v' .distanceEnd) = pointAt v (v .distanceEnd)
  first : 0 < n → pointAt v' 0 = pointAt v (showerLength (v (.energy 0)))
  others : ∀ i, 1 ≤ i → i < n →
    pointAt v' (v' (.distance i)) = pointAt v (v (.distance i) + showerLength (v (.energy i)))
  unchanged : ∀ m, m ∈ [Name.zenith, .azimuth, .trackEnergy, .stochasticity] ∨ (∃ i, m = .energy i) →
    v' m = v m
  none : n = 0 → v' = v

/-! ### C25: theorems -/

theorem extension_eq (e : ℝ) : extension e = showerLength e := by
  unfold extension showerLength
  rw [max_comm]
  congr 1
  have h1 : (0.358 / 0.9216 : ℝ) ≠ 0 := by norm_num
  have h2 : (0.63207 : ℝ) ≠ 0 := by norm_num
  field_simp
  ring

/-- C25. The shower length is never negative. -/
theorem C25_length_nonneg (e : ℝ) : 0 ≤ showerLength e := le_max_left _ _

/-- C25. The direction is a unit vector, so a shift by `s` along the track is a shift by the length `s`. -/
theorem C25_direction_unit (v : Name → ℝ) :
    (direction v).1 ^ 2 + (direction v).2.1 ^ 2 + (direction v).2.2 ^ 2 = 1 := by
  simp only [direction]
  have h1 := Real.sin_sq_add_cos_sq (v .zenith)
  have h2 := Real.sin_sq_add_cos_sq (v .azimuth)
  calc _ = Real.sin (v .zenith) ^ 2 * (Real.sin (v .azimuth) ^ 2 + Real.cos (v .azimuth) ^ 2)
      + Real.cos (v .zenith) ^ 2 := by ring
    _ = 1 := by rw [h2, mul_one, h1]

/-- C25 (tracks). For every number of cascades, the shift moves every cascade by its own shower length
along the track, leaves start and end of the track where they are in space and time, and keeps all
other labels and the snowstorm parameters. -/
theorem C25_tracks (n : Nat) (p : List ℝ) (v : Name → ℝ) (h : Has n p v) :
    ∃ p' v', shiftParameters n p = .ok p' ∧ Has n p' v' ∧ SameTail n p p' ∧ Shifted n v v' := by
  have mem : ∀ m, m ∈ [Name.zenith, .azimuth, .anchorX, .anchorY, .anchorZ, .anchorTime,
      .distanceStart, .distanceEnd] → m ∈ parameterNames n := by
    intro m hm
    simp only [List.mem_cons, List.not_mem_nil, or_false] at hm
    rcases hm with rfl | rfl | rfl | rfl | rfl | rfl | rfl | rfl <;> exact (mem_names n _).mpr trivial
  by_cases hn : n > 0
  · have he : Name.energy 0 ∈ parameterNames n := (mem_names n _).mpr hn
    obtain ⟨p1, h1, h2, h3⟩ := addParams_has (n := n)
      [(.anchorX, -Real.sin (v .zenith) * Real.cos (v .azimuth) * extension (v (.energy 0))),
       (.anchorY, -Real.sin (v .zenith) * Real.sin (v .azimuth) * extension (v (.energy 0))),
       (.anchorZ, -Real.cos (v .zenith) * extension (v (.energy 0))),
       (.anchorTime, extension (v (.energy 0)) / c),
       (.distanceStart, -extension (v (.energy 0))), (.distanceEnd, -extension (v (.energy 0)))]
      (by
        intro x hx
        apply mem
        simp only [List.mem_cons, List.not_mem_nil, or_false] at hx
        rcases hx with rfl | rfl | rfl | rfl | rfl | rfl <;> simp) h
    obtain ⟨p2, v2, h4, h5, h6, h7, h8⟩ := shiftOthers_has (n := n) (extension (v (.energy 0)))
      (List.range' 1 (n - 1)) List.nodup_range' (fun i hi => by
        have := List.mem_range'_1.mp hi; omega) h2
    refine ⟨p2, v2, ?_, h5, h3.trans h6, ?_⟩
    · simp only [shiftParameters, getParam_has h (mem .zenith (by simp)),
        getParam_has h (mem .azimuth (by simp)), if_pos hn, getParam_has h he, h1, h4]
    · have hz : v2 .zenith = v .zenith := by rw [h8 _ (by simp)]; simp [applyAdds]
      have ha : v2 .azimuth = v .azimuth := by rw [h8 _ (by simp)]; simp [applyAdds]
      have hx : v2 .anchorX = v .anchorX +
          -Real.sin (v .zenith) * Real.cos (v .azimuth) * showerLength (v (.energy 0)) := by
        rw [h8 _ (by simp), ← extension_eq]; simp [applyAdds]
      have hy : v2 .anchorY = v .anchorY +
          -Real.sin (v .zenith) * Real.sin (v .azimuth) * showerLength (v (.energy 0)) := by
        rw [h8 _ (by simp), ← extension_eq]; simp [applyAdds]
      have hzz : v2 .anchorZ = v .anchorZ + -Real.cos (v .zenith) * showerLength (v (.energy 0)) := by
        rw [h8 _ (by simp), ← extension_eq]; simp [applyAdds]
      have ht : v2 .anchorTime = v .anchorTime + showerLength (v (.energy 0)) / 0.299792458 := by
        rw [h8 _ (by simp), ← extension_eq]; simp [applyAdds, c]
      have hs : v2 .distanceStart = v .distanceStart - showerLength (v (.energy 0)) := by
        rw [h8 _ (by simp), ← extension_eq]; simp [applyAdds]; ring
      have hst : v2 .distanceEnd = v .distanceEnd - showerLength (v (.energy 0)) := by
        rw [h8 _ (by simp), ← extension_eq]; simp [applyAdds]; ring
      have hen : ∀ i, v2 (.energy i) = v (.energy i) := fun i => by
        rw [h8 _ (by simp)]; simp [applyAdds]
      have hpt : ∀ s, pointAt v2 s = pointAt v (s + showerLength (v (.energy 0))) := by
        intro s
        simp only [pointAt, direction, hz, ha, hx, hy, hzz, ht, Prod.mk.injEq]
        refine ⟨by ring, by ring, by ring, by ring⟩
      refine ⟨?_, ?_, fun _ => ?_, fun i hi1 hi2 => ?_, ?_, fun e => absurd e (by omega)⟩
      · rw [hpt, hs]; congr 1; ring
      · rw [hpt, hst]; congr 1; ring
      · rw [hpt]; congr 1; ring
      · rw [hpt, h7 i (List.mem_range'_1.mpr ⟨hi1, by omega⟩)]
        have e1 : applyAdds v [(Name.anchorX, -Real.sin (v .zenith) * Real.cos (v .azimuth) *
              extension (v (.energy 0))),
            (.anchorY, -Real.sin (v .zenith) * Real.sin (v .azimuth) * extension (v (.energy 0))),
            (.anchorZ, -Real.cos (v .zenith) * extension (v (.energy 0))),
            (.anchorTime, extension (v (.energy 0)) / c),
            (.distanceStart, -extension (v (.energy 0))), (.distanceEnd, -extension (v (.energy 0)))]
              (.distance i) = v (.distance i) := by simp [applyAdds]
        have e2 : applyAdds v [(Name.anchorX, -Real.sin (v .zenith) * Real.cos (v .azimuth) *
              extension (v (.energy 0))),
            (.anchorY, -Real.sin (v .zenith) * Real.sin (v .azimuth) * extension (v (.energy 0))),
            (.anchorZ, -Real.cos (v .zenith) * extension (v (.energy 0))),
            (.anchorTime, extension (v (.energy 0)) / c),
            (.distanceStart, -extension (v (.energy 0))), (.distanceEnd, -extension (v (.energy 0)))]
              (.energy i) = v (.energy i) := by simp [applyAdds]
        rw [e1, e2, extension_eq, extension_eq]
        congr 1; ring
      · rintro m (hm | ⟨i, rfl⟩)
        · simp only [List.mem_cons, List.not_mem_nil, or_false] at hm
          rcases hm with rfl | rfl | rfl | rfl
          · exact hz
          · exact ha
          · rw [h8 _ (by simp)]; simp [applyAdds]
          · rw [h8 _ (by simp)]; simp [applyAdds]
        · exact hen i
  · refine ⟨p, v, ?_, h, SameTail.refl n p, ⟨rfl, rfl, fun h => absurd h hn, fun i h1 h2 => by omega,
      fun _ _ => rfl, fun _ => rfl⟩⟩
    simp only [shiftParameters, getParam_has h (mem .zenith (by simp)),
      getParam_has h (mem .azimuth (by simp)), if_neg hn]

/-- C25 (cascades). The vertex of a cascade is moved by its shower length along its direction, and its
time by the light travel time. -/
theorem C25_cascades (x y z zenith azimuth energy t : ℝ) :
    shiftToMaximum x y z zenith azimuth energy t =
      (x + -Real.sin zenith * Real.cos azimuth * showerLength energy,
       y + -Real.sin zenith * Real.sin azimuth * showerLength energy,
       z + -Real.cos zenith * showerLength energy,
       t + showerLength energy / 0.299792458) := by
  simp only [shiftToMaximum, extension_eq, c]

/-- Any vector of labels of the right length meets the hypothesis: a track with three cascades and two
snowstorm parameters. -/
example : ∃ v, Has 3 ([0.1, 0.2, 1, 2, 3, 4, 500, -10, 100, 0.3, 50, 60, 5, 70, 9, 1, 1] : List ℝ) v ∧
    v (.distance 2) = 9 := by
  refine ⟨fun m => match paramIndex 3 m with
    | none => 0
    | some i => (([0.1, 0.2, 1, 2, 3, 4, 500, -10, 100, 0.3, 50, 60, 5, 70, 9, 1, 1] : List ℝ)[i]?).getD 0,
    ?_, rfl⟩
  intro m hm
  rw [paramIndex_eq, if_pos hm]
  refine ⟨_, rfl, ?_⟩
  have h1 := List.idxOf_lt_length_of_mem hm
  have h2 : (parameterNames 3).length = 15 := rfl
  simp only [paramIndex_eq, if_pos hm]
  rw [List.getElem?_eq_getElem (by simp; omega)]
  rfl

/-! ### C26: labels, columns, log flags -/

/-- Number and order of the columns of the labels: one per name, the columns of the table. -/
theorem loadLabels_spec {ν R : Type} [DecidableEq ν] (table : Dict ν (List R)) (names : List ν)
    (cols : List (List R)) (h : loadLabels table names = .ok cols) :
    cols.length = names.length ∧ ∀ (i : Nat) (m : ν), names[i]? = some m → cols[i]? = Dict.get? table m := by
  induction names generalizing cols with
  | nil => cases h; simp
  | cons l ls ih =>
    rw [loadLabels] at h
    cases hg : Dict.get? table l with
    | none => rw [hg] at h; cases h
    | some v =>
      rw [hg] at h
      simp only at h
      cases hl : loadLabels table ls with
      | error e => rw [hl] at h; cases h
      | ok rest =>
        rw [hl] at h
        cases h
        obtain ⟨h1, h2⟩ := ih rest hl
        refine ⟨by simp [h1], fun i m hm => ?_⟩
        cases i with
        | zero => cases hm; simp [hg]
        | succ i => simpa using h2 i m (by simpa using hm)

theorem loadSnow_spec {R : Type} (rows : List (Nat × R)) (n : Nat) (is : List Nat) (cols : List (List R))
    (h : loadSnow rows n is = .ok cols) :
    cols = is.map (fun i => (rows.filter (fun r => r.1 = i)).map Prod.snd) := by
  induction is generalizing cols with
  | nil => cases h; rfl
  | cons i is ih =>
    rw [loadSnow] at h
    split at h
    · cases h
    · cases hl : loadSnow rows n is with
      | error e => rw [hl] at h; cases h
      | ok rest =>
        rw [hl] at h
        cases h
        rw [ih rest hl, List.map_cons]

/-- C26. Whatever is loaded has one column per label name, followed by one column per snowstorm
parameter, in that order. -/
theorem C26_loaded_columns {ν R : Type} [DecidableEq ν] (table : Dict ν (List R)) (names : List ν)
    (snow : Nat) (rows : Option (Option (List (Nat × R)))) (one : R) (cols : List (List R))
    (h : load table names snow rows one = some cols) :
    cols.length = names.length + snow ∧
      (∀ (i : Nat) (m : ν), names[i]? = some m → cols[i]? = Dict.get? table m) ∧
      (∀ k < snow, ∀ r, rows = some (some r) →
        cols[names.length + k]? = some ((r.filter (fun x => x.1 = k)).map Prod.snd)) := by
  unfold load loadColumns at h
  cases hl : loadLabels table names with
  | error e => rw [hl] at h; cases h
  | ok cols1 =>
    obtain ⟨h1, h2⟩ := loadLabels_spec table names cols1 hl
    rw [hl] at h
    simp only at h
    have hin : ∀ (i : Nat) (m : ν), names[i]? = some m → i < cols1.length := fun i m hm => by
      rw [h1]; exact (List.getElem?_eq_some_iff.mp hm).1
    cases cols1 with
    | nil => cases h
    | cons first others =>
      simp only at h
      by_cases hs : snow > 0
      · rw [if_pos hs] at h
        cases rows with
        | none =>
          simp only [Option.some.injEq] at h
          subst h
          refine ⟨by simp [← h1]; omega, fun i m hm => ?_, fun k hk r hr => by cases hr⟩
          rw [List.getElem?_append_left (hin i m hm)]; exact h2 i m hm
        | some ro =>
          cases ro with
          | none => cases h
          | some r =>
            simp only at h
            cases hmax : (r.map Prod.fst).max? with
            | none => rw [hmax] at h; cases h
            | some hi =>
              cases hmin : (r.map Prod.fst).min? with
              | none => rw [hmax, hmin] at h; cases h
              | some lo =>
                rw [hmax, hmin] at h
                simp only at h
                by_cases h3 : hi ≠ snow - 1
                · rw [if_pos h3] at h; cases h
                · rw [if_neg h3] at h
                  by_cases h4 : lo ≠ 0
                  · rw [if_pos h4] at h; cases h
                  · rw [if_neg h4] at h
                    cases hsn : loadSnow r first.length (List.range snow) with
                    | error e => rw [hsn] at h; cases h
                    | ok sc =>
                      rw [hsn] at h
                      simp only [Option.some.injEq] at h
                      subst h
                      have h5 := loadSnow_spec r _ _ _ hsn
                      refine ⟨by rw [List.length_append, h1, h5]; simp, fun i m hm => ?_, fun k hk r' hr => ?_⟩
                      · rw [List.getElem?_append_left (hin i m hm)]; exact h2 i m hm
                      · cases hr
                        rw [← h1, List.getElem?_append_right (by omega), h5]
                        simp [hk]
      · rw [if_neg hs] at h
        simp only [Option.some.injEq] at h
        subst h
        exact ⟨by omega, h2, fun k hk => by omega⟩

/-- A log argument that fits a number of labels: a single flag or one flag per label. -/
def LogFits (log : LogArg) (labels : Nat) : Prop :=
  (∃ b, log = .bool b) ∨ ∃ l, log = .list l ∧ l.length = labels

/-- C26 (tracks). For every number of cascades and snowstorm parameters, the declared tensor has as many
columns as are loaded; it has one log flag per column exactly if the log argument is a single flag
or has one flag per label; the flags of snowstorm parameters are off. -/
theorem C26_tracks (n snow : Nat) (log : LogArg) (d : Declared) (names : List Name)
    (h : tracksConfigure n log snow = .ok (d, names)) :
    names = parameterNames n ∧ d.columns = names.length + snow ∧
    ∃ flags, d.flags = some flags ∧ (flags.length = d.columns ↔ LogFits log names.length) ∧
      (LogFits log names.length → ∀ k < snow, flags[names.length + k]? = some false) := by
  unfold tracksConfigure at h
  rw [if_neg (by omega)] at h
  simp only [Int.toNat_natCast, ← names_length] at h
  cases log with
  | none => cases h
  | bool b =>
    simp only [extendLog] at h
    cases h
    refine ⟨rfl, rfl, _, rfl, ⟨fun _ => Or.inl ⟨b, rfl⟩, fun _ => by simp⟩, fun _ k hk => ?_⟩
    rw [List.getElem?_append_right (by simp)]
    simp [hk]
  | list l =>
    simp only [extendLog] at h
    cases h
    refine ⟨rfl, rfl, _, rfl, ⟨fun h => Or.inr ⟨l, rfl, by simpa using h⟩, ?_⟩, ?_⟩
    · rintro (⟨b, hb⟩ | ⟨l', hl, hlen⟩)
      · cases hb
      · cases hl; simp [hlen]
    · rintro (⟨b, hb⟩ | ⟨l', hl, hlen⟩) k hk
      · cases hb
      · cases hl
        rw [List.getElem?_append_right (by omega)]
        simp [hlen, hk]

/-- C26 (tracks). A negative number of cascades raises a ValueError. -/
theorem C26_tracks_negative (n : Int) (hn : n < 0) (snow : Nat) (log : LogArg) :
    tracksConfigure n log snow = .error .valueError := by
  unfold tracksConfigure; rw [if_pos hn]

/-- C26 (tracks). Names are distinct, so every label has its own column. -/
theorem C26_names_distinct (n : Nat) : (parameterNames n).Nodup := names_nodup n

/-- C26 (snowstorm cascades, partial: with a single log flag only without additional labels). -/
theorem C26_cascades_partial (additional : Option (List String)) (snow : Nat) (log : LogArg) (d : Declared)
    (names : List String) (h : cascadesConfigure additional log snow = .ok (d, names)) :
    names = cascadeNames ++ additional.getD [] ∧ d.columns = names.length + snow ∧
    ∃ flags, d.flags = some flags ∧
      (flags.length = d.columns ↔
        ((∃ b, log = .bool b) ∧ additional.getD [] = []) ∨ ∃ l, log = .list l ∧ l.length = names.length) := by
  unfold cascadesConfigure at h
  cases log with
  | none => cases h
  | bool b =>
    simp only [extendLog] at h
    cases h
    refine ⟨rfl, rfl, _, rfl, ?_⟩
    have h7 : cascadeNames.length = 7 := rfl
    simp only [List.length_append, List.length_replicate, h7]
    constructor
    · intro h
      exact Or.inl ⟨⟨b, rfl⟩, List.length_eq_zero_iff.mp (by omega)⟩
    · rintro (⟨-, h⟩ | ⟨l, hl, -⟩)
      · rw [h]; simp
      · cases hl
  | list l =>
    simp only [extendLog] at h
    cases h
    refine ⟨rfl, rfl, _, rfl, ?_⟩
    simp only [List.length_append, List.length_replicate]
    constructor
    · intro h
      exact Or.inr ⟨l, rfl, by omega⟩
    · rintro (⟨⟨b, hb⟩, -⟩ | ⟨l', hl, hlen⟩)
      · cases hb
      · cases hl; rw [hlen]

/-- C26 is violated for snowstorm cascades: a single log flag with additional labels declares fewer flags
than columns. -/
theorem C26_additional_labels_violated (b : Bool) (a : String) (as : List String) (snow : Nat) :
    ∃ d names flags, cascadesConfigure (some (a :: as)) (.bool b) snow = .ok (d, names) ∧
      d.flags = some flags ∧ flags.length < d.columns := by
  refine ⟨_, _, _, rfl, rfl, ?_⟩
  simp [cascadeNames]
  omega

/-- C26 is violated for `trafo_log = None`, a documented value: three label modules raise a
TypeError. -/
theorem C26_no_log_violated (n : Nat) (additional : Option (List String)) (snow : Nat) :
    tracksConfigure n .none snow = .error .typeError ∧
    cascadesConfigure additional .none snow = .error .typeError ∧
    segmentConfigure .none snow = .error .typeError := by
  refine ⟨?_, rfl, rfl⟩
  unfold tracksConfigure
  rw [if_neg (by omega)]
  rfl

/-- C26 (track segments). -/
theorem C26_segments (snow : Nat) (log : LogArg) (d : Declared) (names : List String)
    (h : segmentConfigure log snow = .ok (d, names)) :
    d.columns = names.length + snow ∧ names.length = 9 ∧
    ∃ flags, d.flags = some flags ∧ (flags.length = d.columns ↔ LogFits log names.length) := by
  unfold segmentConfigure at h
  cases log with
  | none => cases h
  | bool b =>
    simp only [extendLog] at h
    cases h
    exact ⟨rfl, rfl, _, rfl, ⟨fun _ => Or.inl ⟨b, rfl⟩, fun _ => by simp; omega⟩⟩
  | list l =>
    simp only [extendLog] at h
    cases h
    refine ⟨rfl, rfl, _, rfl, ⟨fun h => Or.inr ⟨l, rfl, by simpa using h⟩, ?_⟩⟩
    rintro (⟨b, hb⟩ | ⟨l', hl, hlen⟩)
    · cases hb
    · cases hl
      have hlen' : l.length = 9 := hlen
      simp [hlen']

/-- C26 (muons). As many columns are loaded as are declared, for every number of cascades. -/
theorem C26_muons {R : Type} [Div R] [Max R] (ofNat : Nat → R) (table : Dict String (List R)) (n : Nat)
    (log : LogArg) (cols : List (List R)) (h : loadMuons ofNat table n = some cols) :
    cols.length = (muonsConfigure n log).columns ∧
    (∀ b, log = .bool b → (muonsConfigure n log).flags = some (List.replicate cols.length b)) := by
  unfold loadMuons at h
  cases hl : loadLabels table ["cascade_x", "cascade_y", "cascade_z", "cascade_zenith", "cascade_azimuth",
      "cascade_t"] with
  | error e => rw [hl] at h; cases h
  | ok c1 =>
    have h1 := (loadLabels_spec table _ c1 hl).1
    rw [hl] at h
    cases he : Dict.get? table "cascade_energy" with
    | none => rw [he] at h; cases h
    | some e =>
      rw [he] at h
      cases h
      have hlen : (c1 ++ List.replicate n
          (e.map (fun x => max (x / ofNat n) (ofNat 100)))).length = 6 + n := by simp [h1]
      refine ⟨hlen, ?_⟩
      rintro b rfl
      rw [hlen]; rfl

/-- A track with two cascades and one snowstorm parameter is configured, and a table with two events
loads. -/
example : (∃ d names, tracksConfigure 2 (.bool true) 1 = .ok (d, names) ∧ d.columns = 14) ∧
    load (R := Nat) [("cascade_x", [1, 2]), ("cascade_y", [3, 4])] ["cascade_y", "cascade_x"] 1
      (some (some [(0, 8), (0, 9)])) 1 = some [[3, 4], [1, 2], [8, 9]] :=
  ⟨⟨_, _, rfl, rfl⟩, by decide⟩

end Verif.Labels
