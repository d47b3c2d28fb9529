import Verif.Sources.Track
import Verif.Sources.Lemmas
import Mathlib.Tactic.Linarith
import Mathlib.Tactic.Ring
import Mathlib.Tactic.FieldSimp

/-! # C64: the sources of muons and tracks lie on the track -/

namespace Verif.Sources.Track
open Verif.Py

/-! ## Specification -/

/-- A point in space and time. -/
structure Event where
  x : ℝ
  y : ℝ
  z : ℝ
  t : ℝ

/-- The point which a particle that comes from `(zenith, azimuth)` and passes `e` reaches after
the (signed) distance `s` with the speed of light, in meters and nanoseconds. -/
noncomputable def Event.fly (e : Event) (zenith azimuth s : ℝ) : Event where
  x := e.x - s * (Real.sin zenith * Real.cos azimuth)
  y := e.y - s * (Real.sin zenith * Real.sin azimuth)
  z := e.z - s * Real.cos zenith
  t := e.t + s / 0.299792458

/-- The square of the distance to the center of the detector. -/
def Event.dist2 (e : Event) : ℝ := e.x ^ 2 + e.y ^ 2 + e.z ^ 2

/-- The parameters of a cascade: `x, y, z, zenith, azimuth, energy, time`. -/
def cascadeRow (e : Event) (zenith azimuth energy : ℝ) : List ℝ :=
  [e.x, e.y, e.z, zenith, azimuth, energy, e.t]

/-- The parameters of a track segment:
`x, y, z, zenith, azimuth, energy, time, length, stochasticity`. -/
def segmentRow (e : Event) (zenith azimuth energy length stochasticity : ℝ) : List ℝ :=
  [e.x, e.y, e.z, zenith, azimuth, energy, e.t, length, stochasticity]

/-! ## Lemmas -/

theorem muonNames_nodup (n : Nat) : (muonNames n).Nodup := by
  unfold muonNames
  rw [List.nodup_append]
  refine ⟨by decide, List.Nodup.map (fun _ _ h => by cases h; rfl) List.nodup_range, ?_⟩
  intro a ha b hb
  obtain ⟨i, _, rfl⟩ := List.mem_map.1 hb
  rintro rfl
  simp at ha

theorem trackNames_nodup (n k : Nat) : (trackNames n k).Nodup := by
  unfold trackNames
  rw [List.nodup_append, List.nodup_append]
  refine ⟨⟨by decide, ?_, ?_⟩,
    List.Nodup.map (fun _ _ h => by cases h; rfl) List.nodup_range, ?_⟩
  · split_ifs
    · rw [List.nodup_cons]
      constructor
      · intro h
        obtain ⟨i, hi, h⟩ := List.mem_flatMap.1 h
        have := (List.mem_range'_1.1 hi).1
        simp at h
        omega
      · rw [List.nodup_flatMap]
        refine ⟨by intro i _; simp, ?_⟩
        refine (List.nodup_range' (s := 1) (n := n - 1)).imp ?_
        intro a b hab m hx hy
        simp at hx hy
        rcases hx with rfl | rfl <;> rcases hy with hy | hy <;> simp at hy <;> exact hab hy
    · exact List.nodup_nil
  · intro a ha b hb
    split_ifs at hb
    · rcases List.mem_cons.1 hb with rfl | hb
      · rintro rfl; simp at ha
      · obtain ⟨i, _, h⟩ := List.mem_flatMap.1 hb
        simp at h
        rintro rfl
        rcases h with rfl | rfl <;> simp at ha
    · simp at hb
  · intro a ha b hb
    obtain ⟨j, _, rfl⟩ := List.mem_map.1 hb
    rintro rfl
    rcases List.mem_append.1 ha with ha | ha
    · simp at ha
    · split_ifs at ha
      · rcases List.mem_cons.1 ha with ha | ha
        · simp at ha
        · obtain ⟨i, _, h⟩ := List.mem_flatMap.1 ha
          simp at h
      · simp at ha

theorem indexer_map {names : List PName} (hnd : names.Nodup) (v : PName → ℝ) :
    ∃ p, indexer (names.map v) names = .ok p ∧ ∀ m ∈ names, item p m = .ok (v m) := by
  obtain ⟨p, h1, h2⟩ := indexer_ok (row := names.map v) (by simp) hnd
  refine ⟨p, h1, ?_⟩
  intro m hm
  rw [item_eq_ok, h2]
  obtain ⟨i, hi⟩ := List.getElem?_of_mem hm
  rw [get?_zip hnd hi (by simp)]
  simp [hi]

/-- Every row of the right length is given by a value for each name. -/
theorem row_eq_map {names : List PName} (hnd : names.Nodup) (row : List ℝ)
    (hl : row.length = names.length) : ∃ v : PName → ℝ, row = names.map v := by
  induction names generalizing row with
  | nil => exact ⟨fun _ => 0, by simpa using hl⟩
  | cons n names ih =>
    cases row with
    | nil => simp at hl
    | cons r row =>
      rw [List.nodup_cons] at hnd
      obtain ⟨v, rfl⟩ := ih hnd.2 row (by simpa using hl)
      refine ⟨fun m => if m = n then r else v m, ?_⟩
      rw [List.map_cons, if_pos rfl]
      congr 1
      apply List.map_congr_left
      intro m hm
      have : m ≠ n := by rintro rfl; exact hnd.1 hm
      rw [if_neg this]

theorem muonLoop_ok (p : Dict PName ℝ) (n : Nat) (d : ℝ × ℝ × ℝ) (cx cy cz ct zen azi : ℝ)
    (v : PName → ℝ) (l : List Nat) (hl : ∀ i ∈ l, item p (.logEnergy i) = .ok (v (.logEnergy i))) :
    muonLoop p n d cx cy cz ct zen azi l = .ok (l.map fun i =>
      let dist := linspace 500 n i
      let x := cx + dist * d.1
      let y := cy + dist * d.2.1
      let z := cz + dist * d.2.2
      (.cascade i, [x, y, z, zen, azi, cutEnergy 700 x y z (Real.exp (v (.logEnergy i))),
        ct + dist / 0.299792458])) := by
  induction l with
  | nil => rfl
  | cons i l ih =>
    rw [muonLoop]
    simp only [hl i (by simp), ih fun j hj => hl j (by simp [hj]), List.map_cons]

theorem trackLoop_ok (p : Dict PName ℝ) (snow : List ℝ) (d : ℝ × ℝ × ℝ)
    (ax ay az ta zen azi : ℝ) (v : PName → ℝ) (l : List Nat)
    (hl : ∀ i ∈ l, item p (.distance i) = .ok (v (.distance i)) ∧
      item p (.energy i) = .ok (v (.energy i))) :
    trackLoop p snow d ax ay az ta zen azi l = .ok (l.map fun i =>
      let s := v (.distance i)
      (.cascade i, [ax + s * d.1, ay + s * d.2.1, az + s * d.2.2, zen, azi, v (.energy i),
            ta + s / 0.299792458] ++ snow)) := by
  induction l with
  | nil => rfl
  | cons i l ih =>
    rw [trackLoop]
    simp only [(hl i (by simp)).1, (hl i (by simp)).2, ih fun j hj => hl j (by simp [hj]),
      List.map_cons]

/-! ## Theorems -/

/-- C64 (muon): for every number of cascades and all parameter values, there is a point of
closest approach to the detector center on the track through `(x, y, z, time)`; the cascades sit
on the track at equal steps from 500 m before to 500 m behind it, with the direction of the
track, and each has the energy of its parameter, or zero when a coordinate is beyond 700 m. -/
theorem C64_muon (n : Nat) (v : PName → ℝ) :
    let vertex : Event := ⟨v .x, v .y, v .z, v .time⟩
    let fly := vertex.fly (v .zenith) (v .azimuth)
    ∃ s0, (∀ s, (fly s0).dist2 ≤ (fly s).dist2) ∧
      muonParameters n ((muonNames n).map v) = .ok ((List.range n).map fun i : ℕ =>
        let e := fly (s0 + (-500 + if n ≤ 1 then 0 else (i : ℝ) * (1000 / ((n : ℝ) - 1))))
        (SName.cascade i, cascadeRow e (v .zenith) (v .azimuth)
          (if |e.x| ≤ 700 ∧ |e.y| ≤ 700 ∧ |e.z| ≤ 700 then Real.exp (v (.logEnergy i)) else 0))) := by
  intro vertex fly
  set d := dir (v .zenith) (v .azimuth) with hd
  have hunit : d.1 ^ 2 + d.2.1 ^ 2 + d.2.2 ^ 2 = 1 := by
    simp only [hd, dir]
    have h1 := Real.sin_sq_add_cos_sq (v .zenith)
    have h2 := Real.sin_sq_add_cos_sq (v .azimuth)
    nlinarith [h1, h2, mul_self_nonneg (Real.sin (v .zenith))]
  have hfly : ∀ s, fly s = ⟨v .x + s * d.1, v .y + s * d.2.1, v .z + s * d.2.2,
      v .time + s / 0.299792458⟩ := by
    intro s
    simp only [fly, Event.fly, vertex, hd, dir, Event.mk.injEq]
    refine ⟨?_, ?_, ?_, trivial⟩ <;> ring
  set s0 := d.1 * (0 - v .x) + d.2.1 * (0 - v .y) + d.2.2 * (0 - v .z) with hs0
  refine ⟨s0, ?_, ?_⟩
  · intro s
    rw [hfly, hfly]
    simp only [Event.dist2]
    have key : (v .x + s * d.1) ^ 2 + (v .y + s * d.2.1) ^ 2 + (v .z + s * d.2.2) ^ 2 -
        ((v .x + s0 * d.1) ^ 2 + (v .y + s0 * d.2.1) ^ 2 + (v .z + s0 * d.2.2) ^ 2) =
        (s - s0) ^ 2 + (s ^ 2 - s0 ^ 2) * (d.1 ^ 2 + d.2.1 ^ 2 + d.2.2 ^ 2 - 1) := by
      rw [hs0]; ring
    rw [hunit] at key
    nlinarith [sq_nonneg (s - s0)]
  · obtain ⟨p, hp, hitem⟩ := indexer_map (muonNames_nodup n) v
    unfold muonParameters
    rw [hp]
    simp only [bind, Except.bind]
    rw [hitem .x (by simp [muonNames]), hitem .y (by simp [muonNames]),
      hitem .z (by simp [muonNames]), hitem .zenith (by simp [muonNames]),
      hitem .azimuth (by simp [muonNames]), hitem .time (by simp [muonNames])]
    simp only
    rw [muonLoop_ok (v := v)]
    · rw [← hd, ← hs0]
      congr 1
      apply List.map_congr_left
      intro i _
      have hlin : linspace 500 n i =
          -500 + if n ≤ 1 then 0 else (i : ℝ) * (1000 / ((n : ℝ) - 1)) := by
        unfold linspace
        split_ifs
        · ring
        · norm_num
      have hcut : ∀ x y z e : ℝ, cutEnergy 700 x y z e =
          if |x| ≤ 700 ∧ |y| ≤ 700 ∧ |z| ≤ 700 then e else 0 := by
        intro x y z e
        unfold cutEnergy
        by_cases h1 : |x| ≤ 700 <;> by_cases h2 : |y| ≤ 700 <;> by_cases h3 : |z| ≤ 700 <;>
          simp [h1, h2, h3, not_lt.2, not_le.1]
      rw [hfly]
      simp only [hlin, hcut, cascadeRow, Prod.mk.injEq, true_and]
      generalize (-500 + if n ≤ 1 then 0 else (i : ℝ) * (1000 / ((n : ℝ) - 1))) = q
      have e1 : ∀ a b : ℝ, a + s0 * b + q * b = a + (s0 + q) * b := by intro a b; ring
      have e2 : v .time + s0 / 0.299792458 + q / 0.299792458 =
          v .time + (s0 + q) / 0.299792458 := by ring
      simp only [e1, e2]
    · intro i hi
      exact hitem _ (by simp [muonNames, List.mem_range.1 hi])

/-- C64 (track), for at least one snowstorm parameter: for every number of cascades and all
parameter values, the track segment starts at the start distance from the anchor, has the length
from there to the end distance, the first cascade is at the anchor, the others at their distance;
all have the direction of the track, their own energy and all the snowstorm parameters. Missing
for the full property: no snowstorm parameters, see `C64_no_snowstorm_violated`. -/
theorem C64_track_partial (n k : Nat) (hk : 1 ≤ k) (v : PName → ℝ) :
    let anchor : Event := ⟨v .anchorX, v .anchorY, v .anchorZ, v .anchorTime⟩
    let fly := anchor.fly (v .zenith) (v .azimuth)
    let snow := (List.range k).map fun j => v (.snowstorm j)
    trackParameters n k ((trackNames n k).map v) = .ok (
      (SName.track, segmentRow (fly (v .distanceStart)) (v .zenith) (v .azimuth)
        (v .trackEnergy) (v .distanceEnd - v .distanceStart) (v .stochasticity) ++ snow) ::
      (List.range n).map fun i =>
        (SName.cascade i, cascadeRow (if i = 0 then anchor else fly (v (.distance i)))
          (v .zenith) (v .azimuth) (v (.energy i)) ++ snow)) := by
  intro anchor fly snow
  have hfly : ∀ s, fly s = ⟨v .anchorX + s * (dir (v .zenith) (v .azimuth)).1,
      v .anchorY + s * (dir (v .zenith) (v .azimuth)).2.1,
      v .anchorZ + s * (dir (v .zenith) (v .azimuth)).2.2,
      v .anchorTime + s / 0.299792458⟩ := by
    intro s
    simp only [fly, Event.fly, anchor, dir, Event.mk.injEq]
    refine ⟨?_, ?_, ?_, trivial⟩ <;> ring
  have hsnow : lastColumns k ((trackNames n k).map v) = snow := by
    unfold lastColumns
    rw [if_neg (by omega)]
    have : (trackNames n k).map v = ((trackNames n k).take ((trackNames n k).length - k)).map v ++
        snow := by
      have h : trackNames n k = (trackNames n k).take ((trackNames n k).length - k) ++
          (List.range k).map .snowstorm := by
        conv_rhs => unfold trackNames
        rw [List.length_append, List.length_map, List.length_range, Nat.add_sub_cancel]
        rw [List.take_left]
        rfl
      conv_lhs => rw [h, List.map_append, List.map_map]
      rfl
    rw [this]
    have hlen : snow.length = k := by simp [snow]
    rw [List.length_append, hlen, Nat.add_sub_cancel, List.drop_left]
  obtain ⟨p, hp, hitem⟩ := indexer_map (trackNames_nodup n k) v
  unfold trackParameters
  rw [hp]
  simp only [bind, Except.bind]
  rw [hitem .anchorX (by simp [trackNames]), hitem .anchorY (by simp [trackNames]),
    hitem .anchorZ (by simp [trackNames]), hitem .zenith (by simp [trackNames]),
    hitem .azimuth (by simp [trackNames]), hitem .anchorTime (by simp [trackNames]),
    hitem .distanceStart (by simp [trackNames]), hitem .distanceEnd (by simp [trackNames]),
    hitem .trackEnergy (by simp [trackNames]), hitem .stochasticity (by simp [trackNames])]
  simp only [hsnow]
  by_cases hn : 1 ≤ n
  · rw [if_pos hn, hitem (.energy 0) (by simp [trackNames, hn])]
    simp only
    rw [trackLoop_ok (v := v)]
    · simp only [hfly, segmentRow]
      obtain ⟨m, rfl⟩ : ∃ m, n = m + 1 := ⟨n - 1, by omega⟩
      rw [List.range_succ_eq_map, List.map_cons, if_pos rfl, Nat.add_sub_cancel,
        List.range'_eq_map_range]
      simp only [List.map_map]
      congr 3
      apply List.map_congr_left
      intro i _
      simp [cascadeRow, Nat.add_comm]
    · intro i hi
      obtain ⟨h1, h2⟩ := List.mem_range'_1.1 hi
      have : ∀ m, m = PName.energy i ∨ m = PName.distance i → m ∈ trackNames n k := by
        intro m hm
        unfold trackNames
        rw [if_pos hn]
        refine List.mem_append_left _ (List.mem_append_right _ (List.mem_cons_of_mem _ ?_))
        exact List.mem_flatMap.2 ⟨i, hi, by simpa using hm⟩
      exact ⟨hitem _ (this _ (Or.inr rfl)), hitem _ (this _ (Or.inl rfl))⟩
  · have : n = 0 := by omega
    subst this
    simp [hfly, segmentRow]

/-- C64 (track): the end of the segment is the point of the track at the end distance. -/
theorem C64_segment_end (anchor : Event) (zenith azimuth s e : ℝ) :
    (anchor.fly zenith azimuth s).fly zenith azimuth (e - s) = anchor.fly zenith azimuth e := by
  simp only [Event.fly, Event.mk.injEq]
  refine ⟨?_, ?_, ?_, ?_⟩ <;> ring

/-- C64 is false of the code without snowstorm parameters: `parameters[:, -0:]` is the whole row,
so the track segment gets all parameters of the multi source behind its own nine, and each
cascade behind its own seven. `InputTensorIndexer` then raises a ValueError for base sources with
these parameters, for every number of cascades and all values. -/
theorem C64_no_snowstorm_violated (n : Nat) (v : PName → ℝ) :
    ∃ s, trackParameters n 0 ((trackNames n 0).map v) = .ok s ∧
      (∀ row, Dict.get? s .track = some row → ∀ names : List String, names.length = 9 →
        indexer row names = .error .valueError) ∧
      (∀ i row, Dict.get? s (.cascade i) = some row → ∀ names : List String, names.length = 7 →
        indexer row names = .error .valueError) ∧
      (Dict.get? s .track).isSome := by
  obtain ⟨p, hp, hitem⟩ := indexer_map (trackNames_nodup n 0) v
  have hlen : 10 ≤ ((trackNames n 0).map v).length := by simp [trackNames]
  unfold trackParameters
  rw [hp]
  simp only [bind, Except.bind]
  rw [hitem .anchorX (by simp [trackNames]), hitem .anchorY (by simp [trackNames]),
    hitem .anchorZ (by simp [trackNames]), hitem .zenith (by simp [trackNames]),
    hitem .azimuth (by simp [trackNames]), hitem .anchorTime (by simp [trackNames]),
    hitem .distanceStart (by simp [trackNames]), hitem .distanceEnd (by simp [trackNames]),
    hitem .trackEnergy (by simp [trackNames]), hitem .stochasticity (by simp [trackNames])]
  simp only [lastColumns, if_true]
  generalize (trackNames n 0).map v = row at hlen
  have herr : ∀ (own : List ℝ) (names : List String), names.length < 10 →
      indexer (own ++ row) names = .error .valueError := by
    intro own names h
    rw [indexer, if_pos]
    rw [List.length_append]
    omega
  by_cases hn : 1 ≤ n
  · rw [if_pos hn, hitem (.energy 0) (by simp [trackNames, hn])]
    simp only
    rw [trackLoop_ok (v := v)]
    · refine ⟨_, rfl, ?_, ?_, rfl⟩
      · intro r hr names hnames
        simp only [Dict.get?_cons, if_true, Option.some.injEq] at hr
        subst hr
        exact herr _ _ (by omega)
      · intro i r hr names hnames
        have hm := Dict.mem_of_get? hr
        simp only [List.mem_cons, Prod.mk.injEq, List.mem_map] at hm
        rcases hm with ⟨h, _⟩ | ⟨_, h⟩ | ⟨j, _, _, h⟩
        · cases h
        · subst h; exact herr _ _ (by omega)
        · subst h; exact herr _ _ (by omega)
    · intro i hi
      have : ∀ m, m = PName.energy i ∨ m = PName.distance i → m ∈ trackNames n 0 := by
        intro m hm
        unfold trackNames
        rw [if_pos hn]
        refine List.mem_append_left _ (List.mem_append_right _ (List.mem_cons_of_mem _ ?_))
        exact List.mem_flatMap.2 ⟨i, hi, by simpa using hm⟩
      exact ⟨hitem _ (this _ (Or.inr rfl)), hitem _ (this _ (Or.inl rfl))⟩
  · rw [if_neg hn]
    refine ⟨_, rfl, ?_, ?_, rfl⟩
    · intro r hr names hnames
      simp only [Dict.get?_cons, if_true, Option.some.injEq] at hr
      subst hr
      exact herr _ _ (by omega)
    · intro i r hr
      simp [Dict.get?_cons] at hr

/-- A case: a track with three cascades and two snowstorm parameters has 17 parameters. -/
example : (trackNames 3 2).length = 17 ∧ 1 ≤ 2 := by decide

end Verif.Sources.Track
