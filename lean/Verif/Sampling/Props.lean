/-
C59: sampled pulses carry the sampled charge in time order.
C60: p-values count samples.
C73: a sampled event is evaluated on its own data.
-/
import Mathlib.MeasureTheory.Measure.Lebesgue.Basic
import Verif.Sampling.Lemmas

namespace Verif.Sampling
open Verif.Py

/-! ### Concrete library functions, for the examples -/

noncomputable def exLib : Lib where
  search a v := a.countP (fun x => decide (x < v))
  argsort l := (List.range l.length).mergeSort (fun i j => decide (l.getD i 0 ≤ l.getD j 0))
  sort l := l.mergeSort (fun a b => decide (a ≤ b))

theorem exLib_ok : LibOk exLib where
  search _ _ _ := rfl
  argsort_perm l := List.mergeSort_perm _ _
  argsort_sorted l := by
    have := List.pairwise_mergeSort (le := fun i j : ℕ => decide (l.getD i 0 ≤ l.getD j 0))
      (fun a b c h1 h2 => by
        simp only [decide_eq_true_eq] at h1 h2 ⊢; exact le_trans h1 h2)
      (fun a b => by
        simp only [Bool.or_eq_true, decide_eq_true_eq]; exact le_total _ _) (List.range l.length)
    rw [List.pairwise_map]
    exact this.imp (by simp)
  sort_perm l := List.mergeSort_perm _ _
  sort_sorted l := by
    have := List.pairwise_mergeSort (le := fun a b : ℝ => decide (a ≤ b))
      (fun a b c h1 h2 => by
        simp only [decide_eq_true_eq] at h1 h2 ⊢; exact le_trans h1 h2)
      (fun a b => by
        simp only [Bool.or_eq_true, decide_eq_true_eq]; exact le_total _ _) l
    exact this.imp (by simp)

noncomputable def exMixture : Mixture := ⟨[0.25, 0.75], [0, 1], [1, 2], [1, 1]⟩

theorem exMixture_ok : MixtureOk exMixture := by
  refine ⟨⟨?_, ?_⟩, rfl, rfl, rfl⟩
  · intro x hx
    simp only [exMixture, List.mem_cons, List.not_mem_nil, or_false] at hx
    rcases hx with rfl | rfl <;> norm_num
  · simp only [exMixture, List.sum_cons, List.sum_nil]; norm_num

noncomputable def exPart : Part := ⟨2, exMixture, 100, ⟨[0.5, 1], [(0.5, 0.5), (0, 0.25)]⟩⟩

theorem exPart_ok : PartOk exPart := by
  refine ⟨exMixture_ok, rfl, ?_, rfl, ?_⟩
  · intro c hc
    simp only [exPart, List.mem_cons, List.not_mem_nil, or_false] at hc
    rcases hc with rfl | rfl <;> norm_num
  · intro u hu
    simp only [exPart, List.mem_cons, List.not_mem_nil, or_false] at hu
    rcases hu with rfl | rfl <;> norm_num

/-- A source that is not seen at a DOM. -/
noncomputable def exNone : Part := ⟨0, exMixture, 0, ⟨[], []⟩⟩

theorem exNone_ok : PartOk exNone :=
  ⟨exMixture_ok, rfl, fun _ h => by simp [exNone] at h, rfl, fun _ h => by simp [exNone] at h⟩

/-! ### C59 -/

/-- C59: the component chosen for a random number in [0, 1) is the one whose interval of cumulative
weights contains the number. -/
theorem C59_component {lib : Lib} (hl : LibOk lib) {w : List ℝ} (hw : WeightsOk w) {u : ℝ}
    (hu : u < 1) (k : ℕ) : lib.search (cumScale w) u = k ↔ Component w u k :=
  search_iff hl hw hu k

example : exLib.search (cumScale [0.25, 0.75]) 0.5 = 1 :=
  (C59_component exLib_ok exMixture_ok.1 (by norm_num) 1).2
    ⟨by simp [exMixture], Or.inr (by simp [exMixture]; norm_num), by simp [exMixture]; norm_num⟩

/-- C59: a component is chosen with its weight as probability, for a random number that is uniform in
[0, 1). -/
theorem C59_weight {lib : Lib} (hl : LibOk lib) {w : List ℝ} (hw : WeightsOk w) {k : ℕ}
    (hk : k < w.length) :
    MeasureTheory.volume {u : ℝ | 0 ≤ u ∧ u < 1 ∧ lib.search (cumScale w) u = k} =
      ENNReal.ofReal w[k] := by
  have hstep : (w.take (k + 1)).sum = (w.take k).sum + w[k] := by
    rw [List.take_succ_eq_append_getElem hk, List.sum_append]; simp
  have h0 : 0 ≤ (w.take k).sum := by
    have := take_sum_mono hw.1 (Nat.zero_le k); simpa using this
  have h1 : (w.take (k + 1)).sum ≤ 1 := take_sum_le hw _
  apply le_antisymm
  · refine le_trans (MeasureTheory.measure_mono (t := Set.Icc (w.take k).sum (w.take (k + 1)).sum) ?_) ?_
    · rintro u ⟨hu0, hu1, hs⟩
      obtain ⟨_, c1, c2⟩ := (search_iff hl hw hu1 k).1 hs
      refine ⟨?_, c2⟩
      rcases c1 with rfl | c1
      · simpa using hu0
      · exact c1.le
    · rw [Real.volume_Icc, hstep, add_sub_cancel_left]
  · refine le_trans ?_ (MeasureTheory.measure_mono (s := Set.Ioo (w.take k).sum (w.take (k + 1)).sum) ?_)
    · rw [Real.volume_Ioo, hstep, add_sub_cancel_left]
    · rintro u ⟨hu0, hu1⟩
      have hlt : u < 1 := lt_of_lt_of_le hu1 h1
      exact ⟨(lt_of_le_of_lt h0 hu0).le, hlt, (search_iff hl hw hlt k).2 ⟨hk, Or.inr hu0, hu1.le⟩⟩

example : MeasureTheory.volume {u : ℝ | 0 ≤ u ∧ u < 1 ∧ exLib.search (cumScale [0.25, 0.75]) u = 1} =
    ENNReal.ofReal 0.75 :=
  C59_weight exLib_ok exMixture_ok.1 (k := 1) (by simp [exMixture])

/-- C59: the index of the component is valid also if rounding errors make the sum of the weights
different from one, as long as the weights before the last one do not exceed 1.00000001. -/
theorem C59_valid {lib : Lib} (hl : LibOk lib) {w : List ℝ} (hne : w ≠ []) (h0 : ∀ x ∈ w, 0 ≤ x)
    (h1 : (w.take (w.length - 1)).sum ≤ 1.00000001) {u : ℝ} (hu : u < 1) :
    lib.search (cumScale w) u < w.length := by
  have hpos : 0 < w.length := List.length_pos_of_ne_nil hne
  have hsorted : (cumScale w).Pairwise (· ≤ ·) := by
    rw [List.pairwise_iff_getElem]
    intro i j hi hj hij
    rw [length_cumScale] at hi hj
    have e1 := getElem?_cumScale hi
    have e2 := getElem?_cumScale hj
    rw [List.getElem?_eq_getElem (by rw [length_cumScale]; exact hi), Option.some.injEq] at e1
    rw [List.getElem?_eq_getElem (by rw [length_cumScale]; exact hj), Option.some.injEq] at e2
    rw [e1, e2, if_neg (by omega)]
    split
    · exact le_trans (take_sum_mono h0 (by omega)) h1
    · exact take_sum_mono h0 (by omega)
  rw [hl.search _ _ hsorted, ← length_cumScale w]
  have hlast := getElem?_cumScale (w := w) (k := w.length - 1) (by omega)
  rw [if_pos rfl] at hlast
  refine lt_of_le_of_ne List.countP_le_length ?_
  rw [Ne, List.countP_eq_length]
  intro hall
  have := hall _ (List.mem_of_getElem? hlast)
  simp only [decide_eq_true_eq] at this
  norm_num at this
  linarith

example : exLib.search (cumScale [0.5, 0.500000001, 0.25]) 0.9 < 3 :=
  C59_valid exLib_ok (w := [0.5, 0.500000001, 0.25]) (by simp)
    (by
      intro x hx
      simp only [List.mem_cons, List.not_mem_nil, or_false] at hx
      rcases hx with rfl | rfl | rfl <;> norm_num)
    (by norm_num) (by norm_num)

/-- C59: the sampled series of pulses of the simulation. A DOM has a series if and only if it was hit;
then the series is sorted in time, has one pulse for each photo electron, with positive charges that sum
to the number of photo electrons, and the pulses are those of the light sources. -/
theorem C59_simulation {lib : Lib} (hl : LibOk lib) (ppf : ℝ → ℝ → ℝ → ℝ → ℝ)
    (src : ℕ × ℕ → List Part) (hok : ∀ d, ∀ p ∈ src d, PartOk p) :
    ∃ res, samplePulses lib ppf src doms [] = .ok res ∧
      (∀ s o, s < 86 → o < 60 → 0 < ((src (s, o)).map (·.n)).sum →
        ∃ series qs, Dict.get? res (s + 1, o + 1) = some series ∧
          (series.map (·.1)).Pairwise (· ≤ ·) ∧
          series.length = ((src (s, o)).map (·.n)).sum ∧
          (series.map (·.2)).sum = (((src (s, o)).map (·.n)).sum : ℕ) ∧
          (∀ x ∈ series, 0 < x.2) ∧
          List.Forall₂ (PulsesOf ppf) (src (s, o)) qs ∧ series.Perm qs.flatten) ∧
      ∀ key, (∃ series, Dict.get? res key = some series) →
        ∃ s o, s < 86 ∧ o < 60 ∧ key = (s + 1, o + 1) ∧ 0 < ((src (s, o)).map (·.n)).sum := by
  have hone : ∀ d, ∃ g : Option (List (ℝ × ℝ)), domPulses lib ppf (src d) = .ok g ∧
      (((src d).map (·.n)).sum = 0 → g = none) ∧
      (0 < ((src d).map (·.n)).sum → ∃ series qs, g = some series ∧
        (series.map (·.1)).Pairwise (· ≤ ·) ∧ List.Forall₂ (PulsesOf ppf) (src d) qs ∧
        series.Perm qs.flatten) := by
    intro d
    rcases Nat.eq_zero_or_pos ((src d).map (·.n)).sum with h | h
    · exact ⟨none, domPulses_none ppf h, fun _ => rfl, fun h' => by omega⟩
    · obtain ⟨series, qs, h1, h2⟩ := domPulses_some hl ppf (hok d) h
      exact ⟨some series, h1, fun h' => by omega, fun _ => ⟨series, qs, rfl, h2⟩⟩
  choose g g1 g2 g3 using hone
  obtain ⟨res, r1, r2, r3⟩ := samplePulses_ok ppf src g doms [] (fun d _ => g1 d)
  refine ⟨res, r1, ?_, ?_⟩
  · intro s o hs ho hpos
    obtain ⟨series, qs, e1, e2, e3, e4⟩ := g3 (s, o) hpos
    obtain ⟨q1, q2, q3⟩ := sum_pulsesOf e3
    refine ⟨series, qs, r2 (s, o) ((mem_doms s o).2 ⟨hs, ho⟩) series e1, e2, ?_, ?_, ?_, e3, e4⟩
    · rw [e4.length_eq, q2]
    · rw [(e4.map (·.2)).sum_eq, q1]
    · intro x hx
      exact q3 x (e4.mem_iff.1 hx)
  · rintro key ⟨series, hkey⟩
    by_contra hno
    rw [r3 key] at hkey
    · cases hkey
    · rintro ⟨s, o⟩ hd rfl
      apply g2
      by_contra hne
      obtain ⟨hs, ho⟩ := (mem_doms s o).1 hd
      exact hno ⟨s, o, hs, ho, rfl, by omega⟩

/-- Non-vacuity: two sources, one of them seen at the first DOM of the detector. -/
noncomputable def exSrc (d : ℕ × ℕ) : List Part := if d = (0, 0) then [exPart, exNone] else [exNone]

theorem exSrc_ok : ∀ d, ∀ p ∈ exSrc d, PartOk p := by
  intro d p hp
  unfold exSrc at hp
  split at hp
  · simp only [List.mem_cons, List.not_mem_nil, or_false] at hp
    rcases hp with rfl | rfl
    · exact exPart_ok
    · exact exNone_ok
  · rw [List.mem_singleton.1 hp]; exact exNone_ok

example : ∃ res series, samplePulses exLib (fun u m s r => m + s * u * r) exSrc doms [] = .ok res ∧
    Dict.get? res (1, 1) = some series ∧ series.length = 2 ∧ Dict.get? res (1, 2) = none := by
  obtain ⟨res, h1, h2, h3⟩ := C59_simulation exLib_ok (fun u m s r => m + s * u * r) exSrc exSrc_ok
  have he : ((exSrc (0, 0)).map (·.n)).sum = 2 := by simp [exSrc, exPart, exNone]
  obtain ⟨series, _, e1, _, e3, _⟩ := h2 0 0 (by omega) (by omega) (by rw [he]; omega)
  refine ⟨res, series, h1, e1, by rw [e3, he], ?_⟩
  cases hg : Dict.get? res (1, 2) with
  | none => rfl
  | some x =>
    obtain ⟨s, o, _, _, hk, hpos⟩ := h3 (1, 2) ⟨x, hg⟩
    simp only [Prod.mk.injEq] at hk
    have : (s, o) ≠ (0, 0) := by simp; omega
    simp [exSrc, this, exNone] at hpos

/-- C59: the pulses of a sampled event of the goodness of fit. They are the pulses of the hit DOMs, one
DOM after the other in the order of the detector, each sorted in time, with positive charges that sum to
the number of photo electrons; the identifiers name the DOM of each pulse. -/
theorem C59_event {lib : Lib} (hl : LibOk lib) (ppf : ℝ → ℝ → ℝ → ℝ → ℝ) (quant : Bool)
    (src : ℕ × ℕ → Part) (hok : ∀ d, PartOk (src d)) (hhit : ∃ d ∈ doms, 0 < (src d).n) :
    ∃ chunk : ℕ × ℕ → List Row,
      (∀ d, 0 < (src d).n → RowsOk ppf quant (src d) (chunk d)) ∧
      eventPulses lib ppf quant src =
        .ok (((doms.filter (fun d => decide (0 < (src d).n))).map chunk).flatten,
          ((doms.filter (fun d => decide (0 < (src d).n))).map
            (fun d => List.replicate (src d).n (0, d.1, d.2))).flatten) := by
  obtain ⟨chunk, h1, h2⟩ := eventLoop_ok hl ppf quant src hok
  refine ⟨chunk, h1, ?_⟩
  unfold eventPulses
  rw [h2]
  cases hf : doms.filter (fun d => decide (0 < (src d).n)) with
  | nil =>
    obtain ⟨d, hd, hpos⟩ := hhit
    have := List.filter_eq_nil_iff.1 hf d hd
    simp only [decide_eq_true_eq] at this
    omega
  | cons d ds =>
    simp only [List.map_cons, List.map_map, Function.comp_def]

/-- The DOM positions, for the examples. -/
noncomputable def exEvent (d : ℕ × ℕ) : Part := if d = (3, 4) then exPart else exNone

theorem exEvent_ok : ∀ d, PartOk (exEvent d) := by
  intro d
  unfold exEvent
  split
  · exact exPart_ok
  · exact exNone_ok

theorem exEvent_hit : ∃ d ∈ doms, 0 < (exEvent d).n :=
  ⟨(3, 4), (mem_doms 3 4).2 (by omega), by simp [exEvent, exPart]⟩

example : ∃ chunk : ℕ × ℕ → List Row, RowsOk (fun u m s r => m + s * u * r) true exPart (chunk (3, 4)) ∧
    ∃ x, eventPulses exLib (fun u m s r => m + s * u * r) true exEvent = .ok (x, (chunk (3, 4)).map
      (fun _ => (0, 3, 4))) ∧ x = chunk (3, 4) := by
  obtain ⟨chunk, h1, h2⟩ := C59_event exLib_ok (fun u m s r => m + s * u * r) true exEvent exEvent_ok
    exEvent_hit
  have hr := h1 (3, 4) (by simp [exEvent, exPart])
  have hf : doms.filter (fun d => decide (0 < (exEvent d).n)) = [(3, 4)] := by
    have : doms.filter (fun d => decide (0 < (exEvent d).n)) = doms.filter (· = (3, 4)) := by
      apply List.filter_congr
      intro d _
      unfold exEvent
      split
      · rename_i h; simp [h, exPart]
      · rename_i h; simp [h, exNone]
    rw [this, List.filter_eq (a := (3, 4))]
    rw [List.count_eq_one_of_mem nodup_doms ((mem_doms 3 4).2 (by omega))]
    rfl
  rw [hf] at h2
  rw [show exEvent (3, 4) = exPart by simp [exEvent]] at hr
  refine ⟨chunk, hr, _, ?_, rfl⟩
  have he : exEvent (3, 4) = exPart := by simp [exEvent]
  rw [h2]
  simp [hr.length_eq.1, he]

/-- C59: an event without any hit cannot be evaluated, the sampling raises. -/
theorem C59_no_hit {lib : Lib} (hl : LibOk lib) (ppf : ℝ → ℝ → ℝ → ℝ → ℝ) (quant : Bool)
    (src : ℕ × ℕ → Part) (hok : ∀ d, PartOk (src d)) (hhit : ∀ d ∈ doms, (src d).n = 0) :
    eventPulses lib ppf quant src = .error .valueError := by
  obtain ⟨chunk, _, h2⟩ := eventLoop_ok hl ppf quant src hok
  unfold eventPulses
  rw [h2, List.filter_eq_nil_iff.2]
  · rfl
  · intro d hd
    simp [hhit d hd]

example : eventPulses exLib (fun u m s r => m + s * u * r) true (fun _ => exNone) =
    .error .valueError :=
  C59_no_hit exLib_ok _ true _ (fun _ => exNone_ok) (fun _ _ => rfl)

/-! ### C60 -/

/-- The fraction of the samples that satisfy a condition. -/
noncomputable def frac (samples : List ℝ) (p : ℝ → Prop) [DecidablePred p] : ℝ :=
  (samples.countP (fun x => decide (p x)) : ℝ) / samples.length

/-- C60: the one-sided p-value is the fraction of samples not below the data, the two-sided one is twice
the smaller one of the two tails. -/
theorem C60_counts {lib : Lib} (hl : LibOk lib) {samples : List ℝ} (hne : samples ≠ []) (data : ℝ) :
    pValue lib samples data = .ok (frac samples (fun x => data ≤ x),
      2 * min (frac samples (fun x => x < data)) (frac samples (fun x => data ≤ x))) := by
  have hpos : 0 < samples.length := List.length_pos_of_ne_nil hne
  have hn : (0 : ℝ) < samples.length := by exact_mod_cast hpos
  have hsplit : samples.countP (fun x => decide (x < data)) +
      samples.countP (fun x => decide (data ≤ x)) = samples.length := by
    rw [List.length_eq_countP_add_countP (fun x => decide (x < data)) (l := samples)]
    congr 2
    funext x
    simp
  have hs : (samples.countP (fun x => decide (x < data)) : ℝ) +
      samples.countP (fun x => decide (data ≤ x)) = samples.length := by exact_mod_cast hsplit
  unfold pValue frac
  simp only [search_sort hl]
  rw [if_neg (by omega)]
  generalize (samples.countP (fun x => decide (x < data)) : ℝ) = a at *
  generalize (samples.countP (fun x => decide (data ≤ x)) : ℝ) = b at *
  rw [← hs] at hn ⊢
  congr 2
  · rw [add_sub_cancel_left]
  · rcases le_total a b with h | h
    · rw [min_eq_left (div_le_div_of_nonneg_right h hn.le), abs_of_nonneg (by linarith)]
      field_simp
      ring
    · rw [min_eq_right (div_le_div_of_nonneg_right h hn.le), abs_of_nonpos (by linarith)]
      field_simp
      ring

/-- C60: ties count for the one-sided p-value, half of the samples are below. -/
example : pValue exLib [3, 1, 2, 2] 2 = .ok (3 / 4, 2 * min (1 / 4) (3 / 4)) := by
  have h := C60_counts exLib_ok (samples := [3, 1, 2, 2]) (by simp) 2
  have h1 : frac [3, 1, 2, 2] (fun x => (2 : ℝ) ≤ x) = 3 / 4 := by
    simp [frac, List.countP_cons]; norm_num
  have h2 : frac [3, 1, 2, 2] (fun x => x < (2 : ℝ)) = 1 / 4 := by
    simp [frac, List.countP_cons]; norm_num
  rw [h1, h2] at h
  exact h

theorem frac_mem (samples : List ℝ) (p : ℝ → Prop) [DecidablePred p] :
    0 ≤ frac samples p ∧ frac samples p ≤ 1 := by
  unfold frac
  refine ⟨by positivity, ?_⟩
  apply div_le_one_of_le₀
  · exact_mod_cast List.countP_le_length
  · positivity

/-- C60: both p-values lie in [0, 1]. -/
theorem C60_range {lib : Lib} (hl : LibOk lib) {samples : List ℝ} (hne : samples ≠ []) (data : ℝ) :
    ∃ p1 p2, pValue lib samples data = .ok (p1, p2) ∧ (0 ≤ p1 ∧ p1 ≤ 1) ∧ 0 ≤ p2 ∧ p2 ≤ 1 := by
  refine ⟨_, _, C60_counts hl hne data, frac_mem _ _, ?_, ?_⟩
  · have := le_min (frac_mem samples (fun x => x < data)).1 (frac_mem samples (fun x => data ≤ x)).1
    linarith
  · have hn : (samples.length : ℝ) ≠ 0 := by
      have := List.length_pos_of_ne_nil hne
      exact_mod_cast this.ne'
    have hsplit : samples.countP (fun x => decide (x < data)) +
        samples.countP (fun x => decide (data ≤ x)) = samples.length := by
      rw [List.length_eq_countP_add_countP (fun x => decide (x < data)) (l := samples)]
      congr 2
      funext x
      simp
    have hs : frac samples (fun x => x < data) + frac samples (fun x => data ≤ x) = 1 := by
      unfold frac
      rw [← add_div, ← Nat.cast_add, hsplit, div_self hn]
    have h1 := min_le_left (frac samples (fun x => x < data)) (frac samples (fun x => data ≤ x))
    have h2 := min_le_right (frac samples (fun x => x < data)) (frac samples (fun x => data ≤ x))
    linarith

/-- C60: the one-sided p-value does not increase with the data value. -/
theorem C60_antitone {lib : Lib} (hl : LibOk lib) {samples : List ℝ} (hne : samples ≠ [])
    {data data' : ℝ} (h : data ≤ data') :
    ∃ p q p' q', pValue lib samples data = .ok (p, q) ∧ pValue lib samples data' = .ok (p', q') ∧
      p' ≤ p := by
  refine ⟨_, _, _, _, C60_counts hl hne data, C60_counts hl hne data', ?_⟩
  unfold frac
  apply div_le_div_of_nonneg_right _ (by positivity)
  have : samples.countP (fun x => decide (data' ≤ x)) ≤ samples.countP (fun x => decide (data ≤ x)) :=
    List.countP_mono_left (fun x _ hx => by
      simp only [decide_eq_true_eq] at hx ⊢; exact le_trans h hx)
  exact_mod_cast this

example : ∃ p1 p2, pValue exLib [3, 1, 2] 2.5 = .ok (p1, p2) ∧ (0 ≤ p1 ∧ p1 ≤ 1) ∧ 0 ≤ p2 ∧ p2 ≤ 1 :=
  C60_range exLib_ok (by simp) _

example : ∃ p q p' q', pValue exLib [3, 1, 2] 1.5 = .ok (p, q) ∧
    pValue exLib [3, 1, 2] 2.5 = .ok (p', q') ∧ p' ≤ p :=
  C60_antitone exLib_ok (by simp) (by norm_num)

/-- C60: without samples there is no p-value, the division raises. -/
theorem C60_empty (lib : Lib) (data : ℝ) : pValue lib [] data = .error .zeroDivisionError := rfl

/-- C60: the p-value of an event. With normalisation every loss is divided by the charge of its own event
plus one. -/
theorem C60_event {β γ : Type} {lib : Lib} (hl : LibOk lib) (loss : γ → Batch β → ℝ) (normalize : Bool)
    (dataTotal : ℝ) (fit : γ) (data : Batch β)
    {samples : List (γ × (List Row × List (ℕ × ℕ × ℕ)) × ℕ)} (hne : samples ≠ []) :
    ∃ ts : List ℝ, ∃ t : ℝ, eventPValue lib loss normalize dataTotal fit data samples =
        .ok (frac ts (fun x => t ≤ x), 2 * min (frac ts (fun x => x < t)) (frac ts (fun x => t ≤ x))) ∧
      t = loss fit data / (if normalize then dataTotal + 1 else 1) ∧
      ts.length = samples.length ∧
      ∀ (i : ℕ) (s : γ × (List Row × List (ℕ × ℕ × ℕ)) × ℕ), samples[i]? = some s →
        ts[i]? = some (loss s.1 ⟨s.2.1.1, s.2.1.2, data.domCharge, data.rest⟩ /
          (if normalize then (s.2.2 : ℝ) + 1 else 1)) := by
  cases normalize with
  | true =>
    refine ⟨_, _, C60_counts hl (by simpa using hne) _, rfl, by simp, ?_⟩
    intro i s hi
    simp [hi, sampleBatch]
  | false =>
    refine ⟨_, _, C60_counts hl (by simpa using hne) _, by simp, by simp, ?_⟩
    intro i s hi
    simp [hi, sampleBatch]

/-- Non-vacuity: two sampled events with two and three photo electrons. -/
example : ∃ ts : List ℝ, ∃ t : ℝ, eventPValue exLib (fun (g : ℝ) (b : Batch Unit) => g * b.ids.length)
      true 4 5 ⟨[], [(0, 1, 1)], fun _ => 0, ()⟩ [(3, ([], [(0, 1, 1), (0, 1, 2)]), 2), (4, ([], []), 3)] =
        .ok (frac ts (fun x => t ≤ x), 2 * min (frac ts (fun x => x < t)) (frac ts (fun x => t ≤ x))) ∧
      ts.length = 2 ∧ t = 5 * 1 / (4 + 1) := by
  obtain ⟨ts, t, h1, h2, h3, _⟩ := C60_event exLib_ok
    (fun (g : ℝ) (b : Batch Unit) => g * b.ids.length) true 4 5 ⟨[], [(0, 1, 1)], fun _ => 0, ()⟩
    (samples := [(3, ([], [(0, 1, 1), (0, 1, 2)]), 2), (4, ([], []), 3)]) (by simp)
  exact ⟨ts, t, h1, h3, by simpa using h2⟩

/-! ### C73 -/

/-- C73 (partial): the batch that a sampled event is evaluated with is that of the sampled event only if
the event has, at each DOM, as many photo electrons as charge was measured in the data. Missing: the
entry for the charges at the DOMs is that of the data. -/
theorem C73_own_data_partial {β : Type} {lib : Lib} (hl : LibOk lib) (ppf : ℝ → ℝ → ℝ → ℝ → ℝ)
    (quant : Bool) (src : ℕ × ℕ → Part) (hok : ∀ d, PartOk (src d))
    (hhit : ∃ d ∈ doms, 0 < (src d).n) (data : Batch β) :
    ∃ x, eventPulses lib ppf quant src = .ok x ∧
      (sampleBatch data x).pulses = x.1 ∧ (sampleBatch data x).ids = x.2 ∧
      (sampleBatch data x).rest = data.rest ∧
      (Consistent (sampleBatch data x) ↔ ∀ s o, data.domCharge (s, o) =
        if s < 86 ∧ o < 60 then ((src (s, o)).n : ℝ) else 0) := by
  obtain ⟨chunk, h1, h2⟩ := C59_event hl ppf quant src hok hhit
  refine ⟨_, h2, rfl, rfl, rfl, ?_⟩
  have hsum : ∀ t : ℕ × ℕ, ((((((doms.filter (fun d => decide (0 < (src d).n))).map
            (fun d => List.replicate (src d).n (0, d.1, d.2))).flatten.zip
          ((doms.filter (fun d => decide (0 < (src d).n))).map chunk).flatten).filter
          (fun p => decide (p.1 = (0, t.1, t.2)))).map (fun p => p.2.charge)).sum) =
        if t ∈ doms then ((src t).n : ℝ) else 0 := by
    intro t
    rw [← charge_at chunk (fun d => (src d).n) (fun d hd => (h1 d hd).length_eq) t doms nodup_doms]
    congr 3
    have := zip_flatten ((doms.filter (fun d => decide (0 < (src d).n))).map
      (fun d => (chunk d, List.replicate (src d).n (0, d.1, d.2)))) (by
        intro p hp
        obtain ⟨d, hd, rfl⟩ := List.mem_map.1 hp
        have := (List.mem_filter.1 hd).2
        simp only [decide_eq_true_eq] at this
        simp [(h1 d this).length_eq.1])
    simp only [List.map_map, Function.comp_def] at this
    exact this
  constructor
  · intro hc s o
    rw [show data.domCharge (s, o) = _ from hc s o]
    have := hsum (s, o)
    simp only [mem_doms] at this
    exact this
  · intro hd s o
    show data.domCharge (s, o) = _
    rw [hd s o]
    have := hsum (s, o)
    simp only [mem_doms] at this
    exact this.symm

/-- C73 is violated: the data and the sampled event are both valid, but the batch of the sampled event
pairs the sampled pulses with the charges of the data. -/
theorem C73_violated : ∃ (src : ℕ × ℕ → Part) (data : Batch Unit), (∀ d, PartOk (src d)) ∧
    Consistent data ∧ ∃ x, eventPulses exLib (fun u m s r => m + s * u * r) true src = .ok x ∧
      ¬ Consistent (sampleBatch data x) := by
  let data : Batch Unit := ⟨[⟨1, 0, none⟩], [(0, 3, 4)], fun d => if d = (3, 4) then 1 else 0, ()⟩
  refine ⟨exEvent, data, exEvent_ok, ?_, ?_⟩
  · intro s o
    simp only [data, List.zip_cons_cons, List.zip_nil_right, List.filter_cons, List.filter_nil,
      Prod.mk.injEq, true_and]
    by_cases h : s = 3 ∧ o = 4
    · obtain ⟨rfl, rfl⟩ := h; simp
    · have h' : ¬ (3 = s ∧ 4 = o) := fun h' => h ⟨h'.1.symm, h'.2.symm⟩
      simp [h, h']
  · obtain ⟨x, h1, _, _, _, h2⟩ := C73_own_data_partial exLib_ok (fun u m s r => m + s * u * r) true exEvent
      exEvent_ok exEvent_hit data
    refine ⟨x, h1, fun hc => ?_⟩
    have := h2.1 hc 3 4
    simp only [data, exEvent, exPart] at this
    norm_num at this

end Verif.Sampling
