/-
Lemmas for C59 and C60.
-/
import Mathlib.Order.Monotone.Basic
import Mathlib.Data.List.Nodup
import Mathlib.Tactic.Linarith
import Mathlib.Tactic.NormNum
import Mathlib.Tactic.FieldSimp
import Verif.Sampling.Spec

namespace Verif.Sampling
open Verif.Py

/-! ### Cumulative weights -/

theorem length_cumsum : ∀ (l : List ℝ) (a : ℝ), (cumsum a l).length = l.length
  | [], _ => rfl
  | x :: l, a => by simp [cumsum, length_cumsum l]

theorem getElem?_cumsum : ∀ (l : List ℝ) (a : ℝ) (k : ℕ), k < l.length →
    (cumsum a l)[k]? = some (a + (l.take (k + 1)).sum)
  | [], _, _, h => by simp at h
  | x :: l, a, 0, _ => by simp [cumsum]
  | x :: l, a, k + 1, h => by
    simp only [List.length_cons, Nat.add_lt_add_iff_right] at h
    simp only [cumsum, List.getElem?_cons_succ]
    rw [getElem?_cumsum l (a + x) k h]
    simp [add_assoc]

theorem take_sum_mono {w : List ℝ} (h : ∀ x ∈ w, 0 ≤ x) {i j : ℕ} (hij : i ≤ j) :
    (w.take i).sum ≤ (w.take j).sum := by
  refine monotone_nat_of_le_succ (f := fun i => (w.take i).sum) ?_ hij
  intro i
  show (w.take i).sum ≤ (w.take (i + 1)).sum
  rcases Nat.lt_or_ge i w.length with hi | hi
  · rw [List.take_succ_eq_append_getElem hi, List.sum_append]
    have := h _ (List.getElem_mem hi)
    simp; exact this
  · rw [List.take_of_length_le hi, List.take_of_length_le (by omega)]

theorem length_cumScale (w : List ℝ) : (cumScale w).length = w.length := by
  simp [cumScale, length_cumsum]

theorem getElem?_cumScale {w : List ℝ} {k : ℕ} (hk : k < w.length) :
    (cumScale w)[k]? = some (if k = w.length - 1 then 1.00000001 else (w.take (k + 1)).sum) := by
  unfold cumScale
  rw [List.getElem?_set]
  split
  · rename_i h
    rw [if_pos (by rw [length_cumsum]; omega), if_pos h.symm]
  · rename_i h
    rw [getElem?_cumsum _ _ _ hk, if_neg (fun h' => h h'.symm), zero_add]

theorem take_sum_le {w : List ℝ} (h : WeightsOk w) (i : ℕ) : (w.take i).sum ≤ 1 := by
  have := take_sum_mono h.1 (Nat.le_max_left i w.length)
  rw [List.take_of_length_le (Nat.le_max_right i w.length), h.2] at this
  exact this

theorem cumScale_sorted {w : List ℝ} (h : WeightsOk w) : (cumScale w).Pairwise (· ≤ ·) := by
  rw [List.pairwise_iff_getElem]
  intro i j hi hj hij
  rw [length_cumScale] at hi hj
  have e1 := getElem?_cumScale hi
  have e2 := getElem?_cumScale hj
  rw [List.getElem?_eq_getElem (by rw [length_cumScale]; exact hi), Option.some.injEq] at e1
  rw [List.getElem?_eq_getElem (by rw [length_cumScale]; exact hj), Option.some.injEq] at e2
  rw [e1, e2, if_neg (by omega)]
  split
  · have := take_sum_le h (i + 1)
    norm_num
    linarith
  · exact take_sum_mono h.1 (by omega)

theorem countP_split {a : List ℝ} {u : ℝ} {k : ℕ} (hk : k ≤ a.length)
    (h1 : ∀ (i : ℕ) (x : ℝ), i < k → a[i]? = some x → x < u)
    (h2 : ∀ (i : ℕ) (x : ℝ), k ≤ i → a[i]? = some x → u ≤ x) :
    a.countP (fun x => decide (x < u)) = k := by
  rw [← List.take_append_drop k a, List.countP_append]
  have e1 : (a.take k).countP (fun x => decide (x < u)) = (a.take k).length := by
    rw [List.countP_eq_length]
    intro x hx
    obtain ⟨i, hi⟩ := List.getElem?_of_mem hx
    rw [List.getElem?_take] at hi
    split at hi
    · rename_i hik
      simpa using h1 i x hik hi
    · cases hi
  have e2 : (a.drop k).countP (fun x => decide (x < u)) = 0 := by
    rw [List.countP_eq_zero]
    intro x hx
    obtain ⟨i, hi⟩ := List.getElem?_of_mem hx
    rw [List.getElem?_drop] at hi
    have := h2 (k + i) x (by omega) hi
    simpa using this
  rw [e1, e2, List.length_take]
  omega

theorem search_of_component {lib : Lib} (hl : LibOk lib) {w : List ℝ} (hw : WeightsOk w) {u : ℝ}
    (hu : u < 1) {k : ℕ} (hc : Component w u k) : lib.search (cumScale w) u = k := by
  obtain ⟨hk, h1, h2⟩ := hc
  rw [hl.search _ _ (cumScale_sorted hw)]
  apply countP_split
  · rw [length_cumScale]; omega
  · intro i x hi hx
    rw [getElem?_cumScale (by omega), Option.some.injEq, if_neg (by omega)] at hx
    subst hx
    rcases h1 with h1 | h1
    · omega
    · exact lt_of_le_of_lt (take_sum_mono hw.1 (by omega)) h1
  · intro i x hi hx
    have hlt : i < w.length := by
      rcases Nat.lt_or_ge i w.length with h | h
      · exact h
      · rw [List.getElem?_eq_none (by rw [length_cumScale]; exact h)] at hx; cases hx
    rw [getElem?_cumScale hlt, Option.some.injEq] at hx
    subst hx
    split
    · norm_num; linarith
    · exact le_trans h2 (take_sum_mono hw.1 (by omega))

theorem exists_component {w : List ℝ} (hw : WeightsOk w) {u : ℝ} (hu : u < 1) :
    ∃ k, Component w u k := by
  have hne : w ≠ [] := by
    rintro rfl
    have := hw.2
    simp at this
  have hpos : 0 < w.length := List.length_pos_of_ne_nil hne
  have hex : ∃ k, u ≤ (w.take (k + 1)).sum := by
    refine ⟨w.length, ?_⟩
    rw [List.take_of_length_le (by omega), hw.2]
    exact hu.le
  classical
  refine ⟨Nat.find hex, ?_, ?_, Nat.find_spec hex⟩
  · by_contra hge
    have hle : w.length ≤ Nat.find hex := by omega
    have := Nat.find_min hex (m := w.length - 1) (by omega)
    apply this
    rw [List.take_of_length_le (by omega), hw.2]
    exact hu.le
  · rcases Nat.eq_zero_or_pos (Nat.find hex) with h | h
    · exact Or.inl h
    · right
      have := Nat.find_min hex (m := Nat.find hex - 1) (by omega)
      rw [show Nat.find hex - 1 + 1 = Nat.find hex by omega] at this
      exact not_le.1 this

theorem search_iff {lib : Lib} (hl : LibOk lib) {w : List ℝ} (hw : WeightsOk w) {u : ℝ}
    (hu : u < 1) (k : ℕ) : lib.search (cumScale w) u = k ↔ Component w u k := by
  constructor
  · intro h
    obtain ⟨k', hk'⟩ := exists_component hw hu
    rw [search_of_component hl hw hu hk'] at h
    rwa [← h]
  · exact search_of_component hl hw hu

/-! ### Times and charges -/

theorem time_ok {lib : Lib} (hl : LibOk lib) (ppf : ℝ → ℝ → ℝ → ℝ → ℝ) {m : Mixture}
    (hm : MixtureOk m) (t0 : ℝ) {u : ℝ × ℝ} (hu : u.1 < 1) :
    ∃ t, time lib ppf m t0 u = .ok t ∧ PulseTime ppf m t0 u t := by
  obtain ⟨hw, h1, h2, h3⟩ := hm
  obtain ⟨k, hk⟩ := exists_component hw hu
  have hs := search_of_component hl hw hu hk
  have hlt := hk.1
  have e1 : m.mu[k]? = some (m.mu[k]'(by omega)) := List.getElem?_eq_getElem _
  have e2 : m.sigma[k]? = some (m.sigma[k]'(by omega)) := List.getElem?_eq_getElem _
  have e3 : m.r[k]? = some (m.r[k]'(by omega)) := List.getElem?_eq_getElem _
  refine ⟨_, ?_, k, _, _, _, hk, e1, e2, e3, rfl⟩
  unfold time
  simp only [hs, e1, e2, e3]
  rw [mul_comm]

theorem times_ok {lib : Lib} (hl : LibOk lib) (ppf : ℝ → ℝ → ℝ → ℝ → ℝ) {m : Mixture}
    (hm : MixtureOk m) (t0 : ℝ) : ∀ us : List (ℝ × ℝ), (∀ u ∈ us, u.1 < 1) →
    ∃ ts, times lib ppf m t0 us = .ok ts ∧ List.Forall₂ (PulseTime ppf m t0) us ts
  | [], _ => ⟨[], rfl, .nil⟩
  | u :: us, h => by
    obtain ⟨t, h1, h2⟩ := time_ok hl ppf hm t0 (h u (by simp))
    obtain ⟨ts, h3, h4⟩ := times_ok hl ppf hm t0 us (fun v hv => h v (by simp [hv]))
    exact ⟨t :: ts, by rw [times, h1]; simp only; rw [h3], .cons h2 h4⟩

theorem sum_pos' : ∀ l : List ℝ, (∀ x ∈ l, 0 < x) → l ≠ [] → 0 < l.sum
  | [], _, h => absurd rfl h
  | [x], h, _ => by simpa using h x
  | x :: y :: l, h, _ => by
    have h1 := sum_pos' (y :: l) (fun z hz => h z (by simp [List.mem_cons.1 hz])) (by simp)
    have h2 := h x (by simp)
    rw [List.sum_cons]
    linarith

theorem sum_mul' (l : List ℝ) (c : ℝ) : (l.map (fun x => x * c)).sum = l.sum * c := by
  induction l with
  | nil => simp
  | cons x l ih => simp [ih, add_mul]

theorem charges_ok {n : ℕ} {d : Draw} (hd : DrawOk n d) :
    (charges n d).length = n ∧ (charges n d).sum = n ∧ ∀ c ∈ charges n d, 0 < c := by
  obtain ⟨h1, h2, _⟩ := hd
  have hpos : ∀ c ∈ d.charges, 0 < c := fun c hc => by
    have := (h2 c hc).1; norm_num at this; linarith
  refine ⟨by simp [charges, h1], ?_, ?_⟩
  · unfold charges
    rw [sum_mul']
    rcases Nat.eq_zero_or_pos n with h | h
    · subst h
      rw [List.length_eq_zero_iff.1 h1]; simp
    · have := sum_pos' d.charges hpos (by intro h'; rw [h'] at h1; simp at h1; omega)
      field_simp
  · intro c hc
    obtain ⟨x, hx, rfl⟩ := List.mem_map.1 hc
    have hne : d.charges ≠ [] := List.ne_nil_of_mem hx
    have hs := sum_pos' d.charges hpos hne
    have hn : 0 < n := by
      rw [← h1]; exact List.length_pos_of_ne_nil hne
    have : (0 : ℝ) < n := by exact_mod_cast hn
    exact mul_pos (hpos x hx) (div_pos this hs)

theorem pulsesOf_zip {lib : Lib} (hl : LibOk lib) (ppf : ℝ → ℝ → ℝ → ℝ → ℝ) {p : Part}
    (hp : PartOk p) : ∃ ts, times lib ppf p.mixture p.t0 p.draw.rngs = .ok ts ∧ ts.length = p.n ∧
      PulsesOf ppf p (ts.zip (charges p.n p.draw)) := by
  obtain ⟨ts, h1, h2⟩ := times_ok hl ppf hp.1 p.t0 p.draw.rngs (fun u hu => (hp.2.2.2.2 u hu).1.2)
  obtain ⟨c1, c2, c3⟩ := charges_ok hp.2
  have hlen : ts.length = p.n := by rw [← h2.length_eq]; exact hp.2.2.2.1
  have hsnd : (ts.zip (charges p.n p.draw)).map (·.2) = charges p.n p.draw :=
    List.map_snd_zip (by omega)
  refine ⟨ts, h1, hlen, by simp [hlen, c1], by rw [hsnd]; exact c2, ?_, ?_⟩
  · intro x hx
    exact c3 _ (List.of_mem_zip hx).2
  · have hfst : ts = (ts.zip (charges p.n p.draw)).map (·.1) := (List.map_fst_zip (by omega)).symm
    rw [hfst, List.forall₂_map_right_iff] at h2
    exact h2

theorem parts_ok {lib : Lib} (hl : LibOk lib) (ppf : ℝ → ℝ → ℝ → ℝ → ℝ) : ∀ ps : List Part,
    (∀ p ∈ ps, PartOk p) → ∃ ts cs qs, parts lib ppf ps = .ok (ts, cs) ∧ ts.length = cs.length ∧
      ts.zip cs = qs.flatten ∧ List.Forall₂ (PulsesOf ppf) ps qs
  | [], _ => ⟨[], [], [], rfl, rfl, rfl, .nil⟩
  | p :: ps, h => by
    obtain ⟨ts, cs, qs, h1, h2, h3, h4⟩ := parts_ok hl ppf ps (fun q hq => h q (by simp [hq]))
    obtain ⟨t, g1, g2, g3⟩ := pulsesOf_zip hl ppf (h p (by simp))
    have hc := (charges_ok (h p (by simp)).2).1
    rw [parts]
    split
    · rename_i hn
      have hn : p.n = 0 := by omega
      refine ⟨ts, cs, [] :: qs, h1, h2, by simpa using h3, .cons ?_ h4⟩
      have : t.zip (charges p.n p.draw) = [] := by
        rw [List.length_eq_zero_iff.1 (g2.trans hn)]; rfl
      rw [this] at g3
      exact g3
    · refine ⟨t ++ ts, charges p.n p.draw ++ cs, _ :: qs, by rw [g1]; simp only; rw [h1], ?_, ?_,
        .cons g3 h4⟩
      · simp [g2, hc, h2]
      · rw [List.flatten_cons, ← h3, List.zip_append (by omega)]

/-! ### Sorting -/

theorem take_ok (l : List ℝ) : ∀ idx : List ℕ, (∀ i ∈ idx, i < l.length) →
    take l idx = .ok (idx.map (fun i => l.getD i 0))
  | [], _ => rfl
  | i :: idx, h => by
    have hi := h i (by simp)
    rw [take, List.getElem?_eq_getElem hi]
    simp only
    rw [take_ok l idx (fun j hj => h j (by simp [hj]))]
    simp [List.getD, List.getElem?_eq_getElem hi]

theorem map_getD_range {β : Type} (z : List β) (d : β) :
    (List.range z.length).map (fun i => z.getD i d) = z := by
  apply List.ext_getElem
  · simp
  · intro i h1 h2
    simp [List.getD, List.getElem?_eq_getElem h2]

theorem zip_map_map {β : Type} (f g : β → ℝ) (l : List β) :
    (l.map f).zip (l.map g) = l.map (fun x => (f x, g x)) := by
  induction l with
  | nil => rfl
  | cons x l ih => simp [ih]

theorem sortPulses_ok {lib : Lib} (hl : LibOk lib) {ts cs : List ℝ} (hlen : ts.length = cs.length) :
    ∃ ts' cs', sortPulses lib ts cs = .ok (ts', cs') ∧ ts'.length = ts.length ∧ cs'.length = ts.length ∧
      ts'.Pairwise (· ≤ ·) ∧ (ts'.zip cs').Perm (ts.zip cs) := by
  have hmem : ∀ i ∈ lib.argsort ts, i < ts.length := by
    intro i hi
    simpa using (hl.argsort_perm ts).mem_iff.1 hi
  have hlen' := (hl.argsort_perm ts).length_eq
  rw [List.length_range] at hlen'
  refine ⟨_, _, by rw [sortPulses, take_ok ts _ hmem]; simp only; rw [take_ok cs _ (by rw [← hlen]; exact hmem)],
    by simp [hlen'], by simp [hlen'], hl.argsort_sorted ts, ?_⟩
  rw [zip_map_map]
  have hz : ts.zip cs = (List.range ts.length).map (fun i => (ts.getD i 0, cs.getD i 0)) := by
    rw [← zip_map_map, map_getD_range]
    rw [hlen, map_getD_range]
  rw [hz]
  exact (hl.argsort_perm ts).map _

/-! ### The simulation -/

theorem sum_pulsesOf {ppf : ℝ → ℝ → ℝ → ℝ → ℝ} {ps : List Part} {qs : List (List (ℝ × ℝ))}
    (h : List.Forall₂ (PulsesOf ppf) ps qs) :
    (qs.flatten.map (·.2)).sum = ((ps.map (·.n)).sum : ℕ) ∧ qs.flatten.length = (ps.map (·.n)).sum ∧
      ∀ x ∈ qs.flatten, 0 < x.2 := by
  induction h with
  | nil => simp
  | cons h _ ih =>
    obtain ⟨i1, i2, i3⟩ := ih
    obtain ⟨h1, h2, h3, _⟩ := h
    refine ⟨?_, ?_, ?_⟩
    · rw [List.flatten_cons, List.map_append, List.sum_append, i1, h2]
      simp
    · simp only [List.flatten_cons, List.length_append, List.map_cons, List.sum_cons, i2, h1]
    · intro x hx
      rcases List.mem_append.1 hx with hx | hx
      · exact h3 x hx
      · exact i3 x hx

theorem domPulses_none {lib : Lib} (ppf : ℝ → ℝ → ℝ → ℝ → ℝ) {ps : List Part}
    (h : (ps.map (·.n)).sum = 0) : domPulses lib ppf ps = .ok none := by
  unfold domPulses
  rw [if_pos (by omega)]

theorem domPulses_some {lib : Lib} (hl : LibOk lib) (ppf : ℝ → ℝ → ℝ → ℝ → ℝ) {ps : List Part}
    (hok : ∀ p ∈ ps, PartOk p) (h : 0 < (ps.map (·.n)).sum) :
    ∃ series qs, domPulses lib ppf ps = .ok (some series) ∧
      (series.map (·.1)).Pairwise (· ≤ ·) ∧ List.Forall₂ (PulsesOf ppf) ps qs ∧
      series.Perm qs.flatten := by
  obtain ⟨ts, cs, qs, h1, h2, h3, h4⟩ := parts_ok hl ppf ps hok
  obtain ⟨ts', cs', s1, s2, s3, s4, s5⟩ := sortPulses_ok hl h2
  refine ⟨ts'.zip cs', qs, ?_, ?_, h4, by rw [← h3]; exact s5⟩
  · unfold domPulses
    rw [if_neg (by omega), h1]
    simp only
    rw [s1]
  · rw [List.map_fst_zip (by omega)]
    exact s4

theorem samplePulses_ok {lib : Lib} (ppf : ℝ → ℝ → ℝ → ℝ → ℝ) (src : ℕ × ℕ → List Part)
    (g : ℕ × ℕ → Option (List (ℝ × ℝ))) : ∀ (ds : List (ℕ × ℕ)) (m : Dict (ℕ × ℕ) (List (ℝ × ℝ))),
    (∀ d ∈ ds, domPulses lib ppf (src d) = .ok (g d)) →
    ∃ res, samplePulses lib ppf src ds m = .ok res ∧
      (∀ d ∈ ds, ∀ ps, g d = some ps → Dict.get? res (d.1 + 1, d.2 + 1) = some ps) ∧
      ∀ k, (∀ d ∈ ds, k = (d.1 + 1, d.2 + 1) → g d = none) → Dict.get? res k = Dict.get? m k
  | [], m, _ => ⟨m, rfl, fun _ h => by simp at h, fun _ _ => rfl⟩
  | d :: ds, m, h => by
    have hd := h d (by simp)
    cases hg : g d with
    | none =>
      obtain ⟨res, r1, r2, r3⟩ := samplePulses_ok ppf src g ds m (fun d' hd' => h d' (by simp [hd']))
      refine ⟨res, by rw [samplePulses, hd, hg]; exact r1, ?_, ?_⟩
      · intro d' hd' ps hps
        rcases List.mem_cons.1 hd' with rfl | hd'
        · rw [hg] at hps; cases hps
        · exact r2 d' hd' ps hps
      · intro k hk
        exact r3 k (fun d' hd' => hk d' (by simp [hd']))
    | some qs =>
      obtain ⟨res, r1, r2, r3⟩ := samplePulses_ok ppf src g ds (Dict.set m (d.1 + 1, d.2 + 1) qs)
        (fun d' hd' => h d' (by simp [hd']))
      refine ⟨res, by rw [samplePulses, hd, hg]; exact r1, ?_, ?_⟩
      · intro d' hd' ps hps
        by_cases hmem : d' ∈ ds
        · exact r2 d' hmem ps hps
        · have hdd : d' = d := by simpa [hmem] using hd'
          subst hdd
          rw [hg] at hps
          cases hps
          rw [r3, Dict.get?_set, if_pos rfl]
          intro e he hke
          exfalso
          apply hmem
          have : e = d' := by
            obtain ⟨a, b⟩ := e
            obtain ⟨c, d⟩ := d'
            simp only [Prod.mk.injEq] at hke ⊢
            omega
          rwa [← this]
      · intro k hk
        rw [r3 k (fun d' hd' => hk d' (by simp [hd'])), Dict.get?_set, if_neg]
        intro hke
        have := hk d (by simp) hke.symm
        rw [hg] at this
        cases this

theorem mem_doms (s o : ℕ) : (s, o) ∈ doms ↔ s < 86 ∧ o < 60 := by
  simp [doms]

/-! ### The event of the goodness of fit -/

theorem rows_map (quant : Bool) {ts cs : List ℝ} (h : ts.length = cs.length) :
    (rows quant ts cs).map (·.time) = ts ∧ (rows quant ts cs).map (·.charge) = cs ∧
    (rows quant ts cs).map (fun r => (r.time, r.charge)) = ts.zip cs ∧
    ∀ (i : ℕ) (r : Row), (rows quant ts cs)[i]? = some r → r.quantile =
      if quant then some ((cs.take (i + 1)).sum / cs.sum) else none := by
  have hq : (quantiles cs).length = cs.length := by simp [quantiles, length_cumsum]
  have hqi : ∀ i, i < cs.length → (quantiles cs)[i]? = some ((cs.take (i + 1)).sum / cs.sum) := by
    intro i hi
    simp only [quantiles, List.getElem?_map, getElem?_cumsum cs 0 i hi]
    simp
  cases quant with
  | true =>
    have hr : rows true ts cs = (cs.zip (ts.zip (quantiles cs))).map
        (fun p => ⟨p.1, p.2.1, some p.2.2⟩) := rfl
    have h1 : (rows true ts cs).map (·.time) = ts := by
      rw [hr, List.map_map]
      have : (cs.zip (ts.zip (quantiles cs))).map (fun p => p.2.1) =
          ((cs.zip (ts.zip (quantiles cs))).map (·.2)).map (·.1) := by rw [List.map_map]; rfl
      rw [show ((fun x : Row => x.time) ∘ fun p : ℝ × ℝ × ℝ => (⟨p.1, p.2.1, some p.2.2⟩ : Row)) =
        (fun p => p.2.1) from rfl, this, List.map_snd_zip (by simp; omega),
        List.map_fst_zip (by omega)]
    have h2 : (rows true ts cs).map (·.charge) = cs := by
      rw [hr, List.map_map]
      rw [show ((fun x : Row => x.charge) ∘ fun p : ℝ × ℝ × ℝ => (⟨p.1, p.2.1, some p.2.2⟩ : Row)) =
        (fun p => p.1) from rfl, List.map_fst_zip (by simp; omega)]
    refine ⟨h1, h2, ?_, ?_⟩
    · rw [← zip_map_map, h1, h2]
    · intro i r hi
      rw [hr] at hi
      rw [List.getElem?_map, Option.map_eq_some_iff] at hi
      obtain ⟨p, hp, rfl⟩ := hi
      rw [List.getElem?_zip_eq_some] at hp
      obtain ⟨p1, p2⟩ := hp
      have p3 := p2
      rw [List.getElem?_zip_eq_some] at p3
      have hlt : i < cs.length := by
        obtain ⟨h, _⟩ := List.getElem?_eq_some_iff.1 p1; exact h
      have := p3.2
      rw [hqi i hlt] at this
      simp only [Option.some.injEq] at this
      simp [this]
  | false =>
    have hr : rows false ts cs = (cs.zip ts).map (fun p => ⟨p.1, p.2, none⟩) := rfl
    have h1 : (rows false ts cs).map (·.time) = ts := by
      rw [hr, List.map_map, show ((fun x : Row => x.time) ∘ fun p : ℝ × ℝ =>
        (⟨p.1, p.2, none⟩ : Row)) = (fun p => p.2) from rfl, List.map_snd_zip (by omega)]
    have h2 : (rows false ts cs).map (·.charge) = cs := by
      rw [hr, List.map_map, show ((fun x : Row => x.charge) ∘ fun p : ℝ × ℝ =>
        (⟨p.1, p.2, none⟩ : Row)) = (fun p => p.1) from rfl, List.map_fst_zip (by omega)]
    refine ⟨h1, h2, ?_, ?_⟩
    · rw [← zip_map_map, h1, h2]
    · intro i r hi
      rw [hr] at hi
      rw [List.getElem?_map, Option.map_eq_some_iff] at hi
      obtain ⟨p, hp, rfl⟩ := hi
      simp

theorem eventLoop_ok {lib : Lib} (hl : LibOk lib) (ppf : ℝ → ℝ → ℝ → ℝ → ℝ) (quant : Bool)
    (src : ℕ × ℕ → Part) (hok : ∀ d, PartOk (src d)) :
    ∃ chunk : ℕ × ℕ → List Row, (∀ d, 0 < (src d).n → RowsOk ppf quant (src d) (chunk d)) ∧
      ∀ ds, eventLoop lib ppf quant src ds = .ok ((ds.filter (fun d => decide (0 < (src d).n))).map
        (fun d => (chunk d, List.replicate (src d).n (0, d.1, d.2)))) := by
  have hone : ∀ d, ∃ ts ts' cs', times lib ppf (src d).mixture (src d).t0 (src d).draw.rngs = .ok ts ∧
      sortPulses lib ts (charges (src d).n (src d).draw) = .ok (ts', cs') ∧
      RowsOk ppf quant (src d) (rows quant ts' cs') := by
    intro d
    obtain ⟨ts, g1, g2, g3⟩ := pulsesOf_zip hl ppf (hok d)
    obtain ⟨c1, c2, c3⟩ := charges_ok (hok d).2
    obtain ⟨ts', cs', s1, s2, s3, s4, s5⟩ := sortPulses_ok hl (ts := ts)
      (cs := charges (src d).n (src d).draw) (by omega)
    obtain ⟨r1, r2, r3, r4⟩ := rows_map quant (ts := ts') (cs := cs') (by omega)
    have hsum : cs'.sum = (src d).n := by
      have e : cs' = (ts'.zip cs').map (·.2) := (List.map_snd_zip (by omega)).symm
      rw [e, (s5.map (·.2)).sum_eq, List.map_snd_zip (by omega), c2]
    refine ⟨ts, ts', cs', g1, s1, by rw [r1]; exact s4, ⟨_, g3, by rw [r3]; exact s5⟩, ?_⟩
    intro i r hi
    rw [r4 i r hi, List.map_take, r2, hsum]
  choose ts ts' cs' h1 h2 h3 using hone
  refine ⟨fun d => rows quant (ts' d) (cs' d), fun d _ => h3 d, ?_⟩
  intro ds
  induction ds with
  | nil => rfl
  | cons d ds ih =>
    rw [eventLoop]
    simp only
    split
    · rename_i hn
      rw [ih, List.filter_cons_of_neg (by simpa using hn)]
    · rename_i hn
      rw [h1 d]
      simp only
      rw [h2 d]
      simp only
      rw [ih, List.filter_cons_of_pos (by simpa using Nat.pos_of_ne_zero (by omega))]
      rfl

theorem zip_flatten {β γ : Type} : ∀ l : List (List β × List γ), (∀ p ∈ l, p.1.length = p.2.length) →
    (l.map (·.2)).flatten.zip (l.map (·.1)).flatten = (l.map (fun p => p.2.zip p.1)).flatten
  | [], _ => rfl
  | p :: l, h => by
    simp only [List.map_cons, List.flatten_cons]
    rw [List.zip_append (h p (by simp)).symm, zip_flatten l (fun q hq => h q (by simp [hq]))]

theorem RowsOk.length_eq {ppf : ℝ → ℝ → ℝ → ℝ → ℝ} {quant : Bool} {p : Part} {rs : List Row}
    (h : RowsOk ppf quant p rs) : rs.length = p.n ∧ (rs.map (·.charge)).sum = p.n := by
  obtain ⟨_, ⟨q, hq, hp⟩, _⟩ := h
  constructor
  · have := hp.length_eq
    rw [List.length_map] at this
    rw [this, hq.1]
  · have := (hp.map (·.2)).sum_eq
    rw [hq.2.1, List.map_map] at this
    exact this

/-- The charge at a DOM of an array of pulses with identifiers. -/
theorem charge_at (chunk : ℕ × ℕ → List Row) (n : ℕ × ℕ → ℕ)
    (h : ∀ d, 0 < n d → (chunk d).length = n d ∧ ((chunk d).map (·.charge)).sum = n d) (t : ℕ × ℕ) :
    ∀ ds : List (ℕ × ℕ), ds.Nodup →
    ((((ds.filter (fun d => decide (0 < n d))).map
        (fun d => (List.replicate (n d) (0, d.1, d.2)).zip (chunk d))).flatten.filter
          (fun p => decide (p.1 = (0, t.1, t.2)))).map (fun p => p.2.charge)).sum =
      if t ∈ ds then (n t : ℝ) else 0
  | [], _ => by simp
  | d :: ds, hnd => by
    have hd := List.nodup_cons.1 hnd
    have ih := charge_at chunk n h t ds hd.2
    by_cases hn : 0 < n d
    · rw [List.filter_cons_of_pos (by simpa using hn), List.map_cons, List.flatten_cons,
        List.filter_append, List.map_append, List.sum_append, ih]
      obtain ⟨h1, h2⟩ := h d hn
      by_cases hdt : t = d
      · subst hdt
        rw [if_neg hd.1, if_pos (by simp), add_zero, ← h2]
        rw [List.filter_eq_self.2]
        · congr 1
          rw [show (fun p : (ℕ × ℕ × ℕ) × Row => p.2.charge) = (fun r : Row => r.charge) ∘ (·.2) from rfl,
            ← List.map_map, List.map_snd_zip (by simp [h1])]
        · intro p hp
          have := (List.of_mem_zip hp).1
          simpa using (List.mem_replicate.1 this).2
      · rw [List.filter_eq_nil_iff.2]
        · simp [hdt]
        · intro p hp
          have := (List.mem_replicate.1 (List.of_mem_zip hp).1).2
          rw [this]
          simp only [decide_eq_true_eq, Prod.mk.injEq, true_and]
          rintro ⟨e1, e2⟩
          exact hdt (Prod.ext e1.symm e2.symm)
    · rw [List.filter_cons_of_neg (by simpa using hn), ih]
      by_cases hdt : t = d
      · subst hdt
        rw [if_neg hd.1, if_pos (by simp)]
        have : n t = 0 := by omega
        simp [this]
      · simp [hdt]

theorem nodup_doms : doms.Nodup := by
  unfold doms
  rw [List.nodup_flatMap]
  refine ⟨fun s _ => ?_, ?_⟩
  · exact List.nodup_range.map (fun a b h => by simpa using h)
  · refine List.nodup_range.imp ?_
    intro a b hab x hx hy
    simp only [List.mem_map] at hx hy
    obtain ⟨o, _, rfl⟩ := hx
    obtain ⟨o', _, h⟩ := hy
    simp only [Prod.mk.injEq] at h
    exact hab h.1.symm

/-! ### Counting -/

theorem search_sort {lib : Lib} (hl : LibOk lib) (l : List ℝ) (v : ℝ) :
    lib.search (lib.sort l) v = l.countP (fun x => decide (x < v)) := by
  rw [hl.search _ _ (hl.sort_sorted l), (hl.sort_perm l).countP_eq]

end Verif.Sampling
