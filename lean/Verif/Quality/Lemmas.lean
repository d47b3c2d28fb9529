import Verif.Quality.Spec
import Verif.Tray.Lemmas
import Verif.Sphere.Props
import Verif.Reco.Lemmas

/-!
# Lemmas for C106 to C108
-/

namespace Verif.Quality
open Verif.Py Verif.Tray

theorem vecs_length (n : Nat) : ∀ l : List ℝ, l.length = 3 * n → (vecs l).length = n := by
  induction n with
  | zero =>
    intro l h
    have : l = [] := List.length_eq_zero_iff.1 (by omega)
    subst this; rfl
  | succ n ih =>
    intro l h
    match l, h with
    | x :: y :: z :: rest, h =>
      simp only [List.length_cons] at h
      rw [vecs, List.length_cons, ih rest (by omega)]

/-- The directions have the requested opening angles. -/
theorem directions_spec {σ : Type} {rng : Rng σ} (hc : rng.Counts) {zen azi : ℝ}
    (hg : rng.Generic zen azi) (s : σ) (deltas : List ℝ)
    (hd : ∀ d ∈ deltas, 0 ≤ d ∧ d < 90) :
    ∃ ds, directions rng s zen azi deltas = .ok (ds, rng.next s (3 * max 1 deltas.length)) ∧
      List.Forall₂ (fun d r => (Sphere.direction zen azi).angle (Sphere.direction r.1 r.2) =
        d * Real.pi / 180) deltas ds := by
  set es := ((vecs (rng.draw s (3 * max 1 deltas.length))).zip deltas).map
    fun e => (((zen, azi), e.1, e.2) : (ℝ × ℝ) × Sphere.V3 × ℝ) with hes
  have hvl := vecs_length (max 1 deltas.length) _ (hc s (3 * max 1 deltas.length))
  have hmap : es.map (fun e => e.2.2) = deltas := by
    rw [hes, List.map_map]
    have : ((fun e : (ℝ × ℝ) × Sphere.V3 × ℝ => e.2.2) ∘
        fun e : Sphere.V3 × ℝ => ((zen, azi), e.1, e.2)) = Prod.snd := rfl
    rw [this, List.map_snd_zip]
    omega
  have hmem : ∀ e ∈ es, e.1 = (zen, azi) ∧ e.2.2 ∈ deltas ∧
      Sphere.cross (Sphere.direction zen azi) e.2.1 ≠ ⟨0, 0, 0⟩ := by
    intro e he
    rw [hes, List.mem_map] at he
    obtain ⟨p, hp, rfl⟩ := he
    have := List.of_mem_zip hp
    exact ⟨rfl, this.2, hg _ _ _ this.1⟩
  have habs : ∀ d ∈ deltas, |d * Real.pi / 180| = d * Real.pi / 180 ∧
      d * Real.pi / 180 < Real.pi / 2 := by
    intro d hd'
    obtain ⟨h1, h2⟩ := hd d hd'
    have hpi := Real.pi_pos
    constructor
    · rw [abs_of_nonneg]; positivity
    · have : d * Real.pi < 90 * Real.pi := by nlinarith
      linarith
  obtain ⟨rs, h1, h2⟩ := Sphere.C51_angles true es (by
    intro e he
    obtain ⟨e1, e2, e3⟩ := hmem e he
    rw [e1]
    refine ⟨e3, ?_⟩
    simp only [if_true]
    rw [(habs _ e2).1]
    exact (habs _ e2).2)
  refine ⟨rs, ?_, ?_⟩
  · unfold directions
    simp only
    rw [← hes, h1]
  · rw [← hmap, List.forall₂_map_left_iff]
    rw [List.forall₂_iff_get] at h2 ⊢
    refine ⟨h2.1, ?_⟩
    intro i hi1 hi2
    have := (h2.2 i hi1 hi2).1
    simp only [if_true] at this
    obtain ⟨e1, e2, e3⟩ := hmem (es.get ⟨i, hi1⟩) (List.get_mem _ _)
    rw [e1, (habs _ e2).1] at this
    exact this

/-! ## Filling in -/

theorem fill_length : ∀ (fit : List Bool) (p seed : Row),
    numFit fit ≤ p.length → fit.length ≤ seed.length → (fill fit p seed).length = fit.length
  | [], _, _, _, _ => by simp [fill]
  | true :: fit, p, seed, hp, hs => by
    have hn : numFit (true :: fit) = numFit fit + 1 := by simp [numFit]
    rw [hn] at hp
    match p, seed, hp, hs with
    | a :: p, b :: seed, hp, hs =>
      simp only [List.length_cons] at hp hs
      rw [fill, List.length_cons, fill_length fit p seed (by omega) (by omega), List.length_cons]
  | false :: fit, p, seed, hp, hs => by
    have hn : numFit (false :: fit) = numFit fit := by simp [numFit]
    rw [hn] at hp
    match seed, hs with
    | b :: seed, hs =>
      simp only [List.length_cons] at hs
      rw [fill, List.length_cons, fill_length fit p seed hp (by omega), List.length_cons]

theorem fill_get : ∀ (fit : List Bool) (p seed : Row),
    numFit fit ≤ p.length → fit.length ≤ seed.length → ∀ j, j < fit.length →
    (fill fit p seed)[j]? =
      if fit[j]? = some true then p[(fit.take j).count true]? else seed[j]?
  | [], _, _, _, _ => by simp
  | true :: fit, p, seed, hp, hs => by
    have hn : numFit (true :: fit) = numFit fit + 1 := by simp [numFit]
    rw [hn] at hp
    match p, seed, hp, hs with
    | a :: p, b :: seed, hp, hs =>
      simp only [List.length_cons] at hp hs
      intro j hj
      rw [fill]
      cases j with
      | zero => simp
      | succ j =>
        simp only [List.length_cons] at hj
        simp only [List.getElem?_cons_succ, List.take_succ_cons, List.count_cons_self]
        exact fill_get fit p seed (by omega) (by omega) j (by omega)
  | false :: fit, p, seed, hp, hs => by
    have hn : numFit (false :: fit) = numFit fit := by simp [numFit]
    rw [hn] at hp
    match seed, hs with
    | b :: seed, hs =>
      simp only [List.length_cons] at hs
      intro j hj
      rw [fill]
      cases j with
      | zero => simp
      | succ j =>
        simp only [List.length_cons] at hj
        simp only [List.getElem?_cons_succ, List.take_succ_cons]
        rw [List.count_cons_of_ne (by decide)]
        exact fill_get fit p seed (by omega) (by omega) j (by omega)

/-! ## The circularised uncertainty -/

theorem all_iff {fit : List Bool} (h : ∀ b ∈ fit, b = true) : fit.all id = true := by simpa using h

theorem unc_get {c : Circ} (h : c.Ready) (i : Nat) (hi : i < c.fit.length) :
    (c.unc[i]? = some true ↔ i ≠ c.zen ∧ i ≠ c.azi) := by
  unfold Circ.unc
  rw [List.getElem?_set, List.getElem?_set]
  have hb : c.fit[i]? = some true := by
    rw [List.getElem?_eq_getElem hi, h.all _ (List.getElem_mem hi)]
  by_cases ha : c.azi = i
  · subst ha
    simp [hi]
  · rw [if_neg ha]
    by_cases hz : c.zen = i
    · subst hz
      simp [hi]
    · rw [if_neg hz, hb]
      simp [Ne.symm ha, Ne.symm hz]

theorem unc_length (c : Circ) : c.unc.length = c.fit.length := by simp [Circ.unc]

theorem positions_unc {c : Circ} (h : c.Ready) :
    Reco.positions c.unc = (List.range c.fit.length).filter fun i => i ≠ c.zen ∧ i ≠ c.azi := by
  unfold Reco.positions
  rw [unc_length]
  apply List.filter_congr
  intro i hi
  rw [List.mem_range] at hi
  have := unc_get h i hi
  by_cases g : c.unc[i]? = some true
  · simp only [g, decide_true]
    exact (decide_eq_true (this.1 g)).symm
  · simp only [g, decide_false]
    exact (decide_eq_false (fun k => g (this.2 k))).symm

theorem count_set_false {l : List Bool} {i : Nat} (h : l[i]? = some true) :
    (l.set i false).count true + 1 = l.count true := by
  obtain ⟨hi, e⟩ := List.getElem?_eq_some_iff.1 h
  have hpos : 0 < l.count true := List.count_pos_iff.2 (by rw [← e]; exact List.getElem_mem hi)
  rw [List.count_set (by simpa using hi)]
  simp [e]
  omega

theorem count_numFit (fit : List Bool) : numFit fit = fit.count true := by
  unfold numFit
  rw [List.count_eq_countP, List.countP_eq_length_filter]
  congr 1
  apply List.filter_congr
  intro b _
  cases b <;> rfl

theorem numFit_unc {c : Circ} (h : c.Ready) : numFit c.unc = c.fit.length - 2 := by
  rw [count_numFit]
  have h0 : c.fit.count true = c.fit.length := by
    rw [List.count_eq_length]
    intro b hb; exact (h.all b hb).symm
  have hz : c.fit[c.zen]? = some true := by
    rw [List.getElem?_eq_getElem h.zen, h.all _ (List.getElem_mem h.zen)]
  have ha : (c.fit.set c.zen false)[c.azi]? = some true := by
    rw [List.getElem?_set, if_neg h.ne, List.getElem?_eq_getElem h.azi,
      h.all _ (List.getElem_mem h.azi)]
  have h1 := count_set_false hz
  have h2 := count_set_false ha
  unfold Circ.unc
  omega

/-- The loss of the fit with a fixed direction. -/
theorem lossAt_spec {c : Circ} (h : c.Ready) {result : Row} (hr : result.length = c.fit.length)
    (d : ℝ × ℝ) :
    ∃ e, c.lossAt result d = .ok (c.loss e) ∧ FitAt c result e d.1 d.2 := by
  have e1 : setCol result c.zen d.1 = .ok (result.set c.zen d.1) := by
    unfold setCol; rw [if_pos (by rw [hr]; exact h.zen)]
  have e2 : setCol (result.set c.zen d.1) c.azi d.2 =
      .ok ((result.set c.zen d.1).set c.azi d.2) := by
    unfold setCol; rw [if_pos (by rw [List.length_set, hr]; exact h.azi)]
  set seed := (result.set c.zen d.1).set c.azi d.2 with hseed
  have hsl : seed.length = c.fit.length := by rw [hseed]; simp [hr]
  have hun : c.unc.all id = false := by
    rw [List.all_eq_false]
    refine ⟨false, ?_, by simp⟩
    rw [List.mem_iff_getElem?]
    refine ⟨c.azi, ?_⟩
    unfold Circ.unc
    rw [List.getElem?_set, if_pos rfl, if_pos (by simp [h.azi])]
  set sp := (if c.trafo then mapCols c.fwd seed else seed) with hsp
  have hspl : sp.length = c.fit.length := by
    rw [hsp]; split_ifs
    · rw [length_mapCols, hsl]
    · exact hsl
  set all := fill c.unc (c.reco seed) sp with hall
  have hnf : numFit c.unc ≤ (c.reco seed).length := by rw [numFit_unc h, h.reco]
  have hfl : c.unc.length ≤ sp.length := by rw [unc_length, hspl]
  set e := (if c.trafo then mapCols c.inv all else all) with he
  have hel : e.length = c.fit.length := by
    rw [he]; split_ifs
    · rw [length_mapCols, hall, fill_length _ _ _ hnf hfl, unc_length]
    · rw [hall, fill_length _ _ _ hnf hfl, unc_length]
  -- entries
  have hent : ∀ i < c.fit.length, e[i]? = if i ≠ c.zen ∧ i ≠ c.azi
      then ((c.reco seed)[(c.unc.take i).count true]?).map fun v => if c.trafo then c.inv i v else v
      else seed[i]? := by
    intro i hi
    have hf := fill_get c.unc (c.reco seed) sp hnf hfl i (by rw [unc_length]; exact hi)
    rw [← hall] at hf
    have hu := unc_get h i hi
    by_cases g : i ≠ c.zen ∧ i ≠ c.azi
    · rw [if_pos g]
      rw [if_pos (hu.2 g)] at hf
      rw [he]
      by_cases t : c.trafo = true
      · simp only [t, if_true, get_mapCols, hf]
      · simp only [t, Bool.false_eq_true, if_false, hf]
        simp
    · rw [if_neg g]
      rw [if_neg (fun k => g (hu.1 k))] at hf
      rw [he]
      by_cases t : c.trafo = true
      · simp only [t, if_true, get_mapCols, hf, hsp, Option.map_map]
        have : c.inv i ∘ c.fwd i = id := by funext v; exact h.inverse i v
        rw [this]; simp
      · simp only [t, Bool.false_eq_true, if_false, hf, hsp]
  refine ⟨e, ?_, ⟨hel, ?_, ?_, ?_⟩⟩
  · unfold Circ.lossAt
    rw [e1]
    simp only [bind, Except.bind]
    rw [e2]
    simp only
    unfold Scan.lossFunction
    simp only
    rw [if_neg (by simp only [ne_eq, not_not]; rw [numFit_unc h, h.reco])]
    rw [hun]
    simp only [Bool.false_eq_true, if_false]
    rw [← hsp, ← hall, ← he]
  · rw [hent _ h.zen, if_neg (by simp), hseed, List.getElem?_set, if_neg (Ne.symm h.ne),
      List.getElem?_set, if_pos rfl, if_pos (by rw [hr]; exact h.zen)]
  · rw [hent _ h.azi, if_neg (by simp), hseed, List.getElem?_set, if_pos rfl,
      if_pos (by rw [List.length_set, hr]; exact h.azi)]
  · intro k i hk
    have hm := List.mem_of_getElem? hk
    rw [List.mem_filter, List.mem_range] at hm
    have g : i ≠ c.zen ∧ i ≠ c.azi := by simpa using hm.2
    rw [← positions_unc h] at hk
    rw [hent i hm.1, if_pos g, (Reco.positions_spec hk).2.2]

/-- The losses of several fits. -/
theorem losses_spec {c : Circ} (h : c.Ready) {result : Row} (hr : result.length = c.fit.length)
    (ds : List (ℝ × ℝ)) (hne : ds ≠ []) :
    ∃ es : List Row, c.losses result ds = .ok (es.map c.loss) ∧
      List.Forall₂ (fun d e => FitAt c result e d.1 d.2) ds es := by
  have key : ∀ ds : List (ℝ × ℝ), ∃ es : List Row, ds.mapM (c.lossAt result) =
      .ok (es.map c.loss) ∧ List.Forall₂ (fun d e => FitAt c result e d.1 d.2) ds es := by
    intro ds
    induction ds with
    | nil => exact ⟨[], rfl, .nil⟩
    | cons d ds ih =>
      obtain ⟨es, h1, h2⟩ := ih
      obtain ⟨e, h3, h4⟩ := lossAt_spec h hr d
      refine ⟨e :: es, ?_, .cons h4 h2⟩
      rw [List.mapM_cons, h3, h1]
      rfl
  obtain ⟨es, h1, h2⟩ := key ds
  refine ⟨es, ?_, h2⟩
  unfold Circ.losses
  rw [h1]
  have : es.map c.loss ≠ [] := by
    intro e
    rw [List.map_eq_nil_iff] at e
    subst e
    cases h2
    exact hne rfl
  simp only [bind, Except.bind, this, if_false]
  rfl

/-- A step of the bisection succeeds and uses three numbers. -/
theorem bisection_spec {σ : Type} {c : Circ} (h : c.Ready) {rng : Rng σ} (hc : rng.Counts)
    {result : Row} (hr : result.length = c.fit.length) {zen azi : ℝ} (hg : rng.Generic zen azi)
    (best : ℝ) (s : σ) {low high : ℝ} (h0 : 0 ≤ low) (h1 : low < high) (h2 : high ≤ 90) :
    ∃ low' high' center, c.bisection rng result zen azi best s low high =
      .ok ((low', high', center), rng.next s 3) ∧ 0 ≤ low' ∧ low' < high' ∧ high' ≤ 90 ∧
      0 ≤ center ∧ center ≤ 90 := by
  obtain ⟨ds, d1, d2⟩ := directions_spec hc hg s [low + (high - low) / 2] (by
    intro d hd
    simp only [List.mem_singleton] at hd
    subst hd
    constructor <;> linarith)
  have hne : ds ≠ [] := by intro e; subst e; cases d2
  obtain ⟨es, e1, e2⟩ := losses_spec h hr ds hne
  unfold Circ.bisection
  simp only [bind, Except.bind, d1, e1]
  cases es with
  | nil =>
    cases e2
    exact absurd rfl hne
  | cons e es =>
    simp only [List.map_cons, List.length_singleton, max_self, Nat.mul_one]
    split_ifs
    · exact ⟨_, _, _, rfl, h0, by linarith, by linarith, by linarith, by linarith⟩
    · exact ⟨_, _, _, rfl, by linarith, by linarith, h2, by linarith, by linarith⟩

/-- `n` steps. -/
def nextN {σ : Type} (rng : Rng σ) : Nat → σ → σ
  | 0, s => s
  | n + 1, s => nextN rng n (rng.next s 3)

theorem bisect_spec {σ : Type} {c : Circ} (h : c.Ready) {rng : Rng σ} (hc : rng.Counts)
    {result : Row} (hr : result.length = c.fit.length) {zen azi : ℝ} (hg : rng.Generic zen azi)
    (best : ℝ) (n : Nat) : ∀ (s : σ) (low high center : ℝ), 0 ≤ low → low < high → high ≤ 90 →
      0 ≤ center → center ≤ 90 →
    ∃ center', c.bisect rng result zen azi best n s low high center =
      .ok (center', nextN rng n s) ∧ 0 ≤ center' ∧ center' ≤ 90 := by
  induction n with
  | zero => intro s low high center _ _ _ h3 h4; exact ⟨center, rfl, h3, h4⟩
  | succ n ih =>
    intro s low high center h0 h1 h2 _ _
    obtain ⟨low', high', center', e, g0, g1, g2, g3, g4⟩ := bisection_spec h hc hr hg best s h0 h1 h2
    rw [Circ.bisect, e]
    exact ih _ _ _ _ g0 g1 g2 g3 g4

theorem linspace_mem {upper : ℝ} {num : Nat} (h0 : 0 ≤ upper) (h1 : upper ≤ 89.9) :
    ∀ d ∈ Uncert.linspace upper num, 0 ≤ d ∧ d < 90 := by
  intro d hd
  unfold Uncert.linspace at hd
  rw [List.mem_map] at hd
  obtain ⟨i, hi, rfl⟩ := hd
  rw [List.mem_range] at hi
  have hle : (i : ℝ) ≤ (num : ℝ) - 1 := by
    have : (i : ℝ) + 1 ≤ (num : ℝ) := by exact_mod_cast hi
    linarith
  have hi0 : (0 : ℝ) ≤ i := Nat.cast_nonneg i
  constructor
  · apply div_nonneg (mul_nonneg h0 hi0); linarith
  · rcases eq_or_lt_of_le (show (0 : ℝ) ≤ (num : ℝ) - 1 by linarith) with e | e
    · rw [← e]; simp
    · rw [div_lt_iff₀ e]
      have : upper * i ≤ 89.9 * ((num : ℝ) - 1) := mul_le_mul h1 hle hi0 (by norm_num)
      have h3 : (89.9 : ℝ) * ((num : ℝ) - 1) < 90 * ((num : ℝ) - 1) := by nlinarith
      linarith

/-- The bisection halves an interval that contains the bound. -/
theorem bisect_bracket {σ : Type} {c : Circ} (h : c.Ready) {rng : Rng σ} (hc : rng.Counts)
    {result : Row} (hr : result.length = c.fit.length) {zen azi : ℝ} (hg : rng.Generic zen azi)
    {bound : ℝ} (hb : c.SharpAt result zen azi bound) (n : Nat) :
    ∀ (s : σ) (low high center : ℝ), 0 ≤ low → low < high → high ≤ 90 → low ≤ bound → bound ≤ high →
      (n = 0 → center = low ∨ center = high) →
    ∃ center' s', c.bisect rng result zen azi (c.loss result) n s low high center = .ok (center', s') ∧
      |center' - bound| ≤ (high - low) / 2 ^ n := by
  induction n with
  | zero =>
    intro s low high center _ h1 _ h3 h4 h5
    refine ⟨center, s, rfl, ?_⟩
    rw [abs_le]
    rcases h5 rfl with rfl | rfl <;> constructor <;> linarith
  | succ n ih =>
    intro s low high center h0 h1 h2 h3 h4 _
    obtain ⟨ds, d1, d2⟩ := directions_spec hc hg s [low + (high - low) / 2] (by
      intro d hd
      simp only [List.mem_singleton] at hd
      subst hd
      constructor <;> linarith)
    have hne : ds ≠ [] := by intro e; subst e; cases d2
    obtain ⟨es, e1, e2⟩ := losses_spec h hr ds hne
    cases d2 with
    | cons d2 d3 =>
    cases d3
    cases e2 with
    | cons e2 e3 =>
    cases e3
    rename_i d e
    have hs := hb _ _ _ _ (by linarith : 0 < low + (high - low) / 2) (by linarith) d2 e2
    rw [Circ.bisect]
    have e3 : c.bisection rng result zen azi (c.loss result) s low high =
        if 0.95 < Uncert.chi2Cdf (c.fit.length - 2) (2 * (c.loss e - c.loss result)) then
          .ok ((low, low + (high - low) / 2, low + (high - low) / 2), rng.next s 3)
        else .ok ((low + (high - low) / 2, high, low + (high - low) / 2), rng.next s 3) := by
      have hd : Uncert.ddof result.length = c.fit.length - 2 := by rw [hr]; rfl
      unfold Circ.bisection
      rw [← hd]
      simp only [bind, Except.bind, d1, e1, List.map_cons, List.map_nil, List.length_singleton, max_self,
        Nat.mul_one, gt_iff_lt]
      rfl
    rw [e3]
    by_cases hx : bound < low + (high - low) / 2
    · rw [if_pos (hs.2 hx)]
      obtain ⟨c', s', g1, g2⟩ := ih (rng.next s 3) low (low + (high - low) / 2) (low + (high - low) / 2) h0
        (by linarith) (by linarith) h3 (le_of_lt hx) (fun _ => Or.inr rfl)
      refine ⟨c', s', g1, g2.trans (le_of_eq ?_)⟩
      rw [pow_succ]; field_simp; ring
    · rw [if_neg (fun g => hx (hs.1 g))]
      obtain ⟨c', s', g1, g2⟩ := ih (rng.next s 3) (low + (high - low) / 2) high (low + (high - low) / 2)
        (by linarith) (by linarith) h2 (by linarith) h4 (fun _ => Or.inl rfl)
      refine ⟨c', s', g1, g2.trans (le_of_eq ?_)⟩
      rw [pow_succ]; field_simp; ring

/-- Without a range, the opening angles end at the result of the bisection. -/
theorem execute_range {σ : Type} {c : Circ} {rng : Rng σ} {resultTrafo result : Row} {s s' : σ}
    {out : CircOut σ} (h : c.execute rng resultTrafo result s = .ok out) (hn : c.range = none)
    {best zen azi center : ℝ} (h0 : c.toScan.lossFunction result resultTrafo = .ok best)
    (h1 : getCol result c.zen = .ok zen) (h2 : getCol result c.azi = .ok azi)
    (h3 : c.bisect rng result zen azi best 4 s 0 90 0 = .ok (center, s')) :
    out.deltaPsi = Uncert.linspace (min 89.9 center) c.num := by
  unfold Circ.execute at h
  simp only [bind, Except.bind, h0, h1, h2, hn, h3, pure, Except.pure] at h
  split at h
  · cases h
  · split at h
    · cases h
    · split at h
      · cases h
      · simp only [Except.ok.injEq] at h
        subst h
        rfl

/-- What `execute` computes. -/
theorem execute_spec {σ : Type} {c : Circ} (h : c.Ready) {rng : Rng σ} (hc : rng.Counts)
    {resultTrafo result : Row} (hr : c.Result resultTrafo result) {zen azi : ℝ}
    (hz : result[c.zen]? = some zen) (ha : result[c.azi]? = some azi) (hg : rng.Generic zen azi)
    (s : σ) :
    ∃ (out : CircOut σ) (upper : ℝ) (ds : List (ℝ × ℝ)) (es : List Row),
      c.execute rng resultTrafo result s = .ok out ∧
      0 ≤ upper ∧ upper ≤ 89.9 ∧ (∀ r, c.range = some r → upper = r) ∧
      out.deltaPsi = Uncert.linspace upper c.num ∧
      List.Forall₂ (fun d r => (Sphere.direction zen azi).angle (Sphere.direction r.1 r.2) =
        d * Real.pi / 180) out.deltaPsi ds ∧
      List.Forall₂ (fun d e => FitAt c result e d.1 d.2) ds es ∧
      out.deltaLoss = es.map (fun e => c.loss e - c.loss result) ∧
      out.uncDeg = c.minimize (out.deltaPsi.zip out.deltaLoss) ∧
      out.unc = out.uncDeg * Real.pi / 180 ∧
      out.state = c.after rng s := by
  have hlen : result.length = c.fit.length := by
    rw [hr.2]; split_ifs
    · rw [length_mapCols, hr.1]
    · exact hr.1
  have hall := all_iff h.all
  have hnum : numFit c.fit = c.fit.length := by
    rw [count_numFit, List.count_eq_length]
    intro b hb; exact (h.all b hb).symm
  have e0 : c.toScan.lossFunction result resultTrafo = .ok (c.loss result) := by
    unfold Scan.lossFunction
    rw [if_neg (by simp only [ne_eq, not_not]; rw [hnum, hr.1])]
    simp only [hall, if_true]
    rw [← hr.2]
  have e1 : getCol result c.zen = .ok zen := by unfold getCol; rw [hz]
  have e2 : getCol result c.azi = .ok azi := by unfold getCol; rw [ha]
  obtain ⟨upper, s1, e3, hu0, hu1, hu2, hs1⟩ : ∃ upper s1,
      (match c.range with
        | some r => (pure (r, s) : Except Err (ℝ × σ))
        | none => do
          let (center, s) ← c.bisect rng result zen azi (c.loss result) 4 s 0 90 0
          pure (min 89.9 center, s)) = .ok (upper, s1) ∧ 0 ≤ upper ∧ upper ≤ 89.9 ∧
      (∀ r, c.range = some r → upper = r) ∧
      s1 = if c.range.isSome then s
        else rng.next (rng.next (rng.next (rng.next s 3) 3) 3) 3 := by
    cases hrg : c.range with
    | some r =>
      obtain ⟨g1, g2⟩ := h.range r hrg
      exact ⟨r, s, rfl, g1, g2, fun r' e => by simpa using e, rfl⟩
    | none =>
      obtain ⟨center, b1, b2, b3⟩ := bisect_spec h hc hlen hg (c.loss result) 4 s 0 90 0
        (le_refl _) (by norm_num) (le_refl _) (le_refl _) (by norm_num)
      refine ⟨min 89.9 center, nextN rng 4 s, ?_, ?_, ?_, ?_, ?_⟩
      · simp only [bind, Except.bind, b1]
        rfl
      · exact le_min (by norm_num) b2
      · exact min_le_left _ _
      · intro r e; cases e
      · rfl
  obtain ⟨ds, d1, d2⟩ := directions_spec hc hg (rng.next s1 c.num) (Uncert.linspace upper c.num)
    (linspace_mem hu0 hu1)
  have hll : (Uncert.linspace upper c.num).length = c.num := by simp [Uncert.linspace]
  have hne : ds ≠ [] := by
    intro e
    have := d2.length_eq
    rw [hll, e, List.length_nil] at this
    have := h.num
    omega
  obtain ⟨es, l1, l2⟩ := losses_spec h hlen ds hne
  refine ⟨⟨Uncert.linspace upper c.num, es.map (fun e => c.loss e - c.loss result),
    c.minimize ((Uncert.linspace upper c.num).zip (es.map (fun e => c.loss e - c.loss result))) *
      Real.pi / 180,
    c.minimize ((Uncert.linspace upper c.num).zip (es.map (fun e => c.loss e - c.loss result))),
    c.after rng s⟩, upper, ds, es, ?_, hu0, hu1, hu2, rfl, d2, l2, rfl, rfl, rfl, rfl⟩
  have hmax : max 1 (Uncert.linspace upper c.num).length = c.num := by
    rw [hll]; exact max_eq_right h.num
  rw [hmax] at d1
  have hst : rng.next (rng.next s1 c.num) (3 * c.num) = c.after rng s := by
    unfold Circ.after
    rw [hs1]
  rw [hst] at d1
  unfold Circ.execute
  have hall' : (¬ c.fit.all id = true) = False := by rw [hall]; simp
  simp only [hall', if_false, bind, Except.bind, e0, e1, e2, pure, Except.pure]
  simp only [bind, Except.bind, pure, Except.pure] at e3
  revert e3
  cases c.range with
  | some r =>
    intro e3
    simp only [Except.ok.injEq, Prod.mk.injEq] at e3
    obtain ⟨rfl, rfl⟩ := e3
    simp only [d1, l1, List.map_map]
    rfl
  | none =>
    intro e3
    revert e3
    simp only
    cases c.bisect rng result zen azi (c.loss result) 4 s 0 90 0 with
    | error e => intro e3; cases e3
    | ok v =>
      intro e3
      simp only [Except.ok.injEq, Prod.mk.injEq] at e3
      obtain ⟨rfl, rfl⟩ := e3
      simp only [d1, l1, List.map_map]
      rfl

/-! ## The goodness of fit -/

theorem sum_doms {M : Type} [AddCommMonoid M] (f : ℕ × ℕ → M) : (Sampling.doms.map f).sum =
    ∑ string ∈ Finset.range 86, ∑ om ∈ Finset.range 60, f (string, om) := by
  have key : ∀ l : List ℕ, ((l.flatMap fun s => (List.range 60).map fun o => (s, o)).map f).sum =
      (l.map fun s => ∑ om ∈ Finset.range 60, f (s, om)).sum := by
    intro l
    induction l with
    | nil => rfl
    | cons a l ih =>
      rw [List.flatMap_cons, List.map_append, List.sum_append, ih, List.map_cons, List.sum_cons,
        List.map_map]
      rfl
  unfold Sampling.doms
  rw [key]
  rfl

theorem total_eq_all (t : Terms) : t.total = t.all := by
  unfold Terms.total Terms.all
  rw [sum_doms]
  ring

theorem total_eq_charge (q : ℕ × ℕ → ℕ) : total q = charge q := sum_doms q

variable {σ β : Type}

theorem full_merged {g : Goodness σ β} (hi : ∀ i v, g.inv i (g.fwd i v) = v) {seed p : Row}
    (hs : seed.length = g.fit.length) (hp : p.length = g.fit.count true) :
    Merged g seed p (g.full seed p) := by
  have hnf : numFit g.fit ≤ p.length := by rw [count_numFit, hp]
  set sp := (if g.trafo then mapCols g.fwd seed else seed) with hsp
  have hspl : sp.length = g.fit.length := by
    rw [hsp]; split_ifs
    · rw [length_mapCols, hs]
    · exact hs
  set all := (if g.fit.all id then p else fill g.fit p sp) with hall
  have hle : g.fit.length ≤ sp.length := hspl.ge
  have halll : all.length = g.fit.length := by
    rw [hall]; split_ifs with g1
    · rw [hp, List.count_eq_length]
      intro b hb
      have : ∀ b ∈ g.fit, b = true := by simpa using g1
      exact (this b hb).symm
    · exact fill_length _ _ _ hnf hle
  have hget : ∀ j, j < g.fit.length → all[j]? =
      if g.fit[j]? = some true then p[(g.fit.take j).count true]? else sp[j]? := by
    intro j hj
    rw [hall]
    split_ifs with g1 g2 g2
    · congr 1
      have ht : ∀ b ∈ g.fit, b = true := by simpa using g1
      have : (g.fit.take j).count true = (g.fit.take j).length := by
        rw [List.count_eq_length]
        intro b hb
        exact (ht b (List.mem_of_mem_take hb)).symm
      rw [this, List.length_take]
      omega
    · exfalso
      have ht : ∀ b ∈ g.fit, b = true := by simpa using g1
      rw [List.getElem?_eq_getElem hj] at g2
      exact g2 (by rw [ht _ (List.getElem_mem hj)])
    · rw [fill_get _ _ _ hnf hle j hj, if_pos g2]
    · rw [fill_get _ _ _ hnf hle j hj, if_neg g2]
  have hfull : g.full seed p = if g.trafo then mapCols g.inv all else all := rfl
  refine ⟨?_, ?_, ?_⟩
  · rw [hfull]; split_ifs
    · rw [length_mapCols, halll]
    · exact halll
  · intro i hf
    obtain ⟨hi', -⟩ := List.getElem?_eq_some_iff.1 hf
    have h1 := hget i hi'
    rw [if_neg (by rw [hf]; simp)] at h1
    rw [hfull]
    by_cases t : g.trafo = true
    · simp only [t, if_true, get_mapCols, h1, hsp, Option.map_map]
      have : g.inv i ∘ g.fwd i = id := by funext v; exact hi i v
      rw [this]; simp
    · simp only [t, Bool.false_eq_true, if_false, h1, hsp]
  · intro k i hk
    obtain ⟨p1, p2, p3⟩ := Reco.positions_spec hk
    have h1 := hget i p1
    rw [if_pos p2, p3] at h1
    rw [hfull]
    by_cases t : g.trafo = true
    · simp only [t, if_true, get_mapCols, h1]
    · simp only [t, Bool.false_eq_true, if_false, h1]
      simp

/-- There is one way to put a hypothesis together. -/
theorem merged_unique {g : Goodness σ β} {seed p r r' : Row} (h : Merged g seed p r)
    (h' : Merged g seed p r') : r = r' := by
  apply List.ext_getElem?
  intro i
  by_cases hi : i < g.fit.length
  · cases hb : g.fit[i]? with
    | none => rw [List.getElem?_eq_getElem hi] at hb; cases hb
    | some b =>
      cases b with
      | true =>
        have := Reco.positions_of hb
        rw [h.fitted _ _ this, h'.fitted _ _ this]
      | false => rw [h.kept i hb, h'.kept i hb]
  · rw [List.getElem?_eq_none (by rw [h.length]; omega),
      List.getElem?_eq_none (by rw [h'.length]; omega)]

/-- One fitted value may be repeated. -/
theorem full_replicate {g : Goodness σ β} {seed : Row} {v : ℝ} (h1 : g.fit.count true = 1)
    (hs : seed.length = g.fit.length) (hl : 1 < g.fit.length) :
    g.full seed (List.replicate g.fit.length v) = g.full seed [v] := by
  have hall : g.fit.all id = false := by
    cases hq : g.fit.all id with
    | false => rfl
    | true =>
      have ht : ∀ b ∈ g.fit, b = true := by simpa using hq
      have : g.fit.count true = g.fit.length := by
        rw [List.count_eq_length]
        intro b hb; exact (ht b hb).symm
      omega
  unfold Goodness.full
  simp only [hall, Bool.false_eq_true, if_false]
  set sp := (if g.trafo then mapCols g.fwd seed else seed) with hsp
  have hspl : sp.length = g.fit.length := by
    rw [hsp]; split_ifs
    · rw [length_mapCols, hs]
    · exact hs
  have key : fill g.fit (List.replicate g.fit.length v) sp = fill g.fit [v] sp := by
    have a1 : numFit g.fit ≤ (List.replicate g.fit.length v).length := by
      rw [count_numFit, h1, List.length_replicate]; omega
    have a2 : numFit g.fit ≤ [v].length := by rw [count_numFit, h1]; simp
    have a3 : g.fit.length ≤ sp.length := hspl.ge
    apply List.ext_getElem?
    intro j
    by_cases hj : j < g.fit.length
    · rw [fill_get _ _ _ a1 a3 j hj, fill_get _ _ _ a2 a3 j hj]
      split_ifs with hb
      · have hz : (g.fit.take j).count true = 0 := by
          have hsplit : g.fit = g.fit.take j ++ g.fit.drop j := (List.take_append_drop j g.fit).symm
          have hc := congrArg (List.count true) hsplit
          rw [List.count_append, h1] at hc
          have hd : 0 < (g.fit.drop j).count true := by
            rw [List.count_pos_iff, List.mem_iff_getElem?]
            exact ⟨0, by rw [List.getElem?_drop]; simpa using hb⟩
          omega
        rw [hz]
        rw [List.getElem?_replicate, if_pos (by omega)]
        rfl
      · rfl
    · rw [List.getElem?_eq_none (by rw [fill_length _ _ _ a1 a3]; omega),
        List.getElem?_eq_none (by rw [fill_length _ _ _ a2 a3]; omega)]
  rw [key]

/-- All parameters are fitted, or samples are reconstructed and exactly one of several is. -/
def Goodness.Works (g : Goodness σ β) : Prop :=
  (∀ b ∈ g.fit, b = true) ∨ (g.reconstruct = true ∧ g.fit.count true = 1 ∧ 1 < g.fit.length)

theorem sample_spec {g : Goodness σ β} (hr : g.Ready) (hw : g.Works) (data : Sampling.Batch β) (s : σ)
    {h : Row} (hh : h.length = g.fit.length) (q : ℕ × ℕ → ℕ) {x : List Sampling.Row × List (ℕ × ℕ × ℕ)}
    {s1 : σ} (hx : g.pulses s h q = .ok (x, s1)) :
    ∃ a, g.sample data s h q = .ok (a, s1) ∧ SampleOf g data s h q (g.full h a.reco) a.terms s1 := by
  set batch := Sampling.sampleBatch data x with hb
  have hcount : ∀ t : ∀ b ∈ g.fit, b = true, g.fit.count true = g.fit.length := by
    intro t
    rw [List.count_eq_length]
    intro b hb; exact (t b hb).symm
  by_cases hrec : g.reconstruct = true
  · -- the samples are reconstructed
    have hlen := hr.reco batch h
    have hloss : g.loss h (g.reco batch h) batch = .ok (g.terms (g.full h (g.reco batch h)) batch) := by
      unfold Goodness.loss
      rw [if_neg (by simp only [ne_eq, not_not]; rw [count_numFit, hlen])]
    obtain ⟨kept, hk, hfull⟩ : ∃ kept, assign h.length (g.reco batch h) = .ok kept ∧
        g.full h kept = g.full h (g.reco batch h) := by
      rcases hw with ha | ⟨-, h1, h2⟩
      · refine ⟨_, ?_, rfl⟩
        unfold assign
        rw [if_pos (by rw [hlen, hcount ha, hh])]
      · rw [h1] at hlen
        obtain ⟨v, hv⟩ := List.length_eq_one_iff.1 hlen
        refine ⟨List.replicate h.length v, ?_, ?_⟩
        · unfold assign
          rw [if_neg (by rw [hlen, hh]; omega), hv]
        · rw [hv, hh]
          exact full_replicate h1 hh h2
    refine ⟨⟨kept, g.terms (g.full h (g.reco batch h)) batch⟩, ?_, x, hx, ?_, ?_⟩
    · unfold Goodness.sample
      simp only [bind, Except.bind, hx, hrec, if_true, ← hb, hk, hloss]
      rfl
    · rw [if_pos hrec]
      simp only [hfull]
      exact full_merged hr.inverse hh (hr.reco _ _)
    · simp only [hfull]
      rfl
  · rcases hw with ha | ⟨h1, -⟩
    · have hnum : numFit g.fit = g.fit.length := by rw [count_numFit, hcount ha]
      have hall := all_iff ha
      set r := (if g.trafo then mapCols g.fwd h else h) with hrr
      have hrl : r.length = g.fit.length := by
        rw [hrr]; split_ifs
        · rw [length_mapCols, hh]
        · exact hh
      have hfull : g.full h r = h := by
        unfold Goodness.full
        simp only [hall, if_true]
        rw [hrr]
        by_cases t : g.trafo = true
        · simp only [t, if_true]
          apply List.ext_getElem?
          intro i
          rw [get_mapCols, get_mapCols, Option.map_map]
          have : g.inv i ∘ g.fwd i = id := by funext v; exact hr.inverse i v
          rw [this]; simp
        · simp only [t, Bool.false_eq_true, if_false]
      have hloss : g.loss h r batch = .ok (g.terms h batch) := by
        unfold Goodness.loss
        rw [if_neg (by simp only [ne_eq, not_not]; rw [hnum, hrl]), hfull]
      have hk : assign h.length r = .ok r := by
        unfold assign
        rw [if_pos (by rw [hrl, hh])]
      refine ⟨⟨r, g.terms h batch⟩, ?_, x, hx, ?_, ?_⟩
      · unfold Goodness.sample
        simp only [bind, Except.bind, hx, hrec, Bool.false_eq_true, if_false, ← hb, ← hrr, hk, hloss]
        rfl
      · rw [if_neg hrec]
        exact hfull
      · simp only [hfull]
        rfl
    · exact absurd h1 hrec

theorem samples_spec {g : Goodness σ β} (hr : g.Ready) (hw : g.Works) (data : Sampling.Batch β)
    (hp : ∀ s h q, 0 < total q → ∃ x s1, g.pulses s h q = .ok (x, s1)) :
    ∀ (hq : List (Row × (ℕ × ℕ → ℕ))) (s : σ),
    (∀ e ∈ hq, e.1.length = g.fit.length ∧ 0 < total e.2) →
    ∃ (as : List Sample) (s1 : σ), g.samples data s hq = .ok (as, s1) ∧ as.length = hq.length ∧
      SamplesOf g data s hq ((hq.zip as).map fun p => (g.full p.1.1 p.2.reco, p.2.terms)) s1
  | [], s, _ => ⟨[], s, rfl, rfl, rfl⟩
  | (h, q) :: hq, s, hl => by
    obtain ⟨x, s1, hx⟩ := hp s h q (hl (h, q) (by simp)).2
    obtain ⟨a, a1, a2⟩ := sample_spec hr hw data s (hl (h, q) (by simp)).1 q hx
    obtain ⟨as, s2, b1, b2, b3⟩ := samples_spec hr hw data hp hq s1 (fun e he => hl e (by simp [he]))
    refine ⟨a :: as, s2, ?_, by simp [b2], ?_⟩
    · rw [Goodness.samples, a1]
      simp only [bind, Except.bind, b1]
      rfl
    · simp only [List.zip_cons_cons, List.map_cons]
      exact ⟨s1, a2, b3⟩

theorem onLog_length (f : ℝ → ℝ) : ∀ (ms : List Bool) (r : Row), (onLog f ms r).length = r.length
  | true :: ms, x :: xs => by simp [onLog, onLog_length f ms xs]
  | false :: ms, x :: xs => by simp [onLog, onLog_length f ms xs]
  | [], _ => by simp [onLog]
  | true :: _, [] => by simp [onLog]
  | false :: _, [] => by simp [onLog]

theorem hypotheses_length {g : Goodness σ β} (hr : g.Ready) (cov : Bool) (s : σ) {result : Row}
    (hl : result.length = g.fit.length) :
    (g.hypotheses cov s result).1.length = g.numSamples ∧
      ∀ h ∈ (g.hypotheses cov s result).1, h.length = g.fit.length := by
  unfold Goodness.hypotheses
  cases cov with
  | true =>
    simp only [if_true]
    refine ⟨by rw [List.length_map]; exact (hr.mvn _ _ _).1, ?_⟩
    intro h hh
    rw [List.mem_map] at hh
    obtain ⟨h0, h1, rfl⟩ := hh
    rw [onLog_length]
    exact (hr.mvn _ _ _).2 _ h1
  | false =>
    simp only [Bool.false_eq_true, if_false, List.length_replicate, true_and]
    intro h hh
    rw [(List.mem_replicate.1 hh).2, hl]

end Verif.Quality
