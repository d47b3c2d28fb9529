import Verif.Cascade.Lemmas
import Mathlib.Tactic.Linarith
import Mathlib.Tactic.Ring
import Mathlib.Tactic.FieldSimp
import Mathlib.Tactic.Positivity

/-! # C33 and C34: the predictions of a single source -/

namespace Verif.Cascade
open MeasureTheory Verif.Dist Verif.Py Filter Topology

/-- The settings fit together: at least two components, and a network with as many channels as
parameters. -/
def Config.Fits (cfg : Config) : Prop :=
  2 ≤ cfg.nModels ∧ cfg.nFilters = 4 * cfg.nModels + nCharge cfg.method

/-! ## C33 -/

/-- C33: the tensors exist exactly for settings that fit together (for windows that do not
overlap). -/
theorem C33_succeeds (cfg : Config) (d : Dom) (hw : ∀ ws ∈ d.windows, DisjointWindows ws) :
    (cfg.Fits → ∃ T, getTensors cfg d = .ok T) ∧
      (¬ cfg.Fits → getTensors cfg d = .error .valueError) := by
  constructor
  · rintro ⟨hn, hf⟩
    unfold getTensors
    rw [if_neg (by omega), if_neg (by omega)]
    cases h : d.windows with
    | none => exact ⟨_, rfl⟩
    | some ws =>
      simp only
      rw [if_pos (assertions_hold (decode_admissible (by omega) _) (by omega) (hw ws (by simp [h])))]
      exact ⟨_, rfl⟩
  · intro h
    unfold getTensors
    by_cases hf : cfg.nModels * 4 + nCharge cfg.method ≠ cfg.nFilters
    · rw [if_pos hf]
    · have : ¬ 2 ≤ cfg.nModels := fun hn => h ⟨hn, by omega⟩
      rw [if_neg hf, if_pos (by omega)]

theorem getTensors_ok {cfg : Config} {d : Dom} {T : Tensors} (h : getTensors cfg d = .ok T) :
    cfg.Fits ∧ T.latent = decodeLatent cfg d.out ∧
      (∃ e, T.charge = domCharge cfg d e ∧ T.exclusionSum = e ∧ ∀ x ∈ e, 0 ≤ x ∧ x ≤ 1) ∧
      T.stats = chargeStats cfg.method d.out d.chargeTrue T.charge := by
  unfold getTensors at h
  split_ifs at h with h1 h2
  have hf : cfg.Fits := ⟨by omega, by omega⟩
  refine ⟨hf, ?_⟩
  cases hw : d.windows with
  | none =>
    rw [hw] at h
    simp only [Except.ok.injEq] at h
    subst h
    exact ⟨rfl, ⟨none, rfl, rfl, by simp⟩, rfl⟩
  | some ws =>
    rw [hw] at h
    simp only at h
    split_ifs at h with h3
    simp only [Except.ok.injEq] at h
    subst h
    refine ⟨rfl, ⟨_, rfl, rfl, ?_⟩, rfl⟩
    intro x hx
    simp only [tensorsWith, Option.mem_def, Option.some.injEq] at hx
    subst hx
    unfold clip
    constructor
    · exact le_max_left _ _
    · exact max_le zero_le_one (min_le_left _ _)

/-- C33 (mixture): whatever the network returns, with or without time exclusions, the weights of
the mixture are positive and sum to one, and widths and asymmetries are larger than 0.001. -/
theorem C33_mixture (cfg : Config) (d : Dom) (T : Tensors) (h : getTensors cfg d = .ok T) :
    Admissible cfg.nModels T.latent := by
  obtain ⟨hf, hl, -, -⟩ := getTensors_ok h
  rw [hl]
  exact decode_admissible (by have := hf.1; omega) _

/-- C33 (mixture): the network can reach all admissible parameters of the mixture (with widths
and asymmetries above 0.001), whatever it says about the charge. In particular no channel is used
twice. Without sorting. -/
theorem C33_reachable (cfg : Config) (hn : 1 ≤ cfg.nModels) (hs : cfg.sortMu = false)
    (charge : ℕ → ℝ) (l : Latent) (hl : Admissible cfg.nModels l) :
    ∃ out : ℕ → ℝ, (∀ i < nCharge cfg.method, out i = charge i) ∧
      ∀ k < cfg.nModels,
        (decodeLatent cfg out).mu k = l.mu k ∧ (decodeLatent cfg out).sigma k = l.sigma k ∧
        (decodeLatent cfg out).r k = l.r k ∧ (decodeLatent cfg out).scale k = l.scale k := by
  set n := cfg.nModels with hnn
  set c := nCharge cfg.method with hc
  set C := 1 + ∑ j ∈ Finset.range n, 1 / l.scale j with hC
  have hCw : ∀ k < n, 1 ≤ C * l.scale k := by
    intro k hk
    have hw := hl.weight k hk
    have h1 : 1 / l.scale k ≤ ∑ j ∈ Finset.range n, 1 / l.scale j :=
      Finset.single_le_sum (f := fun j => 1 / l.scale j)
        (fun j hj => (one_div_pos.2 (hl.weight j (Finset.mem_range.1 hj))).le)
        (Finset.mem_range.2 hk)
    have h2 : 1 / l.scale k * l.scale k = 1 := by field_simp
    nlinarith
  have hCpos : 0 < C := by
    have h1 := hCw 0 (by omega)
    have h2 := hl.weight 0 (by omega)
    by_contra hneg
    nlinarith
  have ex : ∀ k, ∃ x : ℝ × ℝ × ℝ, k < n →
      elu (2 + 1 * x.1) + 1.001 = l.sigma k ∧ elu (1 + 1 * x.2.1) + 1.001 = l.r k ∧
      elu (1 + 1 * x.2.2) + 1.00001 = C * l.scale k := by
    intro k
    by_cases hk : k < n
    · have h1 := hl.width k hk
      have h2 := hl.asymmetry k hk
      have h3 := hCw k hk
      obtain ⟨a, ha⟩ := elu_surj (y := l.sigma k - 1.001) (by norm_num at *; linarith)
      obtain ⟨b, hb⟩ := elu_surj (y := l.r k - 1.001) (by norm_num at *; linarith)
      obtain ⟨e, he⟩ := elu_surj (y := C * l.scale k - 1.00001) (by norm_num at *; linarith)
      refine ⟨(a - 2, b - 1, e - 1), fun _ => ?_⟩
      refine ⟨?_, ?_, ?_⟩
      · rw [show 2 + 1 * (a - 2, b - 1, e - 1).1 = a by simp, ha]; ring
      · rw [show 1 + 1 * (a - 2, b - 1, e - 1).2.1 = b by simp, hb]; ring
      · rw [show 1 + 1 * (a - 2, b - 1, e - 1).2.2 = e by simp, he]; ring
    · exact ⟨(0, 0, 0), fun h => absurd h hk⟩
  choose x hx using ex
  let out : ℕ → ℝ := fun i =>
    if i < c then charge i
    else if i < c + n then l.mu (i - c) - 1
    else if i < c + 2 * n then (x (i - c - n)).1
    else if i < c + 3 * n then (x (i - c - 2 * n)).2.1
    else (x (i - c - 3 * n)).2.2
  have o0 : ∀ k < n, out (c + 0 * n + k) = l.mu k - 1 := by
    intro k hk
    simp only [out]
    rw [if_neg (by omega), if_pos (by omega)]
    congr 2; omega
  have o1 : ∀ k < n, out (c + 1 * n + k) = (x k).1 := by
    intro k hk
    simp only [out]
    rw [if_neg (by omega), if_neg (by omega), if_pos (by omega)]
    congr 2; omega
  have o2 : ∀ k < n, out (c + 2 * n + k) = (x k).2.1 := by
    intro k hk
    simp only [out]
    rw [if_neg (by omega), if_neg (by omega), if_neg (by omega), if_pos (by omega)]
    congr 3; omega
  have o3 : ∀ k < n, out (c + 3 * n + k) = (x k).2.2 := by
    intro k hk
    simp only [out]
    rw [if_neg (by omega), if_neg (by omega), if_neg (by omega), if_neg (by omega)]
    congr 3; omega
  refine ⟨out, fun i hi => if_pos hi, ?_⟩
  intro k hk
  have htotal : ∑ j ∈ Finset.range n, rawScale (fun k => out (c + 3 * n + k)) j = C := by
    have : ∑ j ∈ Finset.range n, rawScale (fun k => out (c + 3 * n + k)) j =
        ∑ j ∈ Finset.range n, C * l.scale j := by
      apply Finset.sum_congr rfl
      intro j hj
      have hj := Finset.mem_range.1 hj
      simp only [rawScale, o3 j hj]
      exact (hx j hj).2.2
    rw [this, ← Finset.mul_sum, hl.total, mul_one]
  refine ⟨?_, ?_, ?_, ?_⟩
  · simp only [decodeLatent, hs, Bool.false_eq_true, if_false, ← hnn, ← hc, o0 k hk]
    unfold tScale
    norm_num
  · simp only [decodeLatent, ← hnn, ← hc, o1 k hk]
    exact (hx k hk).1
  · simp only [decodeLatent, ← hnn, ← hc, o2 k hk]
    exact (hx k hk).2.1
  · simp only [decodeLatent, ← hnn, ← hc, htotal]
    simp only [rawScale, o3 k hk]
    rw [(hx k hk).2.2]
    field_simp

/-- C33: all admissible parameters of the mixture, charges above `1e-7`, and parameters of the
charge distribution can be reached together. In particular no channel serves two parameters. -/
theorem C33_reachable_charge (cfg : Config) (hf : cfg.Fits) (hs : cfg.sortMu = false) (d : Dom)
    (hw : d.windows = none) (he : d.energy = 10000) (hr : d.relEff = 1) (hd : d.domEff = 1)
    (l : Latent) (hl : Admissible cfg.nModels l) (q : ℝ) (hq : 1e-7 < q)
    (alpha : ℝ) (ha : 1e-6 < alpha) (width asym : ℝ) (hwi : 0.9 < width) (has : 0.9 < asym) :
    ∃ out T, getTensors cfg { d with out := out } = .ok T ∧ T.charge = q ∧
      (∀ k < cfg.nModels, T.latent.mu k = l.mu k ∧ T.latent.sigma k = l.sigma k ∧
        T.latent.r k = l.r k ∧ T.latent.scale k = l.scale k) ∧
      (cfg.method = .negativeBinomial → T.stats.alpha = some alpha) ∧
      (cfg.method = .asymmetricGaussian →
        T.stats.shape = some (Real.sqrt (max q 0.0001) * width, asym)) := by
  obtain ⟨a, ha'⟩ := elu_surj (y := alpha - 1.000001) (by norm_num at *; linarith)
  obtain ⟨b, hb⟩ := elu_surj (y := width - 1.9) (by norm_num at *; linarith)
  obtain ⟨c, hc⟩ := elu_surj (y := asym - 1.9) (by norm_num at *; linarith)
  obtain ⟨out, ho, hlat⟩ := C33_reachable cfg (by have := hf.1; omega) hs
    (fun i => if i = 0 then Real.log (q - 1e-7)
      else if i = 1 then (if cfg.method = .negativeBinomial then a + 5 else (b + 2) * 10)
      else (c + 2) * 100) l hl
  have h0 : out 0 = Real.log (q - 1e-7) := by
    rw [ho 0 (by cases cfg.method <;> decide)]; rfl
  have hcharge : domCharge cfg { d with out := out } none = q := by
    simp only [domCharge, he, hr, hd, h0, Real.exp_log (sub_pos.2 hq)]
    split_ifs <;> ring
  have hg : getTensors cfg { d with out := out } =
      .ok (tensorsWithout cfg { d with out := out }) := by
    unfold getTensors
    rw [if_neg (by have := hf.2; omega), if_neg (by have := hf.1; omega)]
    simp only [hw]
  refine ⟨out, _, hg, hcharge, hlat, ?_, ?_⟩
  · intro hm
    have h1 : out 1 = a + 5 := by rw [ho 1 (by rw [hm]; decide)]; simp [hm]
    simp only [tensorsWithout, chargeStats, hm, h1]
    rw [show a + 5 - 5 = a by ring, ha']
    congr 1; ring
  · intro hm
    have h1 : out 1 = (b + 2) * 10 := by rw [ho 1 (by rw [hm]; decide)]; simp [hm]
    have h2 : out 2 = (c + 2) * 100 := by rw [ho 2 (by rw [hm]; decide)]; simp
    have hcharge' := hcharge
    simp only [tensorsWithout]
    rw [hcharge]
    simp only [chargeStats, hm, h1, h2]
    rw [show 0.1 * ((b + 2) * 10) - 2 = b by ring, show 0.01 * ((c + 2) * 100) - 2 = c by ring,
      hb, hc]
    congr 2 <;> ring

/-- C33 (mixture): with sorting, the means are those without sorting in ascending order, and
nothing else changes. -/
theorem C33_sorted (cfg : Config) (out : ℕ → ℝ) :
    let l := decodeLatent { cfg with sortMu := false } out
    let l' := decodeLatent { cfg with sortMu := true } out
    ((List.range cfg.nModels).map l'.mu).Perm ((List.range cfg.nModels).map l.mu) ∧
      (∀ i j, i ≤ j → j < cfg.nModels → l'.mu i ≤ l'.mu j) ∧
      l'.sigma = l.sigma ∧ l'.r = l.r ∧ l'.scale = l.scale := by
  intro l l'
  set s := sortBy (fun a b => decide (a ≤ b)) ((List.range cfg.nModels).map l.mu) with hs
  have hlen : s.length = cfg.nModels := by
    rw [(perm_sortBy _ _).length_eq]; simp
  have hmu : l'.mu = fun k => s.getD k 0 := by simp [l', l, hs, decodeLatent]
  refine ⟨?_, ?_, rfl, rfl, rfl⟩
  · have : (List.range cfg.nModels).map l'.mu = s := by
      apply List.ext_getElem
      · simp [hlen]
      · intro i h1 h2
        simp [hmu, List.getD_eq_getElem?_getD, h2]
    rw [this]
    exact perm_sortBy _ _
  · intro i j hij hj
    rcases Nat.lt_or_eq_of_le hij with hlt | rfl
    · have hp := pairwise_sortBy (fun a b : ℝ => decide (a ≤ b))
        (fun a b c h1 h2 => by simp at *; exact h1.trans h2)
        (fun a b => by simpa using le_total a b) ((List.range cfg.nModels).map l.mu)
      rw [← hs, List.pairwise_iff_getElem] at hp
      have := hp i j (by omega) (by omega) hlt
      simp only [decide_eq_true_eq] at this
      rw [hmu]
      simpa [List.getD_eq_getElem?_getD, show i < s.length by omega, show j < s.length by omega]
        using this
    · exact le_rfl

theorem domCharge_pos {cfg : Config} {d : Dom} (he : 0 ≤ d.energy) (hr : 0 ≤ d.relEff)
    (hd : 0 ≤ d.domEff) {e : Option ℝ} (h : ∀ x ∈ e, x ≤ 1) : 1e-7 ≤ domCharge cfg d e := by
  simp only [domCharge]
  have h0 := Real.exp_pos (d.out 0)
  have h1 : 0 ≤ (if cfg.scaleCharge then Real.exp (d.out 0) * (d.energy / 10000)
      else Real.exp (d.out 0)) := by split_ifs <;> positivity
  generalize (if cfg.scaleCharge then Real.exp (d.out 0) * (d.energy / 10000)
      else Real.exp (d.out 0)) = q1 at h1
  have h2 : 0 ≤ (if cfg.scaleRelEff then q1 * d.relEff else q1) := by split_ifs <;> positivity
  generalize (if cfg.scaleRelEff then q1 * d.relEff else q1) = q2 at h2
  have h3 : 0 ≤ (if cfg.scaleDomEff then q2 * d.domEff else q2) := by split_ifs <;> positivity
  generalize (if cfg.scaleDomEff then q2 * d.domEff else q2) = q3 at h3
  cases e with
  | none => simp only; linarith
  | some x =>
    have hx := h x (by simp)
    have : 0 ≤ q3 * (1 - x + 1e-3) := mul_nonneg h3 (by norm_num; linarith)
    simp only
    linarith

/-- C33 (charge): whatever the network returns, and for energy and efficiencies that are not
negative, the predicted charge is positive; the standard deviation is the positive root of the
variance; over-dispersions are positive; and the variance is at least the mean for the Poisson
and the negative binomial method, where it is `q` and `q + alpha q²`. Missing for the full
property: the asymmetric Gaussian, where the variance is only proved to be at least 73% of the
mean, see `C33_variance_violated`. -/
theorem C33_charge_partial (cfg : Config) (d : Dom) (T : Tensors) (h : getTensors cfg d = .ok T)
    (he : 0 ≤ d.energy) (hr : 0 ≤ d.relEff) (hd : 0 ≤ d.domEff) :
    1e-7 ≤ T.charge ∧ T.stats.variance = T.stats.unc ^ 2 ∧ 0 < T.stats.unc ∧
      (cfg.method = .poisson → T.stats.variance = T.charge) ∧
      (cfg.method = .negativeBinomial → ∃ alpha, T.stats.alpha = some alpha ∧ 1e-6 < alpha ∧
        T.stats.variance = T.charge + alpha * T.charge ^ 2 ∧ T.charge ≤ T.stats.variance) ∧
      (cfg.method = .asymmetricGaussian → ∃ sigma r, T.stats.shape = some (sigma, r) ∧
        0.9 * Real.sqrt T.charge < sigma ∧ 0.9 < r ∧ 0.73 * T.charge ≤ T.stats.variance ∧
        (d.chargeTrue ≤ 5 → T.charge ≤ T.stats.variance)) := by
  obtain ⟨hf, hl, ⟨e, hq, -, hE⟩, hst⟩ := getTensors_ok h
  have hpos : 1e-7 ≤ T.charge := by
    rw [hq]; exact domCharge_pos he hr hd fun x hx => (hE x hx).2
  have hpos' : 0 < T.charge := by norm_num at hpos; linarith
  generalize T.charge = q at *
  rw [hst]
  refine ⟨hpos, ?_⟩
  cases hm : cfg.method with
  | poisson =>
    simp only [chargeStats]
    refine ⟨(Real.sq_sqrt hpos'.le).symm, Real.sqrt_pos.2 hpos', fun _ => trivial, by simp, by simp⟩
  | negativeBinomial =>
    simp only [chargeStats]
    have ha : (1e-6 : ℝ) < elu (d.out 1 - 5) + 1.000001 := by
      have := neg_one_lt_elu (d.out 1 - 5)
      norm_num
      linarith
    have ha' : 0 < elu (d.out 1 - 5) + 1.000001 := by norm_num at *; linarith
    have hv : 0 < q + (elu (d.out 1 - 5) + 1.000001) * q ^ 2 := by positivity
    refine ⟨(Real.sq_sqrt hv.le).symm, Real.sqrt_pos.2 hv, by simp, fun _ => ⟨_, rfl, ha, rfl, ?_⟩,
      by simp⟩
    have : 0 ≤ (elu (d.out 1 - 5) + 1.000001) * q ^ 2 := by positivity
    linarith
  | asymmetricGaussian =>
    simp only [chargeStats]
    have h1 := neg_one_lt_elu (0.1 * d.out 1 - 2)
    have h2 := neg_one_lt_elu (0.01 * d.out 2 - 2)
    set s := elu (0.1 * d.out 1 - 2) + 1.9 with hs
    set r := elu (0.01 * d.out 2 - 2) + 1.9 with hr'
    have hs9 : 0.9 < s := by rw [hs]; norm_num; linarith
    have hr9 : 0.9 < r := by rw [hr']; norm_num; linarith
    have hs0 : 0 < s := by norm_num at hs9; linarith
    have hr0 : 0 < r := by norm_num at hr9; linarith
    have hm0 : 0 < max q 0.0001 := lt_max_of_lt_left hpos'
    have hsq : Real.sqrt q ≤ Real.sqrt (max q 0.0001) := Real.sqrt_le_sqrt (le_max_left _ _)
    have hsq0 := Real.sqrt_pos.2 hpos'
    refine ⟨trivial, ?_, by simp, by simp, fun _ => ⟨_, _, rfl, ?_, hr9, ?_, ?_⟩⟩
    · split_ifs
      · have := Real.sqrt_pos.2 hm0
        positivity
      · exact Real.sqrt_pos.2 (by positivity)
    · nlinarith
    · split_ifs
      · rw [mul_pow, mul_pow, Real.sq_sqrt hm0.le]
        have e1 : 0.81 ≤ s ^ 2 := by norm_num at *; nlinarith
        have e2 : 0.9025 ≤ ((1 + r) / 2) ^ 2 := by norm_num at *; nlinarith
        have e3 : 0.73 ≤ s ^ 2 * ((1 + r) / 2) ^ 2 := by norm_num at *; nlinarith
        have e4 : q ≤ max q 0.0001 := le_max_left _ _
        calc 0.73 * q ≤ 0.73 * max q 0.0001 := by linarith
          _ ≤ (s ^ 2 * ((1 + r) / 2) ^ 2) * max q 0.0001 := by nlinarith
          _ = _ := by ring
      · rw [Real.sq_sqrt (by positivity)]
        norm_num
        linarith
    · intro h5
      rw [if_neg (by linarith), Real.sq_sqrt (by positivity)]
      norm_num

/-- C33 is false of the code for the asymmetric Gaussian: whatever the predicted charge from
0.0001, there are network outputs for which the variance is below the mean (for measured charges
above 5). -/
theorem C33_variance_violated (cfg : Config) (hf : cfg.Fits)
    (hm : cfg.method = .asymmetricGaussian) (d : Dom) (hw : d.windows = none)
    (ht : 5 < d.chargeTrue) (hq : 1e-4 ≤ domCharge cfg d none) :
    ∃ out T, out 0 = d.out 0 ∧ getTensors cfg { d with out := out } = .ok T ∧
      T.charge = domCharge cfg d none ∧ T.stats.variance < T.charge := by
  set d' : Dom := { d with out := fun i => if i = 0 then d.out 0 else -1000 } with hd'
  have hq' : domCharge cfg d' none = domCharge cfg d none := rfl
  refine ⟨fun i => if i = 0 then d.out 0 else -1000, tensorsWithout cfg d', rfl, ?_, hq', ?_⟩
  · unfold getTensors
    rw [if_neg (by have := hf.2; omega), if_neg (by have := hf.1; omega)]
    simp only [hw]
    rfl
  · show (chargeStats cfg.method d'.out d'.chargeTrue (domCharge cfg d' none)).variance <
      domCharge cfg d' none
    rw [hq', hm]
    generalize domCharge cfg d none = q at *
    simp only [chargeStats, hd', if_neg (by norm_num : (1 : ℕ) ≠ 0),
      if_neg (by norm_num : (2 : ℕ) ≠ 0), if_pos ht]
    have hexp : ∀ x : ℝ, x ≤ -9 → elu x + 1.9 ≤ 1 ∧ 0 < elu x + 1.9 := by
      intro x hx
      have h1 : Real.exp x ≤ 0.1 := by
        have h2 : (10 : ℝ) ≤ Real.exp 9 := by
          have := Real.add_one_le_exp (9 : ℝ); linarith
        have h3 : Real.exp x * Real.exp 9 ≤ 1 := by
          rw [← Real.exp_add]; exact Real.exp_le_one_iff.2 (by linarith)
        have h4 := Real.exp_pos x
        norm_num
        nlinarith
      have h4 := Real.exp_pos x
      unfold elu
      rw [if_neg (by linarith)]
      norm_num at *
      constructor <;> linarith
    have h1 : elu (0.1 * -1000 - 2) + 1.9 < 1 := by
      have h2 : elu (0.1 * -1000 - 2) = Real.exp (0.1 * -1000 - 2) - 1 := by
        unfold elu; rw [if_neg (by norm_num)]
      have h3 : Real.exp (0.1 * -1000 - 2) < 0.1 := by
        have h2 : (100 : ℝ) ≤ Real.exp 99 := by
          have := Real.add_one_le_exp (99 : ℝ); linarith
        have h3 : Real.exp (0.1 * -1000 - 2) * Real.exp 99 ≤ 1 := by
          rw [← Real.exp_add]; exact Real.exp_le_one_iff.2 (by norm_num)
        have h4 := Real.exp_pos (0.1 * -1000 - 2)
        norm_num
        nlinarith
      rw [h2]
      norm_num at *
      linarith
    obtain ⟨-, h2⟩ := hexp (0.1 * -1000 - 2) (by norm_num)
    obtain ⟨h3, h4⟩ := hexp (0.01 * -1000 - 2) (by norm_num)
    rw [max_eq_left (by norm_num at *; linarith), mul_pow, mul_pow,
      Real.sq_sqrt (by norm_num at *; linarith)]
    set s := elu (0.1 * -1000 - 2) + 1.9
    set r := elu (0.01 * -1000 - 2) + 1.9
    have hq0 : 0 < q := by norm_num at *; linarith
    have e1 : s ^ 2 < 1 := by nlinarith
    have e2 : ((1 + r) / 2) ^ 2 ≤ 1 := by nlinarith
    have e3 : s ^ 2 * ((1 + r) / 2) ^ 2 < 1 := by
      nlinarith [sq_nonneg s, sq_nonneg ((1 + r) / 2)]
    nlinarith

/-- C33 (charge quantiles): the density of `ChargeQuantileCascadeModel` has admissible parameters
as well, and integrates to one per microsecond. -/
theorem C33_quantiles (n filters : ℕ) (out : ℕ → ℝ) (time light : ℝ) :
    (n * 4 = filters → 1 ≤ n → ∃ l pdf, quantileTensors n filters out time light = .ok (l, pdf) ∧
      Admissible n l ∧ ∀ t, pdf t = 1000 * mixture n l time t) ∧
    (n * 4 ≠ filters ∨ n = 0 → quantileTensors n filters out time light = .error .valueError) := by
  constructor
  · intro hf hn
    unfold quantileTensors
    rw [if_neg (by omega), if_neg (by omega)]
    refine ⟨_, _, rfl, ?_, ?_⟩
    · constructor
      · exact fun k _ => div_pos (rawScale_pos _ k) (rawScale_sum_pos hn _)
      · exact weights_sum hn _
      · intro k _
        have := neg_one_lt_elu (0.3 + 0.1 * out (1 * n + k))
        simp only
        linarith
      · intro k _
        have := neg_one_lt_elu (0.001 * out (2 * n + k))
        simp only
        linarith
    · intro t
      rw [pulsePdf_eq]
      unfold mixture
      rw [Finset.mul_sum]
      apply Finset.sum_congr rfl
      intro k _
      simp only [Option.map_none, pulseScale]
      ring
  · intro h
    unfold quantileTensors
    by_cases hf : n * 4 = filters
    · rw [if_neg (by omega), if_pos (by omega)]
    · rw [if_pos hf]

/-- C33 (charge quantiles): the densities at two DOMs with the same output of the network differ by the
difference of the times of flight of unscattered light. -/
theorem C33_quantiles_shift (n filters : ℕ) (out : ℕ → ℝ) (time light delta : ℝ) (l l' : Latent)
    (pdf pdf' : ℝ → ℝ) (h : quantileTensors n filters out time light = .ok (l, pdf))
    (h' : quantileTensors n filters out time (light + delta) = .ok (l', pdf')) (t : ℝ) :
    pdf' (t + delta) = pdf t := by
  unfold quantileTensors at h h'
  split_ifs at h h'
  simp only [Except.ok.injEq, Prod.mk.injEq] at h h'
  rw [← h.2, ← h'.2]
  unfold pulsePdf
  apply Finset.sum_congr rfl
  intro k _
  have key : ∀ x mu x' mu' s r : ℝ, x - mu = x' - mu' → asymGauss x mu s r = asymGauss x' mu' s r := by
    intro x mu x' mu' s r hx
    unfold asymGauss
    have hlt : (x < mu) = (x' < mu') := by
      rw [← sub_neg, hx, sub_neg]
    simp only [hx, hlt]
  have e : (t + delta - time) * tScale - ((light + delta) * tScale + 0.1 + 0.1 * out (0 * n + k)) =
      (t - time) * tScale - (light * tScale + 0.1 + 0.1 * out (0 * n + k)) := by ring
  rw [key _ _ _ _ _ _ e]

/-- The density is there for eight filters and two components. -/
example (out : ℕ → ℝ) (t : ℝ) : ∃ l l' pdf pdf', quantileTensors 2 8 out 10 50 = .ok (l, pdf) ∧
    quantileTensors 2 8 out 10 80 = .ok (l', pdf') ∧ pdf' (t + 30) = pdf t := by
  obtain ⟨l, pdf, h, -⟩ := (C33_quantiles 2 8 out 10 50).1 rfl (by norm_num)
  obtain ⟨l', pdf', h', -⟩ := (C33_quantiles 2 8 out 10 80).1 rfl (by norm_num)
  refine ⟨l, l', pdf, pdf', h, h', C33_quantiles_shift 2 8 out 10 50 30 l l' pdf pdf' h ?_ t⟩
  rw [← h']; norm_num

/-! ## C34 -/

/-- C34: for every set of disjoint excluded windows, all assertions hold, the excluded fraction of
each component and of the mixture is the probability of the excluded times, in `[0, 1]`; the
expected charge (up to the constant `1e-7`) is scaled by the remaining fraction plus 0.001; and
the density without exclusions is the density of the mixture per microsecond, with exclusions
each component is divided by its own remaining fraction plus 0.001. Missing for the full property: see
`C34_charge_violated`, `C34_mass_violated`, `C34_conditional_violated`, `C34_unit_violated`. -/
theorem C34_exclusion_partial (cfg : Config) (hf : cfg.Fits) (d : Dom) (ws : List (ℝ × ℝ))
    (hw : d.windows = some ws) (hd : DisjointWindows ws) :
    ∃ T T0 ex,
      getTensors cfg d = .ok T ∧ getTensors cfg { d with windows := none } = .ok T0 ∧
      T.latent = T0.latent ∧ T.exclusion = some ex ∧ T0.exclusion = none ∧
      (∀ k < cfg.nModels, ex k = ∫ t in excluded ws, component T.latent d.time k t) ∧
      (∀ k < cfg.nModels, 0 ≤ ex k ∧ ex k ≤ 1) ∧
      (∃ s, T.exclusionSum = some s ∧ s = ∫ t in excluded ws, mixture cfg.nModels T.latent d.time t ∧
        0 ≤ s ∧ s ≤ 1 ∧ T.charge - 1e-7 = (T0.charge - 1e-7) * (1 - s + 0.001)) ∧
      (∀ t, T0.pulsePdf t = 1000 * mixture cfg.nModels T.latent d.time t) ∧
      ∀ t, T.pulsePdf t = ∑ k ∈ Finset.range cfg.nModels,
        T.latent.scale k * (1000 * component T.latent d.time k t) / (1 - ex k + 0.001) := by
  have hn : 1 ≤ cfg.nModels := by have := hf.1; omega
  have ha := decode_admissible (cfg := cfg) hn d.out
  have hg : getTensors cfg d = .ok (tensorsWith cfg d ws) := by
    unfold getTensors
    rw [if_neg (by have := hf.2; omega), if_neg (by have := hf.1; omega), hw]
    simp only
    rw [if_pos (assertions_hold ha hn hd)]
  have hg0 : getTensors cfg { d with windows := none } =
      .ok (tensorsWithout cfg { d with windows := none }) := by
    unfold getTensors
    rw [if_neg (by have := hf.2; omega), if_neg (by have := hf.1; omega)]
  refine ⟨_, _, _, hg, hg0, rfl, rfl, rfl, ?_, ?_, ⟨_, rfl, ?_, ?_, ?_, ?_⟩, ?_, ?_⟩
  · intro k hk
    exact exclusion_eq ha hk hd
  · intro k hk
    rw [exclusion_eq ha hk hd]
    exact ⟨mass_nonneg (ha.density hk) _, mass_le_one (ha.density hk) _⟩
  · rw [rawExclusionSum_eq ha hd]
    exact clip_id (mass_nonneg (mixture_density ha hn) _) (mass_le_one (mixture_density ha hn) _)
  · exact le_max_left _ _
  · exact max_le zero_le_one (min_le_left _ _)
  · simp only [tensorsWith, tensorsWithout, domCharge]
    ring
  · intro t
    show pulsePdf _ _ _ none t = _
    rw [pulsePdf_eq]
    unfold mixture
    rw [Finset.mul_sum]
    apply Finset.sum_congr rfl
    intro k _
    simp only [Option.map_none, pulseScale]
    show 1000 * component (decodeLatent cfg d.out) d.time k t * (decodeLatent cfg d.out).scale k =
      1000 * ((decodeLatent cfg d.out).scale k * component (decodeLatent cfg d.out) d.time k t)
    ring
  · intro t
    show pulsePdf _ _ _ (some _) t = _
    rw [pulsePdf_eq]
    apply Finset.sum_congr rfl
    intro k _
    simp only [Option.map_some, pulseScale, tensorsWith]
    norm_num
    ring

/-- C34: when the exclusions take the same fraction from each component, the density of the
remaining pulses is the original density, divided by the remaining fraction plus 0.001. -/
theorem C34_conditional_partial (cfg : Config) (hf : cfg.Fits) (d : Dom) (ws : List (ℝ × ℝ))
    (hw : d.windows = some ws) (hd : DisjointWindows ws) (s : ℝ)
    (heq : ∀ k < cfg.nModels,
      ∫ t in excluded ws, component (decodeLatent cfg d.out) d.time k t = s) :
    ∃ T T0, getTensors cfg d = .ok T ∧ getTensors cfg { d with windows := none } = .ok T0 ∧
      ∀ t, T.pulsePdf t = T0.pulsePdf t / (1 - s + 0.001) := by
  obtain ⟨T, T0, ex, h1, h2, -, -, -, hex, -, -, h3, h4⟩ :=
    C34_exclusion_partial cfg hf d ws hw hd
  refine ⟨T, T0, h1, h2, ?_⟩
  have hl := (getTensors_ok h1).2.1
  intro t
  rw [h3, h4]
  unfold mixture
  rw [Finset.mul_sum, Finset.sum_div]
  apply Finset.sum_congr rfl
  intro k hk
  rw [hex k (Finset.mem_range.1 hk), hl, heq k (Finset.mem_range.1 hk)]
  ring

/-- C34 is false of the code for the charge: where windows exist, but none of them at this DOM,
the charge is scaled by 1.001. -/
theorem C34_charge_violated (cfg : Config) (hf : cfg.Fits) (d : Dom) (hw : d.windows = some []) :
    ∃ T T0, getTensors cfg d = .ok T ∧ getTensors cfg { d with windows := none } = .ok T0 ∧
      T.charge - 1e-7 = 1.001 * (T0.charge - 1e-7) := by
  obtain ⟨T, T0, ex, h1, h2, -, -, -, -, -, ⟨s, -, hs, -, -, hq⟩, -, -⟩ :=
    C34_exclusion_partial cfg hf d [] hw ⟨by simp, by simp⟩
  refine ⟨T, T0, h1, h2, ?_⟩
  rw [hq, hs]
  simp [excluded]
  norm_num
  ring

/-- C34 (the total): the density of the remaining pulses, per microsecond, integrates over the
remaining times to the weighted mean of `(1 - e) / (1 - e + 0.001)` with the excluded fractions
`e` of the components, which is always below one. -/
theorem C34_mass_violated (cfg : Config) (hf : cfg.Fits) (d : Dom) (ws : List (ℝ × ℝ))
    (hw : d.windows = some ws) (hd : DisjointWindows ws) :
    ∃ T ex, getTensors cfg d = .ok T ∧ T.exclusion = some ex ∧
      (∫ t in (excluded ws)ᶜ, T.pulsePdf t) / 1000 =
        ∑ k ∈ Finset.range cfg.nModels, T.latent.scale k * ((1 - ex k) / (1 - ex k + 0.001)) ∧
      (∫ t in (excluded ws)ᶜ, T.pulsePdf t) / 1000 ≤ 1 / 1.001 := by
  obtain ⟨T, T0, ex, h1, -, -, hT, -, hex, hb, -, -, h4⟩ :=
    C34_exclusion_partial cfg hf d ws hw hd
  have ha := C33_mixture cfg d T h1
  refine ⟨T, ex, h1, hT, ?_⟩
  have hmass : (∫ t in (excluded ws)ᶜ, T.pulsePdf t) / 1000 =
      ∑ k ∈ Finset.range cfg.nModels, T.latent.scale k * ((1 - ex k) / (1 - ex k + 0.001)) := by
    have hint : ∀ k ∈ Finset.range cfg.nModels, IntegrableOn (fun t =>
        T.latent.scale k * (1000 * component T.latent d.time k t) / (1 - ex k + 0.001))
        (excluded ws)ᶜ := fun k hk =>
      ((((ha.density (Finset.mem_range.1 hk)).integrable.const_mul 1000).const_mul _).div_const
        _).integrableOn
    simp only [h4]
    rw [integral_finsetSum _ hint, Finset.sum_div]
    apply Finset.sum_congr rfl
    intro k hk
    rw [integral_div, integral_const_mul, integral_const_mul,
      mass_compl (ha.density (Finset.mem_range.1 hk)) (measurable_excluded ws),
      ← hex k (Finset.mem_range.1 hk)]
    ring
  refine ⟨hmass, ?_⟩
  rw [hmass]
  calc ∑ k ∈ Finset.range cfg.nModels, T.latent.scale k * ((1 - ex k) / (1 - ex k + 0.001))
      ≤ ∑ k ∈ Finset.range cfg.nModels, T.latent.scale k * (1 / 1.001) := by
        apply Finset.sum_le_sum
        intro k hk
        have hk := Finset.mem_range.1 hk
        apply mul_le_mul_of_nonneg_left _ (ha.weight k hk).le
        obtain ⟨h5, h6⟩ := hb k hk
        rw [div_le_div_iff₀ (by norm_num; linarith) (by norm_num)]
        norm_num
        linarith
    _ = 1 / 1.001 := by rw [← Finset.sum_mul, ha.total, one_mul]

/-- C34 is false of the code for the unit: without exclusions, the density integrates over the
times of the pulses, which are in ns, to 1000, while the density of the noise model
(`C34_noise_partial`) integrates to one. A multi source adds both. -/
theorem C34_unit_violated (cfg : Config) (d : Dom) (T : Tensors) (hw : d.windows = none)
    (h : getTensors cfg d = .ok T) : ∫ t, T.pulsePdf t = 1000 := by
  have ha := C33_mixture cfg d T h
  have hf := (getTensors_ok h).1
  have hg0 : getTensors cfg d = .ok (tensorsWithout cfg d) := by
    unfold getTensors
    rw [if_neg (by have := hf.2; omega), if_neg (by have := hf.1; omega), hw]
  rw [hg0] at h
  simp only [Except.ok.injEq] at h
  have : ∀ t, T.pulsePdf t = 1000 * mixture cfg.nModels T.latent d.time t := by
    intro t
    subst h
    show pulsePdf _ _ _ none t = _
    rw [pulsePdf_eq]
    unfold mixture
    rw [Finset.mul_sum]
    apply Finset.sum_congr rfl
    intro k _
    simp only [Option.map_none, pulseScale, tensorsWithout]
    ring
  simp only [this]
  rw [integral_const_mul, (mixture_density ha (by have := hf.1; omega)).total, mul_one]

/-- Two asymmetric Gaussians of different widths are not proportional. -/
theorem gauss_ratio {mu s0 s1 r x1 x2 : ℝ} (h0 : 0 < s0) (h01 : s0 < s1) (hr : 0 < r)
    (h1 : mu < x1) (h12 : x1 < x2) :
    asymGauss x1 mu s0 r * asymGauss x2 mu s1 r ≠ asymGauss x2 mu s0 r * asymGauss x1 mu s1 r := by
  have h1' : 0 < s1 := by linarith
  rw [pdf_eq_right h1.le, pdf_eq_right h1.le, pdf_eq_right (h1.trans h12).le,
    pdf_eq_right (h1.trans h12).le]
  have n0 : 0 < 2 / (Real.sqrt (2 * Real.pi * s0 ^ 2) * (r + 1)) := by
    have : 0 < Real.sqrt (2 * Real.pi * s0 ^ 2) := Real.sqrt_pos.2 (by positivity)
    positivity
  have n1 : 0 < 2 / (Real.sqrt (2 * Real.pi * s1 ^ 2) * (r + 1)) := by
    have : 0 < Real.sqrt (2 * Real.pi * s1 ^ 2) := Real.sqrt_pos.2 (by positivity)
    positivity
  generalize 2 / (Real.sqrt (2 * Real.pi * s0 ^ 2) * (r + 1)) = N0 at n0
  generalize 2 / (Real.sqrt (2 * Real.pi * s1 ^ 2) * (r + 1)) = N1 at n1
  intro e3
  have e4 : Real.exp (-0.5 * ((x1 - mu) / (s0 * r)) ^ 2 + -0.5 * ((x2 - mu) / (s1 * r)) ^ 2) =
      Real.exp (-0.5 * ((x2 - mu) / (s0 * r)) ^ 2 + -0.5 * ((x1 - mu) / (s1 * r)) ^ 2) := by
    rw [Real.exp_add, Real.exp_add]
    apply mul_left_cancel₀ (mul_pos n0 n1).ne'
    linear_combination e3
  have e5 := Real.exp_injective e4
  have e6 : ((x2 - mu) ^ 2 - (x1 - mu) ^ 2) * ((1 / (s0 * r)) ^ 2 - (1 / (s1 * r)) ^ 2) = 0 := by
    linear_combination 2 * e5
  have e7 : 0 < (x2 - mu) ^ 2 - (x1 - mu) ^ 2 := by nlinarith
  have e8 : 1 / (s1 * r) < 1 / (s0 * r) :=
    one_div_lt_one_div_of_lt (by positivity) (mul_lt_mul_of_pos_right h01 hr)
  have e9 : 0 < 1 / (s1 * r) := by positivity
  have e10 : 0 < (1 / (s0 * r)) ^ 2 - (1 / (s1 * r)) ^ 2 := by nlinarith
  exact (mul_pos e7 e10).ne' e6

/-- C34 is false of the code for the shape: with two components that differ only in width and a
window that starts at their common mean, the density of the remaining pulses is not proportional
to the original density, so it is not the conditional density. -/
theorem C34_conditional_violated (cfg : Config) (hn : cfg.nModels = 2) (d : Dom) (b : ℝ)
    (hw : d.windows = some [(d.time + 1000 * (decodeLatent cfg d.out).mu 0, b)])
    (hb : d.time + 1000 * (decodeLatent cfg d.out).mu 0 < b)
    (hmu : (decodeLatent cfg d.out).mu 1 = (decodeLatent cfg d.out).mu 0)
    (hr : (decodeLatent cfg d.out).r 1 = (decodeLatent cfg d.out).r 0)
    (hs : (decodeLatent cfg d.out).sigma 0 < (decodeLatent cfg d.out).sigma 1)
    (T : Tensors) (h : getTensors cfg d = .ok T) :
    ¬ ∃ c, ∀ t ∉ excluded [(d.time + 1000 * (decodeLatent cfg d.out).mu 0, b)],
      T.pulsePdf t = c * mixture 2 T.latent d.time t := by
  rintro ⟨c, hc⟩
  have hf := (getTensors_ok h).1
  have hl := (getTensors_ok h).2.1
  have hdw : DisjointWindows [(d.time + 1000 * (decodeLatent cfg d.out).mu 0, b)] :=
    ⟨by simp [hb.le], by simp⟩
  obtain ⟨T', T0, ex, h1, -, -, -, -, hex, hbd, -, -, h4⟩ := C34_exclusion_partial cfg hf d _ hw hdw
  rw [h] at h1
  simp only [Except.ok.injEq] at h1
  subst h1
  have ha := C33_mixture cfg d T h
  rw [hn] at ha hex hbd
  rw [← hl] at hc hb hmu hr hs hex
  set l := T.latent with hl'
  have s0 := ha.width 0 (by norm_num)
  have s1 := ha.width 1 (by norm_num)
  have r0 := ha.asymmetry 0 (by norm_num)
  have s0' : 0 < l.sigma 0 := by norm_num at s0; linarith
  have s1' : 0 < l.sigma 1 := by norm_num at s1; linarith
  have r0' : 0 < l.r 0 := by norm_num at r0; linarith
  have w0 := ha.weight 0 (by norm_num)
  have w1 := ha.weight 1 (by norm_num)
  set a := d.time + 1000 * l.mu 0 with haa
  -- the excluded fractions differ
  have hexw : ∀ k < 2, ex k = windowExclusion l d.time k (a, b) := by
    intro k hk
    rw [hex k hk, windowExclusion_eq ha hk hb.le]
    congr 2
    rw [excluded_cons]
    simp [excluded]
  have hfrac : ∀ k < 2, l.mu k = l.mu 0 → l.r k = l.r 0 → ex k = l.r 0 / (l.r 0 + 1) *
      erf ((b - a) / 1000 / (Real.sqrt 2 * l.r 0 * l.sigma k)) := by
    intro k hk e1 e2
    rw [hexw k hk]
    unfold windowExclusion tScale
    simp only
    rw [e1, e2, cdf_eq_right (by norm_num; linarith), cdf_eq_right (by norm_num; linarith)]
    have e3 : (a - d.time) * 0.001 - l.mu 0 = 0 := by norm_num; linarith
    have e4 : (b - d.time) * 0.001 - l.mu 0 = (b - a) / 1000 := by norm_num; linarith
    rw [e3, e4, zero_div, erf_zero]
    ring
  have hne : ex 1 < ex 0 := by
    rw [hfrac 0 (by norm_num) rfl rfl, hfrac 1 (by norm_num) hmu hr]
    apply mul_lt_mul_of_pos_left _ (by positivity)
    apply erf_strictMono
    have h2 : 0 < Real.sqrt 2 := Real.sqrt_pos.2 (by norm_num)
    apply div_lt_div_of_pos_left (by linarith) (by positivity)
    exact mul_lt_mul_of_pos_left hs (by positivity)
  -- the two components are proportional outside of the window
  set A0 := l.scale 0 * (1000 / (1 - ex 0 + 0.001) - c) with hA0
  set A1 := l.scale 1 * (1000 / (1 - ex 1 + 0.001) - c) with hA1
  have hlin : ∀ t, b < t → A0 * component l d.time 0 t + A1 * component l d.time 1 t = 0 := by
    intro t ht
    have := hc t (by simp [excluded, ht])
    rw [h4 t, hn] at this
    simp only [mixture, Finset.sum_range_succ, Finset.sum_range_zero, zero_add] at this
    rw [hA0, hA1]
    linear_combination this
  have hpos : ∀ k < 2, ∀ t, 0 < component l d.time k t := fun k hk t => (ha.density hk).pos t
  have hA : A0 = 0 ∧ A1 = 0 := by
    by_cases hz : A0 = 0
    · refine ⟨hz, ?_⟩
      have := hlin (b + 1) (by linarith)
      rw [hz, zero_mul, zero_add] at this
      exact (mul_eq_zero.1 this).resolve_right (hpos 1 (by norm_num) _).ne'
    · exfalso
      have e1 := hlin (b + 1) (by linarith)
      have e2 := hlin (b + 2) (by linarith)
      have e3 : component l d.time 0 (b + 1) * component l d.time 1 (b + 2) =
          component l d.time 0 (b + 2) * component l d.time 1 (b + 1) := by
        have : A0 * (component l d.time 0 (b + 1) * component l d.time 1 (b + 2) -
          component l d.time 0 (b + 2) * component l d.time 1 (b + 1)) = 0 := by
          linear_combination component l d.time 1 (b + 2) * e1 - component l d.time 1 (b + 1) * e2
        linarith [(mul_eq_zero.1 this).resolve_left hz]
      have hx1 : l.mu 0 < (b + 1 - d.time) / 1000 := by
        rw [lt_div_iff₀ (by norm_num)]; linarith
      have hx2 : (b + 1 - d.time) / 1000 < (b + 2 - d.time) / 1000 := by
        apply div_lt_div_of_pos_right _ (by norm_num); linarith
      apply gauss_ratio s0' hs r0' hx1 hx2
      unfold component at e3
      rw [hmu, hr] at e3
      linear_combination 1000 ^ 2 * e3
  obtain ⟨z0, z1⟩ := hA
  have c0 := (mul_eq_zero.1 z0).resolve_left w0.ne'
  have c1 := (mul_eq_zero.1 z1).resolve_left w1.ne'
  have b0 := (hbd 0 (by norm_num)).2
  have b1 := (hbd 1 (by norm_num)).2
  have : 1000 / (1 - ex 1 + 0.001) < 1000 / (1 - ex 0 + 0.001) := by
    apply div_lt_div_of_pos_left (by norm_num) (by norm_num; linarith)
    linarith
  linarith

/-- The hypotheses of `C34_conditional_violated` can be met. -/
example : ∃ (cfg : Config) (d : Dom) (b : ℝ) (T : Tensors), cfg.nModels = 2 ∧
    d.windows = some [(d.time + 1000 * (decodeLatent cfg d.out).mu 0, b)] ∧
    d.time + 1000 * (decodeLatent cfg d.out).mu 0 < b ∧
    (decodeLatent cfg d.out).mu 1 = (decodeLatent cfg d.out).mu 0 ∧
    (decodeLatent cfg d.out).r 1 = (decodeLatent cfg d.out).r 0 ∧
    (decodeLatent cfg d.out).sigma 0 < (decodeLatent cfg d.out).sigma 1 ∧
    getTensors cfg d = .ok T := by
  let cfg : Config := ⟨2, 9, .poisson, false, false, false, false⟩
  obtain ⟨out, -, ho⟩ := C33_reachable cfg (by decide) rfl (fun _ => 0)
    ⟨fun _ => 0, fun k => k + 1, fun _ => 1, fun _ => 1 / 2⟩
    ⟨by intro k _; norm_num, by simp [cfg], by
      intro k _
      have : (0 : ℝ) ≤ k := by positivity
      norm_num
      linarith, by intro k _; norm_num⟩
  have h0 := ho 0 (by decide)
  have h1 := ho 1 (by decide)
  simp only at h0 h1
  let d : Dom := ⟨out, 0, 0, 0, 0, 0, some [(0 + 1000 * (decodeLatent cfg out).mu 0, 1)]⟩
  have hdw : DisjointWindows [(0 + 1000 * (decodeLatent cfg out).mu 0, (1 : ℝ))] :=
    ⟨by simp [h0.1], by simp⟩
  obtain ⟨T, hT⟩ := (C33_succeeds cfg d (by
    intro ws hws
    simp only [d, Option.mem_def, Option.some.injEq] at hws
    subst hws
    exact hdw)).1 ⟨by decide, rfl⟩
  refine ⟨cfg, d, 1, T, rfl, rfl, ?_, ?_, ?_, ?_, hT⟩
  · show 0 + 1000 * (decodeLatent cfg out).mu 0 < 1
    rw [h0.1]; norm_num
  · exact h1.1.trans h0.1.symm
  · exact h1.2.2.1.trans h0.2.2.1.symm
  · show (decodeLatent cfg out).sigma 0 < (decodeLatent cfg out).sigma 1
    rw [h0.2.1, h1.2.1]; norm_num

/-! ## C66 -/

/-- C66: energy and efficiencies scale the expected charge (up to the constant `1e-7`) linearly,
each exactly if the settings say so, and change neither the mixture nor the excluded fractions nor
the time density; with 10 TeV, efficiencies one and no exclusions, the charge is the exponential
of the first channel of the network. -/
theorem C66_scaling (cfg : Config) (d : Dom) (T : Tensors) (h : getTensors cfg d = .ok T)
    (a b c : ℝ) :
    (∃ T', getTensors cfg { d with energy := a * d.energy, relEff := b * d.relEff,
                                   domEff := c * d.domEff } = .ok T' ∧
      T'.charge - 1e-7 = (if cfg.scaleCharge then a else 1) * (if cfg.scaleRelEff then b else 1) *
        (if cfg.scaleDomEff then c else 1) * (T.charge - 1e-7) ∧
      T'.latent = T.latent ∧ T'.exclusion = T.exclusion ∧ T'.exclusionSum = T.exclusionSum ∧
      T'.pulsePdf = T.pulsePdf) ∧
    (d.windows = none → (cfg.scaleCharge → d.energy = 10000) → (cfg.scaleRelEff → d.relEff = 1) →
      (cfg.scaleDomEff → d.domEff = 1) → T.charge - 1e-7 = Real.exp (d.out 0)) := by
  obtain ⟨hf, hl, -, -⟩ := getTensors_ok h
  have h1 : ¬ cfg.nModels * 4 + nCharge cfg.method ≠ cfg.nFilters := by have := hf.2; omega
  have h2 : ¬ cfg.nModels ≤ 1 := by have := hf.1; omega
  unfold getTensors at *
  simp only [if_neg h1, if_neg h2] at *
  cases hw : d.windows with
  | none =>
    rw [hw] at h
    simp only [Except.ok.injEq] at h
    subst h
    constructor
    · refine ⟨_, rfl, ?_, rfl, rfl, rfl, rfl⟩
      simp only [tensorsWithout, domCharge]
      split_ifs <;> ring
    · intro _ e1 e2 e3
      simp only [tensorsWithout, domCharge]
      split_ifs with s1 s2 s3 s3 s2 s3 s3 <;> simp_all
  | some ws =>
    rw [hw] at h
    simp only at h
    split_ifs at h with h3
    simp only [Except.ok.injEq] at h
    subst h
    refine ⟨?_, by simp⟩
    simp only
    rw [if_pos h3]
    refine ⟨_, rfl, ?_, rfl, rfl, rfl, rfl⟩
    simp only [tensorsWith, domCharge]
    split_ifs <;> ring

/-! ## Noise -/

/-- The uniform density on the readout window. -/
noncomputable def uniform (d : NoiseDom) (t : ℝ) : ℝ :=
  if d.start < t ∧ t ≤ d.stop then 1 / (d.stop - d.start) else 0

theorem uniform_eq (d : NoiseDom) :
    uniform d = (Set.Ioc d.start d.stop).indicator fun _ => 1 / (d.stop - d.start) := by
  funext t
  simp [uniform, Set.indicator, Set.mem_Ioc]

theorem uniform_integrable (d : NoiseDom) : Integrable (uniform d) := by
  rw [uniform_eq, integrable_indicator_iff measurableSet_Ioc]
  exact integrableOn_const (by simp)

theorem uniform_nonneg (d : NoiseDom) (h : d.start < d.stop) (t : ℝ) : 0 ≤ uniform d t := by
  unfold uniform
  have : 0 < d.stop - d.start := by linarith
  split_ifs
  · positivity
  · exact le_rfl

theorem uniform_total (d : NoiseDom) (h : d.start < d.stop) : ∫ t, uniform d t = 1 := by
  rw [uniform_eq, integral_indicator measurableSet_Ioc]
  have : 0 < d.stop - d.start := by linarith
  simp [this.le]
  field_simp

theorem uniform_window (d : NoiseDom) (h : d.start < d.stop) (w : ℝ × ℝ) (hw : w.1 ≤ w.2) :
    ∫ t in Set.Ioc w.1 w.2, uniform d t = noiseWindow d w := by
  rw [uniform_eq, setIntegral_indicator measurableSet_Ioc, Set.Ioc_inter_Ioc]
  simp only [integral_const, MeasurableSet.univ, measureReal_restrict_apply, Set.univ_inter,
    Real.volume_real_Ioc, smul_eq_mul]
  unfold noiseWindow limit
  have : max ((w.2 ⊓ d.stop) - (w.1 ⊔ d.start)) 0 =
      max d.start (min d.stop w.2) - max d.start (min d.stop w.1) := by
    have hle := h.le
    simp only [max_def, min_def]
    split_ifs <;> linarith
  rw [this]
  ring

/-- C34 (noise): for a readout window of positive length and disjoint excluded windows, all
assertions hold, the excluded fraction is the part of the readout window that is excluded, the
charge (up to `1e-7`) is scaled by the remaining fraction plus 0.001, and the density is the
uniform one divided by the same number; it integrates over the remaining times of the readout
window to `(1 - s) / (1 - s + 0.001)`, and to one without exclusions. Also the charge and the
over-dispersion are positive and the variance is above the mean (C33). -/
theorem C34_noise_partial (d : NoiseDom) (ht : d.start < d.stop) (hr : 0 ≤ d.rate)
    (hd : ∀ ws ∈ d.windows, DisjointWindows ws) :
    ∃ T T0, noiseGetTensors d = .ok T ∧ noiseGetTensors { d with windows := none } = .ok T0 ∧
      1e-7 ≤ T.charge ∧ 1e-6 < T.alpha ∧ T.variance = T.charge + T.alpha * T.charge ^ 2 ∧
      T.unc ^ 2 = T.variance ∧
      (∫ _t in Set.Ioc d.start d.stop, T0.pulsePdf) = 1 ∧
      (d.windows = none → T = T0) ∧
      ∀ ws ∈ d.windows, ∃ s, T.exclusion = some s ∧ s = ∫ t in excluded ws, uniform d t ∧
        0 ≤ s ∧ s ≤ 1 ∧ T.charge - 1e-7 = (T0.charge - 1e-7) * (1 - s + 0.001) ∧
        (∀ t, d.start < t → t ≤ d.stop → T.pulsePdf = uniform d t / (1 - s + 0.001)) ∧
        (∫ _t in Set.Ioc d.start d.stop \ excluded ws, T.pulsePdf) = (1 - s) / (1 - s + 0.001) := by
  have hL : 0 < d.stop - d.start := by linarith
  have halpha : ∀ e, 1e-6 < (noiseTensors d e).alpha := by
    intro e
    have := neg_one_lt_elu (elu d.w1 + 1.01 - 5)
    simp only [noiseTensors]
    norm_num at *
    linarith
  have hscale : 0 < elu (elu d.w0 + 1.01) + 1.01 := by
    have := neg_one_lt_elu (elu d.w0 + 1.01)
    norm_num at *
    linarith
  have hcharge : ∀ e : Option ℝ, (∀ x ∈ e, x ≤ 1) → 1e-7 ≤ (noiseTensors d e).charge := by
    intro e he
    have h1 : 0 ≤ d.rate * (d.stop - d.start) * (elu (elu d.w0 + 1.01) + 1.01) := by positivity
    cases e with
    | none => simp only [noiseTensors]; linarith
    | some x =>
      have hx := he x (by simp)
      simp only [noiseTensors]
      have : 0 ≤ d.rate * (d.stop - d.start) * (elu (elu d.w0 + 1.01) + 1.01) * (1 - x + 1e-3) :=
        mul_nonneg h1 (by norm_num; linarith)
      linarith
  have hunc : ∀ e : Option ℝ, (∀ x ∈ e, x ≤ 1) →
      (noiseTensors d e).unc ^ 2 = (noiseTensors d e).variance := by
    intro e he
    have h1 := hcharge e he
    have h2 := halpha e
    have h3 : 0 < (noiseTensors d e).charge := by norm_num at *; linarith
    have h4 : 0 < (noiseTensors d e).alpha := by norm_num at *; linarith
    have h5 : 0 ≤ (noiseTensors d e).charge +
      (noiseTensors d e).alpha * (noiseTensors d e).charge ^ 2 := by positivity
    exact Real.sq_sqrt h5
  have hone : (∫ _t in Set.Ioc d.start d.stop, (noiseTensors d none).pulsePdf) = 1 := by
    simp [noiseTensors, hL.le]
    field_simp
  cases hw : d.windows with
  | none =>
    have hg : noiseGetTensors d = .ok (noiseTensors d none) := by
      unfold noiseGetTensors; rw [hw]
    have hg' : noiseGetTensors { d with windows := none } = .ok (noiseTensors d none) := rfl
    exact ⟨_, _, hg, hg', hcharge _ (by simp), halpha _, rfl, hunc _ (by simp), hone,
      fun _ => rfl, by simp⟩
  | some ws =>
    have hdw := hd ws (by simp [hw])
    have hwin : ∀ w ∈ ws, 0 ≤ noiseWindow d w ∧ noiseWindow d w ≤ 1 := by
      intro w hmem
      rw [← uniform_window d ht w (hdw.1 w hmem)]
      refine ⟨integral_nonneg fun t => uniform_nonneg d ht t, ?_⟩
      rw [← uniform_total d ht]
      exact setIntegral_le_integral (uniform_integrable d)
        (Eventually.of_forall fun t => uniform_nonneg d ht t)
    have hraw : noiseRaw d ws = ∫ t in excluded ws, uniform d t := by
      rw [← mass_excluded (uniform_integrable d) ws hdw]
      unfold noiseRaw
      congr 1
      apply List.map_congr_left
      intro w hmem
      rw [uniform_window d ht w (hdw.1 w hmem)]
      exact clip_id (hwin w hmem).1 (hwin w hmem).2
    have h0 : 0 ≤ noiseRaw d ws := by
      rw [hraw]; exact integral_nonneg fun t => uniform_nonneg d ht t
    have h1 : noiseRaw d ws ≤ 1 := by
      rw [hraw, ← uniform_total d ht]
      exact setIntegral_le_integral (uniform_integrable d)
        (Eventually.of_forall fun t => uniform_nonneg d ht t)
    have hg : noiseGetTensors d = .ok (noiseTensors d (some (clip 0 1 (noiseRaw d ws)))) := by
      unfold noiseGetTensors
      rw [hw]
      simp only
      rw [if_pos]
      exact ⟨fun w hmem => inBounds_of (hwin w hmem).1 (hwin w hmem).2, inBounds_of h0 h1⟩
    rw [clip_id h0 h1] at hg
    have hle : ∀ x ∈ some (noiseRaw d ws), x ≤ 1 := by
      intro x hx
      simp only [Option.mem_def, Option.some.injEq] at hx
      rw [← hx]; exact h1
    have hg' : noiseGetTensors { d with windows := none } = .ok (noiseTensors d none) := rfl
    refine ⟨_, _, hg, hg', hcharge _ hle, halpha _, rfl, hunc _ hle, hone, by simp, ?_⟩
    intro ws' hws'
    simp only [Option.mem_def, Option.some.injEq] at hws'
    subst hws'
    refine ⟨_, rfl, hraw, h0, h1, ?_, ?_, ?_⟩
    · simp only [noiseTensors]
      ring
    · intro t h3 h4
      simp only [noiseTensors, uniform]
      rw [if_pos ⟨h3, h4⟩]
    · have hvol : (∫ t in Set.Ioc d.start d.stop \ excluded ws, uniform d t) =
          1 - noiseRaw d ws := by
        have e1 := integral_inter_add_sdiff (μ := volume) (s := Set.Ioc d.start d.stop)
          (measurable_excluded ws) (uniform_integrable d).integrableOn
        have e2 : ∫ t in Set.Ioc d.start d.stop, uniform d t = 1 := by
          rw [← uniform_total d ht]
          conv_rhs => rw [uniform_eq, integral_indicator measurableSet_Ioc]
          apply setIntegral_congr_fun measurableSet_Ioc
          intro t htt
          simp only [uniform]
          rw [if_pos ⟨htt.1, htt.2⟩]
        have e3 : ∫ t in Set.Ioc d.start d.stop ∩ excluded ws, uniform d t =
            ∫ t in excluded ws, uniform d t := by
          have : ∫ t in excluded ws, uniform d t =
              ∫ t in excluded ws ∩ Set.Ioc d.start d.stop, 1 / (d.stop - d.start) := by
            rw [uniform_eq, setIntegral_indicator measurableSet_Ioc]
          rw [this, Set.inter_comm]
          apply setIntegral_congr_fun ((measurable_excluded ws).inter measurableSet_Ioc)
          intro t htt
          simp only [uniform]
          rw [if_pos ⟨htt.2.1, htt.2.2⟩]
        rw [e2, e3, ← hraw] at e1
        linarith
      generalize noiseRaw d ws = s at *
      have : (∫ t in Set.Ioc d.start d.stop \ excluded ws, uniform d t / (1 - s + 0.001)) =
          (1 - s) / (1 - s + 0.001) := by rw [integral_div, hvol]
      rw [← this]
      apply setIntegral_congr_fun (measurableSet_Ioc.diff (measurable_excluded ws))
      intro t htt
      simp only [noiseTensors, uniform]
      rw [if_pos ⟨htt.1.1, htt.1.2⟩]

/-- A case: two windows that touch, the second one partly outside of the readout. -/
example : DisjointWindows [(0, 1000), (1000, 20000)] ∧ (0 : ℝ) < 10000 := by
  refine ⟨⟨?_, ?_⟩, by norm_num⟩
  · intro w hw
    simp at hw
    rcases hw with rfl | rfl <;> norm_num
  · simp

end Verif.Cascade
