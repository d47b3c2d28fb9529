import Verif.Cascade.Spec
import Verif.Dist.Props

/-! # Lemmas for C33 and C34 -/

namespace Verif.Cascade
open MeasureTheory Verif.Dist Verif.Py Filter Topology

theorem neg_one_lt_elu (x : ℝ) : -1 < elu x := by
  unfold elu
  split_ifs with h
  · linarith
  · have := Real.exp_pos x; linarith

theorem elu_surj {y : ℝ} (h : -1 < y) : ∃ x, elu x = y := by
  by_cases hy : 0 < y
  · exact ⟨y, by simp [elu, hy]⟩
  · refine ⟨Real.log (y + 1), ?_⟩
    have h1 : 0 < y + 1 := by linarith
    have h2 : Real.log (y + 1) ≤ 0 := Real.log_nonpos h1.le (by linarith)
    simp [elu, not_lt.2 h2, Real.exp_log h1]

theorem clip_id {x : ℝ} (h0 : 0 ≤ x) (h1 : x ≤ 1) : clip 0 1 x = x := by
  unfold clip
  rw [min_eq_right h1, max_eq_right h0]

theorem rawScale_pos (c : ℕ → ℝ) (k : ℕ) : 0 < rawScale c k := by
  unfold rawScale
  have := neg_one_lt_elu (1 + 1 * c k)
  linarith

theorem rawScale_sum_pos {n : ℕ} (hn : 1 ≤ n) (c : ℕ → ℝ) :
    0 < ∑ k ∈ Finset.range n, rawScale c k :=
  Finset.sum_pos (fun k _ => rawScale_pos c k) ⟨0, by simp; omega⟩

theorem weights_sum {n : ℕ} (hn : 1 ≤ n) (c : ℕ → ℝ) :
    ∑ k ∈ Finset.range n, rawScale c k / (∑ k ∈ Finset.range n, rawScale c k) = 1 := by
  rw [← Finset.sum_div]
  exact div_self (rawScale_sum_pos hn c).ne'

theorem decode_admissible {cfg : Config} (hn : 1 ≤ cfg.nModels) (out : ℕ → ℝ) :
    Admissible cfg.nModels (decodeLatent cfg out) where
  weight := fun k _ => div_pos (rawScale_pos _ k) (rawScale_sum_pos hn _)
  total := weights_sum hn _
  width := fun k _ => by
    have := neg_one_lt_elu (2 + 1 * out (nCharge cfg.method + 1 * cfg.nModels + k))
    simp only [decodeLatent]
    linarith
  asymmetry := fun k _ => by
    have := neg_one_lt_elu (1 + 1 * out (nCharge cfg.method + 2 * cfg.nModels + k))
    simp only [decodeLatent]
    linarith

section Component
variable {l : Latent} {time : ℝ} {k : ℕ}

/-- The distribution function of a component in ns. -/
noncomputable def componentCdf (l : Latent) (time : ℝ) (k : ℕ) (t : ℝ) : ℝ :=
  asymGaussCdf ((t - time) / 1000) (l.mu k) (l.sigma k) (l.r k)

theorem component_density (hs : 0 < l.sigma k) (hr : 0 < l.r k) :
    PositiveDensity (component l time k) ∧
      DistributionOf (componentCdf l time k) (component l time k) := by
  have hlin : Tendsto (fun t : ℝ => (t - time) / 1000) atTop atTop :=
    (tendsto_atTop_add_const_right _ (-time) tendsto_id).atTop_div_const (by norm_num)
  have hlin' : Tendsto (fun t : ℝ => (t - time) / 1000) atBot atBot :=
    (tendsto_atBot_add_const_right _ (-time) tendsto_id).atBot_div_const (by norm_num)
  refine density_of_distribution ?_ ?_ ?_ ?_ ?_
  · intro x
    have hin : HasDerivAt (fun t : ℝ => (t - time) / 1000) (1 / 1000) x :=
      ((hasDerivAt_id x).sub_const time).div_const _
    have h := (cdf_hasDerivAt (mu := l.mu k) hs hr ((x - time) / 1000)).comp x hin
    rw [show component l time k x = asymGauss ((x - time) / 1000) (l.mu k) (l.sigma k) (l.r k) *
      (1 / 1000) by unfold component; ring]
    exact h
  · intro x
    exact div_pos (asymGauss_pos hs hr _) (by norm_num)
  · unfold component
    exact (pdf_continuous.comp ((continuous_id.sub continuous_const).div_const _)).div_const _
  · exact (cdf_tendsto_bot hs).comp hlin'
  · exact (cdf_tendsto_top hs hr).comp hlin

theorem window_mass (hs : 0 < l.sigma k) (hr : 0 < l.r k) (w : ℝ × ℝ) (hw : w.1 ≤ w.2) :
    windowExclusion l time k w = ∫ t in Set.Ioc w.1 w.2, component l time k t := by
  obtain ⟨hd, hF⟩ := component_density (time := time) hs hr
  rw [← intervalIntegral.integral_of_le hw,
    ← intervalIntegral.integral_Iic_sub_Iic hd.integrable.integrableOn hd.integrable.integrableOn,
    ← hF.mass, ← hF.mass]
  unfold windowExclusion componentCdf tScale
  have e : ∀ x : ℝ, (x - time) * 0.001 = (x - time) / 1000 := by intro x; norm_num; ring
  rw [e, e]

end Component

theorem measurable_excluded (ws : List (ℝ × ℝ)) : MeasurableSet (excluded ws) := by
  induction ws with
  | nil => simp [excluded]
  | cons w ws ih =>
    have : excluded (w :: ws) = Set.Ioc w.1 w.2 ∪ excluded ws := by
      ext t; simp [excluded]
    rw [this]
    exact measurableSet_Ioc.union ih

theorem excluded_cons (w : ℝ × ℝ) (ws : List (ℝ × ℝ)) :
    excluded (w :: ws) = Set.Ioc w.1 w.2 ∪ excluded ws := by
  ext t; simp [excluded]

theorem disjoint_excluded {w : ℝ × ℝ} {ws : List (ℝ × ℝ)}
    (h : ∀ v ∈ ws, w.2 ≤ v.1 ∨ v.2 ≤ w.1) : Disjoint (Set.Ioc w.1 w.2) (excluded ws) := by
  rw [Set.disjoint_left]
  rintro t ⟨h1, h2⟩ ⟨v, hv, h3, h4⟩
  rcases h v hv with h | h <;> linarith

/-- The mass of the excluded times is the sum of the masses of the windows. -/
theorem mass_excluded {f : ℝ → ℝ} (hf : Integrable f) (ws : List (ℝ × ℝ))
    (hd : DisjointWindows ws) :
    (ws.map fun w => ∫ t in Set.Ioc w.1 w.2, f t).sum = ∫ t in excluded ws, f t := by
  induction ws with
  | nil => simp [excluded]
  | cons w ws ih =>
    obtain ⟨h1, h2⟩ := hd
    rw [List.pairwise_cons] at h2
    rw [List.map_cons, List.sum_cons, ih ⟨fun v hv => h1 v (by simp [hv]), h2.2⟩, excluded_cons,
      setIntegral_union (disjoint_excluded h2.1) (measurable_excluded ws) hf.integrableOn
        hf.integrableOn]

theorem mass_nonneg {f : ℝ → ℝ} (hf : PositiveDensity f) (s : Set ℝ) : 0 ≤ ∫ t in s, f t :=
  integral_nonneg fun t => (hf.pos t).le

theorem mass_le_one {f : ℝ → ℝ} (hf : PositiveDensity f) (s : Set ℝ) : ∫ t in s, f t ≤ 1 := by
  rw [← hf.total]
  exact setIntegral_le_integral hf.integrable (Eventually.of_forall fun t => (hf.pos t).le)

theorem mass_compl {f : ℝ → ℝ} (hf : PositiveDensity f) {s : Set ℝ} (hs : MeasurableSet s) :
    ∫ t in sᶜ, f t = 1 - ∫ t in s, f t := by
  have := integral_add_compl hs hf.integrable
  rw [hf.total] at this
  linarith

section Exclusion
variable {n : ℕ} {l : Latent} {time : ℝ}

theorem Admissible.density (h : Admissible n l) {k : ℕ} (hk : k < n) :
    PositiveDensity (component l time k) :=
  (component_density (by have := h.width k hk; norm_num at this; linarith)
    (by have := h.asymmetry k hk; norm_num at this; linarith)).1

theorem windowExclusion_eq (h : Admissible n l) {k : ℕ} (hk : k < n) {w : ℝ × ℝ}
    (hw : w.1 ≤ w.2) :
    windowExclusion l time k w = ∫ t in Set.Ioc w.1 w.2, component l time k t :=
  window_mass (by have := h.width k hk; norm_num at this; linarith)
    (by have := h.asymmetry k hk; norm_num at this; linarith) w hw

theorem rawExclusion_eq (h : Admissible n l) {k : ℕ} (hk : k < n) {ws : List (ℝ × ℝ)}
    (hd : DisjointWindows ws) :
    rawExclusion l time ws k = ∫ t in excluded ws, component l time k t := by
  rw [← mass_excluded (h.density hk).integrable ws hd]
  unfold rawExclusion
  congr 1
  apply List.map_congr_left
  intro w hw
  rw [windowExclusion_eq h hk (hd.1 w hw)]
  exact clip_id (mass_nonneg (h.density hk) _) (mass_le_one (h.density hk) _)

theorem exclusion_eq (h : Admissible n l) {k : ℕ} (hk : k < n) {ws : List (ℝ × ℝ)}
    (hd : DisjointWindows ws) :
    exclusion l time ws k = ∫ t in excluded ws, component l time k t := by
  unfold exclusion
  rw [rawExclusion_eq h hk hd]
  exact clip_id (mass_nonneg (h.density hk) _) (mass_le_one (h.density hk) _)

theorem mixture_density (h : Admissible n l) (hn : 1 ≤ n) :
    PositiveDensity (mixture n l time) where
  pos := fun t => Finset.sum_pos
    (fun k hk => mul_pos (h.weight k (Finset.mem_range.1 hk))
      ((h.density (Finset.mem_range.1 hk)).pos t)) ⟨0, by simp; omega⟩
  cont := by
    unfold mixture
    exact continuous_finsetSum _ fun k hk =>
      continuous_const.mul (h.density (Finset.mem_range.1 hk)).cont
  integrable := by
    unfold mixture
    exact integrable_finsetSum _ fun k hk =>
      (h.density (Finset.mem_range.1 hk)).integrable.const_mul _
  total := by
    unfold mixture
    rw [integral_finsetSum _ fun k hk =>
      (h.density (Finset.mem_range.1 hk)).integrable.const_mul _]
    rw [← h.total]
    apply Finset.sum_congr rfl
    intro k hk
    rw [integral_const_mul, (h.density (Finset.mem_range.1 hk)).total, mul_one]

theorem mixture_mass (h : Admissible n l) (s : Set ℝ) :
    ∫ t in s, mixture n l time t =
      ∑ k ∈ Finset.range n, l.scale k * ∫ t in s, component l time k t := by
  unfold mixture
  rw [integral_finsetSum _ fun k hk =>
    ((h.density (Finset.mem_range.1 hk)).integrable.const_mul _).integrableOn]
  apply Finset.sum_congr rfl
  intro k _
  rw [integral_const_mul]

theorem rawExclusionSum_eq (h : Admissible n l) {ws : List (ℝ × ℝ)} (hd : DisjointWindows ws) :
    rawExclusionSum n l time ws = ∫ t in excluded ws, mixture n l time t := by
  rw [mixture_mass h]
  unfold rawExclusionSum
  apply Finset.sum_congr rfl
  intro k hk
  rw [exclusion_eq h (Finset.mem_range.1 hk) hd, mul_comm]

theorem inBounds_of {x : ℝ} (h0 : 0 ≤ x) (h1 : x ≤ 1) : inBounds x := by
  unfold inBounds
  constructor
  · norm_num; linarith
  · norm_num; linarith

theorem assertions_hold (h : Admissible n l) (hn : 1 ≤ n) {ws : List (ℝ × ℝ)}
    (hd : DisjointWindows ws) : assertions n l time ws := by
  refine ⟨?_, ?_, ?_⟩
  · intro k hk w hw
    rw [windowExclusion_eq h hk (hd.1 w hw)]
    exact inBounds_of (mass_nonneg (h.density hk) _) (mass_le_one (h.density hk) _)
  · intro k hk
    rw [rawExclusion_eq h hk hd]
    exact inBounds_of (mass_nonneg (h.density hk) _) (mass_le_one (h.density hk) _)
  · rw [rawExclusionSum_eq h hd]
    exact inBounds_of (mass_nonneg (mixture_density h hn) _) (mass_le_one (mixture_density h hn) _)

end Exclusion

theorem pulsePdf_eq (n : ℕ) (l : Latent) (time : ℝ) (e : Option (ℕ → ℝ)) (t : ℝ) :
    pulsePdf n l time e t = ∑ k ∈ Finset.range n, 1000 * component l time k t *
      pulseScale (l.scale k) (e.map fun e => e k) := by
  unfold pulsePdf component tScale
  apply Finset.sum_congr rfl
  intro k _
  have : (t - time) * 0.001 = (t - time) / 1000 := by norm_num; ring
  rw [this, mul_div_cancel₀ _ (by norm_num : (1000 : ℝ) ≠ 0)]

end Verif.Cascade
