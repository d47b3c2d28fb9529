import Verif.Interface.Lemmas

/-!
# The reconstruction module and its minimisers: C130 and C131
-/

namespace Verif.Interface
open Verif.Py Verif.Trafo Verif.Reco Verif.Fit

/-! ## C130: the choice of the minimiser and the interface to tensorflow probability -/

/-- C130. An interface is chosen exactly by its name, in any mixture of upper and lower case; any
other name is refused with a ValueError. -/
theorem C130_choice (name : String) :
    (∀ i : Choice, interfaceOf name = .ok i ↔ name.toLower = i.title) ∧
    ((∀ i : Choice, name.toLower ≠ i.title) → interfaceOf name = .error .valueError) := by
  unfold interfaceOf
  refine ⟨fun i => ?_, fun h => ?_⟩
  · by_cases h1 : name.toLower = "scipy"
    · rw [if_pos h1, h1]; cases i <;> simp [Choice.title]
    by_cases h2 : name.toLower = "shog"
    · rw [if_neg h1, if_pos h2, h2]; cases i <;> simp [Choice.title]
    by_cases h3 : name.toLower = "tfp"
    · rw [if_neg h1, if_neg h2, if_pos h3, h3]; cases i <;> simp [Choice.title]
    by_cases h4 : name.toLower = "spherical_opt"
    · rw [if_neg h1, if_neg h2, if_neg h3, if_pos h4, h4]; cases i <;> simp [Choice.title]
    rw [if_neg h1, if_neg h2, if_neg h3, if_neg h4]
    cases i <;> simp [Choice.title, h1, h2, h3, h4]
  · have h1 : name.toLower ≠ "scipy" := h .scipy
    have h2 : name.toLower ≠ "shog" := h .shog
    have h3 : name.toLower ≠ "tfp" := h .tfp
    have h4 : name.toLower ≠ "spherical_opt" := h .sphericalOpt
    rw [if_neg h1, if_neg h2, if_neg h3, if_neg h4]

-- the name is not that of the minimiser `shgo`
example : interfaceOf "TFP" = .ok .tfp ∧ interfaceOf "shgo" = .error .valueError := by
  decide +kernel

open Classical in
/-- C130. The interface to tensorflow probability, for one event of which all parameters are fitted:
the minimiser starts at the seed, the function has one value, which is the loss at the values, and
the position it returns is the result. What is missing: see the violations below. -/
theorem C130_tfp_partial (T : Transformer) (name : String) (t : TensorInfo) (f : Trafo.Fit)
    (h : Knows T name t f) (fit : List Bool) (hall : fit.all id = true)
    (ht : t.shape = [fit.length]) (inTrafo isTf : Bool) (seed : Arr)
    (hs : seed.shape = [1, fit.length]) (loss : Arr → Except Err ℝ) (tfp : Tfp) :
    ∃ (x0 : Arr) (g : Arr → Except Err (List ℝ)), x0.shape = [1, fit.length] ∧
      (∀ i < fit.length, x0.val [0, i] =
        if inTrafo then transformed T t f i (seed.val [0, i]) else seed.val [0, i]) ∧
      (∀ x : Arr, x.shape = [1, fit.length] → ∃ a : Arr, a.shape = [1, fit.length] ∧
        (∀ i < fit.length,
          (inTrafo = true → IsLog t i →
            |x.val [0, i] * (T.norm + f.std.at [0, i]) + f.mean.at [0, i]| ≤ 60) →
          if inTrafo then StandsFor T t f 0 i (x.val [0, i]) (a.val [0, i])
          else a.val [0, i] = x.val [0, i]) ∧
        g x = (loss a).map fun v => [v]) ∧
      reconstructTf T name fit inTrafo isTf false loss tfp seed = tfp g x0 ∧
      reconstructTf T name fit inTrafo isTf true loss tfp seed = .error .notImplementedError := by
  have hcnt := count_of_all hall
  have hpos : ∀ i < fit.length, (positions fit)[i]? = some i := by
    intro i hi
    have hm : i ∈ positions fit := positions_mem.2 (all_count hall i hi).1
    obtain ⟨k, hk⟩ := List.mem_iff_getElem?.1 hm
    obtain ⟨h1, h2, h3⟩ := positions_spec hk
    rw [(all_count hall i h1).2] at h3
    subst h3
    exact hk
  obtain ⟨st, s1, s2, s3⟩ := space_spec h ht inTrafo hs
  obtain ⟨x0, x1, x2, x3⟩ := start_spec T name fit inTrafo t h.tensor ht 1 seed st s1 s2 isTf
    (fun _ => hall)
  refine ⟨x0, tfValue T name fit inTrafo loss seed, by rw [x2, hcnt], ?_, ?_, ?_, ?_⟩
  · intro i hi
    rw [x3 0 i i (hpos i hi), s3 0 (by omega) i hi]
  · intro x hx
    cases inTrafo with
    | false =>
      obtain ⟨a, a1, a2, a3⟩ := C39_hypothesis T name fit 1 x seed (by rw [hx, hcnt]) hs
      refine ⟨a, a2, fun i hi _ => (a3 0 (by omega)).1 i i (hpos i hi), ?_⟩
      unfold tfValue
      rw [a1]
      simp only
      cases loss a <;> rfl
    | true =>
      obtain ⟨a, a1, a2, a3⟩ := C39_hypothesis_transformed_partial T name t f h fit ht 1 x seed
        (by rw [hx, hcnt]) hs
      refine ⟨a, a2, fun i hi hr => (a3 0 (by omega)).1 i i (hpos i hi) (hr rfl), ?_⟩
      unfold tfValue
      rw [a1]
      simp only
      cases loss a <;> rfl
  · unfold reconstructTf
    rw [x1]
    rfl
  · unfold reconstructTf
    rw [x1]
    rfl

/-- C130 does not hold if some parameter is not fitted: the module raises a TypeError for every
such list of flags and every minimiser, however the seed was given. -/
theorem C130_fitted_violated (M : Minimizers) (T : Transformer) (name : String) (t : TensorInfo)
    (f : Trafo.Fit) (h : Knows T name t f) (fit : List Bool) (ht : t.shape = [fit.length]) (B : ℕ)
    (seed : Arr) (hs : seed.shape = [B, fit.length]) (inTrafo isTf : Bool)
    (hall : ¬ fit.all id = true) (loss : Arr → Except Err ℝ) :
    execute M T name fit inTrafo isTf loss .tfp seed = .error .typeError := by
  unfold execute method reconstructTf
  simp only
  rw [C39_tensor_seed_violated T name t f h fit ht B seed hs inTrafo hall]

/-- C130 does not hold for any other number of events than one: the function that is handed to the
minimiser returns a single value for all rows of the batch, whatever the loss. -/
theorem C130_batch_violated (T : Transformer) (name : String) (t : TensorInfo) (f : Trafo.Fit)
    (h : Knows T name t f) (fit : List Bool) (hall : fit.all id = true)
    (ht : t.shape = [fit.length]) (B : ℕ) (hB : B ≠ 1) (inTrafo isTf : Bool) (seed : Arr)
    (hs : seed.shape = [B, fit.length]) (loss : Arr → Except Err ℝ)
    (hloss : ∀ a : Arr, a.shape = [B, fit.length] → ∃ v, loss a = .ok v) :
    ∃ (x0 : Arr) (g : Arr → Except Err (List ℝ)), x0.shape = [B, fit.length] ∧
      ¬ RowWise B fit.length g ∧
      ∀ tfp : Tfp, reconstructTf T name fit inTrafo isTf false loss tfp seed = tfp g x0 := by
  have hcnt := count_of_all hall
  obtain ⟨st, s1, s2, s3⟩ := space_spec h ht inTrafo hs
  obtain ⟨x0, x1, x2, x3⟩ := start_spec T name fit inTrafo t h.tensor ht B seed st s1 s2 isTf
    (fun _ => hall)
  rw [hcnt] at x2
  refine ⟨x0, tfValue T name fit inTrafo loss seed, x2, fun hrow => ?_, fun tfp => ?_⟩
  · obtain ⟨a, a1, a2⟩ : ∃ a, hypothesis T name fit inTrafo x0 seed = .ok a ∧
        a.shape = [B, fit.length] := by
      cases inTrafo with
      | false =>
        obtain ⟨a, a1, a2, -⟩ := C39_hypothesis T name fit B x0 seed (by rw [x2, hcnt]) hs
        exact ⟨a, a1, a2⟩
      | true =>
        obtain ⟨a, a1, a2, -⟩ := C39_hypothesis_transformed_partial T name t f h fit ht B x0 seed
          (by rw [x2, hcnt]) hs
        exact ⟨a, a1, a2⟩
    obtain ⟨v, hv⟩ := hloss a a2
    have := hrow x0 x2 [v] (by unfold tfValue; rw [a1]; simp only [hv])
    simp at this
    exact hB this.symm
  · unfold reconstructTf
    rw [x1]
    rfl

/-! ## C131: a reconstruction is not worse than its seed -/

/-- C131. Whatever the interface, the reported losses are the loss at the seed and the loss at the
reported parameters. -/
theorem C131_losses (M : Minimizers) (T : Transformer) (name : String) (fit : List Bool)
    (inTrafo isTf : Bool) (loss : Arr → Except Err ℝ) (i : Choice) (seed : Arr) (rep : Report)
    (hex : execute M T name fit inTrafo isTf loss i seed = .ok rep) :
    loss seed = .ok rep.lossSeed ∧ loss rep.result = .ok rep.lossReco :=
  (execute_ok hex).2.2

/-- C131 for `scipy`, for every number of events, list of flags and space. With a minimiser that
returns nothing worse than it was given, the reported loss is not above that of the seed. What is
missing: logarithmic parameters beyond the limits of the transformation, see
`C131_limit_violated`. -/
theorem C131_scipy_partial (M : Minimizers) (hM : Descends M.scipy) (hb : M.bounds = none)
    (T : Transformer) (name : String) (t : TensorInfo) (f : Trafo.Fit) (h : Knows T name t f)
    (fit : List Bool) (ht : t.shape = [fit.length]) (inTrafo isTf : Bool) (B : ℕ) (seed : Arr)
    (hs : seed.shape = [B, fit.length]) (loss : Arr → Except Err ℝ)
    (hl : Local B fit.length loss) (hr : SeedInRange t inTrafo B fit.length seed) (rep : Report)
    (hex : execute M T name fit inTrafo isTf loss .scipy seed = .ok rep)
    (hf : FitInRange T t f inTrafo fit B rep.resultTrafo) :
    rep.result.shape = [B, fit.length] ∧ rep.lossReco ≤ rep.lossSeed := by
  obtain ⟨e1, e2, e3, e4⟩ := execute_ok hex
  simp only [method, hb] at e1
  have htf : isTf = true → fit.all id = true := by
    intro hh
    by_contra hc
    subst hh
    unfold reconstruct at e1
    rw [checkFit_ok h fit ht] at e1
    simp only [spaceLimits, C39_tensor_seed_violated T name t f h fit ht B seed hs inTrafo hc] at e1
    cases e1
  obtain ⟨st, s1, s2, s3⟩ := space_spec h ht inTrafo hs
  obtain ⟨x0, x1, x2, x3⟩ := start_spec T name fit inTrafo t h.tensor ht B seed st s1 s2 isTf htf
  have hlen := flatten_length x0 B _ x2
  unfold reconstruct at e1
  rw [checkFit_ok h fit ht] at e1
  simp only [spaceLimits, x1] at e1
  split at e1
  · cases e1
  · rename_i x hx
    obtain ⟨d1, v, d2, d3⟩ := hM _ _ _ hx
    rw [hlen] at d1
    have hk : 0 < fit.count true := by
      rcases Nat.eq_zero_or_pos (fit.count true) with h0 | h0
      · rw [h0, reshape, if_pos (Or.inl rfl)] at e1; cases e1
      · exact h0
    obtain ⟨p, p1, p2, p3⟩ := reshape_ok x B _ hk d1
    have hp : p = rep.resultTrafo := by rw [p1] at e1; cases e1; rfl
    rw [← hp] at e2 hf
    have o1 := objective_reported (loss := loss) h ht hs hl hr p1 p2 hf e2
    have o2 := objective_seed (loss := loss) h ht hk hs hl hr (flatten x0) hlen (by
      intro b hb k i hki
      have hkc : k < fit.count true := by
        have := (List.getElem?_eq_some_iff.1 hki).1
        rwa [positions_length] at this
      rw [List.getD, flatten_getElem x0 B _ x2 b k hb hkc, Option.getD_some, x3 b k i hki,
        s3 b hb i (positions_spec hki).1])
    obtain ⟨r', a, r1, r2, -⟩ := reported_hypothesis (isTf := decide (Choice.scipy = .tfp))
      h ht hs p2 hr hf
    rw [r1] at e2
    cases e2
    refine ⟨r2, ?_⟩
    rw [o1, e4] at d2
    cases d2
    exact d3 _ (o2.trans e3)

/-- C131 for `tfp`, for one event and both spaces; parameters beyond the limits of the
transformation are reported with the values at which they were fitted. -/
theorem C131_tfp (M : Minimizers) (hM : DescendsTf M.tfp)
    (T : Transformer) (name : String) (t : TensorInfo) (f : Trafo.Fit) (h : Knows T name t f)
    (fit : List Bool) (ht : t.shape = [fit.length]) (inTrafo isTf : Bool) (seed : Arr)
    (hs : seed.shape = [1, fit.length]) (loss : Arr → Except Err ℝ)
    (hl : Local 1 fit.length loss) (hr : SeedInRange t inTrafo 1 fit.length seed) (rep : Report)
    (hex : execute M T name fit inTrafo isTf loss .tfp seed = .ok rep) :
    rep.result.shape = [1, fit.length] ∧ rep.lossReco ≤ rep.lossSeed := by
  have hall : fit.all id = true := by
    by_contra hc
    rw [C130_fitted_violated M T name t f h fit ht 1 seed hs inTrafo isTf hc loss] at hex
    cases hex
  have hcnt := count_of_all hall
  obtain ⟨e1, e2, e3, e4⟩ := execute_ok hex
  simp only [method] at e1
  obtain ⟨st, s1, s2, s3⟩ := space_spec h ht inTrafo hs
  obtain ⟨x0, x1, x2, x3⟩ := start_spec T name fit inTrafo t h.tensor ht 1 seed st s1 s2 true
    (fun _ => hall)
  unfold reconstructTf at e1
  rw [x1] at e1
  simp only [Bool.false_eq_true, if_false] at e1
  obtain ⟨d1, d2⟩ := hM _ _ _ e1
  obtain ⟨v, d3, d4⟩ := d2 _ x2 (by
    intro x _ w hw
    unfold tfValue at hw
    split at hw
    · cases hw
    · split at hw
      · cases hw
      · cases hw; rfl)
  rw [x2] at d1
  obtain ⟨a, a1, a2, a3⟩ := seed_hypothesis (p := x0) h ht hs x2 hr (fun b hb k i hki => by
    rw [x3 b k i hki, s3 b hb i (positions_spec hki).1])
  have hrep : hypothesis T name fit inTrafo rep.resultTrafo seed = .ok rep.result := by
    unfold recoResult at e2
    rw [s1] at e2
    simp only [decide_true] at e2
    rw [if_pos hall] at e2
    unfold hypothesis allParams
    rw [if_pos hall]
    exact e2
  have hsh : rep.result.shape = [1, fit.length] := by
    cases inTrafo with
    | false =>
      obtain ⟨b, b1, b2, -⟩ := C39_hypothesis T name fit 1 rep.resultTrafo seed d1 hs
      rw [hrep] at b1
      cases b1
      exact b2
    | true =>
      obtain ⟨b, b1, b2, -⟩ :=
        C39_hypothesis_transformed_partial T name t f h fit ht 1 rep.resultTrafo seed d1 hs
      rw [hrep] at b1
      cases b1
      exact b2
  refine ⟨hsh, ?_⟩
  have q1 : tfValue T name fit inTrafo loss seed rep.resultTrafo = .ok [rep.lossReco] := by
    unfold tfValue
    rw [hrep]
    simp only [e4]
  have q2 : tfValue T name fit inTrafo loss seed x0 = .ok [rep.lossSeed] := by
    unfold tfValue
    rw [a1]
    simp only [hl a seed a2 hs a3, e3]
  rw [q1] at d3
  cases d3
  exact d4 _ q2

/-- C131 for `shog`, for one event: it needs all parameters fitted and the transformed space. What
is missing: logarithmic parameters beyond the limits of the transformation. -/
theorem C131_shog_partial (M : Minimizers) (hM : Lowest M.shgo)
    (T : Transformer) (name : String) (t : TensorInfo) (f : Trafo.Fit) (h : Knows T name t f)
    (fit : List Bool) (hall : fit.all id = true) (ht : t.shape = [fit.length]) (inTrafo isTf : Bool)
    (seed : Arr) (hs : seed.shape = [1, fit.length]) (loss : Arr → Except Err ℝ)
    (hl : Local 1 fit.length loss) (hr : SeedInRange t inTrafo 1 fit.length seed) (rep : Report)
    (hex : execute M T name fit inTrafo isTf loss .shog seed = .ok rep)
    (hf : FitInRange T t f inTrafo fit 1 rep.resultTrafo) :
    rep.result.shape = [1, fit.length] ∧ rep.lossReco ≤ rep.lossSeed := by
  have hcnt := count_of_all hall
  obtain ⟨e1, e2, e3, e4⟩ := execute_ok hex
  simp only [method] at e1
  cases inTrafo with
  | false =>
    rw [C87_global_space T name t f h fit ht seed loss M.shgo] at e1
    cases e1
  | true =>
    obtain ⟨st, s1, s2, s3⟩ := space_spec h ht true hs
    have hb : globalBounds st = .ok ((List.range fit.length).map fun i =>
        [st.val [0, i] - 1, st.val [0, i] + 1]) := by
      unfold globalBounds
      rw [s2]
      simp
    unfold reconstructGlobal at e1
    rw [checkFit_ok h fit ht, s1] at e1
    simp only [Bool.not_true, Bool.false_eq_true, if_false, hb] at e1
    rw [pairs_map fit.length (fun i => st.val [0, i] - 1) (fun i => st.val [0, i] + 1)] at e1
    simp only at e1
    split at e1
    · cases e1
    · rename_i x hx
      obtain ⟨d1, v, d2, d3⟩ := hM _ _ _ hx
      rw [List.length_map, List.length_range] at d1
      have hk : 0 < fit.count true := by
        rcases Nat.eq_zero_or_pos (fit.count true) with h0 | h0
        · rw [h0, reshape, if_pos (Or.inl rfl)] at e1; cases e1
        · exact h0
      obtain ⟨p, p1, p2, p3⟩ := reshape_ok x 1 _ hk (by rw [d1, hcnt, one_mul])
      have hp : p = rep.resultTrafo := by rw [p1] at e1; cases e1; rfl
      rw [← hp] at e2 hf
      have o1 := objective_reported (loss := loss) h ht hs hl hr p1 p2 hf e2
      have o2 := objective_seed (loss := loss) h ht hk hs hl hr
        ((List.range fit.length).map fun i => st.val [0, i]) (by simp [hcnt]) (by
        intro b hb k i hki
        have hi := (positions_spec hki).1
        have hki' : i = k := by
          have h3 := (positions_spec hki).2.2
          rwa [(all_count hall i hi).2] at h3
        subst hki'
        have hb0 : b = 0 := by omega
        subst hb0
        rw [← s3 0 hb i hi]
        simp [List.getD, hi])
      obtain ⟨r', a, r1, r2, -⟩ := reported_hypothesis (isTf := decide (Choice.shog = .tfp))
        h ht hs p2 hr hf
      rw [r1] at e2
      cases e2
      refine ⟨r2, ?_⟩
      rw [o1, e4] at d2
      cases d2
      refine d3 _ (by simp) ?_ _ (o2.trans e3)
      intro i lo hi z h1 h2
      rw [List.getElem?_map] at h1 h2
      by_cases hin : i < fit.length
      · rw [List.getElem?_range hin] at h1 h2
        cases h1
        cases h2
        constructor <;> linarith
      · rw [List.getElem?_eq_none (by simp; omega)] at h1
        cases h1

/-- C131 for `spherical_opt`, for one event. What is missing: logarithmic parameters beyond the
limits of the transformation. -/
theorem C131_spherical_partial (M : Minimizers) (hM : DescendsFrom M.spherical)
    (T : Transformer) (name : String) (t : TensorInfo) (f : Trafo.Fit) (h : Knows T name t f)
    (fit : List Bool) (ht : t.shape = [fit.length]) (inTrafo isTf : Bool)
    (seed : Arr) (hs : seed.shape = [1, fit.length]) (loss : Arr → Except Err ℝ)
    (hl : Local 1 fit.length loss) (hr : SeedInRange t inTrafo 1 fit.length seed) (rep : Report)
    (hex : execute M T name fit inTrafo isTf loss .sphericalOpt seed = .ok rep)
    (hf : FitInRange T t f inTrafo fit 1 rep.resultTrafo) :
    rep.result.shape = [1, fit.length] ∧ rep.lossReco ≤ rep.lossSeed := by
  obtain ⟨e1, e2, e3, e4⟩ := execute_ok hex
  simp only [method] at e1
  have htf : isTf = true → fit.all id = true := by
    intro hh
    by_contra hc
    subst hh
    unfold reconstructSpherical at e1
    rw [C39_tensor_seed_violated T name t f h fit ht 1 seed hs inTrafo hc] at e1
    cases e1
  obtain ⟨st, s1, s2, s3⟩ := space_spec h ht inTrafo hs
  obtain ⟨x0, x1, x2, x3⟩ := start_spec T name fit inTrafo t h.tensor ht 1 seed st s1 s2 isTf htf
  unfold reconstructSpherical at e1
  rw [x1] at e1
  simp only at e1
  split at e1
  · cases e1
  · rename_i points hpts
    split at e1
    · cases e1
    · rename_i x hx
      unfold initialPoints at hpts
      rw [x2] at hpts
      simp only at hpts
      split at hpts
      · cases hpts
      · cases hpts
        obtain ⟨d1, v, d2, d3⟩ := hM _ _ _ hx _ _ rfl
        have hk : 0 < fit.count true := by
          rcases Nat.eq_zero_or_pos (fit.count true) with h0 | h0
          · rw [h0, reshape, if_pos (Or.inl rfl)] at e1; cases e1
          · exact h0
        obtain ⟨p, p1, p2, p3⟩ := reshape_ok x 1 _ hk (by rw [d1, one_mul])
        have hp : p = rep.resultTrafo := by rw [p1] at e1; cases e1; rfl
        rw [← hp] at e2 hf
        have o1 := objective_reported (loss := loss) h ht hs hl hr p1 p2 hf e2
        have o2 := objective_seed (loss := loss) h ht hk hs hl hr
          (rowOf (fit.count true) ⟨[1 * 20 * 1, fit.count true], pointAt M.normal 1 x0⟩ 0)
          (by simp [rowOf]) (fun b hb k i hki => by
            have hkc : k < fit.count true := by
              have := (List.getElem?_eq_some_iff.1 hki).1
              rwa [positions_length] at this
            have hb0 : b = 0 := by omega
            subst hb0
            rw [← s3 0 hb i (positions_spec hki).1, ← x3 0 k i hki]
            exact (show (rowOf (fit.count true) ⟨[1 * 20 * 1, fit.count true],
              pointAt M.normal 1 x0⟩ 0).getD (0 * fit.count true + k) 0 = x0.val [0, k] by
                simp [rowOf, List.getD, hkc, pointAt]))
        obtain ⟨r', a, r1, r2, -⟩ :=
          reported_hypothesis (isTf := decide (Choice.sphericalOpt = .tfp)) h ht hs p2 hr hf
        rw [r1] at e2
        cases e2
        refine ⟨r2, ?_⟩
        rw [o1, e4] at d2
        cases d2
        exact d3 _ (o2.trans e3)

namespace Ex

/-- A loss of the examples: the distance of the third parameter from the largest value the
transformation allows. -/
noncomputable def loss (a : Arr) : Except Err ℝ := .ok |a.val [0, 2] - (Real.exp 60 - 1)|

theorem loss_local : Local 1 3 loss := by
  intro a a' _ _ h
  unfold loss
  rw [h 0 (by omega) 2 (by omega)]

open Classical in
/-- A minimiser of the examples: it returns the values `c` if they are not worse than the start. -/
noncomputable def goTo (c : List ℝ) : Minimizer := fun g x0 _ =>
  if c.length = x0.length ∧ ∃ v, g c = .ok v ∧ ∀ w, g x0 = .ok w → v ≤ w then .ok c
  else .error .runtimeError

theorem goTo_descends (c : List ℝ) : Descends (goTo c) := by
  intro g x0 x h
  unfold goTo at h
  split at h
  · rename_i hc
    cases h
    exact hc
  · cases h

/-- Minimisers of the examples. -/
noncomputable def minimizers (c : List ℝ) : Minimizers :=
  { scipy := goTo c
    shgo := fun _ _ => .error .runtimeError
    tfp := fun g x0 => match g x0 with
      | .ok _ => .ok x0
      | .error e => .error e
    spherical := fun _ _ => .error .runtimeError
    normal := fun _ _ x _ => x
    junk := 0
    bounds := none }

/-- The seed of the examples. -/
def seed : Arr := ⟨[1, 3], fun _ => 1⟩

theorem seed_inRange (inTrafo : Bool) : SeedInRange exTensor inTrafo 1 3 seed := by
  intro b _ i _ _ _
  have h1 : Real.exp (-60) ≤ 1 := Real.exp_le_one_iff.2 (by norm_num)
  have h2 : (60 : ℝ) + 1 ≤ Real.exp 60 := Real.add_one_le_exp 60
  constructor
  · show Real.exp (-60) ≤ 1 + 1
    linarith
  · show (1 : ℝ) + 1 ≤ Real.exp 60
    linarith

theorem not_allLogged : ¬ AllLogged exTensor := by
  intro hh
  have := hh _ rfl
  simp at this

/-- The third parameter is `exp (3 y) - 1`, limited by `exp 60 - 1` when the loss is minimised. -/
theorem run (c : List ℝ) (hc : c.length = 3)
    (hbest : |Real.exp (clip60 (c.getD 2 0 * 3)) - 1 - (Real.exp 60 - 1)| ≤
      |1 - (Real.exp 60 - 1)|) :
    ∃ rep, execute (minimizers c) exTrafo "x_parameters" [true, true, true] true true loss .scipy
        seed = .ok rep ∧ (∀ j, rep.resultTrafo.val [0, j] = c.getD j 0) ∧
      rep.lossSeed = |1 - (Real.exp 60 - 1)| ∧
      rep.lossReco = |Real.exp (c.getD 2 0 * 3) - 1 - (Real.exp 60 - 1)| := by
  have hk : exTensor.shape = [[true, true, true].length] := rfl
  have hlog : IsLog exTensor 2 := (exIsLog 2 (by omega)).2 rfl
  obtain ⟨st, s1, s2, s3⟩ := space_spec (seed := seed) exKnows hk true (B := 1) rfl
  obtain ⟨x0, x1, x2, x3⟩ := start_spec exTrafo "x_parameters" [true, true, true] true exTensor
    rfl hk 1 seed st s1 s2 true (fun _ => rfl)
  have hlen := flatten_length x0 1 _ x2
  obtain ⟨p, p1, p2, p3⟩ := reshape_ok c 1 3 (by omega) (by omega)
  obtain ⟨a, a1, a2, a3⟩ := inverse2 exKnows (n := 3) rfl true p 1 p2
  obtain ⟨r, r1, r2, r3⟩ := inverse2 exKnows (n := 3) rfl false p 1 p2
  have ha : a.val [0, 2] = Real.exp (clip60 (c.getD 2 0 * 3)) - 1 := by
    rw [a3 0 (by omega) 2 (by omega), if_pos hlog, if_pos ⟨rfl, not_allLogged⟩, p3]
    have : (exTrafo.norm + (⟨[3], fun _ => 2⟩ : Arr).at [0, 2]) = 3 := by
      simp [exTrafo, Arr.at]; norm_num
    rw [this]
    simp [Arr.at]
  have hr : r.val [0, 2] = Real.exp (c.getD 2 0 * 3) - 1 := by
    rw [r3 0 (by omega) 2 (by omega), if_pos hlog, if_neg (by simp), p3]
    have : (exTrafo.norm + (⟨[3], fun _ => 2⟩ : Arr).at [0, 2]) = 3 := by
      simp [exTrafo, Arr.at]; norm_num
    rw [this]
    simp [Arr.at]
  have hobj : objective exTrafo "x_parameters" [true, true, true] true loss seed c =
      .ok |Real.exp (clip60 (c.getD 2 0 * 3)) - 1 - (Real.exp 60 - 1)| := by
    unfold objective
    rw [show List.count true [true, true, true] = 3 from rfl, p1]
    have : hypothesis exTrafo "x_parameters" [true, true, true] true p seed = .ok a := by
      unfold hypothesis allParams
      rw [if_pos (by decide)]
      exact a1
    simp only [this, loss, ha]
  have hstart : objective exTrafo "x_parameters" [true, true, true] true loss seed (flatten x0) =
      .ok |1 - (Real.exp 60 - 1)| := by
    have := objective_seed (loss := loss) exKnows hk (by decide) (inTrafo := true) (seed := seed)
      (B := 1) rfl loss_local (seed_inRange true) (flatten x0) hlen (by
      intro b hb k i hki
      have hkc : k < [true, true, true].count true := by
        have := (List.getElem?_eq_some_iff.1 hki).1
        rwa [positions_length] at this
      rw [List.getD, flatten_getElem x0 1 _ x2 b k hb hkc, Option.getD_some, x3 b k i hki,
        s3 b hb i (positions_spec hki).1])
    rw [this]
    rfl
  have hgo : goTo c (objective exTrafo "x_parameters" [true, true, true] true loss seed)
      (flatten x0) none = .ok c := by
    unfold goTo
    rw [if_pos]
    refine ⟨by rw [hlen, hc]; rfl, _, hobj, fun w hw => ?_⟩
    rw [hstart] at hw
    cases hw
    exact hbest
  have hmeth : method (minimizers c) exTrafo "x_parameters" [true, true, true] true true loss .scipy
      seed = .ok p := by
    simp only [method, minimizers]
    unfold reconstruct
    rw [checkFit_ok exKnows _ hk]
    simp only [spaceLimits, x1, hgo]
    exact p1
  have hreco : recoResult exTrafo "x_parameters" [true, true, true] true
      (decide (Choice.scipy = .tfp)) p seed = .ok r := by
    unfold recoResult
    rw [s1]
    simp only
    rw [if_pos (by decide)]
    exact r1
  refine ⟨⟨r, p, |1 - (Real.exp 60 - 1)|, |r.val [0, 2] - (Real.exp 60 - 1)|⟩, ?_, ?_, rfl, ?_⟩
  · unfold execute
    rw [hmeth]
    simp only [hreco, lossAt_eq]
    rfl
  · intro j
    have := p3 0 j
    simpa using this
  · simp only [hr]

theorem exp_big : (61 : ℝ) ≤ Real.exp 60 := by
  have : (60 : ℝ) + 1 ≤ Real.exp 60 := Real.add_one_le_exp 60
  linarith

-- a reconstruction that meets the hypotheses of C131: the third parameter is fitted to exp 3 - 1
example : ∃ rep, execute (minimizers [0, 0, 1]) exTrafo "x_parameters" [true, true, true] true true
    loss .scipy seed = .ok rep ∧ FitInRange exTrafo exTensor exFit true [true, true, true] 1
      rep.resultTrafo ∧ rep.lossReco < rep.lossSeed := by
  have e3 : (3 : ℝ) + 1 ≤ Real.exp 3 := Real.add_one_le_exp 3
  have e60 : Real.exp 3 < Real.exp 60 := Real.exp_lt_exp.2 (by norm_num)
  have hb := exp_big
  have key : |Real.exp 3 - 1 - (Real.exp 60 - 1)| < |1 - (Real.exp 60 - 1)| := by
    rw [abs_of_nonpos (by linarith), abs_of_nonpos (by linarith)]
    linarith
  obtain ⟨rep, h1, h2, h3, h4⟩ := run [0, 0, 1] rfl (by
    have : clip60 (([0, 0, 1] : List ℝ).getD 2 0 * 3) = 3 := by simp [clip60]; norm_num
    rw [this]
    exact le_of_lt key)
  refine ⟨rep, h1, ?_, ?_⟩
  · intro b hb k i hki _ _
    have hb0 : b = 0 := by omega
    subst hb0
    have hkc : k < 3 := by
      have := (List.getElem?_eq_some_iff.1 hki).1
      rwa [positions_length] at this
    rw [h2]
    have : (exTrafo.norm + exFit.std.at [0, i]) = 3 := by
      simp [exTrafo, exFit, Arr.at]; norm_num
    rw [this]
    match k, hkc with
    | 0, _ => simp [exFit, Arr.at]
    | 1, _ => simp [exFit, Arr.at]
    | 2, _ => simp [exFit, Arr.at]; norm_num
  · rw [h3, h4]
    simpa using key

-- the minimiser of tensorflow probability of the examples meets the hypothesis of C131
example (c : List ℝ) : DescendsTf (minimizers c).tfp := by
  intro g x0 x hx
  simp only [minimizers] at hx
  split at hx
  · rename_i v hv
    cases hx
    refine ⟨rfl, fun n hn hrow => ?_⟩
    have := hrow _ hn v hv
    match v, this with
    | [v], _ => exact ⟨v, hv, fun w hw => by rw [hv] at hw; cases hw; exact le_refl _⟩
  · cases hx

open Classical in
/-- A global minimiser of the examples: it returns a lowest value if there is one. -/
noncomputable def lowest : Global := fun g bounds =>
  if h : ∃ x : List ℝ, x.length = bounds.length ∧ ∃ v, g x = .ok v ∧ ∀ y : List ℝ,
      y.length = bounds.length →
      (∀ (i : ℕ) lo hi z, bounds[i]? = some (lo, hi) → y[i]? = some z → lo ≤ z ∧ z ≤ hi) →
      ∀ u, g y = .ok u → v ≤ u then .ok h.choose
  else .error .runtimeError

-- minimisers that meet the other hypotheses of C131
example : Lowest lowest ∧ (∃ x, lowest (fun _ => .ok 0) [(0, 1)] = .ok x) ∧
    DescendsFrom (fun g a => match a.shape with
      | [_, n] => match g (rowOf n a 0) with
        | .ok _ => .ok (rowOf n a 0)
        | .error e => .error e
      | _ => .error .valueError) := by
  refine ⟨fun g b x hx => ?_, ?_, fun g a x hx m n ha => ?_⟩
  · unfold lowest at hx
    split at hx
    · rename_i hc
      cases hx
      exact hc.choose_spec
    · cases hx
  · refine ⟨_, dif_pos ⟨[0], rfl, 0, rfl, fun y _ _ u hu => ?_⟩⟩
    cases hu
    exact le_refl _
  simp only [ha] at hx
  split at hx
  · rename_i v hv
    cases hx
    exact ⟨by simp [rowOf], v, hv, fun w hw => by rw [hv] at hw; cases hw; exact le_refl _⟩
  · cases hx

end Ex

/-- C131 does not hold beyond the limits of the transformation: the loss is minimised with
logarithmic parameters limited to `exp 60 - 1`, but numpy reports the values without the limit. A
minimiser may return the best value of the loss it was given and the reported loss is above that of
the seed. -/
theorem C131_limit_violated :
    ∃ (M : Minimizers) (T : Transformer) (name : String) (t : TensorInfo) (f : Trafo.Fit)
      (fit : List Bool) (seed : Arr) (loss : Arr → Except Err ℝ) (rep : Report),
      Descends M.scipy ∧ M.bounds = none ∧ Knows T name t f ∧ t.shape = [fit.length] ∧
      seed.shape = [1, fit.length] ∧ Local 1 fit.length loss ∧
      SeedInRange t true 1 fit.length seed ∧
      execute M T name fit true true loss .scipy seed = .ok rep ∧ rep.lossSeed < rep.lossReco := by
  have hb := Ex.exp_big
  obtain ⟨rep, h1, -, h3, h4⟩ := Ex.run [0, 0, 21] rfl (by
    have : clip60 (([0, 0, 21] : List ℝ).getD 2 0 * 3) = 60 := by simp [clip60]; norm_num
    rw [this]
    simp)
  refine ⟨Ex.minimizers [0, 0, 21], exTrafo, "x_parameters", exTensor, exFit, [true, true, true],
    Ex.seed, Ex.loss, rep, Ex.goTo_descends _, rfl, exKnows, rfl, rfl, Ex.loss_local,
    Ex.seed_inRange true, h1, ?_⟩
  have e3 : (3 : ℝ) + 1 ≤ Real.exp 3 := Real.add_one_le_exp 3
  have e63 : Real.exp 63 = Real.exp 60 * Real.exp 3 := by rw [← Real.exp_add]; norm_num
  rw [h3, h4]
  have : (([0, 0, 21] : List ℝ).getD 2 0 * 3) = 63 := by simp; norm_num
  rw [this, abs_of_nonpos (by linarith), e63]
  have : Real.exp 60 * 4 ≤ Real.exp 60 * Real.exp 3 :=
    mul_le_mul_of_nonneg_left (by linarith) (by linarith)
  rw [abs_of_nonneg (by linarith)]
  linarith

end Verif.Interface
