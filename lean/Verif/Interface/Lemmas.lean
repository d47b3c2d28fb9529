import Verif.Interface.Spec

namespace Verif.Interface
open Verif.Py Verif.Trafo Verif.Reco Verif.Fit

open Classical in
/-- The seed in the space of the minimisation. -/
theorem space_spec {T : Transformer} {name : String} {t : TensorInfo} {f : Trafo.Fit}
    (h : Knows T name t f) {fit : List Bool} (ht : t.shape = [fit.length]) (inTrafo : Bool)
    {B : ℕ} {seed : Arr} (hs : seed.shape = [B, fit.length]) :
    ∃ st, toSpace T name inTrafo seed = .ok st ∧ st.shape = [B, fit.length] ∧
      ∀ b < B, ∀ i < fit.length, st.val [b, i] =
        if inTrafo then transformed T t f i (seed.val [b, i]) else seed.val [b, i] := by
  cases inTrafo with
  | false => exact ⟨seed, rfl, hs, fun _ _ _ _ => rfl⟩
  | true =>
    obtain ⟨st, g1, g2, g3⟩ := transform2 h ht seed B hs
    exact ⟨st, by rw [toSpace, if_pos rfl, g1], g2, fun b hb i hi => g3 b hb i hi⟩

open Classical in
/-- Values that are those of the seed stand for the seed. -/
theorem seed_hypothesis {T : Transformer} {name : String} {t : TensorInfo} {f : Trafo.Fit}
    (h : Knows T name t f) {fit : List Bool} (ht : t.shape = [fit.length]) {inTrafo : Bool}
    {B : ℕ} {seed p : Arr} (hs : seed.shape = [B, fit.length])
    (hp : p.shape = [B, fit.count true]) (hr : SeedInRange t inTrafo B fit.length seed)
    (hv : ∀ b < B, ∀ k i : ℕ, (positions fit)[k]? = some i → p.val [b, k] =
      if inTrafo then transformed T t f i (seed.val [b, i]) else seed.val [b, i]) :
    ∃ a, hypothesis T name fit inTrafo p seed = .ok a ∧ a.shape = [B, fit.length] ∧
      ∀ b < B, ∀ i < fit.length, a.val [b, i] = seed.val [b, i] := by
  cases inTrafo with
  | false =>
    obtain ⟨a, a1, a2, a3⟩ := C39_hypothesis T name fit B p seed hp hs
    refine ⟨a, a1, a2, fun b hb i hi => ?_⟩
    by_cases hpos : i ∈ positions fit
    · obtain ⟨k, hk⟩ := List.mem_iff_getElem?.1 hpos
      have h1 := (a3 b hb).1 k i hk
      simp only at h1
      rw [h1, hv b hb k i hk]
      rfl
    · exact (a3 b hb).2 i hi hpos
  | true =>
    obtain ⟨a, a1, a2, a3⟩ := C39_hypothesis_transformed_partial T name t f h fit ht B p seed hp hs
    refine ⟨a, a1, a2, fun b hb i hi => ?_⟩
    by_cases hpos : i ∈ positions fit
    · obtain ⟨k, hk⟩ := List.mem_iff_getElem?.1 hpos
      have hne := h.ne_zero (B := B) (i := [b, i]) (by rw [ht]; exact inShape2 hb hi)
      have hx : p.val [b, k] = ((if IsLog t i then Real.log (1 + seed.val [b, i])
          else seed.val [b, i]) - f.mean.at [b, i]) / (T.norm + f.std.at [b, i]) :=
        hv b hb k i hk
      have e : p.val [b, k] * (T.norm + f.std.at [b, i]) + f.mean.at [b, i] =
          if IsLog t i then Real.log (1 + seed.val [b, i]) else seed.val [b, i] := by
        rw [hx, div_mul_cancel₀ _ hne]; ring
      have h1 := (a3 b hb).1 k i hk (by
        intro hl
        rw [e, if_pos hl]
        exact (log_of_inRange (hr b hb i hi rfl hl)).2)
      by_cases hl : IsLog t i
      · rw [h1.2 hl, e, if_pos hl, Real.exp_log (log_of_inRange (hr b hb i hi rfl hl)).1]; ring
      · rw [h1.1 hl, e, if_neg hl]
    · exact (a3 b hb).2 i hi hpos (hr b hb i hi rfl)

open Classical in
/-- The reported result is where the minimised function was evaluated. -/
theorem reported_hypothesis {T : Transformer} {name : String} {t : TensorInfo} {f : Trafo.Fit}
    (h : Knows T name t f) {fit : List Bool} (ht : t.shape = [fit.length]) {inTrafo : Bool}
    (isTf : Bool) {B : ℕ} {seed p : Arr} (hs : seed.shape = [B, fit.length])
    (hp : p.shape = [B, fit.count true]) (hr : SeedInRange t inTrafo B fit.length seed)
    (hf : FitInRange T t f inTrafo fit B p) :
    ∃ r a, recoResult T name fit inTrafo isTf p seed = .ok r ∧ r.shape = [B, fit.length] ∧
      hypothesis T name fit inTrafo p seed = .ok a ∧ a.shape = [B, fit.length] ∧
      ∀ b < B, ∀ i < fit.length, a.val [b, i] = r.val [b, i] := by
  obtain ⟨r, a, r1, r2, a1, a2, c1, c2⟩ :=
    C39_reported_partial T name t f h fit ht B p seed hp hs inTrafo isTf
  refine ⟨r, a, r1, r2, a1, a2, fun b hb i hi => ?_⟩
  cases inTrafo with
  | false =>
    obtain ⟨a', a1', a2', a3'⟩ := C39_hypothesis T name fit B p seed hp hs
    rw [a1'] at a1
    cases a1
    have c := c1 rfl
    by_cases hpos : i ∈ positions fit
    · obtain ⟨k, hk⟩ := List.mem_iff_getElem?.1 hpos
      exact ((a3' b hb).1 k i hk).trans ((c b hb).1 k i hk).symm
    · exact ((a3' b hb).2 i hi hpos).trans ((c b hb).2 i hi hpos).symm
  | true =>
    obtain ⟨d1, d2⟩ := c2 rfl b hb
    by_cases hpos : i ∈ positions fit
    · obtain ⟨k, hk⟩ := List.mem_iff_getElem?.1 hpos
      exact (d1 k i hk (hf b hb k i hk rfl)).2
    · obtain ⟨a', a1', a2', a3'⟩ :=
        C39_hypothesis_transformed_partial T name t f h fit ht B p seed hp hs
      rw [a1'] at a1
      cases a1
      rw [(a3' b hb).2 i hi hpos (hr b hb i hi rfl)]
      refine (d2 i hi hpos fun hl => ?_).symm
      exact (log_of_inRange (hr b hb i hi rfl hl)).1

theorem lossAt_eq (T : Transformer) (name : String) (fit : List Bool) (loss : Arr → Except Err ℝ)
    (a : Arr) : lossAt T name fit loss a = loss a := by
  unfold lossAt
  rw [C39_reported_loss]

/-- What a successful execution reports. -/
theorem execute_ok {M : Minimizers} {T : Transformer} {name : String} {fit : List Bool}
    {inTrafo isTf : Bool} {loss : Arr → Except Err ℝ} {i : Choice} {seed : Arr} {rep : Report}
    (h : execute M T name fit inTrafo isTf loss i seed = .ok rep) :
    method M T name fit inTrafo isTf loss i seed = .ok rep.resultTrafo ∧
    recoResult T name fit inTrafo (decide (i = .tfp)) rep.resultTrafo seed = .ok rep.result ∧
    loss seed = .ok rep.lossSeed ∧ loss rep.result = .ok rep.lossReco := by
  unfold execute at h
  split at h
  · cases h
  · rename_i p hp
    split at h
    · cases h
    · rename_i r hr
      split at h
      · cases h
      · rename_i ls hls
        split at h
        · cases h
        · rename_i lr hlr
          cases h
          rw [lossAt_eq] at hls hlr
          exact ⟨hp, hr, hls, hlr⟩

/-- The value of the minimised function at values that are those of the seed. -/
theorem objective_seed {T : Transformer} {name : String} {t : TensorInfo} {f : Trafo.Fit}
    (h : Knows T name t f) {fit : List Bool} (ht : t.shape = [fit.length])
    (hk : 0 < fit.count true) {inTrafo : Bool} {loss : Arr → Except Err ℝ}
    {B : ℕ} {seed : Arr} (hs : seed.shape = [B, fit.length])
    (hl : Local B fit.length loss) (hr : SeedInRange t inTrafo B fit.length seed) (x : List ℝ)
    (hx : x.length = B * fit.count true)
    (hv : ∀ b < B, ∀ k i : ℕ, (positions fit)[k]? = some i →
      x.getD (b * fit.count true + k) 0 =
        if inTrafo then transformed T t f i (seed.val [b, i]) else seed.val [b, i]) :
    objective T name fit inTrafo loss seed x = loss seed := by
  obtain ⟨p, p1, p2, p3⟩ := reshape_ok x B _ hk hx
  obtain ⟨a, a1, a2, a3⟩ := seed_hypothesis (p := p) h ht hs p2 hr (fun b hb k i hki => by
    rw [p3, hv b hb k i hki])
  unfold objective
  rw [p1]
  simp only [a1]
  exact hl a seed a2 hs a3

/-- The value of the minimised function at the reported values. -/
theorem objective_reported {T : Transformer} {name : String} {t : TensorInfo} {f : Trafo.Fit}
    (h : Knows T name t f) {fit : List Bool} (ht : t.shape = [fit.length])
    {inTrafo isTf : Bool} {loss : Arr → Except Err ℝ}
    {B : ℕ} {seed : Arr} (hs : seed.shape = [B, fit.length])
    (hl : Local B fit.length loss) (hr : SeedInRange t inTrafo B fit.length seed) {x : List ℝ}
    {p r : Arr} (hx : reshape x (fit.count true) = .ok p) (hp : p.shape = [B, fit.count true])
    (hf : FitInRange T t f inTrafo fit B p)
    (hreco : recoResult T name fit inTrafo isTf p seed = .ok r) :
    objective T name fit inTrafo loss seed x = loss r := by
  obtain ⟨r', a, r1, r2, a1, a2, a3⟩ := reported_hypothesis h ht isTf hs hp hr hf
  rw [r1] at hreco
  cases hreco
  unfold objective
  rw [hx]
  simp only [a1]
  exact hl a _ a2 r2 a3

end Verif.Interface
