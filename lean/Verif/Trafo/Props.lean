/-
Properties C13-C15 of `DataTransformer`.
-/
import Verif.Trafo.Lemmas

namespace Verif.Trafo
open Verif.Py

/-! ## C13: fitted means and deviations -/

theorem column_length (k : Nat) (mask mask' : Option (List Bool)) (bs : List (List Arr))
    (i j : List Nat) : (column k mask bs i).length = (column k mask' bs j).length := by
  unfold column
  rw [List.length_flatMap, List.length_flatMap]
  congr 1
  refine List.map_congr_left fun b _ => ?_
  cases b[k]? with
  | none => rfl
  | some a =>
    cases h : a.shape with
    | nil => simp [h]
    | cons B r => simp [h]

theorem finish_spec (t : TensorInfo) (ht : t.WellFormed) (s : Acc) :
    ∃ f, finish t s = .ok f ∧ f.mean.shape = keepDims t.reduceAxes t.shape ∧
      f.std.shape = keepDims t.reduceAxes t.shape ∧
      ∀ i js b, InShape i t.shape → Averaged t i js →
        f.mean.at (b :: i) = mean (js.map s.mean) ∧
        f.std.at (b :: i) =
          (if mean (js.map fun j => Real.sqrt (s.m2 j / (s.n : ℝ))) = 0 then 1
            else mean (js.map fun j => Real.sqrt (s.m2 j / (s.n : ℝ)))) := by
  obtain ⟨a, h1, h2, h3⟩ := meanAxes_spec t ht (fun i => Real.sqrt (s.m2 i / (s.n : ℝ)))
  obtain ⟨m, g1, g2, g3⟩ := meanAxes_spec t ht s.mean
  refine ⟨_, by unfold finish; rw [h1]; simp only; rw [g1], g2, h2, ?_⟩
  intro i js b hi hjs
  refine ⟨g3 i js b hi hjs, ?_⟩
  have := h3 i js b hi hjs
  show (if a.at (b :: i) = 0 then 1 else a.at (b :: i)) = _
  rw [this]

theorem finishAll_spec (ts : List TensorInfo) (ss : List Acc) (hw : ∀ t ∈ ts, t.WellFormed)
    (hs : ss.length = ts.length) (hn : (ts.map TensorInfo.name).Nodup) :
    ∃ d, finishAll ts ss = .ok d ∧
      (∀ name, (∃ f, Dict.get? d name = some f) ↔ ∃ t ∈ ts, t.name = name ∧ Active t) ∧
      ∀ (k : Nat) t s, ts[k]? = some t → ss[k]? = some s → Active t →
        ∃ f, Dict.get? d t.name = some f ∧ finish t s = .ok f := by
  induction ts generalizing ss with
  | nil => exact ⟨[], rfl, by simp, by simp⟩
  | cons t ts ih =>
    cases ss with
    | nil => simp at hs
    | cons s ss =>
      simp only [List.map_cons, List.nodup_cons] at hn
      obtain ⟨d, h1, h2, h3⟩ := ih ss (fun t ht => hw t (List.mem_cons_of_mem _ ht))
        (by simpa using hs) hn.2
      obtain ⟨f, hf, -⟩ := finish_spec t (hw t (List.mem_cons_self ..)) s
      by_cases hact : (t.present && t.trafo) = true
      · have hact' : Active t := by simpa [Active] using hact
        refine ⟨(t.name, f) :: d, ?_, ?_, ?_⟩
        · unfold finishAll; rw [if_pos hact, hf]; simp only; rw [h1]
        · intro name
          simp only [Dict.get?, List.mem_cons, exists_eq_or_imp]
          by_cases hname : t.name = name
          · simp [hname, hact']
          · simp [hname, h2]
        · intro k t' s' ht' hs' ha'
          cases k with
          | zero =>
            simp only [List.getElem?_cons_zero, Option.some.injEq] at ht' hs'
            subst ht' hs'
            exact ⟨f, by simp [Dict.get?], hf⟩
          | succ k =>
            simp only [List.getElem?_cons_succ] at ht' hs'
            obtain ⟨f', e1, e2⟩ := h3 k t' s' ht' hs' ha'
            refine ⟨f', ?_, e2⟩
            have : t.name ≠ t'.name := fun h =>
              hn.1 (h ▸ List.mem_map.2 ⟨t', List.mem_of_getElem? ht', rfl⟩)
            simp [Dict.get?, this, e1]
      · refine ⟨d, ?_, ?_, ?_⟩
        · unfold finishAll; rw [if_neg hact, h1]
        · intro name
          rw [h2 name]
          simp only [List.mem_cons, exists_eq_or_imp]
          constructor
          · exact Or.inr
          · rintro (⟨-, h⟩ | h)
            · exact absurd (by simp [h.1, h.2]) hact
            · exact h
        · intro k t' s' ht' hs' ha'
          cases k with
          | zero =>
            simp only [List.getElem?_cons_zero, Option.some.injEq] at ht'
            subst ht'
            exact absurd (by simp [ha'.1, ha'.2]) hact
          | succ k => exact h3 k t' s' (by simpa using ht') (by simpa using hs') ha'

/-- C13. Building a trafo model from the first `n` batches succeeds and yields, for
exactly the tensors that exist and have a transformation, a mean and a deviation:
at every position the mean over the averaged positions of the arithmetic mean, and
of the square root of the population variance, of all values seen there (with the
logarithm where configured). A deviation of zero is replaced by one. Only the
values seen matter, not how they are cut into batches. -/
theorem C13_fitted_values (ts : List TensorInfo) (batches : List (List Arr)) (n : Nat) (norm : ℝ)
    (hw : ∀ t ∈ ts, t.WellFormed) (hnames : (ts.map TensorInfo.name).Nodup)
    (hn : n ≤ batches.length) (hc : Conforms ts (batches.take n)) :
    ∃ T, configure ts batches n norm = .ok T ∧ T.tensors = ts ∧ T.norm = norm ∧
      (∀ name, (∃ f, T.fits.get? name = some f) ↔
        ∃ t ∈ ts, t.name = name ∧ t.present = true ∧ t.trafo = true) ∧
      ∀ (k : Nat) t, ts[k]? = some t → t.present = true → t.trafo = true →
        ∃ f, T.fits.get? t.name = some f ∧
          f.mean.shape = t.shape.mapIdx (fun k d => if k ∈ t.reduceAxes then 1 else d) ∧
          f.std.shape = f.mean.shape ∧
          ∀ i js b, InShape i t.shape → Averaged t i js →
            column k t.logMask (batches.take n) i ≠ [] →
            f.mean.at (b :: i) =
              mean (js.map fun j => mean (column k t.logMask (batches.take n) j)) ∧
            f.std.at (b :: i) =
              (let s := mean (js.map fun j =>
                  Real.sqrt (popVar (column k t.logMask (batches.take n) j)))
               if s = 0 then 1 else s) := by
  obtain ⟨ss, h1, h2, h3⟩ := batchLoop_spec ts n batches (ts.map fun _ => Acc.zero) hw hn
    (by simp) hc
  obtain ⟨d, g1, g2, g3⟩ := finishAll_spec ts ss hw h2 hnames
  refine ⟨_, by unfold configure; rw [h1]; simp only; rw [g1], rfl, rfl, g2, ?_⟩
  intro k t ht hp htr
  obtain ⟨s, e1, e2⟩ := h3 k t Acc.zero ht (by rw [List.getElem?_map, ht]; rfl) ⟨hp, htr⟩
  obtain ⟨f, f1, f2⟩ := g3 k t s ht e1 ⟨hp, htr⟩
  have hwt := hw t (List.mem_of_getElem? ht)
  obtain ⟨f', p1, p2, p3, p4⟩ := finish_spec t hwt s
  rw [f2] at p1
  cases p1
  have hkd : keepDims t.reduceAxes t.shape =
      t.shape.mapIdx (fun k d => if k ∈ t.reduceAxes then 1 else d) := by
    unfold keepDims
    congr 1
    funext k d
    simp
  refine ⟨f, f1, by rw [p2, hkd], by rw [p3, p2], ?_⟩
  intro i js b hi hjs hne
  obtain ⟨q1, q2⟩ := p4 i js b hi hjs
  have hres : ∀ j ∈ js, s.mean j = mean (column k t.logMask (batches.take n) j) ∧
      s.m2 j / (s.n : ℝ) = popVar (column k t.logMask (batches.take n) j) := by
    intro j hj
    have hj' := ((hjs.2 j).1 hj).1
    have := e2 j [] hj' (AccInv.zero j)
    rw [List.nil_append] at this
    refine this.result ?_
    intro hnil
    apply hne
    have hlen := column_length k t.logMask t.logMask (batches.take n) i j
    rw [hnil] at hlen
    exact List.eq_nil_of_length_eq_zero hlen
  have r1 : js.map s.mean = js.map fun j => mean (column k t.logMask (batches.take n) j) :=
    List.map_congr_left fun j hj => (hres j hj).1
  have r2 : (js.map fun j => Real.sqrt (s.m2 j / (s.n : ℝ))) =
      js.map fun j => Real.sqrt (popVar (column k t.logMask (batches.take n) j)) :=
    List.map_congr_left fun j hj => by rw [(hres j hj).2]
  rw [q1, q2, r1, r2]
  exact ⟨rfl, rfl⟩

theorem mean_nonneg {l : List ℝ} (h : ∀ x ∈ l, 0 ≤ x) : 0 ≤ mean l :=
  div_nonneg (List.sum_nonneg h) (Nat.cast_nonneg _)

/-- C13. The fitted deviations are positive, so that with a positive norm constant
the transformation never divides by zero. -/
theorem C13_deviation_positive (ts : List TensorInfo) (batches : List (List Arr)) (n : Nat)
    (norm : ℝ) (hw : ∀ t ∈ ts, t.WellFormed) (hnames : (ts.map TensorInfo.name).Nodup)
    (hn : n ≤ batches.length) (hc : Conforms ts (batches.take n)) (T : Transformer)
    (hT : configure ts batches n norm = .ok T) (t : TensorInfo) (ht : t ∈ ts) (f : Fit)
    (hf : T.fits.get? t.name = some f) (hactive : t.present = true ∧ t.trafo = true)
    (hrow : ∀ (k : Nat) i, ts[k]? = some t → column k t.logMask (batches.take n) i ≠ [])
    (i : List Nat) (hi : InShape i t.shape) (b : Nat) : 0 < f.std.at (b :: i) := by
  obtain ⟨T', e1, -, -, -, e2⟩ := C13_fitted_values ts batches n norm hw hnames hn hc
  rw [hT] at e1
  cases e1
  obtain ⟨k, hlt, hk⟩ := List.mem_iff_getElem.1 ht
  have hk' : ts[k]? = some t := List.getElem?_eq_some_iff.2 ⟨hlt, hk⟩
  obtain ⟨f', g1, -, -, g2⟩ := e2 k t hk' hactive.1 hactive.2
  rw [hf] at g1
  cases g1
  have hav : Averaged t i ((indices t.shape).filter fun j => agreeOff t.reduceAxes i j) := by
    refine ⟨(nodup_indices _).filter _, fun j => ?_⟩
    rw [List.mem_filter, mem_indices]
    refine and_congr_right fun hj => ?_
    rw [agreeOff_iff _ _ _ (by rw [hi.length, hj.length])]
  obtain ⟨-, h⟩ := g2 i _ b hi hav (hrow k i hk')
  rw [h]
  simp only
  split
  · norm_num
  · rename_i hne
    refine lt_of_le_of_ne (mean_nonneg ?_) (Ne.symm hne)
    intro x hx
    obtain ⟨j, -, rfl⟩ := List.mem_map.1 hx
    exact Real.sqrt_nonneg _

/-- A parameter tensor of the examples: three parameters, the last one logarithmic. -/
def exTensor : TensorInfo :=
  { name := "x_parameters", shape := [3], present := true, trafo := true, reduceAxes := []
    logMask := some [false, false, true], logAxis := -1 }

/-- A dom charge tensor of the examples, averaged over its second axis. -/
def exDoms : TensorInfo :=
  { name := "x_dom_charge", shape := [2, 2, 1], present := true, trafo := true
    reduceAxes := [1, 2], logMask := some [true], logAxis := -1 }

/-- Batches of the examples, with two and with one event. -/
def exBatches : List (List Arr) :=
  [[⟨[2, 2, 2, 1], fun i => i.sum⟩, ⟨[2, 3], fun i => i.sum⟩],
   [⟨[1, 2, 2, 1], fun i => i.sum⟩, ⟨[1, 3], fun i => i.sum⟩]]

-- the hypotheses of C13 are met
example : (∀ t ∈ [exDoms, exTensor], t.WellFormed) ∧
    ([exDoms, exTensor].map TensorInfo.name).Nodup ∧ 2 ≤ exBatches.length ∧
    Conforms [exDoms, exTensor] (exBatches.take 2) ∧ InShape [1, 1, 0] exDoms.shape ∧
    Averaged exDoms [1, 1, 0] [[1, 0, 0], [1, 1, 0]] ∧
    column 0 exDoms.logMask (exBatches.take 2) [1, 1, 0] ≠ [] := by
  refine ⟨?_, by decide, by decide, ?_, ?_, ?_, ?_⟩
  · intro t ht
    simp only [List.mem_cons, List.not_mem_nil, or_false] at ht
    rcases ht with rfl | rfl
    · exact ⟨by intro m hm; cases hm; rfl, by decide⟩
    · exact ⟨by intro m hm; cases hm; rfl, by decide⟩
  · intro b hb
    simp only [exBatches, List.take, List.mem_cons, List.not_mem_nil, or_false] at hb
    have hcase : ∀ (k : Nat) (t : TensorInfo), [exDoms, exTensor][k]? = some t →
        (k = 0 ∧ t = exDoms) ∨ (k = 1 ∧ t = exTensor) := by
      intro k t h
      match k, h with
      | 0, h => exact Or.inl ⟨rfl, (Option.some.inj h).symm⟩
      | 1, h => exact Or.inr ⟨rfl, (Option.some.inj h).symm⟩
      | (k + 2), h => simp at h
    rcases hb with rfl | rfl
    · refine ⟨rfl, fun k t a ht ha => ?_⟩
      rcases hcase k t ht with ⟨rfl, rfl⟩ | ⟨rfl, rfl⟩
      · cases ha; exact ⟨2, rfl⟩
      · cases ha; exact ⟨2, rfl⟩
    · refine ⟨rfl, fun k t a ht ha => ?_⟩
      rcases hcase k t ht with ⟨rfl, rfl⟩ | ⟨rfl, rfl⟩
      · cases ha; exact ⟨1, rfl⟩
      · cases ha; exact ⟨1, rfl⟩
  · exact .cons (by decide) (.cons (by decide) (.cons (by decide) .nil))
  · refine ⟨by decide, fun j => ?_⟩
    constructor
    · intro h
      simp only [List.mem_cons, List.not_mem_nil, or_false] at h
      rcases h with rfl | rfl
      · refine ⟨.cons (by decide) (.cons (by decide) (.cons (by decide) .nil)), fun k hk => ?_⟩
        match k, hk with
        | 0, _ => rfl
        | 1, hk => exact absurd (by decide) hk
        | 2, hk => exact absurd (by decide) hk
        | (k + 3), _ => rfl
      · exact ⟨.cons (by decide) (.cons (by decide) (.cons (by decide) .nil)), fun k _ => rfl⟩
    · rintro ⟨h, h'⟩
      cases h with | cons h1 h =>
      cases h with | cons h2 h =>
      cases h with | cons h3 h =>
      cases h
      have h0 := h' 0 (by decide)
      simp only [List.getElem?_cons_zero, Option.some.injEq] at h0
      subst h0
      rename_i x y
      have hy : y = 0 := by omega
      have hx : x = 0 ∨ x = 1 := by omega
      subst hy
      rcases hx with rfl | rfl <;> decide
  · simp [column, exBatches]

/-! ## C14: inverse transformation -/

/-- A trafo model that knows the tensor: the tensor is well formed with the log
axis last, it has fitted values, the norm constant is positive and the deviations
are not negative (C13: they are positive). -/
structure Knows (T : Transformer) (name : String) (t : TensorInfo) (f : Fit) : Prop where
  tensor : T.tensors.find? (fun t => t.name == name) = some t
  fit : T.fits.get? name = some f
  wellFormed : t.WellFormed
  axis : t.logAxis = -1
  norm : 0 < T.norm
  std : ∀ i b, InShape i t.shape → 0 ≤ f.std.at (b :: i)

theorem Knows.ne_zero {T : Transformer} {name : String} {t : TensorInfo} {f : Fit}
    (h : Knows T name t f) {B : Nat} {i : List Nat} (hi : InShape i (B :: t.shape)) :
    T.norm + f.std.at i ≠ 0 := by
  cases hi with
  | cons _ hi =>
    have := h.std _ ‹Nat› hi
    have := h.norm
    positivity

theorem Knows.check {T : Transformer} {name : String} {t : TensorInfo} {f : Fit}
    (h : Knows T name t f) (a : Arr) (B : Nat) (ha : a.shape = B :: t.shape) :
    checkSettings T a name = .ok t := by
  unfold checkSettings Transformer.find
  rw [h.tensor, ha]
  simp

/-- The mask applies to the whole last axis. -/
def AllLogged (t : TensorInfo) : Prop := ∀ m, t.logMask = some m → m.all id = true

open Classical in
theorem logPart_spec {T : Transformer} {name : String} {t : TensorInfo} {f : Fit}
    (h : Knows T name t f) (bias : Bool) (a : Arr) (B : Nat) (ha : a.shape = B :: t.shape) :
    ∃ b, logPart t bias a = .ok b ∧ b.shape = a.shape ∧ ∀ i, InShape i a.shape →
      b.val i = if bias = true ∧ Logged t.logMask i then Real.log (1 + a.val i) else a.val i := by
  unfold logPart
  cases hb : bias && t.logMask.isSome with
  | true =>
    simp only [Bool.and_eq_true] at hb
    obtain ⟨b, h1, h2, h3⟩ := applyMask_spec (fun x => Real.log (1 + x))
      (fun x => Real.log (1 + x)) t.logMask t.shape a B ha h.wellFormed.mask
    refine ⟨b, by simp [h.axis, h1], h2, fun i hi => ?_⟩
    rw [h3 i hi, ite_self]
    exact if_congr (by simp [hb.1]) rfl rfl
  | false =>
    refine ⟨a, by simp, rfl, fun i _ => ?_⟩
    rw [if_neg]
    rintro ⟨h1, m, k, hm, -⟩
    rw [h1, hm] at hb
    cases hb

open Classical in
theorem expPart_spec {T : Transformer} {name : String} {t : TensorInfo} {f : Fit}
    (h : Knows T name t f) (isTf bias : Bool) (a : Arr) (B : Nat) (ha : a.shape = B :: t.shape) :
    ∃ b, expPart t isTf bias a = .ok b ∧ b.shape = a.shape ∧ ∀ i, InShape i a.shape →
      b.val i = if bias = true ∧ Logged t.logMask i then
        (if isTf = true ∧ ¬ AllLogged t then Real.exp (clip60 (a.val i)) - 1
          else Real.exp (a.val i) - 1) else a.val i := by
  unfold expPart
  cases hb : bias && t.logMask.isSome with
  | true =>
    simp only [Bool.and_eq_true] at hb
    obtain ⟨b, h1, h2, h3⟩ := applyMask_spec (fun x => Real.exp x - 1)
      (fun x => if isTf then Real.exp (clip60 x) - 1 else Real.exp x - 1)
      t.logMask t.shape a B ha h.wellFormed.mask
    refine ⟨b, by simp [h.axis, h1], h2, fun i hi => ?_⟩
    rw [h3 i hi]
    refine if_congr (by simp [hb.1]) ?_ rfl
    by_cases hal : AllLogged t
    · rw [if_pos (c := ∀ m, t.logMask = some m → m.all id = true) hal, if_neg (by simp [hal])]
    · rw [if_neg (c := ∀ m, t.logMask = some m → m.all id = true) hal]
      exact if_congr (by simp [hal]) rfl rfl
  | false =>
    refine ⟨a, by simp, rfl, fun i _ => ?_⟩
    rw [if_neg]
    rintro ⟨h1, m, k, hm, -⟩
    rw [h1, hm] at hb
    cases hb

theorem exp_clip_log (y : ℝ) (hy : 0 < y) :
    Real.exp (clip60 (Real.log y)) = max (Real.exp (-60)) (min y (Real.exp 60)) := by
  unfold clip60
  rw [Real.exp_monotone.map_max, Real.exp_monotone.map_min, Real.exp_log hy]

open Classical in
/-- C14. `inverse_transform` after `transform`, for numpy and tensorflow, with and
without bias correction and for every log mask: every entry comes back unchanged,
provided `1 + x` is positive where the logarithm is applied. The only exception:
tensorflow with a mask that is not all true returns the value limited to
`[exp(-60) - 1, exp(60) - 1]` at the logarithmic entries; that is what is missing
for the full property. -/
theorem C14_inverse_of_transform_partial (T : Transformer) (name : String) (t : TensorInfo)
    (f : Fit) (h : Knows T name t f) (a : Arr) (B : Nat) (ha : a.shape = B :: t.shape)
    (isTf bias : Bool)
    (hdom : bias = true → ∀ i, InShape i a.shape → Logged t.logMask i → 0 < 1 + a.val i) :
    ∃ b c, T.transform a name bias = .ok b ∧ b.shape = a.shape ∧
      T.inverse b name isTf bias = .ok c ∧ c.shape = a.shape ∧
      ∀ i, InShape i a.shape → c.val i =
        if isTf = true ∧ bias = true ∧ Logged t.logMask i ∧ ¬ (∀ m, t.logMask = some m → m.all id)
        then max (Real.exp (-60) - 1) (min (a.val i) (Real.exp 60 - 1))
        else a.val i := by
  obtain ⟨b, h1, h2, h3⟩ := logPart_spec h bias a B ha
  let b' : Arr := { b with val := fun i =>
    (if bias then b.val i - f.mean.at i else b.val i) / (T.norm + f.std.at i) }
  have hT : T.transform a name bias = .ok b' := by
    unfold Transformer.transform
    rw [h.check a B ha]; simp only; rw [h1]; simp only; rw [h.fit]
  have hb' : b'.shape = B :: t.shape := h2.trans ha
  obtain ⟨c, g1, g2, g3⟩ := expPart_spec h isTf bias
    { b' with val := fun i =>
        if bias then b'.val i * (T.norm + f.std.at i) + f.mean.at i
        else b'.val i * (T.norm + f.std.at i) } B hb'
  refine ⟨b', c, hT, h2, ?_, g2.trans h2, ?_⟩
  · unfold Transformer.inverse
    rw [h.check b' B hb']; simp only; rw [h.fit]; exact g1
  · intro i hi
    have hi' : InShape i b'.shape := by
      show InShape i b.shape
      rw [h2]; exact hi
    rw [g3 i hi']
    have hne := h.ne_zero (B := B) (by rw [← ha]; exact hi)
    have hmid : (if bias then b'.val i * (T.norm + f.std.at i) + f.mean.at i
        else b'.val i * (T.norm + f.std.at i)) = b.val i := by
      cases bias with
      | true =>
        simp only [b', if_true]
        rw [div_mul_cancel₀ _ hne]; ring
      | false =>
        simp only [b', Bool.false_eq_true, if_false]
        rw [div_mul_cancel₀ _ hne]
    simp only
    rw [hmid, h3 i hi]
    by_cases hl : bias = true ∧ Logged t.logMask i
    · rw [if_pos hl, if_pos hl]
      have hpos := hdom hl.1 i hi hl.2
      rw [exp_clip_log _ hpos, Real.exp_log hpos]
      by_cases htf : isTf = true ∧ ¬ AllLogged t
      · rw [if_pos htf, if_pos ⟨htf.1, hl.1, hl.2, htf.2⟩]
        rw [← max_sub_sub_right, ← min_sub_sub_right]
        simp
      · rw [if_neg htf, if_neg (fun hh => htf ⟨hh.1, hh.2.2.2⟩)]
        ring
    · rw [if_neg hl, if_neg hl, if_neg (fun hh => hl ⟨hh.2.1, hh.2.2.1⟩)]

open Classical in
/-- C14. `transform` after `inverse_transform`: every entry comes back unchanged;
tensorflow with a mask that is not all true requires the denormalised value of the
logarithmic entries to lie in `[-60, 60]`. -/
theorem C14_transform_of_inverse_partial (T : Transformer) (name : String) (t : TensorInfo)
    (f : Fit) (h : Knows T name t f) (a : Arr) (B : Nat) (ha : a.shape = B :: t.shape)
    (isTf bias : Bool) :
    ∃ b c, T.inverse a name isTf bias = .ok b ∧ b.shape = a.shape ∧
      T.transform b name bias = .ok c ∧ c.shape = a.shape ∧
      ∀ i, InShape i a.shape →
        (isTf = true → bias = true → Logged t.logMask i →
          ¬ (∀ m, t.logMask = some m → m.all id) →
          |a.val i * (T.norm + f.std.at i) + f.mean.at i| ≤ 60) →
        c.val i = a.val i := by
  obtain ⟨b, g1, g2, g3⟩ := expPart_spec h isTf bias
    { a with val := fun i =>
        if bias then a.val i * (T.norm + f.std.at i) + f.mean.at i
        else a.val i * (T.norm + f.std.at i) } B ha
  have g2' : b.shape = a.shape := g2
  have hT : T.inverse a name isTf bias = .ok b := by
    unfold Transformer.inverse
    rw [h.check a B ha]; simp only; rw [h.fit]; exact g1
  obtain ⟨c, h1, h2, h3⟩ := logPart_spec h bias b B (g2'.trans ha)
  refine ⟨b, { c with val := fun i =>
    (if bias then c.val i - f.mean.at i else c.val i) / (T.norm + f.std.at i) }, hT, g2', ?_,
    h2.trans g2', ?_⟩
  · unfold Transformer.transform
    rw [h.check b B (g2'.trans ha)]; simp only; rw [h1]; simp only; rw [h.fit]
  · intro i hi hclip
    have hne := h.ne_zero (B := B) (by rw [← ha]; exact hi)
    simp only
    rw [h3 i (by rw [g2']; exact hi), g3 i hi]
    by_cases hl : bias = true ∧ Logged t.logMask i
    · rw [if_pos hl, if_pos hl]
      simp only [hl.1, if_true]
      have hexp : (if isTf = true ∧ ¬ AllLogged t then
          Real.exp (clip60 (a.val i * (T.norm + f.std.at i) + f.mean.at i)) - 1
          else Real.exp (a.val i * (T.norm + f.std.at i) + f.mean.at i) - 1) =
          Real.exp (a.val i * (T.norm + f.std.at i) + f.mean.at i) - 1 := by
        split
        · rename_i htf
          have hb := abs_le.1 (hclip htf.1 hl.1 hl.2 htf.2)
          unfold clip60
          rw [min_eq_left hb.2, max_eq_right hb.1]
        · rfl
      rw [hexp, show (1 : ℝ) + (Real.exp (a.val i * (T.norm + f.std.at i) + f.mean.at i) - 1) =
        Real.exp (a.val i * (T.norm + f.std.at i) + f.mean.at i) by ring, Real.log_exp]
      field_simp
      ring
    · rw [if_neg hl, if_neg hl]
      cases bias with
      | true => simp only [if_true]; field_simp; ring
      | false => simp only [Bool.false_eq_true, if_false]; field_simp

open Classical in
/-- C14. What `transform` returns: the logarithm of `1 + x` where configured, minus
the mean, divided by norm constant plus deviation; without bias correction only
the division is done. -/
theorem C14_transform_value (T : Transformer) (name : String) (t : TensorInfo)
    (f : Fit) (h : Knows T name t f) (a : Arr) (B : Nat) (ha : a.shape = B :: t.shape) :
    (∃ b, T.transform a name true = .ok b ∧ b.shape = a.shape ∧ ∀ i, InShape i a.shape →
      b.val i = ((if Logged t.logMask i then Real.log (1 + a.val i) else a.val i) - f.mean.at i) /
        (T.norm + f.std.at i)) ∧
    (∃ b, T.transform a name false = .ok b ∧ b.shape = a.shape ∧ ∀ i, InShape i a.shape →
      b.val i = a.val i / (T.norm + f.std.at i)) := by
  constructor
  · obtain ⟨b, h1, h2, h3⟩ := logPart_spec h true a B ha
    refine ⟨{ b with val := fun i =>
        (if true = true then b.val i - f.mean.at i else b.val i) / (T.norm + f.std.at i) }, by
      unfold Transformer.transform
      rw [h.check a B ha]; simp only; rw [h1]; simp only; rw [h.fit], h2, fun i hi => ?_⟩
    simp only [if_true]
    rw [h3 i hi]
    simp only [true_and]
  · obtain ⟨b, h1, h2, h3⟩ := logPart_spec h false a B ha
    refine ⟨{ b with val := fun i =>
        (if false = true then b.val i - f.mean.at i else b.val i) / (T.norm + f.std.at i) }, by
      unfold Transformer.transform
      rw [h.check a B ha]; simp only; rw [h1]; simp only; rw [h.fit], h2, fun i hi => ?_⟩
    simp only [Bool.false_eq_true, if_false]
    rw [h3 i hi]
    simp only [Bool.false_eq_true, false_and, if_false]

/-- A trafo model of the examples. -/
noncomputable def exTrafo : Transformer :=
  { tensors := [exDoms, exTensor], norm := 1
    fits := [("x_parameters", { mean := ⟨[3], fun _ => 0⟩, std := ⟨[3], fun _ => 2⟩ })] }

theorem exKnows : Knows exTrafo "x_parameters" exTensor
    { mean := ⟨[3], fun _ => 0⟩, std := ⟨[3], fun _ => 2⟩ } where
  tensor := rfl
  fit := rfl
  wellFormed := ⟨by intro m hm; cases hm; rfl, by decide⟩
  axis := rfl
  norm := by simp [exTrafo]
  std := by intro i b _; simp [Arr.at]

-- the hypotheses of C14 are met, with a logarithmic and with other entries
example : ∃ a : Arr, a.shape = 2 :: exTensor.shape ∧
    (∀ i, InShape i a.shape → Logged exTensor.logMask i → 0 < 1 + a.val i) ∧
    Logged exTensor.logMask [0, 2] ∧ ¬ Logged exTensor.logMask [0, 1] := by
  refine ⟨⟨[2, 3], fun i => i.sum⟩, rfl, fun i _ _ => ?_, ⟨_, 2, rfl, rfl, rfl⟩, ?_⟩
  · have : (0 : ℝ) ≤ (i.sum : ℕ) := Nat.cast_nonneg _
    show (0 : ℝ) < 1 + ((i.sum : ℕ) : ℝ)
    linarith
  · rintro ⟨m, k, h1, h2, h3⟩
    cases h1; cases h2; cases h3

/-- C14 is violated by the tensorflow branch: with a mask that is not all true, a
logarithmic parameter above `exp(60)` does not come back. -/
theorem C14_tensorflow_clip_violated : ∃ (T : Transformer) (a b c : Arr),
    T.transform a "x_parameters" = .ok b ∧ T.inverse b "x_parameters" true = .ok c ∧
    InShape [0, 2] a.shape ∧ 0 < 1 + a.val [0, 2] ∧ c.val [0, 2] ≠ a.val [0, 2] := by
  have hpos : ∀ i, InShape i (⟨[1, 3], fun _ => Real.exp 60⟩ : Arr).shape →
      Logged exTensor.logMask i → 0 < 1 + (⟨[1, 3], fun _ => Real.exp 60⟩ : Arr).val i := by
    intro i _ _
    have := Real.exp_pos 60
    show 0 < 1 + Real.exp 60
    linarith
  obtain ⟨b, c, h1, -, h2, -, h3⟩ := C14_inverse_of_transform_partial exTrafo "x_parameters"
    exTensor _ exKnows ⟨[1, 3], fun _ => Real.exp 60⟩ 1 rfl true true (fun _ => hpos)
  have hin : InShape [0, 2] [1, 3] := .cons (by decide) (.cons (by decide) .nil)
  refine ⟨exTrafo, _, b, c, h1, h2, hin, hpos _ hin ⟨_, 2, rfl, rfl, rfl⟩, ?_⟩
  rw [h3 _ hin, if_pos]
  · show max (Real.exp (-60) - 1) (min (Real.exp 60) (Real.exp 60 - 1)) ≠ Real.exp 60
    have e1 : Real.exp (-60) ≤ Real.exp 60 := Real.exp_le_exp.2 (by norm_num)
    rw [min_eq_right (by linarith), max_eq_right (by linarith)]
    linarith
  · exact ⟨rfl, rfl, ⟨_, 2, rfl, rfl, rfl⟩, fun h => by simpa using h _ rfl⟩

/-- C14. What is rejected: an unknown tensor name, data whose shape differs from the
tensor's off the batch axis, and (with bias correction) a log axis other than the
last. A tensor without fitted values is a KeyError. -/
theorem C14_rejected (T : Transformer) (name : String) (a : Arr) (isTf bias : Bool) :
    ((∀ t ∈ T.tensors, t.name ≠ name) →
      T.transform a name bias = .error .valueError ∧
      T.inverse a name isTf bias = .error .valueError) ∧
    (∀ t, T.tensors.find? (fun t => t.name == name) = some t →
      (∀ B s, a.shape = B :: s → s ≠ t.shape →
        T.transform a name bias = .error .valueError ∧
        T.inverse a name isTf bias = .error .valueError) ∧
      (∀ B, a.shape = B :: t.shape → bias = true → t.logMask ≠ none → t.logAxis ≠ -1 →
        T.transform a name bias = .error .notImplementedError) ∧
      (∀ B, a.shape = B :: t.shape → t.logMask = none → T.fits.get? name = none →
        T.transform a name bias = .error .keyError ∧
        T.inverse a name isTf bias = .error .keyError)) := by
  constructor
  · intro h
    have : T.tensors.find? (fun t => t.name == name) = none := by
      rw [List.find?_eq_none]; intro t ht; simpa using h t ht
    simp [Transformer.transform, Transformer.inverse, checkSettings, Transformer.find, this]
  · intro t ht
    refine ⟨?_, ?_, ?_⟩
    · intro B s hs hne
      simp [Transformer.transform, Transformer.inverse, checkSettings, Transformer.find, ht, hs, hne]
    · intro B hs hb hm hx
      have hm' : t.logMask.isSome = true := Option.isSome_iff_ne_none.2 hm
      simp [Transformer.transform, checkSettings, Transformer.find, ht, hs, logPart, hb, hm', hx]
    · intro B hs hm hf
      simp [Transformer.transform, Transformer.inverse, checkSettings, Transformer.find, ht, hs,
        logPart, hm, hf]

/-! ## C15: covariance matrices -/

theorem sum_range_single (n k : Nat) (hk : k < n) (f : Nat → ℝ) (hf : ∀ j, j ≠ k → f j = 0) :
    ((List.range n).map f).sum = f k := by
  induction n with
  | zero => omega
  | succ n ih =>
    rw [List.range_succ, List.map_append, List.sum_append]
    simp only [List.map_cons, List.map_nil, List.sum_singleton]
    by_cases h : k = n
    · subst h
      rw [List.sum_eq_zero, zero_add]
      intro x hx
      obtain ⟨j, hj, rfl⟩ := List.mem_map.1 hx
      exact hf j (by have := List.mem_range.1 hj; omega)
    · rw [ih (by omega), hf n (Ne.symm h), add_zero]

/-- C15. `inverse_transform_cov` of an `n` by `n` matrix is `J C J` for the
diagonal matrix `J` of norm constant plus deviations. -/
theorem C15_jacobian (T : Transformer) (name : String) (t : TensorInfo) (f : Fit)
    (h : Knows T name t f) (n : Nat) (hn : t.shape = [n]) (hs : f.std.shape = [n]) (C : Arr)
    (hC : C.shape = [n, n]) :
    ∃ R, T.inverseCov C name = .ok R ∧ R.shape = [n, n] ∧ ∀ i j, i < n → j < n →
      R.val [i, j] = (T.norm + f.std.val [i]) * C.val [i, j] * (T.norm + f.std.val [j]) := by
  unfold Transformer.inverseCov
  rw [h.check C n (by rw [hC, hn]), h.fit]
  simp only [diag, hs, matmul, hC, if_true]
  refine ⟨_, rfl, rfl, fun i j hi hj => ?_⟩
  simp only
  rw [sum_range_single n j hj _ (fun k hk => by simp [hk]), if_pos rfl,
    sum_range_single n i hi _ (fun k hk => by simp [Ne.symm hk]), if_pos rfl]

/-- C15. Covariances of wrong shape are rejected. -/
theorem C15_shape (T : Transformer) (name : String) (t : TensorInfo) (f : Fit)
    (h : Knows T name t f) (n : Nat) (hn : t.shape = [n]) (hs : f.std.shape = [n]) (C : Arr) :
    (∃ R, T.inverseCov C name = .ok R) ↔ C.shape = [n, n] := by
  constructor
  · rintro ⟨R, hR⟩
    unfold Transformer.inverseCov checkSettings Transformer.find at hR
    rw [h.tensor, h.fit] at hR
    simp only [diag, hs, matmul, hn] at hR
    cases hsh : C.shape with
    | nil => rw [hsh] at hR; cases hR
    | cons b s =>
      rw [hsh] at hR
      simp only at hR
      by_cases hs' : s = [n]
      · subst hs'
        by_cases hb : n = b
        · rw [hb]
        · simp [hb] at hR
      · simp [hs'] at hR
  · intro hC
    obtain ⟨R, hR, -⟩ := C15_jacobian T name t f h n hn hs C hC
    exact ⟨R, hR⟩

/-- C15. The matrix `J` is the linear part of the inverse transform: for the outer
product of two difference vectors, the result is the outer product of their
inverse transforms without bias correction. -/
theorem C15_outer_product (T : Transformer) (name : String) (t : TensorInfo) (f : Fit)
    (h : Knows T name t f) (n : Nat) (hn : t.shape = [n]) (hs : f.std.shape = [n])
    (v w : Nat → ℝ) (isTf : Bool) :
    ∃ R V W, T.inverseCov ⟨[n, n], fun i => match i with | [p, q] => v p * w q | _ => 0⟩ name = .ok R ∧
      T.inverse ⟨[1, n], fun i => match i with | [_, q] => v q | _ => 0⟩ name isTf false = .ok V ∧
      T.inverse ⟨[1, n], fun i => match i with | [_, q] => w q | _ => 0⟩ name isTf false = .ok W ∧
      ∀ i j, i < n → j < n → R.val [i, j] = V.val [0, i] * W.val [0, j] := by
  obtain ⟨R, h1, h2, h3⟩ := C15_jacobian T name t f h n hn hs
    ⟨[n, n], fun i => match i with | [p, q] => v p * w q | _ => 0⟩ rfl
  have hinv : ∀ u : Nat → ℝ, ∃ V,
      T.inverse ⟨[1, n], fun i => match i with | [_, q] => u q | _ => 0⟩ name isTf false = .ok V ∧
      ∀ i, i < n → V.val [0, i] = u i * (T.norm + f.std.val [i]) := by
    intro u
    refine ⟨_, by
      unfold Transformer.inverse
      rw [h.check _ 1 (by simp [hn]), h.fit]
      simp only [expPart, Bool.false_and, Bool.false_eq_true, if_false]
      rfl, ?_⟩
    · intro i hi
      simp only [Arr.at, hs, bcast, List.tail_cons, List.zipWith_cons_cons, List.zipWith_nil_left]
      by_cases h1 : n = 1
      · have : i = 0 := by omega
        subst this
        simp [h1]
      · simp [h1]
  obtain ⟨V, v1, v2⟩ := hinv v
  obtain ⟨W, w1, w2⟩ := hinv w
  refine ⟨R, V, W, h1, v1, w1, fun i j hi hj => ?_⟩
  rw [h3 i j hi hj, v2 i hi, w2 j hj]
  ring

/-- A quadratic form `v C v`. -/
noncomputable def quad (n : Nat) (C : Arr) (v : Nat → ℝ) : ℝ :=
  ((List.range n).map fun i => ((List.range n).map fun j => v i * C.val [i, j] * v j).sum).sum

/-- C15. The result is symmetric if the input is, positive semidefinite if the
input is, and dividing by the deviations gives the input back. -/
theorem C15_preserves (T : Transformer) (name : String) (t : TensorInfo) (f : Fit)
    (h : Knows T name t f) (n : Nat) (hn : t.shape = [n]) (hs : f.std.shape = [n]) (C R : Arr)
    (hC : C.shape = [n, n]) (hR : T.inverseCov C name = .ok R) :
    ((∀ i j, i < n → j < n → C.val [i, j] = C.val [j, i]) →
      ∀ i j, i < n → j < n → R.val [i, j] = R.val [j, i]) ∧
    ((∀ v, 0 ≤ quad n C v) → ∀ v, 0 ≤ quad n R v) ∧
    (∀ i j, i < n → j < n →
      R.val [i, j] / (T.norm + f.std.val [i]) / (T.norm + f.std.val [j]) = C.val [i, j]) := by
  obtain ⟨R', h1, -, h3⟩ := C15_jacobian T name t f h n hn hs C hC
  rw [hR] at h1
  cases h1
  refine ⟨?_, ?_, ?_⟩
  · intro hsym i j hi hj
    rw [h3 i j hi hj, h3 j i hj hi, hsym i j hi hj]
    ring
  · intro hpsd v
    have := hpsd (fun i => v i * (T.norm + f.std.val [i]))
    have he : quad n R v = quad n C (fun i => v i * (T.norm + f.std.val [i])) := by
      unfold quad
      refine congrArg List.sum (List.map_congr_left fun i hi => ?_)
      refine congrArg List.sum (List.map_congr_left fun j hj => ?_)
      rw [h3 i j (List.mem_range.1 hi) (List.mem_range.1 hj)]
      ring
    rw [he]
    exact this
  · intro i j hi hj
    rw [h3 i j hi hj]
    have hpos : ∀ i, i < n → T.norm + f.std.val [i] ≠ 0 := by
      intro i hi
      have hin : InShape [0, i] (1 :: t.shape) := by
        rw [hn]; exact .cons (by decide) (.cons hi .nil)
      have := h.ne_zero hin
      simp only [Arr.at, hs, bcast, List.tail_cons, List.zipWith_cons_cons,
        List.zipWith_nil_left] at this
      by_cases h1 : n = 1
      · have : i = 0 := by omega
        subst this
        simpa [h1] using this
      · simpa [h1] using this
    have h1 := hpos i hi
    have h2 := hpos j hj
    field_simp

-- the hypotheses of C15 are met
example : Knows exTrafo "x_parameters" exTensor
    { mean := ⟨[3], fun _ => 0⟩, std := ⟨[3], fun _ => 2⟩ } ∧ exTensor.shape = [3] :=
  ⟨exKnows, rfl⟩

end Verif.Trafo
