import Verif.Loss.Lemmas
import Verif.Dist.Props
import Mathlib.Analysis.SpecialFunctions.Pow.Real
import Mathlib.Tactic.Positivity
import Mathlib.Tactic.FieldSimp

/-! # C35 to C38 and C67: losses -/

namespace Verif.Loss
open Verif.Py Verif.Dist

variable {B P : ℕ}

/-! ## C35 -/

/-- C35: for all loss functions, data and predictions of a batch that is not empty, the scalar
loss, the loss terms and the sorted loss terms are all refused with the same error, or the terms
and the sorted terms both add up to the scalar. Missing for the full property: the normalization
terms of two of the loss functions, see `C35_extended_violated` and `C35_shapes_violated`. -/
theorem C35_sum_partial (cfg : Config) (d : Batch B P) (r : Results B P) (normalize : Bool)
    (hB : 0 < B)
    (h : cfg.addNorm = false ∨ (cfg.function ≠ .extended ∧ cfg.function ≠ .pulseAndDom)) :
    (∃ e, getLoss cfg d r true normalize false = .error e ∧
      getLoss cfg d r false normalize false = .error e ∧
      getLoss cfg d r false normalize true = .error e) ∨
    ∃ x l s, getLoss cfg d r true normalize false = .ok (.scalar x) ∧
      getLoss cfg d r false normalize false = .ok (.terms l) ∧
      getLoss cfg d r false normalize true = .ok (.sorted s) ∧
      (l.map Term.total).sum = x ∧ s.total = x := by
  unfold getLoss
  simp only [Bool.and_false, Bool.false_and, Bool.false_eq_true, if_false, if_true]
  rcases lossFunction_consistent cfg d r h with ⟨e, h1, h2⟩ | ⟨l, s, h1, h2, h0, ht⟩
  · left
    exact ⟨e, by simp [h1], by simp [h1], by simp [h2]⟩
  · right
    have hfill : fill s = .ok ⟨0, s.event.getD fun _ => 0, s.dom.getD fun _ => 0⟩ := by
      unfold fill
      rw [h0]
      simp only
      rw [if_neg (by omega)]
    have htot : Sorted.total ⟨0, s.event.getD fun _ => 0, s.dom.getD fun _ => 0⟩ =
        (l.map Term.total).sum := by
      rw [← ht]
      simp [Partial.total, Sorted.total, h0]
    simp only [h1, h2, hfill]
    refine ⟨_, _, _, rfl, rfl, rfl, rfl, ?_⟩
    cases normalize
    · simpa using htot
    · simp only [if_true]
      rw [sorted_divide, totals_divide, htot]

/-- C35: asking for a scalar and for sorted terms is refused. -/
theorem C35_both (cfg : Config) (d : Batch B P) (r : Results B P) (normalize : Bool) :
    getLoss cfg d r true normalize true = .error .valueError := rfl

/-- A case: one event, one pulse, the extended likelihood. -/
example : ∃ x, getLoss (B := 1) (P := 1) ⟨.extended, false, none, none⟩
    ⟨fun _ => 2, fun _ => 1, fun _ => (0, 3, 4), fun c => if c = (0, 3, 4) then 2 else 0, none, false⟩
    ⟨some fun _ => 1, none, none, some fun _ => 1 / 2, none, false⟩ true true false =
      .ok (.scalar x) := ⟨_, rfl⟩

/-- C35 is false of the code for the extended likelihood with normalization terms: the sorted
terms do not depend on the predictions at all; they lack the likelihood, which is the difference
to the scalar loss. -/
theorem C35_extended_violated (cfg : Config) (hf : cfg.function = .extended)
    (hn : cfg.addNorm = true) (d : Batch B P) (hB : 0 < B) (ht : d.timeExclusions = false)
    (r r' : Results B P) (q q' : Cell B → ℝ) (pdf pdf' : Fin P → ℝ)
    (hq : r.domCharges = some q) (hq' : r'.domCharges = some q')
    (hp : r.pulsePdf = some pdf) (hp' : r'.pulsePdf = some pdf') :
    ∃ x s, getLoss cfg d r true false false = .ok (.scalar x) ∧
      getLoss cfg d r false false true = .ok (.sorted s) ∧
      getLoss cfg d r' false false true = .ok (.sorted s) ∧
      ∃ y, getLoss { cfg with addNorm := false } d r true false false = .ok (.scalar y) ∧
        x - s.total = y := by
  have hc : ∀ r : Results B P, checkTime d r = .ok () := by intro r; simp [checkTime, ht]
  have hsort : ∀ (r : Results B P) q pdf, r.domCharges = some q → r.pulsePdf = some pdf →
      lossFunction cfg d r true = .ok (.sorted ⟨none, none,
        some (scatterAdd (fun c => logFaculty (masked d d.domCharge c)) d.ids
          fun p => logFaculty (d.charge p))⟩) := by
    intro r q pdf h1 h2
    simp only [lossFunction, hf, extended, need_bind, h1, h2, hc, ok_bind, hn]
    rfl
  have hplain : lossFunction cfg d r false = .ok (.plain
      [.dom fun c => masked d q c - masked d d.domCharge c * Real.log (masked d q c + 1e-7),
       .pulse (timeLoss d pdf), .pulse fun p => logFaculty (d.charge p),
       .dom fun c => logFaculty (masked d d.domCharge c)]) := by
    simp only [lossFunction, hf, extended, need_bind, hq, hp, hc, ok_bind, hn]
    rfl
  have hplain' : lossFunction { cfg with addNorm := false } d r false = .ok (.plain
      [.dom fun c => masked d q c - masked d d.domCharge c * Real.log (masked d q c + 1e-7),
       .pulse (timeLoss d pdf)]) := by
    simp only [lossFunction, hf, extended, need_bind, hq, hp, hc, ok_bind]
    rfl
  have hB' : B ≠ 0 := by omega
  unfold getLoss
  simp only [Bool.and_false, Bool.false_and, Bool.false_eq_true, if_false, if_true,
    hsort r q pdf hq hp, hsort r' q' pdf' hq' hp', hplain, hplain', fill, if_neg hB']
  refine ⟨_, _, rfl, rfl, rfl, _, rfl, ?_⟩
  simp only [List.map_cons, List.map_nil, List.sum_cons, List.sum_nil, Term.total, Sorted.total,
    Option.getD_none, Option.getD_some, sum_scatterAdd, Finset.sum_const_zero]
  ring

/-- Such a batch where the totals differ: no pulses and a predicted charge of one at each DOM. -/
example : ∃ x s, getLoss (B := 1) (P := 0) ⟨.extended, true, none, none⟩
    ⟨fun _ => 0, fun _ => 0, fun _ => 0, fun _ => 0, none, false⟩
    ⟨some fun _ => 1, none, none, some fun _ => 0, none, false⟩ true false false = .ok (.scalar x) ∧
    getLoss (B := 1) (P := 0) ⟨.extended, true, none, none⟩
    ⟨fun _ => 0, fun _ => 0, fun _ => 0, fun _ => 0, none, false⟩
    ⟨some fun _ => 1, none, none, some fun _ => 0, none, false⟩ false false true =
      .ok (.sorted s) ∧ s.total ≠ x := by
  obtain ⟨x, s, h1, h2, -, y, h3, h4⟩ := C35_extended_violated (B := 1) (P := 0)
    ⟨.extended, true, none, none⟩ rfl rfl
    ⟨fun _ => 0, fun _ => 0, fun _ => 0, fun _ => 0, none, false⟩ (by decide) rfl
    ⟨some fun _ => 1, none, none, some fun _ => 0, none, false⟩
    ⟨some fun _ => 1, none, none, some fun _ => 0, none, false⟩ _ _ _ _ rfl rfl rfl rfl
  refine ⟨x, s, h1, h2, ?_⟩
  have hy : (.ok (.scalar y) : Except Err (Out 1 0)) = .ok (.scalar (([Term.dom fun c =>
      (1 : ℝ) - 0 * Real.log (1 + 1e-7), .pulse _].map Term.total).sum)) := h3.symm
  simp only [Except.ok.injEq, Out.scalar.injEq] at hy
  simp [Term.total] at hy
  intro he
  rw [he, hy] at h4
  norm_num at h4

/-- C35 is false of the code for the charge pdf with normalization terms: the shapes of the sorted
terms do not fit, for any number of events, although the scalar loss exists. -/
theorem C35_shapes_violated (cfg : Config) (hf : cfg.function = .pulseAndDom)
    (hn : cfg.addNorm = true) (d : Batch B P) (ht : d.timeExclusions = false)
    (r : Results B P) (hl : r.domLogPdf.isSome) (hp : r.pulsePdf.isSome) (normalize : Bool) :
    getLoss cfg d r false normalize true = .error .valueError ∧
      ∃ x, getLoss cfg d r true normalize false = .ok (.scalar x) := by
  obtain ⟨l, hl⟩ := Option.isSome_iff_exists.1 hl
  obtain ⟨pdf, hp⟩ := Option.isSome_iff_exists.1 hp
  have hc : checkTime d r = .ok () := by simp [checkTime, ht]
  have hb : broadcast [60, 86, B] [1, 60, 86, B] = none := by
    simp [broadcast, broadcastDim]
  have h1 : lossFunction cfg d r true = .error .valueError := by
    simp only [lossFunction, hf, pulseAndDom, need_bind, hl, hp, hc, ok_bind, hn, hb]
    rfl
  have h2 : ∃ t, lossFunction cfg d r false = .ok (.plain t) := by
    simp only [lossFunction, hf, pulseAndDom, need_bind, hl, hp, hc, ok_bind, hn]
    exact ⟨_, rfl⟩
  obtain ⟨t, h2⟩ := h2
  unfold getLoss
  simp [h1, h2]

/-! ## C36 -/

theorem multiScalar_eq (ms : List (Module B P)) (xs : List ℝ)
    (h : ms.map Module.scalar = xs.map Except.ok) (a : ℝ) :
    multiScalar (some a) ms = .ok (some (a + xs.sum)) := by
  induction ms generalizing xs a with
  | nil =>
    cases xs with
    | nil => simp [multiScalar]
    | cons x xs => simp at h
  | cons m ms ih =>
    cases xs with
    | nil => simp at h
    | cons x xs =>
      simp only [List.map_cons, List.cons.injEq] at h
      simp only [multiScalar, h.1, ih xs h.2]
      simp [add_assoc]

theorem multiTerms_eq (ms : List (Module B P)) (xs : List (List (Term B P)))
    (h : ms.map Module.terms = xs.map Except.ok) (a : List (Term B P)) :
    multiTerms a ms = .ok (a ++ xs.flatten) := by
  induction ms generalizing xs a with
  | nil =>
    cases xs with
    | nil => simp [multiTerms]
    | cons x xs => simp at h
  | cons m ms ih =>
    cases xs with
    | nil => simp at h
    | cons x xs =>
      simp only [List.map_cons, List.cons.injEq] at h
      simp only [multiTerms, h.1, ih xs h.2]
      simp

theorem multiSorted_eq (ms : List (Module B P)) (xs : List (Sorted B))
    (h : ms.map Module.sorted = xs.map Except.ok) (a : Sorted B) :
    multiSorted (some a) ms = .ok (some ⟨a.scalar + (xs.map Sorted.scalar).sum,
      fun b => a.event b + (xs.map fun s => s.event b).sum,
      fun c => a.dom c + (xs.map fun s => s.dom c).sum⟩) := by
  induction ms generalizing xs a with
  | nil =>
    cases xs with
    | nil => simp [multiSorted]
    | cons x xs => simp at h
  | cons m ms ih =>
    cases xs with
    | nil => simp at h
    | cons x xs =>
      simp only [List.map_cons, List.cons.injEq] at h
      simp only [multiSorted, h.1, ih xs h.2]
      simp [Sorted.add, add_assoc]

/-- C36: the combined loss of any number (at least one) of loss modules is the sum of their
losses. -/
theorem C36_scalar (ms : List (Module B P)) (hne : ms ≠ []) (xs : List ℝ)
    (h : ms.map Module.scalar = xs.map Except.ok) :
    multiScalar none ms = .ok (some xs.sum) := by
  cases ms with
  | nil => exact absurd rfl hne
  | cons m ms =>
    cases xs with
    | nil => simp at h
    | cons x xs =>
      simp only [List.map_cons, List.cons.injEq] at h
      simp only [multiScalar, h.1, multiScalar_eq ms xs h.2, List.sum_cons]

/-- C36: without options, the terms are those of all modules, one after the other; their total is
the sum of the totals. -/
theorem C36_terms (ms : List (Module B P)) (xs : List (List (Term B P)))
    (h : ms.map Module.terms = xs.map Except.ok) :
    multiTerms [] ms = .ok xs.flatten ∧
      ((xs.flatten).map Term.total).sum = (xs.map fun l => (l.map Term.total).sum).sum := by
  refine ⟨by simpa using multiTerms_eq ms xs h [], ?_⟩
  clear h
  induction xs with
  | nil => simp
  | cons x xs ih => simp only [List.flatten_cons, List.map_append, List.sum_append, List.map_cons,
      List.sum_cons, ih]

/-- C36: with sorting, the terms add one by one. -/
theorem C36_sorted (ms : List (Module B P)) (hne : ms ≠ []) (xs : List (Sorted B))
    (h : ms.map Module.sorted = xs.map Except.ok) :
    multiSorted none ms = .ok (some ⟨(xs.map Sorted.scalar).sum,
      fun b => (xs.map fun s => s.event b).sum, fun c => (xs.map fun s => s.dom c).sum⟩) := by
  cases ms with
  | nil => exact absurd rfl hne
  | cons m ms =>
    cases xs with
    | nil => simp at h
    | cons x xs =>
      simp only [List.map_cons, List.cons.injEq] at h
      simp only [multiSorted, h.1, multiSorted_eq ms xs h.2, List.map_cons, List.sum_cons]

theorem all_ok {α : Type} {f : Module B P → Except Err α} {ms : List (Module B P)}
    (h : ∀ m ∈ ms, ∃ x, f m = .ok x) : ∃ xs : List α, ms.map f = xs.map Except.ok := by
  induction ms with
  | nil => exact ⟨[], rfl⟩
  | cons m ms ih =>
    obtain ⟨x, hx⟩ := h m (by simp)
    obtain ⟨xs, hxs⟩ := ih fun m hm => h m (by simp [hm])
    exact ⟨x :: xs, by simp [hx, hxs]⟩

theorem multiScalar_error {ms : List (Module B P)} {m : Module B P} (hm : m ∈ ms) {e : Err}
    (he : m.scalar = .error e) (a : Option ℝ) : ∃ e, multiScalar a ms = .error e := by
  induction ms generalizing a with
  | nil => simp at hm
  | cons m' ms ih =>
    rw [multiScalar]
    cases hs : m'.scalar with
    | error e' => exact ⟨e', rfl⟩
    | ok x =>
      rcases List.mem_cons.1 hm with rfl | hm
      · rw [he] at hs; simp at hs
      · cases a <;> exact ih hm _

theorem multiSorted_error {ms : List (Module B P)} {m : Module B P} (hm : m ∈ ms) {e : Err}
    (he : m.sorted = .error e) (a : Option (Sorted B)) : ∃ e, multiSorted a ms = .error e := by
  induction ms generalizing a with
  | nil => simp at hm
  | cons m' ms ih =>
    rw [multiSorted]
    cases hs : m'.sorted with
    | error e' => exact ⟨e', rfl⟩
    | ok x =>
      rcases List.mem_cons.1 hm with rfl | hm
      · rw [he] at hs; simp at hs
      · cases a <;> exact ih hm _

theorem multiTerms_error {ms : List (Module B P)} {m : Module B P} (hm : m ∈ ms) {e : Err}
    (he : m.terms = .error e) (a : List (Term B P)) : ∃ e, multiTerms a ms = .error e := by
  induction ms generalizing a with
  | nil => simp at hm
  | cons m' ms ih =>
    rw [multiTerms]
    cases hs : m'.terms with
    | error e' => exact ⟨e', rfl⟩
    | ok x =>
      rcases List.mem_cons.1 hm with rfl | hm
      · rw [he] at hs; simp at hs
      · exact ih hm _

/-- C36: a module that raises is not skipped. -/
theorem C36_errors (ms : List (Module B P)) (m : Module B P) (hm : m ∈ ms) (e : Err) :
    (m.scalar = .error e → ∃ e, multiScalar none ms = .error e) ∧
      (m.terms = .error e → ∃ e, multiTerms [] ms = .error e) ∧
      (m.sorted = .error e → ∃ e, multiSorted none ms = .error e) :=
  ⟨fun h => multiScalar_error hm h none, fun h => multiTerms_error hm h [],
    fun h => multiSorted_error hm h none⟩

theorem error_or_ok {α : Type} (f : Module B P → Except Err α) (ms : List (Module B P)) :
    (∃ m ∈ ms, ∃ e, f m = .error e) ∨ ∀ m ∈ ms, ∃ x, f m = .ok x := by
  by_cases h : ∃ m ∈ ms, ∃ e, f m = .error e
  · exact .inl h
  · refine .inr fun m hm => ?_
    cases hf : f m with
    | error e => exact absurd ⟨m, hm, e, hf⟩ h
    | ok x => exact ⟨x, rfl⟩

theorem perm_map_ok {α : Type} {f : Module B P → Except Err α} {ms ms' : List (Module B P)}
    (hp : ms.Perm ms') {xs : List α} (h : ms.map f = xs.map Except.ok) :
    ∃ xs' : List α, ms'.map f = xs'.map Except.ok ∧ xs.Perm xs' := by
  have hall : ∀ m ∈ ms', ∃ x, f m = .ok x := by
    intro m hm
    have : f m ∈ ms.map f := List.mem_map_of_mem (hp.mem_iff.2 hm)
    rw [h] at this
    obtain ⟨x, -, hx⟩ := List.mem_map.1 this
    exact ⟨x, hx.symm⟩
  obtain ⟨xs', hxs'⟩ := all_ok hall
  refine ⟨xs', hxs', ?_⟩
  have hpm := hp.map f
  rw [h, hxs'] at hpm
  have hinj : Function.Injective (Except.ok : α → Except Err α) := fun a b h => by simpa using h
  exact (List.map_perm_map_iff hinj).1 hpm

/-- C36: the order of the modules does not matter for the scalar and the sorted terms; the list of
terms is in the order of the modules. -/
theorem C36_order (ms ms' : List (Module B P)) (hp : ms.Perm ms') :
    (∀ x, multiScalar none ms = .ok x → multiScalar none ms' = .ok x) ∧
      (∀ s, multiSorted none ms = .ok s → multiSorted none ms' = .ok s) ∧
      (∀ l, multiTerms [] ms = .ok l → ∃ l', multiTerms [] ms' = .ok l' ∧ l.Perm l') := by
  by_cases hne : ms = []
  · subst hne
    rw [List.nil_perm] at hp
    subst hp
    exact ⟨fun _ h => h, fun _ h => h, fun l h => ⟨l, h, .refl _⟩⟩
  have hne' : ms' ≠ [] := fun h => hne (by rw [h] at hp; simpa using hp)
  refine ⟨?_, ?_, ?_⟩
  · intro x hx
    rcases error_or_ok Module.scalar ms with ⟨m, hm, e, he⟩ | hok
    · obtain ⟨e, he⟩ := multiScalar_error hm he none
      rw [he] at hx; simp at hx
    · obtain ⟨xs, hxs⟩ := all_ok hok
      obtain ⟨xs', hxs', hpx⟩ := perm_map_ok hp hxs
      rw [C36_scalar ms hne xs hxs] at hx
      rw [C36_scalar ms' hne' xs' hxs', ← hx, hpx.sum_eq]
  · intro x hx
    rcases error_or_ok Module.sorted ms with ⟨m, hm, e, he⟩ | hok
    · obtain ⟨e, he⟩ := multiSorted_error hm he none
      rw [he] at hx; simp at hx
    · obtain ⟨xs, hxs⟩ := all_ok hok
      obtain ⟨xs', hxs', hpx⟩ := perm_map_ok hp hxs
      rw [C36_sorted ms hne xs hxs] at hx
      rw [C36_sorted ms' hne' xs' hxs', ← hx, (hpx.map Sorted.scalar).sum_eq]
      have h1 : (fun b => (xs'.map fun s => s.event b).sum) = fun b => (xs.map fun s => s.event b).sum :=
        funext fun b => ((hpx.map fun s => s.event b).sum_eq).symm
      have h2 : (fun c => (xs'.map fun s => s.dom c).sum) = fun c => (xs.map fun s => s.dom c).sum :=
        funext fun c => ((hpx.map fun s => s.dom c).sum_eq).symm
      rw [h1, h2]
  · intro x hx
    rcases error_or_ok Module.terms ms with ⟨m, hm, e, he⟩ | hok
    · obtain ⟨e, he⟩ := multiTerms_error hm he []
      rw [he] at hx; simp at hx
    · obtain ⟨xs, hxs⟩ := all_ok hok
      obtain ⟨xs', hxs', hpx⟩ := perm_map_ok hp hxs
      rw [(C36_terms ms xs hxs).1] at hx
      simp only [Except.ok.injEq] at hx
      subst hx
      exact ⟨_, (C36_terms ms' xs' hxs').1, hpx.flatten⟩

/-- C36 with C35: if the sorted terms of each module add up to its scalar loss, so do those of the
combined loss. -/
theorem C36_consistent (ms : List (Module B P)) (hne : ms ≠ [])
    (h : ∀ m ∈ ms, ∃ x s, m.scalar = .ok x ∧ m.sorted = .ok s ∧ s.total = x) :
    ∃ x s, multiScalar none ms = .ok (some x) ∧ multiSorted none ms = .ok (some s) ∧
      s.total = x := by
  have key : ∀ (ms : List (Module B P)),
      (∀ m ∈ ms, ∃ x s, m.scalar = .ok x ∧ m.sorted = .ok s ∧ s.total = x) →
      ∀ (a : ℝ) (t : Sorted B), t.total = a →
      ∃ x s, multiScalar (some a) ms = .ok (some x) ∧ multiSorted (some t) ms = .ok (some s) ∧
        s.total = x := by
    intro ms
    induction ms with
    | nil => exact fun _ a t ht => ⟨a, t, rfl, rfl, ht⟩
    | cons m ms ih =>
      intro h a t ht
      obtain ⟨x, s, h1, h2, h3⟩ := h m (by simp)
      simp only [multiScalar, multiSorted, h1, h2]
      apply ih fun m hm => h m (by simp [hm])
      rw [← ht, ← h3]
      simp only [Sorted.total, Sorted.add, Finset.sum_add_distrib]
      ring
  cases ms with
  | nil => exact absurd rfl hne
  | cons m ms =>
    obtain ⟨x, s, h1, h2, h3⟩ := h m (by simp)
    simp only [multiScalar, multiSorted, h1, h2]
    exact key ms (fun m hm => h m (by simp [hm])) x s h3

/-- A case: two modules. -/
example : multiScalar (B := 1) (P := 1) none [⟨.ok 1, .ok [], .ok ⟨1, fun _ => 0, fun _ => 0⟩⟩,
    ⟨.ok 2, .ok [], .ok ⟨2, fun _ => 0, fun _ => 0⟩⟩] = .ok (some 3) := by
  rw [C36_scalar _ (by simp) [1, 2] rfl]
  norm_num

/-! ## C37 -/

theorem masked_eq {d d' : Batch B P} {m : Cell B → ℝ} (h : d.mask = some m)
    (h' : d'.mask = some m) {x y : Cell B → ℝ} (hxy : ∀ c, m c ≠ 0 → x c = y c) :
    masked d x = masked d' y := by
  funext c
  simp only [masked, h, h']
  by_cases hc : m c = 0
  · simp [hc]
  · rw [hxy c hc]

theorem lossFunction_same {m : Cell B → ℝ} {d d' : Batch B P} {r r' : Results B P}
    (h : SameValid m d d' r r') (cfg : Config) (h1 : cfg.function ≠ .normalizedDom)
    (h2 : ¬ (cfg.function = .pulseAndDom ∧ cfg.addNorm = true)) (sort : Bool) :
    lossFunction cfg d' r' sort = lossFunction cfg d r sort := by
  have hmc := masked_eq h.mask h.mask' h.domCharge
  have htime : ∀ pdf, timeLoss d' pdf = timeLoss d pdf := by
    intro pdf; unfold timeLoss; rw [h.charge]
  have hcheck : checkTime d' r' = checkTime d r := by
    simp only [checkTime, h.time, h.exclusionSum]
  have hq := h.domCharges
  have hl := h.domLogPdf
  have hv := h.domVariance
  unfold lossFunction
  cases hf : cfg.function with
  | extended =>
    simp only [extended, need_bind, h.pulsePdf, hcheck, htime, h.charge, h.ids, ← hmc]
    cases r.pulsePdf with
    | none => rfl
    | some pdf =>
      cases hr : r.domCharges <;> cases hr' : r'.domCharges <;> rw [hr, hr'] at hq <;>
        simp only [Agree] at hq
      simp only [masked_eq h.mask h.mask' hq]
  | pulseTime => simp only [pulseTime, need_bind, h.pulsePdf, hcheck, htime, h.charge, h.ids]
  | pulseAndDom =>
    have hn : cfg.addNorm = false := by
      by_contra hn
      exact h2 ⟨hf, by simpa using hn⟩
    simp only [pulseAndDom, need_bind, h.pulsePdf, hcheck, htime, h.ids, hn]
    cases r.pulsePdf with
    | none => rfl
    | some pdf =>
      cases hr : r.domLogPdf <;> cases hr' : r'.domLogPdf <;> rw [hr, hr'] at hl <;>
        simp only [Agree] at hl
      simp only [masked_eq h.mask h.mask' hl, Bool.false_eq_true, if_false]
  | chargeQuantile =>
    have hlim : ∀ t, limitQuantiles cfg d' t = limitQuantiles cfg d t := by
      intro t; unfold limitQuantiles; rw [h.quantile]
    simp only [chargeQuantile, need_bind, h.quantilePdf, hcheck, hlim, h.ids]
  | domAndEvent =>
    simp only [domAndEvent, need_bind, hcheck, ← hmc]
    cases hr : r.domCharges <;> cases hr' : r'.domCharges <;> rw [hr, hr'] at hq <;>
      simp only [Agree] at hq
    cases hs : r.domLogPdf <;> cases hs' : r'.domLogPdf <;> rw [hs, hs'] at hl <;>
      simp only [Agree] at hl
    cases ht : r.domVariance <;> cases ht' : r'.domVariance <;> rw [ht, ht'] at hv <;>
      simp only [Agree] at hv
    simp only [masked_eq h.mask h.mask' hq, masked_eq h.mask h.mask' hl,
      masked_eq h.mask h.mask' hv]
  | negBinomial =>
    simp only [negBinomial, need_bind, hcheck]
    cases hr : r.domCharges <;> cases hr' : r'.domCharges <;> rw [hr, hr'] at hq <;>
      simp only [Agree] at hq
    cases ht : r.domVariance <;> cases ht' : r'.domVariance <;> rw [ht, ht'] at hv <;>
      simp only [Agree] at hv
    rename_i q q' v v'
    have : ∀ c, m c ≠ 0 → logNegBinomial (d.domCharge c) (q c)
        (max ((v c - q c) / (q c ^ 2 + 5e-5)) 5e-5) false =
        logNegBinomial (d'.domCharge c) (q' c)
          (max ((v' c - q' c) / (q' c ^ 2 + 5e-5)) 5e-5) false := by
      intro c hc
      rw [h.domCharge c hc, hq c hc, hv c hc]
    simp only [masked_eq h.mask h.mask' this]
  | negBinomialEvent =>
    simp only [negBinomialEvent, need_bind, hcheck, ← hmc]
    cases hr : r.domCharges <;> cases hr' : r'.domCharges <;> rw [hr, hr'] at hq <;>
      simp only [Agree] at hq
    cases ht : r.domVariance <;> cases ht' : r'.domVariance <;> rw [ht, ht'] at hv <;>
      simp only [Agree] at hv
    simp only [masked_eq h.mask h.mask' hq, masked_eq h.mask h.mask' hv]
  | normalizedDom => exact absurd hf h1

/-- C37: measured charges and predictions on excluded DOMs do not change the loss, however it is
asked for. Missing for the full property: two loss functions, see `C37_normalized_violated` and
`C37_charge_pdf_violated`. -/
theorem C37_excluded_partial (m : Cell B → ℝ) (d d' : Batch B P) (r r' : Results B P)
    (h : SameValid m d d' r r') (cfg : Config) (h1 : cfg.function ≠ .normalizedDom)
    (h2 : ¬ (cfg.function = .pulseAndDom ∧ cfg.addNorm = true)) (reduce normalize sort : Bool) :
    getLoss cfg d' r' reduce normalize sort = getLoss cfg d r reduce normalize sort := by
  unfold getLoss
  rw [lossFunction_same h cfg h1 h2]
  have : numTerms d' = numTerms d := by simp only [numTerms, h.charge]
  simp only [this]

theorem sum_pos_of_mem {ι : Type} [Fintype ι] (f : ι → ℝ) (h : ∀ i, 0 < f i) (i : ι) :
    0 < ∑ i, f i :=
  Finset.sum_pos (fun i _ => h i) ⟨i, Finset.mem_univ _⟩

theorem sum_lt_of {ι : Type} [Fintype ι] {f g : ι → ℝ} (i : ι) (h : ∀ i, f i ≤ g i)
    (hi : f i < g i) : ∑ i, f i < ∑ i, g i :=
  Finset.sum_lt_sum (fun i _ => h i) ⟨i, Finset.mem_univ _, hi⟩

/-- C37 is false of the code for the normalized charge pdf: a larger predicted charge at an
excluded DOM makes the loss larger, for any positive predictions, as soon as the event has a
measured charge at a valid DOM. -/
theorem C37_normalized_violated (cfg : Config) (hf : cfg.function = .normalizedDom)
    (d : Batch B P) (ht : d.timeExclusions = false) (m : Cell B → ℝ) (hm : d.mask = some m)
    (hm0 : ∀ c, 0 ≤ m c) (hq0 : ∀ c, 0 ≤ d.domCharge c) (r : Results B P) (q v : Cell B → ℝ)
    (hq : r.domCharges = some q) (hv : r.domVariance = some v) (hpos : ∀ c, 0 < q c)
    (x : Cell B) (hx : m x = 0) (y : Cell B) (hy : m y ≠ 0) (hxy : y.1 = x.1)
    (hy0 : 0 < d.domCharge y) (a : ℝ) (ha : q x < a) :
    ∃ l l', getLoss cfg d r true false false = .ok (.scalar l) ∧
      getLoss cfg d { r with domCharges := some (Function.update q x a) } true false false =
        .ok (.scalar l') ∧ l < l' := by
  have hc : ∀ r : Results B P, checkTime d r = .ok () := by intro r; simp [checkTime, ht]
  have hplain : ∀ (r : Results B P) (q : Cell B → ℝ), r.domCharges = some q →
      r.domVariance = some v → getLoss cfg d r true false false = .ok (.scalar
        (∑ c : Cell B, -(d.domCharge c * Real.log (q c / (∑ s, q (c.1, s)) + 5e-5) * m c))) := by
    intro r q h1 h2
    have : lossFunction cfg d r false = .ok (.plain [.dom fun c =>
        -(d.domCharge c * Real.log (q c / perEvent q c.1 + 5e-5) * m c)]) := by
      simp only [lossFunction, hf, normalizedDom, need_bind, h1, h2, hc, ok_bind, masked, hm]
      rfl
    unfold getLoss
    simp [this, Term.total, perEvent]
  refine ⟨_, _, hplain r q hq hv, hplain _ _ rfl hv, ?_⟩
  have hsum : ∀ b, (∑ s, q (b, s)) ≤ ∑ s, Function.update q x a (b, s) := by
    intro b
    apply Finset.sum_le_sum
    intro s _
    by_cases h : (b, s) = x
    · rw [h, Function.update_self]; exact ha.le
    · rw [Function.update_of_ne h]
  have hsumpos : ∀ c : Cell B, 0 < ∑ s, q (c.1, s) := fun c =>
    sum_pos_of_mem (fun s => q (c.1, s)) (fun s => hpos (c.1, s)) c.2
  have hle : ∀ c : Cell B, m c ≠ 0 →
      Real.log (Function.update q x a c / (∑ s, Function.update q x a (c.1, s)) + 5e-5) ≤
        Real.log (q c / (∑ s, q (c.1, s)) + 5e-5) := by
    intro c hc
    have hne : c ≠ x := fun h => hc (h ▸ hx)
    rw [Function.update_of_ne hne]
    have h1 : 0 < ∑ s, Function.update q x a (c.1, s) := (hsumpos c).trans_le (hsum c.1)
    have h2 := hpos c
    apply Real.log_le_log (add_pos (div_pos h2 h1) (by norm_num))
    have := div_le_div_of_nonneg_left h2.le (hsumpos c) (hsum c.1)
    linarith
  apply sum_lt_of y
  · intro c
    by_cases hc : m c = 0
    · simp [hc]
    · have := mul_le_mul_of_nonneg_right (mul_le_mul_of_nonneg_left (hle c hc) (hq0 c)) (hm0 c)
      linarith
  · have hne : y ≠ x := fun h => hy (h ▸ hx)
    have hlt : (∑ s, q (y.1, s)) < ∑ s, Function.update q x a (y.1, s) := by
      apply sum_lt_of x.2
      · intro s
        by_cases h : (y.1, s) = x
        · rw [h, Function.update_self]; exact ha.le
        · rw [Function.update_of_ne h]
      · have : (y.1, x.2) = x := by rw [hxy]
        rw [this, Function.update_self]
        exact ha
    have hlog : Real.log (Function.update q x a y / (∑ s, Function.update q x a (y.1, s)) + 5e-5) <
        Real.log (q y / (∑ s, q (y.1, s)) + 5e-5) := by
      rw [Function.update_of_ne hne]
      have h1 : 0 < ∑ s, Function.update q x a (y.1, s) := (hsumpos y).trans_le (hsum y.1)
      have h2 := hpos y
      apply Real.log_lt_log (add_pos (div_pos h2 h1) (by norm_num))
      have := div_lt_div_of_pos_left h2 (hsumpos y) hlt
      linarith
    have hmy : 0 < m y := lt_of_le_of_ne (hm0 y) (Ne.symm hy)
    have := mul_lt_mul_of_pos_right (mul_lt_mul_of_pos_left hlog hy0) hmy
    linarith

/-- Batches to which `C37_normalized_violated` applies. -/
example : ∃ (d : Batch 1 0) (m : Cell 1 → ℝ) (x y : Cell 1), d.mask = some m ∧ (∀ c, 0 ≤ m c) ∧
    (∀ c, 0 ≤ d.domCharge c) ∧ m x = 0 ∧ m y ≠ 0 ∧ y.1 = x.1 ∧ 0 < d.domCharge y := by
  refine ⟨⟨fun _ => 0, fun _ => 0, fun _ => 0, fun _ => 1,
    some fun c => if c = (0, 0, 0) then 0 else 1, false⟩, _, (0, 0, 0), (0, 0, 1), rfl, ?_, ?_, ?_,
    ?_, rfl, ?_⟩
  · intro c; split_ifs <;> norm_num
  · intro c; norm_num
  · simp
  · simp
  · norm_num

/-- C37 is false of the code for the charge pdf with normalization terms: the normalization term
counts the measured charges of excluded DOMs. -/
theorem C37_charge_pdf_violated (cfg : Config) (hf : cfg.function = .pulseAndDom)
    (hn : cfg.addNorm = true) (d : Batch B P) (ht : d.timeExclusions = false) (r : Results B P)
    (hl : r.domLogPdf.isSome) (hp : r.pulsePdf.isSome) (x : Cell B) (a : ℝ) :
    ∃ l l', getLoss cfg d r true false false = .ok (.scalar l) ∧
      getLoss cfg { d with domCharge := Function.update d.domCharge x a } r true false false =
        .ok (.scalar l') ∧ l' - l = logFaculty a - logFaculty (d.domCharge x) := by
  obtain ⟨g, hl⟩ := Option.isSome_iff_exists.1 hl
  obtain ⟨pdf, hp⟩ := Option.isSome_iff_exists.1 hp
  have hplain : ∀ q, lossFunction cfg { d with domCharge := q } r false = .ok (.plain
      [.dom fun c => -masked d g c, .pulse (timeLoss d pdf), .pulse fun p => logFaculty (d.charge p),
       .dom1 fun c => logFaculty (q c)]) := by
    intro q
    have hc : checkTime { d with domCharge := q } r = .ok () := by simp [checkTime, ht]
    simp only [lossFunction, hf, pulseAndDom, need_bind, hl, hp, hc, ok_bind, hn]
    rfl
  have e1 := hplain d.domCharge
  have e2 := hplain (Function.update d.domCharge x a)
  have hd : { d with domCharge := d.domCharge } = d := rfl
  rw [hd] at e1
  unfold getLoss
  simp only [Bool.and_false, Bool.false_eq_true, if_false, if_true, e1, e2]
  refine ⟨_, _, rfl, rfl, ?_⟩
  simp only [List.map_cons, List.map_nil, List.sum_cons, List.sum_nil, Term.total]
  have : ∑ c, logFaculty (Function.update d.domCharge x a c) - ∑ c, logFaculty (d.domCharge c) =
      logFaculty a - logFaculty (d.domCharge x) := by
    rw [← Finset.sum_sub_distrib, Finset.sum_eq_single x]
    · rw [Function.update_self]
    · intro c _ hc
      rw [Function.update_of_ne hc, sub_self]
    · simp
  linarith

/-- The normalization terms of the charges 0 and 4 differ. -/
example : logFaculty 4 - logFaculty 0 ≠ 0 := by
  have h1 : Real.Gamma (4 + 1) = 24 := by
    have := Real.Gamma_nat_eq_factorial 4
    push_cast at this
    rw [this]; norm_num [Nat.factorial]
  have h2 : Real.Gamma 2 = 1 := by
    have h := Real.Gamma_nat_eq_factorial 1
    rw [show ((1 : ℕ) : ℝ) + 1 = 2 by norm_num] at h
    rw [h]; norm_num
  simp only [logFaculty, lgamma]
  rw [max_eq_left (by norm_num), max_eq_right (by norm_num), h1, h2]
  have : 0 < Real.log 24 := Real.log_pos (by norm_num)
  simp
  norm_num

/-! ## C38 -/

theorem lossExcess_zero : lossExcess 0 = 0 := by simp [lossExcess]

theorem lossExcess_strictMono : StrictMono lossExcess := by
  intro x y h
  unfold lossExcess
  have : Real.exp ((x + 1) * 10) < Real.exp ((y + 1) * 10) := Real.exp_lt_exp.2 (by linarith)
  linarith

theorem uniformPrior_eq {low high : ℝ} (h : low < high) (v : ℝ) :
    uniformPrior low high 0 v = lossExcess (outside low high v / (high - low)) := by
  unfold uniformPrior outside
  rcases lt_or_ge high v with h1 | h1
  · rw [if_pos (by linarith), if_neg (by linarith), add_zero, max_eq_right (by
      apply le_max_of_le_right; linarith), max_eq_right (by linarith)]
  · rcases lt_or_ge v low with h2 | h2
    · rw [if_neg (by linarith), if_pos (by linarith), zero_add, max_eq_right (by
        apply le_max_of_le_left; linarith), max_eq_left (by linarith)]
    · rw [if_neg (by linarith), if_neg (by linarith), max_eq_left (by
        apply max_le <;> linarith), zero_div, lossExcess_zero, add_zero]

/-- C38: the penalty is zero exactly on the interval, positive outside, and larger exactly if the
distance to the interval is larger. -/
theorem C38_penalty (low high : ℝ) (h : low < high) (v w : ℝ) :
    (uniformPrior low high 0 v = 0 ↔ low ≤ v ∧ v ≤ high) ∧
      (¬ (low ≤ v ∧ v ≤ high) → 0 < uniformPrior low high 0 v) ∧
      (uniformPrior low high 0 v < uniformPrior low high 0 w ↔
        outside low high v < outside low high w) := by
  have hs : 0 < high - low := by linarith
  have hout : outside low high v = 0 ↔ low ≤ v ∧ v ≤ high := by
    unfold outside
    rw [max_eq_left_iff, max_le_iff]
    constructor
    · rintro ⟨h1, h2⟩; exact ⟨by linarith, by linarith⟩
    · rintro ⟨h1, h2⟩; exact ⟨by linarith, by linarith⟩
  have h0 : 0 ≤ outside low high v := le_max_left _ _
  refine ⟨?_, ?_, ?_⟩
  · rw [uniformPrior_eq h, ← hout]
    have e : lossExcess (outside low high v / (high - low)) = 0 ↔
        outside low high v / (high - low) = 0 := by
      have := lossExcess_strictMono.injective.eq_iff (a := outside low high v / (high - low)) (b := 0)
      rwa [lossExcess_zero] at this
    rw [e, div_eq_zero_iff]
    simp [hs.ne']
  · intro hv
    rw [uniformPrior_eq h, ← lossExcess_zero]
    apply lossExcess_strictMono
    have : 0 < outside low high v := lt_of_le_of_ne h0 fun e => hv (hout.1 e.symm)
    positivity
  · rw [uniformPrior_eq h, uniformPrior_eq h, lossExcess_strictMono.lt_iff_lt,
      div_lt_div_iff_of_pos_right hs]

/-- C38 is false of the code for a margin (`eps`, a third number in the configuration): inside of
the margin the penalty is negative. -/
theorem C38_margin_violated (low high eps v : ℝ) (h1 : high - eps < v) (h2 : v < high)
    (h3 : low + eps ≤ v) (_h : low < high) : uniformPrior low high eps v < 0 := by
  unfold uniformPrior
  rw [if_pos h1, if_neg (by linarith), add_zero, ← lossExcess_zero]
  apply lossExcess_strictMono
  exact div_neg_of_neg_of_pos (by linarith) (by linarith)

example : (1.1 : ℝ) - 0.05 < 1.08 ∧ (1.08 : ℝ) < 1.1 ∧ (0.9 : ℝ) + 0.05 ≤ 1.08 ∧ (0.9 : ℝ) < 1.1 := by
  norm_num

theorem uniformTerms_ok (p : Prior B) (hnd : p.names.Nodup) (us : List (String × ℝ × ℝ × ℝ))
    (h : ∀ u ∈ us, u.1 ∈ p.names) :
    uniformTerms (P := P) p us = .ok (us.map fun u =>
      .event fun b => uniformPrior u.2.1 u.2.2.1 u.2.2.2 (p.value b (p.names.idxOf u.1))) := by
  induction us with
  | nil => rfl
  | cons u us ih =>
    obtain ⟨name, low, high, eps⟩ := u
    have hmem := h _ (List.mem_cons_self ..)
    simp only at hmem
    have hi := (C30_index p.names hnd name hmem)
    simp only [uniformTerms, hi, ih fun u hu => h u (by simp [hu])]
    simp

/-- C38: without Fourier modes, the loss is the sum of the penalties of the parameters that are
named in the configuration, over all events; a name that the model does not have is a
`KeyError`. Missing for the full property: `C38_modes_violated` and `C38_sorted_violated`. -/
theorem C38_total_partial (p : Prior B) (hnd : p.names.Nodup) (hs : p.sigmas = [])
    (hc : p.columns = p.names.length) (hne : p.uniform ≠ []) :
    ((∀ u ∈ p.uniform, u.1 ∈ p.names) →
      (priorModule (P := P) p).scalar = .ok (p.uniform.map fun u =>
        ∑ b, uniformPrior u.2.1 u.2.2.1 u.2.2.2 (p.value b (p.names.idxOf u.1))).sum) ∧
    ((∃ u ∈ p.uniform, u.1 ∉ p.names) → (priorModule (P := P) p).scalar = .error .keyError) := by
  constructor
  · intro h
    have ht : priorTerms (P := P) p = .ok (p.uniform.map fun u =>
      .event fun b => uniformPrior u.2.1 u.2.2.1 u.2.2.2 (p.value b (p.names.idxOf u.1))) := by
      unfold priorTerms
      rw [if_neg (by simp [hc]), uniformTerms_ok p hnd p.uniform h]
      simp [fourierTerm, hs]
    simp only [priorModule, ht]
    cases hu : p.uniform with
    | nil => exact absurd hu hne
    | cons u us =>
      simp only [List.map_cons, List.map_map]
      rfl
  · rintro ⟨u, hu, hn⟩
    have key : ∀ us : List (String × ℝ × ℝ × ℝ), u ∈ us →
        uniformTerms (P := P) p us = .error .keyError := by
      intro us
      induction us with
      | nil => simp
      | cons v us ih =>
        intro hmem
        obtain ⟨name, low, high, eps⟩ := v
        by_cases hv : name ∈ p.names
        · have hmem' : u ∈ us := by
            rcases List.mem_cons.1 hmem with rfl | h
            · exact absurd hv hn
            · exact h
          simp only [uniformTerms, C30_index p.names hnd name hv, ih hmem']
        · have := (Sources.C30_inverse p.names hnd).2.1 name hv
          simp only [uniformTerms, this]
    simp only [priorModule, priorTerms, key p.uniform hu]
    rw [if_neg (by simp [hc])]

/-- C38 is false of the code for Fourier modes: as soon as there are any, the loss raises, whatever
the parameters of the model are, because the last mode is counted wrongly
(loss/snowstorm.py:254-256). -/
theorem C38_modes_violated (p : Prior B) (hs : p.sigmas ≠ []) :
    (∃ e, (priorModule (P := P) p).scalar = .error e) ∧
      (∃ e, (priorModule (P := P) p).terms = .error e) ∧
      ∃ e, (priorModule (P := P) p).sorted = .error e := by
  have hlen : p.sigmas.length ≠ 0 := by
    intro h; exact hs (List.length_eq_zero_iff.1 h)
  have hf : ∃ e, fourierTerm (P := P) p = .error e := by
    unfold fourierTerm
    rw [if_neg hlen]
    cases h1 : Sources.getIndex p.names (modeName 0) with
    | error e => exact ⟨e, rfl⟩
    | ok start =>
      cases h2 : Sources.getIndex p.names (modeName p.sigmas.length) with
      | error e => exact ⟨e, rfl⟩
      | ok last =>
        simp only
        split_ifs with h3
        · exact ⟨_, rfl⟩
        · cases h4 : checkModes p.names start (List.range p.sigmas.length) with
          | error e => exact ⟨e, rfl⟩
          | ok u =>
            exfalso
            have h5 := checkModes_ok h4 (p.sigmas.length - 1) (by simp; omega)
            have h6 : start + ((p.sigmas.length - 1 : ℕ) : ℤ) = last := by
              push Not at h3
              have : ((p.sigmas.length - 1 : ℕ) : ℤ) = (p.sigmas.length : ℤ) - 1 := by omega
              rw [this]; linarith
            rw [h6] at h5
            have := modeName_inj (getIndex_inj h5 h2)
            omega
  obtain ⟨e, hf⟩ := hf
  have ht : ∃ e, priorTerms (P := P) p = .error e := by
    unfold priorTerms
    split_ifs
    · exact ⟨_, rfl⟩
    · cases uniformTerms (P := P) p p.uniform with
      | error e => exact ⟨e, rfl⟩
      | ok ts => simp only [hf]; exact ⟨e, rfl⟩
  obtain ⟨e, ht⟩ := ht
  exact ⟨⟨e, by simp only [priorModule, ht]⟩, ⟨e, ht⟩, ⟨e, by simp only [priorModule, ht]⟩⟩

/-- C38 is false of the code for sorted terms: they raise, also when the prior is one of several
loss modules. -/
theorem C38_sorted_violated (p : Prior B) (ms : List (Module B P)) (h : priorModule p ∈ ms) :
    ∃ e, multiSorted none ms = .error e := by
  have : ∃ e, (priorModule (P := P) p).sorted = .error e := by
    cases ht : priorTerms (P := P) p with
    | error e => exact ⟨e, by simp only [priorModule, ht]⟩
    | ok ts => exact ⟨.typeError, by simp only [priorModule, ht]⟩
  obtain ⟨e, he⟩ := this
  exact (C36_errors ms _ h e).2.2 he

/-! ## C67 -/

/-- C67: where the measured charge of each DOM is the charge of its pulses, the extended
likelihood is the negative logarithm of the unbinned Poisson likelihood whose rate at a pulse is
the predicted charge of the DOM times the time density, and each pulse is counted with its
charge. -/
theorem C67_extended (cfg : Config) (hf : cfg.function = .extended) (hn : cfg.addNorm = false)
    (d : Batch B P) (hm : d.mask = none) (ht : d.timeExclusions = false)
    (hd : ∀ c, d.domCharge c = ∑ p, if d.ids p = c then d.charge p else 0)
    (r : Results B P) (q : Cell B → ℝ) (hq : r.domCharges = some q)
    (pdf : Fin P → ℝ) (hp : r.pulsePdf = some pdf)
    (hq0 : ∀ c, 0 ≤ q c) (hp0 : ∀ p, 0 ≤ pdf p) :
    getLoss cfg d r true false false = .ok (.scalar
      (∑ c, q c - ∑ p, d.charge p * Real.log ((q (d.ids p) + 1e-7) * (pdf p + 1e-7)))) := by
  have hc : checkTime d r = .ok () := by simp [checkTime, ht]
  have h1 : lossFunction cfg d r false = .ok (.plain
      [.dom fun c => q c - d.domCharge c * Real.log (q c + 1e-7), .pulse (timeLoss d pdf)]) := by
    simp only [lossFunction, hf, extended, need_bind, hq, hp, hc, ok_bind, hn, masked, hm]
    rfl
  unfold getLoss
  simp only [Bool.and_false, Bool.false_eq_true, if_false, if_true, h1, List.map_cons, List.map_nil,
    List.sum_cons, List.sum_nil, Term.total, add_zero, Finset.sum_sub_distrib]
  congr 2
  have h2 : ∑ c, d.domCharge c * Real.log (q c + 1e-7) =
      ∑ p, d.charge p * Real.log (q (d.ids p) + 1e-7) := by
    simp only [hd, Finset.sum_mul]
    rw [Finset.sum_comm]
    apply Finset.sum_congr rfl
    intro p _
    rw [Finset.sum_eq_single (d.ids p)]
    · simp
    · intro c _ hc
      rw [if_neg (Ne.symm hc), zero_mul]
    · simp
  rw [h2, sub_add]
  congr 1
  rw [← Finset.sum_sub_distrib]
  apply Finset.sum_congr rfl
  intro p _
  have h3 := hq0 (d.ids p)
  have h4 := hp0 p
  rw [Real.log_mul (by positivity) (by positivity), timeLoss]
  ring

theorem poisson_min {n : ℝ} (hn : 0 ≤ n) (q : ℝ) (hq : 0 ≤ q) :
    max 0 (n - 1e-7) - n * Real.log (max 0 (n - 1e-7) + 1e-7) ≤ q - n * Real.log (q + 1e-7) := by
  set a := max 0 (n - 1e-7) + 1e-7 with ha
  have ha0 : 0 < a := by
    have : 0 ≤ max 0 (n - 1e-7) := le_max_left _ _
    positivity
  have hb0 : 0 < q + 1e-7 := by positivity
  have h1 : Real.log ((q + 1e-7) / a) ≤ (q + 1e-7) / a - 1 :=
    Real.log_le_sub_one_of_pos (by positivity)
  rw [Real.log_div hb0.ne' ha0.ne'] at h1
  have h2 : 0 ≤ (q + 1e-7 - a) * (1 - n / a) := by
    rcases le_total n 1e-7 with h | h
    · have e : a = 1e-7 := by rw [ha, max_eq_left (by linarith)]; ring
      rw [e]
      apply mul_nonneg
      · linarith
      · rw [sub_nonneg, div_le_one (by norm_num)]; exact h
    · have e : a = n := by rw [ha, max_eq_right (by linarith)]; ring
      rw [e, div_self (by rw [← e]; exact ha0.ne')]
      simp
  have h3 := mul_le_mul_of_nonneg_left h1 hn
  have h4 : n * ((q + 1e-7) / a - 1) = (q + 1e-7 - a) * (n / a) := by
    field_simp
  have h5 : max 0 (n - 1e-7) = a - 1e-7 := by rw [ha]; ring
  rw [h5]
  nlinarith

/-- C67: among all predictions of charges that are not negative, with the same time densities, the
extended likelihood is best where each predicted charge is the measured charge (less the constant
`1e-7`). -/
theorem C67_best_charge (cfg : Config) (hf : cfg.function = .extended) (d : Batch B P)
    (hm : d.mask = none) (ht : d.timeExclusions = false) (hd : ∀ c, 0 ≤ d.domCharge c)
    (r : Results B P) (q : Cell B → ℝ) (hq : r.domCharges = some q) (hp : r.pulsePdf.isSome)
    (hq0 : ∀ c, 0 ≤ q c) :
    ∃ x y, getLoss cfg d r true false false = .ok (.scalar x) ∧
      getLoss cfg d { r with domCharges := some fun c => max 0 (d.domCharge c - 1e-7) }
        true false false = .ok (.scalar y) ∧ y ≤ x := by
  obtain ⟨pdf, hp⟩ := Option.isSome_iff_exists.1 hp
  have hc : ∀ r : Results B P, checkTime d r = .ok () := by intro r; simp [checkTime, ht]
  have h1 : ∀ (r : Results B P) (q : Cell B → ℝ), r.domCharges = some q → r.pulsePdf = some pdf →
      lossFunction cfg d r false = .ok (.plain
      (.dom (fun c => q c - d.domCharge c * Real.log (q c + 1e-7)) :: .pulse (timeLoss d pdf) ::
        if cfg.addNorm then [.pulse fun p => logFaculty (d.charge p),
          .dom fun c => logFaculty (d.domCharge c)] else [])) := by
    intro r q hq hp
    simp only [lossFunction, hf, extended, need_bind, hq, hp, hc, ok_bind, masked, hm]
    cases cfg.addNorm <;> rfl
  unfold getLoss
  simp only [Bool.and_false, Bool.false_eq_true, if_false, if_true, h1 r q hq hp,
    h1 { r with domCharges := some fun c => max 0 (d.domCharge c - 1e-7) } _ rfl hp]
  refine ⟨_, _, rfl, rfl, ?_⟩
  simp only [List.map_cons, List.sum_cons, Term.total]
  have : ∑ c, (max 0 (d.domCharge c - 1e-7) -
      d.domCharge c * Real.log (max 0 (d.domCharge c - 1e-7) + 1e-7)) ≤
      ∑ c, (q c - d.domCharge c * Real.log (q c + 1e-7)) :=
    Finset.sum_le_sum fun c _ => poisson_min (hd c) (q c) (hq0 c)
  linarith

open Classical in
theorem masked_valid {d : Batch B P} (hm : d.ProperMask) (x : Cell B → ℝ) (c : Cell B) :
    masked d x c = if d.Valid c then x c else 0 := by
  unfold masked Batch.Valid
  cases h : d.mask with
  | none => simp
  | some m =>
    have := hm m h c
    simp only [Option.some.injEq, forall_eq']
    rcases this with h | h <;> simp [h]

theorem scalar_of_plain {cfg : Config} {d : Batch B P} {r : Results B P} {l : List (Term B P)}
    (h : lossFunction cfg d r false = .ok (.plain l)) :
    getLoss cfg d r true false false = .ok (.scalar (l.map Term.total).sum) := by
  unfold getLoss
  simp [h]

theorem exp_timeLoss (d : Batch B P) (pdf : Fin P → ℝ) (h : ∀ p, 0 ≤ pdf p) :
    Real.exp (-∑ p, timeLoss d pdf p) = ∏ p, (pdf p + 1e-7) ^ d.charge p := by
  rw [← Finset.sum_neg_distrib, Real.exp_sum]
  apply Finset.prod_congr rfl
  intro p _
  have := h p
  rw [Real.rpow_def_of_pos (by positivity), timeLoss]
  congr 1
  ring

/-- C67: the loss on pulse times is the negative logarithm of the product of the densities at the
pulses, each to the power of the charge of the pulse. -/
theorem C67_time (cfg : Config) (hf : cfg.function = .pulseTime) (hn : cfg.addNorm = false)
    (d : Batch B P) (ht : d.timeExclusions = false) (r : Results B P) (pdf : Fin P → ℝ)
    (hp : r.pulsePdf = some pdf) (hp0 : ∀ p, 0 ≤ pdf p) :
    ∃ x, getLoss cfg d r true false false = .ok (.scalar x) ∧
      Real.exp (-x) = ∏ p, (pdf p + 1e-7) ^ d.charge p := by
  have hc : checkTime d r = .ok () := by simp [checkTime, ht]
  have h1 : lossFunction cfg d r false = .ok (.plain [.pulse (timeLoss d pdf)]) := by
    simp only [lossFunction, hf, pulseTime, need_bind, hp, hc, ok_bind, hn]
    rfl
  refine ⟨_, scalar_of_plain h1, ?_⟩
  simp only [List.map_cons, List.map_nil, List.sum_cons, List.sum_nil, Term.total, add_zero]
  exact exp_timeLoss d pdf hp0

open Classical in
/-- C67: the loss on pulses and charge densities is the negative logarithm of the product of the
charge densities of the valid DOMs and of the time densities. -/
theorem C67_charge_density (cfg : Config) (hf : cfg.function = .pulseAndDom)
    (hn : cfg.addNorm = false) (d : Batch B P) (hm : d.ProperMask) (ht : d.timeExclusions = false)
    (r : Results B P) (pdf : Fin P → ℝ) (hp : r.pulsePdf = some pdf) (hp0 : ∀ p, 0 ≤ pdf p)
    (g : Cell B → ℝ) (hg : r.domLogPdf = some g) :
    ∃ x, getLoss cfg d r true false false = .ok (.scalar x) ∧
      Real.exp (-x) = (∏ c with d.Valid c, Real.exp (g c)) * ∏ p, (pdf p + 1e-7) ^ d.charge p := by
  have hc : checkTime d r = .ok () := by simp [checkTime, ht]
  have h1 : lossFunction cfg d r false = .ok (.plain [.dom fun c => -masked d g c,
      .pulse (timeLoss d pdf)]) := by
    simp only [lossFunction, hf, pulseAndDom, need_bind, hp, hg, hc, ok_bind, hn]
    rfl
  refine ⟨_, scalar_of_plain h1, ?_⟩
  simp only [List.map_cons, List.map_nil, List.sum_cons, List.sum_nil, Term.total, add_zero]
  rw [neg_add, Real.exp_add, exp_timeLoss d pdf hp0]
  congr 1
  rw [Finset.sum_neg_distrib, neg_neg, ← Real.exp_sum, Finset.sum_filter]
  simp only [masked_valid hm]

open Classical in
/-- C67: the loss on charge quantiles is the negative logarithm of the product of the densities at
the pulses whose quantile is within the configured limits; the other pulses do not count. -/
theorem C67_quantiles (cfg : Config) (hf : cfg.function = .chargeQuantile)
    (d : Batch B P) (ht : d.timeExclusions = false) (r : Results B P) (pdf : Fin P → ℝ)
    (hp : r.quantilePdf = some pdf) (hp0 : ∀ p, 0 ≤ pdf p) :
    ∃ x, getLoss cfg d r true false false = .ok (.scalar x) ∧
      Real.exp (-x) = ∏ p with ((∀ lo, cfg.minQuantile = some lo → lo ≤ d.quantile p) ∧
        ∀ hi, cfg.maxQuantile = some hi → d.quantile p ≤ hi), (pdf p + 1e-7) := by
  have hc : checkTime d r = .ok () := by simp [checkTime, ht]
  have h1 : lossFunction cfg d r false = .ok (.plain [.pulse (limitQuantiles cfg d fun p =>
      -Real.log (pdf p + 1e-7))]) := by
    simp only [lossFunction, hf, chargeQuantile, need_bind, hp, hc, ok_bind]
    rfl
  refine ⟨_, scalar_of_plain h1, ?_⟩
  simp only [List.map_cons, List.map_nil, List.sum_cons, List.sum_nil, Term.total, add_zero]
  rw [← Finset.sum_neg_distrib, Real.exp_sum, Finset.prod_filter]
  apply Finset.prod_congr rfl
  intro p _
  have h0 : 0 < pdf p + 1e-7 := by have := hp0 p; positivity
  unfold limitQuantiles
  cases cfg.minQuantile with
  | none =>
    cases cfg.maxQuantile with
    | none => simp [Real.exp_log h0]
    | some hi =>
      by_cases h : d.quantile p ≤ hi
      · simp [h, not_lt.2 h, Real.exp_log h0]
      · simp [h, lt_of_not_ge h]
  | some lo =>
    cases cfg.maxQuantile with
    | none =>
      by_cases h : lo ≤ d.quantile p
      · simp [h, not_lt.2 h, Real.exp_log h0]
      · simp [h, lt_of_not_ge h]
    | some hi =>
      by_cases h : lo ≤ d.quantile p <;> by_cases h' : d.quantile p ≤ hi
      · simp [h, not_lt.2 h, h', not_lt.2 h', Real.exp_log h0]
      · simp [h, h', lt_of_not_ge h']
      · simp [h, lt_of_not_ge h]
      · simp [h, lt_of_not_ge h]

/-- The law of a count in the two negative binomial losses, with overdispersion `a`. -/
theorem exp_logNegBinomial (n : ℕ) (mu a : ℝ) :
    Real.exp (logNegBinomial n mu a false) =
      Real.exp (logNegBinomial n mu a true) * n.factorial := by
  rw [C50_without_normalisation, Real.exp_add, Real.exp_log (by positivity)]

open Classical in
/-- C67: the negative binomial loss is, up to the factorials of the measured charges, the negative
logarithm of the probability of the measured charges of the valid DOMs, where the charge of each
DOM has a law with the predicted mean and with the predicted variance up to the constant `5e-5`
(and at least a relative one of `5e-5`). -/
theorem C67_negative_binomial (cfg : Config) (hf : cfg.function = .negBinomial) (d : Batch B P)
    (hm : d.ProperMask) (ht : d.timeExclusions = false) (n : Cell B → ℕ)
    (hd : ∀ c, d.domCharge c = n c) (r : Results B P) (q v : Cell B → ℝ)
    (hq : r.domCharges = some q) (hv : r.domVariance = some v) (hq0 : ∀ c, 0 < q c) :
    ∃ x, getLoss cfg d r true false false = .ok (.scalar x) ∧
      ∃ law : Cell B → ℕ → ℝ,
        (∀ c, CountDistribution (law c) (q c)
          (q c + max ((v c - q c) / (q c ^ 2 + 5e-5)) 5e-5 * q c ^ 2)) ∧
        Real.exp (-x) = ∏ c with d.Valid c, law c (n c) * (n c).factorial := by
  have hc : checkTime d r = .ok () := by simp [checkTime, ht]
  have h1 : lossFunction cfg d r false = .ok (.plain [.dom fun c => -masked d (fun c =>
      logNegBinomial (d.domCharge c) (q c) (max ((v c - q c) / (q c ^ 2 + 5e-5)) 5e-5) false) c]) := by
    simp only [lossFunction, hf, negBinomial, need_bind, hq, hv, hc, ok_bind]
    rfl
  refine ⟨_, scalar_of_plain h1, fun c k => Real.exp (logNegBinomial k (q c)
    (max ((v c - q c) / (q c ^ 2 + 5e-5)) 5e-5) true), ?_, ?_⟩
  · intro c
    exact C50_negative_binomial _ _ (hq0 c) (lt_max_of_lt_right (by norm_num))
  · simp only [List.map_cons, List.map_nil, List.sum_cons, List.sum_nil, Term.total, add_zero]
    rw [Finset.sum_neg_distrib, neg_neg, Real.exp_sum, Finset.prod_filter]
    apply Finset.prod_congr rfl
    intro c _
    rw [masked_valid hm]
    split_ifs
    · rw [hd, exp_logNegBinomial]
    · simp

/-- The predicted variance is met where it is not too small. -/
theorem C67_variance (q v : ℝ) (hq : 0 < q) (h : 5e-5 * (q ^ 2 + 5e-5) ≤ v - q) :
    |q + max ((v - q) / (q ^ 2 + 5e-5)) 5e-5 * q ^ 2 - v| ≤ 5e-5 * (v - q) / q ^ 2 := by
  have h0 : 0 < q ^ 2 + 5e-5 := by positivity
  rw [max_eq_left (by rw [le_div_iff₀ h0]; exact h)]
  have hv : 0 ≤ v - q := le_trans (by positivity) h
  have e : q + (v - q) / (q ^ 2 + 5e-5) * q ^ 2 - v = -(5e-5 * (v - q) / (q ^ 2 + 5e-5)) := by
    field_simp
    ring
  rw [e, abs_neg, abs_of_nonneg (by positivity)]
  apply div_le_div_of_nonneg_left (by positivity) (by positivity)
  linarith

open Classical in
/-- C67: the negative binomial loss of events, likewise for the total charge of each event over its
valid DOMs. -/
theorem C67_negative_binomial_event (cfg : Config) (hf : cfg.function = .negBinomialEvent)
    (d : Batch B P) (hm : d.ProperMask) (ht : d.timeExclusions = false) (n : Cell B → ℕ)
    (hd : ∀ c, d.domCharge c = n c) (r : Results B P) (q v : Cell B → ℝ)
    (hq : r.domCharges = some q) (hv : r.domVariance = some v)
    (N : Fin B → ℕ) (hN : ∀ b, N b = ∑ s with d.Valid (b, s), n (b, s))
    (Q V : Fin B → ℝ) (hQ : ∀ b, Q b = ∑ s with d.Valid (b, s), q (b, s))
    (hV : ∀ b, V b = ∑ s with d.Valid (b, s), v (b, s)) (hQ0 : ∀ b, 0 < Q b) :
    ∃ x, getLoss cfg d r true false false = .ok (.scalar x) ∧
      ∃ law : Fin B → ℕ → ℝ,
        (∀ b, CountDistribution (law b) (Q b) (max (V b) (Q b + 5e-5 * Q b ^ 2))) ∧
        Real.exp (-x) = ∏ b, law b (N b) * (N b).factorial := by
  have hc : checkTime d r = .ok () := by simp [checkTime, ht]
  have hsum : ∀ (f : Cell B → ℝ) b, perEvent (masked d f) b = ∑ s with d.Valid (b, s), f (b, s) := by
    intro f b
    rw [perEvent, Finset.sum_filter]
    simp only [masked_valid hm]
  have h1 : lossFunction cfg d r false = .ok (.plain [.event fun b => -
      logNegBinomial (perEvent (masked d d.domCharge) b) (perEvent (masked d q) b)
        (max ((perEvent (masked d v) b - perEvent (masked d q) b) / perEvent (masked d q) b ^ 2)
          5e-5) false]) := by
    simp only [lossFunction, hf, negBinomialEvent, need_bind, hq, hv, hc, ok_bind]
    rfl
  have hn : ∀ b, perEvent (masked d d.domCharge) b = (N b : ℝ) := by
    intro b
    rw [hsum, hN]
    push_cast
    simp only [hd]
  refine ⟨_, scalar_of_plain h1, fun b k => Real.exp (logNegBinomial k (Q b)
    (max ((V b - Q b) / Q b ^ 2) 5e-5) true), ?_, ?_⟩
  · intro b
    have := C50_negative_binomial (Q b) (max ((V b - Q b) / Q b ^ 2) 5e-5) (hQ0 b)
      (lt_max_of_lt_right (by norm_num))
    have e : Q b + max ((V b - Q b) / Q b ^ 2) 5e-5 * Q b ^ 2 = max (V b) (Q b + 5e-5 * Q b ^ 2) := by
      have h0 := hQ0 b
      rw [max_mul_of_nonneg _ _ (by positivity), div_mul_cancel₀ _ (by positivity), ← max_add_add_left]
      congr 1
      ring
    rwa [e] at this
  · simp only [List.map_cons, List.map_nil, List.sum_cons, List.sum_nil, Term.total, add_zero]
    rw [Finset.sum_neg_distrib, neg_neg, Real.exp_sum]
    apply Finset.prod_congr rfl
    intro b _
    rw [hn, hsum q, hsum v, ← hQ, ← hV, exp_logNegBinomial]

open Classical in
/-- C67: the loss on the charges of DOMs and events is the negative logarithm of the product of the
charge densities of the valid DOMs and, for each event, of a normal density at the measured total
charge, with the predicted total charge and variance. -/
theorem C67_dom_and_event (cfg : Config) (hf : cfg.function = .domAndEvent)
    (d : Batch B P) (hm : d.ProperMask) (ht : d.timeExclusions = false)
    (r : Results B P) (q v g : Cell B → ℝ)
    (hq : r.domCharges = some q) (hv : r.domVariance = some v) (hg : r.domLogPdf = some g)
    (N Q V : Fin B → ℝ) (hN : ∀ b, N b = ∑ s with d.Valid (b, s), d.domCharge (b, s))
    (hQ : ∀ b, Q b = ∑ s with d.Valid (b, s), q (b, s))
    (hV : ∀ b, V b = ∑ s with d.Valid (b, s), v (b, s)) (hV0 : ∀ b, 0 < V b) :
    ∃ x, getLoss cfg d r true false false = .ok (.scalar x) ∧
      Real.exp (-x) = (∏ c with d.Valid c, Real.exp (g c)) *
        ∏ b, ProbabilityTheory.gaussianPDFReal (Q b) (Real.toNNReal (V b)) (N b) := by
  have hc : checkTime d r = .ok () := by simp [checkTime, ht]
  have hsum : ∀ (f : Cell B → ℝ) b, perEvent (masked d f) b = ∑ s with d.Valid (b, s), f (b, s) := by
    intro f b
    rw [perEvent, Finset.sum_filter]
    simp only [masked_valid hm]
  have h1 : lossFunction cfg d r false = .ok (.plain [.dom fun c => -masked d g c,
      .event fun b => -logGauss (perEvent (masked d d.domCharge) b) (perEvent (masked d q) b)
        (Real.sqrt (perEvent (masked d v) b))]) := by
    simp only [lossFunction, hf, domAndEvent, need_bind, hq, hv, hg, hc, ok_bind]
    rfl
  refine ⟨_, scalar_of_plain h1, ?_⟩
  simp only [List.map_cons, List.map_nil, List.sum_cons, List.sum_nil, Term.total, add_zero]
  rw [neg_add, Real.exp_add]
  congr 1
  · rw [Finset.sum_neg_distrib, neg_neg, ← Real.exp_sum, Finset.sum_filter]
    simp only [masked_valid hm]
  · rw [Finset.sum_neg_distrib, neg_neg, Real.exp_sum]
    apply Finset.prod_congr rfl
    intro b _
    rw [hsum, hsum q, hsum v, ← hQ, ← hV, ← hN]
    have hs := Real.sqrt_pos.2 (hV0 b)
    obtain ⟨-, e1, e2⟩ := C48_gaussian (Q b) (Real.sqrt (V b)) hs
    rw [← e1, e2, Real.sq_sqrt (hV0 b).le]

/-- C67: the normalized charge loss fits the shape only: a factor on the predicted charges of each
event does not change it. -/
theorem C67_normalized (cfg : Config) (hf : cfg.function = .normalizedDom) (d : Batch B P)
    (r : Results B P) (q : Cell B → ℝ) (hq : r.domCharges = some q) (k : Fin B → ℝ)
    (hk : ∀ b, k b ≠ 0) (reduce normalize sort : Bool) :
    getLoss cfg d { r with domCharges := some fun c => k c.1 * q c } reduce normalize sort =
      getLoss cfg d r reduce normalize sort := by
  have h : ∀ c : Cell B, k c.1 * q c / perEvent (fun c => k c.1 * q c) c.1 =
      q c / perEvent q c.1 := by
    intro c
    simp only [perEvent, ← Finset.mul_sum]
    exact mul_div_mul_left _ _ (hk c.1)
  have : lossFunction cfg d { r with domCharges := some fun c => k c.1 * q c } sort =
      lossFunction cfg d r sort := by
    simp only [lossFunction, hf, normalizedDom, need_bind, hq, h]
    rfl
  unfold getLoss
  rw [this]

/-- C67: the normalized charge loss of a batch without exclusions is the negative logarithm of the
product of the shares of the DOMs in the charge of their event, each to the power of the measured
charge. -/
theorem C67_normalized_share (cfg : Config) (hf : cfg.function = .normalizedDom) (d : Batch B P)
    (hm : d.mask = none) (ht : d.timeExclusions = false) (r : Results B P) (q : Cell B → ℝ)
    (hq : r.domCharges = some q) (hv : r.domVariance.isSome) (hq0 : ∀ c, 0 ≤ q c) :
    ∃ x, getLoss cfg d r true false false = .ok (.scalar x) ∧
      Real.exp (-x) = ∏ c : Cell B, (q c / (∑ s, q (c.1, s)) + 5e-5) ^ d.domCharge c := by
  obtain ⟨v, hv⟩ := Option.isSome_iff_exists.1 hv
  have hc : checkTime d r = .ok () := by simp [checkTime, ht]
  have h1 : lossFunction cfg d r false = .ok (.plain [.dom fun c =>
      -(d.domCharge c * Real.log (q c / perEvent q c.1 + 5e-5))]) := by
    simp only [lossFunction, hf, normalizedDom, need_bind, hq, hv, hc, ok_bind, masked, hm]
    rfl
  refine ⟨_, scalar_of_plain h1, ?_⟩
  simp only [List.map_cons, List.map_nil, List.sum_cons, List.sum_nil, Term.total, add_zero]
  rw [Finset.sum_neg_distrib, neg_neg, Real.exp_sum]
  apply Finset.prod_congr rfl
  intro c _
  have hs : 0 ≤ ∑ s, q (c.1, s) := Finset.sum_nonneg fun s _ => hq0 _
  have hpos : 0 < q c / (∑ s, q (c.1, s)) + 5e-5 :=
    add_pos_of_nonneg_of_pos (div_nonneg (hq0 c) hs) (by norm_num)
  rw [Real.rpow_def_of_pos hpos, perEvent, mul_comm]

/-- A case for the negative binomial losses: a mask of zeros and ones, whole charges. -/
example : ∃ (d : Batch 1 0) (n : Cell 1 → ℕ), d.ProperMask ∧ (∀ c, d.domCharge c = n c) ∧
    ¬ d.Valid (0, 0, 0) ∧ d.Valid (0, 0, 1) ∧ n (0, 0, 1) = 3 := by
  refine ⟨⟨fun _ => 0, fun _ => 0, fun _ => 0, fun _ => 3,
    some fun c => if c = (0, 0, 0) then 0 else 1, false⟩, fun _ => 3, ?_, ?_, ?_, ?_, rfl⟩
  · intro m hm c
    simp only [Option.some.injEq] at hm
    subst hm
    by_cases h : c = (0, 0, 0) <;> simp [h]
  · simp
  · simp [Batch.Valid]
  · simp [Batch.Valid]

/-- A case for `C37_excluded_partial`: the measured and the predicted charge of an excluded DOM
differ. -/
example : ∃ (m : Cell 1 → ℝ) (d d' : Batch 1 1) (r r' : Results 1 1), SameValid m d d' r r' ∧
    d.domCharge (0, 0, 0) ≠ d'.domCharge (0, 0, 0) ∧ r.domCharges ≠ r'.domCharges := by
  refine ⟨fun c => if c = (0, 0, 0) then 0 else 1,
    ⟨fun _ => 1, fun _ => 1, fun _ => (0, 0, 1), fun _ => 1,
      some fun c => if c = (0, 0, 0) then 0 else 1, false⟩,
    ⟨fun _ => 1, fun _ => 1, fun _ => (0, 0, 1), fun c => if c = (0, 0, 0) then 2 else 1,
      some fun c => if c = (0, 0, 0) then 0 else 1, false⟩,
    ⟨some fun _ => 1, none, none, some fun _ => 1, none, false⟩,
    ⟨some fun c => if c = (0, 0, 0) then 2 else 1, none, none, some fun _ => 1, none, false⟩,
    ⟨rfl, rfl, rfl, rfl, rfl, rfl, ?_, ?_, trivial, trivial, rfl, rfl, rfl⟩, ?_, ?_⟩
  · intro c hc
    by_cases h : c = (0, 0, 0)
    · simp [h] at hc
    · simp [h]
  · intro c hc
    by_cases h : c = (0, 0, 0)
    · simp [h] at hc
    · simp [h]
  · simp
  · intro h
    simp only [Option.some.injEq] at h
    have := congrFun h (0, 0, 0)
    simp at this

/-- A case for C38: two parameters. -/
example : (priorModule (B := 1) (P := 0) ⟨[("a", 0, 1, 0)], [], ["x", "a"], 2,
    fun _ i => if i = 1 then 1 / 2 else 7⟩).scalar = .ok 0 := by
  rw [(C38_total_partial _ (by simp) rfl rfl (by simp)).1 (by simp)]
  have := (C38_penalty 0 1 one_pos (1 / 2) 0).1.2 (by norm_num)
  simpa using this

end Verif.Loss
