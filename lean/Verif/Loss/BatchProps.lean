import Verif.Loss.BatchSpec
import Verif.Loss.Props
import Mathlib.Tactic.FinCases

/-! # C138: the loss of a batch and the losses of its events -/

namespace Verif.Loss
open Verif.Py Verif.Dist

variable {B P : ℕ}

/-- The part of a term that belongs to event `b`. -/
def Term.only {n : ℕ} (b : Fin B) (e : Fin n → Fin P) : Term B P → Term 1 n
  | .scalar x => .scalar x
  | .event x => .event fun _ => x b
  | .dom x => .dom fun c => x (b, c.2)
  | .dom1 x => .dom1 fun c => x (b, c.2)
  | .pulse x => .pulse fun q => x (e q)

/-- The part of the sorted terms that belongs to event `b`. -/
def Partial.only (b : Fin B) (s : Partial B) : Partial 1 :=
  ⟨s.scalar, s.event.map fun x _ => x b, s.dom.map fun x c => x (b, c.2)⟩

/-- The part of all terms that belongs to event `b`. -/
def Terms.only {n : ℕ} (b : Fin B) (e : Fin n → Fin P) : Terms B P → Terms 1 n
  | .plain l => .plain (l.map (Term.only b e))
  | .sorted s => .sorted (s.only b)

theorem sum_only {n : ℕ} {d : Batch B P} {b : Fin B} {e : Fin n → Fin P} (h : PulsesOf d b e)
    (f : Fin P → ℝ) : ∑ q, f (e q) = ∑ p, if (d.ids p).1 = b then f p else 0 := by
  have hinj : Function.Injective e := fun q q' hq => h.once q q' hq
  rw [← Finset.sum_filter]
  have : (Finset.univ.filter fun p => (d.ids p).1 = b) = Finset.univ.map ⟨e, hinj⟩ := by
    ext p
    simp [h.all p]
  rw [this, Finset.sum_map]
  rfl

theorem masked_only {n : ℕ} (d : Batch B P) (b : Fin B) (e : Fin n → Fin P) (x : Cell B → ℝ) :
    masked (d.only b e) (fun c => x (b, c.2)) = fun c => masked d x (b, c.2) := by
  unfold masked Batch.only
  cases d.mask <;> rfl

theorem scatterAdd_only {n : ℕ} {d : Batch B P} {b : Fin B} {e : Fin n → Fin P}
    (h : PulsesOf d b e) (x : Cell B → ℝ) (u : Fin P → ℝ) :
    scatterAdd (fun c => x (b, c.2)) (d.only b e).ids (fun q => u (e q)) =
      fun c => scatterAdd x d.ids u (b, c.2) := by
  funext c
  obtain ⟨c0, c⟩ := c
  have : c0 = 0 := Subsingleton.elim _ _
  subst this
  unfold scatterAdd
  congr 1
  have := sum_only h (fun p => if (d.ids p).2 = c then u p else 0)
  simp only [Batch.only, Prod.mk.injEq, true_and]
  rw [this]
  refine Finset.sum_congr rfl fun p _ => ?_
  by_cases h1 : (d.ids p).1 = b <;> by_cases h2 : (d.ids p).2 = c
  · have : d.ids p = (b, c) := Prod.ext h1 h2
    simp [this]
  · have : d.ids p ≠ (b, c) := fun he => h2 (by rw [he])
    simp [h2, this]
  · have : d.ids p ≠ (b, c) := fun he => h1 (by rw [he])
    simp [h1, this]
  · have : d.ids p ≠ (b, c) := fun he => h1 (by rw [he])
    simp [h1, this]

theorem scatterAdd_zero_only {n : ℕ} {d : Batch B P} {b : Fin B} {e : Fin n → Fin P}
    (h : PulsesOf d b e) (u : Fin P → ℝ) :
    scatterAdd (fun _ => 0) (d.only b e).ids (fun q => u (e q)) =
      fun c => scatterAdd (fun _ => 0) d.ids u (b, c.2) :=
  scatterAdd_only h (fun _ => 0) u

theorem perEvent_only (x : Cell B → ℝ) (b : Fin B) :
    perEvent (B := 1) (fun c => x (b, c.2)) = fun _ => perEvent x b := rfl

theorem checkTime_only {n : ℕ} (d : Batch B P) (r : Results B P) (b : Fin B) (e : Fin n → Fin P) :
    checkTime (d.only b e) (r.only b e) = checkTime d r := rfl

theorem limitQuantiles_only {n : ℕ} (cfg : Config) (d : Batch B P) (b : Fin B) (e : Fin n → Fin P)
    (t : Fin P → ℝ) :
    limitQuantiles cfg (d.only b e) (fun q => t (e q)) = fun q => limitQuantiles cfg d t (e q) := by
  unfold limitQuantiles
  cases cfg.minQuantile <;> cases cfg.maxQuantile <;> rfl

theorem need_only {α β : Type} (x : Option α) (f : α → β) :
    need (x.map f) = (need x).map f := by cases x <;> rfl

theorem extended_only {n : ℕ} (cfg : Config) (d : Batch B P) (r : Results B P) (sort : Bool)
    (b : Fin B) (e : Fin n → Fin P) (h : PulsesOf d b e) :
    extended cfg (d.only b e) (r.only b e) sort = (extended cfg d r sort).map (Terms.only b e) := by
  unfold extended
  rw [checkTime_only]
  cases h1 : r.pulsePdf with
  | none => simp [Results.only, h1, need, error_bind, Except.map]
  | some pdf =>
  cases h2 : r.domCharges with
  | none => simp [Results.only, h1, h2, need, error_bind, ok_bind, Except.map]
  | some pred =>
  cases h3 : checkTime d r with
  | error x => simp [Results.only, h1, h2, need, error_bind, ok_bind, Except.map]
  | ok u =>
  have m1 := masked_only d b e d.domCharge
  have m2 := masked_only d b e pred
  have e1 : (d.only b e).domCharge = fun c => d.domCharge (b, c.2) := rfl
  simp only [Results.only, h1, h2, need, ok_bind, Option.map_some, e1, m1, m2]
  have s1 := scatterAdd_only h (fun c => masked d pred c - masked d d.domCharge c *
    Real.log (masked d pred c + 1e-7)) (timeLoss d pdf)
  have s2 := scatterAdd_only h (fun c => logFaculty (masked d d.domCharge c))
    (fun p => logFaculty (d.charge p))
  cases sort <;> cases cfg.addNorm <;>
    simp only [if_true, if_false, Bool.false_eq_true, pure, Except.pure, Except.map, Terms.only,
      List.map_cons, List.map_nil, Term.only, Partial.only, Option.map_none, Option.map_some]
  · rfl
  · rfl
  · rw [← s1]; rfl
  · rw [← s2]; rfl

theorem pulseTime_only {n : ℕ} (cfg : Config) (d : Batch B P) (r : Results B P) (sort : Bool)
    (b : Fin B) (e : Fin n → Fin P) (h : PulsesOf d b e) :
    pulseTime cfg (d.only b e) (r.only b e) sort =
      (pulseTime cfg d r sort).map (Terms.only b e) := by
  unfold pulseTime
  rw [checkTime_only]
  cases h1 : r.pulsePdf with
  | none => simp [Results.only, h1, need, error_bind, Except.map]
  | some pdf =>
  cases h9 : checkTime d r with
  | error x => simp [Results.only, h1, need, error_bind, ok_bind, Except.map]
  | ok u =>
  simp only [Results.only, h1, need, ok_bind, Option.map_some]
  have s1 := scatterAdd_zero_only h (timeLoss d pdf)
  have s2 := scatterAdd_only h (scatterAdd (fun _ => 0) d.ids (timeLoss d pdf))
    (fun p => logFaculty (d.charge p))
  rw [← s1] at s2
  cases sort <;> cases cfg.addNorm <;>
    simp only [if_true, if_false, Bool.false_eq_true, pure, Except.pure, Except.map, Terms.only,
      List.map_cons, List.map_nil, Term.only, Partial.only, Option.map_none, Option.map_some]
  · rfl
  · rfl
  · rw [← s1]; rfl
  · rw [← s2]; rfl

theorem broadcast_none (B : ℕ) : broadcast [60, 86, B] [1, 60, 86, B] = none := by
  simp [broadcast, broadcastDim]

theorem pulseAndDom_only {n : ℕ} (cfg : Config) (d : Batch B P) (r : Results B P) (sort : Bool)
    (b : Fin B) (e : Fin n → Fin P) (h : PulsesOf d b e) :
    pulseAndDom cfg (d.only b e) (r.only b e) sort =
      (pulseAndDom cfg d r sort).map (Terms.only b e) := by
  unfold pulseAndDom
  rw [checkTime_only]
  cases h1 : r.pulsePdf with
  | none => simp [Results.only, h1, need, error_bind, Except.map]
  | some pdf =>
  cases h2 : r.domLogPdf with
  | none => simp [Results.only, h1, h2, need, error_bind, ok_bind, Except.map]
  | some lp =>
  cases h9 : checkTime d r with
  | error x => simp [Results.only, h1, h2, need, error_bind, ok_bind, Except.map]
  | ok u =>
  have m2 := masked_only d b e lp
  simp only [Results.only, h1, h2, need, ok_bind, Option.map_some, m2, broadcast_none]
  have s1 := scatterAdd_only h (fun c => -masked d lp c) (timeLoss d pdf)
  cases sort <;> cases cfg.addNorm <;>
    simp only [if_true, if_false, Bool.false_eq_true, pure, Except.pure, Except.map, Terms.only,
      List.map_cons, List.map_nil, Term.only, Partial.only, Option.map_none, Option.map_some]
  · rfl
  · rfl
  · rw [← s1]; rfl
  · rfl

theorem chargeQuantile_only {n : ℕ} (cfg : Config) (d : Batch B P) (r : Results B P) (sort : Bool)
    (b : Fin B) (e : Fin n → Fin P) (h : PulsesOf d b e) :
    chargeQuantile cfg (d.only b e) (r.only b e) sort =
      (chargeQuantile cfg d r sort).map (Terms.only b e) := by
  unfold chargeQuantile
  rw [checkTime_only]
  cases h1 : r.quantilePdf with
  | none => simp [Results.only, h1, need, error_bind, Except.map]
  | some pdf =>
  cases h9 : checkTime d r with
  | error x => simp [Results.only, h1, need, error_bind, ok_bind, Except.map]
  | ok u =>
  simp only [Results.only, h1, need, ok_bind, Option.map_some]
  have l1 := limitQuantiles_only cfg d b e (fun p => -Real.log (pdf p + 1e-7))
  have s1 := scatterAdd_zero_only h (limitQuantiles cfg d fun p => -Real.log (pdf p + 1e-7))
  simp only [l1]
  cases sort <;>
    simp only [if_true, if_false, Bool.false_eq_true, pure, Except.pure, Except.map, Terms.only,
      List.map_cons, List.map_nil, Term.only, Partial.only, Option.map_none, Option.map_some]
  rw [← s1]

theorem domAndEvent_only {n : ℕ} (d : Batch B P) (r : Results B P) (sort : Bool)
    (b : Fin B) (e : Fin n → Fin P) :
    domAndEvent (d.only b e) (r.only b e) sort =
      (domAndEvent d r sort).map (Terms.only b e) := by
  unfold domAndEvent
  rw [checkTime_only]
  cases h1 : r.domCharges with
  | none => simp [Results.only, h1, need, error_bind, Except.map]
  | some pred =>
  cases h2 : r.domLogPdf with
  | none => simp [Results.only, h1, h2, need, error_bind, ok_bind, Except.map]
  | some lp =>
  cases h3 : r.domVariance with
  | none => simp [Results.only, h1, h2, h3, need, error_bind, ok_bind, Except.map]
  | some v =>
  cases h9 : checkTime d r with
  | error x => simp [Results.only, h1, h2, h3, need, error_bind, ok_bind, Except.map]
  | ok u =>
  have m1 := masked_only d b e d.domCharge
  have m2 := masked_only d b e pred
  have m3 := masked_only d b e lp
  have m4 := masked_only d b e v
  have e1 : (d.only b e).domCharge = fun c => d.domCharge (b, c.2) := rfl
  simp only [Results.only, h1, h2, h3, need, ok_bind, Option.map_some, e1, m1, m2, m3, m4, perEvent_only]
  cases sort <;> rfl

theorem negBinomial_only {n : ℕ} (d : Batch B P) (r : Results B P) (sort : Bool)
    (b : Fin B) (e : Fin n → Fin P) :
    negBinomial (d.only b e) (r.only b e) sort =
      (negBinomial d r sort).map (Terms.only b e) := by
  unfold negBinomial
  rw [checkTime_only]
  cases h1 : r.domCharges with
  | none => simp [Results.only, h1, need, error_bind, Except.map]
  | some pred =>
  cases h2 : r.domVariance with
  | none => simp [Results.only, h1, h2, need, error_bind, ok_bind, Except.map]
  | some v =>
  cases h9 : checkTime d r with
  | error x => simp [Results.only, h1, h2, need, error_bind, ok_bind, Except.map]
  | ok u =>
  have e1 : (d.only b e).domCharge = fun c => d.domCharge (b, c.2) := rfl
  have m1 := masked_only d b e (fun c => logNegBinomial (d.domCharge c) (pred c)
    (max ((v c - pred c) / (pred c ^ 2 + 5e-5)) 5e-5) false)
  simp only [Results.only, h1, h2, need, ok_bind, Option.map_some, e1, m1]
  cases sort <;> rfl

theorem negBinomialEvent_only {n : ℕ} (d : Batch B P) (r : Results B P) (sort : Bool)
    (b : Fin B) (e : Fin n → Fin P) :
    negBinomialEvent (d.only b e) (r.only b e) sort =
      (negBinomialEvent d r sort).map (Terms.only b e) := by
  unfold negBinomialEvent
  rw [checkTime_only]
  cases h1 : r.domCharges with
  | none => simp [Results.only, h1, need, error_bind, Except.map]
  | some pred =>
  cases h2 : r.domVariance with
  | none => simp [Results.only, h1, h2, need, error_bind, ok_bind, Except.map]
  | some v =>
  cases h9 : checkTime d r with
  | error x => simp [Results.only, h1, h2, need, error_bind, ok_bind, Except.map]
  | ok u =>
  have m1 := masked_only d b e d.domCharge
  have m2 := masked_only d b e pred
  have m4 := masked_only d b e v
  have e1 : (d.only b e).domCharge = fun c => d.domCharge (b, c.2) := rfl
  simp only [Results.only, h1, h2, need, ok_bind, Option.map_some, e1, m1, m2, m4, perEvent_only]
  cases sort <;> rfl

theorem normalizedDom_only {n : ℕ} (d : Batch B P) (r : Results B P) (sort : Bool)
    (b : Fin B) (e : Fin n → Fin P) :
    normalizedDom (d.only b e) (r.only b e) sort =
      (normalizedDom d r sort).map (Terms.only b e) := by
  unfold normalizedDom
  rw [checkTime_only]
  cases h1 : r.domCharges with
  | none => simp [Results.only, h1, need, error_bind, Except.map]
  | some pred =>
  cases h2 : r.domVariance with
  | none => simp [Results.only, h1, h2, need, error_bind, ok_bind, Except.map]
  | some v =>
  cases h9 : checkTime d r with
  | error x => simp [Results.only, h1, h2, need, error_bind, ok_bind, Except.map]
  | ok u =>
  have e1 : (d.only b e).domCharge = fun c => d.domCharge (b, c.2) := rfl
  have m1 := masked_only d b e (fun c => d.domCharge c * Real.log (pred c / perEvent pred c.1 + 5e-5))
  simp only [Results.only, h1, h2, need, ok_bind, Option.map_some, e1, m1, perEvent_only]
  cases sort <;> rfl

/-- All loss functions treat an event in a batch as the event on its own. -/
theorem lossFunction_only {n : ℕ} (cfg : Config) (d : Batch B P) (r : Results B P) (sort : Bool)
    (b : Fin B) (e : Fin n → Fin P) (h : PulsesOf d b e) :
    lossFunction cfg (d.only b e) (r.only b e) sort =
      (lossFunction cfg d r sort).map (Terms.only b e) := by
  unfold lossFunction
  cases cfg.function
  · exact extended_only cfg d r sort b e h
  · exact pulseTime_only cfg d r sort b e h
  · exact pulseAndDom_only cfg d r sort b e h
  · exact chargeQuantile_only cfg d r sort b e h
  · exact domAndEvent_only d r sort b e
  · exact negBinomial_only d r sort b e
  · exact negBinomialEvent_only d r sort b e
  · exact normalizedDom_only d r sort b e

/-- No term of a loss function is a scalar. -/
def NoScalar : Term B P → Prop
  | .scalar _ => False
  | _ => True

theorem lossFunction_plain (cfg : Config) (d : Batch B P) (r : Results B P) (l : List (Term B P))
    (h : lossFunction cfg d r false = .ok (.plain l)) : ∀ t ∈ l, NoScalar t := by
  unfold lossFunction at h
  cases hf : cfg.function <;> rw [hf] at h <;>
    simp only [extended, pulseTime, pulseAndDom, chargeQuantile, domAndEvent, negBinomial,
      negBinomialEvent, normalizedDom, need_bind] at h <;>
    rcases checkTime_cases d r with ht | ht <;>
    simp only [ht, ok_bind, error_bind, Bool.false_eq_true, if_false] at h <;>
    (try cases hn : cfg.addNorm) <;> (try simp only [hn, Bool.false_eq_true, if_false, if_true] at h) <;>
    (repeat' split at h) <;> cases h <;>
    simp [NoScalar]

theorem lossFunction_form (cfg : Config) (d : Batch B P) (r : Results B P) :
    (∀ s, lossFunction cfg d r false ≠ .ok (.sorted s)) ∧
    ∀ l, lossFunction cfg d r true ≠ .ok (.plain l) := by
  unfold lossFunction
  cases hf : cfg.function <;>
    simp only [extended, pulseTime, pulseAndDom, chargeQuantile, domAndEvent, negBinomial,
      negBinomialEvent, normalizedDom, need_bind] <;>
    rcases checkTime_cases d r with ht | ht <;>
    simp only [ht, ok_bind, error_bind, Bool.false_eq_true, if_false, if_true, broadcast_none] <;>
    constructor <;> intro x <;> (repeat' split) <;> intro h <;> cases h

theorem total_only {n : Fin B → ℕ} (d : Batch B P) (e : ∀ b, Fin (n b) → Fin P)
    (h : ∀ b, PulsesOf d b (e b)) (t : Term B P) (ht : NoScalar t) :
    ∑ b, (t.only b (e b)).total = t.total := by
  cases t with
  | scalar x => exact absurd ht (by simp [NoScalar])
  | event x => simp [Term.only, Term.total]
  | dom x =>
    simp only [Term.only, Term.total, Fintype.sum_prod_type, Finset.univ_unique, Finset.sum_singleton]
  | dom1 x =>
    simp only [Term.only, Term.total, Fintype.sum_prod_type, Finset.univ_unique, Finset.sum_singleton]
  | pulse x =>
    simp only [Term.only, Term.total, sum_only (h _)]
    rw [Finset.sum_comm]
    simp

theorem totals_only {n : Fin B → ℕ} (d : Batch B P) (e : ∀ b, Fin (n b) → Fin P)
    (h : ∀ b, PulsesOf d b (e b)) (l : List (Term B P)) (hl : ∀ t ∈ l, NoScalar t) :
    ∑ b, ((l.map (Term.only b (e b))).map Term.total).sum = (l.map Term.total).sum := by
  induction l with
  | nil => simp
  | cons t l ih =>
    simp only [List.map_cons, List.sum_cons, Finset.sum_add_distrib]
    rw [ih fun t ht => hl t (List.mem_cons_of_mem _ ht), total_only d e h t (hl t (by simp))]

/-- C138. The loss of a batch is the sum of the losses of its events, each evaluated on its own: for
all loss functions, with normalization terms or not, for any numbers of events and pulses. If one of
these evaluations raises, they all raise the same exception. -/
theorem C138_sum {n : Fin B → ℕ} (cfg : Config) (d : Batch B P) (r : Results B P)
    (e : ∀ b, Fin (n b) → Fin P) (h : ∀ b, PulsesOf d b (e b)) :
    (∃ (x : ℝ) (xs : Fin B → ℝ), getLoss cfg d r true false false = .ok (.scalar x) ∧
      (∀ b, getLoss cfg (d.only b (e b)) (r.only b (e b)) true false false = .ok (.scalar (xs b))) ∧
      x = ∑ b, xs b) ∨
    ∃ err, getLoss cfg d r true false false = .error err ∧
      ∀ b, getLoss cfg (d.only b (e b)) (r.only b (e b)) true false false = .error err := by
  unfold getLoss
  simp only [Bool.and_false, Bool.false_eq_true, if_false, lossFunction_only cfg d r false _ _ (h _)]
  cases hl : lossFunction cfg d r false with
  | error err => exact .inr ⟨err, rfl, fun b => rfl⟩
  | ok t =>
    cases t with
    | sorted s => exact absurd hl ((lossFunction_form cfg d r).1 s)
    | plain l =>
      refine .inl ⟨(l.map Term.total).sum, fun b => ((l.map (Term.only b (e b))).map Term.total).sum,
        rfl, fun b => rfl, ?_⟩
      exact (totals_only d e h l (lossFunction_plain cfg d r l hl)).symm

theorem numTerms_only {n : Fin B → ℕ} (d : Batch B P) (e : ∀ b, Fin (n b) → Fin P)
    (h : ∀ b, PulsesOf d b (e b)) : ∑ b, numTerms (d.only b (e b)) = numTerms d := by
  have := total_only d e h (.pulse d.charge) trivial
  simp only [Term.only, Term.total] at this
  simp only [numTerms, Finset.sum_add_distrib]
  rw [← this]
  simp [Batch.only, mul_comm]

/-- C138. With `normalize_by_total_charge` the loss of a batch is the mean of the losses of its events,
weighted with the number of terms of each event (its charge plus the number of DOMs). -/
theorem C138_normalized {n : Fin B → ℕ} (cfg : Config) (d : Batch B P) (r : Results B P)
    (e : ∀ b, Fin (n b) → Fin P) (h : ∀ b, PulsesOf d b (e b))
    (hpos : ∀ b, 0 < numTerms (d.only b (e b))) (x : ℝ) (xs : Fin B → ℝ)
    (hx : getLoss cfg d r true true false = .ok (.scalar x))
    (hxs : ∀ b, getLoss cfg (d.only b (e b)) (r.only b (e b)) true true false = .ok (.scalar (xs b))) :
    x = (∑ b, numTerms (d.only b (e b)) * xs b) / ∑ b, numTerms (d.only b (e b)) := by
  unfold getLoss at hx hxs
  simp only [Bool.and_false, Bool.false_eq_true, if_false, if_true,
    lossFunction_only cfg d r false _ _ (h _)] at hx hxs
  cases hl : lossFunction cfg d r false with
  | error err => rw [hl] at hx; cases hx
  | ok t =>
    cases t with
    | sorted s => exact absurd hl ((lossFunction_form cfg d r).1 s)
    | plain l =>
      rw [hl] at hx hxs
      simp only [Except.map, Terms.only, Except.ok.injEq, Out.scalar.injEq, totals_divide] at hx hxs
      rw [numTerms_only d e h, ← hx, ← totals_only d e h l (lossFunction_plain cfg d r l hl)]
      congr 1
      refine Finset.sum_congr rfl fun b _ => ?_
      rw [← hxs b]
      field_simp [(hpos b).ne']

/-- C138. Sorted loss terms: the terms of each event and of each DOM are those of the event on its own. -/
theorem C138_sorted {n : ℕ} (cfg : Config) (d : Batch B P) (r : Results B P) (b : Fin B)
    (e : Fin n → Fin P) (h : PulsesOf d b e) :
    (∃ s s', getLoss cfg d r false false true = .ok (.sorted s) ∧
      getLoss cfg (d.only b e) (r.only b e) false false true = .ok (.sorted s') ∧
      s'.scalar = s.scalar ∧ s'.event 0 = s.event b ∧ ∀ c, s'.dom (0, c) = s.dom (b, c)) ∨
    ∃ err, getLoss cfg d r false false true = .error err ∧
      getLoss cfg (d.only b e) (r.only b e) false false true = .error err := by
  have hB : B ≠ 0 := by
    intro hB
    subst hB
    exact b.elim0
  unfold getLoss
  simp only [Bool.false_and, Bool.false_eq_true, if_false, lossFunction_only cfg d r true _ _ h]
  cases hl : lossFunction cfg d r true with
  | error err => exact .inr ⟨err, rfl, rfl⟩
  | ok t =>
    cases t with
    | plain l => exact absurd hl ((lossFunction_form cfg d r).2 l)
    | sorted s =>
      left
      obtain ⟨sc, ev, dm⟩ := s
      cases sc <;> cases ev <;> cases dm <;>
        simp [Except.map, Terms.only, fill, Partial.only, hB]

theorem uniformTerms_only {n : ℕ} (p : Prior B) (b : Fin B) (e : Fin n → Fin P)
    (u : List (String × ℝ × ℝ × ℝ)) :
    uniformTerms (P := n) (p.only b) u =
      (uniformTerms (P := P) p u).map (List.map (Term.only b e)) := by
  induction u with
  | nil => rfl
  | cons x u ih =>
    obtain ⟨name, low, high, eps⟩ := x
    simp only [uniformTerms, ih]
    have : (p.only b).names = p.names := rfl
    rw [this]
    cases Sources.getIndex p.names name with
    | error e => rfl
    | ok i => cases uniformTerms (P := P) p u <;> rfl

theorem fourierTerm_only {n : ℕ} (p : Prior B) (b : Fin B) (e : Fin n → Fin P) :
    fourierTerm (P := n) (p.only b) =
      (fourierTerm (P := P) p).map (Option.map (Term.only b e)) := by
  unfold fourierTerm
  have h1 : (p.only b).names = p.names := rfl
  have h2 : (p.only b).sigmas = p.sigmas := rfl
  rw [h1, h2]
  split
  · rfl
  · split
    · rfl
    · rfl
    · split
      · rfl
      · split <;> rfl

theorem priorTerms_only {n : ℕ} (p : Prior B) (b : Fin B) (e : Fin n → Fin P) :
    priorTerms (P := n) (p.only b) =
      (priorTerms (P := P) p).map (List.map (Term.only b e)) := by
  unfold priorTerms
  have h1 : (p.only b).names = p.names := rfl
  have h2 : (p.only b).columns = p.columns := rfl
  have h3 : (p.only b).uniform = p.uniform := rfl
  rw [h1, h2, h3, uniformTerms_only p b e, fourierTerm_only p b e]
  split
  · rfl
  · cases uniformTerms (P := P) p p.uniform with
    | error x => rfl
    | ok ts =>
      cases fourierTerm (P := P) p with
      | error x => rfl
      | ok t => cases t <;> simp [Except.map]

theorem uniformTerms_plain (p : Prior B) (u : List (String × ℝ × ℝ × ℝ)) (ts : List (Term B P))
    (h : uniformTerms p u = .ok ts) : ∀ t ∈ ts, NoScalar t := by
  induction u generalizing ts with
  | nil => simp only [uniformTerms, Except.ok.injEq] at h; subst h; simp
  | cons x u ih =>
    obtain ⟨name, low, high, eps⟩ := x
    simp only [uniformTerms] at h
    split at h
    · cases h
    · split at h
      · cases h
      · rename_i hts
        cases h
        intro t ht
        rcases List.mem_cons.1 ht with rfl | ht
        · trivial
        · exact ih _ hts t ht

theorem priorTerms_plain (p : Prior B) (ts : List (Term B P))
    (h : priorTerms p = .ok ts) : ∀ t ∈ ts, NoScalar t := by
  unfold priorTerms at h
  split at h
  · cases h
  · split at h
    · cases h
    · rename_i us hus
      have hu := uniformTerms_plain p _ us hus
      split at h
      · cases h
      · cases h; exact hu
      · rename_i t hf
        cases h
        intro t' ht'
        rcases List.mem_append.1 ht' with ht' | ht'
        · exact hu t' ht'
        · rw [List.mem_singleton.1 ht']
          unfold fourierTerm at hf
          split at hf
          · cases hf
          · split at hf
            · cases hf
            · cases hf
            · split at hf
              · cases hf
              · split at hf
                · cases hf
                · cases hf; trivial

/-- C138. The prior on systematic parameters for a batch is the sum over its events. -/
theorem C138_prior {n : Fin B → ℕ} (d : Batch B P) (p : Prior B) (e : ∀ b, Fin (n b) → Fin P)
    (h : ∀ b, PulsesOf d b (e b)) :
    Adds (priorModule (P := P) p).scalar fun b => (priorModule (P := n b) (p.only b)).scalar := by
  unfold priorModule
  simp only [priorTerms_only p _ (e _)]
  cases hp : priorTerms (P := P) p with
  | error x => exact .inr ⟨x, rfl, fun b => rfl⟩
  | ok ts =>
    cases ts with
    | nil => exact .inr ⟨_, rfl, fun b => rfl⟩
    | cons t ts =>
      refine .inl ⟨_, _, rfl, fun b => rfl, ?_⟩
      exact (totals_only d e h (t :: ts) (priorTerms_plain p _ hp)).symm

/-- C138. The default loss module, in the terms of `Adds`. -/
theorem C138_default {n : Fin B → ℕ} (cfg : Config) (d : Batch B P) (r : Results B P)
    (e : ∀ b, Fin (n b) → Fin P) (h : ∀ b, PulsesOf d b (e b)) :
    Adds (scalarLoss cfg d r false) fun b =>
      scalarLoss cfg (d.only b (e b)) (r.only b (e b)) false := by
  unfold scalarLoss
  rcases C138_sum cfg d r e h with ⟨x, xs, h1, h2, h3⟩ | ⟨err, h1, h2⟩
  · exact .inl ⟨x, xs, by rw [h1], fun b => by simp only [h2 b], h3⟩
  · exact .inr ⟨err, by rw [h1], fun b => by simp only [h2 b]⟩

theorem multiScalar_adds {n : Fin B → ℕ} (ms : List (Module B P × ∀ b, Module 1 (n b)))
    (h : ∀ m ∈ ms, Adds m.1.scalar fun b => (m.2 b).scalar) (x : ℝ) (xs : Fin B → ℝ)
    (hx : x = ∑ b, xs b) :
    (∃ (y : ℝ) (ys : Fin B → ℝ), multiScalar (some x) (ms.map Prod.fst) = .ok (some y) ∧
      (∀ b, multiScalar (some (xs b)) (ms.map fun m => m.2 b) = .ok (some (ys b))) ∧
      y = ∑ b, ys b) ∨
    ∃ err, multiScalar (some x) (ms.map Prod.fst) = .error err ∧
      ∀ b, multiScalar (some (xs b)) (ms.map fun m => m.2 b) = .error err := by
  induction ms generalizing x xs with
  | nil => exact .inl ⟨x, xs, rfl, fun b => rfl, hx⟩
  | cons m ms ih =>
    have ih := fun x xs hx => ih (fun m hm => h m (List.mem_cons_of_mem _ hm)) x xs hx
    rcases h m (by simp) with ⟨y, ys, h1, h2, h3⟩ | ⟨err, h1, h2⟩
    · have := ih (x + y) (fun b => xs b + ys b) (by rw [hx, h3, Finset.sum_add_distrib])
      simpa only [List.map_cons, multiScalar, h1, h2] using this
    · exact .inr ⟨err, by simp only [List.map_cons, multiScalar, h1],
        fun b => by simp only [List.map_cons, multiScalar, h2 b]⟩

/-- C138. Several loss modules: if the loss of each of them is the sum over the events, then so is the
combined loss. -/
theorem C138_multi {n : Fin B → ℕ} (ms : List (Module B P × ∀ b, Module 1 (n b)))
    (h : ∀ m ∈ ms, Adds m.1.scalar fun b => (m.2 b).scalar) :
    Adds (multiLoss (ms.map Prod.fst)) fun b => multiLoss (ms.map fun m => m.2 b) := by
  unfold multiLoss
  cases ms with
  | nil => exact .inr ⟨_, rfl, fun b => rfl⟩
  | cons m ms =>
    rcases h m (by simp) with ⟨x, xs, h1, h2, h3⟩ | ⟨err, h1, h2⟩
    · have := multiScalar_adds ms (fun m hm => h m (List.mem_cons_of_mem _ hm)) x xs h3
      simp only [List.map_cons, multiScalar, h1, h2]
      rcases this with ⟨y, ys, k1, k2, k3⟩ | ⟨err, k1, k2⟩
      · exact .inl ⟨y, ys, by rw [k1], fun b => by simp only [k2 b], k3⟩
      · exact .inr ⟨err, by rw [k1], fun b => by simp only [k2 b]⟩
    · exact .inr ⟨err, by simp only [List.map_cons, multiScalar, h1],
        fun b => by simp only [List.map_cons, multiScalar, h2 b]⟩

/-- Two events with three pulses, of which the first and the last belong to the second event. -/
def exBatch : Batch 2 3 where
  charge := ![1, 2, 3]
  quantile := fun _ => 1
  ids := ![(1, 0, 0), (0, 3, 4), (1, 5, 6)]
  domCharge c := if c = (0, 3, 4) then 2 else if c = (1, 0, 0) then 1 else
    if c = (1, 5, 6) then 3 else 0
  mask := none
  timeExclusions := false

-- the pulses of the two events
example : PulsesOf exBatch 0 (![1] : Fin 1 → Fin 3) ∧ PulsesOf exBatch 1 (![0, 2] : Fin 2 → Fin 3) := by
  refine ⟨⟨by decide, ?_⟩, ⟨by decide, ?_⟩⟩ <;> intro p <;> fin_cases p <;> decide
-- the loss of the batch and of both events exist, and the numbers of terms are positive
example : ∃ x y z, getLoss ⟨.extended, true, none, none⟩ exBatch
      ⟨some fun _ => 1, none, none, some fun _ => 1 / 2, none, false⟩ true true false = .ok (.scalar x) ∧
    getLoss ⟨.extended, true, none, none⟩ (exBatch.only 0 (![1] : Fin 1 → Fin 3))
      ⟨some fun _ => 1, none, none, some fun _ => 1 / 2, none, false⟩ true true false = .ok (.scalar y) ∧
    getLoss ⟨.extended, true, none, none⟩ (exBatch.only 1 (![0, 2] : Fin 2 → Fin 3))
      ⟨some fun _ => 1, none, none, some fun _ => 1 / 2, none, false⟩ true true false = .ok (.scalar z) ∧
    0 < numTerms (exBatch.only 1 (![0, 2] : Fin 2 → Fin 3)) := by
  refine ⟨_, _, _, rfl, rfl, rfl, ?_⟩
  simp [numTerms, Batch.only, exBatch, Fin.sum_univ_two]
  norm_num

end Verif.Loss
