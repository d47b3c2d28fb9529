import Verif.Loss.MergeSpec
import Verif.Loss.BatchProps
import Verif.Loss.FileSpec
import Mathlib.Tactic.Ring
import Mathlib.Tactic.FinCases
import Mathlib.Tactic.NormNum

/-! # C142: only the charge at a time matters, not how it is divided into pulses -/

namespace Verif.Loss
open Verif.Py
variable {B P Q : ℕ}

theorem sum_merged {f : Fin P → Option (Fin Q)} {d : Batch B P} {d' : Batch B Q} (h : Merged f d d') (g : Fin P → ℝ)
    (g' : Fin Q → ℝ) (hg : ∀ p q, f p = some q → g p = g' q) :
    ∑ q, d'.charge q * g' q = ∑ p, d.charge p * g p := by
  simp only [h.charge, Finset.sum_mul]
  rw [Finset.sum_comm]
  refine Finset.sum_congr rfl fun p _ => ?_
  cases hp : f p with
  | none => simp [h.left p hp]
  | some q0 =>
    rw [Finset.sum_eq_single q0]
    · simp [hg p q0 hp]
    · intro q _ hq
      have : ¬ q0 = q := fun e => hq e.symm
      simp [this]
    · simp

theorem numTerms_merged {f : Fin P → Option (Fin Q)} {d : Batch B P} {d' : Batch B Q} (h : Merged f d d') :
    numTerms d' = numTerms d := by
  unfold numTerms
  have := sum_merged h (fun _ => 1) (fun _ => 1) (fun _ _ _ => rfl)
  simp only [mul_one] at this
  rw [this]

theorem time_merged {f : Fin P → Option (Fin Q)} {d : Batch B P} {d' : Batch B Q} (h : Merged f d d') {x : Fin P → ℝ}
    {x' : Fin Q → ℝ} (hx : ∀ p q, f p = some q → x p = x' q) : ∑ q, timeLoss d' x' q = ∑ p, timeLoss d x p := by
  have := sum_merged h (fun p => -Real.log (x p + 1e-7)) (fun q => -Real.log (x' q + 1e-7))
    (fun p q hp => by rw [hx p q hp])
  simp only [mul_neg] at this
  simp only [timeLoss, neg_mul, this]

theorem scatter_merged {f : Fin P → Option (Fin Q)} {d : Batch B P} {d' : Batch B Q} (h : Merged f d d')
    {x : Fin P → ℝ} {x' : Fin Q → ℝ} (hx : ∀ p q, f p = some q → x p = x' q) (y : Cell B → ℝ) :
    scatterAdd y d'.ids (timeLoss d' x') = scatterAdd y d.ids (timeLoss d x) := by
  funext c
  have := sum_merged h (fun p => if d.ids p = c then -Real.log (x p + 1e-7) else 0)
    (fun q => if d'.ids q = c then -Real.log (x' q + 1e-7) else 0)
    (fun p q hp => by rw [hx p q hp, h.ids p q hp])
  simp only [mul_ite, mul_neg, mul_zero] at this
  simp only [scatterAdd, timeLoss, neg_mul, this]

theorem masked_merged {f : Fin P → Option (Fin Q)} {d : Batch B P} {d' : Batch B Q} (h : Merged f d d')
    (x : Cell B → ℝ) : masked d' x = masked d x := by
  unfold masked
  rw [h.mask]

theorem checkTime_merged {f : Fin P → Option (Fin Q)} {d : Batch B P} {d' : Batch B Q} (h : Merged f d d')
    {r : Results B P} {r' : Results B Q} (hr : SamePredictions f r r') : checkTime d' r' = checkTime d r := by
  unfold checkTime
  rw [h.time, hr.exclusionSum]

/-- The terms have the same sums, or are the same if they are sorted. -/
def SameTerms : Except Err (Terms B P) → Except Err (Terms B Q) → Prop
  | .error e, .error e' => e = e'
  | .ok (.plain l), .ok (.plain l') => l'.map Term.total = l.map Term.total
  | .ok (.sorted s), .ok (.sorted s') => s = s'
  | _, _ => False

theorem lossFunction_merged (cfg : Config) (hc : cfg.ByCharge) {f : Fin P → Option (Fin Q)} {d : Batch B P}
    {d' : Batch B Q} (h : Merged f d d') {r : Results B P} {r' : Results B Q} (hr : SamePredictions f r r')
    (sort : Bool) : SameTerms (lossFunction cfg d r sort) (lossFunction cfg d' r' sort) := by
  have hm := masked_merged h
  have ht := checkTime_merged h hr
  unfold lossFunction
  cases hf : cfg.function with
  | chargeQuantile => exact absurd hf hc.1
  | extended =>
    have hn := hc.2 (.inl hf)
    simp only [extended, need_bind, ht, hr.domCharges, h.domCharge, hm, hn]
    rcases hr.pulsePdf with ⟨h1, h2⟩ | ⟨x, x', h1, h2, h3⟩
    · simp [h1, h2, SameTerms]
    · have e1 := time_merged h h3
      have e2 := scatter_merged h h3
      cases r.domCharges <;> rcases checkTime_cases d r with h4 | h4 <;> cases sort <;>
        simp [h1, h2, h4, ok_bind, error_bind, SameTerms, Term.total, e1, e2, pure, Except.pure]
  | pulseTime =>
    have hn := hc.2 (.inr (.inl hf))
    simp only [pulseTime, need_bind, ht, hn]
    rcases hr.pulsePdf with ⟨h1, h2⟩ | ⟨x, x', h1, h2, h3⟩
    · simp [h1, h2, SameTerms]
    · have e1 := time_merged h h3
      have e2 := scatter_merged h h3
      rcases checkTime_cases d r with h4 | h4 <;> cases sort <;>
        simp [h1, h2, h4, ok_bind, error_bind, SameTerms, Term.total, e1, e2, pure, Except.pure]
  | pulseAndDom =>
    have hn := hc.2 (.inr (.inr hf))
    simp only [pulseAndDom, need_bind, ht, hr.domLogPdf, h.domCharge, hm, hn]
    rcases hr.pulsePdf with ⟨h1, h2⟩ | ⟨x, x', h1, h2, h3⟩
    · simp [h1, h2, SameTerms]
    · have e1 := time_merged h h3
      have e2 := scatter_merged h h3
      cases r.domLogPdf <;> rcases checkTime_cases d r with h4 | h4 <;> cases sort <;>
        simp [h1, h2, h4, ok_bind, error_bind, SameTerms, Term.total, e1, e2, pure, Except.pure]
  | domAndEvent =>
    simp only [domAndEvent, need_bind, ht, hr.domCharges, hr.domLogPdf, hr.domVariance, h.domCharge, hm]
    cases r.domCharges <;> cases r.domLogPdf <;> cases r.domVariance <;> rcases checkTime_cases d r with h4 | h4 <;>
      cases sort <;> simp [h4, ok_bind, error_bind, SameTerms, Term.total, pure, Except.pure]
  | negBinomial =>
    simp only [negBinomial, need_bind, ht, hr.domCharges, hr.domVariance, h.domCharge, hm]
    cases r.domCharges <;> cases r.domVariance <;> rcases checkTime_cases d r with h4 | h4 <;>
      cases sort <;> simp [h4, ok_bind, error_bind, SameTerms, Term.total, pure, Except.pure]
  | negBinomialEvent =>
    simp only [negBinomialEvent, need_bind, ht, hr.domCharges, hr.domVariance, h.domCharge, hm]
    cases r.domCharges <;> cases r.domVariance <;> rcases checkTime_cases d r with h4 | h4 <;>
      cases sort <;> simp [h4, ok_bind, error_bind, SameTerms, Term.total, pure, Except.pure]
  | normalizedDom =>
    simp only [normalizedDom, need_bind, ht, hr.domCharges, hr.domVariance, h.domCharge, hm]
    cases r.domCharges <;> cases r.domVariance <;> rcases checkTime_cases d r with h4 | h4 <;>
      cases sort <;> simp [h4, ok_bind, error_bind, SameTerms, Term.total, pure, Except.pure]

theorem map_total_divide (n : ℝ) (l : List (Term B P)) :
    (l.map (Term.divide n)).map Term.total = (l.map Term.total).map (· / n) := by
  simp only [List.map_map]
  exact List.map_congr_left fun t _ => total_divide n t

/-- **C142.** Only the charge at a time matters: if pulses on a DOM with the same density are put together, or a pulse
is divided, or pulses without charge are left out, the loss is the same, as a number and sorted, normalised or not. -/
theorem C142_loss (cfg : Config) (hc : cfg.ByCharge) {f : Fin P → Option (Fin Q)} {d : Batch B P}
    {d' : Batch B Q} (h : Merged f d d') {r : Results B P} {r' : Results B Q} (hr : SamePredictions f r r')
    (normalize : Bool) :
    scalarLoss cfg d' r' normalize = scalarLoss cfg d r normalize ∧
      sortedLoss cfg d' r' normalize = sortedLoss cfg d r normalize := by
  have h1 := lossFunction_merged cfg hc h hr false
  have h2 := lossFunction_merged cfg hc h hr true
  have hn := numTerms_merged h
  unfold scalarLoss sortedLoss getLoss
  constructor
  · rcases e1 : lossFunction cfg d r false with e | (l | s) <;>
      rcases e2 : lossFunction cfg d' r' false with e' | (l' | s') <;> simp only [e1, e2, SameTerms] at h1
    · subst h1
      rfl
    · cases normalize with
      | false => simp [h1]
      | true =>
        have h3 := map_total_divide (numTerms d) l
        have h4 := map_total_divide (numTerms d) l'
        rw [h1, ← h3] at h4
        simp [hn, h4, -List.map_map]
    · subst h1
      simp only [Bool.and_false, Bool.false_eq_true, if_false]
      cases fill s <;> rfl
  · rcases e1 : lossFunction cfg d r true with e | (l | s) <;>
      rcases e2 : lossFunction cfg d' r' true with e' | (l' | s') <;> simp only [e1, e2, SameTerms] at h2
    · subst h2
      rfl
    · simp
    · subst h2
      simp only [hn]
      cases fill s <;> rfl

/-- **C142.** In the table of pulses: a row may be divided into rows with the same time on the same DOM, and put
together again. The likelihood of C140 is the same. -/
theorem C142_table {κ : Type} [DecidableEq κ] (n : ℕ) (labels : List κ) (rows rows' : List (Pulses.Row κ ℝ))
    (r : Pulses.Row κ ℝ) (parts : List ℝ) (hr : r.charge = parts.sum) (valid : Pulses.Cell → Bool)
    (q : Pulses.Cell → ℝ) (g : Pulses.Cell → ℝ → ℝ) :
    tableLoss n labels (rows ++ parts.map (fun a => { r with charge := a }) ++ rows') valid q g =
      tableLoss n labels (rows ++ [r] ++ rows') valid q g := by
  unfold tableLoss
  have hcell : ∀ a, Pulses.cellOf labels { r with charge := a } = Pulses.cellOf labels r := fun a => rfl
  have key : ∀ x : ℝ, ((parts.map fun a => { r with charge := a }).map fun s : Pulses.Row κ ℝ => s.charge * x).sum =
      r.charge * x := by
    intro x
    rw [hr]
    clear hr
    induction parts with
    | nil => simp
    | cons a l ih => simp only [List.map_cons, List.sum_cons] at ih ⊢; rw [ih]; ring
  simp only [List.filter_append, List.map_append, List.sum_append]
  cases hv : valid (Pulses.cellOf labels r) with
  | false =>
    have : (parts.map fun a => { r with charge := a }).filter (fun s => valid (Pulses.cellOf labels s)) = [] := by
      rw [List.filter_eq_nil_iff]
      intro s hs
      obtain ⟨a, -, rfl⟩ := List.mem_map.1 hs
      simp [hcell, hv]
    simp [this, hv]
  | true =>
    have : (parts.map fun a => { r with charge := a }).filter (fun s => valid (Pulses.cellOf labels s)) =
        parts.map fun a => { r with charge := a } := by
      rw [List.filter_eq_self]
      intro s hs
      obtain ⟨a, -, rfl⟩ := List.mem_map.1 hs
      simp [hcell, hv]
    rw [this]
    have k := key (Real.log ((q (Pulses.cellOf labels r) + 1e-7) * (g (Pulses.cellOf labels r) r.time + 1e-7)))
    simp only [List.map_map, Function.comp_def] at k
    simp only [List.map_map, Function.comp_def, hcell, k, List.filter_cons, hv, if_true, List.filter_nil,
      List.map_cons, List.map_nil, List.sum_cons, List.sum_nil, add_zero]

/-- Two pulses are put together, a third one without charge is left out. -/
example (c c' : Cell B) (x : ℝ) (k : Cell B → ℝ) :
    Merged (fun p : Fin 3 => if p = 2 then none else some (0 : Fin 1))
      ⟨fun p => if p = 0 then 1.5 else if p = 1 then 2.5 else 0, fun _ => 0, fun p => if p = 2 then c' else c, k, none, false⟩
      ⟨fun _ => 4, fun _ => 0, fun _ => c, k, none, false⟩ ∧
    SamePredictions (fun p : Fin 3 => if p = 2 then none else some (0 : Fin 1))
      ⟨some k, none, none, some fun p => if p = 2 then 7 else x, none, false⟩
      ⟨some k, none, none, some fun _ => x, none, false⟩ ∧ Config.ByCharge ⟨.extended, false, none, none⟩ := by
  refine ⟨⟨?_, ?_, ?_, rfl, rfl, rfl⟩, ⟨rfl, rfl, rfl, rfl, .inr ⟨_, _, rfl, rfl, ?_⟩⟩, ?_⟩
  · intro p hp
    fin_cases p <;> simp_all
  · intro q
    fin_cases q
    simp [Fin.sum_univ_three]
    norm_num
  · intro p q hp
    fin_cases p <;> simp_all
  · intro p q hp
    fin_cases p <;> simp_all
  · exact ⟨by simp, fun _ => rfl⟩

end Verif.Loss
