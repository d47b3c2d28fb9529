import Verif.Batch.Props
import Verif.Loss.MergeProps

/-! # C142 for cascades: from the data to the loss -/

namespace Verif.Batch
open Verif.Py Verif.Cascade
open Verif.Loss (Cell)
variable {X : Type} {B P Q W : ℕ}

/-- The parts of a pulse have its time; parameters and excluded windows are the same. -/
structure SameTimes (f : Fin P → Option (Fin Q)) (D : Data X B P W) (D' : Data X B Q W) : Prop where
  x : D'.x = D.x
  windows : D'.windows = D.windows
  time : ∀ p q, f p = some q → D.pulseTime p = D'.pulseTime q

/-- **C142.** The loss of a cascade model, from the parameters and the data, is the same for pulses that are put
together, if they are on the same DOM at the same time. -/
theorem C142_cascade (M : Source X) (cfg : Loss.Config) (hc : cfg.ByCharge) {f : Fin P → Option (Fin Q)}
    {D : Data X B P W} {D' : Data X B Q W} {E : Extra B P} {E' : Extra B Q} (hD : SameTimes f D D')
    (h : Loss.Merged f (lossBatch D E) (lossBatch D' E')) : endToEnd M cfg D' E' = endToEnd M cfg D E := by
  obtain ⟨x, domCharge, pulseTime, ids, windows⟩ := D
  obtain ⟨x', domCharge', pulseTime', ids', windows'⟩ := D'
  obtain ⟨h1, h2, h3⟩ := hD
  have h4 : domCharge' = domCharge := h.domCharge
  have h5 : ∀ p q, f p = some q → ids p = ids' q := h.ids
  simp only at h1 h2 h3
  subst h1 h2 h4
  have key : ∀ e s, Loss.scalarLoss cfg (lossBatch ⟨x', domCharge', pulseTime', ids', windows'⟩ E')
        (lossResults M.cfg.method (tensors M (⟨x', domCharge', pulseTime', ids', windows'⟩ : Data X B Q W) e s)) false =
      Loss.scalarLoss cfg (lossBatch ⟨x', domCharge', pulseTime, ids, windows'⟩ E)
        (lossResults M.cfg.method (tensors M (⟨x', domCharge', pulseTime, ids, windows'⟩ : Data X B P W) e s)) false := by
    intro e s
    refine (Loss.C142_loss cfg hc h ⟨rfl, rfl, rfl, rfl, .inr ⟨_, _, rfl, rfl, fun p q hp => ?_⟩⟩ false).1
    simp only [tensors, h5 p q hp, h3 p q hp]
  unfold endToEnd getTensors
  dsimp only
  by_cases c1 : M.cfg.nModels * 4 + nCharge M.cfg.method ≠ M.cfg.nFilters
  · simp only [if_pos c1]
  · by_cases c2 : M.cfg.nModels ≤ 1
    · simp only [if_neg c1, if_pos c2]
    · simp only [if_neg c1, if_neg c2]
      cases windows' with
      | none => exact key none none
      | some ws =>
        dsimp only
        by_cases ha : batchAssertions M (⟨x', domCharge', pulseTime, ids, some ws⟩ : Data X B P W) ws
        · have ha' : batchAssertions M (⟨x', domCharge', pulseTime', ids', some ws⟩ : Data X B Q W) ws := ha
          rw [if_pos ha, if_pos ha']
          exact key _ _
        · have ha' : ¬ batchAssertions M (⟨x', domCharge', pulseTime', ids', some ws⟩ : Data X B Q W) ws := ha
          rw [if_neg ha, if_neg ha']

/-- Two pulses at the same time are put together. -/
example (x : Fin B → X) (c : Cell B) (k : Cell B → ℝ) :
    SameTimes (fun _ : Fin 2 => some (0 : Fin 1)) (⟨x, k, fun _ => 10, fun _ => c, none⟩ : Data X B 2 W)
      ⟨x, k, fun _ => 10, fun _ => c, none⟩ ∧
    Loss.Merged (fun _ : Fin 2 => some (0 : Fin 1))
      (lossBatch (⟨x, k, fun _ => 10, fun _ => c, none⟩ : Data X B 2 W) ⟨fun p => p.1 + 1, fun _ => 0, none⟩)
      (lossBatch (⟨x, k, fun _ => 10, fun _ => c, none⟩ : Data X B 1 W) ⟨fun _ => 3, fun _ => 0, none⟩) := by
  refine ⟨⟨rfl, rfl, fun _ _ _ => rfl⟩, ⟨by simp, fun q => ?_, fun _ _ _ => rfl, rfl, rfl, rfl⟩⟩
  have : q = 0 := Subsingleton.elim _ _
  subst this
  simp [lossBatch]
  norm_num

end Verif.Batch
