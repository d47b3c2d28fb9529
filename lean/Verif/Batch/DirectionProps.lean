import Verif.Batch.ShiftProps

/-! # C79: the loss depends on the direction, not on the angles it is written with -/

namespace Verif.Batch
open Verif.Py
variable {B P W : ℕ}

/-- **C79.** From the parameters to the loss: if the cascades of two batches have the same vertices, directions,
energies, times and further parameters, the predictions and the loss are the same, however the directions are
written as angles. -/
theorem C79_loss (cfg : Cascade.Config) (icfg : Inputs.Config) (t : Inputs.Trafo) (localVars : List ℝ)
    (pos : DomIx → Sphere.V3) (layers : (DomIx → Except Err (List Inputs.Chan)) → DomIx → ℕ → ℝ) (eff : ℕ)
    (relEff : DomIx → ℝ) (D : Data Inputs.Hyp B P W) (x' : Fin B → Inputs.Hyp)
    (hv : ∀ b, (x' b).vertex = (D.x b).vertex) (hd : ∀ b, (x' b).flight = (D.x b).flight)
    (he : ∀ b, (x' b).energy = (D.x b).energy) (ht : ∀ b, (x' b).time = (D.x b).time)
    (hr : ∀ b, (x' b).rest = (D.x b).rest) :
    getTensors (cascadeSource cfg icfg t localVars pos layers eff relEff) { D with x := x' } =
        getTensors (cascadeSource cfg icfg t localVars pos layers eff relEff) D ∧
      ∀ (lcfg : Loss.Config) (E : Extra B P),
        endToEnd (cascadeSource cfg icfg t localVars pos layers eff relEff) lcfg { D with x := x' } E =
          endToEnd (cascadeSource cfg icfg t localVars pos layers eff relEff) lcfg D E := by
  have hD : LaterData (fun _ => 0) D { D with x := x' } :=
    ⟨rfl, rfl, fun p => (add_zero _).symm, by cases D.windows <;> simp⟩
  have hp : ∀ b, LaterParameters (cascadeSource cfg icfg t localVars pos layers eff relEff) 0 (D.x b) (x' b) := by
    intro b
    refine ⟨?_, he b, ?_, ?_⟩
    · show layers _ = layers _
      congr 1
      funext c
      refine Inputs.C79_default_only icfg t localVars (pos c) _ _ ⟨?_, hd b, he b, fun i _ => ?_⟩
      · rw [hv b]
      · rw [hr b]
    · show (x' b).rest.getD eff 1 = _
      rw [hr b]
      rfl
    · show (x' b).time = (D.x b).time + 0
      rw [ht b, add_zero]
  exact ⟨C141_cascade hD hp, fun lcfg E => C141_loss hD hp lcfg E⟩

/-- The hypotheses of `C79_loss` hold for azimuths that are larger by a turn, and for opposite zeniths with azimuths
that are larger by half a turn. -/
example (h : Inputs.Hyp) : ({ h with azimuth := h.azimuth + 2 * Real.pi } : Inputs.Hyp).flight = h.flight ∧
    ({ h with zenith := -h.zenith, azimuth := h.azimuth + Real.pi } : Inputs.Hyp).flight = h.flight := by
  simp [Inputs.Hyp.flight]

end Verif.Batch
