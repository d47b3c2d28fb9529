import Verif.Batch.ShiftProps
import Verif.Pulses.ShiftProps
import Verif.Loss.FileProps

/-! # C141 from the file to the loss -/

namespace Verif.Batch
open Verif.Py
open Verif.Loss (Cell)
variable {X κ : Type} [DecidableEq κ] {B P W : ℕ}

theorem later_of_holds {d : Pulses.Data ℝ} {σ : ℕ → ℝ} {D D' : Data X B P W} {E : Extra B P} (h : Holds d D E)
    (h' : Holds (d.later σ) D' E) : LaterData (fun b => σ b) D D' := by
  have hids : D'.ids = D.ids := by
    funext p
    obtain ⟨x, h1, -⟩ := h.carries.pulses p
    obtain ⟨y, h2, -⟩ := h'.carries.pulses p
    simp only [Pulses.Data.later, List.getElem?_map, h1, Option.map_some, Option.some.injEq, Prod.mk.injEq] at h2
    exact (Loss.place_inj (Pulses.idsOf_inj h2.2)).symm
  refine ⟨?_, hids, fun p => ?_, ?_⟩
  · funext c
    rw [show D'.domCharge c = _ from h'.carries.domCharge c, show D.domCharge c = _ from h.carries.domCharge c]
    rfl
  · obtain ⟨x, h1, -⟩ := h.carries.pulses p
    rw [h.times p _ h1]
    have h2 : (d.later σ).pulses[p.1]? =
        some ({ x with time := x.time + σ (D.ids p).1 }, Pulses.idsOf (Loss.place (D.ids p))) := by
      simp only [Pulses.Data.later, List.getElem?_map, h1, Option.map_some]
      rfl
    rw [h'.times p _ h2]
  · cases ht : d.timeExclusions with
    | none =>
      have h1 := h.carries.time
      have h2 := h'.carries.time
      simp only [lossBatch, Pulses.Data.later, ht, Option.map_none, Option.isSome_none, Option.isSome_eq_false_iff,
        Option.isNone_iff_eq_none] at h1 h2
      rw [h1, h2]
      rfl
    | some l =>
      obtain ⟨ws, w1, w2⟩ := h.windows l ht
      obtain ⟨ws', w3, w4⟩ := h'.windows _ (by simp only [Pulses.Data.later, ht, Option.map_some]; rfl)
      rw [w1, w3]
      simp only [Option.map_some, Option.some.injEq]
      funext w
      have := w4 w
      simp only [List.getElem?_map, w2 w, Option.map_some, Option.some.injEq, Prod.mk.injEq] at this
      refine Prod.ext ?_ (Loss.place_inj (Pulses.idsOf_inj this.2)).symm
      rw [← this.1]
      rfl

/-- **C141.** From the file to the loss: if the times in the tables of an hdf file and those of the sources are later
by the same amounts, for each event, the loss is the same. -/
theorem C141_file (M : Source X) (lcfg : Loss.Config) (cfg : Pulses.Config) (file : Pulses.HdfFile κ ℝ)
    (mem mem' : ℕ → (ℝ × ℝ × ℝ) × Pulses.Ids) (tmem tmem' : ℕ → (ℝ × ℝ) × Pulses.Ids)
    (τ : κ → ℝ) (σ : ℕ → ℝ) (labels : List κ) (hl : file.labels = some labels) (hd : labels.Nodup)
    (hσ : ∀ i k, labels[i]? = some k → σ i = τ k) (hu : ∀ rows, file.pulses = some rows → ∀ r ∈ rows, r.Used)
    (ht : ∀ rows, file.timeExclusions = some rows → ∀ r ∈ rows, r.dom ≤ 60) (size : ℕ) (d : Pulses.Data ℝ)
    (hload : Pulses.fromHdf cfg file mem tmem = .ok (some (size, d))) :
    ∃ d', Pulses.fromHdf cfg (file.later τ) mem' tmem' = .ok (some (size, d')) ∧
      ∀ (D D' : Data X B P W) (E : Extra B P), Holds d D E → Holds d' D' E →
        (∀ b : Fin B, LaterParameters M (σ b) (D.x b) (D'.x b)) → endToEnd M lcfg D' E = endToEnd M lcfg D E := by
  refine ⟨d.later σ, ?_, fun D D' E h h' hp => C141_loss (later_of_holds h h') hp lcfg E⟩
  rw [Pulses.C141_hdf cfg file mem mem' tmem tmem' τ σ (fun l hl' => by
    rw [hl] at hl'
    cases hl'
    exact ⟨hd, hσ⟩) hu ht, hload]
  rfl

/-- A file with two events, and the loaded data with and without later times. -/
example : ∃ d : Pulses.Data ℚ,
    Pulses.fromHdf ⟨false, false, true, false, fun _ _ => true⟩
      ⟨some [7, 9], some [⟨7, 1, 1, 10, 2⟩, ⟨9, 86, 60, 20, 3⟩, ⟨9, 5, 5, 30, 1⟩], none, some [⟨9, 5, 5, 40, 50⟩]⟩
      (fun _ => ((0, 0, 0), ⟨0, 0, 0⟩)) (fun _ => ((0, 0), ⟨0, 0, 0⟩)) = .ok (some (2, d)) ∧
    (d.later fun i => if i = 0 then 100 else 200).pulses.map (fun p => p.1.time) = [110, 220, 230] ∧
    (d.later fun i => if i = 0 then 100 else 200).timeExclusions = some [((240, 250), ⟨1, 4, 4⟩)] ∧
    (d.later fun i => if i = 0 then 100 else 200).timeWindow 1 = (some 220, some 230) :=
  ⟨_, rfl, by decide +kernel, by decide +kernel, by decide +kernel⟩

end Verif.Batch
