import Verif.Batch.Props
import Verif.Batch.ShiftSpec
import Verif.Loss.FileProps
import Verif.Cascade.Props

/-! # C140 with a cascade model: from the file to the loss -/

namespace Verif.Batch
open Verif.Py
open Verif.Loss (Cell place Carries tableLoss Predicts)
variable {X κ : Type} [DecidableEq κ] {W : ℕ}

theorem pulsePdf_nonneg {cfg : Cascade.Config} {d : Cascade.Dom} {T : Cascade.Tensors}
    (h : Cascade.getTensors cfg d = .ok T) (t : ℝ) : 0 ≤ T.pulsePdf t := by
  have ha := Cascade.C33_mixture cfg d T h
  have key : ∀ (e : Option (ℕ → ℝ)) (l : Cascade.Latent), Cascade.Admissible cfg.nModels l →
      (∀ x, e = some x → ∀ k, x k ≤ 1) → 0 ≤ Cascade.pulsePdf cfg.nModels l d.time e t := by
    intro e l hl he
    unfold Cascade.pulsePdf
    refine Finset.sum_nonneg fun k hk => ?_
    have hk' := Finset.mem_range.1 hk
    refine mul_nonneg (Dist.asymGauss_pos (lt_trans (by norm_num) (hl.width k hk'))
      (lt_trans (by norm_num) (hl.asymmetry k hk')) _).le ?_
    cases e with
    | none => exact (hl.weight k hk').le
    | some x =>
      have := he x rfl k
      exact div_nonneg (hl.weight k hk').le (by linarith)
  unfold Cascade.getTensors at h
  split_ifs at h with h1 h2
  cases hw : d.windows with
  | none =>
    simp only [hw, Except.ok.injEq] at h
    subst h
    exact key none _ ha (by simp)
  | some ws =>
    simp only [hw] at h
    split_ifs at h
    simp only [Except.ok.injEq] at h
    subst h
    refine key _ _ ha fun x hx k => ?_
    cases hx
    exact max_le zero_le_one (min_le_left _ _)

/-- What is predicted for a batch that holds loaded data, as charges and densities of DOMs. -/
theorem predictions_of_doms {B P : ℕ} (M : Source X) (D : Data X B P W) (S : Tensors B P) (hok : getTensors M D = .ok S)
    (hE : ∀ b, 0 ≤ M.energy (D.x b)) (hD : ∀ b, 0 ≤ M.domEff (D.x b)) (hR : ∀ c, 0 ≤ M.relEff c) :
    ∃ (q : Pulses.Cell → ℝ) (g : Pulses.Cell → ℝ → ℝ),
      (∀ c, ∃ T, Cascade.getTensors M.cfg { M.dom D c with windows := D.windowsAt c } = .ok T ∧
        q (place c) = T.charge ∧ ∀ t, g (place c) t = T.pulsePdf t) ∧
      (∀ c, S.charge c = q (place c)) ∧ (∀ p, S.pulsePdf p = g (place (D.ids p)) (D.pulseTime p)) ∧
      (∀ c, 0 ≤ q c) ∧ (∀ c t, 0 ≤ g c t) ∧ (D.windows.isSome = true → S.exclusionSum.isSome = true) := by
  classical
  have hdom := fun c => (C139_per_dom M D).1 _ hok c
  choose T hT t1 t2 t3 t4 t5 t6 using hdom
  have hpos : ∀ c, 0 ≤ (T c).charge := fun c => by
    have := (Cascade.C33_charge_partial M.cfg _ (T c) (hT c) (hE _) (hR _) (hD _)).1
    norm_num at this
    linarith
  let q : Pulses.Cell → ℝ := fun y => if h : ∃ c : Cell B, place c = y then (T h.choose).charge else 0
  let g : Pulses.Cell → ℝ → ℝ := fun y t =>
    if h : ∃ c : Cell B, place c = y then (T h.choose).pulsePdf t else 0
  have hch : ∀ (c : Cell B) (h : ∃ c', place c' = place c), h.choose = c :=
    fun c h => Loss.place_inj h.choose_spec
  have hq : ∀ c, q (place c) = (T c).charge := by
    intro c
    have h : ∃ c' : Cell B, place c' = place c := ⟨c, rfl⟩
    simp only [q, dif_pos h, hch c h]
  have hg : ∀ c t, g (place c) t = (T c).pulsePdf t := by
    intro c t
    have h : ∃ c' : Cell B, place c' = place c := ⟨c, rfl⟩
    simp only [g, dif_pos h, hch c h]
  refine ⟨q, g, fun c => ⟨T c, hT c, hq c, hg c⟩, fun c => by rw [hq, t4],
    fun p => by rw [hg]; exact t6 _ p rfl, fun y => ?_, fun y t => ?_, fun hw => ?_⟩
  · simp only [q]
    split
    · exact hpos _
    · exact le_rfl
  · simp only [g]
    split
    · exact pulsePdf_nonneg (hT _) _
    · exact le_rfl
  · obtain ⟨ws, hws⟩ := Option.isSome_iff_exists.1 hw
    unfold getTensors at hok
    split_ifs at hok
    rw [hws] at hok
    dsimp only at hok
    split_ifs at hok
    cases hok
    rfl

/-- C140 (cascades): for data loaded from an hdf file, the extended likelihood of a cascade model is that of the
table of pulses, with the charge and density that the model predicts for each DOM alone. Excluded time windows do not
overlap; the charges and densities are then those outside of the windows. -/
theorem C140_cascade (M : Source X) (hfit : M.cfg.Fits) (hR : ∀ c, 0 ≤ M.relEff c) (cfg : Loss.Config) (hf : cfg.function = .extended)
    (hn : cfg.addNorm = false)
    (pc : Pulses.Config) (labels : List κ)
    (rows : List (Pulses.Row κ ℝ)) (excl : Option (List (Pulses.DomRow κ))) (times : List (Pulses.TimeRow κ ℝ))
    (mem : ℕ → (ℝ × ℝ × ℝ) × Pulses.Ids) (tmem : ℕ → (ℝ × ℝ) × Pulses.Ids)
    (hd : labels.Nodup) (hu : ∀ r ∈ rows, r.Used) (hv : ∀ r ∈ rows, r.Valid labels)
    (he : ∀ l, excl = some l → ∀ r ∈ l, r.Valid labels) (hti : ∀ r ∈ times, r.dom ≤ 60 ∧ r.event ∈ labels)
    (hk : pc.domExclusionsExist = true → excl.isSome = true ∧ pc.discard = true) :
    ∃ (d : Pulses.Data ℝ) (valid : Pulses.Cell → Bool),
      Pulses.fromHdf pc ⟨some labels, some rows, excl, some times⟩ mem tmem = .ok (some (labels.length, d)) ∧
      (∀ c, valid c = true ↔ (pc.domExclusionsExist = true →
        pc.good c.2.1 c.2.2 = true ∧ ∀ l, excl = some l → ¬ Pulses.ExcludedBy labels l c)) ∧
      d.timeExclusions = (if pc.timeExclusionsExist then some (times.map fun r =>
        ((r.start, r.stop), ⟨labels.idxOf r.event, r.string - 1, r.dom - 1⟩)) else none) ∧
      ∀ (P : ℕ) (D : Data X labels.length P W) (E : Extra labels.length P), Holds d D E →
        (∀ b, 0 ≤ M.energy (D.x b)) → (∀ b, 0 ≤ M.domEff (D.x b)) →
        (∀ c, ∀ ws ∈ D.windowsAt c, Cascade.DisjointWindows ws) →
        ∃ (q : Pulses.Cell → ℝ) (g : Pulses.Cell → ℝ → ℝ),
          (∀ c, ∃ T, Cascade.getTensors M.cfg { M.dom D c with windows := D.windowsAt c } = .ok T ∧
            q (place c) = T.charge ∧ ∀ t, g (place c) t = T.pulsePdf t) ∧
          endToEnd M cfg D E = .ok (tableLoss labels.length labels rows valid q g) := by
  obtain ⟨d, valid, h1, h2, h3, -, h4⟩ :=
    Loss.C140_hdf cfg hf hn pc labels rows excl times mem tmem hd hu hv he hti hk
  refine ⟨d, valid, h1, h2, h3, fun P D E hH hE hD hdis => ?_⟩
  obtain ⟨hc, ht, -⟩ := hH
  have hdom : ∀ c, ∃ T, Cascade.getTensors M.cfg { M.dom D c with windows := D.windowsAt c } = .ok T := fun c =>
    (Cascade.C33_succeeds M.cfg _ (hdis c)).1 hfit
  have hok : ∃ S, getTensors M D = .ok S := by
    by_cases hB : 0 < labels.length
    · exact (C139_per_dom M D).2 hB hdom
    · have hB0 : labels.length = 0 := by omega
      have hno : ∀ b : Fin labels.length, False := fun b => by have := b.2; omega
      unfold getTensors
      rw [if_neg (by have := hfit.2; omega), if_neg (by have := hfit.1; omega)]
      cases D.windows with
      | none => exact ⟨_, rfl⟩
      | some ws =>
        dsimp only
        rw [if_pos ⟨fun w => (hno (ws w).2.1).elim, fun c => (hno c.1).elim, fun c => (hno c.1).elim⟩]
        exact ⟨_, rfl⟩
  obtain ⟨S, hok⟩ := hok
  obtain ⟨q, g, hqg, hq, hg, q0, g0, hsum⟩ := predictions_of_doms M D S hok hE hD hR
  refine ⟨q, g, hqg, ?_⟩
  have hpred : Predicts d (lossBatch D E) (lossResults M.cfg.method S) q g := by
    refine ⟨?_, ⟨_, rfl, fun p x hx => ?_⟩, q0, g0, fun hw => ?_⟩
    · simp only [lossResults]
      congr 1
      funext c
      exact hq c
    · rw [hg, ht p x hx]
      rfl
    · rw [← hc.time] at hw
      exact hsum hw
  unfold endToEnd
  simp only [hok]
  unfold Loss.scalarLoss
  rw [h4 P _ hc _ q g hpred]

/-- Every batch without time windows is of this form, whatever the parameters and times. -/
example {B P : ℕ} (x : Fin B → X) (t : Fin P → ℝ) (b : Loss.Batch B P) (h : b.timeExclusions = false) :
    ∃ (D : Data X B P W) (E : Extra B P), lossBatch D E = b ∧ D.windows = none ∧ D.x = x ∧ D.pulseTime = t := by
  refine ⟨⟨x, b.domCharge, t, b.ids, none⟩, ⟨b.charge, b.quantile, b.mask⟩, ?_, rfl, rfl, rfl⟩
  rcases b with ⟨_, _, _, _, _, _⟩
  simp only at h
  subst h
  rfl

end Verif.Batch
