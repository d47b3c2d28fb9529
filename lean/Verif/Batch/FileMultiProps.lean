import Verif.Batch.MultiSpec
import Verif.Batch.FileProps
import Verif.Sources.Props

/-! # C140 with several sources: from the file to the loss -/

namespace Verif.Batch
open Verif.Py Verif.Sources
open Verif.Loss (Cell place Carries tableLoss Predicts)
variable {κ : Type} [DecidableEq κ] {B P W : ℕ}

/-- The prediction `o` of a source has, for the loaded data `d`, the charges `x.1` and the densities `x.2` of each
DOM. -/
structure PredictsOut (d : Pulses.Data ℝ) (b : Loss.Batch B P) (o : Out ℝ (Cell B) (Fin P))
    (x : (Pulses.Cell → ℝ) × (Pulses.Cell → ℝ → ℝ)) : Prop where
  charge : ∀ c, o.charge c = x.1 (place c)
  density : ∀ (p : Fin P) (y : Pulses.Pulse ℝ × Pulses.Ids), d.pulses[p.1]? = some y →
    o.pdf p = x.2 (place (b.ids p)) y.1.time
  charge_nonneg : ∀ c, 0 ≤ x.1 c
  density_nonneg : ∀ c t, 0 ≤ x.2 c t

/-- The charge of all sources. -/
def sumCharge (xs : List ((Pulses.Cell → ℝ) × (Pulses.Cell → ℝ → ℝ))) (c : Pulses.Cell) : ℝ :=
  (xs.map fun x => x.1 c).sum

/-- The mean density of all sources, weighted with their charges; the constant is that of the code. -/
noncomputable def meanDensity (xs : List ((Pulses.Cell → ℝ) × (Pulses.Cell → ℝ → ℝ))) (c : Pulses.Cell) (t : ℝ) : ℝ :=
  (xs.map fun x => x.1 c * x.2 c t).sum / (sumCharge xs c + 1 / 10 ^ 6)

theorem predicts_superposition {d : Pulses.Data ℝ} {b : Loss.Batch B P} {outs : List (Out ℝ (Cell B) (Fin P))}
    {xs : List ((Pulses.Cell → ℝ) × (Pulses.Cell → ℝ → ℝ))} (h : List.Forall₂ (PredictsOut d b) outs xs)
    {r : Result ℝ (Cell B) (Fin P)} (hr : IsSuperposition (1 / 10 ^ 6) outs b.ids r) {ex : Bool}
    (hw : d.timeExclusions.isSome = true → ex = true) :
    Predicts d b (multiResults ex r) (sumCharge xs) (meanDensity xs) := by
  have hq : ∀ c, (outs.map fun o => o.charge c).sum = sumCharge xs (place c) := by
    intro c
    clear hr
    unfold sumCharge
    induction h with
    | nil => rfl
    | cons hx _ ih => simp only [List.map_cons, List.sum_cons, ih, hx.charge]
  have hp : ∀ (p : Fin P) (y : Pulses.Pulse ℝ × Pulses.Ids), d.pulses[p.1]? = some y →
      (outs.map fun o => o.charge (b.ids p) * o.pdf p).sum =
        (xs.map fun x => x.1 (place (b.ids p)) * x.2 (place (b.ids p)) y.1.time).sum := by
    intro p y hy
    clear hr hq
    induction h with
    | nil => rfl
    | cons hx _ ih => simp only [List.map_cons, List.sum_cons, ih, hx.charge, hx.density p y hy]
  have hnn : ∀ x ∈ xs, (∀ c, 0 ≤ x.1 c) ∧ ∀ c t, 0 ≤ x.2 c t := by
    clear hr hq hp
    induction h with
    | nil => simp
    | cons hx _ ih =>
      intro x hm
      rcases List.mem_cons.1 hm with rfl | hm
      · exact ⟨hx.charge_nonneg, hx.density_nonneg⟩
      · exact ih x hm
  have hsum : ∀ c, 0 ≤ sumCharge xs c := fun c => List.sum_nonneg fun z hz => by
    obtain ⟨x, hx, rfl⟩ := List.mem_map.1 hz
    exact (hnn x hx).1 c
  refine ⟨?_, ⟨_, rfl, fun p y hy => ?_⟩, hsum, fun c t => ?_, hw⟩
  · show some r.charge = _
    congr 1
    funext c
    rw [hr.charge c, hq]
  · show r.pdf p = _
    rw [hr.pdf p, hp p y hy, hq]
    rfl
  · refine div_nonneg (List.sum_nonneg fun z hz => ?_) (by have := hsum c; positivity)
    obtain ⟨x, hx, rfl⟩ := List.mem_map.1 hz
    exact mul_nonneg ((hnn x hx).1 c) ((hnn x hx).2 c t)

/-- C140 (several sources): for data loaded from an hdf file and sources that share a cascade model, the extended
likelihood is that of the table of pulses, with the sum of the charges and the mean of the densities that the
model predicts for the parameters of each source. -/
theorem C140_sources (M : Source (List ℝ)) (hR : ∀ c, 0 ≤ M.relEff c) (cfg : Loss.Config)
    (hf : cfg.function = .extended) (hn : cfg.addNorm = false)
    (pc : Pulses.Config) (labels : List κ)
    (rows : List (Pulses.Row κ ℝ)) (excl : Option (List (Pulses.DomRow κ))) (times : List (Pulses.TimeRow κ ℝ))
    (mem : ℕ → (ℝ × ℝ × ℝ) × Pulses.Ids) (tmem : ℕ → (ℝ × ℝ) × Pulses.Ids)
    (hd : labels.Nodup) (hu : ∀ r ∈ rows, r.Used) (hv : ∀ r ∈ rows, r.Valid labels)
    (he : ∀ l, excl = some l → ∀ r ∈ l, r.Valid labels) (hti : ∀ r ∈ times, r.dom ≤ 60 ∧ r.event ∈ labels)
    (hk : pc.domExclusionsExist = true → excl.isSome = true ∧ pc.discard = true)
    (sources : Dict String String) (base : String) (hone : ∀ s b, (s, b) ∈ sources → b = base) (order : List String)
    (ho : IsSetOrder order sources) (ex : Bool) (hex : pc.timeExclusionsExist = true → ex = true) :
    ∃ (d : Pulses.Data ℝ) (valid : Pulses.Cell → Bool),
      Pulses.fromHdf pc ⟨some labels, some rows, excl, some times⟩ mem tmem = .ok (some (labels.length, d)) ∧
      (∀ c, valid c = true ↔ (pc.domExclusionsExist = true →
        pc.good c.2.1 c.2.2 = true ∧ ∀ l, excl = some l → ¬ Pulses.ExcludedBy labels l c)) ∧
      ∀ (P : ℕ) (D : Data Unit labels.length P W) (E : Extra labels.length P), Holds d D E →
        ∀ (bases : Dict String (Base (Fin labels.length → ℝ) ℝ (Cell labels.length) (Fin P))) (names : List String),
        Dict.get? bases base = some (M.base names D) →
        ∀ (row : List (Fin labels.length → ℝ)) (s : Dict String (List (Fin labels.length → ℝ))),
        independentSlices sources (baseNames bases) row = .ok s →
        (∀ cols ∈ s.map (·.2), ∀ b, 0 ≤ M.energy (cols.map (· b)) ∧ 0 ≤ M.domEff (cols.map (· b))) →
        ∀ r, independentGetTensors bases sources order ex D.ids row = .ok r →
        ∃ xs, List.Forall₂ (fun (src : String × String) x => ∃ cols, Dict.get? s src.1 = some cols ∧ ∀ c, ∃ T,
            Cascade.getTensors M.cfg { M.dom { D with x := fun b => cols.map (· b) } c with
              windows := D.windowsAt c } = .ok T ∧
            x.1 (place c) = T.charge ∧ ∀ t, x.2 (place c) t = T.pulsePdf t) sources xs ∧
          Loss.scalarLoss cfg (lossBatch D E) (multiResults ex r) false =
            .ok (tableLoss labels.length labels rows valid (sumCharge xs) (meanDensity xs)) := by
  obtain ⟨d, valid, h1, h2, h3, -, h4⟩ :=
    Loss.C140_hdf cfg hf hn pc labels rows excl times mem tmem hd hu hv he hti hk
  refine ⟨d, valid, h1, h2, fun P D E hH bases names hb row s hs hpos r hr => ?_⟩
  unfold independentGetTensors at hr
  split at hr
  · cases hr
  rename_i params hparams
  obtain ⟨s', outs, e1, e2, -, e3⟩ := C32_superposition_partial bases sources _ _ order ex D.ids row r base hone ho hr
  rw [hs] at e1
  cases e1
  have key : ∀ src outs, (∀ x ∈ src, x ∈ sources) → OwnPredictions bases s src outs →
      ∃ xs, List.Forall₂ (fun (src : String × String) x => ∃ cols, Dict.get? s src.1 = some cols ∧ ∀ c, ∃ T,
            Cascade.getTensors M.cfg { M.dom { D with x := fun b => cols.map (· b) } c with
              windows := D.windowsAt c } = .ok T ∧
            x.1 (place c) = T.charge ∧ ∀ t, x.2 (place c) t = T.pulsePdf t) src xs ∧
        List.Forall₂ (PredictsOut d (lossBatch D E)) outs xs := by
    intro src outs hsub h
    unfold OwnPredictions at h
    induction h with
    | nil => exact ⟨[], .nil, .nil⟩
    | @cons x o rest os hx _ ih =>
      obtain ⟨xs, k1, k2⟩ := ih fun y hy => hsub y (List.mem_cons_of_mem _ hy)
      obtain ⟨b', cols, g1, g2, g3⟩ := hx
      rw [hone x.1 x.2 (hsub x (List.mem_cons_self ..)), hb] at g1
      cases g1
      simp only [Source.base] at g3
      split at g3
      · cases g3
      rename_i T hT
      cases g3
      have hc := hpos cols (List.mem_map.2 ⟨_, Dict.mem_of_get? g2, rfl⟩)
      obtain ⟨q, g, m1, m2, m3, m4, m5, -⟩ := predictions_of_doms M _ T hT (fun b => (hc b).1) (fun b => (hc b).2) hR
      refine ⟨(q, g) :: xs, .cons ⟨cols, g2, m1⟩ k1, .cons ⟨m2, fun p y hy => ?_, m4, m5⟩ k2⟩
      show T.pulsePdf p = _
      rw [m3]
      show g _ (D.pulseTime p) = _
      rw [hH.times p y hy]
      rfl
  obtain ⟨xs, k1, k2⟩ := key sources outs (fun _ h => h) e2
  refine ⟨xs, k1, ?_⟩
  unfold Loss.scalarLoss
  rw [h4 P _ hH.carries _ _ _ (predicts_superposition k2 e3 fun hw => hex ?_)]
  rw [h3] at hw
  by_contra hne
  rw [if_neg hne] at hw
  cases hw

/-- Two cascades with two parameters each: the evaluation succeeds, and the sources get their own columns. -/
example (M : Source (List ℝ)) (hf : M.cfg.Fits) (D : Data Unit B P W) (hw : D.windows = none)
    (a b c d : Fin B → ℝ) :
    (∃ r, independentGetTensors [("cascade", M.base ["x", "y"] D)] [("s1", "cascade"), ("s2", "cascade")] ["cascade"]
      false D.ids [a, b, c, d] = .ok r) ∧
    independentSlices [("s1", "cascade"), ("s2", "cascade")] (baseNames [("cascade", M.base ["x", "y"] D)])
      [a, b, c, d] = .ok [("s1", [a, b]), ("s2", [c, d])] := by
  have hs : ∀ cols : List (Fin B → ℝ), ∃ o : Out ℝ (Cell B) (Fin P),
      (M.base ["x", "y"] D).eval cols = .ok o ∧ shapesOk false o = true := by
    intro cols
    obtain ⟨T, hT⟩ := C139_succeeds M
      ⟨fun b => cols.map fun col => col b, D.domCharge, D.pulseTime, D.ids, D.windows⟩ hf
      (fun c ws hc => by simp [Data.windowsAt, hw] at hc)
    exact ⟨_, by simp only [Source.base, hT]; rfl, rfl⟩
  obtain ⟨o, ho, hs1⟩ := hs [a, b]
  obtain ⟨u, hu, hs2⟩ := hs [c, d]
  have h2 : independentSlices [("s1", "cascade"), ("s2", "cascade")]
      (baseNames [("cascade", M.base ["x", "y"] D)]) [a, b, c, d] = .ok [("s1", [a, b]), ("s2", [c, d])] := rfl
  refine ⟨?_, h2⟩
  have h1 : independentParameters [("s1", "cascade"), ("s2", "cascade")]
      (baseNames [("cascade", M.base ["x", "y"] D)]) = .ok ["s1_x", "s1_y", "s2_x", "s2_y"] := rfl
  have h3 : indexer [a, b, c, d] ["s1_x", "s1_y", "s2_x", "s2_y"] =
      .ok [("s1_x", a), ("s1_y", b), ("s2_x", c), ("s2_y", d)] := rfl
  have h4 : indexer [a, b] (M.base ["x", "y"] D).names = .ok [("x", a), ("y", b)] := rfl
  have h5 : indexer [c, d] (M.base ["x", "y"] D).names = .ok [("x", c), ("y", d)] := rfl
  simp only [independentGetTensors, h1, Sources.getTensors, h2, h3, lastBase, item, Dict.get?_cons, if_true, sourceLoop,
    Sources.closure, ho, hu, hs1, hs2, h4, h5, show ("s1" = "s2") = False from by decide, if_false, accumulate,
    Except.ok.injEq, exists_eq']

end Verif.Batch
