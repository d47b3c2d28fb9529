import Verif.Batch.FileFitSpec
import Verif.Batch.FileProps

/-! # C144: the best parameters of the events of a file -/

namespace Verif.Batch
open Verif.Py
open Verif.Loss (Cell place tableLoss)
variable {X κ : Type} [DecidableEq κ] {B P W : ℕ}

/-- Sums over rows are sums over events and their rows. -/
theorem sum_rows_events (labels : List κ) (hd : labels.Nodup) (h : Pulses.Row κ ℝ → ℝ) (rows : List (Pulses.Row κ ℝ))
    (hv : ∀ r ∈ rows, r.event ∈ labels) :
    (rows.map h).sum = ∑ b : Fin labels.length, ((rowsOf labels[b] rows).map h).sum := by
  unfold rowsOf
  induction rows with
  | nil => simp
  | cons r rows ih =>
    have h1 := ih fun x hx => hv x (List.mem_cons_of_mem _ hx)
    have hr := hv r (List.mem_cons_self ..)
    have h2 : ∀ b : Fin labels.length, (((r :: rows).filter fun r => r.event = labels[b]).map h).sum =
        (if b = ⟨labels.idxOf r.event, List.idxOf_lt_length_of_mem hr⟩ then h r else 0) +
          ((rows.filter fun r => r.event = labels[b]).map h).sum := by
      intro b
      rw [List.filter_cons]
      have : r.event = labels[b] ↔ b = ⟨labels.idxOf r.event, List.idxOf_lt_length_of_mem hr⟩ := by
        constructor
        · intro he
          apply Fin.ext
          show b.1 = labels.idxOf r.event
          rw [he]
          exact (hd.idxOf_getElem b.1 b.2).symm
        · intro he
          rw [he]
          simp
      by_cases hb : r.event = labels[b]
      · rw [if_pos (by simpa using hb), if_pos (this.1 hb)]
        simp
      · rw [if_neg (by simpa using hb), if_neg (fun h => hb (this.2 h)), zero_add]
    simp only [h2, Finset.sum_add_distrib, Finset.sum_ite_eq', Finset.mem_univ, if_true, List.map_cons, List.sum_cons, h1]

theorem sum_filter_map (l : List (Pulses.Row κ ℝ)) (p : Pulses.Row κ ℝ → Bool) (h : Pulses.Row κ ℝ → ℝ) :
    ((l.filter p).map h).sum = (l.map fun r => if p r = true then h r else 0).sum := by
  induction l with
  | nil => rfl
  | cons r l ih =>
    rw [List.filter_cons]
    split <;> simp_all

/-- The likelihood of a table is the sum of those of its events. -/
theorem tableLoss_events (labels : List κ) (hd : labels.Nodup) (rows : List (Pulses.Row κ ℝ))
    (hu : ∀ r ∈ rows, r.Used) (hv : ∀ r ∈ rows, r.Valid labels) (valid : Pulses.Cell → Bool)
    (q0 : Pulses.Cell → ℝ) (g0 : Pulses.Cell → ℝ → ℝ) (good : Fin labels.length → ℕ × ℕ → Bool)
    (q : Fin labels.length → ℕ × ℕ → ℝ) (g : Fin labels.length → ℕ × ℕ → ℝ → ℝ)
    (hgood : ∀ c : Cell labels.length, valid (place c) = good c.1 (c.2.1, c.2.2))
    (hq : ∀ c : Cell labels.length, q0 (place c) = q c.1 (c.2.1, c.2.2))
    (hg : ∀ (c : Cell labels.length) t, g0 (place c) t = g c.1 (c.2.1, c.2.2) t) :
    tableLoss labels.length labels rows valid q0 g0 =
      ∑ b, eventLoss (good b) (rowsOf labels[b] rows) (q b) (g b) := by
  unfold tableLoss eventLoss
  rw [Finset.sum_sub_distrib]
  congr 1
  · rw [Finset.sum_filter, Fintype.sum_prod_type]
    refine Finset.sum_congr rfl fun b _ => ?_
    rw [Finset.sum_filter]
    refine Finset.sum_congr rfl fun s _ => ?_
    rw [hgood, hq]
  · rw [sum_filter_map, sum_rows_events labels hd _ rows fun r hr => (hv r hr (hu r hr)).1]
    refine Finset.sum_congr rfl fun b _ => ?_
    rw [sum_filter_map]
    congr 1
    refine List.map_congr_left fun r hr => ?_
    unfold rowsOf at hr
    obtain ⟨hr, he⟩ := List.mem_filter.1 hr
    have he : r.event = labels[b] := by simpa using he
    obtain ⟨-, s1, s2, d1⟩ := hv r hr (hu r hr)
    have d2 : r.dom ≤ 60 := hu r hr
    have hc : Pulses.cellOf labels r = place ((b, ⟨⟨(r.string - 1).toNat, by omega⟩, ⟨(r.dom - 1).toNat, by omega⟩⟩) :
        Cell labels.length) := by
      unfold Pulses.cellOf place
      have : labels.idxOf r.event = b := by
        rw [he]
        exact hd.idxOf_getElem b.1 b.2
      rw [this]
    rw [hc, hgood, hq, hg]
    rfl

/-- The windows of a DOM in the batch are those of the file. -/
theorem windowsAt_file {pc : Pulses.Config} {labels : List κ} {times : List (Pulses.TimeRow κ ℝ)} {d : Pulses.Data ℝ}
    (hd : labels.Nodup)
    (hv : ∀ r ∈ times, r.event ∈ labels ∧ 1 ≤ r.string ∧ r.string ≤ 86 ∧ 1 ≤ r.dom ∧ r.dom ≤ 60)
    (h3 : d.timeExclusions = if pc.timeExclusionsExist then some (times.map fun r =>
      ((r.start, r.stop), (⟨labels.idxOf r.event, r.string - 1, r.dom - 1⟩ : Pulses.Ids))) else none)
    {D : Data X labels.length P W} {E : Extra labels.length P} (hH : Holds d D E)
    (hW : ∀ l, d.timeExclusions = some l → l.length = W) (c : Cell labels.length) :
    D.windowsAt c = usedWindows pc times labels[c.1] (c.2.1, c.2.2) := by
  unfold usedWindows
  by_cases ht : pc.timeExclusionsExist = true
  · rw [if_pos ht] at h3 ⊢
    obtain ⟨ws, hws, hl⟩ := hH.windows _ h3
    have hlen := hW _ h3
    unfold Data.windowsAt windowsOf
    rw [hws, Option.map_some]
    congr 1
    have hof : (List.finRange W).map (fun w => ((ws w).1, Pulses.idsOf (place (ws w).2))) = times.map fun r =>
        ((r.start, r.stop), (⟨labels.idxOf r.event, r.string - 1, r.dom - 1⟩ : Pulses.Ids)) := by
      apply List.ext_getElem?
      intro i
      by_cases hi : i < W
      · rw [hl ⟨i, hi⟩]
        simp [hi]
      · rw [List.getElem?_eq_none (by simpa using hi), List.getElem?_eq_none (by rw [hlen]; omega)]
    have hleft : ((List.finRange W).filter fun w => (ws w).2 = c).map (fun w => (ws w).1) =
        (((List.finRange W).map (fun w => ((ws w).1, Pulses.idsOf (place (ws w).2)))).filter fun y =>
          y.2 = Pulses.idsOf (place c)).map (·.1) := by
      rw [List.filter_map, List.map_map]
      have : ((fun y : (ℝ × ℝ) × Pulses.Ids => decide (y.2 = Pulses.idsOf (place c))) ∘
          fun w => ((ws w).1, Pulses.idsOf (place (ws w).2))) = fun w => decide ((ws w).2 = c) :=
        funext fun w => decide_eq_decide.2
          ⟨fun h => Loss.place_inj (Pulses.idsOf_inj h), fun h => congrArg (fun c => Pulses.idsOf (place c)) h⟩
      rw [this]
      rfl
    rw [hleft, hof, List.filter_map, List.map_map]
    have : times.filter ((fun y : (ℝ × ℝ) × Pulses.Ids => decide (y.2 = Pulses.idsOf (place c))) ∘ fun r =>
          ((r.start, r.stop), (⟨labels.idxOf r.event, r.string - 1, r.dom - 1⟩ : Pulses.Ids))) =
        times.filter fun r => r.event = labels[c.1] ∧ ((r.string - 1).toNat, (r.dom - 1).toNat) = (c.2.1.1, c.2.2.1) := by
      refine List.filter_congr fun r hr => decide_eq_decide.2 ?_
      obtain ⟨hm, s1, -, d1, -⟩ := hv r hr
      simp only [Pulses.idsOf, place, Pulses.Ids.mk.injEq, Prod.mk.injEq, Nat.cast_inj]
      constructor
      · rintro ⟨e, s, dd⟩
        refine ⟨?_, by omega, by omega⟩
        simp only [Fin.getElem_fin, ← e, List.getElem_idxOf]
      · rintro ⟨e, s, dd⟩
        refine ⟨?_, by omega, by omega⟩
        rw [e]
        exact hd.idxOf_getElem c.1.1 c.1.2
    rw [this]
    rfl
  · rw [if_neg ht] at h3 ⊢
    have := hH.carries.time
    rw [h3] at this
    have : D.windows = none := by simpa [lossBatch] using this
    simp [Data.windowsAt, this]

/-- The predicted charge and density do not depend on what is measured. -/
theorem prediction_measured (cfg : Cascade.Config) (d : Cascade.Dom) (a : ℝ) {T T' : Cascade.Tensors}
    (h : Cascade.getTensors cfg { d with chargeTrue := a } = .ok T) (h' : Cascade.getTensors cfg d = .ok T') :
    T.charge = T'.charge ∧ T.pulsePdf = T'.pulsePdf := by
  rcases d with ⟨o, e, t, de, re, q, w⟩
  unfold Cascade.getTensors at h h'
  dsimp only at h h'
  split at h
  · cases h
  split at h
  · cases h
  rename_i h1 h2
  rw [if_neg h1, if_neg h2] at h'
  cases w with
  | none =>
    cases h
    cases h'
    exact ⟨rfl, rfl⟩
  | some l =>
    dsimp only at h h'
    split at h
    · rename_i h3
      rw [if_pos h3] at h'
      cases h
      cases h'
      exact ⟨rfl, rfl⟩
    · cases h

/-- C144: for data loaded from a file, the loss of a cascade model is the sum over the events of the negative
logarithm of the likelihood of the rows of the event; so parameters are best for the file exactly if those of each
event are best for its own rows. `X` are the parameters that are allowed: without negative energies. -/
theorem C144_file (M : Source X) (hfit : M.cfg.Fits) (hR : ∀ c, 0 ≤ M.relEff c) (hE : ∀ x, 0 ≤ M.energy x)
    (hD : ∀ x, 0 ≤ M.domEff x) (cfg : Loss.Config) (hf : cfg.function = .extended) (hn : cfg.addNorm = false)
    {q : X → Option (List (ℝ × ℝ)) → ℕ × ℕ → ℝ} {g : X → Option (List (ℝ × ℝ)) → ℕ × ℕ → ℝ → ℝ} (hM : Describes M q g)
    {pc : Pulses.Config} {labels : List κ} {rows : List (Pulses.Row κ ℝ)} {excl : Option (List (Pulses.DomRow κ))}
    {times : List (Pulses.TimeRow κ ℝ)} {d : Pulses.Data ℝ} (hL : Loaded pc labels rows excl times d) {good : Fin labels.length → ℕ × ℕ → Bool}
    (hg : ∀ b s, good b s = true ↔ Counts pc excl labels[b] s)
    (D : Data X labels.length P W) (E : Extra labels.length P) (hH : Holds d D E)
    (hW : ∀ l, d.timeExclusions = some l → l.length = W) (x : Fin labels.length → X) :
    fitLoss M cfg D E x =
      .ok (∑ b, fileLoss pc rows times (good b) labels[b] (q (x b)) (g (x b))) ∧
    (BestFit (fitLoss M cfg D E) x ↔ ∀ b y,
      fileLoss pc rows times (good b) labels[b] (q (x b)) (g (x b)) ≤
        fileLoss pc rows times (good b) labels[b] (q y) (g y)) := by
  have key : ∀ x, fitLoss M cfg D E x =
      .ok (∑ b, fileLoss pc rows times (good b) labels[b] (q (x b)) (g (x b))) := by
    intro x
    obtain ⟨mem, tmem, hload⟩ := hL.load
    obtain ⟨d', valid, h1, h2, h3, h4⟩ := C140_cascade (W := W) M hfit hR cfg hf hn pc labels rows excl times mem tmem
      hL.nodup hL.used hL.valid hL.validExcl (fun r hr => ⟨(hL.validTimes r hr).2.2.2.2, (hL.validTimes r hr).1⟩) hL.keys
    rw [hload] at h1
    cases h1
    have hw : ∀ c, Data.windowsAt { D with x := x } c = usedWindows pc times labels[c.1] (c.2.1, c.2.2) :=
      windowsAt_file (E := E) hL.nodup hL.validTimes h3 ⟨hH.carries, hH.times, hH.windows⟩ hW
    have hdis : ∀ c : Cell labels.length, ∀ ws ∈ usedWindows pc times labels[c.1] (c.2.1, c.2.2), Cascade.DisjointWindows ws := by
      intro c ws h
      unfold usedWindows at h
      split_ifs at h
      · cases h
        exact hL.disjoint _ _
      · cases h
    obtain ⟨q0, g0, k1, k2⟩ := h4 P { D with x := x } E ⟨hH.carries, hH.times, hH.windows⟩ (fun _ => hE _) (fun _ => hD _)
      (fun c ws h => hdis c ws (hw c ▸ h))
    unfold fitLoss
    rw [k2]
    congr 1
    have hpred : ∀ c : Cell labels.length,
        q0 (place c) = q (x c.1) (usedWindows pc times labels[c.1] (c.2.1, c.2.2)) (c.2.1, c.2.2) ∧
        ∀ t, g0 (place c) t = g (x c.1) (usedWindows pc times labels[c.1] (c.2.1, c.2.2)) (c.2.1, c.2.2) t := by
      intro c
      obtain ⟨T, t1, t2, t3⟩ := k1 c
      obtain ⟨T', u1, u2, u3⟩ := hM (x c.1) _ c.2 (hdis c)
      rw [hw c] at t1
      rw [t2, u2]
      suffices h : T.charge = T'.charge ∧ T.pulsePdf = T'.pulsePdf from
        ⟨h.1, fun t => by rw [t3, u3, h.2]⟩
      clear t2 t3 u2 u3
      exact prediction_measured M.cfg (M.alone (x c.1) _ c.2) (D.domCharge c) t1 u1
    refine tableLoss_events labels hL.nodup rows hL.used hL.valid valid q0 g0 good
      (fun b s => q (x b) (usedWindows pc times labels[b] s) s) (fun b s => g (x b) (usedWindows pc times labels[b] s) s)
      (fun c => ?_) (fun c => (hpred c).1) (fun c => (hpred c).2)
    rw [Bool.eq_iff_iff, h2, hg]
    unfold Counts
    refine imp_congr_right fun hx => and_congr_right fun _ => forall₂_congr fun l hl => ?_
    unfold Pulses.ExcludedBy
    constructor
    · intro hno r hr hr60 hev heq
      refine hno ⟨r, hr, hr60, ?_, (Prod.ext_iff.1 heq).1, (Prod.ext_iff.1 heq).2⟩
      rw [hev]
      exact hL.nodup.idxOf_getElem c.1.1 c.1.2
    · rintro hno ⟨r, hr, hr60, hev, hs, hdd⟩
      refine hno r hr hr60 ?_ (Prod.ext hs hdd)
      have hm := (hL.validExcl l hl r hr hr60).1
      have : labels.idxOf r.event = c.1.1 := hev
      simp only [Fin.getElem_fin, ← this, List.getElem_idxOf]
  refine ⟨key x, ?_⟩
  constructor
  · rintro ⟨a, ha, hmin⟩ b y
    rw [key] at ha
    cases ha
    have hle := hmin _ _ (key (Function.update x b y))
    rw [← Finset.add_sum_erase _ _ (Finset.mem_univ b), ← Finset.add_sum_erase Finset.univ
      (fun b' => fileLoss pc rows times (good b') labels[b'] (q (Function.update x b y b'))
        (g (Function.update x b y b'))) (Finset.mem_univ b), Function.update_self] at hle
    have hc : ∀ c ∈ Finset.univ.erase b, fileLoss pc rows times (good c) labels[c] (q (Function.update x b y c))
        (g (Function.update x b y c)) = fileLoss pc rows times (good c) labels[c] (q (x c)) (g (x c)) := by
      intro c hc
      rw [Function.update_of_ne (Finset.ne_of_mem_erase hc)]
    rw [Finset.sum_congr rfl hc] at hle
    linarith
  · intro h
    refine ⟨_, key x, fun y w hy => ?_⟩
    rw [key] at hy
    cases hy
    exact Finset.sum_le_sum fun b _ => h b (y b)

/-- Every model whose configuration fits predicts charges and densities. -/
theorem describes_exists (M : Source X) (hfit : M.cfg.Fits) : ∃ q g, Describes M q g := by
  have hT : ∀ x ws (s : DomIx), ∃ T, (∀ l ∈ ws, Cascade.DisjointWindows l) →
      Cascade.getTensors M.cfg (M.alone x ws s) = .ok T := by
    intro x ws s
    by_cases h : ∀ l ∈ ws, Cascade.DisjointWindows l
    · obtain ⟨T, hT⟩ := (Cascade.C33_succeeds M.cfg (M.alone x ws s) h).1 hfit
      exact ⟨T, fun _ => hT⟩
    · exact ⟨Cascade.tensorsWithout M.cfg (M.alone x ws s), fun h' => absurd h' h⟩
  choose T hT using hT
  refine ⟨fun x ws s => if h : s.1 < 86 ∧ s.2 < 60 then (T x ws (⟨s.1, h.1⟩, ⟨s.2, h.2⟩)).charge else 0,
    fun x ws s t => if h : s.1 < 86 ∧ s.2 < 60 then (T x ws (⟨s.1, h.1⟩, ⟨s.2, h.2⟩)).pulsePdf t else 0, fun x ws s h =>
    ⟨T x ws s, hT x ws s h, ?_, fun t => ?_⟩⟩
  · simp only [dif_pos (show s.1.1 < 86 ∧ s.2.1 < 60 from ⟨s.1.2, s.2.2⟩)]
  · simp only [dif_pos (show s.1.1 < 86 ∧ s.2.1 < 60 from ⟨s.1.2, s.2.2⟩)]

/-- C144 (order): the order of the pulses in a file does not matter. -/
theorem C144_order (M : Source X) (hfit : M.cfg.Fits) (hR : ∀ c, 0 ≤ M.relEff c) (hE : ∀ x, 0 ≤ M.energy x)
    (hD : ∀ x, 0 ≤ M.domEff x) (cfg : Loss.Config) (hf : cfg.function = .extended) (hn : cfg.addNorm = false)
    {pc : Pulses.Config} {labels : List κ} {rows rows' : List (Pulses.Row κ ℝ)} (hperm : rows.Perm rows')
    {excl : Option (List (Pulses.DomRow κ))} {times : List (Pulses.TimeRow κ ℝ)} {d d' : Pulses.Data ℝ}
    (hL : Loaded pc labels rows excl times d) (hL' : Loaded pc labels rows' excl times d') {P' W' : ℕ}
    (D : Data X labels.length P W) (E : Extra labels.length P) (hH : Holds d D E)
    (D' : Data X labels.length P' W') (E' : Extra labels.length P') (hH' : Holds d' D' E')
    (hW : ∀ l, d.timeExclusions = some l → l.length = W) (hW' : ∀ l, d'.timeExclusions = some l → l.length = W') :
    fitLoss M cfg D E = fitLoss M cfg D' E' := by
  classical
  obtain ⟨q, g, hM⟩ := describes_exists M hfit
  funext x
  rw [(C144_file M hfit hR hE hD cfg hf hn hM hL (good := fun b s => decide (Counts pc excl labels[b] s))
      (fun _ _ => decide_eq_true_iff) D E hH hW x).1,
    (C144_file M hfit hR hE hD cfg hf hn hM hL' (good := fun b s => decide (Counts pc excl labels[b] s))
      (fun _ _ => decide_eq_true_iff) D' E' hH' hW' x).1]
  congr 1
  refine Finset.sum_congr rfl fun b _ => ?_
  unfold fileLoss eventLoss rowsOf
  rw [(((hperm.filter _).filter _).map _).sum_eq]

/-- C144 (other files): the best parameters of an event are the same in every file that has the same pulses,
excluded DOMs and windows of this event, in whatever order and with whatever other events. -/
theorem C144_other_files (M : Source X) (hfit : M.cfg.Fits) (hR : ∀ c, 0 ≤ M.relEff c) (hE : ∀ x, 0 ≤ M.energy x)
    (hD : ∀ x, 0 ≤ M.domEff x) (cfg : Loss.Config) (hf : cfg.function = .extended) (hn : cfg.addNorm = false)
    {pc : Pulses.Config} {labels labels' : List κ} {rows rows' : List (Pulses.Row κ ℝ)}
    {excl excl' : Option (List (Pulses.DomRow κ))} {times times' : List (Pulses.TimeRow κ ℝ)} {d d' : Pulses.Data ℝ}
    (hL : Loaded pc labels rows excl times d) (hL' : Loaded pc labels' rows' excl' times' d') {P' W' : ℕ}
    (D : Data X labels.length P W) (E : Extra labels.length P) (hH : Holds d D E)
    (D' : Data X labels'.length P' W') (E' : Extra labels'.length P') (hH' : Holds d' D' E')
    (hW : ∀ l, d.timeExclusions = some l → l.length = W) (hW' : ∀ l, d'.timeExclusions = some l → l.length = W')
    (b : Fin labels.length) (b' : Fin labels'.length) (hb : labels[b] = labels'[b'])
    (hrows : (rowsOf labels[b] rows).Perm (rowsOf labels[b] rows'))
    (hexcl : ∀ r : Pulses.DomRow κ, r.event = labels[b] → ((∃ l, excl = some l ∧ r ∈ l) ↔ ∃ l, excl' = some l ∧ r ∈ l))
    (htimes : ∀ s, windowsOf times labels[b] s = windowsOf times' labels[b] s)
    {x : Fin labels.length → X} {x' : Fin labels'.length → X} (hx : BestFit (fitLoss M cfg D E) x)
    (hx' : BestFit (fitLoss M cfg D' E') x') : BestFit (fitLoss M cfg D E) (Function.update x b (x' b')) := by
  classical
  obtain ⟨q, g, hM⟩ := describes_exists M hfit
  have h1 := fun x => (C144_file M hfit hR hE hD cfg hf hn hM hL (good := fun b s => decide (Counts pc excl labels[b] s))
    (fun _ _ => decide_eq_true_iff) D E hH hW x).2
  have h2 := (C144_file M hfit hR hE hD cfg hf hn hM hL' (good := fun b s => decide (Counts pc excl' labels'[b] s))
    (fun _ _ => decide_eq_true_iff) D' E' hH' hW' x').2
  rw [h1] at hx ⊢
  rw [h2] at hx'
  have hcount : ∀ s, Counts pc excl' labels'[b'] s ↔ Counts pc excl labels[b] s := by
    intro s
    unfold Counts
    refine imp_congr_right fun _ => and_congr_right fun _ => ?_
    rw [← hb]
    constructor
    · intro h l hl r hr h60 he
      obtain ⟨l', hl', hr'⟩ := (hexcl r he).1 ⟨l, hl, hr⟩
      exact h l' hl' r hr' h60 he
    · intro h l hl r hr h60 he
      obtain ⟨l', hl', hr'⟩ := (hexcl r he).2 ⟨l, hl, hr⟩
      exact h l' hl' r hr' h60 he
  have hsame : ∀ y, fileLoss pc rows' times' (fun s => decide (Counts pc excl' labels'[b'] s)) labels'[b'] (q y) (g y) =
      fileLoss pc rows times (fun s => decide (Counts pc excl labels[b] s)) labels[b] (q y) (g y) := by
    intro y
    have hgood : (fun s => decide (Counts pc excl' labels'[b'] s)) = fun s => decide (Counts pc excl labels[b] s) :=
      funext fun s => decide_eq_decide.2 (hcount s)
    rw [hgood, ← hb]
    have huse : ∀ s, usedWindows pc times' labels[b] s = usedWindows pc times labels[b] s := fun s => by
      unfold usedWindows
      rw [htimes]
    unfold fileLoss eventLoss
    simp only [huse]
    rw [((hrows.filter _).map _).sum_eq]
  intro c y
  by_cases hc : c = b
  · subst hc
    rw [Function.update_self, ← hsame, ← hsame]
    exact hx' b' y
  · rw [Function.update_of_ne hc]
    exact hx c y

/-- There is a batch for every file, with any parameters, so the theorems above are not empty. -/
theorem holds_exists {pc : Pulses.Config} {labels : List κ} {rows : List (Pulses.Row κ ℝ)}
    {excl : Option (List (Pulses.DomRow κ))} {times : List (Pulses.TimeRow κ ℝ)} {d : Pulses.Data ℝ}
    (hL : Loaded pc labels rows excl times d) (x : Fin labels.length → X) :
    ∃ (P W : ℕ) (D : Data X labels.length P W) (E : Extra labels.length P), Holds d D E ∧ D.x = x ∧
      ∀ l, d.timeExclusions = some l → l.length = W := by
  obtain ⟨mem, tmem, hload⟩ := hL.load
  obtain ⟨d', -, h1, -, h3, ⟨P, b, hb⟩, -⟩ := Loss.C140_hdf ⟨.extended, false, none, none⟩ rfl rfl pc labels rows excl
    times mem tmem hL.nodup hL.used hL.valid hL.validExcl
    (fun r hr => ⟨(hL.validTimes r hr).2.2.2.2, (hL.validTimes r hr).1⟩) hL.keys
  rw [hload] at h1
  cases h1
  let at' : Fin times.length → (ℝ × ℝ) × Cell labels.length := fun w =>
    have h := hL.validTimes times[w] (List.getElem_mem _)
    ((times[w].start, times[w].stop), ⟨labels.idxOf times[w].event, List.idxOf_lt_length_of_mem h.1⟩,
      ⟨(times[w].string - 1).toNat, by omega⟩, ⟨(times[w].dom - 1).toNat, by omega⟩)
  refine ⟨P, times.length, ⟨x, b.domCharge, fun p => ((d.pulses[p.1]?).map fun y => y.1.time).getD 0, b.ids,
      if pc.timeExclusionsExist then some at' else none⟩,
    ⟨b.charge, b.quantile, b.mask⟩, ⟨⟨hb.count, hb.pulses, hb.domCharge, hb.mask, ?_⟩, fun p y hy => ?_, ?_⟩, rfl, ?_⟩
  · rw [h3]
    unfold lossBatch
    split_ifs <;> rfl
  · simp only [hy, Option.map_some, Option.getD_some]
  · intro l hl
    rw [h3] at hl
    split_ifs at hl with ht
    cases hl
    refine ⟨at', if_pos ht, fun w => ?_⟩
    have h := hL.validTimes times[w] (List.getElem_mem _)
    rw [List.getElem?_map, List.getElem?_eq_getElem w.2]
    simp only [Option.map_some, Option.some.injEq, at', Pulses.idsOf, place, Prod.mk.injEq, Pulses.Ids.mk.injEq,
      true_and, Fin.getElem_fin]
    simp only [Fin.getElem_fin] at h
    omega
  · intro l hl
    rw [h3] at hl
    split_ifs at hl with ht
    cases hl
    simp

/-- Two files which both have the event 9, one with another event and with the pulses in another order. -/
example : ∃ d d' : Pulses.Data ℝ,
    Loaded ⟨true, true, true, true, fun _ _ => true⟩ [7, 9]
      [⟨7, 1, 1, 10, 2⟩, ⟨9, 86, 60, 20, 3⟩, ⟨9, 5, 5, 30, 1⟩] (some [⟨9, 5, 5⟩]) [⟨7, 3, 3, 0, 5⟩, ⟨9, 86, 60, 100, 200⟩] d ∧
    Loaded ⟨true, true, true, true, fun _ _ => true⟩ [9]
      [⟨9, 5, 5, 30, 1⟩, ⟨9, 86, 60, 20, 3⟩] (some [⟨9, 5, 5⟩]) [⟨9, 86, 60, 100, 200⟩] d' ∧
    (rowsOf 9 [⟨7, 1, 1, 10, 2⟩, ⟨9, 86, 60, 20, 3⟩, ⟨9, 5, 5, 30, 1⟩]).Perm
      (rowsOf 9 ([⟨9, 5, 5, 30, 1⟩, ⟨9, 86, 60, 20, 3⟩] : List (Pulses.Row ℕ ℝ))) ∧
    ¬ Counts ⟨true, true, true, true, fun _ _ => true⟩ (some [⟨9, 5, 5⟩]) 9 (4, 4) ∧
    Counts ⟨true, true, true, true, fun _ _ => true⟩ (some [⟨9, 5, 5⟩]) 9 (85, 59) := by
  obtain ⟨d, -, h, -⟩ := Loss.C140_hdf (κ := ℕ) ⟨.extended, false, none, none⟩ rfl rfl
    ⟨true, true, true, true, fun _ _ => true⟩ [7, 9]
    [⟨7, 1, 1, 10, 2⟩, ⟨9, 86, 60, 20, 3⟩, ⟨9, 5, 5, 30, 1⟩] (some [⟨9, 5, 5⟩]) [⟨7, 3, 3, 0, 5⟩, ⟨9, 86, 60, 100, 200⟩]
    (fun _ => ((0, 0, 0), ⟨0, 0, 0⟩)) (fun _ => ((0, 0), ⟨0, 0, 0⟩)) (by decide)
    (by simp [Pulses.Row.Used]) (by simp [Pulses.Row.Valid]) (by simp [Pulses.DomRow.Valid]) (by simp) (by simp)
  obtain ⟨d', -, h', -⟩ := Loss.C140_hdf (κ := ℕ) ⟨.extended, false, none, none⟩ rfl rfl
    ⟨true, true, true, true, fun _ _ => true⟩ [9]
    [⟨9, 5, 5, 30, 1⟩, ⟨9, 86, 60, 20, 3⟩] (some [⟨9, 5, 5⟩]) [⟨9, 86, 60, 100, 200⟩]
    (fun _ => ((0, 0, 0), ⟨0, 0, 0⟩)) (fun _ => ((0, 0), ⟨0, 0, 0⟩)) (by decide)
    (by simp [Pulses.Row.Used]) (by simp [Pulses.Row.Valid]) (by simp [Pulses.DomRow.Valid]) (by simp) (by simp)
  refine ⟨d, d', ⟨by decide, by simp [Pulses.Row.Used], by simp [Pulses.Row.Valid], by simp [Pulses.DomRow.Valid],
    by simp, by simp, fun k s => ?_, _, _, h⟩, ⟨by decide, by simp [Pulses.Row.Used], by simp [Pulses.Row.Valid],
    by simp [Pulses.DomRow.Valid], by simp, by simp, fun k s => ?_, _, _, h'⟩, ?_, by simp [Counts], by simp [Counts]⟩
  · have hsub := (List.filter_sublist (p := fun r : Pulses.TimeRow ℕ ℝ => decide (r.event = k ∧
        ((r.string - 1).toNat, (r.dom - 1).toNat) = s)) (l := [⟨7, 3, 3, 0, 5⟩, ⟨9, 86, 60, 100, 200⟩])).map
      fun r => (r.start, r.stop)
    refine ⟨fun w hw => ?_, List.Pairwise.sublist hsub (by simp; norm_num)⟩
    have := hsub.subset hw
    simp only [List.map_cons, List.map_nil, List.mem_cons, List.not_mem_nil, or_false] at this
    rcases this with rfl | rfl <;> norm_num
  · have hsub := (List.filter_sublist (p := fun r : Pulses.TimeRow ℕ ℝ => decide (r.event = k ∧
        ((r.string - 1).toNat, (r.dom - 1).toNat) = s)) (l := [⟨9, 86, 60, 100, 200⟩])).map
      fun r => (r.start, r.stop)
    refine ⟨fun w hw => ?_, List.Pairwise.sublist hsub (by simp)⟩
    have := hsub.subset hw
    simp only [List.map_cons, List.map_nil, List.mem_cons, List.not_mem_nil, or_false] at this
    rcases this with rfl
    norm_num
  · simp only [rowsOf, List.filter_cons, List.filter_nil]
    exact List.Perm.swap _ _ _

end Verif.Batch
