import Verif.Loss.FileSpec
import Verif.Loss.Props
import Verif.Pulses.Props

/-! # C140: the loss of loaded data is the likelihood of the table of pulses -/

namespace Verif.Loss
variable {κ : Type} [DecidableEq κ] {B P : ℕ}

open Classical in
/-- The extended likelihood with excluded DOMs. -/
theorem extended_masked (cfg : Config) (hf : cfg.function = .extended) (hn : cfg.addNorm = false)
    (d : Batch B P) (hm : d.ProperMask)
    (hd : ∀ c, d.Valid c → d.domCharge c = ∑ p, if d.ids p = c then d.charge p else 0)
    (hv : ∀ p, d.Valid (d.ids p))
    (r : Results B P) (q : Cell B → ℝ) (hq : r.domCharges = some q)
    (pdf : Fin P → ℝ) (hp : r.pulsePdf = some pdf)
    (hq0 : ∀ c, 0 ≤ q c) (hp0 : ∀ p, 0 ≤ pdf p) (hc : checkTime d r = .ok ()) :
    getLoss cfg d r true false false = .ok (.scalar
      ((∑ c with d.Valid c, q c) -
        ∑ p, d.charge p * Real.log ((q (d.ids p) + 1e-7) * (pdf p + 1e-7)))) := by
  have h1 : lossFunction cfg d r false = .ok (.plain
      [.dom fun c => masked d q c - masked d d.domCharge c * Real.log (masked d q c + 1e-7),
        .pulse (timeLoss d pdf)]) := by
    simp only [lossFunction, hf, extended, need_bind, hq, hp, hc, ok_bind, hn]
    rfl
  rw [scalar_of_plain h1]
  simp only [List.map_cons, List.map_nil, List.sum_cons, List.sum_nil, Term.total, add_zero,
    Finset.sum_sub_distrib]
  congr 2
  have h0 : ∑ c, masked d q c = ∑ c with d.Valid c, q c := by
    rw [Finset.sum_filter]
    simp only [masked_valid hm]
  have h2 : ∑ c, masked d d.domCharge c * Real.log (masked d q c + 1e-7) =
      ∑ p, d.charge p * Real.log (q (d.ids p) + 1e-7) := by
    have h3 : ∀ c, masked d d.domCharge c * Real.log (masked d q c + 1e-7) =
        ∑ p, if d.ids p = c then d.charge p * Real.log (q c + 1e-7) else 0 := by
      intro c
      by_cases hc : d.Valid c
      · rw [masked_valid hm, masked_valid hm, if_pos hc, if_pos hc, hd c hc, Finset.sum_mul]
        exact Finset.sum_congr rfl fun p _ => by split_ifs <;> simp
      · rw [masked_valid hm, if_neg hc, zero_mul]
        refine (Finset.sum_eq_zero fun p _ => ?_).symm
        rw [if_neg]
        rintro rfl
        exact hc (hv p)
    simp only [h3]
    rw [Finset.sum_comm]
    refine Finset.sum_congr rfl fun p _ => ?_
    simp
  rw [h0, h2, sub_add]
  congr 1
  rw [← Finset.sum_sub_distrib]
  refine Finset.sum_congr rfl fun p _ => ?_
  have h3 := hq0 (d.ids p)
  have h4 := hp0 p
  rw [Real.log_mul (by positivity) (by positivity), timeLoss]
  ring

theorem place_inj {c c' : Cell B} (h : place c = place c') : c = c' := by
  simp only [place, Prod.mk.injEq] at h
  exact Prod.ext (Fin.ext h.1) (Prod.ext (Fin.ext h.2.1) (Fin.ext h.2.2))

/-- A sum over positions is a sum over the list. -/
theorem sum_positions {α : Type} (l : List α) (hl : l.length = P) (F : Fin P → ℝ) (G : α → ℝ)
    (h : ∀ (p : Fin P) x, l[p.1]? = some x → F p = G x) : ∑ p, F p = (l.map G).sum := by
  subst hl
  rw [← Fin.sum_univ_fun_getElem]
  exact Finset.sum_congr rfl fun p _ => h p _ (by simp)

theorem total_map (l : List (Pulses.Pulse ℝ × Pulses.Ids)) (i : Pulses.Ids) :
    Pulses.total l i = (l.map fun x => if x.2 = i then x.1.charge else 0).sum := by
  induction l with
  | nil => rfl
  | cons x l ih => rw [Pulses.total_cons, ih, List.map_cons, List.sum_cons]

/-- The position with given ids. -/
def placeOf (i : Pulses.Ids) : Pulses.Cell := (i.event.toNat, i.string.toNat, i.dom.toNat)

theorem placeOf_idsOf (c : Pulses.Cell) : placeOf (Pulses.idsOf c) = c := by
  simp [placeOf, Pulses.idsOf]

theorem filter_zipIdx_map {α β : Type} (f : α → Bool) (g : α → β) (l : List α) (n : ℕ) :
    ((l.zipIdx n).filter fun rk => f rk.1).map (fun rk => g rk.1) = (l.filter f).map g := by
  induction l generalizing n with
  | nil => rfl
  | cons a l ih =>
    rw [List.zipIdx_cons, List.filter_cons, List.filter_cons]
    split
    · rw [List.map_cons, List.map_cons, ih]
    · exact ih _

/-- The core of C140. -/
theorem loss_of_extracted (cfg : Config) (hf : cfg.function = .extended) (hn : cfg.addNorm = false)
    (labels : List κ) (quantiles : Bool) (rows : List (Pulses.Row κ ℝ)) (valid : Pulses.Cell → Bool)
    (d : Pulses.Data ℝ) (h : Pulses.Extracted labels quantiles rows valid d) (hu : ∀ r ∈ rows, r.Used)
    (hm : (d.domExclusions = some valid) ∨ (d.domExclusions = none ∧ ∀ c, valid c = true))
    (b : Batch B P) (hb : Carries d b) (r : Results B P) (q : Pulses.Cell → ℝ) (g : Pulses.Cell → ℝ → ℝ)
    (hr : Predicts d b r q g) :
    getLoss cfg b r true false false = .ok (.scalar (tableLoss B labels rows valid q g)) := by
  classical
  obtain ⟨pdf, hp, hpdf⟩ := hr.density
  have hvalid : ∀ c, b.Valid c ↔ valid (place c) = true := by
    intro c
    unfold Batch.Valid
    rw [hb.mask]
    rcases hm with hm | ⟨hm, hall⟩
    · simp [hm]
    · simp [hm, hall]
  have hpulse : ∀ p, ∃ x, d.pulses[p.1]? = some (x, Pulses.idsOf (place (b.ids p))) ∧ x.charge = b.charge p :=
    fun p => (hb.pulses p).imp fun x hx => ⟨hx.1, hx.2.1⟩
  have h1 := extended_masked cfg hf hn b
    (by
      intro m hm' c
      rw [hb.mask, Option.map_eq_some_iff] at hm'
      obtain ⟨x, -, rfl⟩ := hm'
      by_cases hx : x (place c) = true
      · right; simp [hx]
      · left; simp [hx])
    (by
      intro c hc
      rw [hb.domCharge, ((Pulses.C22_charges_of_pulses labels quantiles rows valid d h hu _).1
        ((hvalid c).1 hc)), total_map]
      refine (sum_positions d.pulses hb.count _ _ fun p x hx => ?_).symm
      obtain ⟨y, hy, hy2⟩ := hpulse p
      rw [hx] at hy
      cases hy
      by_cases hpc : b.ids p = c
      · simp [hpc, hy2]
      · rw [if_neg hpc, if_neg fun hi => hpc (place_inj (Pulses.idsOf_inj hi))])
    (by
      intro p
      rw [hvalid]
      by_contra hne
      obtain ⟨y, hy, -⟩ := hpulse p
      exact (Pulses.C22_charges_of_pulses labels quantiles rows valid d h hu _).2
        (by simpa using hne) _ (List.mem_of_getElem? hy) rfl)
    r _ hr.charges pdf hp (fun c => hr.charge_nonneg _)
    (fun p => by
      obtain ⟨y, hy, -⟩ := hpulse p
      rw [hpdf p _ hy]
      exact hr.density_nonneg _ _)
    (by
      have := hr.windows
      rw [← hb.time] at this
      unfold checkTime
      cases ht : b.timeExclusions with
      | false => rfl
      | true => rw [this ht]; rfl)
  rw [h1]
  unfold tableLoss
  congr 3
  · exact Finset.sum_congr (Finset.filter_congr fun c _ => hvalid c) fun c _ => rfl
  · rw [sum_positions d.pulses hb.count _ (fun x => x.1.charge * Real.log ((q (placeOf x.2) + 1e-7) *
      (g (placeOf x.2) x.1.time + 1e-7))) fun p x hx => ?_]
    · rw [h.pulses, List.map_map]
      have : ((fun x : Pulses.Pulse ℝ × Pulses.Ids => x.1.charge * Real.log ((q (placeOf x.2) + 1e-7) *
          (g (placeOf x.2) x.1.time + 1e-7))) ∘ Pulses.pulseOf labels quantiles rows) = fun rk =>
          (fun r : Pulses.Row κ ℝ => r.charge * Real.log ((q (Pulses.cellOf labels r) + 1e-7) *
            (g (Pulses.cellOf labels r) r.time + 1e-7))) rk.1 := by
        funext rk
        simp [Pulses.pulseOf, placeOf_idsOf]
      rw [this]
      exact congrArg List.sum (filter_zipIdx_map (fun r => valid (Pulses.cellOf labels r))
        (fun r : Pulses.Row κ ℝ => r.charge * Real.log ((q (Pulses.cellOf labels r) + 1e-7) *
          (g (Pulses.cellOf labels r) r.time + 1e-7))) rows 0)
    · obtain ⟨y, hy, hy2⟩ := hpulse p
      rw [hpdf p x hx]
      rw [hx] at hy
      cases hy
      simp only [placeOf_idsOf, hy2]

/-- There is such a batch: all ids are in range. -/
theorem carries_exists (labels : List κ) (quantiles : Bool) (rows : List (Pulses.Row κ ℝ))
    (keep : Pulses.Cell → Bool) (d : Pulses.Data ℝ) (h : Pulses.Extracted labels quantiles rows keep d)
    (hu : ∀ r ∈ rows, r.Used) (hv : ∀ r ∈ rows, r.Valid labels) :
    ∃ (P : ℕ) (b : Batch labels.length P), Carries d b := by
  have hc : ∀ p : Fin d.pulses.length, ∃ c : Cell labels.length, d.pulses[p.1].2 = Pulses.idsOf (place c) := by
    intro p
    have hp : d.pulses[p.1] ∈ d.pulses := List.getElem_mem _
    generalize d.pulses[p.1] = x at hp ⊢
    rw [h.pulses, List.mem_map] at hp
    obtain ⟨rk, hrk, rfl⟩ := hp
    have hm : rk.1 ∈ rows := List.fst_mem_of_mem_zipIdx (List.mem_filter.1 hrk).1
    obtain ⟨h1, h2, h3⟩ := Pulses.cellOk (hu _ hm) (hv _ hm)
    exact ⟨(⟨_, h1⟩, ⟨_, h2⟩, ⟨_, h3⟩), rfl⟩
  choose c hc using hc
  refine ⟨d.pulses.length, ⟨fun p => d.pulses[p.1].1.charge, fun p => d.pulses[p.1].1.extra.getD 0, c,
    fun c => d.domCharge (place c), d.domExclusions.map fun x c => if x (place c) = true then 1 else 0,
    d.timeExclusions.isSome⟩, rfl, fun p => ⟨d.pulses[p.1].1, ?_, rfl, fun q hq => ?_⟩, fun c => rfl, rfl, rfl⟩
  · rw [List.getElem?_eq_getElem p.2, ← hc p]
  · simp [hq]

/-- C140 (hdf files): the extended likelihood of the loaded data is that of the table of pulses, with the DOMs
that are bad or excluded left out, if their pulses are discarded. With excluded time windows, too: `q` and `g` are
then what the source predicts outside of them. -/
theorem C140_hdf (cfg : Config) (hf : cfg.function = .extended) (hn : cfg.addNorm = false)
    (pc : Pulses.Config) (labels : List κ)
    (rows : List (Pulses.Row κ ℝ)) (excl : Option (List (Pulses.DomRow κ))) (times : List (Pulses.TimeRow κ ℝ))
    (mem : ℕ → (ℝ × ℝ × ℝ) × Pulses.Ids) (tmem : ℕ → (ℝ × ℝ) × Pulses.Ids)
    (hd : labels.Nodup) (hu : ∀ r ∈ rows, r.Used) (hv : ∀ r ∈ rows, r.Valid labels)
    (he : ∀ l, excl = some l → ∀ r ∈ l, r.Valid labels) (ht : ∀ r ∈ times, r.dom ≤ 60 ∧ r.event ∈ labels)
    (hk : pc.domExclusionsExist = true → excl.isSome = true ∧ pc.discard = true) :
    ∃ (d : Pulses.Data ℝ) (valid : Pulses.Cell → Bool),
      Pulses.fromHdf pc ⟨some labels, some rows, excl, some times⟩ mem tmem = .ok (some (labels.length, d)) ∧
      (∀ c, valid c = true ↔ (pc.domExclusionsExist = true →
        pc.good c.2.1 c.2.2 = true ∧ ∀ l, excl = some l → ¬ Pulses.ExcludedBy labels l c)) ∧
      d.timeExclusions = (if pc.timeExclusionsExist then some (times.map fun r =>
        ((r.start, r.stop), ⟨labels.idxOf r.event, r.string - 1, r.dom - 1⟩)) else none) ∧
      (∃ (P : ℕ) (b : Batch labels.length P), Carries d b) ∧
      ∀ (P : ℕ) (b : Batch labels.length P), Carries d b → ∀ r q g, Predicts d b r q g →
        getLoss cfg b r true false false =
          .ok (.scalar (tableLoss labels.length labels rows valid q g)) := by
  obtain ⟨d, x, h1, h2, h3, h4, h5⟩ := Pulses.C22_hdf_partial pc labels rows excl times mem tmem hd hu hv he ht
  have hkeep : (fun c => !(pc.domExclusionsExist && excl.isSome && pc.discard) || x c) =
      fun c => !pc.domExclusionsExist || x c := by
    funext c
    cases hde : pc.domExclusionsExist with
    | false => rfl
    | true => simp [(hk hde).1, (hk hde).2]
  rw [hkeep] at h5
  refine ⟨d, _, h1, fun c => ?_, h4, carries_exists labels _ rows _ d h5 hu hv, fun P b hb r q g hr =>
    loss_of_extracted cfg hf hn labels _ rows _ d h5 hu ?_ b hb r q g hr⟩
  · cases hde : pc.domExclusionsExist with
    | false => simp
    | true => simp [h2]
  · rw [h3]
    cases hde : pc.domExclusionsExist with
    | false => simp
    | true => simp

/-- C140 (frames): the same for a pulse series map with at least one pulse. -/
theorem C140_frame (cfg : Config) (hf : cfg.function = .extended) (hn : cfg.addNorm = false)
    (pc : Pulses.Config) (pulses : List ((Int × Int) × List (ℝ × ℝ))) (excl : Option (List (Int × Int)))
    (hv : ∀ p ∈ pulses, p.1.2 ≤ 60 → 1 ≤ p.1.1 ∧ p.1.1 ≤ 86 ∧ 1 ≤ p.1.2)
    (he : ∀ l, excl = some l → ∀ r ∈ l, r.2 ≤ 60 → 1 ≤ r.1 ∧ r.1 ≤ 86 ∧ 1 ≤ r.2)
    (hne : Pulses.frameRows pulses ≠ [])
    (hk : pc.domExclusionsExist = true → excl.isSome = true ∧ pc.discard = true) :
    ∃ (d : Pulses.Data ℝ) (valid : Pulses.Cell → Bool),
      Pulses.fromFrame pc ⟨pulses, excl⟩ = .ok (1, d) ∧
      (∀ c, valid c = true ↔ (pc.domExclusionsExist = true →
        pc.good c.2.1 c.2.2 = true ∧ ∀ l, excl = some l →
          ¬ Pulses.ExcludedBy [()] (l.map (fun r => ⟨(), r.1, r.2⟩)) c)) ∧
      (∃ (P : ℕ) (b : Batch 1 P), Carries d b) ∧
      ∀ (P : ℕ) (b : Batch 1 P), Carries d b → ∀ r q g, Predicts d b r q g →
        getLoss cfg b r true false false =
          .ok (.scalar (tableLoss 1 [()] (Pulses.frameRows pulses) valid q g)) := by
  obtain ⟨d, x, h1, h2, h3, h5⟩ := Pulses.C22_frame_partial pc pulses excl hv he hne
  have hkeep : (fun c => !(pc.domExclusionsExist && excl.isSome && pc.discard) || x c) =
      fun c => !pc.domExclusionsExist || x c := by
    funext c
    cases hde : pc.domExclusionsExist with
    | false => rfl
    | true => simp [(hk hde).1, (hk hde).2]
  rw [hkeep] at h5
  have hr : ∀ r ∈ Pulses.frameRows pulses, r.Used ∧ r.Valid [()] := by
    intro r hr
    simp only [Pulses.frameRows, List.mem_flatMap] at hr
    obtain ⟨p, hp, hr⟩ := hr
    by_cases hd : p.1.2 ≤ 60
    · rw [if_pos hd, List.mem_map] at hr
      obtain ⟨q, -, rfl⟩ := hr
      exact ⟨hd, fun _ => ⟨by simp, hv p hp hd⟩⟩
    · rw [if_neg hd] at hr; simp at hr
  refine ⟨d, _, h1, fun c => ?_, carries_exists [()] _ _ _ d h5 (fun r h => (hr r h).1) (fun r h => (hr r h).2),
    fun P b hb r q g hrr => loss_of_extracted cfg hf hn [()] _ _ _ d h5 (fun r h => (hr r h).1) ?_ b hb
      r q g hrr⟩
  · cases hde : pc.domExclusionsExist with
    | false => simp
    | true => simp [h2]
  · rw [h3]
    cases hde : pc.domExclusionsExist with
    | false => simp
    | true => simp

/-- Two events with three pulses; the DOM of the last one is excluded, and so is a time window of the other DOM. -/
example : ∃ (d : Pulses.Data ℝ) (valid : Pulses.Cell → Bool),
    Pulses.fromHdf ⟨false, true, true, true, fun _ _ => true⟩
      ⟨some [7, 9], some [⟨7, 1, 1, 10, 2⟩, ⟨9, 86, 60, 20, 3⟩, ⟨9, 5, 5, 30, 1⟩], some [⟨9, 5, 5⟩],
        some [⟨9, 86, 60, 100, 200⟩]⟩
      (fun _ => ((0, 0, 0), ⟨0, 0, 0⟩)) (fun _ => ((0, 0), ⟨0, 0, 0⟩)) = .ok (some (2, d)) ∧
    (valid (0, 0, 0) = true ∧ valid (1, 85, 59) = true ∧ valid (1, 4, 4) = false) ∧
    ∀ (P : ℕ) (b : Batch 2 P), Carries d b → ∀ r q g, Predicts d b r q g →
      getLoss ⟨.extended, false, none, none⟩ b r true false false = .ok (.scalar
        ((∑ c : Cell 2 with valid (place c) = true, q (place c)) -
          (2 * Real.log ((q (0, 0, 0) + 1e-7) * (g (0, 0, 0) 10 + 1e-7)) +
            3 * Real.log ((q (1, 85, 59) + 1e-7) * (g (1, 85, 59) 20 + 1e-7))))) := by
  obtain ⟨d, valid, h1, h2, -, -, h4⟩ := C140_hdf (κ := ℕ) ⟨.extended, false, none, none⟩ rfl rfl
    ⟨false, true, true, true, fun _ _ => true⟩ [7, 9]
    [⟨7, 1, 1, 10, 2⟩, ⟨9, 86, 60, 20, 3⟩, ⟨9, 5, 5, 30, 1⟩] (some [⟨9, 5, 5⟩]) [⟨9, 86, 60, 100, 200⟩]
    (fun _ => ((0, 0, 0), ⟨0, 0, 0⟩)) (fun _ => ((0, 0), ⟨0, 0, 0⟩)) (by decide)
    (by simp [Pulses.Row.Used]) (by simp [Pulses.Row.Valid]) (by simp [Pulses.DomRow.Valid]) (by simp) (by simp)
  have v1 : valid (0, 0, 0) = true := (h2 _).2 fun _ => ⟨rfl, by simp [Pulses.ExcludedBy, List.idxOf_cons]⟩
  have v2 : valid (1, 85, 59) = true := (h2 _).2 fun _ => ⟨rfl, by simp [Pulses.ExcludedBy, List.idxOf_cons]⟩
  have v3 : valid (1, 4, 4) = false := by
    by_contra hne
    have := (h2 (1, 4, 4)).1 (by simpa using hne) rfl
    exact this.2 _ rfl (by simp [Pulses.ExcludedBy, List.idxOf_cons])
  refine ⟨d, valid, h1, ⟨v1, v2, v3⟩, fun P b hb r q g hr => ?_⟩
  have c1 : Pulses.cellOf [7, 9] (⟨7, 1, 1, 10, 2⟩ : Pulses.Row ℕ ℝ) = (0, 0, 0) := rfl
  have c2 : Pulses.cellOf [7, 9] (⟨9, 86, 60, 20, 3⟩ : Pulses.Row ℕ ℝ) = (1, 85, 59) := rfl
  have c3 : Pulses.cellOf [7, 9] (⟨9, 5, 5, 30, 1⟩ : Pulses.Row ℕ ℝ) = (1, 4, 4) := rfl
  rw [h4 P b hb r q g hr]
  simp [tableLoss, c1, c2, c3, v1, v2, v3]

end Verif.Loss
