import Verif.Pulses.ShiftSpec
import Verif.Pulses.Props

/-! # C141: later tables give later data -/

namespace Verif.Pulses
open Verif.Py
variable {κ K : Type} [DecidableEq κ] [Field K] [LinearOrder K] [IsStrictOrderedRing K]

/-- A pulse with a later time. -/
def laterPulse (σ : ℕ → K) (p : Pulse K × Ids) : Pulse K × Ids :=
  ({ p.1 with time := p.1.time + σ p.2.event.toNat }, p.2)

/-- What is accumulated, with later times. -/
def laterAcc (σ : ℕ → K) (a : Acc K) : Acc K where
  charge := a.charge
  out := a.out.map (laterPulse σ)
  window i := ((a.window i).1.map (· + σ i), (a.window i).2.map (· + σ i))

theorem updateWindow_later (w : Option K × Option K) (t s : K) :
    updateWindow (w.1.map (· + s), w.2.map (· + s)) (t + s) =
      ((updateWindow w t).1.map (· + s), (updateWindow w t).2.map (· + s)) := by
  obtain ⟨lo, hi⟩ := w
  unfold updateWindow
  cases lo <;> cases hi <;> simp only [Option.map_none, Option.map_some, add_lt_add_iff_right, gt_iff_lt] <;>
    simp only [apply_ite (Option.map fun x => x + s), Option.map_some]

theorem addPulse_later (q : Bool) (σ : ℕ → K) (index : ℕ) (string dom : ℤ) (charge time : K) (a : Acc K) :
    addPulse q index string dom charge (time + σ index) (laterAcc σ a) =
      (addPulse q index string dom charge time a).map (laterAcc σ) := by
  unfold addPulse
  cases pyIndex 86 (string - 1) with
  | none => rfl
  | some s =>
    cases pyIndex 60 (dom - 1) with
    | none => rfl
    | some d =>
      simp only [Except.map, laterAcc, List.map_append, List.map_cons, List.map_nil, laterPulse, Int.toNat_natCast]
      congr 2
      funext i
      by_cases h : i = index
      · subst h
        simp only [if_true]
        exact updateWindow_later _ _ _
      · simp only [if_neg h]

theorem hdfPulses_later (q : Bool) (events : Dict κ ℕ) (mem mem' : ℕ → (K × K × K) × Ids) {τ : κ → K} {σ : ℕ → K}
    (hτ : ∀ k i, Dict.get? events k = some i → σ i = τ k) (rows : List (Row κ K)) (hu : ∀ r ∈ rows, r.Used) :
    ∀ n n' a, hdfPulses q events mem' (rows.map fun r => { r with time := r.time + τ r.event }) n' (laterAcc σ a) =
      (hdfPulses q events mem rows n a).map (laterAcc σ) := by
  induction rows with
  | nil => exact fun n n' a => rfl
  | cons r rest ih =>
    intro n n' a
    have hr : ¬ r.dom > 60 := by
      have := hu r (List.mem_cons_self ..)
      unfold Row.Used at this
      omega
    simp only [List.map_cons, hdfPulses, if_neg hr]
    cases hg : Dict.get? events r.event with
    | none => rfl
    | some index =>
      simp only
      rw [← hτ _ _ hg, addPulse_later]
      cases addPulse q index r.string r.dom r.charge r.time a with
      | error e => rfl
      | ok a' => exact ih (fun r' h => hu r' (List.mem_cons_of_mem _ h)) _ _ a'

omit [LinearOrder K] [IsStrictOrderedRing K] in
theorem divide_later (size : ℕ) (charge : Cell → K) (σ : ℕ → K) (l : List (Pulse K × Ids)) :
    divide size charge (l.map (laterPulse σ)) = (divide size charge l).map (List.map (laterPulse σ)) := by
  induction l with
  | nil => rfl
  | cons p rest ih =>
    obtain ⟨p, i⟩ := p
    simp only [List.map_cons, laterPulse, divide]
    cases flatGet size charge (flatIndex i) with
    | error e => rfl
    | ok c =>
      simp only
      have ih' : divide size charge (List.map (fun p => laterPulse σ p) rest) = _ := ih
      simp only [laterPulse] at ih'
      rw [show List.map (laterPulse σ) rest = List.map (fun p => laterPulse σ p) rest from rfl]
      simp only [laterPulse, ih']
      cases divide size charge rest <;> rfl

omit [LinearOrder K] [IsStrictOrderedRing K] in
theorem discard_later (size : ℕ) (x : Cell → Bool) (σ : ℕ → K) (l : List (Pulse K × Ids)) :
    discardExcluded size x (l.map (laterPulse σ)) = (discardExcluded size x l).map (List.map (laterPulse σ)) := by
  induction l with
  | nil => rfl
  | cons p rest ih =>
    obtain ⟨p, i⟩ := p
    simp only [List.map_cons]
    rw [show laterPulse σ (p, i) = ({ p with time := p.time + σ i.event.toNat }, i) from rfl]
    simp only [discardExcluded, ih]
    cases flatGet size x (flatIndex i) with
    | error e => rfl
    | ok c =>
      cases discardExcluded size x rest with
      | error e => rfl
      | ok r => cases c <;> rfl

omit [LinearOrder K] [IsStrictOrderedRing K] in
theorem hdfTimes_later (events : Dict κ ℕ) (mem mem' : ℕ → (K × K) × Ids) {τ : κ → K} {σ : ℕ → K}
    (hτ : ∀ k i, Dict.get? events k = some i → σ i = τ k) (rows : List (TimeRow κ K)) (hu : ∀ r ∈ rows, r.dom ≤ 60) :
    ∀ n n', hdfTimes events mem' (rows.map fun r => { r with start := r.start + τ r.event, stop := r.stop + τ r.event }) n' =
      (hdfTimes events mem rows n).map (List.map fun w =>
        ((w.1.1 + σ w.2.event.toNat, w.1.2 + σ w.2.event.toNat), w.2)) := by
  induction rows with
  | nil => exact fun n n' => rfl
  | cons r rest ih =>
    intro n n'
    have hr : ¬ r.dom > 60 := by
      have := hu r (List.mem_cons_self ..)
      omega
    simp only [List.map_cons, hdfTimes, if_neg hr]
    cases hg : Dict.get? events r.event with
    | none => rfl
    | some index =>
      simp only
      rw [ih (fun r' h => hu r' (List.mem_cons_of_mem _ h)) (n + 1) (n' + 1)]
      cases hdfTimes events mem rest (n + 1) with
      | error e => rfl
      | ok l => simp [Except.map, hτ _ _ hg]

/-- **C141.** If the times in the tables of a file are later by `τ`, for each event, so are those of the data that is
loaded: of the pulses, of the range of their times and of the excluded windows. All else is the same, and loading
fails alike. The tables have no rows of DOMs that are not used. -/
theorem C141_hdf (cfg : Config) (file : HdfFile κ K) (mem mem' : ℕ → (K × K × K) × Ids) (tmem tmem' : ℕ → (K × K) × Ids)
    (τ : κ → K) (σ : ℕ → K) (hl : ∀ labels, file.labels = some labels → labels.Nodup ∧ ∀ i k, labels[i]? = some k → σ i = τ k)
    (hu : ∀ rows, file.pulses = some rows → ∀ r ∈ rows, r.Used)
    (ht : ∀ rows, file.timeExclusions = some rows → ∀ r ∈ rows, r.dom ≤ 60) :
    fromHdf cfg (file.later τ) mem' tmem' =
      (fromHdf cfg file mem tmem).map (Option.map fun x => (x.1, x.2.later σ)) := by
  obtain ⟨labels, pulses, excl, times⟩ := file
  unfold fromHdf
  simp only [HdfFile.later] at hl hu ht ⊢
  cases pulses with
  | none => rfl
  | some rows =>
    cases labels with
    | none => rfl
    | some labels =>
      simp only [Option.map_some]
      obtain ⟨hd, hσ⟩ := hl _ rfl
      have hτ : ∀ k i, Dict.get? (eventDict labels) k = some i → σ i = τ k := by
        intro k i h
        rw [eventDict, eventDict_aux labels hd 0 [] k] at h
        by_cases hk : k ∈ labels
        · rw [if_pos hk] at h
          simp only [Nat.zero_add, Option.some.injEq] at h
          subst h
          refine hσ _ _ ?_
          rw [List.getElem?_eq_getElem (List.idxOf_lt_length_of_mem hk), List.getElem_idxOf]
        · rw [if_neg hk] at h
          cases h
      have hnone : (times.map fun rows => rows.map fun r : TimeRow κ K =>
          { r with start := r.start + τ r.event, stop := r.stop + τ r.event }).isNone = times.isNone := by
        cases times <;> rfl
      by_cases h1 : cfg.timeExclusionsExist = true ∧ times.isNone = true
      all_goals have h2 := h1; rw [← hnone] at h2
      · refine (if_pos h2).trans ?_
        rw [if_pos h1]
        rfl
      · refine (if_neg h2).trans ?_
        rw [if_neg h1]
        have hp := hdfPulses_later cfg.quantiles (eventDict labels) mem mem' hτ rows (hu _ rfl) 0 0 Acc.init
        rw [show laterAcc σ (Acc.init : Acc K) = Acc.init from rfl] at hp
        rw [hp]
        cases hdfPulses cfg.quantiles (eventDict labels) mem rows 0 Acc.init with
        | error e => rfl
        | ok a =>
          rw [show Except.map (laterAcc σ) (.ok a : Except Err _) = .ok (laterAcc σ a) from rfl]
          dsimp only
          have hdiv : (if cfg.quantiles = true then divide labels.length (laterAcc σ a).charge (laterAcc σ a).out
                else .ok (laterAcc σ a).out) =
              (if cfg.quantiles = true then divide labels.length a.charge a.out else .ok a.out).map
                (List.map (laterPulse σ)) := by
            split
            · exact divide_later _ _ _ _
            · rfl
          rw [hdiv]
          cases (if cfg.quantiles = true then divide labels.length a.charge a.out else .ok a.out) with
          | error e => rfl
          | ok out =>
            rw [show Except.map (List.map (laterPulse σ)) (.ok out : Except Err _) = .ok (out.map (laterPulse σ)) from rfl]
            dsimp only
            have htim : (if cfg.timeExclusionsExist = true then
                  (hdfTimes (eventDict labels) tmem' ((times.map fun rows => rows.map fun r : TimeRow κ K =>
                    { r with start := r.start + τ r.event, stop := r.stop + τ r.event }).getD []) 0).map some else .ok none) =
                (if cfg.timeExclusionsExist = true then
                  (hdfTimes (eventDict labels) tmem (times.getD []) 0).map some else .ok none).map
                  (Option.map (List.map fun w : (K × K) × Ids =>
                    ((w.1.1 + σ w.2.event.toNat, w.1.2 + σ w.2.event.toNat), w.2))) := by
              split
              · cases times with
                | none => rfl
                | some l =>
                  simp only [Option.map_some, Option.getD_some]
                  rw [hdfTimes_later (eventDict labels) tmem tmem' hτ l (ht _ rfl) 0 0]
                  cases hdfTimes (eventDict labels) tmem l 0 <;> rfl
              · rfl
            rw [htim]
            cases (if cfg.timeExclusionsExist = true then
                  (hdfTimes (eventDict labels) tmem (times.getD []) 0).map some else .ok none) with
            | error e => rfl
            | ok ts =>
              rw [show ∀ f : Option (List ((K × K) × Ids)) → Option (List ((K × K) × Ids)),
                Except.map f (.ok ts : Except Err _) = .ok (f ts) from fun f => rfl]
              dsimp only
              cases cfg.domExclusionsExist with
              | false => rfl
              | true =>
                cases excl with
                | none => rfl
                | some xs =>
                  simp only
                  cases hdfExclusions (eventDict labels) xs (initExclusions cfg) with
                  | error e => rfl
                  | ok x =>
                    simp only
                    have hdis : (if cfg.discard = true then discardExcluded labels.length x (out.map (laterPulse σ))
                          else .ok (out.map (laterPulse σ))) =
                        (if cfg.discard = true then discardExcluded labels.length x out else .ok out).map
                          (List.map (laterPulse σ)) := by
                      split
                      · exact discard_later _ _ _ _
                      · rfl
                    rw [hdis]
                    cases (if cfg.discard = true then discardExcluded labels.length x out else .ok out) <;> rfl

end Verif.Pulses
