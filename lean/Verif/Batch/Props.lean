import Verif.Batch.Lemmas
import Verif.Loss.BatchProps
import Verif.Cascade.Props

/-! # C139: predictions for an event do not depend on the other events of the batch -/

namespace Verif.Batch
open Verif.Py Verif.Dist Verif.Cascade
open Verif.Loss (Cell)
variable {X : Type} {B P W : ℕ}

theorem getTensors_fits {M : Source X} {D : Data X B P W} {T} (h : getTensors M D = .ok T) :
    M.cfg.nModels * 4 + nCharge M.cfg.method = M.cfg.nFilters ∧ ¬ M.cfg.nModels ≤ 1 := by
  unfold getTensors at h
  split_ifs at h with h1 h2
  exact ⟨not_not.1 h1, h2⟩

/-- C139 (DOMs): the predictions for a batch succeed if and only if those for each DOM of each event, with
the windows that belong to it, do; and then they are the same. So all that is proved of a single DOM (C33,
C34, C66) holds in batches. -/
theorem C139_per_dom (M : Source X) (D : Data X B P W) :
    (∀ T, getTensors M D = .ok T → ∀ c, ∃ t,
      Cascade.getTensors M.cfg { M.dom D c with windows := D.windowsAt c } = .ok t ∧
      T.latent c = t.latent ∧ (T.exclusion.map fun x => x c) = t.exclusion ∧
      (T.exclusionSum.map fun x => x c) = t.exclusionSum ∧ T.charge c = t.charge ∧
      T.stats c = t.stats ∧ ∀ p, D.ids p = c → T.pulsePdf p = t.pulsePdf (D.pulseTime p)) ∧
    (0 < B → (∀ c, ∃ t,
      Cascade.getTensors M.cfg { M.dom D c with windows := D.windowsAt c } = .ok t) →
      ∃ T, getTensors M D = .ok T) := by
  constructor
  · intro T h c
    obtain ⟨h1, h2⟩ := getTensors_fits h
    unfold getTensors at h
    rw [if_neg (not_not.2 h1), if_neg h2] at h
    unfold Cascade.getTensors
    rw [if_neg (not_not.2 h1), if_neg h2]
    cases hw : D.windows with
    | none =>
      have hc : D.windowsAt c = none := by simp [Data.windowsAt, hw]
      simp only [hw, Except.ok.injEq] at h
      subst h
      simp only [hc]
      refine ⟨_, rfl, rfl, rfl, rfl, rfl, rfl, ?_⟩
      rintro p rfl
      rfl
    | some ws =>
      have hc : D.windowsAt c = some (windowList ws c) := by
        simp [Data.windowsAt, hw, windowList]
      simp only [hw] at h
      split_ifs at h with ha
      simp only [Except.ok.injEq] at h
      simp only [hc]
      rw [if_pos ((assertions_dom M D ws).1 ha c)]
      have e1 : (fun k => clip 0 1 (domExclusion M D ws c k)) =
          exclusion (decodeLatent M.cfg (M.dom D c).out) (M.dom D c).time (windowList ws c) := by
        funext k
        rw [domExclusion_dom]
        rfl
      have e2 := domExclusionSum_dom M D ws c
      subst h
      refine ⟨_, rfl, rfl, ?_, ?_, ?_, ?_, ?_⟩
      · simp only [tensors, Option.map_some, tensorsWith]
        rw [e1]
      · simp only [tensors, Option.map_some, tensorsWith]
        rw [e2]
      · simp only [tensors, Option.map_some, tensorsWith]
        rw [e2]
        rfl
      · simp only [tensors, Option.map_some, tensorsWith]
        rw [e2]
        rfl
      · rintro p rfl
        simp only [tensors, Option.map_some, tensorsWith]
        rw [e1]
        rfl
  · intro hB h
    obtain ⟨t, ht⟩ := h (⟨0, hB⟩, 0, 0)
    obtain ⟨hf, -⟩ := getTensors_ok ht
    unfold getTensors
    rw [if_neg (by have := hf.2; omega), if_neg (by have := hf.1; omega)]
    cases hw : D.windows with
    | none => exact ⟨_, rfl⟩
    | some ws =>
      have ha : batchAssertions M D ws := by
        refine (assertions_dom M D ws).2 fun c => ?_
        have hc : D.windowsAt c = some (windowList ws c) := by
          simp [Data.windowsAt, hw, windowList]
        obtain ⟨t, ht⟩ := h c
        unfold Cascade.getTensors at ht
        rw [if_neg (by have := hf.2; omega), if_neg (by have := hf.1; omega)] at ht
        simp only [hc] at ht
        split_ifs at ht with ha
        exact ha
      simp only
      rw [if_pos ha]
      exact ⟨_, rfl⟩

theorem samePart (M : Source X) (D : Data X B P W) {n m : ℕ} (b : Fin B) (e : Fin n → Fin P)
    (v : Fin m → Fin W) (he : ItemsOf (fun p => (D.ids p).1) b e) (E E' S S')
    (h1 : E' = E.map fun (x : Cell B → ℕ → ℝ) (c : Cell 1) => x (b, c.2))
    (h2 : S' = S.map fun (x : Cell B → ℝ) (c : Cell 1) => x (b, c.2)) :
    SamePart (tensors M D E S) b e (tensors M (D.only b e v) E' S') := by
  subst h1 h2
  have hc : ∀ c : DomIx, (tensors M (D.only b e v) (E.map fun x c => x (b, c.2))
      (S.map fun x c => x (b, c.2))).charge (0, c) = (tensors M D E S).charge (b, c) := by
    intro c
    simp only [tensors]
    cases S <;> rfl
  refine ⟨fun c => rfl, rfl, rfl, hc, ?_, ?_⟩
  · intro c
    have := hc c
    simp only [tensors] at this ⊢
    rw [this]
    rfl
  · intro q
    have hb : (D.ids (e q)).1 = b := (he.all _).2 ⟨q, rfl⟩
    subst hb
    simp only [tensors]
    cases E <;> rfl

/-- C139: the prediction for a batch succeeds if and only if it succeeds for each of its events
alone, and then the part that belongs to an event is the prediction for the event alone. -/
theorem C139_event {n m : Fin B → ℕ} (M : Source X) (D : Data X B P W) (hB : 0 < B)
    (e : ∀ b, Fin (n b) → Fin P) (v : ∀ b, Fin (m b) → Fin W) (h : ∀ b, Belongs D b (e b) (v b)) :
    (∃ (T : Tensors B P) (Ts : ∀ b, Tensors 1 (n b)), getTensors M D = .ok T ∧ (∀ b, getTensors M (D.only b (e b) (v b)) = .ok (Ts b)) ∧
      ∀ b, SamePart T b (e b) (Ts b)) ∨
    ∃ err, getTensors M D = .error err ∧ ∃ b, getTensors M (D.only b (e b) (v b)) = .error err := by
  unfold getTensors
  by_cases h1 : M.cfg.nModels * 4 + nCharge M.cfg.method ≠ M.cfg.nFilters
  · simp only [if_pos h1]
    exact .inr ⟨_, rfl, ⟨0, hB⟩, rfl⟩
  by_cases h2 : M.cfg.nModels ≤ 1
  · simp only [if_neg h1, if_pos h2]
    exact .inr ⟨_, rfl, ⟨0, hB⟩, rfl⟩
  simp only [if_neg h1, if_neg h2]
  cases hw : D.windows with
  | none =>
    have hv : ∀ b, (D.only b (e b) (v b)).windows = none := fun b => by simp [Data.only, hw]
    simp only [hv]
    exact .inl ⟨_, _, rfl, fun b => rfl, fun b => samePart M D b _ _ (h b).1 _ _ _ _ rfl rfl⟩
  | some ws =>
    have hi := fun b => (h b).2 ws hw
    have hv := fun b => only_windows D b (e b) (v b) hw
    simp only [hv]
    by_cases ha : batchAssertions M D ws
    · have hb := (assertions_only M D e hi).1 ha
      simp only [if_pos ha, if_pos (hb _)]
      refine .inl ⟨_, _, rfl, fun b => rfl, fun b => samePart M D b _ _ (h b).1 _ _ _ _ ?_ ?_⟩
      · simp only [Option.map_some, Option.some.injEq]
        funext ⟨c0, c⟩ k
        have : c0 = 0 := Subsingleton.elim _ _
        subst this
        rw [domExclusion_only M D (e b) (hi b)]
      · simp only [Option.map_some, Option.some.injEq]
        funext ⟨c0, c⟩
        have : c0 = 0 := Subsingleton.elim _ _
        subst this
        rw [domExclusionSum_only M D (e b) (hi b)]
    · have hb : ∃ b, ¬ batchAssertions M (D.only b (e b) (v b)) (onlyWs ws (v b)) := by
        by_contra hb
        exact ha ((assertions_only M D e hi).2 fun b => not_not.1 fun hn => hb ⟨b, hn⟩)
      obtain ⟨b, hb⟩ := hb
      simp only [if_neg ha]
      exact .inr ⟨_, rfl, b, by rw [if_neg hb]⟩

/-- C139 (other events): two batches that agree on one event give the same predictions for it. -/
theorem C139_other_events {B' P' W' n m : ℕ} (M : Source X) (D : Data X B P W) (D' : Data X B' P' W')
    (b : Fin B) (b' : Fin B') (e : Fin n → Fin P) (v : Fin m → Fin W) (e' : Fin n → Fin P')
    (v' : Fin m → Fin W') (h : Belongs D b e v) (h' : Belongs D' b' e' v')
    (same : D.only b e v = D'.only b' e' v') (T T') (hT : getTensors M D = .ok T)
    (hT' : getTensors M D' = .ok T') :
    (∀ c, T.latent (b, c) = T'.latent (b', c) ∧ T.charge (b, c) = T'.charge (b', c) ∧
      T.stats (b, c) = T'.stats (b', c)) ∧ ∀ q, T.pulsePdf (e q) = T'.pulsePdf (e' q) := by
  have key : ∀ {B P W : ℕ} (D : Data X B P W) (b : Fin B) (e : Fin n → Fin P) (v : Fin m → Fin W)
      (_ : Belongs D b e v) (T) (_ : getTensors M D = .ok T),
      ∃ t, getTensors M (D.only b e v) = .ok t ∧ SamePart T b e t := by
    clear h h' same hT hT' e v e' v' T T' b b' D D'
    intro B P W D b e v h T hT
    obtain ⟨h1, h2⟩ := getTensors_fits hT
    unfold getTensors at hT ⊢
    rw [if_neg (not_not.2 h1), if_neg h2] at hT ⊢
    cases hw : D.windows with
    | none =>
      have hv : (D.only b e v).windows = none := by simp [Data.only, hw]
      simp only [hw, Except.ok.injEq] at hT
      subst hT
      simp only [hv]
      exact ⟨_, rfl, samePart M D b _ _ h.1 _ _ _ _ rfl rfl⟩
    | some ws =>
      have hi := h.2 ws hw
      simp only [hw] at hT
      split_ifs at hT with ha
      simp only [Except.ok.injEq] at hT
      subst hT
      simp only [only_windows D b e v hw]
      have ha' : batchAssertions M (D.only b e v) (onlyWs ws v) := by
        unfold batchAssertions
        simp only [twExclusion_only M D e hi, forall_cell1, domExclusion_only M D e hi,
          domExclusionSum_only M D e hi]
        exact ⟨fun w => ha.1 _, fun c => ha.2.1 _, fun c => ha.2.2 _⟩
      rw [if_pos ha']
      refine ⟨_, rfl, samePart M D b _ _ h.1 _ _ _ _ ?_ ?_⟩
      · simp only [Option.map_some, Option.some.injEq]
        funext ⟨c0, c⟩ k
        have : c0 = 0 := Subsingleton.elim _ _
        subst this
        rw [domExclusion_only M D e hi]
      · simp only [Option.map_some, Option.some.injEq]
        funext ⟨c0, c⟩
        have : c0 = 0 := Subsingleton.elim _ _
        subst this
        rw [domExclusionSum_only M D e hi]
  obtain ⟨t, h1, s1⟩ := key D b e v h T hT
  obtain ⟨t', h2, s2⟩ := key D' b' e' v' h' T' hT'
  rw [same, h2] at h1
  simp only [Except.ok.injEq] at h1
  subst h1
  exact ⟨fun c => ⟨by rw [← s1.latent, s2.latent], by rw [← s1.charge, s2.charge],
    by rw [← s1.stats, s2.stats]⟩, fun q => by rw [← s1.pulsePdf, s2.pulsePdf]⟩

theorem lossResults_only {n : ℕ} (m : Method) {T : Tensors B P} {b : Fin B} {e : Fin n → Fin P}
    {T' : Tensors 1 n} (h : SamePart T b e T') :
    lossResults m T' = (lossResults m T).only b e := by
  have hc : T'.charge = fun c => T.charge (b, c.2) := by
    funext ⟨c0, c⟩
    have : c0 = 0 := Subsingleton.elim _ _
    subst this
    exact h.charge c
  have hs : T'.stats = fun c => T.stats (b, c.2) := by
    funext ⟨c0, c⟩
    have : c0 = 0 := Subsingleton.elim _ _
    subst this
    exact h.stats c
  have hp : T'.pulsePdf = fun q => T.pulsePdf (e q) := funext h.pulsePdf
  unfold lossResults Loss.Results.only
  rw [hc, hs, hp, h.exclusionSum]
  split_ifs <;> simp

/-- C139 (loss): from the parameters to the loss, a batch gives the sum of what its events give on their
own; and it is refused if and only if one of them is. -/
theorem C139_loss {n m : Fin B → ℕ} (M : Source X) (cfg : Loss.Config) (D : Data X B P W)
    (E : Extra B P) (hB : 0 < B) (e : ∀ b, Fin (n b) → Fin P) (v : ∀ b, Fin (m b) → Fin W)
    (h : ∀ b, Belongs D b (e b) (v b)) :
    (∃ (x : ℝ) (xs : Fin B → ℝ), endToEnd M cfg D E = .ok x ∧
      (∀ b, endToEnd M cfg (D.only b (e b) (v b)) (E.only b (e b)) = .ok (xs b)) ∧
      x = ∑ b, xs b) ∨
    ∃ err, endToEnd M cfg D E = .error err ∧
      ∃ b, endToEnd M cfg (D.only b (e b) (v b)) (E.only b (e b)) = .error err := by
  unfold endToEnd
  rcases C139_event M D hB e v h with ⟨T, Ts, h1, h2, h3⟩ | ⟨err, h1, b, h2⟩
  · simp only [h1, h2]
    have hb : ∀ b, lossBatch (D.only b (e b) (v b)) (E.only b (e b)) =
        (lossBatch D E).only b (e b) := by
      intro b
      simp [lossBatch, Data.only, Extra.only, Loss.Batch.only]
    have hp : ∀ b, Loss.PulsesOf (lossBatch D E) b (e b) :=
      fun b => ⟨(h b).1.once, (h b).1.all⟩
    simp only [hb, lossResults_only M.cfg.method (h3 _)]
    rcases Loss.C138_default cfg (lossBatch D E) (lossResults M.cfg.method T) e hp with hk | ⟨err, k1, k2⟩
    · exact .inl hk
    · exact .inr ⟨err, k1, ⟨0, hB⟩, k2 _⟩
  · exact .inr ⟨err, by rw [h1], b, by rw [h2]⟩

/-- The items of an event can be listed. -/
theorem exists_items {Q B : ℕ} (event : Fin Q → Fin B) (b : Fin B) :
    ∃ (n : ℕ) (e : Fin n → Fin Q), ItemsOf event b e := by
  classical
  let s := Finset.univ.filter fun p => event p = b
  let f := s.equivFin.symm
  refine ⟨s.card, fun q => (f q).1, ⟨fun q q' h => f.injective (Subtype.ext h), fun p => ?_⟩⟩
  constructor
  · intro h
    have hp : p ∈ s := by simp [s, h]
    exact ⟨f.symm ⟨p, hp⟩, by simp⟩
  · rintro ⟨q, rfl⟩
    exact (Finset.mem_filter.1 (f q).2).2

theorem exists_belongs (D : Data X B P W) (b : Fin B) :
    ∃ (n m : ℕ) (e : Fin n → Fin P) (v : Fin m → Fin W), Belongs D b e v := by
  obtain ⟨n, e, he⟩ := exists_items (fun p => (D.ids p).1) b
  cases hw : D.windows with
  | none => exact ⟨n, 0, e, fun i => i.elim0, he, by simp [hw]⟩
  | some ws =>
    obtain ⟨m, v, hv⟩ := exists_items (fun w => (ws w).2.1) b
    refine ⟨n, m, e, v, he, ?_⟩
    intro ws' h
    rw [hw] at h
    cases h
    exact hv

theorem reordered_belongs {D D' : Data X B P W} {π : Fin B ≃ Fin B} {σ : Fin P ≃ Fin P}
    {τ : Fin W ≃ Fin W} (h : Reordered D D' π σ τ) {n m : ℕ} {b : Fin B} {e : Fin n → Fin P}
    {v : Fin m → Fin W} (hb : Belongs D' b e v) :
    Belongs D (π b) (fun q => σ (e q)) (fun q => τ (v q)) := by
  refine ⟨⟨fun q q' hq => hb.1.once _ _ (σ.injective hq), fun p => ?_⟩, fun ws hw => ?_⟩
  · obtain ⟨p, rfl⟩ := σ.surjective p
    have h1 := h.ids p
    have h2 := hb.1.all p
    simp only [h1, EmbeddingLike.apply_eq_iff_eq]
    exact h2
  · rcases h.windows with ⟨h0, -⟩ | ⟨ws0, ws', h0, h1, h2⟩
    · rw [h0] at hw
      cases hw
    · rw [h0] at hw
      cases hw
      have hv := hb.2 ws' h1
      refine ⟨fun q q' hq => hv.once _ _ (τ.injective hq), fun w => ?_⟩
      obtain ⟨w, rfl⟩ := τ.surjective w
      have h3 := (h2 w).2
      have h4 := hv.all w
      simp only [h3, EmbeddingLike.apply_eq_iff_eq]
      exact h4

theorem reordered_only {D D' : Data X B P W} {π : Fin B ≃ Fin B} {σ : Fin P ≃ Fin P}
    {τ : Fin W ≃ Fin W} (h : Reordered D D' π σ τ) {n m : ℕ} (b : Fin B) (e : Fin n → Fin P)
    (v : Fin m → Fin W) :
    D'.only b e v = D.only (π b) (fun q => σ (e q)) (fun q => τ (v q)) := by
  unfold Data.only
  congr 1
  · funext _
    exact h.x b
  · funext c
    exact h.domCharge b c.2
  · funext q
    exact h.pulseTime (e q)
  · funext q
    rw [h.ids]
  · rcases h.windows with ⟨h0, h1⟩ | ⟨ws, ws', h0, h1, h2⟩
    · rw [h0, h1]
      rfl
    · rw [h0, h1]
      simp only [Option.map_some, Option.some.injEq]
      funext w
      rw [(h2 (v w)).1, (h2 (v w)).2]

theorem Reordered.symm {D D' : Data X B P W} {π : Fin B ≃ Fin B} {σ : Fin P ≃ Fin P}
    {τ : Fin W ≃ Fin W} (h : Reordered D D' π σ τ) : Reordered D' D π.symm σ.symm τ.symm where
  x b := by rw [h.x]; simp
  domCharge b c := by rw [h.domCharge]; simp
  pulseTime p := by rw [h.pulseTime]; simp
  ids p := by
    have := h.ids (σ.symm p)
    rw [Equiv.apply_symm_apply] at this
    rw [this]
    simp
  windows := by
    rcases h.windows with ⟨h0, h1⟩ | ⟨ws, ws', h0, h1, h2⟩
    · exact .inl ⟨h1, h0⟩
    · refine .inr ⟨ws', ws, h1, h0, fun w => ?_⟩
      obtain ⟨k1, k2⟩ := h2 (τ.symm w)
      rw [Equiv.apply_symm_apply] at k1 k2
      exact ⟨k1.symm, by rw [k2]; simp⟩

theorem reordered_succeeds {D D' : Data X B P W} {π : Fin B ≃ Fin B} {σ : Fin P ≃ Fin P}
    {τ : Fin W ≃ Fin W} (M : Source X) (hB : 0 < B) (h : Reordered D D' π σ τ) {T}
    (hT : getTensors M D = .ok T) : ∃ T', getTensors M D' = .ok T' := by
  have hx := fun b => exists_belongs D' b
  choose n m e v hb using hx
  rcases C139_event M D' hB e v hb with ⟨T', -, h1, -, -⟩ | ⟨err, -, b, h2⟩
  · exact ⟨T', h1⟩
  · rw [reordered_only h] at h2
    have hl : ∀ b, Belongs D b (fun q => σ (e (π.symm b) q)) (fun q => τ (v (π.symm b) q)) := by
      intro b
      have := reordered_belongs h (hb (π.symm b))
      rwa [Equiv.apply_symm_apply] at this
    rcases C139_event M D hB _ _ hl with ⟨T2, Ts, -, k2, -⟩ | ⟨err', k1, -⟩
    · have := k2 (π b)
      have e3 : ∀ b', b' = b → getTensors M (D.only (π b) (fun q => σ (e b' q)) (fun q => τ (v b' q))) =
          .error err := by
        rintro b' rfl
        exact h2
      rw [e3 _ (Equiv.symm_apply_apply π b)] at this
      cases this
    · rw [hT] at k1
      cases k1

/-- C139 (order): neither the order of the events in a batch nor the order of pulses and windows matters:
the predictions are the same, in the new order. -/
theorem C139_order {D D' : Data X B P W} {π : Fin B ≃ Fin B} {σ : Fin P ≃ Fin P}
    {τ : Fin W ≃ Fin W} (M : Source X) (hB : 0 < B) (h : Reordered D D' π σ τ) :
    ((∃ T, getTensors M D = .ok T) ↔ ∃ T', getTensors M D' = .ok T') ∧
    ∀ T T', getTensors M D = .ok T → getTensors M D' = .ok T' →
      (∀ b c, T'.latent (b, c) = T.latent (π b, c) ∧ T'.charge (b, c) = T.charge (π b, c) ∧
        T'.stats (b, c) = T.stats (π b, c)) ∧ ∀ p, T'.pulsePdf p = T.pulsePdf (σ p) := by
  refine ⟨⟨fun ⟨T, hT⟩ => reordered_succeeds M hB h hT,
    fun ⟨T, hT⟩ => reordered_succeeds M hB h.symm hT⟩, fun T T' hT hT' => ⟨fun b c => ?_, fun p => ?_⟩⟩
  · obtain ⟨n, m, e, v, hb⟩ := exists_belongs D' b
    exact (C139_other_events M D' D b (π b) e v _ _ hb (reordered_belongs h hb)
      (reordered_only h b e v) T' T hT' hT).1 c
  · obtain ⟨n, m, e, v, hb⟩ := exists_belongs D' (D'.ids p).1
    obtain ⟨q, rfl⟩ := (hb.1.all p).1 rfl
    exact (C139_other_events M D' D _ (π _) e v _ _ hb (reordered_belongs h hb)
      (reordered_only h _ e v) T' T hT' hT).2 q

/-- C139 (order of the loss): the loss does not depend on these orders. -/
theorem C139_loss_order {D D' : Data X B P W} {E E' : Extra B P} {π : Fin B ≃ Fin B}
    {σ : Fin P ≃ Fin P} {τ : Fin W ≃ Fin W} (M : Source X) (cfg : Loss.Config) (hB : 0 < B)
    (h : Reordered D D' π σ τ) (hc : ∀ p, E'.charge p = E.charge (σ p))
    (hq : ∀ p, E'.quantile p = E.quantile (σ p))
    (hm : E'.mask = E.mask.map fun m c => m (π c.1, c.2)) (x : ℝ) :
    endToEnd M cfg D E = .ok x ↔ endToEnd M cfg D' E' = .ok x := by
  have hx := fun b => exists_belongs D' b
  choose n m e v hb using hx
  have hl : ∀ b, Belongs D b (fun q => σ (e (π.symm b) q)) (fun q => τ (v (π.symm b) q)) := by
    intro b
    have := reordered_belongs h (hb (π.symm b))
    rwa [Equiv.apply_symm_apply] at this
  have he : ∀ b, E'.only b (e b) = E.only (π b) (fun q => σ (e b q)) := by
    intro b
    unfold Extra.only
    congr 1
    · funext q
      exact hc _
    · funext q
      exact hq _
    · rw [hm]
      cases E.mask <;> rfl
  have key : ∀ b, endToEnd M cfg (D'.only b (e b) (v b)) (E'.only b (e b)) =
      endToEnd M cfg (D.only (π b) (fun q => σ (e (π.symm (π b)) q)) (fun q => τ (v (π.symm (π b)) q)))
        (E.only (π b) (fun q => σ (e (π.symm (π b)) q))) := by
    intro b
    rw [he b, reordered_only h]
    have : ∀ b', b' = b → endToEnd M cfg (D.only (π b) (fun q => σ (e b q)) (fun q => τ (v b q)))
        (E.only (π b) (fun q => σ (e b q))) =
        endToEnd M cfg (D.only (π b) (fun q => σ (e b' q)) (fun q => τ (v b' q)))
          (E.only (π b) (fun q => σ (e b' q))) := by
      rintro b' rfl
      rfl
    exact this _ (Equiv.symm_apply_apply π b)
  rcases C139_loss M cfg D' E' hB e v hb with ⟨y, ys, h1, h2, h3⟩ | ⟨err, h1, b, h2⟩
  · rcases C139_loss M cfg D E hB _ _ hl with ⟨z, zs, k1, k2, k3⟩ | ⟨err, k1, b, k2⟩
    · have : ∀ b, ys b = zs (π b) := by
        intro b
        have h4 := h2 b
        rw [key b, k2 (π b)] at h4
        simpa using h4.symm
      have hyz : y = z := by
        rw [h3, k3, ← Equiv.sum_comp π zs]
        exact Finset.sum_congr rfl fun b _ => this b
      rw [h1, k1, hyz]
    · exfalso
      obtain ⟨b, rfl⟩ := π.surjective b
      rw [← key b, h2 b] at k2
      cases k2
  · rcases C139_loss M cfg D E hB _ _ hl with ⟨z, zs, k1, k2, k3⟩ | ⟨err', k1, b', k2⟩
    · exfalso
      rw [key b, k2 (π b)] at h2
      cases h2
    · rw [h1, k1]
      simp

/-! ## Noise -/

theorem sameNoise (N : NoiseSource) (D : Data (ℝ × ℝ) B P W) {n m : ℕ} (b : Fin B)
    (e : Fin n → Fin P) (v : Fin m → Fin W) (he : ItemsOf (fun p => (D.ids p).1) b e) (E E')
    (h1 : E' = E.map fun (x : Cell B → ℝ) (c : Cell 1) => x (b, c.2)) :
    SameNoise (noiseBatch N D E) b e (noiseBatch N (D.only b e v) E') := by
  subst h1
  refine ⟨rfl, fun c => ?_, fun c => ?_, fun q => ?_⟩
  · simp only [noiseBatch]
    cases E <;> rfl
  · simp only [noiseBatch]
    cases E <;> rfl
  · have hb : (D.ids (e q)).1 = b := (he.all _).2 ⟨q, rfl⟩
    subst hb
    simp only [noiseBatch]
    cases E <;> rfl

/-- C139 (noise): the same for the noise model. -/
theorem C139_noise {n m : Fin B → ℕ} (N : NoiseSource) (D : Data (ℝ × ℝ) B P W)
    (e : ∀ b, Fin (n b) → Fin P) (v : ∀ b, Fin (m b) → Fin W) (h : ∀ b, Belongs D b (e b) (v b)) :
    (∃ (T : NoiseBatch B P) (Ts : ∀ b, NoiseBatch 1 (n b)), noiseGetBatch N D = .ok T ∧
      (∀ b, noiseGetBatch N (D.only b (e b) (v b)) = .ok (Ts b)) ∧
      ∀ b, SameNoise T b (e b) (Ts b)) ∨
    ∃ err, noiseGetBatch N D = .error err ∧
      ∃ b, noiseGetBatch N (D.only b (e b) (v b)) = .error err := by
  unfold noiseGetBatch
  cases hw : D.windows with
  | none =>
    have hv : ∀ b, (D.only b (e b) (v b)).windows = none := fun b => by simp [Data.only, hw]
    simp only [hv]
    exact .inl ⟨_, _, rfl, fun b => rfl, fun b => sameNoise N D b _ _ (h b).1 _ _ rfl⟩
  | some ws =>
    have hi := fun b => (h b).2 ws hw
    have hv := fun b => only_windows D b (e b) (v b) hw
    simp only [hv]
    by_cases ha : (∀ w, inBounds (noiseTw N D ws w)) ∧ ∀ c, inBounds (noiseScatter N D ws c)
    · have hb := (noiseAssertions_only N D e hi).1 ha
      simp only [if_pos ha, if_pos (hb _)]
      refine .inl ⟨_, _, rfl, fun b => rfl, fun b => sameNoise N D b _ _ (h b).1 _ _ ?_⟩
      simp only [Option.map_some, Option.some.injEq]
      funext ⟨c0, c⟩
      have : c0 = 0 := Subsingleton.elim _ _
      subst this
      rw [noiseScatter_only N D (e b) (hi b)]
    · have hb : ∃ b, ¬ ((∀ w, inBounds (noiseTw N (D.only b (e b) (v b)) (onlyWs ws (v b)) w)) ∧
          ∀ c, inBounds (noiseScatter N (D.only b (e b) (v b)) (onlyWs ws (v b)) c)) := by
        by_contra hb
        exact ha ((noiseAssertions_only N D e hi).2 fun b => not_not.1 fun hn => hb ⟨b, hn⟩)
      obtain ⟨b, hb⟩ := hb
      simp only [if_neg ha]
      exact .inr ⟨_, rfl, b, by rw [if_neg hb]⟩

/-- C139 (noise, DOMs): the noise predictions for a batch are those of the single DOMs with their own
windows, and succeed if and only if these do. -/
theorem C139_noise_per_dom (N : NoiseSource) (D : Data (ℝ × ℝ) B P W) :
    (∀ T, noiseGetBatch N D = .ok T → ∀ c, ∃ t,
      noiseGetTensors { N.dom D c with windows := D.windowsAt c } = .ok t ∧
      (T.exclusion.map fun x => x c) = t.exclusion ∧ T.charge c = t.charge ∧
      T.variance c = t.variance ∧ ∀ p, D.ids p = c → T.pulsePdf p = t.pulsePdf) ∧
    ((∀ c, ∃ t, noiseGetTensors { N.dom D c with windows := D.windowsAt c } = .ok t) →
      ∃ T, noiseGetBatch N D = .ok T) := by
  constructor
  · intro T h c
    unfold noiseGetBatch at h
    unfold noiseGetTensors
    cases hw : D.windows with
    | none =>
      have hc : D.windowsAt c = none := by simp [Data.windowsAt, hw]
      simp only [hw, Except.ok.injEq] at h
      subst h
      simp only [hc]
      refine ⟨_, rfl, rfl, rfl, rfl, ?_⟩
      rintro p rfl
      rfl
    | some ws =>
      have hc : D.windowsAt c = some (windowList ws c) := by
        simp [Data.windowsAt, hw, windowList]
      simp only [hw] at h
      split_ifs at h with ha
      simp only [Except.ok.injEq] at h
      subst h
      simp only [hc]
      have hn : noiseAssertions { N.dom D c with windows := D.windowsAt c } (windowList ws c) :=
        (noiseAssertions_dom N D ws).1 ha c
      rw [if_pos hn]
      refine ⟨_, rfl, ?_, ?_, ?_, ?_⟩
      · simp only [noiseBatch, Option.map_some, noiseScatter_dom]
        rfl
      · simp only [noiseBatch, Option.map_some, noiseScatter_dom]
        rfl
      · simp only [noiseBatch, Option.map_some, noiseScatter_dom]
        rfl
      · rintro p rfl
        simp only [noiseBatch, Option.map_some, noiseScatter_dom]
        rfl
  · intro h
    unfold noiseGetBatch
    cases hw : D.windows with
    | none => exact ⟨_, rfl⟩
    | some ws =>
      have ha : (∀ w, inBounds (noiseTw N D ws w)) ∧ ∀ c, inBounds (noiseScatter N D ws c) := by
        refine (noiseAssertions_dom N D ws).2 fun c => ?_
        have hc : D.windowsAt c = some (windowList ws c) := by
          simp [Data.windowsAt, hw, windowList]
        obtain ⟨t, ht⟩ := h c
        unfold noiseGetTensors at ht
        simp only [hc] at ht
        split_ifs at ht with ha
        exact ha
      simp only
      rw [if_pos ha]
      exact ⟨_, rfl⟩

/-- C139 (success): if the configuration fits and the windows of each DOM do not overlap, the
predictions for the batch succeed. -/
theorem C139_succeeds (M : Source X) (D : Data X B P W) (hf : M.cfg.Fits)
    (hw : ∀ c, ∀ ws ∈ D.windowsAt c, DisjointWindows ws) : ∃ T, getTensors M D = .ok T := by
  rcases Nat.eq_zero_or_pos B with rfl | hB
  · unfold getTensors
    rw [if_neg (by have := hf.2; omega), if_neg (by have := hf.1; omega)]
    cases h : D.windows with
    | none => exact ⟨_, rfl⟩
    | some ws =>
      have : batchAssertions M D ws :=
        ⟨fun w => (ws w).2.1.elim0, fun c => c.1.elim0, fun c => c.1.elim0⟩
      simp only
      rw [if_pos this]
      exact ⟨_, rfl⟩
  · exact (C139_per_dom M D).2 hB fun c =>
      (C33_succeeds M.cfg { M.dom D c with windows := D.windowsAt c } (hw c)).1 hf

/-- Every batch can be reordered in every way. -/
example (D : Data X B P W) (π : Fin B ≃ Fin B) (σ : Fin P ≃ Fin P) (τ : Fin W ≃ Fin W) :
    ∃ D', Reordered D D' π σ τ := by
  refine ⟨⟨fun b => D.x (π b), fun c => D.domCharge (π c.1, c.2), fun p => D.pulseTime (σ p),
    fun p => (π.symm (D.ids (σ p)).1, (D.ids (σ p)).2),
    D.windows.map fun ws w => ((ws (τ w)).1, (π.symm (ws (τ w)).2.1, (ws (τ w)).2.2))⟩,
    fun b => rfl, fun b c => rfl, fun p => rfl, fun p => by simp, ?_⟩
  cases h : D.windows with
  | none => exact .inl ⟨rfl, rfl⟩
  | some ws => exact .inr ⟨ws, _, rfl, rfl, fun w => ⟨rfl, by simp⟩⟩

/-- Two events, three pulses and two windows. -/
noncomputable def exData : Data ℝ 2 3 2 where
  x b := b
  domCharge c := if c.2 = (0, 0) then 1 else 0
  pulseTime p := p
  ids := ![(1, 0, 0), (0, 0, 0), (1, 2, 5)]
  windows := some ![((10, 20), (1, 0, 0)), ((0, 5), (0, 0, 0))]

/-- A model that fits. -/
noncomputable def exSource : Source ℝ where
  cfg := ⟨2, 10, .negativeBinomial, true, true, true, true⟩
  net x _ k := x + k
  energy x := 1000 + x
  time x := x
  domEff _ := 1
  relEff _ := 1

example : Belongs exData 0 (![1] : Fin 1 → Fin 3) (![1] : Fin 1 → Fin 2) ∧
    Belongs exData 1 (![0, 2] : Fin 2 → Fin 3) (![0] : Fin 1 → Fin 2) := by
  have hi : ∀ ws, exData.windows = some ws → ∀ w, (ws w).2 = ![(1, 0, 0), (0, 0, 0)] w := by
    intro ws h w
    simp only [exData, Option.some.injEq] at h
    subst h
    fin_cases w <;> rfl
  refine ⟨⟨⟨by decide, by decide⟩, fun ws h => ?_⟩, ⟨⟨by decide, by decide⟩, fun ws h => ?_⟩⟩ <;>
  · simp only [hi ws h]
    exact ⟨by decide, by decide⟩

example : ∃ T, getTensors exSource exData = .ok T := by
  refine C139_succeeds exSource exData ⟨by decide, by decide⟩ fun c ws hc => ?_
  simp only [Data.windowsAt, exData, Option.map_some, Option.mem_def, Option.some.injEq] at hc
  subst hc
  constructor
  · intro w hw
    simp only [List.mem_map, List.mem_filter] at hw
    obtain ⟨i, -, rfl⟩ := hw
    fin_cases i <;> norm_num
  · rw [List.pairwise_map]
    have : (List.finRange 2) = [0, 1] := by decide
    rw [this]
    refine List.Pairwise.filter _ ?_
    simp
    norm_num

end Verif.Batch
