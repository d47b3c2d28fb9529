import Verif.Batch.ShiftSpec
import Verif.Batch.MultiProps
import Verif.Inputs.Props

/-! # C141: predictions and losses do not depend on the origin of time -/

namespace Verif.Batch
open Verif.Py Verif.Sources Verif.Cascade
open Verif.Loss (Cell)
variable {X : Type} {B P W : ℕ}

theorem windowExclusion_later (l : Latent) (time t : ℝ) (k : ℕ) (a b : ℝ) :
    windowExclusion l (time + t) k (a + t, b + t) = windowExclusion l time k (a, b) := by
  unfold windowExclusion
  simp only [add_sub_add_right_eq_sub]

section
variable {M : Source X} {τ : Fin B → ℝ} {D D' : Data X B P W}

theorem twExclusion_later (hp : ∀ b, LaterParameters M (τ b) (D.x b) (D'.x b)) (ws : Fin W → (ℝ × ℝ) × Cell B) (w : Fin W)
    (k : ℕ) :
    twExclusion M D' (fun w => (((ws w).1.1 + τ (ws w).2.1, (ws w).1.2 + τ (ws w).2.1), (ws w).2)) w k =
      twExclusion M D ws w k := by
  unfold twExclusion
  simp only [(hp _).net, (hp _).time]
  exact windowExclusion_later _ _ _ _ _ _

/-- **C141.** If all times of an event, those of its pulses, of its excluded windows and of the source, are
later by the same amount, the model predicts exactly the same, or fails alike. -/
theorem C141_cascade (hD : LaterData τ D D') (hp : ∀ b, LaterParameters M (τ b) (D.x b) (D'.x b)) :
    getTensors M D' = getTensors M D := by
  have hdom : ∀ c, domCharge M.cfg (M.dom D' c) = domCharge M.cfg (M.dom D c) := by
    intro c
    funext e
    unfold domCharge Source.dom
    simp only [(hp _).net, (hp _).energy, (hp _).domEff]
  have hT : ∀ e s, tensors M D' e s = tensors M D e s := by
    intro e s
    unfold tensors
    simp only [hdom, (hp _).net, (hp _).time, hD.domCharge, hD.ids, hD.pulseTime]
    congr 1
    funext p
    unfold pulsePdf
    simp only [add_sub_add_right_eq_sub]
  unfold getTensors
  rw [hD.windows]
  cases hw : D.windows with
  | none => simp only [Option.map_none, hT]
  | some ws =>
    have h1 := twExclusion_later hp ws
    have h2 : ∀ c k, domExclusion M D' (fun w => (((ws w).1.1 + τ (ws w).2.1, (ws w).1.2 + τ (ws w).2.1), (ws w).2)) c k =
        domExclusion M D ws c k := by
      intro c k
      unfold domExclusion
      simp only [h1]
    have h3 : ∀ c, domExclusionSum M D' (fun w => (((ws w).1.1 + τ (ws w).2.1, (ws w).1.2 + τ (ws w).2.1), (ws w).2)) c =
        domExclusionSum M D ws c := by
      intro c
      unfold domExclusionSum
      simp only [h2, (hp _).net]
    have hA : batchAssertions M D' (fun w => (((ws w).1.1 + τ (ws w).2.1, (ws w).1.2 + τ (ws w).2.1), (ws w).2)) =
        batchAssertions M D ws := by
      unfold batchAssertions
      simp only [h1, h2, h3]
    simp only [Option.map_some, h2, h3, hT]
    classical
    rw [if_congr hA.to_iff rfl rfl]

/-- **C141.** So is the loss. -/
theorem C141_loss (hD : LaterData τ D D') (hp : ∀ b, LaterParameters M (τ b) (D.x b) (D'.x b)) (cfg : Loss.Config)
    (E : Extra B P) : endToEnd M cfg D' E = endToEnd M cfg D E := by
  have hb : lossBatch D' E = lossBatch D E := by
    unfold lossBatch
    simp [hD.domCharge, hD.ids, hD.windows]
  unfold endToEnd
  rw [C141_cascade hD hp, hb]

end

/-- **C141.** For the parameters of a cascade nothing else is needed: the network of the code does not see the
time, so a later cascade with later data gives the same loss. -/
theorem C141_cascade_parameters (cfg : Cascade.Config) (icfg : Inputs.Config) (t : Inputs.Trafo) (localVars : List ℝ)
    (pos : DomIx → Sphere.V3) (layers : (DomIx → Except Err (List Inputs.Chan)) → DomIx → ℕ → ℝ) (eff : ℕ)
    (relEff : DomIx → ℝ) {τ : Fin B → ℝ} {D D' : Data Inputs.Hyp B P W} (hD : LaterData τ D D')
    (hx : ∀ b, D'.x b = (D.x b).later (τ b)) (lcfg : Loss.Config) (E : Extra B P) :
    endToEnd (cascadeSource cfg icfg t localVars pos layers eff relEff) lcfg D' E =
      endToEnd (cascadeSource cfg icfg t localVars pos layers eff relEff) lcfg D E := by
  refine C141_loss hD (fun b => ⟨?_, ?_, ?_, ?_⟩) lcfg E
  · show layers _ = layers _
    congr 1
    funext c
    rw [hx]
    exact Inputs.C79_default_only icfg t localVars (pos c) _ _ ⟨rfl, rfl, rfl, fun i _ => rfl⟩
  all_goals
    rw [hx]
    rfl

/-- **C141.** Of the time only the difference to the data matters: a source that is later by `t` in the same
data without excluded windows has the density of pulses that are earlier by `t`, and the same charges. -/
theorem C141_source_later {M : Source X} {τ : Fin B → ℝ} {D D' : Data X B P W}
    (hp : ∀ b, LaterParameters M (τ b) (D.x b) (D'.x b)) (hq : D'.domCharge = D.domCharge) (hi : D'.ids = D.ids)
    (ht : D'.pulseTime = D.pulseTime) (hw : D.windows = none) (hw' : D'.windows = none) :
    getTensors M D' = getTensors M { D with pulseTime := fun p => D.pulseTime p - τ (D.ids p).1 } :=
  C141_cascade (M := M) (τ := τ) (D := { D with pulseTime := fun p => D.pulseTime p - τ (D.ids p).1 })
    ⟨hq, hi, fun p => by simp [ht], by simp [hw, hw']⟩ hp

/-- **C141.** The same for the density of the quantile model, whose network sees quantiles and no times. -/
theorem C141_quantiles (nModels nFilters : ℕ) (out : ℕ → ℝ) (time light s : ℝ) :
    (quantileTensors nModels nFilters out (time + s) light).map (fun x => (x.1, fun t => x.2 (t + s))) =
      quantileTensors nModels nFilters out time light := by
  unfold quantileTensors
  split
  · rfl
  · split
    · rfl
    · simp only [Except.map, pulsePdf, add_sub_add_right_eq_sub]
      rfl

/-! ## Noise -/

/-- **C141.** The same for noise, with the window of the readout later as well. -/
theorem C141_noise (N : NoiseSource) {τ : Fin B → ℝ} {D D' : Data (ℝ × ℝ) B P W} (hD : LaterData τ D D')
    (hx : ∀ b, D'.x b = ((D.x b).1 + τ b, (D.x b).2 + τ b)) : noiseGetBatch N D' = noiseGetBatch N D := by
  have hlive : ∀ c, (N.dom D' c).stop - (N.dom D' c).start = (N.dom D c).stop - (N.dom D c).start := by
    intro c
    simp [NoiseSource.dom, hx]
  have hT : ∀ e, noiseBatch N D' e = noiseBatch N D e := by
    intro e
    have : ∀ c x, noiseTensors (N.dom D' c) x = noiseTensors (N.dom D c) x := by
      intro c x
      unfold noiseTensors
      simp only [hlive]
      rfl
    unfold noiseBatch
    simp only [this, hD.ids]
  have hlim : ∀ c t, limit (N.dom D' c) (t + τ c.1) = limit (N.dom D c) t + τ c.1 := by
    intro c t
    unfold limit NoiseSource.dom
    simp only [hx]
    rw [min_add_add_right, max_add_add_right]
  unfold noiseGetBatch
  rw [hD.windows]
  cases hw : D.windows with
  | none => simp only [Option.map_none, hT]
  | some ws =>
    have h1 : ∀ w, noiseTw N D' (fun w => (((ws w).1.1 + τ (ws w).2.1, (ws w).1.2 + τ (ws w).2.1), (ws w).2)) w =
        noiseTw N D ws w := by
      intro w
      unfold noiseTw noiseWindow
      simp only [hlim, hlive, add_sub_add_right_eq_sub]
    have h2 : ∀ c, noiseScatter N D' (fun w => (((ws w).1.1 + τ (ws w).2.1, (ws w).1.2 + τ (ws w).2.1), (ws w).2)) c =
        noiseScatter N D ws c := by
      intro c
      unfold noiseScatter
      simp only [h1]
    have hA : ((∀ w, inBounds (noiseTw N D' (fun w =>
          (((ws w).1.1 + τ (ws w).2.1, (ws w).1.2 + τ (ws w).2.1), (ws w).2)) w)) ∧ ∀ c, inBounds (noiseScatter N D'
            (fun w => (((ws w).1.1 + τ (ws w).2.1, (ws w).1.2 + τ (ws w).2.1), (ws w).2)) c)) =
        ((∀ w, inBounds (noiseTw N D ws w)) ∧ ∀ c, inBounds (noiseScatter N D ws c)) := by
      simp only [h1, h2]
    simp only [Option.map_some, h2, hT]
    classical
    exact if_congr hA.to_iff rfl rfl

/-! ## Several sources -/

theorem length_laterCols (τ : Fin B → ℝ) (cols : List (Fin B → ℝ)) : (laterCols τ cols).length = cols.length := by
  simp [laterCols]

theorem indexer_error_iff {K : Type} (row row' : List K) (names : List String) (h : row'.length = row.length) :
    (∃ x x', indexer row names = .ok x ∧ indexer row' names = .ok x') ∨
      indexer row names = .error .valueError ∧ indexer row' names = .error .valueError := by
  unfold indexer
  rw [h]
  split
  · exact .inr ⟨rfl, rfl⟩
  · exact .inl ⟨_, _, rfl, rfl⟩

theorem indexer_length {K : Type} {row : List K} {names : List String} {x} (h : indexer row names = .ok x) :
    row.length = names.length := by
  unfold indexer at h
  split at h
  · cases h
  · rename_i h'
    simpa using h'

theorem get?_baseNames (bases : Dict String (Base (Fin B → ℝ) ℝ (Cell B) (Fin P))) (k : String) :
    Dict.get? (baseNames bases) k = (Dict.get? bases k).map fun s => s.names := by
  induction bases with
  | nil => rfl
  | cons kv rest ih =>
    obtain ⟨n, v⟩ := kv
    simp only [baseNames, List.map_cons, Dict.get?_cons] at ih ⊢
    split
    · rfl
    · exact ih

theorem item_later {τ : Fin B → ℝ} {bases bases' : Dict String (Base (Fin B → ℝ) ℝ (Cell B) (Fin P))}
    (h : LaterBases τ bases bases') (k : String) :
    (∃ s s', item bases k = .ok s ∧ item bases' k = .ok s' ∧ s'.names = s.names ∧
      s.names.length ∈ ((baseNames bases).map fun x => x.2.length) ∧
      SameLater ((baseNames bases).map fun x => x.2.length) τ s.eval s'.eval) ∨
    item bases k = .error .keyError ∧ item bases' k = .error .keyError := by
  have h1 := get?_baseNames bases k
  have h2 := get?_baseNames bases' k
  rw [h.names, h1] at h2
  unfold item
  cases hs : Dict.get? bases k with
  | none =>
    rw [hs] at h2
    cases hs' : Dict.get? bases' k with
    | none => exact .inr ⟨rfl, rfl⟩
    | some s' =>
      rw [hs'] at h2
      cases h2
  | some s =>
    rw [hs] at h2
    cases hs' : Dict.get? bases' k with
    | none =>
      rw [hs'] at h2
      cases h2
    | some s' =>
      rw [hs'] at h2
      simp only [Option.map_some, Option.some.injEq] at h2
      refine .inl ⟨s, s', rfl, rfl, h2.symm, ?_, h.eval k s s' hs hs'⟩
      rw [hs] at h1
      exact List.mem_map.2 ⟨(k, s.names), Dict.mem_of_get? h1, rfl⟩

theorem get?_mapVal (f : List (Fin B → ℝ) → List (Fin B → ℝ)) (d : Dict String (List (Fin B → ℝ))) (k : String) :
    Dict.get? (d.map fun kv => (kv.1, f kv.2)) k = (Dict.get? d k).map f := by
  induction d with
  | nil => rfl
  | cons kv rest ih =>
    obtain ⟨n, v⟩ := kv
    simp only [List.map_cons, Dict.get?_cons]
    split
    · rfl
    · exact ih

theorem sourceLoop_later {τ : Fin B → ℝ} {bases bases' : Dict String (Base (Fin B → ℝ) ℝ (Cell B) (Fin P))}
    (h : LaterBases τ bases bases') (s : Dict String (List (Fin B → ℝ))) (ex : Bool) (ids : Fin P → Cell B)
    {f f' : List (Fin B → ℝ) → Except Err (Out ℝ (Cell B) (Fin P))}
    (hf : SameLater ((baseNames bases).map fun x => x.2.length) τ f f') (sources : Dict String String) :
    ∀ acc, sourceLoop bases' (s.map fun kv => (kv.1, laterCols τ kv.2)) f' ex ids acc sources =
      sourceLoop bases s f ex ids acc sources := by
  induction sources with
  | nil => exact fun acc => rfl
  | cons kv rest ih =>
    intro acc
    obtain ⟨name, base⟩ := kv
    simp only [sourceLoop]
    rcases item_later h base with ⟨b, b', h1, h2, h3, h4, -⟩ | ⟨h1, h2⟩
    · simp only [h1, h2]
      have hg := get?_mapVal (laterCols τ) s name
      unfold item
      rw [hg]
      cases Dict.get? s name with
      | none => rfl
      | some params =>
        simp only [Option.map_some, h3]
        rcases indexer_error_iff params (laterCols τ params) b.names (length_laterCols τ params) with
          ⟨x, x', i1, i2⟩ | ⟨i1, i2⟩
        · simp only [i1, i2]
          rw [hf params (by rw [indexer_length i1]; exact h4)]
          cases f params with
          | error e => rfl
          | ok o =>
            simp only
            split
            · exact ih _
            · rfl
        · simp only [i1, i2]
    · simp only [h1, h2]

theorem lastBase_later {τ : Fin B → ℝ} {bases bases' : Dict String (Base (Fin B → ℝ) ℝ (Cell B) (Fin P))}
    (h : LaterBases τ bases bases') (order : List String) :
    ∀ cur cur', SameLater ((baseNames bases).map fun x => x.2.length) τ (closure cur) (closure cur') →
    (∃ l l', lastBase bases cur order = .ok l ∧ lastBase bases' cur' order = .ok l' ∧
      SameLater ((baseNames bases).map fun x => x.2.length) τ (closure l) (closure l')) ∨
    ∃ e, lastBase bases cur order = .error e ∧ lastBase bases' cur' order = .error e := by
  induction order with
  | nil => exact fun cur cur' hc => .inl ⟨cur, cur', rfl, rfl, hc⟩
  | cons k rest ih =>
    intro cur cur' _
    simp only [lastBase]
    rcases item_later h k with ⟨b, b', h1, h2, -, -, h5⟩ | ⟨h1, h2⟩
    · simp only [h1, h2]
      exact ih (some b) (some b') h5
    · simp only [h1, h2]
      exact .inr ⟨_, rfl, rfl⟩

/-- **C141.** The same for several sources, with every source later: `row'` holds as many parameters as `row`, and
each source gets from it what it gets from `row`, with a later time. -/
theorem C141_multi {τ : Fin B → ℝ} {bases bases' : Dict String (Base (Fin B → ℝ) ℝ (Cell B) (Fin P))}
    (h : LaterBases τ bases bases') (sources : Dict String String) (names : List String)
    (split : List (Fin B → ℝ) → Except Err (Dict String (List (Fin B → ℝ)))) (order : List String) (ex : Bool)
    (ids : Fin P → Cell B) (row row' : List (Fin B → ℝ)) (hlen : row'.length = row.length)
    (hsplit : split row' = (split row).map fun s => s.map fun kv => (kv.1, laterCols τ kv.2)) :
    Sources.getTensors bases' sources names split order ex ids row' =
      Sources.getTensors bases sources names split order ex ids row := by
  unfold Sources.getTensors
  rcases indexer_error_iff row row' names hlen with ⟨x, x', i1, i2⟩ | ⟨i1, i2⟩
  · simp only [i1, i2, hsplit]
    cases split row with
    | error e => rfl
    | ok s =>
      simp only [Except.map]
      rcases lastBase_later h order none none (fun cols _ => rfl) with ⟨l, l', l1, l2, l3⟩ | ⟨e, l1, l2⟩
      · simp only [l1, l2]
        rw [sourceLoop_later h s ex ids l3 sources none]
      · simp only [l1, l2]
  · simp only [i1, i2]

/-- **C141.** The same for a multi source of independent sources. -/
theorem C141_independent {τ : Fin B → ℝ} {bases bases' : Dict String (Base (Fin B → ℝ) ℝ (Cell B) (Fin P))}
    (h : LaterBases τ bases bases') (sources : Dict String String) (order : List String) (ex : Bool)
    (ids : Fin P → Cell B) (row row' : List (Fin B → ℝ)) (hlen : row'.length = row.length)
    (hsplit : independentSlices sources (baseNames bases) row' =
      (independentSlices sources (baseNames bases) row).map fun s => s.map fun kv => (kv.1, laterCols τ kv.2)) :
    independentGetTensors bases' sources order ex ids row' = independentGetTensors bases sources order ex ids row := by
  unfold independentGetTensors
  rw [h.names]
  cases independentParameters sources (baseNames bases) with
  | error e => rfl
  | ok names => exact C141_multi h sources names _ order ex ids row row' hlen hsplit

/-- **C141.** A cascade model, as a part of a multi source, gives the same for later parameters and data. -/
theorem C141_cascade_base {M : Source (List ℝ)} (hM : SeesTimeOnly M) (names : List String) {τ : Fin B → ℝ}
    {D D' : Data Unit B P W} (hD : LaterData τ D D') (lens : List ℕ) (hl : ∀ n ∈ lens, 6 < n) :
    SameLater lens τ (M.base names D).eval (M.base names D').eval := by
  intro cols hc
  have h6 := hl _ hc
  simp only [Source.base]
  have hx : ∀ b, ((laterCols τ cols).map fun col => col b) = (cols.map fun col => col b).modify 6 (· + τ b) := by
    intro b
    apply List.ext_getElem?
    intro i
    simp only [laterCols, List.getElem?_map, List.getElem?_modify]
    cases cols[i]? with
    | none => rfl
    | some v =>
      simp only [Option.map_some]
      by_cases h : 6 = i <;> simp [h]
  have := C141_cascade (M := M) (τ := τ)
    (D := ⟨fun b => cols.map fun col => col b, D.domCharge, D.pulseTime, D.ids, D.windows⟩)
    (D' := ⟨fun b => (laterCols τ cols).map fun col => col b, D'.domCharge, D'.pulseTime, D'.ids, D'.windows⟩)
    ⟨hD.domCharge, hD.ids, hD.pulseTime, hD.windows⟩ (fun b => by
      show LaterParameters M (τ b) _ ((laterCols τ cols).map fun col => col b)
      rw [hx]
      exact hM _ (by simpa using h6) _)
  rw [this]

/-- **C141.** So does noise. -/
theorem C141_noise_base (N : NoiseSource) (window : Fin B → ℝ × ℝ) {τ : Fin B → ℝ} {D D' : Data Unit B P W}
    (hD : LaterData τ D D') (lens : List ℕ) :
    SameLater lens τ (N.base window D).eval
      (N.base (fun b => ((window b).1 + τ b, (window b).2 + τ b)) D').eval := by
  intro cols _
  simp only [NoiseSource.base]
  have := C141_noise N (τ := τ) (D := ⟨window, D.domCharge, D.pulseTime, D.ids, D.windows⟩)
    (D' := ⟨fun b => ((window b).1 + τ b, (window b).2 + τ b), D'.domCharge, D'.pulseTime, D'.ids, D'.windows⟩)
    ⟨hD.domCharge, hD.ids, hD.pulseTime, hD.windows⟩ (fun b => rfl)
  rw [this]

/-- **C141.** The loss of several sources is the same, too. -/
theorem C141_multi_loss {τ : Fin B → ℝ} {D D' : Data Unit B P W} (hD : LaterData τ D D')
    {bases bases' : Dict String (Base (Fin B → ℝ) ℝ (Cell B) (Fin P))} (h : LaterBases τ bases bases')
    (sources : Dict String String) (order : List String) (ex : Bool) (row row' : List (Fin B → ℝ))
    (hlen : row'.length = row.length) (hsplit : independentSlices sources (baseNames bases) row' =
      (independentSlices sources (baseNames bases) row).map fun s => s.map fun kv => (kv.1, laterCols τ kv.2))
    (cfg : Loss.Config) (E : Extra B P) :
    ((independentGetTensors bases' sources order ex D'.ids row').bind fun r =>
        Loss.scalarLoss cfg (lossBatch D' E) (multiResults ex r) false) =
      (independentGetTensors bases sources order ex D.ids row).bind fun r =>
        Loss.scalarLoss cfg (lossBatch D E) (multiResults ex r) false := by
  have hb : lossBatch D' E = lossBatch D E := by
    unfold lossBatch
    simp [hD.domCharge, hD.ids, hD.windows]
  rw [hD.ids, C141_independent h sources order ex D.ids row row' hlen hsplit, hb]

/-- Every batch can be made later. -/
example (τ : Fin B → ℝ) (D : Data X B P W) : ∃ D', D'.x = D.x ∧ LaterData τ D D' :=
  ⟨⟨D.x, D.domCharge, fun p => D.pulseTime p + τ (D.ids p).1, D.ids, D.windows.map fun ws w =>
    (((ws w).1.1 + τ (ws w).2.1, (ws w).1.2 + τ (ws w).2.1), (ws w).2)⟩, rfl, rfl, rfl, fun _ => rfl, rfl⟩

/-- A model that reads the time from the seventh column, and a multi source with two such cascades whose
fourteen parameters include two times. -/
example (cfg : Cascade.Config) (net : DomIx → ℕ → ℝ) (τ : Fin B → ℝ) (D D' : Data Unit B P W) (hD : LaterData τ D D')
    (n1 n2 n3 n4 n5 n6 n7 : String) (a b : Fin 7 → Fin B → ℝ) :
    ∃ M : Source (List ℝ), SeesTimeOnly M ∧
      let c := [n1, n2, n3, n4, n5, n6, n7]
      LaterBases τ [("c", M.base c D)] [("c", M.base c D')] ∧
      independentSlices [("p", "c"), ("q", "c")] (baseNames [("c", M.base c D)])
          (laterCols τ (List.ofFn a) ++ laterCols τ (List.ofFn b)) =
        (independentSlices [("p", "c"), ("q", "c")] (baseNames [("c", M.base c D)])
          (List.ofFn a ++ List.ofFn b)).map fun s => s.map fun kv => (kv.1, laterCols τ kv.2) := by
  refine ⟨⟨cfg, fun x c k => net c k * x.getD 0 0, fun x => x.getD 5 0, fun x => x.getD 6 0, fun _ => 1, fun _ => 1⟩,
    ?_, ?_, ?_⟩
  · intro x hx t
    refine ⟨?_, ?_, rfl, ?_⟩
    · funext c k
      simp [List.getD_eq_getElem?_getD]
    · simp [List.getD_eq_getElem?_getD]
    · simp [List.getD_eq_getElem?_getD, hx]
  · refine ⟨rfl, fun k s s' hs hs' => ?_⟩
    simp only [Dict.get?_cons] at hs hs'
    by_cases hk : "c" = k
    · simp only [if_pos hk, Option.some.injEq] at hs hs'
      subst hs hs'
      refine C141_cascade_base ?_ _ hD _ (by simp [baseNames, Source.base])
      intro x hx t
      refine ⟨?_, ?_, rfl, ?_⟩
      · funext c k
        simp [List.getD_eq_getElem?_getD]
      · simp [List.getD_eq_getElem?_getD]
      · simp [List.getD_eq_getElem?_getD, hx]
    · simp [if_neg hk, Dict.get?] at hs
  · rfl

end Verif.Batch
