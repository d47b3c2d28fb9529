import Verif.TestData.Spec
import Verif.Reco.Props
import Verif.Output.Lemmas

/-!
# Lemmas for C89 to C93
-/

namespace Verif.TestData
open Verif.Py

/-! ## Indices of parameters -/

theorem foldl_index (l : List String) (k : ℕ) (d : Dict String ℕ) (name : String) (hn : l.Nodup) :
    Dict.get? ((l.zipIdx k).foldl (fun d p => Dict.set d p.1 p.2) d) name =
      if name ∈ l then some (k + l.idxOf name) else Dict.get? d name := by
  induction l generalizing k d with
  | nil => simp
  | cons a l ih =>
    rw [List.zipIdx_cons, List.foldl_cons, ih _ _ (List.nodup_cons.1 hn).2]
    have ha := (List.nodup_cons.1 hn).1
    by_cases h : name ∈ l
    · have hne : a ≠ name := fun e => ha (e ▸ h)
      rw [if_pos h, if_pos (by simp [h]), List.idxOf_cons_ne _ hne]
      congr 1
      omega
    · rw [if_neg h, Dict.get?_set]
      by_cases hc : a = name
      · subst hc
        simp
      · rw [if_neg hc, if_neg (by simp [h, Ne.symm hc])]

theorem indexOf_ok {names : List String} (hn : names.Nodup) {i : ℕ} {name : String}
    (h : names[i]? = some name) : indexOf names name = .ok i := by
  unfold indexOf
  rw [foldl_index names 0 [] name hn, if_pos (List.mem_of_getElem? h)]
  simp only [Nat.zero_add]
  congr 1
  obtain ⟨hi, rfl⟩ := List.getElem?_eq_some_iff.1 h
  exact hn.idxOf_getElem i hi

theorem indexOf_error {names : List String} (hn : names.Nodup) {name : String} (h : name ∉ names) :
    indexOf names name = .error .keyError := by
  unfold indexOf
  rw [foldl_index names 0 [] name hn, if_neg h]
  rfl

/-! ## The tray -/

/-- Modules are added one after the other. -/
def addAll (tensors : List String) : Steps → Steps → Except Err Steps
  | [], t => .ok t
  | (name, s) :: rest, t =>
    match addStep tensors t name s with
    | .error e => .error e
    | .ok t => addAll tensors rest t

theorem addAll_append (tensors : List String) (l m t : Steps) :
    addAll tensors (l ++ m) t =
      match addAll tensors l t with
      | .error e => .error e
      | .ok t => addAll tensors m t := by
  induction l generalizing t with
  | nil => rfl
  | cons p l ih =>
    obtain ⟨name, s⟩ := p
    simp only [List.cons_append, addAll]
    cases addStep tensors t name s with
    | error e => rfl
    | ok t => exact ih t

theorem addStep_ok (tensors : List String) (t : Steps) (name : String) (s : Step)
    (h : name ∉ t.map Prod.fst) (hk : ∀ x ∈ s.needs, x ∈ tensors) :
    addStep tensors t name s = .ok (t ++ [(name, s)]) := by
  unfold addStep
  rw [if_neg (by simpa using h)]
  split
  · rw [if_pos]
    simpa using hk _ (by simp [Step.needs])
  · rfl

theorem addStep_inv {tensors : List String} {t : Steps} {name : String} {s : Step} {r : Steps}
    (h : addStep tensors t name s = .ok r) :
    name ∉ t.map Prod.fst ∧ (∀ x ∈ s.needs, x ∈ tensors) ∧ r = t ++ [(name, s)] := by
  unfold addStep at h
  split at h
  · cases h
  · rename_i hn
    refine ⟨by simpa using hn, ?_⟩
    split at h
    · split at h
      · rename_i hk
        cases h
        exact ⟨by simpa [Step.needs] using hk, rfl⟩
      · cases h
    · rename_i hs
      cases h
      refine ⟨?_, rfl⟩
      cases s with
      | fit seed p r =>
        cases p with
        | false => exact absurd rfl (hs _ _)
        | true => simp [Step.needs]
      | _ => simp [Step.needs]

theorem addAll_ok (tensors : List String) (l t : Steps)
    (hn : ((t ++ l).map Prod.fst).Nodup) (hk : ∀ p ∈ l, ∀ x ∈ p.2.needs, x ∈ tensors) :
    addAll tensors l t = .ok (t ++ l) := by
  induction l generalizing t with
  | nil => simp [addAll]
  | cons p l ih =>
    obtain ⟨name, s⟩ := p
    simp only [addAll]
    rw [addStep_ok tensors t name s ?_ (hk (name, s) (by simp))]
    · simp only
      rw [ih (t ++ [(name, s)]) (by simpa using hn) (fun p hp => hk p (by simp [hp]))]
      simp
    · rw [List.map_append, List.map_cons] at hn
      have := (List.nodup_append.1 hn).2.2
      intro hm
      exact this _ hm _ (by simp) rfl

theorem addAll_inv {tensors : List String} {l t r : Steps} (ht : (t.map Prod.fst).Nodup)
    (h : addAll tensors l t = .ok r) :
    r = t ++ l ∧ ((t ++ l).map Prod.fst).Nodup ∧ ∀ p ∈ l, ∀ x ∈ p.2.needs, x ∈ tensors := by
  induction l generalizing t with
  | nil =>
    cases h
    exact ⟨by simp, by simpa using ht, by simp⟩
  | cons p l ih =>
    obtain ⟨name, s⟩ := p
    simp only [addAll] at h
    cases ha : addStep tensors t name s with
    | error e => rw [ha] at h; cases h
    | ok t' =>
      rw [ha] at h
      obtain ⟨h1, h2, rfl⟩ := addStep_inv ha
      have hn' : ((t ++ [(name, s)]).map Prod.fst).Nodup := by
        rw [List.map_append]
        refine List.nodup_append.2 ⟨ht, by simp, ?_⟩
        intro a hx b hb
        simp only [List.map_cons, List.map_nil, List.mem_singleton] at hb
        rintro rfl
        exact h1 (hb ▸ hx)
      obtain ⟨e1, e2, e3⟩ := ih hn' h
      refine ⟨by simpa using e1, by simpa using e2, ?_⟩
      intro p hp
      rcases List.mem_cons.1 hp with rfl | hp
      · exact h2
      · exact e3 p hp

theorem addRandom_eq (tensors : List String) (seed : String) (is : List ℕ) (t : Steps) :
    addRandom tensors seed is t =
      addAll tensors (is.map fun i => (randomName i seed, Step.fit seed false true)) t := by
  induction is generalizing t with
  | nil => rfl
  | cons i is ih =>
    simp only [addRandom, List.map_cons, addAll]
    cases addStep tensors t (randomName i seed) (.fit seed false true) with
    | error e => rfl
    | ok t => exact ih t

theorem addSeed_eq (tensors : List String) (numRandom : Option ℕ) (seed : String)
    (names : List String) (t : Steps) :
    addSeed tensors numRandom seed names t =
      match addAll tensors (planSeed numRandom seed) t with
      | .error e => .error e
      | .ok t => .ok (names ++ candidates numRandom seed, t) := by
  cases numRandom with
  | none =>
    simp only [addSeed, planSeed, addAll, candidates]
    cases addStep tensors t ("reco_" ++ seed) (.fit seed false false) <;> rfl
  | some k =>
    simp only [addSeed, planSeed, candidates]
    rw [addAll_append, ← addRandom_eq]
    cases addRandom tensors seed (List.range k) t with
    | error e => rfl
    | ok t =>
      simp only [addAll]
      cases addStep tensors t "sel_reco_random"
          (.select ((List.range k).map fun i => randomName i seed)) with
      | error e => rfl
      | ok t =>
        simp only
        cases addStep tensors t ("reco_random_" ++ seed) (.fit "sel_reco_random" true false) with
        | error e => rfl
        | ok t =>
          simp only
          cases addStep tensors t ("reco_" ++ seed) (.fit seed false false) with
          | error e => rfl
          | ok t => simp

theorem addSeeds_eq (tensors : List String) (numRandom : Option ℕ) (seeds : List String)
    (names : List String) (t : Steps) :
    addSeeds tensors numRandom seeds names t =
      match addAll tensors (seeds.flatMap (planSeed numRandom)) t with
      | .error e => .error e
      | .ok t => .ok (names ++ seeds.flatMap (candidates numRandom), t) := by
  induction seeds generalizing names t with
  | nil => simp [addSeeds, addAll]
  | cons s ss ih =>
    simp only [addSeeds, List.flatMap_cons]
    rw [addSeed_eq, addAll_append]
    cases addAll tensors (planSeed numRandom s) t with
    | error e => rfl
    | ok t =>
      simp only
      rw [ih]
      cases addAll tensors (ss.flatMap (planSeed numRandom)) t with
      | error e => rfl
      | ok t => simp

theorem addIf_eq (tensors : List String) (b : Bool) (name : String) (s : Step) (t : Steps) :
    addIf tensors b name s t = addAll tensors (if b then [(name, s)] else []) t := by
  cases b with
  | false => rfl
  | true =>
    simp only [addIf, if_true, addAll]
    cases addStep tensors t name s <;> rfl

theorem build_eq (tensors : List String) (c : Config) :
    build tensors c = addAll tensors (plan c) [] := by
  unfold build plan extras
  rw [addSeeds_eq]
  simp only [addAll_append]
  cases addAll tensors (c.seed.names.flatMap (planSeed c.numRandom)) [] with
  | error e => rfl
  | ok t =>
    simp only [List.nil_append, addIf_eq, Config.covKey]
    simp only [addAll]
    cases addStep tensors t "reco" (.select (c.seed.names.flatMap (candidates c.numRandom))) with
    | error e => rfl
    | ok t => 
      simp only [bind, Except.bind]
      generalize (if c.covariance = true then [("covariance", Step.covariance "reco")] else []) = l1
      cases addAll tensors l1 t with
      | error e => rfl
      | ok t =>
        simp only
        generalize (if c.gof = true then _ else ([] : Steps)) = l2
        cases addAll tensors l2 t with
        | error e => rfl
        | ok t =>
          simp only
          generalize (if c.circular = true then _ else ([] : Steps)) = l3
          cases addAll tensors l3 t with
          | error e => rfl
          | ok t =>
            simp only
            generalize (if c.mcmc = true then _ else ([] : Steps)) = l4
            cases addAll tensors l4 t <;> rfl

/-! ## The loop -/

/-- Two sets of lists one after the other. -/
def app (l m : Lists) : Lists where
  truth := l.truth ++ m.truth
  reco := l.reco ++ m.reco
  seed := l.seed ++ m.seed
  lossTrue := l.lossTrue ++ m.lossTrue
  lossReco := l.lossReco ++ m.lossReco
  lossSeed := l.lossSeed ++ m.lossSeed
  std := l.std ++ m.std
  stdFit := l.stdFit ++ m.stdFit
  stdSand := l.stdSand ++ m.stdSand
  stdSandFit := l.stdSandFit ++ m.stdSandFit
  zenAzi := l.zenAzi ++ m.zenAzi
  zenAziFit := l.zenAziFit ++ m.zenAziFit
  circular := l.circular ++ m.circular
  p1 := l.p1 ++ m.p1
  p2 := l.p2 ++ m.p2
  stdSamples := l.stdSamples ++ m.stdSamples
  bias := l.bias ++ m.bias

/-- The lists of all batches. -/
def total (c : Config) (L : Batch → List Row → ℝ) (S T : Batch → List Row) (bs : List Batch) :
    Lists where
  truth := bs.flatMap T
  reco := bs.flatMap (·.reco)
  seed := bs.flatMap S
  lossTrue := bs.flatMap fun b => (T b).map fun _ => L b (T b)
  lossReco := bs.flatMap fun b => b.reco.map fun r => L b [r]
  lossSeed := bs.flatMap fun b => (S b).map fun s => L b [s]
  std := if c.covariance then bs.map (·.cov.std) else []
  stdFit := if c.covariance then bs.map (·.cov.stdFit) else []
  stdSand := if c.covariance then bs.map (·.cov.stdSand) else []
  stdSandFit := if c.covariance then bs.map (·.cov.stdSandFit) else []
  zenAzi := if c.covariance then bs.map (·.cov.zenAzi) else []
  zenAziFit := if c.covariance then bs.map (·.cov.zenAziFit) else []
  circular := if c.circular then bs.map (·.circular) else []
  p1 := if c.gof then bs.map (·.gof.p1) else []
  p2 := if c.gof then bs.map (·.gof.p2) else []
  stdSamples := if c.gof then bs.flatMap fun b => (b.gof.samples.map Prod.fst).toList else []
  bias := if c.gof then bs.flatMap fun b => (b.gof.samples.map Prod.snd).toList else []

theorem addEvents_eq (loss : Batch → List Row → Except Err ℝ) (L : Batch → List Row → ℝ)
    (hL : ∀ b rows, loss b rows = .ok (L b rows)) (b : Batch) (all rs ss ts : List Row) (l : Lists)
    (h1 : rs.length = ts.length) (h2 : ss.length = ts.length) :
    addEvents loss b all rs ss ts l = .ok { l with
      truth := l.truth ++ ts, seed := l.seed ++ ss, reco := l.reco ++ rs
      lossTrue := l.lossTrue ++ ts.map (fun _ => L b all)
      lossSeed := l.lossSeed ++ ss.map (fun s => L b [s])
      lossReco := l.lossReco ++ rs.map (fun r => L b [r]) } := by
  induction ts generalizing rs ss l with
  | nil =>
    have e1 : rs = [] := List.length_eq_zero_iff.1 h1
    have e2 : ss = [] := List.length_eq_zero_iff.1 h2
    subst e1 e2
    simp [addEvents]
  | cons t ts ih =>
    cases rs with
    | nil => simp at h1
    | cons r rs =>
      cases ss with
      | nil => simp at h2
      | cons s ss =>
        simp only [addEvents, hL]
        rw [ih rs ss _ (by simpa using h1) (by simpa using h2)]
        simp

theorem loop_eq (c : Config) (param : String) (n : ℕ) (loss : Batch → List Row → Except Err ℝ)
    (L : Batch → List Row → ℝ) (hL : ∀ b rows, loss b rows = .ok (L b rows))
    (S T : Batch → List Row) (hs : c.scans = false) (bs : List Batch)
    (hb : ∀ b ∈ bs, Complete c param n S T b) (assigned : Bool)
    (hm : c.mcmc = true → assigned = true ∨ ∀ b ∈ bs.head?, b.accepted = 0) (l : Lists) :
    loop c param loss bs assigned l = .ok (app l (total c L S T bs)) := by
  induction bs generalizing assigned l with
  | nil =>
    simp [loop, app, total]
  | cons b bs ih =>
    have hc := hb b (by simp)
    have hT : (T b).isEmpty = false := by simpa using hc.some
    have hpos : 0 < (T b).length := List.length_pos_iff.2 hc.some
    have hS : (S b).isEmpty = false := by
      have := hc.seeds
      cases hh : S b with
      | nil => rw [hh] at this; simp at this; omega
      | cons a m => rfl
    have hR : b.reco.isEmpty = false := by
      have := hc.recos
      cases hh : b.reco with
      | nil => rw [hh] at this; simp at this; omega
      | cons a m => rfl
    have hg : (c.mcmc && decide (0 < b.accepted) && !assigned) = false := by
      cases hcm : c.mcmc with
      | false => rfl
      | true =>
        rcases hm hcm with h | h
        · simp [h]
        · simp [h b (by simp)]
    simp only [loop, hs, Bool.false_eq_true, if_false, hc.seed, hc.truth, hg]
    rw [addEvents_eq loss L hL b (T b) b.reco (S b) (T b) _ hc.recos hc.seeds]
    simp only [hT, hS, hR, Bool.or_false, Bool.not_false, Bool.or_true]
    rw [ih (fun b' hb' => hb b' (by simp [hb'])) true (fun _ => Or.inl rfl)]
    congr 1
    cases h1 : c.covariance <;> cases h2 : c.gof <;> cases h3 : c.circular <;>
      cases h4 : b.gof.samples <;> simp [app, total, addBatch, h1, h2, h3, h4]

/-! ## The table -/

theorem set_new (d : Table) (name : String) (v : List ℝ) (h : name ∉ d.map Prod.fst) :
    Dict.set d name v = d ++ [(name, v)] := by
  induction d with
  | nil => rfl
  | cons p d ih =>
    obtain ⟨k, w⟩ := p
    simp only [List.map_cons, List.mem_cons, not_or] at h
    simp only [Dict.set, List.cons_append]
    rw [if_neg (fun e => h.1 e.symm), ih h.2]

theorem assignAll_ok (m : ℕ) (l df : List (String × List ℝ))
    (hn : ((df ++ l).map Prod.fst).Nodup) (hl : ∀ p ∈ df ++ l, p.2.length = m) :
    assignAll df l = .ok (df ++ l) := by
  induction l generalizing df with
  | nil => simp [assignAll]
  | cons p l ih =>
    obtain ⟨name, v⟩ := p
    have hnew : name ∉ df.map Prod.fst := by
      rw [List.map_append, List.map_cons] at hn
      intro hm
      exact (List.nodup_append.1 hn).2.2 _ hm _ (by simp) rfl
    have ha : assign df name v = .ok (df ++ [(name, v)]) := by
      unfold assign
      cases df with
      | nil => rfl
      | cons q df =>
        obtain ⟨k, w⟩ := q
        have h1 : w.length = m := hl (k, w) (by simp)
        have h2 : v.length = m := hl (name, v) (by simp)
        simp only
        rw [if_neg (by omega), set_new _ _ _ hnew]
    simp only [assignAll, ha]
    rw [ih (df ++ [(name, v)]) (by simpa using hn) (by simpa using hl)]
    simp

/-- Assignments of columns of different lengths are refused. -/
theorem assignAll_error (m : ℕ) (l df : List (String × List ℝ)) (hd : df ≠ [])
    (hm : ∀ p ∈ df, p.2.length = m) (hl : ∃ p ∈ l, p.2.length ≠ m) :
    assignAll df l = .error .valueError := by
  induction l generalizing df with
  | nil => simp at hl
  | cons p l ih =>
    obtain ⟨name, v⟩ := p
    simp only [assignAll]
    cases df with
    | nil => exact absurd rfl hd
    | cons q df =>
      obtain ⟨k, w⟩ := q
      have h1 : w.length = m := hm (k, w) (by simp)
      simp only [assign]
      by_cases hv : v.length = m
      · rw [if_neg (by omega)]
        simp only
        refine ih _ ?_ ?_ ?_
        · simp only [Dict.set]; split <;> simp
        · intro p hp
          have : ∀ (d : Table), (∀ p ∈ d, p.2.length = m) → ∀ p ∈ Dict.set d name v,
              p.2.length = m := by
            intro d
            induction d with
            | nil => intro _ p hp; simp [Dict.set] at hp; rw [hp]; exact hv
            | cons r d ihd =>
              intro hr p hp
              simp only [Dict.set] at hp
              split at hp
              · rcases List.mem_cons.1 hp with rfl | hp
                · exact hv
                · exact hr p (by simp [hp])
              · rcases List.mem_cons.1 hp with rfl | hp
                · exact hr r (by simp)
                · exact ihd (fun p hp => hr p (by simp [hp])) p hp
          exact this _ hm p hp
        · obtain ⟨p, hp, hne⟩ := hl
          rcases List.mem_cons.1 hp with rfl | hp
          · exact absurd hv hne
          · exact ⟨p, hp, hne⟩
      · rw [if_pos (by omega)]

theorem stack_ok (n : ℕ) (rows : List Row) (h : rows ≠ []) (hn : ∀ r ∈ rows, r.length = n) :
    stack rows = .ok rows := by
  cases rows with
  | nil => exact absurd rfl h
  | cons r rs =>
    simp only [stack]
    rw [if_pos]
    rw [List.all_eq_true]
    intro s hs
    simp [hn s (by simp [hs]), hn r (by simp)]

theorem stackAll_ok (l : List (List Row)) (h : ∀ rows ∈ l, stack rows = .ok rows) :
    stackAll l = .ok () := by
  induction l with
  | nil => rfl
  | cons rows l ih =>
    simp only [stackAll, h rows (by simp)]
    exact ih (fun r hr => h r (by simp [hr]))

theorem columnsOf_names (names : List String) (kinds : List (String × List Row)) :
    (columnsOf names kinds).map Prod.fst =
      names.flatMap fun p => kinds.map fun k => p ++ k.1 := by
  unfold columnsOf
  rw [List.map_flatMap]
  have : ∀ k : ℕ, (names.zipIdx k).flatMap (fun p => (kinds.map fun k =>
      (p.1 ++ k.1, column k.2 p.2)).map Prod.fst) = names.flatMap fun p => kinds.map fun k =>
        p ++ k.1 := by
    induction names with
    | nil => intro k; rfl
    | cons a l ih =>
      intro k
      simp only [List.zipIdx_cons, List.flatMap_cons, ih (k + 1)]
      simp
  exact this 0

theorem mem_columnsOf {names : List String} {kinds : List (String × List Row)} {i : ℕ} {p : String}
    (hp : names[i]? = some p) {k : String × List Row} (hk : k ∈ kinds) :
    (p ++ k.1, column k.2 i) ∈ columnsOf names kinds := by
  unfold columnsOf
  rw [List.mem_flatMap]
  exact ⟨(p, i), by rw [List.mem_zipIdx_iff_getElem?]; exact hp, List.mem_map.2 ⟨k, hk, rfl⟩⟩

theorem length_of_columnsOf {names : List String} {kinds : List (String × List Row)} {m : ℕ}
    (h : ∀ k ∈ kinds, k.2.length = m) : ∀ p ∈ columnsOf names kinds, p.2.length = m := by
  intro p hp
  unfold columnsOf at hp
  rw [List.mem_flatMap] at hp
  obtain ⟨q, -, hq⟩ := hp
  obtain ⟨k, hk, rfl⟩ := List.mem_map.1 hq
  simp [column, h k hk]

theorem assignments_names (c : Config) (names : List String) (samples : Bool) (l : Lists) :
    (assignments c names samples l).map Prod.fst = columnNames c names samples := by
  unfold assignments columnNames
  cases c.covariance <;> cases c.gof <;> cases c.circular <;> cases samples <;>
    simp [columnsOf_names]

end Verif.TestData
