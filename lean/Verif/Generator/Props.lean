/-
C20: the multiprocess batch generator.
-/
import Verif.Generator.Lemmas
import Verif.Generator.Ends
import Verif.Generator.Broken

namespace Verif.Generator

variable {E : Type}

/-- C20 (safety, any number of jobs, any schedule). The delivered events together with some
events that have not been delivered are exactly the events of all files, once per repetition:
nothing is delivered twice and nothing is made up. -/
theorem C20_no_duplicates_partial (c : Cfg E) (s : St E) (h : Reach c s) :
    ∃ missing, (s.got.flatten ++ missing).Perm (expected c) := by
  refine ⟨s.finalQ.flatten ++ s.pending ++ aggOut s.agg ++ (List.replicate c.reps
    (s.fileQ.flatMap (fun f => f.getD []) ++ s.loaders.flatMap loaderRaw ++ s.dataQ.flatten ++
      aggRaw s.agg)).flatten, perm_of_countP _ _ fun p => ?_⟩
  rw [← conserve h p]
  simp only [List.countP_append, replicate_flatten_count, outCount, rawCount]
  omega

/-- C20 (any number of jobs, any schedule). Every delivered batch has the requested size,
except that the last one may be smaller, but not empty. -/
theorem C20_batch_sizes (c : Cfg E) (hb : 0 < c.batchSize) (s : St E) (h : Reach c s) :
    (∀ b ∈ s.got.dropLast, b.length = c.batchSize) ∧
    (∀ b ∈ s.got, 0 < b.length ∧ b.length ≤ c.batchSize) := by
  have hi := inv_reach hb h
  by_cases hd : s.agg = .done
  · obtain ⟨h1, h2, -⟩ := hi.last hd
    refine ⟨fun b hbm => ?_, fun b hbm => h2 b (by simp [hbm])⟩
    refine h1 b ?_
    cases hq : s.finalQ with
    | nil => simpa using hbm
    | cons x l =>
      rw [List.dropLast_append_of_ne_nil (by simp)]
      exact List.mem_append_left _ (List.dropLast_subset _ hbm)
  · have h1 := hi.full hd
    exact ⟨fun b hbm => h1 b (List.mem_append_left _ (List.dropLast_subset _ hbm)),
      fun b hbm => by rw [h1 b (by simp [hbm])]; exact ⟨hb, Nat.le_refl _⟩⟩

/-- C20 (one job, any schedule). When the consumer stops, all events of all files have been
delivered, once per repetition, except for fewer than `batchSize` events: those of the last,
incomplete batch. (The full property has no exception; see the `_violated` theorems.) -/
theorem C20_one_job_partial (c : Cfg E) (hb : 0 < c.batchSize) (hj : c.jobs = 1) (s : St E)
    (h : Reach c s) (hd : s.cons = .done) :
    ∃ missing, missing.length < c.batchSize ∧ (s.got.flatten ++ missing).Perm (expected c) := by
  have hi := inv_reach hb h
  obtain ⟨hl, -, hlen⟩ := hi.consumer hd
  refine ⟨s.finalQ.flatten ++ s.pending, by simpa using hlen, perm_of_countP _ _ fun p => ?_⟩
  obtain ⟨h1, h2⟩ := one_rawCount hb hj h hl p
  rw [← conserve h p, h1]
  simp only [List.countP_append, outCount, h2, List.countP_nil]
  omega

/-- C20 (one job, any schedule). When the aggregator has stopped, all events are delivered or
wait in the final queue. -/
theorem C20_one_job_aggregated (c : Cfg E) (hb : 0 < c.batchSize) (hj : c.jobs = 1) (s : St E)
    (h : Reach c s) (hd : s.agg = .done) :
    (s.got.flatten ++ s.finalQ.flatten).Perm (expected c) := by
  have hi := inv_reach hb h
  have hl := hi.ended (Or.inr hd)
  obtain ⟨-, -, hp⟩ := hi.last hd
  refine perm_of_countP _ _ fun p => ?_
  obtain ⟨h1, h2⟩ := one_rawCount hb hj h hl p
  rw [← conserve h p, h1]
  simp only [List.countP_append, outCount, h2, List.countP_nil, hp]
  omega

theorem orders_exist (evs : List E) (n : Nat) : ∃ o, Orders evs n o := by
  induction n with
  | zero => exact ⟨[], .zero⟩
  | succ n ih =>
    obtain ⟨o, ho⟩ := ih
    exact ⟨_, .succ (List.Perm.refl evs) ho⟩

/-- With a loader the flag `processed_all_files` is set when a loader has exited. -/
theorem exit_allDone {c : Cfg E} {s : St E} (h : Reach c s) (hx : .exit ∈ s.loaders) :
    s.allDone = true := by
  induction h with
  | init =>
    have := List.eq_of_mem_replicate hx
    cases this
  | @step s s' _ hs ih =>
    have key : ∀ (t : St E) (i : Nat) (p : LPc E), t.loaders = s.loaders → p ≠ .exit →
        .exit ∈ (t.setLoader i p).loaders → .exit ∈ s.loaders := by
      intro t i p ht hp hm
      rw [St.setLoader, ht] at hm
      rcases List.mem_or_eq_of_mem_set hm with hm | hm
      · exact hm
      · exact absurd hm.symm hp
    cases hs
    case loaderExit i h hd => exact hd
    case loaderEnter i h hd => exact ih (key s i _ rfl (by simp) hx)
    case takeFile i f rest h hq => exact ih (key { s with fileQ := rest } i _ rfl (by simp) hx)
    case takeNone i h hq => exact ih (key s i _ rfl (by simp) hx)
    case loadData i d h => exact ih (key s i _ rfl (by simp) hx)
    case loadNothing i f h hf => exact ih (key s i _ rfl (by simp) hx)
    case putData i d h hr => exact ih (key { s with dataQ := s.dataQ ++ [d] } i _ rfl (by simp) hx)
    case countFile i h =>
      have := ih (key { s with
        count := s.count + 1
        allDone := if s.count + 1 = c.files.length then true else s.allDone } i _ rfl (by simp) hx)
      simp only [St.setLoader, this, ite_self]
    all_goals exact ih hx

/-- C20. The generator can hang in exactly two ways. If no process can act and the consumer has
not stopped, then the consumer waits for a batch on an empty queue, all loaders have exited,
and either the aggregator waits for data although there is none and never will be, or the
aggregator has stopped without the consumer noticing. -/
theorem C20_hang_partial (c : Cfg E) (s : St E) (h : Hangs c s) :
    s.cons = .get ∧ s.finalQ = [] ∧
    ((s.dataQ = [] ∧ (∀ l ∈ s.loaders, l = .exit) ∧
        (s.agg = .get ∨ ∃ n evs, s.agg = .add n evs ∧ wantMore c n evs.length = true)) ∨
      s.agg = .done) := by
  obtain ⟨hs, hc⟩ := h
  have hcons : s.cons = .get ∧ s.finalQ = [] := by
    cases hcs : s.cons with
    | done => exact absurd hcs hc
    | get =>
      refine ⟨rfl, ?_⟩
      cases hq : s.finalQ with
      | nil => rfl
      | cons b rest => exact absurd (.consGet s b rest hcs hq) (hs _)
    | test =>
      cases hl : s.left with
      | true => exact absurd (.consGo s hcs (Or.inl hl)) (hs _)
      | false =>
        by_cases hq : s.finalQ = []
        · exact absurd (.consStop s hcs hl hq) (hs _)
        · exact absurd (.consGo s hcs (Or.inr hq)) (hs _)
  refine ⟨hcons.1, hcons.2, ?_⟩
  have hroom : room c.batchCap s.finalQ := by
    rw [hcons.2]; unfold room; simp only [List.length_nil]; omega
  have hload : s.dataQ = [] → ∀ l ∈ s.loaders, l = .exit := by
    intro hq l hl
    obtain ⟨i, hi⟩ := List.getElem?_of_mem hl
    have hr : room c.fileCap s.dataQ := by
      rw [hq]; unfold room; simp only [List.length_nil]; omega
    cases l with
    | exit => rfl
    | test =>
      cases hd : s.allDone with
      | true => exact absurd (.loaderExit s i hi hd) (hs _)
      | false => exact absurd (.loaderEnter s i hi hd) (hs _)
    | take =>
      cases hf : s.fileQ with
      | nil => exact absurd (.takeNone s i hi hf) (hs _)
      | cons f rest => exact absurd (.takeFile s i f rest hi hf) (hs _)
    | load f =>
      match f with
      | none => exact absurd (.loadNothing s i none hi (Or.inl rfl)) (hs _)
      | some none => exact absurd (.loadNothing s i (some none) hi (Or.inr rfl)) (hs _)
      | some (some d) => exact absurd (.loadData s i d hi) (hs _)
    | put d => exact absurd (.putData s i d hi hr) (hs _)
    | count => exact absurd (.countFile s i hi) (hs _)
  cases ha : s.agg with
  | done => exact Or.inr rfl
  | start => exact absurd (.aggStart s ha) (hs _)
  | loop =>
    cases hl : s.left with
    | true => exact absurd (.aggLoop s ha hl) (hs _)
    | false => exact absurd (.aggEnd s ha hl) (hs _)
  | get =>
    cases hq : s.dataQ with
    | nil => exact Or.inl ⟨rfl, hload hq, Or.inl rfl⟩
    | cons d rest => exact absurd (.aggGet s d rest ha hq) (hs _)
  | add n evs =>
    obtain ⟨o, ho⟩ := orders_exist evs c.reps
    cases hw : wantMore c n evs.length with
    | false => exact absurd (.aggOrder s n evs o ha (Or.inl hw) ho) (hs _)
    | true =>
      cases hl : s.left with
      | false => exact absurd (.aggOrder s n evs o ha (Or.inr hl) ho) (hs _)
      | true =>
        cases hq : s.dataQ with
        | nil => exact Or.inl ⟨rfl, hload hq, Or.inr ⟨n, evs, rfl, hw⟩⟩
        | cons d rest => exact absurd (.aggAdd s n evs d rest ha hw hl hq) (hs _)
  | emit evs =>
    cases evs with
    | nil => exact absurd (.aggEmitted s ha) (hs _)
    | cons e rest =>
      by_cases hb : s.pending.length + 1 = c.batchSize
      · exact absurd (.aggBatch s e rest ha hb hroom) (hs _)
      · exact absurd (.aggEvent s e rest ha hb) (hs _)
  | check => exact absurd (.aggCheck s ha) (hs _)
  | leftover =>
    by_cases hp : s.pending = []
    · exact absurd (.aggNoLeftover s ha hp) (hs _)
    · exact absurd (.aggLeftover s ha hp hroom) (hs _)

/-! ### a schedule that delivers everything -/

/-- The aggregator works through `evs` while the consumer takes every finished batch. -/
theorem emit_all (c : Cfg E) (hb : 0 < c.batchSize) (evs : List E) (s : St E) (h : Reach c s)
    (ha : s.agg = .emit evs) (hq : s.finalQ = []) (hc : s.cons = .test) (hl : s.left = true)
    (hp : s.pending.length < c.batchSize) :
    ∃ P G, P.length < c.batchSize ∧ G.flatten ++ P = s.got.flatten ++ s.pending ++ evs ∧
      Reach c { s with agg := .check, pending := P, got := G } := by
  induction evs generalizing s with
  | nil =>
    refine ⟨s.pending, s.got, hp, by simp, ?_⟩
    exact .step h (.aggEmitted s ha)
  | cons e rest ih =>
    by_cases hf : s.pending.length + 1 = c.batchSize
    · have r1 := Reach.step h (.aggBatch s e rest ha hf (by rw [hq]; unfold room; simp only [List.length_nil]; omega))
      have r2 := Reach.step r1 (.consGo _ hc (Or.inl hl))
      have r3 := Reach.step r2 (.consGet _ (s.pending ++ [e]) [] rfl (by rw [hq]; rfl))
      obtain ⟨P, G, h1, h2, h3⟩ := ih _ r3 rfl rfl rfl hl (by simpa using hb)
      refine ⟨P, G, h1, ?_, ?_⟩
      · rw [h2]; simp
      · cases s
        simp only at hq hc hl h3 ⊢
        subst hq; subst hc; subst hl
        exact h3
    · have r1 := Reach.step h (.aggEvent s e rest ha hf)
      obtain ⟨P, G, h1, h2, h3⟩ := ih _ r1 rfl hq hc hl (by simp; omega)
      refine ⟨P, G, h1, ?_, h3⟩
      rw [h2]; simp

/-- The state between two files. -/
def between (c : Cfg E) (k : Nat) (a : APc E) (P : List E) (G : List (List E)) : St E :=
  { fileQ := c.files.drop k, loaders := [.test], count := k, allDone := decide (k = c.files.length),
    dataQ := [], left := true, agg := a, pending := P, finalQ := [], cons := .test, got := G }

theorem one_file (c : Cfg E) (hb : 0 < c.batchSize) (hadd : c.numAdd = 0) (hreps : c.reps = 1)
    (k : Nat) (hk : k < c.files.length) (a : APc E) (ha : a = .start ∨ a = .check) (P : List E)
    (G : List (List E)) (hp : P.length < c.batchSize) (h : Reach c (between c k a P G)) :
    ∃ a' P' G', (a' = .start ∨ a' = .check) ∧ P'.length < c.batchSize ∧
      G'.flatten ++ P' = G.flatten ++ P ++ (c.files[k]).getD [] ∧
      Reach c (between c (k + 1) a' P' G') := by
  have hd : (between c k a P G).allDone = false := by
    simp only [between, decide_eq_false_iff_not]; omega
  have r1 := Reach.step h (.loaderEnter _ 0 rfl hd)
  have r2 := Reach.step r1 (.takeFile _ 0 c.files[k] (c.files.drop (k + 1)) rfl
    (by simp only [between, St.setLoader]; exact List.drop_eq_getElem_cons hk))
  have hcount : (if k + 1 = c.files.length then true else (decide (k = c.files.length))) =
      decide (k + 1 = c.files.length) := by
    by_cases h : k + 1 = c.files.length
    · simp [h]
    · rw [if_neg h, decide_eq_false h, decide_eq_false (by omega)]
  cases hf : c.files[k] with
  | none =>
    rw [hf] at r2
    have r3 := Reach.step r2 (.loadNothing _ 0 (some none) rfl (Or.inr rfl))
    have r4 := Reach.step r3 (.countFile _ 0 rfl)
    refine ⟨a, P, G, ha, hp, by simp, ?_⟩
    have r5 : Reach c { (between c (k + 1) a P G) with
        allDone := if k + 1 = c.files.length then true else decide (k = c.files.length) } := r4
    rw [hcount] at r5
    exact r5
  | some d =>
    rw [hf] at r2
    have r3 := Reach.step r2 (.loadData _ 0 d rfl)
    have r4 := Reach.step r3 (.putData _ 0 d rfl (by unfold room; simp only [between, St.setLoader, List.length_nil]; omega))
    have r5 := Reach.step r4 (.countFile _ 0 rfl)
    have r5 : Reach c { (between c (k + 1) a P G) with
        dataQ := [d]
        allDone := if k + 1 = c.files.length then true else decide (k = c.files.length) } := r5
    rw [hcount] at r5
    have r6 : Reach c { (between c (k + 1) .loop P G) with dataQ := [d] } := by
      rcases ha with rfl | rfl
      · have := Reach.step r5 (.aggStart _ rfl)
        simpa [between] using this
      · have := Reach.step r5 (.aggCheck _ rfl)
        simpa [between] using this
    have r7 := Reach.step r6 (.aggLoop _ rfl rfl)
    have r8 := Reach.step r7 (.aggGet _ d [] rfl rfl)
    have r9 := Reach.step r8 (.aggOrder _ 0 d (d ++ []) rfl
      (Or.inl (by simp [wantMore, hadd, hreps])) (by
        rw [hreps]; exact .succ (List.Perm.refl d) .zero))
    obtain ⟨P', G', h1, h2, h3⟩ := emit_all c hb _ _ r9 rfl rfl rfl rfl hp
    refine ⟨.check, P', G', Or.inr rfl, h1, ?_, h3⟩
    rw [h2]; simp [between]

theorem files_prefix (c : Cfg E) (hb : 0 < c.batchSize) (hj : c.jobs = 1) (hadd : c.numAdd = 0)
    (hreps : c.reps = 1) (hfiles : c.files ≠ []) (k : Nat) (hk : k ≤ c.files.length) :
    ∃ a P G, (a = .start ∨ a = .check) ∧ P.length < c.batchSize ∧
      G.flatten ++ P = (c.files.take k).flatMap (fun f => f.getD []) ∧
      Reach c (between c k a P G) := by
  induction k with
  | zero =>
    refine ⟨.start, [], [], Or.inl rfl, hb, rfl, ?_⟩
    have : between c 0 .start [] [] = init c := by
      have hpos : ¬ (0 = c.files.length) := fun e => hfiles (List.length_eq_zero_iff.1 e.symm)
      simp [between, init, hj, hpos]
    rw [this]
    exact .init
  | succ k ih =>
    obtain ⟨a, P, G, h1, h2, h3, h4⟩ := ih (by omega)
    obtain ⟨a', P', G', h5, h6, h7, h8⟩ := one_file c hb hadd hreps k (by omega) a h1 P G h2 h4
    refine ⟨a', P', G', h5, h6, ?_, h8⟩
    rw [h7, h3, List.take_succ_eq_append_getElem (by omega : k < c.files.length), List.flatMap_append]
    simp

/-- C20. For every list of files there is a schedule with one job in which the consumer stops
after it has received all events, in file order. So the theorems above are not about an
empty set of executions. -/
theorem C20_some_schedule_delivers_all (c : Cfg E) (hb : 0 < c.batchSize) (hj : c.jobs = 1)
    (hadd : c.numAdd = 0) (hreps : c.reps = 1) (hfiles : c.files ≠ []) :
    ∃ s, Reach c s ∧ s.cons = .done ∧ s.agg = .done ∧ s.got.flatten = allEvents c := by
  obtain ⟨a, P, G, h1, h2, h3, h4⟩ := files_prefix c hb hj hadd hreps hfiles _ (Nat.le_refl _)
  rw [List.take_length] at h3
  have r1 : Reach c { (between c c.files.length .loop P G) with left := false } := by
    rcases h1 with rfl | rfl
    · have := Reach.step h4 (.aggStart _ rfl)
      simpa [between] using this
    · have := Reach.step h4 (.aggCheck _ rfl)
      simpa [between] using this
  have r2 := Reach.step r1 (.aggEnd _ rfl rfl)
  by_cases hp : P = []
  · subst hp
    have r3 := Reach.step r2 (.aggNoLeftover _ rfl rfl)
    have r4 := Reach.step r3 (.consStop _ rfl rfl rfl)
    exact ⟨_, r4, rfl, rfl, by simpa [between, allEvents] using h3⟩
  · have r3 := Reach.step r2 (.aggLeftover _ rfl hp (by
      unfold room; simp only [between, List.length_nil]; omega))
    have r4 := Reach.step r3 (.consGo _ rfl (Or.inr (by simp [between])))
    have r5 := Reach.step r4 (.consGet _ P [] rfl rfl)
    have r6 := Reach.step r5 (.consStop _ rfl rfl rfl)
    exact ⟨_, r6, rfl, rfl, by simpa [between, allEvents] using h3⟩

/-! ### executions in which C20 fails -/

/-- Loader states as a Boolean, to decide that all have exited. -/
def LPc.isExit : LPc E → Bool
  | .exit => true
  | _ => false

/-- No process can act if all loaders have exited, the aggregator has stopped or waits on an empty
queue, and so has or does the consumer. -/
theorem stuck_intro (c : Cfg E) (s : St E) (hl : s.loaders.all LPc.isExit = true)
    (ha : s.agg = .done ∨ (s.agg = .get ∧ s.dataQ = []))
    (hc : s.cons = .done ∨ (s.cons = .get ∧ s.finalQ = [])) : Stuck c s := by
  intro s' h
  have hx : ∀ (i : Nat) l, s.loaders[i]? = some l → l = .exit := by
    intro i l h
    have := List.all_eq_true.1 hl l (List.mem_of_getElem? h)
    cases l <;> first | rfl | cases this
  cases h
  case loaderExit i h hd => cases hx i _ h
  case loaderEnter i h hd => cases hx i _ h
  case takeFile i f rest h hq => cases hx i _ h
  case takeNone i h hq => cases hx i _ h
  case loadData i d h => cases hx i _ h
  case loadNothing i f h hf => cases hx i _ h
  case putData i d h hr => cases hx i _ h
  case countFile i h => cases hx i _ h
  case consGo h hl => rcases hc with e | ⟨e, -⟩ <;> rw [h] at e <;> cases e
  case consStop h hl hq => rcases hc with e | ⟨e, -⟩ <;> rw [h] at e <;> cases e
  case consGet b rest h hq =>
    rcases hc with e | ⟨-, e⟩
    · rw [h] at e; cases e
    · rw [hq] at e; cases e
  case aggGet d rest h hq =>
    rcases ha with e | ⟨-, e⟩
    · rw [h] at e; cases e
    · rw [hq] at e; cases e
  case aggStart h => rcases ha with e | ⟨e, -⟩ <;> rw [h] at e <;> cases e
  case aggLoop h _ => rcases ha with e | ⟨e, -⟩ <;> rw [h] at e <;> cases e
  case aggEnd h _ => rcases ha with e | ⟨e, -⟩ <;> rw [h] at e <;> cases e
  case aggAdd h _ _ _ => rcases ha with e | ⟨e, -⟩ <;> rw [h] at e <;> cases e
  case aggOrder h _ _ => rcases ha with e | ⟨e, -⟩ <;> rw [h] at e <;> cases e
  case aggEvent h _ => rcases ha with e | ⟨e, -⟩ <;> rw [h] at e <;> cases e
  case aggBatch h _ _ => rcases ha with e | ⟨e, -⟩ <;> rw [h] at e <;> cases e
  case aggEmitted h => rcases ha with e | ⟨e, -⟩ <;> rw [h] at e <;> cases e
  case aggCheck h => rcases ha with e | ⟨e, -⟩ <;> rw [h] at e <;> cases e
  case aggNoLeftover h _ => rcases ha with e | ⟨e, -⟩ <;> rw [h] at e <;> cases e
  case aggLeftover h _ _ => rcases ha with e | ⟨e, -⟩ <;> rw [h] at e <;> cases e

/-- C20 is violated: with two jobs a file is lost although all processes stop regularly. The
first loader finds the file queue empty and counts this as a processed file. -/
theorem C20_two_jobs_lose_file_violated :
    ∃ (c : Cfg Nat) (s : St Nat), c.jobs = 2 ∧ c.batchSize = 1 ∧ c.reps = 1 ∧ c.numAdd = 0 ∧
      Reach c s ∧ Stuck c s ∧ s.cons = .done ∧ s.agg = .done ∧
      allEvents c = [1, 2] ∧ s.got = [[1]] := by
  let c : Cfg Nat := { files := [some [1], some [2]], jobs := 2, batchSize := 1, numAdd := 0, reps := 1, fileCap := 1, batchCap := 5 }
  have r := Reach.init (c := c)
  have r := Reach.step r (.loaderEnter _ 0 rfl rfl)
  have r := Reach.step r (.takeFile _ 0 _ _ rfl rfl)
  have r := Reach.step r (.loaderEnter _ 1 rfl rfl)
  have r := Reach.step r (.takeFile _ 1 _ _ rfl rfl)
  have r := Reach.step r (.loadData _ 0 _ rfl)
  have r := Reach.step r (.putData _ 0 _ rfl (Or.inr (by decide)))
  have r := Reach.step r (.aggStart _ rfl)
  have r := Reach.step r (.aggLoop _ rfl rfl)
  have r := Reach.step r (.aggGet _ _ _ rfl rfl)
  have r := Reach.step r (.aggOrder _ _ _ ([1] ++ []) rfl (Or.inl (by decide)) (.succ (List.Perm.refl _) .zero))
  have r := Reach.step r (.aggBatch _ _ _ rfl rfl (Or.inr (by decide)))
  have r := Reach.step r (.aggEmitted _ rfl)
  have r := Reach.step r (.consGo _ rfl (Or.inl rfl))
  have r := Reach.step r (.consGet _ _ _ rfl rfl)
  have r : Reach c { fileQ := [], loaders := [.count, .load (some (some [2]))], count := 0, allDone := false, dataQ := [], left := true, agg := .check, pending := [], finalQ := [], cons := .test, got := [[1]] } := r
  have r := Reach.step r (.countFile _ 0 rfl)
  have r := Reach.step r (.loaderEnter _ 0 rfl rfl)
  have r := Reach.step r (.takeNone _ 0 rfl rfl)
  have r := Reach.step r (.loadNothing _ 0 _ rfl (Or.inl rfl))
  have r := Reach.step r (.countFile _ 0 rfl)
  have r := Reach.step r (.loaderExit _ 0 rfl rfl)
  have r := Reach.step r (.aggCheck _ rfl)
  have r := Reach.step r (.aggEnd _ rfl rfl)
  have r := Reach.step r (.aggNoLeftover _ rfl rfl)
  have r := Reach.step r (.consStop _ rfl rfl rfl)
  have r : Reach c { fileQ := [], loaders := [.exit, .load (some (some [2]))], count := 2, allDone := true, dataQ := [], left := false, agg := .done, pending := [], finalQ := [], cons := .done, got := [[1]] } := r
  have r := Reach.step r (.loadData _ 1 _ rfl)
  have r := Reach.step r (.putData _ 1 _ rfl (Or.inr (by decide)))
  have r := Reach.step r (.countFile _ 1 rfl)
  have r := Reach.step r (.loaderExit _ 1 rfl rfl)
  refine ⟨c, _, rfl, rfl, rfl, rfl, r, ?_, rfl, rfl, rfl, rfl⟩
  exact stuck_intro _ _ rfl (Or.inl rfl) (Or.inl rfl)

/-- C20 is violated: with one job the consumer can stop before the incomplete last batch is
put on the queue, and its events are lost. -/
theorem C20_leftover_lost_violated :
    ∃ (c : Cfg Nat) (s : St Nat), c.jobs = 1 ∧ c.reps = 1 ∧ c.numAdd = 0 ∧
      Reach c s ∧ Stuck c s ∧ s.cons = .done ∧ s.agg = .done ∧ allEvents c = [1] ∧ s.got = [] := by
  let c : Cfg Nat := { files := [some [1]], jobs := 1, batchSize := 2, numAdd := 0, reps := 1, fileCap := 1, batchCap := 5 }
  have r := Reach.init (c := c)
  have r := Reach.step r (.loaderEnter _ 0 rfl rfl)
  have r := Reach.step r (.takeFile _ 0 _ _ rfl rfl)
  have r := Reach.step r (.loadData _ 0 _ rfl)
  have r := Reach.step r (.putData _ 0 _ rfl (Or.inr (by decide)))
  have r := Reach.step r (.countFile _ 0 rfl)
  have r := Reach.step r (.loaderExit _ 0 rfl rfl)
  have r := Reach.step r (.aggStart _ rfl)
  have r := Reach.step r (.aggLoop _ rfl rfl)
  have r := Reach.step r (.aggGet _ _ _ rfl rfl)
  have r := Reach.step r (.aggOrder _ _ _ ([1] ++ []) rfl (Or.inl (by decide)) (.succ (List.Perm.refl _) .zero))
  have r := Reach.step r (.aggEvent _ _ _ rfl (by decide))
  have r := Reach.step r (.aggEmitted _ rfl)
  have r := Reach.step r (.aggCheck _ rfl)
  have r := Reach.step r (.consStop _ rfl rfl rfl)
  have r := Reach.step r (.aggEnd _ rfl rfl)
  have r := Reach.step r (.aggLeftover _ rfl (by decide) (Or.inr (by decide)))
  refine ⟨c, _, rfl, rfl, rfl, r, ?_, rfl, rfl, rfl, rfl⟩
  exact stuck_intro _ _ rfl (Or.inl rfl) (Or.inl rfl)

/-- C20 is violated: with one job the aggregator can look for more data before the loader has
counted its last file. It then waits forever, the last events stay in its incomplete batch, and
the consumer waits forever. -/
theorem C20_aggregator_hangs_violated :
    ∃ (c : Cfg Nat) (s : St Nat), c.jobs = 1 ∧ c.reps = 1 ∧ c.numAdd = 0 ∧
      Reach c s ∧ Hangs c s ∧ allEvents c = [1] ∧ s.got = [] := by
  let c : Cfg Nat := { files := [some [1]], jobs := 1, batchSize := 2, numAdd := 0, reps := 1, fileCap := 1, batchCap := 5 }
  have r := Reach.init (c := c)
  have r := Reach.step r (.loaderEnter _ 0 rfl rfl)
  have r := Reach.step r (.takeFile _ 0 _ _ rfl rfl)
  have r := Reach.step r (.loadData _ 0 _ rfl)
  have r := Reach.step r (.putData _ 0 _ rfl (Or.inr (by decide)))
  have r := Reach.step r (.aggStart _ rfl)
  have r := Reach.step r (.aggLoop _ rfl rfl)
  have r := Reach.step r (.aggGet _ _ _ rfl rfl)
  have r := Reach.step r (.aggOrder _ _ _ ([1] ++ []) rfl (Or.inl (by decide)) (.succ (List.Perm.refl _) .zero))
  have r := Reach.step r (.aggEvent _ _ _ rfl (by decide))
  have r := Reach.step r (.aggEmitted _ rfl)
  have r := Reach.step r (.aggCheck _ rfl)
  have r := Reach.step r (.aggLoop _ rfl rfl)
  have r := Reach.step r (.countFile _ 0 rfl)
  have r := Reach.step r (.loaderExit _ 0 rfl rfl)
  have r := Reach.step r (.consGo _ rfl (Or.inl rfl))
  refine ⟨c, _, rfl, rfl, rfl, r, ⟨?_, by decide⟩, rfl, rfl⟩
  exact stuck_intro _ _ rfl (Or.inr ⟨rfl, rfl⟩) (Or.inr ⟨rfl, rfl⟩)

/-- C20 is violated: with one job the consumer can wait for another batch after the aggregator
has stopped. All events were delivered, but the consumer never stops. -/
theorem C20_consumer_hangs_violated :
    ∃ (c : Cfg Nat) (s : St Nat), c.jobs = 1 ∧ c.reps = 1 ∧ c.numAdd = 0 ∧
      Reach c s ∧ Hangs c s ∧ allEvents c = [1] ∧ s.got = [[1]] := by
  let c : Cfg Nat := { files := [some [1]], jobs := 1, batchSize := 1, numAdd := 0, reps := 1, fileCap := 1, batchCap := 5 }
  have r := Reach.init (c := c)
  have r := Reach.step r (.loaderEnter _ 0 rfl rfl)
  have r := Reach.step r (.takeFile _ 0 _ _ rfl rfl)
  have r := Reach.step r (.loadData _ 0 _ rfl)
  have r := Reach.step r (.putData _ 0 _ rfl (Or.inr (by decide)))
  have r := Reach.step r (.aggStart _ rfl)
  have r := Reach.step r (.aggLoop _ rfl rfl)
  have r := Reach.step r (.aggGet _ _ _ rfl rfl)
  have r := Reach.step r (.aggOrder _ _ _ ([1] ++ []) rfl (Or.inl (by decide)) (.succ (List.Perm.refl _) .zero))
  have r := Reach.step r (.aggBatch _ _ _ rfl rfl (Or.inr (by decide)))
  have r := Reach.step r (.aggEmitted _ rfl)
  have r := Reach.step r (.consGo _ rfl (Or.inl rfl))
  have r := Reach.step r (.consGet _ _ _ rfl rfl)
  have r := Reach.step r (.consGo _ rfl (Or.inl rfl))
  have r := Reach.step r (.countFile _ 0 rfl)
  have r := Reach.step r (.loaderExit _ 0 rfl rfl)
  have r := Reach.step r (.aggCheck _ rfl)
  have r := Reach.step r (.aggEnd _ rfl rfl)
  have r := Reach.step r (.aggNoLeftover _ rfl rfl)
  refine ⟨c, _, rfl, rfl, rfl, r, ⟨?_, by decide⟩, rfl, rfl⟩
  exact stuck_intro _ _ rfl (Or.inl rfl) (Or.inr ⟨rfl, rfl⟩)

/-- A loader holds a file that it may still put on the queue. -/
def holds : LPc E → Nat
  | .load (some _) => 1
  | .put _ => 1
  | _ => 0

/-- An upper bound for the number of files the aggregator can still get. -/
def available (s : St E) : Nat :=
  s.fileQ.length + (s.loaders.map holds).sum + s.dataQ.length

theorem set_sum {α : Type} (l : List α) (i : Nat) (a b : α) (f : α → Nat) (h : l[i]? = some a) :
    ((l.set i b).map f).sum + f a = (l.map f).sum + f b := by
  induction l generalizing i with
  | nil => simp at h
  | cons x l ih =>
    cases i with
    | zero =>
      simp only [List.getElem?_cons_zero, Option.some.injEq] at h
      subst h
      simp only [List.set_cons_zero, List.map_cons, List.sum_cons]
      omega
    | succ i =>
      have := ih i (by simpa using h)
      simp only [List.set_cons_succ, List.map_cons, List.sum_cons]
      omega

/-- The invariant of the first pass if `num_add_files` is too large. -/
structure AddInv (c : Cfg E) (s : St E) : Prop where
  empty : s.pending = [] ∧ s.finalQ = [] ∧ s.got = []
  agg : (available s ≤ c.files.length ∧
      (s.agg = .start ∨ s.agg = .loop ∨ s.agg = .get ∨ s.agg = .leftover ∨ s.agg = .done)) ∨
    ∃ n evs, s.agg = .add n evs ∧ s.left = true ∧ available s + (n + 1) ≤ c.files.length
  get : s.agg = .get → s.left = true

theorem addInv_step {c : Cfg E} (hadd : c.files.length ≤ c.numAdd) {s s' : St E} (h : Step c s s')
    (i : AddInv c s) : AddInv c s' := by
  obtain ⟨⟨h1, h2, h3⟩, h4, h5⟩ := i
  -- a step of a loader does not change the aggregator and does not add files
  have key : ∀ t : St E, t.pending = s.pending → t.finalQ = s.finalQ → t.got = s.got →
      t.agg = s.agg → t.left = s.left → available t ≤ available s → AddInv c t := by
    intro t a b d e f g
    refine ⟨by rw [a, b, d]; exact ⟨h1, h2, h3⟩, ?_, by rw [e, f]; exact h5⟩
    rw [e, f]
    rcases h4 with ⟨h, h'⟩ | ⟨n, evs, h, h', h''⟩
    · exact Or.inl ⟨by omega, h'⟩
    · exact Or.inr ⟨n, evs, h, h', by omega⟩
  have agg1 : ∀ a, s.agg = a → (∀ n evs, a ≠ .add n evs) → available s ≤ c.files.length := by
    intro a ha hn
    rcases h4 with ⟨h, -⟩ | ⟨n, evs, h, -, -⟩
    · exact h
    · rw [ha] at h; exact absurd h (hn n evs)
  cases h
  case loaderExit i h hd =>
    have := set_sum s.loaders i _ .exit holds h
    refine key _ rfl rfl rfl rfl rfl ?_
    simp only [available, St.setLoader, holds] at *; omega
  case loaderEnter i h hd =>
    have := set_sum s.loaders i _ .take holds h
    refine key _ rfl rfl rfl rfl rfl ?_
    simp only [available, St.setLoader, holds] at *; omega
  case takeFile i f rest h hq =>
    have := set_sum s.loaders i _ (.load (some f)) holds h
    refine key _ rfl rfl rfl rfl rfl ?_
    simp only [available, St.setLoader, holds, hq, List.length_cons] at *; omega
  case takeNone i h hq =>
    have := set_sum s.loaders i _ (.load none) holds h
    refine key _ rfl rfl rfl rfl rfl ?_
    simp only [available, St.setLoader, holds] at *; omega
  case loadData i d h =>
    have := set_sum s.loaders i _ (.put d) holds h
    refine key _ rfl rfl rfl rfl rfl ?_
    simp only [available, St.setLoader, holds] at *; omega
  case loadNothing i f h hf =>
    have := set_sum s.loaders i _ .count holds h
    refine key _ rfl rfl rfl rfl rfl ?_
    simp only [available, St.setLoader, holds] at *; omega
  case putData i d h hr =>
    have := set_sum s.loaders i _ .count holds h
    refine key _ rfl rfl rfl rfl rfl ?_
    simp only [available, St.setLoader, holds, List.length_append, List.length_cons, List.length_nil] at *
    omega
  case countFile i h =>
    have := set_sum s.loaders i _ .test holds h
    refine key _ rfl rfl rfl rfl rfl ?_
    simp only [available, St.setLoader, holds] at *; omega
  case aggStart h =>
    exact ⟨⟨h1, h2, h3⟩, Or.inl ⟨agg1 _ h (by simp), by simp⟩, fun e => by cases e⟩
  case aggLoop h hl =>
    exact ⟨⟨h1, h2, h3⟩, Or.inl ⟨agg1 _ h (by simp), by simp⟩, fun _ => hl⟩
  case aggEnd h hl =>
    exact ⟨⟨h1, h2, h3⟩, Or.inl ⟨agg1 _ h (by simp), by simp⟩, fun e => by cases e⟩
  case aggGet d rest h hq =>
    have := agg1 _ h (by simp)
    refine ⟨⟨h1, h2, h3⟩, Or.inr ⟨0, d, rfl, h5 h, ?_⟩, fun e => by cases e⟩
    simp only [available, hq, List.length_cons] at *; omega
  case aggAdd n evs d rest h hw hl hq =>
    rcases h4 with ⟨-, h'⟩ | ⟨n', evs', h', -, h''⟩
    · rw [h] at h'; simp at h'
    · rw [h] at h'; cases h'
      refine ⟨⟨h1, h2, h3⟩, Or.inr ⟨n + 1, _, rfl, hl, ?_⟩, fun e => by cases e⟩
      simp only [available, hq, List.length_cons] at *; omega
  case aggOrder n evs stream h hw ho =>
    rcases h4 with ⟨-, h'⟩ | ⟨n', evs', h', hl, h''⟩
    · rw [h] at h'; simp at h'
    · rw [h] at h'; cases h'
      rcases hw with hw | hw
      · simp only [wantMore, Bool.or_eq_false_iff, decide_eq_false_iff_not] at hw
        omega
      · rw [hw] at hl; cases hl
  case aggEvent e rest h hb =>
    rcases h4 with ⟨-, h'⟩ | ⟨n', evs', h', -, -⟩ <;> rw [h] at h' <;> simp at h'
  case aggBatch e rest h hb hr =>
    rcases h4 with ⟨-, h'⟩ | ⟨n', evs', h', -, -⟩ <;> rw [h] at h' <;> simp at h'
  case aggEmitted h =>
    rcases h4 with ⟨-, h'⟩ | ⟨n', evs', h', -, -⟩ <;> rw [h] at h' <;> simp at h'
  case aggCheck h =>
    rcases h4 with ⟨-, h'⟩ | ⟨n', evs', h', -, -⟩ <;> rw [h] at h' <;> simp at h'
  case aggNoLeftover h hp =>
    exact ⟨⟨h1, h2, h3⟩, Or.inl ⟨agg1 _ h (by simp), by simp⟩, fun e => by cases e⟩
  case aggLeftover h hp hr => exact absurd h1 hp
  case consGo h hl => exact ⟨⟨h1, h2, h3⟩, h4, h5⟩
  case consStop h hl hq => exact ⟨⟨h1, h2, h3⟩, h4, h5⟩
  case consGet b rest h hq => rw [h2] at hq; cases hq

/-- C20 is violated for every schedule, every number of jobs and all files: if `num_add_files` is
at least the number of files, nothing is ever delivered. -/
theorem C20_too_many_add_files_violated (c : Cfg E) (hadd : c.files.length ≤ c.numAdd) (s : St E)
    (h : Reach c s) : s.got = [] := by
  have : AddInv c s := by
    induction h with
    | init =>
      refine ⟨⟨rfl, rfl, rfl⟩, Or.inl ⟨?_, Or.inl rfl⟩, fun e => by cases e⟩
      simp [available, init, holds]
    | step _ hs ih => exact addInv_step hadd hs ih
  exact this.empty.2.2

/-- With no files at all the consumer never stops. -/
theorem C20_no_files_violated (c : Cfg E) (hf : c.files = []) (s : St E) (h : Reach c s) :
    s.cons ≠ .done ∧ s.got = [] := by
  refine ⟨?_, C20_too_many_add_files_violated c (by simp [hf]) s h⟩
  have : s.allDone = false ∧ s.left = true ∧ s.cons ≠ .done := by
    induction h with
    | init => exact ⟨rfl, rfl, by simp [init]⟩
    | step _ hs ih =>
      obtain ⟨a, b, d⟩ := ih
      cases hs
      case loaderExit i h hd => rw [a] at hd; cases hd
      case countFile i h => exact ⟨by simp [St.setLoader, hf, a], b, d⟩
      case aggStart h => exact ⟨a, by simp [a, b], d⟩
      case aggCheck h => exact ⟨a, by simp [a, b], d⟩
      case consGo h hl => exact ⟨a, b, by simp⟩
      case consStop h hl hq => rw [b] at hl; cases hl
      case consGet b' rest h hq => exact ⟨a, b, by simp⟩
      all_goals exact ⟨a, b, d⟩
  exact this.2.2

/-- C20. Every schedule of a run on at least one file comes to an end: there is no infinite sequence of actions,
whatever the number of jobs, the sizes and the capacities. -/
theorem C20_ends (c : Cfg E) (hf : c.files ≠ []) (run : Nat → St E) (h0 : run 0 = init c) :
    ∃ t, ¬ Step c (run t) (run (t + 1)) :=
  ends hf run h0

/-- C20. At the end the consumer has stopped, or it waits on an empty queue and nobody will ever put anything
there. -/
theorem C20_end_state (c : Cfg E) (hf : c.files ≠ []) (s : St E) (h : Reach c s) :
    ∃ s', Relation.ReflTransGen (Step c) s s' ∧ Stuck c s' ∧
      (s'.cons = .done ∨
        (s'.cons = .get ∧ s'.finalQ = [] ∧
          ((s'.dataQ = [] ∧ (∀ l ∈ s'.loaders, l = .exit) ∧
              (s'.agg = .get ∨ ∃ n evs, s'.agg = .add n evs ∧ wantMore c n evs.length = true)) ∨
            s'.agg = .done))) := by
  obtain ⟨s', h1, -, h3⟩ := stuck_reachable hf h
  refine ⟨s', h1, h3, ?_⟩
  by_cases hd : s'.cons = .done
  · exact Or.inl hd
  · exact Or.inr (C20_hang_partial c s' ⟨h3, hd⟩)

/-- With no files `C20_ends` fails: the loaders ask for files for ever. -/
theorem C20_no_files_busy_violated : ∃ (c : Cfg Nat) (run : Nat → St Nat), c.files = [] ∧ run 0 = init c ∧
    ∀ t, Step c (run t) (run (t + 1)) := by
  let c : Cfg Nat := { files := [], jobs := 1, batchSize := 1, numAdd := 0, reps := 1, fileCap := 1, batchCap := 5 }
  let at_ : Nat → LPc Nat → St Nat := fun k p => { init c with loaders := [p], count := k }
  let run : Nat → St Nat := fun t =>
    at_ (t / 4) (if t % 4 = 0 then .test else if t % 4 = 1 then .take else if t % 4 = 2 then .load none else .count)
  refine ⟨c, run, rfl, rfl, fun t => ?_⟩
  obtain ⟨q, r, hr, rfl⟩ : ∃ q r, r < 4 ∧ t = 4 * q + r := ⟨t / 4, t % 4, by omega, by omega⟩
  have e1 : (4 * q + r) / 4 = q := by omega
  have e2 : (4 * q + r) % 4 = r := by omega
  rcases (show r = 0 ∨ r = 1 ∨ r = 2 ∨ r = 3 by omega) with rfl | rfl | rfl | rfl
  · have e3 : (4 * q + 0 + 1) / 4 = q := by omega
    have e4 : (4 * q + 0 + 1) % 4 = 1 := by omega
    simp only [run, e1, e2, e3, e4]
    exact .loaderEnter (at_ q .test) 0 rfl rfl
  · have e3 : (4 * q + 1 + 1) / 4 = q := by omega
    have e4 : (4 * q + 1 + 1) % 4 = 2 := by omega
    simp only [run, e1, e2, e3, e4]
    exact .takeNone (at_ q .take) 0 rfl rfl
  · have e3 : (4 * q + 2 + 1) / 4 = q := by omega
    have e4 : (4 * q + 2 + 1) % 4 = 3 := by omega
    simp only [run, e1, e2, e3, e4]
    exact .loadNothing (at_ q (.load none)) 0 none rfl (Or.inl rfl)
  · have e3 : (4 * q + 3 + 1) / 4 = q + 1 := by omega
    have e4 : (4 * q + 3 + 1) % 4 = 0 := by omega
    simp only [run, e1, e2, e3, e4]
    exact .countFile (at_ q .count) 0 rfl

/-- Two files for one job. -/
def twoFiles : Cfg Nat :=
  { files := [some [1], some [2]], jobs := 1, batchSize := 1, numAdd := 0, reps := 1, fileCap := 1, batchCap := 5 }

/-- A run with files, for `C20_ends`. -/
example : twoFiles.files ≠ [] := by simp [twoFiles]

/-- **C135.** Violated for finite runs too, for every schedule: with one job and a file that cannot be loaded the
consumer never stops and gets no error, however many other files there are. -/
theorem C135_finite_violated (c : Cfg E) (bad : List E) (hj : c.jobs = 1) (hb : some bad ∈ c.files) (s : St E)
    (h : ReachB c bad s) : s.cons ≠ .done ∧ s.left = true :=
  ⟨(reachB_inv hj hb h).undone.2.2, (reachB_inv hj hb h).undone.2.1⟩

/-- A run with a bad file after a good one. The loader ends with the second file. -/
example : ∃ s, ReachB twoFiles [2] s ∧ s.loaders = [.exit] ∧ s.dataQ = [[1]] := by
  have no : ∀ (p : LPc Nat), p ≠ .load (some (some [2])) → ∀ (q : LPc Nat) (i : Nat),
      [p][i]? = some (.load (some (some [2]))) → [q][i]? = some (LPc.load (some (some [2]))) := by
    intro p hp q i hi
    cases i with
    | zero => simp only [List.getElem?_cons_zero, Option.some.injEq] at hi; exact absurd hi hp
    | succ i => simp at hi
  have h := ReachB.init (c := twoFiles) (bad := [2])
  have h := ReachB.step h (.good (.loaderEnter _ 0 rfl rfl) (no .test (by simp) _))
  have h := ReachB.step h (.good (.takeFile _ 0 _ _ rfl rfl) (no .take (by simp) _))
  have h := ReachB.step h (.good (.loadData _ 0 _ rfl) (no (.load (some (some [1]))) (by simp) _))
  have h := ReachB.step h (.good (.putData _ 0 _ rfl (Or.inr (by decide))) (no (.put [1]) (by simp) _))
  have h := ReachB.step h (.good (.countFile _ 0 rfl) (no .count (by simp) _))
  have h := ReachB.step h (.good (.loaderEnter _ 0 rfl rfl) (no .test (by simp) _))
  have h := ReachB.step h (.good (.takeFile _ 0 _ _ rfl rfl) (no .take (by simp) _))
  have h := ReachB.step h (.die _ 0 rfl)
  exact ⟨_, h, rfl, rfl⟩

end Verif.Generator
