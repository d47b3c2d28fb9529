/-
C133: endless batches never dry up. C134: one job without shuffling is reproducible. C135: problems while
loading are reported.
-/
import Verif.Endless.Live
import Verif.Endless.Order

namespace Verif.Endless
open Verif.Generator (Orders room)

variable {E : Type}

/-! ### C133 -/

/-- **C133.** Every batch an endless generator delivers is complete: there is no smaller batch at the end of a
file. -/
theorem C133_batches (c : Cfg E) (s : St E) (h : Reach c s) : ∀ b ∈ s.got, b.length = c.batchSize :=
  fun b hb => ((reach_inv h).sizes b (Or.inr hb)).1

/-- **C133.** The delivered events are, in this order, the events of passes: each pass uses files of the list,
as many as needed and no more, and each of its events once per repetition. No event is lost between passes or
batches, none is invented. -/
theorem C133_content (c : Cfg E) (s : St E) (h : Reach c s) :
    ∃ passes : List (List (List E) × List E),
      (∀ p ∈ passes, Pass c p.1 ∧ (∀ d ∈ p.1, File.events d ∈ c.files) ∧ Serves c p.1 p.2) ∧
      s.got.flatten <+: (passes.map Prod.snd).flatten := by
  obtain ⟨passes, h1, h2, -⟩ := reach_content h
  refine ⟨passes, h1, ?_⟩
  rw [← h2]
  exact (got_prefix s).trans (List.prefix_append _ _)

/-- **C133.** In no schedule do the processes block each other. -/
theorem C133_progress (c : Cfg E) (hc : Feeds c) (s : St E) (h : Reach c s) : ∃ s', Step c s s' :=
  not_stuck hc h

/-- **C133.** Whatever the schedule, the consumer receives any number of batches. The schedule need not be
fair: the queues are bounded. -/
theorem C133_forever (c : Cfg E) (hc : Feeds c) (run : Nat → St E) (h : Run c run) :
    ∀ n, ∃ t, n ≤ (run t).got.length := by
  intro n
  induction n with
  | zero => exact ⟨0, Nat.zero_le _⟩
  | succ n ih =>
    obtain ⟨t, ht⟩ := ih
    obtain ⟨u, -, hu⟩ := next_delivery hc h t
    exact ⟨u, by omega⟩

/-- **C133.** What has been delivered stays delivered: a step adds at most one batch at the end. -/
theorem C133_appends (c : Cfg E) (s s' : St E) (h : Step c s s') :
    s'.got = s.got ∨ ∃ b, s.finalQ.head? = some b ∧ s'.got = s.got ++ [b] := by
  cases h with
  | consGet b rest hq => exact Or.inr ⟨b, by rw [hq]; rfl, rfl⟩
  | _ => exact Or.inl rfl

namespace Ex

/-- Two jobs and five files. The first job dies with the third file; the second job draws an absent file every
other time. -/
def feeding : Cfg Nat :=
  { files := [.missing, .events [1, 2, 3], .broken, .nothing, .events [4]],
    draw := fun i k => if i = 0 then k % 5 else if k % 2 = 0 then 0 else 4,
    jobs := 2, batchSize := 2, numAdd := 1, reps := 2, fileCap := 1, batchCap := 1, shuffle := true }

theorem feeding_feeds : Feeds feeding where
  batch := by decide
  reps := by decide
  fileCap := by decide
  batchCap := by decide
  draws := by
    intro i k
    simp only [feeding, List.length_cons, List.length_nil]
    split_ifs <;> omega
  events := by
    intro d hd
    simp only [feeding, List.mem_cons, List.not_mem_nil, reduceCtorEq, File.events.injEq, false_or, or_false] at hd
    rcases hd with rfl | rfl <;> simp
  skips := by
    intro i hi k
    have h2 : i = 0 ∨ i = 1 := by
      simp only [feeding] at hi
      omega
    rcases h2 with rfl | rfl
    · refine ⟨(6 - k % 5) % 5, ?_⟩
      intro f hf
      have : (k + (6 - k % 5) % 5) % 5 = 1 := by omega
      simp only [feeding, this, if_true, List.getElem?_cons_succ, List.getElem?_cons_zero,
        Option.some.injEq] at hf
      subst hf
      exact id
    · refine ⟨(k + 1) % 2, ?_⟩
      intro f hf
      have : (k + (k + 1) % 2) % 2 = 1 := by omega
      simp only [feeding, this, one_ne_zero, if_false, List.getElem?_cons_succ,
        List.getElem?_cons_zero, Option.some.injEq] at hf
      subst hf
      exact id
  alive := by
    refine ⟨1, by decide, ?_⟩
    intro k
    simp only [feeding, one_ne_zero, if_false]
    split_ifs <;> simp

/-- Files `[1]` and `[2]`; every job loads its own file only. -/
def own (jobs : Nat) : Cfg Nat :=
  { files := [.events [1], .events [2]], draw := fun i _ => if i = 0 then 0 else 1, jobs := jobs,
    batchSize := 1, numAdd := 0, reps := 1, fileCap := 1, batchCap := 1, shuffle := false }

theorem own_feeds (n : Nat) : Feeds (own (n + 1)) where
  batch := Nat.one_pos
  reps := Nat.one_pos
  fileCap := Nat.one_pos
  batchCap := Nat.one_pos
  draws := by
    intro i k
    simp only [own, List.length_cons, List.length_nil]
    split_ifs <;> omega
  events := by
    intro d hd
    simp only [own, List.mem_cons, List.not_mem_nil, File.events.injEq, or_false] at hd
    rcases hd with rfl | rfl <;> simp
  skips := by
    intro i hi k
    refine ⟨0, ?_⟩
    intro f hf
    simp only [own] at hf
    split_ifs at hf
    all_goals
      simp only [List.getElem?_cons_succ, List.getElem?_cons_zero, Option.some.injEq] at hf
      subst hf
      exact id
  alive := by
    refine ⟨0, by simp [own], ?_⟩
    intro k
    simp [own]

theorem own_first : ∃ s, Reach (own 2) s ∧ s.got = [[1]] := by
  have h := Reach.init (c := own 2)
  have h := Reach.step h (.pickFile _ 0 0 _ rfl rfl)
  have h := Reach.step h (.loadData _ 0 1 [1] rfl)
  have h := Reach.step h (.putData _ 0 1 [1] rfl (Or.inr (by decide)))
  have h := Reach.step h (.aggGet _ [1] [] rfl rfl)
  have h := Reach.step h (.aggOrder _ 0 [1] [1] rfl rfl rfl)
  have h := Reach.step h (.aggBatch _ 1 [] rfl rfl (Or.inr (by decide)))
  have h := Reach.step h (.consGet _ [1] [] rfl)
  exact ⟨_, h, rfl⟩

theorem own_second : ∃ s, Reach (own 2) s ∧ s.got = [[2]] := by
  have h := Reach.init (c := own 2)
  have h := Reach.step h (.pickFile _ 1 0 _ rfl rfl)
  have h := Reach.step h (.loadData _ 1 1 [2] rfl)
  have h := Reach.step h (.putData _ 1 1 [2] rfl (Or.inr (by decide)))
  have h := Reach.step h (.aggGet _ [2] [] rfl rfl)
  have h := Reach.step h (.aggOrder _ 0 [2] [2] rfl rfl rfl)
  have h := Reach.step h (.aggBatch _ 2 [] rfl rfl (Or.inr (by decide)))
  have h := Reach.step h (.consGet _ [2] [] rfl)
  exact ⟨_, h, rfl⟩

end Ex

/-- The hypothesis of `C133_progress` and `C133_forever` is met with files that are absent, empty or broken. -/
example : Feeds Ex.feeding := Ex.feeding_feeds

/-- There are such runs. -/
example : ∃ run, Run Ex.feeding run := run_exists Ex.feeding_feeds

/-- A state with a delivered batch. -/
example : ∃ s, Reach (Ex.own 2) s ∧ s.got = [[1]] := Ex.own_first

/-- Files of one and three events are a pass for one additional file and two repetitions of batches of two. -/
example : Pass Ex.feeding [[4], [1, 2, 3]] := by
  refine ⟨by simp, ⟨by decide, by decide⟩, ?_⟩
  intro gs g1 g2 g3 he
  have hl := g2.length_le
  have h1 : 2 ≤ gs.length := he.1
  exact g3 (g2.eq_of_length (by simp only [List.length_cons, List.length_nil] at hl ⊢; omega))

/-! ### C134 -/

/-- **C134.** With one job and without shuffling, whatever the schedules of two endless runs on the same files,
one of them has received the same batches as the other, or the first of them. -/
theorem C134_one_job (c : Cfg E) (h1 : c.jobs = 1) (hs : c.shuffle = false) (s s' : St E) (h : Reach c s)
    (h' : Reach c s') : s.got <+: s'.got ∨ s'.got <+: s.got :=
  one_order h1 hs h h'

/-- **C134.** Two runs that have received equally many batches have received the same. -/
theorem C134_same (c : Cfg E) (h1 : c.jobs = 1) (hs : c.shuffle = false) (s s' : St E) (h : Reach c s)
    (h' : Reach c s') (hn : s.got.length = s'.got.length) : s.got = s'.got := by
  rcases one_order h1 hs h h' with x | x
  · exact x.eq_of_length hn
  · exact (x.eq_of_length hn.symm).symm

/-- **C134.** The batches are those of the files in the order of the draws: without repetitions and additional
files the events of these files, one after the other. -/
theorem C134_draws (c : Cfg E) (h1 : c.jobs = 1) (hs : c.shuffle = false) (ha : c.numAdd = 0)
    (hr : c.reps = 1) (s : St E) (h : Reach c s) :
    ∃ k, s.got.flatten <+:
      ((List.range k).flatMap fun m =>
        match c.files[c.draw 0 m]? with
        | some (.events d) => d
        | _ => []) :=
  in_order h1 hs ha hr h

/-- **C134.** More than one job: not even without shuffling. -/
theorem C134_jobs_needed :
    ∃ c : Cfg Nat, Feeds c ∧ c.jobs = 2 ∧ c.shuffle = false ∧ ∃ s s', Reach c s ∧ Reach c s' ∧
      s.got.length = s'.got.length ∧ s.got ≠ s'.got := by
  obtain ⟨s, h, e⟩ := Ex.own_first
  obtain ⟨s', h', e'⟩ := Ex.own_second
  exact ⟨Ex.own 2, Ex.own_feeds 1, rfl, rfl, s, s', h, h', by rw [e, e']; rfl, by rw [e, e']; decide⟩

namespace Ex

/-- One job, one file with two events, shuffled. -/
def shuffled : Cfg Nat :=
  { files := [.events [1, 2]], draw := fun _ _ => 0, jobs := 1, batchSize := 2, numAdd := 0, reps := 1,
    fileCap := 1, batchCap := 1, shuffle := true }

theorem shuffled_feeds : Feeds shuffled where
  batch := by decide
  reps := by decide
  fileCap := by decide
  batchCap := by decide
  draws := by intro i k; simp [shuffled]
  events := by intro d hd; simp [shuffled] at hd; simp [hd]
  skips := by intro i hi k; exact ⟨0, by intro f hf; simp [shuffled] at hf; subst hf; exact id⟩
  alive := ⟨0, by decide, by intro k; simp [shuffled]⟩

theorem shuffled_reach (a b : Nat) (hp : [a, b].Perm [1, 2]) : ∃ s, Reach shuffled s ∧ s.got = [[a, b]] := by
  have h := Reach.init (c := shuffled)
  have h := Reach.step h (.pickFile _ 0 0 _ rfl rfl)
  have h := Reach.step h (.loadData _ 0 1 [1, 2] rfl)
  have h := Reach.step h (.putData _ 0 1 [1, 2] rfl (Or.inr (by decide)))
  have h := Reach.step h (.aggGet _ [1, 2] [] rfl rfl)
  have h := Reach.step h (.aggOrder _ 0 [1, 2] ([a, b] ++ []) rfl rfl (Orders.succ hp Orders.zero))
  have h := Reach.step h (.aggEvent _ a [b] rfl (show 0 + 1 ≠ 2 by decide))
  have h := Reach.step h (.aggBatch _ b [] rfl rfl (Or.inr (show 0 < 1 by decide)))
  have h := Reach.step h (.consGet _ [a, b] [] rfl)
  exact ⟨_, h, rfl⟩

end Ex

/-- **C134.** Shuffling: not even with one job. The order of events is not seeded. -/
theorem C134_shuffle_needed :
    ∃ c : Cfg Nat, Feeds c ∧ c.jobs = 1 ∧ c.shuffle = true ∧ ∃ s s', Reach c s ∧ Reach c s' ∧
      s.got.length = s'.got.length ∧ s.got ≠ s'.got := by
  obtain ⟨s, h, e⟩ := Ex.shuffled_reach 1 2 (List.Perm.refl _)
  obtain ⟨s', h', e'⟩ := Ex.shuffled_reach 2 1 (List.Perm.swap _ _ _)
  exact ⟨_, Ex.shuffled_feeds, rfl, rfl, s, s', h, h', by rw [e, e']; rfl, by rw [e, e']; decide⟩

/-- One job without shuffling that delivers for ever. -/
example : Feeds (Ex.own 1) ∧ (Ex.own 1).jobs = 1 ∧ (Ex.own 1).shuffle = false := ⟨Ex.own_feeds 0, rfl, rfl⟩

/-! ### C135 -/

namespace Ex

/-- A job draws a good file and then a broken one; for the other jobs there are only good files. -/
def breaking (jobs : Nat) : Cfg Nat :=
  { files := [.events [1, 2], .broken], draw := fun i k => if i = 0 then k % 2 else 0, jobs := jobs,
    batchSize := 2, numAdd := 0, reps := 1, fileCap := 1, batchCap := 1, shuffle := false }

end Ex

/-- **C135.** Violated: a file that cannot be read ends the job that draws it, and nothing tells the consumer.
Here a consumer that has received one batch waits for the next one for ever: no process can act. -/
theorem C135_reported_violated :
    ∃ c : Cfg Nat, ∃ s, Reach c s ∧ File.broken ∈ c.files ∧ s.got = [[1, 2]] ∧ ∀ s', ¬ Step c s s' := by
  have h := Reach.init (c := Ex.breaking 1)
  have h := Reach.step h (.pickFile _ 0 0 _ rfl rfl)
  have h := Reach.step h (.loadData _ 0 1 [1, 2] rfl)
  have h := Reach.step h (.putData _ 0 1 [1, 2] rfl (Or.inr (by decide)))
  have h := Reach.step h (.aggGet _ [1, 2] [] rfl rfl)
  have h := Reach.step h (.aggOrder _ 0 [1, 2] [1, 2] rfl rfl rfl)
  have h := Reach.step h (.aggEvent _ 1 [2] rfl (by decide))
  have h := Reach.step h (.aggBatch _ 2 [] rfl rfl (Or.inr (by decide)))
  have h := Reach.step h (.aggEmitted _ rfl)
  have h := Reach.step h (.consGet _ [1, 2] [] rfl)
  have h := Reach.step h (.pickFile _ 0 1 _ rfl rfl)
  have h := Reach.step h (.loadFail _ 0 2 rfl)
  refine ⟨_, _, h, by simp [Ex.breaking], rfl, ?_⟩
  intro s' hs
  have one : ∀ (i : Nat) (x : LPc Nat × Nat), ([((.dead : LPc Nat), 2)] : List (LPc Nat × Nat))[i]? = some x →
      x = (.dead, 2) := by
    intro i x hx
    cases i with
    | zero => simpa using hx.symm
    | succ i => simp at hx
  cases hs with
  | pickFile i k f hi hf => cases one i _ hi
  | pickFail i k hi hf => cases one i _ hi
  | loadData i k d hi => cases one i _ hi
  | loadNothing i k f hi hf => cases one i _ hi
  | loadFail i k hi => cases one i _ hi
  | putData i k d hi hr => cases one i _ hi
  | aggGet d rest ha hq => cases hq
  | aggAdd n evs d rest ha hw hq => cases ha
  | aggOrder n evs stream ha hw ho => cases ha
  | aggEvent e rest ha hb => cases ha
  | aggBatch e rest ha hb hr => cases ha
  | aggEmitted ha => cases ha
  | consGet b rest hq => cases hq

/-- **C135.** Violated in general: if every job draws a file that cannot be read at some point, an endless
generator delivers a bounded number of batches, in every schedule. The consumer waits for the next one without
an error. -/
theorem C135_dries_up_violated (c : Cfg E) (h : ∀ i < c.jobs, ∃ k, c.files[c.draw i k]? = some .broken) :
    ∃ N, ∀ s, Reach c s → s.got.length ≤ N :=
  all_fail h

/-- **C135.** Violated: an endless generator for no files delivers nothing, and raises nothing in the process
of the consumer. -/
theorem C135_no_files_violated (c : Cfg E) (h : c.files = []) (s : St E) (hs : Reach c s) : s.got = [] :=
  no_files h hs

/-- **C135.** What holds: files that are absent or have no data are skipped, and a file that cannot be read ends
the jobs that draw it and no others. As long as one job never draws such a file, the consumer receives any
number of batches. Missing: the report of the problem. -/
theorem C135_survivor_partial (c : Cfg E) (hc : Feeds c) (run : Nat → St E) (h : Run c run) :
    ∀ n, ∃ t, n ≤ (run t).got.length :=
  C133_forever c hc run h

/-- Every job of `breaking 1` draws the broken file. -/
example : ∀ i < (Ex.breaking 1).jobs, ∃ k, (Ex.breaking 1).files[(Ex.breaking 1).draw i k]? = some .broken := by
  intro i hi
  have : i = 0 := by
    simp only [Ex.breaking] at hi
    omega
  subst this
  exact ⟨1, rfl⟩

/-- The second job of `breaking 2` does not. -/
example : ∀ k, (Ex.breaking 2).files[(Ex.breaking 2).draw 1 k]? ≠ some .broken := by
  intro k
  simp [Ex.breaking]

end Verif.Endless
