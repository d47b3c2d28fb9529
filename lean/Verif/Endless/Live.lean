/-
Lemmas for C133: no run gets stuck or stops delivering.
-/
import Verif.Endless.Lemmas

namespace Verif.Endless
open Verif.Generator (Orders room)

variable {E : Type}

/-- What liveness needs of a state. -/
structure Live (c : Cfg E) (s : St E) : Prop where
  add : ∀ n evs, s.agg = .add n evs → evs ≠ []
  drawn : ∀ (i : Nat) (f : File E) (k : Nat), s.loaders[i]? = some (.load f, k) →
    ∃ m, k = m + 1 ∧ c.files[c.draw i m]? = some f
  alive : ∀ j < c.jobs, (∀ k, c.files[c.draw j k]? ≠ some .broken) →
    ∀ k, s.loaders[j]? ≠ some (.dead, k)

theorem live_init (c : Cfg E) : Live c (init c) := by
  refine ⟨(by intro n evs h; cases h), ?_, ?_⟩
  · intro i f k h
    simp only [init, List.getElem?_replicate] at h
    split_ifs at h
    simp at h
  · intro j _ _ k h
    simp only [init, List.getElem?_replicate] at h
    split_ifs at h
    simp at h

theorem Live.set {c : Cfg E} {s : St E} (h : Live c s) (i k : Nat) (p : LPc E)
    (hp : ∀ f, p = .load f → ∃ m, k = m + 1 ∧ c.files[c.draw i m]? = some f)
    (hd : p = .dead → ∃ k, c.files[c.draw i k]? = some .broken) : Live c (s.setLoader i p k) := by
  refine ⟨h.add, ?_, ?_⟩
  · intro j f m hj
    simp only [St.setLoader, get_set] at hj
    split_ifs at hj with e1 e2
    · simp only [Option.some.injEq, Prod.mk.injEq] at hj
      obtain ⟨rfl, rfl⟩ := hj
      subst e1
      exact hp f rfl
    · exact h.drawn j f m hj
  · intro j hj hb m hm
    simp only [St.setLoader, get_set] at hm
    split_ifs at hm with e1 e2
    · simp only [Option.some.injEq, Prod.mk.injEq] at hm
      obtain ⟨k', hk'⟩ := hd hm.1
      subst e1
      exact hb k' hk'
    · exact h.alive j hj hb m hm

theorem live_step {c : Cfg E} (hc : Feeds c) {s s' : St E} (hi : Inv c s) (h : Live c s)
    (hs : Step c s s') : Live c s' := by
  cases hs with
  | pickFile i k f hi hf =>
    refine h.set i _ _ ?_ (by intro e; cases e)
    intro f' e
    simp only [LPc.load.injEq] at e
    subst e
    exact ⟨k, rfl, hf⟩
  | pickFail i k hi hf =>
    have := hc.draws 0 0
    rw [hf] at this
    simp at this
  | loadData i k d hi => exact h.set i _ _ (by intro f e; cases e) (by intro e; cases e)
  | loadNothing i k f hi hf => exact h.set i _ _ (by intro f e; cases e) (by intro e; cases e)
  | loadFail i k hi =>
    refine h.set i _ _ (by intro f e; cases e) ?_
    intro _
    obtain ⟨m, -, hm⟩ := h.drawn i _ k hi
    exact ⟨m, hm⟩
  | putData i k d hi hr =>
    have h' : Live c { s with dataQ := s.dataQ ++ [d] } := ⟨h.add, h.drawn, h.alive⟩
    exact h'.set i _ _ (by intro f e; cases e) (by intro e; cases e)
  | aggGet d rest ha hq =>
    refine ⟨?_, h.drawn, h.alive⟩
    intro n evs e
    simp only [APc.add.injEq] at e
    obtain ⟨-, rfl⟩ := e
    exact hc.events _ (hi.queue _ (by rw [hq]; simp))
  | aggAdd n evs d rest ha hw hq =>
    refine ⟨?_, h.drawn, h.alive⟩
    intro n' evs' e
    simp only [APc.add.injEq] at e
    obtain ⟨-, rfl⟩ := e
    have := h.add _ _ ha
    simp [this]
  | aggOrder n evs stream ha hw ho => exact ⟨(by intro n evs e; cases e), h.drawn, h.alive⟩
  | aggEvent e rest ha hb => exact ⟨(by intro n evs e; cases e), h.drawn, h.alive⟩
  | aggBatch e rest ha hb hr => exact ⟨(by intro n evs e; cases e), h.drawn, h.alive⟩
  | aggEmitted ha => exact ⟨(by intro n evs e; cases e), h.drawn, h.alive⟩
  | consGet b rest hq => exact ⟨h.add, h.drawn, h.alive⟩

theorem reach_live {c : Cfg E} (hc : Feeds c) {s : St E} (h : Reach c s) : Live c s := by
  induction h with
  | init => exact live_init c
  | step hr hs ih => exact live_step hc (reach_inv hr) ih hs

/-! ### No deadlock -/

theorem arranged_exists (c : Cfg E) (evs : List E) : ∃ stream, Arranged c evs stream := by
  unfold Arranged
  cases c.shuffle with
  | false => exact ⟨_, rfl⟩
  | true =>
    simp only [if_true]
    generalize c.reps = n
    induction n with
    | zero => exact ⟨[], .zero⟩
    | succ n ih =>
      obtain ⟨o, ho⟩ := ih
      exact ⟨evs ++ o, .succ (List.Perm.refl _) ho⟩

theorem not_stuck {c : Cfg E} (hc : Feeds c) {s : St E} (h : Reach c s) : ∃ s', Step c s s' := by
  have hi := reach_inv h
  have hl := reach_live hc h
  cases hq : s.finalQ with
  | cons b rest => exact ⟨_, .consGet s b rest hq⟩
  | nil =>
    have hroom : room c.batchCap s.finalQ := by
      right; rw [hq]; exact hc.batchCap
    cases ha : s.agg with
    | emit evs =>
      cases evs with
      | nil => exact ⟨_, .aggEmitted s ha⟩
      | cons e rest =>
        by_cases hb : s.pending.length + 1 = c.batchSize
        · exact ⟨_, .aggBatch s e rest ha hb hroom⟩
        · exact ⟨_, .aggEvent s e rest ha hb⟩
    | get =>
      cases hd : s.dataQ with
      | cons d rest => exact ⟨_, .aggGet s d rest ha hd⟩
      | nil => exact loader hc hi hl hd
    | add n evs =>
      cases hw : wantMore c n evs.length with
      | false =>
        obtain ⟨o, ho⟩ := arranged_exists c evs
        exact ⟨_, .aggOrder s n evs o ha hw ho⟩
      | true =>
        cases hd : s.dataQ with
        | cons d rest => exact ⟨_, .aggAdd s n evs d rest ha hw hd⟩
        | nil => exact loader hc hi hl hd
where
  loader {c : Cfg E} (hc : Feeds c) {s : St E} (hi : Inv c s) (hl : Live c s) (hd : s.dataQ = []) :
      ∃ s', Step c s s' := by
    obtain ⟨j, hj, hb⟩ := hc.alive
    have hlt : j < s.loaders.length := by rw [hi.len]; exact hj
    have hget : s.loaders[j]? = some s.loaders[j] := List.getElem?_eq_getElem hlt
    cases hp : s.loaders[j] with
    | mk p k =>
    rw [hp] at hget
    cases p with
    | dead => exact absurd hget (hl.alive j hj hb k)
    | pick =>
      have := hc.draws j k
      exact ⟨_, .pickFile s j k _ hget (List.getElem?_eq_getElem this)⟩
    | put d => exact ⟨_, .putData s j k d hget (by right; rw [hd]; exact hc.fileCap)⟩
    | load f =>
      cases f with
      | missing => exact ⟨_, .loadNothing s j k _ hget (Or.inl rfl)⟩
      | nothing => exact ⟨_, .loadNothing s j k _ hget (Or.inr rfl)⟩
      | events d => exact ⟨_, .loadData s j k d hget⟩
      | broken => exact ⟨_, .loadFail s j k hget⟩

/-! ### Every run keeps delivering -/

/-- Job `i` draws a file that is not skipped. -/
def Hit (c : Cfg E) (i k : Nat) : Prop := ∀ f, c.files[c.draw i k]? = some f → ¬ f.skipped

open Classical in
/-- The number of draws until a file that is not skipped. -/
noncomputable def dist (c : Cfg E) (i k : Nat) : Nat :=
  if h : ∃ n, Hit c i (k + n) then Nat.find h else 0

open Classical in
theorem dist_hit {c : Cfg E} {i k : Nat} (h : Hit c i k) : dist c i k = 0 := by
  unfold dist
  have hex : ∃ n, Hit c i (k + n) := ⟨0, h⟩
  rw [dif_pos hex]
  exact (Nat.find_eq_zero hex).2 h

open Classical in
theorem dist_skip {c : Cfg E} {i : Nat} (hs : ∀ k, ∃ n, Hit c i (k + n)) {k : Nat} (h : ¬ Hit c i k) :
    dist c i k = dist c i (k + 1) + 1 := by
  unfold dist
  have h1 : ∃ n, Hit c i (k + (n + 1)) := by
    obtain ⟨n, hn⟩ := hs (k + 1)
    exact ⟨n, by rw [show k + (n + 1) = k + 1 + n by omega]; exact hn⟩
  rw [dif_pos (hs k), dif_pos (hs (k + 1)), Nat.find_comp_succ (hs k) h1 h]
  congr 1
  apply Nat.find_congr'
  intro n
  rw [show k + (n + 1) = k + 1 + n by omega]

open Classical in
/-- How far a loader is from its next file. -/
noncomputable def phase (c : Cfg E) (i : Nat) : LPc E × Nat → Nat
  | (.pick, k) => 2 * dist c i k + 2
  | (.load f, k) => if f.skipped then 2 * dist c i k + 3 else 1
  | _ => 0

/-- How far the aggregator is in its pass. -/
def rank (c : Cfg E) : APc E → Nat
  | .emit [] => c.numAdd + c.reps * c.batchSize + 3
  | .get => c.numAdd + c.reps * c.batchSize + 2
  | .add n evs => (c.numAdd - n) + (c.reps * c.batchSize - evs.length) + 1
  | .emit (_ :: _) => 0

/-- What decreases as long as nothing is delivered. -/
noncomputable def measure (c : Cfg E) (s : St E) : Nat ×ₗ Nat ×ₗ Nat ×ₗ Nat :=
  toLex ((c.batchCap - s.finalQ.length) * c.batchSize + (c.batchSize - s.pending.length),
    toLex (rank c s.agg, toLex (c.fileCap - s.dataQ.length,
      ∑ i ∈ Finset.range c.jobs, ((s.loaders[i]?).map (phase c i)).getD 0)))

theorem sum_set {c : Cfg E} {s : St E} (hi : Inv c s) {i k k' : Nat} {p p' : LPc E}
    (h : s.loaders[i]? = some (p, k)) (hlt : phase c i (p', k') < phase c i (p, k)) :
    ∑ j ∈ Finset.range c.jobs, (((s.loaders.set i (p', k'))[j]?).map (phase c j)).getD 0 <
      ∑ j ∈ Finset.range c.jobs, ((s.loaders[j]?).map (phase c j)).getD 0 := by
  have hil : i < s.loaders.length := (List.getElem?_eq_some_iff.1 h).1
  apply Finset.sum_lt_sum
  · intro j _
    rw [get_set]
    split_ifs with e1
    · subst e1; rw [h]; simpa using hlt.le
    · exact le_refl _
  · refine ⟨i, by rw [Finset.mem_range, ← hi.len]; exact hil, ?_⟩
    rw [get_set, if_pos rfl, if_pos hil, h]
    simpa using hlt

theorem measure_loader {c : Cfg E} {s : St E} (hi : Inv c s) {i k k' : Nat} {p p' : LPc E}
    (h : s.loaders[i]? = some (p, k)) (hlt : phase c i (p', k') < phase c i (p, k)) :
    measure c (s.setLoader i p' k') < measure c s := by
  unfold measure
  rw [Prod.Lex.toLex_lt_toLex]
  right
  refine ⟨rfl, ?_⟩
  rw [Prod.Lex.toLex_lt_toLex]
  right
  refine ⟨rfl, ?_⟩
  rw [Prod.Lex.toLex_lt_toLex]
  right
  exact ⟨rfl, sum_set hi h hlt⟩

theorem measure_step {c : Cfg E} (hc : Feeds c) {s s' : St E} (hi : Inv c s) (hl : Live c s)
    (hs : Step c s s') (hg : s'.got = s.got) : measure c s' < measure c s := by
  cases hs with
  | pickFile i k f h hf =>
    have hij : i < c.jobs := by rw [← hi.len]; exact (List.getElem?_eq_some_iff.1 h).1
    apply measure_loader hi h
    by_cases hk : f.skipped
    · have hn : ¬ Hit c i k := fun g => g f hf hk
      simp only [phase, hk, if_true, dist_skip (hc.skips i hij) hn]
      omega
    · simp only [phase, hk, if_false]
      omega
  | pickFail i k h hf =>
    have := hc.draws 0 0
    rw [hf] at this
    simp at this
  | loadData i k d h => exact measure_loader hi h (by simp [phase, File.skipped])
  | loadNothing i k f h hf =>
    apply measure_loader hi h
    have hk : f.skipped := by rcases hf with rfl | rfl <;> trivial
    simp only [phase, hk, if_true]
    omega
  | loadFail i k h => exact measure_loader hi h (by simp [phase, File.skipped])
  | putData i k d h hr =>
    unfold measure
    rw [Prod.Lex.toLex_lt_toLex]
    right
    refine ⟨rfl, ?_⟩
    rw [Prod.Lex.toLex_lt_toLex]
    right
    refine ⟨rfl, ?_⟩
    rw [Prod.Lex.toLex_lt_toLex]
    left
    have := hc.fileCap
    rcases hr with hr | hr
    · omega
    · simp only [St.setLoader, List.length_append, List.length_singleton]
      omega
  | aggGet d rest ha hq =>
    unfold measure
    rw [Prod.Lex.toLex_lt_toLex]
    right
    refine ⟨rfl, ?_⟩
    rw [Prod.Lex.toLex_lt_toLex]
    left
    simp only [rank, ha]
    omega
  | aggAdd n evs d rest ha hw hq =>
    unfold measure
    rw [Prod.Lex.toLex_lt_toLex]
    right
    refine ⟨rfl, ?_⟩
    rw [Prod.Lex.toLex_lt_toLex]
    left
    have hd : 0 < d.length := List.length_pos_iff.2 (hc.events d (hi.queue d (by rw [hq]; simp)))
    simp only [rank, ha, List.length_append]
    unfold wantMore at hw
    rw [Bool.or_eq_true, decide_eq_true_eq, decide_eq_true_eq] at hw
    rcases hw with hw | hw
    · omega
    · have : evs.length < c.reps * c.batchSize := by
        by_contra hx
        push Not at hx
        have h1 : c.reps * c.batchSize * (c.reps * c.batchSize) ≤ evs.length * evs.length :=
          Nat.mul_le_mul hx hx
        have h2 : (c.reps - 1) * (c.batchSize * c.batchSize) ≤
            c.reps * c.batchSize * (c.reps * c.batchSize) := by
          calc (c.reps - 1) * (c.batchSize * c.batchSize)
              ≤ c.reps * (c.batchSize * c.batchSize) := Nat.mul_le_mul_right _ (Nat.sub_le _ _)
            _ ≤ c.reps * c.reps * (c.batchSize * c.batchSize) :=
              Nat.mul_le_mul_right _ (Nat.le_mul_of_pos_left _ hc.reps)
            _ = _ := by ring
        omega
      omega
  | aggOrder n evs stream ha hw ho =>
    unfold measure
    rw [Prod.Lex.toLex_lt_toLex]
    right
    refine ⟨rfl, ?_⟩
    rw [Prod.Lex.toLex_lt_toLex]
    left
    have hne : stream ≠ [] := by
      intro e
      subst e
      have hev := hl.add _ _ ha
      have hrep := hc.reps
      unfold Arranged at ho
      cases hr : c.reps with
      | zero => omega
      | succ m =>
        rw [hr] at ho
        cases hsh : c.shuffle with
        | false =>
          simp only [hsh, Bool.false_eq_true, if_false, List.replicate_succ, List.flatten_cons] at ho
          exact hev (List.append_eq_nil_iff.1 ho.symm).1
        | true =>
          simp only [hsh, if_true] at ho
          generalize hg : ([] : List E) = x at ho
          cases ho with
          | succ hp _ =>
            have := (List.append_eq_nil_iff.1 hg.symm).1
            rw [this] at hp
            exact hev (List.nil_perm.1 hp)
    cases stream with
    | nil => exact absurd rfl hne
    | cons e rest => simp [rank, ha]
  | aggEvent e rest ha hb =>
    unfold measure
    rw [Prod.Lex.toLex_lt_toLex]
    left
    have := hi.pend hc.batch
    simp only [List.length_append, List.length_singleton]
    omega
  | aggBatch e rest ha hb hr =>
    unfold measure
    rw [Prod.Lex.toLex_lt_toLex]
    left
    have := hi.pend hc.batch
    have := hc.batchCap
    have hlt : s.finalQ.length < c.batchCap := by
      rcases hr with hr | hr
      · omega
      · exact hr
    simp only [List.length_append, List.length_singleton, List.length_nil]
    obtain ⟨r, hr'⟩ : ∃ r, c.batchCap - s.finalQ.length = r + 1 :=
      ⟨c.batchCap - s.finalQ.length - 1, by omega⟩
    rw [hr', show c.batchCap - (s.finalQ.length + 1) = r by omega, Nat.succ_mul]
    omega
  | aggEmitted ha =>
    unfold measure
    rw [Prod.Lex.toLex_lt_toLex]
    right
    refine ⟨rfl, ?_⟩
    rw [Prod.Lex.toLex_lt_toLex]
    left
    simp [rank, ha]
  | consGet b rest hq =>
    exfalso
    have := congrArg List.length hg
    simp at this

theorem got_step {c : Cfg E} {s s' : St E} (hs : Step c s s') : ∃ more, s'.got = s.got ++ more := by
  cases hs with
  | consGet b rest hq => exact ⟨[b], rfl⟩
  | _ => exact ⟨[], (List.append_nil _).symm⟩

theorem run_reach {c : Cfg E} {run : Nat → St E} (h : Run c run) (t : Nat) : Reach c (run t) := by
  induction t with
  | zero => rw [h.1]; exact .init
  | succ t ih => exact .step ih (h.2 t)

theorem run_exists {c : Cfg E} (hc : Feeds c) : ∃ run, Run c run := by
  classical
  let next : { s : St E // Reach c s } → { s : St E // Reach c s } := fun s =>
    ⟨(not_stuck hc s.2).choose, .step s.2 (not_stuck hc s.2).choose_spec⟩
  refine ⟨fun t => (next^[t] ⟨init c, .init⟩).1, rfl, ?_⟩
  intro t
  simp only [Function.iterate_succ_apply']
  exact (not_stuck hc (next^[t] ⟨init c, .init⟩).2).choose_spec

/-- After every moment of a run there is a delivery. -/
theorem next_delivery {c : Cfg E} (hc : Feeds c) {run : Nat → St E} (h : Run c run) (t : Nat) :
    ∃ u, t ≤ u ∧ (run t).got.length < (run u).got.length := by
  by_contra hx
  push Not at hx
  have hmono : ∀ u, t ≤ u → (run t).got.length ≤ (run u).got.length := by
    intro u hu
    induction u, hu using Nat.le_induction with
    | base => exact le_refl _
    | succ u _ ih =>
      obtain ⟨m, hm⟩ := got_step (h.2 u)
      rw [hm, List.length_append]
      omega
  have hsame : ∀ u, t ≤ u → (run (u + 1)).got = (run u).got := by
    intro u hu
    obtain ⟨m, hm⟩ := got_step (h.2 u)
    have h1 := hx (u + 1) (by omega)
    have h2 := hmono u hu
    rw [hm, List.length_append] at h1
    have : m = [] := List.length_eq_zero_iff.1 (by omega)
    rw [hm, this, List.append_nil]
  obtain ⟨n, hn⟩ := WellFounded.not_rel_apply_succ (r := (· < ·)) fun n => measure c (run (t + n))
  apply hn
  have hr := run_reach h (t + n)
  exact measure_step hc (reach_inv hr) (reach_live hc hr) (h.2 (t + n)) (hsame _ (Nat.le_add_right t n))

end Verif.Endless
