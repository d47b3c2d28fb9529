import Verif.Optim.StepLemmas
import Verif.Py.Sort

/-! # Lemmas on the loop of the spherical optimizer -/

namespace Verif.Optim
open Verif.Py

variable {P α : Type} [LinearOrder α]

omit [LinearOrder α] in
theorem stop_flag {c : Settings P α} {s : State P α} {flag : Int} (h : stop c s = some flag) :
    0 ≤ flag ∧ flag ≤ 3 := by
  unfold stop at h
  split at h
  · cases h; omega
  · split at h
    · cases h; omega
    · split at h
      · cases h; omega
      · split at h
        · cases h; omega
        · cases h

omit [LinearOrder α] in
theorem stop_none_calls {c : Settings P α} {s : State P α} (h : stop c s = none) :
    c.maxCalls = 0 ∨ s.calls < c.maxCalls := by
  unfold stop at h
  split at h
  · cases h
  · rename_i hn
    by_cases h0 : c.maxCalls = 0
    · exact Or.inl h0
    · exact Or.inr (by
        by_contra hge
        exact hn ⟨h0, by omega⟩)

/-- The outcome of the loop. -/
structure LoopOk (c : Settings P α) (n k it : Nat) (s s' : State P α) (flag : Int) (nit : Nat)
    (bs : List (List P)) : Prop where
  sound : Sound c n s'.pts s'.calls s'.log
  log : s'.log = s.log ++ bs
  full : flag = -1 → bs.length = k ∧ nit = it + k - 1
  stopped : flag ≠ -1 → bs.length < k ∧ nit = it + bs.length ∧ stop c s' = some flag
  none : bs = [] → s' = s
  best : bs ≠ [] → ∃ e', s'.pts[s'.best]? = some e' ∧
    ∀ b ∈ (s.log ++ bs).dropLast, ∀ p ∈ b, e'.2 ≤ c.f p
  lower : ∀ e ∈ s.pts, ∃ e' ∈ s'.pts, e'.2 ≤ e.2
  calls : c.maxCalls ≠ 0 →
    s'.calls ≤ max s.calls (c.maxCalls - 1 + max (2 * c.batch) (n + 1))

theorem loop_ok (c : Settings P α) (n : Nat) (hc : Accepted c n) (k it : Nat) (s : State P α)
    (h : Sound c n s.pts s.calls s.log) :
    ∃ s' flag nit bs, loop c k it s = .ok (s', flag, nit) ∧ LoopOk c n k it s s' flag nit bs := by
  induction k generalizing it s with
  | zero =>
    exact ⟨s, -1, it - 1, [], rfl, h, by simp, fun _ => ⟨rfl, rfl⟩, fun hf => absurd rfl hf,
      fun _ => rfl, fun hf => absurd rfl hf, fun e he => ⟨e, he, le_refl _⟩, fun _ => by omega⟩
  | succ k ih =>
    rw [loop]
    cases hst : stop c s with
    | some flag =>
      simp only
      have := stop_flag hst
      exact ⟨s, flag, it, [], rfl, h, by simp, fun hf => by omega,
        fun _ => ⟨by simp, rfl, hst⟩, fun _ => rfl, fun hf => absurd rfl hf,
        fun e he => ⟨e, he, le_refl _⟩, fun _ => by omega⟩
    | none =>
      obtain ⟨s1, e1, ok1⟩ := step_ok c n it hc s h
      obtain ⟨b, g1, g2, g3⟩ := ok1.grown
      obtain ⟨s', flag, nit, bs, e2, ok2⟩ := ih (it + 1) s1 ok1.sound
      simp only [e1]
      have hlog : s'.log = s.log ++ (b :: bs) := by rw [ok2.log, g1]; simp
      refine ⟨s', flag, nit, b :: bs, e2, ok2.sound, hlog, fun hf => ?_, fun hf => ?_, by simp,
        fun _ => ?_, fun e he => ?_, fun hm => ?_⟩
      · obtain ⟨f1, f2⟩ := ok2.full hf
        exact ⟨by simp [f1], by omega⟩
      · obtain ⟨f1, f2, f3⟩ := ok2.stopped hf
        exact ⟨by simp [f1], by simp; omega, f3⟩
      · by_cases hbs : bs = []
        · have hs := ok2.none hbs
          subst hbs
          obtain ⟨e', b1, b2⟩ := ok1.best
          rw [hs]
          refine ⟨e', b1, ?_⟩
          rw [List.dropLast_concat]
          intro b' hb' p hp
          obtain ⟨e, k1, k2⟩ := h.kept b' hb' p hp
          exact le_trans (b2 e k1) k2
        · have := ok2.best hbs
          rw [g1] at this
          simpa using this
      · obtain ⟨e', l1, l2⟩ := ok1.lower e he
        obtain ⟨e'', l3, l4⟩ := ok2.lower e' l1
        exact ⟨e'', l3, le_trans l4 l2⟩
      · have h1 := ok2.calls hm
        rcases stop_none_calls hst with h2 | h2
        · exact absurd h2 hm
        · omega

theorem init_ok (c : Settings P α) (initial : List P) (hne : initial ≠ []) :
    ∃ s, init c initial = .ok s ∧ s.pts = c.eval initial ∧ s.best = 0 ∧ s.calls = initial.length ∧
      s.log = [initial] ∧ Sound c initial.length s.pts s.calls s.log := by
  obtain ⟨j, v, h1, -, -⟩ := (argmin_spec ((c.eval initial).map Prod.snd) 0).2 (by
    intro he
    have := congrArg List.length he
    rw [List.length_map, eval_length] at this
    exact hne (List.length_eq_zero_iff.1 this))
  refine ⟨_, by rw [init, h1], rfl, rfl, rfl, rfl, eval_length _ _, ?_, by simp, ?_, ?_⟩
  · intro e he
    exact (mem_eval c initial e he).2
  · intro e he
    exact ⟨initial, by simp, (mem_eval c initial e he).1⟩
  · intro b hb p hp
    simp only [List.mem_singleton] at hb
    subst hb
    exact ⟨_, eval_mem c hp, le_refl _⟩

/-! ## Iterations without improvement -/

theorem crs2_keeps {c : Settings P α} {it : Nat} {s s' : State P α} {sorted : List Nat}
    (h : crs2 c it s sorted = .ok s') : s'.noImp = s.noImp ∧ s'.bestVal = s.bestVal := by
  rw [crs2] at h
  split at h
  · cases h
  · split at h
    · cases h; exact ⟨rfl, rfl⟩
    · split at h
      · cases h
      · simp only at h
        split at h
        · cases h
        · split at h
          · cases h
          · cases h; exact ⟨rfl, rfl⟩

theorem nelderMead_keeps {c : Settings P α} {s s' : State P α} {sorted : List Nat}
    (h : nelderMead c s sorted = .ok s') : s'.noImp = s.noImp ∧ s'.bestVal = s.bestVal := by
  rw [nelderMead] at h
  split at h
  · split at h
    · cases h
    · split at h
      · simp only at h
        split at h
        · cases h; exact ⟨rfl, rfl⟩
        · split at h
          · cases h; exact ⟨rfl, rfl⟩
          · split at h
            · split at h <;> · cases h; exact ⟨rfl, rfl⟩
            · split at h <;> · cases h; exact ⟨rfl, rfl⟩
      · cases h
  · cases h

/-- The counter of iterations without improvement is right: the lowest value at the start of the
last iteration was known already `noImp` iterations earlier. -/
def Tracked (c : Settings P α) (s : State P α) : Prop :=
  (s.noImp = -1 ∧ s.log.length = 1 ∧ (∃ b ∈ s.log, ∃ p ∈ b, c.f p = s.bestVal)) ∨
  ∃ k : Nat, s.noImp = k ∧ k + 2 ≤ s.log.length ∧
    (∀ b ∈ s.log.dropLast, ∀ p ∈ b, s.bestVal ≤ c.f p) ∧
    ∃ b ∈ s.log.take (s.log.length - 1 - k), ∃ p ∈ b, c.f p = s.bestVal

theorem step_tracked (c : Settings P α) (n it : Nat) (hc : Accepted c n) (s s' : State P α)
    (h : Sound c n s.pts s.calls s.log) (ht : Tracked c s) (hs : step c it s = .ok s') :
    Tracked c s' := by
  obtain ⟨s'', e, ok⟩ := step_ok c n it hc s h
  rw [hs] at e
  cases e
  obtain ⟨bn, g1, -, -⟩ := ok.grown
  unfold step at hs
  cases hb : (c.argsort (s.pts.map Prod.snd)).head? with
  | none => simp [hb] at hs
  | some best =>
    have hlow := head_lowest hc.sort (s.pts.map Prod.snd) hb
    simp only [hb] at hs
    cases he : s.pts[best]? with
    | none => simp [he] at hs
    | some e =>
      simp only [he] at hs
      have hmem := List.mem_of_getElem? he
      have hmin : ∀ b ∈ s.log, ∀ p ∈ b, e.2 ≤ c.f p := by
        intro b hbm p hp
        obtain ⟨e', h1, h2⟩ := h.kept b hbm p hp
        refine le_trans (hlow.2 e.2 (by rw [List.getElem?_map, he]; rfl) e'.2
          (List.mem_map_of_mem h1)) h2
      have hatt : ∃ b ∈ s.log, ∃ p ∈ b, c.f p = e.2 := by
        obtain ⟨b, h1, h2⟩ := h.seen e hmem
        exact ⟨b, h1, e.1, h2, (h.value e hmem).symm⟩
      have hkeep : s'.noImp = (if e.2 < s.bestVal then 0 else s.noImp + 1) ∧
          s'.bestVal = (if e.2 < s.bestVal then e.2 else s.bestVal) := by
        split at hs
        · have := crs2_keeps hs
          split <;> simp_all
        · have := nelderMead_keeps hs
          split <;> simp_all
      right
      by_cases hlt : e.2 < s.bestVal
      · rw [if_pos hlt, if_pos hlt] at hkeep
        have hl : 1 ≤ s.log.length := by
          obtain ⟨b, hb', -⟩ := hatt
          exact List.length_pos_of_mem hb'
        refine ⟨0, by rw [hkeep.1]; rfl, by rw [g1]; simp; omega, ?_, ?_⟩
        · rw [g1, List.dropLast_concat, hkeep.2]
          exact hmin
        · rw [g1, hkeep.2]
          simpa using hatt
      · rw [if_neg hlt, if_neg hlt] at hkeep
        have hle := not_lt.1 hlt
        have hall : ∀ b ∈ s'.log.dropLast, ∀ p ∈ b, s'.bestVal ≤ c.f p := by
          rw [g1, List.dropLast_concat, hkeep.2]
          exact fun b hb' p hp => le_trans hle (hmin b hb' p hp)
        rcases ht with ⟨t1, t2, t3⟩ | ⟨k, t1, t2, t3, t4⟩
        · refine ⟨0, by rw [hkeep.1, t1]; rfl, by rw [g1]; simp [t2], hall, ?_⟩
          rw [g1, hkeep.2]
          simpa using t3
        · refine ⟨k + 1, by rw [hkeep.1, t1]; rfl, by rw [g1]; simp; omega, hall, ?_⟩
          have e1 : (s.log ++ [bn]).length - 1 - (k + 1) = s.log.length - 1 - k := by
            rw [List.length_append, List.length_singleton]; omega
          rw [g1, hkeep.2, List.take_append_of_le_length (by omega)]
          rw [e1]
          exact t4

theorem loop_tracked (c : Settings P α) (n : Nat) (hc : Accepted c n) (k it : Nat) (s s' : State P α)
    (flag : Int) (nit : Nat) (h : Sound c n s.pts s.calls s.log) (ht : Tracked c s)
    (hl : loop c k it s = .ok (s', flag, nit)) : Tracked c s' := by
  induction k generalizing it s with
  | zero =>
    rw [loop] at hl
    cases hl
    exact ht
  | succ k ih =>
    rw [loop] at hl
    split at hl
    · cases hl
      exact ht
    · obtain ⟨s1, e1, ok1⟩ := step_ok c n it hc s h
      rw [e1] at hl
      exact ih (it + 1) s1 ok1.sound (step_tracked c n it hc s s1 h ht e1) hl

theorem init_tracked (c : Settings P α) (initial : List P) (s : State P α)
    (h : init c initial = .ok s) : Tracked c s := by
  unfold init at h
  split at h
  · cases h
  · rename_i i v hv
    cases h
    refine Or.inl ⟨rfl, rfl, initial, by simp, ?_⟩
    have hne : (c.eval initial).map Prod.snd ≠ [] := by
      intro he
      rw [he] at hv
      cases hv
    obtain ⟨j, w, h1, h2, -⟩ := (argmin_spec ((c.eval initial).map Prod.snd) 0).2 hne
    rw [hv] at h1
    cases h1
    obtain ⟨e, he, e2⟩ := List.mem_map.1 (List.mem_of_getElem? h2)
    have := mem_eval c initial e he
    exact ⟨e.1, this.1, by rw [← this.2, e2]⟩

/-! ## An argument sort exists -/

/-- Positions compared by their values. -/
def leAt (l : List α) (i j : Nat) : Bool :=
  match l[i]?, l[j]? with
  | some a, some b => decide (a ≤ b)
  | none, _ => true
  | some _, none => false

/-- A stable argument sort. -/
def stableArgsort (l : List α) : List Nat := sortBy (leAt l) (List.range l.length)

theorem stableArgsort_ok : IsArgsort (stableArgsort (α := α)) := by
  intro l
  refine ⟨perm_sortBy _ _, ?_⟩
  have := pairwise_sortBy (leAt l) (by
    intro a b c h1 h2
    unfold leAt at *
    revert h1 h2
    rcases l[a]? with _ | x <;> rcases l[b]? with _ | y <;> rcases l[c]? with _ | z <;> simp
    exact le_trans) (by
    intro a b
    unfold leAt
    rcases l[a]? with _ | x <;> rcases l[b]? with _ | y <;> simp
    exact le_total x y) (List.range l.length)
  refine this.imp ?_
  intro i j hij a b ha hb
  unfold leAt at hij
  rw [ha, hb] at hij
  simpa using hij

end Verif.Optim
