/-
Lemmas for C20: every schedule of a finite run comes to an end.
-/
import Verif.Generator.Spec
import Mathlib.Data.List.Basic
import Mathlib.Data.Prod.Lex
import Mathlib.Order.WellFounded

namespace Verif.Generator

variable {E : Type}

/-- How far a loader is from its end. -/
def left1 (allDone : Bool) : LPc E → Nat
  | .test => if allDone then 1 else 6
  | .take => 5
  | .load _ => 4
  | .put _ => 3
  | .count => 2
  | .exit => 0

/-- How far the aggregator is from its end or its next file. -/
def aggLeft (c : Cfg E) : APc E → Nat
  | .start => 3
  | .loop => 2
  | .get => 1
  | .add _ evs => c.reps * evs.length + 5
  | .emit evs => evs.length + 4
  | .check => 3
  | .leftover => 1
  | .done => 0

/-- How far the consumer is. -/
def consLeft : CPc → Nat
  | .test => 1
  | _ => 0

/-- What decreases with every action. -/
def measure (c : Cfg E) (s : St E) : Nat ×ₗ Nat ×ₗ Nat ×ₗ Nat ×ₗ Nat :=
  toLex (if s.allDone then 0 else c.files.length - s.count,
    toLex ((s.loaders.map (left1 s.allDone)).sum,
      toLex (s.dataQ.length, toLex (aggLeft c s.agg, 2 * s.finalQ.length + consLeft s.cons))))

theorem lex_right {α β : Type} [LT α] [LT β] {a a' : α} {b b' : β} (h : a = a') (hb : b < b') :
    toLex (a, b) < toLex (a', b') := by
  rw [Prod.Lex.toLex_lt_toLex]
  exact Or.inr ⟨h, hb⟩

theorem lex_left {α β : Type} [LT α] [LT β] {a a' : α} {b b' : β} (h : a < a') :
    toLex (a, b) < toLex (a', b') := by
  rw [Prod.Lex.toLex_lt_toLex]
  exact Or.inl h

theorem sum_map_set {α : Type} (f : α → Nat) : ∀ (l : List α) (i : Nat) (a b : α), l[i]? = some a →
    ((l.set i b).map f).sum + f a = (l.map f).sum + f b
  | [], i, a, b, h => by simp at h
  | x :: l, 0, a, b, h => by
    simp only [List.getElem?_cons_zero, Option.some.injEq] at h
    subst h
    simp
    omega
  | x :: l, i + 1, a, b, h => by
    simp only [List.getElem?_cons_succ] at h
    have := sum_map_set f l i a b h
    simp only [List.set_cons_succ, List.map_cons, List.sum_cons]
    omega

theorem measure_loader {c : Cfg E} {s t : St E} {i : Nat} {p q : LPc E} (h : s.loaders[i]? = some p)
    (ht : t.allDone = s.allDone ∧ t.count = s.count ∧ t.loaders = s.loaders)
    (hq : left1 s.allDone q < left1 s.allDone p) : measure c (t.setLoader i q) < measure c s := by
  obtain ⟨h1, h2, h3⟩ := ht
  unfold measure
  refine lex_right (by simp only [St.setLoader, h1, h2]) (lex_left ?_)
  have := sum_map_set (left1 s.allDone) s.loaders i p q h
  simp only [St.setLoader, h1, h3]
  omega

theorem orders_length {evs o : List E} {n : Nat} (h : Orders evs n o) : o.length = n * evs.length := by
  induction h with
  | zero => simp
  | succ hp _ ih => rw [List.length_append, hp.length_eq, ih, Nat.succ_mul]; omega

/-- As long as the flag is not set, not all files are counted. -/
theorem count_lt {c : Cfg E} (hf : c.files ≠ []) {s : St E} (h : Reach c s) :
    s.allDone = false → s.count < c.files.length := by
  induction h with
  | init => intro _; exact List.length_pos_iff.2 hf
  | @step s s' _ hs ih =>
    cases hs
    case countFile i h =>
      simp only [St.setLoader]
      intro hd
      split_ifs at hd with e
      have := ih hd
      omega
    all_goals exact ih

theorem measure_step {c : Cfg E} (hf : c.files ≠ []) {s s' : St E} (hr : Reach c s) (hs : Step c s s') :
    measure c s' < measure c s := by
  cases hs with
  | loaderExit i h hd =>
    exact measure_loader h ⟨rfl, rfl, rfl⟩ (by simp only [left1, hd, if_true]; omega)
  | loaderEnter i h hd =>
    exact measure_loader h ⟨rfl, rfl, rfl⟩ (by simp [left1, hd])
  | takeFile i f rest h hq =>
    exact measure_loader (t := { s with fileQ := rest }) h ⟨rfl, rfl, rfl⟩ (by simp only [left1]; omega)
  | takeNone i h hq => exact measure_loader h ⟨rfl, rfl, rfl⟩ (by simp only [left1]; omega)
  | loadData i d h => exact measure_loader h ⟨rfl, rfl, rfl⟩ (by simp only [left1]; omega)
  | loadNothing i f h hf => exact measure_loader h ⟨rfl, rfl, rfl⟩ (by simp only [left1]; omega)
  | putData i d h hr =>
    exact measure_loader (t := { s with dataQ := s.dataQ ++ [d] }) h ⟨rfl, rfl, rfl⟩
      (by simp only [left1]; omega)
  | countFile i h =>
    cases hd : s.allDone with
    | false =>
      have := count_lt hf hr hd
      unfold measure
      apply lex_left
      simp only [St.setLoader, hd]
      split_ifs <;> simp_all <;> omega
    | true =>
      unfold measure
      refine lex_right (by simp [St.setLoader, hd]) (lex_left ?_)
      have := sum_map_set (left1 true) s.loaders i .count .test h
      simp only [St.setLoader, hd, ite_self]
      simp only [left1, if_true] at this ⊢
      omega
  | aggStart h =>
    refine lex_right rfl (lex_right rfl (lex_right rfl (lex_left ?_)))
    simp only [h, aggLeft]
    omega
  | aggLoop h hl =>
    refine lex_right rfl (lex_right rfl (lex_right rfl (lex_left ?_)))
    simp only [h, aggLeft]
    omega
  | aggEnd h hl =>
    refine lex_right rfl (lex_right rfl (lex_right rfl (lex_left ?_)))
    simp only [h, aggLeft]
    omega
  | aggGet d rest h hq =>
    refine lex_right rfl (lex_right rfl (lex_left ?_))
    simp [hq]
  | aggAdd n evs d rest h hw hl hq =>
    refine lex_right rfl (lex_right rfl (lex_left ?_))
    simp [hq]
  | aggOrder n evs stream h hw ho =>
    refine lex_right rfl (lex_right rfl (lex_right rfl (lex_left ?_)))
    simp only [h, aggLeft, orders_length ho]
    omega
  | aggEvent e rest h hb =>
    refine lex_right rfl (lex_right rfl (lex_right rfl (lex_left ?_)))
    simp [h, aggLeft]
  | aggBatch e rest h hb hr =>
    refine lex_right rfl (lex_right rfl (lex_right rfl (lex_left ?_)))
    simp [h, aggLeft]
  | aggEmitted h =>
    refine lex_right rfl (lex_right rfl (lex_right rfl (lex_left ?_)))
    simp [h, aggLeft]
  | aggCheck h =>
    refine lex_right rfl (lex_right rfl (lex_right rfl (lex_left ?_)))
    simp [h, aggLeft]
  | aggNoLeftover h hp =>
    refine lex_right rfl (lex_right rfl (lex_right rfl (lex_left ?_)))
    simp [h, aggLeft]
  | aggLeftover h hp hr =>
    refine lex_right rfl (lex_right rfl (lex_right rfl (lex_left ?_)))
    simp [h, aggLeft]
  | consGo h hl =>
    refine lex_right rfl (lex_right rfl (lex_right rfl (lex_right rfl ?_)))
    simp [h, consLeft]
  | consStop h hl hq =>
    refine lex_right rfl (lex_right rfl (lex_right rfl (lex_right rfl ?_)))
    simp [h, consLeft]
  | consGet b rest h hq =>
    refine lex_right rfl (lex_right rfl (lex_right rfl (lex_right rfl ?_)))
    simp only [h, consLeft, hq, List.length_cons]
    omega

theorem ends {c : Cfg E} (hf : c.files ≠ []) (run : Nat → St E) (h0 : run 0 = init c) :
    ∃ t, ¬ Step c (run t) (run (t + 1)) := by
  by_contra hx
  push Not at hx
  have hr : ∀ t, Reach c (run t) := by
    intro t
    induction t with
    | zero => rw [h0]; exact .init
    | succ t ih => exact .step ih (hx t)
  obtain ⟨n, hn⟩ := WellFounded.not_rel_apply_succ (r := (· < ·)) fun n => measure c (run n)
  exact hn (measure_step hf (hr n) (hx n))

/-- From every state some schedule leads to an end. -/
theorem stuck_reachable {c : Cfg E} (hf : c.files ≠ []) {s : St E} (h : Reach c s) :
    ∃ s', Relation.ReflTransGen (Step c) s s' ∧ Reach c s' ∧ Stuck c s' := by
  generalize hm : measure c s = m
  induction m using WellFoundedLT.induction generalizing s with
  | ind m ih =>
    by_cases hx : Stuck c s
    · exact ⟨s, .refl, h, hx⟩
    · unfold Stuck at hx
      push Not at hx
      obtain ⟨s1, h1⟩ := hx
      obtain ⟨s', a, b, d⟩ := ih _ (by rw [← hm]; exact measure_step hf h h1) (.step h h1) rfl
      exact ⟨s', .head h1 a, b, d⟩

end Verif.Generator
