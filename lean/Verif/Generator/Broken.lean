/-
A finite run in which loading a file may raise: `file_loader`, `egenerator/data/handler/base.py:717-808`.
-/
import Verif.Generator.Spec

namespace Verif.Generator

variable {E : Type}

/-- One action of one process if loading a file with the content `bad` raises an exception
(data/handler/base.py:756). The process of the loader ends; `num_files_processed` is not incremented and nobody is told. An ended
process does nothing, like one that has left its loop. -/
inductive StepB (c : Cfg E) (bad : List E) : St E → St E → Prop
  | good {s s' : St E} (h : Step c s s') (hg : ∀ i : Nat, s.loaders[i]? = some (LPc.load (some (some bad))) →
      s'.loaders[i]? = some (LPc.load (some (some bad)))) : StepB c bad s s'
  | die (s : St E) (i : Nat) (h : s.loaders[i]? = some (.load (some (some bad)))) :
      StepB c bad s (s.setLoader i .exit)

/-- The states that some schedule reaches. -/
inductive ReachB (c : Cfg E) (bad : List E) : St E → Prop
  | init : ReachB c bad (init c)
  | step {s s' : St E} : ReachB c bad s → StepB c bad s s' → ReachB c bad s'

/-- A loader that has taken a file and not counted it. -/
def busy : LPc E → Nat
  | .load (some _) => 1
  | .put _ => 1
  | .count => 1
  | _ => 0

/-- One loader, and a file that cannot be loaded. -/
structure InvB (c : Cfg E) (bad : List E) (s : St E) : Prop where
  undone : s.allDone = false ∧ s.left = true ∧ s.cons ≠ .done
  loader : ∃ p, s.loaders = [p] ∧
    ((some bad ∈ s.fileQ ∧ p ≠ .load none ∧ s.count + s.fileQ.length + busy p = c.files.length) ∨
      p = .load (some (some bad)) ∨ p = .exit)

theorem invB_init {c : Cfg E} {bad : List E} (hj : c.jobs = 1) (hb : some bad ∈ c.files) :
    InvB c bad (init c) :=
  ⟨⟨rfl, rfl, by simp [init]⟩, .test, by simp [init, hj], Or.inl ⟨hb, by simp, by simp [init, busy]⟩⟩

theorem only {s : St E} {p q : LPc E} {i : Nat} (hl : s.loaders = [p]) (h : s.loaders[i]? = some q) :
    i = 0 ∧ p = q := by
  rw [hl] at h
  cases i with
  | zero => simpa using h
  | succ i => simp at h

theorem invB_step {c : Cfg E} {bad : List E} {s s' : St E} (v : InvB c bad s) (h : StepB c bad s s') :
    InvB c bad s' := by
  obtain ⟨⟨u1, u2, u3⟩, p, hl, hp⟩ := v
  cases h with
  | die i h =>
    obtain ⟨rfl, rfl⟩ := only hl h
    exact ⟨⟨u1, u2, u3⟩, .exit, by simp [St.setLoader, hl], Or.inr (Or.inr rfl)⟩
  | good hs hg =>
    cases hs with
    | loaderExit i h hd => rw [u1] at hd; cases hd
    | loaderEnter i h hd =>
      obtain ⟨rfl, rfl⟩ := only hl h
      refine ⟨⟨u1, u2, u3⟩, .take, by simp [St.setLoader, hl], ?_⟩
      rcases hp with ⟨a, -, b⟩ | hp | hp
      · exact Or.inl ⟨a, by simp, b⟩
      · cases hp
      · cases hp
    | takeFile i f rest h hq =>
      obtain ⟨rfl, rfl⟩ := only hl h
      refine ⟨⟨u1, u2, u3⟩, .load (some f), by simp [St.setLoader, hl], ?_⟩
      rcases hp with ⟨a, -, b⟩ | hp | hp
      · rw [hq] at a b
        rcases List.mem_cons.1 a with e | e
        · subst e; exact Or.inr (Or.inl rfl)
        · refine Or.inl ⟨e, by simp, ?_⟩
          simp only [St.setLoader, busy, List.length_cons] at *
          omega
      · cases hp
      · cases hp
    | takeNone i h hq =>
      obtain ⟨rfl, rfl⟩ := only hl h
      rcases hp with ⟨a, -, b⟩ | hp | hp
      · rw [hq] at a; simp at a
      · cases hp
      · cases hp
    | loadData i d h =>
      obtain ⟨rfl, rfl⟩ := only hl h
      refine ⟨⟨u1, u2, u3⟩, .put d, by simp [St.setLoader, hl], ?_⟩
      rcases hp with ⟨a, -, b⟩ | hp | hp
      · exact Or.inl ⟨a, by simp, b⟩
      · simp only [LPc.load.injEq, Option.some.injEq] at hp
        subst hp
        have := hg 0 h
        simp [St.setLoader, hl] at this
      · cases hp
    | loadNothing i f h hf =>
      obtain ⟨rfl, rfl⟩ := only hl h
      refine ⟨⟨u1, u2, u3⟩, .count, by simp [St.setLoader, hl], ?_⟩
      rcases hp with ⟨a, b, d⟩ | hp | hp
      · refine Or.inl ⟨a, by simp, ?_⟩
        rcases hf with rfl | rfl
        · exact absurd rfl b
        · exact d
      · simp only [LPc.load.injEq] at hp
        subst hp
        rcases hf with e | e <;> simp at e
      · cases hp
    | putData i d h hr =>
      obtain ⟨rfl, rfl⟩ := only hl h
      refine ⟨⟨u1, u2, u3⟩, .count, by simp [St.setLoader, hl], ?_⟩
      rcases hp with ⟨a, b, d⟩ | hp | hp
      · exact Or.inl ⟨a, by simp, d⟩
      · cases hp
      · cases hp
    | countFile i h =>
      obtain ⟨rfl, rfl⟩ := only hl h
      rcases hp with ⟨a, b, d⟩ | hp | hp
      · have hlen : 0 < s.fileQ.length := List.length_pos_iff.2 (List.ne_nil_of_mem a)
        simp only [busy] at d
        refine ⟨⟨?_, u2, u3⟩, .test, by simp [St.setLoader, hl], Or.inl ⟨a, by simp, ?_⟩⟩
        · simp only [St.setLoader, u1]
          rw [if_neg (by omega)]
        · simp only [St.setLoader, busy]
          omega
      · cases hp
      · cases hp
    | aggStart h => exact ⟨⟨u1, by simp [u1, u2], u3⟩, p, hl, hp⟩
    | aggCheck h => exact ⟨⟨u1, by simp [u1, u2], u3⟩, p, hl, hp⟩
    | consGo h hx => exact ⟨⟨u1, u2, by simp⟩, p, hl, hp⟩
    | consStop h hx hq => rw [u2] at hx; cases hx
    | consGet b rest h hq => exact ⟨⟨u1, u2, by simp⟩, p, hl, hp⟩
    | _ => exact ⟨⟨u1, u2, u3⟩, p, hl, hp⟩

theorem reachB_inv {c : Cfg E} {bad : List E} (hj : c.jobs = 1) (hb : some bad ∈ c.files) {s : St E}
    (h : ReachB c bad s) : InvB c bad s := by
  induction h with
  | init => exact invB_init hj hb
  | step _ hs ih => exact invB_step ih hs

end Verif.Generator
