/-
Lemmas for C20.
-/
import Verif.Generator.Spec
import Mathlib.Data.List.Basic

namespace Verif.Generator

variable {E : Type}

/-! ### conservation -/

def loaderRaw : LPc E → List E
  | .load (some (some d)) => d
  | .put d => d
  | _ => []

def aggRaw : APc E → List E
  | .add _ evs => evs
  | _ => []

def aggOut : APc E → List E
  | .emit evs => evs
  | _ => []

/-- Number of events with `p` that have not been ordered yet. -/
def rawCount (s : St E) (p : E → Bool) : Nat :=
  (s.fileQ.flatMap (fun f => f.getD [])).countP p + (s.loaders.flatMap loaderRaw).countP p +
    s.dataQ.flatten.countP p + (aggRaw s.agg).countP p

/-- Number of events with `p` that have been ordered. -/
def outCount (s : St E) (p : E → Bool) : Nat :=
  s.got.flatten.countP p + s.finalQ.flatten.countP p + s.pending.countP p + (aggOut s.agg).countP p

theorem set_count {α : Type} (l : List α) (i : Nat) (a b : α) (f : α → List E) (p : E → Bool)
    (h : l[i]? = some a) :
    ((l.set i b).flatMap f).countP p + (f a).countP p = (l.flatMap f).countP p + (f b).countP p := by
  induction l generalizing i with
  | nil => simp at h
  | cons x l ih =>
    cases i with
    | zero =>
      simp only [List.getElem?_cons_zero, Option.some.injEq] at h
      subst h
      simp only [List.set_cons_zero, List.flatMap_cons, List.countP_append]
      omega
    | succ i =>
      have := ih i (by simpa using h)
      simp only [List.set_cons_succ, List.flatMap_cons, List.countP_append]
      omega

theorem Orders.count {evs : List E} {n : Nat} {o : List E} (h : Orders evs n o) (p : E → Bool) :
    o.countP p = n * evs.countP p := by
  induction h with
  | zero => simp
  | succ hp _ ih => rw [List.countP_append, hp.countP_eq, ih, Nat.succ_mul, Nat.add_comm]

theorem conserve_step {c : Cfg E} {s s' : St E} (h : Step c s s') (p : E → Bool) :
    outCount s' p + c.reps * rawCount s' p = outCount s p + c.reps * rawCount s p := by
  cases h
  case loaderExit i h hd =>
    have := set_count s.loaders i _ .exit loaderRaw p h
    simp only [loaderRaw, List.countP_nil] at this
    simp only [outCount, rawCount, St.setLoader]
    rw [show ((s.loaders.set i .exit).flatMap loaderRaw).countP p =
      (s.loaders.flatMap loaderRaw).countP p by omega]
  case loaderEnter i h hd =>
    have := set_count s.loaders i _ .take loaderRaw p h
    simp only [loaderRaw, List.countP_nil] at this
    simp only [outCount, rawCount, St.setLoader]
    rw [show ((s.loaders.set i .take).flatMap loaderRaw).countP p =
      (s.loaders.flatMap loaderRaw).countP p by omega]
  case takeFile i f rest h hq =>
    have := set_count s.loaders i _ (.load (some f)) loaderRaw p h
    simp only [loaderRaw, List.countP_nil] at this
    simp only [outCount, rawCount, St.setLoader, hq, List.flatMap_cons, List.countP_append, Nat.mul_add]
    have h2 : (loaderRaw (.load (some f))).countP p = (f.getD []).countP p := by
      cases f <;> rfl
    have h3 : ((s.loaders.set i (.load (some f))).flatMap loaderRaw).countP p =
      (s.loaders.flatMap loaderRaw).countP p + (f.getD []).countP p := by
      cases f <;> simpa [loaderRaw] using this
    rw [h3, Nat.mul_add]
    omega
  case takeNone i h hq =>
    have := set_count s.loaders i _ (.load none) loaderRaw p h
    simp only [loaderRaw, List.countP_nil] at this
    simp only [outCount, rawCount, St.setLoader]
    rw [show ((s.loaders.set i (.load none)).flatMap loaderRaw).countP p =
      (s.loaders.flatMap loaderRaw).countP p by omega]
  case loadData i d h =>
    have := set_count s.loaders i _ (.put d) loaderRaw p h
    simp only [loaderRaw] at this
    simp only [outCount, rawCount, St.setLoader]
    rw [show ((s.loaders.set i (.put d)).flatMap loaderRaw).countP p =
      (s.loaders.flatMap loaderRaw).countP p by omega]
  case loadNothing i f h hf =>
    have := set_count s.loaders i _ .count loaderRaw p h
    have h2 : loaderRaw (.load f : LPc E) = [] := by rcases hf with rfl | rfl <;> rfl
    simp only [h2, List.countP_nil] at this
    simp only [loaderRaw, List.countP_nil] at this
    simp only [outCount, rawCount, St.setLoader]
    rw [show ((s.loaders.set i .count).flatMap loaderRaw).countP p =
      (s.loaders.flatMap loaderRaw).countP p by omega]
  case putData i d h hr =>
    have := set_count s.loaders i _ .count loaderRaw p h
    simp only [loaderRaw, List.countP_nil] at this
    simp only [outCount, rawCount, St.setLoader, List.flatten_append, List.countP_append]
    rw [Nat.add_zero] at this
    rw [← this]
    simp only [List.flatten_cons, List.flatten_nil, List.append_nil, Nat.mul_add]
    omega
  case countFile i h =>
    have := set_count s.loaders i _ .test loaderRaw p h
    simp only [loaderRaw, List.countP_nil] at this
    simp only [outCount, rawCount, St.setLoader]
    rw [show ((s.loaders.set i .test).flatMap loaderRaw).countP p =
      (s.loaders.flatMap loaderRaw).countP p by omega]
  case aggStart h => simp [outCount, rawCount, h, aggRaw, aggOut]
  case aggLoop h hl => simp [outCount, rawCount, h, aggRaw, aggOut]
  case aggEnd h hl => simp [outCount, rawCount, h, aggRaw, aggOut]
  case aggGet d rest h hq =>
    simp only [outCount, rawCount, h, aggRaw, aggOut, hq, List.flatten_cons, List.countP_append,
      List.countP_nil, Nat.mul_add]
    omega
  case aggAdd n evs d rest h hw hl hq =>
    simp only [outCount, rawCount, h, aggRaw, aggOut, hq, List.flatten_cons, List.countP_append,
      List.countP_nil, Nat.mul_add]
    omega
  case aggOrder n evs stream h hw ho =>
    simp only [outCount, rawCount, h, aggRaw, aggOut, List.countP_nil, Nat.mul_add, ho.count p]
    omega
  case aggEvent e rest h hb =>
    simp only [outCount, rawCount, h, aggRaw, aggOut, List.countP_append, List.countP_cons,
      List.countP_nil]
    omega
  case aggBatch e rest h hb hr =>
    simp only [outCount, rawCount, h, aggRaw, aggOut, List.countP_append, List.countP_cons,
      List.countP_nil, List.flatten_append, List.flatten_cons, List.flatten_nil]
    omega
  case aggEmitted h => simp [outCount, rawCount, h, aggRaw, aggOut]
  case aggCheck h => simp [outCount, rawCount, h, aggRaw, aggOut]
  case aggNoLeftover h hp => simp [outCount, rawCount, h, aggRaw, aggOut]
  case aggLeftover h hp hr =>
    simp only [outCount, rawCount, h, aggRaw, aggOut, List.countP_append,
      List.countP_nil, List.flatten_append, List.flatten_cons, List.flatten_nil]
    omega
  case consGo h hl => simp [outCount, rawCount]
  case consStop h hl hq => simp [outCount, rawCount]
  case consGet b rest h hq =>
    simp only [outCount, rawCount, hq, List.countP_append,
      List.countP_nil, List.flatten_append, List.flatten_cons, List.flatten_nil]
    omega

theorem replicate_flatten_count (n : Nat) (l : List E) (p : E → Bool) :
    ((List.replicate n l).flatten).countP p = n * l.countP p := by
  induction n with
  | zero => simp
  | succ n ih =>
    rw [List.replicate_succ, List.flatten_cons, List.countP_append, ih, Nat.succ_mul, Nat.add_comm]

theorem conserve {c : Cfg E} {s : St E} (h : Reach c s) (p : E → Bool) :
    outCount s p + c.reps * rawCount s p = (expected c).countP p := by
  induction h with
  | init =>
    have : ((List.replicate c.jobs (LPc.test : LPc E)).flatMap loaderRaw) = [] := by
      rw [List.flatMap_eq_nil_iff]
      intro l hl
      rw [List.eq_of_mem_replicate hl]; rfl
    rw [expected, replicate_flatten_count]
    simp [outCount, rawCount, init, this, aggRaw, aggOut, allEvents]
  | step _ hs ih => rw [conserve_step hs, ih]

theorem perm_of_countP (a b : List E) (h : ∀ p : E → Bool, a.countP p = b.countP p) : a.Perm b := by
  classical
  rw [List.perm_iff_count]
  intro x
  exact h _

/-! ### batches -/

/-- Facts that hold for any number of jobs. -/
structure Inv (c : Cfg E) (s : St E) : Prop where
  pend : s.pending.length < c.batchSize
  full : s.agg ≠ .done → ∀ b ∈ s.got ++ s.finalQ, b.length = c.batchSize
  last : s.agg = .done → (∀ b ∈ (s.got ++ s.finalQ).dropLast, b.length = c.batchSize) ∧
    (∀ b ∈ s.got ++ s.finalQ, 0 < b.length ∧ b.length ≤ c.batchSize) ∧ s.pending = []
  stop : s.left = false → s.agg = .loop ∨ s.agg = .leftover ∨ s.agg = .done
  ended : s.agg = .leftover ∨ s.agg = .done → s.left = false
  consumer : s.cons = .done → s.left = false ∧ (s.agg ≠ .done → s.finalQ = []) ∧
    s.finalQ.flatten.length + s.pending.length < c.batchSize

theorem inv_init (c : Cfg E) (hb : 0 < c.batchSize) : Inv c (init c) := by
  constructor <;> simp [init, hb]

theorem inv_step {c : Cfg E} (hb : 0 < c.batchSize) {s s' : St E} (h : Step c s s') (i : Inv c s) :
    Inv c s' := by
  obtain ⟨h1, h2, h3, h4, h5, h6⟩ := i
  cases h
  case loaderExit => exact ⟨h1, h2, h3, h4, h5, h6⟩
  case loaderEnter => exact ⟨h1, h2, h3, h4, h5, h6⟩
  case takeFile => exact ⟨h1, h2, h3, h4, h5, h6⟩
  case takeNone => exact ⟨h1, h2, h3, h4, h5, h6⟩
  case loadData => exact ⟨h1, h2, h3, h4, h5, h6⟩
  case loadNothing => exact ⟨h1, h2, h3, h4, h5, h6⟩
  case putData => exact ⟨h1, h2, h3, h4, h5, h6⟩
  case countFile => exact ⟨h1, h2, h3, h4, h5, h6⟩
  case aggStart h =>
    have hl : s.left = true := by
      cases hl : s.left with
      | true => rfl
      | false => rcases h4 hl with e | e | e <;> rw [h] at e <;> cases e
    refine ⟨h1, fun _ => h2 (by rw [h]; simp), (fun e => by cases e), fun _ => Or.inl rfl,
      (fun e => by rcases e with e | e <;> cases e), fun hc => ?_⟩
    have := (h6 hc).1
    rw [hl] at this; cases this
  case aggLoop h hl =>
    refine ⟨h1, fun _ => h2 (by rw [h]; simp), (fun e => by cases e), fun e => ?_,
      (fun e => by rcases e with e | e <;> cases e), fun hc => ?_⟩
    · rw [show s.left = false from e] at hl; cases hl
    · have := (h6 hc).1
      rw [hl] at this; cases this
  case aggEnd h hl =>
    refine ⟨h1, fun _ => h2 (by rw [h]; simp), (fun e => by cases e), fun e => Or.inr (Or.inl rfl),
      fun e => hl, fun hc => ?_⟩
    obtain ⟨a, b, d⟩ := h6 hc
    exact ⟨a, fun _ => b (by rw [h]; simp), d⟩
  case aggGet d rest h hq =>
    have hl : s.left = true := by
      cases hl : s.left with
      | true => rfl
      | false => rcases h4 hl with e | e | e <;> rw [h] at e <;> cases e
    refine ⟨h1, fun _ => h2 (by rw [h]; simp), (fun e => by cases e), fun e => ?_,
      (fun e => by rcases e with e | e <;> cases e), fun hc => ?_⟩
    · rw [show s.left = false from e] at hl; cases hl
    · have := (h6 hc).1
      rw [hl] at this; cases this
  case aggAdd n evs d rest h hw hl hq =>
    refine ⟨h1, fun _ => h2 (by rw [h]; simp), (fun e => by cases e), fun e => ?_,
      (fun e => by rcases e with e | e <;> cases e), fun hc => ?_⟩
    · rw [show s.left = false from e] at hl; cases hl
    · have := (h6 hc).1
      rw [hl] at this; cases this
  case aggOrder n evs stream h hw ho =>
    have hl : s.left = true := by
      cases hl : s.left with
      | true => rfl
      | false => rcases h4 hl with e | e | e <;> rw [h] at e <;> cases e
    refine ⟨h1, fun _ => h2 (by rw [h]; simp), (fun e => by cases e), fun e => ?_,
      (fun e => by rcases e with e | e <;> cases e), fun hc => ?_⟩
    · rw [show s.left = false from e] at hl; cases hl
    · have := (h6 hc).1
      rw [hl] at this; cases this
  case aggEvent e rest h hbs =>
    have hl : s.left = true := by
      cases hl : s.left with
      | true => rfl
      | false => rcases h4 hl with e | e | e <;> rw [h] at e <;> cases e
    refine ⟨by simp; omega, fun _ => h2 (by rw [h]; simp), (fun e => by cases e), fun e => ?_,
      (fun e => by rcases e with e | e <;> cases e), fun hc => ?_⟩
    · rw [show s.left = false from e] at hl; cases hl
    · have := (h6 hc).1
      rw [hl] at this; cases this
  case aggBatch e rest h hbs hr =>
    have hl : s.left = true := by
      cases hl : s.left with
      | true => rfl
      | false => rcases h4 hl with e | e | e <;> rw [h] at e <;> cases e
    refine ⟨by simpa using hb, fun _ b hbm => ?_, (fun e => by cases e), fun e => ?_,
      (fun e => by rcases e with e | e <;> cases e), fun hc => ?_⟩
    · simp only [← List.append_assoc, List.mem_append, List.mem_singleton] at hbm
      rcases hbm with hbm | hbm
      · exact h2 (by rw [h]; simp) b (by simpa using hbm)
      · rw [hbm]; simpa using hbs
    · rw [show s.left = false from e] at hl; cases hl
    · have := (h6 hc).1
      rw [hl] at this; cases this
  case aggEmitted h =>
    have hl : s.left = true := by
      cases hl : s.left with
      | true => rfl
      | false => rcases h4 hl with e | e | e <;> rw [h] at e <;> cases e
    refine ⟨h1, fun _ => h2 (by rw [h]; simp), (fun e => by cases e), fun e => ?_,
      (fun e => by rcases e with e | e <;> cases e), fun hc => ?_⟩
    · rw [show s.left = false from e] at hl; cases hl
    · have := (h6 hc).1
      rw [hl] at this; cases this
  case aggCheck h =>
    have hl : s.left = true := by
      cases hl : s.left with
      | true => rfl
      | false => rcases h4 hl with e | e | e <;> rw [h] at e <;> cases e
    refine ⟨h1, fun _ => h2 (by rw [h]; simp), (fun e => by cases e), fun _ => Or.inl rfl,
      (fun e => by rcases e with e | e <;> cases e), fun hc => ?_⟩
    have := (h6 hc).1
    rw [hl] at this; cases this
  case aggNoLeftover h hp =>
    have hfull := h2 (by rw [h]; simp)
    refine ⟨h1, fun e => absurd rfl e, fun _ => ⟨fun b hbm => hfull b (List.dropLast_subset _ hbm),
      fun b hbm => by rw [hfull b hbm]; exact ⟨hb, Nat.le_refl _⟩, hp⟩, fun _ => Or.inr (Or.inr rfl),
      fun _ => h5 (Or.inl h), fun hc => ?_⟩
    obtain ⟨a, b, d⟩ := h6 hc
    exact ⟨a, fun e => absurd rfl e, d⟩
  case aggLeftover h hp hr =>
    have hfull := h2 (by rw [h]; simp)
    refine ⟨by simpa using hb, fun e => absurd rfl e, fun _ => ⟨fun b hbm => ?_, fun b hbm => ?_, rfl⟩,
      fun _ => Or.inr (Or.inr rfl), fun _ => h5 (Or.inl h), fun hc => ?_⟩
    · rw [← List.append_assoc, List.dropLast_concat] at hbm
      exact hfull b hbm
    · rw [← List.append_assoc, List.mem_append, List.mem_singleton] at hbm
      rcases hbm with hbm | hbm
      · rw [hfull b hbm]; exact ⟨hb, Nat.le_refl _⟩
      · rw [hbm]; exact ⟨List.length_pos_iff.2 hp, by omega⟩
    · obtain ⟨a, b, d⟩ := h6 hc
      refine ⟨a, fun e => absurd rfl e, ?_⟩
      simp only [List.flatten_append, List.flatten_cons, List.flatten_nil, List.append_nil,
        List.length_append, List.length_nil]
      omega
  case consGo h hl => exact ⟨h1, h2, h3, h4, h5, fun e => by cases e⟩
  case consStop h hl hq =>
    refine ⟨h1, h2, h3, h4, h5, fun _ => ⟨hl, fun _ => hq, ?_⟩⟩
    simp only [hq, List.flatten_nil, List.length_nil]
    omega
  case consGet b rest h hq =>
    have e : s.got ++ [b] ++ rest = s.got ++ s.finalQ := by rw [hq]; simp
    refine ⟨h1, fun hd => ?_, fun hd => ?_, h4, h5, fun e => by cases e⟩
    · simp only [e]; exact h2 hd
    · simp only [e]; exact h3 hd

theorem inv_reach {c : Cfg E} (hb : 0 < c.batchSize) {s : St E} (h : Reach c s) : Inv c s := by
  induction h with
  | init => exact inv_init c hb
  | step _ hs ih => exact inv_step hb hs ih

/-! ### one loader -/

def hold : LPc E → Nat
  | .load _ => 1
  | .put _ => 1
  | .count => 1
  | _ => 0

/-- Facts that hold with one loader. -/
structure One (c : Cfg E) (s : St E) : Prop where
  loader : ∃ l, s.loaders = [l] ∧ (c.files ≠ [] →
    s.count + s.fileQ.length + hold l = c.files.length ∧ l ≠ .load none ∧
    (l = .take → s.fileQ ≠ []) ∧ (s.allDone = true ↔ s.count = c.files.length))
  empty : c.files = [] → s.allDone = false
  left : s.left = false → s.allDone = true ∧ s.dataQ = []

theorem one_init (c : Cfg E) (hj : c.jobs = 1) : One c (init c) := by
  refine ⟨⟨.test, by simp [init, hj], fun hf => ⟨by simp [init, hold], by simp, by simp, ?_⟩⟩,
    fun _ => rfl, fun h => by cases h⟩
  simp only [init, Bool.false_eq_true, false_iff]
  exact fun e => hf (List.length_eq_zero_iff.1 e.symm)

theorem one_step {c : Cfg E} {s s' : St E} (h : Step c s s') (o : One c s) : One c s' := by
  obtain ⟨⟨l, h1, h2⟩, h3, h4⟩ := o
  have idx : ∀ (i : Nat) a, s.loaders[i]? = some a → i = 0 ∧ a = l := by
    intro i a h
    rw [h1] at h
    cases i with
    | zero => simp at h; exact ⟨rfl, h.symm⟩
    | succ i => simp at h
  cases h
  case loaderExit i h hd =>
    obtain ⟨rfl, rfl⟩ := idx i _ h
    refine ⟨⟨.exit, by simp [St.setLoader, h1], fun hf => ?_⟩, h3, h4⟩
    obtain ⟨a, b, d, e⟩ := h2 hf
    exact ⟨by simpa [hold, St.setLoader] using a, by simp, by simp, e⟩
  case loaderEnter i h hd =>
    obtain ⟨rfl, rfl⟩ := idx i _ h
    refine ⟨⟨.take, by simp [St.setLoader, h1], fun hf => ?_⟩, h3, h4⟩
    obtain ⟨a, b, d, e⟩ := h2 hf
    refine ⟨by simpa [hold, St.setLoader] using a, by simp, fun _ hq => ?_, e⟩
    have : s.fileQ = [] := hq
    rw [this] at a
    have := e.2 (by simpa [hold, St.setLoader] using a)
    rw [hd] at this; cases this
  case takeFile i f rest h hq =>
    obtain ⟨rfl, rfl⟩ := idx i _ h
    refine ⟨⟨.load (some f), by simp [St.setLoader, h1], fun hf => ?_⟩, h3, h4⟩
    obtain ⟨a, b, d, e⟩ := h2 hf
    rw [hq] at a
    simp only [hold, List.length_cons] at a
    exact ⟨by simp only [St.setLoader, hold]; omega, by simp, by simp, e⟩
  case takeNone i h hq =>
    obtain ⟨rfl, rfl⟩ := idx i _ h
    refine ⟨⟨.load none, by simp [St.setLoader, h1], fun hf => ?_⟩, h3, h4⟩
    obtain ⟨a, b, d, e⟩ := h2 hf
    exact absurd hq (d rfl)
  case loadData i d h =>
    obtain ⟨rfl, rfl⟩ := idx i _ h
    refine ⟨⟨.put d, by simp [St.setLoader, h1], fun hf => ?_⟩, h3, h4⟩
    obtain ⟨a, b, d, e⟩ := h2 hf
    exact ⟨by simpa [hold, St.setLoader] using a, by simp, by simp, e⟩
  case loadNothing i f h hf' =>
    obtain ⟨rfl, rfl⟩ := idx i _ h
    refine ⟨⟨.count, by simp [St.setLoader, h1], fun hf => ?_⟩, h3, h4⟩
    obtain ⟨a, b, d, e⟩ := h2 hf
    exact ⟨by simpa [hold, St.setLoader] using a, by simp, by simp, e⟩
  case putData i d h hr =>
    obtain ⟨rfl, rfl⟩ := idx i _ h
    refine ⟨⟨.count, by simp [St.setLoader, h1], fun hf => ?_⟩, h3, fun hl => ?_⟩
    · obtain ⟨a, b, d, e⟩ := h2 hf
      exact ⟨by simpa [hold, St.setLoader] using a, by simp, by simp, e⟩
    · have ⟨hall, _⟩ := h4 hl
      have hf : c.files ≠ [] := fun e => by rw [h3 e] at hall; cases hall
      obtain ⟨a, b, d, e⟩ := h2 hf
      have := e.1 hall
      simp only [hold] at a
      omega
  case countFile i h =>
    obtain ⟨rfl, rfl⟩ := idx i _ h
    refine ⟨⟨.test, by simp [St.setLoader, h1], fun hf => ?_⟩, fun e => ?_, fun hl => ?_⟩
    · obtain ⟨a, b, d, e⟩ := h2 hf
      simp only [hold] at a
      refine ⟨by simp only [St.setLoader, hold]; omega, by simp, by simp, ?_⟩
      simp only [St.setLoader]
      by_cases hc : s.count + 1 = c.files.length
      · simp [hc]
      · simp only [hc, iff_false, Bool.not_eq_true]
        cases hd : s.allDone with
        | false => rfl
        | true => have := e.1 hd; omega
    · simp only [St.setLoader, e, List.length_nil]
      rw [if_neg (by omega)]
      exact h3 e
    · have ⟨hall, hq⟩ := h4 hl
      refine ⟨?_, hq⟩
      simp only [St.setLoader, hall, ite_self]
  case aggStart h =>
    refine ⟨⟨l, h1, h2⟩, h3, fun hl => ?_⟩
    simp only [Bool.and_eq_false_iff, Bool.not_eq_eq_eq_not, Bool.not_false, Bool.and_eq_true,
      List.isEmpty_iff] at hl
    rcases hl with hl | hl
    · exact h4 hl
    · exact hl
  case aggCheck h =>
    refine ⟨⟨l, h1, h2⟩, h3, fun hl => ?_⟩
    simp only [Bool.and_eq_false_iff, Bool.not_eq_eq_eq_not, Bool.not_false, Bool.and_eq_true,
      List.isEmpty_iff] at hl
    rcases hl with hl | hl
    · exact h4 hl
    · exact hl
  case aggGet d rest h hq =>
    refine ⟨⟨l, h1, h2⟩, h3, fun hl => ?_⟩
    have := (h4 hl).2
    rw [hq] at this; cases this
  case aggAdd n evs d rest h hw hl' hq =>
    refine ⟨⟨l, h1, h2⟩, h3, fun hl => ?_⟩
    have := (h4 hl).2
    rw [hq] at this; cases this
  all_goals exact ⟨⟨l, h1, h2⟩, h3, h4⟩

theorem one_reach {c : Cfg E} (hj : c.jobs = 1) {s : St E} (h : Reach c s) : One c s := by
  induction h with
  | init => exact one_init c hj
  | step _ hs ih => exact one_step hs ih

/-- With one loader nothing is left to be loaded when the aggregator stops. -/
theorem one_rawCount {c : Cfg E} (hb : 0 < c.batchSize) (hj : c.jobs = 1) {s : St E}
    (h : Reach c s) (hl : s.left = false) (p : E → Bool) : rawCount s p = 0 ∧ aggOut s.agg = [] := by
  obtain ⟨⟨l, h1, h2⟩, h3, h4⟩ := one_reach hj h
  have hi := inv_reach hb h
  obtain ⟨hall, hq⟩ := h4 hl
  have hf : c.files ≠ [] := fun e => by rw [h3 e] at hall; cases hall
  obtain ⟨a, b, d, e⟩ := h2 hf
  have := e.1 hall
  have hq0 : s.fileQ = [] := List.length_eq_zero_iff.1 (by omega)
  have hl0 : loaderRaw l = [] := by
    have : hold l = 0 := by omega
    cases l <;> simp_all [hold, loaderRaw]
  have hagg : aggRaw s.agg = [] ∧ aggOut s.agg = [] := by
    rcases hi.stop hl with e | e | e <;> rw [e] <;> exact ⟨rfl, rfl⟩
  simp [rawCount, hq0, h1, hl0, hq, hagg]

end Verif.Generator
