/-
Lemmas for C134 and C135: one job gives one order; jobs that fail give finitely many batches.
-/
import Verif.Endless.Lemmas

namespace Verif.Endless
open Verif.Generator (Orders room)

variable {E : Type}

/-! ### One job, no shuffling -/

/-- The events of a file that is used. -/
def File.data? : File E → Option (List E)
  | .events d => some d
  | _ => none

/-- The files job 0 loads with its first `k` draws. -/
def usable (c : Cfg E) (k : Nat) : List (List E) :=
  (List.range k).filterMap fun m => (c.files[c.draw 0 m]?).bind File.data?

/-- What a loader holds. -/
def hold : LPc E → List (List E)
  | .put d => [d]
  | .load f => f.data?.toList
  | _ => []

/-- The events so far, and the pass that is being collected. -/
def settle (c : Cfg E) (out : List E) (n : Nat) (evs : List E) : List E × Option (Nat × List E) :=
  if wantMore c n evs.length then (out, some (n, evs)) else (out ++ (List.replicate c.reps evs).flatten, none)

def feed1 (c : Cfg E) (a : List E × Option (Nat × List E)) (d : List E) : List E × Option (Nat × List E) :=
  match a with
  | (out, none) => settle c out 0 d
  | (out, some (n, evs)) => settle c out (n + 1) (evs ++ d)

def feed (c : Cfg E) (us : List (List E)) : List E × Option (Nat × List E) :=
  us.foldl (feed1 c) ([], none)

theorem settle_prefix (c : Cfg E) (out : List E) (n : Nat) (evs : List E) :
    out <+: (settle c out n evs).1 := by
  unfold settle
  split_ifs
  · exact List.prefix_refl _
  · exact List.prefix_append _ _

theorem feed1_prefix (c : Cfg E) (a : List E × Option (Nat × List E)) (d : List E) :
    a.1 <+: (feed1 c a d).1 := by
  obtain ⟨out, o⟩ := a
  cases o with
  | none => exact settle_prefix ..
  | some p => exact settle_prefix ..

theorem foldl_prefix (c : Cfg E) (us : List (List E)) (a : List E × Option (Nat × List E)) :
    a.1 <+: (us.foldl (feed1 c) a).1 := by
  induction us generalizing a with
  | nil => exact List.prefix_refl _
  | cons d us ih => exact (feed1_prefix c a d).trans (ih _)

theorem feed_mono (c : Cfg E) {us vs : List (List E)} (h : us <+: vs) : (feed c us).1 <+: (feed c vs).1 := by
  obtain ⟨t, rfl⟩ := h
  unfold feed
  rw [List.foldl_append]
  exact foldl_prefix c t _

theorem feed_concat (c : Cfg E) (us : List (List E)) (d : List E) :
    feed c (us ++ [d]) = feed1 c (feed c us) d := by
  simp [feed, List.foldl_append]

theorem usable_succ (c : Cfg E) (k : Nat) :
    usable c (k + 1) = usable c k ++ ((c.files[c.draw 0 k]?).bind File.data?).toList := by
  unfold usable
  rw [List.range_succ, List.filterMap_append]
  congr 1

theorem usable_mono (c : Cfg E) {j k : Nat} (h : j ≤ k) : usable c j <+: usable c k := by
  induction k, h using Nat.le_induction with
  | base => exact List.prefix_refl _
  | succ k _ ih => rw [usable_succ]; exact ih.trans (List.prefix_append _ _)

/-- The aggregator has got this far with the files `us`. -/
def Follows (c : Cfg E) (us : List (List E)) (s : St E) : Prop :=
  match s.agg with
  | .get => feed c us = (s.used, none)
  | .add n evs => feed c us = settle c s.used n evs
  | .emit rest => feed c us = (s.used ++ rest, none)

/-- One job: there is only one order of events. -/
def Single (c : Cfg E) (s : St E) : Prop :=
  ∃ (p : LPc E) (k : Nat) (us : List (List E)), s.loaders = [(p, k)] ∧
    us ++ s.dataQ ++ hold p = usable c k ∧ Follows c us s

theorem single_init {c : Cfg E} (h1 : c.jobs = 1) : Single c (init c) :=
  ⟨.pick, 0, [], by simp [init, h1], rfl, rfl⟩

theorem one_loader {s : St E} {p q : LPc E} {k m i : Nat} (hl : s.loaders = [(p, k)])
    (h : s.loaders[i]? = some (q, m)) : i = 0 ∧ p = q ∧ k = m := by
  rw [hl] at h
  cases i with
  | zero => simpa using h
  | succ i => simp at h

theorem single_step {c : Cfg E} (hsh : c.shuffle = false) {s s' : St E} (h : Single c s)
    (hs : Step c s s') : Single c s' := by
  obtain ⟨p, k, us, hl, hq, hf⟩ := h
  cases hs with
  | pickFile i m f hi hx =>
    obtain ⟨rfl, rfl, rfl⟩ := one_loader hl hi
    refine ⟨.load f, k + 1, us, by simp [St.setLoader, hl], ?_, hf⟩
    rw [usable_succ, ← hq, hx]
    simp [hold, St.setLoader]
  | pickFail i m hi hx =>
    obtain ⟨rfl, rfl, rfl⟩ := one_loader hl hi
    exact ⟨.dead, k, us, by simp [St.setLoader, hl], hq, hf⟩
  | loadData i m d hi =>
    obtain ⟨rfl, rfl, rfl⟩ := one_loader hl hi
    exact ⟨.put d, k, us, by simp [St.setLoader, hl], hq, hf⟩
  | loadNothing i m f hi hx =>
    obtain ⟨rfl, rfl, rfl⟩ := one_loader hl hi
    refine ⟨.pick, k, us, by simp [St.setLoader, hl], ?_, hf⟩
    rcases hx with rfl | rfl <;> exact hq
  | loadFail i m hi =>
    obtain ⟨rfl, rfl, rfl⟩ := one_loader hl hi
    exact ⟨.dead, k, us, by simp [St.setLoader, hl], hq, hf⟩
  | putData i m d hi hr =>
    obtain ⟨rfl, rfl, rfl⟩ := one_loader hl hi
    refine ⟨.pick, k, us, by simp [St.setLoader, hl], ?_, hf⟩
    simpa [St.setLoader, hold] using hq
  | aggGet d rest ha hd =>
    refine ⟨p, k, us ++ [d], hl, by rw [← hq, hd]; simp, ?_⟩
    unfold Follows at hf ⊢
    rw [ha] at hf
    simp only [feed_concat]
    simp only at hf
    rw [hf]
    rfl
  | aggAdd n evs d rest ha hw hd =>
    refine ⟨p, k, us ++ [d], hl, by rw [← hq, hd]; simp, ?_⟩
    unfold Follows at hf ⊢
    rw [ha] at hf
    simp only [feed_concat]
    simp only at hf
    rw [hf, settle, if_pos hw]
    rfl
  | aggOrder n evs stream ha hw ho =>
    refine ⟨p, k, us, hl, hq, ?_⟩
    unfold Follows at hf ⊢
    rw [ha] at hf
    simp only at hf ⊢
    unfold Arranged at ho
    rw [hsh] at ho
    simp only [Bool.false_eq_true, if_false] at ho
    rw [hf, settle, if_neg (by rw [hw]; simp), ho]
    rfl
  | aggEvent e rest ha hb =>
    refine ⟨p, k, us, hl, hq, ?_⟩
    unfold Follows at hf ⊢
    rw [ha] at hf
    simp only at hf ⊢
    rw [hf]
    simp [St.used]
  | aggBatch e rest ha hb hr =>
    refine ⟨p, k, us, hl, hq, ?_⟩
    unfold Follows at hf ⊢
    rw [ha] at hf
    simp only at hf ⊢
    rw [hf]
    simp [St.used]
  | aggEmitted ha =>
    refine ⟨p, k, us, hl, hq, ?_⟩
    unfold Follows at hf ⊢
    rw [ha] at hf
    simp only at hf ⊢
    rw [hf]
    simp [St.used]
  | consGet b rest hd =>
    refine ⟨p, k, us, hl, hq, ?_⟩
    have hu : St.used { s with finalQ := rest, got := s.got ++ [b] } = s.used := by
      simp [St.used, hd]
    unfold Follows at hf ⊢
    rw [hu]
    exact hf

theorem reach_single {c : Cfg E} (h1 : c.jobs = 1) (hsh : c.shuffle = false) {s : St E}
    (h : Reach c s) : Single c s := by
  induction h with
  | init => exact single_init h1
  | step _ hs ih => exact single_step hsh ih hs

theorem follows_prefix {c : Cfg E} {us : List (List E)} {s : St E} (h : Follows c us s) :
    s.used <+: (feed c us).1 := by
  unfold Follows at h
  cases ha : s.agg with
  | get => rw [ha] at h; simp only at h; rw [h]
  | add n evs => rw [ha] at h; simp only at h; rw [h]; exact settle_prefix ..
  | emit rest => rw [ha] at h; simp only at h; rw [h]; exact List.prefix_append _ _

theorem got_prefix (s : St E) : s.got.flatten <+: s.used := by
  unfold St.used
  rw [List.append_assoc]
  exact List.prefix_append _ _

/-- Batches of one size are determined by their events. -/
theorem chunks_prefix {B : Nat} : ∀ {xs ys : List (List E)}, (∀ b ∈ xs, b.length = B ∧ b ≠ []) →
    (∀ b ∈ ys, b.length = B) → xs.flatten <+: ys.flatten → xs <+: ys
  | [], _, _, _, _ => List.nil_prefix
  | x :: xs, [], hx, _, h => by
    have := h.length_le
    have h0 := (hx x (by simp)).2
    simp only [List.flatten_cons, List.length_append, List.flatten_nil, List.length_nil] at this
    exact absurd (List.length_eq_zero_iff.1 (by omega)) h0
  | x :: xs, y :: ys, hx, hy, h => by
    simp only [List.flatten_cons] at h
    obtain ⟨t, ht⟩ := h
    rw [List.append_assoc] at ht
    have hl : x.length = y.length := by
      rw [(hx x (by simp)).1, hy y (by simp)]
    obtain ⟨e1, e2⟩ := List.append_inj ht hl
    subst e1
    have := chunks_prefix (fun b hb => hx b (by simp [hb])) (fun b hb => hy b (by simp [hb])) ⟨t, e2⟩
    exact (List.prefix_cons_inj x).2 this

theorem one_order {c : Cfg E} (h1 : c.jobs = 1) (hsh : c.shuffle = false) {s s' : St E}
    (h : Reach c s) (h' : Reach c s') : s.got <+: s'.got ∨ s'.got <+: s.got := by
  obtain ⟨p, k, us, -, hq, hf⟩ := reach_single h1 hsh h
  obtain ⟨p', k', us', -, hq', hf'⟩ := reach_single h1 hsh h'
  have e : us <+: usable c (max k k') := by
    refine List.IsPrefix.trans ?_ (usable_mono c (Nat.le_max_left k k'))
    rw [← hq, List.append_assoc]
    exact List.prefix_append _ _
  have e' : us' <+: usable c (max k k') := by
    refine List.IsPrefix.trans ?_ (usable_mono c (Nat.le_max_right k k'))
    rw [← hq', List.append_assoc]
    exact List.prefix_append _ _
  have g := ((got_prefix s).trans (follows_prefix hf)).trans (feed_mono c e)
  have g' := ((got_prefix s').trans (follows_prefix hf')).trans (feed_mono c e')
  have i := (reach_inv h).sizes
  have i' := (reach_inv h').sizes
  rcases List.prefix_or_prefix_of_prefix g g' with x | x
  · exact Or.inl (chunks_prefix (fun b hb => i b (Or.inr hb)) (fun b hb => (i' b (Or.inr hb)).1) x)
  · exact Or.inr (chunks_prefix (fun b hb => i' b (Or.inr hb)) (fun b hb => (i b (Or.inr hb)).1) x)

theorem feed_plain {c : Cfg E} (ha : c.numAdd = 0) (hr : c.reps = 1) (us : List (List E)) :
    feed c us = (us.flatten, none) := by
  induction us using List.reverseRecOn with
  | nil => rfl
  | append_singleton us d ih =>
    rw [feed_concat, ih]
    simp [feed1, settle, wantMore, ha, hr]

theorem in_order {c : Cfg E} (h1 : c.jobs = 1) (hsh : c.shuffle = false) (ha : c.numAdd = 0)
    (hr : c.reps = 1) {s : St E} (h : Reach c s) :
    ∃ k, s.got.flatten <+:
      ((List.range k).flatMap fun m =>
        match c.files[c.draw 0 m]? with
        | some (.events d) => d
        | _ => []) := by
  obtain ⟨p, k, us, -, hq, hf⟩ := reach_single h1 hsh h
  refine ⟨k, ?_⟩
  have e : us <+: usable c k := by
    rw [← hq, List.append_assoc]
    exact List.prefix_append _ _
  have g := ((got_prefix s).trans (follows_prefix hf)).trans (feed_mono c e)
  rw [feed_plain ha hr] at g
  simp only at g
  refine g.trans ?_
  have : ∀ ks : List Nat, (ks.filterMap fun m => (c.files[c.draw 0 m]?).bind File.data?).flatten =
      ks.flatMap fun m =>
        match c.files[c.draw 0 m]? with
        | some (.events d) => d
        | _ => [] := by
    intro ks
    induction ks with
    | nil => rfl
    | cons m ks ih =>
      rw [List.flatMap_cons, ← ih, List.filterMap_cons]
      cases hf : c.files[c.draw 0 m]? with
      | none => simp
      | some f => cases f <;> simp [File.data?]
  unfold usable
  rw [this]

/-! ### Jobs that end with an exception -/

/-- Draws of a job that fails at draw `K i`. -/
def Fails (K : Nat → Nat) (s : St E) : Prop :=
  ∀ (i : Nat) (p : LPc E) (k : Nat), s.loaders[i]? = some (p, k) →
    k ≤ K i ∨ (k = K i + 1 ∧ (p = .load .broken ∨ p = .dead))

theorem Fails.set {K : Nat → Nat} {s : St E} (h : Fails K s) (i k : Nat) (p : LPc E)
    (hp : k ≤ K i ∨ (k = K i + 1 ∧ (p = .load .broken ∨ p = .dead))) : Fails K (s.setLoader i p k) := by
  intro j q m hj
  simp only [St.setLoader, get_set] at hj
  split_ifs at hj with e1 e2
  · simp only [Option.some.injEq, Prod.mk.injEq] at hj
    obtain ⟨rfl, rfl⟩ := hj
    subst e1
    exact hp
  · exact h j q m hj

theorem fails_step {c : Cfg E} {K : Nat → Nat}
    (hK : ∀ i < c.jobs, c.files[c.draw i (K i)]? = some .broken) {s s' : St E} (hv : Inv c s)
    (h : Fails K s) (hs : Step c s s') : Fails K s' := by
  cases hs with
  | pickFile i k f hi hf =>
    apply h.set
    rcases h i _ _ hi with hk | ⟨_, hk | hk⟩
    · rcases Nat.lt_or_eq_of_le hk with hk | rfl
      · left; exact hk
      · right
        have hlt : i < c.jobs := by rw [← hv.len]; exact (List.getElem?_eq_some_iff.1 hi).1
        have hb := hK i hlt
        rw [hf] at hb
        simp only [Option.some.injEq] at hb
        subst hb
        exact ⟨rfl, Or.inl rfl⟩
    · cases hk
    · cases hk
  | pickFail i k hi hf =>
    apply h.set
    rcases h i _ _ hi with hk | ⟨_, hk | hk⟩
    · exact Or.inl hk
    · cases hk
    · cases hk
  | loadData i k d hi =>
    apply h.set
    rcases h i _ _ hi with hk | ⟨_, hk | hk⟩
    · exact Or.inl hk
    · cases hk
    · cases hk
  | loadNothing i k f hi hf =>
    apply h.set
    rcases h i _ _ hi with hk | ⟨_, hk | hk⟩
    · exact Or.inl hk
    · simp only [LPc.load.injEq] at hk
      subst hk
      rcases hf with hf | hf <;> cases hf
    · cases hk
  | loadFail i k hi =>
    apply h.set
    rcases h i _ _ hi with hk | ⟨hk, _⟩
    · exact Or.inl hk
    · exact Or.inr ⟨hk, Or.inr rfl⟩
  | putData i k d hi hr =>
    have h' : Fails K { s with dataQ := s.dataQ ++ [d] } := h
    apply h'.set
    rcases h i _ _ hi with hk | ⟨_, hk | hk⟩
    · exact Or.inl hk
    · cases hk
    · cases hk
  | aggGet d rest ha hq => exact h
  | aggAdd n evs d rest ha hw hq => exact h
  | aggOrder n evs stream ha hw ho => exact h
  | aggEvent e rest ha hb => exact h
  | aggBatch e rest ha hb hr => exact h
  | aggEmitted ha => exact h
  | consGet b rest hq => exact h

theorem fails_init {c : Cfg E} (K : Nat → Nat) : Fails K (init c) := by
  intro i p k h
  simp only [init, List.getElem?_replicate] at h
  split_ifs at h
  simp only [Option.some.injEq, Prod.mk.injEq] at h
  left
  omega

theorem reach_fails {c : Cfg E} {K : Nat → Nat}
    (hK : ∀ i < c.jobs, c.files[c.draw i (K i)]? = some .broken) {s : St E} (h : Reach c s) :
    Fails K s := by
  induction h with
  | init => exact fails_init K
  | step hr hs ih => exact fails_step hK (reach_inv hr) ih hs

theorem sum_map_set {α : Type} (f : α → Nat) : ∀ (l : List α) (i : Nat) (a b : α), l[i]? = some a →
    ((l.set i b).map f).sum + f a = (l.map f).sum + f b
  | [], i, a, b, h => by simp at h
  | x :: l, 0, a, b, h => by
    simp only [List.getElem?_cons_zero, Option.some.injEq] at h
    subst h
    simp
    omega
  | x :: l, i + 1, a, b, h => by
    simp only [List.getElem?_cons_succ] at h
    have := sum_map_set f l i a b h
    simp only [List.set_cons_succ, List.map_cons, List.sum_cons]
    omega

/-- The events a loader holds. -/
def held (x : LPc E × Nat) : Nat := (hold x.1).flatten.length

/-- The events the aggregator collects. -/
def inAgg : APc E → Nat
  | .add _ evs => evs.length
  | _ => 0

/-- Every event that left comes from a file that was drawn. -/
def Paid (c : Cfg E) (M : Nat) (s : St E) : Prop :=
  s.used.length + (todo s.agg).length +
    c.reps * (inAgg s.agg + s.dataQ.flatten.length + (s.loaders.map held).sum) ≤
    c.reps * (M * (s.loaders.map Prod.snd).sum)

theorem arranged_length {c : Cfg E} {evs o : List E} (h : Arranged c evs o) :
    o.length = c.reps * evs.length := by
  unfold Arranged at h
  cases hs : c.shuffle with
  | false =>
    rw [hs] at h
    simp only [Bool.false_eq_true, if_false] at h
    rw [h]
    simp
  | true =>
    rw [hs] at h
    simp only [if_true] at h
    generalize c.reps = n at h
    induction h with
    | zero => simp
    | succ hp _ ih => rw [List.length_append, hp.length_eq, ih, Nat.succ_mul]; omega

theorem paid_set {c : Cfg E} {M : Nat} {s : St E} (h : Paid c M s) {i k : Nat} {p q : LPc E}
    (hi : s.loaders[i]? = some (p, k)) (hp : held (q, k) = held (p, k)) : Paid c M (s.setLoader i q k) := by
  have h1 := sum_map_set held s.loaders i (p, k) (q, k) hi
  have h2 := sum_map_set Prod.snd s.loaders i (p, k) (q, k) hi
  unfold Paid at h ⊢
  simp only [St.setLoader, St.used] at *
  rw [show ((s.loaders.set i (q, k)).map held).sum = (s.loaders.map held).sum by omega,
    show ((s.loaders.set i (q, k)).map Prod.snd).sum = (s.loaders.map Prod.snd).sum by omega]
  exact h

theorem paid_step {c : Cfg E} {M : Nat} (hM : ∀ d, File.events d ∈ c.files → d.length ≤ M) {s s' : St E}
    (h : Paid c M s) (hs : Step c s s') : Paid c M s' := by
  cases hs with
  | pickFile i k f hi hf =>
    have h1 := sum_map_set held s.loaders i (.pick, k) (.load f, k + 1) hi
    have h2 := sum_map_set Prod.snd s.loaders i (.pick, k) (.load f, k + 1) hi
    have h3 : held (LPc.load f, k + 1) ≤ M := by
      cases f with
      | events d => simpa [held, hold, File.data?] using hM d (List.mem_of_getElem? hf)
      | _ => simp [held, hold, File.data?]
    have h4 : held ((LPc.pick : LPc E), k) = 0 := rfl
    unfold Paid at h ⊢
    simp only [St.setLoader, St.used] at *
    rw [show ((s.loaders.set i (LPc.load f, k + 1)).map held).sum =
        (s.loaders.map held).sum + held (LPc.load f, k + 1) by omega,
      show ((s.loaders.set i (LPc.load f, k + 1)).map Prod.snd).sum =
        (s.loaders.map Prod.snd).sum + 1 by omega]
    have h5 := Nat.mul_le_mul_left c.reps h3
    simp only [Nat.mul_add, Nat.mul_one] at h ⊢
    omega
  | pickFail i k hi hf => exact paid_set h hi rfl
  | loadData i k d hi => exact paid_set h hi rfl
  | loadNothing i k f hi hf => exact paid_set h hi (by rcases hf with rfl | rfl <;> rfl)
  | loadFail i k hi => exact paid_set h hi rfl
  | putData i k d hi hr =>
    have h1 := sum_map_set held s.loaders i (.put d, k) (.pick, k) hi
    have h2 := sum_map_set Prod.snd s.loaders i (.put d, k) (.pick, k) hi
    have h3 : held (LPc.put d, k) = d.length := by simp [held, hold]
    have h4 : held ((LPc.pick : LPc E), k) = 0 := rfl
    unfold Paid at h ⊢
    simp only [St.setLoader, St.used] at *
    rw [show ((s.loaders.set i (LPc.pick, k)).map Prod.snd).sum = (s.loaders.map Prod.snd).sum by omega]
    rw [show inAgg s.agg + (s.dataQ ++ [d]).flatten.length +
        ((s.loaders.set i (LPc.pick, k)).map held).sum =
        inAgg s.agg + s.dataQ.flatten.length + (s.loaders.map held).sum by
      simp only [List.flatten_append, List.flatten_cons, List.flatten_nil, List.append_nil,
        List.length_append]
      omega]
    exact h
  | aggGet d rest ha hq =>
    unfold Paid at h ⊢
    rw [ha, hq] at h
    simp only [St.used, todo, inAgg, List.flatten_cons, List.length_append, Nat.mul_add] at *
    omega
  | aggAdd n evs d rest ha hw hq =>
    unfold Paid at h ⊢
    rw [ha, hq] at h
    simp only [St.used, todo, inAgg, List.flatten_cons, List.length_append, Nat.mul_add] at *
    omega
  | aggOrder n evs stream ha hw ho =>
    have hl := arranged_length ho
    unfold Paid at h ⊢
    rw [ha] at h
    simp only [St.used, todo, inAgg, List.length_append, List.length_nil, Nat.mul_add] at *
    omega
  | aggEvent e rest ha hb =>
    unfold Paid at h ⊢
    rw [ha] at h
    simp only [St.used, todo, inAgg, List.length_append, List.length_nil, List.length_cons] at *
    omega
  | aggBatch e rest ha hb hr =>
    unfold Paid at h ⊢
    rw [ha] at h
    simp only [St.used, todo, inAgg, List.length_append, List.length_nil, List.length_cons,
      List.flatten_append, List.flatten_cons, List.flatten_nil, List.append_nil] at *
    omega
  | aggEmitted ha =>
    unfold Paid at h ⊢
    rw [ha] at h
    exact h
  | consGet b rest hq =>
    unfold Paid at h ⊢
    simp only [St.used, hq, List.length_append, List.flatten_append, List.flatten_cons, List.flatten_nil,
      List.append_nil] at *
    omega

theorem reach_paid {c : Cfg E} {M : Nat} (hM : ∀ d, File.events d ∈ c.files → d.length ≤ M) {s : St E}
    (h : Reach c s) : Paid c M s := by
  induction h with
  | init => simp [Paid, init, St.used, todo, inAgg, held, hold]
  | step _ hs ih => exact paid_step hM ih hs

theorem got_length {c : Cfg E} {s : St E} (h : Inv c s) : s.got.length ≤ s.used.length := by
  have : ∀ xs : List (List E), (∀ b ∈ xs, b ≠ []) → xs.length ≤ xs.flatten.length := by
    intro xs
    induction xs with
    | nil => simp
    | cons x xs ih =>
      intro hx
      have h1 := ih (fun b hb => hx b (by simp [hb]))
      have h2 := List.length_pos_iff.2 (hx x (by simp))
      simp only [List.length_cons, List.flatten_cons, List.length_append]
      omega
  exact (this s.got (fun b hb => (h.sizes b (Or.inr hb)).2)).trans (got_prefix s).length_le

theorem sizes_bounded (fs : List (File E)) : ∃ M, ∀ d, File.events d ∈ fs → d.length ≤ M := by
  induction fs with
  | nil => exact ⟨0, by simp⟩
  | cons f fs ih =>
    obtain ⟨M, hM⟩ := ih
    cases f with
    | events d =>
      refine ⟨max d.length M, ?_⟩
      intro d' hd'
      rcases List.mem_cons.1 hd' with e | e
      · simp only [File.events.injEq] at e
        rw [e]
        exact Nat.le_max_left ..
      · exact (hM d' e).trans (Nat.le_max_right ..)
    | _ =>
      refine ⟨M, ?_⟩
      intro d' hd'
      rcases List.mem_cons.1 hd' with e | e
      · cases e
      · exact hM d' e

/-- A list with bounded entries has a bounded sum. -/
theorem sum_le_bound (B : Nat) : ∀ l : List Nat, (∀ x ∈ l, x ≤ B) → l.sum ≤ l.length * B
  | [], _ => by simp
  | x :: l, h => by
    have h1 := sum_le_bound B l (fun y hy => h y (by simp [hy]))
    have h2 := h x (by simp)
    simp only [List.sum_cons, List.length_cons, Nat.succ_mul]
    omega

theorem all_fail {c : Cfg E} (h : ∀ i < c.jobs, ∃ k, c.files[c.draw i k]? = some .broken) :
    ∃ N, ∀ s, Reach c s → s.got.length ≤ N := by
  obtain ⟨M, hM⟩ := sizes_bounded c.files
  have hex : ∀ i, ∃ k, i < c.jobs → c.files[c.draw i k]? = some .broken := by
    intro i
    by_cases hi : i < c.jobs
    · obtain ⟨k, hk⟩ := h i hi
      exact ⟨k, fun _ => hk⟩
    · exact ⟨0, fun x => absurd x hi⟩
  choose K hK using hex
  obtain ⟨B, hB⟩ : ∃ B, ∀ i < c.jobs, K i + 1 ≤ B := by
    generalize c.jobs = n
    induction n with
    | zero => exact ⟨0, by simp⟩
    | succ n ih =>
      obtain ⟨B, hB⟩ := ih
      refine ⟨max B (K n + 1), ?_⟩
      intro i hi
      rcases Nat.lt_succ_iff_lt_or_eq.1 hi with hi | rfl
      · exact (hB i hi).trans (Nat.le_max_left ..)
      · exact Nat.le_max_right ..
  refine ⟨c.reps * (M * (c.jobs * B)), ?_⟩
  intro s hs
  have hv := reach_inv hs
  have h1 := got_length hv
  have h2 := reach_paid hM hs
  have h3 := reach_fails (K := K) hK hs
  have h4 : (s.loaders.map Prod.snd).sum ≤ c.jobs * B := by
    have := sum_le_bound B (s.loaders.map Prod.snd) (by
      intro x hx
      obtain ⟨⟨p, k⟩, hm, rfl⟩ := List.mem_map.1 hx
      obtain ⟨i, hi⟩ := List.getElem?_of_mem hm
      have hlt : i < c.jobs := by rw [← hv.len]; exact (List.getElem?_eq_some_iff.1 hi).1
      have hb := hB i hlt
      rcases h3 i p k hi with hk | ⟨hk, _⟩ <;> simp only <;> omega)
    rw [List.length_map, hv.len] at this
    exact this
  have h5 := Nat.mul_le_mul_left c.reps (Nat.mul_le_mul_left M h4)
  unfold Paid at h2
  omega

theorem no_files {c : Cfg E} (h : c.files = []) {s : St E} (hs : Reach c s) : s.got = [] := by
  have h2 := reach_paid (M := 0) (by rw [h]; simp) hs
  have h1 := got_length (reach_inv hs)
  unfold Paid at h2
  simp only [Nat.zero_mul, Nat.mul_zero] at h2
  exact List.length_eq_zero_iff.1 (by omega)

end Verif.Endless
