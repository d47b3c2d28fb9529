/-
Lemmas for C57 and C58.
-/
import Verif.Sim.Spec

namespace Verif.Sim
open Verif.Py
variable {α : Type} [LT α] [DecidableLT α] [Sub α]

theorem skipped_iff (C : Walk α) (p : Particle α) : skipped C p = true ↔ ¬ Kept C p := by
  have h1 : flt p.energy C.minEnergy = true ↔ TooLow C p := by
    unfold TooLow
    cases h : p.energy <;> cases h' : C.minEnergy <;> simp [flt]
  have h2 : flt C.maxDistance (fsub p.magnitude p.length) = true ↔ TooFar C p := by
    unfold TooFar
    cases h : p.magnitude <;> cases h' : p.length <;> cases h'' : C.maxDistance <;> simp [flt, fsub]
  unfold skipped Kept
  rw [Bool.or_eq_true, h1, h2]
  by_cases a : TooLow C p <;> by_cases b : TooFar C p <;> simp [a, b]

/-- The search below one tree. -/
def Below (C : Walk α) (t : Tree α) (a : List Nat) (u : Tree α) : Prop :=
  (a = [] ∧ u = t) ∨
    (Kept C t.particle ∧ ¬ IsCascade C t.particle ∧ ¬ IsTrack C t.particle ∧ Reached C t.daughters a u)

omit [DecidableLT α] in
theorem reached_nil (C : Walk α) (a : List Nat) (u : Tree α) : ¬ Reached C [] a u := by
  intro h
  cases h with
  | here h => simp at h
  | deeper h => simp at h

omit [DecidableLT α] in
theorem reached_ne (C : Walk α) (f : List (Tree α)) (u : Tree α) : ¬ Reached C f [] u := by
  intro h; cases h

omit [DecidableLT α] in
theorem reached_cons (C : Walk α) (t : Tree α) (ts : List (Tree α)) (a : List Nat) (u : Tree α) :
    Reached C (t :: ts) a u ↔
      (∃ b, a = 0 :: b ∧ Below C t b u) ∨ ∃ i b, a = (i + 1) :: b ∧ Reached C ts (i :: b) u := by
  constructor
  · intro h
    cases h with
    | @here _ i _ h =>
      cases i with
      | zero =>
        simp only [List.getElem?_cons_zero, Option.some.injEq] at h
        exact Or.inl ⟨[], rfl, Or.inl ⟨rfl, h.symm⟩⟩
      | succ i =>
        simp only [List.getElem?_cons_succ] at h
        exact Or.inr ⟨i, [], rfl, .here h⟩
    | @deeper _ i v _ b h h1 h2 h3 h4 =>
      cases i with
      | zero =>
        simp only [List.getElem?_cons_zero, Option.some.injEq] at h
        subst h
        exact Or.inl ⟨b, rfl, Or.inr ⟨h1, h2, h3, h4⟩⟩
      | succ i =>
        simp only [List.getElem?_cons_succ] at h
        exact Or.inr ⟨i, b, rfl, .deeper h h1 h2 h3 h4⟩
  · rintro (⟨b, rfl, h⟩ | ⟨i, b, rfl, h⟩)
    · rcases h with ⟨rfl, rfl⟩ | ⟨h1, h2, h3, h4⟩
      · exact .here rfl
      · exact .deeper rfl h1 h2 h3 h4
    · cases h with
      | here h => exact .here (by simpa using h)
      | deeper h h1 h2 h3 h4 => exact .deeper (by simpa using h) h1 h2 h3 h4

/-- The particles found by a search and satisfying `K`. -/
def Hits (R : List Nat → Tree α → Prop) (K : Particle α → Prop) (a : List Nat) (p : Particle α) : Prop :=
  ∃ t, R a t ∧ t.particle = p ∧ K p

/-- The result of a walk agrees with a search. -/
def Good (C : Walk α) (R : List Nat → Tree α → Prop)
    (r : Except Err (List (Particle α) × List (Particle α))) : Prop :=
  match r with
  | .error e => ∃ a t, R a t ∧ Unsupported C t ∧
      (e = .notImplementedError ∧ t.daughters = [] ∨ e = .valueError ∧ t.daughters ≠ [])
  | .ok out => (∀ a t, R a t → ¬ Unsupported C t) ∧
      (∃ L, out.1 = L.map (·.2) ∧ ListsAll (Hits R (fun p => Kept C p ∧ IsCascade C p)) L) ∧
      ∃ L, out.2 = L.map (·.2) ∧ ListsAll (Hits R (fun p => Kept C p ∧ IsTrack C p)) L

omit [LT α] [DecidableLT α] [Sub α] in
theorem listsAll_congr {P Q : List Nat → Particle α → Prop} {l : List (List Nat × Particle α)}
    (h : ∀ a p, P a p ↔ Q a p) (hl : ListsAll P l) : ListsAll Q l :=
  ⟨hl.1, fun a p => (hl.2 a p).trans (h a p)⟩

omit [LT α] [DecidableLT α] [Sub α] in
theorem listsAll_nil {P : List Nat → Particle α → Prop} (h : ∀ a p, ¬ P a p) : ListsAll P [] :=
  ⟨List.Pairwise.nil, fun a p => ⟨fun h' => by simp at h', fun h' => absurd h' (h a p)⟩⟩

omit [LT α] [DecidableLT α] [Sub α] in
theorem listsAll_single {P : List Nat → Particle α → Prop} (a : List Nat) (p : Particle α)
    (h : ∀ b q, P b q ↔ b = a ∧ q = p) : ListsAll P [(a, p)] :=
  ⟨List.pairwise_singleton _ _, fun b q => by rw [h]; simp⟩

/-- One step to the right. -/
def bump : List Nat → List Nat
  | [] => []
  | i :: b => (i + 1) :: b

omit [LT α] [DecidableLT α] [Sub α] in
theorem listsAll_cons {Q Q1 Q2 : List Nat → Particle α → Prop}
    {L1 L2 : List (List Nat × Particle α)} (h1 : ListsAll Q1 L1) (h2 : ListsAll Q2 L2)
    (hne : ∀ p, ¬ Q2 [] p)
    (h : ∀ a p, Q a p ↔ (∃ b, a = 0 :: b ∧ Q1 b p) ∨ ∃ i b, a = (i + 1) :: b ∧ Q2 (i :: b) p) :
    ListsAll Q (L1.map (fun q => (0 :: q.1, q.2)) ++ L2.map (fun q => (bump q.1, q.2))) := by
  have hne2 : ∀ q ∈ L2, ∃ i b, q.1 = i :: b := by
    intro q hq
    obtain ⟨a, p⟩ := q
    cases a with
    | nil => exact absurd ((h2.2 _ _).1 hq) (hne p)
    | cons i b => exact ⟨i, b, rfl⟩
  constructor
  · rw [List.pairwise_append]
    refine ⟨?_, ?_, ?_⟩
    · rw [List.pairwise_map]
      exact h1.1.imp (fun hab => by rw [List.cons_lt_cons_iff]; exact Or.inr ⟨rfl, hab⟩)
    · rw [List.pairwise_map]
      refine h2.1.imp_of_mem ?_
      intro q r hq hr hlt
      obtain ⟨i, b, hi⟩ := hne2 q hq
      obtain ⟨j, c, hj⟩ := hne2 r hr
      rw [hi, hj, List.cons_lt_cons_iff] at hlt
      simp only [hi, hj, bump]
      rw [List.cons_lt_cons_iff]
      rcases hlt with hlt | ⟨rfl, hlt⟩
      · exact Or.inl (by omega)
      · exact Or.inr ⟨rfl, hlt⟩
    · intro q hq r hr
      obtain ⟨q', _, rfl⟩ := List.mem_map.1 hq
      obtain ⟨r', hr', rfl⟩ := List.mem_map.1 hr
      obtain ⟨i, b, hi⟩ := hne2 r' hr'
      simp only [hi, bump]
      rw [List.cons_lt_cons_iff]
      exact Or.inl (by omega)
  · intro a p
    rw [h, List.mem_append]
    constructor
    · rintro (hm | hm)
      · obtain ⟨⟨b, p'⟩, hq, he⟩ := List.mem_map.1 hm
        cases he
        exact Or.inl ⟨b, rfl, (h1.2 _ _).1 hq⟩
      · obtain ⟨⟨b, p'⟩, hq, he⟩ := List.mem_map.1 hm
        obtain ⟨i, c, hi⟩ := hne2 _ hq
        simp only at hi
        subst hi
        cases he
        exact Or.inr ⟨i, c, rfl, (h2.2 _ _).1 hq⟩
    · rintro (⟨b, rfl, hb⟩ | ⟨i, b, rfl, hb⟩)
      · exact Or.inl (List.mem_map.2 ⟨(b, p), (h1.2 _ _).2 hb, rfl⟩)
      · exact Or.inr (List.mem_map.2 ⟨(i :: b, p), (h2.2 _ _).2 hb, rfl⟩)

omit [DecidableLT α] in
theorem hits_cons (C : Walk α) (t : Tree α) (ts : List (Tree α)) (K : Particle α → Prop) (a : List Nat)
    (p : Particle α) : Hits (Reached C (t :: ts)) K a p ↔
      (∃ b, a = 0 :: b ∧ Hits (Below C t) K b p) ∨
        ∃ i b, a = (i + 1) :: b ∧ Hits (Reached C ts) K (i :: b) p := by
  unfold Hits
  constructor
  · rintro ⟨u, hu, hp, hk⟩
    rcases (reached_cons C t ts a u).1 hu with ⟨b, rfl, hb⟩ | ⟨i, b, rfl, hb⟩
    · exact Or.inl ⟨b, rfl, u, hb, hp, hk⟩
    · exact Or.inr ⟨i, b, rfl, u, hb, hp, hk⟩
  · rintro (⟨b, rfl, u, hb, hp, hk⟩ | ⟨i, b, rfl, u, hb, hp, hk⟩)
    · exact ⟨u, (reached_cons C t ts _ u).2 (Or.inl ⟨b, rfl, hb⟩), hp, hk⟩
    · exact ⟨u, (reached_cons C t ts _ u).2 (Or.inr ⟨i, b, rfl, hb⟩), hp, hk⟩

mutual
theorem walk_good (C : Walk α) : ∀ t : Tree α, Good C (Below C t) (walk C t)
  | .node p ds => by
    rw [walk]
    by_cases hs : skipped C p = true
    · rw [if_pos hs]
      have hk := (skipped_iff C p).1 hs
      have honly : ∀ a u, Below C (.node p ds) a u → u = .node p ds := by
        rintro a u (⟨_, h⟩ | ⟨h, _⟩)
        · exact h
        · exact absurd h hk
      refine ⟨?_, ⟨[], rfl, listsAll_nil ?_⟩, ⟨[], rfl, listsAll_nil ?_⟩⟩
      · intro a u hu hun
        rw [honly a u hu] at hun
        exact hk hun.1
      · rintro a q ⟨u, hu, hp, hK, _⟩
        rw [honly a u hu] at hp
        exact hk (by rw [show p = q from hp]; exact hK)
      · rintro a q ⟨u, hu, hp, hK, _⟩
        rw [honly a u hu] at hp
        exact hk (by rw [show p = q from hp]; exact hK)
    · rw [if_neg hs]
      have hk : Kept C p := by
        by_cases h : Kept C p
        · exact h
        · exact absurd ((skipped_iff C p).2 h) hs
      by_cases he : C.em.contains p.kind = true
      · rw [if_pos he]
        have hem : IsCascade C p := by simpa [IsCascade] using he
        have honly : ∀ a u, Below C (.node p ds) a u ↔ a = [] ∧ u = .node p ds := by
          intro a u
          constructor
          · rintro (h | ⟨_, h, _⟩)
            · exact h
            · exact absurd hem h
          · exact Or.inl
        refine ⟨?_, ⟨[([], p)], rfl, listsAll_single _ _ ?_⟩, ⟨[], rfl, listsAll_nil ?_⟩⟩
        · intro a u hu hun
          rw [((honly a u).1 hu).2] at hun
          exact hun.2.1 hem
        · intro b q
          constructor
          · rintro ⟨u, hu, hp, _⟩
            rw [((honly b u).1 hu).2] at hp
            exact ⟨((honly b u).1 hu).1, hp.symm⟩
          · rintro ⟨rfl, rfl⟩
            exact ⟨_, (honly _ _).2 ⟨rfl, rfl⟩, rfl, hk, hem⟩
        · rintro a q ⟨u, hu, hp, _, hT⟩
          rw [((honly a u).1 hu).2] at hp
          exact hT.1 (by rw [← show p = q from hp]; exact hem)
      · rw [if_neg he]
        have hem : ¬ IsCascade C p := by simpa [IsCascade] using he
        by_cases ht : C.tracks.contains p.kind = true
        · rw [if_pos ht]
          have htr : IsTrack C p := ⟨hem, by simpa using ht⟩
          have honly : ∀ a u, Below C (.node p ds) a u ↔ a = [] ∧ u = .node p ds := by
            intro a u
            constructor
            · rintro (h | ⟨_, _, h, _⟩)
              · exact h
              · exact absurd htr h
            · exact Or.inl
          refine ⟨?_, ⟨[], rfl, listsAll_nil ?_⟩, ⟨[([], p)], rfl, listsAll_single _ _ ?_⟩⟩
          · intro a u hu hun
            rw [((honly a u).1 hu).2] at hun
            exact hun.2.2.1 htr
          · rintro a q ⟨u, hu, hp, _, hT⟩
            rw [((honly a u).1 hu).2] at hp
            exact hem (by rw [show p = q from hp]; exact hT)
          · intro b q
            constructor
            · rintro ⟨u, hu, hp, _⟩
              rw [((honly b u).1 hu).2] at hp
              exact ⟨((honly b u).1 hu).1, hp.symm⟩
            · rintro ⟨rfl, rfl⟩
              exact ⟨_, (honly _ _).2 ⟨rfl, rfl⟩, rfl, hk, htr⟩
        · rw [if_neg ht]
          have htr : ¬ IsTrack C p := fun h => ht (by simpa using h.2)
          by_cases hd : (ds.isEmpty && !C.dark.contains p.kind) = true
          · rw [if_pos hd]
            simp only [Bool.and_eq_true, List.isEmpty_iff, Bool.not_eq_true', List.contains_eq_mem,
              decide_eq_false_iff_not] at hd
            exact ⟨[], .node p ds, Or.inl ⟨rfl, rfl⟩, ⟨hk, hem, htr, Or.inl ⟨hd.1, hd.2⟩⟩,
              Or.inl ⟨rfl, hd.1⟩⟩
          · rw [if_neg hd]
            by_cases hp : (!ds.isEmpty && !C.parents.contains p.kind) = true
            · rw [if_pos hp]
              have hne : ds ≠ [] := by
                intro h; rw [h] at hp; simp at hp
              have hnp : p.kind ∉ C.parents := by
                simp only [Bool.and_eq_true, Bool.not_eq_true', List.contains_eq_mem,
                  decide_eq_false_iff_not] at hp
                exact hp.2
              exact ⟨[], .node p ds, Or.inl ⟨rfl, rfl⟩, ⟨hk, hem, htr, Or.inr ⟨hne, hnp⟩⟩,
                Or.inr ⟨rfl, hne⟩⟩
            · rw [if_neg hp]
              have hself : ¬ Unsupported C (.node p ds) := by
                rintro ⟨_, _, _, h | h⟩
                · apply hd
                  have h1 : ds = [] := h.1
                  have h2 : p.kind ∉ C.dark := h.2
                  simp [h1, h2]
                · apply hp
                  have h1 : ds ≠ [] := h.1
                  have h2 : p.kind ∉ C.parents := h.2
                  simp [h1, h2]
              have ih := walkAll_good C ds
              have hits : ∀ (K : Particle α → Prop), ¬ K p → ∀ a q,
                  Hits (Reached C ds) K a q ↔ Hits (Below C (.node p ds)) K a q := by
                intro K hK a q
                constructor
                · rintro ⟨u, hu, hq, hk'⟩
                  exact ⟨u, Or.inr ⟨hk, hem, htr, hu⟩, hq, hk'⟩
                · rintro ⟨u, ⟨rfl, rfl⟩ | ⟨_, _, _, hu⟩, hq, hk'⟩
                  · exact absurd (by rw [show p = q from hq]; exact hk') hK
                  · exact ⟨u, hu, hq, hk'⟩
              cases hr : walkAll C ds with
              | error e =>
                rw [hr] at ih
                obtain ⟨a, u, h1, h2, h3⟩ := ih
                exact ⟨a, u, Or.inr ⟨hk, hem, htr, h1⟩, h2, h3⟩
              | ok out =>
                rw [hr] at ih
                obtain ⟨h1, ⟨L, h2, h2'⟩, ⟨M, h3, h3'⟩⟩ := ih
                refine ⟨?_, ⟨L, h2, listsAll_congr (hits _ (fun h => hem h.2)) h2'⟩,
                  ⟨M, h3, listsAll_congr (hits _ (fun h => htr h.2)) h3'⟩⟩
                rintro a u (⟨_, rfl⟩ | ⟨_, _, _, hu⟩)
                · exact hself
                · exact h1 a u hu
theorem walkAll_good (C : Walk α) : ∀ f : List (Tree α), Good C (Reached C f) (walkAll C f)
  | [] => by
    rw [walkAll]
    exact ⟨fun a t h => absurd h (reached_nil C a t),
      ⟨[], rfl, listsAll_nil (fun a p h => by obtain ⟨u, hu, _⟩ := h; exact reached_nil C a u hu)⟩,
      ⟨[], rfl, listsAll_nil (fun a p h => by obtain ⟨u, hu, _⟩ := h; exact reached_nil C a u hu)⟩⟩
  | t :: ts => by
    rw [walkAll]
    have h1 := walk_good C t
    have h2 := walkAll_good C ts
    cases hw : walk C t with
    | error e =>
      rw [hw] at h1
      obtain ⟨a, u, hu, hr⟩ := h1
      exact ⟨0 :: a, u, (reached_cons C t ts _ u).2 (Or.inl ⟨a, rfl, hu⟩), hr⟩
    | ok out =>
      rw [hw] at h1
      simp only
      cases hw2 : walkAll C ts with
      | error e =>
        rw [hw2] at h2
        obtain ⟨a, u, hu, hr⟩ := h2
        cases a with
        | nil => exact absurd hu (reached_ne C ts u)
        | cons i b =>
          exact ⟨(i + 1) :: b, u, (reached_cons C t ts _ u).2 (Or.inr ⟨i, b, rfl, hu⟩), hr⟩
      | ok out2 =>
        rw [hw2] at h2
        obtain ⟨a1, ⟨L1, b1, b1'⟩, ⟨M1, c1, c1'⟩⟩ := h1
        obtain ⟨a2, ⟨L2, b2, b2'⟩, ⟨M2, c2, c2'⟩⟩ := h2
        refine ⟨?_, ⟨_, ?_, listsAll_cons b1' b2' ?_ (hits_cons C t ts _)⟩,
          ⟨_, ?_, listsAll_cons c1' c2' ?_ (hits_cons C t ts _)⟩⟩
        · intro a u hu
          rcases (reached_cons C t ts a u).1 hu with ⟨b, rfl, hb⟩ | ⟨i, b, rfl, hb⟩
          · exact a1 b u hb
          · exact a2 _ u hb
        · simp [b1, b2, Function.comp_def]
        · rintro p ⟨u, hu, _⟩; exact reached_ne C ts u hu
        · simp [c1, c2, Function.comp_def]
        · rintro p ⟨u, hu, _⟩; exact reached_ne C ts u hu
end

/-! ### Parameters -/

theorem nodup_inj {l : List String} (h : l.Nodup) {i j : Nat} {hi : i < l.length} {hj : j < l.length}
    (e : l[i] = l[j]) : i = j := by
  have := List.pairwise_iff_getElem.1 h
  rcases Nat.lt_trichotomy i j with hlt | heq | hgt
  · exact absurd e (this i j hi hj hlt)
  · exact heq
  · exact absurd e.symm (this j i hj hi hgt)

omit [LT α] [DecidableLT α] [Sub α] in
theorem getIndex_eq {names : List String} (hn : names.Nodup) {j : Nat} {n : String}
    (hj : names[j]? = some n) : getIndex names n = some j := by
  have hlt : j < names.length := by
    rcases Nat.lt_or_ge j names.length with h | h
    · exact h
    · rw [List.getElem?_eq_none h] at hj; cases hj
  unfold getIndex
  cases hf : (List.range names.length).reverse.find? (fun i => names[i]? = some n) with
  | none =>
    have := List.find?_eq_none.1 hf j (by simp [hlt])
    simp [hj] at this
  | some i =>
    have hi := List.find?_some hf
    simp only [decide_eq_true_eq] at hi
    have : i < names.length := by
      have := List.mem_of_find?_eq_some hf
      simpa using this
    congr 1
    obtain ⟨h1, h2⟩ := List.getElem?_eq_some_iff.1 hi
    obtain ⟨h3, h4⟩ := List.getElem?_eq_some_iff.1 hj
    exact (nodup_inj hn) (h2.trans h4.symm)

omit [LT α] [DecidableLT α] [Sub α] in
theorem getIndex_none {names : List String} {n : String} (h : n ∉ names) : getIndex names n = none := by
  unfold getIndex
  rw [List.find?_eq_none]
  intro i _
  simp only [decide_eq_true_eq]
  intro hi
  exact h (List.mem_of_getElem? hi)

omit [LT α] [DecidableLT α] [Sub α] in
theorem fillDefaults_ok {names : List String} (hn : names.Nodup) : ∀ (d : List (String × Default α))
    (a : Table α), Dict.Ok d → (∀ k v, (k, v) ∈ d → k ∈ names ∧ ∃ x, v = .num x) →
    ∃ b, fillDefaults names d a = .ok b ∧ ∀ i j n, names[j]? = some n →
      (∀ v, Dict.get? d n = some (.num v) → b i j = v) ∧ (n ∉ Dict.keys d → b i j = a i j)
  | [], a, _, _ => ⟨a, rfl, fun i j n _ => ⟨fun v h => by simp at h, fun _ => rfl⟩⟩
  | (k, d) :: rest, a, hok, h => by
    obtain ⟨hk, x, rfl⟩ := h k d (by simp)
    obtain ⟨jk, hjk⟩ := List.getElem?_of_mem hk
    have hok' := hok
    unfold Dict.Ok at hok'
    simp only [Dict.keys_cons, List.nodup_cons] at hok'
    obtain ⟨b, hb, hspec⟩ := fillDefaults_ok hn rest (fun i j' => if j' = jk then x else a i j') hok'.2
      (fun k' v' h' => h k' v' (by simp [h']))
    refine ⟨b, by rw [fillDefaults, getIndex_eq hn hjk]; exact hb, ?_⟩
    intro i j n hj
    obtain ⟨s1, s2⟩ := hspec i j n hj
    by_cases hnk : n = k
    · subst hnk
      have : j = jk := by
        obtain ⟨_, e1⟩ := List.getElem?_eq_some_iff.1 hj
        obtain ⟨_, e2⟩ := List.getElem?_eq_some_iff.1 hjk
        exact (nodup_inj hn) (e1.trans e2.symm)
      constructor
      · intro v hv
        rw [Dict.get?_cons, if_pos rfl] at hv
        cases hv
        rw [s2 hok'.1, if_pos this]
      · intro hno; simp at hno
    · have hj' : j ≠ jk := by
        rintro rfl
        rw [hj] at hjk
        exact hnk (Option.some.inj hjk)
      constructor
      · intro v hv
        rw [Dict.get?_cons, if_neg (fun h => hnk h.symm)] at hv
        exact s1 v hv
      · intro hno
        simp only [Dict.keys_cons, List.mem_cons, not_or] at hno
        rw [s2 hno.2, if_neg hj']

omit [LT α] [DecidableLT α] [Sub α] in
theorem fillRow_ok {names : List String} (hn : names.Nodup) (c : Particle α) (i : Nat) :
    ∀ (ps : List String) (a : Table α), (∀ p ∈ ps, p ∈ names ∧ ∃ v, attr c p = .ok v) →
    ∃ b, fillRow names c i ps a = .ok b ∧ (∀ i' j, i' ≠ i → b i' j = a i' j) ∧
      ∀ j n, names[j]? = some n →
        (n ∈ ps → attr c n = .ok (b i j)) ∧ (n ∉ ps → b i j = a i j)
  | [], a, _ => ⟨a, rfl, fun _ _ _ => rfl, fun j n _ => ⟨fun h => by simp at h, fun _ => rfl⟩⟩
  | p :: ps, a, h => by
    obtain ⟨hp, v, hv⟩ := h p (by simp)
    obtain ⟨jp, hjp⟩ := List.getElem?_of_mem hp
    obtain ⟨b, hb, s1, s2⟩ := fillRow_ok hn c i ps
      (fun i' j' => if i' = i ∧ j' = jp then v else a i' j') (fun q hq => h q (by simp [hq]))
    refine ⟨b, by rw [fillRow, hv]; simp only; rw [getIndex_eq hn hjp]; exact hb, ?_, ?_⟩
    · intro i' j hi
      rw [s1 i' j hi, if_neg (fun h => hi h.1)]
    · intro j n hj
      obtain ⟨t1, t2⟩ := s2 j n hj
      constructor
      · intro hm
        by_cases hmem : n ∈ ps
        · exact t1 hmem
        · have : n = p := by simpa [hmem] using hm
          subst this
          have : j = jp := by
            obtain ⟨_, e1⟩ := List.getElem?_eq_some_iff.1 hj
            obtain ⟨_, e2⟩ := List.getElem?_eq_some_iff.1 hjp
            exact (nodup_inj hn) (e1.trans e2.symm)
          rw [t2 hmem, if_pos ⟨rfl, this⟩, hv]
      · intro hm
        simp only [List.mem_cons, not_or] at hm
        have hj' : j ≠ jp := by
          rintro rfl
          rw [hj] at hjp
          exact hm.1 (Option.some.inj hjp)
        rw [t2 hm.2, if_neg (fun h => hj' h.2)]

omit [LT α] [DecidableLT α] [Sub α] in
theorem fillRows_ok {names params : List String} (hn : names.Nodup) :
    ∀ (cs : List (Particle α)) (i0 : Nat) (a : Table α),
    (∀ c ∈ cs, ∀ p ∈ params, p ∈ names ∧ ∃ v, attr c p = .ok v) →
    ∃ b, fillRows names params i0 cs a = .ok b ∧ (∀ i j, i < i0 → b i j = a i j) ∧
      ∀ i c j n, cs[i]? = some c → names[j]? = some n →
        (n ∈ params → attr c n = .ok (b (i0 + i) j)) ∧ (n ∉ params → b (i0 + i) j = a (i0 + i) j)
  | [], i0, a, _ => ⟨a, rfl, fun _ _ _ => rfl, fun i c j n h => by simp at h⟩
  | c :: cs, i0, a, h => by
    obtain ⟨b, hb, s1, s2⟩ := fillRow_ok hn c i0 params a (h c (by simp))
    obtain ⟨b', hb', t1, t2⟩ := fillRows_ok hn cs (i0 + 1) b (fun c' hc' => h c' (by simp [hc']))
    refine ⟨b', by rw [fillRows, hb]; exact hb', ?_, ?_⟩
    · intro i j hi
      rw [t1 i j (by omega), s1 i j (by omega)]
    · intro i c' j n hi hj
      cases i with
      | zero =>
        simp only [List.getElem?_cons_zero, Option.some.injEq] at hi
        subst hi
        rw [Nat.add_zero, t1 i0 j (by omega)]
        exact s2 j n hj
      | succ i =>
        simp only [List.getElem?_cons_succ] at hi
        have := t2 i c' j n hi hj
        rw [show i0 + (i + 1) = i0 + 1 + i by omega]
        rw [s1 (i0 + 1 + i) j (by omega)] at this
        exact this

end Verif.Sim
