import Verif.Optim.Lemmas

/-! # Lemmas on the iterations of the spherical optimizer -/

namespace Verif.Optim
open Verif.Py

variable {P α : Type} [LinearOrder α]

theorem Sound.append {c : Settings P α} {n : Nat} {pts pts' : List (P × α)} {calls : Nat}
    {log : List (List P)} (h : Sound c n pts calls log) (b : List P) (hl : pts'.length = n)
    (hm : ∀ e ∈ pts', e ∈ pts ∨ (e.1 ∈ b ∧ e.2 = c.f e.1))
    (hk : ∀ e ∈ pts, ∃ e' ∈ pts', e'.2 ≤ e.2) (hb : ∀ p ∈ b, ∃ e ∈ pts', e.2 ≤ c.f p) :
    Sound c n pts' (calls + b.length) (log ++ [b]) where
  len := hl
  value e he := by
    rcases hm e he with h1 | h1
    · exact h.value e h1
    · exact h1.2
  calls := by rw [h.calls, List.map_append, List.sum_append]; simp
  seen e he := by
    rcases hm e he with h1 | h1
    · obtain ⟨b', h2, h3⟩ := h.seen e h1
      exact ⟨b', by simp [h2], h3⟩
    · exact ⟨b, by simp, h1.1⟩
  kept b' hb' p hp := by
    rcases List.mem_append.1 hb' with h1 | h1
    · obtain ⟨e, he, hle⟩ := h.kept b' h1 p hp
      obtain ⟨e', he', hle'⟩ := hk e he
      exact ⟨e', he', le_trans hle' hle⟩
    · rw [List.mem_singleton] at h1
      subst h1
      exact hb p hp

/-- The outcome of an iteration that started with `pts`, `calls` and `log`. -/
structure StepOk (c : Settings P α) (n : Nat) (pts : List (P × α)) (calls : Nat)
    (log : List (List P)) (s' : State P α) : Prop where
  sound : Sound c n s'.pts s'.calls s'.log
  grown : ∃ b, s'.log = log ++ [b] ∧ s'.calls = calls + b.length ∧
    b.length ≤ max (2 * c.batch) (n + 1)
  lower : ∀ e ∈ pts, ∃ e' ∈ s'.pts, e'.2 ≤ e.2
  best : ∃ e', s'.pts[s'.best]? = some e' ∧ ∀ e ∈ pts, e'.2 ≤ e.2

theorem pick_mem {β : Type} (a : List β) (inds : List Nat) (xs : List β) (h : pick a inds = .ok xs) :
    ∀ x ∈ xs, x ∈ a := by
  induction inds generalizing xs with
  | nil => rw [pick] at h; cases h; simp
  | cons i is ih =>
    rw [pick] at h
    split at h
    · cases h
    · rename_i y hy
      split at h
      · cases h
      · rename_i ys hys
        cases h
        intro x hx
        rcases List.mem_cons.1 hx with rfl | hx
        · exact List.mem_of_getElem? hy
        · exact ih ys hys x hx

theorem crs2_ok (c : Settings P α) (hsort : IsArgsort c.argsort) (hgeo : c.geo.Ok c.batch)
    (n it : Nat) (s : State P α) (sorted : List Nat)
    (hs : sorted = c.argsort (s.pts.map Prod.snd)) (hb : sorted.head? = some s.best)
    (hn : c.batch < n) (h : Sound c n s.pts s.calls s.log) :
    ∃ s', crs2 c it s sorted = .ok s' ∧ StepOk c n s.pts s.calls s.log s' := by
  obtain ⟨o1, o2, o3, o4, o5⟩ := hsort.facts (s.pts.map Prod.snd)
  rw [← hs] at o1 o2 o3 o4 o5
  rw [List.length_map] at o1
  obtain ⟨hb1, hb2⟩ := head_lowest hsort (s.pts.map Prod.snd) (by rw [← hs]; exact hb)
  rw [List.length_map] at hb1
  have hrl := hgeo.batch it (s.pts.map Prod.fst) s.best
  obtain ⟨reps, r1, r2, r3, r4, r5, r6⟩ := improve c hsort s.pts
    (c.eval (c.geo.batch it (s.pts.map Prod.fst) s.best)) sorted
    (some (c.argsort ((c.eval (c.geo.batch it (s.pts.map Prod.fst) s.best)).map Prod.snd)))
    (Or.inr rfl) (by simpa using o3) o2 o5 (by rw [eval_length, hrl, o1, h.len]; omega)
  rw [eval_length, hrl] at r2
  generalize hrefl : c.geo.batch it (s.pts.map Prod.fst) s.best = refl at *
  rw [crs2]
  simp only [hrefl, r1]
  by_cases hall : reps.length = c.batch
  · rw [if_pos hall]
    refine ⟨_, rfl, ?_, ⟨refl, rfl, by simp only [hrl], by omega⟩, fun e he => r6.exists_le he, ?_⟩
    · have := h.append (pts' := replaceAll s.pts (c.eval refl) reps) refl
        (by rw [r6.len, h.len]) (fun e he => (r6.mem e he).imp id (mem_eval c refl e))
        (fun e he => r6.exists_le he) (fun p hp => r6.bound _ (eval_mem c hp))
      rwa [hrl] at this
    · obtain ⟨e', g1, g2⟩ := r6.le s.best _ (List.getElem?_eq_getElem hb1)
      refine ⟨e', g1, fun e he => le_trans g2 ?_⟩
      refine hb2 _ ?_ _ (List.mem_map_of_mem he)
      simp [hb1]
  · rw [if_neg hall]
    obtain ⟨p1, p2, p3, p4, p5⟩ := hsort.facts ((c.eval refl).map Prod.snd)
    rw [List.length_map, eval_length] at p1
    obtain ⟨toMutate, t1, t2, -⟩ := pick_ok refl
      ((c.argsort ((c.eval refl).map Prod.snd)).drop reps.length) (by
        intro i hi
        have := p3 i (List.mem_of_mem_drop hi)
        simpa [eval_length] using this)
    have t2' : toMutate.length = c.batch - reps.length := by
      rw [t2, List.length_drop, p1, hrl]
    simp only [t1]
    have hl1 : (replaceAll s.pts (c.eval refl) reps).length = n := by rw [r6.len, h.len]
    obtain ⟨best, v, m1, m2, m3⟩ := (argmin_spec ((replaceAll s.pts (c.eval refl) reps).map Prod.snd)
      0).2 (by
        intro he
        have := congrArg List.length he
        rw [List.length_map, hl1] at this
        simp at this
        omega)
    rw [Nat.zero_add] at m1
    simp only [m1]
    have hml := hgeo.mutate it ((replaceAll s.pts (c.eval refl) reps).map Prod.fst) best toMutate
    generalize c.geo.mutate it ((replaceAll s.pts (c.eval refl) reps).map Prod.fst) best toMutate =
      mu at *
    generalize hp1 : replaceAll s.pts (c.eval refl) reps = pts1 at *
    -- points that were not replaced
    have hkeep : ∀ i ∈ sorted.take (sorted.length - reps.length), pts1[i]? = s.pts[i]? := by
      intro i hi
      have hget := (replaceAll_get s.pts (c.eval refl) reps r4 r5 (fun r hr => by
        have := o3 r.1 (List.mem_of_mem_drop (r3 r hr))
        simpa using this)).1 i ?_
      · rw [hp1] at hget; exact hget
      · intro hm
        obtain ⟨r, hr, rfl⟩ := List.mem_map.1 hm
        have hd := r3 r hr
        rw [lastN] at hd
        exact (List.disjoint_take_drop o2 (le_refl _)) hi hd
    obtain ⟨reps2, q1, q2, -, -, -, q6⟩ := improve c hsort pts1 (c.eval mu)
      (sorted.take (sorted.length - reps.length)) none (Or.inl rfl)
      (fun i hi => by
        rw [hl1, ← h.len]
        have := o3 i (List.mem_of_mem_take hi)
        simpa using this)
      (o2.sublist (List.take_sublist _ _))
      (by
        have h1 : Ascending (s.pts.map Prod.snd) (sorted.take (sorted.length - reps.length)) :=
          List.Pairwise.sublist (List.take_sublist _ _) o5
        unfold Ascending at h1 ⊢
        refine h1.imp_of_mem ?_
        intro i j hi hj hij a b ha hb
        rw [List.getElem?_map] at ha hb
        rw [hkeep i hi, ← List.getElem?_map] at ha
        rw [hkeep j hj, ← List.getElem?_map] at hb
        exact hij a b ha hb)
      (by rw [eval_length, hml, t2', List.length_take, o1, h.len]; omega)
    simp only [q1]
    have hmem : ∀ e ∈ replaceAll pts1 (c.eval mu) reps2,
        e ∈ s.pts ∨ (e.1 ∈ refl ++ mu ∧ e.2 = c.f e.1) := by
      intro e he
      rcases q6.mem e he with h1 | h1
      · rcases r6.mem e h1 with h2 | h2
        · exact Or.inl h2
        · have := mem_eval c refl e h2
          exact Or.inr ⟨by simp [this.1], this.2⟩
      · have := mem_eval c mu e h1
        exact Or.inr ⟨by simp [this.1], this.2⟩
    have hle : ∀ e ∈ s.pts, ∃ e' ∈ replaceAll pts1 (c.eval mu) reps2, e'.2 ≤ e.2 := by
      intro e he
      obtain ⟨e1, h1, h2⟩ := r6.exists_le he
      obtain ⟨e2, h3, h4⟩ := q6.exists_le h1
      exact ⟨e2, h3, le_trans h4 h2⟩
    have hlen' : s.calls + c.batch + toMutate.length = s.calls + (refl ++ mu).length := by
      rw [List.length_append, hrl, hml]; omega
    refine ⟨_, rfl, ?_, ⟨refl ++ mu, rfl, hlen', ?_⟩, hle, ?_⟩
    · have := h.append (pts' := replaceAll pts1 (c.eval mu) reps2) (refl ++ mu)
        (by rw [q6.len, hl1]) hmem hle (fun p hp => by
          rcases List.mem_append.1 hp with h1 | h1
          · obtain ⟨e1, g1, g2⟩ := r6.bound _ (eval_mem c h1)
            obtain ⟨e2, g3, g4⟩ := q6.exists_le g1
            exact ⟨e2, g3, le_trans g4 g2⟩
          · exact q6.bound _ (eval_mem c h1))
      rwa [← hlen'] at this
    · rw [List.length_append, hrl, hml, t2']; omega
    · obtain ⟨hbl, hbv⟩ := List.getElem?_eq_some_iff.1 m2
      rw [List.length_map] at hbl
      obtain ⟨e', g1, g2⟩ := q6.le best _ (List.getElem?_eq_getElem hbl)
      refine ⟨e', g1, fun e he => ?_⟩
      obtain ⟨e1, g3, g4⟩ := r6.exists_le he
      refine le_trans g2 (le_trans ?_ g4)
      have := m3 e1.2 (List.mem_map_of_mem g3)
      rw [← hbv] at this
      simpa using this

omit [LinearOrder α] in
theorem mem_set_of {pts : List (P × α)} {i : Nat} {x e : P × α} (h : e ∈ pts.set i x) :
    e ∈ pts ∨ e = x := List.mem_or_eq_of_mem_set h

theorem shrunk_length_aux {γ : Type} (l : List γ) (k best : Nat) :
    ((l.mapIdx fun i e => (i + k, e)).filter fun e => e.1 ≠ best).length =
      l.length - (if k ≤ best ∧ best < k + l.length then 1 else 0) := by
  induction l generalizing k with
  | nil => simp
  | cons x xs ih =>
    rw [List.mapIdx_cons]
    have e : (xs.mapIdx fun i e => (i + 1 + k, e)) = xs.mapIdx fun i e => (i + (k + 1), e) := by
      congr 1; funext i e; rw [Nat.add_assoc, Nat.add_comm 1 k]
    rw [e]
    by_cases hk : k = best
    · subst hk
      rw [List.filter_cons_of_neg (by simp), ih, if_neg (by omega), if_pos (by simp)]
      simp
    · rw [List.filter_cons_of_pos (by simp [hk]), List.length_cons, ih, List.length_cons]
      split <;> split <;> omega

omit [LinearOrder α] in
theorem shrunk_length (c : Settings P α) (b : P × α) (best : Nat) (pts : List (P × α))
    (h : best < pts.length) : (shrunk c b best pts).length = pts.length - 1 := by
  rw [shrunk, List.length_map]
  have := shrunk_length_aux pts 0 best
  rw [if_pos (by omega)] at this
  exact this

omit [LinearOrder α] in
theorem mem_shrunk (c : Settings P α) (b : P × α) (best : Nat) (pts : List (P × α)) (p : P) :
    p ∈ shrunk c b best pts ↔
      ∃ i, ∃ h : i < pts.length, i ≠ best ∧ p = c.geo.shrink b.1 pts[i].1 := by
  unfold shrunk
  simp only [List.mem_map, List.mem_filter, List.mem_mapIdx, decide_eq_true_eq]
  constructor
  · rintro ⟨e, ⟨⟨i, hi, rfl⟩, h2⟩, rfl⟩
    exact ⟨i, hi, h2, rfl⟩
  · rintro ⟨i, hi, h2, rfl⟩
    exact ⟨_, ⟨⟨i, hi, rfl⟩, h2⟩, rfl⟩

theorem nelderMead_ok (c : Settings P α) (hsort : IsArgsort c.argsort) (n : Nat) (s : State P α)
    (sorted : List Nat) (hs : sorted = c.argsort (s.pts.map Prod.snd))
    (hb : sorted.head? = some s.best) (hn : 2 ≤ n) (h : Sound c n s.pts s.calls s.log) :
    ∃ s', nelderMead c s sorted = .ok s' ∧ StepOk c n s.pts s.calls s.log s' := by
  obtain ⟨o1, o2, o3, o4, o5⟩ := hsort.facts (s.pts.map Prod.snd)
  rw [← hs] at o1 o2 o3 o4 o5
  rw [List.length_map] at o1
  obtain ⟨hb1, hb2⟩ := head_lowest hsort (s.pts.map Prod.snd) (by rw [← hs]; exact hb)
  rw [List.length_map] at hb1
  have hl := h.len
  have hw : sorted.length - 1 < sorted.length := by omega
  have hm : sorted.length - 2 < sorted.length := by omega
  have hworst := o3 _ (List.getElem_mem hw)
  have hsecond := o3 _ (List.getElem_mem hm)
  rw [List.length_map] at hworst hsecond
  rw [nelderMead]
  rw [List.getLast?_eq_getElem?, List.getElem?_eq_getElem hw, List.getElem?_eq_getElem hm]
  simp only
  rw [if_neg (by omega), List.getElem?_eq_getElem hworst, List.getElem?_eq_getElem hsecond,
    List.getElem?_eq_getElem hb1]
  simp only
  have hbest : ∀ e ∈ s.pts, s.pts[s.best].2 ≤ e.2 := by
    intro e he
    refine hb2 _ ?_ _ (List.mem_map_of_mem he)
    simp [hb1]
  have hne : sorted[sorted.length - 1] ≠ s.best := by
    intro he
    have h0 : 0 < sorted.length := by omega
    have : sorted[0] = s.best := by
      rw [List.head?_eq_getElem?, List.getElem?_eq_getElem h0] at hb
      exact Option.some.inj hb
    have := (List.Nodup.getElem_inj_iff o2 (hi := hw) (hj := h0)).1 (by rw [he, this])
    omega
  generalize sorted[sorted.length - 1] = worst at *
  -- replacing the worst point
  have key : ∀ (e : P × α) (b : List P), e.1 ∈ b → e.2 = c.f e.1 → b.length ≤ n + 1 →
      (∀ p ∈ b, s.pts[s.best].2 ≤ c.f p ∨ e.2 ≤ c.f p) →
      StepOk c n s.pts s.calls s.log
        { s with pts := s.pts.set worst e, calls := s.calls + b.length, log := s.log ++ [b] } := by
    intro e b h1 h2 h3 h4
    have hbm : s.pts[s.best] ∈ s.pts.set worst e := by
      refine List.mem_of_getElem? (i := s.best) ?_
      rw [List.getElem?_set_ne hne, List.getElem?_eq_getElem hb1]
    have hle : ∀ e' ∈ s.pts, ∃ e'' ∈ s.pts.set worst e, e''.2 ≤ e'.2 :=
      fun e' he' => ⟨_, hbm, hbest e' he'⟩
    refine ⟨h.append b (by rw [List.length_set, hl]) ?_ hle ?_, ⟨b, rfl, rfl, by omega⟩, hle, ?_⟩
    · intro e' he'
      rcases mem_set_of he' with h5 | rfl
      · exact Or.inl h5
      · exact Or.inr ⟨h1, h2⟩
    · intro p hp
      rcases h4 p hp with h5 | h5
      · exact ⟨_, hbm, h5⟩
      · exact ⟨e, List.mem_set hworst e, h5⟩
    · exact ⟨s.pts[s.best], by
        simp only
        rw [List.getElem?_set_ne hne, List.getElem?_eq_getElem hb1], hbest⟩
  generalize c.geo.reflect (s.pts.map Prod.fst) sorted = p
  by_cases c1 : c.f p < s.pts[sorted[sorted.length - 2]].2 ∧ c.f p ≥ s.pts[s.best].2
  · rw [if_pos c1]
    exact ⟨_, rfl, key (p, c.f p) [p] (by simp) rfl (by simp) (by simp)⟩
  · rw [if_neg c1]
    by_cases c2 : c.f p < s.pts[s.best].2
    · rw [if_pos c2]
      generalize c.geo.expand (s.pts.map Prod.fst) sorted = q
      refine ⟨_, rfl, key _ [p, q] ?_ ?_ (by simp; omega) ?_⟩
      · split <;> simp
      · split <;> rfl
      · intro x hx
        simp only [List.mem_cons, List.not_mem_nil, or_false] at hx
        rcases hx with rfl | rfl
        · right
          split
          · rename_i hlt; exact le_of_lt hlt
          · exact le_refl _
        · right
          split
          · exact le_refl _
          · rename_i hge; exact not_lt.1 hge
    · rw [if_neg c2]
      have c2' := not_lt.1 c2
      generalize (if c.f p < s.pts[worst].2 then c.geo.contractOut (s.pts.map Prod.fst) sorted
        else c.geo.contractIn (s.pts.map Prod.fst) sorted) = q
      by_cases c3 : c.f q < (if c.f p < s.pts[worst].2 then c.f p else s.pts[worst].2)
      · rw [if_pos c3]
        refine ⟨_, rfl, key (q, c.f q) [p, q] (by simp) rfl (by simp; omega) ?_⟩
        intro x hx
        simp only [List.mem_cons, List.not_mem_nil, or_false] at hx
        rcases hx with rfl | rfl
        · exact Or.inl c2'
        · exact Or.inr (le_refl _)
      · rw [if_neg c3]
        have c3' : s.pts[s.best].2 ≤ c.f q := by
          refine le_trans ?_ (not_lt.1 c3)
          split
          · exact c2'
          · exact hbest _ (List.getElem_mem _)
        have hsl := shrunk_length c s.pts[s.best] s.best s.pts hb1
        have hcalls : s.calls + 2 + (s.pts.length - 1) =
            s.calls + ([p, q] ++ shrunk c s.pts[s.best] s.best s.pts).length := by
          rw [List.length_append, hsl]; simp; omega
        have hgb : (shrinkAll c s.pts[s.best] s.best s.pts)[s.best]? = some s.pts[s.best] := by
          rw [shrinkAll, List.getElem?_mapIdx, List.getElem?_eq_getElem hb1]; simp
        have hbm := List.mem_of_getElem? hgb
        have hle : ∀ e' ∈ s.pts, ∃ e'' ∈ shrinkAll c s.pts[s.best] s.best s.pts, e''.2 ≤ e'.2 :=
          fun e' he' => ⟨_, hbm, hbest e' he'⟩
        refine ⟨_, rfl, ?_, ⟨_, rfl, hcalls, ?_⟩, hle, ⟨_, hgb, hbest⟩⟩
        · have := h.append (pts' := shrinkAll c s.pts[s.best] s.best s.pts)
            ([p, q] ++ shrunk c s.pts[s.best] s.best s.pts) (by rw [shrinkAll]; simpa using hl)
            (by
              intro e he
              rw [shrinkAll, List.mem_mapIdx] at he
              obtain ⟨i, hi, rfl⟩ := he
              by_cases hib : i = s.best
              · rw [if_pos hib]
                exact Or.inl (List.getElem_mem _)
              · rw [if_neg hib]
                refine Or.inr ⟨?_, rfl⟩
                exact List.mem_append_right _ ((mem_shrunk c _ _ _ _).2 ⟨i, hi, hib, rfl⟩))
            hle (by
              intro x hx
              rcases List.mem_append.1 hx with hx | hx
              · simp only [List.mem_cons, List.not_mem_nil, or_false] at hx
                rcases hx with rfl | rfl
                · exact ⟨_, hbm, c2'⟩
                · exact ⟨_, hbm, c3'⟩
              · obtain ⟨i, hi, hib, rfl⟩ := (mem_shrunk c _ _ _ _).1 hx
                refine ⟨(c.geo.shrink s.pts[s.best].1 s.pts[i].1,
                  c.f (c.geo.shrink s.pts[s.best].1 s.pts[i].1)), ?_, le_refl _⟩
                rw [shrinkAll, List.mem_mapIdx]
                exact ⟨i, hi, by rw [if_neg hib]⟩)
          rwa [← hcalls] at this
        · rw [List.length_append, hsl]; simp; omega

omit [LinearOrder α] in
theorem args_ok {c : Settings P α} {n : Nat} (h : ValidArgs c n) (hd : 0 < c.dim) :
    2 ≤ n ∧ (c.method = "CRS2" → c.batch < n) ∧ check c n = .ok () := by
  rcases h with ⟨h1, h2, h3⟩ | ⟨h1, h2, h3⟩
  · refine ⟨by omega, fun hc => by rw [hc] at h1; exact absurd h1 (by decide), ?_⟩
    unfold check
    rw [if_neg (fun hh => hh.1 h1), if_neg (fun hh => by omega), if_pos h1, if_pos h3]
  · have := Nat.le_mul_of_pos_right c.batch hd
    refine ⟨by omega, fun hc => by omega, ?_⟩
    unfold check
    rw [if_neg (fun hh => hh.2 h1), if_neg (fun hh => hh.2 h1), if_neg (by rw [h1]; decide),
      if_neg (by omega), if_neg (by omega), if_pos h3]

theorem step_ok (c : Settings P α) (n it : Nat) (hc : Accepted c n) (s : State P α)
    (h : Sound c n s.pts s.calls s.log) :
    ∃ s', step c it s = .ok s' ∧ StepOk c n s.pts s.calls s.log s' := by
  obtain ⟨h2, hbatch, -⟩ := args_ok hc.args hc.dim
  have hf := hc.sort.facts (s.pts.map Prod.snd)
  rw [List.length_map, h.len] at hf
  unfold step
  obtain ⟨best, hb⟩ : ∃ best, (c.argsort (s.pts.map Prod.snd)).head? = some best := by
    rw [List.head?_eq_getElem?]
    exact ⟨_, List.getElem?_eq_getElem (by omega)⟩
  obtain ⟨hb1, hb2⟩ := head_lowest hc.sort (s.pts.map Prod.snd) hb
  rw [List.length_map] at hb1
  simp only [hb]
  rw [List.getElem?_eq_getElem hb1]
  simp only
  by_cases hm : c.method = "CRS2"
  · rw [if_pos hm]
    split
    · exact crs2_ok c hc.sort hc.geo n it _ _ rfl hb (hbatch hm) h
    · exact crs2_ok c hc.sort hc.geo n it _ _ rfl hb (hbatch hm) h
  · rw [if_neg hm]
    split
    · exact nelderMead_ok c hc.sort n _ _ rfl hb h2 h
    · exact nelderMead_ok c hc.sort n _ _ rfl hb h2 h

end Verif.Optim
