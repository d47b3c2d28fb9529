import Verif.Tray.Spec

/-!
# Lemmas for C104 and C105
-/

namespace Verif.Tray
open Verif.Py Verif.Reco

theorem fname_inj {g g' : Getter} (h : g.fname = g'.fname) : g = g' := by
  cases g <;> cases g' <;> first | rfl | (exfalso; revert h; decide)

theorem settings_eq_iff (a b : Settings) : Settings.eq a b = true ↔ a = b := by
  unfold Settings.eq; simp

/-- Lookup after an addition that was not refused. -/
theorem get_add {F : Type} {c c' : Cache Settings F} {n : String} {s : Settings} {f : F}
    (h : Cache.add Settings.eq c n s f = .ok c') (hn : Cache.get Settings.eq c n s = none)
    (n' : String) (s' : Settings) :
    Cache.get Settings.eq c' n' s' =
      if n = n' ∧ s = s' then some f else Cache.get Settings.eq c n' s' := by
  unfold Cache.add at h
  unfold Cache.get at hn
  cases hc : Dict.get? c n with
  | none =>
    rw [hc] at h
    simp only [Except.ok.injEq] at h
    subst h
    unfold Cache.get
    rw [Dict.get?_set]
    by_cases e : n = n'
    · subst e
      rw [hc]
      by_cases es : s = s'
      · subst es
        simp [Settings.eq]
      · have : Settings.eq s' s = false := by
          rw [Bool.eq_false_iff]; intro hh; exact es ((settings_eq_iff _ _).1 hh).symm
        simp [this, es]
    · simp [e]
  | some entries =>
    rw [hc] at h hn
    simp only at h
    split_ifs at h with ha
    simp only [Except.ok.injEq] at h
    subst h
    unfold Cache.get
    rw [Dict.get?_set]
    by_cases e : n = n'
    · subst e
      rw [hc]
      by_cases es : s = s'
      · subst es
        simp only [if_true, and_self]
        simp only [Option.map_eq_none_iff] at hn
        rw [List.find?_append, hn]
        simp [Settings.eq]
      · have : Settings.eq s' s = false := by
          rw [Bool.eq_false_iff]; intro hh; exact es ((settings_eq_iff _ _).1 hh).symm
        simp only [if_true, es, and_false, if_false]
        rw [List.find?_append]
        simp [this]
    · simp [e]

theorem add_of_get_none {F : Type} (c : Cache Settings F) (n : String) (s : Settings) (f : F)
    (hn : Cache.get Settings.eq c n s = none) : ∃ c', Cache.add Settings.eq c n s f = .ok c' := by
  unfold Cache.get at hn
  unfold Cache.add
  cases hc : Dict.get? c n with
  | none => exact ⟨_, rfl⟩
  | some entries =>
    rw [hc] at hn
    simp only [Option.map_eq_none_iff, List.find?_eq_none] at hn
    simp only
    rw [if_neg]
    · exact ⟨_, rfl⟩
    · simp only [List.any_eq_true, not_exists, not_and]
      exact hn

/-- The cache holds exactly what was created. -/
structure Inv {F : Type} (create : Getter → Settings → F) (st : State F) : Prop where
  get : ∀ g s, Cache.get Settings.eq st.cache g.fname s =
    if (g, s) ∈ st.made then some (create g s) else none
  nodup : st.made.Nodup

theorem inv_new {F : Type} (create : Getter → Settings → F) : Inv create (State.new F) := by
  constructor
  · intro g s; simp [State.new, Cache.get]
  · simp [State.new]

theorem request_spec {F : Type} {create : Getter → Settings → F} {st : State F}
    (h : Inv create st) (g : Getter) (s : Settings) :
    ∃ st', request create st g s = .ok (create g s, st') ∧ Inv create st' := by
  unfold request
  have hg := h.get g s
  by_cases hm : (g, s) ∈ st.made
  · rw [if_pos hm] at hg
    rw [hg]
    exact ⟨st, rfl, h⟩
  · rw [if_neg hm] at hg
    rw [hg]
    obtain ⟨c', hc'⟩ := add_of_get_none st.cache g.fname s (create g s) hg
    simp only [hc']
    refine ⟨_, rfl, ?_, ?_⟩
    · intro g' s'
      simp only
      rw [get_add hc' hg, h.get]
      by_cases e : g.fname = g'.fname ∧ s = s'
      · obtain ⟨e1, e2⟩ := e
        have := fname_inj e1
        subst this; subst e2
        simp
      · rw [if_neg e]
        have hne : (g', s') ≠ (g, s) := by
          intro hh
          simp only [Prod.mk.injEq] at hh
          exact e ⟨by rw [hh.1], hh.2.symm⟩
        simp [hne]
    · simp only
      rw [List.nodup_append]
      refine ⟨h.nodup, by simp, ?_⟩
      intro a ha b hb
      simp only [List.mem_singleton] at hb
      subst hb
      intro e
      subst e
      exact hm ha

theorem requests_spec {F : Type} {create : Getter → Settings → F} (rs : List (Getter × Settings)) :
    ∀ {st : State F}, Inv create st →
    ∃ st', requests create st rs = (.ok (rs.map fun r => create r.1 r.2), st') ∧
      Inv create st' := by
  induction rs with
  | nil => intro st h; exact ⟨st, rfl, h⟩
  | cons r rs ih =>
    intro st h
    obtain ⟨g, s⟩ := r
    obtain ⟨st1, h1, i1⟩ := request_spec h g s
    obtain ⟨st2, h2, i2⟩ := ih i1
    refine ⟨st2, ?_, i2⟩
    rw [requests, h1]
    simp only [h2, List.map_cons]

/-- The outcome of an initializer does not depend on the state. -/
theorem init_spec {F : Type} {create : Getter → Settings → F} {st : State F} (h : Inv create st)
    (m : ModuleArgs) :
    (initModule create st m).1 = alone create m ∧ Inv create (initModule create st m).2 := by
  have key : ∀ rs : List (Getter × Settings),
      (requests create st rs).1 = (requests create (State.new F) rs).1 ∧
      Inv create (requests create st rs).2 := by
    intro rs
    obtain ⟨st1, h1, i1⟩ := requests_spec rs h
    obtain ⟨st2, h2, i2⟩ := requests_spec rs (inv_new create)
    rw [h1, h2]
    exact ⟨rfl, i1⟩
  unfold alone
  cases m with
  | reconstruction fit trafo param interface =>
    simp only [initModule, initReconstruction]
    split_ifs with a b
    · exact key _
    · exact key _
    · obtain ⟨st1, h1, i1⟩ := requests_spec
        [(Getter.loss, Settings.fn fit.length none (fit.map fun _ => true) false none param []),
          (.lossGrad, settings3 fit trafo param)] h
      obtain ⟨st2, h2, i2⟩ := requests_spec
        [(Getter.loss, Settings.fn fit.length none (fit.map fun _ => true) false none param []),
          (.lossGrad, settings3 fit trafo param)] (inv_new create)
      rw [h1, h2]
      exact ⟨rfl, i1⟩
  | covariance fit trafo param =>
    simp only [initModule, initCovariance]
    split_ifs
    · exact key _
    · exact ⟨rfl, h⟩
  | mcmc fit trafo param seed => exact key _
  | circular fit trafo param zenith azimuth =>
    simp only [initModule, initCircular]
    cases clear fit zenith with
    | error e => exact ⟨rfl, h⟩
    | ok unc =>
      simp only
      cases clear unc azimuth with
      | error e => exact ⟨rfl, h⟩
      | ok unc => exact key _
  | goodness fit trafo param perDom => exact key _
  | scan fit trafo param seed => exact key _
  | select => exact ⟨rfl, h⟩

theorem inv_after {F : Type} (create : Getter → Settings → F) (ms : List ModuleArgs) :
    Inv create (State.after create ms) := by
  unfold State.after
  induction ms using List.reverseRecOn with
  | nil => exact inv_new create
  | append_singleton ms m ih =>
    rw [List.foldl_append]
    exact (init_spec ih m).2

/-! ## The scan -/

theorem length_mapCols (f : Nat → ℝ → ℝ) (r : Row) : (mapCols f r).length = r.length := by
  unfold mapCols; simp

theorem get_mapCols (f : Nat → ℝ → ℝ) (r : Row) (i : Nat) :
    (mapCols f r)[i]? = (r[i]?).map (f i) := by
  unfold mapCols; simp

theorem mapCols_set (f : Nat → ℝ → ℝ) (r : Row) (i : Nat) (v : ℝ) :
    mapCols f (r.set i v) = (mapCols f r).set i (f i v) := by
  apply List.ext_getElem?
  intro k
  rw [get_mapCols, List.getElem?_set, List.getElem?_set, get_mapCols, length_mapCols]
  by_cases e : i = k
  · subst e
    by_cases l : i < r.length <;> simp [l]
  · simp [e]

theorem mapCols_inv {f g : Nat → ℝ → ℝ} (h : ∀ i v, g i (f i v) = v) (r : Row) :
    mapCols g (mapCols f r) = r := by
  apply List.ext_getElem?
  intro k
  rw [get_mapCols, get_mapCols, Option.map_map]
  have : g k ∘ f k = id := by funext v; exact h k v
  rw [this]; simp

theorem numFit_all {fit : List Bool} (h : fit.all id = true) : numFit fit = fit.length := by
  unfold numFit
  rw [List.filter_eq_self.2]
  simpa using h

theorem numFit_lt {fit : List Bool} (h : fit.all id = false) : numFit fit < fit.length := by
  unfold numFit
  rcases Nat.lt_or_ge (fit.filter id).length fit.length with hl | hl
  · exact hl
  · exfalso
    have e := List.length_filter_eq_length_iff.1 (Nat.le_antisymm (List.length_filter_le _ _) hl)
    rw [List.all_eq_false] at h
    obtain ⟨x, hx, hx'⟩ := h
    exact hx' (e x hx)

theorem lossFunction_all {c : Scan} (hall : c.fit.all id = true) {p : Row}
    (hp : p.length = c.fit.length) (seed : Row) :
    c.lossFunction seed p = .ok (c.loss (if c.trafo then mapCols c.inv p else p)) := by
  unfold Scan.lossFunction
  rw [numFit_all hall, if_neg (by simpa using hp)]
  simp only [hall, if_true]

/-- A point of the scan, for all parameters fitted. -/
theorem scanPoint_all {c : Scan} (hall : c.fit.all id = true) (seed : Row) {result truth : Row}
    (hr : result.length = c.fit.length) (ht : truth.length = c.fit.length) {i : Nat}
    (hi : i < c.fit.length) (v : ℝ) :
    scanPoint c seed result truth i v = .ok
      ⟨c.inv i v, c.loss (if c.trafo then mapCols c.inv (result.set i v) else result.set i v),
        c.loss (if c.trafo then mapCols c.inv (truth.set i v) else truth.set i v)⟩ := by
  unfold scanPoint
  have e1 : setCol result i v = .ok (result.set i v) := by
    unfold setCol; rw [if_pos (by omega)]
  have e2 : setCol truth i v = .ok (truth.set i v) := by
    unfold setCol; rw [if_pos (by omega)]
  have e3 : c.apply c.inv (truth.set i v) = .ok (mapCols c.inv (truth.set i v)) := by
    unfold Scan.apply; rw [if_pos (by simpa using ht)]
  have e4 : getCol (mapCols c.inv (truth.set i v)) i = .ok (c.inv i v) := by
    unfold getCol
    rw [get_mapCols, List.getElem?_set]
    simp [show i < truth.length by omega]
  have e5 := lossFunction_all hall (p := result.set i v) (by simpa using hr) seed
  have e6 := lossFunction_all hall (p := truth.set i v) (by simpa using ht) seed
  rw [e1, e2]
  simp only [bind, Except.bind, pure, Except.pure, e3, e4, e5, e6]

theorem mapM_ok {α β : Type} {f : α → Except Err β} {g : α → β} (h : ∀ a, f a = .ok (g a))
    (l : List α) : l.mapM f = .ok (l.map g) := by
  induction l with
  | nil => rfl
  | cons a l ih => rw [List.mapM_cons, h a, ih]; rfl

/-- The plot of one parameter, for all parameters fitted and no covariance matrix. -/
theorem scanParameter_all {c : Scan} (hall : c.fit.all id = true) (num : Nat) (seed : Row)
    {result truth resultInv truthInv : Row}
    (hr : result.length = c.fit.length) (ht : truth.length = c.fit.length) {i : Nat}
    (hi : i < c.fit.length) {a t r : ℝ} (ha : truth[i]? = some a) (htt : truthInv[i]? = some t)
    (hrr : resultInv[i]? = some r) :
    scanParameter c num 0 seed result truth resultInv truthInv i = .ok
      ⟨(linspace a num).map fun v =>
        ⟨c.inv i v, c.loss (if c.trafo then mapCols c.inv (result.set i v) else result.set i v),
          c.loss (if c.trafo then mapCols c.inv (truth.set i v) else truth.set i v)⟩,
        c.loss (if c.trafo then mapCols c.inv truth else truth),
        c.loss (if c.trafo then mapCols c.inv result else result), t, r⟩ := by
  unfold scanParameter
  have e1 : getCol truth i = .ok a := by unfold getCol; rw [ha]
  have e2 : getCol truthInv i = .ok t := by unfold getCol; rw [htt]
  have e3 : getCol resultInv i = .ok r := by unfold getCol; rw [hrr]
  rw [e1, e2, e3, lossFunction_all hall hr, lossFunction_all hall ht]
  simp only [bind, Except.bind, pure, Except.pure]
  rw [mapM_ok (scanPoint_all hall seed hr ht hi)]
  simp

/-- The loop over parameters when every plot succeeds. -/
theorem scanLoop_ok (file : String → String) (plot : Nat → Except Err Plot) (p : Nat → Plot)
    (names : List String) : ∀ (k : Nat) (d : Dict String Plot),
    (∀ j < names.length, plot (k + j) = .ok (p (k + j))) →
    (names.map file).Nodup →
    ∃ d', scanLoop file plot k names d = (none, d') ∧
      (∀ j n, names[j]? = some n → Dict.get? d' (file n) = some (p (k + j))) ∧
      ∀ n, n ∉ names.map file → Dict.get? d' n = Dict.get? d n := by
  induction names with
  | nil => intro k d _ _; exact ⟨d, rfl, by simp, by simp⟩
  | cons name names ih =>
    intro k d h hnd
    have h0 := h 0 (by simp)
    rw [Nat.add_zero] at h0
    rw [List.map_cons, List.nodup_cons] at hnd
    obtain ⟨d', e, g1, g2⟩ := ih (k + 1) (Dict.set d (file name) (p k)) (by
      intro j hj
      have := h (j + 1) (by simpa using hj)
      rwa [show k + 1 + j = k + (j + 1) by omega]) hnd.2
    refine ⟨d', ?_, ?_, ?_⟩
    · rw [scanLoop, h0]
      exact e
    · intro j n hn
      cases j with
      | zero =>
        simp only [List.getElem?_cons_zero, Option.some.injEq] at hn
        subst hn
        rw [g2 _ hnd.1, Dict.get?_set, if_pos rfl]
        simp
      | succ j =>
        rw [List.getElem?_cons_succ] at hn
        rw [g1 j n hn, show k + 1 + j = k + (j + 1) by omega]
    · intro n hn
      rw [List.map_cons, List.mem_cons, not_or] at hn
      rw [g2 n hn.2, Dict.get?_set, if_neg]
      exact fun e => hn.1 e.symm

/-- The loop never touches other files than its own. -/
theorem scanLoop_other (file : String → String) (plot : Nat → Except Err Plot)
    (names : List String) : ∀ (k : Nat) (d : Dict String Plot) (n : String),
    n ∉ names.map file → Dict.get? (scanLoop file plot k names d).2 n = Dict.get? d n := by
  induction names with
  | nil => intro k d n _; rfl
  | cons name names ih =>
    intro k d n hn
    rw [List.map_cons, List.mem_cons, not_or] at hn
    rw [scanLoop]
    cases plot k with
    | error e => rfl
    | ok p =>
      simp only
      rw [ih _ _ _ hn.2, Dict.get?_set, if_neg]
      exact fun e => hn.1 e.symm

theorem runModules_error {V : Type} (runtime : Nat → V) (ms : List (String × Module V)) :
    ∀ (k : Nat) (r : Results V), (∃ p ∈ ms, ∀ r, ∃ e, p.2 r = .error e) →
    ∃ e, runModules runtime k ms r = .error e := by
  induction ms with
  | nil => intro k r ⟨p, hp, _⟩; simp at hp
  | cons m ms ih =>
    intro k r ⟨p, hp, he⟩
    obtain ⟨name, m⟩ := m
    rw [runModules]
    rcases List.mem_cons.1 hp with e | hp
    · subst e
      obtain ⟨e, h⟩ := he r
      simp only at h
      rw [h]
      exact ⟨e, rfl⟩
    · cases m r with
      | error e => exact ⟨e, rfl⟩
      | ok d =>
        simp only
        split_ifs
        · exact ⟨_, rfl⟩
        · exact ih _ _ ⟨p, hp, he⟩

end Verif.Tray
