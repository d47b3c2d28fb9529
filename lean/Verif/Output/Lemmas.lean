/-
Lemmas for C61, C74 and C75.
-/
import Mathlib.Data.List.Nodup
import Mathlib.Tactic.Ring
import Mathlib.Tactic.Linarith
import Verif.Output.Spec

namespace Verif.Output
open Verif.Py

/-! ### Assignments -/

theorem get?_sets_of_notMem : ∀ (l : List (String × ℝ)) (d : Dict String ℝ) (k : String),
    k ∉ l.map (·.1) → Dict.get? (sets d l) k = Dict.get? d k
  | [], _, _, _ => rfl
  | (k', v) :: l, d, k, h => by
    simp only [List.map_cons, List.mem_cons, not_or] at h
    rw [sets, get?_sets_of_notMem l _ k h.2, Dict.get?_set, if_neg (fun e => h.1 e.symm)]

theorem get?_sets_of_mem : ∀ (l : List (String × ℝ)) (d : Dict String ℝ) (k : String) (v : ℝ),
    (k, v) ∈ l → (∀ v', (k, v') ∈ l → v' = v) → Dict.get? (sets d l) k = some v
  | [], _, _, _, h, _ => by simp at h
  | (k', v') :: l, d, k, v, h, hu => by
    rw [sets]
    by_cases hm : (k, v) ∈ l
    · exact get?_sets_of_mem l _ k v hm (fun w hw => hu w (by simp [hw]))
    · have he : k' = k ∧ v' = v := by
        rcases List.mem_cons.1 h with h | h
        · simp only [Prod.mk.injEq] at h
          exact ⟨h.1.symm, h.2.symm⟩
        · exact absurd h hm
      obtain ⟨rfl, rfl⟩ := he
      rw [get?_sets_of_notMem, Dict.get?_set, if_pos rfl]
      intro hk
      obtain ⟨⟨a, b⟩, hp, rfl⟩ := List.mem_map.1 hk
      have := hu b (by simp [hp])
      subst this
      exact hm hp

theorem get?_sets_some : ∀ (l : List (String × ℝ)) (d : Dict String ℝ) (k : String) (v : ℝ),
    Dict.get? (sets d l) k = some v → (k, v) ∈ l ∨ Dict.get? d k = some v
  | [], _, _, _, h => Or.inr h
  | (k', v') :: l, d, k, v, h => by
    rw [sets] at h
    rcases get?_sets_some l _ k v h with h | h
    · exact Or.inl (by simp [h])
    · rw [Dict.get?_set] at h
      split at h
      · rename_i hk
        cases h
        exact Or.inl (by simp [hk])
      · exact Or.inr h

theorem set_fresh {α : Type} : ∀ (d : Dict String α) (k : String) (v : α), k ∉ d.keys →
    Dict.set d k v = d ++ [(k, v)]
  | [], _, _, _ => rfl
  | (k', v') :: d, k, v, h => by
    simp only [Dict.keys_cons, List.mem_cons, not_or] at h
    rw [Dict.set, if_neg (fun e => h.1 e.symm), set_fresh d k v h.2]
    rfl

theorem sets_fresh : ∀ (l : List (String × ℝ)) (d : Dict String ℝ), (l.map (·.1)).Nodup →
    (∀ k ∈ l.map (·.1), k ∉ d.keys) → sets d l = d ++ l
  | [], d, _, _ => by simp [sets]
  | (k, v) :: l, d, hn, hd => by
    simp only [List.map_cons, List.nodup_cons] at hn
    rw [sets, set_fresh d k v (hd k (by simp)), sets_fresh l _ hn.2]
    · simp
    · intro k' hk' hmem
      have : k' ∈ d.keys ∨ k' = k := by
        simpa [Dict.keys] using hmem
      rcases this with h | h
      · exact hd k' (by simp only [List.map_cons, List.mem_cons]; exact Or.inr hk') h
      · subst h; exact hn.1 hk'

/-! ### The loops of the covariance matrix -/

theorem entry_ok {cov : List (List ℝ)} {i j : ℕ} {x : ℝ} (h : At cov i j x) : entry cov i j = .ok x := by
  obtain ⟨row, h1, h2⟩ := h
  simp only [entry, h1, h2]

theorem covRow_ok {names logs : List String} {cov : List (List ℝ)} {v : ℕ → ℕ → ℝ} {i : ℕ}
    {ni : String} : ∀ (rest : List String) (j : ℕ) (d : Dict String ℝ), rest = names.drop (j + i) →
    (∀ k, j + i ≤ k → k < names.length → At cov i k (v i k)) →
    covRow logs cov i ni rest j d = .ok (sets d ((List.range' (j + i) rest.length).map
      (fun k => (ni ++ "_" ++ adjust logs (names.getD k ""), v i k))))
  | [], _, _, _, _ => rfl
  | nj :: rest, j, d, hr, hv => by
    have hlt : j + i < names.length := by
      rcases Nat.lt_or_ge (j + i) names.length with h | h
      · exact h
      · rw [List.drop_eq_nil_of_le h] at hr; cases hr
    rw [List.drop_eq_getElem_cons hlt] at hr
    obtain ⟨hn, hr⟩ := List.cons.inj hr
    rw [covRow, entry_ok (hv (j + i) le_rfl hlt)]
    simp only
    rw [covRow_ok rest (j + 1) _ (by rw [hr]; congr 1; omega) (fun k hk => hv k (by omega))]
    simp only [List.length_cons, List.range'_succ, List.map_cons, sets]
    have e : names.getD (j + i) "" = nj := by
      simp [List.getD, List.getElem?_eq_getElem hlt, hn]
    rw [e, show j + 1 + i = j + i + 1 by omega]

theorem sets_append : ∀ (l l' : List (String × ℝ)) (d : Dict String ℝ),
    sets d (l ++ l') = sets (sets d l) l'
  | [], _, _ => rfl
  | (k, v) :: l, l', d => by simp [sets, sets_append l l']

theorem covRows_ok {names logs : List String} {cov : List (List ℝ)} {v : ℕ → ℕ → ℝ} :
    ∀ (rest : List String) (i : ℕ) (d : Dict String ℝ), rest = names.drop i →
    (∀ a b, i ≤ a → a ≤ b → b < names.length → At cov a b (v a b)) →
    covRows names logs cov rest i d = .ok (sets d ((List.range' i rest.length).flatMap
      (fun a => (List.range' a (names.length - a)).map (fun b =>
        (adjust logs (names.getD a "") ++ "_" ++ adjust logs (names.getD b ""), v a b)))))
  | [], _, _, _, _ => rfl
  | ni :: rest, i, d, hr, hv => by
    have hlt : i < names.length := by
      rcases Nat.lt_or_ge i names.length with h | h
      · exact h
      · rw [List.drop_eq_nil_of_le h] at hr; cases hr
    rw [List.drop_eq_getElem_cons hlt] at hr
    obtain ⟨hn, hr⟩ := List.cons.inj hr
    have hrow := covRow_ok (names := names) (logs := logs) (cov := cov) (v := v) (i := i)
      (ni := adjust logs ni) (names.drop i) 0 d (by simp) (fun k hk hk' => hv i k le_rfl (by omega) hk')
    rw [covRows, hrow]
    simp only
    rw [covRows_ok rest (i + 1) _ hr (fun a b h1 h2 h3 => hv a b (by omega) h2 h3)]
    simp only [List.length_cons, List.range'_succ, List.flatMap_cons, sets_append]
    have e : names.getD i "" = ni := by
      simp [List.getD, List.getElem?_eq_getElem hlt, hn]
    rw [e, List.length_drop, Nat.zero_add]

/-- The pairs on or above the diagonal. -/
def pairs (n : ℕ) : List (ℕ × ℕ) :=
  (List.range' 0 n).flatMap (fun a => (List.range' a (n - a)).map (fun b => (a, b)))

theorem mem_pairs {n a b : ℕ} : (a, b) ∈ pairs n ↔ a ≤ b ∧ b < n := by
  simp only [pairs, List.mem_flatMap, List.mem_map, List.mem_range'_1, Prod.mk.injEq]
  constructor
  · rintro ⟨a', h1, b', h2, rfl, rfl⟩
    omega
  · rintro ⟨h1, h2⟩
    exact ⟨a, by omega, b, by omega, rfl, rfl⟩

theorem nodup_pairs (n : ℕ) : (pairs n).Nodup := by
  unfold pairs
  rw [List.nodup_flatMap]
  refine ⟨fun a _ => (List.nodup_range' (step := 1)).map (fun x y h => by simpa using h), ?_⟩
  refine (List.nodup_range' (step := 1)).imp ?_
  intro a b hab x hx hy
  obtain ⟨_, _, rfl⟩ := List.mem_map.1 hx
  obtain ⟨_, _, h⟩ := List.mem_map.1 hy
  simp only [Prod.mk.injEq] at h
  exact hab h.1.symm

theorem sum_triangle : ∀ m a : ℕ,
    2 * ((List.range' a m).map (fun i => a + m - i)).sum = m * (m + 1)
  | 0, _ => rfl
  | m + 1, a => by
    have ih := sum_triangle m (a + 1)
    rw [List.range'_succ, List.map_cons, List.sum_cons]
    rw [show a + (m + 1) = a + 1 + m by omega, mul_add, ih]
    rw [show a + 1 + m - a = m + 1 by omega]
    ring

theorem length_pairs (n : ℕ) : 2 * (pairs n).length = n * (n + 1) := by
  rw [← sum_triangle n 0, pairs, List.length_flatMap]
  simp

/-- The assignments of a matrix. -/
def assigns (names logs : List String) (v : ℕ → ℕ → ℝ) : List (String × ℝ) :=
  (pairs names.length).map (fun p =>
    (adjust logs (names.getD p.1 "") ++ "_" ++ adjust logs (names.getD p.2 ""), v p.1 p.2))

theorem covDict_ok {names : List String} (logs : List String) {cov : List (List ℝ)} {v : ℕ → ℕ → ℝ}
    (hv : ∀ a b, a ≤ b → b < names.length → At cov a b (v a b)) :
    covDict names logs cov = .ok (sets [] (assigns names logs v)) := by
  unfold covDict
  rw [covRows_ok names 0 [] (by simp) (fun a b _ h2 h3 => hv a b h2 h3)]
  congr 2
  simp only [assigns, pairs, List.map_flatMap, List.map_map]
  rfl

theorem named_adjust (logs : List String) (n : String) : Named logs n (adjust logs n) := by
  unfold adjust Named
  by_cases h : n ∈ logs
  · left; simp [h]
  · right; simp [h]

theorem named_unique {logs : List String} {n s : String} (h : Named logs n s) : s = adjust logs n := by
  unfold adjust
  rcases h with ⟨h1, h2⟩ | ⟨h1, h2⟩
  · simp [h1, h2]
  · simp [h1, h2]

theorem key_iff {names logs : List String} {i j : ℕ} {key : String} :
    Key names logs i j key ↔ i < names.length ∧ j < names.length ∧
      key = adjust logs (names.getD i "") ++ "_" ++ adjust logs (names.getD j "") := by
  constructor
  · rintro ⟨a, b, sa, sb, ha, hb, h1, h2, rfl⟩
    obtain ⟨hi, _⟩ := List.getElem?_eq_some_iff.1 ha
    obtain ⟨hj, _⟩ := List.getElem?_eq_some_iff.1 hb
    refine ⟨hi, hj, ?_⟩
    rw [named_unique h1, named_unique h2]
    simp [List.getD, ha, hb]
  · rintro ⟨hi, hj, rfl⟩
    refine ⟨names.getD i "", names.getD j "", _, _, ?_, ?_, named_adjust _ _, named_adjust _ _, rfl⟩
    · simp [List.getD, List.getElem?_eq_getElem hi]
    · simp [List.getD, List.getElem?_eq_getElem hj]

theorem at_unique {cov : List (List ℝ)} {i j : ℕ} {x y : ℝ} (h1 : At cov i j x) (h2 : At cov i j y) :
    x = y := by
  obtain ⟨r, a1, a2⟩ := h1
  obtain ⟨r', b1, b2⟩ := h2
  rw [a1] at b1
  cases b1
  rw [a2] at b2
  cases b2
  rfl

/-! ### Joined names -/

/-- Names that can be told apart after joining them: none continues another one with an underscore. -/
theorem join_inj {S : String → Prop}
    (hS : ∀ a b, S a → S b → ¬ (a.toList ++ ['_']) <+: b.toList) {a b c d : String}
    (ha : S a) (hc : S c) (h : a ++ "_" ++ b = c ++ "_" ++ d) : a = c ∧ b = d := by
  have h' := congrArg String.toList h
  simp only [String.toList_append] at h'
  have key : ∀ {x y u w : List Char}, x ++ ['_'] ++ u = y ++ ['_'] ++ w → x.length < y.length →
      x ++ ['_'] <+: y := by
    intro x y u w he hl
    rw [List.append_assoc y] at he
    have h1 : x ++ ['_'] <+: y ++ (['_'] ++ w) := ⟨u, he⟩
    exact List.prefix_of_prefix_length_le h1 (List.prefix_append _ _) (by simp; omega)
  have hu : "_".toList = ['_'] := rfl
  rw [hu] at h'
  have hlen : a.toList.length = c.toList.length := by
    rcases Nat.lt_trichotomy a.toList.length c.toList.length with hl | hl | hl
    · exact absurd (key h' hl) (hS a c ha hc)
    · exact hl
    · exact absurd (key h'.symm hl) (hS c a hc ha)
  rw [List.append_assoc, List.append_assoc] at h'
  obtain ⟨h1, h2⟩ := List.append_inj h' hlen
  exact ⟨String.toList_injective h1, String.toList_injective (by simpa using h2)⟩

/-! ### Frames -/

/-- Several assignments to a frame. -/
def puts : Frame → List (String × Obj) → Except Err Frame
  | f, [] => .ok f
  | f, (k, o) :: rest =>
    match put f k o with
    | .error e => .error e
    | .ok f' => puts f' rest

theorem puts_append : ∀ (l l' : List (String × Obj)) (f : Frame),
    puts f (l ++ l') = match puts f l with
      | .error e => .error e
      | .ok f' => puts f' l'
  | [], _, _ => rfl
  | (k, o) :: l, l', f => by
    rw [List.cons_append, puts, puts]
    cases put f k o with
    | error e => rfl
    | ok f' => exact puts_append l l' f'

theorem puts_ok : ∀ (l : List (String × Obj)) (f : Frame), (l.map (·.1)).Nodup →
    (∀ k ∈ l.map (·.1), k ∉ f.keys) → puts f l = .ok (f ++ l)
  | [], f, _, _ => by simp [puts]
  | (k, o) :: l, f, hn, hd => by
    simp only [List.map_cons, List.nodup_cons] at hn
    have hk := hd k (by simp)
    rw [puts, put, if_neg (by rw [Dict.has_iff]; exact hk)]
    simp only
    rw [set_fresh f k o hk, puts_ok l _ hn.2]
    · simp
    · intro k' hk' hmem
      have : k' ∈ f.keys ∨ k' = k := by
        simpa [Dict.keys] using hmem
      rcases this with h | h
      · exact hd k' (by simp only [List.map_cons, List.mem_cons]; exact Or.inr hk') h
      · subst h; exact hn.1 hk'

theorem puts_error : ∀ (l : List (String × Obj)) (f : Frame),
    (∃ k ∈ l.map (·.1), k ∈ f.keys) → puts f l = .error .runtimeError
  | [], _, h => by simp at h
  | (k, o) :: l, f, h => by
    rw [puts, put]
    by_cases hk : k ∈ f.keys
    · rw [if_pos (by rw [Dict.has_iff]; exact hk)]
    · rw [if_neg (by rw [Dict.has_iff]; exact hk)]
      simp only
      apply puts_error
      obtain ⟨k', h1, h2⟩ := h
      refine ⟨k', ?_, ?_⟩
      · rcases List.mem_cons.1 h1 with e | h1
        · rw [e] at h2; exact absurd h2 hk
        · exact h1
      · rw [Dict.mem_keys_set]; exact Or.inr h2

theorem get?_append_frame {f : Frame} {l : List (String × Obj)} (hn : (l.map (·.1)).Nodup)
    (hd : ∀ k ∈ l.map (·.1), k ∉ f.keys) :
    (∀ k o, (k, o) ∈ l → Dict.get? (f ++ l : Frame) k = some o) ∧
    ∀ k, k ∉ l.map (·.1) → Dict.get? (f ++ l : Frame) k = Dict.get? f k := by
  have hf : ∀ (f : Frame) k, Dict.get? (f ++ l : Frame) k =
      match Dict.get? f k with
      | some o => some o
      | none => Dict.get? (l : Frame) k := by
    intro f k
    induction f with
    | nil => rfl
    | cons q f ih =>
      obtain ⟨k', o⟩ := q
      rw [List.cons_append, Dict.get?_cons, Dict.get?_cons]
      split
      · rfl
      · exact ih
  constructor
  · intro k o h
    have hk : k ∈ l.map (·.1) := List.mem_map_of_mem (f := fun x => x.1) h
    rw [hf, (Dict.get?_eq_none_iff f k).2 (hd k hk)]
    exact Dict.get?_of_mem (d := l) hn h
  · intro k hk
    rw [hf, (Dict.get?_eq_none_iff (l : Frame) k).2 hk]
    cases Dict.get? f k <;> rfl

/-! ### Values and particle -/

theorem values_ok (suf : String) : ∀ (names : List String) (vs : List ℝ), vs.length = names.length →
    values suf names vs = .ok ((names.zip vs).map (fun p => (p.1 ++ suf, p.2)))
  | [], _, _ => rfl
  | n :: names, [], h => by simp at h
  | n :: names, v :: vs, h => by
    rw [values, values_ok suf names vs (by simpa using h)]
    rfl

/-- The assignments before the particle is made. -/
noncomputable def base (s : Settings) (r : Results) : List (String × ℝ) :=
  s.names.zip r.best ++ r.runtimes.map (fun p => ("runtime_" ++ p.1, p.2)) ++
      [("minimization_success", if r.success then 1 else 0), ("loss_reco", r.lossReco),
        ("loss_seed", r.lossSeed)]

theorem baseEntries_ok {s : Settings} {r : Results} (h : r.best.length = s.names.length) :
    baseEntries s r = .ok (base s r) := by
  unfold baseEntries
  rw [values_ok _ _ _ h]
  simp [base]

theorem mem_zip_of_fitted {s : Settings} {r : Results} {n : String} {v : ℝ} (h : Fitted s r n v) :
    (n, v) ∈ s.names.zip r.best := by
  obtain ⟨i, h1, h2⟩ := h
  apply List.mem_of_getElem? (i := i)
  rw [List.getElem?_zip_eq_some]
  exact ⟨h1, h2⟩

theorem fitted_of_mem_zip {s : Settings} {r : Results} {n : String} {v : ℝ}
    (h : (n, v) ∈ s.names.zip r.best) : Fitted s r n v := by
  obtain ⟨i, hi⟩ := List.getElem?_of_mem h
  rw [List.getElem?_zip_eq_some] at hi
  exact ⟨i, hi.1, hi.2⟩

theorem fitted_unique {s : Settings} {r : Results} (hn : s.names.Nodup) {n : String} {v w : ℝ}
    (h1 : Fitted s r n v) (h2 : Fitted s r n w) : v = w := by
  obtain ⟨i, a1, a2⟩ := h1
  obtain ⟨j, b1, b2⟩ := h2
  obtain ⟨hi, e1⟩ := List.getElem?_eq_some_iff.1 a1
  obtain ⟨hj, e2⟩ := List.getElem?_eq_some_iff.1 b1
  have : i = j := by
    apply (List.Nodup.getElem_inj_iff hn (hi := hi) (hj := hj)).1
    rw [e1, e2]
  subst this
  rw [a2] at b2
  cases b2
  rfl

theorem get?_base {s : Settings} {r : Results} (hn : s.names.Nodup) {n : String} {v : ℝ}
    (h : Fitted s r n v) (hr : ¬ ReservedBase r n) : Dict.get? (sets [] (base s r)) n = some v := by
  apply get?_sets_of_mem
  · simp only [base, List.mem_append]
    exact Or.inl (Or.inl (mem_zip_of_fitted h))
  · intro w hw
    simp only [base, List.mem_append, List.mem_map, List.mem_cons, List.not_mem_nil, or_false,
      Prod.mk.injEq] at hw
    rcases hw with (hw | ⟨p, hp, hw, _⟩) | ⟨hw, _⟩ | ⟨hw, _⟩ | ⟨hw, _⟩
    · exact fitted_unique hn (fitted_of_mem_zip hw) h
    · exact absurd (Or.inr (Or.inr (Or.inr ⟨p, hp, hw.symm⟩))) hr
    · exact absurd (Or.inl hw) hr
    · exact absurd (Or.inr (Or.inl hw)) hr
    · exact absurd (Or.inr (Or.inr (Or.inl hw))) hr

theorem particleLoop_ok {res : Dict String ℝ} {mapping : Dict String String} {pz pa : String} {z a : ℝ} :
    ∀ (l : List (String × String)) (p0 : Particle), (l.map (·.1)).Nodup →
    (∀ q ∈ l, ∃ v, Dict.get? res q.2 = some v) →
    (∀ q ∈ l, q.1 = "zenith" ∨ q.1 = "azimuth" → Dict.get? mapping "zenith" = some pz ∧
      Dict.get? res pz = some z ∧ Dict.get? mapping "azimuth" = some pa ∧ Dict.get? res pa = some a) →
    ∃ p, particleLoop res mapping l p0 = .ok p ∧
      (∀ key, key ∉ l.map (·.1) → Dict.get? p.pos key = Dict.get? p0.pos key ∧
        Dict.get? p.attrs key = Dict.get? p0.attrs key) ∧
      (∀ q ∈ l, ∀ v, Dict.get? res q.2 = some v →
        (q.1 ∈ ["x", "y", "z"] → Dict.get? p.pos q.1 = some v) ∧
        (q.1 ∉ ["x", "y", "z", "zenith", "azimuth"] → Dict.get? p.attrs q.1 = some v)) ∧
      (p.dir = some (z, a) ∨ p.dir = p0.dir ∧ ∀ q ∈ l, ¬ (q.1 = "zenith" ∨ q.1 = "azimuth"))
  | [], p0, _, _, _ => ⟨p0, rfl, fun _ _ => ⟨rfl, rfl⟩, fun _ h => by simp at h,
      Or.inr ⟨rfl, fun _ h => by simp at h⟩⟩
  | (key, param) :: l, p0, hn, hv, hz => by
    simp only [List.map_cons, List.nodup_cons] at hn
    obtain ⟨v, hval⟩ := hv (key, param) (by simp)
    simp only at hval
    have ih := fun p1 => particleLoop_ok (res := res) (mapping := mapping) (pz := pz) (pa := pa) (z := z)
      (a := a) l p1 hn.2 (fun q hq => hv q (by simp [hq])) (fun q hq => hz q (by simp [hq]))
    rw [particleLoop]
    by_cases h1 : key ∈ ["x", "y", "z"]
    · rw [if_pos (by simpa using h1), hval]
      simp only
      obtain ⟨p, e1, e2, e3, e4⟩ := ih { p0 with pos := Dict.set p0.pos key v }
      refine ⟨p, e1, ?_, ?_, ?_⟩
      · intro k hk
        simp only [List.map_cons, List.mem_cons, not_or] at hk
        obtain ⟨a1, a2⟩ := e2 k hk.2
        refine ⟨?_, a2⟩
        rw [a1, Dict.get?_set, if_neg (fun e => hk.1 e.symm)]
      · intro q hq w hw
        rcases List.mem_cons.1 hq with rfl | hq
        · simp only at hw ⊢
          rw [hval] at hw
          cases hw
          refine ⟨fun _ => ?_, fun h => absurd ?_ h⟩
          · rw [(e2 key hn.1).1, Dict.get?_set, if_pos rfl]
          · simp only [List.mem_cons, List.not_mem_nil, or_false] at h1 ⊢
            rcases h1 with h | h | h <;> simp [h]
        · exact e3 q hq w hw
      · rcases e4 with e4 | ⟨e4, e5⟩
        · exact Or.inl e4
        · refine Or.inr ⟨e4, ?_⟩
          intro q hq
          rcases List.mem_cons.1 hq with rfl | hq
          · simp only [List.mem_cons, List.not_mem_nil, or_false] at h1
            rcases h1 with h | h | h <;> simp [h]
          · exact e5 q hq
    · rw [if_neg (by simpa using h1)]
      by_cases h2 : key = "zenith" ∨ key = "azimuth"
      · rw [if_pos (by simpa using h2)]
        obtain ⟨z1, z2, z3, z4⟩ := hz (key, param) (by simp) h2
        simp only [z1, z2, z3, z4]
        obtain ⟨p, e1, e2, e3, e4⟩ := ih { p0 with dir := some (z, a) }
        refine ⟨p, e1, ?_, ?_, ?_⟩
        · intro k hk
          simp only [List.map_cons, List.mem_cons, not_or] at hk
          exact e2 k hk.2
        · intro q hq w hw
          rcases List.mem_cons.1 hq with rfl | hq
          · refine ⟨fun h => absurd h h1, fun h => absurd ?_ h⟩
            rcases h2 with h | h <;> simp [h]
          · exact e3 q hq w hw
        · rcases e4 with e4 | ⟨e4, _⟩
          · exact Or.inl e4
          · exact Or.inl e4
      · rw [if_neg (by simpa using h2), hval]
        simp only
        obtain ⟨p, e1, e2, e3, e4⟩ := ih { p0 with attrs := Dict.set p0.attrs key v }
        refine ⟨p, e1, ?_, ?_, ?_⟩
        · intro k hk
          simp only [List.map_cons, List.mem_cons, not_or] at hk
          obtain ⟨a1, a2⟩ := e2 k hk.2
          refine ⟨a1, ?_⟩
          rw [a2, Dict.get?_set, if_neg (fun e => hk.1 e.symm)]
        · intro q hq w hw
          rcases List.mem_cons.1 hq with rfl | hq
          · simp only at hw ⊢
            rw [hval] at hw
            cases hw
            refine ⟨fun h => absurd h h1, fun _ => ?_⟩
            rw [(e2 key hn.1).2, Dict.get?_set, if_pos rfl]
          · exact e3 q hq w hw
        · rcases e4 with e4 | ⟨e4, e5⟩
          · exact Or.inl e4
          · refine Or.inr ⟨e4, ?_⟩
            intro q hq
            rcases List.mem_cons.1 hq with rfl | hq
            · exact h2
            · exact e5 q hq

/-! ### Steps -/

/-- An entry of a matrix, for complete matrices. -/
noncomputable def val (cov : List (List ℝ)) (i j : ℕ) : ℝ := (cov.getD i []).getD j 0

theorem at_val {cov : List (List ℝ)} {i j : ℕ} {x : ℝ} (h : At cov i j x) : val cov i j = x := by
  obtain ⟨row, h1, h2⟩ := h
  simp [val, List.getD, h1, h2]

theorem covDict_complete {names : List String} (logs : List String) {cov : List (List ℝ)}
    (h : Complete names.length cov) :
    covDict names logs cov = .ok (sets [] (assigns names logs (val cov))) := by
  apply covDict_ok
  intro a b hab hb
  obtain ⟨x, hx⟩ := h a b (by omega) hb
  rw [at_val hx]
  exact hx

/-- The object of a covariance matrix. -/
noncomputable def covObj (s : Settings) (cov : List (List ℝ)) : Obj :=
  .map (sets [] (assigns s.names s.logs (val cov)))

theorem writeCov_ok {s : Settings} {cov : List (List ℝ)} (h : Complete s.names.length cov) (f : Frame)
    (name : String) : writeCov s.names s.logs s.outputKey f cov name =
      puts f [(s.outputKey ++ "_cov_matrix_" ++ name, covObj s cov)] := by
  unfold writeCov
  rw [covDict_complete _ h]
  simp only [puts, covObj]
  cases put f _ _ <;> rfl

theorem covLoop_ok {s : Settings} : ∀ (l : List (String × List (List ℝ))) (f : Frame),
    (∀ p ∈ l, Complete s.names.length p.2) → covLoop s l f =
      puts f (l.map (fun p => (s.outputKey ++ "_cov_matrix_" ++ p.1, covObj s p.2)))
  | [], _, _ => rfl
  | (name, cov) :: l, f, h => by
    rw [covLoop, writeCov_ok (h (name, cov) (by simp)) f name, List.map_cons, puts, puts]
    cases put f (s.outputKey ++ "_cov_matrix_" ++ name) (covObj s cov) with
    | error e => rfl
    | ok f' => exact covLoop_ok l f' (fun p hp => h p (by simp [hp]))

/-- The writes of the covariance matrices. -/
noncomputable def covWrites (s : Settings) (r : Results) : List (String × Obj) :=
  if s.addCov then r.covs.map (fun p => (s.outputKey ++ "_cov_matrix_" ++ p.1, covObj s p.2)) else []

def covEntries (s : Settings) (r : Results) : List (String × ℝ) :=
  if s.addCov then [("runtime_covariance", r.covRuntime)] else []

theorem covStep_ok {s : Settings} {r : Results} (h : ResultsOk s r) (f : Frame) :
    covStep s r f = match puts f (covWrites s r) with
      | .error e => .error e
      | .ok f' => .ok (f', covEntries s r) := by
  unfold covStep covWrites covEntries
  split
  · rw [covLoop_ok _ _ h.2.1]
    cases puts f _ <;> rfl
  · rfl

/-- The writes of the goodness of fit. -/
noncomputable def gofWrites (s : Settings) (r : Results) : List (String × Obj) :=
  if s.addGof then
    (if s.recoSamples then [(s.outputKey ++ "_cov_matrix_goodness_of_fit", covObj s r.gof.cov)] else []) ++
    (if s.perDom then [(s.outputKey ++ "_GoodnessOfFit_1sided", .doms (domMap r.gof.dom1)),
      (s.outputKey ++ "_GoodnessOfFit_2sided", .doms (domMap r.gof.dom2))] else [])
  else []

noncomputable def gofAll (s : Settings) (r : Results) : List (String × ℝ) :=
  if s.addGof then gofEntries r.gof ++
    (if s.recoSamples then (s.names.zip r.gof.bias).map (fun p => (p.1 ++ "_sample_reco_bias", p.2)) else [])
  else []

theorem append_lit (a : String) : a ++ "_cov_matrix_" ++ "goodness_of_fit" =
    a ++ "_cov_matrix_goodness_of_fit" := by
  apply String.toList_injective
  simp only [String.toList_append, List.append_assoc]
  rfl

theorem domStep_ok (s : Settings) (g : Gof) (f : Frame) : domStep s g f = puts f
    (if s.perDom then [(s.outputKey ++ "_GoodnessOfFit_1sided", .doms (domMap g.dom1)),
      (s.outputKey ++ "_GoodnessOfFit_2sided", .doms (domMap g.dom2))] else []) := by
  unfold domStep
  split
  · simp only [puts]
    cases put f (s.outputKey ++ "_GoodnessOfFit_1sided") (.doms (domMap g.dom1)) with
    | error e => rfl
    | ok f' =>
      simp only
      cases put f' _ _ <;> rfl
  · rfl

theorem gofStep_ok {s : Settings} {r : Results} (h : ResultsOk s r) (f : Frame) :
    gofStep s r f = match puts f (gofWrites s r) with
      | .error e => .error e
      | .ok f' => .ok (f', gofAll s r) := by
  unfold gofStep gofWrites gofAll
  by_cases hg : s.addGof = true
  · rw [if_pos hg, if_pos hg, if_pos hg, puts_append]
    unfold sampleStep
    by_cases hr : s.recoSamples = true
    · obtain ⟨h1, h2⟩ := h.2.2 hg hr
      rw [if_pos hr, if_pos hr, if_pos hr, writeCov_ok h1, values_ok _ _ _ h2, append_lit]
      cases puts f [(s.outputKey ++ "_cov_matrix_goodness_of_fit", covObj s r.gof.cov)] with
      | error e => rfl
      | ok f' =>
        simp only
        rw [domStep_ok]
        cases puts f' _ <;> rfl
    · rw [if_neg hr, if_neg hr, if_neg hr]
      simp only [puts]
      rw [domStep_ok]
      cases puts f _ <;> rfl
  · rw [if_neg hg, if_neg hg, if_neg hg]
    rfl

/-- The write of the particle. -/
def particleWrites (s : Settings) (p : Option Particle) : List (String × Obj) :=
  match p with
  | none => []
  | some p => [(s.outputKey ++ "_I3Particle", .particle p)]

theorem putParticle_ok (s : Settings) (p : Option Particle) (f : Frame) :
    putParticle s p f = puts f (particleWrites s p) := by
  cases p with
  | none => rfl
  | some p =>
    simp only [putParticle, particleWrites, puts]
    cases put f _ _ <;> rfl

theorem particle_ok {s : Settings} {r : Results} (hr : ResultsOk s r) (hm : MappingOk s)
    (hmap : ∀ m, s.mapping = some m → Dict.Ok m) :
    ∃ p, particle s (sets [] (base s r)) = .ok p ∧ (p = none ↔ s.mapping.getD [] = []) ∧
      ∀ q m, p = some q → s.mapping = some m → s.names.Nodup → ParticleOk s r m q := by
  unfold particle
  cases hmm : s.mapping with
  | none => exact ⟨none, rfl, by simp, fun q m h => by cases h⟩
  | some m =>
    cases m with
    | nil => exact ⟨none, rfl, by simp, fun q m h => by cases h⟩
    | cons x ms =>
      obtain ⟨h1, h2⟩ := hm _ hmm
      have hok := hmap _ hmm
      have hval : ∀ n ∈ s.names, ∃ v, Dict.get? (sets [] (base s r)) n = some v := by
        intro n hn
        obtain ⟨i, hi⟩ := List.getElem?_of_mem hn
        have hlt : i < s.names.length := by
          obtain ⟨h, _⟩ := List.getElem?_eq_some_iff.1 hi; exact h
        have hmem : (n, r.best[i]'(by rw [hr.1]; exact hlt)) ∈ base s r := by
          simp only [base, List.mem_append]
          refine Or.inl (Or.inl (mem_zip_of_fitted ⟨i, hi, List.getElem?_eq_getElem _⟩))
        cases hg : Dict.get? (sets [] (base s r)) n with
        | some v => exact ⟨v, rfl⟩
        | none =>
          exfalso
          have key : ∀ (l : List (String × ℝ)) (d : Dict String ℝ),
              (n ∈ l.map (·.1) ∨ n ∈ d.keys) → n ∈ Dict.keys (sets d l) := by
            intro l
            induction l with
            | nil => intro d h; simpa [sets] using h
            | cons q l ih =>
              intro d h
              obtain ⟨k, w⟩ := q
              rw [sets]
              apply ih
              rw [Dict.mem_keys_set]
              simp only [List.map_cons, List.mem_cons] at h
              rcases h with (h | h) | h
              · exact Or.inr (Or.inl h)
              · exact Or.inl h
              · exact Or.inr (Or.inr h)
          exact (Dict.get?_eq_none_iff _ _).1 hg
            (key _ _ (Or.inl (List.mem_map_of_mem (f := fun x => x.1) hmem)))
      have hmapval : ∀ q ∈ (x :: ms), ∃ v, Dict.get? (sets [] (base s r)) q.2 = some v :=
        fun q hq => hval _ (h1 q hq)
      -- the values of the direction
      have hdir : ∃ pz pa z a, ∀ q ∈ (x :: ms), q.1 = "zenith" ∨ q.1 = "azimuth" →
          Dict.get? (x :: ms) "zenith" = some pz ∧ Dict.get? (sets [] (base s r)) pz = some z ∧
          Dict.get? (x :: ms) "azimuth" = some pa ∧ Dict.get? (sets [] (base s r)) pa = some a := by
        by_cases hex : ∃ q ∈ (x :: ms), q.1 = "zenith" ∨ q.1 = "azimuth"
        · obtain ⟨⟨k, w⟩, hq, hk⟩ := hex
          have hg := Dict.get?_of_mem hok hq
          have hz : ∃ v, Dict.get? (x :: ms) "zenith" = some v := by
            rcases hk with rfl | rfl
            · exact ⟨w, hg⟩
            · exact h2.2 ⟨w, hg⟩
          have ha := h2.1 hz
          obtain ⟨pz, hpz⟩ := hz
          obtain ⟨pa, hpa⟩ := ha
          obtain ⟨z, hzv⟩ := hmapval _ (Dict.mem_of_get? hpz)
          obtain ⟨a, hav⟩ := hmapval _ (Dict.mem_of_get? hpa)
          exact ⟨pz, pa, z, a, fun _ _ _ => ⟨hpz, hzv, hpa, hav⟩⟩
        · exact ⟨"", "", 0, 0, fun q hq h => absurd ⟨q, hq, h⟩ hex⟩
      obtain ⟨pz, pa, z, a, hdir⟩ := hdir
      obtain ⟨p, e1, e2, e3, e4⟩ := particleLoop_ok (res := sets [] (base s r)) (mapping := x :: ms)
        (x :: ms) ⟨[], none, []⟩ hok hmapval hdir
      refine ⟨some p, by simp only [e1], by simp, ?_⟩
      intro q m hq hm' hnd key param v hkp hf hnr
      cases hq
      cases hm'
      have hgv := get?_base hnd hf hnr
      obtain ⟨a1, a2⟩ := e3 (key, param) hkp v hgv
      refine ⟨a1, ?_, ?_, a2⟩
      · rintro rfl
        obtain ⟨z1, z2, _, _⟩ := hdir _ hkp (Or.inl rfl)
        rw [Dict.get?_of_mem hok hkp] at z1
        cases z1
        rw [hgv] at z2
        cases z2
        rcases e4 with e4 | ⟨_, e4⟩
        · exact ⟨a, e4⟩
        · exact absurd (Or.inl rfl) (e4 _ hkp)
      · rintro rfl
        obtain ⟨_, _, z1, z2⟩ := hdir _ hkp (Or.inr rfl)
        rw [Dict.get?_of_mem hok hkp] at z1
        cases z1
        rw [hgv] at z2
        cases z2
        rcases e4 with e4 | ⟨_, e4⟩
        · exact ⟨z, e4⟩
        · exact absurd (Or.inr rfl) (e4 _ hkp)

/-- All assignments to the result. -/
noncomputable def allEntries (s : Settings) (r : Results) : List (String × ℝ) :=
  base s r ++ covEntries s r ++ gofAll s r ++ circEntries s r

/-- All writes to the frame. -/
noncomputable def writes (s : Settings) (r : Results) (p : Option Particle) : List (String × Obj) :=
  covWrites s r ++ gofWrites s r ++ [(s.outputKey, .map (sets [] (allEntries s r)))] ++ particleWrites s p

theorem physics_ok {s : Settings} {r : Results} (hr : ResultsOk s r) {p : Option Particle}
    (hp : particle s (sets [] (base s r)) = .ok p) (f : Frame) :
    physics s r f = puts f (writes s r p) := by
  unfold physics writes
  rw [baseEntries_ok hr.1]
  simp only
  rw [hp]
  simp only
  rw [covStep_ok hr, List.append_assoc, List.append_assoc, puts_append]
  cases puts f (covWrites s r) with
  | error e => rfl
  | ok f1 =>
    simp only
    rw [gofStep_ok hr, puts_append]
    cases puts f1 (gofWrites s r) with
    | error e => rfl
    | ok f2 =>
      simp only [List.singleton_append, puts]
      unfold allEntries
      cases put f2 s.outputKey _ with
      | error e => rfl
      | ok f3 => exact putParticle_ok s p f3

theorem writes_keys {s : Settings} {r : Results} {p : Option Particle}
    (hp : p = none ↔ s.mapping.getD [] = []) :
    ((writes s r p).map (·.1)).Perm (frameKeys s r) := by
  have e1 : (covWrites s r).map (·.1) =
      if s.addCov then r.covs.map (fun p => s.outputKey ++ "_cov_matrix_" ++ p.1) else [] := by
    unfold covWrites; split <;> simp
  have e2 : (gofWrites s r).map (·.1) = if s.addGof then
      (if s.recoSamples then [s.outputKey ++ "_cov_matrix_goodness_of_fit"] else []) ++
      (if s.perDom then [s.outputKey ++ "_GoodnessOfFit_1sided", s.outputKey ++ "_GoodnessOfFit_2sided"]
        else []) else [] := by
    unfold gofWrites
    by_cases h1 : s.addGof = true <;> by_cases h2 : s.recoSamples = true <;>
      by_cases h3 : s.perDom = true <;> simp [h1, h2, h3]
  have e3 : (particleWrites s p).map (·.1) =
      if s.mapping.getD [] = [] then [] else [s.outputKey ++ "_I3Particle"] := by
    cases p with
    | none => rw [if_pos (hp.1 rfl)]; rfl
    | some p => rw [if_neg (fun h => by cases hp.2 h)]; rfl
  unfold writes frameKeys
  simp only [List.map_append, e1, e2, e3, List.map_cons, List.map_nil]
  generalize (if s.addCov = true then _ else _ : List String) = A
  generalize (if s.addGof = true then _ else _ : List String) = B
  generalize (if s.mapping.getD [] = [] then _ else _ : List String) = C
  have : (A ++ B ++ [s.outputKey] ++ C).Perm ([s.outputKey] ++ C ++ (A ++ B)) := by
    rw [List.append_assoc]
    exact List.perm_append_comm
  simpa [List.append_assoc] using this

/-! ### Keys of the frame -/

theorem append_left_injective (a : String) : Function.Injective (fun b => a ++ b) := by
  intro b c h
  have h' := congrArg String.toList h
  simp only [String.toList_append, List.append_cancel_left_eq] at h'
  exact String.toList_injective h'

theorem nodup_frameKeys {s : Settings} {r : Results} (h1 : (r.covs.map (·.1)).Nodup)
    (h2 : "goodness_of_fit" ∉ r.covs.map (·.1)) : (frameKeys s r).Nodup := by
  have h3 : ((r.covs.map (fun p => "_cov_matrix_" ++ p.1)) : List String).Nodup := by
    have := h1.map (append_left_injective "_cov_matrix_")
    rwa [List.map_map] at this
  have h4 : ∀ x ∈ r.covs.map (fun p => "_cov_matrix_" ++ p.1), x.toList.take 12 = "_cov_matrix_".toList := by
    intro x hx
    obtain ⟨p, _, rfl⟩ := List.mem_map.1 hx
    rw [String.toList_append]
    exact List.take_left' rfl
  have h5 : "_cov_matrix_goodness_of_fit" ∉ r.covs.map (fun p => "_cov_matrix_" ++ p.1) := by
    intro hx
    obtain ⟨p, hp, he⟩ := List.mem_map.1 hx
    have : p.1 = "goodness_of_fit" :=
      append_left_injective "_cov_matrix_" (he.trans (by decide))
    exact h2 (this ▸ List.mem_map_of_mem (f := fun x => x.1) hp)
  have n1 : "" ∉ r.covs.map (fun p => "_cov_matrix_" ++ p.1) := fun hx => absurd (h4 _ hx) (by decide)
  have n2 : "_I3Particle" ∉ r.covs.map (fun p => "_cov_matrix_" ++ p.1) :=
    fun hx => absurd (h4 _ hx) (by decide)
  have n3 : "_GoodnessOfFit_1sided" ∉ r.covs.map (fun p => "_cov_matrix_" ++ p.1) :=
    fun hx => absurd (h4 _ hx) (by decide)
  have n4 : "_GoodnessOfFit_2sided" ∉ r.covs.map (fun p => "_cov_matrix_" ++ p.1) :=
    fun hx => absurd (h4 _ hx) (by decide)
  have key : frameKeys s r = ([""] ++
      (if s.mapping.getD [] = [] then [] else ["_I3Particle"]) ++
      (if s.addCov then r.covs.map (fun p => "_cov_matrix_" ++ p.1) else []) ++
      (if s.addGof then
        (if s.recoSamples then ["_cov_matrix_goodness_of_fit"] else []) ++
        (if s.perDom then ["_GoodnessOfFit_1sided", "_GoodnessOfFit_2sided"] else [])
       else [])).map (fun b => s.outputKey ++ b) := by
    have e : s.outputKey ++ "" = s.outputKey := by apply String.toList_injective; simp
    unfold frameKeys
    simp only [List.map_append]
    congr 1
    · congr 1
      · congr 1
        · simp
        · split <;> rfl
      · split
        · simp [List.map_map, Function.comp_def, String.append_assoc]
        · rfl
    · by_cases c1 : s.addGof = true <;> by_cases c2 : s.recoSamples = true <;>
        by_cases c3 : s.perDom = true <;> simp [c1, c2, c3]
  rw [key]
  apply List.Nodup.map (append_left_injective _)
  generalize hL : r.covs.map (fun p => "_cov_matrix_" ++ p.1) = L at *
  by_cases c0 : s.mapping.getD [] = [] <;> by_cases c1 : s.addGof = true <;>
    by_cases c2 : s.recoSamples = true <;> by_cases c3 : s.perDom = true <;>
    by_cases c4 : s.addCov = true <;>
    simp [c0, c1, c2, c3, c4, List.nodup_append, n1, n2, h3] <;>
    (try (intro a ha; constructor <;> rintro rfl <;> contradiction)) <;>
    (try (intro a ha; refine ⟨?_, ?_, ?_⟩ <;> rintro rfl <;> contradiction)) <;>
    (try (intro a ha; rintro rfl; contradiction))

theorem put_kept {f f' : Frame} {k : String} {o : Obj} (h : put f k o = .ok f') {k' : String} {o' : Obj}
    (hk : Dict.get? f k' = some o') : Dict.get? f' k' = some o' := by
  unfold put at h
  split at h
  · cases h
  · rename_i hn
    cases h
    rw [Dict.get?_set, if_neg]
    · exact hk
    · rintro rfl
      apply hn
      unfold Dict.has
      rw [hk]
      rfl

theorem writeCov_kept {names logs : List String} {out : String} {f f' : Frame} {cov : List (List ℝ)}
    {name : String} (h : writeCov names logs out f cov name = .ok f') {k : String} {o : Obj}
    (hk : Dict.get? f k = some o) : Dict.get? f' k = some o := by
  unfold writeCov at h
  split at h
  · cases h
  · exact put_kept h hk

theorem covLoop_kept {s : Settings} : ∀ (l : List (String × List (List ℝ))) {f f' : Frame},
    covLoop s l f = .ok f' → ∀ {k : String} {o : Obj}, Dict.get? f k = some o → Dict.get? f' k = some o
  | [], _, _, h, _, _, hk => by cases h; exact hk
  | (name, cov) :: l, f, f', h, k, o, hk => by
    rw [covLoop] at h
    split at h
    · cases h
    · rename_i f1 h1
      exact covLoop_kept l h (writeCov_kept h1 hk)

theorem covStep_kept {s : Settings} {r : Results} {f f' : Frame} {l : List (String × ℝ)}
    (h : covStep s r f = .ok (f', l)) {k : String} {o : Obj} (hk : Dict.get? f k = some o) :
    Dict.get? f' k = some o := by
  unfold covStep at h
  split at h
  · split at h
    · cases h
    · rename_i h1
      cases h
      exact covLoop_kept _ h1 hk
  · cases h
    exact hk

theorem gofStep_kept {s : Settings} {r : Results} {f f' : Frame} {l : List (String × ℝ)}
    (h : gofStep s r f = .ok (f', l)) {k : String} {o : Obj} (hk : Dict.get? f k = some o) :
    Dict.get? f' k = some o := by
  unfold gofStep at h
  split at h
  · split at h
    · cases h
    · rename_i f1 l1 h1
      have hk1 : Dict.get? f1 k = some o := by
        unfold sampleStep at h1
        split at h1
        · split at h1
          · cases h1
          · rename_i h2
            split at h1
            · cases h1
            · cases h1
              exact writeCov_kept h2 hk
        · cases h1
          exact hk
      split at h
      · cases h
      · rename_i f2 h2
        cases h
        unfold domStep at h2
        split at h2
        · split at h2
          · cases h2
          · rename_i f3 h3
            exact put_kept h2 (put_kept h3 hk1)
        · cases h2
          exact hk1
  · cases h
    exact hk

/-! ### Per DOM values -/

theorem domMap_ok (v : ℕ → ℕ → ℝ) : DomsOk v (domMap v) := by
  have hkeys : Dict.Ok (domMap v) := by
    unfold Dict.Ok Dict.keys domMap
    rw [List.map_flatMap, List.nodup_flatMap]
    refine ⟨fun s _ => ?_, ?_⟩
    · rw [List.map_map]
      exact List.nodup_range.map (fun a b h => by simpa using h)
    · refine List.nodup_range.imp ?_
      intro a b hab x hx hy
      simp only [List.map_map, List.mem_map, Function.comp] at hx hy
      obtain ⟨o, _, rfl⟩ := hx
      obtain ⟨o', _, h⟩ := hy
      simp only [Prod.mk.injEq] at h
      omega
  have hmem : ∀ s o x, ((s, o), x) ∈ domMap v ↔
      (1 ≤ s ∧ s ≤ 86) ∧ (1 ≤ o ∧ o ≤ 60) ∧ x = v (s - 1) (o - 1) := by
    intro s o x
    simp only [domMap, List.mem_flatMap, List.mem_map, List.mem_range, Prod.mk.injEq]
    constructor
    · rintro ⟨a, ha, b, hb, ⟨rfl, rfl⟩, rfl⟩
      exact ⟨⟨by omega, by omega⟩, ⟨by omega, by omega⟩, rfl⟩
    · rintro ⟨⟨h1, h2⟩, ⟨h3, h4⟩, rfl⟩
      exact ⟨s - 1, by omega, o - 1, by omega, ⟨by omega, by omega⟩, rfl⟩
  intro s o x
  rw [← hmem]
  exact ⟨Dict.mem_of_get?, Dict.get?_of_mem hkeys⟩

/-! ### Fitted parameters -/

theorem get?_nameDict : ∀ (names : List String) (i : ℕ) (d : Dict String ℕ), names.Nodup → ∀ n k,
    Dict.get? (nameDict names i d) n = some k ↔
      (∃ j, names[j]? = some n ∧ k = i + j) ∨ (n ∉ names ∧ Dict.get? d n = some k)
  | [], _, _, _, _, _ => by simp [nameDict]
  | m :: names, i, d, hn, n, k => by
    have hn' := List.nodup_cons.1 hn
    rw [nameDict, get?_nameDict names (i + 1) _ hn'.2 n k, Dict.get?_set]
    constructor
    · rintro (⟨j, h1, h2⟩ | ⟨h1, h2⟩)
      · exact Or.inl ⟨j + 1, by simpa using h1, by omega⟩
      · split at h2
        · rename_i e
          cases h2
          exact Or.inl ⟨0, by simp [e], by omega⟩
        · rename_i e
          exact Or.inr ⟨by simp [h1]; exact fun e' => e e'.symm, h2⟩
    · rintro (⟨j, h1, h2⟩ | ⟨h1, h2⟩)
      · cases j with
        | zero =>
          simp only [List.getElem?_cons_zero, Option.some.injEq] at h1
          subst h1
          exact Or.inr ⟨hn'.1, by rw [if_pos rfl, h2]; rfl⟩
        | succ j => exact Or.inl ⟨j, by simpa using h1, by omega⟩
      · simp only [List.mem_cons, not_or] at h1
        exact Or.inr ⟨h1.2, by rw [if_neg (fun e => h1.1 e.symm)]; exact h2⟩

theorem fitLoop_ok {names : List String} (hn : names.Nodup) {index : Dict String ℕ}
    (hi : ∀ n k, Dict.get? index n = some k ↔ names[k]? = some n) :
    ∀ (fit : List (String × Bool)) (l : List Bool), (fit.map (·.1)).Nodup → l.length = names.length →
    (∀ q ∈ fit, q.1 ∈ names) →
    ∃ l', fitLoop index fit l = .ok l' ∧ l'.length = names.length ∧
      ∀ (i : ℕ) (n : String), names[i]? = some n →
        l'[i]? = match Dict.get? (fit : Dict String Bool) n with
          | some v => some v
          | none => l[i]?
  | [], l, _, hl, _ => ⟨l, rfl, hl, fun _ _ _ => rfl⟩
  | (m, v) :: fit, l, hf, hl, hm => by
    simp only [List.map_cons, List.nodup_cons] at hf
    obtain ⟨k, hk⟩ := List.getElem?_of_mem (hm (m, v) (by simp))
    have hkl : k < names.length := by
      obtain ⟨h, _⟩ := List.getElem?_eq_some_iff.1 hk; exact h
    obtain ⟨l', e1, e2, e3⟩ := fitLoop_ok hn hi fit (l.set k v) hf.2 (by simpa using hl)
      (fun q hq => hm q (by simp [hq]))
    refine ⟨l', by rw [fitLoop, (hi m k).2 hk]; exact e1, e2, ?_⟩
    intro i n hin
    rw [e3 i n hin, Dict.get?_cons]
    by_cases hmn : m = n
    · subst hmn
      have hik : i = k := by
        have h1 := (hi m i).2 hin
        rw [(hi m k).2 hk] at h1
        cases h1
        rfl
      subst hik
      have hnone : Dict.get? (fit : Dict String Bool) m = none :=
        (Dict.get?_eq_none_iff _ _).2 hf.1
      rw [hnone, if_pos rfl]
      simp only [List.getElem?_set, if_true]
      rw [if_pos (by omega)]
    · rw [if_neg hmn]
      have hik : k ≠ i := by
        rintro rfl
        rw [hk] at hin
        cases hin
        exact hmn rfl
      cases Dict.get? (fit : Dict String Bool) n with
      | some w => rfl
      | none => simp only [List.getElem?_set, if_neg hik]

theorem fitLoop_unknown {names : List String} {index : Dict String ℕ}
    (hi : ∀ n k, Dict.get? index n = some k ↔ names[k]? = some n) :
    ∀ (fit : List (String × Bool)) (l : List Bool), (∃ q ∈ fit, q.1 ∉ names) →
    fitLoop index fit l = .error .keyError
  | [], _, h => by simp at h
  | (m, v) :: fit, l, h => by
    rw [fitLoop]
    cases hg : Dict.get? index m with
    | none => rfl
    | some k =>
      simp only
      apply fitLoop_unknown hi
      obtain ⟨q, hq, hq'⟩ := h
      rcases List.mem_cons.1 hq with rfl | hq
      · exact absurd (List.mem_of_getElem? ((hi m k).1 hg)) hq'
      · exact ⟨q, hq, hq'⟩

end Verif.Output
