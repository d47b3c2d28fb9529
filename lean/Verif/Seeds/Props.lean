/-
C24: the seed loader.
-/
import Verif.Seeds.Model

namespace Verif.Seeds
open Verif.Py

variable {R : Type}

/-! ### specification -/

/-- The default of a parameter: its own, else the general one. -/
def defaultOf (cfg : Config R) (l : String) : Option R :=
  match Dict.get? cfg.missingDict l with
  | some d => some d
  | none => cfg.missing

/-- The column of parameter `l` for `n` events: the stored one, else the default for every event. -/
def columnOf (cfg : Config R) (table : Dict String (List R)) (n : Nat) (l : String) : Option (List R) :=
  match Dict.get? table l with
  | some v => some v
  | none => (defaultOf cfg l).map (List.replicate n)

/-- The stored value of a parameter in an object of a frame. -/
def stored : FrameObj R → String → Option R
  | .map m, l => Dict.get? m l
  | .particle attrs x y z zenith azimuth, l =>
    match Dict.get? attrs l with
    | some v => some v
    | none => Dict.get? [("x", x), ("y", y), ("z", z), ("zenith", zenith), ("azimuth", azimuth)] l

/-- The stored value, else the default. -/
def valueOf (cfg : Config R) (o : FrameObj R) (l : String) : Option R :=
  match stored o l with
  | some v => some v
  | none => defaultOf cfg l

/-- A table with `n` rows. -/
def IsTable (table : Dict String (List R)) (n : Nat) : Prop :=
  ∀ l v, Dict.get? table l = some v → v.length = n

/-! ### lemmas -/

theorem hdfColumns_ok (cfg : Config R) (table : Dict String (List R)) (n : Nat) (ht : IsTable table n)
    (ls : List String) (cols : List (List R)) (hc : ∀ c ∈ cols, c.length = n) (hne : cols ≠ [])
    (col : String → List R) (hcol : ∀ l ∈ ls, columnOf cfg table n l = some (col l)) :
    hdfColumns cfg table ls cols = .ok (cols ++ ls.map col) := by
  induction ls generalizing cols with
  | nil => simp [hdfColumns]
  | cons l ls ih =>
    have h := hcol l (by simp)
    have hlen : (col l).length = n := by
      unfold columnOf at h
      cases hg : Dict.get? table l with
      | some v => rw [hg] at h; cases h; exact ht l _ hg
      | none =>
        rw [hg] at h
        cases hd : defaultOf cfg l with
        | none => rw [hd] at h; simp at h
        | some d => rw [hd] at h; rw [← Option.some.inj h]; simp
    have ih' := ih (cols ++ [col l]) (fun c hm => by
      rcases List.mem_append.mp hm with hm | hm
      · exact hc c hm
      · rw [List.mem_singleton.mp hm]; exact hlen) (by simp) (fun l' hl' => hcol l' (by simp [hl']))
    have hlast : cols.getLast? = some (cols.getLast hne) := List.getLast?_eq_some_getLast hne
    have hll : (cols.getLast hne).length = n := hc _ (List.getLast_mem hne)
    rw [hdfColumns]
    unfold columnOf at h
    cases hg : Dict.get? table l with
    | some v =>
      rw [hg] at h; cases h
      simp only [ih', List.map_cons, List.append_assoc, List.singleton_append]
    | none =>
      rw [hg] at h
      simp only [hlast, hll]
      unfold defaultOf at h
      cases hm : Dict.get? cfg.missingDict l with
      | some d =>
        rw [hm] at h
        have h' : List.replicate n d = col l := by simpa using h
        simp only [h', ih', List.map_cons, List.append_assoc, List.singleton_append]
      | none =>
        rw [hm] at h
        cases hv : cfg.missing with
        | some d =>
          rw [hv] at h
          have h' : List.replicate n d = col l := by simpa using h
          simp only [h', ih', List.map_cons, List.append_assoc, List.singleton_append]
        | none => rw [hv] at h; simp at h

theorem hdfColumns_missing (cfg : Config R) (table : Dict String (List R)) (ls : List String)
    (cols : List (List R)) (l : String) (hl : l ∈ ls) (h1 : Dict.get? table l = none)
    (h2 : defaultOf cfg l = none) : ∃ e, hdfColumns cfg table ls cols = .error e := by
  induction ls generalizing cols with
  | nil => simp at hl
  | cons l' ls ih =>
    rw [hdfColumns]
    by_cases h : l' = l
    · subst h
      have h3 : Dict.get? cfg.missingDict l' = none ∧ cfg.missing = none := by
        unfold defaultOf at h2
        cases hm : Dict.get? cfg.missingDict l' with
        | some d => rw [hm] at h2; simp at h2
        | none => rw [hm] at h2; exact ⟨rfl, h2⟩
      simp only [h1, h3.1, h3.2]
      exact ⟨_, rfl⟩
    · have ih' := fun c => ih c (by simpa [Ne.symm h] using hl)
      cases Dict.get? table l' with
      | some v => exact ih' _
      | none =>
        cases Dict.get? cfg.missingDict l' with
        | some d =>
          cases cols.getLast? with
          | none => exact ⟨_, rfl⟩
          | some c => exact ih' _
        | none =>
          cases cfg.missing with
          | some d =>
            cases cols.getLast? with
            | none => exact ⟨_, rfl⟩
            | some c => exact ih' _
          | none => exact ⟨_, rfl⟩

theorem transpose_ok (c : List R) (cs : List (List R)) (n : Nat) (h : ∀ x ∈ c :: cs, x.length = n) :
    transpose (c :: cs) = .ok (n, c :: cs) := by
  have h1 := h c (by simp)
  simp only [transpose]
  rw [if_pos, h1]
  simp only [List.all_eq_true, decide_eq_true_eq]
  intro x hx
  rw [h x (by simp [hx]), h1]

/-! ### C24 -/

/-- C24 (hdf, partial: a single seed, whose first parameter is stored). The seed tensor has one column
per parameter name in the given order, holding the stored values or else the default. -/
theorem C24_hdf_partial (cfg : Config R) (file : Dict String (Dict String (List R))) (name : String)
    (table : Dict String (List R)) (n : Nat) (first : String) (rest : List String)
    (hnames : cfg.names = [name]) (hparams : cfg.params = first :: rest)
    (hfile : Dict.get? file name = some table) (ht : IsTable table n)
    (hfirst : (Dict.get? table first).isSome)
    (col : String → List R) (hcol : ∀ l ∈ cfg.params, columnOf cfg table n l = some (col l)) :
    fromHdf cfg file = .ok (some (n, [cfg.params.map col])) := by
  obtain ⟨v, hv⟩ := Option.isSome_iff_exists.mp hfirst
  have hcf : v = col first := by
    have := hcol first (by simp [hparams])
    unfold columnOf at this
    rw [hv] at this
    exact Option.some.inj this
  have h1 : hdfColumns cfg table cfg.params [] = .ok (cfg.params.map col) := by
    rw [hparams, hdfColumns]
    simp only [hv, List.nil_append]
    rw [hdfColumns_ok cfg table n ht rest [v] (by simp [ht first v hv]) (by simp) col
      (fun l hl => hcol l (by simp [hparams, hl])), hcf]
    simp
  have hlen : ∀ x ∈ cfg.params.map col, x.length = n := by
    intro x hx
    obtain ⟨l, hl, rfl⟩ := List.mem_map.mp hx
    have := hcol l hl
    unfold columnOf at this
    cases hg : Dict.get? table l with
    | some w => rw [hg] at this; cases this; exact ht l _ hg
    | none =>
      rw [hg] at this
      cases hd : defaultOf cfg l with
      | none => rw [hd] at this; simp at this
      | some d => rw [hd] at this; rw [← Option.some.inj this]; simp
  have h2 : transpose (cfg.params.map col) = .ok (n, cfg.params.map col) := by
    rw [hparams, List.map_cons] at hlen ⊢
    exact transpose_ok _ _ n hlen
  simp [fromHdf, hnames, hdfLoop, hfile, h1, h2, finish, Except.map]

/-- C24 (hdf). A missing value without a default skips the file. -/
theorem C24_hdf_skips (cfg : Config R) (file : Dict String (Dict String (List R))) (name : String)
    (names : List String) (table : Dict String (List R)) (hnames : cfg.names = name :: names)
    (hfile : Dict.get? file name = some table) (l : String) (hl : l ∈ cfg.params)
    (h1 : Dict.get? table l = none) (h2 : defaultOf cfg l = none) :
    fromHdf cfg file = .ok none := by
  obtain ⟨e, h⟩ := hdfColumns_missing cfg table cfg.params [] l hl h1 h2
  simp [fromHdf, hnames, hdfLoop, hfile, h]

/-- C24 is violated: several seeds can never be loaded from an hdf file, because the file is closed after
the first one. Whatever the file contains, it is skipped (or an error is raised). -/
theorem C24_several_seeds_violated (cfg : Config R) (file : Dict String (Dict String (List R)))
    (name name' : String) (names : List String) (hnames : cfg.names = name :: name' :: names) :
    ∀ r, fromHdf cfg file ≠ .ok (some r) := by
  intro r
  simp only [fromHdf, hnames, hdfLoop]
  cases Dict.get? file name with
  | none => simp
  | some table =>
    simp only [Bool.true_eq_false, if_false]
    cases hdfColumns cfg table cfg.params [] with
    | error e => simp
    | ok cols =>
      simp only
      cases transpose cols <;> simp

/-- C24 is violated: if the first parameter is not stored, the file is skipped even if a default is
configured. -/
theorem C24_first_default_violated (cfg : Config R) (file : Dict String (Dict String (List R)))
    (name : String) (names : List String) (table : Dict String (List R)) (first : String)
    (rest : List String) (hnames : cfg.names = name :: names) (hparams : cfg.params = first :: rest)
    (hfile : Dict.get? file name = some table) (h1 : Dict.get? table first = none)
    (_h2 : (defaultOf cfg first).isSome) : fromHdf cfg file = .ok none := by
  have : ∃ e, hdfColumns cfg table cfg.params [] = .error e := by
    rw [hparams, hdfColumns]
    simp only [h1, List.getLast?_nil]
    cases Dict.get? cfg.missingDict first with
    | some d => exact ⟨_, rfl⟩
    | none =>
      cases cfg.missing with
      | some d => exact ⟨_, rfl⟩
      | none => exact ⟨_, rfl⟩
  obtain ⟨e, h⟩ := this
  simp [fromHdf, hnames, hdfLoop, hfile, h]

theorem frameValue_spec (cfg : Config R) (o : FrameObj R) (l : String) :
    frameValue cfg o l = match valueOf cfg o l with
      | some v => .ok v
      | none => .error .keyError := by
  have hd : (match Dict.get? cfg.missingDict l with
      | some d => (.ok d : Except Err R)
      | none =>
        match cfg.missing with
        | some d => .ok d
        | none => .error .keyError) = match defaultOf cfg l with
      | some v => .ok v
      | none => .error .keyError := by
    unfold defaultOf
    cases Dict.get? cfg.missingDict l <;> cases cfg.missing <;> rfl
  unfold frameValue valueOf stored
  cases o with
  | map m =>
    simp only
    cases Dict.get? m l with
    | some v => rfl
    | none => exact hd
  | particle attrs x y z zenith azimuth =>
    simp only
    cases Dict.get? attrs l with
    | some v => rfl
    | none =>
      by_cases h1 : l = "x"
      · subst h1; simp [Dict.get?]
      · by_cases h2 : l = "y"
        · subst h2; simp [Dict.get?]
        · by_cases h3 : l = "z"
          · subst h3; simp [Dict.get?]
          · by_cases h4 : l = "zenith"
            · subst h4; simp [Dict.get?]
            · by_cases h5 : l = "azimuth"
              · subst h5; simp [Dict.get?]
              · simp only [Dict.get?, Ne.symm h1, Ne.symm h2, Ne.symm h3, Ne.symm h4, Ne.symm h5, h1, h2,
                  h3, h4, h5, if_false]
                exact hd

theorem frameColumns_ok (cfg : Config R) (o : FrameObj R) (ls : List String) (v : String → R)
    (h : ∀ l ∈ ls, valueOf cfg o l = some (v l)) :
    frameColumns cfg o ls = .ok (ls.map (fun l => [v l])) := by
  induction ls with
  | nil => rfl
  | cons l ls ih =>
    rw [frameColumns, frameValue_spec, h l (by simp)]
    simp only [ih (fun l' hl' => h l' (by simp [hl']))]
    rfl

theorem frameColumns_missing (cfg : Config R) (o : FrameObj R) (ls : List String) (l : String)
    (hl : l ∈ ls) (h : valueOf cfg o l = none) : frameColumns cfg o ls = .error .keyError := by
  induction ls with
  | nil => simp at hl
  | cons l' ls ih =>
    rw [frameColumns, frameValue_spec]
    cases hv : valueOf cfg o l' with
    | none => rfl
    | some v =>
      have : l' ≠ l := fun e => by rw [e, h] at hv; cases hv
      simp only [ih (by simpa [Ne.symm this] using hl)]

theorem frameLoop_ok (cfg : Config R) (frame : Dict String (FrameObj R)) (names : List String)
    (obj : String → FrameObj R) (v : String → String → R)
    (hobj : ∀ s ∈ names, Dict.get? frame s = some (obj s))
    (hv : ∀ s ∈ names, ∀ l ∈ cfg.params, valueOf cfg (obj s) l = some (v s l))
    (hp : cfg.params ≠ []) (seeds : List (Nat × List (List R))) :
    frameLoop cfg frame names seeds =
      .ok (some (seeds ++ names.map (fun s => (1, cfg.params.map (fun l => [v s l]))))) := by
  induction names generalizing seeds with
  | nil => simp [frameLoop]
  | cons s names ih =>
    have h1 := frameColumns_ok cfg (obj s) cfg.params (v s) (hv s (by simp))
    have h2 : transpose (cfg.params.map (fun l => [v s l])) =
        .ok (1, cfg.params.map (fun l => [v s l])) := by
      cases hpc : cfg.params with
      | nil => exact absurd hpc hp
      | cons p ps =>
        rw [List.map_cons]
        exact transpose_ok _ _ 1 (by simp)
    rw [frameLoop, hobj s (by simp)]
    simp only [h1, h2]
    rw [ih (fun s' h => hobj s' (by simp [h])) (fun s' h => hv s' (by simp [h]))]
    simp

/-- C24 (frame). For any number of seeds, every seed tensor has one column per parameter name in the
given order, holding the stored value or else the default. -/
theorem C24_frame (cfg : Config R) (frame : Dict String (FrameObj R)) (obj : String → FrameObj R)
    (v : String → String → R) (hn : cfg.names ≠ []) (hp : cfg.params ≠ [])
    (hobj : ∀ s ∈ cfg.names, Dict.get? frame s = some (obj s))
    (hv : ∀ s ∈ cfg.names, ∀ l ∈ cfg.params, valueOf cfg (obj s) l = some (v s l)) :
    fromFrame cfg frame =
      .ok (some (1, cfg.names.map (fun s => cfg.params.map (fun l => [v s l])))) := by
  unfold fromFrame
  rw [frameLoop_ok cfg frame cfg.names obj v hobj hv hp []]
  simp only [List.nil_append]
  unfold finish
  obtain ⟨s, hs⟩ : ∃ s, cfg.names.getLast? = some s := ⟨_, List.getLast?_eq_some_getLast hn⟩
  rw [List.getLast?_map, hs]
  simp [Except.map, Function.comp_def]

/-- C24 (frame). The first seed with a missing value without default, or without an object, skips the
frame. -/
theorem C24_frame_skips (cfg : Config R) (frame : Dict String (FrameObj R)) (obj : String → FrameObj R)
    (v : String → String → R) (pre : List String) (bad : String) (post : List String)
    (hn : cfg.names = pre ++ bad :: post)
    (hobj : ∀ s ∈ pre, Dict.get? frame s = some (obj s))
    (hv : ∀ s ∈ pre, ∀ l ∈ cfg.params, valueOf cfg (obj s) l = some (v s l))
    (hbad : Dict.get? frame bad = none ∨ ∃ o l, Dict.get? frame bad = some o ∧ l ∈ cfg.params ∧
      valueOf cfg o l = none) : fromFrame cfg frame = .ok none := by
  have key : ∀ seeds, frameLoop cfg frame cfg.names seeds = .ok none := by
    rw [hn]
    clear hn
    induction pre with
    | nil =>
      intro seeds
      rw [List.nil_append, frameLoop]
      rcases hbad with h | ⟨o, l, h, hl, hv⟩
      · rw [h]
      · rw [h]
        simp only [frameColumns_missing cfg o cfg.params l hl hv]
    | cons s pre ih =>
      intro seeds
      have h1 := frameColumns_ok cfg (obj s) cfg.params (v s) (hv s (by simp))
      have h2 : ∃ t, transpose (cfg.params.map (fun l => [v s l])) = .ok t := by
        cases hpc : cfg.params with
        | nil => exact ⟨_, rfl⟩
        | cons p ps =>
          rw [List.map_cons]
          exact ⟨_, transpose_ok _ _ 1 (by simp)⟩
      obtain ⟨t, h2⟩ := h2
      rw [List.cons_append, frameLoop, hobj s (by simp)]
      simp only [h1, h2]
      exact ih (fun s' h => hobj s' (by simp [h])) (fun s' h => hv s' (by simp [h])) _
  unfold fromFrame
  rw [key]

/-- One seed with a stored and a default parameter from an hdf file, two seeds from a frame. -/
example : fromHdf (R := Nat) ⟨["Fit"], ["x", "q"], none, [("q", 7)]⟩ [("Fit", [("x", [1, 2])])] =
      .ok (some (2, [[[1, 2], [7, 7]]])) ∧
    fromFrame (R := Nat) ⟨["A", "B"], ["x", "q"], none, [("q", 7)]⟩
        [("A", .particle [("q", 3)] 1 0 0 0 0), ("B", .map [("x", 5)])] =
      .ok (some (1, [[[1], [3]], [[5], [7]]])) := by
  constructor <;> rfl

end Verif.Seeds
