/-
Properties C57 and C58: light sources of a particle tree and their parameters.
-/
import Verif.Sim.Lemmas

namespace Verif.Sim
open Verif.Py
variable {α : Type} [LT α] [DecidableLT α] [Sub α]

/-! ## C57 -/

/-- C57. If the walk succeeds, the cascades are exactly the particles of an electromagnetic type that
are reached and kept, in the order of the tree and each once; the same for tracks. A particle is kept
unless it is known to be too low in energy or too far away; `nan` is not known to be either, see
`C57_violated_nan`. -/
theorem C57_sources_partial (C : Walk α) (f : List (Tree α)) (cs ts : List (Particle α))
    (h : walkAll C f = .ok (cs, ts)) :
    (∃ L, cs = L.map (·.2) ∧ ListsAll
      (fun a p => ∃ t, Reached C f a t ∧ t.particle = p ∧ Kept C p ∧ IsCascade C p) L) ∧
    ∃ L, ts = L.map (·.2) ∧ ListsAll
      (fun a p => ∃ t, Reached C f a t ∧ t.particle = p ∧ Kept C p ∧ IsTrack C p) L := by
  have hg := walkAll_good C f
  rw [h] at hg
  exact hg.2

/-- C57. The walk is refused exactly if it reaches an unsupported particle; the exception is
`NotImplementedError` for one without daughters and `ValueError` for one with daughters. -/
theorem C57_rejected (C : Walk α) (f : List (Tree α)) :
    ((∃ e, walkAll C f = .error e) ↔ ∃ a t, Reached C f a t ∧ Unsupported C t) ∧
    ∀ e, walkAll C f = .error e → ∃ a t, Reached C f a t ∧ Unsupported C t ∧
      (e = .notImplementedError ∧ t.daughters = [] ∨ e = .valueError ∧ t.daughters ≠ []) := by
  have hg := walkAll_good C f
  cases h : walkAll C f with
  | error e =>
    rw [h] at hg
    obtain ⟨a, t, h1, h2, h3⟩ := hg
    refine ⟨⟨fun _ => ⟨a, t, h1, h2⟩, fun _ => ⟨e, rfl⟩⟩, ?_⟩
    intro e' he'
    cases he'
    exact ⟨a, t, h1, h2, h3⟩
  | ok out =>
    rw [h] at hg
    refine ⟨⟨fun ⟨e, he⟩ => (by cases he), fun ⟨a, t, h1, h2⟩ => absurd h2 (hg.1 a t h1)⟩, ?_⟩
    intro e' he'
    cases he'

/-- C57. With the particle types of the module there are no tracks. -/
theorem C57_no_tracks (m d : Option α) (f : List (Tree α)) (cs ts : List (Particle α))
    (h : walkAll (configured m d) f = .ok (cs, ts)) : ts = [] := by
  obtain ⟨_, L, rfl, hl⟩ := C57_sources_partial _ _ _ _ h
  cases L with
  | nil => rfl
  | cons q L =>
    obtain ⟨t, _, _, _, ht⟩ := (hl.2 q.1 q.2).1 (by simp)
    exact absurd ht.2 (by simp [configured])

omit [LT α] [DecidableLT α] [Sub α] in
/-- C57. The electromagnetic particles, the ones that give no light and the admissible parents. -/
theorem C57_types (m d : Option α) (p : Particle α) :
    (IsCascade (configured m d) p ↔ p.kind = "Pi0" ∨ p.kind = "Gamma" ∨ p.kind = "PairProd" ∨
      p.kind = "Brems" ∨ p.kind = "DeltaE" ∨ p.kind = "EMinus" ∨ p.kind = "EPlus") ∧
    (p.kind ∈ (configured m d).dark ↔ p.kind = "NuE" ∨ p.kind = "NuMu" ∨ p.kind = "NuTau" ∨
      p.kind = "NuEBar" ∨ p.kind = "NuMuBar" ∨ p.kind = "NuTauBar") ∧
    (p.kind ∈ (configured m d).parents ↔ p.kind ∈ (configured m d).dark ∨ p.kind = "Hadrons") := by
  simp [IsCascade, configured, or_assoc]

/-- C57 is false for particles without a length (`nan`, the default of a particle): they are simulated
however far away they are. -/
theorem C57_violated_nan (m d : Option α) (p : Particle α) (ds : List (Tree α))
    (hk : p.kind = "EMinus") (hm : ¬ TooLow (configured m d) p) (hl : p.length = none) :
    walkAll (configured m d) [.node p ds] = .ok ([p], []) := by
  have hs : skipped (configured m d) p = false := by
    have hkept : Kept (configured m d) p := ⟨hm, by
      rintro ⟨_, l, _, _, h, _⟩
      rw [hl] at h; cases h⟩
    cases h : skipped (configured m d) p with
    | false => rfl
    | true => exact absurd hkept ((skipped_iff _ _).1 h)
  rw [walkAll, walk, hs]
  simp [configured, hk, walkAll]

/-- A neutrino with an electron, and hadrons with a photon that is too low and one that is not. -/
def exTree : Tree Int :=
  let p (kind : String) (e : Int) : Particle Int :=
    ⟨kind, some e, some 0, some 0, some 5, some 0, some 0, some 0, some 0, some 0⟩
  .node (p "NuE" 100) [.node (p "EMinus" 60) [], .node (p "Hadrons" 40)
    [.node (p "Gamma" 1) [], .node (p "Gamma" 39) []]]

example : ∃ cs, walkAll (configured (some 10) (some 100)) [exTree] = .ok (cs, []) ∧
    cs.map (·.energy) = [some 60, some 39] := ⟨_, rfl, rfl⟩

example : Reached (configured (some 10) (some 100)) [exTree] [0, 1, 1]
    (.node ⟨"Gamma", some 39, some 0, some 0, some 5, some 0, some 0, some 0, some 0, some 0⟩ []) := by
  refine .deeper rfl ⟨?_, ?_⟩ ?_ ?_ (.deeper rfl ⟨?_, ?_⟩ ?_ ?_ (.here rfl)) <;>
    simp [TooLow, TooFar, IsCascade, IsTrack, configured, Tree.particle, exTree]

example : walkAll (configured (some 10) (some 100))
    [.node ⟨"MuMinus", some 39, some 0, some 0, some 5, some 0, some 0, some 0, some 0, some (0 : Int)⟩ []]
    = .error .notImplementedError := rfl

/-! ## C58 -/

omit [LT α] [DecidableLT α] [Sub α] in
/-- C58. The module is configured exactly if all parameters without default are among the seven that
particles have; these parameters are then taken from particles. -/
theorem C58_configured (names : List String) (defaults : Dict String (Default α)) :
    (∀ ps, paramNames names defaults = .ok ps →
      ∀ n, n ∈ ps ↔ n ∈ names ∧ n ∉ Dict.keys defaults) ∧
    ((∃ ps, paramNames names defaults = .ok ps) ↔ ∀ n ∈ names, n ∉ Dict.keys defaults →
      n ∈ ["azimuth", "energy", "time", "x", "y", "z", "zenith"]) ∧
    ∀ e, paramNames names defaults = .error e → e = .keyError := by
  have hmem : ∀ n, n ∈ sortBy (fun a b : String => decide (a ≤ b))
      (names.filter (fun n => !Dict.has defaults n)) ↔ n ∈ names ∧ n ∉ Dict.keys defaults := by
    intro n
    rw [(perm_sortBy _ _).mem_iff, List.mem_filter, ← Dict.has_iff]
    simp
  unfold paramNames
  simp only
  split
  · rename_i h
    refine ⟨?_, ⟨fun _ n h1 h2 => ?_, fun _ => ⟨_, rfl⟩⟩, ?_⟩
    · intro ps hps n
      cases hps
      exact hmem n
    · rw [List.all_eq_true] at h
      have := h n ((hmem n).2 ⟨h1, h2⟩)
      exact List.contains_iff_mem.1 this
    · intro e he; cases he
  · rename_i h
    refine ⟨?_, ⟨fun ⟨_, hp⟩ => (by cases hp), fun hall => ?_⟩, ?_⟩
    · intro ps hps; cases hps
    · exfalso
      apply h
      rw [List.all_eq_true]
      intro n hn
      exact List.contains_iff_mem.2 (hall n ((hmem n).1 hn).1 ((hmem n).1 hn).2)
    · intro e he; cases he; rfl

omit [LT α] [DecidableLT α] [Sub α] in
/-- C58. Whatever was in memory before: if the defaults are numbers for parameters of the model, the
array has in every row and column the default of the parameter or the property of the particle.
Missing: the array is never returned, see `C58_violated`; defaults that name a frame entry, see
`C58_violated_key`. -/
theorem C58_filled_partial (names : List String) (defaults : Dict String (Default α)) (ps : List String)
    (hn : names.Nodup) (hd : Dict.Ok defaults)
    (hnum : ∀ k v, (k, v) ∈ defaults → k ∈ names ∧ ∃ x, v = .num x)
    (hp : paramNames names defaults = .ok ps) (cascades : List (Particle α)) (empty : Table α) :
    ∃ a, fill names ps defaults cascades empty = .ok a ∧
    ∀ i c j n, cascades[i]? = some c → names[j]? = some n →
      (∀ v, Dict.get? defaults n = some (.num v) → a i j = v) ∧
      (n ∉ Dict.keys defaults →
        (n = "x" ∧ a i j = c.x) ∨ (n = "y" ∧ a i j = c.y) ∨ (n = "z" ∧ a i j = c.z) ∨
        (n = "zenith" ∧ a i j = c.zenith) ∨ (n = "azimuth" ∧ a i j = c.azimuth) ∨
        (n = "energy" ∧ a i j = c.energy) ∨ (n = "time" ∧ a i j = c.time)) := by
  obtain ⟨g1, g2, _⟩ := C58_configured names defaults
  have hps := g1 ps hp
  have hinc := g2.1 ⟨ps, hp⟩
  obtain ⟨b, hb, s⟩ := fillDefaults_ok hn defaults empty hd hnum
  have hattr : ∀ c ∈ cascades, ∀ p ∈ ps, p ∈ names ∧ ∃ v, attr c p = .ok v := by
    intro c _ p hp'
    obtain ⟨h1, h2⟩ := (hps p).1 hp'
    refine ⟨h1, ?_⟩
    have := hinc p h1 h2
    simp only [List.mem_cons, List.not_mem_nil, or_false] at this
    rcases this with rfl | rfl | rfl | rfl | rfl | rfl | rfl <;> exact ⟨_, rfl⟩
  obtain ⟨a, ha, _, t⟩ := fillRows_ok hn cascades 0 b hattr
  refine ⟨a, by rw [fill, hb]; exact ha, ?_⟩
  intro i c j n hi hj
  obtain ⟨t1, t2⟩ := t i c j n hi hj
  obtain ⟨s1, s2⟩ := s i j n hj
  rw [Nat.zero_add] at t1 t2
  constructor
  · intro v hv
    have hk : n ∈ Dict.keys defaults := by
      rw [← Dict.get?_isSome_iff, hv]; rfl
    rw [t2 (fun h => ((hps n).1 h).2 hk), s1 v hv]
  · intro hk
    have hmem : n ∈ names := List.mem_of_getElem? hj
    have h := t1 ((hps n).2 ⟨hmem, hk⟩)
    have := hinc n hmem hk
    simp only [List.mem_cons, List.not_mem_nil, or_false] at this
    rcases this with rfl | rfl | rfl | rfl | rfl | rfl | rfl <;>
      simp [attr] at h <;> simp [h]

omit [LT α] [DecidableLT α] [Sub α] in
/-- C58 is false: the conversion to a tensor reads an attribute that is never set, so no parameters
are ever returned. -/
theorem C58_violated (names params : List String) (defaults : Dict String (Default α))
    (cascades : List (Particle α)) (empty : Table α) :
    (∀ a, convert names params defaults cascades empty ≠ .ok a) ∧
    ∀ a, fill names params defaults cascades empty = .ok a →
      convert names params defaults cascades empty = .error .attributeError := by
  unfold convert
  cases fill names params defaults cascades empty with
  | error e => exact ⟨fun _ h => (by cases h), fun _ h => (by cases h)⟩
  | ok a => exact ⟨fun _ h => (by cases h), fun _ _ => rfl⟩

/-- C58 is false for every frame: the simulation module never pushes one. -/
theorem C58_frame_violated {P : Type} (C : Walk α) (names params : List String)
    (defaults : Dict String (Default α)) (empty : Table α) (pulses : Table α → Except Err P)
    (tree output : String) (frame frame' : Dict String (Entry α P)) :
    daq C names params defaults empty pulses tree output frame ≠ .ok frame' := by
  unfold daq
  cases Dict.get? frame tree with
  | none => simp
  | some x =>
    cases x with
    | pulses p => simp
    | tree f =>
      simp only
      cases walkAll C f with
      | error e => simp
      | ok q =>
        obtain ⟨cs, ts⟩ := q
        simp only
        split
        · simp
        · cases h : convert names params defaults cs empty with
          | error e => simp
          | ok a => exact absurd h ((C58_violated names params defaults cs empty).1 a)

omit [LT α] [DecidableLT α] [Sub α] in
/-- C58 is false for defaults that name an entry of the frame: these raise a `NameError`. -/
theorem C58_violated_key (names params : List String) (k s : String)
    (rest : Dict String (Default α)) (cascades : List (Particle α)) (empty : Table α) :
    convert names params ((k, .key s) :: rest) cascades empty = .error .nameError := rfl

omit [LT α] [DecidableLT α] [Sub α] in
/-- C58. A default for a name that is no parameter is refused. -/
theorem C58_unknown (names params : List String) (k : String) (v : Option α)
    (rest : Dict String (Default α)) (cascades : List (Particle α)) (empty : Table α) (hk : k ∉ names) :
    convert names params ((k, .num v) :: rest) cascades empty = .error .keyError := by
  simp [convert, fill, fillDefaults, getIndex_none hk]

example : ∃ ps a, paramNames ["x", "y", "z", "zenith", "azimuth", "energy", "time", "absorption"]
      [("absorption", .num (some (1 : Int)))] = .ok ps ∧
    fill ["x", "y", "z", "zenith", "azimuth", "energy", "time", "absorption"] ps
      [("absorption", .num (some (1 : Int)))]
      [⟨"EMinus", some 60, some 7, some 0, some 5, some 2, some 3, some 4, some 8, some 9⟩]
      (fun _ _ => some 99) = .ok a ∧
    (List.range 8).map (a 0) =
      [some 2, some 3, some 4, some 8, some 9, some 60, some 7, some 1] := by
  refine ⟨["azimuth", "energy", "time", "x", "y", "z", "zenith"], _, ?_, rfl, rfl⟩
  decide

end Verif.Sim
