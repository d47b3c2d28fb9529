import Verif.Batch.Spec
import Mathlib.Algebra.BigOperators.Fin

/-! # Lemmas for C139 -/

namespace Verif.Batch
open Verif.Py Verif.Dist Verif.Cascade
open Verif.Loss (Cell)
variable {X : Type} {B P W n m : ℕ}

theorem sum_list (p : Fin W → Prop) [DecidablePred p] (f : Fin W → ℝ) :
    (∑ w, if p w then f w else 0) = (((List.finRange W).filter p).map f).sum := by
  rw [← List.sum_ofFn, List.ofFn_eq_map]
  induction List.finRange W with
  | nil => rfl
  | cons a l ih =>
    by_cases h : p a
    · simp [h, ih]
    · simp [h, ih]

theorem sum_items {event : Fin P → Fin B} {b : Fin B} {e : Fin n → Fin P} (h : ItemsOf event b e)
    (f : Fin P → ℝ) : ∑ q, f (e q) = ∑ p, if event p = b then f p else 0 := by
  have hinj : Function.Injective e := fun q q' hq => h.once q q' hq
  rw [← Finset.sum_filter]
  have : (Finset.univ.filter fun p => event p = b) = Finset.univ.map ⟨e, hinj⟩ := by
    ext p
    simp [h.all p]
  rw [this, Finset.sum_map]
  rfl

/-- A scatter over the items of one event. -/
theorem scatter_items {ids : Fin W → Cell B} {b : Fin B} {v : Fin m → Fin W}
    (h : ItemsOf (fun w => (ids w).1) b v) (c : DomIx) (f : Fin W → ℝ) :
    (∑ q, if ((0 : Fin 1), (ids (v q)).2) = (0, c) then f (v q) else 0) =
      ∑ w, if ids w = (b, c) then f w else 0 := by
  have := sum_items h (fun w => if (ids w).2 = c then f w else 0)
  simp only [Prod.mk.injEq, true_and]
  rw [this]
  refine Finset.sum_congr rfl fun p _ => ?_
  by_cases h1 : (ids p).1 = b <;> by_cases h2 : (ids p).2 = c
  · have : ids p = (b, c) := Prod.ext h1 h2
    simp [this]
  · have : ids p ≠ (b, c) := fun he => h2 (by rw [he])
    simp [h2, this]
  · have : ids p ≠ (b, c) := fun he => h1 (by rw [he])
    simp [h1, this]
  · have : ids p ≠ (b, c) := fun he => h1 (by rw [he])
    simp [h1, this]

/-- The windows of an event on its own. -/
def onlyWs (ws : Fin W → (ℝ × ℝ) × Cell B) (v : Fin m → Fin W) : Fin m → (ℝ × ℝ) × Cell 1 :=
  fun w => ((ws (v w)).1, (0, (ws (v w)).2.2))

theorem only_windows (D : Data X B P W) (b : Fin B) (e : Fin n → Fin P) (v : Fin m → Fin W)
    {ws} (h : D.windows = some ws) : (D.only b e v).windows = some (onlyWs ws v) := by
  simp [Data.only, h]
  rfl

theorem twExclusion_only (M : Source X) (D : Data X B P W) {b : Fin B} (e : Fin n → Fin P)
    {v : Fin m → Fin W} {ws : Fin W → (ℝ × ℝ) × Cell B} (h : ItemsOf (fun w => (ws w).2.1) b v)
    (q : Fin m) (k : ℕ) :
    twExclusion M (D.only b e v) (onlyWs ws v) q k = twExclusion M D ws (v q) k := by
  have : (ws (v q)).2.1 = b := (h.all _).2 ⟨q, rfl⟩
  simp [twExclusion, onlyWs, Data.only, this]

theorem domExclusion_only (M : Source X) (D : Data X B P W) {b : Fin B} (e : Fin n → Fin P)
    {v : Fin m → Fin W} {ws : Fin W → (ℝ × ℝ) × Cell B} (h : ItemsOf (fun w => (ws w).2.1) b v)
    (c : DomIx) (k : ℕ) :
    domExclusion M (D.only b e v) (onlyWs ws v) (0, c) k = domExclusion M D ws (b, c) k := by
  unfold domExclusion
  congr 1
  simp only [twExclusion_only M D e h]
  exact scatter_items h c fun w => clip 0 1 (twExclusion M D ws w k)

theorem domExclusionSum_only (M : Source X) (D : Data X B P W) {b : Fin B} (e : Fin n → Fin P)
    {v : Fin m → Fin W} {ws : Fin W → (ℝ × ℝ) × Cell B} (h : ItemsOf (fun w => (ws w).2.1) b v)
    (c : DomIx) :
    domExclusionSum M (D.only b e v) (onlyWs ws v) (0, c) = domExclusionSum M D ws (b, c) := by
  unfold domExclusionSum
  simp only [domExclusion_only M D e h]
  rfl

theorem forall_cell1 {p : Cell 1 → Prop} : (∀ c, p c) ↔ ∀ c : DomIx, p (0, c) := by
  constructor
  · intro h c
    exact h _
  · rintro h ⟨c0, c⟩
    have : c0 = 0 := Subsingleton.elim _ _
    subst this
    exact h c

/-- The assertions on the whole batch are those on all events. -/
theorem assertions_only (M : Source X) (D : Data X B P W) {n m : Fin B → ℕ}
    (e : ∀ b, Fin (n b) → Fin P) {v : ∀ b, Fin (m b) → Fin W} {ws : Fin W → (ℝ × ℝ) × Cell B}
    (h : ∀ b, ItemsOf (fun w => (ws w).2.1) b (v b)) :
    batchAssertions M D ws ↔
      ∀ b, batchAssertions M (D.only b (e b) (v b)) (onlyWs ws (v b)) := by
  unfold batchAssertions
  simp only [twExclusion_only M D (e _) (h _), forall_cell1, domExclusion_only M D (e _) (h _),
    domExclusionSum_only M D (e _) (h _)]
  constructor
  · rintro ⟨h1, h2, h3⟩ b
    exact ⟨fun w => h1 _, fun c => h2 _, fun c => h3 _⟩
  · intro hb
    refine ⟨fun w => ?_, fun c => ?_, fun c => ?_⟩
    · obtain ⟨q, hq⟩ := ((h (ws w).2.1).all w).1 rfl
      have := (hb (ws w).2.1).1 q
      rwa [hq] at this
    · exact (hb c.1).2.1 c.2
    · exact (hb c.1).2.2 c.2

theorem twExclusion_dom (M : Source X) (D : Data X B P W) (ws : Fin W → (ℝ × ℝ) × Cell B)
    (w : Fin W) (c : Cell B) (h : (ws w).2 = c) (k : ℕ) :
    twExclusion M D ws w k =
      windowExclusion (decodeLatent M.cfg (M.dom D c).out) (M.dom D c).time k (ws w).1 := by
  subst h
  rfl

/-- The windows of a DOM. -/
def windowList (ws : Fin W → (ℝ × ℝ) × Cell B) (c : Cell B) : List (ℝ × ℝ) :=
  ((List.finRange W).filter fun w => (ws w).2 = c).map fun w => (ws w).1

theorem domExclusion_dom (M : Source X) (D : Data X B P W) (ws : Fin W → (ℝ × ℝ) × Cell B)
    (c : Cell B) (k : ℕ) :
    domExclusion M D ws c k =
      rawExclusion (decodeLatent M.cfg (M.dom D c).out) (M.dom D c).time (windowList ws c) k := by
  unfold domExclusion rawExclusion windowList
  rw [zero_add, sum_list, List.map_map]
  congr 1
  refine List.map_congr_left fun w hw => ?_
  have : (ws w).2 = c := by simpa using hw
  rw [twExclusion_dom M D ws w c this]
  rfl

theorem domExclusionSum_dom (M : Source X) (D : Data X B P W) (ws : Fin W → (ℝ × ℝ) × Cell B)
    (c : Cell B) :
    domExclusionSum M D ws c = rawExclusionSum M.cfg.nModels
      (decodeLatent M.cfg (M.dom D c).out) (M.dom D c).time (windowList ws c) := by
  unfold domExclusionSum rawExclusionSum exclusion
  simp only [domExclusion_dom]
  rfl

theorem assertions_dom (M : Source X) (D : Data X B P W) (ws : Fin W → (ℝ × ℝ) × Cell B) :
    batchAssertions M D ws ↔ ∀ c, assertions M.cfg.nModels
      (decodeLatent M.cfg (M.dom D c).out) (M.dom D c).time (windowList ws c) := by
  unfold batchAssertions assertions
  simp only [domExclusion_dom, domExclusionSum_dom]
  constructor
  · rintro ⟨h1, h2, h3⟩ c
    refine ⟨fun k hk w hw => ?_, h2 c, h3 c⟩
    simp only [windowList, List.mem_map, List.mem_filter, List.mem_finRange, true_and,
      decide_eq_true_eq] at hw
    obtain ⟨i, hi, rfl⟩ := hw
    rw [← twExclusion_dom M D ws i c hi]
    exact h1 i k hk
  · intro h
    refine ⟨fun w k hk => ?_, fun c => (h c).2.1, fun c => (h c).2.2⟩
    rw [twExclusion_dom M D ws w _ rfl]
    refine (h (ws w).2).1 k hk _ ?_
    simp only [windowList, List.mem_map, List.mem_filter, List.mem_finRange, true_and,
      decide_eq_true_eq]
    exact ⟨w, rfl, rfl⟩

/-! ## Noise -/

theorem noiseTw_only (N : NoiseSource) (D : Data (ℝ × ℝ) B P W) {b : Fin B} (e : Fin n → Fin P)
    {v : Fin m → Fin W} {ws : Fin W → (ℝ × ℝ) × Cell B} (h : ItemsOf (fun w => (ws w).2.1) b v)
    (q : Fin m) : noiseTw N (D.only b e v) (onlyWs ws v) q = noiseTw N D ws (v q) := by
  have : (ws (v q)).2.1 = b := (h.all _).2 ⟨q, rfl⟩
  simp [noiseTw, onlyWs, Data.only, NoiseSource.dom, this]

theorem noiseScatter_only (N : NoiseSource) (D : Data (ℝ × ℝ) B P W) {b : Fin B}
    (e : Fin n → Fin P) {v : Fin m → Fin W} {ws : Fin W → (ℝ × ℝ) × Cell B}
    (h : ItemsOf (fun w => (ws w).2.1) b v) (c : DomIx) :
    noiseScatter N (D.only b e v) (onlyWs ws v) (0, c) = noiseScatter N D ws (b, c) := by
  unfold noiseScatter
  congr 1
  simp only [noiseTw_only N D e h]
  exact scatter_items h c fun w => clip 0 1 (noiseTw N D ws w)

theorem noiseScatter_dom (N : NoiseSource) (D : Data (ℝ × ℝ) B P W)
    (ws : Fin W → (ℝ × ℝ) × Cell B) (c : Cell B) :
    noiseScatter N D ws c = noiseRaw (N.dom D c) (windowList ws c) := by
  unfold noiseScatter noiseRaw windowList
  rw [zero_add, sum_list, List.map_map]
  congr 1
  refine List.map_congr_left fun w hw => ?_
  have : (ws w).2 = c := by simpa using hw
  simp [noiseTw, this]

theorem noiseAssertions_dom (N : NoiseSource) (D : Data (ℝ × ℝ) B P W)
    (ws : Fin W → (ℝ × ℝ) × Cell B) :
    ((∀ w, inBounds (noiseTw N D ws w)) ∧ ∀ c, inBounds (noiseScatter N D ws c)) ↔
      ∀ c, noiseAssertions (N.dom D c) (windowList ws c) := by
  unfold noiseAssertions
  simp only [noiseScatter_dom]
  constructor
  · rintro ⟨h1, h2⟩ c
    refine ⟨fun w hw => ?_, h2 c⟩
    simp only [windowList, List.mem_map, List.mem_filter, List.mem_finRange, true_and,
      decide_eq_true_eq] at hw
    obtain ⟨i, rfl, rfl⟩ := hw
    exact h1 i
  · intro h
    refine ⟨fun w => (h (ws w).2).1 _ ?_, fun c => (h c).2⟩
    simp only [windowList, List.mem_map, List.mem_filter, List.mem_finRange, true_and,
      decide_eq_true_eq]
    exact ⟨w, rfl, rfl⟩

theorem noiseAssertions_only (N : NoiseSource) (D : Data (ℝ × ℝ) B P W) {n m : Fin B → ℕ}
    (e : ∀ b, Fin (n b) → Fin P) {v : ∀ b, Fin (m b) → Fin W} {ws : Fin W → (ℝ × ℝ) × Cell B}
    (h : ∀ b, ItemsOf (fun w => (ws w).2.1) b (v b)) :
    ((∀ w, inBounds (noiseTw N D ws w)) ∧ ∀ c, inBounds (noiseScatter N D ws c)) ↔
      ∀ b, (∀ w, inBounds (noiseTw N (D.only b (e b) (v b)) (onlyWs ws (v b)) w)) ∧
        ∀ c, inBounds (noiseScatter N (D.only b (e b) (v b)) (onlyWs ws (v b)) c) := by
  simp only [noiseTw_only N D (e _) (h _), forall_cell1, noiseScatter_only N D (e _) (h _)]
  constructor
  · rintro ⟨h1, h2⟩ b
    exact ⟨fun w => h1 _, fun c => h2 _⟩
  · intro hb
    refine ⟨fun w => ?_, fun c => ?_⟩
    · obtain ⟨q, hq⟩ := ((h (ws w).2.1).all w).1 rfl
      have := (hb (ws w).2.1).1 q
      rwa [hq] at this
    · exact (hb c.1).2 c.2

end Verif.Batch
