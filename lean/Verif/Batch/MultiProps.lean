import Verif.Batch.MultiSpec
import Verif.Batch.Props
import Verif.Sources.Props

/-! # C139 for several sources -/

namespace Verif.Batch
open Verif.Py Verif.Sources
open Verif.Loss (Cell)
variable {B P W : ℕ} {n : Fin B → ℕ} {e : ∀ b, Fin (n b) → Fin P}

theorem indexer_colsOnly {κ : Type} [DecidableEq κ] (b : Fin B) (cols : List (Fin B → ℝ)) (names : List κ) :
    (∃ x y, indexer cols names = .ok x ∧ indexer (colsOnly b cols) names = .ok y) ∨
      indexer cols names = .error .valueError ∧ indexer (colsOnly b cols) names = .error .valueError := by
  have : (colsOnly b cols).length = cols.length := by simp [colsOnly]
  unfold indexer
  rw [this]
  split_ifs
  · exact .inr ⟨rfl, rfl⟩
  · exact .inl ⟨_, _, rfl, rfl⟩

theorem item_cases {κ α : Type} [DecidableEq κ] (d : Dict κ α) (k : κ) :
    (∃ v, Dict.get? d k = some v ∧ item d k = .ok v) ∨ (Dict.get? d k = none ∧ item d k = .error .keyError) := by
  unfold item
  cases Dict.get? d k with
  | none => exact .inr ⟨rfl, rfl⟩
  | some v => exact .inl ⟨v, rfl, rfl⟩

/-- The parameters of the sources, restricted to one event. -/
def splitOnly (b : Fin B) (s : Dict String (List (Fin B → ℝ))) : Dict String (List (Fin 1 → ℝ)) :=
  s.map fun kv => (kv.1, colsOnly b kv.2)

theorem get?_splitOnly (b : Fin B) (s : Dict String (List (Fin B → ℝ))) (k : String) :
    Dict.get? (splitOnly b s) k = (Dict.get? s k).map (colsOnly b) := by
  induction s with
  | nil => rfl
  | cons kv s ih =>
    rw [splitOnly, List.map_cons, Dict.get?_cons, Dict.get?_cons]
    by_cases h : kv.1 = k
    · simp [h]
    · rw [if_neg h, if_neg h]
      exact ih

theorem get?_alone {bases : Dict String (Base (Fin B → ℝ) ℝ (Cell B) (Fin P))}
    {alone : ∀ b, Dict String (Base (Fin 1 → ℝ) ℝ (Cell 1) (Fin (n b)))} (h : SameBases e bases alone)
    (k : String) :
    (∃ (s : Base (Fin B → ℝ) ℝ (Cell B) (Fin P)) (ss : ∀ b, Base (Fin 1 → ℝ) ℝ (Cell 1) (Fin (n b))),
      item bases k = .ok s ∧ (∀ b, item (alone b) k = .ok (ss b)) ∧
      (∀ b, (ss b).names = s.names) ∧ EventWise e s.eval fun b => (ss b).eval) ∨
    (item bases k = .error .keyError ∧ ∀ b, item (alone b) k = .error .keyError) := by
  have hn : ∀ b, (Dict.get? (alone b) k).map (·.names) = (Dict.get? bases k).map (·.names) := by
    intro b
    rw [← get?_baseNames, ← get?_baseNames, h.names b]
  rcases item_cases bases k with ⟨s, h1, h2⟩ | ⟨h1, h2⟩
  · have hs : ∀ b, ∃ s', Dict.get? (alone b) k = some s' ∧ s'.names = s.names := by
      intro b
      have := hn b
      rw [h1, Option.map_some, Option.map_eq_some_iff] at this
      exact this
    choose ss hss hnames using hs
    exact .inl ⟨s, ss, h2, fun b => item_eq_ok.2 (hss b), hnames, h.eval k s h1 ss hss⟩
  · refine .inr ⟨h2, fun b => ?_⟩
    have := hn b
    rw [h1, Option.map_none, Option.map_eq_none_iff] at this
    unfold item
    rw [this]

/-- The accumulated predictions correspond. -/
def SameAcc (e : ∀ b, Fin (n b) → Fin P) (acc : Option (Result ℝ (Cell B) (Fin P)))
    (accs : ∀ b, Option (Result ℝ (Cell 1) (Fin (n b)))) : Prop :=
  (acc = none ∧ ∀ b, accs b = none) ∨ ∃ (a : Result ℝ (Cell B) (Fin P))
    (as : ∀ b, Result ℝ (Cell 1) (Fin (n b))), acc = some a ∧ (∀ b, accs b = some (as b)) ∧
      ∀ b, SameResult a b (e b) (as b)

/-- The DOM of a pulse of an event on its own. -/
def domOnly (D : Data Unit B P W) (e : ∀ b, Fin (n b) → Fin P) (b : Fin B) (q : Fin (n b)) : Cell 1 :=
  (0, (D.ids (e b q)).2)

theorem pulse_event {D : Data Unit B P W} (he : ∀ b, ItemsOf (fun p => (D.ids p).1) b (e b)) (b : Fin B)
    (q : Fin (n b)) : D.ids (e b q) = (b, (D.ids (e b q)).2) :=
  Prod.ext (((he b).all _).2 ⟨q, rfl⟩) rfl

theorem accumulate_same {D : Data Unit B P W} (he : ∀ b, ItemsOf (fun p => (D.ids p).1) b (e b))
    {acc accs} (h : SameAcc e acc accs) {o : Out ℝ (Cell B) (Fin P)} {os : ∀ b, Out ℝ (Cell 1) (Fin (n b))}
    (ho : ∀ b, SameOut o b (e b) (os b)) :
    SameAcc e (accumulate D.ids acc o) fun b => accumulate (domOnly D e b) (accs b) (os b) := by
  have hp : ∀ b q, (os b).charge (domOnly D e b q) = o.charge (D.ids (e b q)) := by
    intro b q
    rw [pulse_event he b q]
    exact (ho b).charge _
  rcases h with ⟨rfl, h2⟩ | ⟨a, as, rfl, h2, h3⟩
  · obtain rfl : accs = fun b => none := funext h2
    exact .inr ⟨_, _, rfl, fun b => rfl, fun b => ⟨fun c => (ho b).charge c, fun c => (ho b).variance c,
        fun c => by simp only [(ho b).charge c, (ho b).exclusion c],
        fun q => by simp only [(ho b).pdf q, hp b q]⟩⟩
  · obtain rfl : accs = fun b => some (as b) := funext h2
    exact .inr ⟨_, _, rfl, fun b => rfl, fun b => ⟨fun c => by simp only [(ho b).charge c, (h3 b).charge c],
        fun c => by simp only [(ho b).variance c, (h3 b).variance c],
        fun c => by simp only [(ho b).charge c, (ho b).exclusion c, (h3 b).exclusion c],
        fun q => by simp only [(ho b).pdf q, hp b q, (h3 b).pdf q]⟩⟩

theorem sourceLoop_same {D : Data Unit B P W} (hB : 0 < B)
    (he : ∀ b, ItemsOf (fun p => (D.ids p).1) b (e b))
    {bases : Dict String (Base (Fin B → ℝ) ℝ (Cell B) (Fin P))}
    {alone : ∀ b, Dict String (Base (Fin 1 → ℝ) ℝ (Cell 1) (Fin (n b)))} (h : SameBases e bases alone)
    (split : Dict String (List (Fin B → ℝ))) (ex : Bool)
    {f : List (Fin B → ℝ) → Except Err (Out ℝ (Cell B) (Fin P))}
    {fs : ∀ b, List (Fin 1 → ℝ) → Except Err (Out ℝ (Cell 1) (Fin (n b)))} (hf : EventWise e f fs)
    (sources : Dict String String) : ∀ acc accs, SameAcc e acc accs →
    (∃ r rs, sourceLoop bases split f ex D.ids acc sources = .ok r ∧
      (∀ b, sourceLoop (alone b) (splitOnly b split) (fs b) ex (domOnly D e b) (accs b) sources =
        .ok (rs b)) ∧ SameAcc e r rs) ∨
    (∃ err, sourceLoop bases split f ex D.ids acc sources = .error err) ∧
      ∃ b err, sourceLoop (alone b) (splitOnly b split) (fs b) ex (domOnly D e b) (accs b) sources =
        .error err := by
  induction sources with
  | nil => exact fun acc accs ha => .inl ⟨acc, accs, rfl, fun b => rfl, ha⟩
  | cons s rest ih =>
    obtain ⟨name, base⟩ := s
    intro acc accs ha
    simp only [sourceLoop]
    rcases get?_alone h base with ⟨s, ss, h1, h2, h3, -⟩ | ⟨h1, h2⟩
    · simp only [h1, h2]
      rcases item_cases split name with ⟨params, p1, p2⟩ | ⟨p1, p2⟩
      · have p3 : ∀ b, item (splitOnly b split) name = .ok (colsOnly b params) := by
          intro b
          refine item_eq_ok.2 ?_
          rw [get?_splitOnly, p1]
          rfl
        simp only [p2, p3, h3]
        have hix := fun b => indexer_colsOnly b params s.names
        rcases hix ⟨0, hB⟩ with ⟨x, -, i1, -⟩ | ⟨i1, i2⟩
        · have i3 : ∀ b, ∃ y, indexer (colsOnly b params) s.names = .ok y := by
            intro b
            rcases hix b with ⟨x', y, -, i4⟩ | ⟨i4, -⟩
            · exact ⟨y, i4⟩
            · rw [i1] at i4
              cases i4
          choose y i3 using i3
          simp only [i1, i3]
          rcases hf params with ⟨o, os, f1, f2, f3⟩ | ⟨⟨err, f1⟩, b, err', f2⟩
          · simp only [f1, f2]
            have hsh : ∀ b, shapesOk ex (os b) = shapesOk ex o := by
              intro b
              unfold shapesOk
              rw [(f3 b).chargeShape, (f3 b).varianceShape, (f3 b).exclusionShape]
            simp only [hsh]
            by_cases hs : shapesOk ex o = true
            · simp only [if_pos hs]
              exact ih _ _ (accumulate_same he ha f3)
            · simp only [if_neg hs]
              exact .inr ⟨⟨_, rfl⟩, ⟨0, hB⟩, _, rfl⟩
          · simp only [f1]
            exact .inr ⟨⟨_, rfl⟩, b, err', by rw [f2]⟩
        · simp only [i1]
          exact .inr ⟨⟨_, rfl⟩, ⟨0, hB⟩, _, by rw [i2]⟩
      · have p3 : ∀ b, item (splitOnly b split) name = .error .keyError := by
          intro b
          unfold item
          rw [get?_splitOnly, p1]
          rfl
        simp only [p2, p3]
        exact .inr ⟨⟨_, rfl⟩, ⟨0, hB⟩, _, rfl⟩
    · simp only [h1, h2]
      exact .inr ⟨⟨_, rfl⟩, ⟨0, hB⟩, _, rfl⟩

theorem lastBase_same (hB : 0 < B) {bases : Dict String (Base (Fin B → ℝ) ℝ (Cell B) (Fin P))}
    {alone : ∀ b, Dict String (Base (Fin 1 → ℝ) ℝ (Cell 1) (Fin (n b)))} (h : SameBases e bases alone)
    (order : List String) : ∀ (cur : Option (Base (Fin B → ℝ) ℝ (Cell B) (Fin P)))
      (curs : ∀ b, Option (Base (Fin 1 → ℝ) ℝ (Cell 1) (Fin (n b)))), (EventWise e (closure cur) fun b => closure (curs b)) →
    (∃ (l : Option (Base (Fin B → ℝ) ℝ (Cell B) (Fin P)))
      (ls : ∀ b, Option (Base (Fin 1 → ℝ) ℝ (Cell 1) (Fin (n b)))), lastBase bases cur order = .ok l ∧ (∀ b, lastBase (alone b) (curs b) order = .ok (ls b)) ∧
      EventWise e (closure l) fun b => closure (ls b)) ∨
    (∃ err, lastBase bases cur order = .error err) ∧
      ∃ b err, lastBase (alone b) (curs b) order = .error err := by
  induction order with
  | nil => exact fun cur curs hc => .inl ⟨cur, curs, rfl, fun b => rfl, hc⟩
  | cons k rest ih =>
    intro cur curs _
    simp only [lastBase]
    rcases get?_alone h k with ⟨s, ss, h1, h2, -, h4⟩ | ⟨h1, h2⟩
    · simp only [h1, h2]
      exact ih (some s) (fun b => some (ss b)) h4
    · simp only [h1, h2]
      exact .inr ⟨⟨_, rfl⟩, ⟨0, hB⟩, _, rfl⟩

/-- C139 (several sources): if the base sources are evaluated event by event, so is their superposition, for
every way to split the parameters that works on columns. -/
theorem C139_multi {D : Data Unit B P W} (hB : 0 < B) (he : ∀ b, ItemsOf (fun p => (D.ids p).1) b (e b))
    {bases : Dict String (Base (Fin B → ℝ) ℝ (Cell B) (Fin P))}
    {alone : ∀ b, Dict String (Base (Fin 1 → ℝ) ℝ (Cell 1) (Fin (n b)))} (h : SameBases e bases alone)
    (sources : Dict String String) (names : List String)
    (split : List (Fin B → ℝ) → Except Err (Dict String (List (Fin B → ℝ))))
    (split1 : List (Fin 1 → ℝ) → Except Err (Dict String (List (Fin 1 → ℝ))))
    (hsplit : ∀ b cols, split1 (colsOnly b cols) = (split cols).map fun s => s.map fun kv =>
      (kv.1, colsOnly b kv.2)) (order : List String) (ex : Bool) (cols : List (Fin B → ℝ)) :
    (∃ (r : Result ℝ (Cell B) (Fin P)) (rs : ∀ b, Result ℝ (Cell 1) (Fin (n b))),
      Sources.getTensors bases sources names split order ex D.ids cols = .ok r ∧
      (∀ b, Sources.getTensors (alone b) sources names split1 order ex
        (fun q => (0, (D.ids (e b q)).2)) (colsOnly b cols) = .ok (rs b)) ∧
      ∀ b, SameResult r b (e b) (rs b)) ∨
    (∃ err, Sources.getTensors bases sources names split order ex D.ids cols = .error err) ∧
      ∃ b err, Sources.getTensors (alone b) sources names split1 order ex
        (fun q => (0, (D.ids (e b q)).2)) (colsOnly b cols) = .error err := by
  unfold Sources.getTensors
  have hix := fun b => indexer_colsOnly b cols names
  rcases hix ⟨0, hB⟩ with ⟨x, -, i1, -⟩ | ⟨i1, i2⟩
  · have i3 : ∀ b, ∃ y, indexer (colsOnly b cols) names = .ok y := by
      intro b
      rcases hix b with ⟨x', y, -, i4⟩ | ⟨i4, -⟩
      · exact ⟨y, i4⟩
      · rw [i1] at i4
        cases i4
    choose y i3 using i3
    simp only [i1, i3, hsplit]
    cases hs : split cols with
    | error err =>
      simp only [Except.map]
      exact .inr ⟨⟨_, rfl⟩, ⟨0, hB⟩, _, rfl⟩
    | ok s =>
      simp only [Except.map]
      have h0 : EventWise e (closure (none : Option (Base (Fin B → ℝ) ℝ (Cell B) (Fin P))))
          fun b => closure (none : Option (Base (Fin 1 → ℝ) ℝ (Cell 1) (Fin (n b)))) :=
        fun cols => .inr ⟨⟨_, rfl⟩, ⟨0, hB⟩, _, rfl⟩
      rcases lastBase_same hB h order none (fun b => none) h0 with
        ⟨l, ls, l1, l2, l3⟩ | ⟨⟨err, l1⟩, b, err', l2⟩
      · simp only [l1, l2]
        rcases sourceLoop_same hB he h s ex l3 sources none (fun b => none) (.inl ⟨rfl, fun b => rfl⟩) with
          ⟨r, rs, s1, s2, s3⟩ | ⟨⟨err, s1⟩, b, err', s2⟩
        · have s2' : ∀ b, sourceLoop (alone b) (s.map fun kv => (kv.1, colsOnly b kv.2)) (closure (ls b)) ex
              (fun q => (0, (D.ids (e b q)).2)) none sources = .ok (rs b) := s2
          simp only [s1, s2']
          rcases s3 with ⟨a1, a2⟩ | ⟨a, as, a1, a2, a3⟩
          · simp only [a1, a2]
            exact .inr ⟨⟨_, rfl⟩, ⟨0, hB⟩, _, rfl⟩
          · simp only [a1, a2]
            refine .inl ⟨_, _, rfl, fun b => rfl, fun b => ⟨(a3 b).charge, (a3 b).variance, fun c => ?_,
              fun q => ?_⟩⟩
            · simp only [normalise, (a3 b).exclusion, (a3 b).charge]
            · simp only [normalise, (a3 b).pdf, (a3 b).charge]
              rw [← pulse_event he b q]
        · have s2' : sourceLoop (alone b) (s.map fun kv => (kv.1, colsOnly b kv.2)) (closure (ls b)) ex
              (fun q => (0, (D.ids (e b q)).2)) none sources = .error err' := s2
          simp only [s1]
          exact .inr ⟨⟨_, rfl⟩, b, err', by rw [s2']⟩
      · simp only [l1]
        exact .inr ⟨⟨_, rfl⟩, b, err', by rw [l2]⟩
  · simp only [i1]
    exact .inr ⟨⟨_, rfl⟩, ⟨0, hB⟩, _, by rw [i2]⟩

theorem set_splitOnly (b : Fin B) (d : Dict String (List (Fin B → ℝ))) (k : String) (v : List (Fin B → ℝ)) :
    Dict.set (splitOnly b d) k (colsOnly b v) = splitOnly b (Dict.set d k v) := by
  induction d with
  | nil => rfl
  | cons kv d ih =>
    obtain ⟨k', v'⟩ := kv
    simp only [splitOnly, List.map_cons, Dict.set] at ih ⊢
    by_cases h : k' = k
    · simp [h]
    · simp only [if_neg h, List.map_cons, ih]

theorem slices_colsOnly (b : Fin B) (sources : Dict String String) (bn : Dict String (List String))
    (cols : List (Fin B → ℝ)) :
    independentSlices sources bn (colsOnly b cols) = (independentSlices sources bn cols).map (splitOnly b) := by
  have key : ∀ (l : List String) (i : ℕ) (d : Dict String (List (Fin B → ℝ))),
      sliceLoop sources bn (colsOnly b cols) i (splitOnly b d) l =
        (sliceLoop sources bn cols i d l).map (splitOnly b) := by
    intro l
    induction l with
    | nil => intro i d; rfl
    | cons c rest ih =>
      intro i d
      simp only [sliceLoop]
      cases item sources c with
      | error err => rfl
      | ok base =>
        simp only
        cases item bn base with
        | error err => rfl
        | ok vs =>
          simp only
          rw [← ih, ← set_splitOnly]
          simp [colsOnly, List.map_take, List.map_drop]
  exact key _ 0 []

/-- C139 (several sources): a multi source of independent sources gives for an event in a batch what it gives
for the event on its own, and fails for a batch if and only if it fails for one of its events. -/
theorem C139_independent {D : Data Unit B P W} (hB : 0 < B)
    (he : ∀ b, ItemsOf (fun p => (D.ids p).1) b (e b))
    {bases : Dict String (Base (Fin B → ℝ) ℝ (Cell B) (Fin P))}
    {alone : ∀ b, Dict String (Base (Fin 1 → ℝ) ℝ (Cell 1) (Fin (n b)))} (h : SameBases e bases alone)
    (sources : Dict String String) (order : List String) (ex : Bool) (cols : List (Fin B → ℝ)) :
    (∃ (r : Result ℝ (Cell B) (Fin P)) (rs : ∀ b, Result ℝ (Cell 1) (Fin (n b))),
      independentGetTensors bases sources order ex D.ids cols = .ok r ∧
      (∀ b, independentGetTensors (alone b) sources order ex
        (fun q => (0, (D.ids (e b q)).2)) (colsOnly b cols) = .ok (rs b)) ∧
      ∀ b, SameResult r b (e b) (rs b)) ∨
    (∃ err, independentGetTensors bases sources order ex D.ids cols = .error err) ∧
      ∃ b err, independentGetTensors (alone b) sources order ex
        (fun q => (0, (D.ids (e b q)).2)) (colsOnly b cols) = .error err := by
  unfold independentGetTensors
  simp only [h.names]
  cases independentParameters sources (baseNames bases) with
  | error err => exact .inr ⟨⟨_, rfl⟩, ⟨0, hB⟩, _, rfl⟩
  | ok names =>
    exact C139_multi hB he h sources names _ _ (fun b cols => slices_colsOnly b sources _ cols) order ex cols

/-- C139 (several sources): cascade models are evaluated event by event, also as parts of a multi source. -/
theorem C139_cascade_base {m : Fin B → ℕ} {v : ∀ b, Fin (m b) → Fin W} (M : Source (List ℝ)) (names : List String)
    (D : Data Unit B P W) (hB : 0 < B) (h : ∀ b, Belongs D b (e b) (v b)) :
    EventWise e (M.base names D).eval fun b => (M.base names (D.only b (e b) (v b))).eval := by
  intro cols
  let D' : Data (List ℝ) B P W :=
    ⟨fun b => cols.map fun col => col b, D.domCharge, D.pulseTime, D.ids, D.windows⟩
  have hD : ∀ b, (⟨fun i => (colsOnly b cols).map fun col => col i, (D.only b (e b) (v b)).domCharge,
      (D.only b (e b) (v b)).pulseTime, (D.only b (e b) (v b)).ids, (D.only b (e b) (v b)).windows⟩ :
        Data (List ℝ) 1 (n b) (m b)) = D'.only b (e b) (v b) := by
    intro b
    simp [D', Data.only, colsOnly, Function.comp_def]
  have h' : ∀ b, Belongs D' b (e b) (v b) := h
  simp only [Source.base, hD]
  rcases C139_event M D' hB e v h' with ⟨T, Ts, h1, h2, h3⟩ | ⟨err, h1, b, h2⟩
  · have h1' : getTensors M ⟨fun b => cols.map fun col => col b, D.domCharge, D.pulseTime, D.ids, D.windows⟩ =
        .ok T := h1
    simp only [h1', h2]
    refine .inl ⟨_, _, rfl, fun b => rfl, fun b => ⟨(h3 b).charge, fun c => ?_, fun c => ?_, (h3 b).pulsePdf,
      rfl, rfl, rfl⟩⟩
    · simp only [(h3 b).stats]
    · simp only [(h3 b).exclusionSum, Option.map_map, Function.comp_def]
  · have h1' : getTensors M ⟨fun b => cols.map fun col => col b, D.domCharge, D.pulseTime, D.ids, D.windows⟩ =
        .error err := h1
    simp only [h1']
    exact .inr ⟨⟨_, rfl⟩, b, err, by rw [h2]⟩

/-- C139 (several sources): so is the noise model. -/
theorem C139_noise_base {m : Fin B → ℕ} {v : ∀ b, Fin (m b) → Fin W} (N : NoiseSource)
    (window : Fin B → ℝ × ℝ) (D : Data Unit B P W) (h : ∀ b, Belongs D b (e b) (v b)) :
    EventWise e (N.base window D).eval fun b =>
      (N.base (fun _ => window b) (D.only b (e b) (v b))).eval := by
  intro cols
  let D' : Data (ℝ × ℝ) B P W := ⟨window, D.domCharge, D.pulseTime, D.ids, D.windows⟩
  have hD : ∀ b, (⟨fun _ => window b, (D.only b (e b) (v b)).domCharge,
      (D.only b (e b) (v b)).pulseTime, (D.only b (e b) (v b)).ids, (D.only b (e b) (v b)).windows⟩ :
        Data (ℝ × ℝ) 1 (n b) (m b)) = D'.only b (e b) (v b) := by
    intro b
    simp [D', Data.only]
  have h' : ∀ b, Belongs D' b (e b) (v b) := h
  simp only [NoiseSource.base, hD]
  rcases C139_noise N D' e v h' with ⟨T, Ts, h1, h2, h3⟩ | ⟨err, h1, b, h2⟩
  · have h1' : noiseGetBatch N ⟨window, D.domCharge, D.pulseTime, D.ids, D.windows⟩ = .ok T := h1
    simp only [h1', h2]
    refine .inl ⟨_, _, rfl, fun b => rfl, fun b => ⟨(h3 b).charge, (h3 b).variance, fun c => ?_,
      (h3 b).pulsePdf, rfl, rfl, rfl⟩⟩
    simp only [(h3 b).exclusion, Option.map_map, Function.comp_def]
  · have h1' : noiseGetBatch N ⟨window, D.domCharge, D.pulseTime, D.ids, D.windows⟩ = .error err := h1
    simp only [h1']
    exact .inr ⟨⟨_, rfl⟩, b, err, by rw [h2]⟩

/-- C139 (loss of several sources): if a batch can be evaluated, its loss is the sum of the losses of its
events, or all are refused alike. -/
theorem C139_multi_loss {D : Data Unit B P W} (he : ∀ b, ItemsOf (fun p => (D.ids p).1) b (e b))
    (cfg : Loss.Config) (E : Extra B P) (ex : Bool) {r : Result ℝ (Cell B) (Fin P)}
    {rs : ∀ b, Result ℝ (Cell 1) (Fin (n b))} (h : ∀ b, SameResult r b (e b) (rs b))
    {m : Fin B → ℕ} (v : ∀ b, Fin (m b) → Fin W) :
    Loss.Adds (Loss.scalarLoss cfg (lossBatch D E) (multiResults ex r) false) fun b =>
      Loss.scalarLoss cfg (lossBatch (D.only b (e b) (v b)) (E.only b (e b))) (multiResults ex (rs b)) false := by
  have hb : ∀ b, lossBatch (D.only b (e b) (v b)) (E.only b (e b)) = (lossBatch D E).only b (e b) := by
    intro b
    simp [lossBatch, Data.only, Extra.only, Loss.Batch.only]
  have hr : ∀ b, multiResults ex (rs b) = (multiResults ex r).only b (e b) := by
    intro b
    have hc : (rs b).charge = fun c => r.charge (b, c.2) := by
      funext ⟨c0, c⟩
      have : c0 = 0 := Subsingleton.elim _ _
      subst this
      exact (h b).charge c
    have hv : (rs b).variance = fun c => r.variance (b, c.2) := by
      funext ⟨c0, c⟩
      have : c0 = 0 := Subsingleton.elim _ _
      subst this
      exact (h b).variance c
    have hp : (rs b).pdf = fun q => r.pdf (e b q) := funext (h b).pdf
    unfold multiResults Loss.Results.only
    rw [hc, hv, hp]
    simp
  simp only [hb, hr]
  exact Loss.C138_default cfg (lossBatch D E) (multiResults ex r) e fun b => ⟨(he b).once, (he b).all⟩

/-- Two cascades and noise, as a multi source for a batch and for its events. -/
example {m : Fin B → ℕ} {v : ∀ b, Fin (m b) → Fin W} (M : Source (List ℝ)) (names : List String)
    (N : NoiseSource) (window : Fin B → ℝ × ℝ) (D : Data Unit B P W) (hB : 0 < B)
    (h : ∀ b, Belongs D b (e b) (v b)) :
    SameBases e [("cascade", M.base names D), ("noise", N.base window D)] fun b =>
      [("cascade", M.base names (D.only b (e b) (v b))),
        ("noise", N.base (fun _ => window b) (D.only b (e b) (v b)))] := by
  refine ⟨fun b => rfl, fun k s hs ss hss => ?_⟩
  simp only [Dict.get?_cons] at hs hss
  by_cases h1 : "cascade" = k
  · simp only [if_pos h1, Option.some.injEq] at hs hss
    obtain rfl : ss = fun b => M.base names (D.only b (e b) (v b)) := funext fun b => (hss b).symm
    subst hs
    exact C139_cascade_base M names D hB h
  · by_cases h2 : "noise" = k
    · simp only [if_neg h1, if_pos h2, Option.some.injEq] at hs hss
      obtain rfl : ss = fun b => N.base (fun _ => window b) (D.only b (e b) (v b)) :=
        funext fun b => (hss b).symm
      subst hs
      exact C139_noise_base N window D h
    · simp [if_neg h1, if_neg h2, Dict.get?] at hs

end Verif.Batch
