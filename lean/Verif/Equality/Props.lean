/-
C123: comparison of tensor descriptions. C124: modules that are set up for given tensors.
-/
import Verif.Equality.Lemmas

namespace Verif.Equality
open Verif.Py Verif.Tensor

/-! ## C123 -/

/-- C123. A tensor is equal to another object exactly if that is a tensor all of whose settings mean the
same; `!=` is the opposite. -/
theorem C123_tensor {t : DataTensor} (ht : RealTensor t) :
    (∀ u, RealTensor u → (tensorEq t (.tensor u) = true ↔ SameTensor t u) ∧
      (tensorNe t (.tensor u) = true ↔ ¬ SameTensor t u)) ∧
    (∀ l, tensorEq t (.tensors l) = false ∧ tensorNe t (.tensors l) = true) ∧
    tensorEq t .other = false ∧ tensorNe t .other = true := by
  refine ⟨fun u hu => ⟨tensorEq_iff ht hu, ?_⟩, fun l => ⟨rfl, rfl⟩, rfl, rfl⟩
  rw [← tensorEq_iff ht hu]
  simp [tensorNe]

theorem pairsEq_cons (t u : DataTensor) (l m : List DataTensor) :
    pairsEq (t :: l) (u :: m) = (tensorEq t (.tensor u) && pairsEq l m) := by
  rw [pairsEq]
  unfold tensorNe
  generalize tensorEq t (.tensor u) = b
  cases b <;> rfl

theorem pairsEq_iff (l : List DataTensor) : ∀ m : List DataTensor, (∀ t, t ∈ l → RealTensor t) →
    (∀ t, t ∈ m → RealTensor t) → l.length = m.length →
    (pairsEq l m = true ↔ ∀ (i : Nat) (t u : DataTensor), l[i]? = some t → m[i]? = some u → SameTensor t u) := by
  induction l with
  | nil => intro m _ _ hl; cases m <;> simp_all [pairsEq]
  | cons t l ih =>
    intro m h1 h2 hl
    cases m with
    | nil => simp at hl
    | cons u m =>
      have hih := ih m (fun t ht => h1 t (by simp [ht])) (fun t ht => h2 t (by simp [ht])) (by simpa using hl)
      have he := tensorEq_iff (h1 t (by simp)) (h2 u (by simp))
      rw [pairsEq_cons, Bool.and_eq_true, he, hih]
      constructor
      · rintro ⟨a1, a2⟩ i x y hx hy
        cases i with
        | zero => simp at hx hy; subst hx hy; exact a1
        | succ i => simp at hx hy; exact a2 i x y hx hy
      · intro h
        exact ⟨h 0 t u rfl rfl, fun i x y hx hy => h (i + 1) x y (by simpa using hx) (by simpa using hy)⟩

theorem tensorsEq_of_pairsEq (l : List DataTensor) : ∀ m : List DataTensor, l.length = m.length →
    pairsEq l m = true → tensorsEq l m = true := by
  induction l with
  | nil => intro m hl _; cases m <;> simp_all [tensorsEq]
  | cons t l ih =>
    intro m hl h
    cases m with
    | nil => simp at hl
    | cons u m =>
      rw [pairsEq_cons, Bool.and_eq_true] at h
      rw [tensorsEq, Bool.and_eq_true]
      exact ⟨h.1, ih m (by simpa using hl) h.2⟩

theorem indexLoop_names (l m : List DataTensor) (h : l.map DataTensor.name = m.map DataTensor.name) :
    ∀ nd idict i, indexLoop nd idict i l = indexLoop nd idict i m := by
  induction l generalizing m with
  | nil => intro nd idict i; cases m <;> simp_all
  | cons t l ih =>
    intro nd idict i
    cases m with
    | nil => simp at h
    | cons u m =>
      simp only [List.map_cons, List.cons.injEq] at h
      simp only [indexLoop, h.1]
      exact ih m h.2 _ _ _

theorem ok_indexLoop (l : List DataTensor) : ∀ nd idict i, Dict.Ok nd → Dict.Ok idict →
    Dict.Ok (indexLoop nd idict i l).1 ∧ Dict.Ok (indexLoop nd idict i l).2 := by
  induction l with
  | nil => intro nd idict i h1 h2; exact ⟨h1, h2⟩
  | cons t l ih => intro nd idict i h1 h2; exact ih _ _ _ (Dict.ok_set h1 _ _) (Dict.ok_set h2 _ _)

theorem plainDictEq_self {κ α : Type} [DecidableEq κ] [DecidableEq α] {d : Dict κ α} (h : Dict.Ok d) :
    plainDictEq d d = true := by
  unfold plainDictEq
  simp only [beq_self_eq_true, Bool.true_and, List.all_eq_true]
  rintro ⟨k, v⟩ hkv
  simp [Dict.get?_of_mem h hkv]

theorem listEq_map (f : DataTensor → PyVal) (l m : List DataTensor) (hl : l.length = m.length)
    (h1 : ∀ t, t ∈ l → Real (f t)) (h2 : ∀ t, t ∈ m → Real (f t))
    (h : ∀ (i : Nat) (t u : DataTensor), l[i]? = some t → m[i]? = some u → Same (f t) (f u)) :
    listEq (l.map f) (m.map f) = true := by
  rw [listEq_iff (R := Same)]
  · refine ⟨by simpa using hl, ?_⟩
    intro i v w hv hw
    simp only [List.getElem?_map, Option.map_eq_some_iff] at hv hw
    obtain ⟨t, ht, rfl⟩ := hv
    obtain ⟨u, hu, rfl⟩ := hw
    exact h i t u ht hu
  · intro v hv w hw
    obtain ⟨t, ht, rfl⟩ := List.mem_map.1 hv
    obtain ⟨u, hu, rfl⟩ := List.mem_map.1 hw
    exact valEq_iff (h1 t ht) _ (h2 u hu)

theorem names_eq {ts us : List DataTensor} (h1 : (ts.map DataTensor.name).Nodup)
    (h2 : (us.map DataTensor.name).Nodup)
    (h : ∀ n, n ∈ ts.map DataTensor.name ↔ n ∈ us.map DataTensor.name) :
    (sortBy leName ts).map DataTensor.name = (sortBy leName us).map DataTensor.name := by
  have hp : ((sortBy leName ts).map DataTensor.name).Perm ((sortBy leName us).map DataTensor.name) :=
    (((perm_sortBy leName ts).map _).trans ((List.perm_ext_iff_of_nodup h1 h2).2 h)).trans
      ((perm_sortBy leName us).map _).symm
  have hs : ∀ l : List DataTensor, ((sortBy leName l).map DataTensor.name).Pairwise (· ≤ ·) := by
    intro l
    rw [List.pairwise_map]
    exact (pairwise_sortBy leName leName_trans leName_total l).imp (fun h => by simpa [leName] using h)
  exact List.Perm.eq_of_pairwise (le := fun a b : String => a ≤ b)
    (fun a b _ _ h1 h2 => String.le_antisymm h1 h2) (hs ts) (hs us) hp

/-- C123. Two lists of tensors are equal exactly if they were made from descriptions that mean the same, in
whatever order these were given; `!=` is the opposite; no list is equal to an object of another class. -/
theorem C123_list {ts us : List DataTensor} {l m : TensorList} (hl : TensorList.ofTensors ts = .ok l)
    (hm : TensorList.ofTensors us = .ok m) (h1 : ∀ t, t ∈ ts → RealTensor t)
    (h2 : ∀ t, t ∈ us → RealTensor t) :
    (tensorListEq l (.tensors m) = true ↔ SameTensors ts us) ∧
    (tensorListNe l (.tensors m) = true ↔ ¬ SameTensors ts us) ∧
    (∀ t, tensorListEq l (.tensor t) = false ∧ tensorListNe l (.tensor t) = true) ∧
    tensorListEq l .other = false ∧ tensorListNe l .other = true := by
  suffices hmain : tensorListEq l (.tensors m) = true ↔ SameTensors ts us by
    refine ⟨hmain, ?_, fun t => ⟨rfl, rfl⟩, rfl, rfl⟩
    rw [← hmain]; simp [tensorListNe]
  unfold TensorList.ofTensors at hl hm
  split at hl
  swap
  · cases hl
  rename_i hn1
  split at hm
  swap
  · cases hm
  rename_i hn2
  cases hl; cases hm
  have p1 := perm_sortBy leName ts
  have p2 := perm_sortBy leName us
  have r1 : ∀ t, t ∈ sortBy leName ts → RealTensor t := fun t ht => h1 t (p1.mem_iff.1 ht)
  have r2 : ∀ t, t ∈ sortBy leName us → RealTensor t := fun t ht => h2 t (p2.mem_iff.1 ht)
  have hstep : tensorListEq
      { len := (sortBy leName ts).length, list := sortBy leName ts
        names := (sortBy leName ts).map DataTensor.name, shapes := (sortBy leName ts).map DataTensor.shape
        types := (sortBy leName ts).map DataTensor.type, existing := (sortBy leName ts).map DataTensor.exists'
        nameDict := (indexLoop [] [] 0 (sortBy leName ts)).1
        indexDict := (indexLoop [] [] 0 (sortBy leName ts)).2 }
      (.tensors { len := (sortBy leName us).length, list := sortBy leName us
                  names := (sortBy leName us).map DataTensor.name
                  shapes := (sortBy leName us).map DataTensor.shape
                  types := (sortBy leName us).map DataTensor.type
                  existing := (sortBy leName us).map DataTensor.exists'
                  nameDict := (indexLoop [] [] 0 (sortBy leName us)).1
                  indexDict := (indexLoop [] [] 0 (sortBy leName us)).2 }) = true ↔
      (sortBy leName ts).length = (sortBy leName us).length ∧
      pairsEq (sortBy leName ts) (sortBy leName us) = true ∧
      attrsEq
        { len := (sortBy leName ts).length, list := sortBy leName ts
          names := (sortBy leName ts).map DataTensor.name, shapes := (sortBy leName ts).map DataTensor.shape
          types := (sortBy leName ts).map DataTensor.type
          existing := (sortBy leName ts).map DataTensor.exists'
          nameDict := (indexLoop [] [] 0 (sortBy leName ts)).1
          indexDict := (indexLoop [] [] 0 (sortBy leName ts)).2 }
        { len := (sortBy leName us).length, list := sortBy leName us
          names := (sortBy leName us).map DataTensor.name
          shapes := (sortBy leName us).map DataTensor.shape
          types := (sortBy leName us).map DataTensor.type
          existing := (sortBy leName us).map DataTensor.exists'
          nameDict := (indexLoop [] [] 0 (sortBy leName us)).1
          indexDict := (indexLoop [] [] 0 (sortBy leName us)).2 } = true := by
    unfold tensorListEq
    simp only
    by_cases hlen : (sortBy leName ts).length = (sortBy leName us).length
    · rw [if_neg (by simpa using hlen)]
      cases pairsEq (sortBy leName ts) (sortBy leName us) <;> simp [hlen]
    · rw [if_pos hlen]; simp [hlen]
  refine hstep.trans ?_
  constructor
  · rintro ⟨hlen, hpairs, -⟩
    have hp := (pairsEq_iff _ _ r1 r2 hlen).1 hpairs
    constructor
    · intro t ht
      obtain ⟨i, hi⟩ := List.mem_iff_getElem?.1 (p1.mem_iff.2 ht)
      obtain ⟨u, hu⟩ := exists_getElem? hlen hi
      exact ⟨u, p2.mem_iff.1 (List.mem_of_getElem? hu), hp i t u hi hu⟩
    · intro u hu
      obtain ⟨i, hi⟩ := List.mem_iff_getElem?.1 (p2.mem_iff.2 hu)
      obtain ⟨t, ht⟩ := exists_getElem? hlen.symm hi
      exact ⟨t, p1.mem_iff.1 (List.mem_of_getElem? ht), hp i t u ht hi⟩
  · rintro ⟨s1, s2⟩
    have hnames : (sortBy leName ts).map DataTensor.name = (sortBy leName us).map DataTensor.name := by
      apply names_eq hn1 hn2
      intro n
      simp only [List.mem_map]
      constructor
      · rintro ⟨t, ht, rfl⟩
        obtain ⟨u, hu, e⟩ := s1 t ht
        exact ⟨u, hu, e.name.symm⟩
      · rintro ⟨u, hu, rfl⟩
        obtain ⟨t, ht, e⟩ := s2 u hu
        exact ⟨t, ht, e.name⟩
    have hlen : (sortBy leName ts).length = (sortBy leName us).length := by
      have := congrArg List.length hnames
      simpa using this
    have hpos : ∀ (i : Nat) (t u : DataTensor), (sortBy leName ts)[i]? = some t →
        (sortBy leName us)[i]? = some u → SameTensor t u := by
      intro i t u ht hu
      have hn : t.name = u.name := by
        have := congrArg (fun l => l[i]?) hnames
        simpa [List.getElem?_map, ht, hu] using this
      obtain ⟨u', hu', e⟩ := s1 t (p1.mem_iff.1 (List.mem_of_getElem? ht))
      have : u' = u := inj_of_nodup_map hn2 hu' (p2.mem_iff.1 (List.mem_of_getElem? hu))
        (e.name.symm.trans hn)
      rw [← this]; exact e
    have hpairs := (pairsEq_iff _ _ r1 r2 hlen).2 hpos
    refine ⟨hlen, hpairs, ?_⟩
    have hidx := indexLoop_names _ _ hnames [] [] 0
    have hok := ok_indexLoop (sortBy leName us) [] [] 0 Dict.ok_nil Dict.ok_nil
    have l1 := listEq_map DataTensor.shape _ _ hlen (fun t ht => (r1 t ht).shape) (fun t ht => (r2 t ht).shape)
      (fun i t u ht hu => (hpos i t u ht hu).shape)
    have l2 := listEq_map DataTensor.type _ _ hlen (fun t ht => (r1 t ht).type) (fun t ht => (r2 t ht).type)
      (fun i t u ht hu => (hpos i t u ht hu).type)
    have l3 := listEq_map DataTensor.exists' _ _ hlen (fun t ht => (r1 t ht).exists')
      (fun t ht => (r2 t ht).exists') (fun i t u ht hu => (hpos i t u ht hu).exists')
    have h3 := tensorsEq_of_pairsEq _ _ hlen hpairs
    simp only [attrsEq, hidx, hnames, plainDictEq_self hok.1, plainDictEq_self hok.2, l1, l2, l3, h3, hlen,
      beq_self_eq_true, Bool.and_self]

/-- C123. Comparison is an equivalence: a list is equal to itself, the order of the operands does not
matter, and two lists that are equal to a third are equal to each other. -/
theorem C123_equivalence {ts us vs : List DataTensor} {l m k : TensorList}
    (hl : TensorList.ofTensors ts = .ok l) (hm : TensorList.ofTensors us = .ok m)
    (hk : TensorList.ofTensors vs = .ok k) (h1 : ∀ t, t ∈ ts → RealTensor t)
    (h2 : ∀ t, t ∈ us → RealTensor t) (h3 : ∀ t, t ∈ vs → RealTensor t) :
    tensorListEq l (.tensors l) = true ∧
    tensorListEq l (.tensors m) = tensorListEq m (.tensors l) ∧
    (tensorListEq l (.tensors m) = true → tensorListEq m (.tensors k) = true →
      tensorListEq l (.tensors k) = true) := by
  refine ⟨?_, ?_, ?_⟩
  · rw [(C123_list hl hl h1 h1).1]
    exact ⟨fun t ht => ⟨t, ht, .refl (h1 t ht)⟩, fun t ht => ⟨t, ht, .refl (h1 t ht)⟩⟩
  · rw [Bool.eq_iff_iff, (C123_list hl hm h1 h2).1, (C123_list hm hl h2 h1).1]
    have key : ∀ a b : List DataTensor, SameTensors a b → SameTensors b a := by
      rintro a b ⟨x, y⟩
      exact ⟨fun t ht => (y t ht).imp fun u hu => ⟨hu.1, hu.2.symm⟩,
        fun t ht => (x t ht).imp fun u hu => ⟨hu.1, hu.2.symm⟩⟩
    exact ⟨key _ _, key _ _⟩
  · rw [(C123_list hl hm h1 h2).1, (C123_list hm hk h2 h3).1, (C123_list hl hk h1 h3).1]
    rintro ⟨a1, a2⟩ ⟨b1, b2⟩
    constructor
    · intro t ht
      obtain ⟨u, hu, e⟩ := a1 t ht
      obtain ⟨v, hv, e'⟩ := b1 u hu
      exact ⟨v, hv, e.trans e'⟩
    · intro v hv
      obtain ⟨u, hu, e⟩ := b2 v hv
      obtain ⟨t, ht, e'⟩ := a2 u hu
      exact ⟨t, ht, e'.trans e⟩

/-- C123. In particular the spelling matters where it changes the meaning in Python: a shape given as tuple
is never equal to one given as list, while `True` is `1`. -/
theorem C123_spelling (a b : List PyVal) : ¬ Same (.list a) (.tuple b) ∧ Same (.bool true) (.int 1) := by
  refine ⟨fun h => ?_, .num .true (.int 1)⟩
  cases h with
  | num h _ => cases h

/-! ## C124 -/

/-- C124, for the label modules and the pulse module. If the settings of the module describe tensors at all,
the set up with a given list of tensors succeeds exactly if these mean the same as the tensors of the
module; without such a list it always succeeds. The module then has the tensors of its settings. Missing:
the modules without data and the seed loader, see `C124_unchecked_violated`. -/
theorem C124_checked_partial (pulses : Bool) {us : List DataTensor} {m : TensorList}
    (hm : TensorList.ofTensors us = .ok m) (h2 : ∀ t, t ∈ us → RealTensor t) :
    (∀ ts l, TensorList.ofTensors ts = .ok l → (∀ t, t ∈ ts → RealTensor t) →
      (∀ r, checkedSetUp pulses (.ok m) (.tensors l) = .ok r ↔ SameTensors ts us ∧ r = m) ∧
      (¬ SameTensors ts us → checkedSetUp pulses (.ok m) (.tensors l) = .error .valueError)) ∧
    checkedSetUp pulses (.ok m) .none = .ok m ∧
    (∀ f, checkedSetUp pulses (.ok m) (.file f) = .ok m) ∧
    checkedSetUp pulses (.ok m) .other = .ok m ∧
    ∀ c e, checkedSetUp pulses (.error e) c = .error e := by
  refine ⟨?_, rfl, fun f => rfl, rfl, fun c e => rfl⟩
  intro ts l hl h1
  have h := (C123_list hl hm h1 h2).1
  have hc : checkedSetUp pulses (.ok m) (.tensors l) =
      if tensorListEq l (.tensors m) = true then .ok m else .error .valueError := by
    unfold checkedSetUp tensorListNe
    simp only
    generalize tensorListEq l (.tensors m) = b
    cases pulses <;> cases b <;> rfl
  rw [hc]
  by_cases hs : SameTensors ts us
  · rw [if_pos (h.2 hs)]
    exact ⟨fun r => ⟨fun e => (by cases e; exact ⟨hs, rfl⟩), fun e => (by rw [e.2])⟩, fun hn => absurd hs hn⟩
  · rw [if_neg (fun e => hs (h.1 e))]
    exact ⟨fun r => ⟨fun e => (by cases e), fun e => absurd e.1 hs⟩, fun _ => rfl⟩

theorem seedTensors_names (np : String → Bool) (n : Nat) (p : PyVal) : ∀ (names : List String) ts,
    seedTensors np n p names = .ok ts → ts.map DataTensor.name = names ∧ ∀ t, t ∈ ts →
      t.shape = .list [.none, .int n] ∧ t.type = .str "misc" ∧ t.dtype = p := by
  intro names
  induction names with
  | nil => intro ts h; cases h; simp
  | cons x names ih =>
    intro ts h
    unfold seedTensors at h
    split at h
    · cases h
    · rename_i t ht
      split at h
      · cases h
      · rename_i ts' hts
        cases h
        obtain ⟨i1, i2⟩ := ih ts' hts
        unfold construct at ht
        rw [if_neg (by simp [Dict.has, Dict.get?])] at ht
        simp only [Dict.get?, String.reduceEq, if_true, if_false] at ht
        have hi := (init_ok_iff _ _ _).1 ht
        obtain ⟨-, -, -, -, -, log, -, rfl⟩ := hi
        refine ⟨by simp [i1], ?_⟩
        intro u hu
        rcases List.mem_cons.1 hu with rfl | hu
        · exact ⟨rfl, rfl, rfl⟩
        · exact i2 u hu

theorem seedTensors_ok (np : String → Bool) (n : Nat) (p : PyVal) (names : List String) :
    (∃ ts, seedTensors np n p names = .ok ts) ↔ (names ≠ [] → ∃ s, p = .str s ∧ np s = true) := by
  have hone : ∀ x, (∃ t, construct np [("name", .str x), ("shape", .list [.none, .int n]),
        ("tensor_type", .str "misc"), ("dtype", p)] = .ok t) ↔ ∃ s, p = .str s ∧ np s = true := by
    intro x
    unfold construct
    rw [if_neg (by simp [Dict.has, Dict.get?])]
    simp only [Dict.get?, String.reduceEq, if_true, if_false]
    constructor
    · rintro ⟨t, ht⟩
      exact ((init_ok_iff _ _ _).1 ht).2.2.2.1
    · intro hp
      exact ⟨_, (init_ok_iff _ _ _).2 ⟨by simp, ⟨-1, .int _⟩, ⟨"misc", rfl, by simp [typeNames]⟩, hp, rfl, .none,
        rfl, rfl⟩⟩
  induction names with
  | nil => exact ⟨fun _ h => absurd rfl h, fun _ => ⟨[], rfl⟩⟩
  | cons x names ih =>
    constructor
    · rintro ⟨ts, h⟩ _
      unfold seedTensors at h
      split at h
      · cases h
      · rename_i t ht
        exact (hone x).1 ⟨t, ht⟩
    · intro h
      obtain ⟨t, ht⟩ := (hone x).2 (h (by simp))
      obtain ⟨ts, hts⟩ := ih.2 (fun _ => h (by simp))
      exact ⟨t :: ts, by rw [seedTensors, ht]; simp only [hts]⟩

/-- The modules without data and the seed loader have the tensors of their settings, for every accepted
`config_data`: none at all, respectively one of shape (events, parameters) for each name of a seed. -/
theorem C124_unchecked_partial (np : String → Bool) (c : ConfigData) :
    (∀ r, dummySetUp c = .ok r ↔ c ≠ .other ∧ r.list = [] ∧ r = ⟨0, [], [], [], [], [], [], []⟩) ∧
    (∀ names params p, (∃ r, seedSetUp np names params p c = .ok r) ↔
      c ≠ .other ∧ names.Nodup ∧ (names ≠ [] → ∃ s, p = .str s ∧ np s = true)) ∧
    (∀ names params p r, seedSetUp np names params p c = .ok r →
      c ≠ .other ∧ (r.list.map DataTensor.name).Perm names ∧
      ∀ t, t ∈ r.list → t.shape = .list [.none, .int params.length] ∧ t.type = .str "misc" ∧ t.dtype = p) := by
  constructor
  · intro r
    cases c <;> simp only [dummySetUp] <;> constructor <;> intro h
    all_goals first
      | (cases h; done)
      | (cases h; exact ⟨fun e => (by cases e), rfl, rfl⟩)
      | (obtain ⟨h1, -, rfl⟩ := h; rfl)
      | exact absurd rfl h.1
  refine ⟨?_, ?_⟩
  · intro names params p
    have hs := seedTensors_ok np params.length p names
    constructor
    · rintro ⟨r, h⟩
      unfold seedSetUp at h
      split at h
      · cases h
      · rename_i hc
        split at h
        · cases h
        · rename_i ts hts
          have hn := (seedTensors_names np _ _ _ _ hts).1
          unfold TensorList.ofTensors at h
          split at h
          · rename_i hnd
            exact ⟨hc, hn ▸ hnd, hs.1 ⟨ts, hts⟩⟩
          · cases h
    · rintro ⟨hc, hnd, hp⟩
      obtain ⟨ts, hts⟩ := hs.2 hp
      have hn := (seedTensors_names np _ _ _ _ hts).1
      have hr : ∃ r, TensorList.ofTensors ts = .ok r := by
        unfold TensorList.ofTensors
        rw [if_pos (hn.symm ▸ hnd)]
        exact ⟨_, rfl⟩
      obtain ⟨r, hr⟩ := hr
      refine ⟨r, ?_⟩
      unfold seedSetUp
      split
      · exact absurd rfl hc
      · simp only [hts, hr]
  · intro names params p r h
    unfold seedSetUp at h
    split at h
    · cases h
    · rename_i hc
      split at h
      · cases h
      · rename_i ts hts
        obtain ⟨h1, h2⟩ := seedTensors_names np _ _ _ _ hts
        unfold TensorList.ofTensors at h
        split at h
        · cases h
          have hp := perm_sortBy leName ts
          refine ⟨hc, ?_, fun t ht => h2 t (hp.mem_iff.1 ht)⟩
          rw [← h1]; exact hp.map _
        · cases h

namespace Ex

def np : String → Bool := fun s => s == "float32"

/-- The labels of a cascade: seven parameters. -/
def label (n : String) (k : Int) : DataTensor :=
  { name := n, shape := .list [.none, .int k], type := .str "label", dtype := .str "float32"
    exists' := .bool true, vectorInfo := .none, trafo := .bool true, trafoReduceAxes := .tuple []
    trafoLog := .list (List.replicate 7 (.bool false)), trafoLogAxis := .int (-1)
    trafoBatchAxis := .int 0, specs := [("unit", .str "GeV"), ("info", .dict [("a", .int 1)])] }

/-- The same with the specs in another order and `1` for `True`. -/
def label' (n : String) (k : Int) : DataTensor :=
  { label n k with exists' := .int 1, specs := [("info", .dict [("a", .bool true)]), ("unit", .str "GeV")] }

theorem real_list_replicate (n : Nat) (b : Bool) : Real (.list (List.replicate n (.bool b))) :=
  .list (fun v hv => by rw [List.eq_of_mem_replicate hv]; exact .bool b)

theorem real_shape (k : Int) : Real (.list [.none, .int k]) := by
  refine .list ?_
  intro v hv
  simp only [List.mem_cons, List.not_mem_nil, or_false] at hv
  rcases hv with rfl | rfl
  · exact .none
  · exact .int _

theorem real_info (v : PyVal) (h : Real v) : Real (.dict [("a", v)]) := by
  refine .dict (by unfold Dict.Ok; simp [Dict.keys]) ?_
  intro k w hw
  simp only [List.mem_cons, Prod.mk.injEq, List.not_mem_nil, or_false] at hw
  rw [hw.2]; exact h

theorem real_label (n : String) (k : Int) : RealTensor (label n k) := by
  refine ⟨real_shape k, .str _, .str _, .bool _, .none, .bool _, .tuple (by simp), real_list_replicate _ _,
    .int _, .int _, ?_⟩
  refine .dict (by unfold Dict.Ok; simp [label, Dict.keys]) ?_
  intro k w hw
  simp only [label, List.mem_cons, Prod.mk.injEq, List.not_mem_nil, or_false] at hw
  rcases hw with ⟨-, rfl⟩ | ⟨-, rfl⟩
  · exact .str _
  · exact real_info _ (.int _)

theorem real_label' (n : String) (k : Int) : RealTensor (label' n k) := by
  refine ⟨real_shape k, .str _, .str _, .int _, .none, .bool _, .tuple (by simp), real_list_replicate _ _,
    .int _, .int _, ?_⟩
  refine .dict (by unfold Dict.Ok; simp [label', Dict.keys]) ?_
  intro k w hw
  simp only [label', List.mem_cons, Prod.mk.injEq, List.not_mem_nil, or_false] at hw
  rcases hw with ⟨-, rfl⟩ | ⟨-, rfl⟩
  · exact real_info _ (.bool _)
  · exact .str _

-- two lists in different order with different spelling that are equal, and one that differs in a shape
example : ∃ l m k, TensorList.ofTensors [label "x_parameters" 7, label "aux" 3] = .ok l ∧
    TensorList.ofTensors [label' "aux" 3, label' "x_parameters" 7] = .ok m ∧
    TensorList.ofTensors [label "aux" 3, label "x_parameters" 8] = .ok k ∧
    (∀ t, t ∈ [label "x_parameters" 7, label "aux" 3] → RealTensor t) ∧
    (∀ t, t ∈ [label' "aux" 3, label' "x_parameters" 7] → RealTensor t) ∧
    tensorListEq l (.tensors m) = true ∧ tensorListEq l (.tensors k) = false := by
  refine ⟨_, _, _, rfl, rfl, rfl, ?_, ?_, ?_, ?_⟩
  · intro t ht
    simp only [List.mem_cons, List.not_mem_nil, or_false] at ht
    rcases ht with rfl | rfl <;> exact real_label _ _
  · intro t ht
    simp only [List.mem_cons, List.not_mem_nil, or_false] at ht
    rcases ht with rfl | rfl <;> exact real_label' _ _
  · decide +kernel
  · decide +kernel

end Ex

/-- C124 is false for the modules without data and for the seed loader: they accept any list of tensors in
`config_data`, here that of a label module, and have other tensors. -/
theorem C124_unchecked_violated :
    ∃ (l r : TensorList) (ts us : List DataTensor), TensorList.ofTensors ts = .ok l ∧
      dummySetUp (.tensors l) = .ok r ∧ l.names = ["x_parameters"] ∧ r.names = [] ∧
      ∃ r', seedSetUp Ex.np ["seed"] ["x", "y"] (.str "float32") (.tensors l) = .ok r' ∧
        TensorList.ofTensors us = .ok r' ∧ r'.names = ["seed"] ∧ ¬ SameTensors ts us := by
  refine ⟨_, _, [Ex.label "x_parameters" 7], [_], rfl, rfl, by decide +kernel, by decide +kernel, _, rfl, rfl,
    by decide +kernel, ?_⟩
  rintro ⟨h, -⟩
  obtain ⟨u, hu, e⟩ := h _ (List.mem_singleton.2 rfl)
  rw [List.mem_singleton] at hu
  have := e.name
  rw [hu] at this
  exact absurd this (by decide)

end Verif.Equality
