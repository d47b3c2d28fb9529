import Verif.Tensor.Spec

namespace Verif.Tensor
open Verif.Py

theorem asInt_iff (v : PyVal) (i : Int) : v.asInt = some i ↔ IsInt v i := by
  constructor
  · intro h
    cases v with
    | int j => simp [PyVal.asInt] at h; subst h; exact .int j
    | bool b =>
      cases b <;> simp [PyVal.asInt] at h <;> subst h
      · exact .false
      · exact .true
    | _ => simp [PyVal.asInt] at h
  · rintro (_ | _ | _) <;> rfl

theorem asInt_none_iff (v : PyVal) : v.asInt = none ↔ ¬ ∃ i, IsInt v i := by
  cases h : v.asInt with
  | none =>
    simp only [true_iff]
    rintro ⟨i, hi⟩
    rw [(asInt_iff v i).2 hi] at h
    cases h
  | some i => simp only [reduceCtorEq, false_iff, Classical.not_not]; exact ⟨i, (asInt_iff v i).1 h⟩

theorem pyIndex_iff {α : Type} (l : List α) (i : Int) (x : α) :
    pyIndex l i = .ok x ↔ PyIndexes l i x := by
  unfold pyIndex PyIndexes
  have hlt : ∀ j : Nat, l[j]? = some x → j < l.length := fun j h =>
    (List.getElem?_eq_some_iff.1 h).1
  by_cases h0 : 0 ≤ i
  · rw [if_pos h0]
    constructor
    · intro h
      split at h
      · rename_i y hy; cases h; exact ⟨i.toNat, hy, Or.inl (by omega)⟩
      · cases h
    · rintro ⟨j, hj, e | e⟩
      · have : i.toNat = j := by omega
        rw [this, hj]
      · have := hlt j hj; omega
  · rw [if_neg h0]
    by_cases h1 : 0 ≤ i + l.length
    · rw [if_pos h1]
      constructor
      · intro h
        split at h
        · rename_i y hy; cases h; exact ⟨(i + l.length).toNat, hy, Or.inr (by omega)⟩
        · cases h
      · rintro ⟨j, hj, e | e⟩
        · omega
        · have : (i + l.length).toNat = j := by omega
          rw [this, hj]
    · rw [if_neg h1]
      constructor
      · intro h; cases h
      · rintro ⟨j, hj, e | e⟩ <;> omega

theorem checkVectorInfo_iff (v : PyVal) :
    checkVectorInfo v = .ok () ↔ v = .none ∨ ∃ d, v = .dict d ∧
      (Dict.get? d "type" = some (.str "index") ∨ Dict.get? d "type" = some (.str "value")) := by
  constructor
  · intro h
    unfold checkVectorInfo at h
    split at h
    · exact Or.inl rfl
    · rename_i d
      right
      refine ⟨d, rfl, ?_⟩
      split at h
      · rename_i e; exact Or.inl e
      · rename_i e; exact Or.inr e
      · cases h
      · cases h
    · cases h
  · rintro (rfl | ⟨d, rfl, h | h⟩)
    · rfl
    · simp only [checkVectorInfo, h]
    · simp only [checkVectorInfo, h]

theorem items?_iff (v : PyVal) (l : List PyVal) : v.items? = some l ↔ IsSeq v l := by
  unfold IsSeq
  cases v <;> simp [PyVal.items?]

theorem expandLog_bool (shape axis : PyVal) (b : Bool) (r : PyVal) :
    expandLog shape axis (.bool b) = .ok r ↔
      ∃ dims i v n, IsSeq shape dims ∧ IsInt axis i ∧ PyIndexes dims i v ∧ IsInt v n ∧
        r = .list (List.replicate n.toNat (.bool b)) := by
  constructor
  · intro h
    simp only [expandLog] at h
    split at h
    · rename_i dims i hs hi
      split at h
      · cases h
      · cases h
      · rename_i d _ hd
        split at h
        · rename_i n hn
          cases h
          exact ⟨dims, i, d, n, (items?_iff _ _).1 hs, (asInt_iff _ _).1 hi, (pyIndex_iff _ _ _).1 hd,
            (asInt_iff _ _).1 hn, rfl⟩
        · cases h
    · cases h
  · rintro ⟨dims, i, v, n, hs, hi, hv, hn, rfl⟩
    have h0 := (items?_iff _ _).2 hs
    have h1 := (asInt_iff _ _).2 hi
    have h2 := (pyIndex_iff _ _ _).2 hv
    have h3 := (asInt_iff _ _).2 hn
    simp only [expandLog, h0, h1, h2]
    cases hn <;> simp_all [PyVal.asInt]

theorem expandLog_other (shape axis v : PyVal) (h : ∀ b, v ≠ .bool b) :
    expandLog shape axis v = .ok v := by
  cases v <;> first | rfl | (exact absurd rfl (h _))

/-- The constructor as one condition. -/
theorem init_ok_iff (np : String → Bool) (t t' : DataTensor) :
    DataTensor.init np t = .ok t' ↔
      t.shape ≠ .none ∧ (∃ i, IsInt t.trafoLogAxis i) ∧
      (∃ s, t.type = .str s ∧ s ∈ typeNames) ∧ (∃ s, t.dtype = .str s ∧ np s = true) ∧
      checkVectorInfo t.vectorInfo = .ok () ∧
      ∃ log, expandLog t.shape t.trafoLogAxis t.trafoLog = .ok log ∧
        t' = { t with trafoLog := log } := by
  constructor
  · intro h
    unfold DataTensor.init at h
    split at h
    · cases h
    · rename_i hs
      refine ⟨hs, ?_⟩
      split at h
      · cases h
      · rename_i i hi
        refine ⟨⟨i, (asInt_iff _ _).1 hi⟩, ?_⟩
        split at h
        · rename_i ty hty
          split at h
          · cases h
          · rename_i hmem
            refine ⟨⟨ty, hty, by simpa using hmem⟩, ?_⟩
            split at h
            · rename_i s hd
              split at h
              · cases h
              · rename_i hnp
                refine ⟨⟨s, hd, by simpa using hnp⟩, ?_⟩
                split at h
                · cases h
                · rename_i u hv
                  refine ⟨hv, ?_⟩
                  split at h
                  · cases h
                  · rename_i log hl
                    cases h
                    exact ⟨log, hl, rfl⟩
            · cases h
        · cases h
  · rintro ⟨h1, ⟨i, hi⟩, ⟨ty, hty, hmem⟩, ⟨s, hd, hnp⟩, hv, log, hl, rfl⟩
    unfold DataTensor.init
    split
    · rename_i e; exact absurd e h1
    · rw [(asInt_iff _ _).2 hi, hty, hd, hv, hl]
      simp [hmem, hnp]

theorem expandLog_not_bool {shape axis v r : PyVal} (h : expandLog shape axis v = .ok r) (b : Bool) :
    r ≠ .bool b := by
  intro hr
  subst hr
  by_cases hv : ∃ b', v = .bool b'
  · obtain ⟨b', rfl⟩ := hv
    obtain ⟨_, _, _, _, _, _, _, _, e⟩ := (expandLog_bool _ _ _ _).1 h
    cases e
  · rw [expandLog_other _ _ _ (fun b' e => hv ⟨b', e⟩)] at h
    cases h
    exact hv ⟨b, rfl⟩

/-- Running the checks on a checked tensor changes nothing. -/
theorem init_idem (np : String → Bool) (t t' : DataTensor) (h : DataTensor.init np t = .ok t') :
    DataTensor.init np t' = .ok t' := by
  rw [init_ok_iff] at h ⊢
  obtain ⟨h1, h2, h3, h4, h5, log, h6, rfl⟩ := h
  exact ⟨h1, h2, h3, h4, h5, log, expandLog_other _ _ _ (expandLog_not_bool h6), rfl⟩

theorem construct_ok (np : String → Bool) (kwargs : Dict String PyVal) (t : DataTensor)
    (h : construct np kwargs = .ok t) :
    kwargs.has "self" = false ∧
    t.specs = kwargs.filter (fun kv => !ctorParams.contains kv.1) ∧
    DataTensor.init np t = .ok t := by
  unfold construct at h
  split at h
  · cases h
  · rename_i hself
    refine ⟨by simpa using hself, ?_⟩
    split at h
    · refine ⟨?_, init_idem np _ _ h⟩
      obtain ⟨-, -, -, -, -, log, -, rfl⟩ := (init_ok_iff _ _ _).1 h
      rfl
    · cases h

theorem update_append {α : Type} (d e : Dict String α) (he : e.Ok)
    (hd : ∀ k, k ∈ Dict.keys e → k ∉ Dict.keys d) : Dict.update d e = d ++ e := by
  unfold Dict.update
  induction e generalizing d with
  | nil => simp
  | cons kv e ih =>
    obtain ⟨k, v⟩ := kv
    simp only [Dict.Ok, Dict.keys_cons, List.nodup_cons] at he
    have hset : ∀ (d : Dict String α), k ∉ Dict.keys d → Dict.set d k v = d ++ [(k, v)] := by
      intro d hk
      induction d with
      | nil => rfl
      | cons x d ih =>
        obtain ⟨a, b⟩ := x
        simp only [Dict.keys_cons, List.mem_cons, not_or] at hk
        rw [Dict.set, if_neg (Ne.symm hk.1), ih hk.2]; rfl
    rw [List.foldl_cons, hset d (hd k (by simp)), ih _ he.2]
    · simp
    · intro k' hk'
      simp only [Dict.keys, List.map_append, List.map_cons, List.map_nil, List.mem_append,
        List.mem_singleton, not_or]
      refine ⟨hd k' (by simp [hk']), ?_⟩
      rintro rfl
      exact he.1 hk'

theorem keys_filter_mem {α : Type} (d : Dict String α) (p : String × α → Bool) (k : String)
    (h : k ∈ Dict.keys (d.filter p)) : ∃ v, (k, v) ∈ d ∧ p (k, v) = true := by
  obtain ⟨⟨k', v⟩, h1, h2⟩ := List.mem_map.1 h
  simp only at h2
  subst h2
  exact ⟨v, List.mem_filter.1 h1⟩

/-- What is known about the specs of a tensor that can exist. -/
theorem valid_specs (np : String → Bool) (t : DataTensor) (h : Valid np t) :
    Dict.Ok t.specs ∧ (∀ k, k ∈ Dict.keys t.specs → k ∉ ctorParams ∧ k ≠ "self") ∧
    DataTensor.init np t = .ok t := by
  obtain ⟨kwargs, hok, hc⟩ := h
  obtain ⟨h1, h2, h3⟩ := construct_ok np kwargs t hc
  refine ⟨?_, ?_, h3⟩
  · rw [h2]
    unfold Dict.Ok Dict.keys at hok ⊢
    exact (List.filter_sublist.map Prod.fst).nodup hok
  · intro k hk
    rw [h2] at hk
    obtain ⟨v, hm, hp⟩ := keys_filter_mem _ _ _ hk
    refine ⟨by simpa using hp, ?_⟩
    rintro rfl
    exact (Dict.has_eq_false_iff _ _).1 h1 (Dict.mem_keys_of_mem hm)

theorem filter_ne_self {α : Type} (d : Dict String α) (k : String) (h : k ∉ Dict.keys d) :
    d.filter (fun kv => decide (kv.1 ≠ k)) = d := by
  rw [List.filter_eq_self]
  rintro ⟨a, b⟩ hm
  simp only [ne_eq, decide_not, Bool.not_eq_true', decide_eq_false_iff_not]
  rintro rfl
  exact h (Dict.mem_keys_of_mem hm)

/-- The keyword arguments a serialised tensor turns into, without the specs. -/
def kwBase (t : DataTensor) : Dict String PyVal :=
  [("name", .str t.name), ("shape", t.shape), ("dtype", t.dtype),
        ("exists", t.exists'), ("vector_info", t.vectorInfo), ("trafo", t.trafo),
        ("trafo_reduce_axes", t.trafoReduceAxes), ("trafo_log", t.trafoLog),
        ("trafo_log_axis", t.trafoLogAxis), ("trafo_batch_axis", t.trafoBatchAxis),
        ("tensor_type", t.type)]

theorem get?_append {α : Type} (d e : Dict String α) (k : String) (v : α)
    (h : Dict.get? d k = some v) : Dict.get? (d ++ e) k = some v := by
  induction d with
  | nil => cases h
  | cons x d ih =>
    obtain ⟨a, b⟩ := x
    rw [List.cons_append, Dict.get?_cons]
    rw [Dict.get?_cons] at h
    split
    · rwa [if_pos (by assumption)] at h
    · rw [if_neg (by assumption)] at h; exact ih h

theorem construct_kwBase (np : String → Bool) (t : DataTensor)
    (hinit : DataTensor.init np t = .ok t) (hself : "self" ∉ Dict.keys t.specs)
    (hkeys : ∀ k, k ∈ Dict.keys t.specs → k ∉ ctorParams) :
    construct np (kwBase t ++ t.specs) = .ok t := by
  have g : ∀ k v, Dict.get? (kwBase t) k = some v → Dict.get? (kwBase t ++ t.specs) k = some v :=
    fun k v h => get?_append _ _ _ _ h
  have hf : (kwBase t ++ t.specs).filter (fun kv => !ctorParams.contains kv.1) = t.specs := by
    rw [List.filter_append]
    have h1 : (kwBase t).filter (fun kv => !ctorParams.contains kv.1) = [] := by
      rw [List.filter_eq_nil_iff]
      intro kv hm
      have hall : ∀ k, k ∈ Dict.keys (kwBase t) → k ∈ ctorParams := by
        intro k hk
        simp only [kwBase, Dict.keys_cons, Dict.keys_nil] at hk
        revert k
        decide
      simpa using hall kv.1 (Dict.mem_keys_of_mem (v := kv.2) hm)
    have h2 : t.specs.filter (fun kv => !ctorParams.contains kv.1) = t.specs := by
      rw [List.filter_eq_self]
      rintro ⟨k, v⟩ hm
      simpa using hkeys k (Dict.mem_keys_of_mem hm)
    rw [h1, h2]; rfl
  have hs : Dict.has (kwBase t ++ t.specs) "self" = false := by
    rw [Dict.has_eq_false_iff]
    simp only [Dict.keys, List.map_append, List.mem_append, not_or]
    exact ⟨by simp [kwBase], hself⟩
  unfold construct argOr
  rw [if_neg (by simp [hs]), hf]
  rw [g "name" _ rfl, g "shape" _ rfl, g "tensor_type" _ rfl, g "dtype" _ rfl, g "exists" _ rfl,
    g "vector_info" _ rfl, g "trafo" _ rfl, g "trafo_reduce_axes" _ rfl, g "trafo_log" _ rfl,
    g "trafo_log_axis" _ rfl, g "trafo_batch_axis" _ rfl]
  exact hinit

theorem deserializeOne_toDict (np : String → Bool) (t : DataTensor) (h : Valid np t)
    (h1 : "type" ∉ Dict.keys t.specs) (h2 : "specs" ∉ Dict.keys t.specs) :
    deserializeOne np t.toDict = .ok t := by
  obtain ⟨hok, hkeys, hinit⟩ := valid_specs np t h
  have hself : "self" ∉ Dict.keys t.specs := fun hk => (hkeys _ hk).2 rfl
  have hdisj : ∀ k, k ∈ Dict.keys t.specs →
      k ∉ Dict.keys (Dict.set t.toDict "tensor_type" t.type) := by
    intro k hk hm
    have := (hkeys k hk).1
    simp only [ctorParams, List.mem_cons, List.not_mem_nil, or_false, not_or] at this
    rw [Dict.mem_keys_set] at hm
    simp only [DataTensor.toDict, Dict.keys_cons, Dict.keys_nil, List.mem_cons, List.not_mem_nil,
      or_false] at hm
    rcases hm with h | h | h | h | h | h | h | h | h | h | h | h | h <;>
    first
      | (subst h; exact h1 hk)
      | (subst h; exact h2 hk)
      | simp_all
  unfold deserializeOne
  have e1 : Dict.get? t.toDict "type" = some t.type := by
    simp [DataTensor.toDict, Dict.get?_cons]
  have e2 : Dict.get? (Dict.set t.toDict "tensor_type" t.type) "specs" = some (.dict t.specs) := by
    rw [Dict.get?_set]
    simp [DataTensor.toDict, Dict.get?_cons]
  simp only [e1, e2]
  rw [update_append _ _ hok hdisj]
  have e3 : delKey (Dict.set t.toDict "tensor_type" t.type ++ t.specs) "type" =
      .ok ([("name", .str t.name), ("shape", t.shape), ("dtype", t.dtype),
        ("exists", t.exists'), ("vector_info", t.vectorInfo), ("trafo", t.trafo),
        ("trafo_reduce_axes", t.trafoReduceAxes), ("trafo_log", t.trafoLog),
        ("trafo_log_axis", t.trafoLogAxis), ("trafo_batch_axis", t.trafoBatchAxis),
        ("specs", .dict t.specs), ("tensor_type", t.type)] ++ t.specs) := by
    unfold delKey
    rw [if_pos]
    · rw [List.filter_append, filter_ne_self _ _ h1]
      simp [DataTensor.toDict, Dict.set]
    · rw [Dict.has_iff]; simp [Dict.keys, DataTensor.toDict, Dict.set]
  rw [e3]
  simp only
  have e4 : delKey ([("name", .str t.name), ("shape", t.shape), ("dtype", t.dtype),
        ("exists", t.exists'), ("vector_info", t.vectorInfo), ("trafo", t.trafo),
        ("trafo_reduce_axes", t.trafoReduceAxes), ("trafo_log", t.trafoLog),
        ("trafo_log_axis", t.trafoLogAxis), ("trafo_batch_axis", t.trafoBatchAxis),
        ("specs", .dict t.specs), ("tensor_type", t.type)] ++ t.specs) "specs" =
      .ok (kwBase t ++ t.specs) := by
    unfold delKey
    rw [if_pos]
    · rw [List.filter_append, filter_ne_self _ _ h2]
      rfl
    · rw [Dict.has_iff]; simp [Dict.keys]
  rw [e4]
  exact construct_kwBase np t hinit hself (fun k hk => (hkeys k hk).1)

/-- After deserialising no tensor has a spec `type` or `specs`. -/
theorem deserializeOne_specs (np : String → Bool) (d : Dict String PyVal) (t : DataTensor)
    (h : deserializeOne np d = .ok t) :
    "type" ∉ Dict.keys t.specs ∧ "specs" ∉ Dict.keys t.specs := by
  unfold deserializeOne at h
  split at h
  · cases h
  · simp only at h
    split at h
    · cases h
    · split at h
      · cases h
      · rename_i d1 h1
        split at h
        · cases h
        · rename_i d2 h2
          obtain ⟨-, hs, -⟩ := construct_ok np d2 t h
          unfold delKey at h1 h2
          split at h1
          · split at h2
            · cases h1
              cases h2
              rw [hs]
              constructor <;> intro hk <;> obtain ⟨v, hm, -⟩ := keys_filter_mem _ _ _ hk
              · simp at hm
              · simp at hm
            · cases h2
          · cases h1
    · cases h

theorem deserializeAll_specs (np : String → Bool) (ds : List (Dict String PyVal))
    (ts : List DataTensor) (h : deserializeAll np ds = .ok ts) :
    ∀ t, t ∈ ts → "type" ∉ Dict.keys t.specs ∧ "specs" ∉ Dict.keys t.specs := by
  induction ds generalizing ts with
  | nil => simp only [deserializeAll, Except.ok.injEq] at h; subst h; simp
  | cons d rest ih =>
    unfold deserializeAll at h
    split at h
    · cases h
    · rename_i t0 h0
      split at h
      · cases h
      · rename_i ts0 h1
        cases h
        intro t ht
        rcases List.mem_cons.1 ht with rfl | ht
        · exact deserializeOne_specs np d t h0
        · exact ih ts0 h1 t ht

theorem deserializeAll_map (np : String → Bool) (ts : List DataTensor)
    (h : ∀ t, t ∈ ts → deserializeOne np t.toDict = .ok t) :
    deserializeAll np (ts.map DataTensor.toDict) = .ok ts := by
  induction ts with
  | nil => rfl
  | cons t rest ih =>
    simp only [List.map_cons, deserializeAll]
    rw [h t (by simp), ih (fun t ht => h t (by simp [ht]))]

/-! ### sorting by name -/

abbrev leName : DataTensor → DataTensor → Bool := fun a b => decide (a.name ≤ b.name)

theorem leName_trans (a b c : DataTensor) (h1 : leName a b = true) (h2 : leName b c = true) :
    leName a c = true := by
  simp only [leName, decide_eq_true_eq] at *
  exact String.le_trans h1 h2

theorem leName_total (a b : DataTensor) : leName a b = true ∨ leName b a = true := by
  simp only [leName, decide_eq_true_eq]
  exact String.le_total _ _

theorem inj_of_nodup_map {α β : Type} {f : α → β} {l : List α} (h : (l.map f).Nodup) {a b : α}
    (ha : a ∈ l) (hb : b ∈ l) (e : f a = f b) : a = b := by
  induction l with
  | nil => cases ha
  | cons x rest ih =>
    simp only [List.map_cons, List.nodup_cons] at h
    rcases List.mem_cons.1 ha with rfl | ha
    · rcases List.mem_cons.1 hb with rfl | hb
      · rfl
      · exact absurd (List.mem_map.2 ⟨b, ‹b ∈ rest›, e.symm⟩) h.1
    · rcases List.mem_cons.1 hb with rfl | hb
      · exact absurd (List.mem_map.2 ⟨a, ‹a ∈ rest›, e⟩) h.1
      · exact ih h.2 ha hb

theorem sortBy_perm_eq (l1 l2 : List DataTensor) (hp : l1.Perm l2)
    (hnd : (l1.map DataTensor.name).Nodup) : sortBy leName l1 = sortBy leName l2 := by
  refine List.Perm.eq_of_pairwise (le := fun a b => leName a b = true) ?_
    (pairwise_sortBy leName leName_trans leName_total l1)
    (pairwise_sortBy leName leName_trans leName_total l2)
    (((perm_sortBy leName l1).trans hp).trans (perm_sortBy leName l2).symm)
  intro a b ha hb h1 h2
  simp only [leName, decide_eq_true_eq] at h1 h2
  have hn := String.le_antisymm h1 h2
  have ha : a ∈ l1 := (perm_sortBy leName l1).mem_iff.1 ha
  have hb : b ∈ l1 := hp.mem_iff.2 ((perm_sortBy leName l2).mem_iff.1 hb)
  exact inj_of_nodup_map hnd ha hb hn

theorem indexLoop_spec (l : List DataTensor) (nd : Dict String Nat) (idict : Dict Nat String)
    (i : Nat) (hnd : (l.map DataTensor.name).Nodup) :
    (∀ n, (indexLoop nd idict i l).1.get? n =
      match (l.map DataTensor.name).findIdx? (· = n) with
      | some j => some (i + j)
      | none => nd.get? n) ∧
    (∀ k, (indexLoop nd idict i l).2.get? k =
      if i ≤ k ∧ k < i + l.length then (l.map DataTensor.name)[k - i]? else idict.get? k) := by
  induction l generalizing nd idict i with
  | nil => simp [indexLoop]; intro k h1 h2; omega
  | cons t rest ih =>
    simp only [List.map_cons, List.nodup_cons] at hnd
    obtain ⟨h1, h2⟩ := ih (nd.set t.name i) (idict.set i t.name) (i + 1) hnd.2
    constructor
    · intro n
      simp only [indexLoop, List.map_cons, List.findIdx?_cons]
      rw [h1 n]
      by_cases hn : t.name = n
      · have : (rest.map DataTensor.name).findIdx? (· = n) = none := by
          rw [List.findIdx?_eq_none_iff]
          intro x hx
          simp only [decide_eq_false_iff_not]
          rintro rfl
          exact hnd.1 (hn ▸ hx)
        rw [this]
        simp [hn, Dict.get?_set]
      · simp only [hn, decide_false, Bool.false_eq_true, if_false, Dict.get?_set]
        cases (rest.map DataTensor.name).findIdx? (· = n) with
        | none => rfl
        | some j => simp; omega
    · intro k
      simp only [indexLoop, List.map_cons, List.length_cons]
      rw [h2 k, Dict.get?_set]
      by_cases e1 : i = k
      · subst e1
        rw [if_neg (by omega), if_pos rfl, if_pos (by omega)]
        simp
      · by_cases e2 : i + 1 ≤ k ∧ k < i + 1 + rest.length
        · rw [if_pos e2, if_pos (by omega)]
          have : k - i = (k - (i + 1)) + 1 := by omega
          rw [this, List.getElem?_cons_succ]
        · rw [if_neg e2, if_neg e1, if_neg (by omega)]

end Verif.Tensor
