/-
Properties C10-C12 of `DataTensor` and `DataTensorList`.
-/
import Verif.Tensor.Lemmas

namespace Verif.Tensor
open Verif.Py

/-! ## C10: order independence -/

/-- C10. Lists of the same tensors in any order give the same object (or both are
rejected with the same exception). -/
theorem C10_order_independent (l1 l2 : List DataTensor) (hp : l1.Perm l2) :
    TensorList.ofTensors l1 = TensorList.ofTensors l2 := by
  unfold TensorList.ofTensors
  by_cases h : (l1.map DataTensor.name).Nodup
  · have h' : (l2.map DataTensor.name).Nodup := (hp.map _).nodup_iff.1 h
    have he : sortBy (fun a b => decide (a.name ≤ b.name)) l1 =
        sortBy (fun a b => decide (a.name ≤ b.name)) l2 := sortBy_perm_eq l1 l2 hp h
    rw [if_pos h, if_pos h', he]
  · have h' : ¬ (l2.map DataTensor.name).Nodup := fun h' => h ((hp.map _).nodup_iff.2 h')
    rw [if_neg h, if_neg h']

/-- C10. A list is rejected exactly if a name occurs twice; otherwise the object
holds exactly the given tensors, strictly increasing in their names, and its
summary lists are those of the tensors in this order. -/
theorem C10_sorted_and_complete (ts : List DataTensor) :
    (¬ (ts.map DataTensor.name).Nodup → TensorList.ofTensors ts = .error .valueError) ∧
    ((ts.map DataTensor.name).Nodup → ∃ l, TensorList.ofTensors ts = .ok l ∧
      l.list.Perm ts ∧ l.list.Pairwise (fun a b => a.name < b.name) ∧
      l.len = ts.length ∧
      l.names = l.list.map DataTensor.name ∧ l.shapes = l.list.map DataTensor.shape ∧
      l.types = l.list.map DataTensor.type ∧ l.existing = l.list.map DataTensor.exists') := by
  constructor
  · intro h; unfold TensorList.ofTensors; rw [if_neg h]
  · intro h
    refine ⟨_, by unfold TensorList.ofTensors; rw [if_pos h], ?_, ?_, ?_, rfl, rfl, rfl, rfl⟩
    · exact perm_sortBy _ _
    · have h1 := pairwise_sortBy leName leName_trans leName_total ts
      have h2 : ((sortBy leName ts).map DataTensor.name).Nodup :=
        ((perm_sortBy leName ts).map _).nodup_iff.2 h
      have h3 : (sortBy leName ts).Pairwise (fun a b => a.name ≠ b.name) := List.pairwise_map.1 h2
      refine List.Pairwise.imp₂ ?_ h1 h3
      intro a b hab hne
      simp only [leName, decide_eq_true_eq] at hab
      rcases Decidable.em (a.name < b.name) with hlt | hlt
      · exact hlt
      · exact absurd (String.le_antisymm hab (String.not_lt.1 hlt)) hne
    · exact (perm_sortBy leName ts).length_eq

/-- C10. `get_index`, `get_name` and `[name]` agree with the position in the list;
`get_index` and `get_name` are inverse to each other; unknown names and indices
raise KeyError. -/
theorem C10_index_and_name (ts : List DataTensor) (l : TensorList)
    (h : TensorList.ofTensors ts = .ok l) :
    (∀ n i, l.getIndex n = .ok i ↔ l.names[i]? = some n) ∧
    (∀ i n, l.getName i = .ok n ↔ l.names[i]? = some n) ∧
    (∀ n t, l.getItem n = .ok t ↔ t ∈ ts ∧ t.name = n) ∧
    (∀ n, n ∉ l.names → l.getIndex n = .error .keyError ∧ l.getItem n = .error .keyError) ∧
    (∀ i, l.len ≤ i → l.getName i = .error .keyError) := by
  unfold TensorList.ofTensors at h
  split at h
  · rename_i hnd
    have hl : l.list = sortBy leName ts ∧ l.names = (sortBy leName ts).map DataTensor.name ∧
        l.nameDict = (indexLoop [] [] 0 (sortBy leName ts)).1 ∧
        l.indexDict = (indexLoop [] [] 0 (sortBy leName ts)).2 ∧
        l.len = (sortBy leName ts).length := by
      cases h; exact ⟨rfl, rfl, rfl, rfl, rfl⟩
    obtain ⟨l1, l2, l3, l4, l5⟩ := hl
    have hnd' : ((sortBy leName ts).map DataTensor.name).Nodup :=
      ((perm_sortBy leName ts).map _).nodup_iff.2 hnd
    obtain ⟨h1, h2⟩ := indexLoop_spec (sortBy leName ts) [] [] 0 hnd'
    have hidx : ∀ n i, ((sortBy leName ts).map DataTensor.name).findIdx? (· = n) = some i ↔
        ((sortBy leName ts).map DataTensor.name)[i]? = some n := by
      intro n i
      rw [List.findIdx?_eq_some_iff_getElem]
      constructor
      · rintro ⟨hlt, he, -⟩
        rw [List.getElem?_eq_some_iff]
        exact ⟨hlt, by simpa using he⟩
      · intro he
        obtain ⟨hlt, he⟩ := List.getElem?_eq_some_iff.1 he
        refine ⟨hlt, by simpa using he, ?_⟩
        intro j hj
        simp only [decide_eq_true_eq]
        intro hc
        exact List.pairwise_iff_getElem.1 hnd' j i (by omega) hlt hj (hc.trans he.symm)
    have hgi : ∀ n i, l.getIndex n = .ok i ↔
        ((sortBy leName ts).map DataTensor.name)[i]? = some n := by
      intro n i
      unfold TensorList.getIndex
      rw [l3, h1 n]
      cases e : ((sortBy leName ts).map DataTensor.name).findIdx? (· = n) with
      | none =>
        rw [← hidx, e]; simp
      | some j => rw [← hidx, e]; simp
    have hnone : ∀ n, n ∉ (sortBy leName ts).map DataTensor.name →
        l.getIndex n = .error .keyError := by
      intro n hn
      unfold TensorList.getIndex
      rw [l3, h1 n, List.findIdx?_eq_none_iff.2]
      · rfl
      · intro x hx; simp only [decide_eq_false_iff_not]; rintro rfl; exact hn hx
    rw [l2]
    refine ⟨hgi, ?_, ?_, ?_, ?_⟩
    · intro i n
      unfold TensorList.getName
      rw [l4, h2 i]
      simp only [Nat.zero_le, true_and, Nat.zero_add, Nat.sub_zero]
      by_cases hi : i < (sortBy leName ts).length
      · rw [if_pos hi]
        cases e : ((sortBy leName ts).map DataTensor.name)[i]? with
        | none => simp
        | some m => simp
      · rw [if_neg hi, List.getElem?_eq_none (by simpa using hi)]
        simp
    · intro n t
      have hmem : ∀ t, t ∈ ts ↔ t ∈ sortBy leName ts := fun t =>
        ((perm_sortBy leName ts).mem_iff).symm
      rw [hmem]
      constructor
      · intro hg
        unfold TensorList.getItem at hg
        split at hg
        · cases hg
        · rename_i i hi
          have hi := (hgi n i).1 hi
          split at hg
          · rename_i t' ht'
            cases hg
            rw [l1] at ht'
            rw [List.getElem?_map, ht'] at hi
            simp only [Option.map_some, Option.some.injEq] at hi
            exact ⟨List.mem_of_getElem? ht', hi⟩
          · cases hg
      · rintro ⟨ht, rfl⟩
        obtain ⟨i, hlt, hi⟩ := List.mem_iff_getElem.1 ht
        have hi' : (sortBy leName ts)[i]? = some t := List.getElem?_eq_some_iff.2 ⟨hlt, hi⟩
        unfold TensorList.getItem
        rw [(hgi t.name i).2 (by rw [List.getElem?_map, hi']; rfl)]
        simp only
        rw [l1, hi']
    · intro n hn
      refine ⟨hnone n hn, ?_⟩
      unfold TensorList.getItem
      rw [hnone n hn]
    · intro i hi
      unfold TensorList.getName
      rw [l5] at hi
      rw [l4, h2 i, if_neg]
      · rfl
      · omega
  · cases h

/-- C10. Copying a tensor list through the constructor gives an equal object, and a
list of tensors given in any order gives the object of C10. -/
theorem C10_copy (np : String → Bool) (ts : List DataTensor) (l : TensorList)
    (h : TensorList.init np (.tensors ts) = .ok l) :
    TensorList.ofTensors ts = .ok l ∧ TensorList.init np (.copy l) = .ok l := by
  have h' : TensorList.ofTensors ts = .ok l := h
  refine ⟨h', ?_⟩
  have hperm : l.list.Perm ts := by
    unfold TensorList.ofTensors at h'
    split at h'
    · cases h'; exact perm_sortBy _ _
    · cases h'
  show TensorList.ofTensors l.list = .ok l
  rw [C10_order_independent _ _ hperm]; exact h'

/-- A tensor of the examples. -/
def exTensor (n : String) (specs : List (String × PyVal)) : DataTensor :=
  { name := n, shape := .list [.none, .int 3], type := .str "data", dtype := .str "float32"
    exists' := .bool true, vectorInfo := .none, trafo := .bool true, trafoReduceAxes := .tuple []
    trafoLog := .list [.bool true, .bool true, .bool true], trafoLogAxis := .int (-1)
    trafoBatchAxis := .int 0, specs := specs }

-- the hypotheses of C10 are met, with two orders of three tensors
example : [exTensor "x_pulses" [], exTensor "x_dom" [], exTensor "label" []].Perm
      [exTensor "label" [], exTensor "x_pulses" [], exTensor "x_dom" []] ∧
    ([exTensor "x_pulses" [], exTensor "x_dom" [], exTensor "label" []].map
      DataTensor.name).Nodup ∧
    (TensorList.ofTensors [exTensor "x_pulses" [], exTensor "x_dom" [], exTensor "label" []]).map
      TensorList.names = .ok ["label", "x_dom", "x_pulses"] := by
  refine ⟨?_, by decide, by decide⟩
  exact ((List.Perm.swap _ _ _).cons _).trans (List.Perm.swap _ _ _)

/-! ## C11: serialisation -/

/-- C11. A tensor list survives serialisation exactly when no tensor has an extra
spec named `type` or `specs`: then both `deserialize` and the constructor return
an equal list. -/
theorem C11_round_trip_partial (np : String → Bool) (ts : List DataTensor) (l : TensorList)
    (hl : TensorList.ofTensors ts = .ok l) (hv : ∀ t, t ∈ ts → Valid np t) :
    (deserialize np l.serialize = .ok l ↔
      ∀ t, t ∈ ts → "type" ∉ Dict.keys t.specs ∧ "specs" ∉ Dict.keys t.specs) ∧
    ((∀ t, t ∈ ts → "type" ∉ Dict.keys t.specs ∧ "specs" ∉ Dict.keys t.specs) →
      TensorList.init np (.dicts l.serialize) = .ok l) := by
  have hperm : l.list.Perm ts := by
    unfold TensorList.ofTensors at hl
    split at hl
    · cases hl; exact perm_sortBy _ _
    · cases hl
  have hsame : TensorList.ofTensors l.list = .ok l := by
    rw [C10_order_independent _ _ hperm]; exact hl
  have hfwd : (∀ t, t ∈ ts → "type" ∉ Dict.keys t.specs ∧ "specs" ∉ Dict.keys t.specs) →
      deserialize np l.serialize = .ok l := by
    intro h
    unfold deserialize TensorList.serialize
    rw [deserializeAll_map np l.list]
    · exact hsame
    · intro t ht
      have ht := hperm.mem_iff.1 ht
      exact deserializeOne_toDict np t (hv t ht) (h t ht).1 (h t ht).2
  refine ⟨⟨?_, hfwd⟩, ?_⟩
  · intro h
    unfold deserialize at h
    split at h
    · cases h
    · rename_i ts' h'
      have := deserializeAll_specs np _ ts' h'
      intro t ht
      have hp' : l.list.Perm ts' := by
        unfold TensorList.ofTensors at h
        split at h
        · cases h; exact perm_sortBy _ _
        · cases h
      exact this t (hp'.mem_iff.1 (hperm.mem_iff.2 ht))
  · intro h
    unfold TensorList.init
    split
    · cases ‹ListArg.dicts l.serialize = ListArg.copy _›
    · cases ‹ListArg.dicts l.serialize = ListArg.tensors _›
    · rename_i he
      have : l.list = [] := by simpa [TensorList.serialize] using he
      rw [← hsame, this]
    · rename_i heq
      cases heq
      rw [hfwd h]
      exact hsame

theorem exTensor_valid (n : String) (specs : List (String × PyVal)) (hok : Dict.Ok specs)
    (h : ∀ k, k ∈ Dict.keys specs → k ∉ ctorParams ∧ k ≠ "self") :
    Valid (fun s => s == "float32") (exTensor n specs) := by
  refine ⟨kwBase (exTensor n specs) ++ specs, ?_, ?_⟩
  · unfold Dict.Ok Dict.keys
    rw [List.map_append, List.nodup_append]
    refine ⟨by simp [kwBase], hok, ?_⟩
    intro a ha b hb hab
    subst hab
    apply (h a hb).1
    have hall : ∀ k, k ∈ List.map Prod.fst (kwBase (exTensor n specs)) → k ∈ ctorParams := by
      intro k hk
      simp only [kwBase, List.map_cons, List.map_nil] at hk
      revert k
      decide
    exact hall a ha
  · exact construct_kwBase _ (exTensor n specs) rfl (fun hk => (h _ hk).2 rfl) (fun k hk => (h k hk).1)

-- the hypotheses of C11 are met by a list with extra specs
example : ∃ l, TensorList.ofTensors [exTensor "x_pulses" [("source", .str "hdf")],
      exTensor "x_dom" []] = .ok l ∧
    ∀ t, t ∈ [exTensor "x_pulses" [("source", .str "hdf")], exTensor "x_dom" []] →
      Valid (fun s => s == "float32") t := by
  refine ⟨_, rfl, ?_⟩
  intro t ht
  simp only [List.mem_cons, List.not_mem_nil, or_false] at ht
  rcases ht with rfl | rfl
  · exact exTensor_valid _ _ (by simp [Dict.Ok, Dict.keys]) (by simp [Dict.keys, ctorParams])
  · exact exTensor_valid _ _ (by simp [Dict.Ok, Dict.keys]) (by simp [Dict.keys])

/-- C11 is false for an extra spec named `type`: it is lost without an exception. -/
theorem C11_spec_named_type_violated :
    ∃ (np : String → Bool) (t : DataTensor) (l l' : TensorList), Valid np t ∧
      TensorList.ofTensors [t] = .ok l ∧ deserialize np l.serialize = .ok l' ∧
      l.list.map (fun t => Dict.keys t.specs) = [["type"]] ∧
      l'.list.map (fun t => Dict.keys t.specs) = [[]] := by
  refine ⟨fun s => s == "float32", exTensor "x" [("type", .int 5)], _, _,
    exTensor_valid _ _ (by simp [Dict.Ok, Dict.keys]) (by simp [Dict.keys, ctorParams]), rfl, rfl,
    by decide, by decide⟩

/-! ## C12: validation -/

/-- C12. The constructor accepts a description exactly when it is admissible. The
object then has the given values, except that a boolean log flag is expanded to
one flag for each entry along the log axis. -/
theorem C12_constructor (np : String → Bool) (t : DataTensor) :
    ((∃ t', DataTensor.init np t = .ok t') ↔ Admissible np t) ∧
    ∀ t', DataTensor.init np t = .ok t' →
      ((∀ b, t.trafoLog ≠ .bool b) → t' = t) ∧
      (∀ b, t.trafoLog = .bool b → ∃ dims i v n, IsSeq t.shape dims ∧ IsInt t.trafoLogAxis i ∧
        PyIndexes dims i v ∧ IsInt v n ∧
        t' = { t with trafoLog := .list (List.replicate n.toNat (.bool b)) }) := by
  constructor
  · constructor
    · rintro ⟨t', h⟩
      obtain ⟨h1, h2, h3, h4, h5, log, h6, -⟩ := (init_ok_iff _ _ _).1 h
      refine ⟨h1, h2, h3, h4, (checkVectorInfo_iff _).1 h5, ?_⟩
      intro b hb
      rw [hb] at h6
      obtain ⟨dims, i, v, n, a1, a2, a3, a4, -⟩ := (expandLog_bool _ _ _ _).1 h6
      exact ⟨dims, i, v, n, a1, a2, a3, a4⟩
    · rintro ⟨h1, h2, h3, h4, h5, h6⟩
      by_cases hb : ∃ b, t.trafoLog = .bool b
      · obtain ⟨b, hb⟩ := hb
        obtain ⟨dims, i, v, n, a1, a2, a3, a4⟩ := h6 b hb
        refine ⟨_, (init_ok_iff _ _ _).2 ⟨h1, h2, h3, h4, (checkVectorInfo_iff _).2 h5,
          .list (List.replicate n.toNat (.bool b)), ?_, rfl⟩⟩
        · rw [hb]; exact (expandLog_bool _ _ _ _).2 ⟨dims, i, v, n, a1, a2, a3, a4, rfl⟩
      · exact ⟨_, (init_ok_iff _ _ _).2 ⟨h1, h2, h3, h4, (checkVectorInfo_iff _).2 h5, _,
          expandLog_other _ _ _ (fun b e => hb ⟨b, e⟩), rfl⟩⟩
  · intro t' h
    obtain ⟨h1, h2, h3, h4, h5, log, h6, rfl⟩ := (init_ok_iff _ _ _).1 h
    constructor
    · intro hb
      rw [expandLog_other _ _ _ hb] at h6
      cases h6
      rfl
    · intro b hb
      rw [hb] at h6
      obtain ⟨dims, i, v, n, a1, a2, a3, a4, a5⟩ := (expandLog_bool _ _ _ _).1 h6
      exact ⟨dims, i, v, n, a1, a2, a3, a4, by rw [a5]⟩

/-- C12. Every keyword that is not a parameter of the constructor is kept as a
spec with its value, and nothing else becomes a spec; the parameters take the
given value or the documented default. -/
theorem C12_keywords (np : String → Bool) (kwargs : Dict String PyVal) (hok : kwargs.Ok)
    (t : DataTensor) (h : construct np kwargs = .ok t) :
    (∀ k v, Dict.get? t.specs k = some v ↔ kwargs.get? k = some v ∧
      k ∉ ["name", "shape", "tensor_type", "dtype", "exists", "vector_info", "trafo",
        "trafo_reduce_axes", "trafo_log", "trafo_log_axis", "trafo_batch_axis"]) ∧
    kwargs.get? "name" = some (.str t.name) ∧ kwargs.get? "shape" = some t.shape ∧
    kwargs.get? "tensor_type" = some t.type ∧ kwargs.get? "dtype" = some t.dtype ∧
    t.exists' = (kwargs.get? "exists").getD (.bool true) ∧
    t.vectorInfo = (kwargs.get? "vector_info").getD .none ∧
    t.trafo = (kwargs.get? "trafo").getD (.bool false) ∧
    t.trafoReduceAxes = (kwargs.get? "trafo_reduce_axes").getD (.tuple []) ∧
    t.trafoLogAxis = (kwargs.get? "trafo_log_axis").getD (.int (-1)) ∧
    t.trafoBatchAxis = (kwargs.get? "trafo_batch_axis").getD (.int 0) ∧
    ((∀ b, (kwargs.get? "trafo_log").getD .none ≠ .bool b) →
      t.trafoLog = (kwargs.get? "trafo_log").getD .none) := by
  have hspecs := (construct_ok np kwargs t h).2.1
  have hargs : ∀ k d, argOr kwargs k d = (kwargs.get? k).getD d := by
    intro k d; unfold argOr; cases kwargs.get? k <;> rfl
  have hok' : Dict.Ok t.specs := by
    rw [hspecs]
    unfold Dict.Ok Dict.keys at hok ⊢
    exact (List.filter_sublist.map Prod.fst).nodup hok
  refine ⟨?_, ?_⟩
  · intro k v
    constructor
    · intro hg
      have hm := Dict.mem_of_get? hg
      rw [hspecs, List.mem_filter] at hm
      exact ⟨Dict.get?_of_mem hok hm.1, by simpa [ctorParams] using hm.2⟩
    · rintro ⟨h1, h2⟩
      apply Dict.get?_of_mem hok'
      rw [hspecs, List.mem_filter]
      exact ⟨Dict.mem_of_get? h1, by simpa [ctorParams] using h2⟩
  · unfold construct at h
    split at h
    · cases h
    · split at h
      · rename_i n s ty dt e1 e2 e3 e4
        obtain ⟨-, -, -, -, -, log, hlog, rfl⟩ := (init_ok_iff _ _ _).1 h
        refine ⟨e1, e2, e3, e4, hargs _ _, hargs _ _, hargs _ _, hargs _ _, hargs _ _, hargs _ _, ?_⟩
        intro hb
        rw [← hargs] at hb ⊢
        simp only at hlog
        rw [expandLog_other _ _ _ hb] at hlog
        cases hlog
        rfl
      · cases h

-- a description that is admissible, with a boolean log flag to be expanded
example : Admissible (fun s => s == "float32") { exTensor "x" [] with trafoLog := .bool true } := by
  refine ⟨by simp [exTensor], ⟨_, .int (-1)⟩, ⟨"data", rfl, by simp⟩, ⟨"float32", rfl, rfl⟩,
    Or.inl rfl, ?_⟩
  intro b _
  exact ⟨_, -1, .int 3, 3, Or.inl rfl, .int _, ⟨1, rfl, Or.inr rfl⟩, .int 3⟩
-- and one that is not: the shape along the log axis is open
example : ¬ Admissible (fun s => s == "float32")
    { exTensor "x" [] with trafoLog := .bool true, trafoLogAxis := .int 0 } := by
  rw [← (C12_constructor _ _).1]
  rintro ⟨t', h⟩
  cases h

end Verif.Tensor
