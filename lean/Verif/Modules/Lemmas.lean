import Verif.Modules.Spec
import Verif.Tensor.Lemmas

namespace Verif.Modules
open Verif.Py Verif.Tensor
variable {V : Type}

theorem Separate.unique {modules : Dict String (Module V)} (h : Separate modules) {ks ks' : List String}
    {key : String} {v w : DVal} (h1 : Has modules ks key v) (h2 : Has modules ks' key w) : v = w := by
  obtain ⟨j, -, a, ha, hv⟩ := h1
  obtain ⟨k, -, b, hb, hw⟩ := h2
  have := h.separate j k a b key ha hb
    (by rw [← Dict.get?_isSome_iff, hv]; rfl) (by rw [← Dict.get?_isSome_iff, hw]; rfl)
  subst this
  rw [ha] at hb
  cases hb
  rw [hv] at hw
  cases hw
  rfl

theorem Has.mono {modules : Dict String (Module V)} {ks ks' : List String} {key : String} {v : DVal}
    (h : Has modules ks key v) (hs : ∀ k ∈ ks, k ∈ ks') : Has modules ks' key v := by
  obtain ⟨k, hk, r⟩ := h
  exact ⟨k, hs k hk, r⟩

/-- The data after an update with the modules of some kinds. -/
theorem get?_step {modules : Dict String (Module V)} (h : Separate modules) {k : String} {m : Module V}
    (hm : Dict.get? modules k = some m) (data : Dict String DVal) (key : String) :
    (∀ v, Has modules [k] key v → Dict.get? (Dict.update data m.data) key = some v) ∧
    ((¬ ∃ v, Has modules [k] key v) →
      Dict.get? (Dict.update data m.data) key = Dict.get? data key) := by
  rw [Dict.get?_update _ _ (h.ok k m hm)]
  constructor
  · rintro v ⟨j, hj, a, ha, hv⟩
    rw [List.mem_singleton] at hj
    subst hj
    rw [hm] at ha
    cases ha
    rw [hv]
    rfl
  · intro hno
    have : Dict.get? m.data key = none := by
      cases hg : Dict.get? m.data key with
      | none => rfl
      | some v => exact absurd ⟨v, k, by simp, m, hm, hg⟩ hno
    rw [this]
    rfl

theorem has_cons {modules : Dict String (Module V)} {k : String} {ks : List String} {key : String}
    {v : DVal} : Has modules (k :: ks) key v ↔ Has modules [k] key v ∨ Has modules ks key v := by
  unfold Has
  constructor
  · rintro ⟨j, hj, r⟩
    rcases List.mem_cons.1 hj with rfl | hj
    · exact .inl ⟨j, by simp, r⟩
    · exact .inr ⟨j, hj, r⟩
  · rintro (⟨j, hj, r⟩ | ⟨j, hj, r⟩)
    · rw [List.mem_singleton] at hj
      exact ⟨j, by simp [hj], r⟩
    · exact ⟨j, by simp [hj], r⟩

theorem gather_spec {modules : Dict String (Module V)} (h : Separate modules) : ∀ (ks : List String)
    (data : Dict String DVal), (∀ k ∈ ks, ∃ m, Dict.get? modules k = some m) →
    ∃ d, gather modules ks data = .ok d ∧ ∀ key,
      (∀ v, Has modules ks key v → Dict.get? d key = some v) ∧
      ((¬ ∃ v, Has modules ks key v) → Dict.get? d key = Dict.get? data key) := by
  intro ks
  induction ks with
  | nil =>
    intro data _
    refine ⟨data, rfl, fun key => ⟨?_, fun _ => rfl⟩⟩
    rintro v ⟨j, hj, -⟩
    cases hj
  | cons k ks ih =>
    intro data hall
    obtain ⟨m, hm⟩ := hall k (by simp)
    obtain ⟨d, hd, hs⟩ := ih (Dict.update data m.data) (fun j hj => hall j (by simp [hj]))
    refine ⟨d, ?_, fun key => ?_⟩
    · unfold gather
      simp only [hm]
      exact hd
    · obtain ⟨h1, h2⟩ := get?_step h hm data key
      obtain ⟨h3, h4⟩ := hs key
      constructor
      · intro v hv
        rcases has_cons.1 hv with hv | hv
        · by_cases hex : ∃ w, Has modules ks key w
          · obtain ⟨w, hw⟩ := hex
            rw [h3 w hw, h.unique hv hw]
          · rw [h4 hex]
            exact h1 v hv
        · exact h3 v hv
      · intro hno
        rw [h4 (fun ⟨w, hw⟩ => hno ⟨w, has_cons.2 (.inr hw)⟩)]
        exact h2 (fun ⟨w, hw⟩ => hno ⟨w, has_cons.2 (.inl hw)⟩)

theorem updateLoop_spec : ∀ (ks : List String) (h : Handler V), Separate h.modules →
    (∀ k ∈ ks, k ∈ kinds) →
    ∃ d, updateLoop ks h = .ok d ∧ d.modules = h.modules ∧ (∀ key,
      (∀ v, Has h.modules ks key v → Dict.get? d.data key = some v) ∧
      ((¬ ∃ v, Has h.modules ks key v) → Dict.get? d.data key = Dict.get? h.data key)) ∧
      (∀ k m, k ∈ ks → Dict.get? h.modules k = some m →
        Dict.get? d.config.classes k = some m.cls ∧ Dict.get? d.config.settings k = some m.config) ∧
      (∀ k, k ∉ ks → Dict.get? d.config.classes k = Dict.get? h.config.classes k ∧
        Dict.get? d.config.settings k = Dict.get? h.config.settings k) := by
  intro ks
  induction ks with
  | nil =>
    intro h _ _
    refine ⟨h, rfl, rfl, fun key => ⟨?_, fun _ => rfl⟩, ?_, fun k _ => ⟨rfl, rfl⟩⟩
    · rintro v ⟨j, hj, -⟩
      cases hj
    · intro k m hk
      cases hk
  | cons k ks ih =>
    intro h hsep hkinds
    obtain ⟨m, hm⟩ := hsep.all k (hkinds k (by simp))
    obtain ⟨d, hd, hmod, hs, hin, hout⟩ := ih { h with
      data := Dict.update h.data m.data
      config := ⟨Dict.set h.config.classes k m.cls, Dict.set h.config.settings k m.config⟩ } hsep
      (fun j hj => hkinds j (by simp [hj]))
    refine ⟨d, ?_, hmod, fun key => ?_, ?_, ?_⟩
    · unfold updateLoop
      have : kinds.contains k = true := List.contains_iff_mem.2 (hkinds k (by simp))
      simp only [this, hm, Bool.not_true, Bool.false_eq_true, if_false]
      exact hd
    · obtain ⟨h1, h2⟩ := get?_step hsep hm h.data key
      obtain ⟨h3, h4⟩ := hs key
      simp only at h3 h4
      constructor
      · intro v hv
        rcases has_cons.1 hv with hv | hv
        · by_cases hex : ∃ w, Has h.modules ks key w
          · obtain ⟨w, hw⟩ := hex
            rw [h3 w hw, hsep.unique hv hw]
          · rw [h4 hex]
            exact h1 v hv
        · exact h3 v hv
      · intro hno
        rw [h4 (fun ⟨w, hw⟩ => hno ⟨w, has_cons.2 (.inr hw)⟩)]
        exact h2 (fun ⟨w, hw⟩ => hno ⟨w, has_cons.2 (.inl hw)⟩)
    · intro j m' hj hm'
      by_cases hjk : j ∈ ks
      · exact hin j m' hjk hm'
      · have : j = k := by
          rcases List.mem_cons.1 hj with h | h
          · exact h
          · exact absurd h hjk
        subst this
        rw [hm] at hm'
        cases hm'
        obtain ⟨e1, e2⟩ := hout j hjk
        rw [e1, e2]
        simp only [Dict.get?_set, if_true, and_self]
    · intro j hj
      rw [List.mem_cons, not_or] at hj
      obtain ⟨e1, e2⟩ := hout j hj.2
      rw [e1, e2]
      simp only [Dict.get?_set, if_neg (Ne.symm hj.1), and_self]

theorem allTensors_congr {a b : Dict String DVal} (h : ∀ key, Dict.get? a key = Dict.get? b key) :
    allTensors a = allTensors b := by
  unfold allTensors tensorsAt
  rw [h "data_tensors", h "label_tensors", h "weight_tensors", h "misc_tensors"]

/-! ## Writing -/

variable {D : Type}

theorem collect_map (k : String) (f : DataTensor → D) : ∀ ts : List DataTensor,
    collect k ts (ts.map f) = .ok ((ts.filter (isType k)).map f) := by
  intro ts
  induction ts with
  | nil => rfl
  | cons t ts ih =>
    rw [List.map_cons]
    unfold collect
    by_cases h : isType k t = true
    · simp only [h, if_true, ih, List.filter_cons_of_pos, List.map_cons]
    · rw [List.filter_cons_of_neg h]
      simp only [h, Bool.false_eq_true, if_false, List.tail_cons, ih]

theorem writeData_map (f : DataTensor → D) (ts : List DataTensor) : ∀ ks : List String,
    writeData ts (ts.map f) ks = .ok (ks.map fun k => (k, (ts.filter (isType k)).map f)) := by
  intro ks
  induction ks with
  | nil => rfl
  | cons k ks ih =>
    unfold writeData
    simp only [collect_map, ih, List.map_cons]

theorem filter_sorted {l m : List DataTensor} (p : DataTensor → Bool)
    (hnd : (l.map DataTensor.name).Nodup) (hp : (l.filter p).Perm m) (hm : InOrder m) :
    (sortBy leName l).filter p = m := by
  have h1 : ((sortBy leName l).filter p).Pairwise (fun a b => leName a b = true) :=
    (pairwise_sortBy leName leName_trans leName_total l).filter p
  have h2 : m.Pairwise (fun a b => leName a b = true) :=
    List.Pairwise.imp (fun h => by simpa [leName] using h) hm
  have h3 : ((sortBy leName l).filter p).Perm m := ((perm_sortBy leName l).filter p).trans hp
  have h4 : (((sortBy leName l).filter p).map DataTensor.name).Nodup := by
    have : ((sortBy leName l).map DataTensor.name).Nodup :=
      (((perm_sortBy leName l).map DataTensor.name).nodup_iff).2 hnd
    exact this.sublist ((List.filter_sublist).map _)
  have := sortBy_perm_eq _ _ h3 h4
  rwa [sortBy_of_pairwise _ _ h1, sortBy_of_pairwise _ _ h2] at this

end Verif.Modules
