/-
C127: saving weights is refused if the variables of the model changed.
-/
import Verif.Variables.Lemmas

namespace Verif.Variables
open Verif.Py

/-- For a model that was configured, with each variable once in it: after any changes, saving is refused with a
ValueError exactly if there is a variable that was not there when the model was configured.
Missing for the full property: removed variables (`C127_removed_violated`), loaded models with models as sub
components (`C127_loaded_violated`), variables that are found twice (`C127_twice_violated`). -/
theorem C127_new_variable_partial (attrs : List Var) (subs : List (String × Option (List Var))) (acts : List Act)
    (h1 : Once attrs subs) (h2 : OneName (configure attrs subs) acts) :
    (((configure attrs subs).run acts).check = .error .valueError ↔
      ∃ v, Belongs ((configure attrs subs).run acts) v ∧ ¬ Belongs (configure attrs subs) v) ∧
    (((configure attrs subs).run acts).check ≠ .error .valueError →
      ((configure attrs subs).run acts).check = .ok ()) := by
  have hrec : ((configure attrs subs).run acts).recorded = attrs ++ subVars subs := by
    rw [(run_linked acts _).2, configure_eq h1]
  have hlink : ((configure attrs subs).run acts).linked = true := by
    rw [(run_linked acts _).1, configure_eq h1]
  have hbel : ∀ v, v ∈ attrs ++ subVars subs ↔ Belongs (configure attrs subs) v := by
    intro v
    rw [belongs_iff, configure_eq h1]
  have hrun := belongs_run acts (configure attrs subs)
  generalize (configure attrs subs).run acts = o at *
  have key := check_iff o (by rw [hrec]; exact h1) (by
    intro v w hv hw
    have : ∀ v, v ∈ o.attrs ++ o.recorded ++ (if o.linked then subVars o.subs else []) →
        Belongs (configure attrs subs) v ∨ Mentions acts v := by
      intro v hv
      rw [hlink, hrec] at hv
      simp only [if_true] at hv
      rcases List.mem_append.1 hv with hv | hv
      · rcases List.mem_append.1 hv with hv | hv
        · exact hrun v ((belongs_iff _ _).2 (List.mem_append_left _ hv))
        · exact Or.inl ((hbel v).1 hv)
      · exact hrun v ((belongs_iff _ _).2 (List.mem_append_right _ hv))
    exact h2 v w (this v hv) (this w hw))
  rw [hlink, hrec] at key
  simp only [if_true] at key
  refine ⟨?_, fun hne => key.2.resolve_right hne⟩
  constructor
  · intro he
    refine Classical.byContradiction fun hc => ?_
    have : o.check = .ok () := key.1.2 fun v hv => by
      rw [hbel]
      exact Classical.byContradiction fun hb => hc ⟨v, (belongs_iff _ _).2 hv, hb⟩
    rw [he] at this
    cases this
  · rintro ⟨v, hv, hb⟩
    refine key.2.resolve_left fun hc => hb ?_
    rw [← hbel]
    exact key.1.1 hc v ((belongs_iff _ _).1 hv)

/-- A model without models as sub components is the same after loading as after configuring. -/
theorem C127_loaded_partial (attrs : List Var) (subs : List (String × Option (List Var)))
    (h : ∀ name vs, (name, some vs) ∈ subs → vs = []) : load attrs subs = configure attrs subs := by
  have : subVars subs = [] := by
    refine List.eq_nil_iff_forall_not_mem.2 fun v hv => ?_
    obtain ⟨name, vs, h1, h2⟩ := mem_subVars.1 hv
    rw [h name vs h1] at h2
    simp at h2
  simp [load, configure, Obj.record, Obj.variables, this]

/-- The full property is false: removing any variable from any model is never noticed, because the recorded
variables are themselves found in the object. -/
theorem C127_removed_violated (attrs : List Var) (subs : List (String × Option (List Var))) (v : Var)
    (h1 : Once attrs subs) (hv : v ∈ attrs) :
    ¬ SameVars ((configure attrs subs).step (.remove v)) (configure attrs subs) ∧
    ((configure attrs subs).step (.remove v)).check = .ok () := by
  have hinj : ∀ v w, v ∈ attrs ++ subVars subs → w ∈ attrs ++ subVars subs → v.id = w.id → v = w := by
    intro v w hv hw hid
    exact List.inj_on_of_nodup_map h1 hv hw hid
  have hsub : v ∉ subVars subs := by
    intro hc
    unfold Once at h1
    rw [List.map_append, List.nodup_append] at h1
    exact h1.2.2 v.id (List.mem_map.2 ⟨v, hv, rfl⟩) v.id (List.mem_map.2 ⟨v, hc, rfl⟩) rfl
  rw [configure_eq h1]
  constructor
  · intro hc
    have := (hc v).2 ((belongs_iff _ _).2 (by simp [hv]))
    rw [belongs_iff] at this
    simp [Obj.step, hsub] at this
  · have hmem : ∀ w, w ∈ attrs.filter (· ≠ v) ++ (attrs ++ subVars subs) ++ subVars subs →
        w ∈ attrs ++ subVars subs := by
      intro w hw
      simp only [List.mem_append, List.mem_filter] at hw ⊢
      tauto
    refine (check_iff (Obj.step ⟨attrs, subs, true, attrs ++ subVars subs⟩ (.remove v)) h1 ?_).1.2 ?_
    · intro a b ha hb
      exact hinj a b (hmem a ha) (hmem b hb)
    · intro w hw
      refine hmem w ?_
      simp only [Obj.step, if_true, List.mem_append] at hw ⊢
      tauto

/-- The full property is false: a model with a variable in one of the models that are its sub components can
never be saved again after it was loaded, although nothing changed. -/
theorem C127_loaded_violated (attrs : List Var) (subs : List (String × Option (List Var))) (name : String)
    (vs : List Var) (v : Var) (hs : (name, some vs) ∈ subs) (hv : v ∈ vs) :
    (load attrs subs).check = .error .valueError := by
  have hsub : v ∈ subVars subs := mem_subVars.2 ⟨name, vs, hs, hv⟩
  have hd : v.id ∈ (dedup (attrs ++ subVars subs)).map Var.id :=
    (mem_dedup_ids _ _).2 (List.mem_map.2 ⟨v, by simp [hsub], rfl⟩)
  refine check_dup _ ?_ ?_
  · simp only [load, Obj.record, Obj.variables, List.append_nil, if_true, List.map_append]
    intro hc
    rw [List.nodup_append] at hc
    exact hc.2.2 v.id hd v.id (List.mem_map.2 ⟨v, hsub, rfl⟩) rfl
  · intro w hw
    simp only [load, Obj.record, Obj.variables, List.append_nil, if_true, List.map_append, List.mem_append]
      at hw ⊢
    left
    exact (mem_dedup_ids _ _).2 (List.mem_map.2 ⟨w, List.mem_append.2 hw, rfl⟩)

/-- The full property is false: a model in which a variable is found twice, as with one sub component under two
names, cannot be saved although nothing changed. -/
theorem C127_twice_violated (attrs : List Var) (subs : List (String × Option (List Var)))
    (h : ¬ ((subVars subs).map Var.id).Nodup) : (configure attrs subs).check = .error .valueError := by
  refine check_dup _ ?_ ?_
  · simp only [configure, Obj.record, List.map_append]
    exact fun hc => h hc.of_append_right
  · intro w hw
    simp only [configure, Obj.record, Obj.variables, List.append_nil, if_true, List.map_append, List.mem_append]
      at hw ⊢
    rcases hw with hw | hw
    · left
      exact (mem_dedup_ids _ _).2 (List.mem_map.2 ⟨w, by simp [hw], rfl⟩)
    · exact Or.inr (List.mem_map.2 ⟨w, hw, rfl⟩)

namespace Ex
def step : Var := ⟨0, "Variable:0"⟩
def w1 : Var := ⟨1, "weights:0"⟩
def w2 : Var := ⟨2, "weights:0"⟩
def subs : List (String × Option (List Var)) := [("data_trafo", none), ("base", some [w2])]
end Ex

/-- Two variables may have the same name. -/
example : Once [Ex.step, Ex.w1] Ex.subs ∧ (configure [Ex.step, Ex.w1] Ex.subs).check = .ok () ∧
    ((configure [Ex.step, Ex.w1] Ex.subs).run [.remove Ex.w1]).check = .ok () ∧
    ((configure [Ex.step, Ex.w1] Ex.subs).run [.remove Ex.w1, .add ⟨3, "weights:0"⟩]).check = .error .valueError ∧
    (load [Ex.step, Ex.w1] Ex.subs).check = .error .valueError := by
  refine ⟨by unfold Once; decide +kernel, ?_, ?_, ?_, ?_⟩ <;> rfl

example : OneName (configure [Ex.step, Ex.w1] Ex.subs) [.add ⟨3, "weights:0"⟩] := by
  have : ∀ v, Belongs (configure [Ex.step, Ex.w1] Ex.subs) v ∨ Mentions [.add ⟨3, "weights:0"⟩] v →
      v ∈ [Ex.step, Ex.w1, Ex.w2, ⟨3, "weights:0"⟩] := by
    intro v hv
    rw [belongs_iff] at hv
    simp [Mentions, configure, Obj.record, Ex.subs, subVars] at hv ⊢
    tauto
  intro v w hv hw hid
  have h1 := this v hv
  have h2 := this w hw
  exact List.inj_on_of_nodup_map (f := Var.id) (by decide +kernel) h1 h2 hid

end Verif.Variables
