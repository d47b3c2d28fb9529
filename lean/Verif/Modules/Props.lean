import Verif.Modules.Lemmas

/-!
# Properties of modules of a data handler: C102 and C103
-/

namespace Verif.Modules
open Verif.Py Verif.Tensor
variable {V D : Type}

/-! ## C102 -/

theorem assemble_spec {modules : Dict String (Module V)} (h : Separate modules) (c : Config V) :
    ∃ d, (∀ key, (∀ v, Has modules kinds key v → Dict.get? d key = some v) ∧
      ((¬ ∃ v, Has modules kinds key v) → Dict.get? d key = none)) ∧
      assemble modules c = match allTensors d with
        | .error e => .error e
        | .ok ts => .ok ⟨modules, d, ts, c⟩ := by
  obtain ⟨d, hd, hs⟩ := gather_spec h kinds [] h.all
  refine ⟨d, fun key => ⟨(hs key).1, fun hno => by rw [(hs key).2 hno]; rfl⟩, ?_⟩
  unfold assemble
  rw [hd]
  rfl

/-- C102, data: a data handler whose modules are replaced has the same data and tensors as one that is
set up with the new modules, provided that the new modules have data of all names the replaced ones had.
Missing: other new modules, see `C102_stale_violated`, and the settings, see `C102_settings_violated`. -/
theorem C102_data_partial (modules modules' : Dict String (Module V)) (c c' : Config V)
    (names : List String) (h : Handler V) (hsep : Separate modules) (hsep' : Separate modules')
    (hconf : assemble modules c = .ok h) (hkinds : ∀ k ∈ names, k ∈ kinds)
    (hrest : ∀ k, k ∉ names → Dict.get? modules' k = Dict.get? modules k)
    (hkeys : ∀ k a b, k ∈ names → Dict.get? modules k = some a → Dict.get? modules' k = some b →
      ∀ key ∈ Dict.keys a.data, key ∈ Dict.keys b.data) :
    SameHandler (update names { h with modules := modules' }) (assemble modules' c') := by
  obtain ⟨d, hd, hres⟩ := assemble_spec hsep c
  obtain ⟨d', hd', hres'⟩ := assemble_spec hsep' c'
  have hh : h.data = d := by
    rw [hconf] at hres
    split at hres
    · cases hres
    · cases hres
      rfl
  obtain ⟨u, hu, humod, hus, -, -⟩ := updateLoop_spec names { h with modules := modules' } hsep' hkinds
  simp only at humod hus
  have hsame : ∀ key, Dict.get? u.data key = Dict.get? d' key := by
    intro key
    by_cases hex : ∃ v, Has modules' kinds key v
    · obtain ⟨v, hv⟩ := hex
      rw [(hd' key).1 v hv]
      by_cases hn : ∃ w, Has modules' names key w
      · obtain ⟨w, hw⟩ := hn
        rw [(hus key).1 w hw, hsep'.unique hw hv]
      · rw [(hus key).2 hn, hh]
        apply (hd key).1
        obtain ⟨k, hk, m, hm, hg⟩ := hv
        have hkn : k ∉ names := fun hc => hn ⟨v, k, hc, m, hm, hg⟩
        exact ⟨k, hk, m, by rw [← hrest k hkn]; exact hm, hg⟩
    · rw [(hd' key).2 hex]
      rw [(hus key).2 (fun ⟨w, hw⟩ => hex ⟨w, hw.mono hkinds⟩), hh]
      apply (hd key).2
      rintro ⟨v, k, hk, m, hm, hg⟩
      by_cases hkn : k ∈ names
      · obtain ⟨b, hb⟩ := hsep'.all k hk
        have := hkeys k m b hkn hm hb key (by rw [← Dict.get?_isSome_iff, hg]; rfl)
        rw [← Dict.get?_isSome_iff, Option.isSome_iff_exists] at this
        obtain ⟨w, hw⟩ := this
        exact hex ⟨w, k, hk, b, hb, hw⟩
      · exact hex ⟨v, k, hk, m, by rw [hrest k hkn]; exact hm, hg⟩
  have e := allTensors_congr hsame
  rw [hres']
  unfold update
  rw [hu]
  simp only [e]
  cases allTensors d' with
  | error e => exact rfl
  | ok ts => exact ⟨humod, rfl, hsame⟩

/-- C102, tensors: the tensors of a data handler are exactly those of its modules, in the order of their
names. -/
theorem C102_tensors (modules : Dict String (Module V)) (c : Config V) (h : Handler V)
    (hsep : Separate modules) (hconf : assemble modules c = .ok h) (ls lb lw lm : List DataTensor)
    (h1 : Has modules kinds "data_tensors" (.tensors ls))
    (h2 : Has modules kinds "label_tensors" (.tensors lb))
    (h3 : Has modules kinds "weight_tensors" (.tensors lw))
    (h4 : Has modules kinds "misc_tensors" (.tensors lm)) :
    h.tensors.list.Perm (ls ++ lb ++ lw ++ lm) ∧ InOrder h.tensors.list ∧
    (h.tensors.list.map DataTensor.name).Nodup := by
  obtain ⟨d, hd, hres⟩ := assemble_spec hsep c
  rw [hconf] at hres
  have e : allTensors d = TensorList.ofTensors (ls ++ lb ++ lw ++ lm) := by
    unfold allTensors tensorsAt
    rw [(hd _).1 _ h1, (hd _).1 _ h2, (hd _).1 _ h3, (hd _).1 _ h4]
  rw [e] at hres
  unfold TensorList.ofTensors at hres
  split at hres
  · cases hres
  · rename_i ts hts
    cases hres
    split at hts
    · rename_i hnd
      cases hts
      refine ⟨perm_sortBy leName _, ?_, ?_⟩
      · exact (pairwise_sortBy leName leName_trans leName_total _).imp
          (fun h => by simpa [leName] using h)
      · exact (((perm_sortBy leName _).map DataTensor.name).nodup_iff).2 hnd
    · cases hts

/-- C102, settings: the handler records the class and the settings of each replaced module; those of the
others are kept. -/
theorem C102_recorded_partial (names : List String) (h h' : Handler V) (hsep : Separate h.modules)
    (hkinds : ∀ k ∈ names, k ∈ kinds) (hupd : update names h = .ok h') :
    (∀ k m, k ∈ names → Dict.get? h.modules k = some m →
      Dict.get? h'.config.classes k = some m.cls ∧ Dict.get? h'.config.settings k = some m.config) ∧
    (∀ k, k ∉ names → Dict.get? h'.config.classes k = Dict.get? h.config.classes k ∧
      Dict.get? h'.config.settings k = Dict.get? h.config.settings k) := by
  obtain ⟨u, hu, -, -, h1, h2⟩ := updateLoop_spec names h hsep hkinds
  unfold update at hupd
  rw [hu] at hupd
  simp only at hupd
  split at hupd
  · cases hupd
  · cases hupd
    exact ⟨h1, h2⟩

/-- Only known modules can be replaced. -/
theorem C102_unknown (names : List String) (h : Handler V) (k : String) (hk : k ∈ names)
    (hn : k ∉ kinds) (h' : Handler V) : update names h ≠ .ok h' := by
  have key : ∀ (l : List String) (g g' : Handler V), k ∈ l → updateLoop l g ≠ .ok g' := by
    intro l
    induction l with
    | nil => intro g g' hk; cases hk
    | cons j l ih =>
      intro g g' hk hc
      unfold updateLoop at hc
      split at hc
      · cases hc
      · rename_i hj
        split at hc
        · cases hc
        · rcases List.mem_cons.1 hk with rfl | hk
          · simp only [Bool.not_eq_true', Bool.not_eq_false] at hj
            exact hn (List.contains_iff_mem.1 hj)
          · exact ih _ _ hk hc
  intro hc
  unfold update at hc
  split at hc
  · cases hc
  · rename_i g hg
    exact key names h g hk hg

/-- C102 fails for new modules that have no data of some name the replaced one had: the data of the
replaced module stays, while a handler that is set up with the new modules does not have it. -/
theorem C102_stale_violated (modules modules' : Dict String (Module V)) (c c' : Config V)
    (names : List String) (h h' f : Handler V) (hsep : Separate modules) (hsep' : Separate modules')
    (hconf : assemble modules c = .ok h) (hkinds : ∀ k ∈ names, k ∈ kinds)
    (hupd : update names { h with modules := modules' } = .ok h')
    (hfresh : assemble modules' c' = .ok f) (key : String) (v : DVal)
    (hold : Has modules names key v) (hnew : ¬ ∃ w, Has modules' kinds key w) :
    Dict.get? h'.data key = some v ∧ Dict.get? f.data key = none := by
  obtain ⟨d, hd, hres⟩ := assemble_spec hsep c
  obtain ⟨d', hd', hres'⟩ := assemble_spec hsep' c'
  have hh : h.data = d := by
    rw [hconf] at hres
    split at hres
    · cases hres
    · cases hres
      rfl
  have hf : f.data = d' := by
    rw [hfresh] at hres'
    split at hres'
    · cases hres'
    · cases hres'
      rfl
  obtain ⟨u, hu, -, hus, -, -⟩ := updateLoop_spec names { h with modules := modules' } hsep' hkinds
  unfold update at hupd
  rw [hu] at hupd
  simp only at hupd hus
  split at hupd
  · cases hupd
  · cases hupd
    simp only
    rw [(hus key).2 (fun ⟨w, hw⟩ => hnew ⟨w, hw.mono hkinds⟩), hh, hf]
    exact ⟨(hd key).1 v (hold.mono hkinds), (hd' key).2 hnew⟩

/-- C102 fails for the settings: as soon as one module is replaced, no data handler can be set up with
the recorded settings, as they have `config_data` among the settings of the module. -/
theorem C102_settings_violated (names : List String) (h h' : Handler V) (hsep : Separate h.modules)
    (hkinds : ∀ k ∈ names, k ∈ kinds) (hne : names ≠ [])
    (hconfig : ∀ k m, Dict.get? h.modules k = some m → Dict.has m.config "config_data" = true)
    (hupd : update names h = .ok h') (make : String → Dict String V → Except Err (Module V))
    (configData : V) (f : Handler V) : configure make h'.config configData ≠ .ok f := by
  obtain ⟨k, hk⟩ := List.exists_mem_of_ne_nil _ hne
  obtain ⟨m, hm⟩ := hsep.all k (hkinds k hk)
  obtain ⟨-, hs⟩ := (C102_recorded_partial names h h' hsep hkinds hupd).1 k m hk hm
  have key : ∀ (l : List String) ms, k ∈ l → makeModules make h'.config configData l ≠ .ok ms := by
    intro l
    induction l with
    | nil => intro ms hk; cases hk
    | cons j l ih =>
      intro ms hkl hc
      unfold makeModules at hc
      split at hc
      · rename_i cls s hcls hset
        split at hc
        · cases hc
        · rename_i hcd
          split at hc
          · cases hc
          · split at hc
            · cases hc
            · rename_i ms' hms
              rcases List.mem_cons.1 hkl with rfl | hkl
              · rw [hs] at hset
                cases hset
                rw [hconfig k m hm] at hcd
                exact hcd rfl
              · exact ih ms' hkl hms
      · cases hc
  intro hc
  unfold configure at hc
  split at hc
  · cases hc
  · rename_i ms hms
    exact key kinds ms (hkinds k hk) hms

/-! ## C103 -/

/-- C103: of the values of all tensors of a handler, each module is given exactly those of its own
tensors, in the order of its own tensor list. -/
theorem C103_write (a b c d : List DataTensor) (ts : TensorList) (f : DataTensor → D)
    (ha : ∀ t ∈ a, t.type = .str "data") (hb : ∀ t ∈ b, t.type = .str "label")
    (hc : ∀ t ∈ c, t.type = .str "weight") (hd : ∀ t ∈ d, t.type = .str "misc")
    (oa : InOrder a) (ob : InOrder b) (oc : InOrder c) (od : InOrder d)
    (hts : TensorList.ofTensors (a ++ b ++ c ++ d) = .ok ts) (data : List D)
    (hdata : data = ts.list.map f) :
    writeData ts.list data writeOrder =
      .ok [("data", a.map f), ("label", b.map f), ("misc", d.map f), ("weight", c.map f)] := by
  subst hdata
  unfold TensorList.ofTensors at hts
  split at hts
  · rename_i hnd
    cases hts
    simp only
    rw [writeData_map]
    have hall : ∀ (k : String) (l : List DataTensor), (∀ t ∈ l, t.type = .str k) →
        l.filter (isType k) = l := by
      intro k l hl
      rw [List.filter_eq_self]
      intro t ht
      simp [isType, hl t ht]
    have hnone : ∀ (k j : String) (l : List DataTensor), (∀ t ∈ l, t.type = .str j) → j ≠ k →
        l.filter (isType k) = [] := by
      intro k j l hl hne
      rw [List.filter_eq_nil_iff]
      intro t ht
      simp [isType, hl t ht, hne]
    have h1 := filter_sorted (isType "data") hnd (m := a) (by
      simp only [List.filter_append, hall _ _ ha, hnone "data" _ _ hb (by decide),
        hnone "data" _ _ hc (by decide), hnone "data" _ _ hd (by decide), List.append_nil]
      exact List.Perm.refl _) oa
    have h2 := filter_sorted (isType "label") hnd (m := b) (by
      simp only [List.filter_append, hall _ _ hb, hnone "label" _ _ ha (by decide),
        hnone "label" _ _ hc (by decide), hnone "label" _ _ hd (by decide), List.append_nil,
        List.nil_append]
      exact List.Perm.refl _) ob
    have h3 := filter_sorted (isType "weight") hnd (m := c) (by
      simp only [List.filter_append, hall _ _ hc, hnone "weight" _ _ ha (by decide),
        hnone "weight" _ _ hb (by decide), hnone "weight" _ _ hd (by decide), List.append_nil,
        List.nil_append]
      exact List.Perm.refl _) oc
    have h4 := filter_sorted (isType "misc") hnd (m := d) (by
      simp only [List.filter_append, hall _ _ hd, hnone "misc" _ _ ha (by decide),
        hnone "misc" _ _ hb (by decide), hnone "misc" _ _ hc (by decide), List.nil_append]
      exact List.Perm.refl _) od
    simp only [writeOrder, List.map_cons, List.map_nil]
    rw [h1, h2, h3, h4]
  · cases hts

/-! ## Examples -/

namespace Ex

def tensor (name type : String) : DataTensor :=
  ⟨name, .list [], .str type, .str "float32", .bool true, .none, .bool false, .tuple [], .none, .int (-1),
    .int 0, []⟩

/-- Modules like those for cascades with systematics, and the module for no labels. -/
def dataMod : Module Nat := ⟨"d", [("data_tensors", .tensors [tensor "x_dom" "data"]),
  ("np_float_precision", .other 32)], [("config_data", 0)]⟩
def snowMod : Module Nat := ⟨"s", [("label_names", .other 7),
  ("label_tensors", .tensors [tensor "x_parameters" "label"])], [("config_data", 0)]⟩
def noLabels : Module Nat := ⟨"n", [("label_tensors", .tensors [])], [("config_data", 0)]⟩
def weightMod : Module Nat := ⟨"w", [("weight_tensors", .tensors [])], [("config_data", 0)]⟩
def miscMod : Module Nat := ⟨"m", [("misc_tensors", .tensors [])], [("config_data", 0)]⟩
def seedMod : Module Nat := ⟨"l", [("misc_tensors", .tensors [tensor "seed" "misc"])],
  [("config_data", 0)]⟩
def filterMod : Module Nat := ⟨"f", [], [("config_data", 0)]⟩

def mods (label misc : Module Nat) : Dict String (Module Nat) :=
  [("data", dataMod), ("label", label), ("weight", weightMod), ("misc", misc), ("filter", filterMod)]

theorem mods_sep (label misc : Module Nat) (hl : label = snowMod ∨ label = noLabels)
    (hm : misc = miscMod ∨ misc = seedMod) : Separate (mods label misc) := by
  refine ⟨?_, ?_, ?_⟩
  · intro k hk
    simp only [kinds, List.mem_cons, List.not_mem_nil, or_false] at hk
    rcases hk with rfl | rfl | rfl | rfl | rfl <;> exact ⟨_, rfl⟩
  · intro k m h
    have hmem := Dict.mem_of_get? h
    simp only [mods, List.mem_cons, Prod.mk.injEq, List.not_mem_nil, or_false] at hmem
    rcases hl with rfl | rfl <;> rcases hm with rfl | rfl <;>
      rcases hmem with ⟨-, rfl⟩ | ⟨-, rfl⟩ | ⟨-, rfl⟩ | ⟨-, rfl⟩ | ⟨-, rfl⟩ <;>
      (unfold Dict.Ok; decide)
  · intro j k a b key ha hb h1 h2
    have ma := Dict.mem_of_get? ha
    have mb := Dict.mem_of_get? hb
    simp only [mods, List.mem_cons, Prod.mk.injEq, List.not_mem_nil, or_false] at ma mb
    rcases hl with rfl | rfl <;> rcases hm with rfl | rfl <;>
      rcases ma with ⟨rfl, rfl⟩ | ⟨rfl, rfl⟩ | ⟨rfl, rfl⟩ | ⟨rfl, rfl⟩ | ⟨rfl, rfl⟩ <;>
      rcases mb with ⟨rfl, rfl⟩ | ⟨rfl, rfl⟩ | ⟨rfl, rfl⟩ | ⟨rfl, rfl⟩ | ⟨rfl, rfl⟩ <;>
      first
        | rfl
        | (exfalso
           simp only [dataMod, snowMod, noLabels, weightMod, miscMod, seedMod, filterMod, Dict.keys,
             List.map_cons, List.map_nil, List.mem_cons, List.not_mem_nil, or_false] at h1 h2 <;>
           first
             | (rcases h1 with rfl | rfl <;> simp at h2)
             | (subst h1; simp at h2))

/-- Seeds are asked for: the handler with the replaced misc module is like one set up with it. -/
example (c c' : Config Nat) (h : Handler Nat) (hc : assemble (mods snowMod miscMod) c = .ok h) :
    SameHandler (update ["misc"] { h with modules := mods snowMod seedMod })
      (assemble (mods snowMod seedMod) c') :=
  C102_data_partial (mods snowMod miscMod) (mods snowMod seedMod) c c' ["misc"] h
    (mods_sep _ _ (.inl rfl) (.inl rfl)) (mods_sep _ _ (.inl rfl) (.inr rfl)) hc (by decide)
    (by
      intro k hk
      rw [List.mem_singleton] at hk
      simp only [mods, Dict.get?_cons]
      simp [Ne.symm hk])
    (by
      intro k a b hk ha hb key hkey
      rw [List.mem_singleton] at hk
      subst hk
      cases ha
      cases hb
      exact hkey)

/-- There is such a handler. -/
example : ∃ h, assemble (mods snowMod miscMod) ⟨[], []⟩ = .ok h := ⟨_, rfl⟩

/-- Labels are not to be loaded: the names of the labels stay in the data of the handler. -/
example (c c' : Config Nat) (h h' f : Handler Nat) (hc : assemble (mods snowMod miscMod) c = .ok h)
    (hu : update ["label"] { h with modules := mods noLabels miscMod } = .ok h')
    (hf : assemble (mods noLabels miscMod) c' = .ok f) :
    Dict.get? h'.data "label_names" = some (.other 7) ∧ Dict.get? f.data "label_names" = none :=
  C102_stale_violated (mods snowMod miscMod) (mods noLabels miscMod) c c' ["label"] h h' f
    (mods_sep _ _ (.inl rfl) (.inl rfl)) (mods_sep _ _ (.inr rfl) (.inl rfl)) hc (by decide) hu hf
    "label_names" (.other 7) ⟨"label", by simp, snowMod, rfl, rfl⟩ (by
      rintro ⟨w, k, hk, m, hm, hg⟩
      have mm := Dict.mem_of_get? hm
      simp only [mods, List.mem_cons, Prod.mk.injEq, List.not_mem_nil, or_false] at mm
      rcases mm with ⟨-, rfl⟩ | ⟨-, rfl⟩ | ⟨-, rfl⟩ | ⟨-, rfl⟩ | ⟨-, rfl⟩ <;>
        simp [dataMod, noLabels, weightMod, miscMod, filterMod, Dict.get?] at hg)

/-- Data of two modules is written. -/
example : writeData [tensor "a" "data", tensor "b" "label", tensor "c" "data"] [1, 2, 3] writeOrder =
    .ok [("data", [1, 3]), ("label", [2]), ("misc", []), ("weight", [])] := by rfl

end Ex

end Verif.Modules
