import Verif.Build.Lemmas

/-!
# Properties of building of models, class strings and the check of source parameters: C99 to C101
-/

namespace Verif.Build
open Verif.Py
variable {Cls S Tr H M Cfg L : Type}

/-! ## C99 -/

/-- C99, models: a model is built exactly if all base sources its settings name can be loaded from their
directories or, if that is allowed, configured, each with its own transformation if it has one; and the
model is configured with exactly these base sources under their names. -/
theorem C99_model (E : Env Cls S Tr H M Cfg) (allow : Bool) (trafo : Tr) (s : ModelSettings Cfg) (m : S) :
    buildModel E allow trafo s = .ok m ↔
      ∃ c bases, E.cls s.cls = .ok c ∧
        List.Forall₂ (fun p q => p.1 = q.1 ∧ Made E allow trafo p.2 q.2) s.bases bases ∧
        (s.bases = [] ∧ E.configure c s.config trafo none = .ok m ∨
         s.bases ≠ [] ∧ E.configure c s.config trafo (some bases) = .ok m) := by
  have hlen : ∀ d : Dict String S,
      List.Forall₂ (fun p q => p.1 = q.1 ∧ Made E allow trafo p.2 q.2) s.bases d →
      (s.bases = [] ↔ d = []) := by
    intro d h
    have := h.length_eq
    rw [← List.length_eq_zero_iff, this, List.length_eq_zero_iff]
  unfold buildModel
  constructor
  · intro h
    split at h
    · cases h
    · rename_i d hd
      have hd' := (buildBases_iff _ _ _ _ _).1 hd
      split at h
      · cases h
      · rename_i c hc
        refine ⟨c, d, hc, hd', ?_⟩
        by_cases hb : s.bases = []
        · rw [(hlen d hd').1 hb] at h
          exact .inl ⟨hb, by simpa using h⟩
        · have : d.isEmpty = false := by
            simpa using fun hc => hb ((hlen d hd').2 hc)
          rw [this] at h
          exact .inr ⟨hb, by simpa using h⟩
  · rintro ⟨c, d, hc, hd, h⟩
    rw [(buildBases_iff _ _ _ _ _).2 hd]
    simp only [hc]
    rcases h with ⟨hb, h⟩ | ⟨hb, h⟩
    · rw [(hlen d hd).1 hb]
      simpa using h
    · have : d.isEmpty = false := by
        simpa using fun hc => hb ((hlen d hd).2 hc)
      rw [this]
      simpa using h

/-- C99, permission: without permission no model is built if one of its base sources has no directory to
load it from. -/
theorem C99_refused (E : Env Cls S Tr H M Cfg) (trafo : Tr) (s : ModelSettings Cfg) (name : String)
    (b : BaseSettings Cfg) (hb : (name, b) ∈ s.bases) (hdir : b.loadDir = none) (m : S) :
    buildModel E false trafo s ≠ .ok m := by
  intro h
  obtain ⟨c, bases, -, h, -⟩ := (C99_model _ _ _ _ _).1 h
  obtain ⟨l, hl⟩ : ∃ l, l = s.bases := ⟨_, rfl⟩
  rw [← hl] at h hb
  clear hl
  induction h with
  | nil => cases hb
  | cons h1 _ ih =>
    rcases List.mem_cons.1 hb with rfl | hb
    · obtain ⟨-, c, -, ⟨dir, h1, -⟩ | ⟨-, h1, -⟩⟩ := h1
      · rw [hdir] at h1; cases h1
      · cases h1
    · exact ih hb

/-- C99, managers: a manager that is not restored consists of the data handler, transformation and models
that are given; what is not given comes from the settings. A restored one comes from its directory
alone. -/
theorem C99_manager (E : Env Cls S Tr H M Cfg) (restore allow : Bool) (handler : Option H)
    (trafo : Option Tr) (models : Option (List S)) (dir : String) (s : ModelSettings Cfg) (man : M) :
    buildManager E restore allow handler trafo models dir s = .ok man ↔
      ∃ c, E.managerCls = .ok c ∧
        (restore = true ∧ E.loadManager c = .ok man ∨
         restore = false ∧ ∃ h t ms,
          (handler = some h ∨ handler = none ∧ E.handler = .ok h) ∧
          (trafo = some t ∨ trafo = none ∧ E.loadTrafo dir = .ok t) ∧
          (models = some ms ∨
            models = none ∧ ∃ m, buildModel E allow t s = .ok m ∧ ms = [m]) ∧
          E.configureManager c h ms = .ok man) := by
  unfold buildManager
  cases hc : E.managerCls with
  | error e => simp
  | ok c =>
    simp only [Except.ok.injEq, exists_eq_left']
    cases restore with
    | true => simp
    | false =>
      simp only [Bool.false_eq_true, if_false, false_and, true_and, false_or]
      have h1 : ∀ h, (handler.elim E.handler .ok = .ok h ↔
          handler = some h ∨ handler = none ∧ E.handler = .ok h) := by
        intro h; cases handler <;> simp
      have h2 : ∀ t, (trafo.elim (E.loadTrafo dir) .ok = .ok t ↔
          trafo = some t ∨ trafo = none ∧ E.loadTrafo dir = .ok t) := by
        intro h; cases trafo <;> simp
      simp only [← h1, ← h2]
      cases handler.elim E.handler .ok with
      | error e => simp
      | ok h =>
        cases trafo.elim (E.loadTrafo dir) .ok with
        | error e => simp
        | ok t =>
          cases models with
          | some ms => simp
          | none =>
            cases hm : buildModel E allow t s with
            | error e => simp [hm]
            | ok m => simp [hm]

/-- C99 fails for the model itself: without the permission it is built from scratch nevertheless. -/
theorem C99_permission_violated (E : Env Cls S Tr H M Cfg) (h : H) (t : Tr) (dir : String)
    (s : ModelSettings Cfg) (hs : s.bases = []) (c c' : Cls) (m : S) (man : M)
    (hc : E.managerCls = .ok c) (hc' : E.cls s.cls = .ok c')
    (hm : E.configure c' s.config t none = .ok m) (hman : E.configureManager c h [m] = .ok man) :
    buildManager E false false (some h) (some t) none dir s = .ok man := by
  rw [C99_manager]
  refine ⟨c, hc, .inr ⟨rfl, h, t, [m], .inl rfl, .inl rfl, .inr ⟨rfl, m, ?_, rfl⟩, hman⟩⟩
  rw [C99_model]
  exact ⟨c', [], hc', by rw [hs]; exact .nil, .inl ⟨hs, hm⟩⟩

/-- C99, loss modules: settings of one loss module give this loss module; a list gives the sum of all
loss modules of the list, in their order. -/
theorem C99_loss (make : String → Cfg → Except Err L) (multi : List L → Except Err L)
    (s : (String × Cfg) ⊕ List (String × Cfg)) (x : L) :
    buildLoss make multi s = .ok x ↔
      (∃ c cfg, s = .inl (c, cfg) ∧ make c cfg = .ok x) ∨
      (∃ l xs, s = .inr l ∧ List.Forall₂ (fun s x => make s.1 s.2 = .ok x) l xs ∧
        multi xs = .ok x) := by
  cases s with
  | inl p =>
    obtain ⟨c, cfg⟩ := p
    simp [buildLoss]
  | inr l =>
    unfold buildLoss
    simp only [reduceCtorEq, false_and, exists_false, Sum.inr.injEq, false_or]
    constructor
    · intro h
      split at h
      · cases h
      · rename_i xs hxs
        exact ⟨l, xs, rfl, (buildLosses_iff _ _ _).1 hxs, h⟩
    · rintro ⟨_, xs, rfl, h1, h2⟩
      rw [(buildLosses_iff _ _ _).2 h1]
      exact h2

/-- Two base sources, one of which is loaded and one configured with its own transformation. -/
def exEnv : Env String String String Nat (Nat × List String) Nat where
  cls := .ok
  load c d := .ok (c ++ "@" ++ d)
  configure c k t bases := .ok (c ++ "(" ++ toString k ++ "," ++ t ++ "," ++
    toString ((bases.getD []).map fun p => p.1 ++ "=" ++ p.2) ++ ")")
  loadTrafo d := .ok d
  handler := .ok 1
  managerCls := .ok "M"
  loadManager _ := .ok (0, [])
  configureManager _ h ms := .ok (h, ms)

def exModel : ModelSettings Nat :=
  ⟨"Muon", [("track", ⟨"Track", some "t/dir", none, 4⟩), ("cascade", ⟨"Casc", none, some "own", 5⟩)], 7⟩

example : buildModel exEnv true "tr" exModel =
    .ok "Muon(7,tr,[track=Track@t/dir, cascade=Casc(5,own,[])])" := by rfl

example (m : String) : buildModel exEnv false "tr" exModel ≠ .ok m :=
  C99_refused exEnv "tr" exModel "cascade" ⟨"Casc", none, some "own", 5⟩ (by simp [exModel]) rfl m

example : buildManager exEnv false false (some 3) (some "tr") none "x" ⟨"Muon", [], 7⟩ =
    .ok (3, ["Muon(7,tr,[])"]) :=
  C99_permission_violated exEnv 3 "tr" "x" ⟨"Muon", [], 7⟩ rfl "M" "Muon" _ _ rfl rfl rfl rfl

/-! ## C100 -/

/-- C100, what is checked: the check accepts exactly if all sources have the number of parameters of
their bases, and the parameters of each, unless there are none, depend on the parameters of the multi
source. Missing: that they depend on nothing else, and that each of them does, see
`C100_only_violated` and `C100_column_violated`. -/
theorem C100_check_partial (input : String) (fresh : Nat → Nat → String)
    (hfresh : ∀ i j, fresh i j ≠ input) (params : Dict String SourceParams)
    (expected : Dict String Nat) (sources : List (String × String)) :
    checkSources false input fresh params expected sources = .ok () ↔
      ∀ name base, (name, base) ∈ sources → ∃ n p, Dict.get? expected base = some n ∧
        Dict.get? params name = some p ∧ p.columns = n ∧ (n = 0 ∨ DependsOn input p.tensor) := by
  induction sources with
  | nil => simp [checkSources]
  | cons q rest ih =>
    obtain ⟨name, base⟩ := q
    have hsplit : (∀ nm b, (nm, b) ∈ (name, base) :: rest → ∃ n p, Dict.get? expected b = some n ∧
        Dict.get? params nm = some p ∧ p.columns = n ∧ (n = 0 ∨ DependsOn input p.tensor)) ↔
        (∃ n p, Dict.get? expected base = some n ∧
          Dict.get? params name = some p ∧ p.columns = n ∧ (n = 0 ∨ DependsOn input p.tensor)) ∧
        checkSources false input fresh params expected rest = .ok () := by
      rw [ih]
      constructor
      · intro h; exact ⟨h _ _ (by simp), fun nm b hm => h nm b (by simp [hm])⟩
      · rintro ⟨h1, h2⟩ nm b hm
        rcases List.mem_cons.1 hm with h | h
        · cases h; exact h1
        · exact h2 nm b h
    rw [hsplit]
    conv_lhs => unfold checkSources
    cases he : Dict.get? expected base with
    | none => simp
    | some n =>
      cases hp : Dict.get? params name with
      | none => simp
      | some p =>
        rw [exists_some (Q := fun (n : Nat) (p : SourceParams) => p.columns = n ∧ (n = 0 ∨ DependsOn input p.tensor))]
        simp only [Bool.false_eq_true, if_false]
        by_cases hcol : p.columns = n
        · simp only [hcol, ne_eq, not_true_eq_false, if_false, true_and]
          have hm := fun x => mem_topNodes input p.tensor x
          by_cases hd : DependsOn input p.tensor
          · have h1 : topNodes input p.tensor ≠ [] ∧
                (topNodes input p.tensor).all (fun x => x == input) = true := by
              constructor
              · exact List.ne_nil_of_mem ((hm input).2 ⟨rfl, hd⟩)
              · rw [List.all_eq_true]
                intro x hx
                simp [((hm x).1 hx).1]
            rw [if_pos h1]
            simp [hd]
          · have h1 : ¬ (topNodes input p.tensor ≠ [] ∧
                (topNodes input p.tensor).all (fun x => x == input) = true) := by
              rintro ⟨h, -⟩
              obtain ⟨x, hx⟩ := List.exists_mem_of_ne_nil _ h
              exact hd ((hm x).1 hx).2
            rw [if_neg h1]
            have hcc := checkColumns_iff (t := p.tensor) hfresh (List.range n)
            rw [List.range_eq_nil] at hcc
            cases hres : checkColumns input fresh p.tensor (List.range n) with
            | error e =>
              rw [hres] at hcc
              simp only [reduceCtorEq, false_iff] at hcc
              simp [hcc]
            | ok u =>
              rw [hres] at hcc
              simp only [true_iff] at hcc
              simp [hcc]
        · simp [hcol]

/-- C100 fails for parameters that also depend on something else, such as variables: the check accepts
them. -/
theorem C100_only_violated (input : String) (fresh : Nat → Nat → String)
    (hfresh : ∀ i j, fresh i j ≠ input) (name op : String) (others : List Tensor) (n : Nat)
    (hothers : ∃ v, Tensor.node v false [] ∈ others) :
    checkSources false input fresh
      [(name, ⟨n, .node op false (.node input true [] :: others)⟩)] [("base", n)] [(name, "base")]
      = .ok () ∧
    ¬ OnlyBasedOn input (.node op false (.node input true [] :: others)) := by
  constructor
  · rw [C100_check_partial _ _ hfresh]
    intro nm b hm
    simp only [List.mem_singleton, Prod.mk.injEq] at hm
    obtain ⟨rfl, rfl⟩ := hm
    refine ⟨n, ⟨n, .node op false (.node input true [] :: others)⟩, rfl, ?_, rfl, .inr (.step (List.mem_cons_self) .leaf)⟩
    simp [Dict.get?]
  · obtain ⟨v, hv⟩ := hothers
    intro h
    cases h with
    | step _ h =>
      have := h _ (List.mem_cons_of_mem _ hv)
      cases this with
      | step hne _ => exact hne rfl

/-- C100 fails for single parameters: if one parameter of a source depends on the parameters of the multi
source, the others need not. -/
theorem C100_column_violated (input : String) (fresh : Nat → Nat → String)
    (hfresh : ∀ i j, fresh i j ≠ input) (name op : String) (columns : List Tensor) (t : Tensor)
    (ht : t ∈ columns) (hdep : DependsOn input t) :
    checkSources false input fresh [(name, ⟨columns.length, .node op false columns⟩)]
      [("base", columns.length)] [(name, "base")] = .ok () := by
  rw [C100_check_partial _ _ hfresh]
  intro nm b hm
  simp only [List.mem_singleton, Prod.mk.injEq] at hm
  obtain ⟨rfl, rfl⟩ := hm
  refine ⟨_, ⟨columns.length, .node op false columns⟩, rfl, ?_, rfl, .inr (.step ht hdep)⟩
  simp [Dict.get?]

/-- C100 fails in eager mode, where only the numbers of parameters are checked. -/
theorem C100_eager_violated (input : String) (fresh : Nat → Nat → String)
    (params : Dict String SourceParams) (expected : Dict String Nat)
    (sources : List (String × String)) :
    checkSources true input fresh params expected sources = .ok () ↔
      ∀ name base, (name, base) ∈ sources → ∃ n p, Dict.get? expected base = some n ∧
        Dict.get? params name = some p ∧ p.columns = n := by
  induction sources with
  | nil => simp [checkSources]
  | cons q rest ih =>
    obtain ⟨name, base⟩ := q
    have hsplit : (∀ nm b, (nm, b) ∈ (name, base) :: rest → ∃ n p, Dict.get? expected b = some n ∧
        Dict.get? params nm = some p ∧ p.columns = n) ↔
        (∃ n p, Dict.get? expected base = some n ∧
          Dict.get? params name = some p ∧ p.columns = n) ∧
        checkSources true input fresh params expected rest = .ok () := by
      rw [ih]
      constructor
      · intro h; exact ⟨h _ _ (by simp), fun nm b hm => h nm b (by simp [hm])⟩
      · rintro ⟨h1, h2⟩ nm b hm
        rcases List.mem_cons.1 hm with h | h
        · cases h; exact h1
        · exact h2 nm b h
    rw [hsplit]
    conv_lhs => unfold checkSources
    cases he : Dict.get? expected base with
    | none => simp
    | some n =>
      cases hp : Dict.get? params name with
      | none => simp
      | some p =>
        rw [exists_some (Q := fun (n : Nat) (p : SourceParams) => p.columns = n)]
        by_cases hcol : p.columns = n <;> simp [hcol]

/-- A cascade with all parameters of the input is accepted, one with other parameters is refused. -/
example : checkSources false "in:0" (fun i j => "s" ++ toString (i + j))
    [("c", ⟨2, .node "concat:0" false [.node "in:0" true [], .node "k:0" true []]⟩)]
    [("cascade", 2)] [("c", "cascade")] = .ok () := by rfl
example : checkSources false "in:0" (fun i j => "s" ++ toString (i + j))
    [("c", ⟨2, .node "concat:0" false [.node "w:0" false [], .node "k:0" true []]⟩)]
    [("cascade", 2)] [("c", "cascade")] = .error .valueError := by rfl

/-! ## C101 -/

/-- C101, for classes at the top level of modules other than the built-in ones: the class of an object
can be loaded from its class string. -/
theorem C101_load_partial (W : World) (c : Class) (m : List Char) (hm : c.module = some m)
    (hb : m ≠ "builtins".toList) (hne : m ≠ []) (hdot : '.' ∉ c.name) (hdef : W.Defines c) :
    loadClass W (classString c) = .ok c := by
  obtain ⟨m', attr, h1, h2, h3⟩ := hdef
  rw [hm] at h1
  cases h1
  unfold loadClass classString
  simp only [hm, if_neg hb]
  have hsp := split_append '.' c.name hdot m
  rw [hsp]
  rw [List.dropLast_concat, join_split]
  have he : m.isEmpty = false := by simpa using hne
  simp [he, h2, h3]

/-- C101: different classes at the top level of modules have different class strings. -/
theorem C101_distinct_partial (a b : Class) (ma mb : List Char) (ha : a.module = some ma)
    (hb : b.module = some mb) (hat : a.outer = []) (hbt : b.outer = [])
    (hna : ma ≠ "builtins".toList) (hnb : mb ≠ "builtins".toList) (hda : '.' ∉ a.name)
    (hdb : '.' ∉ b.name) (h : classString a = classString b) : a = b := by
  unfold classString at h
  simp only [ha, hb, if_neg hna, if_neg hnb] at h
  have h1 := congrArg (split '.') h
  rw [split_append '.' _ hda, split_append '.' _ hdb] at h1
  obtain ⟨h2, h3⟩ := List.append_inj' h1 rfl
  have h4 := congrArg (join '.') h2
  rw [join_split, join_split] at h4
  obtain ⟨am, ao, an⟩ := a
  obtain ⟨bm, bo, bn⟩ := b
  simp only at ha hb hat hbt h3
  simp only [List.cons.injEq, and_true] at h3
  rw [ha, hb, hat, hbt, h3, h4]

/-- C101 fails for classes inside of others: their class string leads to a class at the top level, or to
nothing. -/
theorem C101_nested_violated (W : World) (c : Class) (hnested : c.outer ≠ [])
    (htop : ∀ m attr n d, W m = some attr → attr n = some d → d.outer = []) :
    loadClass W (classString c) ≠ .ok c := by
  unfold loadClass
  simp only
  intro h
  split at h
  · cases h
  · split at h
    · cases h
    · rename_i attr ha
      split at h
      · cases h
      · rename_i d hd
        cases h
        exact hnested (htop _ _ _ _ ha hd)

/-- C101 fails for classes inside of others: they have the class string of a class at the top level. -/
theorem C101_same_violated (c : Class) : classString { c with outer := [] } = classString c := rfl

/-- C101 fails for built-in classes. -/
theorem C101_builtin_violated (W : World) (c : Class) (hdot : '.' ∉ c.name)
    (hm : c.module = none ∨ c.module = some "builtins".toList) :
    loadClass W (classString c) = .error .valueError := by
  have : classString c = c.name := by
    unfold classString
    rcases hm with h | h <;> simp [h]
  rw [this]
  unfold loadClass
  simp [split_no_dot hdot, join]

/-- The class `A` of the module `p.q`, which has it, and a class in a class. -/
def exClass : Class := ⟨some "p.q".toList, [], "A".toList⟩
def exWorld : World := fun m =>
  if m = "p.q".toList then some fun n => if n = "A".toList then some exClass else none else none

example : classString exClass = "p.q.A".toList := by decide
example : loadClass exWorld "p.q.A".toList = .ok exClass :=
  C101_load_partial exWorld exClass "p.q".toList rfl (by decide) (by decide) (by decide)
    ⟨_, _, rfl, if_pos rfl, if_pos rfl⟩
example : loadClass exWorld (classString ⟨some "p.q".toList, ["B".toList], "A".toList⟩) = .ok exClass := by
  rfl
example : loadClass exWorld "dict".toList = .error .valueError :=
  C101_builtin_violated exWorld ⟨some "builtins".toList, [], "dict".toList⟩ (by decide) (.inr rfl)

end Verif.Build
