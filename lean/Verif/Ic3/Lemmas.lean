import Verif.Ic3.Spec
import Verif.Tray.Props
import Verif.Output.Props

/-!
# Lemmas for C109 and C110
-/

namespace Verif.Ic3
open Verif.Py Verif.Reco

variable {V : Type}

theorem reco_inj {a b : String} (h : "reco_" ++ a = "reco_" ++ b) : a = b := by
  have h' := congrArg String.toList h
  simp only [String.toList_append, List.append_cancel_left_eq] at h'
  exact String.toList_inj.1 h'

theorem reco_ne (s : String) : "reco_" ++ s ≠ "reco" ∧ "reco_" ++ s ≠ "covariance" ∧
    "reco_" ++ s ≠ "GoodnessOfFit" ∧ "reco_" ++ s ≠ "CircularizedAngularUncertainty" := by
  refine ⟨?_, ?_, ?_, ?_⟩ <;>
  · intro h
    have h' := congrArg String.toList h
    simp [String.toList_append] at h'

theorem add_ok_iff (t t' : Tray V) (n : String) (b : Except Err (Module V)) :
    t.add (.ok ()) (some n) b = .ok t' ↔
      n ∉ t.names ∧ ∃ m, b = .ok m ∧ t' = ⟨t.names ++ [n], t.modules ++ [m]⟩ := by
  obtain ⟨_, h2, h3, h4⟩ := C41_add t (.ok ()) (some n) b
  have hn : nameFor t.names.length (some n) = n := rfl
  rw [hn] at h2 h3 h4
  by_cases hm : n ∈ t.names
  · rw [h2 rfl hm]; simp [hm]
  · cases b with
    | error e => rw [h3 rfl hm e rfl]; simp
    | ok m =>
      rw [h4 rfl hm m rfl]
      constructor
      · intro h; cases h; exact ⟨hm, m, rfl, rfl⟩
      · rintro ⟨_, m', h, rfl⟩; cases h; rfl

theorem addRecos_ok_iff (B : Bodies V) (P : Params) (M : Manager) (fit : List Bool) :
    ∀ (ss : List String) (t t' : Tray V), addRecos B P M fit ss t = .ok t' ↔
      (ss.Nodup ∧ (∀ s ∈ ss, "reco_" ++ s ∉ t.names) ∧
        ∀ s ∈ ss, ∃ m, buildReconstruction B P M fit s = .ok m) ∧
      t' = ⟨t.names ++ ss.map (fun s => "reco_" ++ s), t.modules ++ ss.map (reconstruction B)⟩
  | [], t, t' => by
    simp only [addRecos, List.map_nil, List.append_nil]
    constructor
    · intro h; cases h; simp
    · rintro ⟨_, rfl⟩; rfl
  | s :: ss, t, t' => by
    rw [addRecos]
    have hb : ∀ m, buildReconstruction B P M fit s = .ok m → m = reconstruction B s := by
      intro m h
      unfold buildReconstruction at h
      simp only [bind, Except.bind, pure, Except.pure] at h
      split at h
      · cases h
      · split at h
        · cases h
        · cases h; rfl
    cases ha : t.add (.ok ()) (some ("reco_" ++ s)) (buildReconstruction B P M fit s) with
    | error e =>
      simp only [reduceCtorEq, false_iff]
      rintro ⟨⟨_, h2, h3⟩, _⟩
      obtain ⟨m, hm⟩ := h3 s (by simp)
      have := (add_ok_iff t ⟨t.names ++ ["reco_" ++ s], t.modules ++ [m]⟩ _ _).2
        ⟨h2 s (by simp), m, hm, rfl⟩
      rw [this] at ha; cases ha
    | ok t1 =>
      obtain ⟨h1, m, hm, rfl⟩ := (add_ok_iff _ _ _ _).1 ha
      simp only
      rw [addRecos_ok_iff B P M fit ss]
      have := hb m hm
      subst this
      simp only [List.append_assoc, List.singleton_append, List.map_cons, List.nodup_cons,
        List.mem_cons, forall_eq_or_imp, List.mem_append, not_or]
      constructor
      · rintro ⟨⟨h4, h5, h6⟩, rfl⟩
        refine ⟨⟨⟨?_, h4⟩, ⟨h1, fun x hx => (h5 x hx).1⟩, ⟨_, hm⟩, h6⟩, rfl⟩
        intro hs
        exact (h5 s hs).2.1 rfl
      · rintro ⟨⟨⟨h4, h5⟩, ⟨_, h6⟩, _, h7⟩, rfl⟩
        refine ⟨⟨h5, fun x hx => ⟨h6 x hx, ?_, by simp⟩, h7⟩, rfl⟩
        intro h
        have := reco_inj h
        subst this
        exact h4 hx

/-! ## Initializers -/

theorem known_iff (l : List String) (n : String) : known l n = .ok () ↔ n ∈ l := by
  unfold known
  by_cases h : n ∈ l <;> simp [h]

theorem functions_eq (a : Tray.ModuleArgs) : functions a = .ok () ↔
    ∃ fs, Tray.alone (fun _ _ => ()) a = .ok fs := by
  unfold functions Tray.alone
  cases (Tray.initModule (fun _ _ => ()) (Tray.State.new Unit) a).1 <;> simp

theorem functions_reco (fit : List Bool) (trafo : Bool) (p i : String) :
    functions (.reconstruction fit trafo p i) = .ok () ↔
      Tray.lower i ∈ ["scipy", "shog", "tfp", "spherical_opt"] := by
  rw [functions_eq]
  obtain ⟨h1, h2, h3⟩ := Tray.C104_reconstruction (fun _ _ => ()) fit trafo p i
  constructor
  · rintro ⟨fs, h⟩
    by_contra hn
    rw [h3 hn] at h; cases h
  · intro h
    by_cases hl : Tray.lower i = "spherical_opt"
    · exact ⟨_, h2 hl⟩
    · refine ⟨_, h1 ?_⟩
      simp only [List.mem_cons, List.not_mem_nil, or_false] at h ⊢
      rcases h with h | h | h | h
      · exact .inl h
      · exact .inr (.inl h)
      · exact .inr (.inr h)
      · exact absurd h hl

theorem functions_cov (fit : List Bool) (trafo : Bool) (p : String) :
    functions (.covariance fit trafo p) = .ok () ↔ ∀ b ∈ fit, b = true := by
  rw [functions_eq, (Tray.C104_others (fun _ _ => ()) fit trafo p "" true).1]
  split <;> simp_all

theorem functions_gof (fit : List Bool) (trafo : Bool) (p : String) (perDom : Bool) :
    functions (.goodness fit trafo p perDom) = .ok () := by
  rw [functions_eq, (Tray.C104_others (fun _ _ => ()) fit trafo p "" perDom).2.2.2.1]
  exact ⟨_, rfl⟩

theorem functions_circ (fit : List Bool) (trafo : Bool) (p : String) (z a : Nat)
    (hz : z < fit.length) (ha : a < fit.length) :
    functions (.circular fit trafo p z a) = .ok () := by
  rw [functions_eq, Tray.C104_circular _ _ _ _ _ _ hz ha]
  exact ⟨_, rfl⟩

theorem buildReconstruction_ok_iff (B : Bodies V) (P : Params) (M : Manager) (fit : List Bool)
    (s : String) (m : Module V) : buildReconstruction B P M fit s = .ok m ↔
      (s ∈ M.tensors ∧ Tray.lower P.interface ∈ ["scipy", "shog", "tfp", "spherical_opt"]) ∧
      m = reconstruction B s := by
  rw [← known_iff, ← functions_reco fit P.trafo "x_parameters"]
  unfold buildReconstruction
  simp only [bind, Except.bind, pure, Except.pure]
  cases known M.tensors s with
  | error e => simp
  | ok u =>
    cases functions (.reconstruction fit P.trafo "x_parameters" P.interface) with
    | error e => simp
    | ok u => simp only [true_and, Except.ok.injEq]; exact eq_comm

theorem buildCovariance_ok_iff (B : Bodies V) (P : Params) (fit : List Bool) (m : Module V) :
    buildCovariance B P fit = .ok m ↔ (∀ b ∈ fit, b = true) ∧ m = covariance B "reco" := by
  rw [← functions_cov fit P.trafo "x_parameters"]
  unfold buildCovariance
  simp only [bind, Except.bind, pure, Except.pure]
  cases functions (.covariance fit P.trafo "x_parameters") with
  | error e => simp
  | ok u => simp only [true_and, Except.ok.injEq]; exact eq_comm

theorem buildGoodness_ok_iff (B : Bodies V) (P : Params) (M : Manager) (fit : List Bool)
    (gof : Dict String Arg) (ck : Option String) (m : Module V) :
    buildGoodness B P M fit gof ck = .ok m ↔
      ((∀ k ∈ Dict.keys gof, k ∈ gofKeywords) ∧ "x_pulses" ∈ M.tensors ∧
        "x_pulses_ids" ∈ M.tensors ∧ "x_dom_charge" ∈ M.tensors ∧ "time" ∈ M.names) ∧
      m = goodness B "reco" ck (((Dict.get? gof "reconstruct_samples").map Arg.truth).getD true)
        (((Dict.get? gof "add_per_dom_calculation").map Arg.truth).getD true) := by
  rw [← known_iff M.tensors "x_pulses", ← known_iff M.tensors "x_pulses_ids",
    ← known_iff M.tensors "x_dom_charge", ← known_iff M.names "time"]
  unfold buildGoodness
  have hk : (Dict.keys gof).all (fun k => gofKeywords.contains k) = true ↔
      ∀ k ∈ Dict.keys gof, k ∈ gofKeywords := by simp
  by_cases h : (Dict.keys gof).all (fun k => gofKeywords.contains k) = true
  · rw [if_neg (by simpa using h)]
    rw [and_iff_right (hk.1 h)]
    simp only [bind, Except.bind, pure, Except.pure, functions_gof]
    cases known M.tensors "x_pulses" <;> cases known M.tensors "x_pulses_ids" <;>
      cases known M.tensors "x_dom_charge" <;> cases known M.names "time" <;>
      simp [eq_comm]
  · rw [if_pos (by simpa using h)]
    simp only [bind, Except.bind, throw, throwThe, MonadExceptOf.throw, reduceCtorEq, false_iff]
    rintro ⟨⟨h', _⟩, _⟩
    exact h (hk.2 h')

theorem mapped_iff (M : Manager) (hn : M.names.Nodup) (key : String) :
    (∃ i, mapped M key = .ok i) ↔ Mapped M key := by
  unfold mapped Mapped
  cases M.mapping with
  | none => simp
  | some m =>
    simp only [Option.some.injEq]
    cases hm : Dict.get? m key with
    | none => simp [hm]
    | some p =>
      simp only
      cases hp : Dict.get? (Output.nameDict M.names 0 []) p with
      | none =>
        simp only [reduceCtorEq, exists_false, false_iff]
        rintro ⟨m', p', rfl, h2, h3⟩
        rw [hm] at h2; cases h2
        obtain ⟨i, hi⟩ := List.mem_iff_getElem?.1 h3
        rw [(Output.get?_nameDict M.names 0 [] hn p i).2 (by simpa using hi)] at hp
        cases hp
      | some i =>
        simp only [Except.ok.injEq, exists_eq', true_iff]
        refine ⟨m, p, rfl, hm, ?_⟩
        have := (Output.get?_nameDict M.names 0 [] hn p i).1 hp
        simp at this
        exact List.mem_of_getElem? this

theorem mapped_lt {M : Manager} (hn : M.names.Nodup) {key : String} {i : Nat}
    (h : mapped M key = .ok i) : i < M.names.length := by
  unfold mapped at h
  cases hm : M.mapping with
  | none => rw [hm] at h; cases h
  | some m =>
    rw [hm] at h
    simp only at h
    cases hk : Dict.get? m key with
    | none => rw [hk] at h; cases h
    | some p =>
      rw [hk] at h
      simp only at h
      cases hp : Dict.get? (Output.nameDict M.names 0 []) p with
      | none => rw [hp] at h; cases h
      | some j =>
        rw [hp] at h
        cases h
        have := (Output.get?_nameDict M.names 0 [] hn p i).1 hp
        simp at this
        exact (List.getElem?_eq_some_iff.1 this).1

theorem buildCircular_ok_iff (B : Bodies V) (P : Params) (M : Manager) (hn : M.names.Nodup)
    (fit : List Bool) (hl : fit.length = M.names.length) (ck : Option String) (m : Module V) :
    buildCircular B P M fit ck = .ok m ↔
      (Mapped M "zenith" ∧ Mapped M "azimuth") ∧ m = circular B fit "reco" ck := by
  rw [← mapped_iff M hn, ← mapped_iff M hn]
  unfold buildCircular
  simp only [bind, Except.bind, pure, Except.pure]
  cases hz : mapped M "zenith" with
  | error e => simp
  | ok z =>
    cases ha : mapped M "azimuth" with
    | error e => simp
    | ok a =>
      simp only
      rw [functions_circ fit P.trafo "x_parameters" z a (by rw [hl]; exact mapped_lt hn hz)
        (by rw [hl]; exact mapped_lt hn ha)]
      simp [eq_comm]

theorem logNames_ok_iff : ∀ (names : List String) (logs : List Bool),
    (∃ l, Output.logNames names logs = .ok l) ↔ names.length ≤ logs.length
  | [], _ => by simp [Output.logNames]
  | _ :: _, [] => by simp [Output.logNames]
  | n :: names, b :: logs => by
    have ih := logNames_ok_iff names logs
    rw [Output.logNames]
    cases h : Output.logNames names logs with
    | error e =>
      rw [h] at ih
      simp at ih
      simp [ih]
    | ok l =>
      rw [h] at ih
      simp at ih
      simp [ih]

theorem keys_fillGof (d : Dict String Arg) (k : String) : k ∈ Dict.keys (fillGof d) ↔
    k ∈ Dict.keys d ∨ k = "reconstruct_samples" ∨ k = "add_per_dom_calculation" := by
  unfold fillGof
  by_cases h1 : Dict.has d "reconstruct_samples" = true
  · simp only [h1, if_true]
    by_cases h2 : Dict.has d "add_per_dom_calculation" = true
    · simp only [h2, if_true]
      rw [Dict.has_iff] at h1 h2
      constructor
      · exact Or.inl
      · rintro (h | rfl | rfl) <;> assumption
    · simp only [h2, if_false, Bool.false_eq_true]
      rw [Dict.mem_keys_set]
      rw [Dict.has_iff] at h1
      constructor
      · rintro (h | h) <;> simp_all
      · rintro (h | rfl | rfl) <;> simp_all
  · simp only [h1, if_false, Bool.false_eq_true]
    by_cases h2 : Dict.has (Dict.set d "reconstruct_samples" (.flag true))
        "add_per_dom_calculation" = true
    · simp only [h2, if_true]
      rw [Dict.has_iff, Dict.mem_keys_set] at h2
      rw [Dict.mem_keys_set]
      have h2' : "add_per_dom_calculation" ∈ Dict.keys d := by
        rcases h2 with h | h
        · exact absurd h (by decide)
        · exact h
      constructor
      · rintro (h | h) <;> simp_all
      · rintro (h | rfl | rfl) <;> simp_all
    · simp only [h2, if_false, Bool.false_eq_true]
      rw [Dict.mem_keys_set, Dict.mem_keys_set]
      tauto

theorem get_fillGof (d : Dict String Arg) (k : String) : Dict.get? (fillGof d) k =
    match Dict.get? d k with
    | some v => some v
    | none => if k = "reconstruct_samples" ∨ k = "add_per_dom_calculation" then some (.flag true)
      else none := by
  have e : ∀ (d : Dict String Arg) (x : String), Dict.get?
      (if Dict.has d x then d else Dict.set d x (.flag true)) k =
      match Dict.get? d k with
      | some v => some v
      | none => if k = x then some (.flag true) else none := by
    intro d x
    unfold Dict.has
    by_cases hx : (Dict.get? d x).isSome = true
    · rw [if_pos hx]
      by_cases hk : k = x
      · subst hk
        obtain ⟨v, hv⟩ := Option.isSome_iff_exists.1 hx
        rw [hv]
      · rw [if_neg hk]; cases Dict.get? d k <;> rfl
    · rw [if_neg hx, Dict.get?_set]
      by_cases hk : k = x
      · subst hk
        rw [if_pos rfl, if_pos rfl]
        have : Dict.get? d k = none := by simpa using hx
        rw [this]
      · rw [if_neg (fun h => hk h.symm), if_neg hk]; cases Dict.get? d k <;> rfl
  unfold fillGof
  simp only
  rw [e, e]
  cases Dict.get? d k with
  | some v => rfl
  | none =>
    by_cases h1 : k = "reconstruct_samples"
    · simp [h1]
    · simp [h1]

/-! ## Configure -/

theorem bind_ok_iff {α β : Type} (x : Except Err α) (f : α → Except Err β) (b : β) :
    x >>= f = .ok b ↔ ∃ a, x = .ok a ∧ f a = .ok b := by
  cases x with
  | error e => simp [bind, Except.bind]
  | ok a => simp [bind, Except.bind]

/-- The modules of the tray. -/
def trayModules (B : Bodies V) (P : Params) (fit : List Bool) : List (Module V) :=
  P.seeds.list.map (reconstruction B) ++
    [selectBest B.less (P.seeds.list.map fun s => "reco_" ++ s)] ++
    (if P.addCov then [covariance B "reco"] else []) ++
    (if P.addGof then [goodness B "reco" (covKey P)
      (((Dict.get? (fillGof P.gof) "reconstruct_samples").map Arg.truth).getD true)
      (((Dict.get? (fillGof P.gof) "add_per_dom_calculation").map Arg.truth).getD true)] else []) ++
    (if P.addCirc then [circular B fit "reco" (covKey P)] else [])

theorem opt_add_iff (b : Bool) (t t' : Tray V) (n : String) (build : Except Err (Module V))
    (C : Prop) (m : Module V) (hb : ∀ m', build = .ok m' ↔ C ∧ m' = m) :
    addIf b t n build = .ok t' ↔
      (b = true → n ∉ t.names ∧ C) ∧ t' = ⟨t.names ++ (if b then [n] else []),
        t.modules ++ (if b then [m] else [])⟩ := by
  unfold addIf
  cases b with
  | false =>
    simp only [Bool.false_eq_true, if_false, false_implies, true_and, List.append_nil,
      Except.ok.injEq]
    exact eq_comm
  | true =>
    simp only [if_true, true_implies]
    rw [add_ok_iff]
    constructor
    · rintro ⟨h1, m', h2, rfl⟩
      obtain ⟨h3, rfl⟩ := (hb m').1 h2
      exact ⟨⟨h1, h3⟩, rfl⟩
    · rintro ⟨⟨h1, h2⟩, rfl⟩
      exact ⟨h1, m, (hb m).2 ⟨h2, rfl⟩, rfl⟩

theorem all_fitted_iff {P : Params} {names : List String} {fit : List Bool}
    (h : Output.FitOk names P.fitDefault P.fitDict fit) :
    (∀ b ∈ fit, b = true) ↔ ∀ n ∈ names, Fitted P n := by
  obtain ⟨hl, hf⟩ := h
  constructor
  · intro h n hn
    obtain ⟨i, hi⟩ := List.mem_iff_getElem?.1 hn
    have := hf i n hi
    unfold Fitted
    have hm : (Dict.get? P.fitDict n).getD P.fitDefault ∈ fit := List.mem_of_getElem? this
    exact h _ hm
  · intro h b hb
    obtain ⟨i, hi⟩ := List.mem_iff_getElem?.1 hb
    have hlt : i < names.length := by
      rw [← hl]; exact (List.getElem?_eq_some_iff.1 hi).1
    have := hf i names[i] (List.getElem?_eq_getElem hlt)
    rw [this] at hi
    cases hi
    exact h _ (List.getElem_mem hlt)

theorem configure_ok_iff (B : Bodies V) (P : Params)
    (setup : List String → List String → Except Err Manager) (M : Manager)
    (hs : setup (managerDirs P) P.seeds.list = .ok M) (hn : M.names.Nodup) (hf : Dict.Ok P.fitDict)
    (c : Cfg V) : configure B P setup = .ok c ↔ Accepted P M ∧ ∃ logs fit,
      Output.logNames M.names M.logs = .ok logs ∧
      Output.fitList M.names P.fitDefault P.fitDict = .ok fit ∧
      c = ⟨fillGof P.gof, M.mapping, logs, fit, M.names, ⟨modulesOf P, trayModules B P fit⟩⟩ := by
  have hfit : ∀ fit, Output.fitList M.names P.fitDefault P.fitDict = .ok fit →
      (∀ n ∈ Dict.keys P.fitDict, n ∈ M.names) ∧
        Output.FitOk M.names P.fitDefault P.fitDict fit := by
    intro fit h
    have hk : ∀ q ∈ P.fitDict, q.1 ∈ M.names := by
      by_contra hc
      push Not at hc
      rw [Output.C76_unknown hn P.fitDefault hc] at h
      cases h
    refine ⟨?_, ?_⟩
    · intro n hn'
      obtain ⟨q, hq, rfl⟩ := List.mem_map.1 hn'
      exact hk q hq
    · obtain ⟨l, h1, h2⟩ := Output.C76_fit hn P.fitDefault hf hk
      rw [h1] at h; cases h
      exact h2
  unfold configure
  simp only [bind_ok_iff, hs, Except.ok.injEq, exists_eq_left']
  constructor
  · rintro ⟨logs, h1, fit, h2, t1, h3, t2, h4, t3, h5, t4, h6, t5, h7, h8⟩
    obtain ⟨hk, hfo⟩ := hfit fit h2
    obtain ⟨⟨a1, a2, a3⟩, rfl⟩ := (addRecos_ok_iff B P M fit _ _ _).1 h3
    obtain ⟨b1, m, b2, rfl⟩ := (add_ok_iff _ _ _ _).1 h4
    cases b2
    obtain ⟨c1, rfl⟩ := (opt_add_iff _ _ _ _ _ _ _ (buildCovariance_ok_iff B P fit)).1 h5
    obtain ⟨d1, rfl⟩ := (opt_add_iff _ _ _ _ _ _ _ (buildGoodness_ok_iff B P M fit _ _)).1 h6
    obtain ⟨e1, rfl⟩ := (opt_add_iff _ _ _ _ _ _ _
      (buildCircular_ok_iff B P M hn fit hfo.1 _)).1 h7
    simp only [pure, Except.pure, Except.ok.injEq] at h8
    refine ⟨⟨(logNames_ok_iff _ _).1 ⟨logs, h1⟩, hk, a1, ?_, ?_, ?_, ?_⟩, logs, fit, h1, h2, ?_⟩
    · intro s hs'
      obtain ⟨m, hm⟩ := a3 s hs'
      exact ((buildReconstruction_ok_iff B P M fit s m).1 hm).1
    · intro h
      exact (all_fitted_iff hfo).1 (c1 h).2
    · intro h
      obtain ⟨g1, g2, g3, g4, g5⟩ := (d1 h).2
      refine ⟨fun k hk' => ?_, by simp [g2, g3, g4], g5⟩
      exact g1 k ((keys_fillGof P.gof k).2 (.inl hk'))
    · intro h
      exact (e1 h).2
    · rw [← h8]
      simp only [List.nil_append, modulesOf, trayModules]
  · rintro ⟨ha, logs, fit, h1, h2, rfl⟩
    obtain ⟨hk, hfo⟩ := hfit fit h2
    have n1 : ∀ s ∈ P.seeds.list, "reco_" ++ s ≠ "reco" ∧ "reco_" ++ s ≠ "covariance" ∧
      "reco_" ++ s ≠ "GoodnessOfFit" ∧ "reco_" ++ s ≠ "CircularizedAngularUncertainty" :=
      fun s _ => reco_ne s
    refine ⟨logs, h1, fit, h2, _, (addRecos_ok_iff B P M fit _ _ _).2 ⟨⟨ha.once, by simp, ?_⟩, rfl⟩,
      _, (add_ok_iff _ _ _ _).2 ⟨?_, _, rfl, rfl⟩,
      _, (opt_add_iff _ _ _ _ _ _ _ (buildCovariance_ok_iff B P fit)).2 ⟨?_, rfl⟩,
      _, (opt_add_iff _ _ _ _ _ _ _ (buildGoodness_ok_iff B P M fit _ _)).2 ⟨?_, rfl⟩,
      _, (opt_add_iff _ _ _ _ _ _ _ (buildCircular_ok_iff B P M hn fit hfo.1 _)).2 ⟨?_, rfl⟩, ?_⟩
    · intro s hs'
      exact ⟨_, (buildReconstruction_ok_iff B P M fit s _).2 ⟨ha.seeds s hs', rfl⟩⟩
    · simp only [List.nil_append, List.mem_map, not_exists, not_and]
      exact fun s hs' => (n1 s hs').1
    · intro h
      refine ⟨?_, (all_fitted_iff hfo).2 (ha.cov h)⟩
      simp only [List.nil_append, List.mem_append, List.mem_map, List.mem_singleton, not_or,
        not_exists, not_and]
      exact ⟨fun s hs' => (n1 s hs').2.1, by decide⟩
    · intro h
      obtain ⟨g1, g2, g3⟩ := ha.gof h
      refine ⟨?_, ?_, g2 _ (by simp), g2 _ (by simp), g2 _ (by simp), g3⟩
      · simp only [List.nil_append, List.mem_append, List.mem_map, List.mem_singleton, not_or,
          not_exists, not_and]
        refine ⟨⟨fun s hs' => (n1 s hs').2.2.1, by decide⟩, ?_⟩
        split <;> decide
      · intro k hk'
        rcases (keys_fillGof P.gof k).1 hk' with h | rfl | rfl
        · exact g1 k h
        · decide
        · decide
    · intro h
      refine ⟨?_, ha.circ h⟩
      simp only [List.nil_append, List.mem_append, List.mem_map, List.mem_singleton, not_or,
        not_exists, not_and]
      refine ⟨⟨⟨fun s hs' => (n1 s hs').2.2.2, by decide⟩, ?_⟩, ?_⟩ <;> split <;> decide
    · simp only [List.nil_append, modulesOf, trayModules, pure, Except.pure]

/-! ## Execution -/

theorem look_iff (r : Results V) (m k : String) (v : V) : look r m k = .ok v ↔ Entry r m k v := by
  unfold look Entry
  cases Dict.get? r m with
  | none => simp
  | some d =>
    simp only [Option.some.injEq, exists_eq_left']
    cases Dict.get? d k <;> simp

theorem entry_set_ne {r : Results V} {n m k : String} {d : Dict String V} {v : V} (h : n ≠ m) :
    Entry (Dict.set r n d) m k v ↔ Entry r m k v := by
  unfold Entry
  rw [Dict.get?_set, if_neg h]

theorem entry_set {r : Results V} {n k : String} {d : Dict String V} {v t : V}
    (hk : k ≠ "runtime") (h : Dict.get? d k = some v) :
    Entry (Dict.set r n (Dict.set d "runtime" t)) n k v := by
  refine ⟨_, by rw [Dict.get?_set, if_pos rfl], ?_⟩
  rw [Dict.get?_set, if_neg (fun h => hk h.symm), h]

theorem run_cons (rt : Nat → V) (i : Nat) (n : String) (m : Module V) (ms : List (String × Module V))
    (r r' : Results V) : runModules rt i ((n, m) :: ms) r = .ok r' ↔
      ∃ d, m r = .ok d ∧ Dict.has d "runtime" = false ∧
        runModules rt (i + 1) ms (Dict.set r n (Dict.set d "runtime" (rt i))) = .ok r' := by
  rw [runModules]
  cases m r with
  | error e => simp
  | ok d =>
    simp only [Except.ok.injEq, exists_eq_left']
    cases Dict.has d "runtime" <;> simp

theorem run_opt (rt : Nat → V) (i : Nat) (b : Bool) (n : String) (m : Module V)
    (ms : List (String × Module V)) (r r' : Results V) :
    runModules rt i ((if b then [(n, m)] else []) ++ ms) r = .ok r' ↔
      (b = false ∧ runModules rt i ms r = .ok r') ∨
      (b = true ∧ ∃ d, m r = .ok d ∧ Dict.has d "runtime" = false ∧
        runModules rt (i + 1) ms (Dict.set r n (Dict.set d "runtime" (rt i))) = .ok r') := by
  cases b with
  | false => simp
  | true => simp only [if_true, List.singleton_append, run_cons]; simp

/-- The dictionary of a fit. -/
def recoDict (B : Bodies V) (s : String) (o : FitOut V) : Dict String V :=
  [("result", o.result), ("result_trafo", o.trafo), ("result_object", o.obj),
    ("loss_seed", o.lossSeed), ("loss_reco", o.lossReco), ("seed_tensor_name", B.str s),
    ("seed_from_previous_module", B.flag false)]

theorem reconstruction_ok_iff (B : Bodies V) (s : String) (r : Results V) (d : Dict String V) :
    reconstruction B s r = .ok d ↔ ∃ o, B.fit s = .ok o ∧ d = recoDict B s o := by
  unfold reconstruction recoDict
  cases B.fit s with
  | error e => simp
  | ok o => simp [eq_comm]

/-- The results of the fits of some seeds. -/
def Fits (B : Bodies V) (ss : List String) (r : Results V) : Prop :=
  ∀ s ∈ ss, ∃ o t, B.fit s = .ok o ∧
    Dict.get? r ("reco_" ++ s) = some (Dict.set (recoDict B s o) "runtime" t)

theorem run_recos (B : Bodies V) (rt : Nat → V) (rest : List (String × Module V)) :
    ∀ (ss : List String) (i : Nat) (r r' : Results V), ss.Nodup →
      runModules rt i ((ss.map fun s => ("reco_" ++ s, reconstruction B s)) ++ rest) r = .ok r' →
      ∃ r1, Fits B ss r1 ∧ (∀ k, (∀ s ∈ ss, k ≠ "reco_" ++ s) → Dict.get? r1 k = Dict.get? r k) ∧
        runModules rt (i + ss.length) rest r1 = .ok r'
  | [], i, r, r', _, h => ⟨r, by simp [Fits], by simp, by simpa using h⟩
  | s :: ss, i, r, r', hnd, h => by
    rw [List.map_cons, List.cons_append, run_cons] at h
    obtain ⟨d, h1, _, h2⟩ := h
    obtain ⟨o, h3, rfl⟩ := (reconstruction_ok_iff _ _ _ _).1 h1
    obtain ⟨h4, h5⟩ := List.nodup_cons.1 hnd
    obtain ⟨r1, g1, g2, g3⟩ := run_recos B rt rest ss (i + 1) _ r' h5 h2
    refine ⟨r1, ?_, ?_, ?_⟩
    · intro x hx
      rcases List.mem_cons.1 hx with rfl | hx
      · refine ⟨o, rt i, h3, ?_⟩
        rw [g2 _ (fun y hy he => h4 (by rw [reco_inj he]; exact hy)), Dict.get?_set, if_pos rfl]
      · exact g1 x hx
    · intro k hk
      rw [g2 k (fun y hy => hk y (by simp [hy])), Dict.get?_set,
        if_neg (fun he => hk s (by simp) he.symm)]
    · rw [List.length_cons, Nat.add_comm ss.length 1, ← Nat.add_assoc]; exact g3

theorem run_recos_total (B : Bodies V) (rt : Nat → V) (rest : List (String × Module V)) :
    ∀ (ss : List String) (i : Nat) (r : Results V), ss.Nodup → (∀ s ∈ ss, ∃ o, B.fit s = .ok o) →
      ∃ r1, Fits B ss r1 ∧
        runModules rt i ((ss.map fun s => ("reco_" ++ s, reconstruction B s)) ++ rest) r =
          runModules rt (i + ss.length) rest r1 ∧
        (∀ k, (∀ s ∈ ss, k ≠ "reco_" ++ s) → Dict.get? r1 k = Dict.get? r k)
  | [], i, r, _, _ => ⟨r, by simp [Fits], by simp, by simp⟩
  | s :: ss, i, r, hnd, ho => by
    obtain ⟨o, ho1⟩ := ho s (by simp)
    obtain ⟨h4, h5⟩ := List.nodup_cons.1 hnd
    obtain ⟨r1, g1, g3, g2⟩ := run_recos_total B rt rest ss (i + 1)
      (Dict.set r ("reco_" ++ s) (Dict.set (recoDict B s o) "runtime" (rt i))) h5
      (fun x hx => ho x (by simp [hx]))
    refine ⟨r1, ?_, ?_, ?_⟩
    · intro x hx
      rcases List.mem_cons.1 hx with rfl | hx
      · refine ⟨o, rt i, ho1, ?_⟩
        rw [g2 _ (fun y hy he => h4 (by rw [reco_inj he]; exact hy)), Dict.get?_set, if_pos rfl]
      · exact g1 x hx
    · rw [List.map_cons, List.cons_append, runModules,
        (reconstruction_ok_iff B s r _).2 ⟨o, ho1, rfl⟩]
      simp only
      have : Dict.has (recoDict B s o) "runtime" = false := by
        simp [recoDict, Dict.has, Dict.get?]
      rw [this]
      simp only [Bool.false_eq_true, if_false]
      rw [g3, List.length_cons, Nat.add_comm ss.length 1, ← Nat.add_assoc]
    · intro k hk
      rw [g2 k (fun y hy => hk y (by simp [hy])), Dict.get?_set,
        if_neg (fun he => hk s (by simp) he.symm)]

/-- The entries of the reported fit. -/
structure Best (B : Bodies V) (r : Results V) (s : String) (o : FitOut V) : Prop where
  fit : B.fit s = .ok o
  result : Entry r "reco" "result" o.result
  trafo : Entry r "reco" "result_trafo" o.trafo
  obj : Entry r "reco" "result_object" o.obj
  lossSeed : Entry r "reco" "loss_seed" o.lossSeed
  lossReco : Entry r "reco" "loss_reco" o.lossReco
  seed : Entry r "reco" "seed_tensor_name" (B.str s)

theorem Best.set {B : Bodies V} {r : Results V} {s : String} {o : FitOut V} (h : Best B r s o)
    {n : String} (hn : n ≠ "reco") (d : Dict String V) : Best B (Dict.set r n d) s o :=
  ⟨h.fit, (entry_set_ne hn).2 h.result, (entry_set_ne hn).2 h.trafo, (entry_set_ne hn).2 h.obj,
    (entry_set_ne hn).2 h.lossSeed, (entry_set_ne hn).2 h.lossReco, (entry_set_ne hn).2 h.seed⟩

theorem select_spec {B : Bodies V} {ss : List String} {r : Results V} {last : String}
    (hl : ss.getLast? = some last) (hf : Fits B ss r) :
    ∃ d o, selectBest B.less (ss.map fun s => "reco_" ++ s) r = .ok d ∧
      Dict.has d "runtime" = false ∧ B.fit last = .ok o ∧
      ∀ t, Best B (Dict.set r "reco" (Dict.set d "runtime" t)) last o := by
  obtain ⟨d, x, h1, h2, _, h3, h4⟩ := C43_select_partial B.less r (ss.map fun s => "reco_" ++ s)
    ("reco_" ++ last) (by rw [List.getLast?_map, hl]; rfl) (by
      intro n hn
      obtain ⟨s, hs, rfl⟩ := List.mem_map.1 hn
      obtain ⟨o, t, _, g⟩ := hf s hs
      refine ⟨_, o.lossReco, t, g, ?_, ?_⟩ <;> simp [recoDict, Dict.set, Dict.get?])
  obtain ⟨o, t, g1, g2⟩ := hf last (List.mem_of_getLast? hl)
  rw [g2] at h1
  cases h1
  refine ⟨x, o, h2, ?_, g1, ?_⟩
  · unfold Dict.has; rw [h3]; rfl
  · intro t'
    have key : ∀ k v, k ≠ "runtime" → k ≠ "reco_runtime" → Dict.get? (recoDict B last o) k = some v →
        Entry (Dict.set r "reco" (Dict.set x "runtime" t')) "reco" k v := by
      intro k v k1 k2 hv
      refine entry_set k1 ?_
      rw [h4 k k1 k2, Dict.get?_set, if_neg (fun h => k1 h.symm), hv]
    exact ⟨g1, key _ _ (by decide) (by decide) (by simp [recoDict, Dict.get?]),
      key _ _ (by decide) (by decide) (by simp [recoDict, Dict.get?]),
      key _ _ (by decide) (by decide) (by simp [recoDict, Dict.get?]),
      key _ _ (by decide) (by decide) (by simp [recoDict, Dict.get?]),
      key _ _ (by decide) (by decide) (by simp [recoDict, Dict.get?]),
      key _ _ (by decide) (by decide) (by simp [recoDict, Dict.get?])⟩

/-- The dictionary of covariance matrices. -/
def covDict (o : CovOut V) : Dict String V :=
  let d : Dict String V := [("cov", o.cov), ("cov_sand", o.covSand), ("cov_trafo", o.covTrafo),
    ("cov_sand_trafo", o.covSandTrafo)]
  match o.fit with
  | none => d
  | some (a, b, c, e) =>
    Dict.update d [("cov_fit", a), ("cov_sand_fit", b), ("cov_fit_trafo", c), ("cov_sand_fit_trafo", e)]

theorem covariance_ok_iff {B : Bodies V} {r : Results V} {s : String} {o : FitOut V}
    (h : Best B r s o) (d : Dict String V) : covariance B "reco" r = .ok d ↔
      ∃ m, B.cov o.result o.trafo o.obj = .ok m ∧ d = covDict m := by
  unfold covariance
  simp only [bind, Except.bind, pure, Except.pure, (look_iff _ _ _ _).2 h.result,
    (look_iff _ _ _ _).2 h.trafo, (look_iff _ _ _ _).2 h.obj]
  cases B.cov o.result o.trafo o.obj with
  | error e => simp
  | ok m =>
    simp only [Except.ok.injEq, exists_eq_left', covDict]
    cases m.fit with
    | none => simp [eq_comm]
    | some q =>
      obtain ⟨a, b, c, e⟩ := q
      simp [eq_comm]

/-- The dictionary of the goodness of fit. -/
def gofDict (samples perDom : Bool) (o : GofOut V) : Dict String V :=
  let d : Dict String V := [("event_p_value_1sided", o.p1), ("event_p_value_2sided", o.p2),
    ("num_samples", o.num), ("sampled_hypotheses", o.hypotheses), ("loss_sample_min", o.min),
    ("loss_sample_max", o.max), ("loss_sample_mean", o.mean), ("loss_sample_median", o.median),
    ("loss_sample_std", o.std), ("loss_data_fit", o.fit)]
  let d := if perDom then Dict.set (Dict.set d "dom_p_value1" o.dom.1) "dom_p_value2" o.dom.2 else d
  if samples then Dict.update d [("sample_recos", o.recos.1),
    ("sample_reco_bias", o.recos.2.1), ("sample_reco_cov", o.recos.2.2)] else d

theorem goodness_ok_iff {B : Bodies V} {r : Results V} {s : String} {o : FitOut V}
    (h : Best B r s o) {ck : Option String} {c : Option V} (hc : covOf r ck = .ok c)
    (samples perDom : Bool) (d : Dict String V) : goodness B "reco" ck samples perDom r = .ok d ↔
      ∃ g, B.gof o.trafo o.result c = .ok g ∧ d = gofDict samples perDom g := by
  unfold goodness
  simp only [bind, Except.bind, pure, Except.pure, (look_iff _ _ _ _).2 h.result,
    (look_iff _ _ _ _).2 h.trafo, hc]
  cases B.gof o.trafo o.result c with
  | error e => simp
  | ok g => simp only [Except.ok.injEq, exists_eq_left', gofDict]; exact eq_comm

theorem circular_ok_iff {B : Bodies V} {r : Results V} {s : String} {o : FitOut V}
    (h : Best B r s o) {ck : Option String} {c : Option V} (hc : covOf r ck = .ok c)
    (fit : List Bool) (d : Dict String V) : circular B fit "reco" ck r = .ok d ↔
      fit.all id = true ∧ ∃ u, B.circ o.trafo o.result c = .ok u ∧
        d = [("delta_psi", u.deltaPsi), ("delta_loss", u.deltaLoss), ("circular_unc", u.unc),
          ("circular_unc_deg", u.uncDeg)] := by
  unfold circular
  cases hf : fit.all id with
  | false =>
    simp [bind, Except.bind, throw, throwThe, MonadExceptOf.throw]
  | true =>
    simp only [bind, Except.bind, pure, Except.pure, (look_iff _ _ _ _).2 h.result,
      (look_iff _ _ _ _).2 h.trafo, hc, not_true_eq_false, if_false, true_and]
    cases B.circ o.trafo o.result c with
    | error e => simp
    | ok g => simp only [Except.ok.injEq, exists_eq_left']; exact eq_comm

/-- The list of names and modules. -/
def trayPairs (B : Bodies V) (P : Params) (fit : List Bool) : List (String × Module V) :=
  (P.seeds.list.map fun s => ("reco_" ++ s, reconstruction B s)) ++
    (("reco", selectBest B.less (P.seeds.list.map fun s => "reco_" ++ s)) ::
    ((if P.addCov then [("covariance", covariance B "reco")] else []) ++
    ((if P.addGof then [("GoodnessOfFit", goodness B "reco" (covKey P)
      (((Dict.get? (fillGof P.gof) "reconstruct_samples").map Arg.truth).getD true)
      (((Dict.get? (fillGof P.gof) "add_per_dom_calculation").map Arg.truth).getD true))] else []) ++
    ((if P.addCirc then [("CircularizedAngularUncertainty", circular B fit "reco" (covKey P))]
      else []) ++ []))))

theorem zip_tray (B : Bodies V) (P : Params) (fit : List Bool) :
    (modulesOf P).zip (trayModules B P fit) = trayPairs B P fit := by
  unfold modulesOf trayModules trayPairs
  have hz : ∀ ss : List String, (ss.map fun s => "reco_" ++ s).zip (ss.map (reconstruction B)) =
      ss.map fun s => ("reco_" ++ s, reconstruction B s) := by
    intro ss
    rw [List.zip_map']
  rw [List.zip_append, List.zip_append, List.zip_append, List.zip_append, hz]
  · cases P.addCov <;> cases P.addGof <;> cases P.addCirc <;> simp
  all_goals (cases P.addCov <;> cases P.addGof <;> cases P.addCirc <;> simp)

theorem nodup_modules {P : Params} (h : P.seeds.list.Nodup) : (modulesOf P).Nodup := by
  unfold modulesOf
  have h1 : (P.seeds.list.map fun s => "reco_" ++ s).Nodup :=
    h.map (fun a b hab => reco_inj hab)
  have n1 := reco_ne
  simp only [List.append_assoc]
  rw [List.nodup_append]
  refine ⟨h1, ?_, ?_⟩
  · cases P.addCov <;> cases P.addGof <;> cases P.addCirc <;> simp
  · intro a ha b hb
    obtain ⟨s, _, rfl⟩ := List.mem_map.1 ha
    obtain ⟨n1, n2, n3, n4⟩ := reco_ne s
    revert hb
    cases P.addCov <;> cases P.addGof <;> cases P.addCirc <;>
      simp only [Bool.false_eq_true, if_true, if_false, List.append_nil, List.nil_append,
        List.mem_append, List.mem_cons, List.not_mem_nil, or_false] <;>
      rintro h <;> (try rcases h with h | h) <;> (try rcases h with h | h) <;>
      (try rcases h with h | h) <;> first | assumption | (subst h; assumption)

end Verif.Ic3
