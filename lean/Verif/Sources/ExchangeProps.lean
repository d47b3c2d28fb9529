import Verif.Sources.Props

/-! # C32: sources with the same base may exchange their parameters -/

namespace Verif.Sources
open Verif.Py
variable {V K D P : Type} [Field K]

omit [Field K] in
theorem outs_filterMap {bases : Dict String (Base V K D P)} {s : Dict String (List V)} {base : String} {b : Base V K D P}
    (hb : Dict.get? bases base = some b) {sources : List (String × String)} {outs : List (Out K D P)}
    (hone : ∀ s b, (s, b) ∈ sources → b = base) (h : OwnPredictions bases s sources outs) :
    outs = (sources.map fun x => Dict.get? s x.1).filterMap fun p => p.bind fun p => (b.eval p).toOption := by
  unfold OwnPredictions at h
  induction h with
  | nil => rfl
  | @cons x o rest os hx _ ih =>
    obtain ⟨b', params, h1, h2, h3⟩ := hx
    have : x.2 = base := hone x.1 x.2 (List.mem_cons_self ..)
    rw [this, hb] at h1
    cases h1
    simp only [List.map_cons]
    rw [List.filterMap_cons_some (b := o)]
    · rw [← ih fun s b hs => hone s b (List.mem_cons_of_mem _ hs)]
    · rw [h2]
      simp [h3, Except.toOption]

/-- C32: when all the sources share one base, only the parameters of the sources matter, not which source has which.
Missing for the full property as in `C32_superposition_partial`. -/
theorem C32_exchange_partial (bases : Dict String (Base V K D P)) (sources : Dict String String) (names : List String)
    (split : List V → Except Err (Dict String (List V))) (order : List String) (ex : Bool) (pulseDom : P → D)
    (row row' : List V) (s s' : Dict String (List V)) (r r' : Result K D P) (base : String)
    (hone : ∀ s b, (s, b) ∈ sources → b = base) (ho : IsSetOrder order sources)
    (hs : split row = .ok s) (hs' : split row' = .ok s')
    (hp : (sources.map fun x => Dict.get? s x.1).Perm (sources.map fun x => Dict.get? s' x.1))
    (h : getTensors bases sources names split order ex pulseDom row = .ok r)
    (h' : getTensors bases sources names split order ex pulseDom row' = .ok r') : r' = r := by
  obtain ⟨t, outs, h1, h2, -, h3⟩ :=
    C32_superposition_partial bases sources names split order ex pulseDom row r base hone ho h
  obtain ⟨t', outs', h1', h2', -, h3'⟩ :=
    C32_superposition_partial bases sources names split order ex pulseDom row' r' base hone ho h'
  rw [hs] at h1
  cases h1
  rw [hs'] at h1'
  cases h1'
  obtain ⟨last, b, -, -, hl, hb, -⟩ :=
    C32_last_base_partial bases sources names split order ex pulseDom row r ho h
  obtain ⟨s0, hs0⟩ := (ho.2 last).1 (List.mem_of_getLast? hl)
  rw [hone _ _ hs0] at hb
  have e := outs_filterMap hb hone h2
  have e' := outs_filterMap hb hone h2'
  have hperm : outs.Perm outs' := by
    rw [e, e']
    exact hp.filterMap _
  have key : ∀ g : Out K D P → K, (outs'.map g).sum = (outs.map g).sum := fun g => ((hperm.map g).sum_eq).symm
  obtain ⟨c, v, x, p⟩ := r
  obtain ⟨c', v', x', p'⟩ := r'
  have a1 : c' = c := funext fun d => by rw [show c' d = _ from h3'.charge d, key]; exact (h3.charge d).symm
  have a2 : v' = v := funext fun d => by rw [show v' d = _ from h3'.variance d, key]; exact (h3.variance d).symm
  have a3 : x' = x := funext fun d => by
    rw [show x' d = _ from h3'.exclusion d, key, key]; exact (h3.exclusion d).symm
  have a4 : p' = p := funext fun d => by rw [show p' d = _ from h3'.pdf d, key, key]; exact (h3.pdf d).symm
  rw [a1, a2, a3, a4]

/-- Two sources with the same base exchange their parameters: the hypotheses of the theorem hold. -/
example : ∃ r r' : Result ℚ Unit Unit,
    independentGetTensors [("b", linearBase 2)] [("s1", "b"), ("s2", "b")] ["b"] false (fun _ => ()) [1, 5] = .ok r ∧
    independentGetTensors [("b", linearBase 2)] [("s1", "b"), ("s2", "b")] ["b"] false (fun _ => ()) [5, 1] = .ok r' ∧
    r.charge () = 12 ∧ r'.charge () = 12 :=
  ⟨_, _, rfl, rfl, by decide +kernel, by decide +kernel⟩

end Verif.Sources
