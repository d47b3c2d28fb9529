/-
C61: the covariance matrix is written completely.
C74: the result of a reconstruction is written under the names of its parameters.
C75: a reconstruction never replaces objects of the frame.
C76: parameters are fitted or fixed as the settings say.
-/
import Verif.Output.Lemmas

namespace Verif.Output
open Verif.Py

/-! ### C61 -/

/-- C61: if different entries have different keys, the matrix is written completely. -/
theorem C61_written_partial {names logs : List String} {cov : List (List ℝ)}
    (hc : Complete names.length cov) (hk : DistinctKeys names logs) :
    ∃ d, covDict names logs cov = .ok d ∧ WrittenCompletely names logs cov d := by
  have hnodup : ((assigns names logs (val cov)).map (·.1)).Nodup := by
    unfold assigns
    rw [List.map_map]
    refine List.Nodup.map_on ?_ (nodup_pairs _)
    rintro ⟨i, j⟩ h1 ⟨i', j'⟩ h2 he
    obtain ⟨a1, a2⟩ := mem_pairs.1 h1
    obtain ⟨b1, b2⟩ := mem_pairs.1 h2
    have := hk i j i' j' _ a1 b1 (key_iff.2 ⟨by omega, a2, rfl⟩) (key_iff.2 ⟨by omega, b2, he⟩)
    exact Prod.ext this.1 this.2
  have hs : sets [] (assigns names logs (val cov)) = assigns names logs (val cov) := by
    rw [sets_fresh _ _ hnodup (by simp)]
    rfl
  refine ⟨_, covDict_complete logs hc, ?_, ?_, ?_⟩
  · intro i j key x hij hkey hx
    obtain ⟨h1, h2, rfl⟩ := key_iff.1 hkey
    rw [hs]
    apply Dict.get?_of_mem hnodup
    unfold assigns
    refine List.mem_map.2 ⟨(i, j), mem_pairs.2 ⟨hij, h2⟩, ?_⟩
    simp only
    rw [at_val hx]
  · intro key x h
    rcases get?_sets_some _ _ _ _ h with h | h
    · obtain ⟨⟨i, j⟩, hp, he⟩ := List.mem_map.1 h
      obtain ⟨h1, h2⟩ := mem_pairs.1 hp
      simp only [Prod.mk.injEq] at he
      obtain ⟨e1, e2⟩ := he
      refine ⟨i, j, h1, key_iff.2 ⟨by omega, h2, e1.symm⟩, ?_⟩
      obtain ⟨y, hy⟩ := hc i j (by omega) h2
      rw [← e2, at_val hy]
      exact hy
    · cases h
  · rw [hs, assigns, List.length_map, length_pairs]

/-- C61: the matrix is written completely, whatever its entries, only if different entries have
different keys. -/
theorem C61_exact (names logs : List String) :
    (∀ cov, Complete names.length cov →
      ∃ d, covDict names logs cov = .ok d ∧ WrittenCompletely names logs cov d) ↔
    DistinctKeys names logs := by
  refine ⟨?_, fun hk cov hc => C61_written_partial hc hk⟩
  intro h i j i' j' key hij hij' hkey hkey'
  by_contra hne
  let cov : List (List ℝ) := (List.range names.length).map (fun a => (List.range names.length).map
    (fun b => if a = i ∧ b = j then 1 else 0))
  have hat : ∀ a b, a < names.length → b < names.length →
      At cov a b (if a = i ∧ b = j then 1 else 0) := by
    intro a b ha hb
    refine ⟨(List.range names.length).map (fun b => if a = i ∧ b = j then 1 else 0), ?_, ?_⟩
    · simp [cov, List.getElem?_map, List.getElem?_range ha]
    · simp [List.getElem?_map, List.getElem?_range hb]
  obtain ⟨d, _, hw, _⟩ := h cov (fun a b ha hb => ⟨_, hat a b ha hb⟩)
  obtain ⟨k1, k2, _⟩ := key_iff.1 hkey
  obtain ⟨k3, k4, _⟩ := key_iff.1 hkey'
  have e1 := hw i j key _ hij hkey (hat i j k1 k2)
  have e2 := hw i' j' key _ hij' hkey' (hat i' j' k3 k4)
  rw [e1] at e2
  have hne' : ¬ (i' = i ∧ j' = j) := fun h => hne ⟨h.1.symm, h.2.symm⟩
  simp [hne'] at e2

/-- C61: the keys are different if the written names are, and none of them continues another one with an
underscore. -/
theorem C61_separated {names logs : List String}
    (hd : ∀ (i j : ℕ) (a b s : String), names[i]? = some a → names[j]? = some b → Named logs a s →
      Named logs b s → i = j)
    (hs : ∀ a b sa sb, a ∈ names → b ∈ names → Named logs a sa → Named logs b sb →
      ¬ (sa.toList ++ ['_']) <+: sb.toList) : DistinctKeys names logs := by
  rintro i j i' j' key _ _ ⟨a, b, sa, sb, h1, h2, h3, h4, rfl⟩ ⟨a', b', sa', sb', g1, g2, g3, g4, he⟩
  obtain ⟨e1, e2⟩ := join_inj (S := fun x => ∃ n ∈ names, Named logs n x)
    (by
      rintro x y ⟨n, hn, hx⟩ ⟨m, hm, hy⟩
      exact hs n m x y hn hm hx hy)
    ⟨a, List.mem_of_getElem? h1, h3⟩ ⟨a', List.mem_of_getElem? g1, g3⟩ he
  subst e1 e2
  exact ⟨hd i i' a a' sa h1 g1 h3 g3, hd j j' b b' sb h2 g2 h4 g4⟩

/-- C61: the keys are different for different names without underscores other than "log". -/
theorem C61_plain {names logs : List String} (hn : names.Nodup)
    (hu : ∀ n ∈ names, '_' ∉ n.toList) (hl : "log" ∉ names) : DistinctKeys names logs := by
  have hlog : "log_".toList = ['l', 'o', 'g', '_'] := rfl
  apply C61_separated
  · intro i j a b s h1 h2 h3 h4
    have hab : a = b := by
      have ha := hu a (List.mem_of_getElem? h1)
      have hb := hu b (List.mem_of_getElem? h2)
      rcases h3 with ⟨_, h3⟩ | ⟨_, h3⟩ <;> rcases h4 with ⟨_, h4⟩ | ⟨_, h4⟩
      · exact append_left_injective "log_" (h3.symm.trans h4)
      · exfalso
        apply hb
        rw [← h4, h3, String.toList_append, hlog]
        simp
      · exfalso
        apply ha
        rw [← h3, h4, String.toList_append, hlog]
        simp
      · rw [← h3, h4]
    subst hab
    obtain ⟨hi, e1⟩ := List.getElem?_eq_some_iff.1 h1
    obtain ⟨hj, e2⟩ := List.getElem?_eq_some_iff.1 h2
    apply (List.Nodup.getElem_inj_iff hn (hi := hi) (hj := hj)).1
    rw [e1, e2]
  · intro a b sa sb ha hb hsa hsb hp
    obtain ⟨t, ht⟩ := hp
    have hua := hu a ha
    have hub := hu b hb
    -- the only underscore of a written name is that of the prefix
    rcases hsb with ⟨_, rfl⟩ | ⟨_, rfl⟩
    · rw [String.toList_append, hlog] at ht
      rcases hsa with ⟨_, rfl⟩ | ⟨_, rfl⟩
      · rw [String.toList_append, hlog] at ht
        simp only [List.append_assoc, List.cons_append, List.nil_append, List.cons.injEq, true_and] at ht
        apply hub
        rw [← ht]
        simp
      · -- the name is `log`
        have hcase : ∀ l : List Char, '_' ∉ l → ∀ t u, '_' ∉ u →
            l ++ ['_'] ++ t = 'l' :: 'o' :: 'g' :: '_' :: u → l = ['l', 'o', 'g'] := by
          intro l hl t u hu' he
          match l, hl, he with
          | [], _, he => simp at he
          | [a], _, he => simp at he
          | [a, b], _, he => simp at he
          | [a, b, c], _, he => simp at he; simp [he]
          | a :: b :: c :: d :: l, hl, he =>
            simp only [List.cons_append, List.cons.injEq] at he
            exact absurd (by simp [he.2.2.2.1]) hl
        have := hcase _ hua t _ hub (by simpa using ht)
        apply hl
        have e : sa = "log" := String.toList_injective (by rw [this]; rfl)
        rwa [e] at ha
    · apply hub
      rw [← ht]
      simp

/-- Non-vacuity: three parameters, one of them logarithmic. -/
example : ∃ d, covDict ["x", "zenith", "energy"] ["energy"] [[1, 2, 3], [2, 4, 5], [3, 5, 6]] = .ok d ∧
    Dict.get? d "zenith_log_energy" = some 5 ∧ d.length = 6 := by
  have hc : Complete ["x", "zenith", "energy"].length ([[1, 2, 3], [2, 4, 5], [3, 5, 6]] : List (List ℝ)) := by
    intro i j hi hj
    simp only [List.length_cons, List.length_nil] at hi hj
    match i, j, hi, hj with
    | 0, 0, _, _ => exact ⟨_, _, rfl, rfl⟩
    | 0, 1, _, _ => exact ⟨_, _, rfl, rfl⟩
    | 0, 2, _, _ => exact ⟨_, _, rfl, rfl⟩
    | 1, 0, _, _ => exact ⟨_, _, rfl, rfl⟩
    | 1, 1, _, _ => exact ⟨_, _, rfl, rfl⟩
    | 1, 2, _, _ => exact ⟨_, _, rfl, rfl⟩
    | 2, 0, _, _ => exact ⟨_, _, rfl, rfl⟩
    | 2, 1, _, _ => exact ⟨_, _, rfl, rfl⟩
    | 2, 2, _, _ => exact ⟨_, _, rfl, rfl⟩
  obtain ⟨d, h1, h2, _, h3⟩ := C61_written_partial (logs := ["energy"]) hc
    (C61_plain (by decide) (by decide) (by decide))
  refine ⟨d, h1, h2 1 2 _ 5 (by omega) ⟨"zenith", "energy", "zenith", "log_energy", rfl, rfl,
    Or.inr ⟨by decide, rfl⟩, Or.inl ⟨by decide, rfl⟩, by decide⟩ ⟨_, rfl, rfl⟩, ?_⟩
  simp only [List.length_cons, List.length_nil] at h3
  omega

/-- C61 is violated for names that are equal after joining: one of the entries is lost. -/
theorem C61_violated : ¬ ∀ cov, Complete 4 cov →
    ∃ d, covDict ["a", "a_b", "b_c", "c"] [] cov = .ok d ∧
      WrittenCompletely ["a", "a_b", "b_c", "c"] [] cov d := by
  intro h
  have hk := (C61_exact ["a", "a_b", "b_c", "c"] []).1 h
  have := hk 0 2 1 3 "a_b_c" (by omega) (by omega)
    ⟨"a", "b_c", "a", "b_c", rfl, rfl, Or.inr ⟨by decide, rfl⟩, Or.inr ⟨by decide, rfl⟩, by decide⟩
    ⟨"a_b", "c", "a_b", "c", rfl, rfl, Or.inr ⟨by decide, rfl⟩, Or.inr ⟨by decide, rfl⟩, by decide⟩
  omega

/-- C61 is violated also for names without a common part: the prefix of logarithmic parameters makes
the names of two parameters equal. -/
theorem C61_violated_log : ¬ ∀ cov, Complete 2 cov →
    ∃ d, covDict ["energy", "log_energy"] ["energy"] cov = .ok d ∧
      WrittenCompletely ["energy", "log_energy"] ["energy"] cov d := by
  intro h
  have hk := (C61_exact ["energy", "log_energy"] ["energy"]).1 h
  have := hk 0 0 1 1 "log_energy_log_energy" (by omega) (by omega)
    ⟨"energy", "energy", "log_energy", "log_energy", rfl, rfl, Or.inl ⟨by decide, rfl⟩,
      Or.inl ⟨by decide, rfl⟩, by decide⟩
    ⟨"log_energy", "log_energy", "log_energy", "log_energy", rfl, rfl, Or.inr ⟨by decide, rfl⟩,
      Or.inr ⟨by decide, rfl⟩, by decide⟩
  omega

/-- C61: the logarithmic parameters are those of the transformation. -/
theorem C61_logs {names : List String} (hn : names.Nodup) :
    ∀ {logs : List Bool}, names.length ≤ logs.length → ∃ l, logNames names logs = .ok l ∧
      ∀ (i : ℕ) (n : String), names[i]? = some n → (n ∈ l ↔ logs[i]? = some true) := by
  have sub : ∀ (names : List String) (logs : List Bool) (l : List String), logNames names logs = .ok l →
      ∀ n ∈ l, n ∈ names := by
    intro names
    induction names with
    | nil => intro logs l h; cases h; simp
    | cons m names ih =>
      intro logs l h
      cases logs with
      | nil => cases h
      | cons b logs =>
        rw [logNames] at h
        split at h
        · cases h
        · rename_i r hr
          cases h
          intro n hn
          split at hn
          · rcases List.mem_cons.1 hn with rfl | hn
            · simp
            · simp [ih _ _ hr n hn]
          · simp [ih _ _ hr n hn]
  induction names with
  | nil => intro logs _; exact ⟨[], rfl, by simp⟩
  | cons m names ih =>
    intro logs hl
    cases logs with
    | nil => simp at hl
    | cons b logs =>
      have hn' := List.nodup_cons.1 hn
      obtain ⟨l, h1, h2⟩ := ih hn'.2 (logs := logs) (by simpa using hl)
      have hm : m ∉ l := fun h => hn'.1 (sub _ _ _ h1 m h)
      refine ⟨_, by rw [logNames, h1], ?_⟩
      intro i n hi
      cases i with
      | zero =>
        simp only [List.getElem?_cons_zero, Option.some.injEq] at hi ⊢
        subst hi
        cases b <;> simp [hm]
      | succ i =>
        simp only [List.getElem?_cons_succ] at hi ⊢
        rw [← h2 i n hi]
        have hnm : n ≠ m := by
          rintro rfl
          exact hn'.1 (List.mem_of_getElem? hi)
        cases b <;> simp [hnm]

example : ∃ l, logNames ["x", "energy"] [false, true] = .ok l ∧ "energy" ∈ l ∧ "x" ∉ l := by
  obtain ⟨l, h1, h2⟩ := C61_logs (names := ["x", "energy"]) (by decide) (logs := [false, true]) (by simp)
  exact ⟨l, h1, (h2 1 "energy" rfl).2 rfl, fun h => by simpa using (h2 0 "x" rfl).1 h⟩

/-! ### C74 -/

theorem bias_ne {n lit : String} (h : ¬ "_sample_reco_bias".toList <:+ lit.toList) :
    n ++ "_sample_reco_bias" ≠ lit := by
  rintro rfl
  apply h
  rw [String.toList_append]
  exact List.suffix_append _ _

/-- The values of the result. -/
structure ResultOk (s : Settings) (r : Results) (m : Dict String ℝ) : Prop where
  parameters : ∀ n v, Fitted s r n v → ¬ Reserved s r n → Dict.get? m n = some v
  success : Dict.get? m "minimization_success" = some (if r.success then 1 else 0)
  lossReco : Dict.get? m "loss_reco" = some r.lossReco
  lossSeed : Dict.get? m "loss_seed" = some r.lossSeed
  gof : s.addGof = true → Dict.get? m "goodness_of_fit_1sided" = some r.gof.p1 ∧
    Dict.get? m "goodness_of_fit_2sided" = some r.gof.p2 ∧
    Dict.get? m "goodness_loss_sample_min" = some r.gof.min ∧
    Dict.get? m "goodness_loss_sample_max" = some r.gof.max ∧
    Dict.get? m "goodness_loss_sample_mean" = some r.gof.mean ∧
    Dict.get? m "goodness_loss_sample_median" = some r.gof.median ∧
    Dict.get? m "goodness_loss_sample_std" = some r.gof.std ∧
    Dict.get? m "goodness_loss_data_fit" = some r.gof.fit
  bias : s.addGof = true → s.recoSamples = true → ∀ (i : ℕ) (n : String) (b : ℝ),
    s.names[i]? = some n → r.gof.bias[i]? = some b → Dict.get? m (n ++ "_sample_reco_bias") = some b
  circ : s.addCirc = true → Dict.get? m "circular_unc" = some r.circ

theorem resultOk {s : Settings} {r : Results} (hn : s.names.Nodup) :
    ResultOk s r (sets [] (allEntries s r)) := by
  have hbias : ∀ k v, (k, v) ∈ (if s.recoSamples then
      (s.names.zip r.gof.bias).map (fun p => (p.1 ++ "_sample_reco_bias", p.2)) else []) →
      ∃ (i : ℕ) (n : String), s.names[i]? = some n ∧ r.gof.bias[i]? = some v ∧
        k = n ++ "_sample_reco_bias" ∧ s.recoSamples = true := by
    intro k v h
    split at h
    · rename_i hrs
      obtain ⟨⟨n, b⟩, hp, he⟩ := List.mem_map.1 h
      obtain ⟨i, hi⟩ := List.getElem?_of_mem hp
      rw [List.getElem?_zip_eq_some] at hi
      simp only [Prod.mk.injEq] at he
      exact ⟨i, n, hi.1, by rw [← he.2]; exact hi.2, he.1.symm, hrs⟩
    · simp at h
  have hcirc : ∀ k v, (k, v) ∈ circEntries s r → s.addCirc = true ∧
      (k = "circular_unc" ∧ v = r.circ ∨ k = "runtime_circular_err") := by
    intro k v h
    unfold circEntries at h
    split at h
    · rename_i hc
      simp only [List.mem_cons, List.not_mem_nil, or_false, Prod.mk.injEq] at h
      rcases h with h | h
      · exact ⟨hc, Or.inl h⟩
      · exact ⟨hc, Or.inr h.1⟩
    · simp at h
  have hgof : ∀ k v, (k, v) ∈ gofAll s r → s.addGof = true ∧ ((k, v) ∈ gofEntries r.gof ∨
      (k, v) ∈ (if s.recoSamples then
      (s.names.zip r.gof.bias).map (fun p => (p.1 ++ "_sample_reco_bias", p.2)) else [])) := by
    intro k v h
    unfold gofAll at h
    split at h
    · rename_i hg
      exact ⟨hg, List.mem_append.1 h⟩
    · simp at h
  have hcov : ∀ k v, (k, v) ∈ covEntries s r → s.addCov = true ∧ k = "runtime_covariance" := by
    intro k v h
    unfold covEntries at h
    split at h
    · rename_i hc
      simp only [List.mem_cons, List.not_mem_nil, or_false, Prod.mk.injEq] at h
      exact ⟨hc, h.1⟩
    · simp at h
  have hgofmem : s.addGof = true → ∀ k v, (k, v) ∈ gofEntries r.gof →
      Dict.get? (sets [] (allEntries s r)) k = some v := by
    intro hg k v hk
    unfold allEntries
    rw [List.append_assoc (base s r ++ covEntries s r), sets_append]
    apply get?_sets_of_mem
    · apply List.mem_append.2
      left
      unfold gofAll
      rw [if_pos hg]
      exact List.mem_append.2 (Or.inl hk)
    · intro w hw
      have hlit : (k = "goodness_of_fit_1sided" ∧ v = r.gof.p1) ∨ (k = "goodness_of_fit_2sided" ∧ v = r.gof.p2) ∨
          (k = "goodness_loss_sample_min" ∧ v = r.gof.min) ∨ (k = "goodness_loss_sample_max" ∧ v = r.gof.max) ∨
          (k = "goodness_loss_sample_mean" ∧ v = r.gof.mean) ∨
          (k = "goodness_loss_sample_median" ∧ v = r.gof.median) ∨
          (k = "goodness_loss_sample_std" ∧ v = r.gof.std) ∨ (k = "goodness_loss_data_fit" ∧ v = r.gof.fit) := by
        simpa [gofEntries] using hk
      rcases List.mem_append.1 hw with hw | hw
      · obtain ⟨_, hw | hw⟩ := hgof k w hw
        · simp only [gofEntries, List.mem_cons, List.not_mem_nil, or_false, Prod.mk.injEq] at hw
          rcases hlit with ⟨rfl, rfl⟩ | ⟨rfl, rfl⟩ | ⟨rfl, rfl⟩ | ⟨rfl, rfl⟩ | ⟨rfl, rfl⟩ | ⟨rfl, rfl⟩ |
            ⟨rfl, rfl⟩ | ⟨rfl, rfl⟩ <;> simpa using hw
        · obtain ⟨i, n, _, _, he, _⟩ := hbias k w hw
          exfalso
          rcases hlit with ⟨h, -⟩ | ⟨h, -⟩ | ⟨h, -⟩ | ⟨h, -⟩ | ⟨h, -⟩ | ⟨h, -⟩ | ⟨h, -⟩ | ⟨h, -⟩ <;>
            exact bias_ne (by decide) (he.symm.trans h)
      · obtain ⟨_, hw⟩ := hcirc k w hw
        exfalso
        rcases hlit with ⟨rfl, -⟩ | ⟨rfl, -⟩ | ⟨rfl, -⟩ | ⟨rfl, -⟩ | ⟨rfl, -⟩ | ⟨rfl, -⟩ | ⟨rfl, -⟩ |
          ⟨rfl, -⟩ <;> simp at hw
  have hthree : ∀ k v, (k, v) ∈ [("minimization_success", if r.success then (1 : ℝ) else 0),
      ("loss_reco", r.lossReco), ("loss_seed", r.lossSeed)] →
      Dict.get? (sets [] (allEntries s r)) k = some v := by
    intro k v hk
    unfold allEntries base
    rw [List.append_assoc, List.append_assoc, List.append_assoc, sets_append]
    apply get?_sets_of_mem
    · exact List.mem_append.2 (Or.inl hk)
    · intro w hw
      have hlit : k = "minimization_success" ∨ k = "loss_reco" ∨ k = "loss_seed" := by
        simp only [List.mem_cons, List.not_mem_nil, or_false, Prod.mk.injEq] at hk
        rcases hk with h | h | h
        · exact Or.inl h.1
        · exact Or.inr (Or.inl h.1)
        · exact Or.inr (Or.inr h.1)
      rcases List.mem_append.1 hw with hw | hw
      · simp only [List.mem_cons, List.not_mem_nil, or_false, Prod.mk.injEq] at hk hw
        rcases hk with ⟨rfl, rfl⟩ | ⟨rfl, rfl⟩ | ⟨rfl, rfl⟩ <;> simpa using hw
      · exfalso
        rcases List.mem_append.1 hw with hw | hw
        · have := (hcov k w hw).2
          rcases hlit with h | h | h <;> rw [h] at this <;> revert this <;> decide
        · rcases List.mem_append.1 hw with hw | hw
          · obtain ⟨_, hw | hw⟩ := hgof k w hw
            · simp only [gofEntries, List.mem_cons, List.not_mem_nil, or_false, Prod.mk.injEq] at hw
              rcases hlit with rfl | rfl | rfl <;> simp at hw
            · obtain ⟨i, n, _, _, he, _⟩ := hbias k w hw
              rcases hlit with h | h | h <;> exact bias_ne (by decide) (he.symm.trans h)
          · obtain ⟨_, hw⟩ := hcirc k w hw
            rcases hlit with rfl | rfl | rfl <;> simp at hw
  refine ⟨?_, hthree _ _ (by simp), hthree _ _ (by simp), hthree _ _ (by simp), ?_, ?_, ?_⟩
  · intro n v hf hr
    have hr1 : ¬ ReservedBase r n := fun h => hr (Or.inl h)
    apply get?_sets_of_mem
    · unfold allEntries base
      simp only [List.append_assoc]
      exact List.mem_append.2 (Or.inl (mem_zip_of_fitted hf))
    · intro w hw
      unfold allEntries at hw
      rcases List.mem_append.1 hw with hw | hw
      · rcases List.mem_append.1 hw with hw | hw
        · rcases List.mem_append.1 hw with hw | hw
          · simp only [base, List.mem_append, List.mem_map, List.mem_cons, List.not_mem_nil, or_false,
              Prod.mk.injEq] at hw
            rcases hw with (hw | ⟨p, hp, hw, _⟩) | ⟨hw, _⟩ | ⟨hw, _⟩ | ⟨hw, _⟩
            · exact fitted_unique hn (fitted_of_mem_zip hw) hf
            · exact absurd (Or.inr (Or.inr (Or.inr ⟨p, hp, hw.symm⟩))) hr1
            · exact absurd (Or.inl hw) hr1
            · exact absurd (Or.inr (Or.inl hw)) hr1
            · exact absurd (Or.inr (Or.inr (Or.inl hw))) hr1
          · exact absurd (Or.inr (Or.inl (hcov n w hw))) hr
        · obtain ⟨hg, hw | hw⟩ := hgof n w hw
          · refine absurd (Or.inr (Or.inr (Or.inl ⟨hg, ?_⟩))) hr
            have := List.mem_map_of_mem (f := fun x : String × ℝ => x.1) hw
            simpa [gofEntries] using this
          · obtain ⟨i, m, h1, h2, h3, h4⟩ := hbias n w hw
            exact absurd (Or.inr (Or.inr (Or.inr (Or.inl ⟨hg, h4, m, List.mem_of_getElem? h1, h3⟩)))) hr
      · obtain ⟨hc, hw⟩ := hcirc n w hw
        refine absurd (Or.inr (Or.inr (Or.inr (Or.inr ⟨hc, ?_⟩)))) hr
        rcases hw with hw | hw
        · exact Or.inl hw.1
        · exact Or.inr hw
  · intro hg
    have := hgofmem hg
    exact ⟨this _ _ (by simp [gofEntries]), this _ _ (by simp [gofEntries]), this _ _ (by simp [gofEntries]),
      this _ _ (by simp [gofEntries]), this _ _ (by simp [gofEntries]), this _ _ (by simp [gofEntries]),
      this _ _ (by simp [gofEntries]), this _ _ (by simp [gofEntries])⟩
  · intro hg hrs i n b hi hb
    unfold allEntries
    rw [List.append_assoc (base s r ++ covEntries s r), sets_append]
    apply get?_sets_of_mem
    · apply List.mem_append.2
      left
      unfold gofAll
      rw [if_pos hg, if_pos hrs]
      apply List.mem_append.2
      right
      refine List.mem_map.2 ⟨(n, b), ?_, rfl⟩
      apply List.mem_of_getElem? (i := i)
      rw [List.getElem?_zip_eq_some]
      exact ⟨hi, hb⟩
    · intro w hw
      rcases List.mem_append.1 hw with hw | hw
      · obtain ⟨_, hw | hw⟩ := hgof _ w hw
        · exfalso
          simp only [gofEntries, List.mem_cons, List.not_mem_nil, or_false, Prod.mk.injEq] at hw
          rcases hw with ⟨h, -⟩ | ⟨h, -⟩ | ⟨h, -⟩ | ⟨h, -⟩ | ⟨h, -⟩ | ⟨h, -⟩ | ⟨h, -⟩ | ⟨h, -⟩ <;>
            exact bias_ne (by decide) h
        · obtain ⟨j, m, h1, h2, h3, _⟩ := hbias _ w hw
          have hnm : n = m := by
            have h' := congrArg String.toList h3
            simp only [String.toList_append, List.append_cancel_right_eq] at h'
            exact String.toList_injective h'
          subst hnm
          obtain ⟨hi', e1⟩ := List.getElem?_eq_some_iff.1 hi
          obtain ⟨hj', e2⟩ := List.getElem?_eq_some_iff.1 h1
          have : i = j := (List.Nodup.getElem_inj_iff hn (hi := hi') (hj := hj')).1 (by rw [e1, e2])
          subst this
          rw [hb] at h2
          cases h2
          rfl
      · exfalso
        obtain ⟨_, hw | hw⟩ := hcirc _ w hw
        · exact bias_ne (by decide) hw.1
        · exact bias_ne (by decide) hw
  · intro hc
    unfold allEntries
    rw [sets_append]
    apply get?_sets_of_mem
    · simp [circEntries, hc]
    · intro w hw
      obtain ⟨_, hw | hw⟩ := hcirc _ w hw
      · exact hw.2
      · exact absurd hw (by decide)

/-- C74 (partial): the module adds its objects to the frame and nothing else. The result has the fitted
value of every parameter under its name, except for parameters with names the module uses itself; the
particle has the values the mapping asks for; matrices and values per DOM are written as C61 says.
Missing: parameters with names the module uses. -/
theorem C74_written_partial {s : Settings} {r : Results} {f : Frame} (hn : s.names.Nodup)
    (hr : ResultsOk s r) (hm : MappingOk s) (hmap : ∀ m, s.mapping = some m → Dict.Ok m)
    (hk1 : (r.covs.map (·.1)).Nodup) (hk2 : "goodness_of_fit" ∉ r.covs.map (·.1))
    (hf : ∀ k ∈ frameKeys s r, k ∉ f.keys) :
    ∃ f', physics s r f = .ok f' ∧
      (∀ k, k ∉ frameKeys s r → Dict.get? f' k = Dict.get? f k) ∧
      (∃ m, Dict.get? f' s.outputKey = some (.map m) ∧ ResultOk s r m) ∧
      (∀ m, s.mapping = some m → m ≠ [] → ∃ p,
        Dict.get? f' (s.outputKey ++ "_I3Particle") = some (.particle p) ∧ ParticleOk s r m p) ∧
      (s.addCov = true → ∀ q ∈ r.covs, ∃ d, covDict s.names s.logs q.2 = .ok d ∧
        Dict.get? f' (s.outputKey ++ "_cov_matrix_" ++ q.1) = some (.map d)) ∧
      (s.addGof = true → s.recoSamples = true → ∃ d, covDict s.names s.logs r.gof.cov = .ok d ∧
        Dict.get? f' (s.outputKey ++ "_cov_matrix_goodness_of_fit") = some (.map d)) ∧
      (s.addGof = true → s.perDom = true → ∃ d1 d2,
        Dict.get? f' (s.outputKey ++ "_GoodnessOfFit_1sided") = some (.doms d1) ∧ DomsOk r.gof.dom1 d1 ∧
        Dict.get? f' (s.outputKey ++ "_GoodnessOfFit_2sided") = some (.doms d2) ∧ DomsOk r.gof.dom2 d2) := by
  obtain ⟨p, hp, hp0, hp1⟩ := particle_ok hr hm hmap
  have hperm := writes_keys (s := s) (r := r) (p := p) hp0
  have hnd : ((writes s r p).map (·.1)).Nodup := hperm.nodup_iff.2 (nodup_frameKeys hk1 hk2)
  have hfresh : ∀ k ∈ (writes s r p).map (·.1), k ∉ f.keys := fun k hk => hf k (hperm.mem_iff.1 hk)
  obtain ⟨g1, g2⟩ := get?_append_frame hnd hfresh
  refine ⟨f ++ writes s r p, by rw [physics_ok hr hp, puts_ok _ _ hnd hfresh], ?_, ?_, ?_, ?_, ?_, ?_⟩
  · intro k hk
    exact g2 k (fun h => hk (hperm.mem_iff.1 h))
  · exact ⟨_, g1 _ _ (by simp [writes]), resultOk hn⟩
  · intro m hmm hne
    cases hpp : p with
    | none =>
      have := hp0.1 hpp
      rw [hmm] at this
      exact absurd this hne
    | some q =>
      rw [← hpp]
      refine ⟨q, g1 _ _ ?_, hp1 q m hpp hmm hn⟩
      simp [writes, particleWrites, hpp]
  · intro hc q hq
    refine ⟨_, covDict_complete s.logs (hr.2.1 q hq), g1 _ _ ?_⟩
    unfold writes covWrites
    rw [if_pos hc]
    simp only [List.append_assoc]
    exact List.mem_append.2 (Or.inl (List.mem_map.2 ⟨q, hq, rfl⟩))
  · intro hg hrs
    refine ⟨_, covDict_complete s.logs (hr.2.2 hg hrs).1, g1 _ _ ?_⟩
    unfold writes gofWrites
    rw [if_pos hg, if_pos hrs]
    simp [covObj]
  · intro hg hpd
    refine ⟨domMap r.gof.dom1, domMap r.gof.dom2, g1 _ _ ?_, domMap_ok _, g1 _ _ ?_, domMap_ok _⟩
    · unfold writes gofWrites
      rw [if_pos hg, if_pos hpd]
      simp
    · unfold writes gofWrites
      rw [if_pos hg, if_pos hpd]
      simp

/-! #### Examples -/

noncomputable def exGof : Gof := ⟨0.5, 1, 1, 9, 4, 5, 2, 3, [[1, 0], [0, 2]], [0.25, 0.5], fun _ _ => 0, fun _ _ => 1⟩

/-- A model with a coordinate and a second parameter. -/
def exSettings (second : String) : Settings :=
  ⟨["x", second], [second], "Reco", some [("x", "x")], true, true, true, true, true⟩

noncomputable def exResults : Results :=
  ⟨[("reco_seed", 1), ("reco", 2)], [3, 7], true, 10, 20, [("cov", [[1, 0], [0, 4]])], 3, exGof, 5, 6⟩

theorem exComplete (a b c d : ℝ) : Complete 2 [[a, b], [c, d]] := by
  intro i j hi hj
  match i, j, hi, hj with
  | 0, 0, _, _ => exact ⟨_, _, rfl, rfl⟩
  | 0, 1, _, _ => exact ⟨_, _, rfl, rfl⟩
  | 1, 0, _, _ => exact ⟨_, _, rfl, rfl⟩
  | 1, 1, _, _ => exact ⟨_, _, rfl, rfl⟩

theorem exResults_ok (second : String) : ResultsOk (exSettings second) exResults := by
  refine ⟨rfl, ?_, fun _ _ => ⟨exComplete _ _ _ _, rfl⟩⟩
  intro p hp
  rw [List.mem_singleton.1 hp]
  exact exComplete _ _ _ _

theorem exMapping_ok (second : String) : MappingOk (exSettings second) := by
  intro m hm
  cases hm
  refine ⟨?_, ?_⟩
  · intro p hp
    rw [List.mem_singleton.1 hp]
    simp [exSettings]
  · simp [Dict.get?]

theorem exWritten {second : String} (h : second ≠ "x") : ∃ f' m,
    physics (exSettings second) exResults [("I3EventHeader", .other 1)] = .ok f' ∧
    Dict.get? f' "I3EventHeader" = some (.other 1) ∧
    Dict.get? f' "Reco" = some (.map m) ∧ ResultOk (exSettings second) exResults m := by
  obtain ⟨f', h1, h2, ⟨m, h3, h4⟩, _⟩ := C74_written_partial (s := exSettings second) (r := exResults)
    (f := [("I3EventHeader", .other 1)])
    (by simpa [exSettings] using fun e => h e.symm) (exResults_ok second) (exMapping_ok second)
    (by intro m hm; cases hm; simp [Dict.Ok, Dict.keys])
    (by simp [exResults]) (by simp [exResults])
    (by
      intro k hk
      simp only [frameKeys, exSettings, exResults] at hk
      simp at hk
      simp only [Dict.keys_cons, Dict.keys_nil, List.mem_singleton]
      rintro rfl
      revert hk
      decide)
  refine ⟨f', m, h1, ?_, h3, h4⟩
  rw [h2]
  · rfl
  · simp only [frameKeys, exSettings, exResults]
    simp

example : ∃ f' m, physics (exSettings "energy") exResults [("I3EventHeader", .other 1)] = .ok f' ∧
    Dict.get? f' "Reco" = some (.map m) ∧ Dict.get? m "energy" = some 7 := by
  obtain ⟨f', m, h1, _, h3, h4⟩ := exWritten (second := "energy") (by decide)
  refine ⟨f', m, h1, h3, h4.parameters "energy" 7 ⟨1, rfl, rfl⟩ ?_⟩
  simp only [Reserved, ReservedBase, exSettings, exResults]
  simp

/-- C74 is violated for a parameter with a name the module uses: its value is silently replaced. -/
theorem C74_violated : ∃ s r f f' m, s.names.Nodup ∧ ResultsOk s r ∧ MappingOk s ∧
    physics s r f = .ok f' ∧ Dict.get? f' s.outputKey = some (.map m) ∧
    ∃ n v, Fitted s r n v ∧ Dict.get? m n ≠ some v := by
  obtain ⟨f', m, h1, _, h3, h4⟩ := exWritten (second := "loss_reco") (by decide)
  refine ⟨exSettings "loss_reco", exResults, _, f', m, by simp [exSettings], exResults_ok _,
    exMapping_ok _, h1, h3, "loss_reco", 7, ⟨1, rfl, rfl⟩, ?_⟩
  rw [h4.lossReco]
  simp only [exResults]
  norm_num

/-- C74: a mapping with only one angle of the direction makes the module raise, on every event. -/
theorem C74_half_direction {s : Settings} {r : Results} (f : Frame) (hr : ResultsOk s r)
    {z : String} (hm : s.mapping = some [("zenith", z)]) : physics s r f = .error .keyError := by
  unfold physics
  rw [baseEntries_ok hr.1]
  simp only
  have : particle s (sets [] (base s r)) = .error .keyError := by
    unfold particle
    rw [hm]
    simp only [particleLoop]
    cases hg : Dict.get? (sets [] (base s r)) z with
    | none => simp [Dict.get?, hg]
    | some v => simp [Dict.get?, hg]
  rw [this]

example : physics ⟨["zenith"], [], "Reco", some [("zenith", "zenith")], false, false, false, false, false⟩
    ⟨[], [1], true, 0, 0, [], 0, exGof, 0, 0⟩ [] = .error .keyError :=
  C74_half_direction [] ⟨rfl, by simp, by simp⟩ rfl

/-! ### C75 -/

/-- C75: objects of the frame are never replaced or removed, whatever the settings and results. -/
theorem C75_kept {s : Settings} {r : Results} {f f' : Frame} (h : physics s r f = .ok f') {k : String}
    {o : Obj} (hk : Dict.get? f k = some o) : Dict.get? f' k = some o := by
  unfold physics at h
  split at h
  · cases h
  · split at h
    · cases h
    · rename_i p _
      split at h
      · cases h
      · rename_i f1 l1 h1
        split at h
        · cases h
        · rename_i f2 l2 h2
          split at h
          · cases h
          · rename_i f3 h3
            have hk3 := put_kept h3 (gofStep_kept h2 (covStep_kept h1 hk))
            cases p with
            | none => cases h; exact hk3
            | some p => exact put_kept h hk3

/-- C75: if one of the objects to be written exists, for example from the same module with the same
output key, the module raises. -/
theorem C75_refused {s : Settings} {r : Results} {f : Frame} (hr : ResultsOk s r) (hm : MappingOk s)
    (hmap : ∀ m, s.mapping = some m → Dict.Ok m) (hex : ∃ k ∈ frameKeys s r, k ∈ f.keys) :
    physics s r f = .error .runtimeError := by
  obtain ⟨p, hp, hp0, _⟩ := particle_ok hr hm hmap
  have hperm := writes_keys (s := s) (r := r) (p := p) hp0
  rw [physics_ok hr hp]
  apply puts_error
  obtain ⟨k, h1, h2⟩ := hex
  exact ⟨k, hperm.mem_iff.2 h1, h2⟩

/-- Non-vacuity: running the same module twice. -/
example : ∃ f', physics (exSettings "energy") exResults [("I3EventHeader", .other 1)] = .ok f' ∧
    physics (exSettings "energy") exResults f' = .error .runtimeError := by
  obtain ⟨f', m, h1, _, h3, _⟩ := exWritten (second := "energy") (by decide)
  refine ⟨f', h1, C75_refused (exResults_ok _) (exMapping_ok _)
    (by intro m hm; cases hm; simp [Dict.Ok, Dict.keys])
    ⟨"Reco", by simp [frameKeys, exSettings], ?_⟩⟩
  exact Dict.mem_keys_of_mem (Dict.mem_of_get? h3)

/-! ### C76 -/

/-- C76: a parameter is fitted or fixed as the settings say, other parameters as the default says. -/
theorem C76_fit {names : List String} (hn : names.Nodup) (default : Bool) {fit : Dict String Bool}
    (hf : fit.Ok) (hk : ∀ q ∈ fit, q.1 ∈ names) :
    ∃ l, fitList names default fit = .ok l ∧ FitOk names default fit l := by
  have hi : ∀ n k, Dict.get? (nameDict names 0 []) n = some k ↔ names[k]? = some n := by
    intro n k
    rw [get?_nameDict names 0 [] hn n k]
    simp
  obtain ⟨l, h1, h2, h3⟩ := fitLoop_ok hn hi fit (List.replicate names.length default) hf (by simp) hk
  refine ⟨l, h1, h2, ?_⟩
  intro i n hin
  rw [h3 i n hin]
  cases Dict.get? fit n with
  | some v => rfl
  | none =>
    obtain ⟨hlt, _⟩ := List.getElem?_eq_some_iff.1 hin
    simp [hlt]

/-- C76: unknown names are refused. -/
theorem C76_unknown {names : List String} (hn : names.Nodup) (default : Bool) {fit : Dict String Bool}
    (hk : ∃ q ∈ fit, q.1 ∉ names) : fitList names default fit = .error .keyError := by
  have hi : ∀ n k, Dict.get? (nameDict names 0 []) n = some k ↔ names[k]? = some n := by
    intro n k
    rw [get?_nameDict names 0 [] hn n k]
    simp
  exact fitLoop_unknown hi fit _ hk

example : ∃ l, fitList ["x", "y", "energy"] true [("y", false)] = .ok l ∧ l[1]? = some false ∧
    l[2]? = some true := by
  obtain ⟨l, h1, _, h3⟩ := C76_fit (names := ["x", "y", "energy"]) (by decide) true
    (fit := [("y", false)]) (by simp [Dict.Ok, Dict.keys]) (by simp)
  exact ⟨l, h1, by rw [h3 1 "y" rfl]; decide, by rw [h3 2 "energy" rfl]; decide⟩

example : fitList ["x", "y"] true [("y", false), ("zenith", true)] = .error .keyError :=
  C76_unknown (by decide) true ⟨("zenith", true), by simp, by decide⟩

end Verif.Output
