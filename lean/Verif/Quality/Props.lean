import Verif.Quality.Lemmas
import Verif.Sampling.Props
import Verif.Uncert.Lemmas

/-!
# C106 to C108: quality estimates of reconstructions
-/

namespace Verif.Quality
open Verif.Py Verif.Tray

/-! ### C106 -/

/-- **C106.** The circularised uncertainty is determined from points around the fitted direction.
The opening angles go from zero in equal steps to a bound of at most 89.9 degrees. For each of them
there is an event whose direction has this opening angle to the fitted direction and whose other
parameters are fitted at this direction; the reported difference is that of its loss and the loss of
the fit. The uncertainty is the width that is fitted to these points, in radians and in degrees. -/
theorem C106_points {σ : Type} {c : Circ} (h : c.Ready) {rng : Rng σ} (hc : rng.Counts)
    {resultTrafo result : Row} (hr : c.Result resultTrafo result) {zen azi : ℝ}
    (hz : result[c.zen]? = some zen) (ha : result[c.azi]? = some azi) (hg : rng.Generic zen azi)
    (s : σ) :
    ∃ (out : CircOut σ) (upper : ℝ), c.execute rng resultTrafo result s = .ok out ∧
      0 ≤ upper ∧ upper ≤ 89.9 ∧ (∀ r, c.range = some r → upper = r) ∧
      out.deltaPsi.length = c.num ∧ out.deltaLoss.length = c.num ∧
      (∀ i < c.num, ∃ (e : Row) (zen' azi' : ℝ),
        out.deltaPsi[i]? = some (upper * i / (c.num - 1)) ∧
        (Sphere.direction zen azi).angle (Sphere.direction zen' azi') =
          (upper * i / (c.num - 1)) * Real.pi / 180 ∧
        FitAt c result e zen' azi' ∧
        out.deltaLoss[i]? = some (c.loss e - c.loss result)) ∧
      out.uncDeg = c.minimize (out.deltaPsi.zip out.deltaLoss) ∧
      out.unc = out.uncDeg * Real.pi / 180 := by
  obtain ⟨out, upper, ds, es, h1, h2, h3, h4, h5, h6, h7, h8, h9, h10, -⟩ :=
    execute_spec h hc hr hz ha hg s
  have hl : out.deltaPsi.length = c.num := by rw [h5]; simp [Uncert.linspace]
  have hd : ds.length = c.num := by rw [← h6.length_eq, hl]
  have he : es.length = c.num := by rw [← h7.length_eq, hd]
  refine ⟨out, upper, h1, h2, h3, h4, hl, by rw [h8]; simpa using he, ?_, h9, h10⟩
  intro i hi
  have hp : out.deltaPsi[i]? = some (upper * i / (c.num - 1)) := by
    rw [h5]
    simp [Uncert.linspace, hi]
  have hpe : out.deltaPsi[i]'(by omega) = upper * i / (c.num - 1) := by
    rw [List.getElem?_eq_getElem (by omega)] at hp
    simpa using hp
  refine ⟨es[i]'(by omega), (ds[i]'(by omega)).1, (ds[i]'(by omega)).2, hp, ?_, ?_, ?_⟩
  · have := (List.forall₂_iff_get.1 h6).2 i (by omega) (by omega)
    simp only [List.get_eq_getElem] at this
    rw [this, hpe]
  · exact (List.forall₂_iff_get.1 h7).2 i (by omega) (by omega)
  · rw [h8, List.getElem?_map, List.getElem?_eq_getElem (by omega)]
    rfl

/-- **C106.** Without a covariance the scan of the opening angles goes to a bound that is found by
bisection: if fits are excluded at 95% exactly beyond an opening angle, the scan ends within 90/16
degrees of it. -/
theorem C106_range {σ : Type} {c : Circ} (h : c.Ready) {rng : Rng σ} (hc : rng.Counts)
    {resultTrafo result : Row} (hr : c.Result resultTrafo result) {zen azi : ℝ}
    (hz : result[c.zen]? = some zen) (ha : result[c.azi]? = some azi) (hg : rng.Generic zen azi)
    (hn : c.range = none) {bound : ℝ} (h0 : 0 ≤ bound) (h1 : bound ≤ 89.9)
    (hb : c.SharpAt result zen azi bound) (s : σ) :
    ∃ (out : CircOut σ) (upper : ℝ), c.execute rng resultTrafo result s = .ok out ∧
      |upper - bound| ≤ 90 / 16 ∧
      ∀ i < c.num, out.deltaPsi[i]? = some (upper * i / (c.num - 1)) := by
  obtain ⟨out, -, -, -, e1, -⟩ := execute_spec h hc hr hz ha hg s
  have hlen : result.length = c.fit.length := by
    rw [hr.2]; split_ifs
    · rw [length_mapCols, hr.1]
    · exact hr.1
  have hnum : numFit c.fit = c.fit.length := by
    rw [count_numFit, List.count_eq_length]
    intro b hb; exact (h.all b hb).symm
  have e0 : c.toScan.lossFunction result resultTrafo = .ok (c.loss result) := by
    unfold Scan.lossFunction
    rw [if_neg (by simp only [ne_eq, not_not]; rw [hnum, hr.1])]
    simp only [all_iff h.all, if_true]
    rw [← hr.2]
  obtain ⟨center, s', e2, e3⟩ := bisect_bracket h hc hlen hg hb 4 s 0 90 0 (le_refl _) (by norm_num)
    (le_refl _) h0 (by linarith) (fun e => absurd e (by decide))
  have e4 := execute_range e1 hn e0 (by unfold getCol; rw [hz]) (by unfold getCol; rw [ha]) e2
  refine ⟨out, min 89.9 center, e1, ?_, ?_⟩
  · rw [abs_le] at e3 ⊢
    norm_num at e3
    constructor
    · rcases min_choice (89.9 : ℝ) center with g | g <;> rw [g] <;> linarith
    · have := min_le_right (89.9 : ℝ) center
      linarith
  · intro i hi
    rw [e4]
    simp [Uncert.linspace, hi]

/-- **C106.** The module refuses to run if a parameter of the model was not fitted. -/
theorem C106_all {σ : Type} (c : Circ) (rng : Rng σ) (resultTrafo result : Row) (s : σ)
    (h : false ∈ c.fit) : c.execute rng resultTrafo result s = .error .assertionError := by
  have : c.fit.all id = false := by
    rw [List.all_eq_false]
    exact ⟨false, h, by simp⟩
  unfold Circ.execute
  simp [this]
  rfl

/-! An event with zenith, azimuth and energy. The generator counts the numbers drawn and returns
one half, one half and three quarters in turn. -/

namespace CircEx

/-- A generator. -/
noncomputable def rng : Rng ℕ where
  draw _ n := (List.range n).map fun i => if i % 3 = 2 then 3 / 4 else 1 / 2
  next s n := s + n

noncomputable def circ : Circ where
  fit := [true, true, true]
  trafo := true
  names := ["energy", "zenith", "azimuth"]
  fwd _ v := v + 1
  inv _ v := v - 1
  loss r := r.sum
  zen := 1
  azi := 2
  num := 5
  range := none
  reco seed := [seed.sum]
  minimize ps := ps.length

theorem ready : circ.Ready where
  all := by simp [circ]
  zen := by simp [circ]
  azi := by simp [circ]
  ne := by simp [circ]
  reco := by simp [circ]
  num := by simp [circ]
  range := by simp [circ]
  inverse := by simp [circ]

theorem counts : rng.Counts := by intro s n; simp [rng]

theorem vecs_mem (p : ℝ → Prop) (hp : p (-1 + 2 * (3 / 4))) :
    ∀ (n : Nat) (f : Nat → ℝ), (∀ i, f (3 * i) = 1 / 2 ∧ f (3 * i + 1) = 1 / 2 ∧ f (3 * i + 2) = 3 / 4) →
    ∀ v ∈ vecs ((List.range n).map f), v.x = 0 ∧ v.y = 0 ∧ v.z = 1 / 2
  | 0, f, _ => by simp [vecs]
  | 1, f, _ => by simp [List.range_succ_eq_map, vecs]
  | 2, f, _ => by simp [List.range_succ_eq_map, vecs]
  | n + 3, f, hf => by
    intro v hv
    rw [List.range_succ_eq_map, List.range_succ_eq_map, List.range_succ_eq_map] at hv
    simp only [List.map_cons, List.map_map, vecs, List.mem_cons] at hv
    rcases hv with rfl | hv
    · obtain ⟨h0, h1, h2⟩ := hf 0
      simp only [Nat.mul_zero, Nat.zero_add] at h0 h1 h2
      have e1 : f (Nat.succ 0) = 1 / 2 := h1
      have e2 : f (Nat.succ (Nat.succ 0)) = 3 / 4 := h2
      rw [h0, e1, e2]
      norm_num
    · refine vecs_mem p hp n _ ?_ v hv
      intro i
      obtain ⟨h0, h1, h2⟩ := hf (i + 1)
      exact ⟨h0, h1, h2⟩

theorem generic (azi : ℝ) : rng.Generic (Real.pi / 2) azi := by
  intro s n v hv
  have := vecs_mem (fun _ => True) trivial n _ (by
    intro i
    refine ⟨?_, ?_, ?_⟩
    · rw [if_neg (by omega)]
    · rw [if_neg (by omega)]
    · rw [if_pos (by omega)]) v hv
  obtain ⟨h1, h2, h3⟩ := this
  intro he
  have e1 := congrArg Sphere.V3.x he
  have e2 := congrArg Sphere.V3.y he
  simp only [Sphere.cross, Sphere.direction, h1, h2, h3, Real.sin_pi_div_two, Real.cos_pi_div_two] at e1 e2
  have hs := Real.sin_sq_add_cos_sq azi
  have g1 : Real.sin azi = 0 := by linarith
  have g2 : Real.cos azi = 0 := by linarith
  rw [g1, g2] at hs
  norm_num at hs

theorem result : circ.Result [101, Real.pi / 2 + 1, 3] [100, Real.pi / 2, 2] := by
  refine ⟨rfl, ?_⟩
  simp [circ, mapCols]
  norm_num

example : ∃ out, circ.execute rng [101, Real.pi / 2 + 1, 3] [100, Real.pi / 2, 2] 7 = .ok out ∧
    out.deltaPsi.length = 5 ∧ out.uncDeg = 5 := by
  obtain ⟨out, -, h1, -, -, -, h2, h3, -, h4, -⟩ :=
    C106_points ready counts result (s := 7) (zen := Real.pi / 2) (azi := 2) rfl rfl (generic 2)
  refine ⟨out, h1, h2, ?_⟩
  rw [h4]
  simp only [circ, List.length_zip, h2, h3]
  norm_num

/-- The loss is larger by 1000 beyond an opening angle of thirty degrees. -/
noncomputable def sharp : Circ where
  fit := [true, true, true, true]
  trafo := false
  names := ["energy", "zenith", "azimuth", "time"]
  fwd _ v := v
  inv _ v := v
  loss r := open Classical in
    if 30 * Real.pi / 180 < (Sphere.direction (Real.pi / 2) 2).angle
      (Sphere.direction (r[1]?.getD 0) (r[2]?.getD 0)) then 1000 else 0
  zen := 1
  azi := 2
  num := 5
  range := none
  reco _ := [3, 4]
  minimize ps := ps.length

theorem sharp_at : sharp.SharpAt [1, Real.pi / 2, 2, 0] (Real.pi / 2) 2 30 := by
  intro psi zen azi e h0 h1 ha hf
  have hz : e[1]? = some zen := hf.zenith
  have hy : e[2]? = some azi := hf.azimuth
  have hpi := Real.pi_pos
  have hself : (Sphere.direction (Real.pi / 2) 2).angle (Sphere.direction (Real.pi / 2) 2) = 0 := by
    have hu : (Sphere.direction (Real.pi / 2) 2).Unit := by
      simp [Sphere.V3.Unit, Sphere.V3.dot, Sphere.direction, ← sq]
    rw [Sphere.angle_of_unit hu hu]
    have : (Sphere.direction (Real.pi / 2) 2).dot (Sphere.direction (Real.pi / 2) 2) = 1 := hu
    rw [this, Real.arccos_one]
  have hbest : sharp.loss [1, Real.pi / 2, 2, 0] = 0 := by
    simp only [sharp, List.getElem?_cons_succ, List.getElem?_cons_zero, Option.getD_some, hself]
    rw [if_neg]
    simp only [not_lt]; positivity
  have hl : sharp.loss e = if 30 < psi then 1000 else 0 := by
    simp only [sharp, hz, hy, Option.getD_some, ha]
    have : (30 * Real.pi / 180 < psi * Real.pi / 180) ↔ 30 < psi := by
      constructor
      · intro g; by_contra hx; push Not at hx; nlinarith
      · intro g; nlinarith
    simp only [this]
  rw [hbest, hl]
  by_cases g : 30 < psi
  · simp only [g, if_true, iff_true]
    have : sharp.fit.length - 2 = 2 := rfl
    rw [this, Uncert.chi2_two _ (by norm_num)]
    have h2 : Real.exp (-(2 * ((1000 : ℝ) - 0) / 2)) * 1000 ≤ 1 := by
      have h3 := Real.add_one_le_exp (1000 : ℝ)
      have h4 : Real.exp (-(2 * ((1000 : ℝ) - 0) / 2)) * Real.exp 1000 = 1 := by
        rw [← Real.exp_add]; norm_num
      have h5 := Real.exp_pos (-(2 * ((1000 : ℝ) - 0) / 2))
      nlinarith
    linarith
  · simp only [g, if_false, iff_false, sub_self, mul_zero, Uncert.chi2_at_zero]
    norm_num

end CircEx

/-! ### C107 -/

/-- **C107** (partial: for a fit of all parameters, or of exactly one, with hits in all sampled
events; otherwise see the theorems below). As many hypotheses are sampled as configured; without a
covariance matrix they are the fit itself. Pulses are simulated for each of them, one after the
other. Each set of pulses replaces those of the event, and is reconstructed with the hypothesis as
seed. The losses are those of these reconstructions for their own pulses, and the loss of the data is
that of the fitted values for the measured pulses, the other parameters being those of the hypothesis
sampled last. Losses are divided by the charge of the event plus one, if this is wanted. The p-values
are the fraction of samples with at least the loss of the data, and twice the smaller of this fraction
and the fraction of those below. -/
theorem C107_samples_partial {σ β : Type} {g : Goodness σ β} (hr : g.Ready) (hw : g.Works)
    (hp : ∀ s h q, 0 < charge q → ∃ x s1, g.pulses s h q = .ok (x, s1))
    (hq : ∀ s hs, ∀ q ∈ (g.npe s hs).1, 0 < charge q)
    {lib : Sampling.Lib} (hlib : Sampling.LibOk lib) (hn : 1 ≤ g.numSamples)
    {resultTrafo result : Row} (hl : result.length = g.fit.length)
    (ht : resultTrafo.length = g.fit.count true) (cov : Bool) (data : Sampling.Batch β) (dataTotal : ℝ)
    (s : σ) :
    ∃ (out : GoodnessOut σ) (qs : List (ℕ × ℕ → ℕ)) (s0 s1 s2 : σ)
      (rs : List (Row × Terms)) (seed d : Row),
      g.execute lib cov resultTrafo result data dataTotal s = .ok out ∧
      out.hypotheses.length = g.numSamples ∧
      (cov = false → (∀ h ∈ out.hypotheses, h = result) ∧ s0 = s) ∧
      (cov = true → ∃ rows, g.mvn s (onLog (fun x => Real.log (1 + x)) g.isLog result) g.numSamples =
        (rows, s0) ∧ out.hypotheses = rows.map (onLog (fun x => Real.exp x - 1) g.isLog)) ∧
      g.npe s0 out.hypotheses = (qs, s1) ∧
      SamplesOf g data s1 (out.hypotheses.zip qs) rs s2 ∧
      rs.length = g.numSamples ∧
      out.recos = rs.map (·.1) ∧
      out.losses = (rs.zip qs).map (fun p => g.norm p.1.2.all (charge p.2)) ∧
      out.hypotheses.getLast? = some seed ∧ Merged g seed resultTrafo d ∧
      out.dataLoss = g.norm (g.terms d data).all dataTotal ∧
      out.event = (Sampling.frac out.losses (fun x => out.dataLoss ≤ x),
        2 * min (Sampling.frac out.losses (fun x => x < out.dataLoss))
          (Sampling.frac out.losses (fun x => out.dataLoss ≤ x))) ∧
      (∀ o, out.dom o =
        let samples := (rs.zip qs).map (fun p => g.norm (p.1.2.dom o) (charge p.2))
        let measured := g.norm ((g.terms d data).dom o) dataTotal
        .ok (Sampling.frac samples (fun x => measured ≤ x),
          2 * min (Sampling.frac samples (fun x => x < measured))
            (Sampling.frac samples (fun x => measured ≤ x)))) ∧
      (∀ i < g.fit.length, out.bias[i]? = some (((out.hypotheses.zip out.recos).map
        (fun p => p.1.getD i 0 - p.2.getD i 0)).sum / g.numSamples)) ∧
      out.state = s2 := by
  simp only [← total_eq_all, ← total_eq_charge] at hp hq ⊢
  obtain ⟨l1, l2⟩ := hypotheses_length hr cov s hl
  obtain ⟨hs, s0, e0⟩ : ∃ hs s0, g.hypotheses cov s result = (hs, s0) := ⟨_, _, rfl⟩
  rw [e0] at l1 l2
  simp only at l1 l2
  obtain ⟨qs, s1, e1⟩ : ∃ qs s1, g.npe s0 hs = (qs, s1) := ⟨_, _, rfl⟩
  have lq : qs.length = hs.length := by have := hr.npe s0 hs; rw [e1] at this; exact this
  have hq' : ∀ q ∈ qs, 0 < total q := by have := hq s0 hs; rw [e1] at this; exact this
  obtain ⟨as, s2, a1, a2, a3⟩ := samples_spec hr hw data hp (hs.zip qs) s1 (by
    intro e he
    have := List.of_mem_zip he
    exact ⟨l2 _ this.1, hq' _ this.2⟩)
  have la : as.length = g.numSamples := by rw [a2, List.length_zip, lq, l1]; simp
  set rs := ((hs.zip qs).zip as).map fun p => (g.full p.1.1 p.2.reco, p.2.terms) with hrs
  have lr : rs.length = g.numSamples := by
    rw [hrs, List.length_map, List.length_zip, List.length_zip, lq, l1, la]; simp
  obtain ⟨seed, hseed⟩ : ∃ seed, hs.getLast? = some seed := by
    cases hs with
    | nil => simp at l1; omega
    | cons a l => exact ⟨_, List.getLast?_eq_some_getLast (by simp)⟩
  have hsl : seed.length = g.fit.length := l2 _ (List.mem_of_getLast? hseed)
  have hm := full_merged hr.inverse hsl ht
  have e2 : g.loss seed resultTrafo data = .ok (g.terms (g.full seed resultTrafo) data) := by
    unfold Goodness.loss
    rw [if_neg (by simp only [ne_eq, not_not]; rw [count_numFit, ht])]
  have hrecos : (hs.zip as).map (fun p => g.full p.1 p.2.reco) = rs.map (·.1) := by
    rw [hrs, List.map_map]
    apply List.ext_getElem
    · simp [lq]
    · intro i h1 h2
      simp
  have hlosses : ∀ f : Terms → ℝ, (as.zip qs).map (fun p => g.norm (f p.1.terms) (total p.2)) =
      (rs.zip qs).map (fun p => g.norm (f p.1.2) (total p.2)) := by
    intro f
    apply List.ext_getElem
    · rw [List.length_map, List.length_map, List.length_zip, List.length_zip, lr, la]
    · intro i h1 h2
      simp only [List.getElem_map, List.getElem_zip, hrs]
  have hne : ∀ f : Terms → ℝ, (rs.zip qs).map (fun p => g.norm (f p.1.2) (total p.2)) ≠ [] := by
    intro f he
    have := congrArg List.length he
    rw [List.length_map, List.length_zip, lr, lq, l1, Nat.min_self, List.length_nil] at this
    omega
  set out : GoodnessOut σ := ⟨hs, rs.map (·.1), bias result.length hs (rs.map (·.1)),
    (rs.zip qs).map (fun p => g.norm p.1.2.total (total p.2)),
    g.norm (g.terms (g.full seed resultTrafo) data).total dataTotal,
    (Sampling.frac ((rs.zip qs).map (fun p => g.norm p.1.2.total (total p.2)))
        (fun x => g.norm (g.terms (g.full seed resultTrafo) data).total dataTotal ≤ x),
      2 * min (Sampling.frac ((rs.zip qs).map (fun p => g.norm p.1.2.total (total p.2)))
          (fun x => x < g.norm (g.terms (g.full seed resultTrafo) data).total dataTotal))
        (Sampling.frac ((rs.zip qs).map (fun p => g.norm p.1.2.total (total p.2)))
          (fun x => g.norm (g.terms (g.full seed resultTrafo) data).total dataTotal ≤ x))),
    fun o => Sampling.pValue lib ((rs.zip qs).map fun p => g.norm (p.1.2.dom o) (total p.2))
      (g.norm ((g.terms (g.full seed resultTrafo) data).dom o) dataTotal), s2⟩ with hout
  refine ⟨out, qs, s0, s1, s2, rs, seed, g.full seed resultTrafo, ?_, l1, ?_, ?_, e1, a3, lr, rfl, rfl,
    hseed, hm, rfl, rfl, ?_, ?_, rfl⟩
  · unfold Goodness.execute
    have n1 := hlosses Terms.total
    have n2 := fun o => hlosses (fun t => t.dom o)
    have hpv := Sampling.C60_counts hlib (hne Terms.total)
      (g.norm (g.terms (g.full seed resultTrafo) data).total dataTotal)
    unfold Goodness.norm at n1 n2 hpv
    simp only [e0, e1, a1, bind, Except.bind, hseed, e2, hrecos, n1, n2, hpv, pure, Except.pure]
    rw [hout]
    rfl
  · intro hcov
    subst hcov
    unfold Goodness.hypotheses at e0
    simp only [Bool.false_eq_true, if_false, Prod.mk.injEq] at e0
    refine ⟨?_, e0.2.symm⟩
    intro h hh
    have : h ∈ hs := hh
    rw [← e0.1] at this
    exact (List.mem_replicate.1 this).2
  · intro hcov
    subst hcov
    unfold Goodness.hypotheses at e0
    simp only [if_true, Prod.mk.injEq] at e0
    exact ⟨_, Prod.ext rfl e0.2, e0.1.symm⟩
  · intro o
    exact Sampling.C60_counts hlib (hne fun t => t.dom o) _
  · intro i hi
    show (bias result.length hs (rs.map (·.1)))[i]? = _
    unfold bias
    rw [List.getElem?_map, List.getElem?_range (by rw [hl]; exact hi)]
    rw [l1]
    rfl

/-- **C107** (partial: all parameters fitted, or no covariance matrix). The loss of the data is that
of the fit. -/
theorem C107_data_partial {σ β : Type} {g : Goodness σ β} {seed seed0 resultTrafo result d : Row}
    (hres : Merged g seed0 resultTrafo result) (hd : Merged g seed resultTrafo d)
    (h : (∀ b ∈ g.fit, b = true) ∨ seed = result) : d = result := by
  apply List.ext_getElem?
  intro i
  by_cases hi : i < g.fit.length
  · cases hb : g.fit[i]? with
    | none => rw [List.getElem?_eq_getElem hi] at hb; cases hb
    | some b =>
      cases b with
      | true =>
        have := Reco.positions_of hb
        rw [hd.fitted _ _ this, hres.fitted _ _ this]
      | false =>
        rcases h with h | h
        · have := h false (by rw [List.mem_iff_getElem?]; exact ⟨i, hb⟩)
          simp at this
        · rw [hd.kept i hb, h]
  · rw [List.getElem?_eq_none (by rw [hd.length]; omega),
      List.getElem?_eq_none (by rw [hres.length]; omega)]

/-- **C107** is violated if some but not all parameters are fitted and there is more than one of
them: then no event gets a result, whatever is sampled. -/
theorem C107_subset_violated {σ β : Type} {g : Goodness σ β} (hr : g.Ready) (hrec : g.reconstruct = true)
    (h0 : g.fit.count true ≠ 1) (h1 : g.fit.count true < g.fit.length) (hn : 1 ≤ g.numSamples)
    (lib : Sampling.Lib) (cov : Bool) (resultTrafo : Row) {result : Row}
    (hl : result.length = g.fit.length) (data : Sampling.Batch β) (dataTotal : ℝ) (s : σ) :
    ∃ e, g.execute lib cov resultTrafo result data dataTotal s = .error e := by
  obtain ⟨l1, l2⟩ := hypotheses_length hr cov s hl
  obtain ⟨hs, s0, e0⟩ : ∃ hs s0, g.hypotheses cov s result = (hs, s0) := ⟨_, _, rfl⟩
  rw [e0] at l1 l2
  simp only at l1 l2
  obtain ⟨qs, s1, e1⟩ : ∃ qs s1, g.npe s0 hs = (qs, s1) := ⟨_, _, rfl⟩
  have lq : qs.length = hs.length := by have := hr.npe s0 hs; rw [e1] at this; exact this
  have key : ∃ e, g.samples data s1 (hs.zip qs) = .error e := by
    match hs, qs, l1, l2, lq with
    | [], _, l1, _, _ => simp at l1; omega
    | h :: hs, q :: qs, l1, l2, lq =>
      rw [List.zip_cons_cons, Goodness.samples]
      cases hx : g.pulses s1 h q with
      | error e =>
        refine ⟨e, ?_⟩
        unfold Goodness.sample
        simp only [bind, Except.bind, hx]
      | ok x =>
        refine ⟨.valueError, ?_⟩
        have hlen := hr.reco (Sampling.sampleBatch data x.1) h
        have ha : assign h.length (g.reco (Sampling.sampleBatch data x.1) h) = .error .valueError := by
          unfold assign
          rw [if_neg (by rw [hlen, l2 h (by simp)]; omega)]
          split
          · rename_i v hv
            rw [hv] at hlen
            simp at hlen
            omega
          · rfl
        unfold Goodness.sample
        simp only [bind, Except.bind, hx, hrec, if_true, ha]
  obtain ⟨e, he⟩ := key
  refine ⟨e, ?_⟩
  unfold Goodness.execute
  simp only [e0, e1, he, bind, Except.bind]

/-- **C107** is violated if a sampled event has no hit: then the event gets no result, although the
samples after it might have had one. (That no pulses can be sampled without charge is C59.) -/
theorem C107_no_hit_violated {σ β : Type} {g : Goodness σ β} (lib : Sampling.Lib) (cov : Bool)
    (resultTrafo result : Row) (data : Sampling.Batch β) (dataTotal : ℝ) (s s0 s1 : σ)
    (h : Row) (hs : List Row) (q : ℕ × ℕ → ℕ) (qs : List (ℕ × ℕ → ℕ)) (e : Err)
    (hh : g.hypotheses cov s result = (h :: hs, s0)) (hq : g.npe s0 (h :: hs) = (q :: qs, s1))
    (hx : g.pulses s1 h q = .error e) :
    g.execute lib cov resultTrafo result data dataTotal s = .error e := by
  unfold Goodness.execute
  simp only [hh, hq, bind, Except.bind, List.zip_cons_cons, Goodness.samples, Goodness.sample, hx]

namespace GoodnessEx

/-- Two parameters; hypotheses are sampled one unit above the fit. -/
noncomputable def g (fit : List Bool) (n : Nat) : Goodness ℕ Unit where
  fit := fit
  trafo := false
  fwd _ v := v
  inv _ v := v
  isLog := fit.map fun _ => false
  numSamples := n
  reconstruct := true
  normalize := true
  mvn s _ n := (List.replicate n (fit.map fun _ => (s : ℝ)), s + 1)
  npe s hs := (hs.map fun _ _ => 1, s + 1)
  pulses s _ _ := .ok (([], [(s, 0, 0)]), s + 1)
  reco b h := List.replicate (fit.count true) (h.sum + b.ids.length)
  terms r b := ⟨r.sum, b.ids.length, fun _ => 0⟩

theorem ready (fit : List Bool) (n : Nat) : (g fit n).Ready where
  mvn s r k := by
    refine ⟨by simp [g], ?_⟩
    intro h hh
    simp only [g, List.mem_replicate] at hh
    rw [hh.2]
    simp [g]
  npe s hs := by simp [g]
  reco b h := by simp [g]
  inverse i v := rfl
  log := by simp [g]

theorem total_pos : 0 < charge (fun _ => 1) := by
  rw [← total_eq_charge]
  unfold total
  have : (0, 0) ∈ Sampling.doms := (Sampling.mem_doms 0 0).2 (by omega)
  rw [List.map_const', List.sum_replicate]
  have := List.length_pos_of_mem this
  simpa using this

example : ∃ out, (g [true, true] 3).execute Sampling.exLib true [1, 2] [1, 2] ⟨[], [], fun _ => 0, ()⟩ 5 0 =
    .ok out ∧ out.hypotheses.length = 3 := by
  obtain ⟨out, -, -, -, -, -, -, -, h1, h2, -⟩ :=
    C107_samples_partial (ready [true, true] 3) (Or.inl (by simp [g]))
      (fun _ _ _ _ => ⟨_, _, rfl⟩)
      (by intro s hs q hq; simp only [g, List.mem_map] at hq; obtain ⟨_, _, rfl⟩ := hq; exact total_pos)
      Sampling.exLib_ok (by simp [g]) (resultTrafo := [1, 2]) (result := [1, 2]) rfl rfl true
      ⟨[], [], fun _ => 0, ()⟩ 5 0
  exact ⟨out, h1, h2⟩

example : ∃ e, (g [true, true, false] 3).execute Sampling.exLib false [1, 2] [1, 2, 3]
    ⟨[], [], fun _ => 0, ()⟩ 5 0 = .error e :=
  C107_subset_violated (ready _ 3) rfl (by simp [g]) (by simp [g]) (by simp [g]) _ _ _ rfl _ _ _

end GoodnessEx

/-- **C107** is violated with a covariance matrix if one of several parameters is fitted: the loss that
is reported for the fit is that of another hypothesis, with parameters of the hypothesis sampled
last. -/
theorem C107_data_violated : ∃ (g : Goodness ℕ Unit) (out : GoodnessOut ℕ) (result : Row)
    (data : Sampling.Batch Unit),
    g.Ready ∧ Merged g result [1] result ∧
    g.execute Sampling.exLib true [1] result data 0 0 = .ok out ∧
    out.dataLoss ≠ g.norm (g.terms result data).all 0 := by
  have hw : (GoodnessEx.g [true, false] 1).Works := Or.inr ⟨rfl, by simp [GoodnessEx.g], by simp [GoodnessEx.g]⟩
  obtain ⟨out, qs, s0, s1, s2, rs, seed, d, h1, h2, -, h4, -, -, -, -, -, h5, h6, h7, -⟩ :=
    C107_samples_partial (GoodnessEx.ready [true, false] 1) hw
      (fun _ _ _ _ => ⟨_, _, rfl⟩)
      (by
        intro s hs q hq
        simp only [GoodnessEx.g, List.mem_map] at hq
        obtain ⟨_, _, rfl⟩ := hq
        exact GoodnessEx.total_pos)
      Sampling.exLib_ok (by simp [GoodnessEx.g]) (resultTrafo := [1]) (result := [1, 2]) rfl rfl true
      ⟨[], [], fun _ => 0, ()⟩ 0 0
  refine ⟨GoodnessEx.g [true, false] 1, out, [1, 2], ⟨[], [], fun _ => 0, ()⟩, GoodnessEx.ready _ 1, ?_,
    h1, ?_⟩
  · have := full_merged (g := GoodnessEx.g [true, false] 1) (fun _ _ => rfl) (seed := [1, 2]) (p := [1])
      rfl rfl
    exact this
  · obtain ⟨rows, e1, e2⟩ := h4 rfl
    have hrows : rows = [[0, 0]] := by
      have := (Prod.mk.inj e1).1
      rw [← this]
      simp [GoodnessEx.g]
    subst hrows
    have hseed : seed = [0, 0] := by
      rw [e2] at h5
      simpa [GoodnessEx.g, onLog] using h5.symm
    subst hseed
    have hm := full_merged (g := GoodnessEx.g [true, false] 1) (fun _ _ => rfl) (seed := [0, 0]) (p := [1])
      rfl rfl
    have hd : d = [1, 0] := merged_unique h6 hm
    rw [h7, hd]
    rw [← total_eq_all, ← total_eq_all]
    simp [Goodness.norm, GoodnessEx.g, Terms.total]

/-! ### C108 -/

/-- Events processed one after the other: the state of the generator after them. -/
noncomputable def Circ.states {σ : Type} (rng : Rng σ) (c : Circ) : List (Row × Row) → σ → σ
  | [], s => s
  | e :: es, s =>
    Circ.states rng c es (match c.execute rng e.1 e.2 s with | .ok out => out.state | .error _ => s)

/-- **C108** (partial: what is reported for an event depends on its position, see below). The
circularised uncertainty of an event depends on the events processed before it only through their
number. -/
theorem C108_position_partial {σ : Type} {c : Circ} (h : c.Ready) {rng : Rng σ} (hc : rng.Counts)
    (before before' : List (Row × Row)) (hn : before.length = before'.length)
    (hb : ∀ e ∈ before ++ before', c.Result e.1 e.2 ∧ ∀ zen azi, e.2[c.zen]? = some zen →
      e.2[c.azi]? = some azi → rng.Generic zen azi)
    (s : σ) (e : Row × Row) :
    c.execute rng e.1 e.2 (c.states rng before s) = c.execute rng e.1 e.2 (c.states rng before' s) := by
  have key : ∀ (es : List (Row × Row)) (s : σ), (∀ e ∈ es, c.Result e.1 e.2 ∧
      ∀ zen azi, e.2[c.zen]? = some zen → e.2[c.azi]? = some azi → rng.Generic zen azi) →
      c.states rng es s = (c.after rng)^[es.length] s := by
    intro es
    induction es with
    | nil => intro s _; rfl
    | cons e es ih =>
      intro s hes
      obtain ⟨g1, g2⟩ := hes e (by simp)
      have hl : e.2.length = c.fit.length := by
        rw [g1.2]; split_ifs
        · rw [length_mapCols, g1.1]
        · exact g1.1
      have hz := List.getElem?_eq_getElem (l := e.2) (i := c.zen) (by rw [hl]; exact h.zen)
      have ha := List.getElem?_eq_getElem (l := e.2) (i := c.azi) (by rw [hl]; exact h.azi)
      obtain ⟨out, -, -, -, h1, -, -, -, -, -, -, -, -, -, h2⟩ :=
        execute_spec h hc g1 hz ha (g2 _ _ hz ha) s
      rw [Circ.states, h1]
      simp only
      rw [h2, ih _ (fun e he => hes e (by simp [he])), List.length_cons, Function.iterate_succ_apply]
  rw [key before s (fun e he => hb e (by simp [he])), key before' s (fun e he => hb e (by simp [he])), hn]

example (e : Row × Row) : CircEx.circ.execute CircEx.rng e.1 e.2
      (CircEx.circ.states CircEx.rng [([101, Real.pi / 2 + 1, 3], [100, Real.pi / 2, 2])] 7) =
    CircEx.circ.execute CircEx.rng e.1 e.2
      (CircEx.circ.states CircEx.rng [([51, Real.pi / 2 + 1, 4], [50, Real.pi / 2, 3])] 7) := by
  refine C108_position_partial CircEx.ready CircEx.counts _ _ (by rfl) ?_ 7 e
  intro e he
  simp only [List.cons_append, List.nil_append, List.mem_cons, List.not_mem_nil, or_false] at he
  rcases he with rfl | rfl
  · refine ⟨CircEx.result, ?_⟩
    intro zen azi hz _
    simp only [CircEx.circ, List.getElem?_cons_succ, List.getElem?_cons_zero, Option.some.injEq] at hz
    rw [← hz]
    exact CircEx.generic azi
  · refine ⟨⟨rfl, ?_⟩, ?_⟩
    · simp [CircEx.circ, mapCols]
      norm_num
    · intro zen azi hz _
      simp only [CircEx.circ, List.getElem?_cons_succ, List.getElem?_cons_zero, Option.some.injEq] at hz
      rw [← hz]
      exact CircEx.generic azi

namespace OrderEx

/-- A generator whose numbers depend on how many were drawn before. -/
noncomputable def rng : Rng ℕ where
  draw s n := (List.range n).map fun i => if i % 3 = (if s ≤ 2 then 1 else 2) then 3 / 4 else 1 / 2
  next s n := s + n

/-- Zenith and azimuth; the loss is the zenith. -/
noncomputable def circ : Circ where
  fit := [true, true]
  trafo := false
  names := ["zenith", "azimuth"]
  fwd _ v := v
  inv _ v := v
  loss r := r.getD 0 0
  zen := 0
  azi := 1
  num := 2
  range := some 45
  reco _ := []
  minimize _ := 0

theorem ready : circ.Ready where
  all := by simp [circ]
  zen := by simp [circ]
  azi := by simp [circ]
  ne := by simp [circ]
  reco := by simp [circ]
  num := by simp [circ]
  range := by
    intro r hr
    simp only [circ, Option.some.injEq] at hr
    subst hr
    norm_num
  inverse := by simp [circ]

theorem lossAt (zen azi : ℝ) (d : ℝ × ℝ) : circ.lossAt [zen, azi] d = .ok d.1 := by
  simp [Circ.lossAt, circ, setCol, Scan.lossFunction, Circ.unc, numFit, fill, bind, Except.bind]

/-- The random vector that is drawn in a state. -/
noncomputable def temp (s : ℕ) : Sphere.V3 := if s ≤ 2 then ⟨0, 1 / 2, 0⟩ else ⟨0, 0, 1 / 2⟩

theorem vecs_rng (s : ℕ) : vecs (rng.draw s 6) = [temp s, temp s] := by
  by_cases h : s ≤ 2
  · simp only [rng, h, if_true, List.range_succ_eq_map, temp]
    simp [vecs]
    norm_num
  · simp only [rng, h, if_false, List.range_succ_eq_map, temp]
    simp [vecs]
    norm_num

theorem linspace : Uncert.linspace 45 2 = [0, 45] := by
  simp [Uncert.linspace, List.range_succ]
  norm_num

theorem deg45 : Sphere.deg2rad 45 = Real.pi / 4 := by unfold Sphere.deg2rad; ring

theorem directions (s : ℕ) : Quality.directions rng s (Real.pi / 2) 0 [0, 45] =
    .ok ([Sphere.angles (Sphere.tilted (Sphere.direction (Real.pi / 2) 0) (temp s) (Sphere.deg2rad 0)),
      Sphere.angles (Sphere.tilted (Sphere.direction (Real.pi / 2) 0) (temp s) (Sphere.deg2rad 45))],
      s + 6) := by
  unfold Quality.directions
  have hn : 3 * max 1 ([0, 45] : List ℝ).length = 6 := rfl
  simp only [hn, vecs_rng]
  have hle : ¬ ∃ e ∈ [((Sphere.direction (Real.pi / 2) 0, temp s, Sphere.deg2rad 0) :
      Sphere.V3 × Sphere.V3 × ℝ), (Sphere.direction (Real.pi / 2) 0, temp s, Sphere.deg2rad 45)],
      e.2.2 ≥ Sphere.deg2rad 90 := by
    rintro ⟨e, he, hge⟩
    have hpi := Real.pi_pos
    simp only [List.mem_cons, List.not_mem_nil, or_false] at he
    rcases he with rfl | rfl <;> simp only [Sphere.deg2rad] at hge <;> linarith
  unfold Sphere.deltaPsi Sphere.deltaPsiDir
  simp only [List.zip_cons_cons, List.zip_nil_right, List.map_cons, List.map_nil, if_true]
  rw [if_neg hle]
  rfl

theorem direction0 : Sphere.direction (Real.pi / 2) 0 = ⟨1, 0, 0⟩ := by
  simp [Sphere.direction]

theorem zenith_early {s : ℕ} (h : s ≤ 2) :
    (Sphere.angles (Sphere.tilted (Sphere.direction (Real.pi / 2) 0) (temp s) (Sphere.deg2rad 45))).1 =
      Real.arccos (1 / Real.sqrt 2) := by
  have h2 : Sphere.norm (Sphere.cross ⟨1, 0, 0⟩ (temp s)) = 1 / 2 := by
    simp only [temp, if_pos h, Sphere.norm, Sphere.cross]
    rw [show ((0 : ℝ) * 0 - 0 * (1 / 2)) ^ 2 + (0 * 0 - 1 * 0) ^ 2 + (1 * (1 / 2) - 0 * 0) ^ 2 =
      (1 / 2) ^ 2 by norm_num]
    rw [Real.sqrt_sq (by norm_num)]
  have h3 : Sphere.tilted (Sphere.direction (Real.pi / 2) 0) (temp s) (Sphere.deg2rad 45) =
      ⟨1 / Real.sqrt 2, 0, 1 / Real.sqrt 2⟩ := by
    unfold Sphere.tilted
    simp only [direction0, deg45, Real.tan_pi_div_four, h2]
    simp only [temp, if_pos h, Sphere.cross, Sphere.sdiv, Sphere.smul, Sphere.add, Sphere.norm]
    norm_num
  have hb : 0 ≤ 1 / Real.sqrt 2 := by positivity
  have hb1 : 1 / Real.sqrt 2 ≤ 1 := by
    rw [div_le_one (by positivity)]
    exact Real.one_le_sqrt.2 (by norm_num)
  rw [h3]
  unfold Sphere.angles Sphere.clip
  simp only
  rw [max_eq_left (by linarith), min_eq_left hb1]

theorem zenith_late {s : ℕ} (h : ¬ s ≤ 2) :
    (Sphere.angles (Sphere.tilted (Sphere.direction (Real.pi / 2) 0) (temp s) (Sphere.deg2rad 45))).1 =
      Real.pi / 2 := by
  have h3 : (Sphere.tilted (Sphere.direction (Real.pi / 2) 0) (temp s) (Sphere.deg2rad 45)).z = 0 := by
    unfold Sphere.tilted
    simp only [direction0]
    simp [temp, if_neg h, Sphere.cross, Sphere.sdiv, Sphere.smul, Sphere.add]
  unfold Sphere.angles Sphere.clip
  simp only [h3]
  rw [max_eq_left (by norm_num), min_eq_left (by norm_num), Real.arccos_zero]

theorem execute (s : ℕ) : ∃ out, circ.execute rng [Real.pi / 2, 0] [Real.pi / 2, 0] s = .ok out ∧
    out.deltaLoss[1]? = some ((Sphere.angles (Sphere.tilted (Sphere.direction (Real.pi / 2) 0)
      (temp (s + 2)) (Sphere.deg2rad 45))).1 - Real.pi / 2) ∧ out.state = s + 8 := by
  have e0 : circ.toScan.lossFunction [Real.pi / 2, 0] [Real.pi / 2, 0] = .ok (Real.pi / 2) := by
    simp [circ, Scan.lossFunction, numFit]
  have hr : circ.range = some 45 := rfl
  have hd := directions (s + 2)
  have hl : Uncert.linspace 45 circ.num = [0, 45] := linspace
  have hs : rng.next s circ.num = s + 2 := rfl
  have hall : (¬ circ.fit.all id = true) = False := by simp [circ]
  have hz : getCol [Real.pi / 2, 0] circ.zen = .ok (Real.pi / 2) := rfl
  have ha : getCol [Real.pi / 2, 0] circ.azi = .ok 0 := rfl
  unfold Circ.execute
  simp only [hall, if_false, bind, Except.bind, e0, hz, ha, pure, Except.pure, hr, hl, hs, hd, Circ.losses,
    List.mapM_cons, List.mapM_nil, lossAt, List.cons_ne_nil]
  exact ⟨_, rfl, rfl, rfl⟩

end OrderEx

/-- **C108** is violated: what is reported for an event depends on how many events were processed
before it. Here the same event is processed twice in a row. -/
theorem C108_again_violated : ∃ (c : Circ) (rng : Rng ℕ) (r : Row) (out out' : CircOut ℕ),
    c.Ready ∧ c.Result r r ∧ c.execute rng r r 0 = .ok out ∧
    c.execute rng r r out.state = .ok out' ∧ out.deltaLoss ≠ out'.deltaLoss := by
  obtain ⟨out, h1, h2, h3⟩ := OrderEx.execute 0
  obtain ⟨out', g1, g2, -⟩ := OrderEx.execute 8
  refine ⟨OrderEx.circ, OrderEx.rng, [Real.pi / 2, 0], out, out', OrderEx.ready, ⟨rfl, rfl⟩, h1, ?_, ?_⟩
  · rw [h3]; exact g1
  · intro he
    rw [he, g2, OrderEx.zenith_early (s := 0 + 2) (by omega), OrderEx.zenith_late (s := 8 + 2) (by omega)] at h2
    simp only [Option.some.injEq, sub_left_inj] at h2
    have hb : 0 < 1 / Real.sqrt 2 := by positivity
    have hb1 : 1 / Real.sqrt 2 ≤ 1 := by
      rw [div_le_one (by positivity)]
      exact Real.one_le_sqrt.2 (by norm_num)
    have hlt := Real.arccos_lt_pi_div_two.2 hb
    linarith

/-- **C108** is violated: the hypotheses from which an event's goodness of fit is determined depend on
the events processed before it. -/
theorem C108_goodness_violated : ∃ (g : Goodness ℕ Unit) (out out' : GoodnessOut ℕ) (data : Sampling.Batch Unit),
    g.Ready ∧ g.execute Sampling.exLib true [1] [1] data 5 0 = .ok out ∧
    g.execute Sampling.exLib true [1] [1] data 5 out.state = .ok out' ∧ out.hypotheses ≠ out'.hypotheses := by
  have run : ∀ s : ℕ, ∃ out : GoodnessOut ℕ, (GoodnessEx.g [true] 1).execute Sampling.exLib true [1] [1]
      ⟨[], [], fun _ => 0, ()⟩ 5 s = .ok out ∧ out.hypotheses = [[(s : ℝ)]] ∧ out.state = s + 3 := by
    intro s
    obtain ⟨out, qs, s0, s1, s2, rs, seed, d, h1, h2, -, h4, h5, h6, h8, -, -, -, -, -, -, -, -, h7⟩ :=
      C107_samples_partial (GoodnessEx.ready [true] 1) (Or.inl (by simp [GoodnessEx.g]))
        (fun _ _ _ _ => ⟨_, _, rfl⟩)
        (by
          intro s hs q hq
          simp only [GoodnessEx.g, List.mem_map] at hq
          obtain ⟨_, _, rfl⟩ := hq
          exact GoodnessEx.total_pos)
        Sampling.exLib_ok (by simp [GoodnessEx.g]) (resultTrafo := [1]) (result := [1]) rfl rfl true
        ⟨[], [], fun _ => 0, ()⟩ 5 s
    obtain ⟨rows, e1, e2⟩ := h4 rfl
    obtain ⟨e3, e4⟩ := Prod.mk.inj e1
    subst e3 e4
    have hh : out.hypotheses = [[(s : ℝ)]] := by
      rw [e2]
      simp [GoodnessEx.g, onLog]
    rw [hh] at h5 h6
    obtain ⟨e5, e6⟩ := Prod.mk.inj h5
    subst e5 e6
    refine ⟨out, h1, hh, ?_⟩
    rw [h7]
    match rs, h6, h8 with
    | [r], h6, _ =>
      obtain ⟨s3, ⟨x, hx, -⟩, h9⟩ := h6
      have h9 : s3 = s2 := h9
      have hx : (s + 1 + 1) + 1 = s3 := (Prod.mk.inj (Except.ok.inj hx)).2
      omega
  obtain ⟨out, h1, h2, h3⟩ := run 0
  obtain ⟨out', g1, g2, -⟩ := run 3
  refine ⟨_, out, out', _, GoodnessEx.ready [true] 1, h1, ?_, ?_⟩
  · rw [h3]; exact g1
  · rw [h2, g2]
    simp

end Verif.Quality
