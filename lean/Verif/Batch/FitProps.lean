import Verif.Batch.FitSpec
import Verif.Batch.DirectionProps
import Verif.Batch.MergeProps
import Verif.Batch.Props
import Verif.Fit.Props

/-!
# C143: events are fitted independently of each other, of the origin of time, of the way directions are written
and of the way charge is divided into pulses
-/

namespace Verif.Batch
open Verif.Py
variable {X : Type} {B P Q W : ℕ}

theorem fitLoss_events {n m : Fin B → ℕ} (M : Source X) (cfg : Loss.Config) (D : Data X B P W) (E : Extra B P)
    (hB : 0 < B) (e : ∀ b, Fin (n b) → Fin P) (v : ∀ b, Fin (m b) → Fin W) (h : ∀ b, Belongs D b (e b) (v b))
    (x : Fin B → X) :
    (∃ xs : Fin B → ℝ, fitLoss M cfg D E x = .ok (∑ b, xs b) ∧
      ∀ b, fitLoss M cfg (D.only b (e b) (v b)) (E.only b (e b)) (fun _ => x b) = .ok (xs b)) ∨
    ∃ err, fitLoss M cfg D E x = .error err ∧
      ∃ b, fitLoss M cfg (D.only b (e b) (v b)) (E.only b (e b)) (fun _ => x b) = .error err := by
  rcases C139_loss M cfg { D with x := x } E hB e v h with ⟨a, xs, h1, h2, h3⟩ | ⟨err, h1, b, h2⟩
  · exact .inl ⟨xs, h3 ▸ h1, h2⟩
  · exact .inr ⟨err, h1, b, h2⟩

/-- **C143.** Parameters are best for a batch of measured events exactly if those of each event are best for the
event alone, with its own pulses and windows. -/
theorem C143_events {n m : Fin B → ℕ} (M : Source X) (cfg : Loss.Config) (D : Data X B P W) (E : Extra B P)
    (hB : 0 < B) (e : ∀ b, Fin (n b) → Fin P) (v : ∀ b, Fin (m b) → Fin W) (h : ∀ b, Belongs D b (e b) (v b))
    (x : Fin B → X) :
    BestFit (fitLoss M cfg D E) x ↔
      ∀ b, BestFit (fitLoss M cfg (D.only b (e b) (v b)) (E.only b (e b))) fun _ => x b := by
  have key := fitLoss_events M cfg D E hB e v h
  constructor
  · rintro ⟨a, ha, hmin⟩ b
    rcases key x with ⟨xs, h1, h2⟩ | ⟨err, h1, -⟩
    · rw [ha] at h1
      cases h1
      refine ⟨xs b, h2 b, fun y w hy => ?_⟩
      have hy0 : y = fun _ => y 0 := funext fun i => by rw [Subsingleton.elim i 0]
      rcases key (Function.update x b (y 0)) with ⟨ys, k1, k2⟩ | ⟨err, -, c, k2⟩
      · have hle := hmin _ _ k1
        have hb : ys b = w := by
          have := k2 b
          rw [Function.update_self, ← hy0, hy] at this
          exact (Except.ok.inj this).symm
        have hc : ∀ c ∈ Finset.univ.erase b, ys c = xs c := by
          intro c hc
          have := k2 c
          rw [Function.update_of_ne (Finset.ne_of_mem_erase hc), h2 c] at this
          exact (Except.ok.inj this).symm
        rw [← Finset.add_sum_erase _ xs (Finset.mem_univ b), ← Finset.add_sum_erase _ ys (Finset.mem_univ b),
          Finset.sum_congr rfl hc, hb] at hle
        linarith
      · exfalso
        by_cases hc : c = b
        · subst hc
          rw [Function.update_self, ← hy0, hy] at k2
          cases k2
        · rw [Function.update_of_ne hc, h2 c] at k2
          cases k2
    · rw [ha] at h1
      cases h1
  · intro hs
    rcases key x with ⟨xs, h1, h2⟩ | ⟨err, -, b, h2⟩
    · refine ⟨_, h1, fun y w hy => ?_⟩
      rcases key y with ⟨ys, k1, k2⟩ | ⟨err, k1, -⟩
      · rw [hy] at k1
        cases k1
        refine Finset.sum_le_sum fun b _ => ?_
        obtain ⟨a, ha, hmin⟩ := hs b
        rw [h2 b] at ha
        cases ha
        exact hmin _ _ (k2 b)
      · rw [hy] at k1
        cases k1
    · obtain ⟨a, ha, -⟩ := hs b
      rw [ha] at h2
      cases h2

/-- **C143.** So the best parameters of an event do not depend on the events it is fitted together with. -/
theorem C143_other_events {B' P' W' : ℕ} {n m : Fin B → ℕ} {n' m' : Fin B' → ℕ} (M : Source X) (cfg : Loss.Config)
    (D : Data X B P W) (E : Extra B P) (D' : Data X B' P' W') (E' : Extra B' P') (hB : 0 < B) (hB' : 0 < B')
    (e : ∀ b, Fin (n b) → Fin P) (v : ∀ b, Fin (m b) → Fin W) (h : ∀ b, Belongs D b (e b) (v b))
    (e' : ∀ b, Fin (n' b) → Fin P') (v' : ∀ b, Fin (m' b) → Fin W') (h' : ∀ b, Belongs D' b (e' b) (v' b))
    (b : Fin B) (b' : Fin B')
    (same : ∀ x, fitLoss M cfg (D.only b (e b) (v b)) (E.only b (e b)) (fun _ => x) =
      fitLoss M cfg (D'.only b' (e' b') (v' b')) (E'.only b' (e' b')) (fun _ => x))
    {x : Fin B → X} {x' : Fin B' → X} (hx : BestFit (fitLoss M cfg D E) x)
    (hx' : BestFit (fitLoss M cfg D' E') x') : BestFit (fitLoss M cfg D E) (Function.update x b (x' b')) := by
  rw [C143_events M cfg D E hB e v h] at hx ⊢
  rw [C143_events M cfg D' E' hB' e' v' h'] at hx'
  intro c
  by_cases hc : c = b
  · subst hc
    obtain ⟨a, h1, h2⟩ := hx' b'
    rw [Function.update_self]
    refine ⟨a, by rw [same]; exact h1, fun y w hy => ?_⟩
    have hy0 : y = fun _ => y 0 := funext fun i => by rw [Subsingleton.elim i 0]
    rw [hy0, same] at hy
    exact h2 _ _ hy
  · rw [Function.update_of_ne hc]
    exact hx c

section
variable (cfg : Cascade.Config) (icfg : Inputs.Config) (t : Inputs.Trafo) (localVars : List ℝ)
  (pos : DomIx → Sphere.V3) (layers : (DomIx → Except Err (List Inputs.Chan)) → DomIx → ℕ → ℝ) (eff : ℕ)
  (relEff : DomIx → ℝ) (lcfg : Loss.Config)

/-- **C143.** If all times of the data are later, the best parameters are the same but for the times, which are
later by as much. -/
theorem C143_later {τ : Fin B → ℝ} {D D' : Data Inputs.Hyp B P W} (hD : LaterData τ D D') (E : Extra B P)
    (x : Fin B → Inputs.Hyp) :
    BestFit (fitLoss (cascadeSource cfg icfg t localVars pos layers eff relEff) lcfg D' E)
        (fun b => (x b).later (τ b)) ↔
      BestFit (fitLoss (cascadeSource cfg icfg t localVars pos layers eff relEff) lcfg D E) x := by
  have key : ∀ x : Fin B → Inputs.Hyp,
      fitLoss (cascadeSource cfg icfg t localVars pos layers eff relEff) lcfg D' E (fun b => (x b).later (τ b)) =
        fitLoss (cascadeSource cfg icfg t localVars pos layers eff relEff) lcfg D E x := fun x =>
    C141_cascade_parameters cfg icfg t localVars pos layers eff relEff (D := { D with x := x })
      (D' := { D' with x := fun b => (x b).later (τ b) }) ⟨hD.domCharge, hD.ids, hD.pulseTime, hD.windows⟩
      (fun _ => rfl) lcfg E
  unfold BestFit
  rw [key]
  refine exists_congr fun a => and_congr_right fun _ => ⟨fun h y w hy => ?_, fun h y w hy => ?_⟩
  · exact h (fun b => (y b).later (τ b)) w (by rw [key]; exact hy)
  · refine h (fun b => (y b).later (-τ b)) w ?_
    rw [← key]
    have : (fun b => ((y b).later (-τ b)).later (τ b)) = y := by
      funext b
      simp [Inputs.Hyp.later]
    rw [this]
    exact hy

/-- **C143.** Whether parameters are best depends on the direction, not on the angles it is written with. -/
theorem C143_direction (D : Data Inputs.Hyp B P W) (E : Extra B P) (x x' : Fin B → Inputs.Hyp)
    (hv : ∀ b, (x' b).vertex = (x b).vertex) (hd : ∀ b, (x' b).flight = (x b).flight)
    (he : ∀ b, (x' b).energy = (x b).energy) (ht : ∀ b, (x' b).time = (x b).time)
    (hr : ∀ b, (x' b).rest = (x b).rest) :
    BestFit (fitLoss (cascadeSource cfg icfg t localVars pos layers eff relEff) lcfg D E) x' ↔
      BestFit (fitLoss (cascadeSource cfg icfg t localVars pos layers eff relEff) lcfg D E) x := by
  have : fitLoss (cascadeSource cfg icfg t localVars pos layers eff relEff) lcfg D E x' =
      fitLoss (cascadeSource cfg icfg t localVars pos layers eff relEff) lcfg D E x :=
    (C79_loss cfg icfg t localVars pos layers eff relEff { D with x := x } x' hv hd he ht hr).2 lcfg E
  unfold BestFit
  rw [this]

end

/-- **C143.** Pulses that are put together, or divided, as in C142, give the same loss for all parameters. -/
theorem C143_merged (M : Source X) (cfg : Loss.Config) (hc : cfg.ByCharge) {f : Fin P → Option (Fin Q)}
    {D : Data X B P W} {D' : Data X B Q W} {E : Extra B P} {E' : Extra B Q} (hw : D'.windows = D.windows)
    (ht : ∀ p q, f p = some q → D.pulseTime p = D'.pulseTime q)
    (h : Loss.Merged f (lossBatch D E) (lossBatch D' E')) : fitLoss M cfg D' E' = fitLoss M cfg D E :=
  funext fun x => C142_cascade M cfg hc (D := { D with x := x }) (D' := { D' with x := x }) ⟨rfl, hw, ht⟩
    ⟨h.left, h.charge, h.ids, h.domCharge, h.mask, h.time⟩

/-! ## The reconstruction -/

theorem arrayLoss_additive {n m : Fin B → ℕ} (k : ℕ) (M : Source (List ℝ)) (cfg : Loss.Config)
    (D : Data (List ℝ) B P W) (E : Extra B P) (hB : 0 < B) (e : ∀ b, Fin (n b) → Fin P)
    (v : ∀ b, Fin (m b) → Fin W) (h : ∀ b, Belongs D b (e b) (v b)) (term : Fin B → List ℝ → ℝ)
    (hterm : ∀ b x, fitLoss M cfg (D.only b (e b) (v b)) (E.only b (e b)) (fun _ => x) = .ok (term b x)) :
    Fit.Additive B k (arrayLoss k M cfg D E) 0 (fun b x => if hb : b < B then term ⟨b, hb⟩ x else 0) := by
  intro a _
  unfold arrayLoss
  rcases fitLoss_events M cfg D E hB e v h (fun b => Fit.rowOf k a b) with ⟨xs, h1, h2⟩ | ⟨err, -, b, h2⟩
  · rw [h1, zero_add]
    congr 1
    have hx : ∀ b : Fin B, xs b = term b (Fit.rowOf k a b) := fun b => by
      have := h2 b
      rw [hterm] at this
      exact (Except.ok.inj this).symm
    have hl : ∀ f : ℕ → ℝ, ((List.range B).map f).sum = ∑ b : Fin B, f b := fun f => by
      rw [← Finset.sum_range]
      rfl
    rw [hl]
    exact Finset.sum_congr rfl fun b _ => by simp only [hx, dif_pos b.2]
  · rw [hterm] at h2
    cases h2

/-- **C143.** The reconstruction of a batch of measured events, in the space of the fit, for every list of flags: a
vector is a minimum of what is minimised for the batch exactly if its parts are minima of what is minimised for each
event alone, if the loss of each event alone can be computed for all parameters. -/
theorem C143_reconstruction {n m : Fin B → ℕ} (T : Trafo.Transformer) (name : String) (t : Trafo.TensorInfo)
    (f : Trafo.Fit) (hT : Trafo.Knows T name t f) (fit : List Bool) (hk : 0 < fit.count true)
    (ht : t.shape = [fit.length]) (inTrafo : Bool) (seed : Trafo.Arr) (hs : seed.shape = [B, fit.length])
    (M : Source (List ℝ)) (cfg : Loss.Config) (D : Data (List ℝ) B P W) (E : Extra B P) (hB : 0 < B)
    (e : ∀ b, Fin (n b) → Fin P) (v : ∀ b, Fin (m b) → Fin W) (h : ∀ b, Belongs D b (e b) (v b))
    (hall : ∀ b x, ∃ a, fitLoss M cfg (D.only b (e b) (v b)) (E.only b (e b)) (fun _ => x) = .ok a)
    (x : List ℝ) (hx : x.length = B * fit.count true) :
    Fit.Minimises (Fit.objective T name fit inTrafo (arrayLoss fit.length M cfg D E) seed) (B * fit.count true) x ↔
      ∀ b : Fin B, Fit.Minimises
        (Fit.objective T name fit inTrafo
          (arrayLoss fit.length M cfg (D.only b (e b) (v b)) (E.only b (e b))) (Fit.eventOf fit.length seed b))
        (fit.count true) (Fit.part (fit.count true) b x) := by
  choose term hterm using hall
  have h1 := Fit.C85_separate T name t f hT fit hk ht inTrafo B seed hs _ _ _
    (arrayLoss_additive fit.length M cfg D E hB e v h term hterm)
    (fun b => if hb : b < B then
      arrayLoss fit.length M cfg (D.only ⟨b, hb⟩ (e ⟨b, hb⟩) (v ⟨b, hb⟩)) (E.only ⟨b, hb⟩ (e ⟨b, hb⟩))
      else fun _ => .ok 0) (fun _ => 0) ?_ x hx
  · rw [h1]
    constructor
    · intro h2 b
      have := h2 b b.2
      rw [dif_pos b.2] at this
      exact this
    · intro h2 b hb
      rw [dif_pos hb]
      exact h2 ⟨b, hb⟩
  · intro b hb a _
    rw [dif_pos hb]
    have : (fun b' : Fin 1 => Fit.rowOf fit.length a b') = fun _ => Fit.rowOf fit.length a 0 := by
      funext b'
      rw [Subsingleton.elim b' 0]
      rfl
    simp only [arrayLoss, this, hterm, dif_pos hb]
    simp

/-- **C143.** The loss of each event alone can be computed for all parameters, as `C143_reconstruction` needs, for
all configurations of a cascade model that fit together, without excluded windows, and the extended likelihood. -/
theorem C143_computable (M : Source X) (hfit : M.cfg.Fits) (cfg : Loss.Config) (hf : cfg.function = .extended)
    (D : Data X B P W) (hw : D.windows = none) (E : Extra B P) (x : Fin B → X) :
    ∃ a, fitLoss M cfg D E x = .ok a := by
  unfold fitLoss endToEnd getTensors
  dsimp only
  rw [if_neg (by have := hfit.2; omega), if_neg (by have := hfit.1; omega), hw]
  unfold Loss.scalarLoss Loss.getLoss Loss.lossFunction Loss.extended
  rw [hf]
  cases hn : cfg.addNorm <;> simp [Loss.need, Loss.checkTime, lossResults, lossBatch, hw, tensors, bind, Except.bind,
    pure, Except.pure]

/-- The hypotheses of `C143_reconstruction` on the data hold for all measured events without excluded windows. -/
example (M : Source (List ℝ)) (hfit : M.cfg.Fits) (cfg : Loss.Config) (hf : cfg.function = .extended)
    (D : Data (List ℝ) B P W) (hw : D.windows = none) (E : Extra B P) :
    ∃ (n m : Fin B → ℕ) (e : ∀ b, Fin (n b) → Fin P) (v : ∀ b, Fin (m b) → Fin W),
      (∀ b, Belongs D b (e b) (v b)) ∧
      ∀ b x, ∃ a, fitLoss M cfg (D.only b (e b) (v b)) (E.only b (e b)) (fun _ => x) = .ok a := by
  have h := fun b => exists_belongs D b
  choose n m e v h using h
  exact ⟨n, m, e, v, h, fun b x => C143_computable M hfit cfg hf _ (by simp [Data.only, hw]) _ _⟩

end Verif.Batch
