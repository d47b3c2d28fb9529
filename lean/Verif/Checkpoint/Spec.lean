/-
Specification of the checkpoint history of a model directory.
-/
import Verif.Checkpoint.Model

namespace Verif.Checkpoint
open Verif.Py

variable {W : Type}

/-- The directory after a sequence of calls. -/
def exec (d : Disk W) : List (Op W) → Disk W
  | [] => d
  | op :: ops => exec (d.call op).1 ops

/-- The calls of save_weights in a history that returned without an exception, in order. -/
def saved (d : Disk W) : List (Op W) → List (Save W)
  | [] => []
  | op :: ops =>
    (match op, (d.call op).2 with
      | .weights a, none => [a]
      | _, _ => []) ++ saved (d.call op).1 ops

/-- The number of unprotected saves among the saves with positions `i`, ..., `j`. -/
def unprotected (h : List (Save W)) (i j : Nat) : Nat :=
  ((h.take (j + 1)).drop i).countP (fun a => !a.prot)

/-- After the saves `h`, the save at position `i` (the checkpoint with number `i + 1`) was `a` and is kept: it is
protected, or at no later unprotected save with a limit there were more unprotected checkpoints since then
than the limit. -/
def Kept (h : List (Save W)) (i : Nat) (a : Save W) : Prop :=
  h[i]? = some a ∧
    (a.prot = true ∨
      ∀ (j : Nat) (b : Save W), i ≤ j → h[j]? = some b → b.prot = false → b.maxKeep ≠ 0 →
        (unprotected h i j : Int) ≤ b.maxKeep)

/-- A crash before the index file of the new checkpoint is written: the effects before it are at most the two
of the training steps file and the data file. -/
def EarlyCrash : Op W → Prop
  | .crashed a k => k ≤ (if a.numSteps.isSome then 3 else 1)
  | _ => True

/-- No negative limits. -/
def GoodLimit : Op W → Prop
  | .settings => True
  | .weights a => 0 ≤ a.maxKeep
  | .crashed a _ => 0 ≤ a.maxKeep

/-! ### Training -/

/-- The last number of training steps that was given to one of the saves, 0 if none was. -/
def lastSteps (b : List (Save W)) : Nat := ((b.filterMap (·.numSteps)).getLast?).getD 0

/-- The entries of the training steps file: `l` are the numbers for the runs 1, 2, ... -/
def entries (l : List Nat) : Dict Nat Nat := (l.zipIdx 1).map (fun p => (p.2, p.1))

/-- The sum of all recorded training steps. -/
def totalSteps (d : Disk W) : Nat :=
  match d.steps with
  | .good s => (s.steps.map Prod.snd).sum
  | _ => 0

/-- The values of the variables after the first `n` iterations of a run. -/
def after (r : Run W) (w : W) : Nat → W
  | 0 => w
  | n + 1 => r.update n (after r w n)

/-- The calls of a training run: a new run with a protected save, a save in the iterations with positive
multiple of the save frequency, and a protected save at the end. -/
def trainOps (r : Run W) (n : Nat) (w : W) : List (Op W) :=
  [.settings, .weights { w := w, prot := true }] ++
  ((List.range n).filter (fun i => i % r.saveFrequency = 0 ∧ i ≠ 0)).map
    (fun i => .weights { w := after r w (i + 1), numSteps := some i }) ++
  [.weights { w := after r w n, numSteps := some (n - 1), prot := true }]

/-- Several training runs one after the other, each from the values the one before ended with. Stops at the
first exception. -/
def trainAll : List (Run W × Nat) → W → Disk W → (Disk W × W) × Option Err
  | [], w, d => ((d, w), none)
  | (r, n) :: rest, w, d =>
    match train r n w d with
    | (x, some e) => (x, some e)
    | ((d', w'), none) => trainAll rest w' d'

/-- Settings of a run that has no reason to stop: positive frequencies and no invalid loss. -/
def Run.Fine (r : Run W) : Prop :=
  r.validationFrequency ≠ 0 ∧ r.evaluationFrequency ≠ 0 ∧ r.saveFrequency ≠ 0 ∧ ∀ i, r.nan i = false

end Verif.Checkpoint
