/-
Model of the processes of the batch generator as a transition system:
`BaseDataHandler.get_batch_generator`, `egenerator/data/handler/base.py`, for an endless run
(`pick_random_files_forever=True`). `Verif.Generator` has the finite run.

An event is an abstract value; what the aggregator does with the tensors of an event is C19. In an endless run
`processed_all_files` stays False and `data_left_in_queue` stays True (data/handler/base.py:804-808, 863-866,
973-977), so the loops that test them never end. The scheduler is nondeterministic; a blocked `get` or `put` is
an action that is not enabled.
-/
import Verif.Generator.Model

namespace Verif.Endless
open Verif.Generator (Orders room)

variable {E : Type}

/-- What happens if a file of the list is loaded (data/handler/base.py:746-802): it does not exist, loading it
raises, it has no data, or it has events. Simplification: a file does not change during the run. -/
inductive File (E : Type) where
  | missing
  | broken
  | nothing
  | events (d : List E)

/-- The arguments of `get_batch_generator`. `draw i k` is the position of the file that
`np.random.RandomState(i).choice(file_list)` returns in its call number `k` (data/handler/base.py:732, 738). -/
structure Cfg (E : Type) where
  files : List (File E)
  draw : Nat → Nat → Nat
  jobs : Nat
  batchSize : Nat
  numAdd : Nat
  reps : Nat
  /-- `file_capacity`; 0 is unbounded. -/
  fileCap : Nat
  /-- `batch_capacity`; 0 is unbounded. -/
  batchCap : Nat
  /-- `sample_randomly` -/
  shuffle : Bool

/-- Where a `file_loader` process is, data/handler/base.py:717-808. -/
inductive LPc (E : Type) where
  /-- about to draw a file -/
  | pick
  /-- has drawn a file -/
  | load (f : File E)
  /-- about to put the events on the `data_batch_queue` -/
  | put (d : List E)
  /-- ended by an exception -/
  | dead

/-- Where the aggregator is, data/handler/base.py:849-977. -/
inductive APc (E : Type) where
  /-- about to `get` the first file of a pass -/
  | get
  /-- has added `n` more files; the events of the pass are `evs` -/
  | add (n : Nat) (evs : List E)
  /-- has `evs` to put into batches -/
  | emit (evs : List E)

/-- The shared state and the processes. A loader comes with the number of files it has drawn. `pending` is the
batch the aggregator is filling, `got` is what the consumer has received. -/
structure St (E : Type) where
  loaders : List (LPc E × Nat)
  dataQ : List (List E)
  agg : APc E
  pending : List E
  finalQ : List (List E)
  got : List (List E)

/-- The state before any process runs, data/handler/base.py:677-715, 1007-1019. -/
def init (c : Cfg E) : St E :=
  { loaders := List.replicate c.jobs (.pick, 0), dataQ := [], agg := .get, pending := [], finalQ := [],
    got := [] }

/-- The condition of the inner loop, data/handler/base.py:884-885 (see `Verif.Generator.wantMore`). -/
def wantMore (c : Cfg E) (n size : Nat) : Bool :=
  decide (n < c.numAdd) || decide (size * size < (c.reps - 1) * (c.batchSize * c.batchSize))

/-- The order in which events are used, data/handler/base.py:909-914: once per repetition, shuffled or not. -/
def Arranged (c : Cfg E) (evs stream : List E) : Prop :=
  if c.shuffle then Orders evs c.reps stream else stream = (List.replicate c.reps evs).flatten

/-- `s` with loader `i` at `p`, with `k` drawn files. -/
def St.setLoader (s : St E) (i : Nat) (p : LPc E) (k : Nat) : St E :=
  { s with loaders := s.loaders.set i (p, k) }

/-- One action of one process. -/
inductive Step (c : Cfg E) : St E → St E → Prop
  -- data/handler/base.py:738
  | pickFile (s : St E) (i k : Nat) (f : File E) (h : s.loaders[i]? = some (.pick, k))
      (hf : c.files[c.draw i k]? = some f) : Step c s (s.setLoader i (.load f) (k + 1))
  -- data/handler/base.py:738: `choice` of an empty list raises
  | pickFail (s : St E) (i k : Nat) (h : s.loaders[i]? = some (.pick, k)) (hf : c.files = []) :
      Step c s (s.setLoader i .dead k)
  -- data/handler/base.py:756-767
  | loadData (s : St E) (i k : Nat) (d : List E) (h : s.loaders[i]? = some (.load (.events d), k)) :
      Step c s (s.setLoader i (.put d) k)
  -- data/handler/base.py:800-802, or `data is None`
  | loadNothing (s : St E) (i k : Nat) (f : File E) (h : s.loaders[i]? = some (.load f, k))
      (hf : f = .missing ∨ f = .nothing) : Step c s (s.setLoader i .pick k)
  -- data/handler/base.py:756: `get_data_from_hdf` raises
  | loadFail (s : St E) (i k : Nat) (h : s.loaders[i]? = some (.load .broken, k)) :
      Step c s (s.setLoader i .dead k)
  -- data/handler/base.py:767
  | putData (s : St E) (i k : Nat) (d : List E) (h : s.loaders[i]? = some (.put d, k))
      (hr : room c.fileCap s.dataQ) :
      Step c s ({ s with dataQ := s.dataQ ++ [d] }.setLoader i .pick k)
  -- data/handler/base.py:872-881
  | aggGet (s : St E) (d : List E) (rest : List (List E)) (h : s.agg = .get)
      (hq : s.dataQ = d :: rest) : Step c s { s with dataQ := rest, agg := .add 0 d }
  -- data/handler/base.py:884-897
  | aggAdd (s : St E) (n : Nat) (evs d : List E) (rest : List (List E)) (h : s.agg = .add n evs)
      (hw : wantMore c n evs.length = true) (hq : s.dataQ = d :: rest) :
      Step c s { s with dataQ := rest, agg := .add (n + 1) (evs ++ d) }
  -- data/handler/base.py:899-914
  | aggOrder (s : St E) (n : Nat) (evs stream : List E) (h : s.agg = .add n evs)
      (hw : wantMore c n evs.length = false) (ho : Arranged c evs stream) :
      Step c s { s with agg := .emit stream }
  -- data/handler/base.py:916-934
  | aggEvent (s : St E) (e : E) (rest : List E) (h : s.agg = .emit (e :: rest))
      (hb : s.pending.length + 1 ≠ c.batchSize) :
      Step c s { s with agg := .emit rest, pending := s.pending ++ [e] }
  -- data/handler/base.py:936-971
  | aggBatch (s : St E) (e : E) (rest : List E) (h : s.agg = .emit (e :: rest))
      (hb : s.pending.length + 1 = c.batchSize) (hr : room c.batchCap s.finalQ) :
      Step c s { s with agg := .emit rest, pending := [], finalQ := s.finalQ ++ [s.pending ++ [e]] }
  -- data/handler/base.py:973, 872
  | aggEmitted (s : St E) (h : s.agg = .emit []) : Step c s { s with agg := .get }
  -- data/handler/base.py:1003-1005
  | consGet (s : St E) (b : List E) (rest : List (List E)) (hq : s.finalQ = b :: rest) :
      Step c s { s with finalQ := rest, got := s.got ++ [b] }

/-- The states that some schedule reaches. -/
inductive Reach (c : Cfg E) : St E → Prop
  | init : Reach c (init c)
  | step {s s' : St E} : Reach c s → Step c s s' → Reach c s'

end Verif.Endless
