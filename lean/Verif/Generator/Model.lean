/-
Model of the processes of the batch generator as a transition system:
`BaseDataHandler.get_batch_generator`, `egenerator/data/handler/base.py`, for a finite run
(`pick_random_files_forever=False`).

An event is an abstract value; what the aggregator does with the tensors of an event is C19.
A file is its content: `none` for a file that does not exist or yields no data, otherwise its
events.

Each constructor of `Step` is one atomic action of one process. The blocks under
`file_counter_lock` are one action each. Two shared reads in one condition are one action:
`processed_all_files` only ever changes to True and `data_left_in_queue` only to False, so
the condition has the value it has when its second read happens. Random permutations and the
scheduler are nondeterministic. A blocked `get` or `put` is an action that is not enabled.
-/

namespace Verif.Generator

variable {E : Type}

/-- The arguments of `get_batch_generator`. -/
structure Cfg (E : Type) where
  files : List (Option (List E))
  jobs : Nat
  batchSize : Nat
  numAdd : Nat
  reps : Nat
  /-- `file_capacity`; 0 is unbounded. -/
  fileCap : Nat
  /-- `batch_capacity`; 0 is unbounded. -/
  batchCap : Nat

/-- Where a `file_loader` process is, data/handler/base.py:717-808. -/
inductive LPc (E : Type) where
  /-- at `while not processed_all_files.value` -/
  | test
  /-- about to take a file under the lock -/
  | take
  /-- has a file (`some`) or `None` -/
  | load (f : Option (Option (List E)))
  /-- about to put the events on the `data_batch_queue` -/
  | put (d : List E)
  /-- about to increment `num_files_processed` -/
  | count
  | exit

/-- Where the aggregator is, data/handler/base.py:849-991. -/
inductive APc (E : Type) where
  /-- at the first check, data/handler/base.py:863-866 -/
  | start
  /-- at `while data_left_in_queue.value` -/
  | loop
  /-- about to `get` the first file of a pass -/
  | get
  /-- has added `n` more files; the events of the pass are `evs`, data/handler/base.py:883-897 -/
  | add (n : Nat) (evs : List E)
  /-- has `evs` to put into batches -/
  | emit (evs : List E)
  /-- at the check at the end of a pass, data/handler/base.py:973-977 -/
  | check
  /-- about to put the incomplete batch, data/handler/base.py:979-991 -/
  | leftover
  | done

/-- Where the consumer (`batch_iterator`) is, data/handler/base.py:993-1005. -/
inductive CPc where
  /-- at `while data_left_in_queue.value or not final_batch_queue.empty()` -/
  | test
  | get
  | done
  deriving DecidableEq

/-- The shared state and the processes. `pending` is the batch the aggregator is filling. -/
structure St (E : Type) where
  fileQ : List (Option (List E))
  loaders : List (LPc E)
  count : Nat
  allDone : Bool
  dataQ : List (List E)
  left : Bool
  agg : APc E
  pending : List E
  finalQ : List (List E)
  cons : CPc
  got : List (List E)

/-- The state before any process runs, data/handler/base.py:677-715. -/
def init (c : Cfg E) : St E :=
  { fileQ := c.files, loaders := List.replicate c.jobs .test, count := 0, allDone := false,
    dataQ := [], left := true, agg := .start, pending := [], finalQ := [], cons := .test, got := [] }

/-- A bounded queue has room. -/
def room {α : Type} (cap : Nat) (q : List α) : Prop := cap = 0 ∨ q.length < cap

/-- The condition of the inner loop without `data_left_in_queue`, data/handler/base.py:884-885:
`n_files < num_add_files or size < sqrt(max(0, num_repetitions - 1)) * batch_size`, with the
square of the second inequality. -/
def wantMore (c : Cfg E) (n size : Nat) : Bool :=
  decide (n < c.numAdd) || decide (size * size < (c.reps - 1) * (c.batchSize * c.batchSize))

/-- `s` with loader `i` at `p`. -/
def St.setLoader (s : St E) (i : Nat) (p : LPc E) : St E := { s with loaders := s.loaders.set i p }

/-- `stream` goes through the events `evs` once per repetition, each time in some order. -/
inductive Orders (evs : List E) : Nat → List E → Prop
  | zero : Orders evs 0 []
  | succ {n : Nat} {o rest : List E} : o.Perm evs → Orders evs n rest → Orders evs (n + 1) (o ++ rest)

/-- One action of one process. -/
inductive Step (c : Cfg E) : St E → St E → Prop
  -- data/handler/base.py:734: `while not processed_all_files.value`
  | loaderExit (s : St E) (i : Nat) (h : s.loaders[i]? = some .test) (hd : s.allDone = true) :
      Step c s (s.setLoader i .exit)
  | loaderEnter (s : St E) (i : Nat) (h : s.loaders[i]? = some .test) (hd : s.allDone = false) :
      Step c s (s.setLoader i .take)
  -- data/handler/base.py:740-744
  | takeFile (s : St E) (i : Nat) (f : Option (List E)) (rest : List (Option (List E)))
      (h : s.loaders[i]? = some .take) (hq : s.fileQ = f :: rest) :
      Step c s ({ s with fileQ := rest }.setLoader i (.load (some f)))
  | takeNone (s : St E) (i : Nat) (h : s.loaders[i]? = some .take) (hq : s.fileQ = []) :
      Step c s (s.setLoader i (.load none))
  -- data/handler/base.py:746-767
  | loadData (s : St E) (i : Nat) (d : List E) (h : s.loaders[i]? = some (.load (some (some d)))) :
      Step c s (s.setLoader i (.put d))
  -- data/handler/base.py:800-802, or `data is None`
  | loadNothing (s : St E) (i : Nat) (f : Option (Option (List E)))
      (h : s.loaders[i]? = some (.load f)) (hf : f = none ∨ f = some none) :
      Step c s (s.setLoader i .count)
  | putData (s : St E) (i : Nat) (d : List E) (h : s.loaders[i]? = some (.put d))
      (hr : room c.fileCap s.dataQ) :
      Step c s ({ s with dataQ := s.dataQ ++ [d] }.setLoader i .count)
  -- data/handler/base.py:804-808
  | countFile (s : St E) (i : Nat) (h : s.loaders[i]? = some .count) :
      Step c s ({ s with
          count := s.count + 1
          allDone := if s.count + 1 = c.files.length then true else s.allDone }.setLoader i .test)
  -- data/handler/base.py:863-866
  | aggStart (s : St E) (h : s.agg = .start) :
      Step c s { s with agg := .loop, left := s.left && !(s.allDone && s.dataQ.isEmpty) }
  -- data/handler/base.py:872
  | aggLoop (s : St E) (h : s.agg = .loop) (hl : s.left = true) : Step c s { s with agg := .get }
  | aggEnd (s : St E) (h : s.agg = .loop) (hl : s.left = false) : Step c s { s with agg := .leftover }
  -- data/handler/base.py:873-881
  | aggGet (s : St E) (d : List E) (rest : List (List E)) (h : s.agg = .get)
      (hq : s.dataQ = d :: rest) : Step c s { s with dataQ := rest, agg := .add 0 d }
  -- data/handler/base.py:884-897
  | aggAdd (s : St E) (n : Nat) (evs d : List E) (rest : List (List E)) (h : s.agg = .add n evs)
      (hw : wantMore c n evs.length = true) (hl : s.left = true) (hq : s.dataQ = d :: rest) :
      Step c s { s with dataQ := rest, agg := .add (n + 1) (evs ++ d) }
  -- data/handler/base.py:899-914
  | aggOrder (s : St E) (n : Nat) (evs stream : List E) (h : s.agg = .add n evs)
      (hw : wantMore c n evs.length = false ∨ s.left = false) (ho : Orders evs c.reps stream) :
      Step c s { s with agg := .emit stream }
  -- data/handler/base.py:916-934
  | aggEvent (s : St E) (e : E) (rest : List E) (h : s.agg = .emit (e :: rest))
      (hb : s.pending.length + 1 ≠ c.batchSize) :
      Step c s { s with agg := .emit rest, pending := s.pending ++ [e] }
  -- data/handler/base.py:936-971
  | aggBatch (s : St E) (e : E) (rest : List E) (h : s.agg = .emit (e :: rest))
      (hb : s.pending.length + 1 = c.batchSize) (hr : room c.batchCap s.finalQ) :
      Step c s { s with agg := .emit rest, pending := [], finalQ := s.finalQ ++ [s.pending ++ [e]] }
  | aggEmitted (s : St E) (h : s.agg = .emit []) : Step c s { s with agg := .check }
  -- data/handler/base.py:973-977
  | aggCheck (s : St E) (h : s.agg = .check) :
      Step c s { s with agg := .loop, left := s.left && !(s.allDone && s.dataQ.isEmpty) }
  -- data/handler/base.py:979-991
  | aggNoLeftover (s : St E) (h : s.agg = .leftover) (hp : s.pending = []) :
      Step c s { s with agg := .done }
  | aggLeftover (s : St E) (h : s.agg = .leftover) (hp : s.pending ≠ [])
      (hr : room c.batchCap s.finalQ) :
      Step c s { s with agg := .done, pending := [], finalQ := s.finalQ ++ [s.pending] }
  -- data/handler/base.py:1003
  | consGo (s : St E) (h : s.cons = .test) (hl : s.left = true ∨ s.finalQ ≠ []) :
      Step c s { s with cons := .get }
  | consStop (s : St E) (h : s.cons = .test) (hl : s.left = false) (hq : s.finalQ = []) :
      Step c s { s with cons := .done }
  -- data/handler/base.py:1004-1005
  | consGet (s : St E) (b : List E) (rest : List (List E)) (h : s.cons = .get)
      (hq : s.finalQ = b :: rest) :
      Step c s { s with cons := .test, finalQ := rest, got := s.got ++ [b] }

/-- The states that some schedule reaches. -/
inductive Reach (c : Cfg E) : St E → Prop
  | init : Reach c (init c)
  | step {s s' : St E} : Reach c s → Step c s s' → Reach c s'

end Verif.Generator
