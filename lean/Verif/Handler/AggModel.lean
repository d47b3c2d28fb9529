/-
Model of the aggregator of the batch generator:
`fill_event_list` and `data_queue_iterator` of
`BaseDataHandler.get_batch_generator`, `egenerator/data/handler/base.py`.
-/
import Verif.Handler.Model

namespace Verif.Handler
open Verif.Py

variable {V : Type}

/-- An element of the `data_batch_queue`: the number of events and the data of one
file, data/handler/base.py:755-767. -/
structure Chunk (V : Type) where
  num : Nat
  data : List (Option (Arr V))

/-- The lists `exists` and `event_list`, data/handler/base.py:875-876. -/
structure Fill (V : Type) where
  exist : List Bool
  events : List (List (Option (Arr V)))

/-- The body of the loop of `fill_event_list` for the tensor at position `i`,
data/handler/base.py:813-847. (If only one of the two arrays of a vector is `None` the comparison
`values == indices` is element-wise and the assert fails or raises a ValueError; both
are the same error here.) -/
def fillOne (ts : List TInfo) (c : Chunk V) (s : Fill V) (i : Nat) (t : TInfo) :
    Except Err (Fill V) :=
  match getAt c.data i with
  | .error e => .error e
  | .ok d =>
    let ex := if d.isNone then s.exist.set i false else s.exist
    match t.kind with
    | .value => .ok { exist := ex, events := s.events }
    | .index ref =>
      match indexOf ts ref with
      | .error e => .error e
      | .ok vi =>
        match getAt c.data vi, d with
        | .error e, _ => .error e
        | .ok none, none =>
          .ok { exist := ex,
                events := (s.events.modify vi (· ++ [none])).modify i (· ++ [none]) }
        | .ok (some v), some x =>
          match batchToEvent v x c.num with
          | .error e => .error e
          | .ok (vs, xs) =>
            .ok { exist := ex,
                  events := (s.events.modify vi (· ++ vs.map some)).modify i
                    (· ++ xs.map some) }
        | .ok _, _ => .error .assertionError
    | .plain => .ok { exist := ex, events := s.events.modify i (· ++ [d]) }

/-- `fill_event_list`, data/handler/base.py:810-847: the loop over the tensors. -/
def fillLoop (ts : List TInfo) (c : Chunk V) : List TInfo → Nat → Fill V → Except Err (Fill V)
  | [], _, s => .ok s
  | t :: rest, i, s =>
    match fillOne ts c s i t with
    | .error e => .error e
    | .ok s' => fillLoop ts c rest (i + 1) s'

/-- The files of one round are added one after the other, data/handler/base.py:879-897. -/
def fillAll (ts : List TInfo) : List (Chunk V) → Fill V → Except Err (Fill V)
  | [], s => .ok s
  | c :: cs, s =>
    match fillLoop ts c ts 0 s with
    | .error e => .error e
    | .ok s' => fillAll ts cs s'

/-- `np.concatenate(event_list[i], axis=0)`, data/handler/base.py:900-902. A `None` in the list is
a ValueError. -/
def concatRows : List (Option (Arr V)) → Except Err (List (Row V))
  | [] => .ok []
  | none :: _ => .error .valueError
  | some a :: l =>
    match concatRows l with
    | .error e => .error e
    | .ok r => .ok (a.rows ++ r)

/-- An entry of `batch[i]`: a row of a plain tensor, the array of a vector tensor, or
the default value of the dtype. -/
inductive Item (V : Type) where
  | row (r : Row V)
  | arr (a : Arr V)
  | dflt

/-- The entry that is appended to `batch[i]` for the event at `index`,
data/handler/base.py:921-932. `col` is `event_list[i]` before the concatenation; for a plain
tensor the entry of the concatenation is taken. -/
def addItem (t : TInfo) (ex : Bool) (col : List (Option (Arr V))) (index size : Nat) :
    Except Err (Item V) :=
  if ex then
    match t.kind with
    | .plain =>
      match concatRows col with
      | .error e => .error e
      | .ok rows =>
        match rows[index]? with
        | none => .error .indexError
        | some r => .ok (.row r)
    | .value =>
      match col[index]? with
      | none => .error .indexError
      | some none => .error .typeError
      | some (some a) => .ok (.arr a)
    | .index _ =>
      match col[index]? with
      | none => .error .indexError
      | some none => .error .typeError
      | some (some a) => .ok (.arr (setId size a))
  else .ok .dflt

/-- The loop over the tensors that appends one event, data/handler/base.py:920-934. The lists
`exists`, `event_list` and `batch` have one entry per tensor. -/
def addLoop (index size : Nat) : List TInfo → List Bool → List (List (Option (Arr V))) →
    List (List (Item V)) → Except Err (List (List (Item V)))
  | t :: ts, e :: es, col :: cols, b :: bs =>
    match addItem t e col index size with
    | .error err => .error err
    | .ok item =>
      match addLoop index size ts es cols bs with
      | .error err => .error err
      | .ok r => .ok ((b ++ [item]) :: r)
  | _, _, _, _ => .ok []

/-- A tensor of a finished batch: an array, or an array of `n` default values. -/
inductive Out (V : Type) where
  | arr (a : Arr V)
  | dflts (n : Nat)

/-- The rows of the entries of a plain tensor. -/
def rowsOf : List (Item V) → Except Err (List (Row V))
  | [] => .ok []
  | .row r :: l =>
    match rowsOf l with
    | .error e => .error e
    | .ok rs => .ok (r :: rs)
  | _ :: _ => .error .valueError

/-- `np.concatenate(batch[i], axis=0)`. Without any array it is a ValueError. -/
def joinArrs : List (Item V) → Except Err (List (Row V))
  | [] => .error .valueError
  | [.arr a] => .ok a.rows
  | .arr a :: l =>
    match joinArrs l with
    | .error e => .error e
    | .ok rs => .ok (a.rows ++ rs)
  | _ :: _ => .error .valueError

/-- All entries are default values; arrays among them give an array of objects or a
ValueError, which both are an error here. -/
def allDflt : List (Item V) → Bool
  | [] => true
  | .dflt :: l => allDflt l
  | _ :: _ => false

/-- The array of one tensor of a finished batch, data/handler/base.py:940-954 and 982-990. The
cast to the dtype of the tensor is not modelled. -/
def finishOne (t : TInfo) (ex : Bool) (b : List (Item V)) : Except Err (Out V) :=
  if ex then
    match t.kind with
    | .plain =>
      match rowsOf b with
      | .error e => .error e
      | .ok rows => .ok (.arr { rows := rows })
    | _ =>
      match joinArrs b with
      | .error e => .error e
      | .ok rows => .ok (.arr { rows := rows })
  else if allDflt b then .ok (.dflts b.length)
  else .error .valueError

/-- The loop over the tensors of a finished batch. -/
def finishLoop : List TInfo → List Bool → List (List (Item V)) → Except Err (List (Out V))
  | t :: ts, e :: es, b :: bs =>
    match finishOne t e b with
    | .error err => .error err
    | .ok o =>
      match finishLoop ts es bs with
      | .error err => .error err
      | .ok r => .ok (o :: r)
  | _, _, _ => .ok []

/-- `size` and `batch` of `data_queue_iterator`, and what was put on the
`final_batch_queue`. -/
structure Agg (V : Type) where
  size : Nat
  batch : List (List (Item V))
  out : List (List (Out V))

/-- `batch = [[] for v in self.tensors.names]`. -/
def emptyBatch (ts : List TInfo) : List (List (Item V)) := ts.map (fun _ => [])

/-- The loop over the (shuffled) indices of one epoch, data/handler/base.py:916-971. -/
def eventLoop (ts : List TInfo) (batchSize : Nat) (f : Fill V) :
    List Nat → Agg V → Except Err (Agg V)
  | [], s => .ok s
  | index :: rest, s =>
    match addLoop index s.size ts f.exist f.events s.batch with
    | .error e => .error e
    | .ok batch =>
      if s.size + 1 = batchSize then
        match finishLoop ts f.exist batch with
        | .error e => .error e
        | .ok o => eventLoop ts batchSize f rest
            { size := 0, batch := emptyBatch ts, out := s.out ++ [o] }
      else eventLoop ts batchSize f rest { s with size := s.size + 1, batch := batch }

/-- The loop over the epochs, data/handler/base.py:910-971. -/
def epochLoop (ts : List TInfo) (batchSize : Nat) (f : Fill V) :
    List (List Nat) → Agg V → Except Err (Agg V)
  | [], s => .ok s
  | order :: rest, s =>
    match eventLoop ts batchSize f order s with
    | .error e => .error e
    | .ok s' => epochLoop ts batchSize f rest s'

/-- One pass of the outer loop: the files that are read in this pass and the orders
of the epochs (`range` or `np.random.permutation`, one per repetition). -/
structure Round (V : Type) where
  chunks : List (Chunk V)
  orders : List (List Nat)

/-- The outer loop, data/handler/base.py:872-977. How many files a pass reads depends on timing, so
the passes are a parameter. The last `exists` is kept for the leftovers. -/
def roundLoop (ts : List TInfo) (batchSize : Nat) :
    List (Round V) → Option (Fill V) → Agg V → Except Err (Option (Fill V) × Agg V)
  | [], f, s => .ok (f, s)
  | r :: rest, _, s =>
    match fillAll ts r.chunks { exist := ts.map (fun _ => true), events := ts.map (fun _ => []) } with
    | .error e => .error e
    | .ok f =>
      match epochLoop ts batchSize f r.orders s with
      | .error e => .error e
      | .ok s' => roundLoop ts batchSize rest (some f) s'

/-- `data_queue_iterator`, data/handler/base.py:849-991: the batches it puts on the
`final_batch_queue`, including the incomplete one. -/
def aggregate (ts : List TInfo) (batchSize : Nat) (rounds : List (Round V)) :
    Except Err (List (List (Out V))) :=
  match roundLoop ts batchSize rounds none { size := 0, batch := emptyBatch ts, out := [] } with
  | .error e => .error e
  | .ok (f, s) =>
    if s.size > 0 then
      match f with
      | none => .error .nameError
      | some f =>
        match finishLoop ts f.exist s.batch with
        | .error e => .error e
        | .ok o => .ok (s.out ++ [o])
    else .ok s.out

end Verif.Handler
