/-
Model of `egenerator/data/trafo.py`: `DataTransformer`.

Arrays are a shape and a value for every multi-index; floats are real numbers.
-/
import Verif.Py.Dict
import Mathlib.Analysis.SpecialFunctions.Log.Basic

namespace Verif.Trafo
open Verif.Py

noncomputable section

/-- A numpy array or tensorflow tensor of floats. `val` is read only at the
multi-indices of the shape. Data types are not modelled: all floats are reals. -/
structure Arr where
  shape : List Nat
  val : List Nat → ℝ

/-- All multi-indices of an array of the given shape, in C order. -/
def indices : List Nat → List (List Nat)
  | [] => [[]]
  | d :: ds => (List.range d).flatMap (fun i => (indices ds).map (fun r => i :: r))

/-- The part of a `DataTensor` the trafo model reads. `shape` is the shape
without the batch axis (data/trafo.py:118-120 removes it). Simplification: the batch
axis is the first one, as for every tensor in the repository; all other lengths
are integers; `logMask` is the value of `trafo_log`. -/
structure TensorInfo where
  name : String
  shape : List Nat
  present : Bool
  trafo : Bool
  reduceAxes : List Nat
  logMask : Option (List Bool)
  logAxis : Int

/-- The loop over the bins of the last axis, data/trafo.py:258-261, 373-382 and
444-455: `data[..., bin_i] = f(data[..., bin_i])` where the flag is set. An index
beyond the last axis is an IndexError. -/
def maskLoop (f : ℝ → ℝ) (bin : Nat) : List Bool → Arr → Except Err Arr
  | [], a => .ok a
  | false :: m, a => maskLoop f (bin + 1) m a
  | true :: m, a =>
    match a.shape.getLast? with
    | none => .error .indexError
    | some d =>
      if bin < d then
        maskLoop f (bin + 1) m
          { a with val := fun i => if i.getLast? = some bin then f (a.val i) else a.val i }
      else .error .indexError

/-- Application of `f` to everything if all flags are set, else of `g` to the
flagged bins only, data/trafo.py:253-261, 367-382, 438-455. -/
def applyMask (f g : ℝ → ℝ) (mask : Option (List Bool)) (a : Arr) : Except Err Arr :=
  match mask with
  | none => .ok a
  | some m =>
    if m.all id then .ok { a with val := fun i => f (a.val i) }
    else maskLoop g 0 m a

/-- The online variance variables of one tensor, data/trafo.py:122-126. -/
structure Acc where
  n : ℕ
  mean : List Nat → ℝ
  m2 : List Nat → ℝ

/-- `{'n': 0., 'mean': np.zeros(..), 'M2': np.zeros(..)}`, data/trafo.py:122-126. -/
def Acc.zero : Acc := { n := 0, mean := fun _ => 0, m2 := fun _ => 0 }

/-- One pass of the loop in `_update_online_variance_vars`, data/trafo.py:214-219. -/
def Acc.push (s : Acc) (x : List Nat → ℝ) : Acc :=
  let n := s.n + 1
  let mean := fun i => s.mean i + (x i - s.mean i) / (n : ℝ)
  { n := n, mean := mean, m2 := fun i => s.m2 i + (x i - s.mean i) * (x i - mean i) }

/-- `_update_online_variance_vars`, data/trafo.py:190-220. -/
def updateVars (s : Acc) (rows : List (List Nat → ℝ)) : Acc := rows.foldl Acc.push s

/-- Iteration over the first axis of an array. -/
def Arr.rows (a : Arr) : List (List Nat → ℝ) :=
  match a.shape with
  | [] => []
  | b :: _ => (List.range b).map (fun k => fun i => a.val (k :: i))

/-- `_perform_update_step`, data/trafo.py:222-265. -/
def updateStep (mask : Option (List Bool)) (batch : Arr) (s : Acc) : Except Err Acc :=
  match applyMask (fun x => Real.log (1 + x)) (fun x => Real.log (1 + x)) mask batch with
  | .error e => .error e
  | .ok b => .ok (updateVars s b.rows)

/-- The inner loop over the tensors for one batch, data/trafo.py:133-145; `accs` are
the variables of `var_dict`, in the order of the tensors. A tensor without
transformation is skipped. -/
def batchStep : List TensorInfo → List Arr → List Acc → Except Err (List Acc)
  | [], _, _ => .ok []
  | _ :: _, [], _ => .error .indexError
  | _ :: _, _, [] => .error .keyError
  | t :: ts, b :: bs, s :: ss =>
    if t.present && t.trafo then
      match updateStep t.logMask b s with
      | .error e => .error e
      | .ok s' =>
        match batchStep ts bs ss with
        | .error e => .error e
        | .ok r => .ok (s' :: r)
    else
      match batchStep ts bs ss with
      | .error e => .error e
      | .ok r => .ok (s :: r)

/-- `for i in range(num_batches): data_batch = next(data_iterator)`,
data/trafo.py:128-145. -/
def batchLoop (ts : List TensorInfo) : Nat → List (List Arr) → List Acc → Except Err (List Acc)
  | 0, _, ss => .ok ss
  | _ + 1, [], _ => .error .stopIteration
  | n + 1, b :: bs, ss =>
    match batchStep ts b ss with
    | .error e => .error e
    | .ok ss' => batchLoop ts n bs ss'

/-- Two multi-indices agree on the axes that are not reduced. -/
def agreeOff (axes : List Nat) (i j : List Nat) : Bool :=
  (List.range i.length).all (fun k => axes.contains k || i[k]? == j[k]?)

/-- The shape after a reduction with `keepdims=True`. -/
def keepDims (axes : List Nat) (shape : List Nat) : List Nat :=
  shape.mapIdx (fun k d => if axes.contains k then 1 else d)

/-- `np.mean(a, axis=axes, keepdims=True)`, data/trafo.py:155-160. Simplification:
axes are counted from the front; an axis out of range is a ValueError. -/
def meanAxes (axes : List Nat) (shape : List Nat) (f : List Nat → ℝ) : Except Err Arr :=
  if axes.all (fun k => decide (k < shape.length)) && decide axes.Nodup then
    .ok { shape := keepDims axes shape
          val := fun i =>
            let js := (indices shape).filter (fun j => agreeOff axes i j)
            (js.map f).sum / (js.length : ℝ) }
  else .error .valueError

/-- The fitted values of one tensor: `data[name + '_mean']`, `data[name + '_std']`. -/
structure Fit where
  mean : Arr
  std : Arr

/-- The end of `_configure` for one tensor, data/trafo.py:149-165: `sqrt(M2 / n)`, the
reduction, and the replacement of zero deviations by one. -/
def finish (t : TensorInfo) (s : Acc) : Except Err Fit :=
  match meanAxes t.reduceAxes t.shape (fun i => Real.sqrt (s.m2 i / (s.n : ℝ))) with
  | .error e => .error e
  | .ok std =>
    match meanAxes t.reduceAxes t.shape s.mean with
    | .error e => .error e
    | .ok mean =>
      .ok { mean := mean, std := { std with val := fun i => if std.val i = 0 then 1 else std.val i } }

/-- The loop over the tensors at the end of `_configure`, data/trafo.py:148-172. -/
def finishAll : List TensorInfo → List Acc → Except Err (Dict String Fit)
  | [], _ => .ok []
  | _ :: _, [] => .error .keyError
  | t :: ts, s :: ss =>
    if t.present && t.trafo then
      match finish t s with
      | .error e => .error e
      | .ok f =>
        match finishAll ts ss with
        | .error e => .error e
        | .ok r => .ok ((t.name, f) :: r)
    else finishAll ts ss

/-- A configured `DataTransformer`: `data['tensors']`, `data['norm_constant']` and
the fitted values. -/
structure Transformer where
  tensors : List TensorInfo
  norm : ℝ
  fits : Dict String Fit

/-- `DataTransformer._configure`, data/trafo.py:34-188. `batches` is what the data
iterator yields; element `k` of a batch belongs to tensor `k`. Check values and
the creation time are not modelled. -/
def configure (ts : List TensorInfo) (batches : List (List Arr)) (numBatches : Nat) (norm : ℝ) :
    Except Err Transformer :=
  match batchLoop ts numBatches batches (ts.map (fun _ => Acc.zero)) with
  | .error e => .error e
  | .ok ss =>
    match finishAll ts ss with
    | .error e => .error e
    | .ok fits => .ok { tensors := ts, norm := norm, fits := fits }

/-- `data['tensors'][tensor_name]`; tensor names are unique (C10). -/
def Transformer.find (T : Transformer) (name : String) : Option TensorInfo :=
  T.tensors.find? (fun t => t.name == name)

/-- `_check_settings`, data/trafo.py:267-332: unknown names and wrong shapes are
rejected; the batch axis is not checked. -/
def checkSettings (T : Transformer) (a : Arr) (name : String) : Except Err TensorInfo :=
  match T.find name with
  | none => .error .valueError
  | some t =>
    match a.shape with
    | [] => .error .indexError
    | _ :: s => if s = t.shape then .ok t else .error .valueError

/-- The multi-index read in the smaller array when it is broadcast: axes of length
one are read at zero. -/
def bcast (shape i : List Nat) : List Nat := List.zipWith (fun d k => if d = 1 then 0 else k) shape i

/-- The value of a broadcast array at an index of the data, whose first entry is
the position in the batch. -/
def Arr.at (a : Arr) (i : List Nat) : ℝ := a.val (bcast a.shape i.tail)

/-- The logarithm of `transform`, data/trafo.py:359-382. -/
def logPart (t : TensorInfo) (bias : Bool) (a : Arr) : Except Err Arr :=
  if bias && t.logMask.isSome then
    if t.logAxis ≠ -1 then .error .notImplementedError
    else applyMask (fun x => Real.log (1 + x)) (fun x => Real.log (1 + x)) t.logMask a
  else .ok a

/-- `DataTransformer.transform`, data/trafo.py:334-396. -/
def Transformer.transform (T : Transformer) (a : Arr) (name : String) (bias : Bool := true) :
    Except Err Arr :=
  match checkSettings T a name with
  | .error e => .error e
  | .ok t =>
    match logPart t bias a with
    | .error e => .error e
    | .ok b =>
      match T.fits.get? name with
      | none => .error .keyError
      | some f =>
        .ok { b with val := fun i =>
                ((if bias then b.val i - f.mean.at i else b.val i)) / (T.norm + f.std.at i) }

/-- `tf.clip_by_value(x, -60., 60.)`. -/
def clip60 (x : ℝ) : ℝ := max (-60) (min x 60)

/-- The exponential of `inverse_transform`, data/trafo.py:430-455: only the tensorflow
branch for a partial mask clips its argument. -/
def expPart (t : TensorInfo) (isTf bias : Bool) (a : Arr) : Except Err Arr :=
  if bias && t.logMask.isSome then
    if t.logAxis ≠ -1 then .error .notImplementedError
    else applyMask (fun x => Real.exp x - 1)
      (fun x => if isTf then Real.exp (clip60 x) - 1 else Real.exp x - 1) t.logMask a
  else .ok a

/-- `DataTransformer.inverse_transform`, data/trafo.py:398-463. -/
def Transformer.inverse (T : Transformer) (a : Arr) (name : String) (isTf : Bool) (bias : Bool := true) :
    Except Err Arr :=
  match checkSettings T a name with
  | .error e => .error e
  | .ok t =>
    match T.fits.get? name with
    | none => .error .keyError
    | some f =>
      expPart t isTf bias
        { a with val := fun i =>
            if bias then a.val i * (T.norm + f.std.at i) + f.mean.at i
            else a.val i * (T.norm + f.std.at i) }

/-- `np.diag(v)` for a vector: `v` on the diagonal, zero elsewhere. -/
def diag (a : Arr) (c : ℝ) : Except Err Arr :=
  match a.shape with
  | [n] => .ok { shape := [n, n], val := fun i =>
      match i with
      | [j, k] => if j = k then c + a.val [j] else 0
      | _ => 0 }
  | _ => .error .valueError

/-- `np.matmul` of two matrices. Simplification: only matrices; `np.diag` of
anything but a vector is taken as an error. -/
def matmul (a b : Arr) : Except Err Arr :=
  match a.shape, b.shape with
  | [n, m], [m', k] =>
    if m = m' then
      .ok { shape := [n, k], val := fun i =>
        match i with
        | [p, q] => ((List.range m).map (fun j => a.val [p, j] * b.val [j, q])).sum
        | _ => 0 }
    else .error .valueError
  | _, _ => .error .valueError

/-- `DataTransformer.inverse_transform_cov`, data/trafo.py:465-510. -/
def Transformer.inverseCov (T : Transformer) (cov : Arr) (name : String) : Except Err Arr :=
  match checkSettings T cov name with
  | .error e => .error e
  | .ok _ =>
    match T.fits.get? name with
    | none => .error .keyError
    | some f =>
      match diag f.std T.norm with
      | .error e => .error e
      | .ok B =>
        match matmul B cov with
        | .error e => .error e
        | .ok M => matmul M B

end

end Verif.Trafo
