import Verif.Fit.Props

/-!
# The reconstruction module and its minimisers

`Reconstruction` of egenerator/manager/reconstruction/modules/reconstruction.py chooses one of four
interfaces to minimisers by name, runs it and reports the loss of the seed and of the result. Three
of the interfaces are modelled in Verif.Fit, the one to tensorflow probability is modelled here.
-/

namespace Verif.Interface
open Verif.Py Verif.Trafo Verif.Reco Verif.Fit

/-- The interfaces to minimisers. -/
inductive Choice where
  | scipy
  | shog
  | tfp
  | sphericalOpt
  deriving DecidableEq

/-- The choice of the interface (modules/reconstruction.py:141, 152, 163, 176, 203-205). -/
def interfaceOf (name : String) : Except Err Choice :=
  if name.toLower = "scipy" then .ok .scipy
  else if name.toLower = "shog" then .ok .shog
  else if name.toLower = "tfp" then .ok .tfp
  else if name.toLower = "spherical_opt" then .ok .sphericalOpt
  else .error .valueError

/-- A minimiser of tensorflow probability: of a function that returns the values at the rows of an
array, and of the starting array. It returns `optim_results.position`. -/
abbrev Tfp := (Arr → Except Err (List ℝ)) → Arr → Except Err Arr

/-- `const_loss_and_gradients_function` (manager/source.py:1057-1062): the loss of all events,
reshaped to a vector with one entry. Gradients are not part of it. -/
noncomputable def tfValue (T : Transformer) (name : String) (fit : List Bool) (inTrafo : Bool)
    (loss : Arr → Except Err ℝ) (seed : Arr) (x : Arr) : Except Err (List ℝ) :=
  match hypothesis T name fit inTrafo x seed with
  | .error e => .error e
  | .ok h =>
    match loss h with
    | .error e => .error e
    | .ok v => .ok [v]

/-- `tf_reconstruct_events` (manager/source.py:967-1074). `isTf`: the seed is a tensor. `hessian`:
a function for second derivatives was given. Simplification: `method` is the name of a minimiser
that exists, and other keyword arguments belong to the minimiser. -/
noncomputable def reconstructTf (T : Transformer) (name : String) (fit : List Bool)
    (inTrafo isTf hessian : Bool) (loss : Arr → Except Err ℝ) (tfp : Tfp) (seed : Arr) :
    Except Err Arr :=
  match start T name fit inTrafo isTf seed with
  | .error e => .error e
  | .ok x0 =>
    if hessian then .error .notImplementedError
    else tfp (tfValue T name fit inTrafo loss seed) x0

/-- The minimisers, the random numbers of the interface to spherical_opt and the bounds in the
settings of scipy. -/
structure Minimizers where
  scipy : Minimizer
  shgo : Global
  tfp : Tfp
  spherical : Spherical
  normal : ℕ → ℕ → ℝ → ℝ → ℝ
  junk : ℤ
  bounds : Option (List (Bound × Bound))

/-- `reconstruction_method` (modules/reconstruction.py:140-207). The one of tensorflow probability
is a `tf.function` with a signature: the seed is a tensor in it. -/
noncomputable def method (M : Minimizers) (T : Transformer) (name : String) (fit : List Bool)
    (inTrafo isTf : Bool) (loss : Arr → Except Err ℝ) (i : Choice) (seed : Arr) :
    Except Err Arr :=
  match i with
  | .scipy => reconstruct T name fit inTrafo isTf loss M.junk M.scipy seed M.bounds
  | .shog => reconstructGlobal T name fit inTrafo loss M.shgo seed
  | .tfp => reconstructTf T name fit inTrafo true false loss M.tfp seed
  | .sphericalOpt => reconstructSpherical T name fit inTrafo isTf loss M.normal M.spherical seed

/-- What a reconstruction reports (modules/reconstruction.py:275-283). -/
structure Report where
  result : Arr
  resultTrafo : Arr
  lossSeed : ℝ
  lossReco : ℝ

/-- `parameter_loss_function` (modules/reconstruction.py:105-118): all parameters are counted as
fitted, and they are not transformed. -/
noncomputable def lossAt (T : Transformer) (name : String) (fit : List Bool)
    (loss : Arr → Except Err ℝ) (a : Arr) : Except Err ℝ :=
  match hypothesis T name (fit.map fun _ => true) false a a with
  | .error e => .error e
  | .ok h => loss h

/-- `Reconstruction.execute` (modules/reconstruction.py:209-284) for a seed that is not
randomised. -/
noncomputable def execute (M : Minimizers) (T : Transformer) (name : String) (fit : List Bool)
    (inTrafo isTf : Bool) (loss : Arr → Except Err ℝ) (i : Choice) (seed : Arr) :
    Except Err Report :=
  match method M T name fit inTrafo isTf loss i seed with
  | .error e => .error e
  | .ok p =>
    match recoResult T name fit inTrafo (decide (i = .tfp)) p seed with
    | .error e => .error e
    | .ok r =>
      match lossAt T name fit loss seed with
      | .error e => .error e
      | .ok ls =>
        match lossAt T name fit loss r with
        | .error e => .error e
        | .ok lr => .ok ⟨r, p, ls, lr⟩

end Verif.Interface
