# Formal model of mhuen/event-generator: design

## Layout

* `lean/Verif/<Area>/Model.lean` – the model: total functions mirroring the Python
  functions branch by branch. Exceptions are values (`Except Err α`). Every
  definition cites the file and lines in `/repo` it models, and says where it
  simplifies.
* `lean/Verif/<Area>/Spec.lean` – the small independent specification the
  properties are stated against (no use of model helpers).
* `lean/Verif/<Area>/Lemmas.lean` – helper lemmas.
* `lean/Verif/<Area>/Props.lean` – the property theorems `Cxx_...`, each followed
  by an `example` showing that a concrete, non-trivial case meets its hypotheses.

A theorem named `..._partial` proves only part of its property; the comment
above it says what is missing. A theorem named `..._violated` proves that the
code (as modelled) does *not* have the property, by a concrete witness.

## Trusted base

* Lean 4.33.0's kernel, and the axioms `propext`, `Classical.choice`,
  `Quot.sound` at most (section "Axioms" below). No axiom is added, there is no
  `sorry`, `admit`, `native_decide`, `bv_decide`, `implemented_by` or `unsafe`.
* The reading of the Python source: the code is never run, so the only tie
  between model and code is the citation at each definition.
* Numbers: integers are `Nat`/`Int`, floats are exact elements of an ordered
  field or of `ℝ`. Rounding, overflow, NaN and infinities are not modelled
  unless a definition says otherwise (pulse time window, NaN gradients).
* TensorFlow, numpy, pandas, scipy, icetray, ruamel.yaml, pickle/dill and the
  operating system are not modelled; where the code depends on them the model
  takes the call's result as a parameter or models its documented contract, as
  stated at the definition.

## Plan per property

| id | model | proof |
|----|-------|-------|
| C01 | `Configuration.__init__`/`_combine_settings` over association lists | iff for the error branch, lookup equation for the merged view |
| C02 | `update_mutable_settings` as the sequential loop with the partially written state on failure | success iff; lookup equations; negation witness for "failure changes nothing" |
| C03 | `is_compatible` on configuration trees (structural recursion) | induction on trees: equivalence with an inductive compatibility relation; reflexivity; symmetry fails (witness), holds if mutable names agree |
| C04 | the bookkeeping methods as a state machine | invariant by induction over call sequences |
| C05 | life cycle of a component as a state machine, hooks as parameters | induction over call histories |
| C06 | `configure` with the derived hook as an arbitrary function | case analysis of the argument loop |
| C07 | `save`/`load` over a file system of paths | induction on component trees |
| C08 | `save` as a list of write effects; crash = prefix | induction over the effect list |
| C09 | `load` with nested replacement dictionaries | induction on the tree |
| C10-C12 | `DataTensor`, `DataTensorList` | sortedness and permutation lemmas, round trip |
| C13 | Welford update over lists of batches in a field | induction over batches: invariant (n, mean, M2) |
| C14,C15 | elementwise transform over `ℝ`, matrices as functions | algebra with `exp`/`log` |
| C16,C17,C18 | event/batch structure, filters, `_get_data` | list induction |
| C19 | aggregator as a fold over loaded files | invariant: emitted ++ pending = loaded |
| C20 | small-step transition system of loader, aggregator and consumer | safety invariants for all schedules; witnesses for lost data and for the blocked consumer |
| C21-C26 | data modules | list lemmas, real algebra |
| C27-C29 | `save_weights` etc. on a directory state; crash = prefix of effects | invariant over histories; witness traces for the violated parts |
| C30-C34 | source models | list lemmas; sums over `Finset`; real analysis for densities |
| C35-C38 | loss functions on per-DOM arrays | finite sum algebra; witness for the overwritten term |
| C39-C44 | parameter merge, tray, cache, selection, bisection | list induction, state machine invariants |
| C45-C47 | spherical optimizer | combinatorial maximality; invariants for all random choices; linear algebra in ℝ³ |
| C48-C51 | basis functions and angles over `ℝ` | Mathlib: Gaussian integral, derivatives, series |
| C52-C56 | schedules, setup, ensembles, training step | list lemmas |
| C57-C62 | simulation, p-values, covariance output, track energy | tree induction, list lemmas, real analysis |
| C63 | version checks of `load` as branches on the stored version | case analysis |
| C64 | track discretisation over the reals | induction over the segments, real geometry |
| C66 | charge as product of network output, energy and efficiencies | real algebra |
| C67 | each loss as a sum over DOMs and pulses | equality with a sum of log densities of a separate specification |
| C68,C69 | spherical optimizer's stop conditions | induction over steps; inequalities of norms |
| C70 | `get_angle` over `ℝ` | Mathlib trigonometry |
| C71 | regularisation as a sum over variables | list induction |
| C72 | placeholders as list of characters | induction over the string |
| C73 | sampling of one event of a batch | lookup equations |
| C74-C76 | frame as dictionary, writing as effects | list and dictionary lemmas, injectivity of key names |
| C77 | input channels as lists | length equations for every configuration |
| C78 | `none` for values that are not finite | iff or implication by cases over channels |
| C79 | the same channels for two hypotheses | injectivity of every step |
| C80 | geometry in `ℝ³` | real algebra, minimality by completing the square |
| C81 | loss as a function of vectors, derivatives along lines, `Matrix` | change of variables, symmetry of second derivatives, second derivative test |
| C82 | states of the chains given by an arbitrary sampler | list lemmas; witnesses |
| C83 | chi² distribution as an integral, minimum as a predicate | comparison of distribution functions by the sign of the difference of densities |
| C84 | minimizer by contract, limits as numbers or none, types of numpy arrays | monotone transformation and its inverse; witnesses |
| C85 | minimizer's vector as rows, loss as a sum | locality of each row, sum is minimal iff its terms are |
| C86 | dictionaries by identity, history as a list of calls | induction over the history; witness |
| C87 | minimizers by contract | shapes; witnesses for all batches and flags |
| C88 | draws as arbitrary functions within their ranges | case per column, bounds of pi |
| C89 | lists that are filled per batch and per event, assignment of columns to a table | loop as a flat map over batches, lengths of columns, assignment of distinct names; witnesses |
| C90 | seed of the chosen fit as a field of the result | lookup through the table; counterexamples for all data |
| C91 | tray as a list of named modules | the loop equals a planned list; injectivity of names |
| C92 | flags as a list, index by name | induction over the configured flags |
| C93 | settings as a dictionary, paths as letters | case analysis; counterexamples for all inputs |
| C94 | loops over the managers with the dictionary of replacements that `load` empties | the theorems on `load` (C09), induction over the managers |
| C95 | settings as dictionaries, creation of modules as a parameter | C94, lookup in updated dictionaries |
| C96 | scripts as programs on the files of a disk | invariants of the files of a manager, induction over models, saves and runs |
| C97 | as C96, and the answer of the user as a parameter | case analysis; files outside a directory are not written |
| C98 | as C96; reading of settings as parameters | `load` succeeds exactly on complete managers; induction over the files |
| C99 | build functions with outcomes of loading and configuring as parameters | equivalences by induction over the base sources and loss modules |
| C100 | computation graphs as trees; the search for top nodes and the loops over sources | mutual induction over trees, induction over sources |
| C101 | splitting and joining of names, modules as lookup of attributes | induction over strings |
| C102 | modules as dictionaries of data; set up and update as loops | lookup after updates with separate keys, induction over the modules |
| C103 | loops over tensors and modules | a filtered sorted list is the sorted part |
| C104 | initializers as requests to the cache of Reco | invariant of the cache under requests |
| C105 | loops over parameters and values with files as a dictionary | induction over parameters; lookup after writes |
| C106 | `execute` with the state of the generator; fits are functions | opening angles from C51, merging of fitted and kept values by induction |
| C107 | `execute` with samplers and fits as functions and the state of the generator | induction over samples; p-values from C60 |
| C108 | states of the generator along a sequence of events | induction over events; two runs of one event as witnesses |
| C109 | modules as functions of earlier results, looked up by name | invariants of the results along the tray |
| C110 | `Configure` branch by branch, over the trays of Reco and Tray | inversion of the sequence of additions |
| C111 | the check as written, shapes as lists with optional sizes | induction over the tensors, equivalence with a pairwise specification |
| C112 | types and shapes of the data set and the signature over one tensor list | induction over the tensors |
| C113 | the loader in front of the aggregator of Handler | C19 for the positive part; inversion of the loop over events for the failure |
| C114 | base and modular set up as the hook of the component model | inversion of `BaseComponent.configure` |
| C115 | argument binding of Python over the chain of calls | case analysis over the chain |
| C116 | transition system of processes | induction over histories |
| C117 | trees of components with names, a store of model directories, the recursions of saves and loads | refinement: the directory of each source is the projection of the directory of one model; naturality of all single model functions, induction over trees and histories |
| C118 | crash as a prefix of the effects of the recursion | induction over the sources; C27 and C28 for each source |
| C119 | dictionaries of sub components | lookup and filter lemmas |
| C120 | events as functions from labels to values with a snowstorm vector; their frames and tables; loading branch by branch | both loads are reduced to the row of the event by induction over names and events; the snowstorm table is a flat list with indices |
| C121 | untracked data of component trees beside the tracked parts of Verif.Component: what configure writes, and what _load rebuilds; get_loss on the untracked data | induction over trees built by successful configure calls; the arguments that _load reassembles are shown to reproduce the first call; C07 gives the tracked parts |
| C122 | the _configure of sources and multi sources as hooks of Comp.configure | configure is evaluated for all arguments of the documented form; the check of recorded settings is inverted for explicit None |
| C123 | Python's == on nested values, and the comparison of attributes of tensors and lists of tensors | the comparison is shown equivalent to an inductive relation by induction over values; sorted lists with equal names are compared position by position |
| C124 | the end of the set up of each module as a function of its own tensors and config_data | case analysis with C123; a concrete list of tensors for the violation |
| C125 | a memory of objects, configurations as dictionaries of addresses, deepcopy as allocation, and programs that can only change objects they know | an invariant that separates the addresses of the configuration from the known ones, kept by every step; a frame lemma for views of the memory |
| C126 | dictionaries as objects with addresses and the entry for the data transformation written to the dictionary of the caller | invariant over programs; direct computation for the violations |
| C127 | the parts of a model in which tf.Module finds variables, with identity and name, and the recorded variables | the sorted names are equal exactly if the lists are permutations; counting of identities |
| C128 | what a failed call leaves in a component (Verif.Component) and the flag of the modular data handler; histories of failed attempts in which everything else may change | induction over the history; configure overwrites all it reads; without replacements load reads nothing of what is left |
| C129 | the set up of the modules by the modular data handler, and its attributes | invariants of the loops that create and configure the modules |
| C130 | the choice of the interface and tf_reconstruct_events on top of the starting values of Verif.Reco; minimisers are arbitrary | case analysis; the starting values and the evaluated parameters of C39 |
| C131 | the module from the seed to the reported losses, with the interfaces of Verif.Fit | the minimised function at the start is the loss of the seed and at the result the loss of the report, both from C39; the minimiser compares them |
| C132 | save_training_settings with the content of the directories it writes; an exception or a crash is a prefix of its changes | invariant over histories; a directory without an entry in the list of runs blocks its number for good |
| C133 | the processes of an endless generator as a transition system: loaders, aggregator, consumer, two bounded queues | invariants over schedules; a lexicographic measure decreases with every action that delivers nothing |
| C134 | same transition system | the state is a function of the files drawn, up to queues |
| C135 | same transition system; a loader that raises is dead | a bound on the number of events from the number of draws before each job dies; concrete stuck state |
| C136 | components, save and load of C06-C09, and the inductive set of components obtained by any history | induction over the history; a loaded component has all that is needed to be saved |
| C137 | the checks of a manager when sub components are updated and when it is loaded, around the model of `load` | from a successful load to the loop over the models; compatibility by C03, the saved models by C09 |
| C138 | the loss functions of C35-C38 and C67 and the restriction of batch and predictions to one event | each term of a loss is restricted to an event; sums over pulses are split by the event of the pulse |
| C139 | the gathers, scatters and assertions of `get_tensors` for whole batches, around the model of one DOM | the scatter at a DOM is the sum over its windows; restricted to an event, the sum over the windows of the event; with C138 for the loss |
| C140 | the data module of C22, the batch model of C139 and the loss of C67, joined | C22 gives the pulses row by row and the DOM charges as sums; sums over pulses become sums over rows |
| C141 | the batch model of C139, the inputs of C79 and the data module of C22 | times enter only through differences; loading commutes with the shift by induction over the rows |
| C142 | the loss model of C01 and the batch model of C139 | sums over pulses are sums over the merged pulses; C142_loss by cases over the loss functions |
| C143 | the models of C85, C139, C141 and C142 | the batch loss is the sum of the losses of the events (C139), so minima separate; shifts of time are bijections of the parameters |
| C144 | the models of C140 and C143 | the likelihood of the table (C140) is split into those of its events; predictions for a DOM depend on the parameters of the event only |
| C145 | the constructor, get_config and the settings of the optimizer, with classes as parameters | induction over the settings; the rate from C52 |

## What is modelled, area by area

* `Py/Dict.lean`: Python dictionaries as association lists with unique keys,
  exceptions as values.
* `Component/Model.lean`, `Component/Object.lean`: `manager/component.py`, all
  methods of `Configuration` and `BaseComponent`. Not modelled: logging, deep
  copies, the abstract hooks `_save`/`_load` (the hooks `_configure` and
  `_update_sub_components` are arbitrary functions), creation of directories,
  the yaml and pickle encodings (a file holds the dumped value).

* `Py/Sort.lean`: stable insertion sort (what `sorted`/`argsort` compute).
* `Tensor/Model.lean`: `data/tensor.py`, all of `DataTensor` and
  `DataTensorList`. Simplifications: names are strings; a shape that is not a
  sequence combined with a boolean log flag is a TypeError; equality is Lean
  equality (Python's `1 == True` is not identified).
* `Trafo/Model.lean`: `data/trafo.py`, all of `DataTransformer` (fit, transform,
  inverse, covariance). Floats are reals; the batch axis is the first one; data
  types, check values and the creation time are left out.
* `Handler/Model.lean`: `batch_to_event_structure`, `event_to_batch_structure`
  (`data/handler/base.py`), `_filter_data`, `_get_data` (`data/handler/modular.py`).
  Array rows are abstract values; the modules' results are parameters; writing to
  frames and loading modules by name are not modelled.
* `Handler/AggModel.lean`: `fill_event_list` and `data_queue_iterator` (`data/handler/base.py`)
  as a sequential program over the files it reads. How many files one pass reads and the random
  permutations are parameters. Casts to the dtype are not modelled (the incomplete last batch
  is not cast by the code).
* `Generator/Model.lean`: the processes of `get_batch_generator` (`data/handler/base.py`) as a
  transition system: loaders, aggregator, consumer, the bounded queues and the shared flags, for
  a finite run. The scheduler and the shuffling are nondeterministic. `biased_selection_module`,
  `num_splits` (raises NotImplementedError) and crashes of processes are not modelled.
* **Filter** (`lean/Verif/Filter`): both mask functions of the general filter, with numpy broadcasting of
  `logical_and`. Values are elements of a linear order (no NaN). Vector columns are natural numbers.
* **Pulses** (`lean/Verif/Pulses`): `get_data_from_hdf` and `get_data_from_frame` of the pulse module. Charges and
  times are in an ordered field (no rounding). The uninitialised memory of `np.empty` is an arbitrary parameter.
  Python's negative indices are modelled. Not modelled: time exclusions of a frame, int32 overflow, the
  logger, a pandas row index other than 0, 1, ...
* **Seeds** (`lean/Verif/Seeds`): both load functions of the seed loader, including the closing of the file in the
  `finally` of the loop. A tensor is its list of columns. The names are given in the order of the tensor list.
* **Labels** (`lean/Verif/Labels`): `_configure`, loading from hdf and the shifts of the label modules cascades,
  snowstorm_cascades, snowstorm_tracks, snowstorm_track_segment and muons. Real numbers instead of floats; track
  label names are an inductive type instead of formatted strings; the shift is modelled for one event. Not
  modelled: loading labels from a frame, the assert of the segment module that tracks start at the anchor.
* **Checkpoint** (`lean/Verif/Checkpoint`): `save_weights`, `update_num_training_steps`, `save_training_settings`,
  `_save`, `load_weights` of a model directory as sequences of single changes of the directory (a crash is a prefix),
  and the training loop of the manager with its saves. A checkpoint is a data file and an index file; a yaml file
  is empty between `open(.., 'w')` and `yaml.dump`; the dump is one step. One model per manager. Not modelled:
  dates and descriptions, the components stored with a run, logs, data sets that end, profiling.
* **Dist** (`lean/Verif/Dist`): all functions of `utils/basis_functions.py`, element by element over the real numbers
  (the tf and the numpy version share a definition). Library functions: `erf` by its integral, `erfinv` as any right
  inverse of `erf`, `lgamma` as the logarithm of Mathlib's Gamma function, `rng.negative_binomial` by the law in its
  documentation. Not modelled: rounding, overflow, `mu = 0` in the log density.
* **Sources** (`lean/Verif/Sources`): `InputTensorIndexer`, the name and index dictionaries, `get_index`, `get_name`
  (model/source/base.py), `IndependentMultiSource`, `MultiSource.get_tensors` (one event; DOMs and pulses as index
  types, base models as arbitrary functions), `DefaultMultiCascadeModel` and `StochasticTrackModel`
  (`get_parameters_and_mapping`, `get_source_parameters`) over the real numbers. Iteration over a set is in an
  arbitrary order. Not modelled: tracing of tf functions, `check_source_parameter_creation`, saving of weights.
* **Cascade** (`lean/Verif/Cascade`): `get_tensors` behind the network of `DefaultCascadeModel`,
  `SystematicsCascadeModel`, `StochasticTrackSegmentModel`, the time density of `ChargeQuantileCascadeModel`, and
  `DefaultNoiseModel`, for one event and one DOM over the real numbers with an arbitrary network output. Not modelled:
  the networks and their inputs, rounding, gradients of the clipping.
* **Loss** (`lean/Verif/Loss`): all eight loss functions of `DefaultLossModule` and its `get_loss`, `MultiLossModule`
  and `SnowstormPriorLossModule`, for any number of events and pulses over the real numbers. Not modelled: rounding,
  logarithms of numbers that are not positive (`nan`), gradients.
* **Reco** (`lean/Verif/Reco`): merging of fitted and fixed parameters (`parameter_loss_function`, starting values of
  `reconstruct_events`, `get_reco_result_batch`), the sum over an ensemble, `ReconstructionTray`, `FunctionCache`,
  `SelectBestReconstruction` and the bisection of `CircularizedAngularUncertainty`. Modules and loss functions are
  arbitrary functions. Not modelled: the minimisers of scipy and tensorflow probability, bounds, the random directions
  (the profile may differ from step to step), rounding.
* **Optim** (`lean/Verif/Optim`): `find_replacements` and the loop of `spherical_opt` for both methods, with arbitrary
  proposals of points and arbitrary objective function; the condition on the spread of points. Not modelled: `nan`, the
  entries of `meta`, truncation in initial points of integer type.
* **Sphere** (`lean/Verif/Sphere`): `fill_from_spher`, `fill_from_cart`, `reflect`, `centroid`, `angular_dist` and all of
  `utils/angles.py`, entry by entry over the real numbers. `arctan2` is the argument of a complex number. Rounding is not
  modelled, nor random vectors parallel to the direction (the code returns `nan`).
* **Training** (`lean/Verif/Training`): `MultiLearningRateScheduler` (with and without the local variables AutoGraph makes),
  the check and loading order of the models of a manager, the regularization loss, and one training step (gradients, removal
  of `nan`, clipping, pairing with variables). Gradients and optimizers are arbitrary functions.
* **Setup** (`lean/Verif/Setup`): `SetupManager`: merging of files, added settings, expansion of strings with the dictionary
  that is changed while it is read, and `get_config` on a heap of dictionary objects with an arbitrary user. Not modelled:
  the YAML parser, `tfscripts`, conversions and format specifications in replacement fields, git and pip calls.
* **Sim** (`lean/Verif/Sim`): the collection of light sources from a particle tree (`ic3/simulation.py`), the conversion to
  source parameters, the configuration of defaults. Geometry and particle types are arbitrary functions.
* **Sampling** (`lean/Verif/Sampling`): `sample_pulses` of the simulation, `sample_event_pulses`, `compute_p_value` and the
  event p-value of the goodness of fit. Random numbers are arbitrary values in their ranges; `C59_weight` uses Lebesgue
  measure for the probability of a component. The reconstruction of samples and values per DOM are in Quality.
* **Output** (`lean/Verif/Output`): `ic3/reconstruction.py`: the settings that select fitted parameters, `Physics` (result map,
  particle, values of the goodness of fit and of the circularised estimate) and `write_cov_matrix`. Frames are dictionaries
  that refuse existing keys. Not modelled: the construction of the reconstruction tray in `Configure`, the shape of the
  particle and the normalisation of directions by `I3Direction`.
* **Inputs** (`lean/Verif/Inputs`): everything the source models (`cascade/default.py`, `cascade/systematic.py`,
  `cascade/charge_quantiles.py`, `track/stochastic_segment.py`) compute before their networks, for one event and DOM over the
  real numbers, with `none` for values that are not finite, and the numbers of inputs declared for the networks. Not modelled:
  the networks, gradients, and `cascade/dummy.py`, which is for tests.
* **Uncert** (`lean/Verif/Uncert`): `modules/covariance.py`, `modules/mcmc.py`, the range, angles and fit of
  `modules/opening_angle.py`, and `get_opg_estimate_function`, `get_hessian_function` and `run_mcmc_on_events` of
  `manager/source.py`. Derivatives, inverses and the chi² distribution by their mathematical definition; samplers of
  tensorflow_probability are an arbitrary function, scipy's minimizer a predicate. Not modelled: rounding, print output (except
  that the format of the step sizes needs seven values).
* **Fit** (`lean/Verif/Fit`): `reconstruct_events`, `scipy_global_reconstruct_events` and `reconstruct_events_spherical_opt` of
  `manager/source.py`, the random seeds of `modules/reconstruction.py` and the limits of `reconstruct_testdata` for them. Minimizers
  (scipy, shgo, spherical_opt) by contract, draws as arbitrary functions; loss as a parameter. Not modelled: gradients and Hessians
  as functions, rounding.
* **TestData** (`lean/Verif/TestData`): `reconstruct_testdata` of `manager/source.py`: flags of the fitted parameters, directory of
  the output file, replaced settings, modules of the tray, loop over the batches, table. What the modules compute for a batch is
  given (the modules are in Reco, Fit, Covariance and others). Not modelled: console output, the files with samples of Markov
  chains, timing, HDF5.
* **Deploy/Ensemble** (`lean/Verif/Deploy/Ensemble*.lean`): `utils/configurator.py` and the set up in `reconstruct_test_data.py`:
  settings of replaced modules, loading of the managers, collecting of the models. `load` is the one of Component. Creation of
  modules is a parameter. Not modelled: the loss module, tensorflow settings, the configuration of the final manager (Training).
* **Deploy/Scripts** (`lean/Verif/Deploy/Scripts*.lean`): `train_model.py`, `export_manager.py`, `create_trafo_model.py` as programs
  on the files of a disk, with the parts of `build_manager`, `train`, `save`, `load` and `save_weights` that read and write files.
  Building of models, training and reading of settings are parameters. Not modelled: log files, all but the latest checkpoint.
* **Build** (`lean/Verif/Build/*.lean`): `utils/build_components.py`, `misc.py`, and `check_source_parameter_creation` with
  `_find_top_nodes` of `model/multi_source/base.py`. Loading and configuring are parameters; computation graphs are trees.
* **Modules** (`lean/Verif/Modules/*.lean`): set up, update and writing of `data/handler/modular.py`; configuring of modules is a
  parameter. Tensor lists are those of Tensor.
* **Tray** (`lean/Verif/Tray/*.lean`): what the initializers of all modules in `manager/reconstruction/modules` do with the function
  cache, and `modules/visualization.py` (figures are the values they show).
* **Quality** (`lean/Verif/Quality/*.lean`): `execute` of `modules/opening_angle.py` and `modules/fit_quality.py` for one event, with
  the state of the random generator. Numbers are real numbers; samplers, minimizers and losses are arbitrary functions. Not
  modelled: `sample_reco_cov`, minimum, maximum, median and deviation of losses, print output.
* **Ic3** (`lean/Verif/Ic3/*.lean`): `Configure` of `ic3/reconstruction.py` (after the set up of the manager, which is an arbitrary
  function here and modelled in Setup), the modules of the tray as functions of earlier results, and the entries `Physics` reads.
  Not modelled: optimizer settings, print output. `DAQ` of `ic3/simulation.py` is in Sim.
* **Access** (`lean/Verif/Access/*.lean`): the public methods of `data/handler/base.py` that hand out data, the signature of the data
  set, set up with test data as the hook of the component model, the binding of additional arguments in `data/handler/modular.py`, the
  loader with a biased selection, and `kill`. Not modelled: the arrays themselves (a shape, a type and a content), the contents of
  files, the timing of `join`.
* **Nested** (`lean/Verif/Nested/*.lean`): saves and loads of weights of multi sources and managers as recursions over a tree of named
  components, with the model directories of Checkpoint for the sources; crashes as prefixes of the effects; the lookups of the data
  transformation of multi sources. Not modelled: configuration and data files (Component), the rebuilding of graphs.
* **Frames** (`lean/Verif/Frames/*.lean`): `get_data_from_frame` and the last steps of `get_data_from_hdf` of the label modules. Not
  modelled: data frames with an index of their own (pandas aligns by it), the reader and writer of files; a table is taken to hold one row
  for each event, a snowstorm table one row for each parameter.
* **Reload** (`lean/Verif/Reload/*.lean`): the untracked data of sources, multi sources and loss modules in `_configure`, `_load` and
  `get_loss`. Not modelled: the variables that `_build_architecture` creates, and the check for unaccounted variables of multi sources;
  what loss functions compute is in `Verif.Loss`.
* **Equality** (`lean/Verif/Equality/*.lean`): `__eq__` and `__ne__` of tensors and lists of tensors, and the checks of `config_data` with
  them in modules. Not modelled: numpy arrays as settings of tensors; the tensors that label modules and the pulse module build from their
  settings are a parameter here.
* **Alias** (`lean/Verif/Alias/*.lean`): which objects configurations and multi sources share with the program: `Configuration.__init__`, its
  getters, `update_mutable_settings`, `add_*_sub_components`, and the dictionary of sub components of multi sources. The values of settings
  are single objects with a content: sharing inside of nested values is not modelled. The version and check values are not modelled.
* **Variables** (`lean/Verif/Variables/*.lean`): recording the variables of a model and the check before saving. `tf.Module.variables` is by
  contract: each variable that is found in the attributes of the object, once.
* **Retry** (`lean/Verif/Retry/*.lean`): the part of the modular data handler that outlives failed calls (`modules_are_loaded`), the loops that
  create and configure its modules, and its attributes. Classes of modules, `glob` and the list of all tensors are parameters.
* **Interface** (`lean/Verif/Interface/*.lean`): `tf_reconstruct_events`, the choice of the interface and `Reconstruction.execute` with the
  interfaces of Verif.Fit. What is relied on of each minimiser is a definition of the specification.
* **Runs** (`lean/Verif/Runs/*.lean`): `save_training_settings` with the directories of the runs, their configurations and components, which may
  fail to be saved. A component is saved in one step.
* **Endless** (`lean/Verif/Endless/*.lean`): `get_batch_generator` with `pick_random_files_forever=True`: loaders with their sequence of draws,
  loaders that die, the aggregator, the consumer and the two queues. Files do not change during a run; an event is an abstract value.
* **Generator/Broken** (`lean/Verif/Generator/Broken.lean`): the finite run with a file whose loading raises; **Generator/Ends**: the measure
  for the end of all schedules of a finite run.
* **Component/Resave, Accept**: histories of saves and loads of components (C136), and exactly which replacements `load` accepts (C09).
* **Manager** (`lean/Verif/Manager/*.lean`): `_check_sub_component_compatibility`, `_update_sub_components` and `_load` of `BaseModelManager`, around
  the model of `load`. Loading the weights of models is C27-C28 and C117.
* **Loss/BatchSpec, BatchProps**: an event of a batch on its own (C138).
* **Batch** (`lean/Verif/Batch/*.lean`): `get_tensors` of the cascade model and of the noise model for whole batches: what is gathered with the ids of
  pulses and windows, the accumulation of windows per DOM, and the assertions over the batch. The network is a function of the parameters of one event.
* **Loss/FileSpec, FileProps and Batch/FileProps, FileMultiProps**: the tensors of the pulse module as the batch of the loss (C140). Batch/MultiSpec, MultiProps:
  multi sources on batches, with the model of Verif/Sources on columns of parameters (C139).
* **Batch/ShiftSpec, ShiftProps, ShiftFileProps and Pulses/ShiftSpec, ShiftProps**: another origin of time (C141); no new model code.
* **Loss/MergeSpec, MergeProps and Batch/MergeProps**: other divisions of charge into pulses (C142); no new model code.
* **Batch/DirectionProps, Sources/ExchangeProps**: C79 at the level of the loss; C32 for exchanged parameters.
* **Batch/FitSpec, FitProps**: the best parameters of measured events (C143); joins the models of Batch, Loss and Fit, no new model code.
* **Batch/FileFitSpec, FileFitProps**: the best parameters of the events of a file (C144); no new model code.
* **Training/ScheduleModel**: `MultiLearningRateScheduler.__init__` with its settings, `get_config` (learning_rate.py:10-59, 90-95) and the keyword arguments of the optimizer (manager/base.py:683-702). Training/ScheduleSpec, ScheduleProps: C145.

## Disagreements between the code and the properties

Each one is proved as a `..._violated` theorem on the model.

* C02: `update_mutable_settings` with an unknown key writes the keys before it and
  then raises; the merged view is not refreshed.
* C03: `is_compatible` is not symmetric, because only the mutable names of the
  first configuration count.
* C06: an empty list or dictionary argument counts as "all components" and may be
  dropped; a component name used by two arguments silently replaces the first.
* C07: sub component names are passed through `os.path.splitext`, so names that
  differ only after the last dot share a directory.
* C63: `load` uses `self.logger`, which does not exist, when the versions differ.
* C11: an extra spec named `type` or `specs` does not survive
  `serialize`/`deserialize`.
* C14: in tensorflow, a log mask that is not all true makes `inverse_transform` clip
  the exponent to [-60, 60]; with an all-true mask or numpy it does not.
* C16: joining events without any row returns Python lists, which
  `batch_to_event_structure` rejects with a TypeError.
* C17: `_filter_data` raises a TypeError for a tensor that does not exist; vector
  tensors that lose all rows become Python lists.
* C19 needs that a tensor is missing in all files or in none (it holds for one configured
  handler). Otherwise `exists` hides the data of all files of a pass.
* C20: a loader that finds no file counts it as processed, so with two or more jobs the flag
  `processed_all_files` can be set while another loader still holds data: the file is lost.
* C20: the incomplete last batch is put on the queue after `data_left_in_queue` is False, so
  the consumer can stop without it.
* C20: the aggregator can wait for data before the last file is counted and then waits forever;
  the consumer can wait for a batch after the aggregator has stopped.
* C20: `num_add_files` not smaller than the number of files, or no files at all: nothing is
  ever delivered and the consumer never stops.
* **C21**: `get_event_filter_mask_from_frame` looks up `key` instead of `column` (general_filter.py:187-190), so named
  columns raise (`C21_named_column_violated`). In an hdf file a vector without the wanted entry in some events
  gives fewer values than events: an error, or, with a single value, broadcasting to all events
  (`C21_missing_entry_violated`).
* **C22**: `discard_pulses_from_excluded_doms` removes pulses from `x_pulses` only; DOM charge and time window still
  contain them (`C22_discarded_charge_violated`). Pulses with dom > 60 leave an uninitialised row in `x_pulses`
  (`C22_skipped_pulse_violated`). A frame without pulses raises (`C22_no_pulses_violated`).
* **C23**: holds for all rows that are not skipped.
* **C24**: `f.close()` is in a `finally` inside the loop over the seeds (seed_loader.py:179-180), so a second seed
  is never loaded (`C24_several_seeds_violated`). Defaults take their length from the previous parameter, so the
  first parameter cannot have one (`C24_first_default_violated`).
* **C26**: the flags of snowstorm cascades do not count `additional_labels` (`C26_additional_labels_violated`).
  The documented `trafo_log=None` raises (`C26_no_log_violated`).
* **C27**: `l[:-0]` is empty, so `max_keep=0` keeps every checkpoint (`C27_zero_limit_violated`).
* **C28**: files are removed and written before the bookkeeping file. A crash in between makes every later save
  raise an IOError (`C28_later_save_violated`), can leave listed checkpoints without files
  (`C28_listed_violated`), and a crash while the bookkeeping file is open makes the directory unusable
  (`C28_torn_violated`).
* **C29, C56**: the loop passes the index of the iteration as the number of training steps, so one step is missing
  in each run (`C29_training_violated`, `C56_num_steps_violated`); no iterations raise (`C56_no_iterations_violated`).
* **C50**: `sample_from_negative_binomial` adds 1e-6 to the excess of the variance over the mean, so the mean of the
  samples is `mu * d / (d + 1e-6)` with `d = alpha * mu²`: always below `mu`, half of it at `mu = 0.001, alpha = 1`
  (`C50_sampling_violated`). DOMs with small expected charge are sampled far too rarely.
* **C31**: prefixed parameter names can collide (`C31_names_can_collide`).
* **C32**: the concrete functions are closures over the loop variable `base_source` (multi_source/base.py:320-329), so
  with several bases all sources are evaluated with the base visited last (`C32_own_base_violated`). The pdf is
  divided by `charge + 1e-6`, so its mass is below one (`C32_mass_violated`).
* **C64**: `parameters[:, -0:]` is the whole row, so tracks without snowstorm parameters raise
  (`C64_no_snowstorm_violated`).
* **C33**: with the asymmetric Gaussian the variance can be below the mean (`C33_variance_violated`).
* **C34**: `1 - e + 1e-3` instead of `1 - e` (`C34_charge_violated`, `C34_mass_violated`); components are renormalised
  one by one (cascade/default.py:668-673), so relative weights change and the result is not the conditional density
  (`C34_conditional_violated`); cascades give a density per microsecond, noise one per nanosecond
  (`C34_unit_violated`).
* **C35**: with sorting, the normalization terms of the extended likelihood replace the likelihood (loss/default.py:344,
  `C35_extended_violated`); those of the charge density loss have a shape that does not fit (loss/default.py:583,
  `C35_shapes_violated`).
* **C37**: the normalized charge loss normalises with predictions of excluded DOMs (`C37_normalized_violated`); the
  normalization term of the charge density loss counts measured charges of excluded DOMs (`C37_charge_pdf_violated`).
* **C38**: the number of Fourier modes is off by one, so any configuration with modes raises (loss/snowstorm.py:255,
  `C38_modes_violated`); `loss_term.shape > 1` raises for sorted terms (loss/snowstorm.py:279, `C38_sorted_violated`);
  a margin makes the penalty negative (`C38_margin_violated`).
* **C39**: a seed given as a tensorflow tensor cannot be indexed by a list of flags (manager/source.py:688,
  `C39_tensor_seed_violated`); a logarithmic parameter that is not fitted is cut at `exp 60 - 1` (`C39_limit_violated`).
* **C43**: `min_results` is overwritten after the loop, so the last reconstruction is always selected
  (modules/reconstruction.py:344, `C43_violated`).
* **C46**: `best_idx` is 0 until the first iteration and is not updated after the last one, so the reported point may be
  worse than a stored one (spherical_opt.py:378, 435, 628, `C46_violated_start`, `C46_violated_last`).
* **C51**: the vector is not normalised before the tangent is added (angles.py:207, `C51_violated_length`); negative angles
  of -90 degrees or less are accepted (angles.py:191, `C51_violated_negative`).
* **C69**: `cstd` is an array of integers (spherical_opt.py:303, `C69_violated`); `sstd[i]` uses an unknown name
  (spherical_opt.py:427, `C69_ignored_violated`).
* **C52**: one scheduler and no boundaries pass the check in the constructor, but `boundaries[0]` raises on every call
  (learning_rate.py:41, 71, `C52_violated_single`); the lambdas of the loop bind late if the function is not traced by
  AutoGraph (learning_rate.py:83-86, `C52_violated_late`).
* **C53**: keys set by the code, such as `git_sha`, are not checked for duplicates (setup_manager.py:107-126,
  `C53_violated_added`).
* **C54**: `models_10000` is sorted before `models_9999` (manager/base.py:47, `C54_violated_order`).
* **C55**: `tf.is_nan` does not exist in TensorFlow 2 (manager/base.py:584, `C55_removal_refused`); where it exists the
  gradients that are `None` are dropped from the list and the others move to other variables (`C55_violated`).
* **C71**: the coefficients are compared with zero and not multiplied (manager/base.py:451-455, `C71_violated`).
* **C72**: forward references to settings with placeholders (setup_manager.py:147-149, `C72_violated`).
* **C57**: `nan` lengths (the default of `I3Particle`) make every distance comparison false, so such particles are simulated
  however far away (simulation.py:436-439, `C57_violated_nan`).
* **C58**: `self.param_dtype` is only set in code that is commented out, so the conversion raises `AttributeError`
  (simulation.py:155, 415, `C58_violated`); defaults given as strings use the undefined name `frame` (simulation.py:395-396,
  `C58_violated_key`).
* **C73**: the batch of a sampled event keeps `x_dom_charge` of the data (fit_quality.py:321-324, `C73_violated`).
* **C61**: the keys of the covariance matrix join the names of two parameters with an underscore, so different pairs can share
  a key and one entry is lost (reconstruction.py:477-491, `C61_violated`, `C61_violated_log`).
* **C74**: parameters named like one of the module's own entries (`loss_reco`, ...) are replaced without a message
  (reconstruction.py:357-363, `C74_violated`); mapping only one of zenith and azimuth raises `KeyError`
  (reconstruction.py:375-379, `C74_half_direction`).
* **C77**: a track segment whose energy is not transformed to its logarithm uses variables that were never assigned
  (stochastic_segment.py:411-419, `C77_violated_log`); the systematics model stacks an empty list if there is no parameter besides
  the efficiency (systematic.py:335-343, `C77_violated_systematics`).
* **C78**: a cascade at a DOM divides zero by zero (default.py:214-218, `C78_violated_vertex`); the check of the track length in
  training compares with -1e3 where the one of the energy has -1e-3 (stochastic_segment.py:266-271, `C78_violated_negative`), and
  without training a length of -1 divides by zero (`C78_violated_minus_one`).
* **C81**: without transformed parameters `cov` is never assigned (covariance.py:142-166, `C81_violated_space`); with one parameter
  `tf.squeeze` makes the Hessian a number (source.py:470-471, `C81_violated_single`).
* **C82**: the start is not transformed (mcmc.py:164-173, the code that did it is commented out, `C82_violated_start`); rejected
  steps are removed instead of counted again (mcmc.py:192-193, `C82_violated_weights`); `len` of the nested list of step sizes is
  1 (source.py:1172, `C82_violated_steps`).
* **C83**: the degrees of freedom are the number of parameters minus two instead of two (opening_angle.py:194,
  `C83_violated_many`, `C83_violated_three`).
* **C84**: integer limits are transformed in the type of the array and lose their decimals (source.py:672-674 with trafo.py:394,
  `C84_integers_violated`); infinite limits in an array of floats become nan (source.py:676-679, `C84_infinite_violated`); limits of
  all parameters are passed for the fitted ones (`C84_fitted_violated`) and once for all events (`C84_batch_violated`).
* **C86**: `minimizer_kwargs` and `options` are mutable default arguments that keep the hessian (source.py:831-845, 910-935,
  `C86_violated`); dictionaries of users are changed (`C86_argument_violated`).
* **C87**: shgo gets rows of 2·B limits (source.py:951-954, `C87_global_batch_violated`) for all parameters
  (`C87_global_fitted_violated`); the scales of the initial points are a list of seven (source.py:814,
  `C87_spherical_fitted_violated`); the result of spherical_opt is one point (`C87_spherical_batch_violated`).
* **C89**: uncertainties and p-values are appended once per batch (source.py:1587-1637), so that no table can be made if a batch has
  more events (`C89_batch_violated`); the loss of the true parameters is that of the whole batch (source.py:1727,
  `C89_loss_violated`); names with suffixes can collide (`C89_names_violated`).
* **C90**: for a fit from another module the first seed is shown (source.py:1571-1574, marked as a hack, `C90_random_violated`); of a
  seed given as a string it is the first letter (`C90_name_violated`).
* **C91**: the name `sel_reco_random` is used for every seed (source.py:1424-1430, `C91_random_violated`).
* **C93**: settings of the Markov chains are replaced (source.py:1341-1346, `C93_mcmc_violated`); the module for scans returns
  nothing, which the tray does not expect (`C93_scans_violated`); `cascade_true` is printed before it has a value
  (source.py:1706, `C93_samples_violated`); a file name without a directory is refused by `os.makedirs('')`
  (source.py:1303-1306, `C93_directory_violated`).
* **C94**: the configurator gives the same dictionary of replacements to all managers, and `load` removes what it uses
  (utils/configurator.py:162-176); with more than one manager the data handler is the saved one of the last manager
  (`C94_ensemble_violated`). The script makes a copy for each (reconstruct_test_data.py:151-159).
* **C95**: settings for the misc module are ignored if they have no `seed_names`, or only `x_parameters`
  (utils/configurator.py:88-90, `C95_misc_violated`).
* **C96**, **C97**, **C98**: `save` and `load` remove an extension of the directory (manager/component.py:824, 902), the saving of
  weights (manager/base.py:318-328), the check for a saved manager (train_model.py:64, utils/build_components.py:194) and the export
  (export_manager.py:43, 104) do not. For a name like `m_v1.0` the training ends with an error (`C96_violated`), a manager saved
  before is replaced without a question (`C97_extension_violated`), and the export fails (`C98_extension_violated`).
* **C97**: a manager that is continued is saved in its recorded directory, not in the one it was loaded from (manager/base.py:673):
  training an exported manager replaces the manager it came from (`C97_recorded_violated`).
* **C98**: the output directory is deleted before the managers are loaded (export_manager.py:43-51); an export onto one of its own
  sources loses that manager (`C98_own_violated`).
* **C99**: the permission to rebuild is only asked for base sources (utils/build_components.py:124-127), although `build_manager`
  documents it for the model (`C99_permission_violated`).
* **C100**: tensors without inputs count only if they are the constant input (model/multi_source/base.py:700-706), so variables are
  never found, and a source is accepted as soon as one of its columns depends on the input (637-642). Nothing calls the check.
* **C101**: class strings have the name of a class without the classes around it, and no module for built-in classes
  (misc.py:55-60); `load_class` takes the name from the module (misc.py:22-28).
* **C102**: data of a replaced module stays under names the new module does not have (data/handler/modular.py:266), for example
  `label_names` when labels are switched off; the recorded class has its full name and the recorded settings have `config_data`,
  neither of which the set up accepts (269-274, 121-144, 207-208).
* **C105**: a fit of some parameters has fewer columns than the transformation expects (modules/visualization.py:149-173); the truth
  is always transformed (105-107), whatever the space of the fit; `basis_functions` is not imported (231); `execute` returns `None`
  (117), for which the tray raises TypeError (tray.py:119).
* **C107**: the fitted values are assigned to rows for all parameters (modules/fit_quality.py:346), which fails unless all or exactly
  one is fitted; the loss of the data is evaluated with the hypothesis sampled last as seed (390-395); a simulated event without hits
  makes the whole event fail (see C59).
* **C108**: generators are created once in the initializers and carried over from event to event (modules/opening_angle.py:76,
  modules/fit_quality.py:108).
* **C110**: the circularised uncertainty checks only in `execute` that all parameters are fitted (modules/opening_angle.py:191), so
  the module is configured and every event raises AssertionError; an empty list of seeds is accepted and every event raises
  (modules/reconstruction.py:344).
* **C111, C112**: vectors are not checked (data/handler/base.py:233), and types are never checked; `get_tensor_from_frame` ignores
  that a frame has no usable events (364-366) and raises a TypeError.
* **C113**: `num_events` is not updated after `select` (data/handler/base.py:759-767), so the aggregator runs over events that are gone.
* **C114**: `ModuleDataHandler` does not record `config_data` (data/handler/modular.py:220-223), so `BaseComponent.configure` raises
  whenever it is given; the dummy modules and the seed loader reject lists, which is what the handler makes of any pattern.
* **C115**: `self._get_data(file, method=.., *args)` (data/handler/modular.py:536) binds the first of `args` to `method`.
* **C117**: `save` and `load` of components remove an extension from the directory (manager/component.py:824, 902), `save_weights` and
  `load_weights` do not, so a sub component with a dot in its name has two directories; `save_training_settings` of a manager writes to
  the directory of a multi source (manager/base.py:348-357), but its sources read their own.
* **C118**: the sources are saved one after the other, each with its own numbering (model/multi_source/base.py:483-493), and nothing
  compares them when loading.
* **C119**: `_load` and `get_tensors` of multi sources need the data transformation that is optional in `_configure_derived_class`
  (model/multi_source/base.py:216, 306, 577); a base source named data_trafo is overwritten (217).
* **C120**: a file with a snowstorm table but no events is skipped as broken, since `max(index)` of an empty column raises
  (data/modules/labels/snowstorm_tracks.py:234); without the key it is accepted with no rows.
* **C121**: loss modules keep their loss function or prior in untracked data and have no `_load` that restores it (loss/default.py:87,
  loss/snowstorm.py:104-131): a loaded loss module is marked as configured, and `get_loss` raises for every batch.
* **C122**: `name=None` is the documented default of sources, but `configure(.., name=None)` raises, since the module name is recorded in
  its place and `configure` compares (model/source/base.py:183-184, manager/component.py:705). The same holds for `data_trafo=None` of multi
  sources, which is not recorded at all (model/multi_source/base.py:216, manager/component.py:700).
* **C124**: the modules without data and the seed loader accept every list of tensors in `config_data` and have other tensors
  (labels/dummy.py:57-62, misc/dummy.py:57-62, weights/dummy.py:57-62, misc/seed_loader.py:101-116).
* **C125**: `update_mutable_settings` stores the object of the caller (component.py:222), while the combined settings get a copy
  (273): a later change of the object makes `mutable_settings` and `config` differ. `dependent_sub_components` and
  `mutable_sub_components` return the internal lists (component.py:94-100): these can be changed without any check.
* **C126**: `sub_components = base_sources` and then `sub_components['data_trafo'] = ...` (multi_source/base.py:215-217) changes the
  dictionary of the caller, which is also the dictionary of sub components of the model; a second multi source from the same dictionary
  replaces the data transformation of the first. Multi sources that check the names of their base sources reject the dictionary then
  (multi_source/muon/default.py:54, multi_source/track/stochastic_track.py:55).
* **C127**: the recorded variables are kept in the untracked data of the model (model/base.py:120-128), where `tf.Module` finds them: a variable
  that is removed from the model stays in `self.variables`, and the check (290-296) never notices. When a model is loaded, its sub components
  are set already (manager/component.py:960) when `_configure` runs again (model/base.py:566), so that the variables of models among them are
  recorded twice: the unchanged model cannot be saved any more.
* **C128**: `load` never empties `_sub_components` (manager/component.py:960): sub components of a directory that could not be loaded completely
  remain when the object is loaded from another one; a manager then has models of both. `_load_modules` sets `modules_are_loaded` before the
  modules are configured (data/handler/modular.py:146) and refuses to run again (118-119): after a failure - such as that of any call with test
  data, see C114 - the handler cannot be configured any more.
* **C129**: `load` does not set `modules_are_loaded`; a failed call leaves it set without modules, or leaves modules in a handler that is not
  configured (manager/component.py:662-663 assigns before the checks).
* **C130**: with `tfp` the seed is a tensor inside of a `tf.function`, and tensors cannot be indexed with a list of flags
  (manager/source.py:1054): a TypeError unless all parameters are fitted. The loss is reshaped to one value (1061), while the minimiser takes one
  value per row of the batch. The interface to `scipy.optimize.shgo` is called "shog", and the error message names only scipy and tfp.
* **C131**: see C39: beyond `exp 60` the tensorflow function that is minimised limits logarithmic parameters, `get_reco_result_batch` with a
  numpy array does not.
* **C132**: the directory of a run is created before anything else and the list of runs is written last (model/base.py:457, 491); the number of
  the next run is taken from the list (448). A run that raised or was interrupted in between leaves a directory with that number, and every
  later training of the model raises an IOError (or a TypeError, if the list was being written) until it is removed by hand.
* **C135**: an exception in `file_loader` (an unreadable file, or `choice` of an empty list, data/handler/base.py:738, 756) ends that daemon process
  and nothing else. Nobody watches the processes: the consumer blocks in `final_batch_queue.get()` (1004) forever once all loaders are dead.

## Axioms

As printed by `#print axioms` for every theorem named in `MANIFEST.json` (without the prefix `Verif.`).

### No axioms

* Component: `C02_all_or_nothing_violated`
* Retry: `C129_new`
* Labels: `C26_tracks_negative`
* Reco: `C43_empty`

### `propext`

* Access: `C111_nothing`, `C114_dummy_violated`
* Equality: `C123_spelling`
* Endless: `C133_appends`, `C134_shuffle_needed`
* Handler: `C16_no_rows_violated`, `C17_missing_tensor_violated`, `C18_problem`
* Filter: `C21_no_constraints`
* Reco: `C40_sum`, `C40_error`
* Training: `C52_violated_single`, `C55_violated`, `C71_switch`, `C71_no_variables`, `C71_ensemble`, `C71_error`
* Sim: `C57_types`, `C58_violated`, `C58_frame_violated`, `C58_violated_key`
* TestData: `C93_directory_violated`

### `Quot.sound`, `propext`

* Component: `C01_merged_view`, `C02_update_mutable_partial`, `C04_bookkeeping_invariant`, `C04_add_sub_components`, `C04_replace_sub_components`, `C04_wrong_name_rejected`, `C04_add_names`
* Build: `C100_eager_violated`, `C99_model`, `C99_refused`, `C99_manager`, `C99_permission_violated`, `C99_loss`
* Tray: `C105_tray_violated`
* Access: `C111_accepted_partial`, `C111_vector_violated`, `C112_same`, `C112_filtered_violated`, `C114_accepted`, `C116_killed`, `C116_started`, `C116_queues`
* Nested: `C117_settings_violated`, `C119_trafo_partial`, `C119_none_violated`, `C119_replaced_violated`
* Frames: `C120_missing`, `C120_segments`
* Runs: `C132_recorded`, `C132_kept`, `C132_later_partial`, `C132_violated`, `C132_exception`
* Endless: `C133_batches`, `C133_progress`, `C135_no_files_violated`
* Generator: `C135_finite_violated`, `C20_hang_partial`, `C20_some_schedule_delivers_all`, `C20_two_jobs_lose_file_violated`, `C20_leftover_lost_violated`, `C20_aggregator_hangs_violated`, `C20_consumer_hangs_violated`, `C20_no_files_busy_violated`
* Training: `C145_optimizer`, `C52_refused`, `C52_unordered`, `C55_removal_refused`
* Handler: `C18_result`, `C18_counts`, `C19_exactly_once`
* Pulses: `C22_skipped_pulse_violated`, `C22_no_pulses_violated`, `C22_missing_time_exclusions`, `C22_charges_of_pulses`
* Seeds: `C24_hdf_partial`, `C24_hdf_skips`, `C24_several_seeds_violated`, `C24_first_default_violated`
* Labels: `C26_segments`, `C26_cascades_partial`, `C26_additional_labels_violated`, `C26_no_log_violated`
* Checkpoint: `C27_same_limit`, `C27_zero_limit_violated`, `C27_negative_limit_violated`, `C28_later_save_violated`, `C28_listed_violated`, `C56_num_steps_violated`, `C56_no_iterations_violated`, `C56_nan`, `C56_nan_unnoticed`
* Sources: `C32_evaluates_partial`
* Reco: `C42_add`, `C42_get`, `C42_unique`, `C43_select_partial`
* Optim: `C46_start`, `C46_violated_start`, `C46_violated_last`, `C69_cartesian_partial`, `C69_directions`, `C69_none`
* Sim: `C58_unknown`
* TestData: `C93_settings_partial`, `C93_directory_partial`, `C93_directory_root`

### `Classical.choice`, `Quot.sound`, `propext`

* Component: `C03_is_compatible_decides`, `C03_is_compatible_refl`, `C03_is_compatible_ignores_mutable`, `C03_is_compatible_equivalence_partial`, `C03_symmetric_violated`, `C05_configured_is_final`, `C05_step`, `C05_at_most_one_success`, `C06_arguments_recorded_partial`, `C06_empty_container_violated`, `C06_name_used_twice_violated`, `C07_save_load_round_trip`, `C07_save_to_empty_location`, `C07_configure_is_saveable`, `C07_dotted_names_violated`, `C08_existing_files_untouched`, `C08_own_file_exists`, `C08_only_below_location`, `C09_load_with_replacements`, `C09_unknown_name_raises`, `C09_bad_replacement_raises`, `C09_caller_dictionary_emptied`, `C09_rest_as_saved`, `C09_accepts_exactly`, `C136_saveable`, `C136_round_trip`, `C136_save_succeeds`, `C136_class`, `C63_other_version_violated`
* Tensor: `C10_order_independent`, `C10_sorted_and_complete`, `C10_index_and_name`, `C10_copy`, `C11_round_trip_partial`, `C11_spec_named_type_violated`, `C12_constructor`, `C12_keywords`
* Build: `C100_check_partial`, `C100_only_violated`, `C100_column_violated`, `C101_load_partial`, `C101_distinct_partial`, `C101_nested_violated`, `C101_same_violated`, `C101_builtin_violated`
* Modules: `C102_data_partial`, `C102_tensors`, `C102_recorded_partial`, `C102_unknown`, `C102_stale_violated`, `C102_settings_violated`, `C103_write`
* Tray: `C104_alone`, `C104_once`, `C104_reconstruction`, `C104_circular`, `C104_others`, `C105_scan_partial`, `C105_kept`, `C105_fixed_violated`, `C105_space_violated`, `C105_covariance_violated`
* Quality: `C106_points`, `C106_all`, `C106_range`, `C107_samples_partial`, `C107_data_partial`, `C107_subset_violated`, `C107_data_violated`, `C107_no_hit_violated`, `C108_position_partial`, `C108_again_violated`, `C108_goodness_violated`
* Ic3: `C109_one_fit`, `C109_complete`, `C109_entries`, `C110_accepted`, `C110_tray`, `C110_single`, `C110_directories`, `C110_fixed_violated`, `C110_empty_violated`
* Access: `C111_frame_partial`, `C112_frame_partial`, `C112_tensors`, `C112_violated`, `C113_same_number_partial`, `C113_violated`, `C114_module`, `C114_config_data_violated`, `C115_keywords_partial`, `C115_positional_violated`
* Nested: `C117_one_model_partial`, `C117_load_partial`, `C117_kept_partial`, `C117_settings_partial`, `C117_extension_violated`, `C118_crash_partial`, `C118_mixed_violated`, `C118_numbers_violated`, `C118_repair_partial`
* Frames: `C120_frame`, `C120_file`, `C120_same_partial`, `C120_empty_violated`, `C120_muons`
* Reload: `C121_sources_partial`, `C121_loss_violated`, `C122_source_partial`, `C122_multi_partial`, `C122_name_violated`, `C122_trafo_violated`
* Equality: `C123_tensor`, `C123_list`, `C123_equivalence`, `C124_checked_partial`, `C124_unchecked_partial`, `C124_unchecked_violated`
* Alias: `C125_new`, `C125_isolated`, `C125_constant`, `C125_update`, `C125_mutable_partial`, `C125_lists_partial`, `C125_mutable_violated`, `C125_lists_violated`, `C126_own_partial`, `C126_others_partial`, `C126_argument_violated`, `C126_shared_violated`
* Variables: `C127_new_variable_partial`, `C127_loaded_partial`, `C127_removed_violated`, `C127_loaded_violated`, `C127_twice_violated`
* Retry: `C128_configure`, `C128_load_partial`, `C128_handler_partial`, `C128_flag`, `C128_handler_load_partial`, `C128_stale_violated`, `C128_handler_violated`, `C128_handler_final`, `C129_configured_partial`, `C129_loaded_violated`, `C129_failed_violated`, `C129_no_modules_violated`
* Trafo: `C13_fitted_values`, `C13_deviation_positive`, `C14_inverse_of_transform_partial`, `C14_transform_of_inverse_partial`, `C14_transform_value`, `C14_tensorflow_clip_violated`, `C14_rejected`, `C15_jacobian`, `C15_shape`, `C15_outer_product`, `C15_preserves`
* Interface: `C130_choice`, `C130_tfp_partial`, `C130_fitted_violated`, `C130_batch_violated`, `C131_losses`, `C131_scipy_partial`, `C131_tfp`, `C131_shog_partial`, `C131_spherical_partial`, `C131_limit_violated`
* Runs: `C132_ready`
* Endless: `C133_content`, `C133_forever`, `C134_one_job`, `C134_same`, `C134_draws`, `C134_jobs_needed`, `C135_reported_violated`, `C135_dries_up_violated`, `C135_survivor_partial`
* Manager: `C137_consistent`, `C137_only_handler`, `C137_saved_models`, `C137_reload`, `C137_history`, `C137_refused`
* Loss: `C138_sum`, `C138_normalized`, `C138_sorted`, `C138_prior`, `C138_default`, `C138_multi`, `C140_hdf`, `C140_frame`, `C142_loss`, `C142_table`, `C35_sum_partial`, `C35_both`, `C35_extended_violated`, `C35_shapes_violated`, `C36_scalar`, `C36_terms`, `C36_sorted`, `C36_errors`, `C36_order`, `C36_consistent`, `C37_excluded_partial`, `C37_normalized_violated`, `C37_charge_pdf_violated`, `C38_penalty`, `C38_total_partial`, `C38_margin_violated`, `C38_modes_violated`, `C38_sorted_violated`, `C67_extended`, `C67_best_charge`, `C67_time`, `C67_charge_density`, `C67_quantiles`, `C67_negative_binomial`, `C67_variance`, `C67_negative_binomial_event`, `C67_dom_and_event`, `C67_normalized`, `C67_normalized_share`
* Batch: `C139_event`, `C139_other_events`, `C139_per_dom`, `C139_succeeds`, `C139_loss`, `C139_noise`, `C139_noise_per_dom`, `C139_order`, `C139_loss_order`, `C139_multi`, `C139_independent`, `C139_cascade_base`, `C139_noise_base`, `C139_multi_loss`, `C140_cascade`, `C140_sources`, `C141_cascade`, `C141_loss`, `C141_cascade_parameters`, `C141_source_later`, `C141_quantiles`, `C141_noise`, `C141_multi`, `C141_independent`, `C141_cascade_base`, `C141_noise_base`, `C141_multi_loss`, `C141_file`, `C142_cascade`, `C143_events`, `C143_other_events`, `C143_later`, `C143_direction`, `C143_merged`, `C143_reconstruction`, `C143_computable`, `C144_file`, `C144_other_files`, `C144_order`, `C79_loss`
* Pulses: `C141_hdf`, `C22_hdf_partial`, `C22_frame_partial`, `C22_discarded_charge_violated`, `C22_skipped_exclusion_violated`, `C22_hdf_skipped_partial`, `C23_hdf_partial`, `C23_frame`
* Training: `C145_create`, `C145_config`, `C145_rate`, `C52_schedule_partial`, `C52_violated_late`, `C54_configured`, `C54_homogeneous`, `C54_order_partial`, `C54_violated_order`, `C55_own_gradient_partial`, `C55_missing`, `C55_removal_partial`, `C71_weighted_partial`, `C71_violated`
* Handler: `C16_split`, `C16_split_rejects`, `C16_join_partial`, `C17_filter_partial`, `C17_rejects`, `C18_filtered`, `C19_batches`, `C19_load_order`
* Generator: `C20_no_duplicates_partial`, `C20_batch_sizes`, `C20_one_job_partial`, `C20_one_job_aggregated`, `C20_too_many_add_files_violated`, `C20_no_files_violated`, `C20_ends`, `C20_end_state`
* Filter: `C21_hdf_conjunction`, `C21_unknown_operator`, `C21_frame_partial`, `C21_paths_agree_partial`, `C21_named_column_violated`, `C21_missing_entry_violated`, `C21_lengths`
* Seeds: `C24_frame`, `C24_frame_skips`
* Labels: `C25_tracks`, `C25_cascades`, `C25_length_nonneg`, `C25_direction_unit`, `C26_loaded_columns`, `C26_tracks`, `C26_names_distinct`, `C26_muons`
* Checkpoint: `C27_kept_partial`, `C27_book_partial`, `C27_save_succeeds`, `C28_later_save_partial`, `C28_survivors_partial`, `C28_latest_partial`, `C28_torn_violated`, `C29_recorded_partial`, `C29_total_partial`, `C29_training_partial`, `C29_training_violated`, `C56_schedule_partial`, `C56_final`, `C56_nan_stops`
* Sources: `C30_inverse`, `C30_indexing`, `C31_partition`, `C31_order`, `C31_names_can_collide`, `C32_last_base_partial`, `C32_superposition_partial`, `C32_order`, `C32_own_base_violated`, `C32_mass_partial`, `C32_mass_violated`, `C32_exchange_partial`
* Cascade: `C33_succeeds`, `C33_mixture`, `C33_reachable`, `C33_reachable_charge`, `C33_sorted`, `C33_charge_partial`, `C33_variance_violated`, `C33_quantiles`, `C33_quantiles_shift`, `C34_exclusion_partial`, `C34_conditional_partial`, `C34_charge_violated`, `C34_mass_violated`, `C34_unit_violated`, `C34_conditional_violated`, `C34_noise_partial`, `C66_scaling`
* Reco: `C39_hypothesis`, `C39_hypothesis_transformed_partial`, `C39_limit_violated`, `C39_start_partial`, `C39_tensor_seed_violated`, `C39_wrong_length`, `C39_reported_partial`, `C39_reported_loss`, `C40_terms`, `C40_more_terms`, `C41_add`, `C41_names`, `C41_default_names`, `C41_default_collides`, `C41_execute`, `C43_violated`, `C44_halves`, `C44_brackets`, `C44_monotone`, `C44_bound`
* Optim: `C45_maximal`, `C45_given`, `C45_lowest_for_highest`, `C45_more_new`, `C46_iteration`, `C46_run_partial`, `C46_refused`, `C68_flag`, `C68_calls`, `C68_skip`, `C69_cartesian_whole`, `C69_violated`, `C69_ignored_violated`
* Sphere: `C47_from_angles`, `C47_from_coordinates`, `C47_reflect`, `C47_distance`, `C47_involution`, `C47_isometry`, `C47_centroid`, `C47_midpoint`, `C51_dir_partial`, `C51_refused`, `C51_angles`, `C51_violated_length`, `C51_violated_negative`, `C70_angle`, `C70_deviation`, `C70_properties`
* Dist: `C48_asymmetric_gaussian`, `C48_asymmetric_gaussian_shape`, `C48_gaussian`, `C49_rayleigh`, `C50_negative_binomial`, `C50_without_normalisation`, `C50_sampling_partial`, `C50_sampling_violated`
* Setup: `C53_refused`, `C53_duplicate`, `C53_merged_partial`, `C53_added`, `C53_violated_added`, `C53_copy_equal`, `C53_copy_safe`, `C72_expanded`, `C72_simple_partial`, `C72_unknown`, `C72_violated`
* Sim: `C57_sources_partial`, `C57_rejected`, `C57_no_tracks`, `C57_violated_nan`, `C58_configured`, `C58_filled_partial`
* Sampling: `C59_component`, `C59_weight`, `C59_valid`, `C59_simulation`, `C59_event`, `C59_no_hit`, `C60_counts`, `C60_range`, `C60_antitone`, `C60_empty`, `C60_event`, `C73_own_data_partial`, `C73_violated`
* Output: `C61_written_partial`, `C61_exact`, `C61_separated`, `C61_plain`, `C61_violated`, `C61_violated_log`, `C61_logs`, `C74_written_partial`, `C74_violated`, `C74_half_direction`, `C75_kept`, `C75_refused`, `C76_fit`, `C76_unknown`
* Inputs: `C62_inside`, `C62_monotone`, `C62_near`, `C62_bounded`, `C62_additive`, `C62_parts`, `C62_total`, `C77_default`, `C77_segment`, `C77_second`, `C77_systematics_partial`, `C77_violated_log`, `C77_violated_systematics`, `C78_default_partial`, `C78_systematics_partial`, `C78_segment_partial`, `C78_checked`, `C78_second`, `C78_violated_vertex`, `C78_violated_minus_one`, `C78_violated_negative`, `C79_default_sees`, `C79_default_only`, `C79_segment_sees`, `C79_segment_only`, `C79_systematics`, `C80_nearest`, `C80_on_track`, `C80_displacement`, `C80_cherenkov`, `C80_energies`, `C80_opening`, `C80_scale`
* Sources.Track: `C64_muon`, `C64_track_partial`, `C64_segment_end`, `C64_no_snowstorm_violated`
* Uncert: `C81_covariance_partial`, `C81_positive`, `C81_singular`, `C81_refused`, `C81_violated_space`, `C81_violated_single`, `C82_pairs`, `C82_samples`, `C82_start_partial`, `C82_runs`, `C82_steps`, `C82_violated_start`, `C82_violated_weights`, `C82_violated_steps`, `C83_four_partial`, `C83_violated_many`, `C83_violated_three`, `C83_range`, `C83_angles`
* Fit: `C84_limits_partial`, `C84_result_partial`, `C84_plain`, `C84_flags`, `C84_integers`, `C84_integers_violated`, `C84_infinite_violated`, `C84_fitted_violated`, `C84_batch_violated`, `C85_separate`, `C85_rows`, `C86_history`, `C86_independent_partial`, `C86_violated`, `C86_argument_violated`, `C87_global_partial`, `C87_global_space`, `C87_global_batch_violated`, `C87_global_fitted_violated`, `C87_spherical_partial`, `C87_spherical_fitted_violated`, `C87_spherical_batch_violated`, `C87_points`, `C88_within`, `C88_columns`
* TestData: `C89_table_partial`, `C89_batch_violated`, `C89_loss_violated`, `C89_names_violated`, `C90_seed_partial`, `C90_random_violated`, `C90_name_violated`, `C91_tray`, `C91_seeds`, `C91_random_partial`, `C91_random_violated`, `C92_flags`, `C92_unknown`, `C93_mcmc_violated`, `C93_scans_violated`, `C93_samples_violated`
* Deploy: `C94_script`, `C94_configurator_partial`, `C94_ensemble_violated`, `C95_data`, `C95_labels`, `C95_misc_partial`, `C95_misc_violated`, `C95_script`, `C96_scratch_partial`, `C96_continue_partial`, `C96_runs_partial`, `C96_violated`, `C97_refused_partial`, `C97_outside_partial`, `C97_trafo`, `C97_extension_violated`, `C97_recorded_violated`, `C98_export_partial`, `C98_succeeds_partial`, `C98_extension_violated`, `C98_own_violated`
