{"id": "C01", "title": "A configuration's merged view is exactly immutable plus mutable settings", "statement": "Constructing a Configuration with immutable `settings` and `mutable_settings` raises ValueError exactly when the two share a key; otherwise `config` contains every immutable and every mutable key with its value and nothing else.", "quantifier": "all settings dictionaries and all mutable settings dictionaries", "why_tests_cant": "Settings dictionaries are unbounded; a silent override only shows for a particular clash of keys.", "anchors": ["egenerator/manager/component.py:Configuration.__init__", "egenerator/manager/component.py:Configuration._combine_settings"]}
{"id": "C02", "title": "Updating mutable settings touches only known mutable keys, all or nothing", "statement": "`update_mutable_settings(new)` succeeds exactly when every key of `new` is an existing mutable key; on success exactly those keys take the new values in both `mutable_settings` and `config` and the immutable settings are untouched; on failure nothing has changed.", "quantifier": "all configurations and all update dictionaries (any order of keys)", "why_tests_cant": "The failure branch depends on the position of the first unknown key in an arbitrary dictionary.", "anchors": ["egenerator/manager/component.py:Configuration.update_mutable_settings"]}
{"id": "C03", "title": "Compatibility of configurations is decided by what cannot change", "statement": "`a.is_compatible(b)` is true exactly when class string, settings and check values agree, both have the same sub component names, and every sub component configuration of `a` is compatible with that of `b` or is named in `a`'s mutable sub components. In particular it is reflexive, ignores mutable settings, and is symmetric.", "quantifier": "all pairs of configuration trees of any depth and width", "why_tests_cant": "Configurations are trees of unbounded depth; the tolerance for mutable sub components interacts with every level.", "anchors": ["egenerator/manager/component.py:Configuration.is_compatible"]}
{"id": "C04", "title": "Sub component bookkeeping stays consistent", "statement": "After any sequence of successful calls adding dependent, mutable or new sub components and replacing existing ones, every dependent and every mutable name refers to a registered sub component configuration, names are registered at most once, adding an existing name or replacing an unknown one is rejected and leaves the configuration usable.", "quantifier": "all sequences of bookkeeping calls on a Configuration", "why_tests_cant": "The invariant is about call histories of any length.", "anchors": ["egenerator/manager/component.py:Configuration.add_sub_components", "egenerator/manager/component.py:Configuration.replace_sub_components", "egenerator/manager/component.py:Configuration.add_dependent_sub_components", "egenerator/manager/component.py:Configuration.add_mutable_sub_components"]}
{"id": "C05", "title": "A component is configured at most once", "statement": "For every history of configure/load/save calls on a component, once a configure or load has succeeded every later configure or load raises and leaves the component's configuration, data and sub components as they were; save on an unconfigured component raises; a call that raises never turns an unconfigured component into a configured one.", "quantifier": "all histories of configure, load and save calls, including failing ones", "why_tests_cant": "Histories are unbounded and interleave success and failure.", "anchors": ["egenerator/manager/component.py:BaseComponent.configure", "egenerator/manager/component.py:BaseComponent.load", "egenerator/manager/component.py:BaseComponent.save"]}
{"id": "C06", "title": "configure never drops an argument", "statement": "If `configure(**kwargs)` succeeds, every component passed directly, inside a dictionary or inside a list is recorded (list entries as name_0000, name_0001, ...) with its own configuration, and every other argument appears in the resulting `config` with an equal value; a forgotten or altered argument, an unconfigured component or a name used twice makes configure raise.", "quantifier": "all argument dictionaries and all behaviours of the derived class hook", "why_tests_cant": "The hook is arbitrary derived-class code; only a proof ranges over all hooks and all argument dictionaries.", "anchors": ["egenerator/manager/component.py:BaseComponent.configure"]}
{"id": "C07", "title": "Saving a component and loading it back restores it", "statement": "For every configured component tree, saving it to an empty location and loading that location into a fresh instance of the same class yields the same configuration (up to the recorded version), data and dependent sub components, recursively.", "quantifier": "all component trees of any depth and width", "why_tests_cant": "Component trees are unbounded; a save/load mismatch in any nested component shows only on trees that exercise it.", "anchors": ["egenerator/manager/component.py:BaseComponent.save", "egenerator/manager/component.py:BaseComponent.load"]}
{"id": "C08", "title": "save without overwrite never alters an existing file", "statement": "With overwrite=False, at every point during `save` - including any crash or exception part way through the component tree - every file that existed beforehand still has its old content; if the component's own configuration or data file exists already, nothing is written at all.", "quantifier": "all file systems, component trees and crash points", "why_tests_cant": "Needs every prefix of the write sequence over arbitrary pre-existing files.", "anchors": ["egenerator/manager/component.py:BaseComponent.save"]}
{"id": "C09", "title": "Loading with replacements accepts only compatible or mutable ones", "statement": "When load is given modified sub components, each one that is used was configured and is compatible with the saved one unless its name is mutable; every given name that is not a sub component makes load raise; sub components without replacement are the saved ones.", "quantifier": "all saved component trees and all (nested) replacement dictionaries", "why_tests_cant": "Nesting depth of the tree and of the replacement dictionary is unbounded.", "anchors": ["egenerator/manager/component.py:BaseComponent.load"]}
{"id": "C10", "title": "Tensor lists do not depend on the order of construction", "statement": "Any two DataTensorLists built from the same tensors in any order are equal, hold the tensors sorted by name, reject duplicate names, and `get_index`/`get_name` are mutually inverse and consistent with position.", "quantifier": "all finite lists of tensors and all permutations of them", "why_tests_cant": "Permutations of arbitrary length lists.", "anchors": ["egenerator/data/tensor.py:DataTensorList.__init__", "egenerator/data/tensor.py:DataTensorList.get_index", "egenerator/data/tensor.py:DataTensorList.get_name"]}
{"id": "C100", "title": "The check of source parameters accepts exactly the right ones", "statement": "The check of a multi source accepts exactly if each source gets as many parameters as its base has, and every parameter is based on the parameters of the multi source and nothing else.", "quantifier": "all multi sources and computation graphs", "why_tests_cant": "Ranges over all computation graphs.", "anchors": ["egenerator/model/multi_source/base.py:MultiSource.check_source_parameter_creation", "egenerator/model/multi_source/base.py:MultiSource._find_top_nodes"]}
{"id": "C101", "title": "Class strings lead to their classes", "statement": "The class of every object can be loaded from its class string, and different classes have different class strings.", "quantifier": "all classes and modules", "why_tests_cant": "Ranges over all module paths and class names.", "anchors": ["egenerator/misc.py:load_class", "egenerator/misc.py:get_full_class_string_of_object"]}
{"id": "C102", "title": "A data handler with replaced modules equals one set up with them", "statement": "After modules of a saved data handler are replaced, its data, tensors and recorded settings are those of a data handler that is set up with the new modules.", "quantifier": "all modules, data of modules and sets of replaced modules", "why_tests_cant": "Any combination of modules with any data.", "anchors": ["egenerator/data/handler/modular.py:ModuleDataHandler._update_sub_components", "egenerator/data/handler/modular.py:ModuleDataHandler._configure_derived_class"]}
{"id": "C103", "title": "Written data goes to the module it belongs to", "statement": "When data is written to a frame, every module is given the values of exactly its own tensors, in the order of its own tensor list.", "quantifier": "all tensor lists of the modules and all values", "why_tests_cant": "Any number of tensors with any names; the order of the combined list mixes the modules.", "anchors": ["egenerator/data/handler/modular.py:ModuleDataHandler._write_data_to_frame"]}
{"id": "C104", "title": "Modules of a tray get the functions they ask for", "statement": "Every module of a reconstruction tray works with the loss, gradient and other functions it would have if it were the only module, or raises the same exception, whatever modules were added before, and no function is created twice.", "quantifier": "all sequences of modules with any settings", "why_tests_cant": "Functions are shared through a cache, so the outcome depends on the whole history of modules.", "anchors": ["egenerator/manager/reconstruction/modules/reconstruction.py:Reconstruction.__init__", "egenerator/manager/reconstruction/modules/opening_angle.py:CircularizedAngularUncertainty.__init__", "egenerator/manager/reconstruction/modules/fit_quality.py:GoodnessOfFit.__init__", "egenerator/manager/reconstruction/tray.py:ReconstructionTray.add_module"]}
{"id": "C105", "title": "Likelihood scans show the loss around truth and reconstruction", "statement": "For every event and parameter the scan stores a figure of the loss in dependence of this parameter, with the other parameters of the true event and of the reconstructed one; figures of earlier events are kept.", "quantifier": "all events, losses, transformations and fitted parameters", "why_tests_cant": "Any loss and transformation, any sequence of events.", "anchors": ["egenerator/manager/reconstruction/modules/visualization.py:Visualize1DLikelihoodScan.execute", "egenerator/manager/reconstruction/modules/visualization.py:Visualize1DLikelihoodScan.make_1d_llh_scans"]}
{"id": "C106", "title": "The angular uncertainty is determined from fits around the fitted direction", "statement": "The circularised uncertainty is fitted to points whose directions have the reported opening angles to the fitted direction, up to at most 89.9 degrees; the reported loss differences are those between fits of all other parameters at these directions and the fit itself.", "quantifier": "all fitted events, random numbers, losses and numbers of points", "why_tests_cant": "Ranges over all directions and random vectors.", "anchors": ["egenerator/manager/reconstruction/modules/opening_angle.py:CircularizedAngularUncertainty.execute", "egenerator/utils/angles.py:get_delta_psi_vector"]}
{"id": "C107", "title": "The goodness of fit compares the data with reconstructions of simulated events", "statement": "As many hypotheses as configured are sampled around the fit; each simulated event is reconstructed from its own pulses, starting at its own hypothesis; the loss of the data is that of the reported fit; the p-values are the fractions of simulated events with a larger loss; this holds for any choice of fitted parameters.", "quantifier": "all fits, samples and choices of fitted parameters", "why_tests_cant": "Ranges over all sampled events and choices of fitted parameters.", "anchors": ["egenerator/manager/reconstruction/modules/fit_quality.py:GoodnessOfFit.execute", "egenerator/manager/reconstruction/modules/utils/trafo.py:get_reco_result_batch"]}
{"id": "C108", "title": "Quality estimates of an event do not depend on other events", "statement": "What is reported as uncertainty and goodness of fit of an event is the same whichever events were processed before.", "quantifier": "all sequences of events", "why_tests_cant": "The random generator is carried over from event to event, so it is a property of histories.", "anchors": ["egenerator/manager/reconstruction/modules/opening_angle.py:CircularizedAngularUncertainty.execute", "egenerator/manager/reconstruction/modules/fit_quality.py:GoodnessOfFit.execute"]}
{"id": "C109", "title": "Everything reported for an event belongs to one fit", "statement": "In the results of an event, the best fit, its losses, the covariance matrices, the goodness of fit and the circularised uncertainty all belong to one and the same fit, started from one of the seeds; the covariance matrix used for the goodness of fit and the uncertainty is that of this fit; every entry that is written to the frame exists.", "quantifier": "all settings the module accepts, all events, all outcomes of fits and of the other computations", "why_tests_cant": "Ranges over all combinations of optional modules, seeds and results.", "anchors": ["egenerator/ic3/reconstruction.py:EventGeneratorReconstruction.Configure", "egenerator/ic3/reconstruction.py:EventGeneratorReconstruction.Physics", "egenerator/manager/reconstruction/tray.py:ReconstructionTray.execute"]}
{"id": "C11", "title": "Tensor lists survive serialisation", "statement": "Deserialising the serialised form of a DataTensorList gives an equal list, for every list of valid tensors.", "quantifier": "all tensor lists, including arbitrary extra specs on the tensors", "why_tests_cant": "Extra specs are free-form keys; a clash with a constructor argument happens only for particular keys.", "anchors": ["egenerator/data/tensor.py:DataTensorList.serialize", "egenerator/data/tensor.py:DataTensorList.deserialize", "egenerator/data/tensor.py:DataTensor.__init__"]}
{"id": "C110", "title": "Settings of the reconstruction module", "statement": "The module is configured exactly for admissible settings and then runs one fit for each seed, the selection, and what was asked for, in this order, with the parameters fitted as the settings say; a module that was configured can reconstruct events.", "quantifier": "all settings, managers and events", "why_tests_cant": "Ranges over all combinations of settings.", "anchors": ["egenerator/ic3/reconstruction.py:EventGeneratorReconstruction.Configure"]}
{"id": "C111", "title": "Data that is handed out has the declared structure", "statement": "Data obtained from a configured data handler, loaded from a file or frame or created from a frame, has one entry for each declared tensor, in the declared order, and each existing tensor has the declared number of dimensions and the declared sizes; data that does not is rejected. Tensors that do not exist are handed out as a scalar of their type when loaded from a frame.", "quantifier": "all tensor lists, all data a derived handler can return", "why_tests_cant": "Ranges over all tensor lists and all data.", "anchors": ["egenerator/data/handler/base.py:BaseDataHandler.get_data_from_hdf", "egenerator/data/handler/base.py:BaseDataHandler.get_data_from_frame", "egenerator/data/handler/base.py:BaseDataHandler.create_data_from_frame", "egenerator/data/handler/base.py:BaseDataHandler._check_data_structure"]}
{"id": "C112", "title": "The declared signature describes the data", "statement": "The data set and the signature of a handler declare the same types and shapes for the same tensors, and all data loaded from frames fits this declaration; conversion to tensors keeps the order and converts each entry, and reports frames without usable events.", "quantifier": "all tensor lists, all data", "why_tests_cant": "Ranges over all tensor lists and data.", "anchors": ["egenerator/data/handler/base.py:BaseDataHandler.get_tf_dataset", "egenerator/data/handler/base.py:BaseDataHandler.get_data_set_signature", "egenerator/data/handler/base.py:BaseDataHandler.get_tensor_from_frame", "egenerator/data/handler/base.py:BaseDataHandler.convert_data_to_tensor"]}
{"id": "C113", "title": "Batches of a biased selection hold the selected events", "statement": "With a biased selection module the batch generator yields the events that the module selects from each file, each once per repetition, whatever number of events the selection keeps.", "quantifier": "all files, all selections, all orders of events", "why_tests_cant": "Ranges over all selections and shuffles.", "anchors": ["egenerator/data/handler/base.py:BaseDataHandler.get_batch_generator"]}
{"id": "C114", "title": "Set up of data handlers with test data", "statement": "A data handler can be configured with and without test data: with its settings it is configured exactly if the modules accept them, the settings and modules are recorded, and the files matching the given patterns are used to obtain meta data.", "quantifier": "all settings, modules, patterns and file systems", "why_tests_cant": "Ranges over all settings, patterns and modules.", "anchors": ["egenerator/data/handler/base.py:BaseDataHandler._configure", "egenerator/data/handler/modular.py:ModuleDataHandler._configure_derived_class", "egenerator/manager/component.py:BaseComponent.configure"]}
{"id": "C115", "title": "Additional arguments reach the modules", "statement": "Additional positional and keyword arguments given to a data handler when data is loaded are passed on unchanged to its modules.", "quantifier": "all additional arguments", "why_tests_cant": "Ranges over all argument lists.", "anchors": ["egenerator/data/handler/base.py:BaseDataHandler.get_data_from_hdf", "egenerator/data/handler/modular.py:ModuleDataHandler._get_data"]}
{"id": "C116", "title": "Killing a handler ends all its processes", "statement": "After a data handler is killed, no process that any of its batch generators started is running, whatever happened before, unless a new generator is started.", "quantifier": "all histories of generators, processes and kills", "why_tests_cant": "Ranges over all histories.", "anchors": ["egenerator/data/handler/base.py:BaseDataHandler.kill", "egenerator/data/handler/base.py:BaseDataHandler.get_batch_generator"]}
{"id": "C117", "title": "Weights of nested models are saved and loaded as those of one model", "statement": "Whatever sources a multi source or manager consists of, and however deeply nested, every history of starting training runs and saving weights has the same exceptions, keeps the same checkpoints and restores the same weights for all sources, by number or the latest, as for one model that has all weights.", "quantifier": "all nestings of models, all names, all histories of saves, all checkpoint numbers", "why_tests_cant": "Ranges over all nestings and all histories.", "anchors": ["egenerator/model/multi_source/base.py:MultiSource.save_weights", "egenerator/model/multi_source/base.py:MultiSource.load_weights", "egenerator/manager/base.py:BaseModelManager.save_weights", "egenerator/manager/base.py:BaseModelManager.load_weights", "egenerator/manager/base.py:BaseModelManager.save_training_settings", "egenerator/manager/component.py:BaseComponent.save", "egenerator/manager/component.py:BaseComponent.load"]}
{"id": "C118", "title": "A crash while a nested model is saved leaves consistent weights", "statement": "If the program dies at any point while the weights of a nested model are saved, loading the model afterwards restores the weights of all sources from the same save, and later saves and loads by number stay consistent.", "quantifier": "all nestings, all histories, all crash points", "why_tests_cant": "Ranges over all crash points.", "anchors": ["egenerator/model/multi_source/base.py:MultiSource.save_weights", "egenerator/manager/base.py:BaseModelManager.save_weights", "egenerator/model/base.py:Model.save_weights", "egenerator/model/base.py:Model.load_weights"]}
{"id": "C119", "title": "A multi source that is configured can be used and loaded", "statement": "A multi source that was configured can be evaluated, used in a model manager, saved, and loaded again with the same base sources and data transformation, whatever the names of its base sources are, and with or without a data transformation.", "quantifier": "all dictionaries of base sources, with and without data transformation", "why_tests_cant": "Ranges over all sets of base sources.", "anchors": ["egenerator/model/multi_source/base.py:MultiSource._configure_derived_class", "egenerator/model/multi_source/base.py:MultiSource._load", "egenerator/model/multi_source/base.py:MultiSource.get_tensors", "egenerator/manager/base.py:BaseModelManager._check_sub_component_compatibility"]}
{"id": "C12", "title": "A tensor description is validated", "statement": "A DataTensor can be constructed exactly when its type, dtype, vector information, log axis and log flags are admissible; a boolean log flag is expanded to one flag per entry of the log axis.", "quantifier": "all constructor arguments", "why_tests_cant": "Combinations of argument kinds and shapes are unbounded.", "anchors": ["egenerator/data/tensor.py:DataTensor.__init__"]}
{"id": "C120", "title": "Labels from frames are those from files", "statement": "Loading the labels of events from the frames they are in gives the same rows as loading them from a file that holds the same events: the labels in the configured order, followed by the snowstorm parameters, or by ones if no snowstorm key is configured. Frames that lack what is asked for are skipped, and a file is skipped if one of its events does.", "quantifier": "all events, all lists of labels, all numbers of snowstorm parameters, all label modules", "why_tests_cant": "Ranges over all events and all configurations.", "anchors": ["egenerator/data/modules/labels/snowstorm_tracks.py:SnowstormTrackGeneratorLabelModule.get_data_from_frame", "egenerator/data/modules/labels/snowstorm_tracks.py:SnowstormTrackGeneratorLabelModule.get_data_from_hdf", "egenerator/data/modules/labels/snowstorm_cascades.py", "egenerator/data/modules/labels/snowstorm_track_segment.py", "egenerator/data/modules/labels/cascades.py", "egenerator/data/modules/labels/muons.py"]}
{"id": "C121", "title": "A loaded component works like the saved one", "statement": "After a component was saved and loaded it does what it did before: a source has its name and its parameters, a multi source its parameters and the base source of each of its sources, and a loss module computes the same loss.", "quantifier": "all trees of sources, multi sources and other components, and all combinations of loss modules, set up with any settings; all batches and options", "why_tests_cant": "Ranges over all component trees and all batches.", "anchors": ["egenerator/manager/component.py:BaseComponent.load", "egenerator/model/base.py:Model.load_weights", "egenerator/model/source/base.py:Source._configure_derived_class", "egenerator/model/multi_source/base.py:MultiSource._load", "egenerator/loss/default.py:DefaultLossModule.get_loss", "egenerator/loss/snowstorm.py:SnowstormPriorLossModule.get_loss", "egenerator/loss/multi_loss.py:MultiLossModule.get_loss"]}
{"id": "C122", "title": "Optional arguments of sources have their documented defaults", "statement": "A source or multi source is configured with the settings, base sources, data transformation and name that are given, and records them; leaving out an optional argument is the same as giving its documented default None.", "quantifier": "all settings, names, base sources and data transformations", "why_tests_cant": "Ranges over all combinations of arguments and all source classes.", "anchors": ["egenerator/model/source/base.py:Source._configure_derived_class", "egenerator/model/multi_source/base.py:MultiSource._configure_derived_class", "egenerator/manager/component.py:BaseComponent.configure"]}
{"id": "C123", "title": "Tensor descriptions compare by meaning", "statement": "Two tensor descriptions are equal under == exactly if every setting means the same (numbers by value, lists and tuples of the same kind item by item, dictionaries in any order); two lists of tensors are equal exactly if they were made from equal descriptions, in whatever order; != is always the opposite, an object of another class is never equal, and comparison is reflexive, symmetric and transitive.", "quantifier": "all tensor descriptions and lists of tensors, in all orders", "why_tests_cant": "Ranges over all descriptions, nested values and orders.", "anchors": ["egenerator/data/tensor.py:DataTensor.__eq__", "egenerator/data/tensor.py:DataTensor.__ne__", "egenerator/data/tensor.py:DataTensorList.__eq__", "egenerator/data/tensor.py:DataTensorList.__ne__"]}
{"id": "C124", "title": "A module set up for given tensors has these tensors", "statement": "When a module is configured with a list of tensors as config_data, the set up succeeds only if the tensors of the module are equal to these; otherwise it raises.", "quantifier": "all modules, settings and lists of tensors", "why_tests_cant": "Ranges over all lists of tensors and settings of modules.", "anchors": ["egenerator/data/modules/labels/cascades.py:CascadeGeneratorLabelModule._configure", "egenerator/data/modules/labels/muons.py", "egenerator/data/modules/labels/snowstorm_cascades.py", "egenerator/data/modules/labels/snowstorm_track_segment.py", "egenerator/data/modules/labels/snowstorm_tracks.py", "egenerator/data/modules/data/pulse_data.py:PulseDataModule._configure", "egenerator/data/modules/misc/seed_loader.py:SeedLoaderMiscModule._configure", "egenerator/data/modules/labels/dummy.py", "egenerator/data/modules/misc/dummy.py", "egenerator/data/modules/weights/dummy.py"]}
{"id": "C125", "title": "A configuration is isolated from the objects of the program", "statement": "A configuration keeps the contents that the settings had when it was made. Whatever the program does later with the objects it passed in, or with those it got from the configuration, the settings, mutable settings, combined settings and lists of sub components of the configuration change only through its own update and add methods.", "quantifier": "all programs that make, read, update and change objects, in any order", "why_tests_cant": "Ranges over all sequences of operations and all sharing of objects.", "anchors": ["egenerator/manager/component.py:Configuration.__init__", "egenerator/manager/component.py:Configuration.update_mutable_settings", "egenerator/manager/component.py:Configuration.add_dependent_sub_components", "egenerator/manager/component.py:Configuration._combine_settings"]}
{"id": "C126", "title": "Configuring a multi source leaves its arguments and other models alone", "statement": "Configuring a multi source does not change the dictionary of base sources that was passed in, nor any multi source configured before.", "quantifier": "all programs that create and change dictionaries of sources and configure multi sources with them", "why_tests_cant": "Ranges over all sequences of operations and all sharing of dictionaries.", "anchors": ["egenerator/model/multi_source/base.py:MultiSource._configure_derived_class", "egenerator/manager/component.py:BaseComponent.configure"]}
{"id": "C127", "title": "Saving weights is refused exactly if the variables of the model changed", "statement": "save_weights raises ValueError exactly if the variables of the model are not those it had when it was configured or loaded.", "quantifier": "all models, with any variables and sub components, and all later changes of their variables", "why_tests_cant": "Ranges over all models and all sequences of changes.", "anchors": ["egenerator/model/base.py:Model._configure", "egenerator/model/base.py:Model.save_weights", "egenerator/model/base.py:Model.load_weights"]}
{"id": "C128", "title": "A failed attempt does not spoil a component", "statement": "After calls of configure or load that raised, a component is not configured, and a further call of configure or load acts as on a new object: it raises the same exception or ends with the same component.", "quantifier": "all histories of failed calls, all later calls, any changes of files and arguments in between", "why_tests_cant": "Ranges over all histories of calls and all points of failure.", "anchors": ["egenerator/manager/component.py:BaseComponent.configure", "egenerator/manager/component.py:BaseComponent.load", "egenerator/data/handler/modular.py:ModuleDataHandler._load_modules"]}
{"id": "C129", "title": "The attributes of a data handler show its state", "statement": "The attribute modules_are_loaded of a modular data handler is True exactly if it has its modules; its modules and tensors are None as long as it is not configured, and the configured modules and their tensors afterwards.", "quantifier": "all settings, modules, directories and failed calls", "why_tests_cant": "Ranges over all settings and all points of failure.", "anchors": ["egenerator/data/handler/modular.py:ModuleDataHandler.modules_are_loaded", "egenerator/data/handler/modular.py:ModuleDataHandler._get_value", "egenerator/data/handler/base.py:BaseDataHandler.tensors"]}
{"id": "C13", "title": "Online mean and variance equal the batch formulas", "statement": "However a data set is cut into non-empty batches and fed to the trafo model, the resulting mean and variance are the arithmetic mean and population variance of all the rows seen, after the log transform where one is configured.", "quantifier": "all data sets, all partitions into batches, all log masks", "why_tests_cant": "Partitions and data are unbounded; rounding aside, equality must hold algebraically for all of them.", "anchors": ["egenerator/data/trafo.py:DataTransformer._update_online_variance_vars", "egenerator/data/trafo.py:DataTransformer._perform_update_step"]}
{"id": "C130", "title": "Minimisers are chosen by name, and tensorflow probability is one of them", "statement": "The reconstruction module accepts the names scipy, shog, tfp and spherical_opt in upper or lower case and refuses all others with a ValueError. With tfp it works for all numbers of events and lists of fitted parameters: the minimiser starts at the seed, minimises the loss of the events, and its position is the result.", "quantifier": "all names, batch sizes, flags, seeds, losses and minimisers", "why_tests_cant": "Ranges over all names, all shapes and arbitrary minimisers.", "anchors": ["egenerator/manager/reconstruction/modules/reconstruction.py:Reconstruction", "egenerator/manager/source.py:SourceManager.tf_reconstruct_events"]}
{"id": "C131", "title": "A reconstruction is not reported with a worse loss than its seed", "statement": "If the minimiser returns nothing worse than it was started with, then the loss a reconstruction reports for its result is at most the loss it reports for the seed, and these are the losses at the reported result and at the seed.", "quantifier": "all interfaces, seeds, fitted parameters, transformations, losses and minimisers, without limits of the parameters", "why_tests_cant": "Ranges over all losses, seeds and minimisers.", "anchors": ["egenerator/manager/reconstruction/modules/reconstruction.py:Reconstruction.execute", "egenerator/manager/reconstruction/modules/utils/trafo.py:get_reco_result_batch"]}
{"id": "C132", "title": "Every training run is recorded, whatever happened to earlier ones", "statement": "Each training run that is started is recorded under the next number with its configuration and components; the records of earlier runs never change; and a call that raised or was interrupted does not prevent later runs from being recorded.", "quantifier": "all histories of runs, exceptions and crashes at any point", "why_tests_cant": "Ranges over all histories and crash points.", "anchors": ["egenerator/model/base.py:Model.save_training_settings", "egenerator/manager/base.py:BaseModelManager.train"]}
{"id": "C133", "title": "Endless batches never dry up", "statement": "A generator that picks random files forever keeps delivering, whatever the order in which its processes run: it never blocks, every batch is complete, and the delivered events are exactly the events of the passes over files, without gaps between batches or passes. Files that do not exist or have no data are skipped.", "quantifier": "all file lists, draws, sizes, numbers of jobs and all schedules of the processes, without any assumption of fairness", "why_tests_cant": "Ranges over all infinite schedules of concurrent processes.", "anchors": ["egenerator/data/handler/base.py:BaseDataHandler.get_batch_generator"]}
{"id": "C134", "title": "One job without shuffling gives reproducible batches", "statement": "With one job and without shuffling of events, two endless runs on the same files deliver the same batches in the same order. With several jobs, or with shuffling, they need not.", "quantifier": "all pairs of schedules", "why_tests_cant": "Ranges over all pairs of schedules.", "anchors": ["egenerator/data/handler/base.py:BaseDataHandler.get_batch_generator"]}
{"id": "C135", "title": "Problems while loading are reported to the consumer", "statement": "If files cannot be loaded, so that no more batches can be delivered, the consumer of an endless generator gets an error instead of waiting forever.", "quantifier": "all file lists, draws and schedules", "why_tests_cant": "Ranges over all schedules; a test cannot observe waiting forever.", "anchors": ["egenerator/data/handler/base.py:BaseDataHandler.get_batch_generator"]}
{"id": "C136", "title": "Components survive any history of saving and loading", "statement": "Take components that were configured, and any further ones obtained by saving such a component and loading it, with any compatible replacements of parts at any depth, any number of times. Each can be saved again at a free place, and loading it from there gives it back: class, configuration, data and parts, recursively. Its class never changes.", "quantifier": "all histories of saves and loads with replacements, all component trees", "why_tests_cant": "Ranges over all finite histories and all trees; a test follows one.", "anchors": ["egenerator/manager/component.py:BaseComponent.save", "egenerator/manager/component.py:BaseComponent.load"]}
{"id": "C137", "title": "A loaded manager is consistent", "statement": "In every manager that was loaded, with or without replacements, the data handler is compatible with the one each of its models was made with. Only the data handler can be replaced in a load: the models are the saved ones. A manager whose parts do not fit is not loaded.", "quantifier": "all managers, all replacements", "why_tests_cant": "Ranges over all managers with any number of models and all replacements.", "anchors": ["egenerator/manager/base.py:BaseModelManager._check_sub_component_compatibility", "egenerator/manager/base.py:BaseModelManager._update_sub_components", "egenerator/manager/base.py:BaseModelManager._load"]}
{"id": "C138", "title": "The loss of a batch is the sum of the losses of its events", "statement": "Without normalisation, the loss of a batch is the sum of the losses of its events, each evaluated on its own with its own pulses, for every loss function, for priors and for sums of several loss modules. With normalisation it is the mean of their normalised losses, weighted with their numbers of terms. The sorted losses of an event are those of the event on its own. A batch is refused with the error with which its events are refused.", "quantifier": "all batches, all assignments of pulses to events in any order, all predictions, all loss configurations", "why_tests_cant": "Ranges over all batches of any size and all orders of pulses.", "anchors": ["egenerator/loss/default.py:DefaultLossModule.get_loss", "egenerator/loss/default.py:DefaultLossModule.sort_loss_terms", "egenerator/loss/snowstorm.py", "egenerator/loss/multi_loss.py:MultiLossModule.get_loss"]}
{"id": "C139", "title": "What is predicted for an event does not depend on the other events of its batch", "statement": "The expected charges, their distribution, the parameters of the time density, the excluded fractions and the densities at the pulses, predicted for an event in a batch, are those predicted for the event on its own, whatever other events, pulses and time windows are in the batch and in whatever order. The prediction for a batch fails if and only if that for one of its events fails. So the loss of a batch, from the parameters on, is the sum of what its events give.", "quantifier": "all batches, all orders of pulses and windows, all networks, all parameters", "why_tests_cant": "Ranges over all batches; a wrong id in one gather or scatter shows only for some batches.", "anchors": ["egenerator/model/source/cascade/default.py:DefaultCascadeModel.get_tensors", "egenerator/model/source/noise/default.py:DefaultNoiseModel.get_tensors"]}
{"id": "C14", "title": "inverse_transform undoes transform", "statement": "For every tensor the trafo model was built for and every valid input, inverse_transform(transform(x)) = x and transform(inverse_transform(y)) = y, with and without bias correction and for every combination of log flags.", "quantifier": "all inputs in the domain of the transform, all fitted means and deviations, all log masks", "why_tests_cant": "Real-valued inputs; clipping only bites outside a range.", "anchors": ["egenerator/data/trafo.py:DataTransformer.transform", "egenerator/data/trafo.py:DataTransformer.inverse_transform"]}
{"id": "C140", "title": "The loss of loaded data is the likelihood of the table of pulses", "statement": "For a file (or a frame) whose pulses are on in-ice DOMs, the extended likelihood that get_loss returns for the loaded data is that of the table of pulses: the sum of the predicted charges of the DOMs that are neither bad nor excluded, less for each row on such a DOM its charge times the logarithm of the predicted charge of its event, string and DOM times the predicted density there at the time of the row. If DOM exclusions are loaded, the exclusions have to be in the file and their pulses have to be discarded. For a cascade model, charges and densities are those predicted for each DOM alone with its excluded time windows in the file; for several sources that share a cascade model, they are the sums of the charges and the means of the densities, weighted with the charges.", "quantifier": "all tables of pulses and exclusions, all event ids, all predictions, all networks and parameters", "why_tests_cant": "Ranges over all tables and all predictions, and joins the data module, the model and the loss: each may be right by itself while ids or charges do not fit.", "anchors": ["egenerator/data/modules/data/pulse_data.py:PulseDataModule.get_data_from_hdf", "egenerator/data/modules/data/pulse_data.py:PulseDataModule.get_data_from_frame", "egenerator/loss/default.py:DefaultLossModule.unbinned_extended_pulse_llh", "egenerator/model/source/cascade/default.py:DefaultCascadeModel.get_tensors"]}
{"id": "C141", "title": "The origin of time does not matter", "statement": "If all times of an event, those of its pulses, of its excluded time windows, of the readout and of all sources, are later by the same amount, everything that is predicted and the loss are the same, and what fails does so in both cases. This holds for amounts that differ from event to event, for cascades, noise and several sources, and from the file on: tables with later times give data with later times, including the range of pulse times, and the same data otherwise.", "quantifier": "all amounts for all events, all batches, tables, networks, parameters and excluded windows", "why_tests_cant": "Ranges over all real shifts and all data, and joins the data module, the sources and the loss; a time that is taken absolutely somewhere shows only for special shifts.", "anchors": ["egenerator/data/modules/data/pulse_data.py:PulseDataModule.get_data_from_hdf", "egenerator/model/source/cascade/default.py:DefaultCascadeModel.get_tensors", "egenerator/model/source/cascade/charge_quantiles.py:ChargeQuantileCascadeModel.get_tensors", "egenerator/model/source/noise/default.py:DefaultNoiseModel.get_tensors", "egenerator/model/multi_source/base.py:MultiSource.get_tensors", "egenerator/loss/default.py:DefaultLossModule.get_loss"]}
{"id": "C142", "title": "Only the charge at a time matters, not how it is divided into pulses", "statement": "Pulses on the same DOM at the same time may be put together into one pulse with the sum of their charges, a pulse may be divided into such pulses, and pulses without charge may be left out: the loss stays the same, as one number or sorted into terms of events and DOMs, normalised or not. This holds for all loss functions that weight pulses with their charge and for those that use no pulses, if normalisation terms per pulse are not added, and for the loss of a cascade model from the parameters on.", "quantifier": "all batches, all ways to divide pulses, all predictions, all loss functions but those that see single pulses by design", "why_tests_cant": "Ranges over all divisions of charge into pulses; a term that counts pulses, or is not linear in the charge, shows only for special divisions.", "anchors": ["egenerator/loss/default.py:DefaultLossModule.get_loss", "egenerator/loss/default.py:DefaultLossModule.unbinned_extended_pulse_llh", "egenerator/loss/default.py:DefaultLossModule.unbinned_pulse_time_llh", "egenerator/loss/default.py:DefaultLossModule.unbinned_pulse_and_dom_charge_pdf", "egenerator/model/source/cascade/default.py:DefaultCascadeModel.get_tensors"]}
{"id": "C143", "title": "The best parameters of an event depend on nothing but the event", "statement": "Parameters are best for a batch of measured events exactly if those of each event are best for this event alone, whatever other events are in the batch; the minima of the function that a reconstruction minimises for a batch are put together from those for the single events, for every choice of fitted parameters, with and without transformation. If all times of the data are later, the best times are later by as much and all other parameters are as good as before; other angles for the same direction, and pulses at the same time on the same DOM put together, change nothing.", "quantifier": "all batches of measured events, networks, loss functions, parameters, choices of fitted parameters, shifts in time", "why_tests_cant": "Ranges over all batches, minima and shifts and joins the models of source, loss and fit.", "anchors": ["egenerator/manager/source.py:SourceManager.reconstruct_events", "egenerator/manager/source.py:SourceManager.get_parameter_loss_and_gradients_function", "egenerator/model/source/cascade/default.py:DefaultCascadeModel.get_tensors", "egenerator/loss/default.py:DefaultLossModule.get_loss"]}
{"id": "C144", "title": "The best parameters of an event are those of the likelihood of its rows in the file", "statement": "For data loaded from a file and a cascade model, the loss as a function of the parameters is the sum over the events of the negative logarithm of the likelihood of the rows of the event: the predicted charges of its DOMs that are neither bad nor excluded, less for each of its rows on such a DOM the charge times the logarithm of the predicted rate at its time, outside of the excluded time windows. So parameters are best for the file exactly if those of each event are best for its own rows; they are the same in every file with the same pulses, excluded DOMs and excluded time windows of the event, in whatever order and with whatever other events.", "quantifier": "all files, event ids, excluded DOMs and time windows, networks and parameters", "why_tests_cant": "Ranges over all files and all parameters, and joins the data module, the model, the loss and the fit.", "anchors": ["egenerator/data/modules/data/pulse_data.py:PulseDataModule.get_data_from_hdf", "egenerator/manager/source.py:SourceManager.reconstruct_events", "egenerator/loss/default.py:DefaultLossModule.unbinned_extended_pulse_llh", "egenerator/model/source/cascade/default.py:DefaultCascadeModel.get_tensors"]}
{"id": "C145", "title": "Learning rate schedules are those of the settings and come back from their configuration", "statement": "A combined schedule can be built exactly if there is one boundary less than settings and each of the settings names a class and arguments that make a scheduler; it has these schedulers in this order, and inside a tf.function its rate at a step is that of the scheduler of the settings of the interval of the step. What is built from get_config of a schedule is the same schedule. The optimizer gets all settings of the configuration as they are, but for a learning rate that is a dictionary, where it gets the scheduler that the dictionary describes; if it describes none, training does not start.", "quantifier": "all boundaries, settings, classes, names, steps and optimizer settings", "why_tests_cant": "Ranges over all settings and steps, and over classes that a test would have to choose.", "anchors": ["egenerator/utils/learning_rate.py:MultiLearningRateScheduler.__init__", "egenerator/utils/learning_rate.py:MultiLearningRateScheduler.get_config", "egenerator/manager/base.py:BaseModelManager.train"]}
{"id": "C15", "title": "Covariance matrices are transformed with the Jacobian of the inverse transform", "statement": "inverse_transform_cov(C) equals J C J for the diagonal Jacobian J of the linear part of the inverse transform, hence it preserves symmetry and positive semidefiniteness and is undone by the forward scaling.", "quantifier": "all square matrices and all fitted deviations", "why_tests_cant": "Matrices of every size and real entries.", "anchors": ["egenerator/data/trafo.py:DataTransformer.inverse_transform_cov"]}
{"id": "C16", "title": "Splitting a flat batch into events and joining it again is lossless", "statement": "For every flat tensor whose batch ids lie in 0..n-1, batch_to_event_structure gives n arrays with exactly the rows of each event in order, and event_to_batch_structure of these gives back a stably event-sorted version of the input with matching ids.", "quantifier": "all flat tensors, all id columns, all event counts, including events without rows", "why_tests_cant": "Row counts and id patterns are unbounded; empty events are easy to miss.", "anchors": ["egenerator/data/handler/base.py:BaseDataHandler.batch_to_event_structure", "egenerator/data/handler/base.py:BaseDataHandler.event_to_batch_structure"]}
{"id": "C17", "title": "Event filters keep exactly the passing events", "statement": "After filtering, the remaining events are exactly those whose mask is true, in the original order, with vector tensors restricted to the rows of the passing events and their event ids renumbered to 0..k-1; an all-true mask changes nothing.", "quantifier": "all masks, all event data, all vector tensors", "why_tests_cant": "Arbitrary masks over arbitrary many events.", "anchors": ["egenerator/data/handler/modular.py:ModuleDataHandler._filter_data"]}
{"id": "C18", "title": "Assembled data has one consistent event count", "statement": "If the handler returns data for a file or frame, all modules reported the same number of events, every existing tensor is at its position in the tensor list and filtered events are gone; if any module reports a problem or no event passes, the result is (None, None), never partial data.", "quantifier": "all combinations of module results", "why_tests_cant": "Combinations of module outcomes and event counts.", "anchors": ["egenerator/data/handler/modular.py:ModuleDataHandler._get_data"]}
{"id": "C19", "title": "Batches conserve events", "statement": "For every sequence of loaded files, the batches formed by the aggregator contain every loaded event exactly once, in load order when shuffling is off; every batch but the last has exactly the requested size; vector ids are renumbered to the position inside the batch.", "quantifier": "all sequences of files, all event counts per file, all batch sizes", "why_tests_cant": "Unbounded streams; boundaries between files and batches can fall anywhere.", "anchors": ["egenerator/data/handler/base.py:BaseDataHandler.get_batch_generator"]}
{"id": "C20", "title": "The multiprocess batch generator delivers all data and then stops", "statement": "In every interleaving of the loader processes, the aggregator and the consumer, when a finite run is requested every event of every file reaches the consumer and the consumer terminates.", "quantifier": "all interleavings of the worker processes, all numbers of jobs and files", "why_tests_cant": "The number of schedules is unbounded and the losing ones are rare.", "anchors": ["egenerator/data/handler/base.py:BaseDataHandler.get_batch_generator"]}
{"id": "C21", "title": "Event filter constraints mean their conjunction", "statement": "The general filter keeps an event exactly when each constraint (key, column, operator, threshold) holds for it; with no constraints all events pass; unknown operators raise; and the hdf and frame paths agree on the same event.", "quantifier": "all constraint lists and all events", "why_tests_cant": "Arbitrary constraint lists and data.", "anchors": ["egenerator/data/modules/filters/general_filter.py:GeneralFilterModule.get_event_filter_mask_from_hdf", "egenerator/data/modules/filters/general_filter.py:GeneralFilterModule.get_event_filter_mask_from_frame"]}
{"id": "C22", "title": "Pulse extraction conserves charge and indexes the right DOM", "statement": "For every pulse table, each in-range pulse row contributes its charge to the cell of its own event, string and DOM, the DOM charge is the sum of the retained pulses' charges, pulses on excluded DOMs contribute nothing, and the time window contains every retained pulse.", "quantifier": "all pulse tables, exclusion lists and event counts", "why_tests_cant": "Pulse tables are unbounded and cell aliasing only appears for particular index combinations.", "anchors": ["egenerator/data/modules/data/pulse_data.py:PulseDataModule.get_data_from_hdf", "egenerator/data/modules/data/pulse_data.py:PulseDataModule.get_data_from_frame"]}
{"id": "C23", "title": "Charge quantiles are cumulative fractions", "statement": "For every DOM with pulses, the pulse quantiles are non-decreasing in the pulse order, lie in (0, 1] for positive charges, end at 1 and their increments are proportional to the pulse charges.", "quantifier": "all sequences of pulses with positive charges", "why_tests_cant": "Sequences of every length and real charges.", "anchors": ["egenerator/data/modules/data/pulse_data.py:PulseDataModule.get_data_from_hdf", "egenerator/manager/reconstruction/modules/fit_quality.py:GoodnessOfFit.sample_event_pulses"]}
{"id": "C24", "title": "Seed loading puts every parameter in its column", "statement": "For every list of seed names and parameter names, each loaded seed tensor has one column per parameter name in the given order, holding the stored value or else the configured default; a missing value without default skips the file; several seeds can be loaded from the same file.", "quantifier": "all seed lists, parameter lists, stored tables and default dictionaries", "why_tests_cant": "Lists and missing-value patterns of every size.", "anchors": ["egenerator/data/modules/misc/seed_loader.py:SeedLoaderMiscModule.get_data_from_hdf", "egenerator/data/modules/misc/seed_loader.py:SeedLoaderMiscModule.get_data_from_frame"]}
{"id": "C25", "title": "Shifting cascades to the shower maximum preserves the geometry", "statement": "For every track hypothesis with any number of cascades, shifting the labels moves each cascade by its own non-negative shower length along the track direction, leaves the track's start and end points in space unchanged and keeps every point on the track at its light-speed time.", "quantifier": "all track label vectors, any number of cascades", "why_tests_cant": "Number of cascades and real-valued parameters are unbounded.", "anchors": ["egenerator/data/modules/labels/snowstorm_tracks.py:SnowstormTrackGeneratorLabelModule._shift_parameters", "egenerator/data/modules/labels/snowstorm_tracks.py:SnowstormTrackGeneratorLabelModule._get_cascade_extension", "egenerator/data/modules/labels/cascades.py:CascadeGeneratorLabelModule._shift_to_maximum"]}
{"id": "C26", "title": "Label tensors have as many columns and log flags as labels", "statement": "For every number of cascades, additional labels and snowstorm parameters, the declared label tensor has exactly one column and one log flag per label that is loaded, in the loading order.", "quantifier": "all numbers of cascades, additional labels and snowstorm parameters, all forms of the log argument", "why_tests_cant": "Parameterised by unbounded counts.", "anchors": ["egenerator/data/modules/labels/snowstorm_tracks.py:SnowstormTrackGeneratorLabelModule._configure", "egenerator/data/modules/labels/snowstorm_cascades.py:SnowstormCascadeGeneratorLabelModule._configure"]}
{"id": "C27", "title": "Checkpoint history keeps protected and recent checkpoints", "statement": "After any sequence of successful weight saves, checkpoint numbers are 1,2,3,... without reuse, protected checkpoints are never deleted, exactly the most recent `max_keep` unprotected ones are kept, and the bookkeeping file lists exactly the checkpoints on disk, the latest being the last one saved.", "quantifier": "all histories of saves with any protection flags and any max_keep", "why_tests_cant": "Histories of every length with varying limits.", "anchors": ["egenerator/model/base.py:Model.save_weights"]}
{"id": "C28", "title": "A crash during a weight save leaves a loadable model", "statement": "At every crash point inside save_weights, the bookkeeping file on disk refers only to checkpoints present on disk, and a later save succeeds.", "quantifier": "all histories and all crash points", "why_tests_cant": "Requires all prefixes of the effect sequence of every save in every history.", "anchors": ["egenerator/model/base.py:Model.save_weights", "egenerator/model/base.py:Model.load_weights"]}
{"id": "C29", "title": "Training step bookkeeping is additive", "statement": "The number of training steps recorded equals the sum of the steps of all training runs saved so far, and never counts steps twice however often intermediate checkpoints are written.", "quantifier": "all sequences of training runs and intermediate saves", "why_tests_cant": "Histories of every length.", "anchors": ["egenerator/model/base.py:Model.update_num_training_steps", "egenerator/model/base.py:Model.save_training_settings", "egenerator/manager/base.py:BaseModelManager.train"]}
{"id": "C30", "title": "Source parameter names and indices are inverse", "statement": "For every source with distinct parameter names, get_index and get_name are inverse bijections between names and 0..n-1, and indexing a parameter tensor by name selects the column of that name; with the wrong number of columns indexing raises.", "quantifier": "all parameter name lists", "why_tests_cant": "Lists of every length.", "anchors": ["egenerator/model/source/base.py:Source.get_index", "egenerator/model/source/base.py:Source.get_name", "egenerator/model/source/base.py:InputTensorIndexer"]}
{"id": "C31", "title": "Multi source parameters are partitioned among the sources", "statement": "For independent multi sources, the parameter list is the concatenation over the sources in sorted name order of their base parameters with prefix; the slice handed to each source has exactly its parameters in order, the slices are disjoint and cover everything.", "quantifier": "all source dictionaries with any numbers of parameters, including none", "why_tests_cant": "Number of sources and parameters is unbounded.", "anchors": ["egenerator/model/multi_source/independent.py:IndependentMultiSource.get_parameters_and_mapping", "egenerator/model/multi_source/independent.py:IndependentMultiSource.get_source_parameters"]}
{"id": "C32", "title": "Multi source predictions are superpositions", "statement": "The predicted charge and variance at each DOM are the sums over all sources, the pulse pdf is the charge weighted mean of the source pdfs, each evaluated with its own base model on its own parameters; the result does not depend on the order of the sources, and the mixture is a proper density when the sources are.", "quantifier": "all numbers of sources, all predictions", "why_tests_cant": "Number of sources is unbounded; wrong pairing of source and base model depends on the mapping.", "anchors": ["egenerator/model/multi_source/base.py:MultiSource.get_tensors"]}
{"id": "C33", "title": "Decoded network outputs are admissible distribution parameters", "statement": "Whatever the network returns, mixture weights are positive and sum to one, widths and asymmetries are bounded below by a positive constant, predicted charges and over-dispersions are positive, and the variance is at least the mean.", "quantifier": "all real network outputs", "why_tests_cant": "Real-valued outputs of an arbitrary trained network.", "anchors": ["egenerator/model/source/cascade/default.py:DefaultCascadeModel.get_tensors"]}
{"id": "C34", "title": "Time exclusions reduce charge and renormalise the pulse density", "statement": "For every set of disjoint excluded time windows, the excluded fraction lies in [0,1], the expected charge is scaled by the remaining fraction, and the density of the remaining pulses integrates to one and is the original mixture density conditioned on the remaining time.", "quantifier": "all exclusion windows and mixture parameters", "why_tests_cant": "Real-valued windows and any number of components.", "anchors": ["egenerator/model/source/cascade/default.py:DefaultCascadeModel.get_tensors", "egenerator/model/source/noise/default.py:DefaultNoiseModel.get_tensors"]}
{"id": "C35", "title": "Loss terms add up to the same total however they are reported", "statement": "For every loss function and every data batch, the sum of the sorted loss terms (scalar, per event, per DOM) equals the scalar loss.", "quantifier": "all data batches, model predictions and option combinations", "why_tests_cant": "Real-valued inputs, all option combinations.", "anchors": ["egenerator/loss/default.py:DefaultLossModule.get_loss", "egenerator/loss/default.py:DefaultLossModule.unbinned_extended_pulse_llh"]}
{"id": "C36", "title": "Multiple loss modules add", "statement": "The combined loss of several loss modules is the sum of their losses, term by term when sorted, independent of the order of the modules.", "quantifier": "all lists of loss modules and data", "why_tests_cant": "Any number of modules.", "anchors": ["egenerator/loss/multi_loss.py:MultiLossModule.get_loss"]}
{"id": "C37", "title": "Excluded DOMs do not influence the loss", "statement": "With DOM exclusions, the loss does not change when the measured charges or predictions on excluded DOMs change.", "quantifier": "all exclusion masks, charges and predictions", "why_tests_cant": "Arbitrary masks and values.", "anchors": ["egenerator/loss/default.py:DefaultLossModule"]}
{"id": "C38", "title": "The systematics prior is zero inside and grows outside", "statement": "The uniform prior penalty is zero exactly on the allowed interval, strictly positive and increasing with the distance outside it, and the total loss is the sum over all constrained parameters; the constrained parameters are those named in the configuration.", "quantifier": "all parameter values and interval limits, all numbers of modes", "why_tests_cant": "Real parameters and arbitrary mode counts.", "anchors": ["egenerator/loss/snowstorm.py:SnowstormPriorLossModule.uniform_log_prior_loss", "egenerator/loss/snowstorm.py:SnowstormPriorLossModule.get_loss"]}
{"id": "C39", "title": "Fitted and fixed parameters are merged correctly", "statement": "For every seed, fit list and vector of fitted values, the hypothesis evaluated has the fitted values at the fitted positions in order and the seed's values elsewhere; starting values merged back give the seed; the reported result leaves unfitted parameters at their seed values.", "quantifier": "all parameter counts, fit lists, seeds, with and without transformation", "why_tests_cant": "All subsets of parameters to fit.", "anchors": ["egenerator/manager/source.py:SourceManager.parameter_loss_function", "egenerator/manager/source.py:SourceManager.reconstruct_events", "egenerator/manager/reconstruction/modules/utils/trafo.py:get_reco_result_batch"]}
{"id": "C40", "title": "An ensemble's loss is the sum over its models", "statement": "The loss of a model ensemble is the sum of the losses of the individual models, term by term if not reduced, for any number of models.", "quantifier": "all numbers of models", "why_tests_cant": "Ensemble size is unbounded.", "anchors": ["egenerator/manager/source.py:SourceManager.parameter_loss_function"]}
{"id": "C41", "title": "The reconstruction tray runs its modules in order exactly once", "statement": "Modules have unique names (duplicates rejected), are executed in the order they were added, each seeing the results of all earlier ones, and the result contains exactly one entry per module, with its runtime added; a module that itself reports a runtime is rejected.", "quantifier": "all sequences of add_module calls and all module behaviours", "why_tests_cant": "Histories of any length and arbitrary modules.", "anchors": ["egenerator/manager/reconstruction/tray.py:ReconstructionTray.add_module", "egenerator/manager/reconstruction/tray.py:ReconstructionTray.execute"]}
{"id": "C42", "title": "The function cache returns exactly what was stored", "statement": "After any history of add calls, get(name, settings) returns the function added under that name with equal settings, or None if there is none; two functions are never stored under the same name and settings.", "quantifier": "all histories of add and get", "why_tests_cant": "Unbounded histories.", "anchors": ["egenerator/manager/reconstruction/tray.py:FunctionCache"]}
{"id": "C43", "title": "The best of several reconstructions is selected", "statement": "Given several reconstructions, the selected result is one of them and has the lowest loss.", "quantifier": "all lists of reconstruction results", "why_tests_cant": "The position of the best result is arbitrary.", "anchors": ["egenerator/manager/reconstruction/modules/reconstruction.py:SelectBestReconstruction.execute"]}
{"id": "C44", "title": "Bisection brackets the target opening angle", "statement": "At every step the interval searched for the uncertainty keeps containing the crossing of a monotone loss difference and its length halves.", "quantifier": "all monotone loss profiles, any number of steps", "why_tests_cant": "Arbitrary profiles and iteration counts.", "anchors": ["egenerator/manager/reconstruction/modules/opening_angle.py:CircularizedAngularUncertainty.bisection_step"]}
{"id": "C45", "title": "Optimizer replacement picks as many improvements as possible", "statement": "find_replacements returns disjoint pairs of new and old points where every new point is strictly better than the old point it replaces, and no larger such set of pairs exists.", "quantifier": "all lists of old and new function values", "why_tests_cant": "Combinatorial maximality over all matchings.", "anchors": ["egenerator/utils/spherical_opt.py:find_replacements"]}
{"id": "C46", "title": "The spherical optimizer never loses its best point and reports it", "statement": "In every iteration stored values are the function values of the stored points and the best value never increases; the returned point and value are the best ones found.", "quantifier": "all objective functions, all random choices, any number of iterations", "why_tests_cant": "Random histories of unbounded length.", "anchors": ["egenerator/utils/spherical_opt.py:spherical_opt"]}
{"id": "C47", "title": "Reflection on the sphere is an isometric involution", "statement": "Reflecting a point of the sphere at a centroid direction stays on the sphere, preserves angular distance to the centroid and undoes itself.", "quantifier": "all points and all centroids", "why_tests_cant": "Real geometry.", "anchors": ["egenerator/utils/spherical_opt.py:reflect", "egenerator/utils/spherical_opt.py:centroid"]}
{"id": "C48", "title": "Density, log density, distribution function and quantile function belong together", "statement": "For each asymmetric Gaussian and Gaussian: the density is positive, is the exponential of the log density, is continuous and integrates to one; the distribution function is increasing from 0 to 1, has the density as derivative; the quantile function inverts it.", "quantifier": "all locations, positive widths, positive asymmetries and arguments", "why_tests_cant": "Real analysis over all parameters.", "anchors": ["egenerator/utils/basis_functions.py:gauss", "egenerator/utils/basis_functions.py:log_gauss", "egenerator/utils/basis_functions.py:asymmetric_gauss", "egenerator/utils/basis_functions.py:log_asymmetric_gauss", "egenerator/utils/basis_functions.py:asymmetric_gauss_cdf", "egenerator/utils/basis_functions.py:asymmetric_gauss_ppf"]}
{"id": "C49", "title": "Rayleigh distribution function and density belong together", "statement": "The Rayleigh cdf starts at zero, increases to one and has the Rayleigh pdf as derivative.", "quantifier": "all positive widths and non-negative arguments", "why_tests_cant": "Real analysis.", "anchors": ["egenerator/utils/basis_functions.py:rayleigh", "egenerator/utils/basis_functions.py:rayleigh_cdf"]}
{"id": "C50", "title": "The negative binomial log density is normalised with the stated mean and variance", "statement": "exp of the normalised log density sums to one over all counts, has mean mu and variance mu + alpha mu^2; sampling uses parameters with that mean and variance.", "quantifier": "all means and over-dispersions", "why_tests_cant": "Infinite sums over all counts.", "anchors": ["egenerator/utils/basis_functions.py:tf_log_negative_binomial", "egenerator/utils/basis_functions.py:sample_from_negative_binomial"]}
{"id": "C51", "title": "Directions at a given opening angle have exactly that opening angle", "statement": "The direction produced for a rotation angle and opening angle is a unit vector whose angle to the original direction is the requested one, for every opening angle below 90 degrees; larger ones raise.", "quantifier": "all directions, rotation angles and opening angles", "why_tests_cant": "Real geometry.", "anchors": ["egenerator/utils/angles.py:get_delta_psi_vector_dir", "egenerator/utils/angles.py:get_delta_psi_vector"]}
{"id": "C52", "title": "The learning rate schedule selects the right scheduler for every step", "statement": "For increasing boundaries, step s uses scheduler i with the step counted from the preceding boundary, where i is the interval containing s.", "quantifier": "all numbers of schedulers, boundaries and steps", "why_tests_cant": "Any number of intervals and steps.", "anchors": ["egenerator/utils/learning_rate.py:MultiLearningRateScheduler.__call__"]}
{"id": "C53", "title": "Configuration files merge without silent overrides", "statement": "Merging several configuration files raises when a key is defined twice, otherwise every key of every file has its value and all other keys have the default; the stored configuration cannot be changed through a returned copy.", "quantifier": "all lists of configuration files", "why_tests_cant": "Arbitrary many files and keys.", "anchors": ["egenerator/settings/setup_manager.py:SetupManager"]}
{"id": "C54", "title": "Model ensembles are homogeneous", "statement": "A manager can be configured only if all models of an ensemble have the same parameter names and compatible data transformation, and the models keep their order.", "quantifier": "all ensembles of any size", "why_tests_cant": "Ensembles of any size; order by generated names.", "anchors": ["egenerator/manager/base.py:BaseModelManager._check_model_ensemble_compatibility", "egenerator/manager/base.py:BaseModelManager.models"]}
{"id": "C55", "title": "Gradients are applied to the variables they belong to", "statement": "In a training step every variable that is updated is updated with its own gradient, whether or not NaN removal is on and whichever variables have no gradient.", "quantifier": "all lists of variables and gradients, with any missing ones", "why_tests_cant": "Arbitrary pattern of missing gradients.", "anchors": ["egenerator/manager/base.py:BaseModelManager.perform_training_step"]}
{"id": "C56", "title": "Weights are saved on schedule during training", "statement": "During training, weights are saved at exactly the positive multiples of the saving frequency and once, protected, at the end, with the correct number of steps.", "quantifier": "all iteration counts and frequencies", "why_tests_cant": "All combinations of counts.", "anchors": ["egenerator/manager/base.py:BaseModelManager.train"]}
{"id": "C57", "title": "The simulation collects exactly the light sources of the particle tree", "statement": "Walking the particle tree returns exactly the electromagnetic particles reachable through admissible parents that are energetic and close enough, in tree order, each once; trees with unsupported particles are rejected.", "quantifier": "all particle trees", "why_tests_cant": "Trees of unbounded depth and width.", "anchors": ["egenerator/ic3/simulation.py:EventGeneratorSimulation._get_light_sources", "egenerator/ic3/simulation.py:EventGeneratorSimulation.get_light_sources"]}
{"id": "C58", "title": "Every source parameter of the simulation is filled", "statement": "The hypothesis tensor built for a list of cascades has in every row the default for each defaulted parameter and the particle's property for all others; no entry is left undefined.", "quantifier": "all cascade lists, parameter lists and default dictionaries", "why_tests_cant": "Arbitrary lists.", "anchors": ["egenerator/ic3/simulation.py:EventGeneratorSimulation.convert_cascades_to_tensor"]}
{"id": "C59", "title": "Sampled pulses carry the sampled charge in time order", "statement": "For each DOM the sampled pulses are sorted in time, their charges sum to the sampled number of photo electrons, and the mixture component index is always valid and chosen with the component's weight.", "quantifier": "all mixture weights, random numbers and charges", "why_tests_cant": "Real-valued random inputs.", "anchors": ["egenerator/ic3/simulation.py:EventGeneratorSimulation.sample_pulses", "egenerator/manager/reconstruction/modules/fit_quality.py:GoodnessOfFit.sample_event_pulses"]}
{"id": "C60", "title": "P-values count samples and lie in [0,1]", "statement": "The one-sided p-value is the fraction of samples with a test statistic at least as large as the data's, the two-sided one is twice the smaller tail fraction, both lie in [0,1], and the one-sided one decreases with the data value.", "quantifier": "all non-empty sample lists and data values", "why_tests_cant": "Sample lists of any length, ties included.", "anchors": ["egenerator/manager/reconstruction/modules/fit_quality.py:GoodnessOfFit.compute_p_value"]}
{"id": "C61", "title": "The covariance matrix is written completely", "statement": "Every entry on or above the diagonal of the covariance matrix is written exactly once under the names of its two parameters, with the log prefix for log parameters.", "quantifier": "all parameter name lists and matrices", "why_tests_cant": "Name collisions depend on the names.", "anchors": ["egenerator/ic3/reconstruction.py:EventGeneratorReconstruction.write_cov_matrix"]}
{"id": "C62", "title": "Deposited track energy is additive and bounded", "statement": "The position on a finite track is monotone and stays strictly inside the track, deposited energies of adjacent parts add up and never exceed the total energy.", "quantifier": "all energies, positive lengths and distances", "why_tests_cant": "Real-valued arguments.", "anchors": ["egenerator/model/source/track/stochastic_segment.py:StochasticTrackSegmentModel.shift_distance_on_track", "egenerator/model/source/track/stochastic_segment.py:StochasticTrackSegmentModel.get_dep_energy"]}
{"id": "C63", "title": "A component saved by another version still loads", "statement": "Loading a component that was saved by a different version of the software gives a warning and then loads it like any other.", "quantifier": "all saved components and pairs of versions", "why_tests_cant": "Any tree saved by any earlier version.", "anchors": ["egenerator/manager/component.py:BaseComponent.load"]}
{"id": "C64", "title": "Sources along a track lie on the track", "statement": "The cascades and the track segment that a muon or track multi source hands to its base models lie on the line through the vertex along the direction of flight at time vertex time plus distance over the speed of light, have the direction of the track, their own energy, and exactly the parameters of their base model.", "quantifier": "all numbers of cascades and snowstorm parameters, all parameter values", "why_tests_cant": "Real parameters and any number of cascades.", "anchors": ["egenerator/model/multi_source/muon/default.py:DefaultMultiCascadeModel.get_source_parameters", "egenerator/model/multi_source/track/stochastic_track.py:StochasticTrackModel.get_source_parameters"]}
{"id": "C66", "title": "Energy and efficiencies scale the expected charge", "statement": "Where a source model is configured to scale its charge by energy, relative DOM efficiency or global DOM efficiency, the expected charge (up to the constant 1e-7) is proportional to that quantity, and it does not depend on it otherwise; mixture parameters, excluded fractions and the time density never depend on them except through the network.", "quantifier": "all settings, network outputs, energies, efficiencies and exclusion windows", "why_tests_cant": "Real-valued inputs and all combinations of settings.", "anchors": ["egenerator/model/source/cascade/default.py:DefaultCascadeModel.get_tensors"]}
{"id": "C67", "title": "The loss is the negative log likelihood of its model", "statement": "The scalar loss of each named loss function is the negative logarithm of the documented likelihood: of the unbinned Poisson process with rate charge times time density (each pulse weighted by its charge), of the time densities, of the charge densities of valid DOMs, of the densities of pulses within the quantile limits, of negative binomial laws with the predicted mean and variance for DOMs or events, of a normal law for the event charge, or of the shares of DOMs in the event charge. The extended likelihood is best where the predicted charge of every DOM is the measured one.", "quantifier": "all batches, predictions and masks", "why_tests_cant": "Real-valued inputs, any number of events and pulses.", "anchors": ["egenerator/loss/default.py:DefaultLossModule"]}
{"id": "C68", "title": "The optimizer stops when and why it says", "statement": "A run of the spherical optimizer with valid arguments always ends; the stopping flag is -1 exactly if all iterations were done and otherwise names a condition that holds; the function is called at most one iteration's worth of calls more than max_calls; the points drawn for a batch are distinct and never the best one.", "quantifier": "all objective functions, random choices, limits and initial points", "why_tests_cant": "Needs all histories of a random search.", "anchors": ["egenerator/utils/spherical_opt.py:spherical_opt"]}
{"id": "C69", "title": "Convergence of points means their spread is below the threshold", "statement": "A run stops for convergence of the points exactly if the standard deviation of every coordinate with a positive threshold is below that threshold; thresholds that are not positive are ignored.", "quantifier": "all thresholds and all spreads", "why_tests_cant": "Thresholds and spreads are real numbers.", "anchors": ["egenerator/utils/spherical_opt.py:spherical_opt"]}
{"id": "C70", "title": "The opening angle is the angle between the directions", "statement": "get_angle and get_angle_deviation return the angle between the two directions, for all vectors other than zero and all angles; it is symmetric, between 0 and pi, zero only for equal directions, and independent of the length of the vectors.", "quantifier": "all pairs of vectors, all zenith and azimuth angles", "why_tests_cant": "Real geometry.", "anchors": ["egenerator/utils/angles.py:get_angle", "egenerator/utils/angles.py:get_angle_deviation"]}
{"id": "C71", "title": "Regularisation is weighted with its coefficients", "statement": "The regularization loss added to the training loss is l1 times the sum of absolute values plus l2 times the sum of squares of the trainable variables, summed over the models; it is zero if both coefficients are zero.", "quantifier": "all coefficients, all variables, all ensembles of models", "why_tests_cant": "Coefficients and variables are real numbers; the test data uses one coefficient.", "anchors": ["egenerator/manager/base.py:regularization_loss", "egenerator/manager/base.py:get_loss"]}
{"id": "C72", "title": "Placeholders in configuration strings are replaced by the named settings", "statement": "After the setup every string of the configuration, at any depth of nested dictionaries, has its placeholders replaced by the final values of the settings they name; a placeholder for an unknown setting raises.", "quantifier": "all merged configurations, all orders of settings", "why_tests_cant": "Needs all configurations and orders of keys.", "anchors": ["egenerator/settings/setup_manager.py:SetupManager.expand_strings", "egenerator/settings/setup_manager.py:SetupManager._setup_config"]}
{"id": "C73", "title": "A sampled event is evaluated on its own data", "statement": "The goodness of fit evaluates each sampled event with the pulses and the charges at the DOMs of that sampled event.", "quantifier": "all data batches, all sampled events", "why_tests_cant": "The charges of a sampled event differ from the data at random DOMs.", "anchors": ["egenerator/manager/reconstruction/modules/fit_quality.py:GoodnessOfFit.execute"]}
{"id": "C74", "title": "The result of a reconstruction is written under the names of its parameters", "statement": "After a reconstruction the frame holds, under the output key, a map with the fitted value of every parameter, the success of the minimisation and the losses, and a particle built from the mapped parameters.", "quantifier": "all parameter names, mappings, settings and results", "why_tests_cant": "Which entries collide depends on the names of the parameters.", "anchors": ["egenerator/ic3/reconstruction.py:EventGeneratorReconstruction.Physics"]}
{"id": "C75", "title": "A reconstruction never replaces objects of the frame", "statement": "The module only adds objects to the frame: every object that was in the frame keeps its value, and a frame that already has one of the output keys makes the module raise.", "quantifier": "all frames, output keys, settings and results", "why_tests_cant": "The frame is arbitrary.", "anchors": ["egenerator/ic3/reconstruction.py:EventGeneratorReconstruction.Physics", "egenerator/ic3/reconstruction.py:EventGeneratorReconstruction.write_cov_matrix"]}
{"id": "C76", "title": "Parameters are fitted or fixed as the settings say", "statement": "Exactly the parameters set to be fitted are minimised, in the order of the parameters; parameters not named take the default; unknown names are refused.", "quantifier": "all settings and parameter names", "why_tests_cant": "Ranges over all settings.", "anchors": ["egenerator/ic3/reconstruction.py:EventGeneratorReconstruction.Configure"]}
{"id": "C77", "title": "The inputs of the networks have the declared number of channels", "statement": "For every configuration and hypothesis of matching length, each source model feeds its networks exactly as many channels per DOM as they were built for.", "quantifier": "all configurations, hypotheses and DOM positions", "why_tests_cant": "The number of channels depends on every setting.", "anchors": ["egenerator/model/source/cascade/default.py:DefaultCascadeModel", "egenerator/model/source/cascade/charge_quantiles.py:ChargeQuantileCascadeModel", "egenerator/model/source/cascade/systematic.py:SystematicsCascadeModel", "egenerator/model/source/track/stochastic_segment.py:StochasticTrackSegmentModel"]}
{"id": "C78", "title": "The inputs of the networks are finite", "statement": "For every hypothesis with energy and length that are not negative the inputs of the networks are finite numbers; in training, hypotheses with negative energy or length and inputs that are not finite are refused.", "quantifier": "all configurations, hypotheses and DOM positions", "why_tests_cant": "Singular points of real functions.", "anchors": ["egenerator/model/source/cascade/default.py:DefaultCascadeModel.get_tensors", "egenerator/model/source/cascade/systematic.py:SystematicsCascadeModel.get_tensors", "egenerator/model/source/track/stochastic_segment.py:StochasticTrackSegmentModel.get_tensors"]}
{"id": "C79", "title": "The networks see every parameter except the time, and nothing else", "statement": "If the inputs of two hypotheses agree at a DOM, then so do relative position, direction, energy and all further parameters (except the DOM efficiency for the systematics model, which scales the charge afterwards); conversely hypotheses that agree in these have the same inputs, at any two DOMs unless DOM coordinates or local variables are given.", "quantifier": "all pairs of hypotheses and DOM positions", "why_tests_cant": "Statement about all pairs of real inputs.", "anchors": ["egenerator/model/source/cascade/default.py:DefaultCascadeModel.get_tensors", "egenerator/model/source/cascade/systematic.py:SystematicsCascadeModel.get_tensors", "egenerator/model/source/track/stochastic_segment.py:StochasticTrackSegmentModel.get_tensors"]}
{"id": "C80", "title": "The geometry of track and DOM is right", "statement": "The points of closest approach of the infinite and the finite track are nearest to the DOM (up to 0.7 m for the finite one), the DOM is seen from the Cherenkov position under the Cherenkov angle, the opening angle is that of direction and displacement, and the energies before and behind are those of adjacent parts.", "quantifier": "all hypotheses and DOM positions", "why_tests_cant": "Real geometry.", "anchors": ["egenerator/model/source/track/stochastic_segment.py:StochasticTrackSegmentModel.get_tensors"]}
{"id": "C81", "title": "Covariance matrices are those of the likelihood in the fitted parameters", "statement": "The covariance of a reconstruction is the inverse of the second derivatives of the loss at the best fit, with respect to the parameters (their logarithm where one is used) and whether or not the minimizer used transformed parameters; the robust one is the product of it, the summed outer products of the gradients of all loss terms, and it again; both are symmetric without negative variances at a minimum, and nan if the second derivatives have no inverse.", "quantifier": "all losses, best fits, transformations and numbers of parameters", "why_tests_cant": "Statement about derivatives and inverse matrices for every function.", "anchors": ["egenerator/manager/reconstruction/modules/covariance.py:CovarianceMatrix.execute", "egenerator/manager/source.py:SourceManager.get_hessian_function", "egenerator/manager/source.py:SourceManager.get_opg_estimate_function", "egenerator/data/trafo.py:DataTransformer.inverse_transform_cov"]}
{"id": "C82", "title": "Markov chains sample the likelihood from the best fit", "statement": "Chains start at the best fit, use the step sizes meant for each parameter, every state counts as often as the chain stays there, and the returned probabilities are those of the returned samples.", "quantifier": "all samplers, losses, transformations and settings", "why_tests_cant": "Randomised algorithm with arbitrary loss.", "anchors": ["egenerator/manager/reconstruction/modules/mcmc.py:MarkovChainMonteCarlo.execute", "egenerator/manager/source.py:SourceManager.run_mcmc_on_events"]}
{"id": "C83", "title": "The circularised uncertainty of a parabola is its width", "statement": "If the loss grows like psi\u00b2/(2 sigma\u00b2) with the opening angle psi, the circularised angular uncertainty is sigma, for any number of parameters of the model and any choice of angles; the angles cover the range up to twice the width of the covariance matrix and less than 90 degrees.", "quantifier": "all widths, sets of angles, numbers of parameters and covariance matrices", "why_tests_cant": "The result is the minimum of a real function.", "anchors": ["egenerator/manager/reconstruction/modules/opening_angle.py:CircularizedAngularUncertainty.execute", "egenerator/manager/reconstruction/modules/opening_angle.py:CircularizedAngularUncertainty.get_circularized_estimate"]}
{"id": "C84", "title": "Limits of a fit are limits of the parameters", "statement": "If limits are given for the parameters of a fit, no returned parameter is outside of them, in the units of the user and whether or not the minimizer works on transformed parameters; a missing limit does not restrict the parameter; this holds for any number of events and any choice of fitted parameters.", "quantifier": "all limits, seeds, transformations, flags, numbers of events and minimizers that respect limits", "why_tests_cant": "The values depend on an arbitrary minimizer and transformation.", "anchors": ["egenerator/manager/source.py:SourceManager.reconstruct_events", "egenerator/data/trafo.py:DataTransformer.transform"]}
{"id": "C85", "title": "A batch of events is fitted like each event on its own", "statement": "If the loss is a sum of one term per event, the minimum of the loss of a batch is where the loss of every event has its minimum, and row b of the result belongs to event b.", "quantifier": "all batch sizes, losses, transformations, flags and seeds", "why_tests_cant": "Statement about the minimum of arbitrary functions.", "anchors": ["egenerator/manager/source.py:SourceManager.reconstruct_events", "egenerator/manager/source.py:SourceManager.get_parameter_loss_function"]}
{"id": "C86", "title": "A global fit depends on its arguments only", "statement": "What the global minimizer is called with follows from the arguments of the call, whatever was reconstructed before, and the settings that a user passes are not changed.", "quantifier": "all histories of calls with any arguments", "why_tests_cant": "Hidden state needs an arbitrary history of calls.", "anchors": ["egenerator/manager/source.py:SourceManager.scipy_global_reconstruct_events"]}
{"id": "C87", "title": "All minimizers can be used in place of each other", "statement": "The interfaces to shgo and spherical_opt work for the same numbers of events, fitted parameters and spaces as the one to scipy.optimize.minimize and return one row per event; the losses of the points of a batch add up to the total loss.", "quantifier": "all batch sizes, flags, seeds, transformations, losses and minimizers", "why_tests_cant": "Ranges over all shapes and arbitrary minimizers.", "anchors": ["egenerator/manager/source.py:SourceManager.scipy_global_reconstruct_events", "egenerator/manager/source.py:SourceManager.reconstruct_events_spherical_opt"]}
{"id": "C88", "title": "Random seeds are within the limits of their fit", "statement": "The random seeds of the reconstruction of test data keep the energy, vary position and time around the seed, and every parameter is within the limits of the fits that start there, whatever is drawn; models with fewer than thirteen parameters are refused.", "quantifier": "all draws, seeds and batch sizes", "why_tests_cant": "Random values cannot be enumerated.", "anchors": ["egenerator/manager/reconstruction/modules/reconstruction.py:Reconstruction.execute", "egenerator/manager/source.py:SourceManager.reconstruct_testdata"]}
{"id": "C89", "title": "The table of reconstructed test data has one correct row per event", "statement": "The file written after the reconstruction of test data has one row per event, in the order of the events, with the true, reconstructed and seed value of every parameter, the losses of these, and the requested uncertainties and p-values of that event, for any batch size and any parameter names.", "quantifier": "all numbers and sizes of batches, parameter names, options and results of the modules", "why_tests_cant": "Ranges over all sizes of batches and all combinations of options.", "anchors": ["egenerator/manager/source.py:SourceManager.reconstruct_testdata"]}
{"id": "C90", "title": "Seed columns show where the chosen fit began", "statement": "The seed values in the table of reconstructed test data are the values at which the chosen fit of the event started, whether seeds are given as a name or a list, with and without random seeds.", "quantifier": "all seeds, batches and outcomes of the selection", "why_tests_cant": "The choice depends on arbitrary losses of fits.", "anchors": ["egenerator/manager/source.py:SourceManager.reconstruct_testdata"]}
{"id": "C91", "title": "Every seed is fitted, with and without random seeds", "statement": "For any distinct seeds the reconstruction of test data fits every one of them (and, with random seeds, each random seed, followed by a second fit from the best of these), and then chooses among the fits; the further modules use the chosen fit and the covariance matrix if there is one; unknown seeds are refused.", "quantifier": "all lists of seeds, numbers of random seeds and options", "why_tests_cant": "Any number of seeds and random seeds.", "anchors": ["egenerator/manager/source.py:SourceManager.reconstruct_testdata", "egenerator/manager/reconstruction/tray.py:ReconstructionTray.add_module"]}
{"id": "C92", "title": "Parameters are fitted as configured", "statement": "A parameter is fitted or minimised in the way that is configured for its name, other parameters follow the default, and unknown names are refused.", "quantifier": "all parameter names, defaults and configured flags", "why_tests_cant": "Any set of names in any order.", "anchors": ["egenerator/manager/source.py:SourceManager.reconstruct_testdata", "egenerator/model/source/base.py:Source.get_index"]}
{"id": "C93", "title": "Settings of the reconstruction are followed", "statement": "Every setting of the reconstruction of test data has its effect: the directory of the output file is created when missing, Markov chains run with the configured numbers, scans of the likelihood are made on request.", "quantifier": "all settings, output paths and results of Markov chains", "why_tests_cant": "Ranges over all settings and all runs of the Markov chains.", "anchors": ["egenerator/manager/source.py:SourceManager.reconstruct_testdata", "egenerator/manager/reconstruction/modules/visualization.py:Visualize1DLikelihoodScan.execute"]}
{"id": "C94", "title": "An ensemble consists of the saved models with the requested modules", "statement": "When managers are set up for a reconstruction, the models in use are all models of all saved managers, in the order of the managers, and the data handler is the saved one in which every module that is asked for replaces the saved one, for any number of managers.", "quantifier": "all saved managers, numbers of managers and requested modules", "why_tests_cant": "Ranges over all directories, all trees of components and any number of managers.", "anchors": ["egenerator/utils/configurator.py:ManagerConfigurator", "egenerator/reconstruct_test_data.py:main", "egenerator/manager/base.py:BaseModelManager.models"]}
{"id": "C95", "title": "Requested settings of the modules are in force", "statement": "Every setting a user requests for the misc, label and data modules when setting up a reconstruction is in force in the data handler that is used, the other settings are those of the configuration file, and modules for which nothing is requested are the saved ones.", "quantifier": "all requested settings, configuration files and saved managers", "why_tests_cant": "Any combination of settings over any saved manager.", "anchors": ["egenerator/utils/configurator.py:ManagerConfigurator", "egenerator/reconstruct_test_data.py:main"]}
{"id": "C96", "title": "The training script saves what it trained and continues from there", "statement": "Training into a directory without a saved manager starts from new models, and at its end the directory holds a manager that can be loaded, with the final weights and one recorded training step; training again with the option to restore starts from the weights of the run before and adds one training step, for any number of runs.", "quantifier": "all directories, contents of the disk, numbers of iterations, saving frequencies and sequences of runs", "why_tests_cant": "Any number of runs over any contents of a disk; tests train one model into one fresh directory.", "anchors": ["egenerator/train_model.py:main", "egenerator/utils/build_components.py:build_manager", "egenerator/manager/base.py:BaseModelManager.train", "egenerator/manager/component.py:BaseComponent.save"]}
{"id": "C97", "title": "Scripts do not replace saved results without consent", "statement": "If a manager or a transformation is saved at the place a script is asked to write to and the user neither agrees nor asks to continue the training, nothing is changed; in all cases nothing outside that place is changed.", "quantifier": "all directories, contents of the disk, answers and options", "why_tests_cant": "Holds for every path and content of a disk; a test checks a single directory.", "anchors": ["egenerator/train_model.py:main", "egenerator/create_trafo_model.py:main"]}
{"id": "C98", "title": "An exported manager has the models of all given managers", "statement": "If the export succeeds, the output directory holds a loadable manager whose models are those of all given managers in their order and the chosen settings file, the user agreed if something was there, and nothing else is changed; it succeeds whenever all given files and managers exist and fit together.", "quantifier": "all lists of settings files, output directories and contents of the disk", "why_tests_cant": "Any number of managers and any relation between the directories.", "anchors": ["egenerator/export_manager.py:main"]}
{"id": "C99", "title": "Models and managers are built from what is given and named", "statement": "A model is built exactly if each base source its settings name can be loaded from its directory, or configured with its own or else the model's transformation; a manager consists of the given parts and otherwise of those of the settings; without permission to rebuild, no model is made from scratch.", "quantifier": "all settings with any number of base sources, all combinations of given parts", "why_tests_cant": "Any number of base sources and any outcome of loading and configuring.", "anchors": ["egenerator/utils/build_components.py:build_model", "egenerator/utils/build_components.py:build_manager", "egenerator/utils/build_components.py:build_loss_module"]}
