{
 "claims": [
  {
   "property": "C01",
   "status": "proved",
   "theorems": [
    "Verif.Component.C01_merged_view"
   ],
   "note": ""
  },
  {
   "property": "C02",
   "status": "partial",
   "theorems": [
    "Verif.Component.C02_update_mutable_partial",
    "Verif.Component.C02_all_or_nothing_violated"
   ],
   "note": "A failing update has already written earlier keys; the rest of the property holds."
  },
  {
   "property": "C03",
   "status": "partial",
   "theorems": [
    "Verif.Component.C03_is_compatible_decides",
    "Verif.Component.C03_is_compatible_refl",
    "Verif.Component.C03_is_compatible_ignores_mutable",
    "Verif.Component.C03_is_compatible_equivalence_partial",
    "Verif.Component.C03_symmetric_violated"
   ],
   "note": "Decision logic, reflexivity and independence of mutable settings hold; symmetry is false in general and proved when mutable names are a function of the class."
  },
  {
   "property": "C04",
   "status": "proved",
   "theorems": [
    "Verif.Component.C04_bookkeeping_invariant",
    "Verif.Component.C04_add_sub_components",
    "Verif.Component.C04_replace_sub_components",
    "Verif.Component.C04_wrong_name_rejected",
    "Verif.Component.C04_add_names"
   ],
   "note": ""
  },
  {
   "property": "C05",
   "status": "proved",
   "theorems": [
    "Verif.Component.C05_configured_is_final",
    "Verif.Component.C05_step",
    "Verif.Component.C05_at_most_one_success"
   ],
   "note": "Histories of configure, load and save calls with arbitrary hooks; the update hook is assumed not to set the configured flag itself."
  },
  {
   "property": "C06",
   "status": "partial",
   "theorems": [
    "Verif.Component.C06_arguments_recorded_partial",
    "Verif.Component.C06_empty_container_violated",
    "Verif.Component.C06_name_used_twice_violated"
   ],
   "note": "Holds when no name is used twice and no container is empty; both gaps are shown by witnesses."
  },
  {
   "property": "C07",
   "status": "partial",
   "theorems": [
    "Verif.Component.C07_save_load_round_trip",
    "Verif.Component.C07_save_to_empty_location",
    "Verif.Component.C07_configure_is_saveable",
    "Verif.Component.C07_dotted_names_violated"
   ],
   "note": "Holds for all trees whose sub component names stay distinct after removal of a file extension; fails otherwise (witness). Version mismatch: C63."
  },
  {
   "property": "C08",
   "status": "proved",
   "theorems": [
    "Verif.Component.C08_existing_files_untouched",
    "Verif.Component.C08_own_file_exists",
    "Verif.Component.C08_only_below_location"
   ],
   "note": "All crash points, all trees, all file systems."
  },
  {
   "property": "C09",
   "status": "proved",
   "theorems": [
    "Verif.Component.C09_load_with_replacements",
    "Verif.Component.C09_unknown_name_raises",
    "Verif.Component.C09_bad_replacement_raises",
    "Verif.Component.C09_caller_dictionary_emptied",
    "Verif.Component.C09_rest_as_saved",
    "Verif.Component.C09_accepts_exactly"
   ],
   "note": "All nested replacement dictionaries; update hook constrained as in the two implementations in the code base.  Also shown: data and all other parts of the configuration are those saved, and the hook for updated sub components gets exactly the given names.  C09_accepts_exactly: for replacements that can be saved, loading succeeds exactly if they fit, at every depth."
  },
  {
   "property": "C10",
   "status": "proved",
   "theorems": [
    "Verif.Tensor.C10_order_independent",
    "Verif.Tensor.C10_sorted_and_complete",
    "Verif.Tensor.C10_index_and_name",
    "Verif.Tensor.C10_copy"
   ],
   "note": ""
  },
  {
   "property": "C100",
   "status": "partial",
   "theorems": [
    "Verif.Build.C100_check_partial",
    "Verif.Build.C100_only_violated",
    "Verif.Build.C100_column_violated",
    "Verif.Build.C100_eager_violated"
   ],
   "note": "The exact criterion is proved: the numbers match and each source depends on the input at all. Parameters that depend on variables or are constant are accepted; in eager mode only numbers are checked."
  },
  {
   "property": "C101",
   "status": "partial",
   "theorems": [
    "Verif.Build.C101_load_partial",
    "Verif.Build.C101_distinct_partial",
    "Verif.Build.C101_nested_violated",
    "Verif.Build.C101_same_violated",
    "Verif.Build.C101_builtin_violated"
   ],
   "note": "Proved for classes at the top level of modules that are not built in; fails for nested and built-in classes."
  },
  {
   "property": "C102",
   "status": "partial",
   "theorems": [
    "Verif.Modules.C102_data_partial",
    "Verif.Modules.C102_tensors",
    "Verif.Modules.C102_recorded_partial",
    "Verif.Modules.C102_unknown",
    "Verif.Modules.C102_stale_violated",
    "Verif.Modules.C102_settings_violated"
   ],
   "note": "Data and tensors are proved equal if the new modules have data of the same names; otherwise old data stays. The recorded settings cannot be used to set up a handler."
  },
  {
   "property": "C103",
   "status": "proved",
   "theorems": [
    "Verif.Modules.C103_write"
   ],
   "note": ""
  },
  {
   "property": "C104",
   "status": "proved",
   "theorems": [
    "Verif.Tray.C104_alone",
    "Verif.Tray.C104_once",
    "Verif.Tray.C104_reconstruction",
    "Verif.Tray.C104_circular",
    "Verif.Tray.C104_others"
   ],
   "note": ""
  },
  {
   "property": "C105",
   "status": "partial",
   "theorems": [
    "Verif.Tray.C105_scan_partial",
    "Verif.Tray.C105_kept",
    "Verif.Tray.C105_fixed_violated",
    "Verif.Tray.C105_space_violated",
    "Verif.Tray.C105_covariance_violated",
    "Verif.Tray.C105_tray_violated"
   ],
   "note": "Proved if all parameters are fitted in transformed space. Otherwise the scan raises or evaluates the loss in the wrong space; in a tray the module always makes the event fail."
  },
  {
   "property": "C106",
   "status": "proved",
   "theorems": [
    "Verif.Quality.C106_points",
    "Verif.Quality.C106_all",
    "Verif.Quality.C106_range"
   ],
   "note": "For random vectors that are not parallel to the fitted direction."
  },
  {
   "property": "C107",
   "status": "partial",
   "theorems": [
    "Verif.Quality.C107_samples_partial",
    "Verif.Quality.C107_data_partial",
    "Verif.Quality.C107_subset_violated",
    "Verif.Quality.C107_data_violated",
    "Verif.Quality.C107_no_hit_violated"
   ],
   "note": "Proved if all parameters are fitted (or exactly one, except for the loss of the data) and all simulated events have hits. Otherwise events get no result or the loss of the data belongs to another hypothesis."
  },
  {
   "property": "C108",
   "status": "partial",
   "theorems": [
    "Verif.Quality.C108_position_partial",
    "Verif.Quality.C108_again_violated",
    "Verif.Quality.C108_goodness_violated"
   ],
   "note": "The uncertainty of an event depends on earlier events only through their number; both estimates depend on the position of the event."
  },
  {
   "property": "C109",
   "status": "proved",
   "theorems": [
    "Verif.Ic3.C109_one_fit",
    "Verif.Ic3.C109_complete",
    "Verif.Ic3.C109_entries"
   ],
   "note": "That the fit is the one with the lowest loss is C43."
  },
  {
   "property": "C11",
   "status": "partial",
   "theorems": [
    "Verif.Tensor.C11_round_trip_partial",
    "Verif.Tensor.C11_spec_named_type_violated"
   ],
   "note": "The round trip holds exactly when no extra spec is named type or specs; otherwise it is lost."
  },
  {
   "property": "C110",
   "status": "partial",
   "theorems": [
    "Verif.Ic3.C110_accepted",
    "Verif.Ic3.C110_tray",
    "Verif.Ic3.C110_single",
    "Verif.Ic3.C110_directories",
    "Verif.Ic3.C110_fixed_violated",
    "Verif.Ic3.C110_empty_violated"
   ],
   "note": "The accepted settings and the tray are proved for parameter names that are distinct. A module with the circularised uncertainty and a fixed parameter, or without seeds, is accepted and fails for every event."
  },
  {
   "property": "C111",
   "status": "partial",
   "theorems": [
    "Verif.Access.C111_accepted_partial",
    "Verif.Access.C111_nothing",
    "Verif.Access.C111_frame_partial",
    "Verif.Access.C111_vector_violated"
   ],
   "note": "Proved for tensors in event structure; nothing is checked for vectors, so any shape and even missing data is handed out."
  },
  {
   "property": "C112",
   "status": "partial",
   "theorems": [
    "Verif.Access.C112_same",
    "Verif.Access.C112_frame_partial",
    "Verif.Access.C112_tensors",
    "Verif.Access.C112_filtered_violated",
    "Verif.Access.C112_violated"
   ],
   "note": "Data set and signature agree, and tensors in event structure fit the declared shape; vectors and types need not fit, and a frame without usable events raises a TypeError on conversion."
  },
  {
   "property": "C113",
   "status": "partial",
   "theorems": [
    "Verif.Access.C113_same_number_partial",
    "Verif.Access.C113_violated"
   ],
   "note": "Right if the selection keeps the number of events; a selection that removes events always makes the batch process fail because the old number of events is used."
  },
  {
   "property": "C114",
   "status": "partial",
   "theorems": [
    "Verif.Access.C114_accepted",
    "Verif.Access.C114_module",
    "Verif.Access.C114_config_data_violated",
    "Verif.Access.C114_dummy_violated"
   ],
   "note": "Set up without test data is right; with test data the modular handler always raises because the argument is missing in the recorded settings, and some modules reject the list of files."
  },
  {
   "property": "C115",
   "status": "partial",
   "theorems": [
    "Verif.Access.C115_keywords_partial",
    "Verif.Access.C115_positional_violated"
   ],
   "note": "Keyword arguments are passed on; any additional positional argument raises a TypeError."
  },
  {
   "property": "C116",
   "status": "proved",
   "theorems": [
    "Verif.Access.C116_killed",
    "Verif.Access.C116_started",
    "Verif.Access.C116_queues"
   ],
   "note": "That terminate and join end a process is part of the model."
  },
  {
   "property": "C117",
   "status": "partial",
   "theorems": [
    "Verif.Nested.C117_one_model_partial",
    "Verif.Nested.C117_load_partial",
    "Verif.Nested.C117_kept_partial",
    "Verif.Nested.C117_settings_partial",
    "Verif.Nested.C117_extension_violated",
    "Verif.Nested.C117_settings_violated"
   ],
   "note": "Proved for all nestings if names have no file extension and variables have not changed; with an extension the directories of save and save_weights differ, and save_training_settings of a manager misses the sources of multi sources."
  },
  {
   "property": "C118",
   "status": "partial",
   "theorems": [
    "Verif.Nested.C118_crash_partial",
    "Verif.Nested.C118_mixed_violated",
    "Verif.Nested.C118_numbers_violated",
    "Verif.Nested.C118_repair_partial"
   ],
   "note": "Proved: the exact state of each source at every crash point, and that the next save repairs the latest weights unless a source is caught in its vulnerable window. A crash between two sources gives a mixture of weights without an exception, and shifts the numbers for good."
  },
  {
   "property": "C119",
   "status": "partial",
   "theorems": [
    "Verif.Nested.C119_trafo_partial",
    "Verif.Nested.C119_none_violated",
    "Verif.Nested.C119_replaced_violated"
   ],
   "note": "Right with a data transformation; without one, or with a base source of the name data_trafo, it is not."
  },
  {
   "property": "C12",
   "status": "proved",
   "theorems": [
    "Verif.Tensor.C12_constructor",
    "Verif.Tensor.C12_keywords"
   ],
   "note": ""
  },
  {
   "property": "C120",
   "status": "partial",
   "theorems": [
    "Verif.Frames.C120_frame",
    "Verif.Frames.C120_missing",
    "Verif.Frames.C120_file",
    "Verif.Frames.C120_same_partial",
    "Verif.Frames.C120_empty_violated",
    "Verif.Frames.C120_segments",
    "Verif.Frames.C120_muons"
   ],
   "note": "Proved for all events and files with at least one event; a file without events is skipped with snowstorm parameters and accepted without. The shift to the shower maximum is an arbitrary function of the row (C25 models it)."
  },
  {
   "property": "C121",
   "status": "partial",
   "theorems": [
    "Verif.Reload.C121_sources_partial",
    "Verif.Reload.C121_loss_violated"
   ],
   "note": "Right for all trees of sources, multi sources (with a data transformation) and components without untracked data. False for loss modules: after loading, get_loss of each of them raises for every batch. Architectures are taken to depend on settings and name only; weights are in C27, C28 and C117."
  },
  {
   "property": "C122",
   "status": "partial",
   "theorems": [
    "Verif.Reload.C122_source_partial",
    "Verif.Reload.C122_multi_partial",
    "Verif.Reload.C122_name_violated",
    "Verif.Reload.C122_trafo_violated"
   ],
   "note": "Right for arguments that are given or left out; None given explicitly for the name, or for the data transformation of a multi source, always raises."
  },
  {
   "property": "C123",
   "status": "proved",
   "theorems": [
    "Verif.Equality.C123_tensor",
    "Verif.Equality.C123_list",
    "Verif.Equality.C123_equivalence",
    "Verif.Equality.C123_spelling"
   ],
   "note": "Values are None, booleans, integers, strings, lists, tuples, dictionaries and opaque objects compared by identity; numpy arrays and nan as settings are not modelled."
  },
  {
   "property": "C124",
   "status": "partial",
   "theorems": [
    "Verif.Equality.C124_checked_partial",
    "Verif.Equality.C124_unchecked_partial",
    "Verif.Equality.C124_unchecked_violated"
   ],
   "note": "Right for the label modules and the pulse module. False for the modules without data and the seed loader: they accept every list of tensors and have other tensors."
  },
  {
   "property": "C125",
   "status": "partial",
   "theorems": [
    "Verif.Alias.C125_new",
    "Verif.Alias.C125_isolated",
    "Verif.Alias.C125_constant",
    "Verif.Alias.C125_update",
    "Verif.Alias.C125_mutable_partial",
    "Verif.Alias.C125_lists_partial",
    "Verif.Alias.C125_mutable_violated",
    "Verif.Alias.C125_lists_violated"
   ],
   "note": "Proved for constant and combined settings in all programs. False for mutable settings changed through an object that was passed to update_mutable_settings (the combined settings then differ from them), and for the lists of sub component names, which are handed out themselves."
  },
  {
   "property": "C126",
   "status": "partial",
   "theorems": [
    "Verif.Alias.C126_own_partial",
    "Verif.Alias.C126_others_partial",
    "Verif.Alias.C126_argument_violated",
    "Verif.Alias.C126_shared_violated"
   ],
   "note": "Right if each dictionary is used for one multi source only. With a data transformation the dictionary of the caller is changed; a second multi source from the same dictionary replaces the transformation of the first."
  },
  {
   "property": "C127",
   "status": "partial",
   "theorems": [
    "Verif.Variables.C127_new_variable_partial",
    "Verif.Variables.C127_loaded_partial",
    "Verif.Variables.C127_removed_violated",
    "Verif.Variables.C127_loaded_violated",
    "Verif.Variables.C127_twice_violated"
   ],
   "note": "Right for new variables. False for removed variables, which are never noticed, and for unchanged models whose sub components are models: these cannot be saved after loading (the multi sources and managers of the project have their own save_weights without this check; only classes derived from Model directly are affected)."
  },
  {
   "property": "C128",
   "status": "partial",
   "theorems": [
    "Verif.Retry.C128_configure",
    "Verif.Retry.C128_load_partial",
    "Verif.Retry.C128_handler_partial",
    "Verif.Retry.C128_flag",
    "Verif.Retry.C128_handler_load_partial",
    "Verif.Retry.C128_stale_violated",
    "Verif.Retry.C128_handler_violated",
    "Verif.Retry.C128_handler_final"
   ],
   "note": "True for configure of components in general, and for load up to sub components that are not saved in the directory: those of failed calls remain. False for the modular data handler: after a call that failed once its classes were found - such as any call with test data - it can never be configured again.  C128_handler_final: a configured handler stays as it is."
  },
  {
   "property": "C129",
   "status": "partial",
   "theorems": [
    "Verif.Retry.C129_new",
    "Verif.Retry.C129_configured_partial",
    "Verif.Retry.C129_loaded_violated",
    "Verif.Retry.C129_failed_violated",
    "Verif.Retry.C129_no_modules_violated"
   ],
   "note": "Right for new handlers and after configure succeeded. False for loaded handlers (modules_are_loaded stays False) and after failed calls."
  },
  {
   "property": "C13",
   "status": "proved",
   "theorems": [
    "Verif.Trafo.C13_fitted_values",
    "Verif.Trafo.C13_deviation_positive"
   ],
   "note": "over the reals; no rounding"
  },
  {
   "property": "C130",
   "status": "partial",
   "theorems": [
    "Verif.Interface.C130_choice",
    "Verif.Interface.C130_tfp_partial",
    "Verif.Interface.C130_fitted_violated",
    "Verif.Interface.C130_batch_violated"
   ],
   "note": "The choice by name is exact. tfp works for one event with all parameters fitted; a TypeError for any other list of flags, and one value for all rows with more events."
  },
  {
   "property": "C131",
   "status": "partial",
   "theorems": [
    "Verif.Interface.C131_losses",
    "Verif.Interface.C131_scipy_partial",
    "Verif.Interface.C131_tfp",
    "Verif.Interface.C131_shog_partial",
    "Verif.Interface.C131_spherical_partial",
    "Verif.Interface.C131_limit_violated"
   ],
   "note": "Proved for all four interfaces (scipy: any number of events, the others: one) for seeds within the limits of the transformation and, except for tfp, results within them. False beyond: the minimised loss limits logarithmic parameters, the report does not."
  },
  {
   "property": "C132",
   "status": "partial",
   "theorems": [
    "Verif.Runs.C132_recorded",
    "Verif.Runs.C132_kept",
    "Verif.Runs.C132_ready",
    "Verif.Runs.C132_later_partial",
    "Verif.Runs.C132_violated",
    "Verif.Runs.C132_exception"
   ],
   "note": "The record of runs is exact and never altered. False: after an exception of a component or a crash between the first and the last change, no later run can ever be recorded."
  },
  {
   "property": "C133",
   "status": "proved",
   "theorems": [
    "Verif.Endless.C133_batches",
    "Verif.Endless.C133_content",
    "Verif.Endless.C133_progress",
    "Verif.Endless.C133_forever",
    "Verif.Endless.C133_appends"
   ],
   "note": "For positive sizes and capacities, loaded files with at least one event, and at least one job that never draws a file that raises. A schedule is any infinite sequence of actions."
  },
  {
   "property": "C134",
   "status": "proved",
   "theorems": [
    "Verif.Endless.C134_one_job",
    "Verif.Endless.C134_same",
    "Verif.Endless.C134_draws",
    "Verif.Endless.C134_jobs_needed",
    "Verif.Endless.C134_shuffle_needed"
   ],
   "note": "The draws of a job are a function of its number (RandomState(seed))."
  },
  {
   "property": "C135",
   "status": "partial",
   "theorems": [
    "Verif.Endless.C135_reported_violated",
    "Verif.Endless.C135_dries_up_violated",
    "Verif.Endless.C135_no_files_violated",
    "Verif.Endless.C135_survivor_partial",
    "Verif.Generator.C135_finite_violated"
   ],
   "note": "False: exceptions of a loader end that process only; with no loader left the consumer waits forever. What holds is that the other loaders go on. The same in finite runs with one job."
  },
  {
   "property": "C136",
   "status": "proved",
   "theorems": [
    "Verif.Component.C136_saveable",
    "Verif.Component.C136_round_trip",
    "Verif.Component.C136_save_succeeds",
    "Verif.Component.C136_class"
   ],
   "note": "For trees without two parts in the same directory (names that differ only after a dot, see C07), hooks _update_sub_components that change at most data and mutable settings, and replacements whose class can be imported. The hooks _save and _load are not part of this model."
  },
  {
   "property": "C137",
   "status": "proved",
   "theorems": [
    "Verif.Manager.C137_consistent",
    "Verif.Manager.C137_only_handler",
    "Verif.Manager.C137_saved_models",
    "Verif.Manager.C137_reload",
    "Verif.Manager.C137_history",
    "Verif.Manager.C137_refused"
   ],
   "note": "Configurations are those made by the constructor (C01). The hook _load of models (weights) is not part of this model."
  },
  {
   "property": "C138",
   "status": "proved",
   "theorems": [
    "Verif.Loss.C138_sum",
    "Verif.Loss.C138_normalized",
    "Verif.Loss.C138_sorted",
    "Verif.Loss.C138_prior",
    "Verif.Loss.C138_default",
    "Verif.Loss.C138_multi"
   ],
   "note": "Over the real numbers; C138_normalized for events with a positive number of terms."
  },
  {
   "property": "C139",
   "status": "proved",
   "theorems": [
    "Verif.Batch.C139_event",
    "Verif.Batch.C139_other_events",
    "Verif.Batch.C139_per_dom",
    "Verif.Batch.C139_succeeds",
    "Verif.Batch.C139_loss",
    "Verif.Batch.C139_noise",
    "Verif.Batch.C139_noise_per_dom",
    "Verif.Batch.C139_order",
    "Verif.Batch.C139_loss_order",
    "Verif.Batch.C139_multi",
    "Verif.Batch.C139_independent",
    "Verif.Batch.C139_cascade_base",
    "Verif.Batch.C139_noise_base",
    "Verif.Batch.C139_multi_loss"
   ],
   "note": "For the cascade model and the noise model, over the real numbers. The network is a function of the parameters of one event: not so with batch normalisation in training or with dropout. C139_per_dom carries C33, C34 and C66 over from a single DOM to batches.  C139_order, C139_loss_order: the order of events, pulses and windows does not matter.  C139_multi, C139_independent, C139_multi_loss: the same for multi sources whose base sources are cascade models and noise (C139_cascade_base, C139_noise_base), with the loss."
  },
  {
   "property": "C14",
   "status": "partial",
   "theorems": [
    "Verif.Trafo.C14_inverse_of_transform_partial",
    "Verif.Trafo.C14_transform_of_inverse_partial",
    "Verif.Trafo.C14_transform_value",
    "Verif.Trafo.C14_tensorflow_clip_violated",
    "Verif.Trafo.C14_rejected"
   ],
   "note": "holds except that tensorflow with a partial log mask clips at +-60; over the reals"
  },
  {
   "property": "C140",
   "status": "proved",
   "theorems": [
    "Verif.Loss.C140_hdf",
    "Verif.Loss.C140_frame",
    "Verif.Batch.C140_cascade",
    "Verif.Batch.C140_sources"
   ],
   "note": "Over the real numbers, up to the constants 1e-7 and 1e-6 of the code. Without normalisation terms; excluded time windows are those of the file and do not overlap; several sources share one base (otherwise see C32); the batch consists of the events of one file."
  },
  {
   "property": "C141",
   "status": "proved",
   "theorems": [
    "Verif.Batch.C141_cascade",
    "Verif.Batch.C141_loss",
    "Verif.Batch.C141_cascade_parameters",
    "Verif.Batch.C141_source_later",
    "Verif.Batch.C141_quantiles",
    "Verif.Batch.C141_noise",
    "Verif.Batch.C141_multi",
    "Verif.Batch.C141_independent",
    "Verif.Batch.C141_cascade_base",
    "Verif.Batch.C141_noise_base",
    "Verif.Batch.C141_multi_loss",
    "Verif.Batch.C141_file",
    "Verif.Pulses.C141_hdf"
   ],
   "note": "Over the real numbers (with 32 bit floats late times lose digits). Tables without rows of DOMs that are not used, since these leave uninitialised memory (C22)."
  },
  {
   "property": "C142",
   "status": "proved",
   "theorems": [
    "Verif.Loss.C142_loss",
    "Verif.Loss.C142_table",
    "Verif.Batch.C142_cascade"
   ],
   "note": "Over the real numbers. Excluded by the statement: the charge quantile loss and the normalisation terms, which see the charge of single pulses."
  },
  {
   "property": "C143",
   "status": "proved",
   "theorems": [
    "Verif.Batch.C143_events",
    "Verif.Batch.C143_other_events",
    "Verif.Batch.C143_later",
    "Verif.Batch.C143_direction",
    "Verif.Batch.C143_merged",
    "Verif.Batch.C143_reconstruction",
    "Verif.Batch.C143_computable"
   ],
   "note": "Over the real numbers. That a minimiser finds a minimum is not claimed. Shifts, directions and merged pulses for cascade models (C141, C79, C142)."
  },
  {
   "property": "C144",
   "status": "proved",
   "theorems": [
    "Verif.Batch.C144_file",
    "Verif.Batch.C144_other_files",
    "Verif.Batch.C144_order"
   ],
   "note": "Over the real numbers, up to the constants 1e-7, with the extended likelihood without normalisation terms, for parameters without negative energies and efficiencies. Excluded time windows of a DOM do not overlap. That a minimiser finds the minimum is not claimed."
  },
  {
   "property": "C145",
   "status": "proved",
   "theorems": [
    "Verif.Training.C145_create",
    "Verif.Training.C145_config",
    "Verif.Training.C145_rate",
    "Verif.Training.C145_optimizer"
   ],
   "note": "Rates for increasing boundaries, at least one, inside a tf.function; see C52 for what fails otherwise. Loading a class and calling it are parameters of the model."
  },
  {
   "property": "C15",
   "status": "proved",
   "theorems": [
    "Verif.Trafo.C15_jacobian",
    "Verif.Trafo.C15_shape",
    "Verif.Trafo.C15_outer_product",
    "Verif.Trafo.C15_preserves"
   ],
   "note": ""
  },
  {
   "property": "C16",
   "status": "partial",
   "theorems": [
    "Verif.Handler.C16_split",
    "Verif.Handler.C16_split_rejects",
    "Verif.Handler.C16_join_partial",
    "Verif.Handler.C16_no_rows_violated"
   ],
   "note": "holds except for tensors without any row, which come back as Python lists"
  },
  {
   "property": "C17",
   "status": "partial",
   "theorems": [
    "Verif.Handler.C17_filter_partial",
    "Verif.Handler.C17_rejects",
    "Verif.Handler.C17_missing_tensor_violated"
   ],
   "note": "holds if every plain tensor exists"
  },
  {
   "property": "C18",
   "status": "proved",
   "theorems": [
    "Verif.Handler.C18_result",
    "Verif.Handler.C18_problem",
    "Verif.Handler.C18_counts",
    "Verif.Handler.C18_filtered"
   ],
   "note": ""
  },
  {
   "property": "C19",
   "status": "proved",
   "theorems": [
    "Verif.Handler.C19_batches",
    "Verif.Handler.C19_load_order",
    "Verif.Handler.C19_exactly_once"
   ],
   "note": ""
  },
  {
   "property": "C20",
   "status": "partial",
   "theorems": [
    "Verif.Generator.C20_no_duplicates_partial",
    "Verif.Generator.C20_batch_sizes",
    "Verif.Generator.C20_one_job_partial",
    "Verif.Generator.C20_one_job_aggregated",
    "Verif.Generator.C20_hang_partial",
    "Verif.Generator.C20_some_schedule_delivers_all",
    "Verif.Generator.C20_two_jobs_lose_file_violated",
    "Verif.Generator.C20_leftover_lost_violated",
    "Verif.Generator.C20_aggregator_hangs_violated",
    "Verif.Generator.C20_consumer_hangs_violated",
    "Verif.Generator.C20_too_many_add_files_violated",
    "Verif.Generator.C20_no_files_violated",
    "Verif.Generator.C20_ends",
    "Verif.Generator.C20_end_state",
    "Verif.Generator.C20_no_files_busy_violated"
   ],
   "note": "false as stated: executions that lose events or hang are exhibited. Proved for every schedule: no event is delivered twice; batch sizes; with one job at most the last incomplete batch is missing when the consumer stops; the only two ways to hang Every schedule on at least one file comes to an end."
  },
  {
   "property": "C21",
   "status": "partial",
   "theorems": [
    "Verif.Filter.C21_hdf_conjunction",
    "Verif.Filter.C21_no_constraints",
    "Verif.Filter.C21_unknown_operator",
    "Verif.Filter.C21_frame_partial",
    "Verif.Filter.C21_paths_agree_partial",
    "Verif.Filter.C21_named_column_violated",
    "Verif.Filter.C21_missing_entry_violated",
    "Verif.Filter.C21_lengths"
   ],
   "note": "The hdf mask is the conjunction when every event has a value; the frame path only for vector columns. Named columns raise in the frame path (the key is looked up instead of the column), and a vector entry present in one event decides for all events.  C21_lengths: what happens for vectors with any number of entries."
  },
  {
   "property": "C22",
   "status": "partial",
   "theorems": [
    "Verif.Pulses.C22_hdf_partial",
    "Verif.Pulses.C22_frame_partial",
    "Verif.Pulses.C22_discarded_charge_violated",
    "Verif.Pulses.C22_skipped_pulse_violated",
    "Verif.Pulses.C22_no_pulses_violated",
    "Verif.Pulses.C22_missing_time_exclusions",
    "Verif.Pulses.C22_skipped_exclusion_violated",
    "Verif.Pulses.C22_hdf_skipped_partial",
    "Verif.Pulses.C22_charges_of_pulses"
   ],
   "note": "Exact charges, ids, windows and kept pulses are proved if no row is skipped. Discarded pulses keep contributing to the DOM charge and time window; skipped rows keep uninitialised memory; a frame without pulses raises.  With skipped rows, charges and windows are right for all settings and the other pulses are at their places (C22_hdf_skipped_partial). C22_charges_of_pulses: the charge of a DOM is the sum over its pulses unless they are discarded."
  },
  {
   "property": "C23",
   "status": "partial",
   "theorems": [
    "Verif.Pulses.C23_hdf_partial",
    "Verif.Pulses.C23_frame",
    "Verif.Pulses.C22_skipped_pulse_violated"
   ],
   "note": "All five quantile properties for both paths; in the hdf path only if no pulse row is skipped (a skipped row has an arbitrary quantile)."
  },
  {
   "property": "C24",
   "status": "partial",
   "theorems": [
    "Verif.Seeds.C24_hdf_partial",
    "Verif.Seeds.C24_hdf_skips",
    "Verif.Seeds.C24_frame",
    "Verif.Seeds.C24_frame_skips",
    "Verif.Seeds.C24_several_seeds_violated",
    "Verif.Seeds.C24_first_default_violated"
   ],
   "note": "Full for frames. For hdf files one seed works if its first parameter is stored; two or more seeds are never loaded (the file is closed after the first), and a default for the first parameter is not used."
  },
  {
   "property": "C25",
   "status": "proved",
   "theorems": [
    "Verif.Labels.C25_tracks",
    "Verif.Labels.C25_cascades",
    "Verif.Labels.C25_length_nonneg",
    "Verif.Labels.C25_direction_unit"
   ],
   "note": "Over the real numbers, for every number of cascades."
  },
  {
   "property": "C26",
   "status": "partial",
   "theorems": [
    "Verif.Labels.C26_loaded_columns",
    "Verif.Labels.C26_tracks",
    "Verif.Labels.C26_tracks_negative",
    "Verif.Labels.C26_names_distinct",
    "Verif.Labels.C26_segments",
    "Verif.Labels.C26_muons",
    "Verif.Labels.C26_cascades_partial",
    "Verif.Labels.C26_additional_labels_violated",
    "Verif.Labels.C26_no_log_violated"
   ],
   "note": "Exact characterisation of when the number of flags fits. A single flag with additional labels declares too few flags, and None raises a TypeError in three modules."
  },
  {
   "property": "C27",
   "status": "partial",
   "theorems": [
    "Verif.Checkpoint.C27_kept_partial",
    "Verif.Checkpoint.C27_book_partial",
    "Verif.Checkpoint.C27_save_succeeds",
    "Verif.Checkpoint.C27_same_limit",
    "Verif.Checkpoint.C27_zero_limit_violated",
    "Verif.Checkpoint.C27_negative_limit_violated"
   ],
   "note": "Full for all positive limits, also varying ones and with programs that died early in between. max_keep=0 deletes nothing, so the claim fails there.  Negative limits delete the new checkpoint (C27_negative_limit_violated)."
  },
  {
   "property": "C28",
   "status": "partial",
   "theorems": [
    "Verif.Checkpoint.C28_later_save_partial",
    "Verif.Checkpoint.C28_survivors_partial",
    "Verif.Checkpoint.C28_latest_partial",
    "Verif.Checkpoint.C28_later_save_violated",
    "Verif.Checkpoint.C28_listed_violated",
    "Verif.Checkpoint.C28_torn_violated"
   ],
   "note": "Exact set of crash points after which saving works; what can be loaded at every crash point. The claim as stated is false."
  },
  {
   "property": "C29",
   "status": "partial",
   "theorems": [
    "Verif.Checkpoint.C29_recorded_partial",
    "Verif.Checkpoint.C29_total_partial",
    "Verif.Checkpoint.C29_training_partial",
    "Verif.Checkpoint.C29_training_violated"
   ],
   "note": "The file counts every run once with the last number given. The training loop gives one step less than were made."
  },
  {
   "property": "C30",
   "status": "proved",
   "theorems": [
    "Verif.Sources.C30_inverse",
    "Verif.Sources.C30_indexing"
   ],
   "note": ""
  },
  {
   "property": "C31",
   "status": "proved",
   "theorems": [
    "Verif.Sources.C31_partition",
    "Verif.Sources.C31_order",
    "Verif.Sources.C31_names_can_collide"
   ],
   "note": "C31_names_can_collide: prefixed names are not distinct in general."
  },
  {
   "property": "C32",
   "status": "partial",
   "theorems": [
    "Verif.Sources.C32_last_base_partial",
    "Verif.Sources.C32_superposition_partial",
    "Verif.Sources.C32_evaluates_partial",
    "Verif.Sources.C32_order",
    "Verif.Sources.C32_own_base_violated",
    "Verif.Sources.C32_mass_partial",
    "Verif.Sources.C32_mass_violated",
    "Verif.Sources.C32_exchange_partial"
   ],
   "note": "Holds for a single base model. With several, every source is evaluated with the base that the loop over a set visits last. The mixture integrates to q/(q+1e-6). C32_exchange_partial: sources that share a base may exchange their parameters."
  },
  {
   "property": "C33",
   "status": "partial",
   "theorems": [
    "Verif.Cascade.C33_succeeds",
    "Verif.Cascade.C33_mixture",
    "Verif.Cascade.C33_reachable",
    "Verif.Cascade.C33_reachable_charge",
    "Verif.Cascade.C33_sorted",
    "Verif.Cascade.C33_charge_partial",
    "Verif.Cascade.C33_variance_violated",
    "Verif.Cascade.C33_quantiles",
    "Verif.Cascade.C33_quantiles_shift"
   ],
   "note": "The variance of the asymmetric Gaussian branch can fall below the mean (down to 73%)."
  },
  {
   "property": "C34",
   "status": "partial",
   "theorems": [
    "Verif.Cascade.C34_exclusion_partial",
    "Verif.Cascade.C34_conditional_partial",
    "Verif.Cascade.C34_charge_violated",
    "Verif.Cascade.C34_mass_violated",
    "Verif.Cascade.C34_unit_violated",
    "Verif.Cascade.C34_conditional_violated",
    "Verif.Cascade.C34_noise_partial"
   ],
   "note": "Excluded fractions are exact. The charge gets a factor 1.001 where nothing is excluded, the remaining density integrates to less than one, and components are renormalised one by one, so it is not the conditional density."
  },
  {
   "property": "C35",
   "status": "partial",
   "theorems": [
    "Verif.Loss.C35_sum_partial",
    "Verif.Loss.C35_both",
    "Verif.Loss.C35_extended_violated",
    "Verif.Loss.C35_shapes_violated"
   ],
   "note": "True without normalization terms and for all other loss functions; the extended likelihood loses its terms and the charge density loss raises when normalization terms are sorted."
  },
  {
   "property": "C36",
   "status": "proved",
   "theorems": [
    "Verif.Loss.C36_scalar",
    "Verif.Loss.C36_terms",
    "Verif.Loss.C36_sorted",
    "Verif.Loss.C36_errors",
    "Verif.Loss.C36_order",
    "Verif.Loss.C36_consistent"
   ],
   "note": ""
  },
  {
   "property": "C37",
   "status": "partial",
   "theorems": [
    "Verif.Loss.C37_excluded_partial",
    "Verif.Loss.C37_normalized_violated",
    "Verif.Loss.C37_charge_pdf_violated"
   ],
   "note": "Two loss functions look at excluded DOMs."
  },
  {
   "property": "C38",
   "status": "partial",
   "theorems": [
    "Verif.Loss.C38_penalty",
    "Verif.Loss.C38_total_partial",
    "Verif.Loss.C38_margin_violated",
    "Verif.Loss.C38_modes_violated",
    "Verif.Loss.C38_sorted_violated"
   ],
   "note": "Fourier modes and sorted terms always raise; with a margin the penalty becomes negative."
  },
  {
   "property": "C39",
   "status": "partial",
   "theorems": [
    "Verif.Reco.C39_hypothesis",
    "Verif.Reco.C39_hypothesis_transformed_partial",
    "Verif.Reco.C39_limit_violated",
    "Verif.Reco.C39_start_partial",
    "Verif.Reco.C39_tensor_seed_violated",
    "Verif.Reco.C39_wrong_length",
    "Verif.Reco.C39_reported_partial",
    "Verif.Reco.C39_reported_loss"
   ],
   "note": "True for numpy seeds; with transformation, logarithmic parameters have to be within the limits of the inverse transformation. Seeds that are tensorflow tensors raise a TypeError when only some parameters are fitted."
  },
  {
   "property": "C40",
   "status": "proved",
   "theorems": [
    "Verif.Reco.C40_sum",
    "Verif.Reco.C40_terms",
    "Verif.Reco.C40_error",
    "Verif.Reco.C40_more_terms"
   ],
   "note": ""
  },
  {
   "property": "C41",
   "status": "proved",
   "theorems": [
    "Verif.Reco.C41_add",
    "Verif.Reco.C41_names",
    "Verif.Reco.C41_default_names",
    "Verif.Reco.C41_default_collides",
    "Verif.Reco.C41_execute"
   ],
   "note": ""
  },
  {
   "property": "C42",
   "status": "proved",
   "theorems": [
    "Verif.Reco.C42_add",
    "Verif.Reco.C42_get",
    "Verif.Reco.C42_unique"
   ],
   "note": "Comparison of settings is assumed to be an equivalence."
  },
  {
   "property": "C43",
   "status": "partial",
   "theorems": [
    "Verif.Reco.C43_select_partial",
    "Verif.Reco.C43_violated",
    "Verif.Reco.C43_empty"
   ],
   "note": "The code always returns the last reconstruction."
  },
  {
   "property": "C44",
   "status": "proved",
   "theorems": [
    "Verif.Reco.C44_halves",
    "Verif.Reco.C44_brackets",
    "Verif.Reco.C44_monotone",
    "Verif.Reco.C44_bound"
   ],
   "note": ""
  },
  {
   "property": "C45",
   "status": "proved",
   "theorems": [
    "Verif.Optim.C45_maximal",
    "Verif.Optim.C45_given",
    "Verif.Optim.C45_lowest_for_highest",
    "Verif.Optim.C45_more_new"
   ],
   "note": "nan is not modelled."
  },
  {
   "property": "C46",
   "status": "partial",
   "theorems": [
    "Verif.Optim.C46_iteration",
    "Verif.Optim.C46_start",
    "Verif.Optim.C46_run_partial",
    "Verif.Optim.C46_violated_start",
    "Verif.Optim.C46_violated_last",
    "Verif.Optim.C46_refused"
   ],
   "note": "Stored values are right and the best point is never lost, but the reported point is not always the best one: the first initial point is reported if the run stops at once, and a better point found in the last iteration is not reported."
  },
  {
   "property": "C47",
   "status": "proved",
   "theorems": [
    "Verif.Sphere.C47_from_angles",
    "Verif.Sphere.C47_from_coordinates",
    "Verif.Sphere.C47_reflect",
    "Verif.Sphere.C47_distance",
    "Verif.Sphere.C47_involution",
    "Verif.Sphere.C47_isometry",
    "Verif.Sphere.C47_centroid",
    "Verif.Sphere.C47_midpoint"
   ],
   "note": "Over the real numbers."
  },
  {
   "property": "C48",
   "status": "proved",
   "theorems": [
    "Verif.Dist.C48_asymmetric_gaussian",
    "Verif.Dist.C48_asymmetric_gaussian_shape",
    "Verif.Dist.C48_gaussian"
   ],
   "note": "Over the real numbers; erf is defined by its integral, erfinv is any right inverse of it on (-1,1)."
  },
  {
   "property": "C49",
   "status": "proved",
   "theorems": [
    "Verif.Dist.C49_rayleigh"
   ],
   "note": "Over the real numbers."
  },
  {
   "property": "C50",
   "status": "partial",
   "theorems": [
    "Verif.Dist.C50_negative_binomial",
    "Verif.Dist.C50_without_normalisation",
    "Verif.Dist.C50_sampling_partial",
    "Verif.Dist.C50_sampling_violated"
   ],
   "note": "The log density is proved in full for mu, alpha > 0. The sampled numbers have the exact law given in C50_sampling_partial, with a mean below mu."
  },
  {
   "property": "C51",
   "status": "partial",
   "theorems": [
    "Verif.Sphere.C51_dir_partial",
    "Verif.Sphere.C51_refused",
    "Verif.Sphere.C51_angles",
    "Verif.Sphere.C51_violated_length",
    "Verif.Sphere.C51_violated_negative"
   ],
   "note": "True for zenith and azimuth and for unit vectors; vectors of other lengths give other angles, and angles of -90 degrees or less are not refused."
  },
  {
   "property": "C52",
   "status": "partial",
   "theorems": [
    "Verif.Training.C52_schedule_partial",
    "Verif.Training.C52_refused",
    "Verif.Training.C52_unordered",
    "Verif.Training.C52_violated_single",
    "Verif.Training.C52_violated_late"
   ],
   "note": "True for increasing boundaries inside tf.function; a single scheduler is accepted but every call raises, and without tf.function the middle schedulers are all the last one of them."
  },
  {
   "property": "C53",
   "status": "partial",
   "theorems": [
    "Verif.Setup.C53_refused",
    "Verif.Setup.C53_duplicate",
    "Verif.Setup.C53_merged_partial",
    "Verif.Setup.C53_added",
    "Verif.Setup.C53_violated_added",
    "Verif.Setup.C53_copy_equal",
    "Verif.Setup.C53_copy_safe"
   ],
   "note": "True except for keys the code sets itself: these are silently replaced."
  },
  {
   "property": "C54",
   "status": "partial",
   "theorems": [
    "Verif.Training.C54_configured",
    "Verif.Training.C54_homogeneous",
    "Verif.Training.C54_order_partial",
    "Verif.Training.C54_violated_order"
   ],
   "note": "The order of models is kept up to 10000 models; with more they are sorted by name."
  },
  {
   "property": "C55",
   "status": "partial",
   "theorems": [
    "Verif.Training.C55_own_gradient_partial",
    "Verif.Training.C55_missing",
    "Verif.Training.C55_removal_refused",
    "Verif.Training.C55_removal_partial",
    "Verif.Training.C55_violated"
   ],
   "note": "True without removal of nan gradients; with it every step raises in TensorFlow 2, and the filtered gradients would be applied to other variables."
  },
  {
   "property": "C56",
   "status": "partial",
   "theorems": [
    "Verif.Checkpoint.C56_schedule_partial",
    "Verif.Checkpoint.C56_final",
    "Verif.Checkpoint.C56_num_steps_violated",
    "Verif.Checkpoint.C56_no_iterations_violated",
    "Verif.Checkpoint.C56_nan",
    "Verif.Checkpoint.C56_nan_stops",
    "Verif.Checkpoint.C56_nan_unnoticed"
   ],
   "note": "The schedule and the saved values are exact for all n>0 and frequencies; the number of steps is off by one and n=0 raises.  C56_nan_stops and C56_nan_unnoticed: exactly what happens with losses that are not numbers, in any iteration."
  },
  {
   "property": "C57",
   "status": "partial",
   "theorems": [
    "Verif.Sim.C57_sources_partial",
    "Verif.Sim.C57_rejected",
    "Verif.Sim.C57_no_tracks",
    "Verif.Sim.C57_types",
    "Verif.Sim.C57_violated_nan"
   ],
   "note": "True for trees without particles of nan length; those are simulated however far away they are. Lookup of particles by identifier and the recursion limit of Python are not modelled."
  },
  {
   "property": "C58",
   "status": "partial",
   "theorems": [
    "Verif.Sim.C58_configured",
    "Verif.Sim.C58_filled_partial",
    "Verif.Sim.C58_violated",
    "Verif.Sim.C58_frame_violated",
    "Verif.Sim.C58_violated_key",
    "Verif.Sim.C58_unknown"
   ],
   "note": "The filling of parameters is right, but the conversion that follows always raises because an attribute is never set, so the module never pushes a frame; defaults that name frame keys raise."
  },
  {
   "property": "C59",
   "status": "proved",
   "theorems": [
    "Verif.Sampling.C59_component",
    "Verif.Sampling.C59_weight",
    "Verif.Sampling.C59_valid",
    "Verif.Sampling.C59_simulation",
    "Verif.Sampling.C59_event",
    "Verif.Sampling.C59_no_hit"
   ],
   "note": "Over real numbers; the library functions searchsorted, argsort and sort by their contracts, random numbers arbitrary in their ranges, the quantile function arbitrary."
  },
  {
   "property": "C60",
   "status": "proved",
   "theorems": [
    "Verif.Sampling.C60_counts",
    "Verif.Sampling.C60_range",
    "Verif.Sampling.C60_antitone",
    "Verif.Sampling.C60_empty",
    "Verif.Sampling.C60_event"
   ],
   "note": "Over real numbers (no nan)."
  },
  {
   "property": "C61",
   "status": "partial",
   "theorems": [
    "Verif.Output.C61_written_partial",
    "Verif.Output.C61_exact",
    "Verif.Output.C61_separated",
    "Verif.Output.C61_plain",
    "Verif.Output.C61_violated",
    "Verif.Output.C61_violated_log",
    "Verif.Output.C61_logs"
   ],
   "note": "True exactly if the joined names of different pairs differ (C61_exact); C61_plain and C61_separated give conditions on the names; false for names such as a, a_b, b_c, c."
  },
  {
   "property": "C62",
   "status": "proved",
   "theorems": [
    "Verif.Inputs.C62_inside",
    "Verif.Inputs.C62_monotone",
    "Verif.Inputs.C62_near",
    "Verif.Inputs.C62_bounded",
    "Verif.Inputs.C62_additive",
    "Verif.Inputs.C62_parts",
    "Verif.Inputs.C62_total"
   ],
   "note": "Over the real numbers; rounding is not modelled."
  },
  {
   "property": "C63",
   "status": "partial",
   "theorems": [
    "Verif.Component.C63_other_version_violated"
   ],
   "note": "The property is false of the code: load raises AttributeError instead of warning."
  },
  {
   "property": "C64",
   "status": "partial",
   "theorems": [
    "Verif.Sources.Track.C64_muon",
    "Verif.Sources.Track.C64_track_partial",
    "Verif.Sources.Track.C64_segment_end",
    "Verif.Sources.Track.C64_no_snowstorm_violated"
   ],
   "note": "Fails for tracks without snowstorm parameters."
  },
  {
   "property": "C66",
   "status": "proved",
   "theorems": [
    "Verif.Cascade.C66_scaling"
   ],
   "note": ""
  },
  {
   "property": "C67",
   "status": "proved",
   "theorems": [
    "Verif.Loss.C67_extended",
    "Verif.Loss.C67_best_charge",
    "Verif.Loss.C67_time",
    "Verif.Loss.C67_charge_density",
    "Verif.Loss.C67_quantiles",
    "Verif.Loss.C67_negative_binomial",
    "Verif.Loss.C67_variance",
    "Verif.Loss.C67_negative_binomial_event",
    "Verif.Loss.C67_dom_and_event",
    "Verif.Loss.C67_normalized",
    "Verif.Loss.C67_normalized_share"
   ],
   "note": "Up to the constants 1e-7 and 5e-5 of the code, which are part of the statements."
  },
  {
   "property": "C68",
   "status": "proved",
   "theorems": [
    "Verif.Optim.C68_flag",
    "Verif.Optim.C68_calls",
    "Verif.Optim.C68_skip"
   ],
   "note": ""
  },
  {
   "property": "C69",
   "status": "partial",
   "theorems": [
    "Verif.Optim.C69_cartesian_partial",
    "Verif.Optim.C69_cartesian_whole",
    "Verif.Optim.C69_violated",
    "Verif.Optim.C69_directions",
    "Verif.Optim.C69_ignored_violated",
    "Verif.Optim.C69_none"
   ],
   "note": "Standard deviations are cut to whole numbers before the comparison; a threshold for directions that is not positive raises a NameError."
  },
  {
   "property": "C70",
   "status": "proved",
   "theorems": [
    "Verif.Sphere.C70_angle",
    "Verif.Sphere.C70_deviation",
    "Verif.Sphere.C70_properties"
   ],
   "note": "Over the real numbers."
  },
  {
   "property": "C71",
   "status": "partial",
   "theorems": [
    "Verif.Training.C71_switch",
    "Verif.Training.C71_weighted_partial",
    "Verif.Training.C71_violated",
    "Verif.Training.C71_no_variables",
    "Verif.Training.C71_ensemble",
    "Verif.Training.C71_error"
   ],
   "note": "The coefficients only switch the terms on; their values are ignored. True for coefficients 0 and 1."
  },
  {
   "property": "C72",
   "status": "partial",
   "theorems": [
    "Verif.Setup.C72_expanded",
    "Verif.Setup.C72_simple_partial",
    "Verif.Setup.C72_unknown",
    "Verif.Setup.C72_violated"
   ],
   "note": "True if placeholders name settings without placeholders or earlier settings; a placeholder that names a later setting with a placeholder is left half expanded. Strings in lists are not expanded. Conversions, attributes and format specifications are not modelled."
  },
  {
   "property": "C73",
   "status": "partial",
   "theorems": [
    "Verif.Sampling.C73_own_data_partial",
    "Verif.Sampling.C73_violated"
   ],
   "note": "Pulses and identifiers are replaced, the charges at the DOMs stay those of the data."
  },
  {
   "property": "C74",
   "status": "partial",
   "theorems": [
    "Verif.Output.C74_written_partial",
    "Verif.Output.C74_violated",
    "Verif.Output.C74_half_direction"
   ],
   "note": "Parameters whose name the module uses itself are silently replaced; a mapping with only one of the two angles raises KeyError."
  },
  {
   "property": "C75",
   "status": "proved",
   "theorems": [
    "Verif.Output.C75_kept",
    "Verif.Output.C75_refused"
   ],
   "note": "By the contract of I3Frame: assigning to an existing key raises."
  },
  {
   "property": "C76",
   "status": "proved",
   "theorems": [
    "Verif.Output.C76_fit",
    "Verif.Output.C76_unknown"
   ],
   "note": ""
  },
  {
   "property": "C77",
   "status": "partial",
   "theorems": [
    "Verif.Inputs.C77_default",
    "Verif.Inputs.C77_segment",
    "Verif.Inputs.C77_second",
    "Verif.Inputs.C77_systematics_partial",
    "Verif.Inputs.C77_violated_log",
    "Verif.Inputs.C77_violated_systematics"
   ],
   "note": "True for cascades; track segments raise unless the energy is transformed to its logarithm; the systematics model raises without a parameter besides the DOM efficiency."
  },
  {
   "property": "C78",
   "status": "partial",
   "theorems": [
    "Verif.Inputs.C78_default_partial",
    "Verif.Inputs.C78_systematics_partial",
    "Verif.Inputs.C78_segment_partial",
    "Verif.Inputs.C78_checked",
    "Verif.Inputs.C78_second",
    "Verif.Inputs.C78_violated_vertex",
    "Verif.Inputs.C78_violated_minus_one",
    "Verif.Inputs.C78_violated_negative"
   ],
   "note": "Cascades exactly at a DOM give nan; negative track lengths are accepted in training. Overflow is not modelled."
  },
  {
   "property": "C79",
   "status": "proved",
   "theorems": [
    "Verif.Inputs.C79_default_sees",
    "Verif.Inputs.C79_default_only",
    "Verif.Inputs.C79_segment_sees",
    "Verif.Inputs.C79_segment_only",
    "Verif.Inputs.C79_systematics",
    "Verif.Batch.C79_loss"
   ],
   "note": "For transformations whose columns are injective and whose scale of positions is not zero; the network itself is not modelled. C79_loss: predictions and loss of the cascade model depend on the direction, not on the angles it is written with."
  },
  {
   "property": "C80",
   "status": "proved",
   "theorems": [
    "Verif.Inputs.C80_nearest",
    "Verif.Inputs.C80_on_track",
    "Verif.Inputs.C80_displacement",
    "Verif.Inputs.C80_cherenkov",
    "Verif.Inputs.C80_energies",
    "Verif.Inputs.C80_opening",
    "Verif.Inputs.C80_scale"
   ],
   "note": "Over the real numbers."
  },
  {
   "property": "C81",
   "status": "partial",
   "theorems": [
    "Verif.Uncert.C81_covariance_partial",
    "Verif.Uncert.C81_positive",
    "Verif.Uncert.C81_singular",
    "Verif.Uncert.C81_refused",
    "Verif.Uncert.C81_violated_space",
    "Verif.Uncert.C81_violated_single"
   ],
   "note": "True in the transformed space for any number of parameters but one; otherwise every event raises."
  },
  {
   "property": "C82",
   "status": "partial",
   "theorems": [
    "Verif.Uncert.C82_pairs",
    "Verif.Uncert.C82_samples",
    "Verif.Uncert.C82_start_partial",
    "Verif.Uncert.C82_runs",
    "Verif.Uncert.C82_steps",
    "Verif.Uncert.C82_violated_start",
    "Verif.Uncert.C82_violated_weights",
    "Verif.Uncert.C82_violated_steps"
   ],
   "note": "Probabilities and samples belong together. Chains in the transformed space start elsewhere, repeated states are removed, the step sizes of the parameters are never used. The sampler itself is not modelled."
  },
  {
   "property": "C83",
   "status": "partial",
   "theorems": [
    "Verif.Uncert.C83_four_partial",
    "Verif.Uncert.C83_violated_many",
    "Verif.Uncert.C83_violated_three",
    "Verif.Uncert.C83_range",
    "Verif.Uncert.C83_angles"
   ],
   "note": "True for four parameters exactly; with more (seven for a cascade) the result is always too large, with three too small. The minimizer is assumed to find the minimum."
  },
  {
   "property": "C84",
   "status": "partial",
   "theorems": [
    "Verif.Fit.C84_limits_partial",
    "Verif.Fit.C84_result_partial",
    "Verif.Fit.C84_plain",
    "Verif.Fit.C84_flags",
    "Verif.Fit.C84_integers",
    "Verif.Fit.C84_integers_violated",
    "Verif.Fit.C84_infinite_violated",
    "Verif.Fit.C84_fitted_violated",
    "Verif.Fit.C84_batch_violated"
   ],
   "note": "In the transformed space true for one event, all parameters fitted, and limits that are not all integers and not infinite; without transformation the limits are those of the minimizer."
  },
  {
   "property": "C85",
   "status": "proved",
   "theorems": [
    "Verif.Fit.C85_separate",
    "Verif.Fit.C85_rows"
   ],
   "note": ""
  },
  {
   "property": "C86",
   "status": "partial",
   "theorems": [
    "Verif.Fit.C86_history",
    "Verif.Fit.C86_independent_partial",
    "Verif.Fit.C86_violated",
    "Verif.Fit.C86_argument_violated"
   ],
   "note": "True unless an earlier call with the same dictionaries (the defaults) had a hessian and this one has none."
  },
  {
   "property": "C87",
   "status": "partial",
   "theorems": [
    "Verif.Fit.C87_global_partial",
    "Verif.Fit.C87_global_space",
    "Verif.Fit.C87_global_batch_violated",
    "Verif.Fit.C87_global_fitted_violated",
    "Verif.Fit.C87_spherical_partial",
    "Verif.Fit.C87_spherical_fitted_violated",
    "Verif.Fit.C87_spherical_batch_violated",
    "Verif.Fit.C87_points"
   ],
   "note": "shgo: only one event, all parameters fitted, transformed space. spherical_opt: only seven fitted parameters, and one row whatever the number of events."
  },
  {
   "property": "C88",
   "status": "proved",
   "theorems": [
    "Verif.Fit.C88_within",
    "Verif.Fit.C88_columns"
   ],
   "note": "The energy is that of the seed, which must not be negative."
  },
  {
   "property": "C89",
   "status": "partial",
   "theorems": [
    "Verif.TestData.C89_table_partial",
    "Verif.TestData.C89_batch_violated",
    "Verif.TestData.C89_loss_violated",
    "Verif.TestData.C89_names_violated"
   ],
   "note": "True for batches of one event and names of parameters that do not collide with the suffixes; without uncertainties and p-values also for larger batches, except for the loss of the true parameters, which is that of the batch."
  },
  {
   "property": "C90",
   "status": "partial",
   "theorems": [
    "Verif.TestData.C90_seed_partial",
    "Verif.TestData.C90_random_violated",
    "Verif.TestData.C90_name_violated"
   ],
   "note": "True if the chosen fits start at tensors; fits from random seeds show the first seed, or end the program if the seed is given by its name alone."
  },
  {
   "property": "C91",
   "status": "partial",
   "theorems": [
    "Verif.TestData.C91_tray",
    "Verif.TestData.C91_seeds",
    "Verif.TestData.C91_random_partial",
    "Verif.TestData.C91_random_violated"
   ],
   "note": "True without random seeds and for one seed with random seeds; more than one seed with random seeds is impossible."
  },
  {
   "property": "C92",
   "status": "proved",
   "theorems": [
    "Verif.TestData.C92_flags",
    "Verif.TestData.C92_unknown"
   ],
   "note": ""
  },
  {
   "property": "C93",
   "status": "partial",
   "theorems": [
    "Verif.TestData.C93_settings_partial",
    "Verif.TestData.C93_mcmc_violated",
    "Verif.TestData.C93_scans_violated",
    "Verif.TestData.C93_samples_violated",
    "Verif.TestData.C93_directory_partial",
    "Verif.TestData.C93_directory_violated",
    "Verif.TestData.C93_directory_root"
   ],
   "note": "Settings of the Markov chains are overwritten; scans, accepted samples for the first batch and output files without a directory end the program."
  },
  {
   "property": "C94",
   "status": "partial",
   "theorems": [
    "Verif.Deploy.C94_script",
    "Verif.Deploy.C94_configurator_partial",
    "Verif.Deploy.C94_ensemble_violated"
   ],
   "note": "Proved for the script for test data and for the configurator with one manager; with more managers the configurator uses the saved modules of the last one, whatever is asked for."
  },
  {
   "property": "C95",
   "status": "partial",
   "theorems": [
    "Verif.Deploy.C95_data",
    "Verif.Deploy.C95_labels",
    "Verif.Deploy.C95_misc_partial",
    "Verif.Deploy.C95_misc_violated",
    "Verif.Deploy.C95_script"
   ],
   "note": "Proved for the data and label modules (one manager) and the script (any number); settings of the seeds are ignored unless names of seeds other than the labels are among them."
  },
  {
   "property": "C96",
   "status": "partial",
   "theorems": [
    "Verif.Deploy.C96_scratch_partial",
    "Verif.Deploy.C96_continue_partial",
    "Verif.Deploy.C96_runs_partial",
    "Verif.Deploy.C96_violated"
   ],
   "note": "Proved for directories whose name has no extension; with an extension (m_v1.0) the script always ends with an error at the first save of weights."
  },
  {
   "property": "C97",
   "status": "partial",
   "theorems": [
    "Verif.Deploy.C97_refused_partial",
    "Verif.Deploy.C97_outside_partial",
    "Verif.Deploy.C97_trafo",
    "Verif.Deploy.C97_extension_violated",
    "Verif.Deploy.C97_recorded_violated"
   ],
   "note": "Proved for transformations, and for training if the name has no extension and the continued manager was saved in its recorded directory; both conditions are needed."
  },
  {
   "property": "C98",
   "status": "partial",
   "theorems": [
    "Verif.Deploy.C98_export_partial",
    "Verif.Deploy.C98_succeeds_partial",
    "Verif.Deploy.C98_extension_violated",
    "Verif.Deploy.C98_own_violated"
   ],
   "note": "Proved for output directories whose name has no extension and that hold none of the given managers; in the other cases the export fails, and an own source is lost."
  },
  {
   "property": "C99",
   "status": "partial",
   "theorems": [
    "Verif.Build.C99_model",
    "Verif.Build.C99_refused",
    "Verif.Build.C99_manager",
    "Verif.Build.C99_permission_violated",
    "Verif.Build.C99_loss"
   ],
   "note": "Proved except for the permission, which concerns base sources only: a model without base sources is made from scratch although it is not allowed."
  }
 ]
}