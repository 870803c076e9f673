{
 "claims": [
  {
   "property": "C01",
   "status": "proved",
   "theorems": [
    "Verif.Assembly.C01_roundtrip",
    "Verif.Assembly.C01_roundtrip_identity"
   ],
   "note": "Round trip for all sorted dictionaries of tensors of rank >= 1; empty blocks disappear."
  },
  {
   "property": "C02",
   "status": "proved",
   "theorems": [
    "Verif.Assembly.C02_layout"
   ],
   "note": "Layout of the vector and the recorded plans."
  },
  {
   "property": "C03",
   "status": "proved",
   "theorems": [
    "Verif.Assembly.C03_stack_rowwise",
    "Verif.Assembly.C03_trajectory_roundtrip"
   ],
   "note": "Row-wise disassembly for dim=1, and round trip for whole trajectories."
  },
  {
   "property": "C04",
   "status": "proved",
   "theorems": [
    "Verif.Assembly.C04_assemble_raises_iff",
    "Verif.Assembly.C04_bad_dim",
    "Verif.Assembly.C04_no_plan",
    "Verif.Assembly.C04_vector_length",
    "Verif.Assembly.C04_surplus_ignored",
    "Verif.Assembly.C04_rank0_not_readable"
   ],
   "note": "Error conditions of assembling and disassembling; rank-0 tensors assemble but cannot be read back (shown as a separate theorem)."
  },
  {
   "property": "C05",
   "status": "proved",
   "theorems": [
    "Verif.Dicts.C05_merge_raises_iff",
    "Verif.Dicts.C05_merge_lookup"
   ],
   "note": "Merging blocks: raises exactly for a taken name, otherwise exactly the union."
  },
  {
   "property": "C06",
   "status": "proved",
   "theorems": [
    "Verif.Dicts.C06_tuple_order",
    "Verif.Dicts.C06_extract_slots",
    "Verif.Dicts.C06_extract_short_raises",
    "Verif.Dicts.C06_gradient_goes_home",
    "Verif.Dicts.C06_roundtrip",
    "Verif.Dicts.C06_single_dict",
    "Verif.Dicts.C06_single_dict_roundtrip",
    "Verif.Dicts.C06_parameter_objects",
    "Verif.Dicts.C06_none_parameter_raises"
   ],
   "note": "Slots and values of the autograd tuples; the None case (skipped by one loop, not by the other) is shown to raise IndexError."
  },
  {
   "property": "C07",
   "status": "proved",
   "theorems": [
    "Verif.Concat.C07_concat_split",
    "Verif.Concat.C07_elements",
    "Verif.Concat.C07_split_concat"
   ],
   "note": "Concatenation then splitting, splitting (with renamed keys) then concatenation, and the position of every single entry."
  },
  {
   "property": "C08",
   "status": "partial",
   "theorems": [
    "Verif.Concat.C08_missing_key_accepted",
    "Verif.Concat.C08_keys_partial",
    "Verif.Concat.C08_only_valueError",
    "Verif.Concat.C08_split_dim",
    "Verif.Concat.C08_shapes"
   ],
   "note": "False as stated: a later block that lacks keys is accepted (C08_missing_key_accepted). Proved: extra keys, differing shapes and bad split dimensions are rejected; only ValueError (IndexError for no blocks)."
  },
  {
   "property": "C09",
   "status": "proved",
   "theorems": [
    "Verif.Integrator.C09_output_times",
    "Verif.Integrator.C09_created_intervals"
   ],
   "note": "For any linear order of times and any matching checkpoints, and for the checkpoints the code computes (exact arithmetic)."
  },
  {
   "property": "C10",
   "status": "proved",
   "theorems": [
    "Verif.Integrator.C10_chain",
    "Verif.Integrator.C10_created_intervals",
    "Verif.Integrator.C10_number_of_intervals"
   ],
   "note": "Chaining, strict increase, interval ends = checkpoints, number of intervals."
  },
  {
   "property": "C11",
   "status": "proved",
   "theorems": [
    "Verif.Integrator.C11_restart",
    "Verif.Integrator.C11_checkpointing_is_transparent"
   ],
   "note": "Transparency of checkpointing for every solver that follows a flow (restart property is a hypothesis; adaptive solvers meet it only up to their tolerance)."
  },
  {
   "property": "C12",
   "status": "proved",
   "theorems": [
    "Verif.Integrator.C12_rejected",
    "Verif.Integrator.C12_integrate_rejected",
    "Verif.Integrator.C12_direct",
    "Verif.Integrator.C12_anode_rejected",
    "Verif.Integrator.C12_wrong_number_rejected",
    "Verif.Integrator.C12_one_value_per_time",
    "Verif.Integrator.C12_decreasing_loses_points",
    "Verif.Integrator.C12_decreasing_returns_none"
   ],
   "note": "Rejected configurations; anode with checkpoints always raises; for decreasing times points are lost or None is returned (proved, general)."
  },
  {
   "property": "C13",
   "status": "proved",
   "theorems": [
    "Verif.Integrator.C13_accepts_iff",
    "Verif.Integrator.C13_rejects_with_valueError",
    "Verif.Integrator.C13_options",
    "Verif.Integrator.C13_shared_options"
   ],
   "note": "Accepted names, options and step size; the options dictionary is shared with the caller (C13_shared_options)."
  },
  {
   "property": "C14",
   "status": "proved",
   "theorems": [
    "Verif.TimeParams.C14_queries_succeed",
    "Verif.TimeParams.C14_constructed"
   ],
   "note": "All query histories over any linear order; tables built by the constructor are covered."
  },
  {
   "property": "C15",
   "status": "partial",
   "theorems": [
    "Verif.TimeParams.C15_history_dependent",
    "Verif.TimeParams.C15_bucket_partial"
   ],
   "note": "False of the code: the answer depends on the query history (C15_history_dependent). Proved: exactly when the answer is the containing bucket and that it is otherwise the next one."
  },
  {
   "property": "C16",
   "status": "proved",
   "theorems": [
    "Verif.Scheduler.C16_run",
    "Verif.Scheduler.C16_any_two_points",
    "Verif.Scheduler.C16_added_group_raises"
   ],
   "note": "All metric histories incl. NaN/inf, all settings with eps >= 0; never raises when the number of groups is unchanged; a group added later raises at the first attempt (C16_added_group_raises). Rates are exact rationals."
  },
  {
   "property": "C17",
   "status": "proved",
   "theorems": [
    "Verif.Scheduler.C17_attempt_iff",
    "Verif.Scheduler.C17_changes_need_attempt",
    "Verif.Scheduler.C17_cooldown",
    "Verif.Scheduler.C17_improvement",
    "Verif.Scheduler.C17_best_value",
    "Verif.Scheduler.C17_negative_patience"
   ],
   "note": "Characterises attempts by the recorded history (iff), changes only at attempts, cooldown length; negative patience covered separately."
  },
  {
   "property": "C18",
   "status": "proved",
   "theorems": [
    "Verif.Scheduler.C18_final",
    "Verif.Scheduler.C18_attempt",
    "Verif.Scheduler.C18_attempts_lower",
    "Verif.Scheduler.C18_finitely_many_attempts",
    "Verif.Scheduler.C18_stuck_metric_converges",
    "Verif.Scheduler.C18_stuck_values",
    "Verif.Scheduler.C18_negative_metric_never_converges"
   ],
   "note": "Finality, exact effect of an attempt, bound on the number of attempts, eventual convergence for a stuck metric; C18_negative_metric_never_converges records that a constant negative metric is always 'better' in min/rel mode."
  },
  {
   "property": "C19",
   "status": "proved",
   "theorems": [
    "Verif.Scheduler.C19_restore",
    "Verif.Scheduler.C19_same_future"
   ],
   "note": "Every crash point, every future, every fresh scheduler; optimizer state is shared."
  },
  {
   "property": "C20",
   "status": "proved",
   "theorems": [
    "Verif.Scheduler.C20_construct",
    "Verif.Scheduler.C20_rejected"
   ],
   "note": "Success and rejection characterised; TypeError for non-optimizers not modelled."
  },
  {
   "property": "C21",
   "status": "proved",
   "theorems": [
    "Verif.Striding.C21_single",
    "Verif.Striding.C21_kept_positions",
    "Verif.Striding.C21_small_dimension_vanishes",
    "Verif.Striding.C21_center_kept_iff",
    "Verif.Striding.C21_rejected",
    "Verif.Striding.C21_many"
   ],
   "note": "All ranks/sizes/strides; kept positions, size, source index for one and several dimensions; the code comment about the center element holds only for sizes 3 mod 4 (C21_center_kept_iff); dimensions smaller than the stride vanish."
  },
  {
   "property": "C22",
   "status": "proved",
   "theorems": [
    "Verif.Striding.C22_construct",
    "Verif.Striding.C22_construct_error",
    "Verif.Striding.C22_forward",
    "Verif.Striding.C22_names"
   ],
   "note": "Exact success condition of the constructor and of forward; names kept; data dimensions shifted by the rank difference."
  },
  {
   "property": "C23",
   "status": "proved",
   "theorems": [
    "Verif.Enlarge.C23_enlarge",
    "Verif.Enlarge.C23_embedding",
    "Verif.Enlarge.C23_channels_fixed",
    "Verif.Enlarge.C23_too_few"
   ],
   "note": "Every tensor, increment list and parameter list; index-level statement: the old block is kept and every new entry comes from the parameters, each used at most once; too few parameters raise."
  },
  {
   "property": "C24",
   "status": "proved",
   "theorems": [
    "Verif.Enlarge.C24_created",
    "Verif.Enlarge.C24_smaller_rejected",
    "Verif.Enlarge.C24_create_then_enlarge",
    "Verif.Enlarge.C24_dictionaries",
    "Verif.Enlarge.C24_nothing_to_do",
    "Verif.Enlarge.C24_extra_key_lost",
    "Verif.Enlarge.C24_stored_target_is_shared",
    "Verif.Enlarge.C24_more_dimensions_accepted"
   ],
   "note": "Creation and application for one tensor and for whole dictionaries of dictionaries. Fragile cases proved separately: pairing by position, shared target size, extra dimensions."
  },
  {
   "property": "C25",
   "status": "proved",
   "theorems": [
    "Verif.Sweep.C25_all_combinations",
    "Verif.Sweep.C25_count",
    "Verif.Sweep.C25_membership",
    "Verif.Sweep.C25_empty"
   ],
   "note": "Every option dictionary; index-vector specification fixes membership, multiplicity and lexicographic order."
  },
  {
   "property": "C26",
   "status": "partial",
   "theorems": [
    "Verif.Sweep.C26_fresh_partial",
    "Verif.Sweep.C26_sweeps_accumulate",
    "Verif.Sweep.C26_count",
    "Verif.Sweep.C26_false"
   ],
   "note": "False of the code: mutable default arguments accumulate (C26_sweeps_accumulate, C26_false). Proved for fresh arguments only."
  },
  {
   "property": "C27",
   "status": "proved",
   "theorems": [
    "Verif.Cli.C27_arg_list",
    "Verif.Cli.C27_arg_count",
    "Verif.Cli.C27_kv_string",
    "Verif.Cli.C27_kv_string_read_back",
    "Verif.Cli.C27_escape",
    "Verif.Cli.C27_escape_protects",
    "Verif.Cli.C27_config_string",
    "Verif.Cli.C27_config_string_none",
    "Verif.Cli.C27_string_argument",
    "Verif.Cli.C27_spaces_confuse",
    "Verif.Cli.C27_written"
   ],
   "note": "Argument lists, key/value strings, escaping, configuration strings and command strings, as read-back laws for all inputs. Limits (values with spaces, nothing to add to an empty string) proved separately."
  },
  {
   "property": "C28",
   "status": "partial",
   "theorems": [
    "Verif.Cli.C28_merge_partial",
    "Verif.Cli.C28_flags",
    "Verif.Cli.C28_false_flag_stays",
    "Verif.Cli.C28_run_args",
    "Verif.Cli.C28_order"
   ],
   "note": "Entry-by-entry law for all dictionaries. The flag part is false when the template has the flag and the sweep says False (C28_false_flag_stays); proved without that (C28_flags)."
  },
  {
   "property": "C29",
   "status": "proved",
   "theorems": [
    "Verif.Cli.C29_resume",
    "Verif.Cli.C29_complete",
    "Verif.Cli.C29_never_recomputed",
    "Verif.Cli.C29_force",
    "Verif.Cli.C29_same_name_skipped",
    "Verif.Cli.C29_seeds"
   ],
   "note": "All histories of interrupted sweeps with arbitrary failures; C29_seeds: which seeds are run. Hypothesis: job names are different, which C53_sweep_names provides."
  },
  {
   "property": "C30",
   "status": "partial",
   "theorems": [
    "Verif.Activation.C30_softmax",
    "Verif.Activation.C30_derivative_partial",
    "Verif.Activation.C30_relu_zero",
    "Verif.Activation.C30_sigmoid_false",
    "Verif.Activation.C30_monotone"
   ],
   "note": "softmax derivative, relu at zero and monotonicity proved; the derivative statement is partial because the derivative returned for 'sigmoid' is the sigmoid itself (C30_sigmoid_false)"
  },
  {
   "property": "C31",
   "status": "proved",
   "theorems": [
    "Verif.Activation.C31_names",
    "Verif.Activation.C31_none",
    "Verif.Activation.C31_accepted",
    "Verif.Activation.C31_case_insensitive",
    "Verif.Activation.C31_spelling"
   ],
   "note": "name table: exactly the listed names are accepted, case does not matter, None gives no nonlinearity"
  },
  {
   "property": "C32",
   "status": "proved",
   "theorems": [
    "Verif.Conv.C32_conv_classes",
    "Verif.Energy.C32_store",
    "Verif.Energy.C32_missing_object",
    "Verif.Models.C32_model_classes",
    "Verif.Shooting.C32_unique_minimiser",
    "Verif.Shooting.C32_independent_of_initialisation",
    "Verif.Shooting.C32_excess",
    "Verif.Shooting.C32_negative_weight"
   ],
   "note": "Every right-hand side affine in its parameters, all particles, all positive weights; independence of the random initial parameters; exact excess; no minimum with a negative weight; dictionary bookkeeping of storing the gradients (C32_store). The classes of shooting_models.py are shown affine under C34."
  },
  {
   "property": "C33",
   "status": "proved",
   "theorems": [
    "Verif.Energy.C33_step",
    "Verif.Shooting.C33_error",
    "Verif.Shooting.C33_converges",
    "Verif.Shooting.C33_weight_two",
    "Verif.Shooting.C33_diverges"
   ],
   "note": "Exact error law per parameter and iteration count; convergence for weights in (0,4); exactness for 2; divergence for >= 4 or negative; dictionary bookkeeping of one step."
  },
  {
   "property": "C34",
   "status": "partial",
   "theorems": [
    "Verif.Models.C34_simple_costate",
    "Verif.Models.C34_upDown_costate",
    "Verif.Models.C34_universal_costate",
    "Verif.Models.C34_periodic_costate",
    "Verif.Models.C34_debugSimple_costate",
    "Verif.Models.C34_symmetrized_costate",
    "Verif.Models.C34_general_costate_dampened",
    "Verif.Models.C34_general_costate",
    "Verif.Models.C34_dampenedQ2_difference",
    "Verif.Models.C34_dampenedQ2_false",
    "Verif.Models.C34_simple",
    "Verif.Models.C34_upDown",
    "Verif.Models.C34_universal",
    "Verif.Models.C34_periodic",
    "Verif.Models.C34_general",
    "Verif.Models.C34_debugSimple",
    "Verif.Models.C34_dampenedQ2_parameters",
    "Verif.Models.C34_symmetrized_partial",
    "Verif.Models.C34_symmetrized_weights_false",
    "Verif.Models.C34_bias_rows",
    "Verif.Models.C34_bias_false",
    "Verif.Models.C34_simple_square",
    "Verif.Models.C34_simple_square_false",
    "Verif.Shooting.C34_costate_gradient",
    "Verif.Shooting.C34_fixed_parameters"
   ],
   "note": "Proved for every right-hand side affine in its parameters (general) and for the classes Simple, UpDown, UpDownUniversal, Periodic, GeneralUpDown, DEBUG Simple, Symmetrized with particle dimension 1. As stated it is false of the code: UpdownDampenedQ2 lacks the dampening term in its hand-written costate equation (C34_dampenedQ2_false), bias formulas need particle dimension 1 (C34_bias_false), Simple with square shapes (C34_simple_square_false), Symmetrized divides by the weight of another layer (C34_symmetrized_weights_false)."
  },
  {
   "property": "C35",
   "status": "proved",
   "theorems": [
    "Verif.Conv.C35_upDownConv",
    "Verif.Conv.C35_simpleConv",
    "Verif.Conv.C35_convBatch",
    "Verif.Models.C35_simple",
    "Verif.Models.C35_upDown",
    "Verif.Models.C35_universal",
    "Verif.Models.C35_periodic",
    "Verif.Models.C35_general",
    "Verif.Models.C35_dampenedQ2",
    "Verif.Shooting.C35_lagrangian_constant",
    "Verif.Shooting.C35_norm_penalty_constant",
    "Verif.Shooting.C35_euler_not_constant",
    "Verif.Shooting.C35_dampening_not_constant"
   ],
   "note": "Exact trajectories on every interval, for right-hand sides linear in the parameters; with dampening only the Lagrangian is constant (C35_dampening_not_constant), and explicit Euler steps do not conserve it (C35_euler_not_constant)."
  },
  {
   "property": "C36",
   "status": "proved",
   "theorems": [
    "Verif.Energy.C36_value",
    "Verif.Energy.C36_quadratic",
    "Verif.Energy.C36_additive",
    "Verif.Energy.C36_nonneg",
    "Verif.Energy.C36_definite",
    "Verif.Energy.C36_zero_weight"
   ],
   "note": "All dictionaries and weights over any field / ordered field."
  },
  {
   "property": "C37",
   "status": "proved",
   "theorems": [
    "Verif.Integrand.C37_handed_over",
    "Verif.Integrand.C37_rnn",
    "Verif.Integrand.C37_rnn_new",
    "Verif.Integrand.C37_rnn_same",
    "Verif.Integrand.C37_not_rnn",
    "Verif.Integrand.C37_derivatives",
    "Verif.Integrand.C37_external_autodiff_raises",
    "Verif.Integrand.C37_external_analytic",
    "Verif.Integrand.C37_transpose_raises"
   ],
   "note": "C37_rnn, C37_rnn_new, C37_rnn_same, C37_not_rnn, C37_derivatives for every class, any history, failing evaluations and hooks included; external (particle-free) parameters: C37_external_analytic. Disagreements proved: with automatic differentiation external parameters always raise (C37_external_autodiff_raises), the transpose option always raises (C37_transpose_raises)."
  },
  {
   "property": "C38",
   "status": "proved",
   "theorems": [
    "Verif.Integrand.C38_calls",
    "Verif.Integrand.C38_calls_error",
    "Verif.Integrand.C38_remove",
    "Verif.Integrand.C38_register",
    "Verif.Integrand.C38_handles_differ",
    "Verif.Integrand.C38_hooks_only_watch"
   ],
   "note": "C38_calls (successful evaluation: exactly the active hooks in order with this evaluation's data), C38_calls_error (hook or computation raises), C38_remove, C38_register, C38_handles_differ, C38_hooks_only_watch; any history."
  },
  {
   "property": "C39",
   "status": "proved",
   "theorems": [
    "Verif.Block.C39_keeps",
    "Verif.Block.C39_keeps_always",
    "Verif.Block.C39_integrand_names",
    "Verif.Block.C39_dots_collide",
    "Verif.Block.C39_own",
    "Verif.Block.C39_costates",
    "Verif.Block.C39_new",
    "Verif.Block.C39_parameters_iff",
    "Verif.Block.C39_stay",
    "Verif.Block.C39_created_only_by_first",
    "Verif.Block.C39_registered",
    "Verif.Block.C39_stuck",
    "Verif.Block.C39_keep_zero_raises",
    "Verif.Block.C39_lost"
   ],
   "note": "C39_new, C39_parameters_iff (any history), C39_stay, C39_created_only_by_first, C39_registered. Disagreements proved: C39_stuck (failed first pass that created enlargement parameters), C39_keep_zero_raises, C39_lost (two pass-through blocks with one key: one enlargement parameter never trained)."
  },
  {
   "property": "C40",
   "status": "proved",
   "theorems": [
    "Verif.Block.C40_plain_result",
    "Verif.Block.C40_last_set",
    "Verif.Block.C40_only_these_times",
    "Verif.Block.C40_result",
    "Verif.Block.C40_move",
    "Verif.Block.C40_vector_concat_wrong_dimension"
   ],
   "note": "C40_last_set (any history), C40_only_these_times, C40_result, C40_move. Disagreements proved: moving a block with a time vector raises (C40_move), a time vector concatenates along the wrong dimension (C40_vector_concat_wrong_dimension)."
  },
  {
   "property": "C41",
   "status": "proved",
   "theorems": [
    "Verif.Block.C41_reject",
    "Verif.Block.C41_reject_data",
    "Verif.Block.C41_hidden_name",
    "Verif.Block.C41_output_one_block",
    "Verif.Block.C41_step",
    "Verif.Block.C41_chain",
    "Verif.Block.C41_chain_rejects",
    "Verif.Block.C41_first",
    "Verif.Block.C41_plain_keeps_all_names",
    "Verif.Block.C41_enlarging_step",
    "Verif.Block.C41_trained",
    "Verif.Block.C41_relay",
    "Verif.Block.C41_inputs_rejected",
    "Verif.Block.C41_data_rejected"
   ],
   "note": "C41_reject, C41_reject_data, C41_output_one_block, C41_first, C41_step, C41_chain (any length), C41_chain_rejects, C41_plain_keeps_all_names; chains with enlargement: C41_enlarging_step, C41_relay (blocks without particles), C41_trained (after optimiser steps). Disagreement proved: C41_hidden_name (enlargement parameters of an earlier pass hide a repeated name)."
  },
  {
   "property": "C42",
   "status": "partial",
   "theorems": [
    "Verif.ResNet.C42_built",
    "Verif.ResNet.C42_channels",
    "Verif.ResNet.C42_channels_nonneg",
    "Verif.ResNet.C42_layers",
    "Verif.ResNet.C42_names",
    "Verif.ResNet.C42_registered",
    "Verif.ResNet.C42_strides",
    "Verif.ResNet.C42_flow",
    "Verif.ResNet.C42_last_block",
    "Verif.ResNet.C42_single_block_ignored",
    "Verif.ResNet.C42_empty_first_layer",
    "Verif.ResNet.C42_parameters",
    "Verif.ResNet.C42_works"
   ],
   "note": "C42_channels, C42_channels_nonneg, C42_layers (names, channels, who owns a state), C42_names, C42_registered, C42_strides, C42_flow (forward refines a relational specification of the data flow through all blocks), C42_last_block, C42_parameters, C42_built and C42_works (networks built with non-decreasing channels accept every image, in every pass, and the head gets the channels of the last layer). Disagreements proved: a network with a single block ignores it (C42_single_block_ignored), an empty first layer raises (C42_empty_first_layer)."
  },
  {
   "property": "C43",
   "status": "partial",
   "theorems": [
    "Verif.Init.C43_both_rejected",
    "Verif.Init.C43_zero",
    "Verif.Init.C43_constant_partial",
    "Verif.Init.C43_constant_conv_false",
    "Verif.Init.C43_random",
    "Verif.Init.C43_custom_rejected",
    "Verif.Init.C43_wrong_size",
    "Verif.Init.C43_of_size",
    "Verif.Init.C43_like",
    "Verif.Init.C43_sample_batch",
    "Verif.Init.C43_sample_values",
    "Verif.Init.C43_sample_grows"
   ],
   "note": "partial: constants are not available for convolution initialisers (AttributeError, C43_constant_conv_false), and sample-batch initialisers give the requested size only if the batch expands to it (C43_sample_batch, C43_sample_grows)"
  },
  {
   "property": "C44",
   "status": "proved",
   "theorems": [
    "Verif.Latex.C44_append",
    "Verif.Latex.C44_injective",
    "Verif.Latex.C44_plain",
    "Verif.Latex.C44_special_changed",
    "Verif.Latex.C44_active_protected",
    "Verif.Latex.C44_prints"
   ],
   "note": "Escaping is a concatenation homomorphism, injective, identity on plain text, and longer on text with special characters; C44_prints: read as LaTeX the result prints the original text."
  },
  {
   "property": "C45",
   "status": "proved",
   "theorems": [
    "Verif.Chunks.C45_chunks",
    "Verif.Chunks.C45_from_zero",
    "Verif.Chunks.C45_whole",
    "Verif.Chunks.C45_fuel",
    "Verif.Chunks.C45_terminates_iff"
   ],
   "note": "C45_chunks (overlap, coverage, sizes; any time vector, any size >= 2), C45_from_zero, C45_whole, C45_fuel, C45_terminates_iff. Disagreement proved: with chunks of one point and at least two times the loop never ends (C45_terminates_iff)."
  },
  {
   "property": "C46",
   "status": "proved",
   "theorems": [
    "Verif.Chunks.C46_uniform",
    "Verif.Chunks.C46_any_times",
    "Verif.Chunks.C46_uncut",
    "Verif.Chunks.C46_nonuniform_wrong",
    "Verif.Chunks.C46_single_value"
   ],
   "note": "C46_uniform (uniform grids, with and without restarting the times), C46_any_times (flows, times not restarted, arbitrary grids), C46_uncut. The penalty returned is the one of the first chunk. C46_nonuniform_wrong shows that the uniform grid is needed when times are restarted. The block is an abstract state machine that predicts a flow."
  },
  {
   "property": "C47",
   "status": "proved",
   "theorems": [
    "Verif.Layers.C47_remove",
    "Verif.Layers.C47_remove_twice",
    "Verif.Layers.C47_add_weight",
    "Verif.Layers.C47_last_weight",
    "Verif.Layers.C47_apply",
    "Verif.Layers.C47_linear_forward",
    "Verif.Layers.C47_conv_forward",
    "Verif.Layers.C47_constructed_empty",
    "Verif.Layers.C47_constructed_weights"
   ],
   "note": "for all parameter dictionaries and sequences of weight settings; forward of convolution/group normalisation layers without bias/affine raises KeyError (C47_conv_forward)"
  },
  {
   "property": "C48",
   "status": "proved",
   "theorems": [
    "Verif.ParamUtils.C48_counts",
    "Verif.ParamUtils.C48_set",
    "Verif.ParamUtils.C48_freeze_unfreeze",
    "Verif.ParamUtils.C48_overall_kept",
    "Verif.ParamUtils.C48_unknown"
   ],
   "note": "counts, freezing, non-atomic failure on unknown names"
  },
  {
   "property": "C49",
   "status": "proved",
   "theorems": [
    "Verif.Dicts.C49_zero_data",
    "Verif.Dicts.C49_data_concat_dim",
    "Verif.Dicts.C49_zero_like",
    "Verif.Dicts.C49_dimension_rejected",
    "Verif.Dicts.C49_sizes"
   ],
   "note": "Zero dictionaries and data concatenation dimension, including the aliasing of the size list between keys."
  },
  {
   "property": "C50",
   "status": "proved",
   "theorems": [
    "Verif.Dicts.C50_single_block",
    "Verif.Dicts.C50_several_blocks"
   ],
   "note": "Key extraction for one and several blocks."
  },
  {
   "property": "C51",
   "status": "proved",
   "theorems": [
    "Verif.Conv.C51_conv_classes",
    "Verif.Evolution.C51_parameters",
    "Verif.Evolution.C51_field",
    "Verif.Evolution.C51_field_analytic",
    "Verif.Evolution.C51_field_given",
    "Verif.Evolution.C51_evolution",
    "Verif.Evolution.C51_evolution_given",
    "Verif.Evolution.C51_classes",
    "Verif.Evolution.C51_analytic"
   ],
   "note": "C51_parameters, C51_field*, C51_evolution*, C51_classes, C51_analytic: every vector class, every explicit fixed-step method written as a straight-line program, Euler and RK4; autodiff, hand-written formulas (particle dimension 1) and given parameters (RNN)."
  },
  {
   "property": "C52",
   "status": "proved",
   "theorems": [
    "Verif.Conv.C52_conv_classes",
    "Verif.Evolution.C52_field",
    "Verif.Evolution.C52_evolution",
    "Verif.Evolution.C52_single_sample",
    "Verif.Evolution.C52_same_sample",
    "Verif.Evolution.C52_data_never_influence",
    "Verif.Evolution.C52_randomness",
    "Verif.Evolution.C52_classes"
   ],
   "note": "C52_field, C52_evolution, C52_single_sample, C52_same_sample, C52_data_never_influence, C52_randomness, C52_classes: every vector class and every explicit fixed-step method."
  },
  {
   "property": "C53",
   "status": "proved",
   "theorems": [
    "Verif.Cli.C53_name_says",
    "Verif.Cli.C53_model_not_passed",
    "Verif.Cli.C53_directory",
    "Verif.Cli.C53_names",
    "Verif.Cli.C53_job_names",
    "Verif.Cli.C53_underscore_collision",
    "Verif.Cli.C53_print_collision",
    "Verif.Cli.C53_sweep_names"
   ],
   "note": "Injectivity of names for all dictionaries with the same options; C53_name_says: the name contains the model that is run; collisions with underscores are witnessed, and C53_model_not_passed shows that the model in the name need not be passed to the script."
  },
  {
   "property": "C54",
   "status": "proved",
   "theorems": [
    "Verif.Batches.C54_selection_inside",
    "Verif.Batches.C54_selection_all",
    "Verif.Batches.C54_selection_exists",
    "Verif.Batches.C54_windows",
    "Verif.Batches.C54_draw_fails_iff",
    "Verif.Batches.C54_last_window_never",
    "Verif.Batches.C54_weights"
   ],
   "note": "C54_windows, C54_selection_inside, C54_selection_all, C54_selection_exists, C54_draw_fails_iff, C54_last_window_never, C54_weights. Distances and the rounded quotients are arbitrary. Windows of one point make the distance-based selection raise."
  },
  {
   "property": "C55",
   "status": "proved",
   "theorems": [
    "Verif.Complexity.C55_measure",
    "Verif.Complexity.C55_all_three",
    "Verif.Complexity.C55_weights",
    "Verif.Complexity.C55_repeated_record",
    "Verif.Complexity.C55_chunks",
    "Verif.Complexity.C55_monotone",
    "Verif.Complexity.C55_lengths_rejected",
    "Verif.Complexity.C55_lengths_accepted",
    "Verif.Complexity.C55_zero_values"
   ],
   "note": "over the reals; non-finite results are a separate outcome (none)"
  },
  {
   "property": "C56",
   "status": "proved",
   "theorems": [
    "Verif.Discrete.C56_double_layer",
    "Verif.Discrete.C56_double_invertible",
    "Verif.Discrete.C56_double_nets_invertible",
    "Verif.Discrete.C56_single_not_invertible",
    "Verif.Discrete.C56_rnn_euler",
    "Verif.Discrete.C56_time_one",
    "Verif.Discrete.C56_cnn_euler",
    "Verif.Discrete.C56_replicated",
    "Verif.Discrete.C56_deeper",
    "Verif.Discrete.C56_resnets",
    "Verif.Discrete.C56_tied",
    "Verif.Discrete.C56_tied_nets",
    "Verif.Discrete.C56_double_rnn_deeper",
    "Verif.Discrete.C56_rnn_not_deeper",
    "Verif.Discrete.C56_single_layers",
    "Verif.Discrete.C56_zero_identity"
   ],
   "note": "C56_rnn_euler, C56_time_one, C56_cnn_euler, C56_replicated, C56_deeper, C56_resnets, C56_tied, C56_tied_nets, C56_double_rnn_deeper; C56_rnn_not_deeper shows that the network with step 1/n does not compose."
  },
  {
   "property": "C57",
   "status": "proved",
   "theorems": [
    "Verif.Integrand.C57_handed_over",
    "Verif.Integrand.C57_last_at_zero",
    "Verif.Integrand.C57_none",
    "Verif.Integrand.C57_rnn",
    "Verif.Integrand.C57_external"
   ],
   "note": "C57_last_at_zero, C57_none, C57_rnn, C57_external for every class and history."
  },
  {
   "property": "C58",
   "status": "proved",
   "theorems": [
    "Verif.Shapes.C58_particles_vector",
    "Verif.Shapes.C58_symmetrized_default_wrong",
    "Verif.Shapes.C58_particles_conv",
    "Verif.Shapes.C58_particle_size_kind",
    "Verif.Shapes.C58_data_vector",
    "Verif.Shapes.C58_data_conv",
    "Verif.Shapes.C58_upDownConv_trainable",
    "Verif.Shapes.C58_modes",
    "Verif.Shapes.C58_zero_start"
   ],
   "note": "C58_particles_vector and C58_particles_conv characterise exactly when derivatives fit; C58_particle_size_kind, C58_data_vector, C58_data_conv, C58_modes, C58_zero_start. Disagreements proved: the symmetrized model with its default inflation factor never fits (C58_symmetrized_default_wrong), the trainable starts of the convolutional up-down model are ignored or never fit (C58_upDownConv_trainable)."
  },
  {
   "property": "C59",
   "status": "proved",
   "theorems": [
    "Verif.Conv.C59_parameters",
    "Verif.Conv.C59_parameters_batch",
    "Verif.Conv.C59_costate",
    "Verif.Conv.C59_simple",
    "Verif.Conv.C59_costate_batch",
    "Verif.Conv.C59_normalised",
    "Verif.Conv.C59_adjoint",
    "Verif.Conv.C59_translation"
   ],
   "note": "C59_parameters, C59_parameters_batch, C59_costate, C59_simple, C59_costate_batch (costate equation through the normalisation), C59_normalised, C59_adjoint, C59_translation for 3x3 kernels with padding 1 (the only filter size that fits, C58). C32, C35, C51 and C52 for these classes are C32_conv_classes, C35_upDownConv, C35_convBatch, C51_conv_classes, C52_conv_classes."
  },
  {
   "property": "C60",
   "status": "proved",
   "theorems": [
    "Verif.Symmetry.C60_parameters",
    "Verif.Symmetry.C60_field",
    "Verif.Symmetry.C60_evolution",
    "Verif.Symmetry.C60_evolution_given",
    "Verif.Symmetry.C60_classes",
    "Verif.Symmetry.C60_uniform_needed"
   ],
   "note": "C60_parameters, C60_field, C60_evolution (computed parameters), C60_evolution_given (given parameters), C60_classes shows that all classes meet the hypotheses, C60_uniform_needed is the witness that unequal numbers of copies matter. The nonlinearity has to be differentiable, which relu is not at zero."
  },
  {
   "property": "C61",
   "status": "proved",
   "theorems": [
    "Verif.Symmetry.C61_data_follow",
    "Verif.Symmetry.C61_steps",
    "Verif.Symmetry.C61_never_separated"
   ],
   "note": "C61_data_follow, C61_steps, C61_never_separated; for every row-wise class (all of them, C52_classes) and every mode."
  },
  {
   "property": "C62",
   "status": "proved",
   "theorems": [
    "Verif.Symmetry.C62_field",
    "Verif.Symmetry.C62_rest",
    "Verif.Symmetry.C62_single_particle",
    "Verif.Symmetry.C62_stays_zero"
   ],
   "note": "C62_field, C62_rest for right-hand sides linear in the parameters (all classes without dampening), C62_single_particle, C62_stays_zero for all classes."
  },
  {
   "property": "C63",
   "status": "proved",
   "theorems": [
    "Verif.Symmetry.C63_parameters",
    "Verif.Symmetry.C63_evolution",
    "Verif.Symmetry.C63_rotations",
    "Verif.Symmetry.C63_predictions_rotate",
    "Verif.Symmetry.C63_simple",
    "Verif.Symmetry.C63_per_tensor_needed"
   ],
   "note": "C63_parameters and C63_evolution for any class with a symmetry; C63_rotations (up-down, dampened q2, universal, periodic), C63_predictions_rotate in coordinates, C63_simple; C63_per_tensor_needed is the witness that weights varying inside a tensor break it."
  },
  {
   "property": "C64",
   "status": "proved",
   "theorems": [
    "Verif.Transport.C64_square",
    "Verif.Transport.C64_minimisers_closest",
    "Verif.Transport.C64_minimisers",
    "Verif.Transport.C64_fixed",
    "Verif.Transport.C64_rate",
    "Verif.Transport.C64_start_kept",
    "Verif.Transport.C64_descent",
    "Verif.Transport.C64_copies",
    "Verif.Transport.C64_weight_required",
    "Verif.Transport.C64_external_raises",
    "Verif.Transport.C64_penalty",
    "Verif.Transport.C64_diverges",
    "Verif.Transport.C64_random_data"
   ],
   "note": "For every right-hand side affine in the parameters, any numbers of particles, sizes, positive weights, random starts and iterations: characterisation and existence of the minimisers, exact convergence rate, descent. Witnesses show divergence, dependence of the data on the random start and the errors."
  },
  {
   "property": "C65",
   "status": "partial",
   "theorems": [
    "Verif.Hooks.C65_call",
    "Verif.Hooks.C65_names",
    "Verif.Hooks.C65_dots_collide",
    "Verif.Hooks.C65_history",
    "Verif.Hooks.C65_aligned",
    "Verif.Hooks.C65_complexity",
    "Verif.Hooks.C65_values_kept_partial",
    "Verif.Hooks.C65_shared",
    "Verif.Hooks.C65_not_defaultdict",
    "Verif.Hooks.C65_other_default",
    "Verif.Hooks.C65_gpu_raises",
    "Verif.Hooks.C65_not_matrix",
    "Verif.Hooks.C65_norms",
    "Verif.Hooks.C65_energy_partial",
    "Verif.Hooks.C65_energy_ignores_weights"
   ],
   "note": "All histories of calls and in-place writes. C65_history, C65_aligned: each record is the list of the values of its quantity. C65_values_kept_partial states when recorded arrays keep their values, C65_shared when not. Energy equals the norm penalty if no weight differs from one; otherwise not (witness). Status partial: the statement as written fails for weights, for shared memory, for non-matrix parameters and other devices."
  },
  {
   "property": "C66",
   "status": "proved",
   "theorems": [
    "Verif.Flow.C66_vectors",
    "Verif.Flow.C66_forward",
    "Verif.Flow.C66_integrand",
    "Verif.Flow.C66_euler"
   ],
   "note": "Refinement: C66_vectors for the vectorised integration, C66_forward for a whole forward pass (equality of programs, including exceptions and the state left behind), C66_integrand discharges the assumption on derivatives for integrands whose formulas keep the shapes, C66_euler instantiates the class of methods."
  },
  {
   "property": "C67",
   "status": "proved",
   "theorems": [
    "Verif.Whole.C67_sample",
    "Verif.Whole.C67_order",
    "Verif.Whole.C67_image_layout",
    "Verif.Whole.C67_image_initial",
    "Verif.Whole.C67_initial_values",
    "Verif.Whole.C67_initial",
    "Verif.Whole.C67_adaptive",
    "Verif.Whole.C67_layouts",
    "Verif.Whole.C67_forward",
    "Verif.Whole.C67_forward_sizes",
    "Verif.Whole.C67_forward_autodiff",
    "Verif.Whole.C67_forward_analytic",
    "Verif.Whole.C67_forward_rnn",
    "Verif.Whole.C67_rnn_equations",
    "Verif.Whole.C67_output"
   ],
   "note": "Refinement: C67_forward (and _sizes, _autodiff, _analytic, _rnn) state that Block.forward equals a program on functions of coordinates (Whole/Spec.lean), C67_forward_sizes for particles and samples of different sizes, C67_output reads off the tensor elements, C67_initial and C67_initial_values connect input tensors (zeros, repeated rows, trained columns), C67_image_layout and C67_image_initial do it for images, C67_sample and C67_order are consequences, C67_adaptive is the negation for step size control. Single block without passed-through dictionaries, concatenated parameters."
  },
  {
   "property": "C68",
   "status": "proved",
   "theorems": [
    "Verif.Converge.C68_forward_rnn_sizes",
    "Verif.Converge.C68_forward_rnn",
    "Verif.Converge.C68_exact",
    "Verif.Converge.C68_forward_analytic",
    "Verif.Converge.C68_norm_penalty",
    "Verif.Converge.C68_forward_sizes",
    "Verif.Converge.C68_forward_autodiff",
    "Verif.Converge.C68_methods",
    "Verif.Converge.C68_steps",
    "Verif.Converge.C68_bad_times",
    "Verif.Converge.C68_grid",
    "Verif.Converge.C68_converge",
    "Verif.Converge.C68_unique",
    "Verif.Converge.C68_forward"
   ],
   "note": "First-order error bound for every consistent one-step method on every grid, at grid points and between them (linear interpolation), through the whole forward pass of a block, also with particles and samples of different sizes (C68_forward_sizes, C68_forward_rnn_sizes); relu and adaptive methods are outside."
  },
  {
   "property": "C69",
   "status": "proved",
   "theorems": [
    "Verif.Converge.C69_nonlinearities",
    "Verif.Converge.C69_classes",
    "Verif.Converge.C69_global_sizes",
    "Verif.Converge.C69_global",
    "Verif.Converge.C69_global_rnn_sizes",
    "Verif.Converge.C69_global_rnn",
    "Verif.Converge.C69_backwards",
    "Verif.Converge.C69_samples",
    "Verif.Converge.C69_image_classes"
   ],
   "note": "Global existence by conservation of the kinetic energy, also with particles and samples of different sizes (C69_global_sizes, C69_global_rnn_sizes); classes with damping and relu are outside; C69_image_classes has the convolutional classes including batch/group norm with positive eps."
  },
  {
   "property": "C70",
   "status": "partial",
   "theorems": [
    "Verif.Masked.C70_selection",
    "Verif.Masked.C70_candidates",
    "Verif.Masked.C70_defined",
    "Verif.Masked.C70_loss",
    "Verif.Masked.C70_uses",
    "Verif.Masked.C70_held_out_partial",
    "Verif.Masked.C70_first_time_leaks",
    "Verif.Masked.C70_evaluate",
    "Verif.Masked.C70_single_sample",
    "Verif.Masked.C70_mode_rot",
    "Verif.Masked.C70_mode_balls",
    "Verif.Masked.C70_statistics"
   ],
   "note": "False as stated: i_eval = 0 is accepted although that image is the input (C70_first_time_leaks), and rot.py trains in evaluation mode from the second epoch on (C70_mode_rot). Proved: everything else, for every other evaluation time."
  },
  {
   "property": "C71",
   "status": "partial",
   "theorems": [
    "Verif.Checkpoint.C71_best_partial",
    "Verif.Checkpoint.C71_nan_first",
    "Verif.Checkpoint.C71_crash_partial",
    "Verif.Checkpoint.C71_crash_destroys",
    "Verif.Checkpoint.C71_crash_mixes",
    "Verif.Checkpoint.C71_no_overwrite"
   ],
   "note": "False as stated: NaN in the first epoch means nothing is saved (C71_nan_first); files are written in place, a crash can destroy or mix them (C71_crash_destroys, C71_crash_mixes). Proved: the best epoch is saved if the first error is a number; what can be read after any crash is of an epoch that was best; no overwriting."
  },
  {
   "property": "C72",
   "status": "partial",
   "theorems": [
    "Verif.Spheres.C72_radius",
    "Verif.Spheres.C72_degenerate",
    "Verif.Spheres.C72_distribution",
    "Verif.Spheres.C72_uniform",
    "Verif.Spheres.C72_dataset",
    "Verif.Spheres.C72_separable",
    "Verif.Spheres.C72_generate_data",
    "Verif.Spheres.C72_sample",
    "Verif.Spheres.C72_sample_refused",
    "Verif.Spheres.C72_test",
    "Verif.Spheres.C72_percentage",
    "Verif.Spheres.C72_train_partial",
    "Verif.Spheres.C72_train_uneven",
    "Verif.Spheres.C72_loader",
    "Verif.Spheres.C72_image_loaders",
    "Verif.Spheres.C72_dropped",
    "Verif.Spheres.C72_sizes",
    "Verif.Spheres.C72_seed_partial",
    "Verif.Spheres.C72_seed_data"
   ],
   "note": "False as stated: outer shell not uniform (C72_uniform), training figure with uneven batches (C72_train_uneven), dropped test samples (C72_image_loaders), CIFAR crop (C72_sizes), data before the seed (C72_seed_data). Proved: the rest."
  },
  {
   "property": "C73",
   "status": "proved",
   "theorems": [
    "Verif.Iterated.C73_fixed_points",
    "Verif.Iterated.C73_limit_is_critical",
    "Verif.Iterated.C73_excess",
    "Verif.Iterated.C73_costate",
    "Verif.Iterated.C73_error_squared",
    "Verif.Iterated.C73_converges",
    "Verif.Iterated.C73_draw",
    "Verif.Iterated.C73_not_reproducible",
    "Verif.Iterated.C73_raw",
    "Verif.Iterated.C73_raw_check",
    "Verif.Iterated.C73_raw_step_one"
   ],
   "note": "The class NonlinearInParameterAutogradShootingIntegrand; raw_fixed_point_check.py"
  },
  {
   "property": "C74",
   "status": "proved",
   "theorems": [
    "Verif.Standalone.C74_parameters",
    "Verif.Standalone.C74_rhs",
    "Verif.Standalone.C74_energies",
    "Verif.Standalone.C74_state_gradient",
    "Verif.Standalone.C74_hamilton",
    "Verif.Standalone.C74_finite_differences",
    "Verif.Standalone.C74_advect",
    "Verif.Standalone.C74_end_time",
    "Verif.Standalone.C74_converges",
    "Verif.Standalone.C74_manual",
    "Verif.Standalone.C74_manual_false"
   ],
   "note": "test_standalone_shooting_updown.py and autograd_versus_manualgrad.py"
  },
  {
   "property": "C75",
   "status": "proved",
   "theorems": [
    "Verif.Scale.C75_parameters",
    "Verif.Scale.C75_field",
    "Verif.Scale.C75_field_given",
    "Verif.Scale.C75_solution",
    "Verif.Scale.C75_reverse_solution",
    "Verif.Scale.C75_time",
    "Verif.Scale.C75_reverse",
    "Verif.Scale.C75_bijective",
    "Verif.Scale.C75_steps",
    "Verif.Scale.C75_steps_rnn",
    "Verif.Scale.C75_grid",
    "Verif.Scale.C75_forward",
    "Verif.Scale.C75_forward_rnn",
    "Verif.Scale.C75_forward_analytic",
    "Verif.Scale.C75_classes",
    "Verif.Scale.C75_run_back",
    "Verif.Scale.C75_damped_false"
   ],
   "note": "Forward passes with the model of fixed-grid solvers of Converge; exact networks for the smooth activations; particles and samples may have different sizes (except in C75_forward_analytic, the formulas exist for vectors only)."
  },
  {
   "property": "C76",
   "status": "partial",
   "theorems": [
    "Verif.Training.C76_learned",
    "Verif.Training.C76_schedule",
    "Verif.Training.C76_steps",
    "Verif.Training.C76_saved",
    "Verif.Training.C76_norm_penalty",
    "Verif.Training.C76_comparison",
    "Verif.Training.C76_no_epochs",
    "Verif.Training.C76_frozen",
    "Verif.Training.C76_clamped",
    "Verif.Training.C76_clamp_particle_free",
    "Verif.Training.C76_no_batches",
    "Verif.Training.C76_figures",
    "Verif.Training.C76_random_data",
    "Verif.Training.C76_uniform_data",
    "Verif.Training.C76_unknown_function",
    "Verif.Training.C76_loss",
    "Verif.Training.C76_plot_cubic",
    "Verif.Training.C76_plot_quadratic"
   ],
   "note": "False as stated: comparison networks (C76_comparison), batch size above the number of samples (C76_no_batches), saved norm_penalty (C76_norm_penalty), clamping without particles (C76_clamp_particle_free), figure range (C76_plot_quadratic). Proved: the rest."
  },
  {
   "property": "C77",
   "status": "partial",
   "theorems": [
    "Verif.Training.C77_learned",
    "Verif.Training.C77_figures_partial",
    "Verif.Training.C77_loss",
    "Verif.Training.C77_figures_matter",
    "Verif.Training.C77_schedule",
    "Verif.Training.C77_no_batches",
    "Verif.Training.C77_no_epochs",
    "Verif.Training.C77_saved",
    "Verif.Training.C77_frozen"
   ],
   "note": "False as stated: figures change what is learned (C77_figures_matter), batch size above the number of samples (C77_no_batches), no epochs (C77_no_epochs), saved norm penalties (C77_saved). Proved: the rest."
  },
  {
   "property": "C78",
   "status": "partial",
   "theorems": [
    "Verif.Shell.C78_direct",
    "Verif.Shell.C78_execute",
    "Verif.Shell.C78_call_python_raises",
    "Verif.Shell.C78_command_partial",
    "Verif.Shell.C78_options",
    "Verif.Shell.C78_escaped",
    "Verif.Shell.C78_kv_string",
    "Verif.Shell.C78_quoted",
    "Verif.Shell.C78_sweep",
    "Verif.Shell.C78_interpreter",
    "Verif.Shell.C78_path_with_space",
    "Verif.Shell.C78_value_with_space",
    "Verif.Shell.C78_empty_value",
    "Verif.Shell.C78_double_quotes"
   ],
   "note": "C78_command_partial: everything except the interpreter, for texts without shell characters; C78_escaped, C78_kv_string, C78_quoted for texts with them; C78_sweep for jobs of a sweep. The interpreter path has no effect (C78_interpreter) and paths with spaces, values with spaces, empty values and double quotes change the command (C78_path_with_space, C78_value_with_space, C78_empty_value, C78_double_quotes). The shell is a small specification of sh and bash in Shell/Spec.lean."
  },
  {
   "property": "C79",
   "status": "proved",
   "theorems": [
    "Verif.Later.C79_vector_classes",
    "Verif.Later.C79_image_classes",
    "Verif.Later.C79_chain",
    "Verif.Later.C79_network",
    "Verif.Later.C79_sample",
    "Verif.Later.C79_samplewise",
    "Verif.Later.C79_equivariant",
    "Verif.Later.C79_order",
    "Verif.Later.C79_forward",
    "Verif.Later.C79_forward_rnn",
    "Verif.Later.C79_analytic",
    "Verif.Later.C79_pass_on"
   ],
   "note": "C79_forward, C79_forward_rnn: one later block as a program on functions of coordinates; C79_analytic: ValueError with the hand-written formulas; C79_vector_classes, C79_image_classes: which sizes fit, for both orders of names; C79_chain, C79_network: any number of blocks; C79_sample with C79_samplewise, C79_order with C79_equivariant: consequences. Integration time only (a vector of times with several blocks is the defect recorded under C40); the dampened up-down class, whose coefficients have size 1 in every block, is not covered."
  },
  {
   "property": "C80",
   "status": "proved",
   "theorems": [
    "Verif.Residual.C80_first",
    "Verif.Residual.C80_block",
    "Verif.Residual.C80_relay",
    "Verif.Residual.C80_rowwise",
    "Verif.Residual.C80_sample",
    "Verif.Residual.C80_equivariant",
    "Verif.Residual.C80_order",
    "Verif.Residual.C80_failed_first",
    "Verif.Residual.C80_image_middle",
    "Verif.Residual.C80_image_stride",
    "Verif.Residual.C80_steps",
    "Verif.Residual.C80_network",
    "Verif.Residual.C80_again",
    "Verif.Residual.C80_stride",
    "Verif.Residual.C80_stored",
    "Verif.Residual.C80_fresh",
    "Verif.Residual.C80_plain"
   ],
   "note": "C80_network: the head gets the output of the composed steps (strides, enlargements, integrations), for all networks that realise steps; C80_fresh/C80_stored/C80_plain: what blocks put around passed particles; C80_block, C80_relay, C80_stride, C80_first: the single steps; C80_again: later passes compute the same function; C80_sample, C80_order: samples and particles; C80_image_*: layouts of images. Negation C80_failed_first: a block whose first integration fails is unusable afterwards."
  },
  {
   "property": "C81",
   "status": "proved",
   "theorems": [
    "Verif.Optimal.C81_first_variation",
    "Verif.Optimal.C81_critical",
    "Verif.Optimal.C81_short_is_best",
    "Verif.Optimal.C81_cost_is_penalty"
   ],
   "note": "C81_first_variation: change of cost is the pairing of the final costates with the displacement, up to second order, uniformly; C81_critical: same ends; C81_short_is_best: strict optimality of short pieces; C81_cost_is_penalty: the cost is length times norm penalty. relu and damped classes are outside the hypotheses (not differentiable, or not of this form)."
  },
  {
   "property": "C82",
   "status": "proved",
   "theorems": [
    "Verif.Optimal.C82_driven",
    "Verif.Optimal.C82_driven_unique",
    "Verif.Optimal.C82_best_is_shooting",
    "Verif.Optimal.C82_shooting_is_critical",
    "Verif.Optimal.C82_system",
    "Verif.Optimal.C82_one_particle_per_sample"
   ],
   "note": "C82_best_is_shooting: every optimum is a shooting trajectory; C82_shooting_is_critical: the converse to first order; C82_system and C82_one_particle_per_sample: the equations of the library with suitable initial costates reproduce the optimum; C82_driven, C82_driven_unique: driven states. Existence of an optimum is not claimed."
  },
  {
   "property": "C83",
   "status": "partial",
   "theorems": [
    "Verif.Options.C83_decimals",
    "Verif.Options.C83_negative_decimals",
    "Verif.Options.C83_not_integers",
    "Verif.Options.C83_parsers",
    "Verif.Options.C83_driver_parsers",
    "Verif.Options.C83_models",
    "Verif.Options.C83_mapping_model_partial",
    "Verif.Options.C83_universal",
    "Verif.Options.C83_nonlinearity",
    "Verif.Options.C83_driver_model",
    "Verif.Options.C83_weighting",
    "Verif.Options.C83_spiral_partial",
    "Verif.Options.C83_mapping_partial",
    "Verif.Options.C83_spiral_rejected",
    "Verif.Options.C83_rnn_runs_more",
    "Verif.Options.C83_one_sweep",
    "Verif.Options.C83_read",
    "Verif.Options.C83_accepted_iff",
    "Verif.Options.C83_abbreviation",
    "Verif.Options.C83_ambiguous",
    "Verif.Options.C83_typed",
    "Verif.Options.C83_integers",
    "Verif.Options.C83_sweep",
    "Verif.Options.C83_refused"
   ],
   "note": "Proved: what programs find, for arbitrary dictionaries and command lines; usage errors otherwise; types and choices; jobs of all four experiment scripts; decimal numbers with fraction, exponent and sign (C83_decimals, C83_negative_decimals: negative numbers with an exponent are refused). False of the code: four models accepted for the spiral experiments are refused by spiral.py (C83_spiral_rejected); universal has no class (C83_universal); the weighting parser has no model (C83_weighting); scripts with several sweeps repeat combinations (C83_rnn_runs_more)."
  },
  {
   "property": "C84",
   "status": "partial",
   "theorems": [
    "Verif.Adjoint.C84_rnn_wrong",
    "Verif.Adjoint.C84_direct_wrong",
    "Verif.Adjoint.C84_adjoint",
    "Verif.Adjoint.C84_backward_exists",
    "Verif.Adjoint.C84_forward_exists",
    "Verif.Adjoint.C84_particles",
    "Verif.Adjoint.C84_samples_partial",
    "Verif.Adjoint.C84_direct_partial",
    "Verif.Adjoint.C84_no_signal"
   ],
   "note": "C84_adjoint: the backward pass returns the derivative, for every continuously differentiable equation; C84_backward_exists, C84_forward_exists: results exist; C84_particles: parameters from particles at every evaluation. Partial because it is false of the code otherwise: in RNN mode and for parameters optimised directly C84_no_signal shows that every loss of the predictions gives zero for particles and costates, C84_rnn_wrong and C84_direct_wrong that the derivatives are not zero; C84_samples_partial and C84_direct_partial are what remains."
  },
  {
   "property": "C85",
   "status": "proved",
   "theorems": [
    "Verif.Backprop.C85_rnn_differ",
    "Verif.Backprop.C85_direct_differ",
    "Verif.Backprop.C85_rate",
    "Verif.Backprop.C85_limit",
    "Verif.Backprop.C85_sources",
    "Verif.Backprop.C85_adjoint",
    "Verif.Backprop.C85_forward"
   ],
   "note": "Every source of parameters, every consistent fixed-grid method and grid; rate for losses with two derivatives, limit for one. Parameter sets that change with time (particle-free time-dependent mode with several steps) are not covered: the equations are then not continuous in time."
  },
  {
   "property": "C86",
   "status": "partial",
   "theorems": [
    "Verif.Figures.C86_settings",
    "Verif.Figures.C86_settings_lost",
    "Verif.Figures.C86_drawing",
    "Verif.Figures.C86_projection",
    "Verif.Figures.C86_basic_saved",
    "Verif.Figures.C86_iterations",
    "Verif.Figures.C86_iterations_order_lost",
    "Verif.Figures.C86_no_second_state",
    "Verif.Figures.C86_selected_partial",
    "Verif.Figures.C86_names_lost",
    "Verif.Figures.C86_saved",
    "Verif.Figures.C86_shown",
    "Verif.Figures.C86_single_time",
    "Verif.Figures.C86_too_wide"
   ],
   "note": "Proved for names that do not begin with one of the five excluded words and for figure functions that return; the negations (names lost, settings lost after an exception, model without q2) are theorems. Figures are modelled as what is drawn, not as pixels."
  },
  {
   "property": "C87",
   "status": "partial",
   "theorems": [
    "Verif.Figures.C87_animation",
    "Verif.Figures.C87_order_lost",
    "Verif.Figures.C87_leftover",
    "Verif.Figures.C87_shown",
    "Verif.Figures.C87_not_recorded"
   ],
   "note": "Proved for up to 100000 times and a directory without earlier images of the same prefix; the negations for longer recordings and for leftover images are theorems."
  },
  {
   "property": "C88",
   "status": "partial",
   "theorems": [
    "Verif.Tables.C88_tables",
    "Verif.Tables.C88_empty",
    "Verif.Tables.C88_short_name",
    "Verif.Tables.C88_other_parameter",
    "Verif.Tables.C88_pictures",
    "Verif.Tables.C88_one"
   ],
   "note": "Tables: proved in general. Pictures: proved for at least two layers and two hidden units; for one of either the negation is a theorem."
  },
  {
   "property": "C89",
   "status": "proved",
   "theorems": [
    "Verif.Datasets.C89_training",
    "Verif.Datasets.C89_shuffle_irrelevant",
    "Verif.Datasets.C89_loaders",
    "Verif.Datasets.C89_too_short",
    "Verif.Datasets.C89_same_law",
    "Verif.Datasets.C89_functional",
    "Verif.Datasets.C89_functional_all",
    "Verif.Datasets.C89_no_batches",
    "Verif.Datasets.C89_linear_spiral",
    "Verif.Datasets.C89_cubic_bounded",
    "Verif.Datasets.C89_windows_solve",
    "Verif.Datasets.C89_usable"
   ],
   "note": "C89_training, C89_shuffle_irrelevant: online training windows; C89_loaders: the four loaders (Always: the same batch at every access); C89_usable: the array of start indices made by the program is usable (from C54); C89_too_short: error case; C89_same_law, C89_windows_solve: windows follow the law of the trajectory (exact solutions); C89_linear_spiral, C89_cubic_bounded: the equation of the data; C89_functional, C89_functional_all, C89_no_batches: loaders of fixed samples."
  },
  {
   "property": "C90",
   "status": "proved",
   "theorems": [
    "Verif.LongRange.C90_restarts",
    "Verif.LongRange.C90_particles_differ",
    "Verif.LongRange.C90_hidden_state_lost",
    "Verif.LongRange.C90_pieces",
    "Verif.LongRange.C90_pieces_rnn",
    "Verif.LongRange.C90_rnn_agree"
   ],
   "note": "For methods whose grid is the time vector (the default of torchdiffeq's fixed-grid methods); get_norm_penalty is left abstract."
  },
  {
   "property": "C91",
   "status": "proved",
   "theorems": [
    "Verif.Horizon.C91_close",
    "Verif.Horizon.C91_between_differ",
    "Verif.Horizon.C91_no_step_size",
    "Verif.Horizon.C91_values",
    "Verif.Horizon.C91_other_times",
    "Verif.Horizon.C91_forward",
    "Verif.Horizon.C91_more_times",
    "Verif.Horizon.C91_one_by_one",
    "Verif.Horizon.C91_refused"
   ],
   "note": "Model of the comparison in tests/integration_time_test.py and of the solvers of torchdiffeq with a step size, in exact arithmetic. C91_values and C91_forward describe every predicted value; C91_other_times, C91_more_times and C91_one_by_one follow; C91_between_differ and C91_no_step_size show that the conditions are needed; C91_close bounds the difference in general. Blocks without particles (directly optimised parameters) are not covered here."
  },
  {
   "property": "C92",
   "status": "proved",
   "theorems": [
    "Verif.Census.C92_parameters",
    "Verif.Census.C92_distinct",
    "Verif.Census.C92_compare",
    "Verif.Census.C92_script",
    "Verif.Census.C92_missing_not_noticed"
   ],
   "note": "Parameters of a residual network after any history; blocks with free parameters (RNN or time-dependent mode) are not part of the network class considered."
  },
  {
   "property": "C93",
   "status": "proved",
   "theorems": [
    "Verif.Gradcheck.C93_penalty",
    "Verif.Gradcheck.C93_penalty_initial",
    "Verif.Gradcheck.C93_same",
    "Verif.Gradcheck.C93_same_loss",
    "Verif.Gradcheck.C93_differentiable",
    "Verif.Gradcheck.C93_compare",
    "Verif.Gradcheck.C93_relative",
    "Verif.Gradcheck.C93_recorded",
    "Verif.Gradcheck.C93_verdict",
    "Verif.Gradcheck.C93_script",
    "Verif.Gradcheck.C93_gradient",
    "Verif.Gradcheck.C93_model",
    "Verif.Gradcheck.C93_classes",
    "Verif.Gradcheck.C93_tries"
   ],
   "note": "Memory of the integrand, outputs and gradients of the gradient test script; the two ways of computing have the same differentiable loss for all five models; comparison and counts characterised."
  },
  {
   "property": "C94",
   "status": "proved",
   "theorems": [
    "Verif.Order.C94_on_grid",
    "Verif.Order.C94_forward",
    "Verif.Order.C94_nonlinearities",
    "Verif.Order.C94_classes",
    "Verif.Order.C94_forward_sizes",
    "Verif.Order.C94_forward_analytic",
    "Verif.Order.C94_forward_rnn",
    "Verif.Order.C94_norm_penalty",
    "Verif.Order.C94_methods",
    "Verif.Order.C94_step",
    "Verif.Order.C94_converge",
    "Verif.Order.C94_sharp",
    "Verif.Order.C94_interpolation_sharp"
   ],
   "note": "C94_methods (orders), C94_step (one step), C94_converge (solver on systems), C94_on_grid (which requested times are grid points), C94_forward, C94_forward_sizes, C94_forward_analytic, C94_forward_rnn (blocks), C94_norm_penalty, C94_classes and C94_nonlinearities (hypotheses met by the classes), C94_sharp and C94_interpolation_sharp (bounds attained). Exact arithmetic; the solver of torchdiffeq is modelled in Converge/Model.lean. relu, damping and adaptive methods are not covered."
  },
  {
   "property": "C95",
   "status": "partial",
   "theorems": [
    "Verif.Recompute.C95_rnn_other_pass",
    "Verif.Recompute.C95_explicit_plans",
    "Verif.Recompute.C95_stored_plans_partial",
    "Verif.Recompute.C95_last_plans",
    "Verif.Recompute.C95_other_sizes",
    "Verif.Recompute.C95_as_integration",
    "Verif.Recompute.C95_again",
    "Verif.Recompute.C95_checkpoints",
    "Verif.Recompute.C95_rnn_parameters",
    "Verif.Recompute.C95_passes_between_partial"
   ],
   "note": "Values only: the graphs that torch builds for gradients are not modelled. The full statement fails (C95_explicit_plans, C95_other_sizes, C95_rnn_other_pass): plans cannot be given, and passes in between change plans and, in RNN mode, parameters; C95_passes_between_partial and C95_stored_plans_partial are what holds of these parts. Integrands with external parameters are left out."
  },
  {
   "property": "C96",
   "status": "proved",
   "theorems": [
    "Verif.Rounding.C96_block",
    "Verif.Rounding.C96_forward",
    "Verif.Rounding.C96_forward_autodiff",
    "Verif.Rounding.C96_forward_rnn",
    "Verif.Rounding.C96_exact",
    "Verif.Rounding.C96_exact_steps",
    "Verif.Rounding.C96_stable",
    "Verif.Rounding.C96_steps",
    "Verif.Rounding.C96_converge",
    "Verif.Rounding.C96_number",
    "Verif.Rounding.C96_adds_up"
   ],
   "note": "C96_exact and C96_exact_steps (without errors the relations are the model's runs, nothing else), C96_stable (any inexact run of the solver program), C96_steps (arithmetic step by step), C96_converge (distance to the exact solution), C96_number (grid points for a step size), C96_adds_up (the factor is attained), C96_block (the solver of the model meets the assumption), C96_forward, C96_forward_autodiff, C96_forward_rnn (blocks). Errors are absolute bounds; overflow and the rounding of the time values are not covered, nor relu and adaptive methods."
  },
  {
   "property": "C97",
   "status": "partial",
   "theorems": [
    "Verif.Sessions.C97_cc_records",
    "Verif.Sessions.C97_cc_missing",
    "Verif.Sessions.C97_cc_models",
    "Verif.Sessions.C97_cc_simple_fails",
    "Verif.Sessions.C97_calls",
    "Verif.Sessions.C97_calls_error",
    "Verif.Sessions.C97_recording_partial",
    "Verif.Sessions.C97_repeated",
    "Verif.Sessions.C97_goes_on",
    "Verif.Sessions.C97_not_once"
   ],
   "note": "All histories of recordings and passes. Full statement false: a failed recording leaves its hook registered (C97_repeated, C97_goes_on, C97_not_once), and cc.py's recording fails for the model simple (C97_cc_simple_fails). Proved: the content for histories without failed recordings, and exactly what is written in all others."
  },
  {
   "property": "C98",
   "status": "partial",
   "theorems": [
    "Verif.Tensorboard.C98_call",
    "Verif.Tensorboard.C98_training_partial",
    "Verif.Tensorboard.C98_no_data",
    "Verif.Tensorboard.C98_analytic_fails",
    "Verif.Tensorboard.C98_one_feature_fails",
    "Verif.Tensorboard.C98_first_layer",
    "Verif.Tensorboard.C98_stops"
   ],
   "note": "Full statement false for biases of shape [1, d] (hand-written formulas) and for one feature: C98_analytic_fails, C98_one_feature_fails. Proved for biases with at least two numbers in one dimension."
  },
  {
   "property": "C99",
   "status": "proved",
   "theorems": [
    "Verif.Symmetry.C99_penalty",
    "Verif.Symmetry.C99_evolution",
    "Verif.Symmetry.C99_predictions",
    "Verif.Symmetry.C99_quarter_turn",
    "Verif.Symmetry.C99_cyclic_shift_false"
   ],
   "note": "simpleConv, upDownConv and the group-normalised class; the residual network with striding is not covered (striding keeps pixels at an offset that depends on the size)"
  },
  {
   "property": "C100",
   "status": "proved",
   "theorems": [
    "Verif.Capacity.C100_rank",
    "Verif.Capacity.C100_rank_general",
    "Verif.Capacity.C100_rank_images",
    "Verif.Capacity.C100_directions",
    "Verif.Capacity.C100_simple",
    "Verif.Capacity.C100_upDown",
    "Verif.Capacity.C100_symmetrized",
    "Verif.Capacity.C100_debugSimple",
    "Verif.Capacity.C100_additional",
    "Verif.Capacity.C100_nonlinearities"
   ],
   "note": "Sharp for the simple, debug, up-down, dampened-q2 and symmetrized classes; for the universal and periodic classes a sufficient and a necessary number; for the general class only the ranks. Rank statements assume one weight per tensor, as in the code."
  },
  {
   "property": "C101",
   "status": "proved",
   "theorems": [
    "Verif.Descent.C101_adjoint",
    "Verif.Descent.C101_loss",
    "Verif.Descent.C101_demo",
    "Verif.Descent.C101_round",
    "Verif.Descent.C101_rules",
    "Verif.Descent.C101_momentum"
   ],
   "note": "C101_round: any differentiable loss; C101_loss and C101_demo: the loss of the demo on a block (no RNN mode); C101_rules: SGD and the first step of Adam (torch's formulas as documented); C101_momentum: later steps of Adam need not go downhill; C101_adjoint: directions from the adjoint method. Exact arithmetic."
  },
  {
   "property": "C102",
   "status": "proved",
   "theorems": [
    "Verif.Ordering.C102_order",
    "Verif.Ordering.C102_order_given",
    "Verif.Ordering.C102_forward",
    "Verif.Ordering.C102_forward_rnn",
    "Verif.Ordering.C102_loss",
    "Verif.Ordering.C102_reverse"
   ],
   "note": "The theorems for forward passes are about samples with one row of one number and a block whose output is q1; the bound on the step size depends on particles, costates and batch. The reversal is for the exact network in RNN mode."
  },
  {
   "property": "C103",
   "status": "partial",
   "theorems": [
    "Verif.Solvers.C103_spiral",
    "Verif.Solvers.C103_spiral_checkpoints",
    "Verif.Solvers.C103_video",
    "Verif.Solvers.C103_mapping_partial",
    "Verif.Solvers.C103_neural_ode_step",
    "Verif.Solvers.C103_adjoint_ignored",
    "Verif.Solvers.C103_resnet_default",
    "Verif.Solvers.C103_anode_missing"
   ],
   "note": "False of simple_functional_mapping_example.py (flag --adjoint ignored, step size of the neural ODE fixed at 0.5), proved as C103_adjoint_ignored and C103_neural_ode_step; everything else holds. The external library is an arbitrary function of the call settings."
  },
  {
   "property": "C104",
   "status": "proved",
   "theorems": [
    "Verif.Sensitivity.C104_image_classes",
    "Verif.Sensitivity.C104_parameters",
    "Verif.Sensitivity.C104_distance",
    "Verif.Sensitivity.C104_penalty",
    "Verif.Sensitivity.C104_forward",
    "Verif.Sensitivity.C104_forward_rnn",
    "Verif.Sensitivity.C104_nonlinearities",
    "Verif.Sensitivity.C104_classes",
    "Verif.Sensitivity.C104_step",
    "Verif.Sensitivity.C104_methods",
    "Verif.Sensitivity.C104_steps",
    "Verif.Sensitivity.C104_steps_penalty"
   ],
   "note": "two-sided exponential bound for exact solutions of eight classes with autodiff parameters (norm penalty) and for any other source of parameters (norm of the parameters, also relu); lower bound for the norm penalty; forward passes in both modes entry by entry up to a tolerance; in RNN mode for every step size without a tolerance, with any source of derivatives and every Lipschitz nonlinearity; convolutional classes in C104_image_classes"
  },
  {
   "property": "C105",
   "status": "partial",
   "theorems": [
    "Verif.Figures.C105_figure_partial",
    "Verif.Figures.C105_outside",
    "Verif.Figures.C105_range",
    "Verif.Figures.C105_one_particle",
    "Verif.Figures.C105_show",
    "Verif.Figures.C105_run",
    "Verif.Figures.C105_frequency_zero"
   ],
   "note": "The drawing is modelled by the points, lines and axis limits; colours and fonts are not. Full statement false: one particle (C105_one_particle), quadratic function with a small range (C105_outside)."
  },
  {
   "property": "C106",
   "status": "proved",
   "theorems": [
    "Verif.Rotated.C106_split",
    "Verif.Rotated.C106_too_few",
    "Verif.Rotated.C106_epoch",
    "Verif.Rotated.C106_evaluate"
   ],
   "note": "The path of the file is not modelled. The remainder-one exception is the defect of C70_single_sample; it is part of the statement here."
  },
  {
   "property": "C107",
   "status": "proved",
   "theorems": [
    "Verif.Annealed.C107_rate",
    "Verif.Annealed.C107_shorter",
    "Verif.Annealed.C107_schedule",
    "Verif.Annealed.C107_run",
    "Verif.Annealed.C107_succeeds",
    "Verif.Annealed.C107_run_cc",
    "Verif.Annealed.C107_parameters",
    "Verif.Annealed.C107_no_epoch",
    "Verif.Annealed.C107_no_batch"
   ],
   "note": "The network, its gradients, the optimizer and the sampler are functions on an arbitrary state; torch's CosineAnnealingLR is modelled by its recursive rule. C107_run and C107_succeeds (rot.py, balls.py), C107_run_cc (cc.py), C107_rate and C107_schedule for the learning rates."
  },
  {
   "property": "C108",
   "status": "proved",
   "theorems": [
    "Verif.Autoencoder.C108_encoder",
    "Verif.Autoencoder.C108_decoder",
    "Verif.Autoencoder.C108_forward",
    "Verif.Autoencoder.C108_result",
    "Verif.Autoencoder.C108_never_exact",
    "Verif.Autoencoder.C108_bias",
    "Verif.Autoencoder.C108_decoder_length",
    "Verif.Autoencoder.C108_decoder_map",
    "Verif.Autoencoder.C108_evaluate",
    "Verif.Autoencoder.C108_order",
    "Verif.Autoencoder.C108_separate",
    "Verif.Autoencoder.C108_transpose",
    "Verif.Autoencoder.C108_normalised"
   ],
   "note": "The layers of torch.nn are modelled by what they compute in exact arithmetic; the shooting block is an arbitrary function. C108_forward and C108_result for sizes and effects, C108_separate for evaluation mode, C108_order for both modes, C108_bias and C108_normalised for training mode, C108_transpose for the two kinds of convolutions; C108_decoder_map and C108_decoder_length connect the decoder with C70 and C106."
  },
  {
   "property": "C109",
   "status": "partial",
   "theorems": [
    "Verif.Notebooks.C109_time_point",
    "Verif.Notebooks.C109_saved_error",
    "Verif.Notebooks.C109_ten",
    "Verif.Notebooks.C109_rows",
    "Verif.Notebooks.C109_rate",
    "Verif.Notebooks.C109_no_epoch",
    "Verif.Notebooks.C109_perfect",
    "Verif.Notebooks.C109_perfect_partial",
    "Verif.Notebooks.C109_not_perfect",
    "Verif.Notebooks.C109_trajectories",
    "Verif.Notebooks.C109_no_trajectories",
    "Verif.Notebooks.C109_boundary",
    "Verif.Notebooks.C109_time_order",
    "Verif.Notebooks.C109_distinct_times",
    "Verif.Notebooks.C109_path",
    "Verif.Notebooks.C109_repeated_times",
    "Verif.Notebooks.C109_nuc",
    "Verif.Notebooks.C109_average",
    "Verif.Notebooks.C109_table",
    "Verif.Notebooks.C109_table_fails",
    "Verif.Notebooks.C109_group",
    "Verif.Notebooks.C109_groups_disjoint",
    "Verif.Notebooks.C109_mse",
    "Verif.Notebooks.C109_listing",
    "Verif.Notebooks.C109_curves",
    "Verif.Notebooks.C109_curves_hidden",
    "Verif.Notebooks.C109_representations",
    "Verif.Notebooks.C109_tsne",
    "Verif.Notebooks.C109_tsne_fails",
    "Verif.Notebooks.C109_pca",
    "Verif.Notebooks.C109_shown",
    "Verif.Notebooks.C109_not_shown"
   ],
   "note": "Computations of the three analysis notebooks. Proved: the printed rate counts the runs above 99 percent; trajectories, colours, order of time, table, groups, means, labels, pictures and time points belong to the right runs and samples. The statement as written is false of the code: the rate also counts runs with fewer than one wrong sample in hundred (C109_not_perfect; C109_perfect_partial holds for at most 100 test samples), the curve Nuc. is not the nuclear norm (C109_nuc), repeated times leave the order open (C109_repeated_times), the loss curves leave out epochs (C109_curves_hidden), a last batch of one sequence cannot be shown (C109_not_shown)."
  }
 ]
}