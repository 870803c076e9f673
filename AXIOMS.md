# Axioms of every theorem in MANIFEST.json

Generated from `#print axioms`.

## none (6)

* `Verif.Striding.C22_construct_error`
* `Verif.Sweep.C25_empty`
* `Verif.Sweep.C26_false`
* `Verif.Block.C40_move`
* `Verif.Chunks.C45_whole`
* `Verif.Spheres.C72_seed_partial`

## propext (30)

* `Verif.Notebooks.C109_no_trajectories`
* `Verif.Integrator.C13_rejects_with_valueError`
* `Verif.Striding.C22_names`
* `Verif.Enlarge.C23_channels_fixed`
* `Verif.Enlarge.C24_more_dimensions_accepted`
* `Verif.Cli.C29_force`
* `Verif.Cli.C29_same_name_skipped`
* `Verif.Init.C43_both_rejected`
* `Verif.Init.C43_constant_conv_false`
* `Verif.Init.C43_constant_partial`
* `Verif.Init.C43_custom_rejected`
* `Verif.Init.C43_random`
* `Verif.Init.C43_sample_grows`
* `Verif.Init.C43_wrong_size`
* `Verif.Init.C43_zero`
* `Verif.Chunks.C46_nonuniform_wrong`
* `Verif.Chunks.C46_single_value`
* `Verif.ParamUtils.C48_unknown`
* `Verif.Shapes.C58_modes`
* `Verif.Shapes.C58_particle_size_kind`
* `Verif.Shapes.C58_zero_start`
* `Verif.Hooks.C65_dots_collide`
* `Verif.Checkpoint.C71_crash_destroys`
* `Verif.Checkpoint.C71_crash_mixes`
* `Verif.Checkpoint.C71_no_overwrite`
* `Verif.Spheres.C72_seed_data`
* `Verif.Training.C77_saved`
* `Verif.Shell.C78_execute`
* `Verif.Tables.C88_empty`
* `Verif.Tables.C88_short_name`

## propext, Quot.sound (87)

* `Verif.Figures.C105_frequency_zero`
* `Verif.Rotated.C106_split`
* `Verif.Rotated.C106_too_few`
* `Verif.Notebooks.C109_average`
* `Verif.Notebooks.C109_curves_hidden`
* `Verif.Notebooks.C109_distinct_times`
* `Verif.Notebooks.C109_group`
* `Verif.Notebooks.C109_groups_disjoint`
* `Verif.Notebooks.C109_listing`
* `Verif.Notebooks.C109_mse`
* `Verif.Notebooks.C109_path`
* `Verif.Notebooks.C109_rows`
* `Verif.Notebooks.C109_table`
* `Verif.Notebooks.C109_table_fails`
* `Verif.Notebooks.C109_ten`
* `Verif.Notebooks.C109_time_order`
* `Verif.Notebooks.C109_time_point`
* `Verif.Striding.C21_center_kept_iff`
* `Verif.Sweep.C25_membership`
* `Verif.Sweep.C26_count`
* `Verif.Sweep.C26_sweeps_accumulate`
* `Verif.Cli.C28_flags`
* `Verif.Cli.C28_merge_partial`
* `Verif.Cli.C28_order`
* `Verif.Cli.C29_complete`
* `Verif.Cli.C29_never_recomputed`
* `Verif.Cli.C29_resume`
* `Verif.Cli.C29_seeds`
* `Verif.Integrand.C37_derivatives`
* `Verif.Integrand.C37_external_analytic`
* `Verif.Integrand.C37_external_autodiff_raises`
* `Verif.Integrand.C37_not_rnn`
* `Verif.Integrand.C37_rnn`
* `Verif.Integrand.C37_rnn_new`
* `Verif.Integrand.C37_rnn_same`
* `Verif.Integrand.C37_transpose_raises`
* `Verif.Integrand.C38_handles_differ`
* `Verif.Integrand.C38_hooks_only_watch`
* `Verif.Integrand.C38_register`
* `Verif.Integrand.C38_remove`
* `Verif.ResNet.C42_channels`
* `Verif.ResNet.C42_channels_nonneg`
* `Verif.ResNet.C42_layers`
* `Verif.ResNet.C42_strides`
* `Verif.Init.C43_like`
* `Verif.Init.C43_of_size`
* `Verif.Init.C43_sample_batch`
* `Verif.Init.C43_sample_values`
* `Verif.Chunks.C45_fuel`
* `Verif.Chunks.C46_uncut`
* `Verif.ParamUtils.C48_counts`
* `Verif.ParamUtils.C48_freeze_unfreeze`
* `Verif.ParamUtils.C48_overall_kept`
* `Verif.ParamUtils.C48_set`
* `Verif.Dicts.C49_data_concat_dim`
* `Verif.Batches.C54_draw_fails_iff`
* `Verif.Batches.C54_selection_inside`
* `Verif.Batches.C54_weights`
* `Verif.Integrand.C57_external`
* `Verif.Integrand.C57_last_at_zero`
* `Verif.Integrand.C57_none`
* `Verif.Integrand.C57_rnn`
* `Verif.Masked.C70_mode_balls`
* `Verif.Masked.C70_mode_rot`
* `Verif.Checkpoint.C71_best_partial`
* `Verif.Checkpoint.C71_crash_partial`
* `Verif.Checkpoint.C71_nan_first`
* `Verif.Training.C76_comparison`
* `Verif.Training.C76_figures`
* `Verif.Training.C76_frozen`
* `Verif.Training.C76_no_epochs`
* `Verif.Training.C76_saved`
* `Verif.Training.C76_unknown_function`
* `Verif.Training.C77_frozen`
* `Verif.Training.C77_no_epochs`
* `Verif.Figures.C86_no_second_state`
* `Verif.Figures.C86_single_time`
* `Verif.Tables.C88_other_parameter`
* `Verif.Datasets.C89_functional_all`
* `Verif.Datasets.C89_loaders`
* `Verif.Datasets.C89_no_batches`
* `Verif.Datasets.C89_same_law`
* `Verif.Datasets.C89_shuffle_irrelevant`
* `Verif.Datasets.C89_too_short`
* `Verif.Datasets.C89_training`
* `Verif.Census.C92_missing_not_noticed`
* `Verif.Symmetry.C99_quarter_turn`

## propext, Classical.choice, Quot.sound (778)

* `Verif.Assembly.C01_roundtrip`
* `Verif.Assembly.C01_roundtrip_identity`
* `Verif.Assembly.C02_layout`
* `Verif.Assembly.C03_stack_rowwise`
* `Verif.Assembly.C03_trajectory_roundtrip`
* `Verif.Assembly.C04_assemble_raises_iff`
* `Verif.Assembly.C04_bad_dim`
* `Verif.Assembly.C04_no_plan`
* `Verif.Assembly.C04_rank0_not_readable`
* `Verif.Assembly.C04_surplus_ignored`
* `Verif.Assembly.C04_vector_length`
* `Verif.Dicts.C05_merge_lookup`
* `Verif.Dicts.C05_merge_raises_iff`
* `Verif.Dicts.C06_extract_short_raises`
* `Verif.Dicts.C06_extract_slots`
* `Verif.Dicts.C06_gradient_goes_home`
* `Verif.Dicts.C06_none_parameter_raises`
* `Verif.Dicts.C06_parameter_objects`
* `Verif.Dicts.C06_roundtrip`
* `Verif.Dicts.C06_single_dict`
* `Verif.Dicts.C06_single_dict_roundtrip`
* `Verif.Dicts.C06_tuple_order`
* `Verif.Concat.C07_concat_split`
* `Verif.Concat.C07_elements`
* `Verif.Concat.C07_split_concat`
* `Verif.Concat.C08_keys_partial`
* `Verif.Concat.C08_missing_key_accepted`
* `Verif.Concat.C08_only_valueError`
* `Verif.Concat.C08_shapes`
* `Verif.Concat.C08_split_dim`
* `Verif.Integrator.C09_created_intervals`
* `Verif.Integrator.C09_output_times`
* `Verif.Capacity.C100_additional`
* `Verif.Capacity.C100_debugSimple`
* `Verif.Capacity.C100_directions`
* `Verif.Capacity.C100_nonlinearities`
* `Verif.Capacity.C100_rank`
* `Verif.Capacity.C100_rank_general`
* `Verif.Capacity.C100_rank_images`
* `Verif.Capacity.C100_simple`
* `Verif.Capacity.C100_symmetrized`
* `Verif.Capacity.C100_upDown`
* `Verif.Descent.C101_adjoint`
* `Verif.Descent.C101_demo`
* `Verif.Descent.C101_loss`
* `Verif.Descent.C101_momentum`
* `Verif.Descent.C101_round`
* `Verif.Descent.C101_rules`
* `Verif.Ordering.C102_forward`
* `Verif.Ordering.C102_forward_rnn`
* `Verif.Ordering.C102_loss`
* `Verif.Ordering.C102_order`
* `Verif.Ordering.C102_order_given`
* `Verif.Ordering.C102_reverse`
* `Verif.Solvers.C103_adjoint_ignored`
* `Verif.Solvers.C103_anode_missing`
* `Verif.Solvers.C103_mapping_partial`
* `Verif.Solvers.C103_neural_ode_step`
* `Verif.Solvers.C103_resnet_default`
* `Verif.Solvers.C103_spiral`
* `Verif.Solvers.C103_spiral_checkpoints`
* `Verif.Solvers.C103_video`
* `Verif.Sensitivity.C104_classes`
* `Verif.Sensitivity.C104_distance`
* `Verif.Sensitivity.C104_forward`
* `Verif.Sensitivity.C104_forward_rnn`
* `Verif.Sensitivity.C104_image_classes`
* `Verif.Sensitivity.C104_methods`
* `Verif.Sensitivity.C104_nonlinearities`
* `Verif.Sensitivity.C104_parameters`
* `Verif.Sensitivity.C104_penalty`
* `Verif.Sensitivity.C104_step`
* `Verif.Sensitivity.C104_steps`
* `Verif.Sensitivity.C104_steps_penalty`
* `Verif.Figures.C105_figure_partial`
* `Verif.Figures.C105_one_particle`
* `Verif.Figures.C105_outside`
* `Verif.Figures.C105_range`
* `Verif.Figures.C105_run`
* `Verif.Figures.C105_show`
* `Verif.Rotated.C106_epoch`
* `Verif.Rotated.C106_evaluate`
* `Verif.Annealed.C107_no_batch`
* `Verif.Annealed.C107_no_epoch`
* `Verif.Annealed.C107_parameters`
* `Verif.Annealed.C107_rate`
* `Verif.Annealed.C107_run`
* `Verif.Annealed.C107_run_cc`
* `Verif.Annealed.C107_schedule`
* `Verif.Annealed.C107_shorter`
* `Verif.Annealed.C107_succeeds`
* `Verif.Autoencoder.C108_bias`
* `Verif.Autoencoder.C108_decoder`
* `Verif.Autoencoder.C108_decoder_length`
* `Verif.Autoencoder.C108_decoder_map`
* `Verif.Autoencoder.C108_encoder`
* `Verif.Autoencoder.C108_evaluate`
* `Verif.Autoencoder.C108_forward`
* `Verif.Autoencoder.C108_never_exact`
* `Verif.Autoencoder.C108_normalised`
* `Verif.Autoencoder.C108_order`
* `Verif.Autoencoder.C108_result`
* `Verif.Autoencoder.C108_separate`
* `Verif.Autoencoder.C108_transpose`
* `Verif.Notebooks.C109_boundary`
* `Verif.Notebooks.C109_curves`
* `Verif.Notebooks.C109_no_epoch`
* `Verif.Notebooks.C109_not_perfect`
* `Verif.Notebooks.C109_not_shown`
* `Verif.Notebooks.C109_nuc`
* `Verif.Notebooks.C109_pca`
* `Verif.Notebooks.C109_perfect`
* `Verif.Notebooks.C109_perfect_partial`
* `Verif.Notebooks.C109_rate`
* `Verif.Notebooks.C109_repeated_times`
* `Verif.Notebooks.C109_representations`
* `Verif.Notebooks.C109_saved_error`
* `Verif.Notebooks.C109_shown`
* `Verif.Notebooks.C109_trajectories`
* `Verif.Notebooks.C109_tsne`
* `Verif.Notebooks.C109_tsne_fails`
* `Verif.Integrator.C10_chain`
* `Verif.Integrator.C10_created_intervals`
* `Verif.Integrator.C10_number_of_intervals`
* `Verif.Integrator.C11_checkpointing_is_transparent`
* `Verif.Integrator.C11_restart`
* `Verif.Integrator.C12_anode_rejected`
* `Verif.Integrator.C12_decreasing_loses_points`
* `Verif.Integrator.C12_decreasing_returns_none`
* `Verif.Integrator.C12_direct`
* `Verif.Integrator.C12_integrate_rejected`
* `Verif.Integrator.C12_one_value_per_time`
* `Verif.Integrator.C12_rejected`
* `Verif.Integrator.C12_wrong_number_rejected`
* `Verif.Integrator.C13_accepts_iff`
* `Verif.Integrator.C13_options`
* `Verif.Integrator.C13_shared_options`
* `Verif.TimeParams.C14_constructed`
* `Verif.TimeParams.C14_queries_succeed`
* `Verif.TimeParams.C15_bucket_partial`
* `Verif.TimeParams.C15_history_dependent`
* `Verif.Scheduler.C16_added_group_raises`
* `Verif.Scheduler.C16_any_two_points`
* `Verif.Scheduler.C16_run`
* `Verif.Scheduler.C17_attempt_iff`
* `Verif.Scheduler.C17_best_value`
* `Verif.Scheduler.C17_changes_need_attempt`
* `Verif.Scheduler.C17_cooldown`
* `Verif.Scheduler.C17_improvement`
* `Verif.Scheduler.C17_negative_patience`
* `Verif.Scheduler.C18_attempt`
* `Verif.Scheduler.C18_attempts_lower`
* `Verif.Scheduler.C18_final`
* `Verif.Scheduler.C18_finitely_many_attempts`
* `Verif.Scheduler.C18_negative_metric_never_converges`
* `Verif.Scheduler.C18_stuck_metric_converges`
* `Verif.Scheduler.C18_stuck_values`
* `Verif.Scheduler.C19_restore`
* `Verif.Scheduler.C19_same_future`
* `Verif.Scheduler.C20_construct`
* `Verif.Scheduler.C20_rejected`
* `Verif.Striding.C21_kept_positions`
* `Verif.Striding.C21_many`
* `Verif.Striding.C21_rejected`
* `Verif.Striding.C21_single`
* `Verif.Striding.C21_small_dimension_vanishes`
* `Verif.Striding.C22_construct`
* `Verif.Striding.C22_forward`
* `Verif.Enlarge.C23_embedding`
* `Verif.Enlarge.C23_enlarge`
* `Verif.Enlarge.C23_too_few`
* `Verif.Enlarge.C24_create_then_enlarge`
* `Verif.Enlarge.C24_created`
* `Verif.Enlarge.C24_dictionaries`
* `Verif.Enlarge.C24_extra_key_lost`
* `Verif.Enlarge.C24_nothing_to_do`
* `Verif.Enlarge.C24_smaller_rejected`
* `Verif.Enlarge.C24_stored_target_is_shared`
* `Verif.Sweep.C25_all_combinations`
* `Verif.Sweep.C25_count`
* `Verif.Sweep.C26_fresh_partial`
* `Verif.Cli.C27_arg_count`
* `Verif.Cli.C27_arg_list`
* `Verif.Cli.C27_config_string`
* `Verif.Cli.C27_config_string_none`
* `Verif.Cli.C27_escape`
* `Verif.Cli.C27_escape_protects`
* `Verif.Cli.C27_kv_string`
* `Verif.Cli.C27_kv_string_read_back`
* `Verif.Cli.C27_spaces_confuse`
* `Verif.Cli.C27_string_argument`
* `Verif.Cli.C27_written`
* `Verif.Cli.C28_false_flag_stays`
* `Verif.Cli.C28_run_args`
* `Verif.Activation.C30_derivative_partial`
* `Verif.Activation.C30_monotone`
* `Verif.Activation.C30_relu_zero`
* `Verif.Activation.C30_sigmoid_false`
* `Verif.Activation.C30_softmax`
* `Verif.Activation.C31_accepted`
* `Verif.Activation.C31_case_insensitive`
* `Verif.Activation.C31_names`
* `Verif.Activation.C31_none`
* `Verif.Activation.C31_spelling`
* `Verif.Conv.C32_conv_classes`
* `Verif.Shooting.C32_excess`
* `Verif.Shooting.C32_independent_of_initialisation`
* `Verif.Energy.C32_missing_object`
* `Verif.Models.C32_model_classes`
* `Verif.Shooting.C32_negative_weight`
* `Verif.Energy.C32_store`
* `Verif.Shooting.C32_unique_minimiser`
* `Verif.Shooting.C33_converges`
* `Verif.Shooting.C33_diverges`
* `Verif.Shooting.C33_error`
* `Verif.Energy.C33_step`
* `Verif.Shooting.C33_weight_two`
* `Verif.Models.C34_bias_false`
* `Verif.Models.C34_bias_rows`
* `Verif.Shooting.C34_costate_gradient`
* `Verif.Models.C34_dampenedQ2_difference`
* `Verif.Models.C34_dampenedQ2_false`
* `Verif.Models.C34_dampenedQ2_parameters`
* `Verif.Models.C34_debugSimple`
* `Verif.Models.C34_debugSimple_costate`
* `Verif.Shooting.C34_fixed_parameters`
* `Verif.Models.C34_general`
* `Verif.Models.C34_general_costate`
* `Verif.Models.C34_general_costate_dampened`
* `Verif.Models.C34_periodic`
* `Verif.Models.C34_periodic_costate`
* `Verif.Models.C34_simple`
* `Verif.Models.C34_simple_costate`
* `Verif.Models.C34_simple_square`
* `Verif.Models.C34_simple_square_false`
* `Verif.Models.C34_symmetrized_costate`
* `Verif.Models.C34_symmetrized_partial`
* `Verif.Models.C34_symmetrized_weights_false`
* `Verif.Models.C34_universal`
* `Verif.Models.C34_universal_costate`
* `Verif.Models.C34_upDown`
* `Verif.Models.C34_upDown_costate`
* `Verif.Conv.C35_convBatch`
* `Verif.Models.C35_dampenedQ2`
* `Verif.Shooting.C35_dampening_not_constant`
* `Verif.Shooting.C35_euler_not_constant`
* `Verif.Models.C35_general`
* `Verif.Shooting.C35_lagrangian_constant`
* `Verif.Shooting.C35_norm_penalty_constant`
* `Verif.Models.C35_periodic`
* `Verif.Models.C35_simple`
* `Verif.Conv.C35_simpleConv`
* `Verif.Models.C35_universal`
* `Verif.Models.C35_upDown`
* `Verif.Conv.C35_upDownConv`
* `Verif.Energy.C36_additive`
* `Verif.Energy.C36_definite`
* `Verif.Energy.C36_nonneg`
* `Verif.Energy.C36_quadratic`
* `Verif.Energy.C36_value`
* `Verif.Energy.C36_zero_weight`
* `Verif.Integrand.C37_handed_over`
* `Verif.Integrand.C38_calls`
* `Verif.Integrand.C38_calls_error`
* `Verif.Block.C39_costates`
* `Verif.Block.C39_created_only_by_first`
* `Verif.Block.C39_dots_collide`
* `Verif.Block.C39_integrand_names`
* `Verif.Block.C39_keep_zero_raises`
* `Verif.Block.C39_keeps`
* `Verif.Block.C39_keeps_always`
* `Verif.Block.C39_lost`
* `Verif.Block.C39_new`
* `Verif.Block.C39_own`
* `Verif.Block.C39_parameters_iff`
* `Verif.Block.C39_registered`
* `Verif.Block.C39_stay`
* `Verif.Block.C39_stuck`
* `Verif.Block.C40_last_set`
* `Verif.Block.C40_only_these_times`
* `Verif.Block.C40_plain_result`
* `Verif.Block.C40_result`
* `Verif.Block.C40_vector_concat_wrong_dimension`
* `Verif.Block.C41_chain`
* `Verif.Block.C41_chain_rejects`
* `Verif.Block.C41_data_rejected`
* `Verif.Block.C41_enlarging_step`
* `Verif.Block.C41_first`
* `Verif.Block.C41_hidden_name`
* `Verif.Block.C41_inputs_rejected`
* `Verif.Block.C41_output_one_block`
* `Verif.Block.C41_plain_keeps_all_names`
* `Verif.Block.C41_reject`
* `Verif.Block.C41_reject_data`
* `Verif.Block.C41_relay`
* `Verif.Block.C41_step`
* `Verif.Block.C41_trained`
* `Verif.ResNet.C42_built`
* `Verif.ResNet.C42_empty_first_layer`
* `Verif.ResNet.C42_flow`
* `Verif.ResNet.C42_last_block`
* `Verif.ResNet.C42_names`
* `Verif.ResNet.C42_parameters`
* `Verif.ResNet.C42_registered`
* `Verif.ResNet.C42_single_block_ignored`
* `Verif.ResNet.C42_works`
* `Verif.Latex.C44_active_protected`
* `Verif.Latex.C44_append`
* `Verif.Latex.C44_injective`
* `Verif.Latex.C44_plain`
* `Verif.Latex.C44_prints`
* `Verif.Latex.C44_special_changed`
* `Verif.Chunks.C45_chunks`
* `Verif.Chunks.C45_from_zero`
* `Verif.Chunks.C45_terminates_iff`
* `Verif.Chunks.C46_any_times`
* `Verif.Chunks.C46_uniform`
* `Verif.Layers.C47_add_weight`
* `Verif.Layers.C47_apply`
* `Verif.Layers.C47_constructed_empty`
* `Verif.Layers.C47_constructed_weights`
* `Verif.Layers.C47_conv_forward`
* `Verif.Layers.C47_last_weight`
* `Verif.Layers.C47_linear_forward`
* `Verif.Layers.C47_remove`
* `Verif.Layers.C47_remove_twice`
* `Verif.Dicts.C49_dimension_rejected`
* `Verif.Dicts.C49_sizes`
* `Verif.Dicts.C49_zero_data`
* `Verif.Dicts.C49_zero_like`
* `Verif.Dicts.C50_several_blocks`
* `Verif.Dicts.C50_single_block`
* `Verif.Evolution.C51_analytic`
* `Verif.Evolution.C51_classes`
* `Verif.Conv.C51_conv_classes`
* `Verif.Evolution.C51_evolution`
* `Verif.Evolution.C51_evolution_given`
* `Verif.Evolution.C51_field`
* `Verif.Evolution.C51_field_analytic`
* `Verif.Evolution.C51_field_given`
* `Verif.Evolution.C51_parameters`
* `Verif.Evolution.C52_classes`
* `Verif.Conv.C52_conv_classes`
* `Verif.Evolution.C52_data_never_influence`
* `Verif.Evolution.C52_evolution`
* `Verif.Evolution.C52_field`
* `Verif.Evolution.C52_randomness`
* `Verif.Evolution.C52_same_sample`
* `Verif.Evolution.C52_single_sample`
* `Verif.Cli.C53_directory`
* `Verif.Cli.C53_job_names`
* `Verif.Cli.C53_model_not_passed`
* `Verif.Cli.C53_name_says`
* `Verif.Cli.C53_names`
* `Verif.Cli.C53_print_collision`
* `Verif.Cli.C53_sweep_names`
* `Verif.Cli.C53_underscore_collision`
* `Verif.Batches.C54_last_window_never`
* `Verif.Batches.C54_selection_all`
* `Verif.Batches.C54_selection_exists`
* `Verif.Batches.C54_windows`
* `Verif.Complexity.C55_all_three`
* `Verif.Complexity.C55_chunks`
* `Verif.Complexity.C55_lengths_accepted`
* `Verif.Complexity.C55_lengths_rejected`
* `Verif.Complexity.C55_measure`
* `Verif.Complexity.C55_monotone`
* `Verif.Complexity.C55_repeated_record`
* `Verif.Complexity.C55_weights`
* `Verif.Complexity.C55_zero_values`
* `Verif.Discrete.C56_cnn_euler`
* `Verif.Discrete.C56_deeper`
* `Verif.Discrete.C56_double_invertible`
* `Verif.Discrete.C56_double_layer`
* `Verif.Discrete.C56_double_nets_invertible`
* `Verif.Discrete.C56_double_rnn_deeper`
* `Verif.Discrete.C56_replicated`
* `Verif.Discrete.C56_resnets`
* `Verif.Discrete.C56_rnn_euler`
* `Verif.Discrete.C56_rnn_not_deeper`
* `Verif.Discrete.C56_single_layers`
* `Verif.Discrete.C56_single_not_invertible`
* `Verif.Discrete.C56_tied`
* `Verif.Discrete.C56_tied_nets`
* `Verif.Discrete.C56_time_one`
* `Verif.Discrete.C56_zero_identity`
* `Verif.Integrand.C57_handed_over`
* `Verif.Shapes.C58_data_conv`
* `Verif.Shapes.C58_data_vector`
* `Verif.Shapes.C58_particles_conv`
* `Verif.Shapes.C58_particles_vector`
* `Verif.Shapes.C58_symmetrized_default_wrong`
* `Verif.Shapes.C58_upDownConv_trainable`
* `Verif.Conv.C59_adjoint`
* `Verif.Conv.C59_costate`
* `Verif.Conv.C59_costate_batch`
* `Verif.Conv.C59_normalised`
* `Verif.Conv.C59_parameters`
* `Verif.Conv.C59_parameters_batch`
* `Verif.Conv.C59_simple`
* `Verif.Conv.C59_translation`
* `Verif.Symmetry.C60_classes`
* `Verif.Symmetry.C60_evolution`
* `Verif.Symmetry.C60_evolution_given`
* `Verif.Symmetry.C60_field`
* `Verif.Symmetry.C60_parameters`
* `Verif.Symmetry.C60_uniform_needed`
* `Verif.Symmetry.C61_data_follow`
* `Verif.Symmetry.C61_never_separated`
* `Verif.Symmetry.C61_steps`
* `Verif.Symmetry.C62_field`
* `Verif.Symmetry.C62_rest`
* `Verif.Symmetry.C62_single_particle`
* `Verif.Symmetry.C62_stays_zero`
* `Verif.Symmetry.C63_evolution`
* `Verif.Symmetry.C63_parameters`
* `Verif.Symmetry.C63_per_tensor_needed`
* `Verif.Symmetry.C63_predictions_rotate`
* `Verif.Symmetry.C63_rotations`
* `Verif.Symmetry.C63_simple`
* `Verif.Transport.C64_copies`
* `Verif.Transport.C64_descent`
* `Verif.Transport.C64_diverges`
* `Verif.Transport.C64_external_raises`
* `Verif.Transport.C64_fixed`
* `Verif.Transport.C64_minimisers`
* `Verif.Transport.C64_minimisers_closest`
* `Verif.Transport.C64_penalty`
* `Verif.Transport.C64_random_data`
* `Verif.Transport.C64_rate`
* `Verif.Transport.C64_square`
* `Verif.Transport.C64_start_kept`
* `Verif.Transport.C64_weight_required`
* `Verif.Hooks.C65_aligned`
* `Verif.Hooks.C65_call`
* `Verif.Hooks.C65_complexity`
* `Verif.Hooks.C65_energy_ignores_weights`
* `Verif.Hooks.C65_energy_partial`
* `Verif.Hooks.C65_gpu_raises`
* `Verif.Hooks.C65_history`
* `Verif.Hooks.C65_names`
* `Verif.Hooks.C65_norms`
* `Verif.Hooks.C65_not_defaultdict`
* `Verif.Hooks.C65_not_matrix`
* `Verif.Hooks.C65_other_default`
* `Verif.Hooks.C65_shared`
* `Verif.Hooks.C65_values_kept_partial`
* `Verif.Flow.C66_euler`
* `Verif.Flow.C66_forward`
* `Verif.Flow.C66_integrand`
* `Verif.Flow.C66_vectors`
* `Verif.Whole.C67_adaptive`
* `Verif.Whole.C67_forward`
* `Verif.Whole.C67_forward_analytic`
* `Verif.Whole.C67_forward_autodiff`
* `Verif.Whole.C67_forward_rnn`
* `Verif.Whole.C67_forward_sizes`
* `Verif.Whole.C67_image_initial`
* `Verif.Whole.C67_image_layout`
* `Verif.Whole.C67_initial`
* `Verif.Whole.C67_initial_values`
* `Verif.Whole.C67_layouts`
* `Verif.Whole.C67_order`
* `Verif.Whole.C67_output`
* `Verif.Whole.C67_rnn_equations`
* `Verif.Whole.C67_sample`
* `Verif.Converge.C68_bad_times`
* `Verif.Converge.C68_converge`
* `Verif.Converge.C68_exact`
* `Verif.Converge.C68_forward`
* `Verif.Converge.C68_forward_analytic`
* `Verif.Converge.C68_forward_autodiff`
* `Verif.Converge.C68_forward_rnn`
* `Verif.Converge.C68_forward_rnn_sizes`
* `Verif.Converge.C68_forward_sizes`
* `Verif.Converge.C68_grid`
* `Verif.Converge.C68_methods`
* `Verif.Converge.C68_norm_penalty`
* `Verif.Converge.C68_steps`
* `Verif.Converge.C68_unique`
* `Verif.Converge.C69_backwards`
* `Verif.Converge.C69_classes`
* `Verif.Converge.C69_global`
* `Verif.Converge.C69_global_rnn`
* `Verif.Converge.C69_global_rnn_sizes`
* `Verif.Converge.C69_global_sizes`
* `Verif.Converge.C69_image_classes`
* `Verif.Converge.C69_nonlinearities`
* `Verif.Converge.C69_samples`
* `Verif.Masked.C70_candidates`
* `Verif.Masked.C70_defined`
* `Verif.Masked.C70_evaluate`
* `Verif.Masked.C70_first_time_leaks`
* `Verif.Masked.C70_held_out_partial`
* `Verif.Masked.C70_loss`
* `Verif.Masked.C70_selection`
* `Verif.Masked.C70_single_sample`
* `Verif.Masked.C70_statistics`
* `Verif.Masked.C70_uses`
* `Verif.Spheres.C72_dataset`
* `Verif.Spheres.C72_degenerate`
* `Verif.Spheres.C72_distribution`
* `Verif.Spheres.C72_dropped`
* `Verif.Spheres.C72_generate_data`
* `Verif.Spheres.C72_image_loaders`
* `Verif.Spheres.C72_loader`
* `Verif.Spheres.C72_percentage`
* `Verif.Spheres.C72_radius`
* `Verif.Spheres.C72_sample`
* `Verif.Spheres.C72_sample_refused`
* `Verif.Spheres.C72_separable`
* `Verif.Spheres.C72_sizes`
* `Verif.Spheres.C72_test`
* `Verif.Spheres.C72_train_partial`
* `Verif.Spheres.C72_train_uneven`
* `Verif.Spheres.C72_uniform`
* `Verif.Iterated.C73_converges`
* `Verif.Iterated.C73_costate`
* `Verif.Iterated.C73_draw`
* `Verif.Iterated.C73_error_squared`
* `Verif.Iterated.C73_excess`
* `Verif.Iterated.C73_fixed_points`
* `Verif.Iterated.C73_limit_is_critical`
* `Verif.Iterated.C73_not_reproducible`
* `Verif.Iterated.C73_raw`
* `Verif.Iterated.C73_raw_check`
* `Verif.Iterated.C73_raw_step_one`
* `Verif.Standalone.C74_advect`
* `Verif.Standalone.C74_converges`
* `Verif.Standalone.C74_end_time`
* `Verif.Standalone.C74_energies`
* `Verif.Standalone.C74_finite_differences`
* `Verif.Standalone.C74_hamilton`
* `Verif.Standalone.C74_manual`
* `Verif.Standalone.C74_manual_false`
* `Verif.Standalone.C74_parameters`
* `Verif.Standalone.C74_rhs`
* `Verif.Standalone.C74_state_gradient`
* `Verif.Scale.C75_bijective`
* `Verif.Scale.C75_classes`
* `Verif.Scale.C75_damped_false`
* `Verif.Scale.C75_field`
* `Verif.Scale.C75_field_given`
* `Verif.Scale.C75_forward`
* `Verif.Scale.C75_forward_analytic`
* `Verif.Scale.C75_forward_rnn`
* `Verif.Scale.C75_grid`
* `Verif.Scale.C75_parameters`
* `Verif.Scale.C75_reverse`
* `Verif.Scale.C75_reverse_solution`
* `Verif.Scale.C75_run_back`
* `Verif.Scale.C75_solution`
* `Verif.Scale.C75_steps`
* `Verif.Scale.C75_steps_rnn`
* `Verif.Scale.C75_time`
* `Verif.Training.C76_clamp_particle_free`
* `Verif.Training.C76_clamped`
* `Verif.Training.C76_learned`
* `Verif.Training.C76_loss`
* `Verif.Training.C76_no_batches`
* `Verif.Training.C76_norm_penalty`
* `Verif.Training.C76_plot_cubic`
* `Verif.Training.C76_plot_quadratic`
* `Verif.Training.C76_random_data`
* `Verif.Training.C76_schedule`
* `Verif.Training.C76_steps`
* `Verif.Training.C76_uniform_data`
* `Verif.Training.C77_figures_matter`
* `Verif.Training.C77_figures_partial`
* `Verif.Training.C77_learned`
* `Verif.Training.C77_loss`
* `Verif.Training.C77_no_batches`
* `Verif.Training.C77_schedule`
* `Verif.Shell.C78_call_python_raises`
* `Verif.Shell.C78_command_partial`
* `Verif.Shell.C78_direct`
* `Verif.Shell.C78_double_quotes`
* `Verif.Shell.C78_empty_value`
* `Verif.Shell.C78_escaped`
* `Verif.Shell.C78_interpreter`
* `Verif.Shell.C78_kv_string`
* `Verif.Shell.C78_options`
* `Verif.Shell.C78_path_with_space`
* `Verif.Shell.C78_quoted`
* `Verif.Shell.C78_sweep`
* `Verif.Shell.C78_value_with_space`
* `Verif.Later.C79_analytic`
* `Verif.Later.C79_chain`
* `Verif.Later.C79_equivariant`
* `Verif.Later.C79_forward`
* `Verif.Later.C79_forward_rnn`
* `Verif.Later.C79_image_classes`
* `Verif.Later.C79_network`
* `Verif.Later.C79_order`
* `Verif.Later.C79_pass_on`
* `Verif.Later.C79_sample`
* `Verif.Later.C79_samplewise`
* `Verif.Later.C79_vector_classes`
* `Verif.Residual.C80_again`
* `Verif.Residual.C80_block`
* `Verif.Residual.C80_equivariant`
* `Verif.Residual.C80_failed_first`
* `Verif.Residual.C80_first`
* `Verif.Residual.C80_fresh`
* `Verif.Residual.C80_image_middle`
* `Verif.Residual.C80_image_stride`
* `Verif.Residual.C80_network`
* `Verif.Residual.C80_order`
* `Verif.Residual.C80_plain`
* `Verif.Residual.C80_relay`
* `Verif.Residual.C80_rowwise`
* `Verif.Residual.C80_sample`
* `Verif.Residual.C80_steps`
* `Verif.Residual.C80_stored`
* `Verif.Residual.C80_stride`
* `Verif.Optimal.C81_cost_is_penalty`
* `Verif.Optimal.C81_critical`
* `Verif.Optimal.C81_first_variation`
* `Verif.Optimal.C81_short_is_best`
* `Verif.Optimal.C82_best_is_shooting`
* `Verif.Optimal.C82_driven`
* `Verif.Optimal.C82_driven_unique`
* `Verif.Optimal.C82_one_particle_per_sample`
* `Verif.Optimal.C82_shooting_is_critical`
* `Verif.Optimal.C82_system`
* `Verif.Options.C83_abbreviation`
* `Verif.Options.C83_accepted_iff`
* `Verif.Options.C83_ambiguous`
* `Verif.Options.C83_decimals`
* `Verif.Options.C83_driver_model`
* `Verif.Options.C83_driver_parsers`
* `Verif.Options.C83_integers`
* `Verif.Options.C83_mapping_model_partial`
* `Verif.Options.C83_mapping_partial`
* `Verif.Options.C83_models`
* `Verif.Options.C83_negative_decimals`
* `Verif.Options.C83_nonlinearity`
* `Verif.Options.C83_not_integers`
* `Verif.Options.C83_one_sweep`
* `Verif.Options.C83_parsers`
* `Verif.Options.C83_read`
* `Verif.Options.C83_refused`
* `Verif.Options.C83_rnn_runs_more`
* `Verif.Options.C83_spiral_partial`
* `Verif.Options.C83_spiral_rejected`
* `Verif.Options.C83_sweep`
* `Verif.Options.C83_typed`
* `Verif.Options.C83_universal`
* `Verif.Options.C83_weighting`
* `Verif.Adjoint.C84_adjoint`
* `Verif.Adjoint.C84_backward_exists`
* `Verif.Adjoint.C84_direct_partial`
* `Verif.Adjoint.C84_direct_wrong`
* `Verif.Adjoint.C84_forward_exists`
* `Verif.Adjoint.C84_no_signal`
* `Verif.Adjoint.C84_particles`
* `Verif.Adjoint.C84_rnn_wrong`
* `Verif.Adjoint.C84_samples_partial`
* `Verif.Backprop.C85_adjoint`
* `Verif.Backprop.C85_direct_differ`
* `Verif.Backprop.C85_forward`
* `Verif.Backprop.C85_limit`
* `Verif.Backprop.C85_rate`
* `Verif.Backprop.C85_rnn_differ`
* `Verif.Backprop.C85_sources`
* `Verif.Figures.C86_basic_saved`
* `Verif.Figures.C86_drawing`
* `Verif.Figures.C86_iterations`
* `Verif.Figures.C86_iterations_order_lost`
* `Verif.Figures.C86_names_lost`
* `Verif.Figures.C86_projection`
* `Verif.Figures.C86_saved`
* `Verif.Figures.C86_selected_partial`
* `Verif.Figures.C86_settings`
* `Verif.Figures.C86_settings_lost`
* `Verif.Figures.C86_shown`
* `Verif.Figures.C86_too_wide`
* `Verif.Figures.C87_animation`
* `Verif.Figures.C87_leftover`
* `Verif.Figures.C87_not_recorded`
* `Verif.Figures.C87_order_lost`
* `Verif.Figures.C87_shown`
* `Verif.Tables.C88_one`
* `Verif.Tables.C88_pictures`
* `Verif.Tables.C88_tables`
* `Verif.Datasets.C89_cubic_bounded`
* `Verif.Datasets.C89_functional`
* `Verif.Datasets.C89_linear_spiral`
* `Verif.Datasets.C89_usable`
* `Verif.Datasets.C89_windows_solve`
* `Verif.LongRange.C90_hidden_state_lost`
* `Verif.LongRange.C90_particles_differ`
* `Verif.LongRange.C90_pieces`
* `Verif.LongRange.C90_pieces_rnn`
* `Verif.LongRange.C90_restarts`
* `Verif.LongRange.C90_rnn_agree`
* `Verif.Horizon.C91_between_differ`
* `Verif.Horizon.C91_close`
* `Verif.Horizon.C91_forward`
* `Verif.Horizon.C91_more_times`
* `Verif.Horizon.C91_no_step_size`
* `Verif.Horizon.C91_one_by_one`
* `Verif.Horizon.C91_other_times`
* `Verif.Horizon.C91_refused`
* `Verif.Horizon.C91_values`
* `Verif.Census.C92_compare`
* `Verif.Census.C92_distinct`
* `Verif.Census.C92_parameters`
* `Verif.Census.C92_script`
* `Verif.Gradcheck.C93_classes`
* `Verif.Gradcheck.C93_compare`
* `Verif.Gradcheck.C93_differentiable`
* `Verif.Gradcheck.C93_gradient`
* `Verif.Gradcheck.C93_model`
* `Verif.Gradcheck.C93_penalty`
* `Verif.Gradcheck.C93_penalty_initial`
* `Verif.Gradcheck.C93_recorded`
* `Verif.Gradcheck.C93_relative`
* `Verif.Gradcheck.C93_same`
* `Verif.Gradcheck.C93_same_loss`
* `Verif.Gradcheck.C93_script`
* `Verif.Gradcheck.C93_tries`
* `Verif.Gradcheck.C93_verdict`
* `Verif.Order.C94_classes`
* `Verif.Order.C94_converge`
* `Verif.Order.C94_forward`
* `Verif.Order.C94_forward_analytic`
* `Verif.Order.C94_forward_rnn`
* `Verif.Order.C94_forward_sizes`
* `Verif.Order.C94_interpolation_sharp`
* `Verif.Order.C94_methods`
* `Verif.Order.C94_nonlinearities`
* `Verif.Order.C94_norm_penalty`
* `Verif.Order.C94_on_grid`
* `Verif.Order.C94_sharp`
* `Verif.Order.C94_step`
* `Verif.Recompute.C95_again`
* `Verif.Recompute.C95_as_integration`
* `Verif.Recompute.C95_checkpoints`
* `Verif.Recompute.C95_explicit_plans`
* `Verif.Recompute.C95_last_plans`
* `Verif.Recompute.C95_other_sizes`
* `Verif.Recompute.C95_passes_between_partial`
* `Verif.Recompute.C95_rnn_other_pass`
* `Verif.Recompute.C95_rnn_parameters`
* `Verif.Recompute.C95_stored_plans_partial`
* `Verif.Rounding.C96_adds_up`
* `Verif.Rounding.C96_block`
* `Verif.Rounding.C96_converge`
* `Verif.Rounding.C96_exact`
* `Verif.Rounding.C96_exact_steps`
* `Verif.Rounding.C96_forward`
* `Verif.Rounding.C96_forward_autodiff`
* `Verif.Rounding.C96_forward_rnn`
* `Verif.Rounding.C96_number`
* `Verif.Rounding.C96_stable`
* `Verif.Rounding.C96_steps`
* `Verif.Sessions.C97_calls`
* `Verif.Sessions.C97_calls_error`
* `Verif.Sessions.C97_cc_missing`
* `Verif.Sessions.C97_cc_models`
* `Verif.Sessions.C97_cc_records`
* `Verif.Sessions.C97_cc_simple_fails`
* `Verif.Sessions.C97_goes_on`
* `Verif.Sessions.C97_not_once`
* `Verif.Sessions.C97_recording_partial`
* `Verif.Sessions.C97_repeated`
* `Verif.Tensorboard.C98_analytic_fails`
* `Verif.Tensorboard.C98_call`
* `Verif.Tensorboard.C98_first_layer`
* `Verif.Tensorboard.C98_no_data`
* `Verif.Tensorboard.C98_one_feature_fails`
* `Verif.Tensorboard.C98_stops`
* `Verif.Tensorboard.C98_training_partial`
* `Verif.Symmetry.C99_cyclic_shift_false`
* `Verif.Symmetry.C99_evolution`
* `Verif.Symmetry.C99_penalty`
* `Verif.Symmetry.C99_predictions`
