C01_accepts_iff: Quot.sound, propext
C01_concat: Classical.choice, Quot.sound, propext
C01_observers: Classical.choice, Quot.sound, propext
C01_rejects: Quot.sound, propext
C02_bijection: Classical.choice, Quot.sound, propext
C02_lexicographic: Classical.choice, Quot.sound, propext
C02_range: Classical.choice, Quot.sound, propext
C02_rank: propext
C02_valid: Classical.choice, Quot.sound, propext
C02_write: Classical.choice, Quot.sound, propext
C03_at_safe_partial: Classical.choice, Quot.sound, propext
C03_refuted: propext
C03_stale_dimension_refuted: propext
C04_reshape_ok_iff: Classical.choice, Quot.sound, propext
C04_reshape_roundtrip: Classical.choice, Quot.sound, propext
C04_reshape_strong_guarantee: Quot.sound, propext
C04_reshape_throws: Classical.choice, Quot.sound, propext
C05_associative: Classical.choice, Quot.sound, propext
C05_broadcast_ok: Classical.choice, Quot.sound, propext
C05_broadcast_rejects: Classical.choice, Quot.sound, propext
C05_commutative: Classical.choice, Quot.sound, propext
C05_idempotent: Classical.choice, Quot.sound, propext
C05_query_agrees: Classical.choice, Quot.sound, propext
C06_elementwise: Classical.choice, Quot.sound, propext
C06_rejects: Classical.choice, Quot.sound, propext
C06_same_shape: Classical.choice, Quot.sound, propext
C07_assign_ok: Classical.choice, Quot.sound, propext
C07_assign_same_shape: Classical.choice, Quot.sound, propext
C07_fails_cleanly: Classical.choice, Quot.sound, propext
C07_operators: Classical.choice, Quot.sound, propext
C07_self: Classical.choice, Quot.sound, propext
C08_add_assign: Quot.sound, propext
C08_div_ok: Quot.sound, propext
C08_div_zero: propext
C08_scalar_ops: Quot.sound, propext
C09_apply: Quot.sound, propext
C09_applyPair: Classical.choice, Quot.sound, propext
C09_applyPair_rejects: Quot.sound, propext
C09_reciprocal: Quot.sound, propext
C100_defaults: Classical.choice, Quot.sound, propext
C100_history: Classical.choice, Quot.sound, propext
C100_sgd_unbounded: Classical.choice, Quot.sound, propext
C100_train: Classical.choice, Quot.sound, propext
C101_form: Classical.choice, Quot.sound, propext
C101_model: Classical.choice, Quot.sound, propext
C101_new: Quot.sound, propext
C101_operations: Classical.choice, Quot.sound, propext
C101_setters: propext
C102_activation: Classical.choice, Quot.sound, propext
C102_losses: Classical.choice, Quot.sound, propext
C102_predictions: Classical.choice, Quot.sound, propext
C103_losses: Classical.choice, Quot.sound, propext
C103_onehot_refuted: Classical.choice, Quot.sound, propext
C103_stays_partial: Classical.choice, Quot.sound, propext
C104_data: Classical.choice, Quot.sound, propext
C104_divide: Classical.choice, Quot.sound, propext
C104_functions: Quot.sound, propext
C104_history: Classical.choice, Quot.sound, propext
C104_operations: Quot.sound, propext
C104_predict: Quot.sound, propext
C104_train: Classical.choice, Quot.sound, propext
C104_well_shaped: Classical.choice, Quot.sound, propext
C105_activations: Classical.choice, Quot.sound, propext
C105_activations_rounding: Classical.choice, Quot.sound, propext
C105_binary: Classical.choice, Quot.sound, propext
C105_negative: Classical.choice, Quot.sound, propext
C105_predict: Classical.choice, Quot.sound, propext
C105_real: Classical.choice, Quot.sound, propext
C105_rounding: Classical.choice, Quot.sound, propext
C105_swish: Classical.choice, Quot.sound, propext
C106_adam: Classical.choice, Quot.sound, propext
C106_batch_size: Classical.choice, Quot.sound, propext
C106_mirror: Classical.choice, Quot.sound, propext
C106_rmsprop: Classical.choice, Quot.sound, propext
C106_scale_free: Classical.choice, Quot.sound, propext
C106_sgd: Classical.choice, Quot.sound, propext
C107_adam_bounded: Classical.choice, Quot.sound, propext
C107_defaults: Classical.choice, Quot.sound, propext
C107_idle: Classical.choice, Quot.sound, propext
C107_rmsprop_unbounded: Classical.choice, Quot.sound, propext
C107_sgd_bounded: Classical.choice, Quot.sound, propext
C107_step: Classical.choice, Quot.sound, propext
C108_binary: Classical.choice, Quot.sound, propext
C108_dense: Classical.choice, Quot.sound, propext
C108_enough_precision: Classical.choice, Quot.sound, propext
C108_limit: Classical.choice, Quot.sound, propext
C108_matmul: Classical.choice, Quot.sound, propext
C108_predict: Classical.choice, Quot.sound, propext
C108_two_layers: Classical.choice, Quot.sound, propext
C109_act_flatten: Classical.choice, Quot.sound, propext
C109_batch_norm: Classical.choice, Quot.sound, propext
C109_conv_dense: Classical.choice, Quot.sound, propext
C109_conv_identity: Classical.choice, Quot.sound, propext
C109_dense_dense: Classical.choice, Quot.sound, propext
C109_dropout: Quot.sound, propext
C109_homogeneous: Classical.choice, Quot.sound, propext
C109_pool: Classical.choice, Quot.sound, propext
C109_pool_identity: Classical.choice, Quot.sound, propext
C109_relu_relu: Classical.choice, Quot.sound, propext
C109_replace: Quot.sound, propext
C109_rescale: Classical.choice, Quot.sound, propext
C10_axis: Classical.choice, Quot.sound, propext
C10_rank1: Classical.choice, Quot.sound, propext
C10_rejects: propext
C10_total: Classical.choice, Quot.sound, propext
C10_total_preserved: Classical.choice, Quot.sound, propext
C110_clamping: Classical.choice, Quot.sound, propext
C110_cross_entropy: Classical.choice, Quot.sound, propext
C110_cross_entropy_average: Classical.choice, Quot.sound, propext
C110_mse: Classical.choice, Quot.sound, propext
C110_mse_best: Classical.choice, Quot.sound, propext
C111_dense_only: Classical.choice, Quot.sound, propext
C111_fits: Classical.choice, Quot.sound, propext
C111_inconsistent: Classical.choice, Quot.sound, propext
C111_xor: Classical.choice, Quot.sound, propext
C111_xor_dense: Classical.choice, Quot.sound, propext
C112_factor: Classical.choice, Quot.sound, propext
C112_gradients: Classical.choice, Quot.sound, propext
C112_step: Classical.choice, Quot.sound, propext
C113_incoming: Classical.choice, Quot.sound, propext
C113_outgoing: Classical.choice, Quot.sound, propext
C114_conv_bias: Classical.choice, Quot.sound, propext
C114_dense_bias: Classical.choice, Quot.sound, propext
C114_order: Classical.choice, Quot.sound, propext
C114_predict: Classical.choice, Quot.sound, propext
C114_reach: Classical.choice, Quot.sound, propext
C114_scale: Classical.choice, Quot.sound, propext
C114_shift: Classical.choice, Quot.sound, propext
C114_single: Classical.choice, Quot.sound, propext
C115_response: Classical.choice, Quot.sound, propext
C115_weights: Classical.choice, Quot.sound, propext
C116_classes: Classical.choice, Quot.sound, propext
C116_features: Classical.choice, Quot.sound, propext
C116_predict: Classical.choice, Quot.sound, propext
C116_train: Classical.choice, Quot.sound, propext
C117_difference: Classical.choice, Quot.sound, propext
C117_response: Classical.choice, Quot.sound, propext
C118_adam_refuted: Classical.choice, Quot.sound, propext
C118_rmsprop_refuted: Classical.choice, Quot.sound, propext
C118_sgd_partial: Classical.choice, Quot.sound, propext
C119_features: Classical.choice, Quot.sound, propext
C119_predict: Classical.choice, Quot.sound, propext
C119_targets: Classical.choice, Quot.sound, propext
C119_train: Classical.choice, Quot.sound, propext
C119_zero_unit: Classical.choice, Quot.sound, propext
C11_all_axes_refuted: Classical.choice, Quot.sound, propext
C11_axes_partial: Classical.choice, Quot.sound, propext
C11_rejects: Quot.sound, propext
C11_repeated_axes: Classical.choice, Quot.sound, propext
C120_outputs: Classical.choice, Quot.sound, propext
C120_predict: Classical.choice, Quot.sound, propext
C120_train: Classical.choice, Quot.sound, propext
C121_average: Classical.choice, Quot.sound, propext
C121_influence: Classical.choice, Quot.sound, propext
C121_superposition: Classical.choice, Quot.sound, propext
C121_train: Classical.choice, Quot.sound, propext
C122_defined: Classical.choice, Quot.sound, propext
C122_engine: Classical.choice, Quot.sound, propext
C122_normal_law: Classical.choice, Quot.sound, propext
C122_rand_refuted: Classical.choice, Quot.sound, propext
C122_rand_zero_refuted: Classical.choice, Quot.sound, propext
C122_randn_joint_partial: Classical.choice, Quot.sound, propext
C122_randn_law_partial: Classical.choice, Quot.sound, propext
C122_range: Classical.choice, Quot.sound, propext
C122_related: Classical.choice, Quot.sound, propext
C122_seed: Classical.choice, Quot.sound, propext
C122_uniform_law: Classical.choice, Quot.sound, propext
C123_conv_dead_refuted: Classical.choice, Quot.sound, propext
C123_dead_refuted: Classical.choice, Quot.sound, propext
C123_distinct_partial: Classical.choice, Quot.sound, propext
C123_twins_refuted: Classical.choice, Quot.sound, propext
C123_untrainable_refuted: Classical.choice, Quot.sound, propext
C12_average: Classical.choice, Quot.sound, propext
C12_axes: Classical.choice, Quot.sound, propext
C12_degenerate: Quot.sound, propext
C12_rejects: Classical.choice, Quot.sound, propext
C12_total: Classical.choice, Quot.sound, propext
C13_all_axes: Classical.choice, Quot.sound, propext
C13_nonneg_zero_iff: Classical.choice, Quot.sound, propext
C13_rejects: Classical.choice, Quot.sound, propext
C13_total: Classical.choice, Quot.sound, propext
C13_variance: Classical.choice, Quot.sound, propext
C14_involution: Classical.choice, Quot.sound, propext
C14_rejects: Quot.sound, propext
C14_same_axis: Classical.choice, Quot.sound, propext
C14_symmetric: Classical.choice, Quot.sound, propext
C14_transpose: Classical.choice, Quot.sound, propext
C15_assoc: Classical.choice, Quot.sound, propext
C15_distrib_left: Classical.choice, Quot.sound, propext
C15_distrib_right: Classical.choice, Quot.sound, propext
C15_identity_left: Classical.choice, Quot.sound, propext
C15_identity_right: Classical.choice, Quot.sound, propext
C15_product: Classical.choice, Quot.sound, propext
C15_rejects: Quot.sound, propext
C15_transpose: Classical.choice, Quot.sound, propext
C16_2d_3d: Classical.choice, Quot.sound, propext
C16_3d_2d: Classical.choice, Quot.sound, propext
C16_batched: Classical.choice, Quot.sound, propext
C16_mat_vec: Classical.choice, Quot.sound, propext
C16_rejects_inner: Classical.choice, Quot.sound, propext
C16_rejects_ranks: Classical.choice, Quot.sound, propext
C16_vec_mat: Classical.choice, Quot.sound, propext
C16_vec_vec: Classical.choice, Quot.sound, propext
C17_equal_batches_partial: Classical.choice, Quot.sound, propext
C17_refuted: Classical.choice, Quot.sound, propext
C17_unequal_batches_refuted: Classical.choice, Quot.sound, propext
C18_deref_end: propext
C18_enumerates_partial: Classical.choice, Quot.sound, propext
C18_larger_rank_refuted: Classical.choice, Quot.sound, propext
C18_rejects: Classical.choice, Quot.sound, propext
C19_end_refuted: propext
C19_rejects: propext
C19_window_partial: Classical.choice, Quot.sound, propext
C20_in_bounds: Classical.choice, Quot.sound, propext
C20_leading_partial: Classical.choice, Quot.sound, propext
C20_refuted: propext
C21_copies: Classical.choice, Quot.sound, propext
C21_isolation: Classical.choice, Quot.sound, propext
C21_moved_from: Classical.choice, Quot.sound, propext
C21_ownership: Classical.choice, Quot.sound, propext
C21_self_assignment: Classical.choice, Quot.sound, propext
C21_value_semantics: Classical.choice, Quot.sound, propext
C22_comparison: Classical.choice, Quot.sound, propext
C22_equality: Classical.choice, Quot.sound, propext
C22_inequality: Classical.choice, Quot.sound, propext
C22_nan: Classical.choice, Quot.sound, propext
C22_printed_shape: Classical.choice, Quot.sound, propext
C22_shape_equality: Quot.sound, propext
C23_counted: Classical.choice, Quot.sound, propext
C23_fill: Quot.sound, propext
C23_identity: Classical.choice, Quot.sound, propext
C23_ones: Quot.sound, propext
C23_rejects: Quot.sound, propext
C23_values: Classical.choice, Quot.sound, propext
C23_zeros: Quot.sound, propext
C24_one_draw_per_element: Classical.choice, Quot.sound, propext
C24_randSize_range: Classical.choice, Quot.sound, propext
C24_rand_range: Classical.choice, Quot.sound, propext
C24_randnSize_range: Classical.choice, Quot.sound, propext
C24_randn_range: Classical.choice, Quot.sound, propext
C24_seed: Classical.choice, Quot.sound, propext
C24_shapes: Classical.choice, Quot.sound, propext
C25_leaky_at_zero_refuted: Classical.choice, Quot.sound, propext
C25_leaky_backward_partial: Classical.choice, Quot.sound, propext
C25_leaky_forward: Classical.choice, Quot.sound, propext
C25_pair_shape_mismatch: Classical.choice, Quot.sound, propext
C25_relu_backward: Classical.choice, Quot.sound, propext
C25_relu_forward: Classical.choice, Quot.sound, propext
C26_backward: Classical.choice, Quot.sound, propext
C26_forward: Classical.choice, Quot.sound, propext
C26_sigmoid_range: Classical.choice, Quot.sound, propext
C26_tanh_range: Classical.choice, Quot.sound, propext
C26_vjp: Classical.choice, Quot.sound, propext
C27_computation: Classical.choice, Quot.sound, propext
C27_distribution: Classical.choice, Quot.sound, propext
C27_forward: Classical.choice, Quot.sound, propext
C27_rank1: Classical.choice, Quot.sound, propext
C27_shift_invariant: Classical.choice, Quot.sound, propext
C28_partials: Classical.choice, Quot.sound, propext
C28_row_sum_zero: Classical.choice, Quot.sound, propext
C28_small_gradient_unchecked: Classical.choice, Quot.sound, propext
C28_vjp: Classical.choice, Quot.sound, propext
C29_compute: Classical.choice, Quot.sound, propext
C29_gradient: Classical.choice, Quot.sound, propext
C29_mismatch: Classical.choice, Quot.sound, propext
C29_nonneg: Classical.choice, Quot.sound, propext
C29_partials: Classical.choice, Quot.sound, propext
C29_rank1_target: Classical.choice, Quot.sound, propext
C29_symmetric: Classical.choice, Quot.sound, propext
C29_zero_iff: Classical.choice, Quot.sound, propext
C30_bounds: Classical.choice, Quot.sound, propext
C30_compute: Classical.choice, Quot.sound, propext
C30_rank3: Classical.choice, Quot.sound, propext
C30_shape_mismatch: Classical.choice, Quot.sound, propext
C31_chain_refuted: Classical.choice, Quot.sound, propext
C31_gradient_refuted: Classical.choice, Quot.sound, propext
C31_logits_partial: Classical.choice, Quot.sound, propext
C31_value: Classical.choice, Quot.sound, propext
C32_momentum: Classical.choice, Quot.sound, propext
C32_nesterov: Classical.choice, Quot.sound, propext
C32_plain: Classical.choice, Quot.sound, propext
C32_recurrence: Classical.choice, Quot.sound, propext
C33_centered_unbounded: Classical.choice, Quot.sound, propext
C33_library_bound: Classical.choice, Quot.sound, propext
C33_nonneg: Classical.choice, Quot.sound, propext
C33_recurrence: Classical.choice, Quot.sound, propext
C34_first_step: Classical.choice, Quot.sound, propext
C34_moments: Classical.choice, Quot.sound, propext
C34_refuted: Classical.choice, Quot.sound, propext
C34_trajectory_partial: Classical.choice, Quot.sound, propext
C35_independent: Quot.sound, propext
C35_independent_sgd_rmsprop: Classical.choice, Quot.sound, propext
C35_total: Classical.choice, Quot.sound, propext
C35_untouched: Classical.choice, Quot.sound, propext
C36_adam_rate: Classical.choice, Quot.sound, propext
C36_configuration: Classical.choice, Quot.sound, propext
C36_mismatch: propext
C36_nonpositive: Classical.choice, Quot.sound, propext
C36_override: Classical.choice, Quot.sound, propext
C37_batch: Classical.choice, Quot.sound, propext
C37_constructed: Classical.choice, Quot.sound, propext
C37_params: propext
C37_rejects_batch: Quot.sound, propext
C37_rejects_sample: Classical.choice, Quot.sound, propext
C37_sample: Classical.choice, Quot.sound, propext
C38_batch: Classical.choice, Quot.sound, propext
C38_latest: propext
C38_sample_partial: Classical.choice, Quot.sound, propext
C38_sample_shape_refuted: Classical.choice, Quot.sound, propext
C39_backward_adjoint: Classical.choice, Quot.sound, propext
C39_forward: Classical.choice, Quot.sound, propext
C39_forward_matrix: propext
C39_matrix_fresh_refuted: propext
C39_matrix_stale_refuted: Classical.choice, Quot.sound, propext
C39_rank1: Classical.choice, Quot.sound, propext
C39_roundtrip_partial: Classical.choice, Quot.sound, propext
C40_full_windows: Classical.choice, Quot.sound, propext
C40_rejects_pool: Quot.sound, propext
C40_rejects_rank: propext
C40_window_max: Classical.choice, Quot.sound, propext
C41_conserves: Classical.choice, Quot.sound, propext
C41_minus_infinity_refuted: Classical.choice, Quot.sound, propext
C41_reachable: Classical.choice, Quot.sound, propext
C41_routing: Classical.choice, Quot.sound, propext
C42_padding_refuted: Classical.choice, Quot.sound, propext
C43_aborts: propext
C43_channels_refuted: Classical.choice, Quot.sound, propext
C43_configuration_ignored: Classical.choice, Quot.sound, propext
C43_dilation_refuted: Classical.choice, Quot.sound, propext
C43_padding_refuted: Classical.choice, Quot.sound, propext
C43_rejects_kernel: Classical.choice, Quot.sound, propext
C43_single_channel_partial: Classical.choice, Quot.sound, propext
C43_stride_refuted: Classical.choice, Quot.sound, propext
C44_first_partial: Classical.choice, Quot.sound, propext
C44_input_refuted: Classical.choice, Quot.sound, propext
C44_kernel_refuted: Classical.choice, Quot.sound, propext
C44_refuted: Classical.choice, Quot.sound, propext
C44_single_partial: Classical.choice, Quot.sound, propext
C45_constructed: Classical.choice, Quot.sound, propext
C45_invariant: Classical.choice, Quot.sound, propext
C45_rejects: Classical.choice, Quot.sound, propext
C45_training: Classical.choice, Quot.sound, propext
C46_affine_partial: Classical.choice, Quot.sound, propext
C46_rank2_partial: Classical.choice, Quot.sound, propext
C46_rank4_refuted: Classical.choice, Quot.sound, propext
C47_benign_images_refuted: Classical.choice, Quot.sound, propext
C47_benign_input_partial: Classical.choice, Quot.sound, propext
C47_benign_params_partial: Classical.choice, Quot.sound, propext
C47_benign_refuted: Classical.choice, Quot.sound, propext
C47_benign_returns: Classical.choice, Quot.sound, propext
C47_benign_throws: Classical.choice, Quot.sound, propext
C47_refuted: Classical.choice, Quot.sound, propext
C48_eval: propext
C48_training: Classical.choice, Quot.sound, propext
C49_dead_refuted: Classical.choice, Quot.sound, propext
C49_decision_partial: Classical.choice, Quot.sound, propext
C49_law_partial: Classical.choice, Quot.sound, propext
C49_mean_partial: Classical.choice, Quot.sound, propext
C49_mean_refuted: Classical.choice, Quot.sound, propext
C49_no_gradient_refuted: Classical.choice, Quot.sound, propext
C49_normal_refuted: Classical.choice, Quot.sound, propext
C49_probability_refuted: Classical.choice, Quot.sound, propext
C49_rate_zero_refuted: Classical.choice, Quot.sound, propext
C49_size_refuted: Classical.choice, Quot.sound, propext
C50_eval_fresh_refuted: Classical.choice, Quot.sound, propext
C50_eval_partial: Classical.choice, Quot.sound, propext
C50_eval_stale_refuted: Classical.choice, Quot.sound, propext
C50_scale_refuted: Classical.choice, Quot.sound, propext
C50_training_partial: Classical.choice, Quot.sound, propext
C51_constructed: Quot.sound, propext
C51_guarded_partial: propext
C51_refuted: Quot.sound, propext
C52_addLayer: Quot.sound, propext
C52_empty: Quot.sound, propext
C52_list: Classical.choice, Quot.sound, propext
C52_list_throws: Classical.choice, Quot.sound, propext
C52_returns: Classical.choice, Quot.sound, propext
C52_throws: Classical.choice, Quot.sound, propext
C53_evalMode: Quot.sound, propext
C53_layer_result: Quot.sound, propext
C53_layer_unchanged: Quot.sound, propext
C53_modes: Quot.sound, propext
C53_repeatable: Quot.sound, propext
C53_unchanged: Quot.sound, propext
C54_adjoint: Classical.choice, Quot.sound, propext
C54_conv_gradients: Classical.choice, Quot.sound, propext
C54_dense_gradients: Classical.choice, Quot.sound, propext
C54_gradient: Classical.choice, Quot.sound, propext
C54_returns: Classical.choice, Quot.sound, propext
C54_throws: Classical.choice, Quot.sound, propext
C55_extra_targets: Quot.sound, propext
C55_no_data: Classical.choice, Quot.sound, propext
C55_no_epochs: Quot.sound, propext
C55_one_by_one: Classical.choice, Quot.sound, propext
C55_recompile: Quot.sound, propext
C55_repeated: Classical.choice, Quot.sound, propext
C55_schedule: Classical.choice, Quot.sound, propext
C55_short_targets: Classical.choice, Quot.sound, propext
C55_split: Classical.choice, Quot.sound, propext
C55_train: Classical.choice, Quot.sound, propext
C55_train_fails: Classical.choice, Quot.sound, propext
C56_changes: propext
C56_layer_changes: propext
C56_layer_missing: propext
C56_layer_other: propext
C56_layer_values: Quot.sound, propext
C56_missing: Classical.choice, Quot.sound, propext
C56_missing_never_ok: Quot.sound, propext
C56_succeeds: Classical.choice, Quot.sound, propext
C57_bad_batch: Classical.choice, Quot.sound, propext
C57_images: Classical.choice, Quot.sound, propext
C57_magic: Classical.choice, Quot.sound, propext
C57_missing: propext
C58_aligned: Classical.choice, Quot.sound, propext
C58_bad_label: Classical.choice, Quot.sound, propext
C58_labels: Classical.choice, Quot.sound, propext
C58_magic: Classical.choice, Quot.sound, propext
C59_header_refuted: Classical.choice, Quot.sound, propext
C59_labels_partial: Classical.choice, Quot.sound, propext
C59_refuted: Classical.choice, Quot.sound, propext
C60_batches: Classical.choice, Quot.sound, propext
C60_samples: Classical.choice, Quot.sound, propext
C60_zero_batch: 
C61_adam: Classical.choice, Quot.sound, propext
C61_applyPair: Classical.choice, Quot.sound, propext
C61_col2im: Classical.choice, Quot.sound, propext
C61_im2col: Classical.choice, Quot.sound, propext
C61_matmul: Classical.choice, Quot.sound, propext
C61_matmulSlice: Classical.choice, Quot.sound, propext
C61_matvec: Classical.choice, Quot.sound, propext
C62_race_refuted: Classical.choice, Quot.sound, propext
C62_refuted: Classical.choice, Quot.sound, propext
C62_single_thread_partial: Classical.choice, Quot.sound, propext
C62_wrong_result: Classical.choice, Quot.sound, propext
C63_monotone: Classical.choice, Quot.sound, propext
C63_negative: Classical.choice, Quot.sound, propext
C63_rank: Classical.choice, Quot.sound, propext
C63_rendering: Classical.choice, Quot.sound, propext
C64_adjoint: Classical.choice, Quot.sound, propext
C64_col2im: Classical.choice, Quot.sound, propext
C64_convolution: Classical.choice, Quot.sound, propext
C64_im2col: Classical.choice, Quot.sound, propext
C64_oversized: Classical.choice, Quot.sound, propext
C64_stride_zero: propext
C65_fresh_partial: Quot.sound, propext
C65_refuted: Classical.choice, Quot.sound, propext
C66_integer_refuted: propext
C66_nonnegative_partial: Classical.choice, Quot.sound, propext
C67_compiled: Classical.choice, Quot.sound, propext
C67_predict: Classical.choice, Quot.sound, propext
C67_step: Classical.choice, Quot.sound, propext
C67_train: Classical.choice, Quot.sound, propext
C68_conv: Classical.choice, Quot.sound, propext
C68_gradient_descent: Classical.choice, Quot.sound, propext
C69_counter: Classical.choice, Quot.sound, propext
C69_one_layer_partial: Classical.choice, Quot.sound, propext
C69_refuted: Classical.choice, Quot.sound, propext
C70_duplicate_refuted: Quot.sound, propext
C70_race_refuted: Quot.sound, propext
C70_single_thread_partial: Classical.choice, Quot.sound, propext
C71_move_assign_refuted: Classical.choice, Quot.sound, propext
C71_program_refuted: Classical.choice, Quot.sound, propext
C71_reassign_partial: Classical.choice, Quot.sound, propext
C72_activation_refuted: Classical.choice, Quot.sound, propext
C72_predict: Classical.choice, Quot.sound, propext
C72_train_partial: Classical.choice, Quot.sound, propext
C73_linear_regression: Classical.choice, Quot.sound, propext
C74_mnist_refuted: Classical.choice, Quot.sound, propext
C74_predict_partial: Classical.choice, Quot.sound, propext
C74_refuted: Classical.choice, Quot.sound, propext
C75_dot: Classical.choice, Quot.sound, propext
C75_matmul: Classical.choice, Quot.sound, propext
C75_rank: propext
C76_converges: Classical.choice, Quot.sound, propext
C76_divergence: Classical.choice, Quot.sound, propext
C76_one_row: Classical.choice, Quot.sound, propext
C77_conv: Classical.choice, Quot.sound, propext
C77_dense: Classical.choice, Quot.sound, propext
C77_integers: Classical.choice, Quot.sound, propext
C77_matmul: Classical.choice, Quot.sound, propext
C77_mean: Classical.choice, Quot.sound, propext
C77_sgd: Classical.choice, Quot.sound, propext
C77_sum: Classical.choice, Quot.sound, propext
C77_sum_axis: Classical.choice, Quot.sound, propext
C77_sum_order: Classical.choice, Quot.sound, propext
C78_decreases: Classical.choice, Quot.sound, propext
C78_dense: Classical.choice, Quot.sound, propext
C78_rate: Classical.choice, Quot.sound, propext
C79_data: Classical.choice, Quot.sound, propext
C79_data_determines: Classical.choice, Quot.sound, propext
C79_data_shape_lost: Classical.choice, Quot.sound, propext
C79_detailed: Classical.choice, Quot.sound, propext
C79_detailed_determines: Classical.choice, Quot.sound, propext
C79_detailed_truncated: Classical.choice, Quot.sound, propext
C79_log: Classical.choice, Quot.sound, propext
C79_train: Classical.choice, Quot.sound, propext
C79_views: Classical.choice, Quot.sound, propext
C80_refuted: Classical.choice, Quot.sound, propext
C80_single_row_partial: Classical.choice, Quot.sound, propext
C80_slope: Classical.choice, Quot.sound, propext
C81_backward: Classical.choice, Quot.sound, propext
C81_forward_partial: Classical.choice, Quot.sound, propext
C81_range: Classical.choice, Quot.sound, propext
C81_softmax_backward: Classical.choice, Quot.sound, propext
C81_tanh_iff: Classical.choice, Quot.sound, propext
C81_tanh_refuted: Classical.choice, Quot.sound, propext
C81_tanh_witness_refuted: Classical.choice, Quot.sound, propext
C82_activation_partial: Classical.choice, Quot.sound, propext
C82_batch_norm: Classical.choice, Quot.sound, propext
C82_channel_refuted: Classical.choice, Quot.sound, propext
C82_conv_partial: Classical.choice, Quot.sound, propext
C82_dropout: Classical.choice, Quot.sound, propext
C82_elementwise: Classical.choice, Quot.sound, propext
C82_hidden_refuted: Classical.choice, Quot.sound, propext
C82_images_partial: Classical.choice, Quot.sound, propext
C82_loss: Classical.choice, Quot.sound, propext
C82_losses_partial: Classical.choice, Quot.sound, propext
C82_matmul: Classical.choice, Quot.sound, propext
C82_maxpool_refuted: Classical.choice, Quot.sound, propext
C82_no_recovery_partial: Classical.choice, Quot.sound, propext
C82_optimizer: Classical.choice, Quot.sound, propext
C82_predict_partial: Classical.choice, Quot.sound, propext
C82_relu_refuted: Classical.choice, Quot.sound, propext
C82_sum: Classical.choice, Quot.sound, propext
C82_train_partial: Classical.choice, Quot.sound, propext
C83_batchNorm_refuted: Classical.choice, Quot.sound, propext
C83_biases_accepted: propext
C83_conv: Classical.choice, Quot.sound, propext
C83_copy_partial: Quot.sound, propext
C83_dense: Classical.choice, Quot.sound, propext
C83_fresh_biases: Classical.choice, Quot.sound, propext
C83_getLayer: Classical.choice, Quot.sound, propext
C83_gradients: 
C83_gradients_refuted: 
C83_short_gradient_refuted: Classical.choice, Quot.sound, propext
C83_single_bias_refuted: Classical.choice, Quot.sound, propext
C83_weights_refuted: Classical.choice, Quot.sound, propext
C84_alone: Classical.choice, Quot.sound, propext
C84_list: Classical.choice, Quot.sound, propext
C84_one_function: Classical.choice, Quot.sound, propext
C84_rows: Classical.choice, Quot.sound, propext
C84_training_differs: Classical.choice, Quot.sound, propext
C85_changes_partial: Classical.choice, Quot.sound, propext
C85_filters_refuted: Classical.choice, Quot.sound, propext
C85_outputs_refuted: Classical.choice, Quot.sound, propext
C86_dropout_refuted: Classical.choice, Quot.sound, propext
C86_first_partial: Quot.sound, propext
C86_second_partial: Quot.sound, propext
C87_convolution_refuted: Classical.choice, Quot.sound, propext
C87_dropout_refuted: Classical.choice, Quot.sound, propext
C87_train_partial: Classical.choice, Quot.sound, propext
C88_convolution_refuted: Classical.choice, Quot.sound, propext
C88_dropout_refuted: Classical.choice, Quot.sound, propext
C88_step_partial: Classical.choice, Quot.sound, propext
C89_best_fit: Classical.choice, Quot.sound, propext
C90_dropout_refuted: Quot.sound, propext
C90_race_refuted: Quot.sound, propext
C90_separate_models_partial: Classical.choice, Quot.sound, propext
C90_wrong_result_refuted: Classical.choice, Quot.sound, propext
C91_bits_refuted: Classical.choice, Quot.sound, propext
C91_builds_agree: Classical.choice, Quot.sound, propext
C91_chain: Classical.choice, Quot.sound, propext
C91_dot: Classical.choice, Quot.sound, propext
C91_exact: Classical.choice, Quot.sound, propext
C91_matrix_vector: Classical.choice, Quot.sound, propext
C92_dropout_refuted: Classical.choice, Quot.sound, propext
C92_flatten_refuted: Classical.choice, Quot.sound, propext
C92_happens: Classical.choice, Quot.sound, propext
C92_learned: Classical.choice, Quot.sound, propext
C92_resume_partial: Classical.choice, Quot.sound, propext
C92_running_refuted: Classical.choice, Quot.sound, propext
C93_exact: Classical.choice, Quot.sound, propext
C93_forever: Classical.choice, Quot.sound, propext
C94_adam_partial: Classical.choice, Quot.sound, propext
C94_overflow: Classical.choice, Quot.sound, propext
C94_refuted: Classical.choice, Quot.sound, propext
C94_sgd_rmsprop: Classical.choice, Quot.sound, propext
C95_local: Classical.choice, Quot.sound, propext
C95_shift: Classical.choice, Quot.sound, propext
C95_window: Classical.choice, Quot.sound, propext
C96_finite: Classical.choice, Quot.sound, propext
C96_predict: Classical.choice, Quot.sound, propext
C96_relative: Classical.choice, Quot.sound, propext
C96_relu: Classical.choice, Quot.sound, propext
C96_sigmoid: Classical.choice, Quot.sound, propext
C96_tanh: Classical.choice, Quot.sound, propext
C97_continuous: Classical.choice, Quot.sound, propext
C97_exists: Classical.choice, Quot.sound, propext
C97_lipschitz: Classical.choice, Quot.sound, propext
C97_predict: Classical.choice, Quot.sound, propext
C98_equal_units: Classical.choice, Quot.sound, propext
C98_predict: Classical.choice, Quot.sound, propext
C98_symmetric: Classical.choice, Quot.sound, propext
C98_train: Classical.choice, Quot.sound, propext
C99_features_refuted: Classical.choice, Quot.sound, propext
C99_flatten_refuted: Classical.choice, Quot.sound, propext
C99_image_refuted: Classical.choice, Quot.sound, propext
C99_no_target_refuted: Classical.choice, Quot.sound, propext
C99_predict: Classical.choice, Quot.sound, propext
C99_predict_all: Classical.choice, Quot.sound, propext
C99_predict_all_defined: Classical.choice, Quot.sound, propext
C99_predict_defined: Classical.choice, Quot.sound, propext
C99_sequences: Classical.choice, Quot.sound, propext
C99_train_partial: Classical.choice, Quot.sound, propext
C99_vector_classes_refuted: Classical.choice, Quot.sound, propext
