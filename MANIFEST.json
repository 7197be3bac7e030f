{
 "claims": [
  {
   "property": "C01",
   "status": "proved",
   "theorems": [
    "SmartDNN.C01_accepts_iff",
    "SmartDNN.C01_rejects",
    "SmartDNN.C01_observers",
    "SmartDNN.C01_concat"
   ],
   "note": ""
  },
  {
   "property": "C02",
   "status": "proved",
   "theorems": [
    "SmartDNN.C02_valid",
    "SmartDNN.C02_rank",
    "SmartDNN.C02_range",
    "SmartDNN.C02_bijection",
    "SmartDNN.C02_write",
    "SmartDNN.C02_lexicographic"
   ],
   "note": ""
  },
  {
   "property": "C03",
   "status": "partial",
   "theorems": [
    "SmartDNN.C03_at_safe_partial",
    "SmartDNN.C03_refuted",
    "SmartDNN.C03_stale_dimension_refuted"
   ],
   "note": "Refuted as stated: an accepted shape whose element count wraps modulo 2^64 passes at()'s bound check outside the buffer; C03_at_safe_partial proves safety below the wrap."
  },
  {
   "property": "C04",
   "status": "proved",
   "theorems": [
    "SmartDNN.C04_reshape_ok_iff",
    "SmartDNN.C04_reshape_strong_guarantee",
    "SmartDNN.C04_reshape_throws",
    "SmartDNN.C04_reshape_roundtrip"
   ],
   "note": ""
  },
  {
   "property": "C05",
   "status": "proved",
   "theorems": [
    "SmartDNN.C05_broadcast_ok",
    "SmartDNN.C05_broadcast_rejects",
    "SmartDNN.C05_query_agrees",
    "SmartDNN.C05_commutative",
    "SmartDNN.C05_idempotent",
    "SmartDNN.C05_associative"
   ],
   "note": ""
  },
  {
   "property": "C06",
   "status": "proved",
   "theorems": [
    "SmartDNN.C06_elementwise",
    "SmartDNN.C06_same_shape",
    "SmartDNN.C06_rejects"
   ],
   "note": ""
  },
  {
   "property": "C07",
   "status": "proved",
   "theorems": [
    "SmartDNN.C07_assign_ok",
    "SmartDNN.C07_assign_same_shape",
    "SmartDNN.C07_self",
    "SmartDNN.C07_fails_cleanly",
    "SmartDNN.C07_operators"
   ],
   "note": ""
  },
  {
   "property": "C08",
   "status": "proved",
   "theorems": [
    "SmartDNN.C08_scalar_ops",
    "SmartDNN.C08_add_assign",
    "SmartDNN.C08_div_ok",
    "SmartDNN.C08_div_zero"
   ],
   "note": ""
  },
  {
   "property": "C09",
   "status": "proved",
   "theorems": [
    "SmartDNN.C09_apply",
    "SmartDNN.C09_applyPair",
    "SmartDNN.C09_applyPair_rejects",
    "SmartDNN.C09_reciprocal"
   ],
   "note": ""
  },
  {
   "property": "C10",
   "status": "proved",
   "theorems": [
    "SmartDNN.C10_total",
    "SmartDNN.C10_axis",
    "SmartDNN.C10_rank1",
    "SmartDNN.C10_rejects",
    "SmartDNN.C10_total_preserved"
   ],
   "note": ""
  },
  {
   "property": "C11",
   "status": "partial",
   "theorems": [
    "SmartDNN.C11_axes_partial",
    "SmartDNN.C11_all_axes_refuted",
    "SmartDNN.C11_rejects",
    "SmartDNN.C11_repeated_axes"
   ],
   "note": "Refuted when the axes cover every dimension (C11_all_axes_refuted: throws invalid_argument); C11_axes_partial proves the claim for all other axis lists."
  },
  {
   "property": "C12",
   "status": "proved",
   "theorems": [
    "SmartDNN.C12_total",
    "SmartDNN.C12_axes",
    "SmartDNN.C12_average",
    "SmartDNN.C12_degenerate",
    "SmartDNN.C12_rejects"
   ],
   "note": ""
  },
  {
   "property": "C13",
   "status": "proved",
   "theorems": [
    "SmartDNN.C13_variance",
    "SmartDNN.C13_all_axes",
    "SmartDNN.C13_nonneg_zero_iff",
    "SmartDNN.C13_rejects",
    "SmartDNN.C13_total"
   ],
   "note": ""
  },
  {
   "property": "C14",
   "status": "proved",
   "theorems": [
    "SmartDNN.C14_transpose",
    "SmartDNN.C14_rejects",
    "SmartDNN.C14_involution",
    "SmartDNN.C14_same_axis",
    "SmartDNN.C14_symmetric"
   ],
   "note": ""
  },
  {
   "property": "C15",
   "status": "proved",
   "theorems": [
    "SmartDNN.C15_product",
    "SmartDNN.C15_rejects",
    "SmartDNN.C15_assoc",
    "SmartDNN.C15_distrib_right",
    "SmartDNN.C15_distrib_left",
    "SmartDNN.C15_identity_right",
    "SmartDNN.C15_identity_left",
    "SmartDNN.C15_transpose"
   ],
   "note": ""
  },
  {
   "property": "C16",
   "status": "proved",
   "theorems": [
    "SmartDNN.C16_vec_vec",
    "SmartDNN.C16_vec_mat",
    "SmartDNN.C16_mat_vec",
    "SmartDNN.C16_3d_2d",
    "SmartDNN.C16_2d_3d",
    "SmartDNN.C16_batched",
    "SmartDNN.C16_rejects_ranks",
    "SmartDNN.C16_rejects_inner"
   ],
   "note": ""
  },
  {
   "property": "C17",
   "status": "partial",
   "theorems": [
    "SmartDNN.C17_equal_batches_partial",
    "SmartDNN.C17_unequal_batches_refuted",
    "SmartDNN.C17_refuted"
   ],
   "note": "Refuted: C17_unequal_batches_refuted shows every pair of different batch shapes throws out_of_range; C17_equal_batches_partial covers equal ones."
  },
  {
   "property": "C18",
   "status": "partial",
   "theorems": [
    "SmartDNN.C18_enumerates_partial",
    "SmartDNN.C18_deref_end",
    "SmartDNN.C18_rejects",
    "SmartDNN.C18_larger_rank_refuted"
   ],
   "note": "Refuted for sources of larger rank than the target (C18_larger_rank_refuted); enumeration and rejection proved for source rank <= target rank."
  },
  {
   "property": "C19",
   "status": "partial",
   "theorems": [
    "SmartDNN.C19_window_partial",
    "SmartDNN.C19_end_refuted",
    "SmartDNN.C19_rejects"
   ],
   "note": "Refuted: the end of each pair is ignored (C19_end_refuted); C19_window_partial proves the window from start to the end of the dimension for all starts and positive steps."
  },
  {
   "property": "C20",
   "status": "partial",
   "theorems": [
    "SmartDNN.C20_leading_partial",
    "SmartDNN.C20_refuted",
    "SmartDNN.C20_in_bounds"
   ],
   "note": "Refuted for dim >= 1 (C20_refuted); proved for dim 0, and memory safety proved for every dim (C20_in_bounds)."
  },
  {
   "property": "C21",
   "status": "proved",
   "theorems": [
    "SmartDNN.C21_value_semantics",
    "SmartDNN.C21_ownership",
    "SmartDNN.C21_isolation",
    "SmartDNN.C21_self_assignment",
    "SmartDNN.C21_copies",
    "SmartDNN.C21_moved_from"
   ],
   "note": ""
  },
  {
   "property": "C22",
   "status": "proved",
   "theorems": [
    "SmartDNN.C22_comparison",
    "SmartDNN.C22_equality",
    "SmartDNN.C22_nan",
    "SmartDNN.C22_inequality",
    "SmartDNN.C22_printed_shape",
    "SmartDNN.C22_shape_equality"
   ],
   "note": ""
  },
  {
   "property": "C23",
   "status": "proved",
   "theorems": [
    "SmartDNN.C23_zeros",
    "SmartDNN.C23_fill",
    "SmartDNN.C23_ones",
    "SmartDNN.C23_identity",
    "SmartDNN.C23_counted",
    "SmartDNN.C23_rejects",
    "SmartDNN.C23_values"
   ],
   "note": ""
  },
  {
   "property": "C24",
   "status": "proved",
   "theorems": [
    "SmartDNN.C24_randn_range",
    "SmartDNN.C24_rand_range",
    "SmartDNN.C24_randnSize_range",
    "SmartDNN.C24_randSize_range",
    "SmartDNN.C24_shapes",
    "SmartDNN.C24_one_draw_per_element",
    "SmartDNN.C24_seed"
   ],
   "note": ""
  },
  {
   "property": "C25",
   "status": "partial",
   "theorems": [
    "SmartDNN.C25_relu_forward",
    "SmartDNN.C25_leaky_forward",
    "SmartDNN.C25_relu_backward",
    "SmartDNN.C25_leaky_backward_partial",
    "SmartDNN.C25_leaky_at_zero_refuted",
    "SmartDNN.C25_pair_shape_mismatch"
   ],
   "note": "Refuted at x = 0 for LeakyReLU (C25_leaky_at_zero_refuted: the code uses 1, the header documents alpha); everything else is proved, including ReLU in full."
  },
  {
   "property": "C26",
   "status": "proved",
   "theorems": [
    "SmartDNN.C26_forward",
    "SmartDNN.C26_backward",
    "SmartDNN.C26_vjp",
    "SmartDNN.C26_sigmoid_range",
    "SmartDNN.C26_tanh_range"
   ],
   "note": ""
  },
  {
   "property": "C27",
   "status": "proved",
   "theorems": [
    "SmartDNN.C27_computation",
    "SmartDNN.C27_forward",
    "SmartDNN.C27_distribution",
    "SmartDNN.C27_shift_invariant",
    "SmartDNN.C27_rank1"
   ],
   "note": ""
  },
  {
   "property": "C28",
   "status": "proved",
   "theorems": [
    "SmartDNN.C28_vjp",
    "SmartDNN.C28_partials",
    "SmartDNN.C28_row_sum_zero",
    "SmartDNN.C28_small_gradient_unchecked"
   ],
   "note": ""
  },
  {
   "property": "C29",
   "status": "proved",
   "theorems": [
    "SmartDNN.C29_compute",
    "SmartDNN.C29_rank1_target",
    "SmartDNN.C29_nonneg",
    "SmartDNN.C29_symmetric",
    "SmartDNN.C29_zero_iff",
    "SmartDNN.C29_gradient",
    "SmartDNN.C29_partials",
    "SmartDNN.C29_mismatch"
   ],
   "note": ""
  },
  {
   "property": "C30",
   "status": "proved",
   "theorems": [
    "SmartDNN.C30_compute",
    "SmartDNN.C30_bounds",
    "SmartDNN.C30_shape_mismatch",
    "SmartDNN.C30_rank3"
   ],
   "note": ""
  },
  {
   "property": "C31",
   "status": "partial",
   "theorems": [
    "SmartDNN.C31_value",
    "SmartDNN.C31_logits_partial",
    "SmartDNN.C31_gradient_refuted",
    "SmartDNN.C31_chain_refuted"
   ],
   "note": "Refuted (C31_gradient_refuted, C31_chain_refuted); C31_logits_partial proves that gradient is the derivative with respect to the logits of a preceding softmax."
  },
  {
   "property": "C32",
   "status": "proved",
   "theorems": [
    "SmartDNN.C32_recurrence",
    "SmartDNN.C32_plain",
    "SmartDNN.C32_momentum",
    "SmartDNN.C32_nesterov"
   ],
   "note": ""
  },
  {
   "property": "C33",
   "status": "proved",
   "theorems": [
    "SmartDNN.C33_recurrence",
    "SmartDNN.C33_nonneg",
    "SmartDNN.C33_library_bound",
    "SmartDNN.C33_centered_unbounded"
   ],
   "note": ""
  },
  {
   "property": "C34",
   "status": "partial",
   "theorems": [
    "SmartDNN.C34_trajectory_partial",
    "SmartDNN.C34_moments",
    "SmartDNN.C34_first_step",
    "SmartDNN.C34_refuted"
   ],
   "note": "Refuted (C34_refuted): every step carries an extra factor sqrt(1-beta2^t)/(1-beta1^t) because the bias correction is applied twice; C34_trajectory_partial gives the exact trajectory with that factor for every history."
  },
  {
   "property": "C35",
   "status": "proved",
   "theorems": [
    "SmartDNN.C35_independent",
    "SmartDNN.C35_independent_sgd_rmsprop",
    "SmartDNN.C35_untouched",
    "SmartDNN.C35_total"
   ],
   "note": ""
  },
  {
   "property": "C36",
   "status": "proved",
   "theorems": [
    "SmartDNN.C36_mismatch",
    "SmartDNN.C36_nonpositive",
    "SmartDNN.C36_override",
    "SmartDNN.C36_configuration",
    "SmartDNN.C36_adam_rate"
   ],
   "note": ""
  },
  {
   "property": "C37",
   "status": "proved",
   "theorems": [
    "SmartDNN.C37_batch",
    "SmartDNN.C37_sample",
    "SmartDNN.C37_rejects_batch",
    "SmartDNN.C37_rejects_sample",
    "SmartDNN.C37_params",
    "SmartDNN.C37_constructed"
   ],
   "note": ""
  },
  {
   "property": "C38",
   "status": "partial",
   "theorems": [
    "SmartDNN.C38_batch",
    "SmartDNN.C38_sample_partial",
    "SmartDNN.C38_sample_shape_refuted",
    "SmartDNN.C38_latest"
   ],
   "note": "Batched inputs proved in full (C38_batch). For a one-dimensional sample the values are exact (C38_sample_partial) but the returned input gradient has shape (1, in), not the input's shape (in) (C38_sample_shape_refuted)."
  },
  {
   "property": "C39",
   "status": "partial",
   "theorems": [
    "SmartDNN.C39_forward",
    "SmartDNN.C39_forward_matrix",
    "SmartDNN.C39_rank1",
    "SmartDNN.C39_roundtrip_partial",
    "SmartDNN.C39_backward_adjoint",
    "SmartDNN.C39_matrix_fresh_refuted",
    "SmartDNN.C39_matrix_stale_refuted"
   ],
   "note": "Round trip proved for rank >= 3 (C39_roundtrip_partial, C39_backward_adjoint); refuted for rank 2, where backward is undefined on a fresh layer (C39_matrix_fresh_refuted) and uses a stale shape otherwise (C39_matrix_stale_refuted)."
  },
  {
   "property": "C40",
   "status": "proved",
   "theorems": [
    "SmartDNN.C40_window_max",
    "SmartDNN.C40_full_windows",
    "SmartDNN.C40_rejects_rank",
    "SmartDNN.C40_rejects_pool"
   ],
   "note": ""
  },
  {
   "property": "C41",
   "status": "proved",
   "theorems": [
    "SmartDNN.C41_routing",
    "SmartDNN.C41_conserves",
    "SmartDNN.C41_reachable",
    "SmartDNN.C41_minus_infinity_refuted"
   ],
   "note": ""
  },
  {
   "property": "C42",
   "status": "partial",
   "theorems": [
    "SmartDNN.C42_padding_refuted"
   ],
   "note": "Refuted: C42_padding_refuted shows that forward throws out_of_range for every input and every padding > 0."
  },
  {
   "property": "C43",
   "status": "partial",
   "theorems": [
    "SmartDNN.C43_single_channel_partial",
    "SmartDNN.C43_configuration_ignored",
    "SmartDNN.C43_stride_refuted",
    "SmartDNN.C43_padding_refuted",
    "SmartDNN.C43_dilation_refuted",
    "SmartDNN.C43_channels_refuted",
    "SmartDNN.C43_aborts",
    "SmartDNN.C43_rejects_kernel"
   ],
   "note": "C43_single_channel_partial proves the correlation for one input channel, stride 1, padding 0, dilation 1; refuted for stride >= 2, padding > 0, dilation >= 2 and for several channels (C43_stride_refuted, C43_padding_refuted, C43_dilation_refuted, C43_channels_refuted)."
  },
  {
   "property": "C44",
   "status": "partial",
   "theorems": [
    "SmartDNN.C44_single_partial",
    "SmartDNN.C44_refuted",
    "SmartDNN.C44_first_partial",
    "SmartDNN.C44_kernel_refuted",
    "SmartDNN.C44_input_refuted"
   ],
   "note": "C44_single_partial proves the three gradients for batch size 1 and one output channel; C44_first_partial says what is computed for every shape: the exact gradients of the contribution of the first sample and first output channel; C44_refuted, C44_kernel_refuted and C44_input_refuted show that for every larger batch size or output channel count the stored bias and kernel gradients and the returned input gradient are not the gradients."
  },
  {
   "property": "C45",
   "status": "proved",
   "theorems": [
    "SmartDNN.C45_training",
    "SmartDNN.C45_rejects",
    "SmartDNN.C45_constructed",
    "SmartDNN.C45_invariant"
   ],
   "note": ""
  },
  {
   "property": "C46",
   "status": "partial",
   "theorems": [
    "SmartDNN.C46_rank2_partial",
    "SmartDNN.C46_affine_partial",
    "SmartDNN.C46_rank4_refuted"
   ],
   "note": "C46_rank2_partial and C46_affine_partial prove it for every history whose training batches have rank 2 (or any rank with one feature); C46_rank4_refuted shows that with two or more features one rank-4 training batch makes every later evaluation throw."
  },
  {
   "property": "C47",
   "status": "partial",
   "theorems": [
    "SmartDNN.C47_refuted",
    "SmartDNN.C47_benign_returns",
    "SmartDNN.C47_benign_throws",
    "SmartDNN.C47_benign_params_partial",
    "SmartDNN.C47_benign_input_partial",
    "SmartDNN.C47_benign_refuted",
    "SmartDNN.C47_benign_images_refuted"
   ],
   "note": "Refuted: C47_refuted shows that backward has undefined behaviour (reads the second dimension of a rank-1 shape) after every training call and for every gradient of the input's shape. In a build where that read harmlessly yields a number: C47_benign_throws (any number but the feature count makes backward throw), C47_benign_returns (for the feature count, the exact values returned), C47_benign_params_partial (the scale and shift gradients are right), C47_benign_input_partial (for rank 2, exactly when the input gradient is right), C47_benign_refuted and C47_benign_images_refuted (it is wrong for simple batches, by a factor 1/(var+eps) and by dividing by the number of images)."
  },
  {
   "property": "C48",
   "status": "proved",
   "theorems": [
    "SmartDNN.C48_eval",
    "SmartDNN.C48_training"
   ],
   "note": ""
  },
  {
   "property": "C49",
   "status": "partial",
   "theorems": [
    "SmartDNN.C49_decision_partial",
    "SmartDNN.C49_probability_refuted",
    "SmartDNN.C49_normal_refuted",
    "SmartDNN.C49_rate_zero_refuted",
    "SmartDNN.C49_law_partial",
    "SmartDNN.C49_size_refuted",
    "SmartDNN.C49_dead_refuted",
    "SmartDNN.C49_mean_partial",
    "SmartDNN.C49_mean_refuted",
    "SmartDNN.C49_no_gradient_refuted"
   ],
   "note": "Refuted: the mask is drawn from a clamped normal distribution of variance 2 / size, not a uniform one (the exact probability is C49_law_partial; an element is kept with probability at most exp(-rate^2 size / 4) by C49_size_refuted, and with probability at least 1 - size exp(-rate^2 size / 4) the whole answer is zero by C49_dead_refuted and no gradient is passed back by C49_no_gradient_refuted; the mean of an element is computed in C49_mean_partial, and is too small by C49_mean_refuted), so the keep probability is P(N > rate) and never 1 - rate (C49_probability_refuted, C49_normal_refuted, C49_rate_zero_refuted); the decision rule is proved (C49_decision_partial, with the lemma kept_iff)."
  },
  {
   "property": "C50",
   "status": "partial",
   "theorems": [
    "SmartDNN.C50_training_partial",
    "SmartDNN.C50_scale_refuted",
    "SmartDNN.C50_eval_partial",
    "SmartDNN.C50_eval_fresh_refuted",
    "SmartDNN.C50_eval_stale_refuted"
   ],
   "note": "Refuted: backward omits the 1/(1-rate) factor (C50_scale_refuted) and eval-mode backward is undefined or throws (C50_eval_fresh_refuted, C50_eval_stale_refuted); what holds is C50_training_partial and C50_eval_partial."
  },
  {
   "property": "C51",
   "status": "partial",
   "theorems": [
    "SmartDNN.C51_guarded_partial",
    "SmartDNN.C51_refuted",
    "SmartDNN.C51_constructed"
   ],
   "note": "Fully connected, convolution, max-pooling and batch-norm layers throw (C51_guarded_partial); flatten, dropout and activation layers have undefined behaviour instead (C51_refuted)."
  },
  {
   "property": "C52",
   "status": "proved",
   "theorems": [
    "SmartDNN.C52_returns",
    "SmartDNN.C52_throws",
    "SmartDNN.C52_empty",
    "SmartDNN.C52_addLayer",
    "SmartDNN.C52_list",
    "SmartDNN.C52_list_throws"
   ],
   "note": ""
  },
  {
   "property": "C53",
   "status": "proved",
   "theorems": [
    "SmartDNN.C53_layer_unchanged",
    "SmartDNN.C53_layer_result",
    "SmartDNN.C53_modes",
    "SmartDNN.C53_unchanged",
    "SmartDNN.C53_repeatable",
    "SmartDNN.C53_evalMode"
   ],
   "note": ""
  },
  {
   "property": "C54",
   "status": "proved",
   "theorems": [
    "SmartDNN.C54_returns",
    "SmartDNN.C54_throws",
    "SmartDNN.C54_adjoint",
    "SmartDNN.C54_gradient",
    "SmartDNN.C54_dense_gradients",
    "SmartDNN.C54_conv_gradients"
   ],
   "note": ""
  },
  {
   "property": "C55",
   "status": "proved",
   "theorems": [
    "SmartDNN.C55_schedule",
    "SmartDNN.C55_repeated",
    "SmartDNN.C55_one_by_one",
    "SmartDNN.C55_train",
    "SmartDNN.C55_train_fails",
    "SmartDNN.C55_short_targets",
    "SmartDNN.C55_recompile",
    "SmartDNN.C55_no_epochs",
    "SmartDNN.C55_no_data",
    "SmartDNN.C55_split",
    "SmartDNN.C55_extra_targets"
   ],
   "note": ""
  },
  {
   "property": "C56",
   "status": "proved",
   "theorems": [
    "SmartDNN.C56_layer_changes",
    "SmartDNN.C56_layer_other",
    "SmartDNN.C56_layer_missing",
    "SmartDNN.C56_layer_values",
    "SmartDNN.C56_changes",
    "SmartDNN.C56_succeeds",
    "SmartDNN.C56_missing",
    "SmartDNN.C56_missing_never_ok"
   ],
   "note": ""
  },
  {
   "property": "C57",
   "status": "proved",
   "theorems": [
    "SmartDNN.C57_images",
    "SmartDNN.C57_magic",
    "SmartDNN.C57_missing",
    "SmartDNN.C57_bad_batch"
   ],
   "note": ""
  },
  {
   "property": "C58",
   "status": "proved",
   "theorems": [
    "SmartDNN.C58_labels",
    "SmartDNN.C58_bad_label",
    "SmartDNN.C58_magic",
    "SmartDNN.C58_aligned"
   ],
   "note": ""
  },
  {
   "property": "C59",
   "status": "partial",
   "theorems": [
    "SmartDNN.C59_labels_partial",
    "SmartDNN.C59_refuted",
    "SmartDNN.C59_header_refuted"
   ],
   "note": "Refuted: C59_refuted shows every truncated image file with a complete header is accepted (missing pixels become 1); C59_header_refuted shows a truncated header is undefined behaviour. C59_labels_partial proves that truncated label data throws std::out_of_range."
  },
  {
   "property": "C60",
   "status": "proved",
   "theorems": [
    "SmartDNN.C60_samples",
    "SmartDNN.C60_batches",
    "SmartDNN.C60_zero_batch"
   ],
   "note": ""
  },
  {
   "property": "C61",
   "status": "proved",
   "theorems": [
    "SmartDNN.C61_applyPair",
    "SmartDNN.C61_matvec",
    "SmartDNN.C61_matmul",
    "SmartDNN.C61_adam",
    "SmartDNN.C61_im2col",
    "SmartDNN.C61_col2im",
    "SmartDNN.C61_matmulSlice"
   ],
   "note": ""
  },
  {
   "property": "C62",
   "status": "partial",
   "theorems": [
    "SmartDNN.C62_race_refuted",
    "SmartDNN.C62_refuted",
    "SmartDNN.C62_wrong_result",
    "SmartDNN.C62_single_thread_partial"
   ],
   "note": "Refuted: the index vectors are shared between the iterations, so every schedule with two busy threads races (C62_race_refuted, C62_refuted) and can give a wrong result (C62_wrong_result); C62_single_thread_partial proves it when one thread does all the work."
  },
  {
   "property": "C63",
   "status": "proved",
   "theorems": [
    "SmartDNN.C63_rendering",
    "SmartDNN.C63_monotone",
    "SmartDNN.C63_rank",
    "SmartDNN.C63_negative"
   ],
   "note": ""
  },
  {
   "property": "C64",
   "status": "proved",
   "theorems": [
    "SmartDNN.C64_im2col",
    "SmartDNN.C64_col2im",
    "SmartDNN.C64_adjoint",
    "SmartDNN.C64_convolution",
    "SmartDNN.C64_stride_zero",
    "SmartDNN.C64_oversized"
   ],
   "note": ""
  },
  {
   "property": "C65",
   "status": "partial",
   "theorems": [
    "SmartDNN.C65_refuted",
    "SmartDNN.C65_fresh_partial"
   ],
   "note": "Refuted when the new tensor's buffer reuses the address of a destroyed one (C65_refuted); C65_fresh_partial proves it for addresses the optimizer has no entry for."
  },
  {
   "property": "C66",
   "status": "partial",
   "theorems": [
    "SmartDNN.C66_integer_refuted",
    "SmartDNN.C66_nonnegative_partial"
   ],
   "note": "Refuted (C66_integer_refuted): the running maximum starts at -infinity, which is 0 for an integer type, so an all-negative window yields 0. Proved part: windows with a non-negative entry give their maximum, for every linearly ordered element type (C66_nonnegative_partial); C40 covers types with an infinity."
  },
  {
   "property": "C67",
   "status": "proved",
   "theorems": [
    "SmartDNN.C67_predict",
    "SmartDNN.C67_step",
    "SmartDNN.C67_train",
    "SmartDNN.C67_compiled"
   ],
   "note": ""
  },
  {
   "property": "C68",
   "status": "proved",
   "theorems": [
    "SmartDNN.C68_conv",
    "SmartDNN.C68_gradient_descent"
   ],
   "note": ""
  },
  {
   "property": "C69",
   "status": "partial",
   "theorems": [
    "SmartDNN.C69_counter",
    "SmartDNN.C69_one_layer_partial",
    "SmartDNN.C69_refuted"
   ],
   "note": "C69_counter: every successful training step advances Adam's counter by the number of layers with parameters; with one such layer the property holds (C69_one_layer_partial), with two it fails (C69_refuted: counter 2 after the first step)."
  },
  {
   "property": "C70",
   "status": "partial",
   "theorems": [
    "SmartDNN.C70_race_refuted",
    "SmartDNN.C70_duplicate_refuted",
    "SmartDNN.C70_single_thread_partial"
   ],
   "note": "Refuted: the process-wide engine is shared between the iterations, so every schedule with two busy threads races (C70_race_refuted) and can repeat a draw (C70_duplicate_refuted); C70_single_thread_partial proves it when one thread does all the work."
  },
  {
   "property": "C71",
   "status": "partial",
   "theorems": [
    "SmartDNN.C71_move_assign_refuted",
    "SmartDNN.C71_program_refuted",
    "SmartDNN.C71_reassign_partial"
   ],
   "note": "Refuted: C71_move_assign_refuted and C71_program_refuted (null buffer, stale size: copying, filling, reading is undefined behaviour); C71_reassign_partial: it can still be assigned to and destroyed."
  },
  {
   "property": "C72",
   "status": "partial",
   "theorems": [
    "SmartDNN.C72_predict",
    "SmartDNN.C72_train_partial",
    "SmartDNN.C72_activation_refuted"
   ],
   "note": "C72_predict and C72_train_partial prove it for dense layers with ReLU, Sigmoid and Tanh; refuted for LeakyReLU, Swish, Mish and training-mode dropout directly before a dense layer: the first training step throws std::invalid_argument (C72_activation_refuted)."
  },
  {
   "property": "C73",
   "status": "proved",
   "theorems": [
    "SmartDNN.C73_linear_regression"
   ],
   "note": ""
  },
  {
   "property": "C74",
   "status": "partial",
   "theorems": [
    "SmartDNN.C74_predict_partial",
    "SmartDNN.C74_refuted",
    "SmartDNN.C74_mnist_refuted"
   ],
   "note": "C74_predict_partial: predict succeeds. Refuted for train: every model with a batch normalisation layer runs into undefined behaviour at the first sample (C74_refuted), in particular the shipped MNIST program on every pair of well-formed files (C74_mnist_refuted)."
  },
  {
   "property": "C75",
   "status": "proved",
   "theorems": [
    "SmartDNN.C75_matmul",
    "SmartDNN.C75_rank",
    "SmartDNN.C75_dot"
   ],
   "note": ""
  },
  {
   "property": "C76",
   "status": "proved",
   "theorems": [
    "SmartDNN.C76_converges",
    "SmartDNN.C76_one_row",
    "SmartDNN.C76_divergence"
   ],
   "note": ""
  },
  {
   "property": "C77",
   "status": "proved",
   "theorems": [
    "SmartDNN.C77_sum",
    "SmartDNN.C77_sum_axis",
    "SmartDNN.C77_matmul",
    "SmartDNN.C77_dense",
    "SmartDNN.C77_mean",
    "SmartDNN.C77_sum_order",
    "SmartDNN.C77_conv",
    "SmartDNN.C77_sgd",
    "SmartDNN.C77_integers"
   ],
   "note": ""
  },
  {
   "property": "C78",
   "status": "proved",
   "theorems": [
    "SmartDNN.C78_rate",
    "SmartDNN.C78_decreases",
    "SmartDNN.C78_dense"
   ],
   "note": ""
  },
  {
   "property": "C79",
   "status": "proved",
   "theorems": [
    "SmartDNN.C79_data",
    "SmartDNN.C79_data_determines",
    "SmartDNN.C79_data_shape_lost",
    "SmartDNN.C79_detailed",
    "SmartDNN.C79_detailed_determines",
    "SmartDNN.C79_detailed_truncated",
    "SmartDNN.C79_views",
    "SmartDNN.C79_log",
    "SmartDNN.C79_train"
   ],
   "note": ""
  },
  {
   "property": "C80",
   "status": "partial",
   "theorems": [
    "SmartDNN.C80_slope",
    "SmartDNN.C80_single_row_partial",
    "SmartDNN.C80_refuted"
   ],
   "note": "C80_slope computes the rate of change exactly; C80_single_row_partial proves the property for batches of one row. Refuted for larger batches (C80_refuted): the softmax Jacobian is applied twice, and on two samples with one feature the loss rises for every small learning rate."
  },
  {
   "property": "C81",
   "status": "partial",
   "theorems": [
    "SmartDNN.C81_forward_partial",
    "SmartDNN.C81_range",
    "SmartDNN.C81_tanh_iff",
    "SmartDNN.C81_tanh_refuted",
    "SmartDNN.C81_tanh_witness_refuted",
    "SmartDNN.C81_backward",
    "SmartDNN.C81_softmax_backward"
   ],
   "note": "C81_forward_partial (with C81_range, C81_backward, C81_softmax_backward) proves it for every activation but Tanh. Refuted for Tanh (C81_tanh_refuted): exp(2x) overflows and inf/inf is NaN, exactly then (C81_tanh_iff); every format has such inputs (C81_tanh_witness_refuted), for float all x >= 90."
  },
  {
   "property": "C82",
   "status": "partial",
   "theorems": [
    "SmartDNN.C82_elementwise",
    "SmartDNN.C82_sum",
    "SmartDNN.C82_matmul",
    "SmartDNN.C82_activation_partial",
    "SmartDNN.C82_relu_refuted",
    "SmartDNN.C82_loss",
    "SmartDNN.C82_optimizer",
    "SmartDNN.C82_train_partial",
    "SmartDNN.C82_no_recovery_partial",
    "SmartDNN.C82_predict_partial",
    "SmartDNN.C82_hidden_refuted",
    "SmartDNN.C82_maxpool_refuted",
    "SmartDNN.C82_conv_partial",
    "SmartDNN.C82_channel_refuted",
    "SmartDNN.C82_dropout",
    "SmartDNN.C82_batch_norm",
    "SmartDNN.C82_images_partial",
    "SmartDNN.C82_losses_partial"
   ],
   "note": "C82_train_partial, C82_no_recovery_partial and C82_predict_partial prove it for models of fully connected layers and all activations but ReLU, with both losses and all three optimizers; C82_elementwise, C82_sum, C82_matmul, C82_loss and C82_optimizer for single operations. Refuted for ReLU (C82_relu_refuted: every NaN becomes 0; C82_hidden_refuted: a network with a hidden ReLU layer predicts its last biases for inputs with NaN) and for max pooling (C82_maxpool_refuted: no output is ever NaN). C82_images_partial proves it for predictions of models that also have convolutions, flatten layers, dropout in either mode and batch normalisation in evaluation mode (C82_conv_partial, C82_dropout, C82_batch_norm for these layers alone); refuted for channels other than the first, which a convolution does not read (C82_channel_refuted). C82_losses_partial proves for all these layers that every loss printed by train on data with a NaN is NaN, whether the call returns or throws. That parameters become NaN is not so for convolutions, whose filters other than the first are never changed (C85_filters_refuted); which of the other parameters of models with convolutions or dropout become NaN is not treated."
  },
  {
   "property": "C83",
   "status": "partial",
   "theorems": [
    "SmartDNN.C83_dense",
    "SmartDNN.C83_biases_accepted",
    "SmartDNN.C83_single_bias_refuted",
    "SmartDNN.C83_weights_refuted",
    "SmartDNN.C83_short_gradient_refuted",
    "SmartDNN.C83_gradients",
    "SmartDNN.C83_gradients_refuted",
    "SmartDNN.C83_copy_partial",
    "SmartDNN.C83_fresh_biases",
    "SmartDNN.C83_getLayer",
    "SmartDNN.C83_conv",
    "SmartDNN.C83_batchNorm_refuted"
   ],
   "note": "C83_dense and C83_conv (the new parameters are used), C83_biases_accepted, C83_gradients, C83_getLayer and C83_copy_partial (all models without batch normalisation, any histories) hold. Refuted: batch normalisation has no accessors, so its parameters and running statistics are not copied (C83_batchNorm_refuted); weights of any shape are accepted (C83_weights_refuted) and so is a single bias for several outputs, which is added to all of them (C83_single_bias_refuted); a stored gradient smaller than the weights makes updateWeights read out of bounds for every optimizer (C83_short_gradient_refuted); reading gradients before backward is undefined (C83_gradients_refuted)."
  },
  {
   "property": "C84",
   "status": "proved",
   "theorems": [
    "SmartDNN.C84_one_function",
    "SmartDNN.C84_rows",
    "SmartDNN.C84_alone",
    "SmartDNN.C84_list",
    "SmartDNN.C84_training_differs"
   ],
   "note": ""
  },
  {
   "property": "C85",
   "status": "partial",
   "theorems": [
    "SmartDNN.C85_filters_refuted",
    "SmartDNN.C85_outputs_refuted",
    "SmartDNN.C85_changes_partial"
   ],
   "note": "Refuted: C85_filters_refuted and C85_outputs_refuted show that for every model and every history of calls the kernels and biases of all filters but the first of a convolution layer, and the outputs of these channels, never change. C85_changes_partial proves that plain SGD changes a parameter exactly when its stored gradient is not zero (the stored gradients are the true ones for dense layers, C38)."
  },
  {
   "property": "C86",
   "status": "partial",
   "theorems": [
    "SmartDNN.C86_first_partial",
    "SmartDNN.C86_second_partial",
    "SmartDNN.C86_dropout_refuted"
   ],
   "note": "C86_first_partial and C86_second_partial prove it for models without dropout layers, beside any other model. Refuted for dropout: C86_dropout_refuted shows that all dropout layers of a program draw from one engine, so using one model changes what another with dropout computes in training mode."
  },
  {
   "property": "C87",
   "status": "partial",
   "theorems": [
    "SmartDNN.C87_train_partial",
    "SmartDNN.C87_convolution_refuted",
    "SmartDNN.C87_dropout_refuted"
   ],
   "note": "C87_train_partial proves it for all models of dense, activation, flatten and max pooling layers, both losses, every optimizer. Refuted for convolution: C87_convolution_refuted (only the first sample of a batch is learned from), and for dropout: C87_dropout_refuted (one draw per position). Models with batch normalisation cannot be trained at all (C74)."
  },
  {
   "property": "C88",
   "status": "partial",
   "theorems": [
    "SmartDNN.C88_step_partial",
    "SmartDNN.C88_convolution_refuted",
    "SmartDNN.C88_dropout_refuted"
   ],
   "note": "C88_step_partial proves it for all models of dense, activation, flatten and max pooling layers. Refuted for convolution (C88_convolution_refuted) and for dropout (C88_dropout_refuted)."
  },
  {
   "property": "C89",
   "status": "proved",
   "theorems": [
    "SmartDNN.C89_best_fit"
   ],
   "note": ""
  },
  {
   "property": "C90",
   "status": "partial",
   "theorems": [
    "SmartDNN.C90_separate_models_partial",
    "SmartDNN.C90_race_refuted",
    "SmartDNN.C90_dropout_refuted",
    "SmartDNN.C90_wrong_result_refuted"
   ],
   "note": "Holds when every model is used by one thread at a time and no dropout layer is in training mode (C90_separate_models_partial: any number of models, threads and calls, all layer classes). Fails for one model: every forward stores its input or shape in the layer, so two calls race (C90_race_refuted), and flatten reads the stored shape back, so a call can return a wrong shape (C90_wrong_result_refuted). Fails for separate models with dropout in training mode, which share the random engine (C90_dropout_refuted)."
  },
  {
   "property": "C91",
   "status": "proved",
   "theorems": [
    "SmartDNN.C91_exact",
    "SmartDNN.C91_dot",
    "SmartDNN.C91_matrix_vector",
    "SmartDNN.C91_chain",
    "SmartDNN.C91_builds_agree",
    "SmartDNN.C91_bits_refuted"
   ],
   "note": ""
  },
  {
   "property": "C92",
   "status": "partial",
   "theorems": [
    "SmartDNN.C92_learned",
    "SmartDNN.C92_resume_partial",
    "SmartDNN.C92_running_refuted",
    "SmartDNN.C92_dropout_refuted",
    "SmartDNN.C92_happens",
    "SmartDNN.C92_flatten_refuted"
   ],
   "note": "For every model, layer and optimizer the parameters, the optimizer's memory and the loss are those after the samples before the failing one (C92_learned). For models without batch normalisation and dropout, with flatten only behind images, every later sequence of calls cannot tell the difference (C92_resume_partial); flatten fed matrices is left out because it fails there: the layer keeps the shape of the failing images, and training on matrices that worked before throws afterwards (C92_flatten_refuted). It also fails for batch normalisation, whose running statistics already contain the failing sample (C92_running_refuted), and for dropout, whose random numbers have been consumed (C92_dropout_refuted). C92_happens: for every well-shaped model such an exception occurs."
  },
  {
   "property": "C93",
   "status": "proved",
   "theorems": [
    "SmartDNN.C93_exact",
    "SmartDNN.C93_forever"
   ],
   "note": ""
  },
  {
   "property": "C94",
   "status": "partial",
   "theorems": [
    "SmartDNN.C94_sgd_rmsprop",
    "SmartDNN.C94_adam_partial",
    "SmartDNN.C94_overflow",
    "SmartDNN.C94_refuted"
   ],
   "note": "SGD and RMSProp: proved for all runs. Adam: proved as long as the calls of optimize stay below 2^31 (C94_adam_partial); the call that makes the 2^31st overflows a signed int, which is undefined behaviour, for every model whose layers fit together (C94_overflow, C94_refuted)."
  },
  {
   "property": "C95",
   "status": "proved",
   "theorems": [
    "SmartDNN.C95_window",
    "SmartDNN.C95_local",
    "SmartDNN.C95_shift"
   ],
   "note": ""
  },
  {
   "property": "C96",
   "status": "proved",
   "theorems": [
    "SmartDNN.C96_predict",
    "SmartDNN.C96_relu",
    "SmartDNN.C96_finite",
    "SmartDNN.C96_relative",
    "SmartDNN.C96_sigmoid",
    "SmartDNN.C96_tanh"
   ],
   "note": ""
  },
  {
   "property": "C97",
   "status": "proved",
   "theorems": [
    "SmartDNN.C97_predict",
    "SmartDNN.C97_lipschitz",
    "SmartDNN.C97_continuous",
    "SmartDNN.C97_exists"
   ],
   "note": ""
  },
  {
   "property": "C98",
   "status": "proved",
   "theorems": [
    "SmartDNN.C98_predict",
    "SmartDNN.C98_train",
    "SmartDNN.C98_symmetric",
    "SmartDNN.C98_equal_units"
   ],
   "note": ""
  },
  {
   "property": "C99",
   "status": "partial",
   "theorems": [
    "SmartDNN.C99_predict",
    "SmartDNN.C99_predict_defined",
    "SmartDNN.C99_train_partial",
    "SmartDNN.C99_image_refuted",
    "SmartDNN.C99_vector_classes_refuted",
    "SmartDNN.C99_flatten_refuted",
    "SmartDNN.C99_no_target_refuted",
    "SmartDNN.C99_sequences",
    "SmartDNN.C99_predict_all",
    "SmartDNN.C99_predict_all_defined",
    "SmartDNN.C99_features_refuted"
   ],
   "note": "predict: proved, for all dimensions, to do exactly what the table says, and never undefined behaviour (C99_predict, C99_predict_defined). train: ends normally or with an exception (or, with convolutions, an abort) under four conditions (C99_train_partial), each of which is needed: convolutions abort instead of throwing (C99_image_refuted), and one-dimensional targets with the cross entropy, matrices given to a fresh flatten layer and inputs without a target are undefined behaviour (C99_vector_classes_refuted, C99_flatten_refuted, C99_no_target_refuted). Dense layers take sequences forward but throw on the way back (C99_sequences). With batch normalisation and padded pooling: C99_predict_all and C99_predict_all_defined (padded pooling throws on everything); batch normalisation does not report a batch with one feature, and one for a single feature takes everything (C99_features_refuted); training with batch normalisation is undefined behaviour (C74_refuted)."
  },
  {
   "property": "C100",
   "status": "proved",
   "theorems": [
    "SmartDNN.C100_train",
    "SmartDNN.C100_history",
    "SmartDNN.C100_defaults",
    "SmartDNN.C100_sgd_unbounded"
   ],
   "note": ""
  },
  {
   "property": "C101",
   "status": "proved",
   "theorems": [
    "SmartDNN.C101_operations",
    "SmartDNN.C101_form",
    "SmartDNN.C101_model",
    "SmartDNN.C101_new",
    "SmartDNN.C101_setters"
   ],
   "note": ""
  },
  {
   "property": "C102",
   "status": "proved",
   "theorems": [
    "SmartDNN.C102_activation",
    "SmartDNN.C102_predictions",
    "SmartDNN.C102_losses"
   ],
   "note": ""
  },
  {
   "property": "C103",
   "status": "partial",
   "theorems": [
    "SmartDNN.C103_stays_partial",
    "SmartDNN.C103_losses",
    "SmartDNN.C103_onehot_refuted"
   ],
   "note": "Over the real numbers. Proved for the squared error, and for the cross entropy with targets between epsilon and 1 - epsilon. Refuted for the cross entropy and one-hot targets that are predicted exactly (C103_onehot_refuted): the gradient uses the clamped prediction, so that the model is pushed away. Batch normalisation and dropout are left out: their predictions in training mode depend on the batch or on chance."
  },
  {
   "property": "C104",
   "status": "proved",
   "theorems": [
    "SmartDNN.C104_operations",
    "SmartDNN.C104_functions",
    "SmartDNN.C104_predict",
    "SmartDNN.C104_train",
    "SmartDNN.C104_history",
    "SmartDNN.C104_data",
    "SmartDNN.C104_well_shaped",
    "SmartDNN.C104_divide"
   ],
   "note": ""
  },
  {
   "property": "C105",
   "status": "proved",
   "theorems": [
    "SmartDNN.C105_predict",
    "SmartDNN.C105_real",
    "SmartDNN.C105_rounding",
    "SmartDNN.C105_binary",
    "SmartDNN.C105_activations",
    "SmartDNN.C105_activations_rounding",
    "SmartDNN.C105_swish",
    "SmartDNN.C105_negative"
   ],
   "note": ""
  },
  {
   "property": "C106",
   "status": "proved",
   "theorems": [
    "SmartDNN.C106_sgd",
    "SmartDNN.C106_rmsprop",
    "SmartDNN.C106_adam",
    "SmartDNN.C106_scale_free",
    "SmartDNN.C106_batch_size",
    "SmartDNN.C106_mirror"
   ],
   "note": ""
  },
  {
   "property": "C107",
   "status": "proved",
   "theorems": [
    "SmartDNN.C107_step",
    "SmartDNN.C107_sgd_bounded",
    "SmartDNN.C107_idle",
    "SmartDNN.C107_rmsprop_unbounded",
    "SmartDNN.C107_adam_bounded",
    "SmartDNN.C107_defaults"
   ],
   "note": ""
  },
  {
   "property": "C108",
   "status": "proved",
   "theorems": [
    "SmartDNN.C108_predict",
    "SmartDNN.C108_matmul",
    "SmartDNN.C108_dense",
    "SmartDNN.C108_binary",
    "SmartDNN.C108_enough_precision",
    "SmartDNN.C108_limit",
    "SmartDNN.C108_two_layers"
   ],
   "note": ""
  },
  {
   "property": "C109",
   "status": "proved",
   "theorems": [
    "SmartDNN.C109_replace",
    "SmartDNN.C109_dense_dense",
    "SmartDNN.C109_batch_norm",
    "SmartDNN.C109_rescale",
    "SmartDNN.C109_dropout",
    "SmartDNN.C109_relu_relu",
    "SmartDNN.C109_pool",
    "SmartDNN.C109_homogeneous",
    "SmartDNN.C109_conv_dense",
    "SmartDNN.C109_act_flatten",
    "SmartDNN.C109_conv_identity",
    "SmartDNN.C109_pool_identity"
   ],
   "note": ""
  },
  {
   "property": "C110",
   "status": "proved",
   "theorems": [
    "SmartDNN.C110_mse",
    "SmartDNN.C110_mse_best",
    "SmartDNN.C110_cross_entropy_average",
    "SmartDNN.C110_cross_entropy",
    "SmartDNN.C110_clamping"
   ],
   "note": ""
  },
  {
   "property": "C111",
   "status": "proved",
   "theorems": [
    "SmartDNN.C111_fits",
    "SmartDNN.C111_inconsistent",
    "SmartDNN.C111_dense_only",
    "SmartDNN.C111_xor_dense",
    "SmartDNN.C111_xor"
   ],
   "note": ""
  },
  {
   "property": "C112",
   "status": "proved",
   "theorems": [
    "SmartDNN.C112_gradients",
    "SmartDNN.C112_step",
    "SmartDNN.C112_factor"
   ],
   "note": ""
  },
  {
   "property": "C113",
   "status": "proved",
   "theorems": [
    "SmartDNN.C113_incoming",
    "SmartDNN.C113_outgoing"
   ],
   "note": ""
  },
  {
   "property": "C114",
   "status": "proved",
   "theorems": [
    "SmartDNN.C114_shift",
    "SmartDNN.C114_scale",
    "SmartDNN.C114_reach",
    "SmartDNN.C114_order",
    "SmartDNN.C114_dense_bias",
    "SmartDNN.C114_conv_bias",
    "SmartDNN.C114_predict",
    "SmartDNN.C114_single"
   ],
   "note": ""
  },
  {
   "property": "C115",
   "status": "proved",
   "theorems": [
    "SmartDNN.C115_weights",
    "SmartDNN.C115_response"
   ],
   "note": ""
  },
  {
   "property": "C116",
   "status": "proved",
   "theorems": [
    "SmartDNN.C116_predict",
    "SmartDNN.C116_train",
    "SmartDNN.C116_features",
    "SmartDNN.C116_classes"
   ],
   "note": ""
  },
  {
   "property": "C117",
   "status": "proved",
   "theorems": [
    "SmartDNN.C117_difference",
    "SmartDNN.C117_response"
   ],
   "note": ""
  },
  {
   "property": "C118",
   "status": "partial",
   "theorems": [
    "SmartDNN.C118_sgd_partial",
    "SmartDNN.C118_rmsprop_refuted",
    "SmartDNN.C118_adam_refuted"
   ],
   "note": "Proved for SGD with any learning rate, momentum, dampening and Nesterov (C118_sgd_partial). Refuted for RMSProp and Adam (C118_rmsprop_refuted, C118_adam_refuted): they divide each element of the gradient by its own size, so that already the first step leaves the span of the samples. The special cases of features that are always zero (C115) or always equal (C117) hold for all three. In exact arithmetic."
  },
  {
   "property": "C119",
   "status": "proved",
   "theorems": [
    "SmartDNN.C119_predict",
    "SmartDNN.C119_train",
    "SmartDNN.C119_targets",
    "SmartDNN.C119_features",
    "SmartDNN.C119_zero_unit"
   ],
   "note": ""
  },
  {
   "property": "C120",
   "status": "proved",
   "theorems": [
    "SmartDNN.C120_predict",
    "SmartDNN.C120_train",
    "SmartDNN.C120_outputs"
   ],
   "note": ""
  },
  {
   "property": "C121",
   "status": "proved",
   "theorems": [
    "SmartDNN.C121_train",
    "SmartDNN.C121_superposition",
    "SmartDNN.C121_average",
    "SmartDNN.C121_influence"
   ],
   "note": ""
  },
  {
   "property": "C122",
   "status": "partial",
   "theorems": [
    "SmartDNN.C122_defined",
    "SmartDNN.C122_range",
    "SmartDNN.C122_related",
    "SmartDNN.C122_seed",
    "SmartDNN.C122_uniform_law",
    "SmartDNN.C122_normal_law",
    "SmartDNN.C122_engine",
    "SmartDNN.C122_randn_law_partial",
    "SmartDNN.C122_rand_refuted",
    "SmartDNN.C122_randn_joint_partial",
    "SmartDNN.C122_rand_zero_refuted"
   ],
   "note": "The functions of RandomEngine have their distributions, in exact arithmetic, if the numbers of the standard library have theirs. The property fails for tensors: every element of Tensor::rand is exactly 0 with probability one half (C122_rand_refuted), and elements of Tensor::randn are normal numbers of variance 2 / size cut off at the limits (C122_randn_law_partial), independent of each other if the engine's numbers are (C122_randn_joint_partial); so Tensor::rand is zero everywhere with probability 2^(-size) (C122_rand_zero_refuted)."
  },
  {
   "property": "C123",
   "status": "partial",
   "theorems": [
    "SmartDNN.C123_conv_dead_refuted",
    "SmartDNN.C123_dead_refuted",
    "SmartDNN.C123_twins_refuted",
    "SmartDNN.C123_distinct_partial",
    "SmartDNN.C123_untrainable_refuted"
   ],
   "note": "The code violates it: weights are cut off at 0, so an output of a new layer with n inputs is zero for all inputs with probability 2^(-n) (C123_dead_refuted), and two outputs are equal with probability at least 4^(-n) (C123_twins_refuted). In front of ReLU such a dead unit stays zero for all inputs whatever the model is trained on, with any optimizer without weight decay (C123_untrainable_refuted). Channels of new convolutions are dead with positive probability as well (C123_conv_dead_refuted). Proved: with probability one this happens only to outputs without a weight strictly between 0 and 1 (C123_distinct_partial). In exact arithmetic."
  }
 ]
}