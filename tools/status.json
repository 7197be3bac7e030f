{
 "C03": {
  "status": "partial",
  "note": "Refuted as stated: an accepted shape whose element count wraps modulo 2^64 passes at()'s bound check outside the buffer; C03_at_safe_partial proves safety below the wrap."
 },
 "C11": {
  "status": "partial",
  "note": "Refuted when the axes cover every dimension (C11_all_axes_refuted: throws invalid_argument); C11_axes_partial proves the claim for all other axis lists."
 },
 "C17": {
  "status": "partial",
  "note": "Refuted: C17_unequal_batches_refuted shows every pair of different batch shapes throws out_of_range; C17_equal_batches_partial covers equal ones."
 },
 "C18": {
  "status": "partial",
  "note": "Refuted for sources of larger rank than the target (C18_larger_rank_refuted); enumeration and rejection proved for source rank <= target rank."
 },
 "C19": {
  "status": "partial",
  "note": "Refuted: the end of each pair is ignored (C19_end_refuted); C19_window_partial proves the window from start to the end of the dimension for all starts and positive steps."
 },
 "C20": {
  "status": "partial",
  "note": "Refuted for dim >= 1 (C20_refuted); proved for dim 0, and memory safety proved for every dim (C20_in_bounds)."
 },
 "C25": {
  "status": "partial",
  "note": "Refuted at x = 0 for LeakyReLU (C25_leaky_at_zero_refuted: the code uses 1, the header documents alpha); everything else is proved, including ReLU in full."
 },
 "C31": {
  "status": "partial",
  "note": "Refuted (C31_gradient_refuted, C31_chain_refuted); C31_logits_partial proves that gradient is the derivative with respect to the logits of a preceding softmax."
 },
 "C34": {
  "status": "partial",
  "note": "Refuted (C34_refuted): every step carries an extra factor sqrt(1-beta2^t)/(1-beta1^t) because the bias correction is applied twice; C34_trajectory_partial gives the exact trajectory with that factor for every history."
 },
 "C65": {
  "status": "partial",
  "note": "Refuted when the new tensor's buffer reuses the address of a destroyed one (C65_refuted); C65_fresh_partial proves it for addresses the optimizer has no entry for."
 },
 "C38": {
  "status": "partial",
  "note": "Batched inputs proved in full (C38_batch). For a one-dimensional sample the values are exact (C38_sample_partial) but the returned input gradient has shape (1, in), not the input's shape (in) (C38_sample_shape_refuted)."
 },
 "C39": {
  "status": "partial",
  "note": "Round trip proved for rank >= 3 (C39_roundtrip_partial, C39_backward_adjoint); refuted for rank 2, where backward is undefined on a fresh layer (C39_matrix_fresh_refuted) and uses a stale shape otherwise (C39_matrix_stale_refuted)."
 },
 "C49": {
  "status": "partial",
  "note": "Refuted: the mask is drawn from a clamped normal distribution of variance 2 / size, not a uniform one (the exact probability is C49_law_partial; an element is kept with probability at most exp(-rate^2 size / 4) by C49_size_refuted, and with probability at least 1 - size exp(-rate^2 size / 4) the whole answer is zero by C49_dead_refuted and no gradient is passed back by C49_no_gradient_refuted; the mean of an element is computed in C49_mean_partial, and is too small by C49_mean_refuted), so the keep probability is P(N > rate) and never 1 - rate (C49_probability_refuted, C49_normal_refuted, C49_rate_zero_refuted); the decision rule is proved (C49_decision_partial, with the lemma kept_iff)."
 },
 "C50": {
  "status": "partial",
  "note": "Refuted: backward omits the 1/(1-rate) factor (C50_scale_refuted) and eval-mode backward is undefined or throws (C50_eval_fresh_refuted, C50_eval_stale_refuted); what holds is C50_training_partial and C50_eval_partial."
 },
 "C51": {
  "status": "partial",
  "note": "Fully connected, convolution, max-pooling and batch-norm layers throw (C51_guarded_partial); flatten, dropout and activation layers have undefined behaviour instead (C51_refuted)."
 },
 "C42": {
  "status": "partial",
  "note": "Refuted: C42_padding_refuted shows that forward throws out_of_range for every input and every padding > 0."
 },
 "C43": {
  "status": "partial",
  "note": "C43_single_channel_partial proves the correlation for one input channel, stride 1, padding 0, dilation 1; refuted for stride >= 2, padding > 0, dilation >= 2 and for several channels (C43_stride_refuted, C43_padding_refuted, C43_dilation_refuted, C43_channels_refuted)."
 },
 "C44": {
  "status": "partial",
  "note": "C44_single_partial proves the three gradients for batch size 1 and one output channel; C44_first_partial says what is computed for every shape: the exact gradients of the contribution of the first sample and first output channel; C44_refuted, C44_kernel_refuted and C44_input_refuted show that for every larger batch size or output channel count the stored bias and kernel gradients and the returned input gradient are not the gradients."
 },
 "C46": {
  "status": "partial",
  "note": "C46_rank2_partial and C46_affine_partial prove it for every history whose training batches have rank 2 (or any rank with one feature); C46_rank4_refuted shows that with two or more features one rank-4 training batch makes every later evaluation throw."
 },
 "C47": {
  "status": "partial",
  "note": "Refuted: C47_refuted shows that backward has undefined behaviour (reads the second dimension of a rank-1 shape) after every training call and for every gradient of the input's shape. In a build where that read harmlessly yields a number: C47_benign_throws (any number but the feature count makes backward throw), C47_benign_returns (for the feature count, the exact values returned), C47_benign_params_partial (the scale and shift gradients are right), C47_benign_input_partial (for rank 2, exactly when the input gradient is right), C47_benign_refuted and C47_benign_images_refuted (it is wrong for simple batches, by a factor 1/(var+eps) and by dividing by the number of images)."
 },
 "C66": {
  "status": "partial",
  "note": "Refuted (C66_integer_refuted): the running maximum starts at -infinity, which is 0 for an integer type, so an all-negative window yields 0. Proved part: windows with a non-negative entry give their maximum, for every linearly ordered element type (C66_nonnegative_partial); C40 covers types with an infinity."
 },
 "C69": {
  "status": "partial",
  "note": "C69_counter: every successful training step advances Adam's counter by the number of layers with parameters; with one such layer the property holds (C69_one_layer_partial), with two it fails (C69_refuted: counter 2 after the first step)."
 },
 "C59": {
  "status": "partial",
  "note": "Refuted: C59_refuted shows every truncated image file with a complete header is accepted (missing pixels become 1); C59_header_refuted shows a truncated header is undefined behaviour. C59_labels_partial proves that truncated label data throws std::out_of_range."
 },
 "C62": {
  "status": "partial",
  "note": "Refuted: the index vectors are shared between the iterations, so every schedule with two busy threads races (C62_race_refuted, C62_refuted) and can give a wrong result (C62_wrong_result); C62_single_thread_partial proves it when one thread does all the work."
 },
 "C70": {
  "status": "partial",
  "note": "Refuted: the process-wide engine is shared between the iterations, so every schedule with two busy threads races (C70_race_refuted) and can repeat a draw (C70_duplicate_refuted); C70_single_thread_partial proves it when one thread does all the work."
 },
 "C71": {
  "status": "partial",
  "note": "Refuted: C71_move_assign_refuted and C71_program_refuted (null buffer, stale size: copying, filling, reading is undefined behaviour); C71_reassign_partial: it can still be assigned to and destroyed."
 },
 "C72": {
  "status": "partial",
  "note": "C72_predict and C72_train_partial prove it for dense layers with ReLU, Sigmoid and Tanh; refuted for LeakyReLU, Swish, Mish and training-mode dropout directly before a dense layer: the first training step throws std::invalid_argument (C72_activation_refuted)."
 },
 "C74": {
  "status": "partial",
  "note": "C74_predict_partial: predict succeeds. Refuted for train: every model with a batch normalisation layer runs into undefined behaviour at the first sample (C74_refuted), in particular the shipped MNIST program on every pair of well-formed files (C74_mnist_refuted)."
 },
 "C80": {
  "status": "partial",
  "note": "C80_slope computes the rate of change exactly; C80_single_row_partial proves the property for batches of one row. Refuted for larger batches (C80_refuted): the softmax Jacobian is applied twice, and on two samples with one feature the loss rises for every small learning rate."
 },
 "C81": {
  "status": "partial",
  "note": "C81_forward_partial (with C81_range, C81_backward, C81_softmax_backward) proves it for every activation but Tanh. Refuted for Tanh (C81_tanh_refuted): exp(2x) overflows and inf/inf is NaN, exactly then (C81_tanh_iff); every format has such inputs (C81_tanh_witness_refuted), for float all x >= 90."
 },
 "C82": {
  "status": "partial",
  "note": "C82_train_partial, C82_no_recovery_partial and C82_predict_partial prove it for models of fully connected layers and all activations but ReLU, with both losses and all three optimizers; C82_elementwise, C82_sum, C82_matmul, C82_loss and C82_optimizer for single operations. Refuted for ReLU (C82_relu_refuted: every NaN becomes 0; C82_hidden_refuted: a network with a hidden ReLU layer predicts its last biases for inputs with NaN) and for max pooling (C82_maxpool_refuted: no output is ever NaN). C82_images_partial proves it for predictions of models that also have convolutions, flatten layers, dropout in either mode and batch normalisation in evaluation mode (C82_conv_partial, C82_dropout, C82_batch_norm for these layers alone); refuted for channels other than the first, which a convolution does not read (C82_channel_refuted). C82_losses_partial proves for all these layers that every loss printed by train on data with a NaN is NaN, whether the call returns or throws. That parameters become NaN is not so for convolutions, whose filters other than the first are never changed (C85_filters_refuted); which of the other parameters of models with convolutions or dropout become NaN is not treated."
 },
 "C83": {
  "status": "partial",
  "note": "C83_dense and C83_conv (the new parameters are used), C83_biases_accepted, C83_gradients, C83_getLayer and C83_copy_partial (all models without batch normalisation, any histories) hold. Refuted: batch normalisation has no accessors, so its parameters and running statistics are not copied (C83_batchNorm_refuted); weights of any shape are accepted (C83_weights_refuted) and so is a single bias for several outputs, which is added to all of them (C83_single_bias_refuted); a stored gradient smaller than the weights makes updateWeights read out of bounds for every optimizer (C83_short_gradient_refuted); reading gradients before backward is undefined (C83_gradients_refuted)."
 },
 "C85": {
  "status": "partial",
  "note": "Refuted: C85_filters_refuted and C85_outputs_refuted show that for every model and every history of calls the kernels and biases of all filters but the first of a convolution layer, and the outputs of these channels, never change. C85_changes_partial proves that plain SGD changes a parameter exactly when its stored gradient is not zero (the stored gradients are the true ones for dense layers, C38)."
 },
 "C86": {
  "status": "partial",
  "note": "C86_first_partial and C86_second_partial prove it for models without dropout layers, beside any other model. Refuted for dropout: C86_dropout_refuted shows that all dropout layers of a program draw from one engine, so using one model changes what another with dropout computes in training mode."
 },
 "C87": {
  "status": "partial",
  "note": "C87_train_partial proves it for all models of dense, activation, flatten and max pooling layers, both losses, every optimizer. Refuted for convolution: C87_convolution_refuted (only the first sample of a batch is learned from), and for dropout: C87_dropout_refuted (one draw per position). Models with batch normalisation cannot be trained at all (C74)."
 },
 "C88": {
  "status": "partial",
  "note": "C88_step_partial proves it for all models of dense, activation, flatten and max pooling layers. Refuted for convolution (C88_convolution_refuted) and for dropout (C88_dropout_refuted)."
 },
 "C90": {
  "status": "partial",
  "note": "Holds when every model is used by one thread at a time and no dropout layer is in training mode (C90_separate_models_partial: any number of models, threads and calls, all layer classes). Fails for one model: every forward stores its input or shape in the layer, so two calls race (C90_race_refuted), and flatten reads the stored shape back, so a call can return a wrong shape (C90_wrong_result_refuted). Fails for separate models with dropout in training mode, which share the random engine (C90_dropout_refuted)."
 },
 "C92": {
  "status": "partial",
  "note": "For every model, layer and optimizer the parameters, the optimizer's memory and the loss are those after the samples before the failing one (C92_learned). For models without batch normalisation and dropout, with flatten only behind images, every later sequence of calls cannot tell the difference (C92_resume_partial); flatten fed matrices is left out because it fails there: the layer keeps the shape of the failing images, and training on matrices that worked before throws afterwards (C92_flatten_refuted). It also fails for batch normalisation, whose running statistics already contain the failing sample (C92_running_refuted), and for dropout, whose random numbers have been consumed (C92_dropout_refuted). C92_happens: for every well-shaped model such an exception occurs."
 },
 "C94": {
  "status": "partial",
  "note": "SGD and RMSProp: proved for all runs. Adam: proved as long as the calls of optimize stay below 2^31 (C94_adam_partial); the call that makes the 2^31st overflows a signed int, which is undefined behaviour, for every model whose layers fit together (C94_overflow, C94_refuted)."
 },
 "C99": {
  "status": "partial",
  "note": "predict: proved, for all dimensions, to do exactly what the table says, and never undefined behaviour (C99_predict, C99_predict_defined). train: ends normally or with an exception (or, with convolutions, an abort) under four conditions (C99_train_partial), each of which is needed: convolutions abort instead of throwing (C99_image_refuted), and one-dimensional targets with the cross entropy, matrices given to a fresh flatten layer and inputs without a target are undefined behaviour (C99_vector_classes_refuted, C99_flatten_refuted, C99_no_target_refuted). Dense layers take sequences forward but throw on the way back (C99_sequences). With batch normalisation and padded pooling: C99_predict_all and C99_predict_all_defined (padded pooling throws on everything); batch normalisation does not report a batch with one feature, and one for a single feature takes everything (C99_features_refuted); training with batch normalisation is undefined behaviour (C74_refuted)."
 },
 "C103": {
  "status": "partial",
  "note": "Over the real numbers. Proved for the squared error, and for the cross entropy with targets between epsilon and 1 - epsilon. Refuted for the cross entropy and one-hot targets that are predicted exactly (C103_onehot_refuted): the gradient uses the clamped prediction, so that the model is pushed away. Batch normalisation and dropout are left out: their predictions in training mode depend on the batch or on chance."
 },
 "C118": {
  "status": "partial",
  "note": "Proved for SGD with any learning rate, momentum, dampening and Nesterov (C118_sgd_partial). Refuted for RMSProp and Adam (C118_rmsprop_refuted, C118_adam_refuted): they divide each element of the gradient by its own size, so that already the first step leaves the span of the samples. The special cases of features that are always zero (C115) or always equal (C117) hold for all three. In exact arithmetic."
 },
 "C122": {
  "status": "partial",
  "note": "The functions of RandomEngine have their distributions, in exact arithmetic, if the numbers of the standard library have theirs. The property fails for tensors: every element of Tensor::rand is exactly 0 with probability one half (C122_rand_refuted), and elements of Tensor::randn are normal numbers of variance 2 / size cut off at the limits (C122_randn_law_partial), independent of each other if the engine's numbers are (C122_randn_joint_partial); so Tensor::rand is zero everywhere with probability 2^(-size) (C122_rand_zero_refuted)."
 },
 "C123": {
  "status": "partial",
  "note": "The code violates it: weights are cut off at 0, so an output of a new layer with n inputs is zero for all inputs with probability 2^(-n) (C123_dead_refuted), and two outputs are equal with probability at least 4^(-n) (C123_twins_refuted). In front of ReLU such a dead unit stays zero for all inputs whatever the model is trained on, with any optimizer without weight decay (C123_untrainable_refuted). Channels of new convolutions are dead with positive probability as well (C123_conv_dead_refuted). Proved: with probability one this happens only to outputs without a weight strictly between 0 and 1 (C123_distinct_partial). In exact arithmetic."
 }
}