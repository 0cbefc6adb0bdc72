{"id": "C01", "title": "A policy runs on exactly the epochs it was registered for", "statement": "After any sequence of successful CompressionScheduler.add_policy calls, each epoch callback at epoch e invokes the registered policies in registration order, each one once per occurrence of e in its registration; for the range form that means exactly when starting_epoch <= e < ending_epoch and frequency divides e - starting_epoch. On an epoch nobody registered, no policy callback runs.", "quantifier": "every sequence of add_policy calls (range form or list form, any policies, any bounds) and every epoch number", "why_tests_cant": "Tests register a couple of policies with fixed bounds; off-by-one or ordering faults appear only for other start/end/frequency combinations or interleavings of registrations.", "anchors": ["distiller/scheduler.py:CompressionScheduler.add_policy", "distiller/scheduler.py:CompressionScheduler.on_epoch_begin", "distiller/scheduler.py:CompressionScheduler.on_epoch_end"]}
{"id": "C02", "title": "add_policy rejects malformed schedules and leaves the schedule untouched", "statement": "add_policy succeeds exactly when either epochs is omitted and 0 <= starting_epoch < ending_epoch and 0 < frequency <= ending_epoch - starting_epoch, or a non-empty epochs list is given and neither bound is given; in every other case it raises, and the set of scheduled policies is what it was before the call.", "quantifier": "every combination of present/absent arguments and every integer value", "why_tests_cant": "The argument space is infinite; a test can only try a handful of invalid combinations.", "anchors": ["distiller/scheduler.py:CompressionScheduler.add_policy"]}
{"id": "C03", "title": "Pruned weights are zero after every minibatch", "statement": "When on_minibatch_end returns, every parameter that has a mask and is not configured mask_on_forward_only is zero wherever its mask is zero - whatever the optimizer wrote into the weights, whatever policies ran before, and however many minibatches and epochs went by.", "quantifier": "every model, every mix of pruning/regularization policies, every sequence of scheduler callbacks, every optimizer update", "why_tests_cant": "The optimizer's update is arbitrary (momentum revives weights); tests exercise one optimizer for a few steps.", "anchors": ["distiller/scheduler.py:CompressionScheduler.on_minibatch_end", "distiller/scheduler.py:CompressionScheduler.mask_all_weights", "distiller/scheduler.py:ParameterMasker", "distiller/policy.py:PruningPolicy", "distiller/policy.py:RegularizationPolicy"]}
{"id": "C04", "title": "Double-copy mode updates the unmasked weights", "statement": "With use_double_copies, the forward pass sees masked weights while the optimizer sees exactly the weights that were in the model before the minibatch began, for every mask; after before_parameter_optimization no stale copy is kept.", "quantifier": "every weight tensor, every mask, every number of pruning policies active in the epoch", "why_tests_cant": "Tests use one policy and one tensor; the claim is about every composition of policies on the same minibatch.", "anchors": ["distiller/scheduler.py:ParameterMasker.apply_mask", "distiller/scheduler.py:ParameterMasker.revert_weights", "distiller/policy.py:PruningPolicy.on_minibatch_begin", "distiller/policy.py:PruningPolicy.before_parameter_optimization"]}
{"id": "C05", "title": "keep_mask makes the last pruning mask permanent", "statement": "If a pruning policy was created with keep_mask, then from the end of its last scheduled epoch on, every parameter is zero where its mask is zero at every minibatch end, even if the policy had been running with mask_on_forward_only or use_double_copies, as long as no other policy changes that mask; without keep_mask those modes stay as they were.", "quantifier": "every later training history of unbounded length", "why_tests_cant": "The claim ranges over all future training steps.", "anchors": ["distiller/policy.py:PruningPolicy.on_epoch_end", "distiller/scheduler.py:CompressionScheduler.on_minibatch_end"]}
{"id": "C06", "title": "A regularization mask is transient unless explicitly kept", "statement": "A threshold mask produced by a regularizer zeroes the weights at the end of the minibatch and is then dropped, so that it does not constrain later minibatches; it survives only when keep_mask is set and the minibatch is the last one of the last scheduled epoch.", "quantifier": "every minibatch id, every number of minibatches per epoch, every regularizer that thresholds", "why_tests_cant": "The exception is a boundary condition on two counters; tests cannot cover all (minibatch, epoch) pairs.", "anchors": ["distiller/policy.py:RegularizationPolicy.on_minibatch_end", "distiller/scheduler.py:ParameterMasker.apply_mask", "distiller/regularization/l1_regularizer.py", "distiller/regularization/group_regularizer.py"]}
{"id": "C07", "title": "Scheduler masks survive a save/load round trip", "statement": "Loading the object returned by CompressionScheduler.state_dict() into a scheduler for a model with the same parameter names gives every parameter the mask it had when saved (including 'no mask'), and masking then behaves identically.", "quantifier": "every set of parameter names and every assignment of masks", "why_tests_cant": "Universal over mask dictionaries.", "anchors": ["distiller/scheduler.py:CompressionScheduler.state_dict", "distiller/scheduler.py:CompressionScheduler.load_state_dict"]}
{"id": "C08", "title": "Loading an incomplete scheduler state fails and fails cleanly", "statement": "load_state_dict raises KeyError exactly when 'masks_dict' is absent or when a parameter of the model has no entry in it; a failed load should leave the existing masks unchanged.", "quantifier": "every saved state and every model", "why_tests_cant": "Needs every subset of missing keys and every dictionary order.", "anchors": ["distiller/scheduler.py:CompressionScheduler.load_state_dict", "distiller/scheduler.py:CompressionScheduler.init_from_masks_dict"]}
{"id": "C09", "title": "Masks saved from a DataParallel model load into the unwrapped model", "statement": "For every parameter name, normalizing the DataParallel form of the name gives back the plain name, at whatever level DataParallel was inserted; normalization leaves names without a DataParallel component alone; consequently masks saved from a DataParallel-wrapped model and loaded with normalize_dataparallel_keys land on the same parameters.", "quantifier": "every dotted module name and every position of the wrapper", "why_tests_cant": "Names are arbitrary strings; tests use a few.", "anchors": ["distiller/utils.py:normalize_module_name", "distiller/scheduler.py:CompressionScheduler.load_state_dict"]}
{"id": "C10", "title": "The training loss is threaded through the policies and fully accounted for", "statement": "before_backward_pass hands the loss to the epoch's policies one after the other; each sees its predecessor's overall loss, policies that return nothing leave it unchanged, and the reported components are the concatenation of what the policies reported. If each policy returns its input plus its components, the final loss equals the original loss plus the sum of all reported components. On unscheduled epochs the loss is returned unchanged.", "quantifier": "every list of policies and every loss value", "why_tests_cant": "Universal over policy lists and losses.", "anchors": ["distiller/scheduler.py:CompressionScheduler.before_backward_pass", "distiller/scheduler.py:CompressionScheduler.verify_policy_loss", "distiller/policy.py:RegularizationPolicy.before_backward_pass"]}
{"id": "C11", "title": "Minibatch-granularity pruning happens on the configured steps only", "statement": "In an active epoch a pruning policy recomputes masks at the epoch's begin and then exactly at the minibatches with index > 0 whose global step number is a multiple of mini_batch_pruning_frequency; frequency 0 means never within the epoch; with skip_first_minibatch the very first computation is postponed to global step 1.", "quantifier": "every epoch, every minibatch count, every frequency", "why_tests_cant": "Arithmetic condition over unbounded counters.", "anchors": ["distiller/policy.py:PruningPolicy.on_epoch_begin", "distiller/policy.py:PruningPolicy.on_minibatch_begin"]}
{"id": "C12", "title": "Gradient masking is refused or honoured, and undone at the end", "statement": "Constructing a pruning policy with mask_gradients but without mask_on_forward_only raises ValueError; otherwise, while the policy is active, the gradient of each masked parameter is zero wherever its mask is zero, and the hook is removed at the end of the last scheduled epoch.", "quantifier": "every flag combination, every gradient and every schedule", "why_tests_cant": "Universal over gradients and schedules.", "anchors": ["distiller/policy.py:PruningPolicy.__init__", "distiller/policy.py:PruningPolicy.on_epoch_begin", "distiller/policy.py:PruningPolicy.on_epoch_end", "distiller/scheduler.py:ParameterMasker.mask_gradient"]}
{"id": "C13", "title": "Threshold pruning keeps exactly the weights above the threshold", "statement": "The mask made for a threshold is 1 exactly where |w| > threshold and 0 elsewhere; raising the threshold never un-prunes a weight; pruning an already pruned tensor with the same non-negative threshold changes nothing.", "quantifier": "every tensor and every threshold", "why_tests_cant": "Universal over real tensors.", "anchors": ["distiller/pruning/__init__.py:create_mask_threshold_criterion", "distiller/pruning/magnitude_pruner.py"]}
{"id": "C14", "title": "Level pruning removes the requested number of smallest weights", "statement": "create_mask_level_criterion(t, s) with k = int(s*numel) >= 1 masks at least k elements, never masks an element of larger magnitude than a kept one, and masks exactly k when the magnitudes are distinct. When k = 0 with a positive level it does not return a mask at all (it raises).", "quantifier": "every tensor and every level in (0,1]", "why_tests_cant": "Ties and rounding depend on the data; tests sample a few shapes.", "anchors": ["distiller/pruning/__init__.py:create_mask_level_criterion", "distiller/pruning/level_pruner.py:SparsityLevelParameterPruner"]}
{"id": "C15", "title": "Per-parameter pruning settings take precedence over the '*' default", "statement": "For magnitude, level, sensitivity and splicing pruners, the value used for a parameter is the one keyed by its name if there is one, otherwise the '*' entry; if neither exists the parameter's mask is left as it was (a magnitude pruner without '*' cannot be constructed).", "quantifier": "every configuration dictionary and every parameter name", "why_tests_cant": "Universal over dictionaries.", "anchors": ["distiller/pruning/magnitude_pruner.py", "distiller/pruning/level_pruner.py", "distiller/pruning/sensitivity_pruner.py", "distiller/pruning/splicing_pruner.py"]}
{"id": "C16", "title": "Automated gradual pruning ramps monotonically from the initial to the final sparsity", "statement": "Over the epochs on which a range-scheduled AGP policy runs, the target sparsity starts at initial_sparsity, never decreases, stays between initial and final sparsity, and equals final_sparsity on the last scheduled epoch; a schedule with a single step is rejected.", "quantifier": "every schedule (start, end, frequency), every pair initial < final", "why_tests_cant": "Universal over schedules; the last-epoch equality depends on the frequency not dividing the span.", "anchors": ["distiller/pruning/automated_gradual_pruner.py:AgpPruningRate.step", "distiller/scheduler.py:CompressionScheduler.add_policy"]}
{"id": "C17", "title": "The RNN pruning threshold never decreases during its schedule", "statement": "For a BaiduRNNPruner with non-negative q and slope multiplier and a ramp inside the schedule, the threshold is non-negative and non-decreasing over epochs, so that a weight pruned and never updated stays pruned.", "quantifier": "every q, multiplier, ramp offset and schedule", "why_tests_cant": "Piecewise formula with a boundary at the ramp epoch.", "anchors": ["distiller/pruning/baidu_rnn_pruner.py:BaiduRNNPruner.set_param_mask"]}
{"id": "C18", "title": "Splicing follows the network-surgery rule with hysteresis", "statement": "SplicingPruner sets the new mask bit to 0 below the low threshold, to 1 at or above the high threshold, and keeps the old bit in between; the mask stays binary through any history of weight changes.", "quantifier": "every weight history, every sensitivity and multipliers with low <= high", "why_tests_cant": "The state depends on the complete history.", "anchors": ["distiller/pruning/splicing_pruner.py:SplicingPruner.create_mask", "distiller/pruning/splicing_pruner.py:SplicingPruner.set_param_mask"]}
{"id": "C19", "title": "The sensitivity-pruning threshold is fixed at first use", "statement": "SensitivityPruner's threshold for a parameter is sensitivity times the standard deviation of the weights at the first invocation, at every later invocation whatever the weights have become.", "quantifier": "every training history", "why_tests_cant": "Needs all histories.", "anchors": ["distiller/pruning/__init__.py:create_mask_sensitivity_criterion", "distiller/pruning/sensitivity_pruner.py"]}
{"id": "C20", "title": "The number of structures to prune respects the request and the group size", "statement": "num_structs_to_prune returns a multiple of the group length whenever it divides the structure count, never exceeds the number of structures, and never removes all structures unless the fraction is 1.", "quantifier": "every structure count, group length, fraction in [0,1] and floor/ceil/round rounding", "why_tests_cant": "Rounding corner cases.", "anchors": ["distiller/norms.py:num_structs_to_prune"]}
{"id": "C21", "title": "Structured masks are constant on each structure", "statement": "Expanding a per-structure binary decision to a full mask sets every element of a structure to that structure's bit, for filters, channels, rows, columns and kernels; hence a structure is removed entirely or kept entirely.", "quantifier": "every tensor shape, every structure type and every binary map", "why_tests_cant": "Index arithmetic over all shapes.", "anchors": ["distiller/thresholding.py:expand_binary_map", "distiller/thresholding.py:group_threshold_mask"]}
{"id": "C22", "title": "Ranked filter/channel pruning removes the lowest-ranked structures", "statement": "Lp-ranked pruning of filters or channels produces a binary map in which no removed structure has a larger magnitude than a kept one; at least the computed number of structures is removed, exactly that many when magnitudes are distinct; a computed number of 0 leaves the mask unset.", "quantifier": "every tensor, fraction and norm", "why_tests_cant": "Universal over tensors; ties matter.", "anchors": ["distiller/pruning/ranked_structures_pruner.py:LpRankedStructureParameterPruner", "distiller/norms.py:rank_filters", "distiller/norms.py:rank_channels"]}
{"id": "C23", "title": "Dependent layers receive the leader's pruning decision", "statement": "When a group of parameters is pruned with group_dependency 'Leader', every parameter in the group gets the structure decision computed from the leader (the first listed) at the first call with the current target sparsity, irrespective of the order in which the model enumerates the parameters; if nothing is to be pruned the masks are left alone.", "quantifier": "every group, every enumeration order, every sequence of target levels", "why_tests_cant": "Stateful across callbacks and parameters.", "anchors": ["distiller/pruning/ranked_structures_pruner.py:_RankedStructureParameterPruner"]}
{"id": "C24", "title": "Sparsity and density are complementary fractions", "statement": "For every non-empty tensor sparsity + density = 1, both lie in [0,1], sparsity is 1 exactly for the zero tensor, and masking a tensor never lowers its sparsity.", "quantifier": "every tensor", "why_tests_cant": "Universal over tensors.", "anchors": ["distiller/utils.py:sparsity", "distiller/utils.py:density"]}
{"id": "C25", "title": "Structured sparsity metrics count exactly the all-zero structures", "statement": "sparsity_3D, sparsity_ch, sparsity_2D, sparsity_rows and sparsity_cols report the fraction of filters, channels, kernels, rows and columns whose elements are all zero, and each is at most the element sparsity.", "quantifier": "every tensor of the supported ranks", "why_tests_cant": "View/transpose index arithmetic over all shapes.", "anchors": ["distiller/utils.py:sparsity_3D", "distiller/utils.py:sparsity_ch", "distiller/utils.py:sparsity_2D", "distiller/utils.py:sparsity_rows", "distiller/utils.py:sparsity_cols"]}
{"id": "C26", "title": "Quantized integer ranges have the documented size", "statement": "get_quantized_range(n) returns bounds that contain exactly 2^n integers (2^n - 1 when restricted), that contain 0, and that are symmetric when restricted.", "quantifier": "every bit width >= 1 and every mode", "why_tests_cant": "Unbounded bit width.", "anchors": ["distiller/quantization/q_utils.py:get_quantized_range"]}
{"id": "C27", "title": "Quantized values are integers inside the range", "statement": "linear_quantize_clamp always returns an integer within [clamp_min, clamp_max] when those bounds are integers with clamp_min <= clamp_max, whatever the input, scale and zero-point; the result is monotone in the input for a positive scale.", "quantifier": "every real input and every quantization parameter", "why_tests_cant": "Universal over reals.", "anchors": ["distiller/quantization/q_utils.py:linear_quantize_clamp", "distiller/quantization/q_utils.py:clamp"]}
{"id": "C28", "title": "Quantization error is at most half a step inside the representable range", "statement": "With the parameters the library computes for a range (widened to contain 0), in every mode - symmetric, restricted symmetric, asymmetric signed or unsigned - quantizing and de-quantizing any value in that range changes it by at most half a quantization step (1 / (2 * scale)).", "quantifier": "every range, bit width and every value in the range", "why_tests_cant": "Universal over reals and ranges; worst cases are at range ends.", "anchors": ["distiller/quantization/q_utils.py:symmetric_linear_quantization_params", "distiller/quantization/q_utils.py:asymmetric_linear_quantization_params", "distiller/quantization/q_utils.py:linear_quantize", "distiller/quantization/q_utils.py:linear_dequantize"]}
{"id": "C29", "title": "Zero is represented exactly", "statement": "With library-computed parameters and an integral zero-point, the value 0 quantizes into the integer range without saturating and de-quantizes to exactly 0, in symmetric, asymmetric-unsigned and asymmetric-signed modes.", "quantifier": "every range (including degenerate and one-sided ones) and bit width", "why_tests_cant": "Zero padding and ReLU rely on it for all ranges.", "anchors": ["distiller/quantization/q_utils.py:asymmetric_linear_quantization_params", "distiller/quantization/q_utils.py:symmetric_linear_quantization_params"]}
{"id": "C30", "title": "Fake quantization is idempotent", "statement": "Quantize-dequantize with fixed parameters applied twice gives the same value as applied once.", "quantifier": "every value and every parameter set with positive scale and integral zero-point", "why_tests_cant": "Universal over reals.", "anchors": ["distiller/quantization/q_utils.py:linear_quantize_clamp", "distiller/quantization/q_utils.py:linear_dequantize", "distiller/quantization/q_utils.py:LinearQuantizeSTE"]}
{"id": "C31", "title": "Quantization parameter computation accepts exactly the sensible ranges", "statement": "symmetric parameters raise ValueError exactly when the saturation value is negative, asymmetric ones exactly when min > max; otherwise the returned scale is finite and positive, even for all-zero ranges.", "quantifier": "every saturation value(s), every bit width > 1", "why_tests_cant": "Division by zero hides at degenerate ranges.", "anchors": ["distiller/quantization/q_utils.py:symmetric_linear_quantization_params", "distiller/quantization/q_utils.py:asymmetric_linear_quantization_params"]}
{"id": "C32", "title": "The integer multiplier/shift approximation never overestimates the scale and is accurate", "statement": "approx_scale_as_mult_and_shift returns mult/2^shift <= scale with error below 2^-shift, mult fits in mult_bits bits, and without limit the relative error is below 2^-(mult_bits-1).", "quantifier": "every positive scale and multiplier bit width", "why_tests_cant": "Universal over scales.", "anchors": ["distiller/quantization/q_utils.py:get_scale_approximation_shift_bits", "distiller/quantization/q_utils.py:get_scale_approximation_mult", "distiller/quantization/q_utils.py:approx_scale_as_mult_and_shift"]}
{"id": "C33", "title": "Reading back a clipping range returns the range that produced the parameters", "statement": "The clipping values reported for a (scale, zero-point) pair are the saturation values those parameters were computed from.", "quantifier": "every range, bit width and quantization mode", "why_tests_cant": "Depends on mode and on every real range.", "anchors": ["distiller/quantization/range_linear.py:_get_clipping_values", "distiller/quantization/range_linear.py:RangeLinearQuantWrapper"]}
{"id": "C34", "title": "Integer inference equals arithmetic on the de-quantized operands", "statement": "For a post-training-quantized linear/convolution layer the accumulator computed from integer inputs and weights with zero-point corrections, divided by the accumulator scale, equals the dot product of the de-quantized inputs and weights plus the re-quantized bias, for symmetric and asymmetric modes and per-channel scales.", "quantifier": "every input vector, weight vector, scale and zero-point", "why_tests_cant": "Algebraic identity over all reals.", "anchors": ["distiller/quantization/range_linear.py:RangeLinearQuantParamLayerWrapper.quantized_forward", "distiller/quantization/range_linear.py:RangeLinearQuantParamLayerWrapper"]}
{"id": "C35", "title": "Weights are shifted at most once and saved unshifted", "statement": "Across any interleaving of forward passes and state_dict calls, the weight zero-point correction is present at most once in the layer's simulated weights, a state_dict taken at any time contains the same unshifted integer weights, and the layer's output for a given input is the same in every forward pass. Re-quantizing the weights in between (setting a weight scale to its current value) does not disturb this.", "quantifier": "every interleaving of forward and state_dict calls", "why_tests_cant": "Needs all call histories.", "anchors": ["distiller/quantization/range_linear.py:RangeLinearQuantParamLayerWrapper.state_dict", "distiller/quantization/range_linear.py:RangeLinearQuantParamLayerWrapper.quantized_forward"]}
{"id": "C36", "title": "Per-layer quantization overrides: the first matching pattern wins", "statement": "A layer's bit-widths come from the override entry whose key is exactly the layer name, else the first pattern in configuration order that matches the name, else the defaults; weight and bias bits apply only to layers with quantizable weights.", "quantifier": "every list of patterns and every layer name", "why_tests_cant": "Universal over pattern lists.", "anchors": ["distiller/quantization/quantizer.py:Quantizer.__init__", "distiller/quantization/quantizer.py:Quantizer._add_qbits_entry"]}
{"id": "C37", "title": "Training-time weight quantization never loses the float weights", "statement": "After prepare_model, each parameter to be quantized has a float copy under a distinct name and every later quantize_params call computes the quantized weight from that copy alone, so that repeating it without an optimizer step changes nothing.", "quantifier": "every model, every sequence of optimizer steps and quantize_params calls", "why_tests_cant": "Needs all histories.", "anchors": ["distiller/quantization/quantizer.py:Quantizer.prepare_model", "distiller/quantization/quantizer.py:Quantizer.quantize_params", "distiller/quantization/quantizer.py:hack_float_backup_parameter", "distiller/policy.py:QuantizationPolicy"]}
{"id": "C38", "title": "The EMA range tracker is bias-corrected and bounded by observed values", "statement": "After any non-empty sequence of observations the tracked value is a weighted average of them with positive weights summing to one: it equals the constant for constant inputs and always lies between the smallest and largest observation.", "quantifier": "every decay in (0,1) and every observation sequence", "why_tests_cant": "Induction over unbounded sequences.", "anchors": ["distiller/quantization/range_linear.py:update_ema", "distiller/quantization/range_linear.py:FakeLinearQuantization"]}
{"id": "C39", "title": "Clipped activations stay within the clipping range", "statement": "The outputs of the clipped-linear, learned-clipping (PACT), DoReFa and WRPN quantizers are within [0, clip] (respectively [-1,1] for weights) and lie on the grid of 2^bits levels.", "quantifier": "every input and every clip value > 0 and bit width", "why_tests_cant": "Universal over reals.", "anchors": ["distiller/quantization/clipped_linear.py"]}
{"id": "C40", "title": "Folding a batch-norm into the preceding linear operation preserves the output", "statement": "The folded layer's output equals the batch-norm (with running statistics) of the original layer's output, for every input, with or without bias and with or without affine parameters.", "quantifier": "every weight, bias, statistics and input", "why_tests_cant": "Algebraic identity over reals.", "anchors": ["distiller/quantization/sim_bn_fold.py:SimulatedFoldedBatchNorm.freeze", "distiller/model_transforms.py:fold_batch_norms", "distiller/policy.py:PruningPolicy._fold_batchnorm"]}
{"id": "C41", "title": "Removing zero filters preserves the network function", "statement": "When remove_filters succeeds on a network of (ungrouped) convolutions, batch-norms, per-map operations such as activations and pooling, channel-wise sums of branches and an optional fully-connected classifier, the thinned network computes the same outputs from every input, provided every removed channel carried nothing (a zero filter has zero bias and the operations after it map zero to zero), branches that are summed have the same zero filters, and either a classifier follows or the last convolutions have no zero filters. The layers that follow a convolution are found by walking the traced graph; this needs batch-norms to stand directly after the convolutions they normalize.", "quantifier": "every such network of any depth and width, all weights, biases, statistics, kernel sizes, inputs, optimizers and masks; every traced graph containing the network", "why_tests_cant": "Universal over architectures, weights and inputs; tests thin a few fixed models and compare shapes.", "anchors": ["distiller/thinning.py:create_thinning_recipe_filters", "distiller/thinning.py:execute_thinning_recipe"]}
{"id": "C42", "title": "Executing a thinning recipe twice is the same as executing it once", "statement": "execute_thinning_recipe resizes a tensor only if it still has more entries along the dimension than the recipe keeps; a second execution of a recipe (for example after reloading a checkpoint) changes nothing.", "quantifier": "every recipe and every model state", "why_tests_cant": "Universal over recipes.", "anchors": ["distiller/thinning.py:execute_thinning_recipe", "distiller/thinning.py:execute_thinning_recipes_list"]}
{"id": "C43", "title": "Thinning recipes keep layer attributes, weights, masks and optimizer state consistent", "statement": "After a filter-removal recipe is executed, each affected layer's declared number of outputs/inputs equals the size of its weight along that dimension, and masks have the same shape as their parameters.", "quantifier": "every set of kept filters and every chain of layers", "why_tests_cant": "Universal over shapes.", "anchors": ["distiller/thinning.py:create_thinning_recipe_filters", "distiller/thinning.py:execute_thinning_recipe"]}
{"id": "C44", "title": "Training resumes at the epoch after the saved one with the same state", "statement": "Loading a checkpoint saved after epoch e yields start epoch e+1, the saved weights and optimizer state and masks; a checkpoint without epoch restarts at 0; a lean load never touches optimizer, scheduler or epoch.", "quantifier": "every checkpoint content", "why_tests_cant": "Universal over presence/absence of the optional fields.", "anchors": ["distiller/apputils/checkpoint.py:save_checkpoint", "distiller/apputils/checkpoint.py:load_checkpoint"]}
{"id": "C45", "title": "Streaming activation statistics equal the statistics of the whole data", "statement": "Min, max and mean collected over any sequence of batches equal the min, max and mean over all elements of all batches; the second-pass std and b values equal those of the full data, regardless of how the data was split in batches.", "quantifier": "every partition of every data set in batches", "why_tests_cant": "Universal over partitions.", "anchors": ["distiller/data_loggers/collector.py:QuantCalibrationStatsCollector"]}
{"id": "C46", "title": "The average per-sample min/max is the mean over all samples", "statement": "avg_min and avg_max reported by the calibration collector equal the mean over all samples seen of the sample's min and max.", "quantifier": "every sequence of batches", "why_tests_cant": "Universal over batch sequences; with a single batch the fault is invisible.", "anchors": ["distiller/data_loggers/collector.py:QuantCalibrationStatsCollector"]}
{"id": "C47", "title": "The weighted meter reports the weighted mean and variance", "statement": "After any sequence of add(value, n) calls with n > 0, WeightedAverageValueMeter's mean is sum(n*v)/sum(n) and its variance the corresponding weighted variance.", "quantifier": "every sequence of additions", "why_tests_cant": "Induction over unbounded sequences.", "anchors": ["distiller/data_loggers/collector.py:WeightedAverageValueMeter"]}
{"id": "C48", "title": "Multi-step learning rate applies each gamma exactly once, at its milestone", "statement": "MultiStepMultiGammaLR returns base_lr times the product of the gammas whose milestone is <= the current epoch; construction fails exactly when milestones are not increasing or counts differ.", "quantifier": "every milestone list, gamma list and epoch", "why_tests_cant": "Universal.", "anchors": ["distiller/learning_rate.py:MultiStepMultiGammaLR", "distiller/learning_rate.py:PolynomialLR"]}
{"id": "C49", "title": "The performance tracker returns the best-ranked epochs of the whole history", "statement": "best_scores(k) returns min(k, number of retained) entries, in order of decreasing rank, and no epoch ever recorded outranks an omitted-in-favour-of one; the first entry is the maximum over the entire history.", "quantifier": "every sequence of recorded epochs and every k", "why_tests_cant": "Induction over histories.", "anchors": ["distiller/apputils/performance_tracker.py:SparsityAccuracyTracker", "distiller/apputils/performance_tracker.py:TrainingPerformanceTracker"]}
{"id": "C50", "title": "Train/validation split is a partition", "statement": "The validation and training index sets produced by the data-loader split are disjoint, together cover the data set, and the validation size is floor(split * size); effective subsets have at least one element and at most the full set, and out-of-range fractions are rejected.", "quantifier": "every data set size, split fraction and permutation", "why_tests_cant": "Universal over sizes and fractions.", "anchors": ["distiller/apputils/data_loaders.py:get_data_loaders", "distiller/apputils/data_loaders.py:__split_list", "distiller/apputils/data_loaders.py:_get_subset_length"]}
{"id": "C51", "title": "Graph successor search terminates and returns exactly the nearest matching operations", "statement": "SummaryGraph.successors_f(node, types) terminates on every graph, including cyclic ones, and returns exactly the operations of the requested types reachable from the node through operations not of these types (as a set; an operation met on two branches may be listed twice); predecessors_f is the mirror image; a name not in the graph gives an empty answer.", "quantifier": "every finite graph", "why_tests_cant": "Termination and reachability over all graphs.", "anchors": ["distiller/summary_graph.py:SummaryGraph.successors_f", "distiller/summary_graph.py:SummaryGraph.predecessors_f"]}
{"id": "C52", "title": "Configuration arguments are partitioned, never dropped silently", "statement": "filter_kwargs splits keyword arguments into those the function accepts and the rest, losing and duplicating none; building a component raises ValueError for an argument or class it does not know, TypeError when a required argument is missing, and otherwise passes on every argument the user wrote; arguments of policies are never dropped silently either.", "quantifier": "every dictionary and signature", "why_tests_cant": "Universal.", "anchors": ["distiller/utils.py:filter_kwargs", "distiller/config.py:build_component"]}
{"id": "C53", "title": "Knowledge distillation only affects scheduled epochs and combines losses linearly", "statement": "Between the begin and end of a scheduled epoch the overall loss is student_weight*loss + distillation_weight*KD; outside, the loss is untouched; asking for the loss without a preceding cached forward pass fails.", "quantifier": "every sequence of callbacks and forward calls", "why_tests_cant": "State machine over unbounded histories.", "anchors": ["distiller/knowledge_distillation.py:KnowledgeDistillationPolicy"]}
{"id": "C54", "title": "Greedy filter pruning picks the best-scoring layer", "statement": "find_most_robust_layer returns a candidate whose (top1, top5, -loss) is lexicographically maximal among all layers tried, and the first such one.", "quantifier": "every list of candidate results", "why_tests_cant": "Universal over result lists.", "anchors": ["distiller/pruning/greedy_filter_pruning.py:find_most_robust_layer"]}
{"id": "C55", "title": "A pruning mask stays in force on a parameter that was regularized earlier", "statement": "Once a pruning policy has set a mask on a parameter, the mask stays set until a pruner or regularizer replaces it or the policy discards masks, whatever regularization the parameter went through in earlier epochs.", "quantifier": "every interleaving of regularization and pruning policies over any number of epochs", "why_tests_cant": "Needs a particular history (regularize first, prune later) of two independent policies; tests use one kind of policy at a time.", "anchors": ["distiller/scheduler.py:ParameterMasker.apply_mask", "distiller/policy.py:PruningPolicy.on_minibatch_begin", "distiller/regularization/l1_regularizer.py:L1Regularizer.threshold"]}
{"id": "C56", "title": "init_from_masks_dict installs the given masks", "statement": "After init_from_masks_dict(masks), each parameter named in masks has the given mask and every other parameter has none; with normalize_dataparallel_keys the same holds for masks keyed by DataParallel names.", "quantifier": "every model and every dictionary of masks", "why_tests_cant": "Quantifies over all sets of names and their DataParallel variants.", "anchors": ["distiller/scheduler.py:CompressionScheduler.init_from_masks_dict"]}
{"id": "C57", "title": "Filters can be pruned in groups", "statement": "With group_size g > 1, Lp-ranked filter pruning removes filters in groups of g adjacent filters: for every layer whose filter count is a multiple of g, a mask that is constant on groups is installed.", "quantifier": "every weight tensor, group size, fraction, norm and rounding function", "why_tests_cant": "Tests fix one shape and group size; the interaction between count and group magnitude shapes is a statement about all of them.", "anchors": ["distiller/norms.py:rank_filters", "distiller/norms.py:num_structs_to_prune", "distiller/pruning/ranked_structures_pruner.py:LpRankedStructureParameterPruner.rank_and_prune_filters"]}
{"id": "C58", "title": "Mean_Abs group thresholding compares the mean magnitude", "statement": "group_threshold_binary_map with criterion Mean_Abs sets a structure's bit exactly when the mean absolute value of the structure's elements exceeds the threshold, for filters, channels, kernels, rows and columns, so that one threshold means the same for structures of any size.", "quantifier": "every tensor shape, content and threshold", "why_tests_cant": "Square test matrices hide a wrong divisor; the claim is for all shapes.", "anchors": ["distiller/thresholding.py:group_threshold_binary_map", "distiller/norms.py:sub_matrix_norm", "distiller/norms.py:filters_norm", "distiller/norms.py:channels_norm", "distiller/norms.py:kernels_norm"]}
{"id": "C59", "title": "Criterion-ranked filter pruners remove the least important filters", "statement": "The gradient-ranked and mean-activation-ranked pruners remove exactly int(fraction*n) filters, none of which has a larger criterion than a kept one; the APoZ-ranked pruner removes the filters with the most zeros.", "quantifier": "every vector of criterion values and every fraction", "why_tests_cant": "A test with one activation vector can be satisfied by either sort direction when it only checks the count.", "anchors": ["distiller/pruning/ranked_structures_pruner.py:ActivationRankedFilterPruner", "distiller/pruning/ranked_structures_pruner.py:GradientRankedFilterPruner", "distiller/pruning/ranked_structures_pruner.py:_mask_from_filter_order"]}
{"id": "C60", "title": "Block pruning removes whole documented super-blocks", "statement": "For block_shape [repetitions, depth, 1, 1], the block pruner gives all weights of one super-block (repetitions consecutive filters x depth consecutive channels at one spatial position) the same 0/1 mask value, removes at least int(fraction*number of blocks) blocks, and never removes a block whose norm is as large as that of a kept block; sparsity_blocks reports the fraction of these super-blocks that are entirely zero.", "quantifier": "every 4-D tensor, block shape accepted by the pruner, norm and fraction", "why_tests_cant": "holds for every shape and tensor; unit tests use one shape and one tensor", "anchors": ["distiller/pruning/ranked_structures_pruner.py:LpRankedStructureParameterPruner.rank_and_prune_blocks", "distiller/utils.py:sparsity_blocks"]}
{"id": "C61", "title": "model_params_stats counts exactly", "statement": "model_params_stats returns the exact number of counted parameters, the exact number of non-zero ones, and 100 x (zero elements / elements) as the total sparsity.", "quantifier": "every model: every list of named parameters of any size and content", "why_tests_cant": "must hold for every model", "anchors": ["distiller/utils.py:model_params_stats", "distiller/utils.py:density"]}
{"id": "C62", "title": "Quantizing a tensor with its own parameters loses at most half a step", "statement": "When a tensor is quantized with the parameters computed from its own values (whole tensor, per output channel, with or without the scale approximation), every element is reproduced by de-quantization up to half a step, and elements outside a narrower (clipped) range saturate to within half a step of the range's end instead of wrapping.", "quantifier": "every tensor, mode, bit width, per-tensor or per-channel", "why_tests_cant": "Universal over tensors; the extreme element of every tensor must be inside the computed range.", "anchors": ["distiller/quantization/q_utils.py:get_tensor_min_max", "distiller/quantization/q_utils.py:asymmetric_linear_quantization_params", "distiller/quantization/range_linear.py:_get_quant_params_from_tensor"]}
{"id": "C63", "title": "Changing a weight quantization parameter re-quantizes the weights", "statement": "After a weight scale or zero-point is set through the API, the layer's integer weights are the quantization of the saved float weights under the current parameters, and the layer computes what a layer built with these parameters would.", "quantifier": "every layer, parameter value and history", "why_tests_cant": "Needs all interleavings of setters and forward passes.", "anchors": ["distiller/quantization/range_linear.py:RangeLinearQuantParamLayerWrapper.set_linear_quant_param", "distiller/quantization/range_linear.py:PostTrainLinearQuantizer.set_linear_quant_param"]}
{"id": "C64", "title": "A layer takes a changed input scale into account", "statement": "If the quantization parameters of a layer's input change between two forward passes, the second pass returns what a freshly built layer with the same weights would return.", "quantifier": "every layer, input scales and history of forward passes and saves", "why_tests_cant": "Needs every history; the accumulator scale is cached on the first pass.", "anchors": ["distiller/quantization/range_linear.py:RangeLinearQuantParamLayerWrapper.quantized_forward"]}
{"id": "C65", "title": "Quantization-aware training uses the configured mode", "statement": "The quantization mode (symmetric, asymmetric, ...) configured for weights and activations of quantization-aware training is the one with which weights and activations are fake-quantized.", "quantifier": "every mode, bit width, tensor and history", "why_tests_cant": "A mode that is silently replaced still trains; only the universally quantified comparison shows it.", "anchors": ["distiller/quantization/range_linear.py:QuantAwareTrainRangeLinearQuantizer", "distiller/quantization/range_linear.py:FakeLinearQuantization.forward", "distiller/quantization/range_linear.py:verify_quant_mode"]}
{"id": "C66", "title": "Fake-quantized training weights are representable in the configured number of bits", "statement": "Each fake-quantized weight during quantization-aware training is within half a step of its float value and corresponds to an integer of the configured bit width (so that deploying it with clamping changes nothing).", "quantifier": "every non-empty weight tensor and bit width", "why_tests_cant": "The failing inputs are exact ties; sampling never hits them.", "anchors": ["distiller/quantization/range_linear.py:QuantAwareTrainRangeLinearQuantizer", "distiller/quantization/q_utils.py:LinearQuantizeSTE"]}
{"id": "C67", "title": "Simulated BN folding trains like batch-norm", "statement": "With simulated batch-norm folding, a training pass returns the batch-norm (with the batch statistics) of the layer output and updates the running statistics as the batch-norm module would, until the freeze delay is reached; once frozen, training and evaluation passes compute the folded layer and change nothing.", "quantifier": "every layer, batch, momentum, freeze delay and number of passes", "why_tests_cant": "The equality is algebraic over all weights and batches, and the freezing pass is one specific step of an unbounded training history.", "anchors": ["distiller/quantization/sim_bn_fold.py:SimulatedFoldedBatchNorm.forward", "distiller/quantization/sim_bn_fold.py:SimulatedFoldedBatchNorm.batch_stats", "distiller/quantization/sim_bn_fold.py:SimulatedFoldedBatchNorm.freeze"]}
{"id": "C68", "title": "Module fusion only fuses connected, split-free sequences", "statement": "fuse_modules fuses exactly runs of modules of the requested types where each feeds the next and no module but the last has another consumer; no module is fused twice.", "quantifier": "every model graph and every type sequence", "why_tests_cant": "Graphs are unbounded; tests exercise a few architectures.", "anchors": ["distiller/model_transforms.py:fuse_modules"]}
{"id": "C69", "title": "Replaying stored thinning recipes on a fresh model reproduces the thinned architecture", "statement": "When zero filters or channels have been removed one or several times during training, and each applied recipe was stored, executing the stored list of recipes on a freshly created copy of the original model yields exactly the module attributes and tensor shapes of the thinned model (and a step that had nothing to remove stores no recipe).", "quantifier": "every model, every graph and every sequence of thinning steps", "why_tests_cant": "recipes are data dependent; there are unboundedly many sequences of removals", "anchors": ["distiller/thinning.py:apply_and_save_recipe", "distiller/thinning.py:execute_thinning_recipes_list", "distiller/apputils/checkpoint.py:load_checkpoint"]}
{"id": "C70", "title": "Activation histograms count every activation value exactly once", "statement": "The histogram reported for a layer has, in each bin, exactly the number of activation values (over all batches, clamped to the layer's calibrated range) that fall in the bin; the bin counts sum to the number of values seen, and the bin centroids are the bin midpoints.", "quantifier": "every sequence of batches, range and number of bins", "why_tests_cant": "Universal over batch sequences and values on bin boundaries.", "anchors": ["distiller/data_loggers/collector.py:ActivationHistogramsCollector"]}
{"id": "C71", "title": "Activation statistics are collected only inside the collection context, each activation once", "statement": "Between entering and leaving collector_context every forward activation of every watched module is recorded exactly once, and outside the context nothing is recorded, even if the body raised an exception.", "quantifier": "every sequence of start/stop/forward/exception events and every module list", "why_tests_cant": "Histories with exceptions and shared modules.", "anchors": ["distiller/data_loggers/collector.py:collector_context", "distiller/data_loggers/collector.py:ActivationStatsCollector.start", "distiller/data_loggers/collector.py:ActivationStatsCollector.stop"]}
{"id": "C72", "title": "Activation records hold one entry per sample, independent of batching", "statement": "RecordsActivationStatsCollector holds one entry per sample in the order the samples were seen, and the entries do not depend on how the samples were grouped in batches.", "quantifier": "every partition of every data set in batches", "why_tests_cant": "Universal over partitions.", "anchors": ["distiller/data_loggers/collector.py:RecordsActivationStatsCollector"]}
{"id": "C73", "title": "A resumed run uses the same learning rates as the uninterrupted run", "statement": "When training is resumed from a checkpoint saved after epoch e, the learning rate used in every later epoch is the one the uninterrupted run would have used.", "quantifier": "every milestone list, gamma list, LR policy schedule and resume epoch", "why_tests_cant": "Universal over crash/resume points and schedules.", "anchors": ["distiller/config.py:dict_config", "distiller/policy.py:LRPolicy", "distiller/learning_rate.py:MultiStepMultiGammaLR"]}
{"id": "C74", "title": "The adjacency map lists exactly the neighbouring operations", "statement": "SummaryGraph.adjacency_map() has one entry per operation, listing as successors exactly the operations that read one of its outputs and as predecessors exactly those producing one of its inputs, whatever was asked of the graph before.", "quantifier": "every traced graph and every sequence of calls", "why_tests_cant": "Universal over graphs and call histories (cache).", "anchors": ["distiller/summary_graph.py:SummaryGraph.adjacency_map", "distiller/summary_graph.py:SummaryGraph.successors", "distiller/summary_graph.py:SummaryGraph.predecessors"]}
{"id": "C75", "title": "Layers are listed in topological order", "statement": "layers_topological_order returns every operation that is a module of the model exactly once, never before an operation it depends on, for feed-forward graphs and, with recurrent=True, for recurrent ones too.", "quantifier": "every graph", "why_tests_cant": "Universal over graphs; recursion depth.", "anchors": ["distiller/summary_graph.py:SummaryGraph.layers_topological_order", "distiller/summary_graph.py:_OpRank"]}
{"id": "C76", "title": "The schedule built from a configuration is the configured one", "statement": "When dict_config succeeds on a fresh scheduler, every policy definition has been registered exactly once, on its own epochs, with the policy object its keys name; definitions that are not learning-rate policies come first, in file order, then the learning-rate policies.", "quantifier": "every configuration", "why_tests_cant": "Universal over configurations.", "anchors": ["distiller/config.py:dict_config", "distiller/config.py:add_policy_to_scheduler"]}
{"id": "C77", "title": "A configuration dictionary can be used more than once", "statement": "dict_config does not change the configuration dictionary it is given, so the same dictionary can configure a second model or be used again after a failure.", "quantifier": "every configuration", "why_tests_cant": "Histories of calls sharing an object.", "anchors": ["distiller/config.py:dict_config", "distiller/config.py:build_component"]}
{"id": "C78", "title": "A refused configuration leaves the caller's scheduler unchanged", "statement": "If dict_config raises, the scheduler passed by the caller has the same policies as before.", "quantifier": "every configuration and failure point", "why_tests_cant": "Universal over failure points.", "anchors": ["distiller/config.py:dict_config"]}
{"id": "C79", "title": "The distillation loss is a divergence", "statement": "The distillation term added to the loss is never negative, at any temperature and for any logits, and it is zero when the student's logits agree with the teacher's up to a constant per sample.", "quantifier": "all batches of student and teacher logits and all temperatures", "why_tests_cant": "Inequality over all reals.", "anchors": ["distiller/knowledge_distillation.py:KnowledgeDistillationPolicy.before_backward_pass"]}
{"id": "C80", "title": "Greedy pruning ends at the compute target", "statement": "greedy_pruner returns after finitely many iterations with a saved model that needs at most the asked fraction of the original compute, and it stops at the first such model.", "quantifier": "every model, pruning step, fraction and outcome of the per-layer trials", "why_tests_cant": "Termination over unbounded iterations.", "anchors": ["distiller/pruning/greedy_filter_pruning.py:greedy_pruner"]}
{"id": "C81", "title": "Quantized element-wise, matmul and concat operations compute on the fake-quantized operands", "statement": "In a model prepared by PostTrainLinearQuantizer, an integer-mode EltwiseMult or Matmul whose accumulator does not saturate returns exactly the fake-quantization of the product of its fake-quantized operands (with an m-bit approximated re-quantization scale, of that product reduced by a relative error below 2^-(m-1)); EltwiseAdd is within half an output step per operand and Concat within half an output step of the saturated sum/concatenation; every returned value lies on the output grid, carries the metadata of that grid and re-quantizes to the same integer in the next operation; an input is refused unless its quantization metadata is known from exactly one place.", "quantifier": "every number of operands, tensor size, operand values, scales, zero-points and ranges", "why_tests_cant": "Rounding and saturation behaviour must hold for every value and parameter set.", "anchors": ["distiller/quantization/range_linear.py:RangeLinearQuantMatmulWrapper", "distiller/quantization/range_linear.py:RangeLinearQuantConcatWrapper", "distiller/quantization/range_linear.py:RangeLinearQuantEltwiseAddWrapper", "distiller/quantization/range_linear.py:RangeLinearQuantEltwiseMultWrapper", "distiller/quantization/range_linear.py:RangeLinearQuantWrapper.forward"]}
{"id": "C82", "title": "Conversion to PyTorch native quantization preserves values", "statement": "Converting quantization parameters and already quantized tensors to PyTorch's quint8/qint8 form preserves the real value of every tensor element, and quantizing with the converted 8-bit parameters gives the same real value as Distiller's own quantization (up to ties); with reduce_range the used integers fit in 7 bits and the error stays under one step.", "quantifier": "every mode, range, tensor value and destination type", "why_tests_cant": "Every value and every parameter pair.", "anchors": ["distiller/quantization/pytorch_quant_conversion.py:distiller_qparams_to_pytorch", "distiller/quantization/pytorch_quant_conversion.py:distiller_quantized_tensor_to_pytorch"]}
{"id": "C83", "title": "Quantization ranges derived from collected statistics", "statement": "For every consistent statistics record the saturation range computed for a clipping mode contains the observed mean; for the non-ACIQ modes it stays inside the observed (symmetrised) range; the ACIQ range is mean \u00b1 alpha\u00b7(std or b); unsupported settings are refused; scale and zero-point derived from it are always usable (positive scale).", "quantifier": "every consistent statistics record, bit-width, quantization mode and clipping mode", "why_tests_cant": "All records.", "anchors": ["distiller/quantization/range_linear.py:_get_quant_params_from_stats_dict", "distiller/quantization/q_utils.py:AciqClipper"]}
{"id": "C84", "title": "Pruners are told the current epoch and their registered range", "statement": "Whenever a scheduled policy consults its pruner, the meta dictionary handed to the pruner carries the epoch of the running callback as current_epoch and the starting_epoch, ending_epoch and frequency the policy was registered with.", "quantifier": "every schedule, every history of callbacks and weight updates, every (stateful) pruner", "why_tests_cant": "Unbounded histories and arbitrary pruners.", "anchors": ["distiller/scheduler.py:CompressionScheduler.on_epoch_begin", "distiller/scheduler.py:CompressionScheduler.on_minibatch_begin", "distiller/policy.py:PruningPolicy"]}
{"id": "C85", "title": "The training loop validates and saves pruned weights", "statement": "run_training_loop refuses an empty epoch range with ValueError; otherwise it visits every epoch in [start_epoch, epochs) once in increasing order, runs ceil(samples/batch_size) minibatches in each, and both the model it validates and the checkpoint it saves in an epoch are zero wherever the mask of a parameter (not in forward-only mode) is zero. With mask_on_forward_only the validated model is not pruned.", "quantifier": "every model, scheduler with any policies and pruners, optimizer behaviour, epoch range and data set size", "why_tests_cant": "the statement ranges over every optimizer trajectory, every pruner and every epoch", "anchors": ["distiller/apputils/image_classifier.py:ClassifierCompressor.run_training_loop", "distiller/apputils/image_classifier.py:train", "distiller/scheduler.py:CompressionScheduler"]}
{"id": "C86", "title": "Gradual pruning reaches its target sparsity in every later checkpoint", "statement": "Train a model with run_training_loop and a fresh scheduler holding one PruningPolicy that recomputes masks at epoch begin: every checkpoint saved from the last scheduled epoch on is zero wherever the mask made in that epoch is zero; with AutomatedGradualPruner each listed parameter therefore has at least floor(final_sparsity * numel) zeros in every such checkpoint, whatever the optimizer does.", "quantifier": "every model, optimizer trajectory, epoch range, frequency, initial/final sparsity and list of weights", "why_tests_cant": "end-to-end over all optimizer updates and all schedules", "anchors": ["distiller/apputils/image_classifier.py:run_training_loop", "distiller/policy.py:PruningPolicy", "distiller/pruning/automated_gradual_pruner.py:AutomatedGradualPruner", "distiller/scheduler.py:CompressionScheduler.add_policy"]}
{"id": "C87", "title": "Early-exit validation counts every sample at exactly one exit", "statement": "During validation of a model with early exits each sample is credited to exactly one exit: the first one whose cross-entropy loss for that sample is below its threshold, or the last exit when none is. The per-exit Top1/Top5 figures are the percentages among the samples credited there, the total Top1/Top5 are the percentages over all validated samples, and the loss returned is that of the deployed (early exiting) model.", "quantifier": "every list of thresholds, every sequence of batches of every size, every per-exit loss and rank of every sample", "why_tests_cant": "whether a sample is counted once, twice or not at all depends on the interleaving of thresholds and losses across all batches; a test fixes a few", "anchors": ["distiller/apputils/image_classifier.py:earlyexit_validate_loss", "distiller/apputils/image_classifier.py:earlyexit_validate_stats", "distiller/apputils/image_classifier.py:_validate"]}
{"id": "C88", "title": "Early-exit training loss is a convex combination of the exit losses", "statement": "The training loss of a model with early exits is the weighted sum of the losses of its exits, with the configured weights for the early exits and the remaining weight (one minus their sum) for the last one; with non-negative weights summing to at most one it lies between the smallest and the largest exit loss.", "quantifier": "every number of exits, every weight vector, every loss", "why_tests_cant": "a statement about all weight vectors and all numbers of exits", "anchors": ["distiller/apputils/image_classifier.py:earlyexit_loss"]}
{"id": "C89", "title": "Attaching early exits does not change the network", "statement": "Attaching early exits to a model leaves the output of the model unchanged for every input, and after a forward pass the outputs of the exits are, in order, each exit branch applied to the output of the module at its exit point for that very input; deleted outputs are never returned as if they were current.", "quantifier": "every module tree, every set of exit points, every branch, every sequence of forward passes", "why_tests_cant": "module trees and the nesting of exit points are unbounded; stale outputs of earlier passes appear only after some histories", "anchors": ["distiller/early_exit.py:EarlyExitMgr", "distiller/modules/topology.py:BranchPoint"]}
{"id": "C90", "title": "Sensitivity analysis tests each parameter at each level in isolation", "statement": "For every analysed parameter and every sparsity level, the recorded result is that of testing the original network in which that one parameter, and nothing else, was pruned to that level (the smallest elements, filters or channels removed); parameters that cannot be pruned have no entry and an unknown pruning group is refused.", "quantifier": "every network, every list of parameter names, every list of sparsity levels, every pruning group", "why_tests_cant": "isolation is a statement about all pairs of parameters and all orders of levels; the failure shows only for particular names and orders", "anchors": ["distiller/sensitivity.py:perform_sensitivity_analysis"]}
{"id": "C91", "title": "Regularization adds exactly the advertised penalty to the training loss", "statement": "A regularization policy adds to the training loss, for exactly the parameters it lists, strength times the sum of the Euclidean norms of the groups of the parameter (kernels, filters, input channels, rows, columns, the whole layer or a combination; the sum of magnitudes for L1; the reciprocal of the variance of the channel norms for group variance) and reports that amount as its loss component. With non-negative strengths the loss never decreases, no group is overlooked, and a grouping that does not fit the parameter or is unknown is refused.", "quantifier": "every model, every assignment of strengths and groupings to parameters, every weight value, every loss", "why_tests_cant": "a statement about sums over all weights of tensors of every shape; a test compares a few shapes", "anchors": ["distiller/regularization/group_regularizer.py:GroupLassoRegularizer", "distiller/regularization/group_regularizer.py:GroupVarianceRegularizer", "distiller/regularization/l1_regularizer.py:L1Regularizer", "distiller/policy.py:RegularizationPolicy.before_backward_pass"]}
{"id": "C92", "title": "Regularizer thresholding masks exactly the groups that fell to the strength", "statement": "When a regularizer with a threshold criterion thresholds a listed parameter, the installed mask has the size of the parameter and zeroes an element exactly when the group of that element (by the grouping the loss uses) has maximum, respectively mean, magnitude at most the strength; other parameters, and regularizers without a criterion, install nothing; every grouping accepted by the loss can be thresholded.", "quantifier": "every parameter shape and content, every strength, grouping and criterion", "why_tests_cant": "groups are views of tensors of any shape; only a proof covers all of them", "anchors": ["distiller/regularization/group_regularizer.py:GroupLassoRegularizer.threshold", "distiller/regularization/l1_regularizer.py:L1Regularizer.threshold", "distiller/thresholding.py:group_threshold_mask"]}
{"id": "C93", "title": "The quantization-parameter search vector is a faithful encoding", "statement": "The dictionary of quantization parameters turned into the vector handed to the optimizer and back is unchanged (scale factors non-negative, clipping ranges ordered); whatever vector the optimizer proposes, the parameters made from it have non-negative scale factors and ordered ranges; settings accepted without clipping search put scale factors only into the vector.", "quantifier": "every dictionary of parameters, every vector proposed by the optimizer, every set of quantized modules", "why_tests_cant": "the optimizer is free to propose any vector and the dictionary may have any number of parameters", "anchors": ["distiller/quantization/ptq_coordinate_search.py:quant_params_dict2vec", "distiller/quantization/ptq_coordinate_search.py:quant_params_vec2dict", "distiller/quantization/ptq_coordinate_search.py:validate_quantization_settings"]}
{"id": "C94", "title": "The coordinate search returns its best configuration", "statement": "Whatever points the optimizer evaluates and reports, the best score of a coordinate search is at most the initial score and the score of every point reported, and the returned configuration attains it; the returned model has that configuration.", "quantifier": "every model and evaluation function (depending on the applied configuration only), every sequence of evaluations and reports by the optimizer", "why_tests_cant": "quantifies over all optimizer histories", "anchors": ["distiller/quantization/ptq_coordinate_search.py:ptq_coordinate_search"]}
{"id": "C95", "title": "The greedy search gives every layer its best candidate, and can be resumed", "statement": "A greedy search over quantization settings visits the layers in order; each gets the candidate whose evaluation, given the settings of the layers before it, is the best of all its candidates; layers it skips and entries of other layers are untouched; every candidate is evaluated as it will be used; an interrupted search resumed from its saved file, at whatever layer it stopped, ends with the configuration of an uninterrupted one; every input the user lists keeps its settings.", "quantifier": "every evaluation function, every list of layers and candidates, every interruption point, every resumed configuration", "why_tests_cant": "quantifies over evaluation functions and crash points", "anchors": ["distiller/quantization/ptq_greedy_search.py:ptq_greedy_search", "distiller/quantization/ptq_greedy_search.py:search_best_local_settings", "distiller/quantization/ptq_greedy_search.py:module_override_generator", "distiller/quantization/ptq_greedy_search.py:input_override_generator"]}
{"id": "C96", "title": "The modular LSTM computes PyTorch's LSTM", "statement": "For every input sequence, batch, number of layers, hidden state and weights, the modular LSTM returns the outputs and final states of PyTorch's LSTM equations (gate order input, forget, cell, output): unidirectional and bidirectional, layer by layer; rows of a batch are independent; dropout between layers affects only what the next layer sees; a cell called without a state starts from zeros for every row of the batch.", "quantifier": "every sequence length, batch, number of layers and units, every weight, input and state value, every dropout pattern", "why_tests_cant": "tests compare outputs for a few random sizes in evaluation mode; equality for all lengths and depths needs induction", "anchors": ["distiller/modules/rnn.py:DistillerLSTMCell.forward", "distiller/modules/rnn.py:DistillerLSTM.process_layer_wise", "distiller/modules/rnn.py:DistillerLSTM._layer_chain_unidirectional", "distiller/modules/rnn.py:DistillerLSTM._bidirectional_type2_forward", "distiller/modules/rnn.py:process_sequence_wise"]}
{"id": "C97", "title": "LSTM conversion preserves parameters, function and mode", "statement": "Converting an LSTM of PyTorch to the modular one copies every tensor to the right layer, direction and gate, keeps sizes and options, computes the same function and keeps the training/evaluation mode; converting back returns the original tensors; converting a model leaves no PyTorch LSTM at any depth; a packed batch gives every sequence what it gets alone, in whatever order the sequences come.", "quantifier": "every number of layers, direction, bias option and tensor values; every module tree; every packed batch", "why_tests_cant": "quantifies over all layer counts, trees and inputs", "anchors": ["distiller/modules/rnn.py:DistillerLSTM.from_pytorch_impl", "distiller/modules/rnn.py:DistillerLSTM.to_pytorch_impl", "distiller/modules/rnn.py:convert_model_to_distiller_lstm", "distiller/modules/rnn.py:DistillerLSTM.packed_sequence_forward"]}
{"id": "C98", "title": "A quantizer replaces exactly the configured modules, and a shared module once", "statement": "Preparing a model for quantization replaces, at every depth, exactly the modules for which bit-widths or override arguments are configured and whose class has a replacement function, each by the replacement made for its own full name; blacklisted modules and everything below them stay as they are. A module object used in several places is given to the replacement function once, and all its uses refer to that one replacement.", "quantifier": "every module tree (any depth, any sharing of module objects), every configuration and set of replacement functions", "why_tests_cant": "tests use a few fixed models; the claim is about all module graphs, including sharing patterns no test has", "anchors": ["distiller/quantization/quantizer.py:Quantizer._pre_process_container", "distiller/quantization/quantizer.py:Quantizer.__init__"]}
{"id": "C99", "title": "Removing zero channels preserves the network function", "statement": "When remove_channels succeeds on a network of (ungrouped) convolutions, batch-norms, per-map operations and channel-wise sums of branches, with an optional fully-connected classifier, the thinned network computes exactly the same outputs from every input (no condition on biases: what is removed was multiplied by zero), provided all convolutions that read the same layer ignore the same channels, every channel of the network's input is used, and the layers producing the result are not read by a convolution that ignores some of their channels.", "quantifier": "every such network of any depth and width, all weights, biases, statistics, kernel sizes, inputs, optimizers and masks; and every traced graph containing it", "why_tests_cant": "universal over architectures, weights and inputs; tests thin a few fixed models and compare shapes", "anchors": ["distiller/thinning.py:create_thinning_recipe_channels", "distiller/thinning.py:remove_channels", "distiller/summary_graph.py:SummaryGraph.predecessors_f"]}
{"id": "C100", "title": "ReLU fusion in post-training quantization preserves the network function", "statement": "Preparing a model for post-training quantization moves the ReLU that follows a quantized layer into that layer and turns the ReLU module into an identity (or keeps it). On every wire the prepared model computes what the original model computes with the quantizers inserted, those of layers followed by a ReLU behind that ReLU; with exact quantizers it computes the original network. Preparation never fails on a traced model. ReLU6 keeps its upper bound because the statistics were clipped at 6.", "quantifier": "every traced model in which modules are called once, all module functions, quantizers, values and bit-widths, any order of registration of the modules", "why_tests_cant": "universal over graphs, functions and orders of replacement; tests prepare single fixed chains", "anchors": ["distiller/quantization/range_linear.py:PostTrainLinearQuantizer._apply_fuse_relu", "distiller/quantization/range_linear.py:RangeLinearFakeQuantWrapper", "distiller/quantization/range_linear.py:RangeLinearQuantWrapper.forward"]}
{"id": "C101", "title": "Statistics are adapted to folded batch-norms and following activations without losing relevant values", "statement": "After preparation a layer into which a batch-norm was folded carries that batch-norm's output statistics, and a quantized layer that exclusively feeds a ReLU, ReLU6, tanh or sigmoid (or a split into such) has its recorded output range clamped to the part the activation distinguishes: every observed value saturated to the new range gives the same ReLU/ReLU6, a tanh within 0.0007 and a sigmoid within 0.0025. Nothing else in the statistics changes; the pass fails exactly if a module feeding a single operation has no statistics.", "quantifier": "all models, adjacency maps, statistics and observed values", "why_tests_cant": "universal over models and statistics, real-analytic bound on activations; tests compare a few dictionaries", "anchors": ["distiller/quantization/range_linear.py:PostTrainLinearQuantizer._apply_bn_folding", "distiller/quantization/range_linear.py:PostTrainLinearQuantizer._apply_activation_stats_fusions", "distiller/quantization/range_linear.py:PostTrainLinearQuantizer._clip_stats"]}
{"id": "C102", "title": "Drop-filter layers drop whole filters at fixed training passes only", "statement": "In every history of training passes, evaluation passes and weight updates, a convolution switched to the drop-filter variant computes with its current weights unchanged, except in its 16th, 32nd, 48th, ... training pass, which uses the current weights with whole filters zeroed; the stored weights are never modified by a pass.", "quantifier": "all weights, histories of passes and updates, random draws", "why_tests_cant": "universal over histories and random draws", "anchors": ["distiller/regularization/drop_filter.py:Conv2dWithMask"]}
{"id": "C103", "title": "Switching convolutions to drop-filter layers preserves the layer", "statement": "Switching the convolutions of a model to drop-filter layers keeps their geometry (channels, kernel, stride, padding, dilation, groups, bias) and their weights.", "quantifier": "all convolutions", "why_tests_cant": "universal over layer configurations", "anchors": ["distiller/regularization/drop_filter.py:DropFilterRegularizer", "distiller/regularization/drop_filter.py:replace_conv2d"]}
{"id": "C104", "title": "A scheduled structure remover thins the network once per epoch, on the pruned model", "statement": "A structure-removing policy scheduled for an epoch thins the network exactly once in it, at the start of the first minibatch, whatever other policies do; errors of the thinning are raised there. If it is registered after the pruning policies, the weights these prune are zero in the model that is thinned.", "quantifier": "all models, schedules, epochs, numbers of minibatches and thinning functions", "why_tests_cant": "universal over schedules and histories", "anchors": ["distiller/thinning.py:StructureRemover", "distiller/policy.py:PruningPolicy.on_minibatch_begin"]}
{"id": "C105", "title": "The model graph has one node per traced operation, with its data", "statement": "The summary graph built from a trace lists every operation once, in execution order, under the name of the calling module (further operations of the same module: name_type_number), with type, module and each input and output once; one operation feeds another in the graph exactly if it does in the trace, and the operations listed for a module are those it called.", "quantifier": "all traces", "why_tests_cant": "universal over traces (module reuse, functional operations, sharing)", "anchors": ["distiller/summary_graph.py:SummaryGraph.__init__", "distiller/summary_graph.py:SummaryGraph.__create_op"]}
{"id": "C106", "title": "Merging padding into average pooling does not change the connectivity of the graph", "statement": "When the explicit padding that tracing inserts before an average pooling is merged into the pooling, exactly those pairs are contracted, and one remaining operation reaches another exactly if it does in the trace.", "quantifier": "all traces", "why_tests_cant": "universal over graphs; tests look at a single network", "anchors": ["distiller/summary_graph.py:SummaryGraph.__merge_pad_avgpool"]}
{"id": "C107", "title": "Removed dropouts do not leave their name on other layers", "statement": "Trace optimization removes dropouts but leaves their name on the preceding operation; after the correction every operation of the graph carries the name of the module it belongs to.", "quantifier": "all traces", "why_tests_cant": "universal over traces", "anchors": ["distiller/summary_graph.py:SummaryGraph.__init__"]}
{"id": "C108", "title": "MACs, footprint and arithmetic intensity of the graph are those of the operations", "statement": "The MACs attribute of a convolution is the number of multiply-accumulate operations its definition takes (any dimension, kernel, batch size, groups), and likewise for linear layers; the footprint is the number of elements of input, output and weights; the arithmetic intensity is MACs per element rounded to the nearest integer.", "quantifier": "all shapes, kernels, groups and batch sizes", "why_tests_cant": "universal over shapes", "anchors": ["distiller/summary_graph.py:SummaryGraph.add_macs_attr", "distiller/summary_graph.py:SummaryGraph.add_footprint_attr", "distiller/summary_graph.py:SummaryGraph.add_arithmetic_intensity_attr"]}
{"id": "C109", "title": "The performance summary has one correct row per executed layer", "statement": "model_performance_summary lists one row for every call of a convolution or linear layer in the forward pass, in order, with its shapes, number of weights and number of multiply-accumulate operations, also for layers called several times or shared.", "quantifier": "all models (trees of modules, sharing), forward passes", "why_tests_cant": "universal over models and executions; tests compare two models", "anchors": ["distiller/model_summaries.py:model_performance_summary", "distiller/model_summaries.py:conv_visitor", "distiller/model_summaries.py:fc_visitor"]}
{"id": "C110", "title": "The non-parallel copy of a model is the same network without DataParallel", "statement": "make_non_parallel_copy yields a model without any DataParallel that computes the same function, whose modules are those of the original under their normalized names.", "quantifier": "all models, positions of DataParallel and module functions", "why_tests_cant": "universal over module trees", "anchors": ["distiller/utils.py:make_non_parallel_copy", "distiller/utils.py:normalize_module_name"]}
{"id": "C111", "title": "Setting an attribute by its qualified name sets that attribute and no other", "statement": "model_setattr(model, name, value) with a name as shown by named_modules/parameters/buffers makes the attribute of that module have the value and leaves every other attribute of every module alone; names that address nothing are rejected.", "quantifier": "all models and names", "why_tests_cant": "universal over names", "anchors": ["distiller/utils.py:model_setattr"]}
{"id": "C112", "title": "Recursive tensor conversion converts every tensor and keeps the structure", "statement": "convert_tensors_recursively_to applied to a nested input returns the same structure with every tensor, at any depth, converted and every other value unchanged.", "quantifier": "all nested values", "why_tests_cant": "universal over nested structures", "anchors": ["distiller/utils.py:convert_tensors_recursively_to"]}
{"id": "C113", "title": "Truncated SVD approximates the layer within the discarded singular values", "statement": "Replacing a fully-connected layer by its truncated SVD computes the same function when all singular values are kept; otherwise the product with any input differs exactly by the discarded components, at most the largest discarded singular value times the length of the input.", "quantifier": "all real matrices, inputs and truncations", "why_tests_cant": "real analysis over all matrices", "anchors": ["distiller/modules/tsvd.py:truncated_svd", "distiller/modules/tsvd.py:TruncatedSVD"]}
{"id": "C114", "title": "The mask summary reports the masked fraction of the weights", "statement": "masks_sparsity_summary lists for every covered parameter the percentage of elements that are masked (0 without a mask) and as total the percentage of all covered elements; the total never exceeds the weight sparsity after the masks were applied.", "quantifier": "all models and masks", "why_tests_cant": "universal over models and masks", "anchors": ["distiller/model_summaries.py:masks_sparsity_summary"]}
{"id": "C115", "title": "Converting a quantized model to PyTorch quantization does not change what it computes", "statement": "convert_distiller_ptq_model_to_pytorch replaces every Distiller wrapper, puts float modules behind a de-quantization, and removes quantize / de-quantize operations that are redundant; the model with the redundant operations removed returns, for every input, what it returned before removing them.", "quantifier": "all models (module trees, forward code, modules called any number of times), dummy inputs and inputs", "why_tests_cant": "universal over programs and inputs; the test suite converts a few models and compares on one batch", "anchors": ["distiller/quantization/pytorch_quant_conversion.py:convert_distiller_ptq_model_to_pytorch", "distiller/quantization/pytorch_quant_conversion.py:_ptq_convert_pass_replace_range_linear_wrappers", "distiller/quantization/pytorch_quant_conversion.py:_ptq_convert_pass_remove_redundant_quant_dequant", "distiller/quantization/pytorch_quant_conversion.py:ConditionalQuantizeWrapper", "distiller/quantization/pytorch_quant_conversion.py:ConditionalDeQuantizeWrapper"]}
{"id": "C116", "title": "A layer quantizes its input the same way whoever else reads that tensor", "statement": "When several quantized layers read the same tensor, each of them sees what it would see as the tensor's only reader, in whatever order they run.", "quantifier": "all tensors, sequences of readers and settings", "why_tests_cant": "depends on the order of execution of the layers of the model", "anchors": ["distiller/quantization/range_linear.py:RangeLinearQuantWrapper.forward", "distiller/quantization/range_linear.py:RangeLinearQuantWrapper._prepare_input", "distiller/quantization/range_linear.py:RangeLinearFakeQuantWrapper._prepare_input"]}
{"id": "C117", "title": "A convolution or linear layer converted to PyTorch quantization computes what the Distiller layer computes", "statement": "to_pytorch_quant on a post-training-quantized convolution or linear layer yields a module with the same weight values and bias, whose output on every input is the Distiller layer's output, at any point of the layer's life.", "quantifier": "all weights, biases, modes, inputs and histories of forward passes and state_dict calls before the conversion", "why_tests_cant": "universal over histories; the numbers depend on hidden state of the layer", "anchors": ["distiller/quantization/range_linear.py:RangeLinearQuantParamLayerWrapper.to_pytorch_quant", "distiller/quantization/range_linear.py:RangeLinearQuantParamLayerWrapper._convert_weights_to_pytorch_quant"]}
{"id": "C118", "title": "A quantized embedding always returns the quantized rows of the original table", "statement": "Looking up indices in a quantized embedding returns the fake-quantized rows of the float table at the current scale and zero-point, whatever parameters and clipping ranges were set before, with these as metadata; conversion to PyTorch keeps the values.", "quantifier": "all tables, indices, modes and histories of settings and device moves", "why_tests_cant": "universal over histories", "anchors": ["distiller/quantization/range_linear.py:RangeLinearEmbeddingWrapper"]}
{"id": "C119", "title": "Writing back a clipping range that was just read changes nothing", "statement": "Reading weight_clipping or output_clipping of a quantized layer and assigning the value back leaves scale and zero-point as they were.", "quantifier": "all modes, bit widths, scales and zero-points", "why_tests_cant": "universal over reals and modes", "anchors": ["distiller/quantization/range_linear.py:RangeLinearQuantWrapper.output_clipping", "distiller/quantization/range_linear.py:RangeLinearQuantParamLayerWrapper.weight_clipping", "distiller/quantization/range_linear.py:RangeLinearEmbeddingWrapper.weight_clipping"]}
{"id": "C120", "title": "A layer quantized with dynamic ranges computes the float layer on quantized operands, whatever ran before", "statement": "A convolution or linear layer under post-training quantization without calibration statistics returns, for every batch, the layer's real result on the fake-quantized inputs, weights and biases (after a fused ReLU), rounded to a grid of step 1/scale computed from that very result, so within half a step; earlier batches (with other input scales, which re-quantize the bias) and saved states do not influence it, and saved states contain the unshifted integer weights.", "quantifier": "all weights, biases, modes, bit-widths, per-channel or not, input tensors, patches with padding, and histories of forward passes and state_dict calls", "why_tests_cant": "universal over reals and histories of hidden state (bias re-quantized and weights shifted in place)", "anchors": ["distiller/quantization/range_linear.py:RangeLinearQuantParamLayerWrapper", "distiller/quantization/range_linear.py:RangeLinearQuantWrapper.forward", "distiller/quantization/range_linear.py:_get_quant_params_from_tensor"]}
{"id": "C121", "title": "Overrides of the quantization settings of an input are honoured", "statement": "input_overrides of a quantized layer determine how an input without metadata is quantized: the given number of bits, mode and clipping (or the output's), unsupported keys are rejected, and values inside the observed range are reproduced within half a step.", "quantifier": "all override dictionaries, output settings and input tensors", "why_tests_cant": "universal over inputs and settings", "anchors": ["distiller/quantization/range_linear.py:RangeLinearQuantWrapper.__init__", "distiller/quantization/range_linear.py:RangeLinearQuantWrapper._get_input_quant_metadata", "distiller/quantization/range_linear.py:verify_quant_mode"]}
{"id": "C122", "title": "A quantized module does not modify the data of the tensor it is given", "statement": "Calling a quantization wrapper returns the quantized result of the wrapped module and leaves the values of the caller's tensor as they were.", "quantifier": "all wrapped modules (also those returning their input or a view of it), settings and inputs", "why_tests_cant": "depends on aliasing between the tensors of the model", "anchors": ["distiller/quantization/range_linear.py:RangeLinearQuantWrapper.forward", "distiller/quantization/range_linear.py:RangeLinearFakeQuantWrapper._prepare_input", "distiller/quantization/q_utils.py:linear_quantize_clamp"]}
{"id": "C123", "title": "Automatic compression keeps exact account of removed compute in every episode", "statement": "In the AMC environment, after every reset and step of every search, the operations reported as removed plus those of the current network are those of the original network, the total is the sum over the layers, and no step of a well-formed network raises an error.", "quantifier": "all networks, pruners, agents (sequences of actions), configurations and numbers of episodes", "why_tests_cant": "quantifies over histories of resets and steps", "anchors": ["examples/auto_compression/amc/environment.py:DistillerWrapperEnvironment.step", "examples/auto_compression/amc/environment.py:DistillerWrapperEnvironment.get_obs", "examples/auto_compression/amc/utils/net_wrapper.py:NetworkMetadata.reduce_layer_macs", "examples/auto_compression/amc/utils/net_wrapper.py:NetworkWrapper.remove_structures"]}
{"id": "C124", "title": "The mac-constrained protocol meets the compute target whatever the agent does", "statement": "With the mac-constrained protocol every episode ends with a network of at most target-density times the original operations, for every sequence of agent actions, if the target can be reached within the allowed sparsity.", "quantifier": "all networks, targets, agents and pruners", "why_tests_cant": "quantifies over all action sequences; a greedy invariant over layers", "anchors": ["examples/auto_compression/amc/rewards.py:mac_constrained_clamp_action", "examples/auto_compression/amc/environment.py:DistillerWrapperEnvironment.rest_macs_raw", "examples/auto_compression/amc/environment.py:DistillerWrapperEnvironment.step"]}
{"id": "C125", "title": "The best network of a search is the one saved as best, with the masks that made it", "statement": "The last checkpoint named BEST has the highest reward of all episodes so far, every improvement is written, and each checkpoint contains the network of its own episode together with the masks from which it was created.", "quantifier": "all searches: sequences of episodes, rewards and actions", "why_tests_cant": "quantifies over histories of episodes", "anchors": ["examples/auto_compression/amc/environment.py:DistillerWrapperEnvironment.finalize_episode", "examples/auto_compression/amc/environment.py:DistillerWrapperEnvironment.save_checkpoint", "examples/auto_compression/amc/utils/net_wrapper.py:NetworkWrapper.cache_spasification_masks"]}
{"id": "C126", "title": "A layer counts as compressible exactly if pruning some layer makes it smaller", "statement": "The layers treated as compressible when remaining compute is estimated are those that are pruned and those whose size changes with a pruned layer.", "quantifier": "all networks and sets of layers to prune", "why_tests_cant": "universal over graphs", "anchors": ["examples/auto_compression/amc/utils/net_wrapper.py:get_network_details", "examples/auto_compression/amc/utils/net_wrapper.py:NetworkMetadata.is_compressible"]}
{"id": "C127", "title": "Rewards order networks by accuracy and compute", "statement": "For every protocol, at equal accuracy fewer operations never lower the reward, at equal operations higher accuracy never lowers it, and for the protocols with a target a network meeting it is always preferred to one missing it.", "quantifier": "all accuracies, operation counts, targets and protocols", "why_tests_cant": "universal over reals", "anchors": ["examples/auto_compression/amc/rewards.py:reward_factory", "examples/auto_compression/amc/rewards.py:harmonic_mean_reward_fn", "examples/auto_compression/amc/rewards.py:punish_agent_reward_fn"]}
{"id": "C128", "title": "The fraction pruned from a layer is within the configured action range", "statement": "The sparsity requested for a layer is between the configured lower and upper bounds for every output of the agent (raised above them only if the compute constraint needs it, never above 1).", "quantifier": "all agents, outputs, ranges and states of the environment", "why_tests_cant": "universal over reals and states", "anchors": ["examples/auto_compression/amc/environment.py:adjust_ppo_output", "examples/auto_compression/amc/environment.py:DistillerWrapperEnvironment.step", "examples/auto_compression/amc/rewards.py:mac_constrained_clamp_action"]}
{"id": "C129", "title": "Feature-map reconstruction gives the best weights for the kept channels", "statement": "After channels of a convolution are removed with feature-map reconstruction, the removed channels are zero and on the collected samples the layer's squared output error is at most that of any other weights on the kept channels, in particular at most that of removing the channels without reconstruction.", "quantifier": "all 2D convolutions without groups, weights, biases, feature-maps, sets of kept channels and sampled points", "why_tests_cant": "universal over reals, sizes and sampled data", "anchors": ["distiller/pruning/ranked_structures_pruner.py:FMReconstructionChannelPruner.rank_and_prune_channels", "distiller/pruning/ranked_structures_pruner.py:FMReconstructionChannelPruner.cache_featuremaps_fwd_hook", "distiller/pruning/ranked_structures_pruner.py:least_square_sklearn", "examples/auto_compression/amc/utils/features_collector.py:collect_intermediate_featuremap_samples"]}
{"id": "C130", "title": "Random filter pruners remove the right number of filters and do not bias the layer", "statement": "The random pruner removes exactly floor(fraction x filters) filters for every random permutation; the Bernoulli pruner scales the kept filters so that the expected masked weight is the weight, and training with it keeps weights finite.", "quantifier": "all fractions, numbers of filters, permutations and draws", "why_tests_cant": "a statement about all random outcomes and about expectations", "anchors": ["distiller/pruning/ranked_structures_pruner.py:RandomRankedFilterPruner.rank_and_prune_filters", "distiller/pruning/ranked_structures_pruner.py:BernoulliFilterPruner.rank_and_prune_filters", "distiller/pruning/ranked_structures_pruner.py:_mask_from_filter_order"]}
{"id": "C131", "title": "Stopping and resuming gives the same training as not stopping", "statement": "If training is stopped after any epoch and resumed with --resume-from from the last checkpoint, it continues with the next epoch and the saved optimizer, and every following epoch validates and saves the same weights and masks as if it had not been stopped.", "quantifier": "all models, schedules, pruners, data, optimizer updates, numbers of epochs and stopping points", "why_tests_cant": "two executions have to agree at every stopping point of every schedule", "anchors": ["distiller/apputils/image_classifier.py:_init_learner", "distiller/apputils/image_classifier.py:ClassifierCompressor.run_training_loop", "distiller/apputils/checkpoint.py:save_checkpoint", "distiller/apputils/checkpoint.py:load_checkpoint", "distiller/scheduler.py:CompressionScheduler.load_state_dict", "distiller/policy.py:PruningPolicy"]}
{"id": "C132", "title": "checkpoint.pth.tar is the last epoch and best.pth.tar the best epoch", "statement": "After every epoch the checkpoint file holds the last epoch and the best-checkpoint file the best-ranked of all epochs so far, including those before the training was resumed.", "quantifier": "all sequences of epoch results and numbers of kept scores", "why_tests_cant": "must hold for every history of results", "anchors": ["distiller/apputils/image_classifier.py:ClassifierCompressor._finalize_epoch", "distiller/apputils/performance_tracker.py:SparsityAccuracyTracker", "distiller/apputils/checkpoint.py:save_checkpoint"]}
{"id": "C133", "title": "Folding all batch-norms of a model preserves its function", "statement": "After fold_batch_norms the model computes the same outputs as before in evaluation mode, for every input; exactly the batch-norms with running statistics that follow a convolution or linear layer are gone.", "quantifier": "all networks (graphs of modules and functional operations), parameters, statistics and inputs", "why_tests_cant": "whole-network equality over all graphs and real inputs", "anchors": ["distiller/model_transforms.py:fold_batch_norms", "distiller/model_transforms.py:fuse_modules", "distiller/model_transforms.py:_fuse_sequence", "distiller/quantization/sim_bn_fold.py:SimulatedFoldedBatchNorm"]}
{"id": "C134", "title": "Names in the model graph are the names of the modules in the original model", "statement": "For a model with (nested) module lists, every operation in the summary graph is attributed to the module, under its name in the user's model, that executed it; building the graph does not fail because of lists.", "quantifier": "all module trees with arbitrarily nested module lists", "why_tests_cant": "structural induction over all module trees", "anchors": ["distiller/summary_graph.py:_to_distiller_modulelist", "distiller/summary_graph.py:_DistillerModuleList"]}
{"id": "C135", "title": "Post-training quantization gives every module the wrapper its bit-widths and overrides ask for", "statement": "After prepare_model, a layer with weight bits computes with weights and activations of exactly the bits, mode and clipping configured for it; a module with activation bits only computes in float and quantizes its output; a module with no bits is the original module; nothing else is changed and no valid configuration is refused.", "quantifier": "all quantizer arguments, module classes, bit-widths and override dictionaries", "why_tests_cant": "configuration space is infinite and the decision depends on combinations of settings", "anchors": ["distiller/quantization/range_linear.py:PostTrainLinearQuantizer", "distiller/quantization/quantizer.py:Quantizer._pre_process_container"]}
{"id": "C136", "title": "Command-line no-quant layers are not quantized, no-clip layers are not clipped, all others are as configured", "statement": "With --qe-no-quant-layers and --qe-no-clip-layers, exactly the named modules are left unquantized, respectively unclipped, and every other module gets the bits, modes and clipping of the command line (0 bits: not quantized).", "quantifier": "all argument values, lists of layer names and module names, with or without DataParallel", "why_tests_cant": "all names and lists, which are turned into one regular expression", "anchors": ["distiller/quantization/range_linear.py:PostTrainLinearQuantizer.from_args", "distiller/quantization/range_linear.py:add_post_train_quant_args", "distiller/quantization/quantizer.py:Quantizer"]}
{"id": "C137", "title": "Activation summaries are those of the whole data set, however it is split into mini-batches", "statement": "After collecting over a data set, the recorded sparsity, L1 norm, mean and APoZ of every monitored module (per channel where applicable) equal the same quantities computed over all its activations at once, independent of the batching; exactly the modules of the chosen classes are monitored, each once per forward pass.", "quantifier": "all models, data sets, batchings, statistics and collection phases", "why_tests_cant": "all data sets and all ways to split them", "anchors": ["distiller/data_loggers/collector.py:SummaryActivationStatsCollector", "distiller/data_loggers/collector.py:WeightedAverageValueMeter", "distiller/utils.py:activation_channels_apoz", "distiller/utils.py:activation_channels_means", "distiller/utils.py:activation_channels_l1"]}
{"id": "C138", "title": "A checkpoint of a quantized model re-creates the quantized model", "statement": "Loading a checkpoint saved from a model prepared by any quantizer creates a quantizer of the same class with the same settings and the same effective statistics, so that the loaded model computes as the saved one.", "quantifier": "all quantizer classes, constructor arguments, models and activation statistics", "why_tests_cant": "all settings, and statistics are changed in place by the preparation", "anchors": ["distiller/apputils/checkpoint.py:load_checkpoint", "distiller/quantization/quantizer.py:Quantizer", "distiller/quantization/range_linear.py:PostTrainLinearQuantizer", "distiller/quantization/range_linear.py:QuantAwareTrainRangeLinearQuantizer", "distiller/quantization/clipped_linear.py:PACTQuantizer"]}
{"id": "C139", "title": "Preparing a model for quantization-aware training changes that model only", "statement": "After any number of models were prepared by the quantization-aware range-linear quantizer, each prepared model computes its original function on its quantized input, and every other model computes what it computed before.", "quantifier": "all classes and inheritance relations, all sequences of preparations, all models and inputs", "why_tests_cant": "the order of preparations and the classes in a process are unbounded; tests prepare one model per class", "anchors": ["distiller/quantization/range_linear.py:QuantAwareTrainRangeLinearQuantizer", "distiller/quantization/range_linear.py:inputs_quantize_wrapped_forward"]}
{"id": "C140", "title": "After preparing a model for quantized training the optimizer optimizes every parameter exactly once", "statement": "If the optimizer had every parameter of the model once, then after WRPN, DoReFa or PACT prepared the model it has every parameter of the prepared model once (floating point copies and new clip values included), and the hyper-parameters of the old groups are unchanged.", "quantifier": "all models (also with shared parameters), optimizers with any parameter groups, bit settings", "why_tests_cant": "all models and groupings of parameters", "anchors": ["distiller/quantization/quantizer.py:hack_float_backup_parameter", "distiller/quantization/quantizer.py:Quantizer", "distiller/quantization/clipped_linear.py:PACTQuantizer"]}
{"id": "C141", "title": "Operations converted to PyTorch quantization compute what the Distiller wrappers compute", "statement": "Converting a post-training-quantized sum, product, concatenation, matrix product or activation module to PyTorch quantization gives a module that on the same (quantized) inputs returns the outputs of Distiller's wrapper, or outputs at most one step of the output grid away.", "quantifier": "all wrappers with 8 bit activations, all operands with their grids, all numbers of operands", "why_tests_cant": "all real operands, grids and operand counts; a test compares a few tensors with a tolerance", "anchors": ["distiller/quantization/range_linear.py:RangeLinearQuantEltwiseAddWrapper", "distiller/quantization/range_linear.py:RangeLinearQuantEltwiseMultWrapper", "distiller/quantization/range_linear.py:RangeLinearQuantConcatWrapper", "distiller/quantization/range_linear.py:RangeLinearQuantMatmulWrapper", "distiller/quantization/range_linear.py:RangeLinearFakeQuantWrapper", "distiller/quantization/pytorch_quant_conversion.py:QFunctionalAdd"]}
{"id": "C142", "title": "The weights sparsity table reports the sparsity of the network", "statement": "The sparsity summary of a model has one row per weight or bias tensor of the requested dimensions, with its number of elements, its number of non-zeros and the percentages of zero elements, rows, columns, channels, kernels and filters; the total is the percentage of zeros among these parameters of the network.", "quantifier": "all state dictionaries, tensors, sparsity patterns and dimension filters", "why_tests_cant": "all tensors and sizes; the truncation of a double is off by one only for particular counts", "anchors": ["distiller/model_summaries.py:weights_sparsity_summary", "distiller/utils.py:density"]}
{"id": "C143", "title": "Module names translate between a model and its data-parallel form", "statement": "Normalizing the name of a module of a (partly) data-parallel model and denormalizing the result gives the name of that module again; different modules have different normalized names; names of models without DataParallel stay as they are.", "quantifier": "all module trees, with data-parallel wrappers anywhere", "why_tests_cant": "all trees and positions of wrappers; the test uses one network", "anchors": ["distiller/utils.py:normalize_module_name", "distiller/utils.py:denormalize_module_name"]}
{"id": "C144", "title": "Quantization parameters of a tensor are those of its statistics", "statement": "For every tensor, quantization mode, bit width and clipping mode, the scale and zero-point computed from the tensor (dynamic quantization) are those computed from the statistics of that tensor (static quantization), and the clipped range lies around the mean and within the tensor's range.", "quantifier": "all tensors, modes, bit widths and clipping modes", "why_tests_cant": "all tensors and clipping modes; tests cover a few tensors without clipping", "anchors": ["distiller/quantization/range_linear.py:_get_quant_params_from_tensor", "distiller/quantization/range_linear.py:_get_quant_params_from_stats_dict", "distiller/quantization/q_utils.py:AciqAsymmetricClipper", "distiller/quantization/q_utils.py:get_tensor_avg_min_max"]}
{"id": "C145", "title": "Initialization of the coordinate search sets every quantized layer, independently", "statement": "init_linear_quant_params gives every quantized layer the parameters of its requested initialization (clipping mode, name of a mode in any case, or minimal loss), independently of the other layers and of the order; other modules are untouched, unknown modes and layers missing from a dictionary are refused, and a later initialization starts from the configuration again.", "quantifier": "all models, layer orders, modes per layer and minimizers", "why_tests_cant": "any number of layers and any sequence of points evaluated by the minimizer; tests run one model", "anchors": ["distiller/quantization/ptq_coordinate_search.py:init_linear_quant_params", "distiller/quantization/ptq_coordinate_search.py:init_layer_linear_quant_params", "distiller/quantization/ptq_coordinate_search.py:optimize_for_layer"]}
{"id": "C146", "title": "Quantization parameters are set by name", "statement": "Setting a listed quantization parameter by its name changes exactly that parameter in the listing (a clipping range: exactly the scale and zero-point of that tensor, to those of the range), keeps the stored weights equal to the layer's weights quantized with its parameters, and makes every wrapper re-compute its derived values; an update with many names gives every name its last value; other names are refused; the filtered listing omits exactly the zero-points that the mode fixes.", "quantifier": "all prepared quantizers, modules, parameter names, values and sequences of settings", "why_tests_cant": "any model and any sequence of settings", "anchors": ["distiller/quantization/range_linear.py:PostTrainLinearQuantizer.set_linear_quant_param", "distiller/quantization/range_linear.py:PostTrainLinearQuantizer.set_clipping", "distiller/quantization/range_linear.py:PostTrainLinearQuantizer.named_clipping", "distiller/quantization/range_linear.py:RangeLinearQuantWrapper.set_linear_quant_param"]}
{"id": "C147", "title": "Collecting quantization statistics reports the statistics of the data for the modules asked for", "statement": "collect_quant_stats returns, for exactly the selected eligible modules that ran, the minimum, maximum, mean, standard deviation and mean absolute deviation of all values each produced, whatever was collected before and however the data is batched; unknown module names are refused.", "quantifier": "all models, selections of modules, data sets, batchings and earlier collections", "why_tests_cant": "any model, data and history of collections", "anchors": ["distiller/data_loggers/collector.py:collect_quant_stats", "distiller/data_loggers/collector.py:QuantCalibrationStatsCollector", "distiller/data_loggers/collector.py:ActivationStatsCollector.start"]}
{"id": "C148", "title": "The layers that depend on a pruned layer are found", "statement": "find_dependencies returns exactly the layers that see the number of filters of the given layer (or produce its channels): the nearest convolutions and linear layers and, behind depthwise convolutions, the next ones; a network in which such a layer is a grouped convolution is refused.", "quantifier": "all acyclic network graphs, layers and group configurations", "why_tests_cant": "the claim is about every graph, including branches and chains of depthwise convolutions of any length", "anchors": ["examples/auto_compression/amc/utils/data_dependencies.py:find_dependencies", "examples/auto_compression/amc/utils/net_wrapper.py:get_network_details"]}
{"id": "C149", "title": "A lottery ticket is the initial network with the pruned positions set to zero", "statement": "extract_lottery_ticket writes a checkpoint holding the untrained network with exactly the weights that are zero in the pruned network set to zero, its buffers unchanged, and masks equal to the pruned network's non-zero positions; loading it gives these weights and masks, and training it never makes a pruned position non-zero again.", "quantifier": "all untrained and pruned networks with the same parameter names and sizes, all schedules without policies in the trained epochs, all optimizer steps", "why_tests_cant": "the claim is about every pair of networks and every later training run", "anchors": ["examples/lottery_ticket/lottery.py:extract_lottery_ticket", "distiller/scheduler.py:CompressionScheduler.init_from_masks_dict", "distiller/apputils/checkpoint.py:save_checkpoint"]}
{"id": "C150", "title": "A quantized evaluation uses statistics of the model it evaluates", "statement": "evaluate_model with --quantize-eval refuses models that are already post-train quantized, otherwise collects statistics of the given model on the requested part of the test set (5% by default, batches of at most 128) unless statistics, a configuration or dynamic mode were requested, and quantizes and tests with them; in any sequence of evaluations each model gets the result it gets alone.", "quantifier": "all models, argument objects and sequences of evaluations with one argument object", "why_tests_cant": "the claim is about every history of calls", "anchors": ["distiller/apputils/image_classifier.py:evaluate_model", "distiller/apputils/image_classifier.py:quantize_and_test_model", "distiller/apputils/image_classifier.py:acts_quant_stats_collection"]}
{"id": "C151", "title": "Dummy inputs have the declared structure", "statement": "Exactly the tuples of non-negative integers and tuples of such shapes, nested to any depth, are accepted as input shapes; the dummy input made for a shape consists of one tensor of the given dimensions on the given device per innermost tuple, nested as the shape is; a known dataset name takes precedence and an unknown one is refused; a model's input_shape attribute, once set, is not changed.", "quantifier": "all Python values passed as shapes, all devices, all sequences of calls", "why_tests_cant": "shapes nest to any depth", "anchors": ["distiller/utils.py:_validate_input_shape", "distiller/utils.py:get_dummy_input", "distiller/utils.py:set_model_input_shape_attr", "distiller/apputils/data_loaders.py:classification_get_input_shape"]}
{"id": "C152", "title": "Moving a nested value moves every tensor in it", "statement": "convert_tensors_recursively_to rebuilds every nesting of tuples and lists with every tensor in it converted, in the same order and with the same kinds of containers, and keeps other values.", "quantifier": "all nestings of tuples, lists, tensors and other objects", "why_tests_cant": "values nest to any depth", "anchors": ["distiller/utils.py:convert_tensors_recursively_to"]}
{"id": "C153", "title": "Range-checked arguments are in range", "statement": "float_range_argparse_checker makes a checker exactly for ranges with min below max; the checker accepts exactly the strings denoting a number within the bounds, exclusive where asked, and returns that number; NaN and infinities are refused.", "quantifier": "all bounds, flags and strings", "why_tests_cant": "the claim is about every string and range", "anchors": ["distiller/utils.py:float_range_argparse_checker"]}
{"id": "C154", "title": "Removing zero layers of ResNet removes exactly them and changes nothing else", "statement": "resnet_cifar_remove_layers closes the gates of exactly the convolutions whose weights are all zero, and the network computes the same function afterwards.", "quantifier": "all parameter values and gate states, all inputs", "why_tests_cant": "the claim is about every set of zero layers and every input", "anchors": ["distiller/thinning.py:resnet_cifar_remove_layers", "distiller/models/cifar10/resnet_cifar.py:BasicBlock.forward"]}
{"id": "C155", "title": "Freezing stops training, and dropout adjustment reaches every dropout layer", "statement": "freeze_all(model, True) stops the training of every parameter of the model and of nothing else; freeze_training does so for the selected layers; adjust_dropout sets the probability of every dropout layer of the model and changes nothing else.", "quantifier": "all module trees (with shared modules), all parameters, gradients and optimizer settings, any number of training steps", "why_tests_cant": "models, gradients and numbers of steps are unbounded", "anchors": ["distiller/directives.py:freeze_training", "distiller/directives.py:freeze_all", "distiller/directives.py:adjust_dropout"]}
{"id": "C156", "title": "Every module is found under the name it was given", "statement": "After assign_layer_fq_names every module of the model has a name that leads to it, and find_module_by_fq_name returns the module at the given name, or None if there is none.", "quantifier": "all module trees with shared modules, all names, all previous name attributes", "why_tests_cant": "module trees and sharing patterns are unbounded", "anchors": ["distiller/utils.py:assign_layer_fq_names", "distiller/utils.py:find_module_by_fq_name"]}
{"id": "C157", "title": "create_model returns the model that was asked for", "statement": "create_model returns a model of the given architecture for the given data set, pretrained iff asked for, on the device and with the data-parallel wrapping asked for, and records architecture, data set and input shape on it; unknown pairs are refused; models registered by the user can be created.", "quantifier": "all contents of the model libraries, all architectures, data sets, options and registrations", "why_tests_cant": "libraries, registrations and names are unbounded", "anchors": ["distiller/models/__init__.py:create_model", "distiller/models/__init__.py:_create_imagenet_model", "distiller/models/__init__.py:register_user_model", "distiller/models/__init__.py:_set_model_input_shape_attr"]}
{"id": "C158", "title": "The patched MobileNet v2 is the same network", "statement": "Patching torchvision's MobileNet v2 (modules for additions and means) does not change what it, or any other model, computes.", "quantifier": "all weights, inputs and image sizes", "why_tests_cant": "weights, inputs and sizes are unbounded", "anchors": ["distiller/models/__init__.py:patch_torchvision_mobilenet_v2"]}
{"id": "C159", "title": "TensorBoard records are complete and at distinct steps", "statement": "A logged training run is recorded completely and in order: every value under its name at a step that increases from one logging point to the next; weight histograms go with the same steps to every logger; the i-th of several values always goes to the same file; the sparsity records are the percentages of zeros.", "quantifier": "all runs (sequences of logging points), statistics, parameters, lists of values and histories of calls", "why_tests_cant": "runs and histories are unbounded", "anchors": ["distiller/data_loggers/logger.py:TensorBoardLogger", "distiller/data_loggers/tbbackend.py:TBBackend", "distiller/utils.py:log_training_progress"]}
{"id": "C160", "title": "CSV logs hold every value once", "statement": "The CSV sparsity table has a row with the size, the number of non-zero elements and the sparsity of every weight tensor; the CSV file of a buffer holds one header and one line per call and module having the buffer.", "quantifier": "all state dictionaries, floating-point roundings, and histories of calls", "why_tests_cant": "tensors, roundings and histories are unbounded", "anchors": ["distiller/data_loggers/logger.py:CsvLogger.log_weights_sparsity", "distiller/data_loggers/logger.py:CsvLogger.log_model_buffers"]}
{"id": "C161", "title": "The per-layer quantization report tells the settings of every layer", "statement": "The report that post-training quantization saves lists every layer of the prepared model with its numbers of bits, the value of every other argument that holds for it (its override, or else the quantizer's), and all quantization parameters; saving it fails only if a module has disappeared.", "quantifier": "all models, overrides, bit settings and quantization parameters", "why_tests_cant": "models and configurations are unbounded", "anchors": ["distiller/quantization/range_linear.py:PostTrainLinearQuantizer.save_per_layer_parameters"]}
{"id": "C162", "title": "Quantizing models with bidirectional LSTMs", "statement": "A model with a bidirectional LSTM is prepared without tracing: the recorded range of the gate sum of each cell is cut to the range where the sigmoid is not saturated, and nothing else changes; any other model cannot be prepared without an example input.", "quantifier": "all models (cells) and statistics", "why_tests_cant": "models and statistics are unbounded", "anchors": ["distiller/quantization/range_linear.py:PostTrainLinearQuantizer.prepare_model", "distiller/quantization/range_linear.py:PostTrainLinearQuantizer._apply_bidi_distiller_lstm_stats_fusion"]}
{"id": "C163", "title": "Searches start from the announced configuration", "statement": "The coordinate search refuses anything but a fresh post-training quantizer, drops exactly the clipping settings of the user, keeps all other overrides, and collects statistics if there are none; command-line arguments reach it under their names; the greedy search quantizes exactly the inputs named on the command line. The saved report tells the settings used.", "quantifier": "all quantizers, overrides, statistics, argument dictionaries and lists of inputs", "why_tests_cant": "configurations are unbounded", "anchors": ["distiller/quantization/ptq_coordinate_search.py:ptq_coordinate_search", "distiller/quantization/ptq_coordinate_search.py:cmdline_args_to_dict", "distiller/quantization/ptq_greedy_search.py:get_inputs_to_quantize"]}
{"id": "C164", "title": "Deterministic sessions and seeds", "statement": "An evaluation or deterministic session gives the same result whatever was done before in the process; a session repeated with the seed it reports gives the same result; the seed given decides about everything random in the session, and the workers of a loader have different seeds.", "quantifier": "all sessions: any model construction and any work afterwards, all arguments, all states of the random generators", "why_tests_cant": "the states of the generators and the programs run are unbounded", "anchors": ["distiller/apputils/image_classifier.py:_config_determinism", "distiller/utils.py:set_seed", "distiller/utils.py:set_deterministic", "distiller/apputils/data_loaders.py:get_data_loaders"]}
{"id": "C165", "title": "Activation statistics are collected for the phases asked for", "statement": "Five collectors are made for each phase named and none for the others; while a phase runs exactly its collectors are attached to the model, afterwards none; the statistics of the phase are logged and, for validation and test, saved; this also holds after a phase was interrupted.", "quantifier": "all sets of phases, all sequences of runs of phases, each completed or interrupted", "why_tests_cant": "sequences of runs are unbounded", "anchors": ["distiller/apputils/image_classifier.py:create_activation_stats_collectors", "distiller/data_loggers/collector.py:collectors_context", "distiller/apputils/image_classifier.py:test"]}
{"id": "C166", "title": "Loading the data", "statement": "load_data returns the requested loaders in order; every pass delivers the effective number of samples, fixed subsets stay fixed, in a fixed order if asked for; validation runs on held-out training data, on the test set only if nothing is split off; a sample used for validation is never trained on in any epoch.", "quantifier": "all sizes, split ratios, effective sizes, options, random permutations, numbers of epochs", "why_tests_cant": "data sets, permutations and epochs are unbounded", "anchors": ["distiller/apputils/image_classifier.py:load_data", "distiller/apputils/image_classifier.py:ClassifierCompressor.load_datasets", "distiller/apputils/data_loaders.py:get_data_loaders"]}
{"id": "C167", "title": "The compute device", "statement": "The session uses the CPU if asked for or if there is no GPU, otherwise exactly the GPUs listed, which must exist, or all.", "quantifier": "all arguments and numbers of GPUs", "why_tests_cant": "lists of devices are unbounded", "anchors": ["distiller/apputils/image_classifier.py:_config_compute_device"]}
{"id": "C168", "title": "The loss of a training step", "statement": "The loss is the criterion of the network's output; for Inception networks with auxiliary outputs the main criterion plus 0.3 times each of the two auxiliary ones (GoogLeNet) or 0.4 times the one (others); any other tuple is refused; accuracy is that of the main output.", "quantifier": "all architectures, criteria and outputs", "why_tests_cant": "outputs and criteria are unbounded", "anchors": ["distiller/apputils/image_classifier.py:inception_training_loss", "distiller/apputils/image_classifier.py:train"]}
{"id": "C169", "title": "The ring buffer of the replay memory", "statement": "After any sequence of appends a ring buffer of capacity m > 0 holds the last m values in the order they came; reading outside of them is refused with a KeyError.", "quantifier": "all sequences of appends, all capacities, all positions", "why_tests_cant": "sequences are unbounded", "anchors": ["examples/auto_compression/amc/rl_libs/hanlab/memory.py:RingBuffer"]}
{"id": "C170", "title": "Replay sampling", "statement": "A sampled experience is a genuine transition of one episode: its observation, the action taken on it, its reward, the next observation and whether the episode ended there; every stored transition can be sampled; sampling raises no error once enough entries are held.", "quantifier": "all histories of episodes, capacities, windows, sample sizes and random draws", "why_tests_cant": "histories and draws are unbounded", "anchors": ["examples/auto_compression/amc/rl_libs/hanlab/memory.py:SequentialMemory", "examples/auto_compression/amc/rl_libs/hanlab/agent.py:DDPG"]}
{"id": "C171", "title": "Parallel fine-tuning reports every checkpoint once", "statement": "Whatever the scheduling of the processes, each checkpoint is fine-tuned by exactly one process, on GPU (index mod number of GPUs), at most the given number at a time, and its result is reported exactly once; the program neither deadlocks nor runs forever, also if a process crashes.", "quantifier": "all interleavings of the main program, the worker processes and the feeder threads, all numbers of checkpoints, processes and GPUs", "why_tests_cant": "interleavings are unbounded", "anchors": ["examples/auto_compression/amc/parallel-finetune.py:finetune_directory", "examples/auto_compression/amc/parallel-finetune.py:FinetuningProcess"]}
{"id": "C172", "title": "The score of a fine-tuned checkpoint", "statement": "With a validation factor f in (0, 1] exactly the last ceil(f * epochs) epochs are validated and the first of them with the best top-1 accuracy is reported; with zero, the result on the test set.", "quantifier": "all factors, numbers of epochs and scores", "why_tests_cant": "epochs and scores are unbounded", "anchors": ["examples/auto_compression/amc/parallel-finetune.py:finetune_checkpoint"]}
{"id": "C173", "title": "Greedy translation of a batch", "statement": "Translating a batch gives, in the order of the input sentences, for each sentence the words the decoder produces for it alone, up to and without the end token; batch mates, sorting by length and the removal of finished sentences have no influence.", "quantifier": "all batches, sentence lengths, maximum lengths and decoders that treat the sentences independently", "why_tests_cant": "batches, lengths and decoders are unbounded", "anchors": ["examples/GNMT/seq2seq/inference/beam_search.py:SequenceGenerator.greedy_search", "examples/GNMT/seq2seq/inference/inference.py:Translator.translate", "examples/GNMT/seq2seq/utils.py:batch_padded_sequences"]}
{"id": "C174", "title": "Bucketed sampling over ranks", "statement": "In every epoch each rank gets the same number of samples; together the ranks get the samples of whole global batches exactly once each, fewer than one global batch being left out; with bucketing the batches consist of samples in order of length.", "quantifier": "all permutations, data set sizes, batch sizes, numbers of ranks and lengths", "why_tests_cant": "sizes and permutations are unbounded", "anchors": ["examples/GNMT/seq2seq/data/sampler.py:BucketingSampler"]}
{"id": "C175", "title": "Batches of one aspect-ratio group", "statement": "A pass gives exactly len // batch_size batches, each of batch_size samples of a single group; no batch contains a sample twice; batches completed on the way share no samples and keep the order of the sampler.", "quantifier": "all sample orders, groupings and batch sizes", "why_tests_cant": "orders and groupings are unbounded", "anchors": ["examples/object_detection_compression/group_by_aspect_ratio.py:GroupedBatchSampler"]}
{"id": "C176", "title": "Data, evaluation and reports of the language model", "statement": "Word numbers and words determine each other over the three files of a corpus; every word of the data, up to fewer than one row at the end, is in one column, and is predicted exactly once per epoch from its predecessors; the evaluation returns the mean cross-entropy of these words, whatever the chunk length; the training reports are the means of the losses since the report before; the best model saved is that of least validation loss.", "quantifier": "all corpora, batch sizes, chunk lengths, networks and losses", "why_tests_cant": "corpora and networks are unbounded", "anchors": ["examples/word_language_model/data.py:Dictionary", "examples/word_language_model/data.py:Corpus", "examples/word_language_model/main.py:batchify", "examples/word_language_model/main.py:get_batch", "examples/word_language_model/main.py:evaluate", "examples/word_language_model/main.py:train"]}
{"id": "C177", "title": "Evaluation of the recommender", "statement": "For every user whose test item is not among the sampled negatives, hit and gain depend only on the number b of different negatives scored at least as high as the test item: a hit with the gain of place b if b < K, otherwise zero; the batch size, the order of the negatives and repetitions among them do not matter, and evaluating again, in one process or several, gives the same result although the lists of negatives have been changed in place.", "quantifier": "all networks (as scoring functions), batch sizes, K, users, lists of negatives, numbers of processes", "why_tests_cant": "networks and lists are unbounded; ties and repetitions are rare in samples", "anchors": ["examples/ncf/ncf.py:predict", "examples/ncf/ncf.py:eval_one", "examples/ncf/ncf.py:val_epoch"]}
{"id": "C178", "title": "Training samples and test data of the recommender", "statement": "With n negatives per rating every positive rating is one training sample with label one, followed by n samples of the same user with label zero and an item the user has not rated; there are no others. The conversion takes the last rating in time of each user as the test pair, all others as training pairs, and draws the negatives from items that are not in the user's training pairs and are not the test item.", "quantifier": "all rating files, numbers of negatives, draws", "why_tests_cant": "rating histories and draws are unbounded", "anchors": ["examples/ncf/dataset.py:CFTrainDataset", "examples/ncf/convert.py:main"]}
{"id": "C179", "title": "Saved data structures of the recommender survive crashes", "statement": "Whatever earlier runs left behind, constructing the training set either loads it completely or raises an error; a run stopped at any point can be repeated.", "quantifier": "all states of the two saved files reachable by runs stopped anywhere", "why_tests_cant": "crash points and histories are unbounded", "anchors": ["examples/ncf/dataset.py:CFTrainDataset._load_train_matrix", "examples/ncf/dataset.py:TimingContext"]}
{"id": "C180", "title": "Beam search", "statement": "After every pass the beams of a sentence are different hypotheses, each with its own words, sum of log-probabilities, length and hidden state, and no one-word extension of the former ones that was dropped has a larger sum than one that was kept; the translation returned is that of the best normalized sum with the coverage penalty of its own attention, and its length counts the tokens up to the end of the sentence.", "quantifier": "all networks, beam sizes, maximal lengths, tie-breaking of topk and max", "why_tests_cant": "networks, lengths and beams are unbounded", "anchors": ["examples/GNMT/seq2seq/inference/beam_search.py:SequenceGenerator.beam_search", "examples/GNMT/seq2seq/models/seq2seq_base.py:Seq2Seq.generate"]}
{"id": "C181", "title": "Norms of groups of structures", "statement": "With group length g the norm functions for filters, channels, kernels, rows and columns return one norm per group of g adjacent structures, computed on all elements of the group and, if asked for, divided by their number.", "quantifier": "all tensors, norms and group lengths", "why_tests_cant": "shapes and group lengths are unbounded", "anchors": ["distiller/norms.py:filters_norm", "distiller/norms.py:channels_norm", "distiller/norms.py:kernels_norm", "distiller/norms.py:sub_matrix_norm"]}
{"id": "C182", "title": "The data set summary counts the classes", "statement": "The data set summary logs for every class the number of samples with this label, the number of classes and the average class size, independently of the division into batches.", "quantifier": "all data sets and batchings", "why_tests_cant": "data sets are unbounded", "anchors": ["distiller/apputils/dataset_summaries.py:dataset_summary"]}
{"id": "C183", "title": "The tokenizer of the translator", "statement": "A line becomes BOS, the numbers of its words and EOS, whatever lines have been read before; a word listed in the vocabulary has the number of its place, any other word UNK. Every number below the vocabulary size has a text, and the text of the numbers of a line of listed words is this line with the pieces of its words put together.", "quantifier": "all vocabularies, lines and histories", "why_tests_cant": "vocabularies, lines and histories are unbounded", "anchors": ["examples/GNMT/seq2seq/data/tokenizer.py:Tokenizer"]}
{"id": "C184", "title": "Sentence pairs and batches of the translator", "statement": "The data are the pairs of corresponding lines of both files, in order, both of whose lengths are within the bounds; files of different numbers of lines are refused. Sorting keeps pairs together. A batch holds every one of its pairs once, each column being a sentence padded to the longest one, with its length, both sides in the same order of decreasing source lengths, and the indices tell where each pair was.", "quantifier": "all files, bounds, limits, sorts and batches", "why_tests_cant": "files and batches are unbounded", "anchors": ["examples/GNMT/seq2seq/data/dataset.py:ParallelDataset", "examples/GNMT/seq2seq/data/dataset.py:build_collate_fn"]}
{"id": "C185", "title": "Repeating an experiment on all GPUs", "statement": "The script runs the given command once for every GPU, with exactly the arguments given, followed by a name, a GPU and a seed of its own and the output directory.", "quantifier": "all argument lists, seeds and numbers of GPUs", "why_tests_cant": "arguments and numbers of GPUs are unbounded", "anchors": ["examples/classifier_compression/multi-run.py:run_experiment"]}
