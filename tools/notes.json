{
 "C03": {
  "status": "proved",
  "note": "After on_minibatch_end: full. The theorem C03_forward_violated_by_fold_bn records that the (stronger) statement about the forward pass fails with fold_batchnorm."
 },
 "C04": {
  "note": "Proved for exactly one pruning policy among any number of other policies, for one minibatch and over every training history (no BN folding, no thresholding regularizer). The code violates it for every minibatch with two pruning policies (C04_violated_always, universal), with a thresholding regularizer and with BN folding (witnesses)."
 },
 "C05": {
  "note": "Proved over every history when the schedule contains ending_epoch-1, with other (non-pruning, non-thresholding) policies active before and after; the code violates it when frequency does not divide ending-1-starting (witness)."
 },
 "C07": {
  "note": "Masks round-trip fully; masker modes are not saved (witness), so 'masking behaves identically' fails for mask_on_forward_only."
 },
 "C08": {
  "note": "Failure condition proved exactly; clean failure is violated (witness), what is preserved is proved partially."
 },
 "C12": {
  "note": "Hook removal proved for a single mask_gradients policy, violated for two (witness)."
 },
 "C33": {
  "note": "Proved for symmetric (full range) and unsigned-asymmetric modes; violated for signed-asymmetric and restricted-symmetric (witnesses)."
 },
 "C35": {
  "note": "Proved for every interleaving of forward/state_dict; violated when weights are re-quantized after a forward pass with asymmetric weights (witness)."
 },
 "C63": {
  "note": "Module-level setter proved (stored weights; fresh layer fully); quantizer-level setter violates it (witness)."
 },
 "C64": {
  "note": "Proved when re-adjustment is forced (quantizer-level setters force it); violated otherwise (witness)."
 },
 "C36": {
  "note": "Proved for patterns without capture groups/top-level alternatives and names not containing 'module.'; violated otherwise (witnesses)."
 },
 "C39": {
  "note": "Activations and DoReFa/PACT weights proved; WRPN weights exceed the grid and [-1,1] for every bit width (witness)."
 },
 "C65": {
  "note": "Violated for every configured mode."
 },
 "C66": {
  "note": "Proved except exact ties; violated at ties (witness)."
 },
 "C67": {
  "note": "Training passes before the freezing pass and passes after it are proved; the freezing pass itself violates the property (witness)."
 },
 "C68": {
  "note": "Types, adjacency in graph order, no double fusion proved; split-free first module and connectedness are violated (witnesses)."
 },
 "C41": {
  "status": "proved",
  "note": "C41_network and C41_network_fc: whole networks of any depth, through removeFilters itself (recipe creation, execution). C41_conv/C41_linear/C41_remove_filters are the earlier one-edge statements. The conditions are needed: C41_violated_bias (zero filter with a bias), C41_violated_last_layer (zero filters nobody reads). C41_traced: the same on the traced graph with successors_f as modelled for C51; without regular placement of batch-norms it fails (C41_violated_bn_after_next_conv)."
 },
 "C42": {
  "note": "Proved for recipes made of 2-tuple directives; violated for recipes with a fully-connected successor (RuntimeError) and for lists of two recipes (AssertionError)."
 },
 "C43": {
  "note": "Proved for the filters recipe (attributes, weights, 2-tuple masks, successor edges); violated by FC masks, depthwise convolutions, momentum without gradient, remove_channels on Linear (witnesses)."
 },
 "C46": {
  "note": "Proved for a single batch, and that the result stays within the extremes. For two batches exact characterization: right only if both batches have the same mean (C46_violated_always)."
 },
 "C47": {
  "note": "Proved for every sequence of accepted additions and the rejection of n<=0; violated after a rejected addition, whose value still enters the running sum (witness)."
 },
 "C50": {
  "note": "Partition and switching sampler proved; violated by fixed_subset=True (validation positions used as dataset indices overlap training) and by effective sizes that round to an empty subset (witnesses)."
 },
 "C71": {
  "note": "Proved for exception-free bodies over distinct modules; violated when the body raises (hooks leak) and for modules listed twice (witnesses)."
 },
 "C73": {
  "note": "Proved when the LR policy was active in the saved epoch; violated when it was inactive (witness)."
 },
 "C51": {
  "status": "proved",
  "note": "Proved for every finite graph, cyclic or not; multiplicities are not claimed (C51_duplicates_possible)."
 },
 "C52": {
  "note": "Partition, rejection and delivery proved; violated by arguments the library supplies itself (user value silently replaced) and by unknown arguments of pruning policies (silently dropped)."
 },
 "C74": {
  "note": "Proved on a fresh graph; violated after a call with dedicated_modules_only=True, whose result is cached for all calls (witness)."
 },
 "C75": {
  "note": "Proved for every acyclic graph; violated for recurrent graphs with recurrent=True, where the descendant test never ends (witness for every recursion limit)."
 },
 "C77": {
  "note": "Violated: 'class' is popped from the caller's dictionary (witness)."
 },
 "C78": {
  "note": "Proved for failures while building the sections; violated for failures while handling the policies (witness)."
 },
 "C44": {
  "status": "partial",
  "note": "Proved: resumed epoch, weights, round trip of weights/optimizer/masks, refusal of incomplete checkpoints, DataParallel checkpoints with a compression schedule. Violated (witnesses): DataParallel without schedule refused, lean load reads the schedule, architecture check comes after the weights were overwritten. Quantizer metadata not modelled."
 },
 "C53": {
  "status": "partial",
  "note": "Proved for every history over the reals; the promised failure without a preceding forward is violated once an earlier scheduled epoch cached outputs (C53_violated_stale)."
 },
 "C54": {
  "note": "Every result list of rationals; NaN results are not modelled."
 },
 "C79": {
  "note": "Over the reals, not floats."
 },
 "C80": {
  "status": "partial",
  "note": "Proved: the model at loop exit meets the target and is the first to do so; termination when every step makes progress. Violated: the function always raises at the end (deleted variable), and loops for ever when nothing can be pruned."
 },
 "C81": {
  "status": "proved",
  "note": "All parts of the statement, for every operand list; saturation of the accumulator is excluded by hypothesis as in the statement. EltwiseAdd is not exact (C81_add_not_exact)."
 },
 "C82": {
  "status": "partial",
  "note": "Value preservation for all modes and 2..8 bits and 8-bit agreement for unrestricted modes proved. Violated: restricted symmetric saturates at -128 instead of -127; reduce_range may use integer 128 (8 bits)."
 },
 "C83": {
  "status": "proved",
  "note": "Proved for every consistent statistics record. The ACIQ range may be wider than the observed range (C83_violated_aciq_wider_than_observed is a remark beyond the statement). The ACIQ alpha tables are modelled as rationals. The tables are monotone and consistent (C83_aciq_monotone, C83_half_is_next_bit) but for one entry (C83_violated_table)."
 },
 "C85": {
  "status": "proved",
  "note": "Order, minibatch counts and pruned validation/checkpoint weights for all policies, pruners and optimizers; C85_violated_forward_only is the last sentence of the statement. Forward/backward pass and optimizer are an arbitrary update."
 },
 "C86": {
  "status": "proved",
  "note": "Proved for one pruning policy whose masks are recomputed at epoch begin (mini_batch_pruning_frequency=0, no discard/skip/fold options) and either not forward-only or keep_mask with the frequency dividing ending-1-starting."
 },
 "C87": {
  "status": "partial",
  "note": "Exit selection, per-exit and total accuracy proved for all thresholds and batches; the returned loss is not that of the deployed model and is 0 when no sample reaches the last exit (C87_violated_loss_zero). Cross entropy and rank of the target are inputs; no samples at all is a ZeroDivisionError."
 },
 "C88": {
  "status": "partial",
  "note": "Holds when every exit produced an output; a missing exit output silently drops its weight so that the weights no longer sum to one (C88_violated_missing_exit)."
 },
 "C89": {
  "status": "partial",
  "note": "Proved for exit points none of which lies inside another; nested exit points break it (C89_violated_nested). The output of the network is unchanged in every case (C89_same_output)."
 },
 "C90": {
  "status": "partial",
  "note": "Proved for element-wise analysis with levels in non-decreasing order, and for filters and channels (same condition, no other parameter name contained in the analysed name). Violated: levels out of order act on already pruned weights; parameters whose name is a substring of the analysed one are pruned too (C90_violated_*)."
 },
 "C20": {
  "status": "partial",
  "note": "Proved when the group length divides the structure count (any rounding function) and for floor rounding in general; with rounding up and a group length that does not divide the count, the result exceeds the number of structures (C20_violated_nondividing)."
 },
 "C23": {
  "status": "partial",
  "note": "Proved whenever the leader has something to prune, for every enumeration order; with nothing to prune the followers raise AssertionError (C23_violated_nothing_to_prune)."
 },
 "C55": {
  "status": "partial",
  "note": "Proved for parameters whose regularization flag is not set; a parameter that went through regularization loses later pruning masks (C55_violated_stale_regularization_flag)."
 },
 "C56": {
  "status": "partial",
  "note": "Proved without normalize_dataparallel_keys; with it every mask is dropped (C56_violated_dataparallel)."
 },
 "C57": {
  "status": "partial",
  "note": "Violated for every input: group sizes above 1 raise or prune nothing (C57_violated_group_size is a universal statement)."
 },
 "C58": {
  "status": "partial",
  "note": "Proved for filters, channels and kernels; rows and columns divide by the wrong size (witnesses)."
 },
 "C59": {
  "status": "partial",
  "note": "Proved for gradient ranking; mean-activation ranking removes the most active filters (proved for all inputs, so the claim is false)."
 },
 "C60": {
  "status": "partial",
  "note": "Proved for depth 1 or one repetition with depth dividing the channels, pruning and sparsity_blocks alike; violated for both above 1 and for non-dividing depths (witnesses)."
 },
 "C91": {
  "status": "partial",
  "note": "Proved for every grouping except 'Channels+4D' / '4D+Channels', which always raise AttributeError (C91_violated_channels_4d); gradients are autograd's."
 },
 "C92": {
  "status": "partial",
  "note": "Proved for convolutions, both criteria, and for rows and columns with Max; Mean_Abs of rows/columns divides by the wrong size (C58) and the combined groupings and '4D' cannot be thresholded (C92_violated_combined)."
 },
 "C94": {
  "status": "partial",
  "note": "Proved for Powell-type methods and the returned configuration; the returned model stays in the last evaluated configuration (C94_violated_model) and basin hopping's callback has the wrong arity (C94_violated_basinhopping)."
 },
 "C95": {
  "status": "partial",
  "note": "Proved for runs as a script without separately quantized inputs (and for one input of a layer); violated for two inputs of one layer, for resuming a layer with quantized inputs, for the output layer's half range, for FP16 layers, for candidates with different keys (C95_violated_*). Called as a library function the search raises at its first log message (global logger is None)."
 },
 "C96": {
  "status": "partial",
  "note": "Proved for evaluation mode / no dropout / one layer (unidirectional), and for bidirectional LSTMs with any dropout. Violated in training with dropout for unidirectional LSTMs of several layers (dropped-out outputs become recurrent state) and for cells called without a state."
 },
 "C97": {
  "status": "partial",
  "note": "Tensors, options, round trip and function proved; the training flag is always reset to training (C97_violated_training_mode), unsorted packed batches raise, an LSTM held under two names of one module is converted only once."
 },
 "C98": {
  "status": "partial",
  "note": "Proved for all trees without sharing (exact result) and, for all sharing, that a replacement function runs at most once per object and all replaced references agree. Violated: the second name of an object within one container keeps the unquantized module (the docstring's own toy model), and a shared module of an unsupported class raises KeyError."
 },
 "C99": {
  "status": "proved",
  "note": "C99_network (answers of the graph queries as hypotheses) and C99_traced (graph = recorded operations, data nodes and edges; queries = predecessors_f). The conditions are needed: C99_violated_first_layer, C99_violated_bn_before_previous_conv, C43_violated_channels_sibling."
 },
 "C100": {
  "status": "partial",
  "note": "C100_wires, C100_exact, C100_total, C100_relu, C100_relu6 hold for traced models whose modules are called once; the code violates the general claim for shared ReLUs, layers whose output is also returned, ReLU6 without statistics or with analytical clipping (C100_violated_*)."
 },
 "C101": {
  "status": "partial",
  "note": "C101_clipped, C101_frame, C101_missing, C101_relu, C101_saturating, C101_batchnorm are general. Violated by the code: split returned as output, empty ranges with N_STD or AVG clipping (C101_violated_*)."
 },
 "C102": {
  "status": "partial",
  "note": "C102_schedule is general for the layer; as shipped the keep probability stays 1.0 so that no filter is ever dropped (C102_violated_never_drops)."
 },
 "C103": {
  "status": "partial",
  "note": "Geometry holds without bias, groups and dilation (C103_geometry_partial); weights, groups and dilation are lost and layers with a bias fail (C103_violated_*)."
 },
 "C104": {
  "status": "partial",
  "note": "C104_epoch, C104_training, C104_after_pruner; a remover registered before the pruning policy sees unpruned weights (C104_violated_order)."
 },
 "C105": {
  "status": "partial",
  "note": "Proved for traces whose generated names are unambiguous; a module named like a generated name overwrites an operation (C105_violated_names)."
 },
 "C106": {
  "status": "partial",
  "note": "Proved if the padded value is used by its pool only and both belong to the same module; otherwise connectivity is lost (C106_violated_*)."
 },
 "C107": {
  "status": "partial",
  "note": "Proved if every dropout is a module of its own, used once; reused and functional dropouts misname operations (C107_violated_*)."
 },
 "C108": {
  "status": "partial",
  "note": "General for convolutions; linear layers only for a single sample and 2-D inputs, missing shapes raise in the footprint (C108_violated_*)."
 },
 "C109": {
  "status": "partial",
  "note": "C109_rows for models without a module in two containers and linear layers on one row; otherwise violated (C109_violated_*)."
 },
 "C110": {
  "status": "partial",
  "note": "C110_function is general; removal and names fail for nested DataParallel and for one registered twice (C110_violated_*)."
 },
 "C111": {
  "status": "partial",
  "note": "C111_sets for all names of existing modules; other names silently set a wrong attribute (C111_violated_missing)."
 },
 "C112": {
  "status": "partial",
  "note": "Lists and tuples (C112_nested_partial); named tuples and dictionaries are not converted (C112_violated_*)."
 },
 "C113": {
  "status": "partial",
  "note": "C113_exact, C113_error for the factors; the module drops the bias and adds random ones (C113_violated_bias), and keeps nothing for small ratios (C113_violated_empty)."
 },
 "C114": {
  "status": "partial",
  "note": "C114_summary, C114_bound; KeyError for covered buffers (C114_violated_buffers)."
 },
 "C115": {
  "status": "partial",
  "note": "Exact characterisation of when the clean-up is harmless (C115_*_exact), general for calls with the recorded pattern and for straight-line models; violated for modules called twice, for several model inputs, for wrappers not called, and for shared containers (C115_violated_*)."
 },
 "C116": {
  "status": "partial",
  "note": "Holds for tensors produced by quantized layers and for readers with equal parameters; for fresh tensors the first reader decides (C116_violated_*)."
 },
 "C117": {
  "status": "partial",
  "note": "C117_preactivation_partial and C117_same_output_partial for unshifted weights after a forward pass; violated after a forward pass with asymmetric weights, without bias and for integer biases (C117_violated_*)."
 },
 "C118": {
  "status": "partial",
  "note": "Values for all histories, metadata without device moves; metadata stale after a move, conversion fails with saved float weights (C118_violated_*)."
 },
 "C119": {
  "status": "partial",
  "note": "Exact for the unsigned mode; drifts in the symmetric modes and is never the identity in the signed one (C119_violated_*)."
 },
 "C120": {
  "status": "proved",
  "note": "C120_exact / C120_half_step assume no scale approximation and no accumulator saturation (hypotheses in terms of the real result); C120_history has no such hypothesis."
 },
 "C121": {
  "status": "partial",
  "note": "Holds with from_output; with an explicit dictionary the mode is ignored and the upper half of the range is cut off (C121_violated_*)."
 },
 "C122": {
  "status": "partial",
  "note": "Holds unless the wrapped module returns its input or a view of it without the wrapper quantizing the input or fusing a ReLU; then the caller's tensor is overwritten (C122_violated_*)."
 },
 "C123": {
  "status": "partial",
  "note": "Holds for networks whose dependency lists have no repetition; a diamond through a depthwise convolution lists a layer twice and the step fails (C123_violated_duplicate)."
 },
 "C124": {
  "status": "partial",
  "note": "Holds up to the rounding of the pruner (explicit slack), under a shape condition on the layer order; both are needed (C124_violated_floor, C124_violated_order)."
 },
 "C125": {
  "status": "partial",
  "note": "Best-so-far holds for every search; creation_masks and thinning only if something is removed from the last layer (C125_violated_stale_masks)."
 },
 "C126": {
  "status": "partial",
  "note": "Holds if each pruned layer has one dependent layer; false with several, and a layer without dependents makes loading fail (C126_violated_*)."
 },
 "C127": {
  "status": "partial",
  "note": "Compute part is false for the harmonic mean, always (C127_violated_harmonic); the rest is proved. math.log is a parameter assumed monotone."
 },
 "C128": {
  "status": "partial",
  "note": "Holds for continuous agents and PPO outputs in [-3,3]; PPO outputs are not clipped and discrete agents ignore the range (C128_violated_*)."
 },
 "C129": {
  "status": "partial",
  "note": "Proved for layers without bias, given an exact least-squares solver, if the output is square and undilated (1x1: no stride and padding). False otherwise (C129_violated_*)."
 },
 "C130": {
  "status": "partial",
  "note": "Counts, compensation and unbiasedness proved for all draws that keep a filter; all dropped gives NaN and repeated application scales weights geometrically (C130_violated_*)."
 },
 "C131": {
  "status": "partial",
  "note": "Bisimulation proof for plain schedules (default pruning options, or regularization only) and stateless pruners, all stopping points; false for forward-only masks, skip_first_minibatch, the sensitivity pruner and the --resume flag (C131_violated_*)."
 },
 "C132": {
  "status": "partial",
  "note": "Proved for sessions that start fresh; false for resumed sessions and num-best-scores 0 (C132_violated_*)."
 },
 "C133": {
  "status": "partial",
  "note": "Simulation proof over all traces in which layers and batch-norms are called once and are wired in trace order; false otherwise (C133_violated_*)."
 },
 "C134": {
  "status": "partial",
  "note": "Proved if names made for list members are not taken; false otherwise (C134_violated_*)."
 },
 "C135": {
  "status": "partial",
  "note": "Proved for all configurations without float conversion; false for embeddings without weight bits, for unquantized modules with overrides and for fpq_module (C135_violated_*)."
 },
 "C136": {
  "status": "partial",
  "note": "Proved up to dots in names, which are wildcards; false otherwise and for 0 bits with embeddings or unclipped layers (C136_violated_*)."
 },
 "C137": {
  "status": "partial",
  "note": "Proved for feature maps of one size; false for per-channel statistics of linear layers, feature maps of different sizes, several phases and wrapped classes (C137_violated_*)."
 },
 "C138": {
  "status": "partial",
  "note": "Proved for post-training quantization except fp16, save_fp_weights and also_clip_weights, which are lost; false for all quantization-aware training (C138_violated_*). The in-place changed statistics are a fixed point (C138_stats)."
 },
 "C139": {
  "status": "partial",
  "note": "Proved when no prepared model's class is the class or a base class of another's; otherwise false (endless recursion, AttributeError), as for models without exactly one input (C139_violated_*)."
 },
 "C140": {
  "status": "partial",
  "note": "Proved for WRPN and DoReFa, and for PACT if no parameter of the user has clip_val in its name; otherwise ValueError (C140_violated_name)."
 },
 "C141": {
  "status": "partial",
  "note": "Product, concatenation and modules without quantized implementation exact (off rounding ties and accumulator saturation), sum within one output step, ReLU within half a step; matrix products and sums/products of other than two operands raise TypeError once converted (C141_violated_*). Not for the reduced range of fbgemm with asymmetric modes."
 },
 "C142": {
  "status": "partial",
  "note": "Rows, element counts, percentages and the total proved for all state dictionaries; the numbers of non-zeros (double precision, truncated) are the true ones or one less, and one less occurs (C142_violated_nnz). Shared parameters and floating-point copies of quantized parameters are counted twice (C142_violated_shared, _backup); no counted tensor: ZeroDivisionError. Columns Shape, Std, Mean, Abs-Mean not modelled."
 },
 "C143": {
  "status": "partial",
  "note": "All trees with at most one DataParallel on a path and no other submodule called 'module' (C143_roundtrip_partial, C143_injective_partial, C143_plain, C143_unknown); with a submodule of that name two layers share a normalized name and the translation back finds the wrong one (C143_violated_module). Modules registered twice are not modelled."
 },
 "C144": {
  "status": "partial",
  "note": "Proved for all tensors, modes and clipping modes except analytical clipping in asymmetric modes, where the tensor's minimum is used in place of the averaged one (C144_violated_aciq). Averaged extremes of a vector give the one-point range at its mean (C144_violated_vector); per-channel parameters with clipping raise (C144_violated_per_channel). The standard deviation is a parameter."
 },
 "C145": {
  "status": "partial",
  "note": "Clipping modes, names, refusals, independence and order proved; with a loss the layer is left at the last evaluated point instead of the minimizer's result (C145_violated_loss), and clipping modes are written into the stored arguments (C145_violated_again). Wrappers, loss and minimizer are arbitrary."
 },
 "C146": {
  "status": "partial",
  "note": "Listing, frame, refusals, updates and clipping ranges proved; setting a weight scale or zero-point through the quantizer does not re-quantize the weights (C146_violated_weight_scale); one wrapper without statistics makes listing the clipping values of the model fail (C146_violated_listing)."
 },
 "C147": {
  "status": "partial",
  "note": "Proved for the whole model and for selections with every eligible module; every other selection raises RuntimeError before the second pass (C147_violated_selection); modules that did not run are reported with min = float max (C147_violated_not_run). One record per module; modules visited once (see C71)."
 },
 "C148": {
  "status": "partial",
  "note": "Proved for filters on every acyclic graph and for channels of layers that no linear layer precedes. Violated: channels behind a linear layer (C148_violated_linear); a convolution with one input channel is taken for depthwise (C148_violated_single_channel); layers added to the pruned one's output are missing (C148_violated_residual); layers reached twice are listed twice (C148_violated_twice); layers without dependencies make loading fail (C148_violated_ends)."
 },
 "C149": {
  "status": "partial",
  "note": "The ticket's weights, masks, reload and training are proved, and that thinned networks are refused. Violated: parameters no pruner touched are masked wherever they happen to be zero (C149_violated_unpruned); the ticket resumes at epoch 1 with the optimizer state of the pruning run (C149_violated_state)."
 },
 "C150": {
  "status": "partial",
  "note": "Single evaluations and sessions with given settings are proved. Violated: the collected statistics are stored in the caller's arguments, so every later model of the session is quantized with the first model's statistics (C150_violated_stale)."
 },
 "C151": {
  "status": "proved",
  "note": ""
 },
 "C152": {
  "status": "partial",
  "note": "Proved for tuples and lists. Violated: named tuples raise or lose their content (C152_violated_named); tensors in dictionaries are not converted (C152_violated_dict)."
 },
 "C153": {
  "status": "proved",
  "note": ""
 },
 "C154": {
  "status": "partial",
  "note": "The gates are proved for networks in which only block convolutions are all zero. Violated: all-zero normalization offsets (the initial state) close gates of non-zero convolutions or make the call fail (C154_violated_bias); zero shortcut convolutions close a wrong gate or raise (C154_violated_downsample); a block whose zero convolutions are removed computes relu(2x) instead of relu(x) (C154_violated_function)."
 },
 "C155": {
  "status": "partial",
  "note": "Proved: adjust_dropout sets exactly the Dropout, Dropout2d, Dropout3d and AlphaDropout layers; freeze_all sets the flag of exactly the model's parameters; a parameter frozen before its first gradient (or under SGD without momentum and weight decay) never changes. Violated: other dropout classes are not adjusted (C155_violated_other_dropouts); a parameter that was trained before it is frozen is still changed by weight decay and momentum, because its gradient is zero and not None (C155_violated_decay, C155_violated_momentum); freeze_training raises NameError for every model with a parameter (C155_violated_freeze_training)."
 },
 "C156": {
  "status": "partial",
  "note": "Proved: each module gets a name that leads to it and is found under it; whatever is found is the module at that name; a name leading nowhere gives None. Violated: a module reachable under two names is not found under the second (C156_violated_second_name)."
 },
 "C157": {
  "status": "partial",
  "note": "Proved: attributes, source, refusal, precedence of Distiller's ResNets, registered models for lower-case data set names, input shapes without whole-model wrapping. Violated: a pretrained version of a registered model is returned without pretrained weights (C157_violated_pretrained_user); a model registered for an upper-case data set name can never be created (C157_violated_register_case); a declared input shape is lost by data-parallel wrapping (C157_violated_shape); Cadene's Inception models without pretrained weights get a wrong input shape (C157_violated_inception)."
 },
 "C158": {
  "status": "partial",
  "note": "Proved: the patched model computes the original function. Violated: the forward functions are replaced in torchvision's classes, so other instances raise AttributeError (C158_violated_other_instances)."
 },
 "C159": {
  "status": "partial",
  "note": "Proved: scalars, their steps, lists, activation statistics, sparsity; histograms of the first logger. Violated: histograms are recorded at the step within the epoch, so that those of different epochs collide (C159_violated_histogram_steps); the first of several loggers uses up the parameter generator (C159_violated_second_logger)."
 },
 "C160": {
  "status": "partial",
  "note": "Proved: rows in exact arithmetic; in double precision the count is right or one too small; the buffer files after any history of calls. Violated: the count can be one too small (C160_violated_sparse_volume); a None buffer makes the call fail (C160_violated_none)."
 },
 "C161": {
  "status": "partial",
  "note": "Proved: which modules are listed, the contents of every entry, the scalar parameters, when it fails. Violated: a module left in floating point is reported with 8 bits (C161_violated_float), a half-precision layer is missing (C161_violated_fp16), per-channel scales are missing (C161_violated_per_channel)."
 },
 "C162": {
  "status": "partial",
  "note": "Proved: the branch, the statistics afterwards, exactly when it succeeds. Violated: fails without statistics (C162_violated_dynamic) and inside DataParallel (C162_violated_parallel)."
 },
 "C163": {
  "status": "partial",
  "note": "Proved: the prologue, the arguments, the inputs. Violated: the report written afterwards gives the clipping that the search dropped (C163_violated_report)."
 },
 "C164": {
  "status": "partial",
  "note": "Proved: the first two clauses, which seed is chosen, when it is refused, the state of the generators. Violated: in deterministic sessions loading the data seeds everything with zero again (C164_violated_seed) and all workers have the same seed in every pass (C164_violated_workers)."
 },
 "C165": {
  "status": "partial",
  "note": "Proved for all sequences without exceptions, except logging. Violated: nothing is ever logged (C165_violated_not_logged); an interrupted phase stays attached and can never run again (C165_violated_interrupted)."
 },
 "C166": {
  "status": "partial",
  "note": "Proved: the loaders returned, passes, when the test set is used, no leak if no effective size leaves an empty set. Violated: C166_violated_validation, C166_violated_leak, C166_violated_sequential (and C50 with fixed subsets)."
 },
 "C167": {
  "status": "partial",
  "note": "Proved: exactly which lists are accepted and that others are refused with a ValueError. Violated: negative numbers are accepted (C167_violated_negative)."
 },
 "C168": {
  "status": "proved",
  "note": ""
 },
 "C169": {
  "status": "proved",
  "note": "Capacity zero: the first append raises ZeroDivisionError (C169_zero)."
 },
 "C170": {
  "status": "partial",
  "note": "Proved for windows of one observation (the ones used): genuine transitions, no error; the moving-average baseline, the target values and the soft update. Violated: the first step of an episode is never sampled (C170_violated_first); windows of 3 and 2 (C170_violated_window, C170_violated_padding)."
 },
 "C171": {
  "status": "partial",
  "note": "Proved for all schedules: conservation (no checkpoint twice or lost on the way), at most p at a time, after join everything was executed and sent, no deadlock without crashes, termination. Violated: results in flight are dropped (C171_violated_lost); a crash blocks the main program forever (C171_violated_crash)."
 },
 "C172": {
  "status": "partial",
  "note": "Proved for at least one epoch, in exact arithmetic. Violated for zero epochs: the initial -inf is reported (C172_violated_no_epochs). Scores that are not numbers are not modelled."
 },
 "C173": {
  "status": "partial",
  "note": "Proved for every independent decoder: sorting and restoring, the shrinking batch, lengths and words. Violated: a translation that reaches the maximum length loses its last word, which is no end token (C173_violated_truncated)."
 },
 "C174": {
  "status": "partial",
  "note": "Proved for data sets of at least one global batch. Violated for smaller ones: with bucketing the iteration raises RuntimeError (C174_violated_small)."
 },
 "C175": {
  "status": "partial",
  "note": "Proved whenever the pass ends normally, which it does if every occurring group has at least a batch of samples. Violated for smaller groups (C175_violated_small_groups, C175_violated_repeat)."
 },
 "C176": {
  "status": "partial",
  "note": "Proved: the corpus, the columns, the pairs, the saved models; the loss up to the factor (n-1)/n. Violated: the loss is too small by that factor (C176_violated_loss); if the chunk length divides the number of rows minus one a chunk is empty and the run fails (C176_violated_empty_chunk); the first training report is the sum of L+1 losses divided by L (C176_violated_first_report)."
 },
 "C177": {
  "status": "partial",
  "note": "Proved for test items outside of the negatives, and repetition always. Violated: the conversion may put the test item among its own negatives (C178_violated_test_item), and then ties depend on the order of the negatives (C177_violated_order)."
 },
 "C178": {
  "status": "partial",
  "note": "Proved but for the test item itself. Violated: the pool of the negatives contains the test item (C178_violated_test_item); the draw never ends for a user who rated every item (C178_violated_all_rated)."
 },
 "C179": {
  "status": "partial",
  "note": "Proved for runs that were not stopped while writing the matrix (or the list, the matrix existing: C179_violated_pickle) and for training files that can be parsed. Violated: a run stopped while writing the matrix makes all later ones fail (C179_violated_npz); exceptions are suppressed by TimingContext, so a data set without data is returned (C179_violated_silent)."
 },
 "C180": {
  "status": "partial",
  "note": "Proved per sentence without the coverage penalty; a batch of any size is translated sentence by sentence (C180_batch); the normalized sum is compared only if all beams ended before the last pass. Violated: the accumulated attention does not follow the hypotheses (C180_violated_attention); hypotheses that end with the last pass are compared without normalization (C180_violated_normalization)."
 },
 "C181": {
  "status": "partial",
  "note": "Proved for filters, channels and kernels. Violated: rows and columns ignore the group length except in the divisor (C181_violated_groups), which is also the wrong size (C58); groups of kernels may straddle filters (C181_violated_kernels)."
 },
 "C182": {
  "status": "partial",
  "note": "Proved: class sizes for labels below 1000, independence of batches. Violated: the number of classes is always 1000 and the average is over 1000 (C182_violated_classes); label 1000 is counted as 999 and larger ones are lost (C182_violated_labels)."
 },
 "C183": {
  "status": "partial",
  "note": "Proved: segmentation for all vocabularies and histories; texts of numbers that are the last place of their token, round trip of lines of listed words whose stems have no '@'. Violated: a token listed twice leaves a number without a text, on which detokenize raises KeyError (C183_violated_double); a token with the mark inside loses it (C183_violated_mark)."
 },
 "C184": {
  "status": "proved",
  "note": "Lengths count BOS and EOS; a limit of 0 is none. torch.sort only as some descending argsort."
 },
 "C185": {
  "status": "partial",
  "note": "Proved for arguments that are not empty and without white space. Violated: the arguments are joined without quotes, so that one with a blank is split and an empty one is lost (C185_violated_quotes)."
 }
}