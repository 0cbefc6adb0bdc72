{
 "claims": [
  {
   "property": "C01",
   "status": "proved",
   "theorems": [
    "Verif.C01_active_policies",
    "Verif.C01_callbacks_invoke_registered",
    "Verif.C01_unscheduled_noop",
    "Verif.C01_range_membership"
   ],
   "note": ""
  },
  {
   "property": "C02",
   "status": "proved",
   "theorems": [
    "Verif.C02_addPolicy_accepts_iff",
    "Verif.C02_addPolicy_rejects_unchanged"
   ],
   "note": ""
  },
  {
   "property": "C03",
   "status": "proved",
   "theorems": [
    "Verif.C03_pruned_weights_zero",
    "Verif.C03_renamed_pruned_weights_zero",
    "Verif.C03_forward_sees_masked",
    "Verif.C03_forward_violated_by_fold_bn",
    "Verif.C03_renamed_by_quantizer",
    "Verif.C03_unknown_untouched"
   ],
   "note": "After on_minibatch_end: full. The theorem C03_forward_violated_by_fold_bn records that the (stronger) statement about the forward pass fails with fold_batchnorm."
  },
  {
   "property": "C04",
   "status": "partial",
   "theorems": [
    "Verif.C04_one_pruning_policy_partial",
    "Verif.C04_violated_always",
    "Verif.C04_history_partial",
    "Verif.C04_violated_threshold",
    "Verif.C04_optimizer_sees_unmasked_partial",
    "Verif.C04_violated_two_policies",
    "Verif.C04_violated_fold_bn"
   ],
   "note": "Proved for exactly one pruning policy among any number of other policies, for one minibatch and over every training history (no BN folding, no thresholding regularizer). The code violates it for every minibatch with two pruning policies (C04_violated_always, universal), with a thresholding regularizer and with BN folding (witnesses)."
  },
  {
   "property": "C05",
   "status": "partial",
   "theorems": [
    "Verif.C05_history_partial",
    "Verif.C05_keep_mask_permanent_partial",
    "Verif.C05_last_epoch_seen_iff",
    "Verif.C05_last_epoch_seen_list",
    "Verif.C05_violated_frequency",
    "Verif.C05_epoch_end_effect_partial",
    "Verif.C05_forward_only_partial"
   ],
   "note": "Proved over every history when the schedule contains ending_epoch-1, with other (non-pruning, non-thresholding) policies active before and after; the code violates it when frequency does not divide ending-1-starting (witness)."
  },
  {
   "property": "C06",
   "status": "proved",
   "theorems": [
    "Verif.C06_regularization_mask_transient"
   ],
   "note": ""
  },
  {
   "property": "C07",
   "status": "partial",
   "theorems": [
    "Verif.C07_masks_round_trip",
    "Verif.C07_self_restore",
    "Verif.C07_violated_modes_not_saved"
   ],
   "note": "Masks round-trip fully; masker modes are not saved (witness), so 'masking behaves identically' fails for mask_on_forward_only."
  },
  {
   "property": "C08",
   "status": "partial",
   "theorems": [
    "Verif.C08_load_fails_iff",
    "Verif.C08_violated_partial_load",
    "Verif.C08_suffix_unchanged_partial"
   ],
   "note": "Failure condition proved exactly; clean failure is violated (witness), what is preserved is proved partially."
  },
  {
   "property": "C09",
   "status": "proved",
   "theorems": [
    "Verif.C09_normalize_inverts_wrapping",
    "Verif.C09_normalize_plain",
    "Verif.C09_dataparallel_masks_load"
   ],
   "note": ""
  },
  {
   "property": "C10",
   "status": "proved",
   "theorems": [
    "Verif.C10_loss_accounted",
    "Verif.C10_threading",
    "Verif.C10_regularization_additive",
    "Verif.C10_unscheduled",
    "Verif.C10_bad_return"
   ],
   "note": ""
  },
  {
   "property": "C11",
   "status": "proved",
   "theorems": [
    "Verif.C11_minibatch_pruning_calls",
    "Verif.C11_epoch_pruning_calls",
    "Verif.C11_skip_first_late_start"
   ],
   "note": ""
  },
  {
   "property": "C12",
   "status": "partial",
   "theorems": [
    "Verif.C12_ctor",
    "Verif.C12_gradient_masked",
    "Verif.C12_hook_removed_partial",
    "Verif.C12_violated_two_policies",
    "Verif.C12_history_partial",
    "Verif.C12_gradients_partial"
   ],
   "note": "Hook removal proved for a single mask_gradients policy, violated for two (witness)."
  },
  {
   "property": "C13",
   "status": "proved",
   "theorems": [
    "Verif.C13_mask_exact",
    "Verif.C13_monotone",
    "Verif.C13_idempotent"
   ],
   "note": ""
  },
  {
   "property": "C14",
   "status": "proved",
   "theorems": [
    "Verif.C14_accepts_iff",
    "Verif.C14_level_mask"
   ],
   "note": ""
  },
  {
   "property": "C15",
   "status": "proved",
   "theorems": [
    "Verif.C15_magnitude",
    "Verif.C15_level",
    "Verif.C15_sensitivity",
    "Verif.C15_splicing"
   ],
   "note": ""
  },
  {
   "property": "C16",
   "status": "proved",
   "theorems": [
    "Verif.C16_single_step_rejected",
    "Verif.C16_ramp"
   ],
   "note": ""
  },
  {
   "property": "C17",
   "status": "proved",
   "theorems": [
    "Verif.C17_threshold_monotone",
    "Verif.C17_pruned_stays_pruned"
   ],
   "note": ""
  },
  {
   "property": "C18",
   "status": "proved",
   "theorems": [
    "Verif.C18_surgery",
    "Verif.C18_binary"
   ],
   "note": ""
  },
  {
   "property": "C19",
   "status": "proved",
   "theorems": [
    "Verif.C19_threshold_fixed"
   ],
   "note": ""
  },
  {
   "property": "C20",
   "status": "partial",
   "theorems": [
    "Verif.C20_count",
    "Verif.C20_floor_request",
    "Verif.C20_violated_nondividing"
   ],
   "note": "Proved when the group length divides the structure count (any rounding function) and for floor rounding in general; with rounding up and a group length that does not divide the count, the result exceeds the number of structures (C20_violated_nondividing)."
  },
  {
   "property": "C21",
   "status": "proved",
   "theorems": [
    "Verif.C21_single",
    "Verif.C21_filters",
    "Verif.C21_channels",
    "Verif.C21_kernels",
    "Verif.C21_rows_cols",
    "Verif.C21_wrong_size"
   ],
   "note": ""
  },
  {
   "property": "C22",
   "status": "proved",
   "theorems": [
    "Verif.C22_columns",
    "Verif.C22_level",
    "Verif.C22_mask",
    "Verif.C22_noise_filters",
    "Verif.C22_noise_channels",
    "Verif.C22_noise_columns",
    "Verif.C22_filters",
    "Verif.C22_channels"
   ],
   "note": ""
  },
  {
   "property": "C23",
   "status": "partial",
   "theorems": [
    "Verif.C23_leader_decision",
    "Verif.C23_violated_nothing_to_prune"
   ],
   "note": "Proved whenever the leader has something to prune, for every enumeration order; with nothing to prune the followers raise AssertionError (C23_violated_nothing_to_prune)."
  },
  {
   "property": "C24",
   "status": "proved",
   "theorems": [
    "Verif.C24_fractions",
    "Verif.C24_masking"
   ],
   "note": ""
  },
  {
   "property": "C25",
   "status": "proved",
   "theorems": [
    "Verif.C25_filters",
    "Verif.C25_channels",
    "Verif.C25_kernels",
    "Verif.C25_rows_cols"
   ],
   "note": ""
  },
  {
   "property": "C26",
   "status": "proved",
   "theorems": [
    "Verif.C26_range"
   ],
   "note": ""
  },
  {
   "property": "C27",
   "status": "proved",
   "theorems": [
    "Verif.C27_integer_in_range"
   ],
   "note": ""
  },
  {
   "property": "C28",
   "status": "proved",
   "theorems": [
    "Verif.C28_error"
   ],
   "note": ""
  },
  {
   "property": "C29",
   "status": "proved",
   "theorems": [
    "Verif.C29_zero"
   ],
   "note": ""
  },
  {
   "property": "C30",
   "status": "proved",
   "theorems": [
    "Verif.C30_idempotent"
   ],
   "note": ""
  },
  {
   "property": "C31",
   "status": "proved",
   "theorems": [
    "Verif.C31_params_total"
   ],
   "note": ""
  },
  {
   "property": "C32",
   "status": "proved",
   "theorems": [
    "Verif.C32_scale_approx"
   ],
   "note": ""
  },
  {
   "property": "C33",
   "status": "partial",
   "theorems": [
    "Verif.C33_clipping_partial",
    "Verif.C33_violated_asymmetric_signed",
    "Verif.C33_saturation_partial",
    "Verif.C33_violated_restricted"
   ],
   "note": "Proved for symmetric (full range) and unsigned-asymmetric modes; violated for signed-asymmetric and restricted-symmetric (witnesses)."
  },
  {
   "property": "C34",
   "status": "proved",
   "theorems": [
    "Verif.C34_integer_inference",
    "Verif.C34_approx"
   ],
   "note": ""
  },
  {
   "property": "C35",
   "status": "partial",
   "theorems": [
    "Verif.C35_history",
    "Verif.C35_violated_requantize_after_forward"
   ],
   "note": "Proved for every interleaving of forward/state_dict; violated when weights are re-quantized after a forward pass with asymmetric weights (witness)."
  },
  {
   "property": "C36",
   "status": "partial",
   "theorems": [
    "Verif.C36_overrides",
    "Verif.C36_entry_defaults",
    "Verif.C36_violated_capture_group",
    "Verif.C36_violated_top_alternative",
    "Verif.C36_violated_module_in_name"
   ],
   "note": "Proved for patterns without capture groups/top-level alternatives and names not containing 'module.'; violated otherwise (witnesses)."
  },
  {
   "property": "C37",
   "status": "proved",
   "theorems": [
    "Verif.C37_prepare",
    "Verif.C37_history"
   ],
   "note": ""
  },
  {
   "property": "C38",
   "status": "proved",
   "theorems": [
    "Verif.C38_average",
    "Verif.C38_history",
    "Verif.C38_scale_positive"
   ],
   "note": ""
  },
  {
   "property": "C39",
   "status": "partial",
   "theorems": [
    "Verif.C39_clipped_linear",
    "Verif.C39_learned_clip",
    "Verif.C39_dorefa",
    "Verif.C39_binary",
    "Verif.C39_violated_wrpn_weights",
    "Verif.C39_wrpn_partial"
   ],
   "note": "Activations and DoReFa/PACT weights proved; WRPN weights exceed the grid and [-1,1] for every bit width (witness)."
  },
  {
   "property": "C40",
   "status": "proved",
   "theorems": [
    "Verif.C40_fold",
    "Verif.C40_policy_fold"
   ],
   "note": ""
  },
  {
   "property": "C41",
   "status": "proved",
   "theorems": [
    "Verif.C41_traced",
    "Verif.C41_violated_bn_after_next_conv",
    "Verif.C41_conv",
    "Verif.C41_linear",
    "Verif.C41_remove_filters",
    "Verif.C41_violated_bias",
    "Verif.C41_network",
    "Verif.C41_network_fc",
    "Verif.C41_violated_last_layer"
   ],
   "note": "C41_network and C41_network_fc: whole networks of any depth, through removeFilters itself (recipe creation, execution). C41_conv/C41_linear/C41_remove_filters are the earlier one-edge statements. The conditions are needed: C41_violated_bias (zero filter with a bias), C41_violated_last_layer (zero filters nobody reads). C41_traced: the same on the traced graph with successors_f as modelled for C51; without regular placement of batch-norms it fails (C41_violated_bn_after_next_conv)."
  },
  {
   "property": "C42",
   "status": "partial",
   "theorems": [
    "Verif.C42_twice_partial",
    "Verif.C42_violated_fully_connected",
    "Verif.C42_violated_two_recipes"
   ],
   "note": "Proved for recipes made of 2-tuple directives; violated for recipes with a fully-connected successor (RuntimeError) and for lists of two recipes (AssertionError)."
  },
  {
   "property": "C43",
   "status": "partial",
   "theorems": [
    "Verif.C43_filters_consistent_partial",
    "Verif.C43_masks_partial",
    "Verif.C43_filters_edges_partial",
    "Verif.C43_violated_fc_mask",
    "Verif.C43_violated_depthwise",
    "Verif.C43_violated_momentum_without_gradient",
    "Verif.C43_violated_channels_linear",
    "Verif.C43_channels_consistent_partial",
    "Verif.C43_channels_edges_partial",
    "Verif.C43_violated_channels_sibling"
   ],
   "note": "Proved for the filters recipe (attributes, weights, 2-tuple masks, successor edges); violated by FC masks, depthwise convolutions, momentum without gradient, remove_channels on Linear (witnesses)."
  },
  {
   "property": "C44",
   "status": "partial",
   "theorems": [
    "Verif.C44_start_epoch",
    "Verif.C44_weights",
    "Verif.C44_incomplete_refused",
    "Verif.C44_round_trip",
    "Verif.C44_dataparallel",
    "Verif.C44_violated_dataparallel_no_schedule",
    "Verif.C44_violated_lean_reads_schedule",
    "Verif.C44_architecture",
    "Verif.C44_thinned",
    "Verif.C44_violated_late_check"
   ],
   "note": "Proved: resumed epoch, weights, round trip of weights/optimizer/masks, refusal of incomplete checkpoints, DataParallel checkpoints with a compression schedule. Violated (witnesses): DataParallel without schedule refused, lean load reads the schedule, architecture check comes after the weights were overwritten. Quantizer metadata not modelled."
  },
  {
   "property": "C45",
   "status": "proved",
   "theorems": [
    "Verif.C45_min_max_mean",
    "Verif.C45_single_precision",
    "Verif.C45_second_pass",
    "Verif.C45_batching_irrelevant"
   ],
   "note": ""
  },
  {
   "property": "C46",
   "status": "partial",
   "theorems": [
    "Verif.C46_violated_two_batches",
    "Verif.C46_single_batch_partial",
    "Verif.C46_within_range_partial",
    "Verif.C46_violated_always"
   ],
   "note": "Proved for a single batch, and that the result stays within the extremes. For two batches exact characterization: right only if both batches have the same mean (C46_violated_always)."
  },
  {
   "property": "C47",
   "status": "partial",
   "theorems": [
    "Verif.C47_meter",
    "Verif.C47_rejects_nonpositive",
    "Verif.C47_violated_sum_after_rejection"
   ],
   "note": "Proved for every sequence of accepted additions and the rejection of n<=0; violated after a rejected addition, whose value still enters the running sum (witness)."
  },
  {
   "property": "C48",
   "status": "proved",
   "theorems": [
    "Verif.C48_rate",
    "Verif.C48_construction",
    "Verif.C48_polynomial"
   ],
   "note": ""
  },
  {
   "property": "C49",
   "status": "proved",
   "theorems": [
    "Verif.C49_best_scores",
    "Verif.C49_first_is_best",
    "Verif.C49_default"
   ],
   "note": ""
  },
  {
   "property": "C50",
   "status": "partial",
   "theorems": [
    "Verif.C50_partition",
    "Verif.C50_switching",
    "Verif.C50_violated_fixed_subset",
    "Verif.C50_fixed_subset_overlap",
    "Verif.C50_effective_size",
    "Verif.C50_violated_empty_subset"
   ],
   "note": "Partition and switching sampler proved; violated by fixed_subset=True (validation positions used as dataset indices overlap training) and by effective sizes that round to an empty subset (witnesses)."
  },
  {
   "property": "C51",
   "status": "proved",
   "theorems": [
    "Verif.C51_successors",
    "Verif.C51_predecessors",
    "Verif.C51_duplicates_possible",
    "Verif.C51_unknown"
   ],
   "note": "Proved for every finite graph, cyclic or not; multiplicities are not claimed (C51_duplicates_possible)."
  },
  {
   "property": "C52",
   "status": "partial",
   "theorems": [
    "Verif.C52_filter",
    "Verif.C52_rejects_unknown",
    "Verif.C52_rejects_unknown_class",
    "Verif.C52_delivers_partial",
    "Verif.C52_missing_required",
    "Verif.C52_violated_override",
    "Verif.C52_violated_policy_args"
   ],
   "note": "Partition, rejection and delivery proved; violated by arguments the library supplies itself (user value silently replaced) and by unknown arguments of pruning policies (silently dropped)."
  },
  {
   "property": "C53",
   "status": "partial",
   "theorems": [
    "Verif.C53_loss",
    "Verif.C53_outside",
    "Verif.C53_forward",
    "Verif.C53_missing_forward",
    "Verif.C53_teacher_weight",
    "Verif.C53_violated_stale"
   ],
   "note": "Proved for every history over the reals; the promised failure without a preceding forward is violated once an earlier scheduled epoch cached outputs (C53_violated_stale)."
  },
  {
   "property": "C54",
   "status": "proved",
   "theorems": [
    "Verif.C54_first_best"
   ],
   "note": "Every result list of rationals; NaN results are not modelled."
  },
  {
   "property": "C55",
   "status": "partial",
   "theorems": [
    "Verif.C55_violated_stale_regularization_flag",
    "Verif.C55_mask_survives_partial"
   ],
   "note": "Proved for parameters whose regularization flag is not set; a parameter that went through regularization loses later pruning masks (C55_violated_stale_regularization_flag)."
  },
  {
   "property": "C56",
   "status": "partial",
   "theorems": [
    "Verif.C56_init_from_masks",
    "Verif.C56_violated_dataparallel"
   ],
   "note": "Proved without normalize_dataparallel_keys; with it every mask is dropped (C56_violated_dataparallel)."
  },
  {
   "property": "C57",
   "status": "partial",
   "theorems": [
    "Verif.C57_violated_group_size"
   ],
   "note": "Violated for every input: group sizes above 1 raise or prune nothing (C57_violated_group_size is a universal statement)."
  },
  {
   "property": "C58",
   "status": "partial",
   "theorems": [
    "Verif.C58_mean_abs_partial",
    "Verif.C58_violated_rows",
    "Verif.C58_violated_cols"
   ],
   "note": "Proved for filters, channels and kernels; rows and columns divide by the wrong size (witnesses)."
  },
  {
   "property": "C59",
   "status": "partial",
   "theorems": [
    "Verif.C59_gradient_removes_lowest",
    "Verif.C59_activation_removes_highest_partial",
    "Verif.C59_violated_mean_activation"
   ],
   "note": "Proved for gradient ranking; mean-activation ranking removes the most active filters (proved for all inputs, so the claim is false)."
  },
  {
   "property": "C60",
   "status": "partial",
   "theorems": [
    "Verif.C60_sparsity_blocks_partial",
    "Verif.C60_violated_sparsity_blocks",
    "Verif.C60_blocks_partial",
    "Verif.C60_violated_repetitions_and_depth",
    "Verif.C60_violated_depth_not_dividing_channels"
   ],
   "note": "Proved for depth 1 or one repetition with depth dividing the channels, pruning and sparsity_blocks alike; violated for both above 1 and for non-dividing depths (witnesses)."
  },
  {
   "property": "C61",
   "status": "proved",
   "theorems": [
    "Verif.C61_model_stats"
   ],
   "note": ""
  },
  {
   "property": "C62",
   "status": "proved",
   "theorems": [
    "Verif.C62_tensor",
    "Verif.C62_per_channel",
    "Verif.C62_saturation"
   ],
   "note": ""
  },
  {
   "property": "C63",
   "status": "partial",
   "theorems": [
    "Verif.C63_requantize_partial",
    "Verif.C63_fresh_layer",
    "Verif.C63_violated_quantizer_setter",
    "Verif.C63_history_partial"
   ],
   "note": "Module-level setter proved (stored weights; fresh layer fully); quantizer-level setter violates it (witness)."
  },
  {
   "property": "C64",
   "status": "partial",
   "theorems": [
    "Verif.C64_violated_stale_accumulator_scale",
    "Verif.C64_force_readjust",
    "Verif.C64_quantizer_setter"
   ],
   "note": "Proved when re-adjustment is forced (quantizer-level setters force it); violated otherwise (witness)."
  },
  {
   "property": "C65",
   "status": "partial",
   "theorems": [
    "Verif.C65_violated_qat_mode_ignored"
   ],
   "note": "Violated for every configured mode."
  },
  {
   "property": "C66",
   "status": "partial",
   "theorems": [
    "Verif.C66_qat_levels_partial",
    "Verif.C66_violated_tie"
   ],
   "note": "Proved except exact ties; violated at ties (witness)."
  },
  {
   "property": "C67",
   "status": "partial",
   "theorems": [
    "Verif.C67_training",
    "Verif.C67_frozen",
    "Verif.C67_violated_freezing_pass"
   ],
   "note": "Training passes before the freezing pass and passes after it are proved; the freezing pass itself violates the property (witness)."
  },
  {
   "property": "C68",
   "status": "partial",
   "theorems": [
    "Verif.C68_fused_partial",
    "Verif.C68_violated_split",
    "Verif.C68_violated_not_connected"
   ],
   "note": "Types, adjacency in graph order, no double fusion proved; split-free first module and connectedness are violated (witnesses)."
  },
  {
   "property": "C69",
   "status": "proved",
   "theorems": [
    "Verif.C69_replay"
   ],
   "note": ""
  },
  {
   "property": "C70",
   "status": "proved",
   "theorems": [
    "Verif.C70_bins",
    "Verif.C70_total",
    "Verif.C70_centroid"
   ],
   "note": ""
  },
  {
   "property": "C71",
   "status": "partial",
   "theorems": [
    "Verif.C71_context_partial",
    "Verif.C71_violated_exception",
    "Verif.C71_violated_shared_module"
   ],
   "note": "Proved for exception-free bodies over distinct modules; violated when the body raises (hooks leak) and for modules listed twice (witnesses)."
  },
  {
   "property": "C72",
   "status": "proved",
   "theorems": [
    "Verif.C72_records",
    "Verif.C72_min_max"
   ],
   "note": ""
  },
  {
   "property": "C73",
   "status": "partial",
   "theorems": [
    "Verif.C73_resume_partial",
    "Verif.C73_violated_inactive"
   ],
   "note": "Proved when the LR policy was active in the saved epoch; violated when it was inactive (witness)."
  },
  {
   "property": "C74",
   "status": "partial",
   "theorems": [
    "Verif.C74_adjacent",
    "Verif.C74_map",
    "Verif.C74_violated_cache",
    "Verif.C74_dedicated",
    "Verif.C74_repeated"
   ],
   "note": "Proved on a fresh graph; violated after a call with dedicated_modules_only=True, whose result is cached for all calls (witness)."
  },
  {
   "property": "C75",
   "status": "partial",
   "theorems": [
    "Verif.C75_topological",
    "Verif.C75_adjacency_consistent",
    "Verif.C75_graph",
    "Verif.C75_violated_recurrent",
    "Verif.C75_recurrent_flag",
    "Verif.C75_violated_every_cycle"
   ],
   "note": "Proved for every acyclic graph; violated for recurrent graphs with recurrent=True, where the descendant test never ends (witness for every recursion limit)."
  },
  {
   "property": "C76",
   "status": "proved",
   "theorems": [
    "Verif.C76_schedule",
    "Verif.C76_running",
    "Verif.C76_sections"
   ],
   "note": ""
  },
  {
   "property": "C77",
   "status": "partial",
   "theorems": [
    "Verif.C77_violated_second_use"
   ],
   "note": "Violated: 'class' is popped from the caller's dictionary (witness)."
  },
  {
   "property": "C78",
   "status": "partial",
   "theorems": [
    "Verif.C78_violated_partial_registration",
    "Verif.C78_sections_partial"
   ],
   "note": "Proved for failures while building the sections; violated for failures while handling the policies (witness)."
  },
  {
   "property": "C79",
   "status": "proved",
   "theorems": [
    "Verif.C79_nonneg",
    "Verif.C79_zero_when_agree"
   ],
   "note": "Over the reals, not floats."
  },
  {
   "property": "C80",
   "status": "partial",
   "theorems": [
    "Verif.C80_target_reached",
    "Verif.C80_terminates",
    "Verif.C80_violated_always_raises",
    "Verif.C80_violated_never_ends"
   ],
   "note": "Proved: the model at loop exit meets the target and is the first to do so; termination when every step makes progress. Violated: the function always raises at the end (deleted variable), and loops for ever when nothing can be pruned."
  },
  {
   "property": "C81",
   "status": "proved",
   "theorems": [
    "Verif.C81_inputs_accepted_iff",
    "Verif.C81_mult_exact",
    "Verif.C81_mult_approx",
    "Verif.C81_matmul_exact",
    "Verif.C81_matmul_approx",
    "Verif.C81_add_error",
    "Verif.C81_concat_error",
    "Verif.C81_integers_survive",
    "Verif.C81_output_meta",
    "Verif.C81_add_not_exact"
   ],
   "note": "All parts of the statement, for every operand list; saturation of the accumulator is excluded by hypothesis as in the statement. EltwiseAdd is not exact (C81_add_not_exact)."
  },
  {
   "property": "C82",
   "status": "partial",
   "theorems": [
    "Verif.C82_tensor_value_preserved",
    "Verif.C82_quantize_agrees",
    "Verif.C82_violated_restricted",
    "Verif.C82_reduce_range",
    "Verif.C82_reduce_range_symmetric",
    "Verif.C82_reduce_range_refusals",
    "Verif.C82_violated_reduce_range"
   ],
   "note": "Value preservation for all modes and 2..8 bits and 8-bit agreement for unrestricted modes proved. Violated: restricted symmetric saturates at -128 instead of -127; reduce_range may use integer 128 (8 bits)."
  },
  {
   "property": "C83",
   "status": "proved",
   "theorems": [
    "Verif.C83_aciq_monotone",
    "Verif.C83_half_is_next_bit",
    "Verif.C83_violated_table",
    "Verif.C83_range_contains_mean",
    "Verif.C83_within_observed",
    "Verif.C83_aciq_range",
    "Verif.C83_refusals",
    "Verif.C83_params",
    "Verif.C83_approx",
    "Verif.C83_violated_aciq_wider_than_observed"
   ],
   "note": "Proved for every consistent statistics record. The ACIQ range may be wider than the observed range (C83_violated_aciq_wider_than_observed is a remark beyond the statement). The ACIQ alpha tables are modelled as rationals. The tables are monotone and consistent (C83_aciq_monotone, C83_half_is_next_bit) but for one entry (C83_violated_table)."
  },
  {
   "property": "C84",
   "status": "proved",
   "theorems": [
    "Verif.C84_pruner_told_epoch"
   ],
   "note": ""
  },
  {
   "property": "C85",
   "status": "proved",
   "theorems": [
    "Verif.C85_epochs_in_order",
    "Verif.C85_validated_and_saved_pruned",
    "Verif.C85_violated_forward_only"
   ],
   "note": "Order, minibatch counts and pruned validation/checkpoint weights for all policies, pruners and optimizers; C85_violated_forward_only is the last sentence of the statement. Forward/backward pass and optimizer are an arbitrary update."
  },
  {
   "property": "C86",
   "status": "proved",
   "theorems": [
    "Verif.C86_last_mask_kept",
    "Verif.C86_gradual_pruning_end_to_end"
   ],
   "note": "Proved for one pruning policy whose masks are recomputed at epoch begin (mini_batch_pruning_frequency=0, no discard/skip/fold options) and either not forward-only or keep_mask with the frequency dividing ending-1-starting."
  },
  {
   "property": "C87",
   "status": "partial",
   "theorems": [
    "Verif.C87_one_exit",
    "Verif.C87_reported",
    "Verif.C87_violated_loss_zero"
   ],
   "note": "Exit selection, per-exit and total accuracy proved for all thresholds and batches; the returned loss is not that of the deployed model and is 0 when no sample reaches the last exit (C87_violated_loss_zero). Cross entropy and rank of the target are inputs; no samples at all is a ZeroDivisionError."
  },
  {
   "property": "C88",
   "status": "partial",
   "theorems": [
    "Verif.C88_weighted_sum",
    "Verif.C88_between",
    "Verif.C88_violated_missing_exit",
    "Verif.C88_too_few_weights"
   ],
   "note": "Holds when every exit produced an output; a missing exit output silently drops its weight so that the weights no longer sum to one (C88_violated_missing_exit)."
  },
  {
   "property": "C89",
   "status": "partial",
   "theorems": [
    "Verif.C89_same_output",
    "Verif.C89_exit_outputs",
    "Verif.C89_violated_nested",
    "Verif.C89_deleted"
   ],
   "note": "Proved for exit points none of which lies inside another; nested exit points break it (C89_violated_nested). The output of the network is unchanged in every case (C89_same_output)."
  },
  {
   "property": "C90",
   "status": "partial",
   "theorems": [
    "Verif.C90_structures_partial",
    "Verif.C90_element_partial",
    "Verif.C90_illegal_group",
    "Verif.C90_violated_order",
    "Verif.C90_violated_filters_substring"
   ],
   "note": "Proved for element-wise analysis with levels in non-decreasing order, and for filters and channels (same condition, no other parameter name contained in the analysed name). Violated: levels out of order act on already pruned weights; parameters whose name is a substring of the analysed one are pruned too (C90_violated_*)."
  },
  {
   "property": "C91",
   "status": "partial",
   "theorems": [
    "Verif.C91_group_lasso",
    "Verif.C91_l1",
    "Verif.C91_nonneg",
    "Verif.C91_zero_iff",
    "Verif.C91_refused",
    "Verif.C91_violated_channels_4d",
    "Verif.C91_group_variance",
    "Verif.C91_l1_vectors"
   ],
   "note": "Proved for every grouping except 'Channels+4D' / '4D+Channels', which always raise AttributeError (C91_violated_channels_4d); gradients are autograd's."
  },
  {
   "property": "C92",
   "status": "partial",
   "theorems": [
    "Verif.C92_group_mask_partial",
    "Verif.C92_matrix_mask_partial",
    "Verif.C92_l1_mask",
    "Verif.C92_l1_vectors",
    "Verif.C92_untouched",
    "Verif.C92_criteria",
    "Verif.C92_violated_combined"
   ],
   "note": "Proved for convolutions, both criteria, and for rows and columns with Max; Mean_Abs of rows/columns divides by the wrong size (C58) and the combined groupings and '4D' cannot be thresholded (C92_violated_combined)."
  },
  {
   "property": "C93",
   "status": "proved",
   "theorems": [
    "Verif.C93_round_trip",
    "Verif.C93_too_short",
    "Verif.C93_candidates",
    "Verif.C93_scales_only"
   ],
   "note": ""
  },
  {
   "property": "C94",
   "status": "partial",
   "theorems": [
    "Verif.C94_best_partial",
    "Verif.C94_violated_model",
    "Verif.C94_violated_basinhopping"
   ],
   "note": "Proved for Powell-type methods and the returned configuration; the returned model stays in the last evaluated configuration (C94_violated_model) and basin hopping's callback has the wrong arity (C94_violated_basinhopping)."
  },
  {
   "property": "C95",
   "status": "partial",
   "theorems": [
    "Verif.C95_local",
    "Verif.C95_greedy_partial",
    "Verif.C95_untouched",
    "Verif.C95_stock_candidates",
    "Verif.C95_half_range",
    "Verif.C95_resume",
    "Verif.C95_input",
    "Verif.C95_input_kept",
    "Verif.C95_violated_two_inputs",
    "Verif.C95_violated_output_half_range",
    "Verif.C95_violated_fp16",
    "Verif.C95_violated_leak",
    "Verif.C95_violated_resume_input"
   ],
   "note": "Proved for runs as a script without separately quantized inputs (and for one input of a layer); violated for two inputs of one layer, for resuming a layer with quantized inputs, for the output layer's half range, for FP16 layers, for candidates with different keys (C95_violated_*). Called as a library function the search raises at its first log message (global logger is None)."
  },
  {
   "property": "C96",
   "status": "partial",
   "theorems": [
    "Verif.C96_cell",
    "Verif.C96_batch",
    "Verif.C96_unidirectional",
    "Verif.C96_empty",
    "Verif.C96_violated_dropout",
    "Verif.C96_bidirectional",
    "Verif.C96_violated_default_state",
    "Verif.C96_violated_default_state_one",
    "Verif.C96_states"
   ],
   "note": "Proved for evaluation mode / no dropout / one layer (unidirectional), and for bidirectional LSTMs with any dropout. Violated in training with dropout for unidirectional LSTMs of several layers (dropped-out outputs become recurrent state) and for cells called without a state."
  },
  {
   "property": "C97",
   "status": "partial",
   "theorems": [
    "Verif.C97_from",
    "Verif.C97_violated_training_mode",
    "Verif.C97_round_trip",
    "Verif.C97_same_function",
    "Verif.C97_same_function_bidirectional",
    "Verif.C97_packed",
    "Verif.C97_violated_packed_unsorted",
    "Verif.C97_converts_all",
    "Verif.C97_violated_shared"
   ],
   "note": "Tensors, options, round trip and function proved; the training flag is always reset to training (C97_violated_training_mode), unsorted packed batches raise, an LSTM held under two names of one module is converted only once."
  },
  {
   "property": "C98",
   "status": "partial",
   "theorems": [
    "Verif.C98_unshared",
    "Verif.C98_table",
    "Verif.C98_table_once",
    "Verif.C98_shared",
    "Verif.C98_violated_same_container",
    "Verif.C98_violated_shared_unsupported"
   ],
   "note": "Proved for all trees without sharing (exact result) and, for all sharing, that a replacement function runs at most once per object and all replaced references agree. Violated: the second name of an object within one container keeps the unquantized module (the docstring's own toy model), and a shared module of an unsupported class raises KeyError."
  },
  {
   "property": "C99",
   "status": "proved",
   "theorems": [
    "Verif.C99_traced",
    "Verif.C99_violated_bn_before_previous_conv",
    "Verif.C99_violated_first_layer",
    "Verif.C99_network"
   ],
   "note": "C99_network (answers of the graph queries as hypotheses) and C99_traced (graph = recorded operations, data nodes and edges; queries = predecessors_f). The conditions are needed: C99_violated_first_layer, C99_violated_bn_before_previous_conv, C43_violated_channels_sibling."
  },
  {
   "property": "C100",
   "status": "partial",
   "theorems": [
    "Verif.C100_wires",
    "Verif.C100_exact",
    "Verif.C100_total",
    "Verif.C100_relu",
    "Verif.C100_relu6",
    "Verif.C100_violated_shared_relu",
    "Verif.C100_violated_tapped_output",
    "Verif.C100_violated_relu6_dynamic",
    "Verif.C100_violated_relu6_aciq"
   ],
   "note": "C100_wires, C100_exact, C100_total, C100_relu, C100_relu6 hold for traced models whose modules are called once; the code violates the general claim for shared ReLUs, layers whose output is also returned, ReLU6 without statistics or with analytical clipping (C100_violated_*)."
  },
  {
   "property": "C101",
   "status": "partial",
   "theorems": [
    "Verif.C101_clipped",
    "Verif.C101_averages",
    "Verif.C101_inputs",
    "Verif.C101_frame",
    "Verif.C101_missing",
    "Verif.C101_relu",
    "Verif.C101_saturating",
    "Verif.C101_batchnorm",
    "Verif.C101_violated_split_outputs",
    "Verif.C101_violated_deviations",
    "Verif.C101_violated_averages"
   ],
   "note": "C101_clipped, C101_frame, C101_missing, C101_relu, C101_saturating, C101_batchnorm are general. Violated by the code: split returned as output, empty ranges with N_STD or AVG clipping (C101_violated_*)."
  },
  {
   "property": "C102",
   "status": "partial",
   "theorems": [
    "Verif.C102_schedule",
    "Verif.C102_violated_never_drops"
   ],
   "note": "C102_schedule is general for the layer; as shipped the keep probability stays 1.0 so that no filter is ever dropped (C102_violated_never_drops)."
  },
  {
   "property": "C103",
   "status": "partial",
   "theorems": [
    "Verif.C103_geometry_partial",
    "Verif.C103_whole_model_partial",
    "Verif.C103_violated_bias",
    "Verif.C103_violated_groups",
    "Verif.C103_violated_weights"
   ],
   "note": "Geometry holds without bias, groups and dilation (C103_geometry_partial); weights, groups and dilation are lost and layers with a bias fail (C103_violated_*)."
  },
  {
   "property": "C104",
   "status": "partial",
   "theorems": [
    "Verif.C104_epoch",
    "Verif.C104_training",
    "Verif.C104_after_pruner",
    "Verif.C104_violated_order"
   ],
   "note": "C104_epoch, C104_training, C104_after_pruner; a remover registered before the pruning policy sees unpruned weights (C104_violated_order)."
  },
  {
   "property": "C105",
   "status": "partial",
   "theorems": [
    "Verif.C105_ops",
    "Verif.C105_edges",
    "Verif.C105_modules",
    "Verif.C105_violated_names"
   ],
   "note": "Proved for traces whose generated names are unambiguous; a module named like a generated name overwrites an operation (C105_violated_names)."
  },
  {
   "property": "C106",
   "status": "partial",
   "theorems": [
    "Verif.C106_ops",
    "Verif.C106_paths",
    "Verif.C106_violated_shared_padding",
    "Verif.C106_violated_stale_padding"
   ],
   "note": "Proved if the padded value is used by its pool only and both belong to the same module; otherwise connectivity is lost (C106_violated_*)."
  },
  {
   "property": "C107",
   "status": "partial",
   "theorems": [
    "Verif.C107_scopes",
    "Verif.C107_violated_reused_dropout",
    "Verif.C107_violated_functional_dropout"
   ],
   "note": "Proved if every dropout is a module of its own, used once; reused and functional dropouts misname operations (C107_violated_*)."
  },
  {
   "property": "C108",
   "status": "partial",
   "theorems": [
    "Verif.C108_conv",
    "Verif.C108_linear",
    "Verif.C108_violated_batch",
    "Verif.C108_violated_types",
    "Verif.C108_footprint",
    "Verif.C108_violated_missing_shape",
    "Verif.C108_intensity"
   ],
   "note": "General for convolutions; linear layers only for a single sample and 2-D inputs, missing shapes raise in the footprint (C108_violated_*)."
  },
  {
   "property": "C109",
   "status": "partial",
   "theorems": [
    "Verif.C109_rows",
    "Verif.C109_violated_shared",
    "Verif.C109_violated_rows"
   ],
   "note": "C109_rows for models without a module in two containers and linear layers on one row; otherwise violated (C109_violated_*)."
  },
  {
   "property": "C110",
   "status": "partial",
   "theorems": [
    "Verif.C110_function",
    "Verif.C110_removed",
    "Verif.C110_names",
    "Verif.C110_violated_nested",
    "Verif.C110_violated_shared"
   ],
   "note": "C110_function is general; removal and names fail for nested DataParallel and for one registered twice (C110_violated_*)."
  },
  {
   "property": "C111",
   "status": "partial",
   "theorems": [
    "Verif.C111_sets",
    "Verif.C111_violated_missing"
   ],
   "note": "C111_sets for all names of existing modules; other names silently set a wrong attribute (C111_violated_missing)."
  },
  {
   "property": "C112",
   "status": "partial",
   "theorems": [
    "Verif.C112_nested_partial",
    "Verif.C112_violated_namedtuple",
    "Verif.C112_violated_dict"
   ],
   "note": "Lists and tuples (C112_nested_partial); named tuples and dictionaries are not converted (C112_violated_*)."
  },
  {
   "property": "C113",
   "status": "partial",
   "theorems": [
    "Verif.C113_exact",
    "Verif.C113_error",
    "Verif.C113_violated_bias",
    "Verif.C113_violated_empty"
   ],
   "note": "C113_exact, C113_error for the factors; the module drops the bias and adds random ones (C113_violated_bias), and keeps nothing for small ratios (C113_violated_empty)."
  },
  {
   "property": "C114",
   "status": "partial",
   "theorems": [
    "Verif.C114_summary",
    "Verif.C114_bound",
    "Verif.C114_violated_buffers"
   ],
   "note": "C114_summary, C114_bound; KeyError for covered buffers (C114_violated_buffers)."
  },
  {
   "property": "C115",
   "status": "partial",
   "theorems": [
    "Verif.C115_cleanup_preserves_partial",
    "Verif.C115_dummy_input",
    "Verif.C115_violated_uncalled",
    "Verif.C115_quantize_wrapper_exact",
    "Verif.C115_dequantize_wrapper_exact",
    "Verif.C115_violated_multi_input",
    "Verif.C115_straight_line",
    "Verif.C115_violated_reused_module",
    "Verif.C115_first_pass",
    "Verif.C115_violated_shared_container"
   ],
   "note": "Exact characterisation of when the clean-up is harmless (C115_*_exact), general for calls with the recorded pattern and for straight-line models; violated for modules called twice, for several model inputs, for wrappers not called, and for shared containers (C115_violated_*)."
  },
  {
   "property": "C116",
   "status": "partial",
   "theorems": [
    "Verif.C116_produced_tensor",
    "Verif.C116_non_attaching",
    "Verif.C116_violated_always",
    "Verif.C116_same_parameters_partial",
    "Verif.C116_violated_order"
   ],
   "note": "Holds for tensors produced by quantized layers and for readers with equal parameters; for fresh tensors the first reader decides (C116_violated_*)."
  },
  {
   "property": "C117",
   "status": "partial",
   "theorems": [
    "Verif.C117_preactivation_partial",
    "Verif.C117_fresh_partial",
    "Verif.C117_violated_integer_bias",
    "Verif.C117_violated_no_bias",
    "Verif.C117_only_8_bits",
    "Verif.C117_violated_after_forward",
    "Verif.C117_same_output_partial"
   ],
   "note": "C117_preactivation_partial and C117_same_output_partial for unshifted weights after a forward pass; violated after a forward pass with asymmetric weights, without bias and for integer biases (C117_violated_*)."
  },
  {
   "property": "C118",
   "status": "partial",
   "theorems": [
    "Verif.C118_lookup_partial",
    "Verif.C118_out_of_range",
    "Verif.C118_set_clipping",
    "Verif.C118_no_float_weights",
    "Verif.C118_violated_stale_metadata",
    "Verif.C118_violated_conversion",
    "Verif.C118_conversion_partial"
   ],
   "note": "Values for all histories, metadata without device moves; metadata stale after a move, conversion fails with saved float weights (C118_violated_*)."
  },
  {
   "property": "C119",
   "status": "partial",
   "theorems": [
    "Verif.C119_roundtrip_partial",
    "Verif.C119_clipping_argument",
    "Verif.C119_asymmetric_range",
    "Verif.C119_symmetric_range",
    "Verif.C119_approximate_range",
    "Verif.C119_violated_symmetric",
    "Verif.C119_violated_signed"
   ],
   "note": "Exact for the unsigned mode; drifts in the symmetric modes and is never the identity in the signed one (C119_violated_*)."
  },
  {
   "property": "C120",
   "status": "proved",
   "theorems": [
    "Verif.C120_history",
    "Verif.C120_exact",
    "Verif.C120_half_step",
    "Verif.C120_accumulator",
    "Verif.C120_fixed_point"
   ],
   "note": "C120_exact / C120_half_step assume no scale approximation and no accumulator saturation (hypotheses in terms of the real result); C120_history has no such hypothesis."
  },
  {
   "property": "C121",
   "status": "partial",
   "theorems": [
    "Verif.C121_from_output_partial",
    "Verif.C121_precedence",
    "Verif.C121_settings_used",
    "Verif.C121_checked",
    "Verif.C121_violated_mode_ignored",
    "Verif.C121_violated_saturation"
   ],
   "note": "Holds with from_output; with an explicit dictionary the mode is ignored and the upper half of the range is cut off (C121_violated_*)."
  },
  {
   "property": "C122",
   "status": "partial",
   "theorems": [
    "Verif.C122_input_kept_partial",
    "Verif.C122_output",
    "Verif.C122_violated_view",
    "Verif.C122_violated_witness"
   ],
   "note": "Holds unless the wrapped module returns its input or a view of it without the wrapper quantizing the input or fusing a ReLU; then the caller's tensor is overwritten (C122_violated_*)."
  },
  {
   "property": "C123",
   "status": "partial",
   "theorems": [
    "Verif.C123_accounting",
    "Verif.C123_no_failure",
    "Verif.C123_checked",
    "Verif.C123_violated_duplicate"
   ],
   "note": "Holds for networks whose dependency lists have no repetition; a diamond through a depthwise convolution lists a layer twice and the step fails (C123_violated_duplicate)."
  },
  {
   "property": "C124",
   "status": "partial",
   "theorems": [
    "Verif.C124_budget",
    "Verif.C124_target_met",
    "Verif.C124_floor_partial",
    "Verif.C124_search",
    "Verif.C124_violated_floor",
    "Verif.C124_violated_order"
   ],
   "note": "Holds up to the rounding of the pruner (explicit slack), under a shape condition on the layer order; both are needed (C124_violated_floor, C124_violated_order)."
  },
  {
   "property": "C125",
   "status": "partial",
   "theorems": [
    "Verif.C125_best",
    "Verif.C125_checkpoint",
    "Verif.C125_violated_stale_masks"
   ],
   "note": "Best-so-far holds for every search; creation_masks and thinning only if something is removed from the last layer (C125_violated_stale_masks)."
  },
  {
   "property": "C126",
   "status": "partial",
   "theorems": [
    "Verif.C126_compressible",
    "Verif.C126_dependencies",
    "Verif.C126_ambiguous",
    "Verif.C126_compressible_partial",
    "Verif.C126_violated_second",
    "Verif.C126_violated_no_dependents"
   ],
   "note": "Holds if each pruned layer has one dependent layer; false with several, and a layer without dependents makes loading fail (C126_violated_*)."
  },
  {
   "property": "C127",
   "status": "partial",
   "theorems": [
    "Verif.C127_compute_partial",
    "Verif.C127_violated_harmonic",
    "Verif.C127_accuracy",
    "Verif.C127_constraint"
   ],
   "note": "Compute part is false for the harmonic mean, always (C127_violated_harmonic); the rest is proved. math.log is a parameter assumed monotone."
  },
  {
   "property": "C128",
   "status": "partial",
   "theorems": [
    "Verif.C128_range_partial",
    "Verif.C128_exact",
    "Verif.C128_constrained",
    "Verif.C128_violated_ppo",
    "Verif.C128_violated_discrete"
   ],
   "note": "Holds for continuous agents and PPO outputs in [-3,3]; PPO outputs are not clipped and discrete agents ignore the range (C128_violated_*)."
  },
  {
   "property": "C129",
   "status": "partial",
   "theorems": [
    "Verif.C129_pairs_partial",
    "Verif.C129_reconstruction_partial",
    "Verif.C129_exact_partial",
    "Verif.C129_reference",
    "Verif.C129_succeeds_iff",
    "Verif.C129_violated_bias",
    "Verif.C129_violated_stride",
    "Verif.C129_violated_nonsquare",
    "Verif.C129_violated_dilation",
    "Verif.C129_violated_single_sample"
   ],
   "note": "Proved for layers without bias, given an exact least-squares solver, if the output is square and undilated (1x1: no stride and padding). False otherwise (C129_violated_*)."
  },
  {
   "property": "C130",
   "status": "partial",
   "theorems": [
    "Verif.C130_random",
    "Verif.C130_bernoulli",
    "Verif.C130_unbiased",
    "Verif.C130_dependent",
    "Verif.C130_violated_all_dropped",
    "Verif.C130_violated_repeated"
   ],
   "note": "Counts, compensation and unbiasedness proved for all draws that keep a filter; all dropped gives NaN and repeated application scales weights geometrically (C130_violated_*)."
  },
  {
   "property": "C131",
   "status": "partial",
   "theorems": [
    "Verif.C131_resume_partial",
    "Verif.C131_violated_forward_only",
    "Verif.C131_violated_skip_first",
    "Verif.C131_violated_sensitivity",
    "Verif.C131_violated_deprecated_flag",
    "Verif.C131_start"
   ],
   "note": "Bisimulation proof for plain schedules (default pruning options, or regularization only) and stateless pruners, all stopping points; false for forward-only masks, skip_first_minibatch, the sensitivity pruner and the --resume flag (C131_violated_*)."
  },
  {
   "property": "C132",
   "status": "partial",
   "theorems": [
    "Verif.C132_best_partial",
    "Verif.C132_violated_resumed",
    "Verif.C132_violated_no_scores"
   ],
   "note": "Proved for sessions that start fresh; false for resumed sessions and num-best-scores 0 (C132_violated_*)."
  },
  {
   "property": "C133",
   "status": "partial",
   "theorems": [
    "Verif.C133_modules",
    "Verif.C133_network_partial",
    "Verif.C133_succeeds",
    "Verif.C133_violated_split",
    "Verif.C133_violated_not_connected",
    "Verif.C133_violated_shared_layer",
    "Verif.C133_violated_shared_norm",
    "Verif.C133_violated_tapped_output",
    "Verif.C133_violated_frozen"
   ],
   "note": "Simulation proof over all traces in which layers and batch-norms are called once and are wired in trace order; false otherwise (C133_violated_*)."
  },
  {
   "property": "C134",
   "status": "partial",
   "theorems": [
    "Verif.C134_names_partial",
    "Verif.C134_violated_clash",
    "Verif.C134_violated_attribute"
   ],
   "note": "Proved if names made for list members are not taken; false otherwise (C134_violated_*)."
  },
  {
   "property": "C135",
   "status": "partial",
   "theorems": [
    "Verif.C135_layer",
    "Verif.C135_operation",
    "Verif.C135_fake",
    "Verif.C135_embedding",
    "Verif.C135_kept",
    "Verif.C135_fused_relu",
    "Verif.C135_forced_fake",
    "Verif.C135_refused",
    "Verif.C135_arguments",
    "Verif.C135_float",
    "Verif.C135_bits",
    "Verif.C135_violated_embedding",
    "Verif.C135_violated_unquantized_with_override",
    "Verif.C135_violated_float"
   ],
   "note": "Proved for all configurations without float conversion; false for embeddings without weight bits, for unquantized modules with overrides and for fpq_module (C135_violated_*)."
  },
  {
   "property": "C136",
   "status": "partial",
   "theorems": [
    "Verif.C136_not_quantized",
    "Verif.C136_not_clipped",
    "Verif.C136_others",
    "Verif.C136_layers",
    "Verif.C136_violated_dot",
    "Verif.C136_violated_zero_weight_bits",
    "Verif.C136_violated_no_clip_unquantized"
   ],
   "note": "Proved up to dots in names, which are wildcards; false otherwise and for 0 bits with embeddings or unclipped layers (C136_violated_*)."
  },
  {
   "property": "C137",
   "status": "partial",
   "theorems": [
    "Verif.C137_channels_partial",
    "Verif.C137_batching",
    "Verif.C137_sparsity",
    "Verif.C137_linear_partial",
    "Verif.C137_violated_linear",
    "Verif.C137_violated_sizes",
    "Verif.C137_violated_phases",
    "Verif.C137_phases",
    "Verif.C137_monitored",
    "Verif.C137_once",
    "Verif.C137_covered",
    "Verif.C137_violated_wrapped_class"
   ],
   "note": "Proved for feature maps of one size; false for per-channel statistics of linear layers, feature maps of different sizes, several phases and wrapped classes (C137_violated_*)."
  },
  {
   "property": "C138",
   "status": "partial",
   "theorems": [
    "Verif.C138_ptq_partial",
    "Verif.C138_accepted",
    "Verif.C138_violated_training",
    "Verif.C138_training_with_optimizer",
    "Verif.C138_as_configured",
    "Verif.C138_violated_fp16",
    "Verif.C138_stats"
   ],
   "note": "Proved for post-training quantization except fp16, save_fp_weights and also_clip_weights, which are lost; false for all quantization-aware training (C138_violated_*). The in-place changed statistics are a fixed point (C138_stats)."
  },
  {
   "property": "C139",
   "status": "partial",
   "theorems": [
    "Verif.C139_partial",
    "Verif.C139_succeeds",
    "Verif.C139_violated_same_class",
    "Verif.C139_violated_derived",
    "Verif.C139_violated_unprepared",
    "Verif.C139_violated_inputs"
   ],
   "note": "Proved when no prepared model's class is the class or a base class of another's; otherwise false (endless recursion, AttributeError), as for models without exactly one input (C139_violated_*)."
  },
  {
   "property": "C140",
   "status": "partial",
   "theorems": [
    "Verif.C140_fixed",
    "Verif.C140_pact_partial",
    "Verif.C140_backups",
    "Verif.C140_violated_name"
   ],
   "note": "Proved for WRPN and DoReFa, and for PACT if no parameter of the user has clip_val in its name; otherwise ValueError (C140_violated_name)."
  },
  {
   "property": "C141",
   "status": "partial",
   "theorems": [
    "Verif.C141_mult_partial",
    "Verif.C141_add_partial",
    "Verif.C141_concat_partial",
    "Verif.C141_fake_partial",
    "Verif.C141_relu_partial",
    "Verif.C141_violated_matmul",
    "Verif.C141_violated_operands",
    "Verif.C141_only_8_bits",
    "Verif.C141_violated_add",
    "Verif.C141_violated_relu"
   ],
   "note": "Product, concatenation and modules without quantized implementation exact (off rounding ties and accumulator saturation), sum within one output step, ReLU within half a step; matrix products and sums/products of other than two operands raise TypeError once converted (C141_violated_*). Not for the reduced range of fbgemm with asymmetric modes."
  },
  {
   "property": "C142",
   "status": "partial",
   "theorems": [
    "Verif.C142_table_partial",
    "Verif.C142_nnz_partial",
    "Verif.C142_counted",
    "Verif.C142_violated_nnz",
    "Verif.C142_total_partial",
    "Verif.C142_violated_shared",
    "Verif.C142_violated_backup",
    "Verif.C142_violated_none"
   ],
   "note": "Rows, element counts, percentages and the total proved for all state dictionaries; the numbers of non-zeros (double precision, truncated) are the true ones or one less, and one less occurs (C142_violated_nnz). Shared parameters and floating-point copies of quantized parameters are counted twice (C142_violated_shared, _backup); no counted tensor: ZeroDivisionError. Columns Shape, Std, Mean, Abs-Mean not modelled."
  },
  {
   "property": "C143",
   "status": "partial",
   "theorems": [
    "Verif.C143_roundtrip_partial",
    "Verif.C143_injective_partial",
    "Verif.C143_unknown",
    "Verif.C143_plain",
    "Verif.C143_violated_module"
   ],
   "note": "All trees with at most one DataParallel on a path and no other submodule called 'module' (C143_roundtrip_partial, C143_injective_partial, C143_plain, C143_unknown); with a submodule of that name two layers share a normalized name and the translation back finds the wrong one (C143_violated_module). Modules registered twice are not modelled."
  },
  {
   "property": "C144",
   "status": "partial",
   "theorems": [
    "Verif.C144_same_partial",
    "Verif.C144_layers",
    "Verif.C144_consistent",
    "Verif.C144_violated_aciq",
    "Verif.C144_violated_vector",
    "Verif.C144_violated_per_channel"
   ],
   "note": "Proved for all tensors, modes and clipping modes except analytical clipping in asymmetric modes, where the tensor's minimum is used in place of the averaged one (C144_violated_aciq). Averaged extremes of a vector give the one-point range at its mean (C144_violated_vector); per-channel parameters with clipping raise (C144_violated_per_channel). The standard deviation is a parameter."
  },
  {
   "property": "C145",
   "status": "partial",
   "theorems": [
    "Verif.C145_independent",
    "Verif.C145_order",
    "Verif.C145_clip",
    "Verif.C145_clip_total",
    "Verif.C145_names",
    "Verif.C145_refused",
    "Verif.C145_missing_mode",
    "Verif.C145_loss_partial",
    "Verif.C145_violated_loss",
    "Verif.C145_violated_again"
   ],
   "note": "Clipping modes, names, refusals, independence and order proved; with a loss the layer is left at the last evaluated point instead of the minimizer's result (C145_violated_loss), and clipping modes are written into the stored arguments (C145_violated_again). Wrappers, loss and minimizer are arbitrary."
  },
  {
   "property": "C146",
   "status": "partial",
   "theorems": [
    "Verif.C146_set_parameter",
    "Verif.C146_set_output_clipping",
    "Verif.C146_set_weight_clipping",
    "Verif.C146_weight_formulas",
    "Verif.C146_consistent_partial",
    "Verif.C146_refused",
    "Verif.C146_update",
    "Verif.C146_update_fails",
    "Verif.C146_filter",
    "Verif.C146_clipping_listed",
    "Verif.C146_clipping_values",
    "Verif.C146_violated_weight_scale",
    "Verif.C146_violated_listing"
   ],
   "note": "Listing, frame, refusals, updates and clipping ranges proved; setting a weight scale or zero-point through the quantizer does not re-quantize the weights (C146_violated_weight_scale); one wrapper without statistics makes listing the clipping values of the model fail (C146_violated_listing)."
  },
  {
   "property": "C147",
   "status": "partial",
   "theorems": [
    "Verif.C147_whole_model_partial",
    "Verif.C147_no_selection_partial",
    "Verif.C147_unknown_name",
    "Verif.C147_violated_selection",
    "Verif.C147_violated_not_run"
   ],
   "note": "Proved for the whole model and for selections with every eligible module; every other selection raises RuntimeError before the second pass (C147_violated_selection); modules that did not run are reported with min = float max (C147_violated_not_run). One record per module; modules visited once (see C71)."
  },
  {
   "property": "C148",
   "status": "partial",
   "theorems": [
    "Verif.C148_filters",
    "Verif.C148_channels_partial",
    "Verif.C148_kind",
    "Verif.C148_violated_linear",
    "Verif.C148_violated_single_channel",
    "Verif.C148_violated_residual",
    "Verif.C148_violated_twice",
    "Verif.C148_violated_ends"
   ],
   "note": "Proved for filters on every acyclic graph and for channels of layers that no linear layer precedes. Violated: channels behind a linear layer (C148_violated_linear); a convolution with one input channel is taken for depthwise (C148_violated_single_channel); layers added to the pruned one's output are missing (C148_violated_residual); layers reached twice are listed twice (C148_violated_twice); layers without dependencies make loading fail (C148_violated_ends)."
  },
  {
   "property": "C149",
   "status": "partial",
   "theorems": [
    "Verif.C149_ticket",
    "Verif.C149_each_weight",
    "Verif.C149_reload",
    "Verif.C149_training",
    "Verif.C149_violated_unpruned",
    "Verif.C149_violated_state",
    "Verif.C149_arch",
    "Verif.C149_thinned_refused"
   ],
   "note": "The ticket's weights, masks, reload and training are proved, and that thinned networks are refused. Violated: parameters no pruner touched are masked wherever they happen to be zero (C149_violated_unpruned); the ticket resumes at epoch 1 with the optimizer state of the pruning run (C149_violated_state)."
  },
  {
   "property": "C150",
   "status": "partial",
   "theorems": [
    "Verif.C150_collects",
    "Verif.C150_empty_stats",
    "Verif.C150_refused",
    "Verif.C150_session_partial",
    "Verif.C150_violated_stale",
    "Verif.C150_violated_stale_instance"
   ],
   "note": "Single evaluations and sessions with given settings are proved. Violated: the collected statistics are stored in the caller's arguments, so every later model of the session is quantized with the first model's statistics (C150_violated_stale)."
  },
  {
   "property": "C151",
   "status": "proved",
   "theorems": [
    "Verif.C151_validation",
    "Verif.C151_structure",
    "Verif.C151_datasets",
    "Verif.C151_attribute"
   ],
   "note": ""
  },
  {
   "property": "C152",
   "status": "partial",
   "theorems": [
    "Verif.C152_moved_partial",
    "Verif.C152_violated_named",
    "Verif.C152_violated_dict"
   ],
   "note": "Proved for tuples and lists. Violated: named tuples raise or lose their content (C152_violated_named); tensors in dictionaries are not converted (C152_violated_dict)."
  },
  {
   "property": "C153",
   "status": "proved",
   "theorems": [
    "Verif.C153_range"
   ],
   "note": ""
  },
  {
   "property": "C154",
   "status": "partial",
   "theorems": [
    "Verif.C154_gates_partial",
    "Verif.C154_names",
    "Verif.C154_violated_bias",
    "Verif.C154_violated_downsample",
    "Verif.C154_block",
    "Verif.C154_violated_function",
    "Verif.C154_zero_digit"
   ],
   "note": "The gates are proved for networks in which only block convolutions are all zero. Violated: all-zero normalization offsets (the initial state) close gates of non-zero convolutions or make the call fail (C154_violated_bias); zero shortcut convolutions close a wrong gate or raise (C154_violated_downsample); a block whose zero convolutions are removed computes relu(2x) instead of relu(x) (C154_violated_function)."
  },
  {
   "property": "C155",
   "status": "partial",
   "theorems": [
    "Verif.C155_dropout_set_partial",
    "Verif.C155_dropout_only",
    "Verif.C155_violated_other_dropouts",
    "Verif.C155_freeze_all",
    "Verif.C155_defrost",
    "Verif.C155_violated_freeze_training",
    "Verif.C155_frozen_partial",
    "Verif.C155_frozen_plain_sgd_partial",
    "Verif.C155_not_frozen",
    "Verif.C155_violated_decay",
    "Verif.C155_violated_momentum"
   ],
   "note": "Proved: adjust_dropout sets exactly the Dropout, Dropout2d, Dropout3d and AlphaDropout layers; freeze_all sets the flag of exactly the model's parameters; a parameter frozen before its first gradient (or under SGD without momentum and weight decay) never changes. Violated: other dropout classes are not adjusted (C155_violated_other_dropouts); a parameter that was trained before it is frozen is still changed by weight decay and momentum, because its gradient is zero and not None (C155_violated_decay, C155_violated_momentum); freeze_training raises NameError for every model with a parameter (C155_violated_freeze_training)."
  },
  {
   "property": "C156",
   "status": "partial",
   "theorems": [
    "Verif.C156_named",
    "Verif.C156_other_models",
    "Verif.C156_find_sound",
    "Verif.C156_find_named",
    "Verif.C156_find_path_partial",
    "Verif.C156_find_none",
    "Verif.C156_violated_second_name"
   ],
   "note": "Proved: each module gets a name that leads to it and is found under it; whatever is found is the module at that name; a name leading nowhere gives None. Violated: a module reachable under two names is not found under the second (C156_violated_second_name)."
  },
  {
   "property": "C157",
   "status": "partial",
   "theorems": [
    "Verif.C157_attributes",
    "Verif.C157_source",
    "Verif.C157_pretrained_partial",
    "Verif.C157_refused",
    "Verif.C157_small_pretrained",
    "Verif.C157_own_resnets",
    "Verif.C157_registered_partial",
    "Verif.C157_input_shape_partial",
    "Verif.C157_cadene_shape",
    "Verif.C157_parallel_part",
    "Verif.C157_errors",
    "Verif.C157_violated_pretrained_user",
    "Verif.C157_violated_register_case",
    "Verif.C157_violated_shape",
    "Verif.C157_violated_inception"
   ],
   "note": "Proved: attributes, source, refusal, precedence of Distiller's ResNets, registered models for lower-case data set names, input shapes without whole-model wrapping. Violated: a pretrained version of a registered model is returned without pretrained weights (C157_violated_pretrained_user); a model registered for an upper-case data set name can never be created (C157_violated_register_case); a declared input shape is lost by data-parallel wrapping (C157_violated_shape); Cadene's Inception models without pretrained weights get a wrong input shape (C157_violated_inception)."
  },
  {
   "property": "C158",
   "status": "partial",
   "theorems": [
    "Verif.C158_same_function",
    "Verif.C158_idempotent",
    "Verif.C158_violated_other_instances"
   ],
   "note": "Proved: the patched model computes the original function. Violated: the forward functions are replaced in torchvision's classes, so other instances raise AttributeError (C158_violated_other_instances)."
  },
  {
   "property": "C159",
   "status": "partial",
   "theorems": [
    "Verif.C159_run",
    "Verif.C159_steps",
    "Verif.C159_lists",
    "Verif.C159_histograms_partial",
    "Verif.C159_no_params",
    "Verif.C159_activations",
    "Verif.C159_violated_histogram_steps",
    "Verif.C159_violated_second_logger",
    "Verif.C159_sparsity",
    "Verif.C159_no_weights"
   ],
   "note": "Proved: scalars, their steps, lists, activation statistics, sparsity; histograms of the first logger. Violated: histograms are recorded at the step within the epoch, so that those of different epochs collide (C159_violated_histogram_steps); the first of several loggers uses up the parameter generator (C159_violated_second_logger)."
  },
  {
   "property": "C160",
   "status": "partial",
   "theorems": [
    "Verif.C160_sparsity_exact_partial",
    "Verif.C160_sparsity_float_partial",
    "Verif.C160_violated_sparse_volume",
    "Verif.C160_buffers_partial",
    "Verif.C160_violated_none"
   ],
   "note": "Proved: rows in exact arithmetic; in double precision the count is right or one too small; the buffer files after any history of calls. Violated: the count can be one too small (C160_violated_sparse_volume); a None buffer makes the call fail (C160_violated_none)."
  },
  {
   "property": "C161",
   "status": "partial",
   "theorems": [
    "Verif.C161_layers_partial",
    "Verif.C161_total",
    "Verif.C161_scalars_partial",
    "Verif.C161_violated_float",
    "Verif.C161_violated_fp16",
    "Verif.C161_violated_per_channel"
   ],
   "note": "Proved: which modules are listed, the contents of every entry, the scalar parameters, when it fails. Violated: a module left in floating point is reported with 8 bits (C161_violated_float), a half-precision layer is missing (C161_violated_fp16), per-channel scales are missing (C161_violated_per_channel)."
  },
  {
   "property": "C162",
   "status": "partial",
   "theorems": [
    "Verif.C162_input",
    "Verif.C162_statistics_partial",
    "Verif.C162_total",
    "Verif.C162_violated_dynamic",
    "Verif.C162_violated_parallel"
   ],
   "note": "Proved: the branch, the statistics afterwards, exactly when it succeeds. Violated: fails without statistics (C162_violated_dynamic) and inside DataParallel (C162_violated_parallel)."
  },
  {
   "property": "C163",
   "status": "partial",
   "theorems": [
    "Verif.C163_prologue_partial",
    "Verif.C163_violated_report",
    "Verif.C163_cmdline",
    "Verif.C163_inputs"
   ],
   "note": "Proved: the prologue, the arguments, the inputs. Violated: the report written afterwards gives the clipping that the search dropped (C163_violated_report)."
  },
  {
   "property": "C164",
   "status": "partial",
   "theorems": [
    "Verif.C164_configuration",
    "Verif.C164_refused",
    "Verif.C164_deterministic",
    "Verif.C164_repeated",
    "Verif.C164_violated_seed",
    "Verif.C164_workers",
    "Verif.C164_violated_workers",
    "Verif.C164_session_workers"
   ],
   "note": "Proved: the first two clauses, which seed is chosen, when it is refused, the state of the generators. Violated: in deterministic sessions loading the data seeds everything with zero again (C164_violated_seed) and all workers have the same seed in every pass (C164_violated_workers)."
  },
  {
   "property": "C165",
   "status": "partial",
   "theorems": [
    "Verif.C165_collectors",
    "Verif.C165_phases",
    "Verif.C165_violated_not_logged",
    "Verif.C165_violated_interrupted"
   ],
   "note": "Proved for all sequences without exceptions, except logging. Violated: nothing is ever logged (C165_violated_not_logged); an interrupted phase stays attached and can never run again (C165_violated_interrupted)."
  },
  {
   "property": "C166",
   "status": "partial",
   "theorems": [
    "Verif.C166_requested",
    "Verif.C166_test_only",
    "Verif.C166_validation",
    "Verif.C166_violated_validation",
    "Verif.C166_sampling",
    "Verif.C166_violated_sequential",
    "Verif.C166_held_out",
    "Verif.C166_violated_leak"
   ],
   "note": "Proved: the loaders returned, passes, when the test set is used, no leak if no effective size leaves an empty set. Violated: C166_violated_validation, C166_violated_leak, C166_violated_sequential (and C50 with fixed subsets)."
  },
  {
   "property": "C167",
   "status": "partial",
   "theorems": [
    "Verif.C167_device",
    "Verif.C167_refused",
    "Verif.C167_violated_negative"
   ],
   "note": "Proved: exactly which lists are accepted and that others are refused with a ValueError. Violated: negative numbers are accepted (C167_violated_negative)."
  },
  {
   "property": "C168",
   "status": "proved",
   "theorems": [
    "Verif.C168_loss"
   ],
   "note": ""
  },
  {
   "property": "C169",
   "status": "proved",
   "theorems": [
    "Verif.C169_ring",
    "Verif.C169_zero"
   ],
   "note": "Capacity zero: the first append raises ZeroDivisionError (C169_zero)."
  },
  {
   "property": "C170",
   "status": "partial",
   "theorems": [
    "Verif.C170_sampling",
    "Verif.C170_no_error",
    "Verif.C170_violated_first",
    "Verif.C170_violated_window",
    "Verif.C170_violated_padding",
    "Verif.C170_average",
    "Verif.C170_target",
    "Verif.C170_soft_update"
   ],
   "note": "Proved for windows of one observation (the ones used): genuine transitions, no error; the moving-average baseline, the target values and the soft update. Violated: the first step of an episode is never sampled (C170_violated_first); windows of 3 and 2 (C170_violated_window, C170_violated_padding)."
  },
  {
   "property": "C171",
   "status": "partial",
   "theorems": [
    "Verif.C171_tasks",
    "Verif.C171_once",
    "Verif.C171_parallelism",
    "Verif.C171_joined",
    "Verif.C171_complete",
    "Verif.C171_progress",
    "Verif.C171_terminates",
    "Verif.C171_violated_lost",
    "Verif.C171_violated_crash"
   ],
   "note": "Proved for all schedules: conservation (no checkpoint twice or lost on the way), at most p at a time, after join everything was executed and sent, no deadlock without crashes, termination. Violated: results in flight are dropped (C171_violated_lost); a crash blocks the main program forever (C171_violated_crash)."
  },
  {
   "property": "C172",
   "status": "partial",
   "theorems": [
    "Verif.C172_validated",
    "Verif.C172_score",
    "Verif.C172_test",
    "Verif.C172_violated_no_epochs"
   ],
   "note": "Proved for at least one epoch, in exact arithmetic. Violated for zero epochs: the initial -inf is reported (C172_violated_no_epochs). Scores that are not numbers are not modelled."
  },
  {
   "property": "C173",
   "status": "partial",
   "theorems": [
    "Verif.C173_greedy",
    "Verif.C173_sorted",
    "Verif.C173_translate",
    "Verif.C173_finished",
    "Verif.C173_violated_truncated"
   ],
   "note": "Proved for every independent decoder: sorting and restoring, the shrinking batch, lengths and words. Violated: a translation that reaches the maximum length loses its last word, which is no end token (C173_violated_truncated)."
  },
  {
   "property": "C174",
   "status": "partial",
   "theorems": [
    "Verif.C174_partition",
    "Verif.C174_buckets",
    "Verif.C174_violated_small"
   ],
   "note": "Proved for data sets of at least one global batch. Violated for smaller ones: with bucketing the iteration raises RuntimeError (C174_violated_small)."
  },
  {
   "property": "C175",
   "status": "partial",
   "theorems": [
    "Verif.C175_batches",
    "Verif.C175_total",
    "Verif.C175_violated_small_groups",
    "Verif.C175_violated_repeat"
   ],
   "note": "Proved whenever the pass ends normally, which it does if every occurring group has at least a batch of samples. Violated for smaller groups (C175_violated_small_groups, C175_violated_repeat)."
  },
  {
   "property": "C176",
   "status": "partial",
   "theorems": [
    "Verif.C176_corpus",
    "Verif.C176_columns",
    "Verif.C176_pairs",
    "Verif.C176_evaluate_partial",
    "Verif.C176_violated_loss",
    "Verif.C176_violated_empty_chunk",
    "Verif.C176_reports_partial",
    "Verif.C176_violated_first_report",
    "Verif.C176_saved"
   ],
   "note": "Proved: the corpus, the columns, the pairs, the saved models; the loss up to the factor (n-1)/n. Violated: the loss is too small by that factor (C176_violated_loss); if the chunk length divides the number of rows minus one a chunk is empty and the run fails (C176_violated_empty_chunk); the first training report is the sum of L+1 losses divided by L (C176_violated_first_report)."
  },
  {
   "property": "C177",
   "status": "partial",
   "theorems": [
    "Verif.C177_eval",
    "Verif.C177_again",
    "Verif.C177_repeat",
    "Verif.C177_violated_order"
   ],
   "note": "Proved for test items outside of the negatives, and repetition always. Violated: the conversion may put the test item among its own negatives (C178_violated_test_item), and then ties depend on the order of the negatives (C177_violated_order)."
  },
  {
   "property": "C178",
   "status": "partial",
   "theorems": [
    "Verif.C178_samples",
    "Verif.C178_violated_all_rated",
    "Verif.C178_leave_one_out",
    "Verif.C178_violated_test_item"
   ],
   "note": "Proved but for the test item itself. Violated: the pool of the negatives contains the test item (C178_violated_test_item); the draw never ends for a user who rated every item (C178_violated_all_rated)."
  },
  {
   "property": "C179",
   "status": "partial",
   "theorems": [
    "Verif.C179_recovery_partial",
    "Verif.C179_steps",
    "Verif.C179_violated_pickle",
    "Verif.C179_violated_npz",
    "Verif.C179_violated_silent"
   ],
   "note": "Proved for runs that were not stopped while writing the matrix (or the list, the matrix existing: C179_violated_pickle) and for training files that can be parsed. Violated: a run stopped while writing the matrix makes all later ones fail (C179_violated_npz); exceptions are suppressed by TimingContext, so a data set without data is returned (C179_violated_silent)."
  },
  {
   "property": "C180",
   "status": "partial",
   "theorems": [
    "Verif.C180_step",
    "Verif.C180_result_partial",
    "Verif.C180_violated_attention",
    "Verif.C180_violated_normalization",
    "Verif.C180_batch"
   ],
   "note": "Proved per sentence without the coverage penalty; a batch of any size is translated sentence by sentence (C180_batch); the normalized sum is compared only if all beams ended before the last pass. Violated: the accumulated attention does not follow the hypotheses (C180_violated_attention); hypotheses that end with the last pass are compared without normalization (C180_violated_normalization)."
  },
  {
   "property": "C181",
   "status": "partial",
   "theorems": [
    "Verif.C181_filters",
    "Verif.C181_channels",
    "Verif.C181_kernels",
    "Verif.C181_kernels_one",
    "Verif.C181_rows_cols_partial",
    "Verif.C181_violated_groups",
    "Verif.C181_violated_kernels"
   ],
   "note": "Proved for filters, channels and kernels. Violated: rows and columns ignore the group length except in the divisor (C181_violated_groups), which is also the wrong size (C58); groups of kernels may straddle filters (C181_violated_kernels)."
  },
  {
   "property": "C182",
   "status": "partial",
   "theorems": [
    "Verif.C182_sizes_partial",
    "Verif.C182_batches",
    "Verif.C182_consistent",
    "Verif.C182_violated_classes",
    "Verif.C182_violated_labels"
   ],
   "note": "Proved: class sizes for labels below 1000, independence of batches. Violated: the number of classes is always 1000 and the average is over 1000 (C182_violated_classes); label 1000 is counted as 999 and larger ones are lost (C182_violated_labels)."
  },
  {
   "property": "C183",
   "status": "partial",
   "theorems": [
    "Verif.C183_segment",
    "Verif.C183_words",
    "Verif.C183_text_partial",
    "Verif.C183_text_error",
    "Verif.C183_size",
    "Verif.C183_roundtrip_partial",
    "Verif.C183_violated_double",
    "Verif.C183_violated_mark"
   ],
   "note": "Proved: segmentation for all vocabularies and histories; texts of numbers that are the last place of their token, round trip of lines of listed words whose stems have no '@'. Violated: a token listed twice leaves a number without a text, on which detokenize raises KeyError (C183_violated_double); a token with the mark inside loses it (C183_violated_mark)."
  },
  {
   "property": "C184",
   "status": "proved",
   "theorems": [
    "Verif.C184_pairs",
    "Verif.C184_sorted",
    "Verif.C184_collate"
   ],
   "note": "Lengths count BOS and EOS; a limit of 0 is none. torch.sort only as some descending argsort."
  },
  {
   "property": "C185",
   "status": "partial",
   "theorems": [
    "Verif.C185_runs_partial",
    "Verif.C185_none",
    "Verif.C185_violated_quotes"
   ],
   "note": "Proved for arguments that are not empty and without white space. Violated: the arguments are joined without quotes, so that one with a blank is split and an empty one is lost (C185_violated_quotes)."
  }
 ]
}