# A Lean 4 model of NervanaSystems/distiller

Status: this file was first written before the proofs (the plan); it is kept
current as the model grows.  `MANIFEST.json` maps every property of
`properties.jsonl` to the theorems that settle it.

## 1. Layout

* `lean/Verif/Basic/*`   – tiny shared library: Python-like dictionaries, exceptions
  as values, tensors, rounding.
* `lean/Verif/Model/*`   – the model, one file per Python module, function by
  function, each definition citing the file and lines it models and the
  simplifications made.
* `lean/Verif/Lemmas/*`  – helper lemmas, nothing a reader needs to trust or read.
* `lean/Verif/Props/*`   – the property theorems `Cxx_...`, each followed by an
  `example` showing a concrete, non-trivial instance of its hypotheses.  Where a
  property needs vocabulary of its own, the small specification stands at the
  head of the file, before the proofs, and does not use the model's helpers.

Naming: `Cxx_name` is proved in full generality; `Cxx_name_partial` proves part of
the property (its comment says what is missing); `Cxx_violated_name` shows, by a
concrete witness or for all inputs of a kind, that the code does *not* have the
property (see section 5).

## 2. Modelling conventions

* **Numbers.** Python/torch floats are modelled by exact rationals `ℚ` (a few
  definitions are over an arbitrary linearly ordered field).  Rounding of
  floating point, overflow, NaN and infinities are *not* modelled.  Where the
  code calls a transcendental function (sqrt, log2, tanh) the model takes the
  result as a parameter with its defining inequality, or the theorem is stated
  over `ℝ`.
* **torch.round** is round-half-to-even, defined from the integer floor.
* **Tensors** are a row-major list of entries plus a shape where the shape
  matters, as in torch; `view` keeps the list.
* **Exceptions** are values: `Except Err α`.  Functions which mutate state and
  then raise return the state reached, so that partial effects are visible.
* **Dictionaries** are association lists in insertion order (Python >= 3.7
  semantics): `dict[k] = v` overwrites in place or appends.
* **Objects with identity** (policies, maskers, modules) are referred to by
  natural number ids or by their name; mutation is state passing.
* **External calls** (the optimizer, the user's model, `validate_fn`) are
  parameters: the theorems hold for every function in their place.

## 3. Trusted base

* Lean 4.33.0's kernel.  The theorems depend on no axioms but `propext`,
  `Classical.choice` and `Quot.sound` (the Lean standard ones); no `sorryAx`-like
  placeholder, no compiled evaluation.
* The reading of the Python source: every model definition cites the lines it
  models.  The code was never executed.
* The semantics of the torch primitives used (`topk`, `gt`, `where`, `view`,
  `index_select`, `clamp`, `round`, `mean`, ...) as written in `Verif/Basic`
  and in the model files.

## 4. Plan per property

| id | what is modelled | how proved |
|----|------------------|------------|
| C01 | `add_policy`, `policies` dict, epoch callbacks as an invocation trace | induction over the list of `add_policy` calls; range membership lemma |
| C02 | `add_policy` assertions with partial effects | case analysis |
| C03 | scheduler + masker + Pruning/Regularization policies as a transition system, optimizer = arbitrary function | invariant; one-step lemma for `mask_all_weights` |
| C04 | `apply_mask`/`revert_weights` folded over the active policies, whole histories | exact: one pruning policy among any others keeps the weights (histories by invariant), two or more always lose them |
| C05 | `on_epoch_end` with `keep_mask` + later histories, other policies active | induction over callbacks |
| C06 | `RegularizationPolicy.on_minibatch_end` | case analysis on the counters |
| C07, C08 | `state_dict`/`load_state_dict` over insertion-ordered dicts, device copies ignored | dictionary lemmas; negation of atomicity by witness |
| C09 | `normalize_module_name` on dotted names (list of components, and string level) | list lemmas |
| C10 | `before_backward_pass` fold | induction over the policies |
| C11 | `on_epoch_begin`/`on_minibatch_begin` decision logic and its trace over an epoch | arithmetic |
| C12 | constructor check, hook registration and removal | case analysis / invariant |
| C13 | `create_mask_threshold_criterion` | pointwise |
| C14 | `topk` as the prefix of the sorted magnitudes | sorted-list counting lemmas |
| C15 | the four lookup functions | case analysis on dict lookup |
| C16 | `AgpPruningRate.step` | ordered-field arithmetic, integer division lemma |
| C17 | Baidu threshold | ordered-field arithmetic |
| C18, C19 | pruner state with cached statistics | invariant over histories |
| C20 | `num_structs_to_prune` with a rounding parameter | integer arithmetic |
| C21 | `expand_binary_map` as torch `expand`/`view`/`transpose` on flat lists | index arithmetic |
| C22 | ranking + `gt` | reuse of C14's lemmas |
| C23 | leader/follower cache as a state machine | induction over the enumeration |
| C24, C25 | metrics on flat lists | counting lemmas |
| C26–C32 | `q_utils.py` over ℚ | ordered-field and floor arithmetic |
| C33 | `_get_clipping_values` | negation with witness + partial for modes where it holds |
| C34, C35 | parameter-layer wrapper: integer accumulator, shift state machine | ring identities on sums; invariant |
| C36 | override resolution with an abstract matcher | list search lemmas |
| C37 | quantizer parameter table | invariant over histories |
| C38 | EMA | closed form by induction |
| C39 | clipped linear quantizers | arithmetic |
| C40 | BN folding on dot products | field identity |
| C41 (whole networks) | networks as expressions evaluated with the parameters found in the model, so the same definition evaluates the thinned one | exact content of the filters recipe (`RDirs`), then induction over the network: every subnetwork computes the surviving ones of its maps |
| C41–C43 | recipes over shapes and flat tensors | sums over kept indices; idempotence of guarded `index_select` |
| C44 | checkpoint dictionary | case analysis |
| C45–C47 | collectors as folds over batches | induction; witness for the negation of C46 |
| C48 | LR | bisect lemma |
| C49 | tracker history | sortedness invariant |
| C50 | split | list lemmas |
| C51 | DFS with done list | fuel-free termination + reachability invariant |
| C52 | `filter_kwargs`, `build_component` | partition lemma |
| C53 | KD policy | state machine |
| C54 | argmax fold | induction |
| C55 | masker `is_regularization_mask` flag across policies | witness of the violation; positive part by case analysis |
| C56 | `init_from_masks_dict` | dictionary lemmas |
| C57 | grouped filter pruning | integer arithmetic; violation for all inputs |
| C58, C59 | group thresholding, criterion-ranked pruners on flat tensors | counting lemmas |
| C60 | block pruning (`rank_and_prune_blocks`) | index arithmetic over chunks |
| C61 | `model_params_stats` | fold lemma |
| C62 | tensor/per-channel parameters followed by fake quantization | C28 on the observed range |
| C63, C64 | `set_linear_quant_param` histories, stale buffers | invariant; witnesses |
| C65, C66 | QAT parameter quantizer and STE | floor arithmetic; tie witness |
| C67 | `SimulatedFoldedBatchNorm` as a state machine | field identities |
| C68 | `fuse_modules` over a graph | list induction |
| C69 | replay of stored recipes on a fresh model | simulation relation between the two models |
| C70–C72 | histogram and record collectors, collection context | induction over batches/events |
| C73 | LR schedulers across resume | closed form + witness |
| C74, C75 | adjacency map, topological order | graph lemmas (acyclicity by rank) |
| C76–C78 | `config.py` dict -> scheduler | fold invariant against an independent description |
| C79 | KL divergence of the distillation loss | Gibbs' inequality over ℝ |
| C80 | greedy pruning loop | loop invariant, decreasing measure |
| C81 | Matmul/Concat/EltwiseAdd/EltwiseMult wrappers | ring identities, rounding bounds |
| C82 | conversion to PyTorch parameters and tensors | integer arithmetic |
| C83 | stats-based clipping ranges incl. ACIQ | ordered-field arithmetic |
| C84 | metadata handed to pruners | bisimulation of two environments |
| C85, C86 | `run_training_loop` with the scheduler | invariant over epochs, end-to-end composition with C14/C16 |
| C87–C89 | early exits: validation, loss, `attach_exits` | induction over samples / module trees |
| C90 | `perform_sensitivity_analysis` | reuse of the scheduler model; k-th order statistic |
| C91, C92 | L1 / group-Lasso / group-variance regularizers, thresholding | real sums over views; C21 for the masks |
| C93, C94 | `ptq_coordinate_search`: encoding, best-so-far over arbitrary optimizer events | induction over keys / events |
| C95 | `ptq_greedy_search`: candidates, local search, layers, resume | dictionary-merge algebra, induction over layers |
| C96 | `DistillerLSTMCell/LSTM` over a commutative ring with arbitrary activations | induction over steps and layers against the layer-by-layer reference |
| C97 | conversions from/to `nn.LSTM`, module trees, packed sequences | loop invariants, mutual induction over trees |
| C98 | `_pre_process_container` on module trees with object identities, `named_modules`/`named_children` deduplication | mutual induction over trees, state invariant over the visit |
| C99 (and C41 on traced graphs) | `remove_channels` on network expressions; `Drawn`: a recorded graph of operations and data nodes contains the expression; `SGraph.toTGraph`: the queries of thinning.py as `successors_f`/`predecessors_f` | exact content of the channels recipe (`RDirsC`), induction over the network with the set of channels its readers use; walks in the graph (C51) by induction over the expression |
| C100 | `_apply_fuse_relu`, `replace_fake_quant`'s identity rule, wrapper forward, on traced operation lists with arbitrary module functions (PTQFuse) | simulation over the operations: the prepared run against a reference run with quantizers inserted; the removed ReLU sees a fixed point of itself |
| C101 | `_apply_bn_folding` (statistics), `_clip_stats`, `_apply_activation_stats_fusions` | frame and effect lemmas per step, induction over the modules; monotone functions with bounded tails for tanh and sigmoid (over the reals) |
| C102, C103 | `Conv2dWithMask.forward`, `replace_conv2d` (DropFilter) | induction over histories with the pass counter as invariant; replacement by computation for any initialization |
| C104 | `StructureRemover` callbacks, with the pruning policies of Scheduler (Remover) | split of an epoch at its first minibatch; reuse of the masking lemmas of C01 |
| C105, C106 | graph construction and `__merge_pad_avgpool` (Trace) | invariant of the loop over trace nodes; contraction of a private node preserves reachability (induction on paths) |
| C107 | dropout scope workaround (Trace) | induction over the trace, the dictionary restricted to dropouts ahead |
| C108 | `add_macs_attr`, `add_footprint_attr`, `add_arithmetic_intensity_attr` (Perf) | cardinality of the index set of the defining sums, channels of a group counted by a bijection |
| C109, C110 | visitors, `Module.apply`, `make_non_parallel_copy` on trees of modules with identities (Perf) | mutual structural induction over trees; the function of a tree for arbitrary module functions |
| C111, C112 | `model_setattr`, `convert_tensors_recursively_to` (Attr) | induction over the name, over nested values |
| C113 | `truncated_svd`, `TruncatedSVD.forward` (TSVD) for any decomposition with the properties torch documents | orthonormality of the columns (Pythagoras, Bessel) over the reals |
| C114 | `masks_sparsity_summary` (MaskSummary) | loop invariant; comparison with C61 |
| C115 | both passes of the conversion (TorchConvert): module trees; the forward code as an interaction tree over arbitrary module functions; hooks keep the last recorded call | induction over the interaction tree (the recorded and the cleaned run stay in step), over module trees |
| C116 | `_prepare_input` of integer and fake-quantizing wrappers with the attribute on the caller's tensor as state (SharedInput) | induction over the sequence of readers |
| C117 | `to_pytorch_quant` of parameter layers on the layer state machine of QLayer (TorchLayer) | invariant over histories (C24's canonical form), rounding lemmas of C82 |
| C118, C119 | embedding wrapper as a state machine, clipping getters and setters (Embedding) | invariant over histories; algebra of scales |
| C120 | parameter layer without statistics as a state machine (DynLayer): weight, bias and activation parameters from tensors, bias re-quantization per batch, in-place weight shift, padding | invariant: the state before the accumulation is a function of the initial state and the input scale; then algebra |
| C121 | construction of input settings with the pair `verify_quant_mode` returns, and what comparisons with it give (DynLayer) | closed form of the parameters |
| C122 | fake-quantization wrapper with the caller's tensor as an in-out value; wrapped module returns a fresh tensor or its input | case analysis |
| C123, C124, C125 | AMC environment as a state machine (AMC): metadata, actions, compute bookkeeping, episodes, checkpoints; pruner and evaluation are arbitrary functions | invariants over resets and steps; for the budget an invariant relating removed, remaining prunable compute and slack |
| C126 | construction of the metadata from the graph's layers and dependency tuples (AMC) | case analysis on the construction |
| C127, C128 | reward functions, action mapping and clamping (AMC) | real arithmetic |
| C129 | collection of feature-map samples, regression (oracle with the least-squares property) and placement of coefficients (FMRecon) | algebra over sums of windows; equality of regression rows and convolution outputs |
| C130 | random and Bernoulli filter masks, draws as arguments (RandomPruner) | counting in permutations; sums over all subsets of filters |
| C131 | `_init_learner` on top of the checkpoint, scheduler and training-loop models (Resume) | relational: a bisimulation between the states of the two executions that is preserved by every callback, plus the checkpoint round trip |
| C132 | `_finalize_epoch` with the tracker model (Resume) | induction over epochs with C49 |
| C133 | `fold_batch_norms` on traced networks with named modules (FoldNet, using BNFold's scan) | characterization of fused pairs; forward simulation between the executions of the two models |
| C134 | conversion of module lists over module trees, with torch's registration rules (ModList) | mutual structural induction on trees |
| C135 | the replacement functions of the post-training quantizer as one decision per module (PTQConfig) | case analysis over all settings, closed forms for the result |
| C136 | arguments to override dictionary to per-module bits (PTQConfig on top of C36's regular expressions) | the dictionary characterized by induction over the lists; C36 for the lookup |
| C137 | the summary collector with its meters, and the per-channel functions of utils.py on tensors (ActSummary) | weighted running mean equals the total by induction over mini-batches; counterexamples for the gaps |
| C138 | constructors as keyword binding plus the metadata they store; loading as construction from metadata; preparation of the statistics from C101 (QReload) | names of enum members parse back; each stored setting traced through; the fusion steps satisfy m.a.m = m.a, hence the pass is idempotent |
| C139 | class dictionaries, method resolution order, instance attribute `inputs_quant`; calls with a bounded stack (ClassPatch) | invariant over the sequence of preparations; recursion shown endless for every stack size |
| C140 | modules with named parameter objects (identities, so sharing is visible), backups, ReLU replacement, add_param_group (OptGroups) | set of identities invariant under backups; new identities fresh; membership in exactly one group |
| C141 | conversion of the wrappers without parameters, QFunctional modules over quantized tensors (TorchOps) | rounding identities between both grids; triangle inequality for the sum |
| C142 | weights_sparsity_summary with IEEE double rounding of the element counts (SparsSummary) | relative error of one rounding, induction over the state dictionary; C24/C25 for the percentages |
| C143 | normalize/denormalize_module_name over module trees (SchedulerState, Perf) | mutual induction over the tree; the last match in pre-order is the wrapped module |
| C144 | _get_quant_params_from_tensor with all clipping modes, ACIQ clippers on tensors (TensorClip) | the reductions of the code satisfy the specification of the statistics; case analysis over clipping modes; C83 for the range |
| C145 | initialization of the coordinate search: modes, stored arguments, optimize_for_layer (SearchInit) | induction over the layer order with a frame lemma per layer; minimizer = arbitrary list of evaluated points |
| C146 | listing and setting of parameters by name, quantizer and wrapper level (ParamNames) | frame lemma for one module; induction over the configuration |
| C147 | collect_quant_stats: selection, hooks, two passes, required statistics (QuantStats) | per-module projection of the run, then C45 |
| C148 | find_dependencies (Deps) over the graph search of C51 | induction on the recursion depth, measure given by a numbering of the graph |
| C149 | extract_lottery_ticket (Lottery) composed with checkpoint loading (C44) and scheduler runs (C03) | induction over the masks, then composition |
| C150 | evaluate_model, quantize_and_test_model, acts_quant_stats_collection (EvalQuant), with quantization and testing as arbitrary functions | induction on the session |
| C151 | _validate_input_shape, get_dummy_input (Inputs) against an inductive definition of shapes | mutual induction on the nesting |
| C152 | convert_tensors_recursively_to (Inputs) | induction on the nesting |
| C153 | float_range_argparse_checker (Inputs), float parsing an arbitrary function | case analysis |
| C154 | resnet_cifar_remove_layers, BasicBlock.forward (LayerGates) | induction over the parameters; the forward pass by unfolding |
| C155 | freeze_training, freeze_all, adjust_dropout, torch SGD steps (Directives) | structural induction over the module tree; induction over the training steps |
| C156 | named_modules, assign_layer_fq_names, find_module_by_fq_name (Directives) | invariant of the depth-first search with memo: every listed module outside the stack is listed with all its descendants |
| C157 | create_model and what it calls (CreateModel), constructors arbitrary | case analysis of the stages |
| C158 | patch_torchvision_mobilenet_v2 (CreateModel) | induction over the blocks; mean of the row means = mean |
| C159 | TBBackend, TensorBoardLogger, log_training_progress (Logging) | induction over the history; invariant: writers are numbered without gaps |
| C160 | CsvLogger (Logging) | induction over the history of calls; error bounds of two roundings |
| C161 | save_per_layer_parameters (PTQReport) | closed form of the loop, induction over the override map |
| C162 | prepare_model, _apply_bidi_distiller_lstm_stats_fusion (PTQReport) | induction over the cells |
| C163 | ptq_coordinate_search prologue, cmdline_args_to_dict, get_inputs_to_quantize (PTQReport) | case analysis, inductions over the dictionaries and lists |
| C164 | _config_determinism, set_seed, set_deterministic, get_data_loaders (Setup) | closed form of the configuration, composition with arbitrary programs |
| C165 | create_activation_stats_collectors, collectors_context, start/stop, the phases' loops (Setup) | induction over the sequence of runs, invariants |
| C166 | load_data, load_datasets, get_data_loaders, samplers (Setup) | case analysis, permutations, induction over epochs |
| C167 | _config_compute_device (Setup) | induction over the list |
| C168 | the loss part of train, inception_training_loss (Setup) | case analysis |
| C169 | RingBuffer (Replay) | representation invariant, induction over appends |
| C170 | SequentialMemory, DDPG.update_policy, soft_update (Replay) | refinement to the list of entries, induction over histories |
| C171 | finetune_directory, FinetuningProcess.run (Parallel) | transition system; inductive invariant over multisets, termination measure |
| C172 | finetune_checkpoint (Parallel) | floor/ceiling arithmetic, induction over the epochs |
| C173 | greedy_search, translate, batch_padded_sequences (Seq2Seq) | invariant relating the active rows to runs of single sentences, induction over the steps |
| C174 | BucketingSampler.__iter__ (Sampler) | permutation algebra of rows and strides |
| C175 | GroupedBatchSampler.__iter__ (Sampler) | loop invariant on the two dictionaries, induction |
| C176 | Dictionary, Corpus, batchify, get_batch, evaluate, train reports (LangModel) | dictionary invariant; chunk algebra; network as any row-wise recurrent function |
| C177 | predict, eval_one, val_epoch (NCF) | stable sort: the last entry comes after exactly those of at least its score; dictionary of the scores |
| C178 | CFTrainDataset, conversion loop (NCF) | rejection loop = first unrated draw; induction over users |
| C179 | _load_train_matrix, TimingContext (NCF) | case analysis over file states and crash points |
| C180 | beam_search for the rows of one sentence (Beam) and for a batch (BeamBatch) | invariant: every row is a hypothesis of the inductive specification; pigeonhole: topk selects finite entries; batch: the rows of the unfinished sentences are blocks of the flat tensors, simulation pass by pass |
| C181 | norm functions with any group length (Structures, GroupNorm) | chunk of a concatenation of chunks |
| C182 | dataset_summary (DatasetSummary) | flattening of the batches |
| C183 | Tokenizer (TransData) | dictionaries by reverse induction on the vocabulary; removal of the mark by induction on the pieces |
| C184 | ParallelDataset, collate (TransData) | entries of a tensor after a fold of column assignments; stability of insertion sort |
| C185 | multi-run.py command lines (MultiRun) | words of a joined line |

Not expressible in this model: training accuracy, gradients computed by
autograd, GPU/device placement, file-system behaviour of `torch.save`, thread
interleavings of data-loader workers, floating-point rounding.

## 5. Findings

Places where the code does not have the property a user would expect.  Those with
a theorem name are proved of the model; the others were found while reading and
are recorded for completeness.

Scheduling and masking
* Two pruning policies active in one epoch always lose the unmasked copy
  (`C04_violated_always`); a thresholding regularizer next to a double-copy policy leaves a stale copy
  that undoes the thresholding in the next minibatch (`C04_violated_threshold`); `fold_batchnorm` with minibatch pruning masks the folded
  temporary instead of the weights (C03/C04); registering the gradient hook on a
  folded tensor raises.
* `keep_mask`, hook removal and keeping a regularization mask never happen when
  the frequency does not divide `ending - 1 - starting` (`C05_violated_frequency`).
* With `mask_on_forward_only`, validation and non-final checkpoints use unmasked
  weights (`C85_violated_forward_only`).
* `is_regularization_mask` is never reset: a later pruning mask is dropped by the
  first `apply_mask` (C55).  Two `mask_gradients` policies leak a hook
  (`C12_violated_two_policies`).
* Only masks, not masking modes, are saved (C07); a failing `load_state_dict`
  has already overwritten some masks (C08); `init_from_masks_dict` with
  `normalize_dataparallel_keys` drops all masks (C56).
* `skip_first_minibatch` catches up only at global step 1 (C11).  Registering one
  policy object twice overwrites its metadata.
* After QAT renaming, `zeros_mask_dict[param_name]` is a KeyError; undotted renamed
  names are an IndexError in `mask_all_weights`.

Pruners
* AGP with an epoch list: frequency `None`, TypeError; level 0 gives an IndexError
  from `topk(0)[-1]`; Baidu ramp offsets can divide by zero.
* `num_structs_to_prune` can exceed the number of structures (C20); group size > 1
  never works (C57); the `rounding_fn` argument is not passed on; a leader group
  with nothing to prune asserts (C23); Leader with Activation/Random/Bernoulli/
  Gradient pruners always raises; the Bernoulli mask is not binary; `Mean_Abs`
  rows/columns divide by the wrong size (C58); `expand_binary_map('4D')` returns
  None; 'Rows' prunes columns of a 2-D matrix; the ActivationMean pruner removes the
  most active filters (C59); block pruning violates the documented super-block
  shape (C60).
* `greedy_pruner` always raises at its end, or loops forever when nothing is
  prunable (C80).
* Sensitivity analysis prunes cumulatively and, for filters/channels, also prunes
  parameters whose name is a substring (C90).
* The 'Channels+4D' group regularizer calls a method that does not exist (C91);
  'Rows+Cols' and '4D' cannot be thresholded (C92).

Quantization
* `_get_clipping_values` is wrong for signed-asymmetric and restricted-symmetric
  modes (C33).
* `set_linear_quant_param('w_scale')` after a forward pass with asymmetric weights
  corrupts outputs and state dict (C35); the quantizer-level setter only fills a
  buffer (C63); `accum_scale` goes stale (C64); the weight-clipping setter ignores
  the restricted range; the embedding wrapper's conversion reads a missing
  attribute.
* EltwiseAdd is not the fake-quantized sum (C81); torch conversion saturates
  differently for restricted-symmetric and `reduce_range` may use integer 128 (C82);
  ACIQ ranges can exceed the observed range more than threefold (C83).
* Overrides (C36): capture groups shift the chosen entry; unparenthesised
  alternatives break anchoring; exact keys beat earlier patterns.
* QAT: the configured mode is ignored (C65); ties map a weight to `2^bits` (C66);
  WRPN outputs exceed 1 (C39); simulated BN folding scales weights twice in the
  freezing pass (C67); `fuse_modules` fuses unconnected neighbours (C68).

* Searches: the coordinate search leaves the model at the last evaluated point and
  fails with basin hopping (C94); the greedy search keeps only the last of a layer's
  quantized inputs, re-searches resumed layers with quantized inputs, clips the output
  layer to half its range and never uses the 16-bit setting (C95); used as a library
  its module-level logger is None (AttributeError); `optimize_for_layer` keeps the last
  evaluated parameters.

* Modular LSTM: with dropout in training a lower layer's dropped-out output becomes
  its recurrent state (C96); a cell without a state takes the batch size from the wrong
  dimension (C96); conversion switches an evaluation-mode LSTM to training mode, unsorted
  packed batches raise, `init_weights` reads a missing attribute (C97).

* Module replacement: an object under two names of one container (the docstring's toy
  model) is replaced under the first name only; a shared module without a replacement
  function raises KeyError at its second use (C98).

Preparation for post-training quantization
* A ReLU module used more than once becomes `nn.Identity` because of its first use and vanishes from the
  others (`C100_violated_shared_relu`); a layer whose output is both returned and passed to a ReLU is
  clipped (`C100_violated_tapped_output`).
* ReLU6 is fused like ReLU: without statistics, or with GAUSS/LAPLACE clipping, its upper bound is lost
  (`C100_violated_relu6_dynamic`, `C100_violated_relu6_aciq`).
* A split whose parts are consumed by nothing (returned) counts as "all ReLU" (`C101_violated_split_outputs`).
* Clipped statistics keep their mean, and the averaged minimum is not clipped from above: N_STD or AVG
  clipping can then produce an empty range and `ValueError` (`C101_violated_deviations`,
  `C101_violated_averages`).

Drop-filter regularization
* The keep probability is 1.0 and nothing in the library sets it: no filter is ever dropped
  (`C102_violated_never_drops`).  `DropFilterRegularizer` inherits `loss` raising `NotImplementedError`, so that
  a `RegularizationPolicy` with it fails on its first batch, and it is not exported (not modelled).
* Switching layers loses weights, groups and dilation, and raises `RuntimeError` for every layer with a bias
  and more than one filter (`C103_violated_weights`, `C103_violated_groups`, `C103_violated_bias`).

Schedules with structure removal
* A remover registered before the pruning policy of its epoch thins the unpruned model
  (`C104_violated_order`).

Graph construction
* A module called like a generated operation name overwrites that operation (`C105_violated_names`).
* A padding whose result is used elsewhere, or followed by a pooling of another module, is merged anyway and
  cuts off other operations (`C106_violated_shared_padding`, `C106_violated_stale_padding`).
* Dropouts that are reused, or functional, rename other operations (`C107_violated_reused_dropout`,
  `C107_violated_functional_dropout`).

Summaries and utilities
* MACs of linear layers ignore the batch (those of convolutions do not), and a linear layer on more than two
  dimensions or a transposed convolution counts 0 (`C108_violated_batch`, `C108_violated_types`); missing shapes are
  tolerated by the MACs but raise in the footprint (`C108_violated_missing_shape`).
* A layer that is part of two containers is listed twice per call (`C109_violated_shared`; the `memo` that should
  prevent this is never filled); linear layers are counted for one row (`C109_violated_rows`).
* Nested `DataParallel`s, and one registered under two names, survive `make_non_parallel_copy`
  (`C110_violated_nested`, `C110_violated_shared`).
* `model_setattr` with an unknown container sets an attribute with a run-together name on the nearest ancestor
  (`C111_violated_missing`).
* Named tuples raise or lose their value, dictionaries are not converted (`C112_violated_*`).
* `TruncatedSVD` replaces the layer's bias by random ones (`C113_violated_bias`), and its file lacks the imports of
  `torch` and `nn`, so that importing it raises `NameError` (not modelled).
* The mask summary fails for models with a covered buffer (`C114_violated_buffers`).

Conversion to PyTorch quantization, shared inputs, clipping
* The redundancy analysis keeps the pattern of the *last* dummy call only, so a module that is applied twice loses a
  quantizer it needs (`C115_violated_reused_module`); a wrapper that is not called in the dummy pass makes the
  conversion fail (`C115_violated_uncalled`); if the output is quantized the converted model accepts only one input
  (`C115_violated_multi_input`); a container with two parents is converted twice (`C115_violated_shared_container`).
* The first layer that reads a fresh tensor decides its quantization for all later readers; later fake-quantizing
  readers get it unquantized, later ones with explicit settings raise (`C116_violated_always`, `C116_violated_order`).
* A layer converted after a forward pass with asymmetric weights has every weight of a channel with non-zero
  zero-point wrong (`C117_violated_after_forward`); layers without bias cannot be converted (`C117_violated_no_bias`);
  integer biases are taken for quantized ones (`C117_violated_integer_bias`).
* A quantized embedding with saved float weights cannot be converted (`C118_violated_conversion`); after a move to
  another device its metadata is stale (`C118_violated_stale_metadata`).
* Writing back the clipping range just read changes the scale by a constant factor in the symmetric modes
  (`C119_violated_symmetric`) and always changes the zero-point in the signed mode (`C119_violated_signed`).
* Read but not modelled: keyword arguments are not accepted by the inserted wrappers, named tuples fail in
  `type(x)(generator)`, the Matmul conversion returns a Python list, the element-wise conversions accept two inputs only.

Dynamic-range layers
* `input_overrides` without `from_output`: `verify_quant_mode` turns the mode into a pair, which equals no
  `LinearQuantMode`; so whatever mode is given, parameters are those of an unsigned range and the clamp is the signed
  one, and everything above the middle of the range is cut off (`C121_violated_mode_ignored`,
  `C121_violated_saturation`).  The post-training search writes such dictionaries for inputs.
* A fake-quantization wrapper around a module that returns its input (dropout in evaluation mode, identity, reshape)
  overwrites the caller's tensor (`C122_violated_view`, `C122_violated_witness`).

Automatic compression (AMC example)
* A layer that appears twice among the dependents (a diamond through a depthwise convolution) has its operations cut
  twice, and the environment's sanity check fails (`C123_violated_duplicate`).
* The mac-constrained protocol can miss its target because the pruner rounds the number of structures down
  (`C124_violated_floor`), or because a layer's dependents come after other prunable layers (`C124_violated_order`).
* `creation_masks` are only refreshed when something is removed from the last layer; otherwise the best checkpoint is
  not thinned and carries the masks of an earlier episode (`C125_violated_stale_masks`).
* `convert_layer_names_to_indices` looks only at the first dependent of each layer (`C126_violated_second`), and a
  pruned layer without dependents raises IndexError (`C126_violated_no_dependents`).
* The harmonic-mean reward always prefers the larger of two equally accurate networks (`C127_violated_harmonic`).
* PPO outputs are scaled but not clipped, so fractions can exceed the range, and be negative (`C128_violated_ppo`);
  discrete agents ignore the range (`C128_violated_discrete`).

Channel reconstruction and random pruners
* The regression has no intercept although the collected outputs contain the bias, so layers with a bias are not
  reconstructed even if nothing needed to change (`C129_violated_bias`).
* 1x1 convolutions with stride read the input at output coordinates (`C129_violated_stride`); the column of the unfolded
  input uses the height instead of the width (`C129_violated_nonsquare`); dilation is not passed to `unfold`
  (`C129_violated_dilation`); `squeeze` fails for batches of one sample (`C129_violated_single_sample`).
* The AMC example passes `group_size` in the position of `group_dependency` to this pruner, and the rounding function
  as a keyword argument that is swallowed, so both are ignored (read, not modelled).
* If the Bernoulli pruner drops all filters the mask is NaN (`C130_violated_all_dropped`); its masks are not binary, so
  re-applying them at every mini-batch scales the weights geometrically (`C130_violated_repeated`).

Stopping and resuming
* Checkpoints store masks without the forward-only flag: if the pruning policy does not run in the first epoch after
  resumption, masks are applied to the weights themselves after each update (`C131_violated_forward_only`).
* The flags of pruning policies are not stored: `skip_first_minibatch` skips again in the first epoch after resumption
  (`C131_violated_skip_first`). The standard deviations kept by sensitivity pruning on the parameters are not stored
  either, so thresholds change (`C131_violated_sensitivity`).
* The deprecated `--resume` flag resets the optimizer and the epoch although only `--reset-optimizer` should
  (`C131_violated_deprecated_flag`).
* The tracker of best scores is not stored: the first epoch after resumption overwrites `best.pth.tar`, however bad
  (`C132_violated_resumed`). With `--num-best-scores 0` the first epoch raises IndexError before saving
  (`C132_violated_no_scores`).

Batch-norm folding and module lists
* `fold_batch_norms` changes the function of the network if a layer with two readers runs directly after another layer,
  if a batch-norm runs directly after a layer but reads something else, if a layer or batch-norm is called twice, or if
  a layer's output is also an output of the model (`C133_violated_*`). torchvision's `FrozenBatchNorm2d`, which it claims
  to support, raises AttributeError (`C133_violated_frozen`).
* Members of the module list `a` are renamed `a_0`, `a_1`, … in the traced copy: if the user's module has a sub-module of
  that name, one of them is lost and all following names in the graph are shifted (`C134_violated_clash`); if it has an
  attribute or parameter of that name, the graph cannot be built (`C134_violated_attribute`).

Post-training quantization settings
* An embedding with bits for activations but not for weights, and a layer with no bits but with any override argument, are
  refused with TypeError (`C135_violated_embedding`, `C135_violated_unquantized_with_override`). `fpq_module` leaves layers
  without bits in fp32 and still quantizes the outputs of other leaf modules to integers (`C135_violated_float`).
* `--qe-no-quant-layers a.b` also leaves `a_b` unquantized since names are used as patterns (`C136_violated_dot`);
  `--qe-bits-wts 0` fails on models with embeddings (`C136_violated_zero_weight_bits`); with both bits 0 a layer in
  `--qe-no-clip-layers` is a TypeError (`C136_violated_no_clip_unquantized`).

Activation summaries and checkpoints of quantized models
* Per-channel statistics of a linear layer are a single number (`C137_violated_linear`); mini-batches with larger feature maps
  weigh their samples differently (`C137_violated_sizes`); collectors of different phases share the counters, which are
  attributes of the modules (`C137_violated_phases`); collecting for ReLUs finds none after they were wrapped
  (`C137_violated_wrapped_class`).
* Checkpoints of models trained with WRPN, DoReFa, PACT or quantization-aware range-linear quantization cannot be loaded: the
  quantizer is created without the optimizer it requires (`C138_violated_training`).  With the optimizer added by hand, PACT's
  clip initialization and decay and the bits of the inputs are the defaults again (`C138_training_with_optimizer`).
* A model in half precision is a quantized one after loading (`C138_violated_fp16`); `also_clip_weights` and `save_fp_weights`
  are dropped as well (`C138_ptq_partial`).

Preparing for quantized training
* The input quantization of quantization-aware training replaces `forward` in the class of the model.  A second prepared model
  of that class, or of a derived one, makes both recurse without end (`C139_violated_same_class`, `C139_violated_derived`); an
  unprepared model of the class, such as a teacher, raises AttributeError (`C139_violated_unprepared`); models with several
  inputs cannot be called (`C139_violated_inputs`).
* PACT takes any parameter with `clip_val` in its name for its own; one of the user's makes preparation fail
  (`C140_violated_name`).

Conversion of operations to PyTorch
* The matrix product wrapper is converted to a Python list, so the converted model raises TypeError when it is called
  (`C141_violated_matmul`); sums and products of three or more operands raise TypeError too (`C141_violated_operands`).  Distiller
  requantizes the operands of a sum, PyTorch does not: the results differ (`C141_violated_add`), as do ReLU and pooling, which
  PyTorch leaves on the grid of the input (`C141_violated_relu`).

Sparsity table
* The number of non-zeros is computed as `int(density * numel)` in double precision and can be one too small: a 7×7 matrix with one
  non-zero is reported with none (`C142_violated_nnz`).  Shared parameters are counted once per name (`C142_violated_shared`), and
  after a quantizer that trains with a floating-point copy prepared the model each quantized parameter is counted twice
  (`C142_violated_backup`).  Without a counted tensor the function raises ZeroDivisionError (`C142_violated_none`).

Names
* In a model with a submodule called `module` two layers can have the same normalized name, and denormalizing finds the wrong one
  (`C143_violated_module`).

Clipping of tensors
* Analytical clipping in asymmetric modes starts the range of a tensor at its minimum, but the range from statistics at the averaged
  minimum (`C144_violated_aciq`); averaged extremes of a one-dimensional tensor give the single point at its mean
  (`C144_violated_vector`); per-channel parameters with any clipping raise, for most modes an IndexError (`C144_violated_per_channel`).

Tables and block metrics
* One entry of the analytical clipping tables is off: the half-range Laplace multiple for 3 bits is 5.02, the full-range one for 4 bits
  5.03, while all others are shifted copies (`C83_violated_table`).
* `sparsity_blocks` uses the same view as the block pruner: for `[2, 2, 1, 1]` it reports 0 although one of two documented blocks is zero
  (`C60_violated_sparsity_blocks`).

Initialization of the coordinate search
* `optimize_for_layer` drops the minimizer's result: the layer keeps the parameters of the last evaluated point, which may be worse
  than no optimization (`C145_violated_loss`); clipping modes overwrite the stored arguments for later initializations
  (`C145_violated_again`).

Topological order
* `layers_topological_order(recurrent=True)` fails on every graph with a cycle reachable from an input
  (`C75_violated_every_cycle`); on acyclic graphs the flag has no effect (`C75_recurrent_flag`).

Setting quantization parameters by name
* `PostTrainLinearQuantizer.set_linear_quant_param` of a weight scale or zero-point fills the buffer without re-quantizing the weights
  (`C146_violated_weight_scale`); `named_clipping` of the quantizer raises if one wrapper has no statistics (`C146_violated_listing`).
  A failed update leaves the earlier settings applied (`C146_update_fails`).

Collecting quantization statistics
* `collect_quant_stats(modules_to_collect=...)` raises `RuntimeError` whenever the selection leaves out an eligible module: the check before
  the second pass looks at all modules (`C147_violated_selection`).  Modules that did not run, or have records of an earlier
  collection, are reported with the initial record, minimum 1.8e308 and maximum -1.8e308 (`C147_violated_not_run`).

Dependent layers (AMC)
* `find_dependencies`: for channels, linear layers are passed through, so the layer behind a linear layer is attributed to the convolution
  before it (`C148_violated_linear`); an ordinary convolution with one input channel is taken for depthwise
  (`C148_violated_single_channel`); a layer whose output is added to that of the pruned layer is missing (`C148_violated_residual`);
  a layer reached through two depthwise convolutions is listed twice (`C148_violated_twice`); an empty list of dependencies makes
  `get_network_details` raise `IndexError` (`C148_violated_ends`).

Lottery tickets
* `extract_lottery_ticket`: parameters without a mask in the pruned network's scheduler get one from their zeros and are frozen there
  (`C149_violated_unpruned`); the checkpoint is stored as epoch 0, so training starts at epoch 1, with the optimizer of the pruning run
  (`C149_violated_state`).

Quantized evaluation
* `quantize_and_test_model` stores the statistics it collects in the caller's `args.qe_stats_file`; a later call with another (or
  retrained) model does not collect again and quantizes with the first model's statistics (`C150_violated_stale`).

Nested values
* `convert_tensors_recursively_to` calls `type(val)(generator)`: named tuples raise `TypeError` or, with one field, lose their content
  (`C152_violated_named`); dictionaries are not entered (`C152_violated_dict`).

Layer removal
* `resnet_cifar_remove_layers` looks at all parameters, not only convolutions: all-zero batch-norm offsets, which every new network has,
  close the gate of a convolution or raise `ValueError` (`C154_violated_bias`); zero shortcut weights reuse the variable `conv` of the
  previous round, or raise (`C154_violated_downsample`); a closed gate passes the input on, so a block with both convolutions removed
  doubles its input (`C154_violated_function`).

Directives
* `freeze_training` calls `model_find_param_name`, which `directives.py` does not import: `NameError` for every model with parameters
  (`C155_violated_freeze_training`); `adjust_dropout` compares exact types, so `FeatureAlphaDropout` and subclasses keep their
  probability (`C155_violated_other_dropouts`); freezing only clears `requires_grad`: parameters trained before have a zero gradient
  instead of none, and SGD still applies weight decay and momentum to them (`C155_violated_decay`, `C155_violated_momentum`).

Module names
* A module used under two names is found only under the first (`C156_violated_second_name`).

Creating models
* A registered model is returned also when a pretrained version was asked for (`C157_violated_pretrained_user`); the data set name is
  converted to lower case on lookup but not on registration (`C157_violated_register_case`); `DataParallel` hides the `input_shape`
  the model declares, and the data set's is set instead (`C157_violated_shape`); Cadene's Inception v4 without pretrained weights is
  recorded with 224 x 224 inputs (`C157_violated_inception`).

MobileNet v2
* The patch replaces `forward` in torchvision's classes: instances that were not patched can no longer be called
  (`C158_violated_other_instances`).

Loggers
* Weight histograms are recorded at `steps_completed`, which restarts every epoch, instead of at the overall step
  (`C159_violated_histogram_steps`); `model.named_parameters()` is a generator that the first logger uses up
  (`C159_violated_second_logger`).
* The number of non-zero elements in the CSV sparsity table is truncated from a float product: 29 of 100 is reported as 28
  (`C160_violated_sparse_volume`); a buffer that is `None` in some module makes `log_model_buffers` fail (`C160_violated_none`).

Reports and searches
* The per-layer report gives 8 bits for modules that stay in floating point (`C161_violated_float`), leaves out half-precision
  layers (`C161_violated_fp16`) and per-channel scales (`C161_violated_per_channel`); after a coordinate search it still gives the
  clipping the quantizer was built with (`C163_violated_report`).
* A model with a bidirectional LSTM cannot be quantized without statistics, although that is only warned about
  (`C162_violated_dynamic`), nor inside `DataParallel` (`C162_violated_parallel`).

Sessions
* In a deterministic session `--seed` decides about the initial weights only: loading the data calls `set_deterministic()` without the seed,
  so the order of the data is the same for all seeds (`C164_violated_seed`); all workers have the same seed in every pass
  (`C164_violated_workers`).
* The training and validation loops log the collector `sparsity`, whose key is `sparsity_ofm`: no activation statistics are ever logged
  (`C165_violated_not_logged`).  After a phase was interrupted by an exception its collectors keep collecting and the phase can
  never be run again (`C165_violated_interrupted`).
* Validation runs on the test set if the effective size leaves no validation sample (`C166_violated_validation`); if it leaves no test
  sample, training and validation data are split anew in every epoch (`C166_violated_leak`).  `sequential` without
  `fixed_subset` is ignored (`C166_violated_sequential`).
* Negative GPU numbers are accepted (`C167_violated_negative`).

Replay memory and parallel fine-tuning (AMC)
* The first step of an episode is never sampled from the replay memory unless it is the oldest entry (`C170_violated_first`); sampled states
  of several observations can leak one of the previous episode (`C170_violated_window`) or be padded although the predecessor exists
  (`C170_violated_padding`).
* `parallel-finetune.py` reads results until `results.empty()`: results sent but not arrived are lost (`C171_violated_lost`); a process that dies
  of an exception in its task never calls `task_done`, and the main program waits forever (`C171_violated_crash`); without GPUs it
  fails with a ZeroDivisionError (`C171_tasks`).  Fine-tuning for zero epochs reports minus infinity (`C172_violated_no_epochs`).

Examples (translation, detection)
* A translation cut at `max_seq_len` loses its last real word: the end is removed as if it were the end token (`C173_violated_truncated`).
* `BucketingSampler` raises for data sets smaller than a global batch (`C174_violated_small`).
* `GroupedBatchSampler` fails with an AssertionError when the groups are smaller than a batch (`C175_violated_small_groups`), or repeats samples
  within a batch while others are in no batch (`C175_violated_repeat`).

* The language model's evaluation divides the sum over n - 1 rows by n, so losses and perplexities are reported too small (`C176_violated_loss`); it fails if
  `bptt` divides n - 1 (`C176_violated_empty_chunk`); the first training report is too large (`C176_violated_first_report`).

* Evaluation of the recommender: `eval_one` appends the test item to the caller's list; if the test item is among the negatives, a tie is won or lost depending
  on their order (`C177_violated_order`).  `x.cuda(async=True)` (ncf.py:103) is a syntax error from Python 3.7 on.

* The negatives of a user's test pair are drawn, with replacement, from a pool that contains the test item (`C178_violated_test_item`: `user_to_items[user]` has been
  popped already); the sampling of training negatives does not terminate for a user who rated all items (`C178_violated_all_rated`).

* `TimingContext.__exit__` returns `True`, so every exception inside of its blocks is suppressed: a training file that cannot be parsed gives a data set without
  attributes and an empty `.pkl` file (`C179_violated_silent`); an incomplete `.npz` file breaks every later run (`C179_violated_npz`).

* Beam search: `accu_attn_scores` is not rearranged with `source_beam`, so the coverage penalty of a hypothesis is that of another one
  (`C180_violated_attention`); sentences that end with the last pass are ranked without length normalization (`C180_violated_normalization`).

* `rows_norm` and `cols_norm` ignore `group_len` except in the divisor: one norm per row, divided by the size of a group (`C181_violated_groups`); if the group length
  does not divide the number of channels a group of kernels mixes filters (`C181_violated_kernels`).

* `dataset_summary` reports 1000 classes and divides by 1000 for every data set (`C182_violated_classes`); label 1000 is counted for class 999, larger labels are lost
  (`C182_violated_labels`).

* GNMT tokenizer: a token listed twice in the vocabulary counts twice in `vocab_size`, but the number of its first place has no text and `detokenize` raises `KeyError`
  for it (`C183_violated_double`); `@@` inside a token is lost (`C183_violated_mark`).

* multi-run.py joins the arguments without quotes: one with a blank comes as two, an empty one is lost (`C185_violated_quotes`); failures of the runs are not reported.

Thinning and graphs
* `successors_f`/`predecessors_f` looking for batch-norms do not stop at convolutions: if a
  convolution has no batch-norm of its own, removing its filters cuts the batch-norm after the *next*
  convolution (`C41_violated_bn_after_next_conv`), and `remove_channels` cuts the batch-norm before the
  *previous* one (`C99_violated_bn_before_previous_conv`).  Found while connecting the network
  theorems to the graph walk.
* `remove_channels` removes unused input channels of the first convolution, which the network's input
  still has (`C99_violated_first_layer`).
* Re-executing recipes with an FC successor raises (C42); FC masks and momentum are
  cut to the wrong width (C43); depthwise groups, missing gradients, sibling
  consumers (C43); a zero filter with a bias is removed although its output is not
  zero (`C41_violated_bias`), and so are zero filters of a layer nothing reads, which changes
  the number of outputs (`C41_violated_last_layer`); branches merging different zero filters are thinned
  with the first one's indices.
* `successors_f` may list an op twice (C51); a cached adjacency map ignores its flag
  (C74); `layers_topological_order(recurrent=True)` does not terminate on cycles
  (C75).

Collectors, data, training
* Average min/max weighted by element count (C46); a rejected meter update still
  changes the sum (C47); hooks leak when the collection body raises (C71);
  `fixed_subset` lets validation overlap training and tiny effective sizes give an
  empty subset (C50); resuming can change learning rates (C73).
* Checkpoints: DataParallel without scheduler refused, lean load still loads the
  scheduler, mismatches detected after overwriting weights (C44).
* KD keeps stale logits (C53).  Early exits: returned loss 0 when no sample reaches
  the last exit (C87), dropped weights (C88), nested exit points (C89).
* Configuration: `build_component` consumes the dictionary (C77); a refused file
  leaves earlier policies registered (C78); library arguments override the user's
  silently, unknown policy arguments are dropped (C52).

## 6. Coverage

| file of /repo/distiller | modelled | not modelled |
|---|---|---|
| scheduler.py, policy.py | all callbacks, masks, state dict, loss threading | logging, device copies |
| pruning/*.py | magnitude, level, sensitivity, splicing, AGP, Baidu, structure rankers (Lp, activation, gradient-order), greedy | FM reconstruction, random/Bernoulli sampling (as arbitrary) |
| thresholding.py, utils.py (metrics, stats, names) | group thresholding, sparsity/density metrics, name normalization, `filter_kwargs`, `_validate_input_shape`-free parts | plotting, seeds |
| quantization/q_utils.py, range_linear.py | parameters, ranges, parameter layers, Matmul/Concat/Eltwise wrappers, stats clipping, setters | embedding/RNN wrappers, logging, YAML dumps |
| quantization/quantizer.py, clipped_linear.py, sim_bn_fold.py | overrides, parameter table, WRPN/DoReFa/PACT, QAT, simulated folding | module replacement factories in general |
| quantization/ptq_coordinate_search.py, ptq_greedy_search.py | encoding, validation, best-so-far, candidates, layer loop, resume | scipy's optimizers, `optimize_for_layer`'s per-tensor losses, logging |
| modules/rnn.py | cell, layers, directions, packed sequences, conversions | `nn.LSTMCell` conversion, devices |
| quantizer.py `_pre_process_container` | traversal, blacklist, sharing, override arguments (Replace) | entries added for new sub-layers, warnings |
| thinning.py on summary_graph.py | graph queries as walks in the recorded graph (ThinGraph) | tracing itself |
| range_linear.py `_pre_prepare_model` | BN statistics, activation fusions, ReLU fusion and identities (PTQFuse) | bidirectional-LSTM special case |
| model_summaries.py | performance summary (Perf), mask summary (MaskSummary) | tables, drawing, ONNX export |
| utils.py `make_non_parallel_copy`, `model_setattr`, `convert_tensors_recursively_to`; modules/tsvd.py | all (Perf, Attr, TSVD) | singular value decomposition itself |
| quantization/pytorch_quant_conversion.py | parameter conversion (TorchQuant), both passes (TorchConvert) | PyTorch's own quantized kernels |
| range_linear.py: shared inputs, layer conversion, embedding, clipping | SharedInput, TorchLayer, Embedding | conversions of the other wrappers |
| range_linear.py: layers without statistics, input overrides, aliasing | DynLayer | clip modes N_STD / GAUSS / LAPLACE from tensors |
| examples/auto_compression/amc | AMC | agents, fine-tuning, intermediate rewards |
| pruning/ranked_structures_pruner.py (517-728, 403-472) | FMRecon, RandomPruner | sklearn/numpy solvers, random generators, grouped convolutions and linear layers in reconstruction |
| apputils/image_classifier.py (158-170, 381-424) | Resume | creating the model and optimizer themselves, knowledge distillation, loggers |
| model_transforms.py (102-166) | FoldNet | modules registered under several names |
| summary_graph.py (654-767, 786-838) | ModList | `None` sub-modules, `nn.ModuleDict` |
| range_linear.py (1605-1805, 1888-1926) | PTQConfig | half_range, num_stds, approximation settings; parsing of the arguments |
| collector.py (187-296), utils.py (411-486) | ActSummary | logging, xlsx files |
| checkpoint.py (221-229), constructors of quantizers | QReload | loading of the statistics file, state dicts |
| range_linear.py (2183-2185, 2323-2335) | ClassPatch | the quantizer of the inputs (C65) |
| quantizer.py (39-59, 230-256), clipped_linear.py (200-205) | OptGroups | optimizer state |
| range_linear.py (674-678, 1109-1120, 1161-1174, 1212-1221, 1264-1277, 1505-1531), pytorch_quant_conversion.py (332-386) | TorchOps | reduced range with asymmetric modes |
| model_summaries.py (82-124) | SparsSummary (doubles modelled without overflow and subnormals) | columns Shape, Std, Mean, Abs-Mean |
| range_linear.py (111-166), q_utils.py (141-285) | TensorClip (the standard deviation is a parameter) | |
| ptq_coordinate_search.py (104-269) | SearchInit (wrappers, loss and minimizer arbitrary) | |
| range_linear.py (489-548, 837-898, 1361-1423, 1805-1885) | ParamNames (per-tensor weights) | per-channel buffers |
| collector.py (486-516, 605-626, 845-889) | QuantStats (output records; test function = list of activations) | saving, logging |
| amc/utils/data_dependencies.py (25-70) | Deps | name normalization |
| examples/lottery_ticket/lottery.py (50-70) | Lottery | argument parsing, printing |
| apputils/image_classifier.py (873-967) | EvalQuant | devices, logging, the checkpoint of the quantized model |
| utils.py (568-628, 712-723, 746-754), apputils/data_loaders.py (51-59) | Inputs | random values |
| thinning.py (555-581), models/cifar10/resnet_cifar.py (68-86) | LayerGates | the pre-activation variant |
| directives.py (38-87) | Directives | torch's other optimizers |
| utils.py (98-123) | Directives | |
| models/__init__.py (67-252) | CreateModel | |
| data_loggers/logger.py (128-295), tbbackend.py (29-92), utils.py (489-515) | Logging | text formatting, tabulate, PythonLogger |
| quantization/range_linear.py (1928-2006, 2139-2147), ptq_coordinate_search.py (297-316, 366-397), ptq_greedy_search.py (104-122) | PTQReport | the YAML file, tracing |
| apputils/image_classifier.py (80-124, 138-149, 338-378, 427-493, 582-596, 649-661, 754-789), apputils/data_loaders.py (217-332), utils.py (661-680) | Setup | the generators themselves, the data sets |
| examples/auto_compression/amc/rl_libs/hanlab (memory.py; agent.py: update_policy targets, soft_update), parallel-finetune.py (62-163 queues, 166-190) | Replay, Parallel | networks, the operating system's processes and pipes (only their interleavings), the CSV report |
| examples/GNMT (beam_search.py: greedy_search; inference.py: translate; utils.py: batch_padded_sequences; data/sampler.py), examples/object_detection_compression/group_by_aspect_ratio.py (GroupedBatchSampler) | Seq2Seq, Sampler | the networks, tokenizer, beam search, data files; torch.sort only as some argsort |
| examples/word_language_model (data.py; main.py: batchify, get_batch, evaluate, reports of train, saving) | LangModel | the network (any recurrent function), optimizer, file formats |
| examples/ncf (dataset.py 24-97; ncf.py 94-184; convert.py 64-82) | NCF | network, optimizer, mapping of the original ids, file formats |
| examples/GNMT beam_search.py 80-246 | Beam, BeamBatch (flat tensors, `active` and index arithmetic of the batch) | network, fp arithmetic; beam_size 1 case is greedy_search |
| norms.py (group lengths) | Structures, GroupNorm | |
| apputils/dataset_summaries.py | DatasetSummary | logging |
| examples/GNMT data/tokenizer.py, data/dataset.py (ParallelDataset, collate) | TransData | logging, DataLoader; white space is blank, tab, CR and LF |
| examples/classifier_compression/multi-run.py | MultiRun | argparse for the base seed, characters special to the shell, the pool |
| thinning.py | recipes for filters/channels, execution, optimizer state | ONNX/printing |
| summary_graph.py | construction from a trace, pad/pool merging, dropout names (Trace), successors/predecessors, adjacency, topological order, MACs/footprint (Perf) | tracing itself |
| data_loggers/collector.py | min/max/avg/std, histograms, records, context | file output |
| regularization/*.py | losses and thresholding; drop-filter layers and their installation (DropFilter) | |
| config.py, apputils/checkpoint.py, knowledge_distillation.py, early_exit.py, model_transforms.py, sensitivity.py | as listed in section 4 | YAML parsing, torch.save |
| apputils/{image_classifier,data_loaders,performance_tracker}.py, learning_rate.py | training loop, early-exit validation, split, tracker, MultiStepMultiGamma | model zoo, argument parsing |

## 7. Testing the theorems

`seeded/LOG.jsonl` records one line per seeded bug: edited definition, edit, claim,
theorems that failed, theorems tightened because of it.  Since round 3 mutants are
also run in a *strict* mode, where all `example`s and unreferenced `_violated`
witnesses are removed first, so that only the general theorems can kill a mutant.
