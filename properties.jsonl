{"id": "C01", "title": "Channel rounding is divisible, close and monotone", "statement": "make_divisible(value, divisor) with the default minimum returns a positive multiple of divisor, is never below min_ratio*value (min_ratio<=1), never more than one divisor away from value once value is at least the divisor, and a larger value never gives a smaller result.", "quantifier": "every value >= 0, every divisor >= 1, every min_ratio in [0,1], every pair of values", "why_tests_cant": "Off-by-one and rounding corner cases sit at unbounded combinations of value, divisor and ratio; tests sample a handful.", "anchors": ["mmrazor/models/utils/make_divisible.py: make_divisible"]}
{"id": "C02", "title": "Search space expansion of (start, end, step) is exactly the inclusive arithmetic progression", "statement": "A three-tuple (start, end, step) describes exactly the values start, start+step, ... not exceeding end, in increasing order, with end included iff the step lands on it; a list of any other length is rejected.", "quantifier": "every start, end and positive step, every tuple length", "why_tests_cant": "Inclusive-end and step-alignment boundaries are unbounded.", "anchors": ["mmrazor/models/utils/parse_values.py: parse_values"]}
{"id": "C03", "title": "Channel ranges of one layer never overlap and cover the layer", "statement": "After any sequence of accepted registrations of channel mutables on a layer, every channel index of the layer belongs to exactly one registered range, the layer mask is the concatenation of the registered masks at their positions, and overlapping registrations are rejected.", "quantifier": "every sequence of (start,end) registrations, every layer width", "why_tests_cant": "Overlap depends on the relative position of arbitrary ranges and on registration order.", "anchors": ["mmrazor/utils/index_dict.py: IndexDict.__setitem__, __contains__", "mmrazor/models/mutables/mutable_channel/mutable_channel_container.py: MutableChannelContainer"]}
{"id": "C04", "title": "A value mutable always holds one of its candidates, and stays at the fixed value once fixed", "statement": "Through any sequence of assigning choices, sampling, dumping and fixing, the current value is one of the declared candidates, an illegal assignment or fix raises and leaves the value unchanged, fixing happens at most once, and after fixing the value never changes.", "quantifier": "every candidate list and every sequence of operations, including ones that raise", "why_tests_cant": "It is an invariant over unbounded histories including failed calls.", "anchors": ["mmrazor/models/mutables/mutable_value/mutable_value.py: MutableValue, OneShotMutableValue", "mmrazor/models/mutables/base_mutable.py: BaseMutable.is_fixed"]}
{"id": "C05", "title": "A channel choice activates exactly that many leading channels", "statement": "Setting a sequential channel mutable to an integer choice k activates exactly the first k channels; setting a ratio activates max(1, floor(ratio*n)) channels; reading back gives the number of active channels; a rejected fix leaves the mask unchanged.", "quantifier": "every width n, every choice 0..n or ratio in (0,1], every history of set/fix calls", "why_tests_cant": "Every width, choice and call history matter, including the failure paths.", "anchors": ["mmrazor/models/mutables/mutable_channel/sequential_mutable_channel.py: SquentialMutableChannel", "mmrazor/models/mutables/mutable_channel/base_mutable_channel.py: BaseMutableChannel.fix_chosen"]}
{"id": "C06", "title": "Derived mutables stay consistent with their sources", "statement": "The choice reported by an expanded, divided or concatenated mutable always equals the number of active channels in its mask, is recomputed from the current state of its sources after every change of any source, and is fixed exactly when all sources are fixed.", "quantifier": "every source state and every sequence of source updates, every ratio", "why_tests_cant": "A derived value is a function of unbounded source histories; a stale snapshot only shows after particular update orders.", "anchors": ["mmrazor/models/mutables/derived_mutable.py: DerivedMutable, derive_expand_mutable, derive_divide_mutable, derive_concat_mutable", "mmrazor/models/mutables/mutable_channel/sequential_mutable_channel.py: __mul__, __floordiv__"]}
{"id": "C07", "title": "Candidate channel numbers of a one-shot unit are legal", "statement": "Preparing the candidates of a channel unit from ratios or numbers yields a sorted list of distinct legal channel counts between 1 and the unit width, accepts an assignment iff it is one of the candidates, and selecting a candidate activates exactly that many leading channels, in ratio mode the same number as in number mode.", "quantifier": "every width, divisor, minimum and list of requested candidates", "why_tests_cant": "Rounding plus clamping interplay over all widths and divisors.", "anchors": ["mmrazor/models/mutables/mutable_channel/units/one_shot_mutable_channel_unit.py: OneShotMutableChannelUnit", "mmrazor/models/mutables/mutable_channel/units/sequential_mutable_channel_unit.py: SequentialMutableChannelUnit"]}
{"id": "C08", "title": "Fixing a candidate operation keeps exactly the chosen one", "statement": "For one-shot and differentiable operation mutables, fixing keeps exactly the chosen candidate(s), the fixed forward equals running the chosen candidate(s), fixing twice raises without changing behaviour, and fixing to a name that is not a candidate is refused.", "quantifier": "every candidate set, every chosen name or list, every history of fix and forward calls", "why_tests_cant": "Behaviour after failed calls and after arbitrary histories cannot be enumerated.", "anchors": ["mmrazor/models/mutables/mutable_module/one_shot_mutable_module.py: OneShotMutableOP", "mmrazor/models/mutables/mutable_module/diff_mutable_module.py: DiffMutableOP, DiffChoiceRoute"]}
{"id": "C09", "title": "One-hot search fixes the operation with the largest weight", "statement": "When the gap between the two largest architecture weights reaches the threshold, the layer is fixed to the candidate with the largest weight.", "quantifier": "every number of candidates, every weight vector and threshold", "why_tests_cant": "Depends on the position of the maximum among arbitrarily many candidates.", "anchors": ["mmrazor/models/mutables/mutable_module/diff_mutable_module.py: OneHotMutableOP.forward_arch_param"]}
{"id": "C10", "title": "Exported subnet reproduces the same architecture when loaded", "statement": "Exporting the fixed-subnet description of a supernet and loading it into a fresh copy of the supernet gives every searchable element the choice it had at export time, and fixes all of them; a description missing an element is rejected.", "quantifier": "every supernet (tree of modules with named, aliased and derived mutables) and every choice assignment", "why_tests_cant": "Round-trip over arbitrary module trees, prefixes and sharing patterns.", "anchors": ["mmrazor/structures/subnet/fix_subnet.py: export_fix_subnet, load_fix_subnet, _load_fix_subnet_by_mutable, _export_subnet_by_mutable"]}
{"id": "C11", "title": "Loading with a name prefix addresses the intended element", "statement": "Loading a subnet description with a prefix or extra prefix looks up, for each element, exactly its name with the prefix removed (or added) as a whole string.", "quantifier": "every element name and every prefix", "why_tests_cant": "Only names that happen to share characters with the prefix reveal the difference.", "anchors": ["mmrazor/structures/subnet/fix_subnet.py: _load_fix_subnet_by_mutable, load_fix_mutable"]}
{"id": "C12", "title": "Candidate pool keeps entries and sorts stably by score", "statement": "Appending, extending, setting scores and sorting a candidate pool never lose, duplicate or alter an entry other than the addressed one, and sorting orders entries by score, keeping the relative order of equal scores.", "quantifier": "every pool and every sequence of operations", "why_tests_cant": "Invariant over arbitrary operation sequences.", "anchors": ["mmrazor/structures/subnet/candidate.py: Candidates"]}
{"id": "C13", "title": "Evolution search never loses its best candidates", "statement": "After any number of epochs, the kept top-k list has at most k entries sorted by score, no evaluated candidate outside it scores higher than any member when the list is full, and the best score never decreases from epoch to epoch.", "quantifier": "every number of epochs, every evaluation result, every random sampling, mutation and crossover outcome", "why_tests_cant": "Holds over unbounded random histories; a test sees one random run.", "anchors": ["mmrazor/engine/runner/evolution_search_loop.py: EvolutionSearchLoop.run_epoch, update_candidates_scores, gen_mutation_candidates, gen_crossover_candidates"]}
{"id": "C14", "title": "Every candidate in the evolution pool satisfies the resource constraints", "statement": "Every candidate that enters the pool by sampling, mutation or crossover has resources inside the configured (inclusive) ranges, the number of mutated/crossed-over candidates never exceeds the configured number, and mutation and crossover stop after ten times that many attempts.", "quantifier": "every constraint configuration and every sequence of random outcomes", "why_tests_cant": "Random generation with rejection: only a proof covers all outcomes.", "anchors": ["mmrazor/engine/runner/evolution_search_loop.py: sample_candidates, gen_mutation_candidates, gen_crossover_candidates, _check_constraints", "mmrazor/engine/runner/utils/check.py: check_subnet_resources"]}
{"id": "C15", "title": "Crossover offspring take every gene from one of the two parents", "statement": "The result of crossover has the same keys as the parents, each value comes from one of the parents at the same key, and the parents are not modified.", "quantifier": "every pair of parents (dict or list), every probability and random outcome", "why_tests_cant": "All random outcomes and shapes.", "anchors": ["mmrazor/engine/runner/utils/genetic.py: crossover"]}
{"id": "C16", "title": "An interrupted evolution search resumes to the configured number of epochs", "statement": "A search killed after any epoch and resumed from the saved searcher checkpoint runs exactly the remaining epochs, continuing from the saved pool.", "quantifier": "every crash point and every total number of epochs", "why_tests_cant": "Quantifies over crash points.", "anchors": ["mmrazor/engine/runner/evolution_search_loop.py: _resume, run, _save_searcher_ckpt"]}
{"id": "C17", "title": "Only the most recent search checkpoints are kept", "statement": "After each epoch the checkpoint of that epoch exists and exactly the last max_keep_ckpts epochs' checkpoints remain on disk (all of them when the limit is not positive).", "quantifier": "every number of epochs and every limit", "why_tests_cant": "Unbounded epochs and limits.", "anchors": ["mmrazor/engine/runner/evolution_search_loop.py: _save_searcher_ckpt"]}
{"id": "C18", "title": "Greedy AutoSlim search meets each target resource, in order, also after resume", "statement": "For every target (processed from the largest to the smallest) the recorded subnet has resources not above the target, every unit keeps at least one channel, each pruning step shrinks exactly one unit to its next smaller candidate; a run resumed from any checkpoint records a subnet for every target.", "quantifier": "every set of targets, candidate tables, score outcomes and crash point", "why_tests_cant": "Depends on arbitrary score outcomes and crash points.", "anchors": ["mmrazor/engine/runner/autoslim_greedy_search_loop.py: AutoSlimGreedySearchLoop.run"]}
{"id": "C19", "title": "Sandwich/greedy subnet sampling uses the best unused candidate", "statement": "The greedy supernet training loop hands out candidate subnets in order of score, each at most once, only those inside the resource constraints, and the probability of reusing the pool follows the documented linear/cosine increase from init_prob to the final probability.", "quantifier": "every schedule position, pool and score outcome", "why_tests_cant": "Schedule endpoints and pool histories are unbounded.", "anchors": ["mmrazor/engine/runner/subnet_sampler_loop.py: GreedySamplerTrainLoop.sample_subnet, update_cur_prob, get_candidates_with_sample"]}
{"id": "C20", "title": "Topological traversal visits every node once, after all its predecessors", "statement": "Traversing any acyclic model graph yields every node exactly once, each after all nodes feeding it; on a cyclic graph it yields exactly the nodes not downstream of a cycle.", "quantifier": "every directed graph", "why_tests_cant": "All graph shapes.", "anchors": ["mmrazor/structures/graph/base_graph.py: BaseGraph.topo_traverse, topo_sort"]}
{"id": "C21", "title": "Graph editing keeps predecessor and successor links symmetric", "statement": "Through any sequence of adding, connecting, disconnecting and deleting nodes, u is a predecessor of v iff v is a successor of u, no link is duplicated, and deleting a node links each of its predecessors to each of its successors.", "quantifier": "every sequence of graph edits", "why_tests_cant": "Invariant over all edit histories.", "anchors": ["mmrazor/structures/graph/base_graph.py: BaseNode.add_prev_node, add_next_node, BaseGraph.add_node, connect, disconnect, delete_node"]}
{"id": "C22", "title": "Channels tied by the network end up in one pruning unit, and only those", "statement": "After processing any sequence of channel-tying operations, two channels are in the same group iff they are related by the reflexive-symmetric-transitive closure of the ties.", "quantifier": "every sequence of unions over any number of channels", "why_tests_cant": "Union-find over arbitrary union orders.", "anchors": ["mmrazor/structures/graph/channel_flow.py: ChannelElem.union_two, root, ChannelTensor.union"]}
{"id": "C23", "title": "Expanded-channel nodes are inserted on every mismatching edge", "statement": "When the channel graph is built, every edge whose producer and consumer disagree by a multiple gets an expansion node.", "quantifier": "every node with any number of predecessors", "why_tests_cant": "Requires several mismatching predecessors of one node.", "anchors": ["mmrazor/structures/graph/channel_graph.py: ChannelGraph._insert_expand_node"]}
{"id": "C24", "title": "Search groups partition the searchable elements", "statement": "Building search groups puts every searchable element in exactly one group; elements sharing an alias or a custom group share one group; unknown or duplicated names are rejected; grouping by alias alone works as documented.", "quantifier": "every set of named/aliased elements and every custom grouping", "why_tests_cant": "All groupings and alias patterns.", "anchors": ["mmrazor/models/mutators/group_mixin.py: GroupMixin.build_search_groups, _check_valid_groups"]}
{"id": "C25", "title": "A mutator reads back the choices it set", "statement": "Setting a complete, legal choice dictionary and reading the current choices gives that dictionary; every element of a group gets the group's choice; sampling returns a legal choice for every group.", "quantifier": "every set of groups, every choice dictionary, every random outcome", "why_tests_cant": "All groupings and dictionaries.", "anchors": ["mmrazor/models/mutators/nas_mutator.py: NasMutator.set_choices, current_choices, sample_choices", "mmrazor/models/mutators/channel_mutator/channel_mutator.py: ChannelMutator.set_choices, current_choices"]}
{"id": "C26", "title": "Backward tracing lists exactly the real layer paths", "statement": "Tracing an autograd graph lists, for every route from the output to a leaf, the parametrised layers on that route in order and nothing else.", "quantifier": "every autograd graph built from convolution, linear, normalisation, concatenation and other operations", "why_tests_cant": "Path bookkeeping errors only appear for particular branch orders.", "anchors": ["mmrazor/models/task_modules/tracer/backward_tracer.py: BackwardTracer.backward_trace", "mmrazor/models/task_modules/tracer/parsers.py: parse_conv, parse_linear, parse_norm, parse_cat"]}
{"id": "C27", "title": "Dynamic layers compute the same values as the masked full layer and as the exported static layer", "statement": "For every input and output mask, a dynamic linear/convolution layer applied to the active channels gives the active outputs of the full layer applied to the input with inactive channels zeroed, and the exported static layer gives the same values.", "quantifier": "every weight matrix, every mask, every input", "why_tests_cant": "All weights, masks and inputs.", "anchors": ["mmrazor/models/architectures/dynamic_ops/mixins/dynamic_mixins.py: DynamicLinearMixin", "mmrazor/models/architectures/dynamic_ops/mixins/dynamic_conv_mixins.py: DynamicConvMixin"]}
{"id": "C28", "title": "Normalisation statistics of inactive channels are untouched", "statement": "Running a dynamic batch norm with a channel mask updates the running statistics of exactly the active channels, with the values the sliced layer would have, and leaves the others unchanged.", "quantifier": "every mask, every statistics vector, every sequence of updates", "why_tests_cant": "All masks and update histories.", "anchors": ["mmrazor/models/architectures/dynamic_ops/bricks/dynamic_norm.py: _DynamicBatchNorm.forward", "mmrazor/models/architectures/dynamic_ops/mixins/dynamic_mixins.py: DynamicBatchNormMixin"]}
{"id": "C29", "title": "Searchable kernels are centred and keep the output size", "statement": "Choosing an odd kernel size t of a layer with odd largest kernel s uses exactly the centred t entries, and the padding used keeps the output size that the full kernel had with its own same padding, for every stride; adaptive padding gives output ceil(h/stride).", "quantifier": "every odd s >= t, every input size, stride and dilation", "why_tests_cant": "All sizes and strides.", "anchors": ["mmrazor/models/architectures/dynamic_ops/mixins/dynamic_conv_mixins.py: _get_current_kernel_pos, _get_same_padding, BigNasConvMixin", "mmrazor/models/architectures/dynamic_ops/bricks/dynamic_conv.py: DynamicConv2dAdaptivePadding"]}
{"id": "C30", "title": "FLOPs and parameter estimates describe the network that would be exported", "statement": "The reported FLOPs and parameters of a network at its current choice equal those of the exported static network, do not depend on batch size, and count a layer's parameters once however often it is called.", "quantifier": "every layer configuration, choice, batch size and number of calls", "why_tests_cant": "All configurations, choices and reuse patterns.", "anchors": ["mmrazor/models/task_modules/estimators/counters/op_counters/conv_layer_counter.py: ConvCounter, DynamicConv2dCounter", "mmrazor/models/task_modules/estimators/counters/flops_params_counter.py: get_model_flops_params, accumulate_sub_module_flops_params"]}
{"id": "C31", "title": "Resource estimation uses the configured options and keeps no state between calls", "statement": "Estimating with no explicit options uses the options the estimator was built with, and the result of an estimate does not depend on estimates made before.", "quantifier": "every estimator configuration and every call history", "why_tests_cant": "Quantifies over call histories.", "anchors": ["mmrazor/models/task_modules/estimators/resource_estimator.py: ResourceEstimator.estimate, estimate_separation_modules"]}
{"id": "C32", "title": "Recording contexts restore the patched functions and methods", "statement": "After leaving the recording or delivering context, every patched function and method is the original one, nothing is recorded any more, and inside the context each recorder records every call of its source in order.", "quantifier": "every list of recorders (including several on the same source) and every sequence of calls", "why_tests_cant": "Depends on combinations and orders of recorders.", "anchors": ["mmrazor/models/task_modules/recorder/function_outputs_recorder.py: FunctionOutputsRecorder", "mmrazor/models/task_modules/recorder/method_outputs_recorder.py: MethodOutputsRecorder", "mmrazor/models/task_modules/recorder/recorder_manager.py: RecorderManager"]}
{"id": "C33", "title": "Deliveries hand the teacher's values to the student in order", "statement": "Values produced while recording are returned while overriding in first-in first-out order, never more than max_keep_data are held, an override without a recorded value and a record over the limit are refused, and each training iteration starts with an empty queue.", "quantifier": "every sequence of teacher/student calls over any number of iterations", "why_tests_cant": "Queue histories across iterations.", "anchors": ["mmrazor/models/task_modules/delivery/function_outputs_delivery.py: FunctionOutputsDelivery", "mmrazor/models/task_modules/delivery/method_outputs_delivery.py: MethodOutputsDelivery", "mmrazor/models/task_modules/delivery/distill_delivery.py: DistillDelivery"]}
{"id": "C34", "title": "Iterative pruning reaches its target exactly on schedule", "statement": "Pruning happens exactly prune_times times, every step_freq iterations from the start; the intermediate structure moves monotonically from the initial to the target structure and equals the target after the last time; a run resumed from a checkpoint follows the same plan.", "quantifier": "every step frequency, number of times, start and target structure, and iteration", "why_tests_cant": "All schedules and resume points.", "anchors": ["mmrazor/models/algorithms/pruning/ite_prune_algorithm.py: ItePruneConfigManager, ItePruneAlgorithm"]}
{"id": "C35", "title": "Group Fisher pruning removes one least-important active channel at a time", "statement": "Each pruning step deactivates at most one channel, namely an active channel with the smallest importance over all units that still have more than one channel; no unit ever loses its last channel; a pruned channel is never reactivated.", "quantifier": "every importance assignment and every number of steps", "why_tests_cant": "All importance values and histories.", "anchors": ["mmrazor/implementations/pruning/group_fisher/mutator.py: GroupFisherChannelMutator.try_prune", "mmrazor/implementations/pruning/group_fisher/unit.py: GroupFisherChannelUnit.try_to_prune_min_channel, importance"]}
{"id": "C36", "title": "Checkpoints at resource thresholds are saved once each, in order", "statement": "While resources shrink, a checkpoint is written for each configured threshold exactly once, in decreasing order, only when the resources are below it, and the run stops after the last.", "quantifier": "every list of thresholds and every resource trajectory", "why_tests_cant": "All trajectories.", "anchors": ["mmrazor/implementations/pruning/group_fisher/hook.py: ResourceInfoHook"]}
{"id": "C37", "title": "Quantisation-aware training freezes observers and batch norm exactly at the configured points", "statement": "In every epoch (or iteration) the fake-quantisation and observation switches and batch-norm freezing follow the configured start/freeze points, and validation never updates quantisation parameters.", "quantifier": "every configuration of the points, every epoch and iteration", "why_tests_cant": "All schedules.", "anchors": ["mmrazor/engine/runner/quantization_loops.py: QATEpochBasedLoop, LSQEpochBasedLoop, QATValLoop", "mmrazor/models/fake_quants/lsq.py: LearnableFakeQuantize"]}
{"id": "C38", "title": "Quantisation parameters stay legal and the integer range matches the bit width", "statement": "The integer range configured for b bits has 2^b values (2^b - 1 for symmetric ranges) and contains zero; learned zero points are always inside the range and scales are never below the smallest positive bound, whatever the history of modes and updates.", "quantifier": "every bit width, scheme and history of modes and updates", "why_tests_cant": "All bit widths and histories.", "anchors": ["mmrazor/structures/quantization/qconfig.py: QSchemeHandler.to_observer_params", "mmrazor/models/fake_quants/lsq.py: LearnableFakeQuantize"]}
{"id": "C39", "title": "GPTQ rounding error is at most half a step for every weight inside the calibrated range", "statement": "Quantising any weight inside the range the parameters were computed from changes it by at most half a quantisation step, the result is one of the 2^bits grid values, and quantising twice changes nothing.", "quantifier": "every weight row, bit width, symmetric or asymmetric mode", "why_tests_cant": "All real weights.", "anchors": ["mmrazor/implementations/quantization/gptq/quantizer.py: Quantizer.find_params, quantize"]}
{"id": "C40", "title": "Packed GPTQ weights and zero points unpack to what was packed", "statement": "Packing codes and zero points into 32-bit words and unpacking them as the kernel does returns the same codes and zero points.", "quantifier": "every code and zero-point vector of the given bit width and length", "why_tests_cant": "All values and lengths, including wrap-around at zero.", "anchors": ["mmrazor/implementations/quantization/gptq/gptq.py: GPTQMixIn.pack", "mmrazor/implementations/quantization/gptq/ops.py: matmul_248_kernel, TritonGPTQLinear"]}
{"id": "C41", "title": "Calibration statistics do not depend on how data is split into batches", "statement": "The accumulated GPTQ/SparseGPT second-moment matrix after any sequence of calibration batches is the total over all samples divided by the number of samples; batch-norm calibration averages weigh every sample equally.", "quantifier": "every sequence of batches and batch sizes", "why_tests_cant": "All batch splits.", "anchors": ["mmrazor/implementations/pruning/sparse_gpt/ops.py: SparseGptMixIn.update_hessian", "mmrazor/implementations/quantization/gptq/gptq.py: GPTQMixIn.update_hessian", "mmrazor/engine/runner/utils/calibrate_bn_mixin.py: CalibrateBNMixin, AverageMeter"]}
{"id": "C42", "title": "SparseGPT produces the requested sparsity pattern", "statement": "Pruning with pattern n:m leaves exactly n zeros selected in every group of m consecutive columns of each row; pruning with a sparsity ratio zeroes exactly that fraction of each block; the zeros are never overwritten.", "quantifier": "every weight matrix, block size, ratio and pattern", "why_tests_cant": "All matrices and sizes.", "anchors": ["mmrazor/implementations/pruning/sparse_gpt/ops.py: SparseGptMixIn.prune"]}
{"id": "C43", "title": "Paired data loaders deliver one batch of each per step", "statement": "An epoch over several loaders yields as many steps as the shortest loader, with the i-th batches of each; the iteration-based loader restarts an exhausted loader and never ends.", "quantifier": "every list of loaders and number of steps", "why_tests_cant": "All lengths and step counts.", "anchors": ["mmrazor/engine/runner/darts_loop.py: EpochMultiLoader, IterMultiLoader (DartsEpochBasedTrainLoop, DartsIterBasedTrainLoop)"]}
{"id": "C44", "title": "Contrastive negatives never share the anchor's class", "statement": "Each training item carries 1 + neg_num indices, the first a positive of the item's class (the item itself in exact mode) and all others of a different class, distinct whenever enough negatives exist.", "quantifier": "every label assignment, class count, percentage and random outcome", "why_tests_cant": "All label assignments and outcomes.", "anchors": ["mmrazor/datasets/crd_dataset_wrapper.py: CRDDataset"]}
{"id": "C45", "title": "Performance-predictor encoding is invertible", "statement": "Encoding an architecture as a vector and decoding it gives the same architecture, in both encodings; the one-hot encoding has exactly one 1 per searchable element, so distinct architectures have distinct encodings.", "quantifier": "every search space and every architecture in it", "why_tests_cant": "All spaces and architectures.", "anchors": ["mmrazor/models/task_modules/predictor/metric_predictor.py: MetricPredictor.model2vector, vector2model"]}
{"id": "C46", "title": "Second-order DARTS leaves the weights as they were and computes a finite-difference term", "statement": "Computing the unrolled architecture gradient restores the network weights exactly, the curvature term is the difference of the architecture gradients at the two perturbed points, and the weight update that follows uses only the gradient of the training batch.", "quantifier": "every loss, weights, learning rate and gradients", "why_tests_cant": "Aliasing of gradient buffers is invisible on one value.", "anchors": ["mmrazor/models/algorithms/nas/darts.py: Darts._unrolled_backward, _compute_hessian, _compute_virtual_model, train_step"]}
{"id": "C47", "title": "DSNAS moves through its stages in order", "statement": "Architecture parameters are updated exactly in epochs from pretrain_epochs to finetune_epochs-1 and the architecture is fixed exactly once when the finetune stage starts, also when training is resumed in the finetune stage.", "quantifier": "every pair of stage boundaries, every epoch sequence including resumes", "why_tests_cant": "Quantifies over resume points.", "anchors": ["mmrazor/models/algorithms/nas/dsnas.py: DSNAS.train_step, need_update_mutator, _fix_archtecture"]}
{"id": "C48", "title": "Expanding a network keeps its function", "statement": "Expanding layers to more channels with zeroed new weights leaves the original outputs unchanged for every input, whatever the new channels carry, and rounding widths up gives the smallest multiple of the divisor that is at least the width.", "quantifier": "every weight matrix, expansion width, divisor and input", "why_tests_cant": "All matrices and widths.", "anchors": ["mmrazor/models/utils/expandable_utils/ops.py: ExpandableMixin.expand_matrix, expand_vector", "mmrazor/models/utils/expandable_utils/tools.py: make_channel_divisible, expand_static_model"]}
{"id": "C49", "title": "Removing redundant fake-quantisers changes nothing but quantisation", "statement": "Deleting fake-quantisers before or after selected operations removes only fake-quantiser nodes next to those operations and the remaining graph computes, with fake-quantisation off, the same function; it succeeds on every well-formed graph.", "quantifier": "every graph and every selection of operations", "why_tests_cant": "All graph shapes, including shared fake-quantisers.", "anchors": ["mmrazor/models/task_modules/tracer/fx/graph_utils.py: del_fakequant_before_op, del_fakequant_after_op, recursive_find_erased_nodes, del_fakequant_before_module"]}
{"id": "C50", "title": "DMCP pushes towards the target FLOPs and is neutral at the target", "statement": "The log-L1 resource loss is zero exactly when the expected FLOPs lie in the documented band just below the target, and increases with the distance from the target outside it.", "quantifier": "every expected and target FLOPs", "why_tests_cant": "All real values.", "anchors": ["mmrazor/models/algorithms/pruning/dmcp.py: DMCP._compute_flops_loss"]}
{"id": "C51", "title": "The most recent checkpoint is found, and speed is measured over the timed iterations", "statement": "Looking for the latest checkpoint returns the file with the largest step number in the directory (or the explicit latest file); the reported frames per second are the number of timed iterations divided by their total time.", "quantifier": "every set of checkpoint files; every number of iterations and warm-up length", "why_tests_cant": "All directory contents and iteration counts.", "anchors": ["mmrazor/utils/misc.py: find_latest_checkpoint", "mmrazor/models/task_modules/estimators/counters/latency_counter.py: _get_model_latency"]}
{"id": "C52", "title": "L1 pruning keeps the channels of largest norm", "statement": "Setting an L1-norm channel unit to k channels activates exactly k channels, and no switched-off channel has a larger average L1 norm than an active one; no other set of k channels has a larger total norm.", "quantifier": "every vector of norms and every k between 0 and its length", "why_tests_cant": "It must hold for every norm vector including ties.", "anchors": ["mmrazor/models/mutables/mutable_channel/units/l1_mutable_channel_unit.py: L1MutableChannelUnit._generate_mask"]}
{"id": "C53", "title": "Differentiable search reports the best-weighted candidates and mixes candidates by weight", "statement": "An unfixed differentiable operation returns the weighted sum of its candidates; the choice it reports for a vector of architecture parameters is a candidate with the largest parameter; a choice route reports its requested number of different edges, none of which has a smaller parameter than an edge left out.", "quantifier": "every candidate dictionary, every parameter vector, every input, every requested number of edges", "why_tests_cant": "Ties, orders and sizes of parameter vectors are unbounded.", "anchors": ["mmrazor/models/mutables/mutable_module/diff_mutable_module.py: DiffMutableOP.forward_arch_param, DiffMutableOP.sample_choice, DiffChoiceRoute.sample_choice"]}
{"id": "C54", "title": "GPTQ rounds every weight onto the grid of its recorded group and compensates optimally", "statement": "After a layer has been quantised with GPTQ every weight is a grid value of the scale and zero point recorded for its group; it is the rounding of the weight that is left when the errors of all columns treated before are compensated, which is the best choice given those columns; the returned error is half the squared change of the layer's outputs. The result does not depend on how the columns are split into blocks, nor on weights of inputs that are always zero; if quantisation fails, the layer keeps its weights.", "quantifier": "every layer size, weight matrix, factor of the input matrix, block size, group size, column order, bit width and quantiser mode", "why_tests_cant": "The result is a recursion over columns, blocks and groups with unbounded sizes and real-valued weights.", "anchors": ["mmrazor/implementations/quantization/gptq/gptq.py: GPTQMixIn.quant", "mmrazor/implementations/quantization/gptq/quantizer.py: Quantizer"]}
{"id": "C55", "title": "Training several subnets per batch is one averaged optimizer step", "statement": "When gradient accumulation is set to the number of subnets trained per batch (largest, smallest and random subnets, or the configured widths of a slimmable network), every iteration is exactly one optimizer step with the average of the gradients of all these subnets, all taken at the same weights, on the same batch and against the same teacher outputs; the same holds after resuming from a checkpoint at any iteration, and for accumulation over several whole iterations. With any accumulation setting all subnets are trained in order, no step fails and no gradient is left over at the end. The losses of different subnets are reported under different names. Stochastic depth grows with the depth of the block, stays within the configured rate and is used for the largest subnet only.", "quantifier": "every algorithm (AutoSlim, BigNAS, slimmable network), number of subnets, sequence of batches and sampled subnets, weights, optimizer, loss, accumulation count and resume point", "why_tests_cant": "The claim is about counters of the optimizer wrapper over whole training histories and resume points and about arbitrary losses and optimizers; unit tests run one or two steps with one setting.", "anchors": ["mmrazor/models/algorithms/nas/autoslim.py: AutoSlim.train_step", "mmrazor/models/algorithms/nas/bignas.py: BigNAS.train_step", "mmrazor/models/algorithms/pruning/slimmable_network.py: SlimmableNetwork.train_step", "mmrazor/models/utils/optim_wrapper.py: reinitialize_optim_wrapper_count_status", "mmrazor/models/utils/misc.py: add_prefix", "mmrazor/models/architectures/utils/set_dropout.py: set_dropout"]}
{"id": "C56", "title": "DMCP samples channel numbers as its architecture parameters say", "statement": "For a channel unit pruned by DMCP, the groups of channels and the smallest width add up to all channels, and the smallest width is positive and not below the configured smallest rate. The modes max, min, random and direct give exactly the documented numbers of channels and masks. The number of channels in mode expected is the mean of the numbers sampled in mode direct; when the architecture parameters take part in a forward pass, every channel is scaled by the probability that it is kept. The expected FLOPs and the exported expected subnet correspond to that mean.", "quantifier": "every number of channels, rate settings, architecture parameters, uniform draws and batch", "why_tests_cant": "The claims are about expectations over continuous draws and about all real parameters and channel numbers; unit tests can only sample them.", "anchors": ["mmrazor/models/mutators/channel_mutator/dmcp_channel_mutator.py: DMCPChannelMutator._generate_arch_message, _prune_by_arch, set_choices", "mmrazor/models/architectures/dynamic_ops/bricks/dynamic_norm.py: DMCPBatchNorm2d.forward_arch_param", "mmrazor/models/mutables/mutable_channel/units/sequential_mutable_channel_unit.py: SequentialMutableChannelUnit._ratio2num", "mmrazor/models/task_modules/estimators/counters/op_counters/conv_layer_counter.py", "mmrazor/engine/hooks/dmcp_subnet_hook.py: DMCPSubnetHook"]}
{"id": "C57", "title": "DMCP trains weights and architecture parameters by its schedule", "statement": "In every training iteration of DMCP the subnets named in the strategy are trained in order, each with one optimizer step with the gradient of its own loss. Sampled subnets follow the architecture parameters exactly in the iterations after arch_start_train (for scheduled_random with a probability growing with the number of samples drawn), the distillation loss is used exactly after distillation_times iterations with the largest subnet on the same batch as teacher, and the architecture parameters are updated exactly in every arch_train_freq-th iteration after arch_start_train, with the gradients of the architecture loss and of the FLOPs loss only. This also holds when training is resumed from a checkpoint at any iteration; strategies that cannot be carried out are rejected at the start; the losses of different passes are reported under different names.", "quantifier": "every strategy, schedule setting, start iteration, sequence of batches and draws, weights, architecture parameters, losses and optimizers", "why_tests_cant": "The claim is about whole training histories with two optimizers sharing gradients and about resume points tens of thousands of iterations into a run; unit tests run one or two steps.", "anchors": ["mmrazor/models/algorithms/pruning/dmcp.py: DMCP.train_step, DMCP._update_arch_params, DMCPDDP.train_step"]}
{"id": "C58", "title": "DSNAS updates architecture parameters by the reward of the sampled choices", "statement": "In every architecture update of DSNAS, the parameters of each searchable module move along the gradient of the log-probability of its sampled choice, weighted by the reward of that choice (the derivative of the loss with respect to its weight), plus the FLOPs of the sampled choice weighted by its probability exactly when the most probable subnet reaches the FLOPs limit. So a choice whose weight lowers the loss becomes more probable. Each module uses the architecture parameters of its own search group, and no update fails.", "quantifier": "every search space, architecture parameters, sampled choices, rewards, FLOPs, optimizer and number of updates", "why_tests_cant": "The claim is about derivatives at arbitrary real parameters, about the effect of a whole sequence of updates, and about every way of grouping modules; unit tests run one step on one model and look only for the absence of errors.", "anchors": ["mmrazor/models/algorithms/nas/dsnas.py: DSNAS.train_step, compute_mutator_loss, handle_grads", "mmrazor/models/mutables/mutable_module/diff_mutable_module.py: OneHotMutableOP.sample_weights", "mmrazor/models/mutators/group_mixin.py: GroupMixin.build_search_groups"]}
{"id": "C59", "title": "A distillation configuration that is accepted computes the configured losses", "statement": "A configurable distiller accepts a configuration exactly when it can be carried out: every configured loss is mapped, all required arguments of its forward are mapped to data of existing recorders and connectors. An accepted configuration computes in every iteration exactly the mapped losses, each from the recorded data described by its mapping. The minimised loss is the sum of the teacher's loss (if the teacher is trained), the student's loss (if it is used) and the distillation losses until the configured stop epoch, also after resuming; losses of different parts never overwrite each other. A student or teacher that is not trainable is not trained, and a teacher that is not trained gives the outputs of its evaluation mode.", "quantifier": "every configuration of recorders, connectors, losses and mappings, recorded data, options of the algorithm, stop epoch and resume epoch", "why_tests_cant": "The space of configurations and of recorded data is unbounded, and the failures show only after construction, sometimes many epochs later; unit tests check a few accepted and rejected configurations.", "anchors": ["mmrazor/models/distillers/configurable_distiller.py: ConfigurableDistiller._check_loss_forward_mappings, compute_distill_losses, get_record", "mmrazor/models/task_modules/recorder/base_recorder.py: BaseRecorder.get_record_data", "mmrazor/models/algorithms/distill/configurable/single_teacher_distill.py: SingleTeacherDistill.loss, train", "mmrazor/engine/hooks/stop_distillation_hook.py: StopDistillHook.before_train_epoch"]}
{"id": "C60", "title": "Data-free distillation trains each network with its own loss", "statement": "In every iteration of data-free distillation the generator takes one step with the gradient of the generator loss only, and the student takes the configured number of steps, each with the gradient of the distillation loss only, in the configured order; with DAFL both take one step with gradients computed on the same images before either step. Settings that cannot be carried out are rejected when the algorithm is built.", "quantifier": "every generator and distillation loss, optimizer, number of student steps, order, noise and number of iterations", "why_tests_cant": "The claim is about what is left in the gradients between steps of two optimizers over a whole history, for arbitrary losses; unit tests run one step and check that losses are reported.", "anchors": ["mmrazor/models/algorithms/distill/configurable/datafree_distillation.py: DataFreeDistillation.train_step, train_student, train_generator, DAFLDataFreeDistillation.train_step"]}
{"id": "C61", "title": "Losses on class scores measure the distance of probabilities", "statement": "The distillation losses on class scores are what they are documented to be for all scores: KLDivergence, ChannelWiseDivergence and DKDLoss with a positive weight are never negative and zero exactly when student and teacher give the same probabilities (scores differing by a constant); KDSoftCELoss is least exactly then; the gradient of KLDivergence is the difference of probabilities times the temperature; DKDLoss splits the divergence into label and other classes; WSLD weights lie between 0 and 1 and follow the difficulty; the data-free losses stay in their ranges; `reduction` has the documented meaning and wrong settings or shapes are rejected.", "quantifier": "every batch of student and teacher scores, number of samples, classes and positions, temperature, weight, reduction and label", "why_tests_cant": "The claims are identities and inequalities over all real scores; the unit tests only check that a loss returns one number for random tensors.", "anchors": ["mmrazor/models/losses/kl_divergence.py: KLDivergence", "mmrazor/models/losses/cwd.py: ChannelWiseDivergence", "mmrazor/models/losses/decoupled_kd.py: DKDLoss", "mmrazor/models/losses/kd_soft_ce_loss.py: KDSoftCELoss", "mmrazor/models/losses/weighted_soft_label_distillation.py: WSLD", "mmrazor/models/losses/cross_entropy_loss.py: CrossEntropyLoss", "mmrazor/models/losses/dafl_loss.py: OnehotLikeLoss, InformationEntropyLoss"]}
{"id": "C62", "title": "Distillation losses on features measure what their names say", "statement": "The losses that compare feature maps of student and teacher (L1, L2, attention transfer, factor transfer, activation boundaries, overhaul distillation, masked generation, activation matching and the feature-based detection loss) are never negative, are zero exactly when the compared quantities agree, honour their reduction and weight, and those that normalise the features first do not depend on a positive factor in the features.", "quantifier": "all feature maps of every size, all weights, reductions and options", "why_tests_cant": "The tests only call the losses on random tensors; which pairs of features give loss zero, and what tiny or all-zero features do to the normalisation, is a statement about all real inputs.", "anchors": ["mmrazor/models/losses/l1_loss.py: L1Loss", "mmrazor/models/losses/l2_loss.py: L2Loss", "mmrazor/models/losses/at_loss.py: ATLoss", "mmrazor/models/losses/factor_transfer_loss.py: FTLoss", "mmrazor/models/losses/ab_loss.py: ABLoss", "mmrazor/models/losses/ofd_loss.py: OFDLoss", "mmrazor/models/losses/mgd_loss.py: MGDLoss", "mmrazor/models/losses/dafl_loss.py: ActivationLoss", "mmrazor/models/losses/fbkd_loss.py: FBKDLoss"]}
{"id": "C63", "title": "Distillation losses on relations between samples", "statement": "The losses that compare relations (distances between samples, angles between triples of samples, correlations of predictions over classes and over samples, normalised feature maps) are finite, never negative, bounded where they compare cosines or correlations, zero exactly when the relations of the student and of the teacher agree, and unchanged when a representation is moved, rotated or scaled.", "quantifier": "all batches of every size, all features and scores, temperatures and weights", "why_tests_cant": "The relations couple all samples of a batch; the tests evaluate one random batch and cannot tell which batches give loss zero or no number at all.", "anchors": ["mmrazor/models/losses/relational_kd.py: DistanceWiseRKD, AngleWiseRKD", "mmrazor/models/losses/dist_loss.py: DISTLoss", "mmrazor/models/losses/pkd_loss.py: PKDLoss"]}
{"id": "C64", "title": "Contrastive distillation: fair negatives and a sound memory", "statement": "The sampler of negatives draws every outcome with exactly its share of the weights, so the memory is sampled evenly. The memory of features only changes in the rows of the samples of a batch, which move towards their new features and keep length one; its normalisation constants are set in the first pass so that the mean normalised score is one over the number of samples, and never again. Scores stay positive and bounded, the loss is the logistic loss of positives against negatives, positive and monotone, scaled by its weight.", "quantifier": "all weight vectors, numbers of samples and negatives, momenta, temperatures, features, and all histories of forward passes", "why_tests_cant": "The exactness of the alias table is a statement about all weight vectors, the memory is state carried over a whole training; the unit test runs one forward pass on random data.", "anchors": ["mmrazor/models/losses/crd_loss.py: CRDLoss, ContrastLoss, ContrastMemory, AliasMethod"]}
{"id": "C65", "title": "Overhaul feature distillation: margins follow from the teacher's normalisation", "statement": "When overhaul feature distillation is set up, every teacher connector used by its loss gets, for every channel, the mean of the negative responses that channel's batch normalisation produces on normally distributed input (three deviations below zero if negative responses are rarer than one in a thousand), always a negative number; other connectors are untouched. During training the student must match the teacher's positive responses, and where the teacher is not positive any response up to the larger of the teacher's and the margin costs nothing.", "quantifier": "all weights and biases of normalisation layers, all assignments of recorders and connectors to losses, all responses", "why_tests_cant": "The margin is a closed form for an integral over a distribution, with a case distinction on a tail probability; tests only check that set-up runs on one network.", "anchors": ["mmrazor/models/distillers/ofd_distiller.py: OFDDistiller.init_ofd_connectors, OFDDistiller._get_margin_from_BN", "mmrazor/models/architectures/connectors/ofd_connector.py: OFDTeacherConnector", "mmrazor/models/losses/ofd_loss.py: OFDLoss"]}
{"id": "C66", "title": "Quantised graphs of the forward modes stay in step", "statement": "A quantised model has one graph per forward mode. When it is built, all graphs agree and no observer has seen anything; after every training epoch the fake quantisers of all graphs are those of the training graph, whatever was trained, and nothing else is changed; calibration reaches every graph. A model can be built with any selection of modes.", "quantifier": "all graphs and selections of modes, all effects of batches on quantisation parameters, all numbers of epochs and batches", "why_tests_cant": "The graphs are kept in step by name over a whole training history; tests synchronise one small model once.", "anchors": ["mmrazor/models/algorithms/quantization/mm_architecture.py: MMArchitectureQuant", "mmrazor/engine/runner/quantization_loops.py: QATEpochBasedLoop, LSQEpochBasedLoop, PTQLoop"]}
{"id": "C67", "title": "Group Fisher importance is the squared derivative of the loss per saved cost", "statement": "While gradients are recorded, every input of a layer is paired with its own gradient, however often the layer is called. The importance a batch adds to an unpruned channel is the sum over the samples of the squared derivative of the sample's loss with respect to a gate on that channel in all layers that read it, divided by the number of multiplications (or outputs) the channel costs; pruned channels get nothing. All layouts of layers that can be traced are supported.", "quantifier": "all numbers of calls, samples and channels, all masks, losses, inputs and layers", "why_tests_cant": "The claim relates recorded numbers to a derivative for all losses, and index arithmetic over masks to channels; tests run one network and check that a channel is pruned.", "anchors": ["mmrazor/implementations/pruning/group_fisher/ops.py: GroupFisherMixin, GroupFisherConv2d, GroupFisherLinear", "mmrazor/implementations/pruning/group_fisher/unit.py: GroupFisherChannelUnit"]}
{"id": "C68", "title": "Filter fusion mixes the kept filters by similarity and anneals over the run", "statement": "DCFF prunes a convolution by mixing filters: each kept output channel responds with a convex combination of the responses of all filters, nearer filters weighing more and the channel's own filter most; as many channels come out as are active, they are the filters with the highest divergence score, unpruned layers compute with their own weights, and the deployed layer computes the same. The temperature falls from 1 to 1/10000 over the run and the filters are fused at the configured steps, one and only one of step and number of prunings being given.", "quantifier": "every weight, bias, mask and temperature, every result of topk in any order, every run length, step and number of prunings", "why_tests_cant": "The score involves sums of logarithms over all pairs of filters and the order of topk is unspecified; a test sees a few random layers, in which a wrong axis in the score is invisible, and never compares with a reloaded model.", "anchors": ["mmrazor/models/algorithms/pruning/dcff.py: DCFF", "mmrazor/models/architectures/dynamic_ops/mixins/dynamic_conv_mixins.py: FuseConvMixin", "mmrazor/models/mutators/channel_mutator/dcff_channel_mutator.py: DCFFChannelMutator.calc_information"]}
{"id": "C69", "title": "A chosen transformer uses the first heads, features and layers of the supernet, and exports to the same function", "statement": "In the searchable vision transformer, a choice of heads, width and depth computes with the first heads (64 features each), the first features and the first layers: the attention is the sum of the projected outputs of the chosen heads, each a softmax average of values with the embedding of the relative position (vertical plus horizontal displacement on the square grid, cut at the largest one, a row of its own for the class token) added to keys and values; exactly the chosen number of layers runs. Exporting keeps the function for every allowed configuration, and every allowed list of depths and patch size builds a working model.", "quantifier": "every number of tokens, heads, width and depth, every weight, bias, table and input, every list of depths and every patch size", "why_tests_cant": "Tests use one image size with the default scale and biases; head and batch indices are mixed by reshapes that agree on shapes for every choice, so a wrong order is invisible to shape checks.", "anchors": ["mmrazor/models/architectures/ops/transformer_series.py: RelativePosition2D, MultiheadAttention", "mmrazor/models/architectures/dynamic_ops/bricks/dynamic_multi_head_attention.py: DynamicMultiheadAttention", "mmrazor/models/architectures/dynamic_ops/bricks/dynamic_relative_position.py: DynamicRelativePosition2D", "mmrazor/models/architectures/dynamic_ops/bricks/dynamic_container.py: DynamicSequential", "mmrazor/models/architectures/backbones/searchable_autoformer.py: AutoformerBackbone"]}
{"id": "C70", "title": "Tidying an ONNX graph before deployment does not change what it computes", "statement": "Before a quantised ONNX model is written, paddings by nothing are taken out, isolated nodes and unread initializers are removed and the nodes are sorted. The result lists every remaining node after the nodes it reads, loses and adds nothing else, refuses cyclic graphs, and computes the same outputs for every input whatever the operators do.", "quantifier": "every well-formed graph (any operators, names, initializers, constants, omitted inputs), every interpretation of the operators, every input", "why_tests_cant": "Tests export one or two small networks and look at node types; graphs whose outputs are constants, whose nodes have no names, or whose paddings end the network are not among them, and equality of outputs is a statement about all operators and inputs.", "anchors": ["mmrazor/models/quantizers/exporters/optim_utils.py: ONNXOptimUtils.optimize, topo_sort, remove_fake_pad_op, find_standalone_nodes, find_redundant_initializers, map_name_and_data"]}
{"id": "C71", "title": "Exported ONNX models compute what the model with fake quantisation computes", "statement": "Exporting a quantised model to OpenVINO replaces every fake-quantisation node by a node with the number of levels and the bounds of its integer range; exporting to TensorRT replaces it by a pair of quantise and dequantise nodes. The exported model has no fake-quantisation node left, has the same inputs and outputs, and gives the same outputs for every input. Nodes that the backend cannot run (other widths, nonzero zero points, scales that are not known) are refused.", "quantifier": "every well-formed graph with any number of per-tensor and per-channel fake-quantisation nodes, every scale, zero point and integer range, every behaviour of the other operators, every input tensor", "why_tests_cant": "Tests export one small network per backend and only check that the file loads; equality of the values on every input, including halfway values, per-channel weights, unsigned or narrow ranges and constants that one or several nodes read, is a statement about all graphs and tensors.", "anchors": ["mmrazor/models/quantizers/exporters/base_quantize_exporter.py: BaseQuantizeExportor", "mmrazor/models/quantizers/exporters/openvino_quantize_exporter.py: OpenVinoQuantizeExportor", "mmrazor/models/quantizers/exporters/tensorrt_quantize_exporter.py: TensorRTExplicitExporter"]}
{"id": "C72", "title": "Preparing a quantised model for deployment keeps what its layers compute", "statement": "The model that is returned for deployment has every quantised layer, at whatever depth, replaced by one with the batch normalisation multiplied in, and this layer computes for every input what the quantised layer computes in evaluation; other modules stay as they are, and every fake quantiser of activations is exchanged for a basic one with the same function.", "quantifier": "every tree of modules, every layer (with or without batch normalisation and activation function, any weights), every scale, zero point and scheme of quantisation per tensor or per channel, every input", "why_tests_cant": "Tests check the types of the modules after one conversion; that the second quantisation of weights with freshly observed scales changes no weight depends on the scales, the range and every single weight.", "anchors": ["mmrazor/models/quantizers/native_quantizer.py: TorchNativeQuantizer.post_process_for_deploy", "mmrazor/structures/quantization/qconfig.py: QConfigHandler.fixed_w_fakequant, replace_fakequant", "mmrazor/models/algorithms/quantization/mm_architecture.py: MMArchitectureQuant.get_deploy_model"]}
{"id": "C73", "title": "Validation reports the metrics of the subnets it names", "statement": "A validation of a supernet reports for the largest, the smallest and every random subnet, under a name of its own, the metrics over the whole dataset in evaluation mode, with the batch norm statistics of that subnet whatever was validated before, together with its resources; a fixed subnet is validated as it is. A validation of a slimmable network reports every configured subnet under its number, distillation reports teacher and student separately, and iterative pruning stores exactly the validated subnet. The hooks enclose the batches and the whole validation, the evaluator is left empty, the metrics are returned, and validation does not change the model.", "quantifier": "all numbers of random subnets, models, masks, statistics, loaders, metrics and previous states", "why_tests_cant": "A test compares the metrics of a few subnets of one model; that no results, statistics or names of one subnet leak into another must hold for every model and every sequence of subnets, and a leak changes only the numbers.", "anchors": ["mmrazor/engine/runner/subnet_val_loop.py: SubnetValLoop", "mmrazor/engine/runner/slimmable_val_loop.py: SlimmableValLoop", "mmrazor/engine/runner/distill_val_loop.py: SingleTeacherDistillValLoop, SelfDistillValLoop", "mmrazor/engine/runner/iteprune_val_loop.py: ItePruneValLoop", "mmrazor/engine/runner/utils/calibrate_bn_mixin.py: CalibrateBNMixin.calibrate_bn_statistics"]}
{"id": "C74", "title": "Hooks act at their intervals and at no other times", "statement": "The dumping hook writes exactly one sampled subnet after every interval of epochs (or iterations), and after the last one if asked to, each under its own number and into the chosen folder, keeps the most recent ones only if a number to keep is given, leaves the subnet of the model alone, and a resumed training dumps what an uninterrupted one dumps. Resources are estimated after every interval of validations. After a DMCP training the asked number of sampled subnets near the target FLOPs is exported, in order, and the expected subnet. Drawing features happens at multiples of its interval and does not change the model.", "quantifier": "all intervals, numbers of epochs, iterations and batches, validation intervals, starting epochs, folders, targets and sequences of sampled subnets", "why_tests_cant": "Tests run a few epochs with one interval; the exact set of moments, its stability under resuming and whether sampling ends depend on all intervals, starting points and sequences of samples.", "anchors": ["mmrazor/engine/hooks/dump_subnet_hook.py: DumpSubnetHook", "mmrazor/engine/hooks/estimate_resources_hook.py: EstimateResourcesHook", "mmrazor/engine/hooks/dmcp_subnet_hook.py: DMCPSubnetHook", "mmrazor/engine/hooks/visualization_hook.py: RazorVisualizationHook"]}
{"id": "C75", "title": "Images are augmented and packed as configured", "statement": "Every image gets exactly the operations of one sub-policy that its random draws admit, in order, with arguments in their documented ranges that grow with the configured magnitude, drawn anew for every image, with the configured colour, interpolation and translation; an operation of probability one is always and one of probability zero never made; pixel values stay pixel values. Packing keeps the label, the indices and the meta information of every sample.", "quantifier": "all policies, magnitudes, probabilities, parameters, random draws, images and sequences of samples", "why_tests_cant": "Augmentation is random: a test sees a few draws and cannot tell a rare draw, a draw made once for all images or an ignored parameter from chance; packing of later samples depends on all samples before.", "anchors": ["mmrazor/datasets/transforms/auto_augment.py: AutoAugmentOp, AutoAugment", "mmrazor/datasets/transforms/auto_augmentv2.py: AutoAugmentOp and its subclasses, AutoAugmentV2", "mmrazor/datasets/transforms/formatting.py: PackCRDClsInputs.transform"]}
{"id": "C76", "title": "Models and optimizers are built as configured", "statement": "Building from a config yields the configured object, or its architecture if asked for, any number of times from the same config; a sub-model is fixed and its weights are initialised once, from the given source. A wrapped architecture uses the configured preprocessor and, unless allowed, none of its modules works in place. Every configured optimizer trains exactly the parameters of the child it is named after. Drop path rates rise linearly with depth from zero to below the configured rate, in the chosen stages only.", "quantifier": "all configs, registered types, module trees, models, optimizer configs, networks, stages and rates", "why_tests_cant": "Tests build a few models once; a config changed by building, a module missed in a tree or a parameter left without an optimizer raises no error and shows only for other configs, trees or a second build.", "anchors": ["mmrazor/registry/registry.py: build_razor_model_from_cfg, sub_model", "mmrazor/models/algorithms/base.py: BaseAlgorithm.__init__, set_module_inplace_false", "mmrazor/engine/optimizers/optimizer_constructor.py: SeparateOptimWrapperConstructor", "mmrazor/models/architectures/utils/set_dropout.py: set_dropout"]}
{"id": "C77", "title": "Candidate operations of a choice block are interchangeable", "statement": "Every registered candidate operation that can be built for a place of a network, with given input and output channels and stride, turns feature maps with these input channels into maps with these output channels and with sizes divided by the stride, rounded up. So sampling another candidate never changes the shapes in the rest of the network.", "quantifier": "all operations of the MobileNet, ShuffleNet, EfficientNet and DARTS series, kernel sizes, expand ratios, channels, strides and sizes of feature maps", "why_tests_cant": "Tests run one or two square feature maps with even sizes and channels through each operation; odd sizes, unequal height and width, odd channels or an even kernel fail only for other inputs.", "anchors": ["mmrazor/models/architectures/ops/mobilenet_series.py: ShortcutLayer, MBBlock", "mmrazor/models/architectures/ops/shufflenet_series.py: ShuffleBlock, ShuffleXception", "mmrazor/models/architectures/ops/efficientnet_series.py: ConvBnAct, DepthwiseSeparableConv", "mmrazor/models/architectures/ops/darts_series.py", "mmrazor/models/architectures/ops/common.py: Identity"]}
{"id": "C78", "title": "Every subnet of a searchable backbone runs and has the promised outputs", "statement": "For every architecture setting, every choice of candidates, channels, depths, kernel sizes and expand ratios, and every image, a searchable backbone can be run; it returns the stages asked for, each with its chosen number of channels and the image size divided by the strides up to it, rounded up. Building a backbone leaves the settings of the caller unchanged, so that it can be built again. Frozen stages are neither trained nor do their batch norm statistics change, in any training mode; other stages are in the mode asked for.", "quantifier": "all settings of the three backbones, choices, images, numbers of frozen stages and training modes", "why_tests_cant": "Tests run a few sampled subnets of one setting on one image size; the number of subnets is exponential, and a mismatch of active channels shows only for particular combinations of choices.", "anchors": ["mmrazor/models/architectures/backbones/searchable_mobilenet_v2.py: SearchableMobileNetV2", "mmrazor/models/architectures/backbones/searchable_shufflenet_v2.py: SearchableShuffleNetV2", "mmrazor/models/architectures/backbones/searchable_mobilenet_v3.py: AttentiveMobileNetV3", "mmrazor/models/architectures/utils/mutable_register.py: mutate_mobilenet_layer"]}
{"id": "C79", "title": "Every network of the DARTS search space runs and has the promised outputs", "statement": "For every number of cells and nodes, every width and every choice of edges and operations in the cells, the backbone of DARTS can be run on every image: it returns the features of the cells asked for in order, with channels doubled and sides halved after each of the two reduction cells; the last feature, which the classifier reads, always has four times the initial channels per node and a quarter of the image's sides. In training the feature of the auxiliary module is added in front, and only then.", "quantifier": "all settings, all choices of edges and operations for every node of every cell, all image sizes, training and evaluation", "why_tests_cant": "Tests run the supernet and a few subnets on one image size; the search space is exponential in the number of edges, and size mismatches appear only for particular image sizes at particular cells.", "anchors": ["mmrazor/models/architectures/backbones/darts_backbone.py: DartsBackbone, Cell, Node, FactorizedReduce, AuxiliaryModule"]}
{"id": "C80", "title": "Module graphs agree with the traced network", "statement": "The graph a channel analysis starts from has exactly the calls of a torch trace as nodes, in order, each with exactly its arguments as predecessors. Checking such a graph accepts it exactly if every node except inputs is fed and every node except outputs is read; checking with repair keeps all nodes and links, puts an automatic input before each node that lacks one and an automatic output after each node that lacks one, changes nothing else, keeps the graph acyclic and makes it pass. A graph made from the paths of a backward trace has one node per layer and per concatenation, its links (followed through bind nodes) are exactly the relation described by the paths, every layer has at most one predecessor, and nodes are stored behind everything that feeds them.", "quantifier": "every traced graph with unique names, every acyclic graph and every assignment of input/output roles, every list of traced paths with arbitrarily nested concatenations", "why_tests_cant": "Tests trace a few named networks and look at the resulting channel units; wrong links in a network with other branching, dead branches or nested concatenations show up only as wrongly pruned channels.", "anchors": ["mmrazor/structures/graph/pseudo_fx_graph.py: parse_torch_graph", "mmrazor/structures/graph/base_graph.py: BaseGraph.copy_from", "mmrazor/structures/graph/module_graph.py: ModuleGraph.check, FxTracerToGraphConverter, PathToGraphConverter"]}
{"id": "C81", "title": "The traced graph computes what the network computes", "statement": "When the symbolic tracer succeeds, the graph it returns, with every call that could not be traced carried out as a whole, gives for all inputs exactly what the network computes; nodes read only earlier nodes; an input that is not connected to the output in the graph has no influence on the output. Tracing succeeds whenever the forward function of the network itself contains only traceable operations, calls of modules and calls of functions given an input, whatever is inside; and a network without untraceable operations is traced down to operations and leaf modules.", "quantifier": "every program over registers with arbitrarily nested calls of functions and modules, every meaning of the operations and parameters, every input", "why_tests_cant": "Tests trace some networks and check that it does not fail; whether the fallback on exceptions drops or misattributes a dependence shows only for particular nestings of untraceable code.", "anchors": ["mmrazor/models/task_modules/tracer/fx_tracer.py: FxTracer.trace, FxTracer.call_module, AutoWrapper.func_wapper, AutoWrapper.method_wrapper"]}
{"id": "C82", "title": "Converting a checkpoint renames its entries without losing any", "statement": "The converters keep the value of every entry they keep, under the documented new name: the student of a distiller is exactly the part below architecture.; teacher and student of an older distiller are moved and the rest stays; of a quantised model exactly the deployed mode is kept, with the observed ranges of weights renamed; the blocks of once-for-all and AttentiveNAS networks are numbered per stage by the given depths and a block beyond them fails; the seven blocks of BigNAS networks become its seven layers. If two entries get one name, the last one is kept.", "quantifier": "every state dict, every key in which the prefix to be replaced occurs once, all depths", "why_tests_cant": "Converters are run once on a few published checkpoints; that text replacement changes nothing else in a name depends on all names a model may use.", "anchors": ["tools/model_converters/convert_kd_ckpt_to_student.py: main", "tools/model_converters/convert_kd_ckpt.py: main", "tools/model_converters/convert_quant_ckpt.py: main", "tools/model_converters/convert_ofa_ckpt.py: block2layer_index_convert, main", "tools/model_converters/convert_attentivenas_nas_ckpt.py: main", "tools/model_converters/convert_bignas_gml_ckpt.py: main"]}
{"id": "C83", "title": "Losses on tensors gathered from all processes are differentiated correctly", "statement": "When every process computes a loss from the tensors gathered from all processes, the gradient passed on to the own tensor of a process is the derivative of the sum of all losses by it; averaging the gradients of all processes, as data parallel training does, gives the derivative of the mean loss by a parameter, and the derivative of the loss itself when all processes compute the same loss. The class balance loss with gathering equals the loss of one process with all samples in any order, equals the plain loss with one process, and is at most the mean of the losses without gathering.", "quantifier": "any number of processes, all tensors, all differentiable losses and parametrisations", "why_tests_cant": "Unit tests run in one process, where gathering is skipped; the factor of the gradient cannot be seen from values of the loss.", "anchors": ["mmrazor/models/architectures/ops/gather_tensors.py: GatherTensors.forward, GatherTensors.backward", "mmrazor/models/losses/dafl_loss.py: InformationEntropyLoss.forward_train"]}
{"id": "C84", "title": "Wide residual networks have the announced depth, width and sizes", "statement": "With usable arguments the network is built with the given number of stages and blocks; every image passes, its side divided by the strides (rounded up) and its channels as announced by the network and expected by its last norm layer; with three stages the number of convolutions is the depth, or one fewer if the first stage needs no shortcut; blocks initialised with zero return their input; freezing stages and other norm layers than batch norm work; the announced depths are supported.", "quantifier": "all depths, widths, channels, numbers of stages, strides, dilations, image sizes", "why_tests_cant": "Tests build a network or two with default arguments and one image size.", "anchors": ["mmrazor/models/architectures/backbones/wideresnet.py: WideResNet, ResLayer, BasicBlock, get_expansion"]}
{"id": "C85", "title": "Connectors, necks and generators return what they announce", "statement": "The FBKD masks of student and teacher are positive weights of mean one, ordered by mean absolute activation at the given temperature; MGD hides exactly the places whose random number exceeds 1 - lambda, a share of lambda of them, per position or per channel; CRD embeddings have length one and do not depend on the scale; a BYOT connector maps features to the expanded output channels and class scores; the pooling neck returns means over all positions, with dropout in training only; generators accept (n, latent_dim) data or draw it and return images of the asked size.", "quantifier": "all features, sizes, channels, temperatures, mask ratios, scales, strides", "why_tests_cant": "Tests run each component on one or two shapes and compare shapes only; default arguments that always fail are not exercised.", "anchors": ["mmrazor/models/architectures/connectors/fbkd_connector.py: FBKDStudentConnector, FBKDTeacherConnector", "mmrazor/models/architectures/connectors/mgd_connector.py: MGDConnector", "mmrazor/models/architectures/connectors/crd_connector.py: Normalize", "mmrazor/models/architectures/connectors/byot_connector.py: BYOTConnector", "mmrazor/models/architectures/necks/squeezemean_with_dropout.py: SqueezeMeanPoolingWithDropout", "mmrazor/models/architectures/generators/base_generator.py: BaseGenerator.process_latent", "mmrazor/models/architectures/generators/dafl_generator.py: DAFLGenerator", "mmrazor/models/architectures/generators/zskt_generator.py: ZSKTGenerator"]}
{"id": "C86", "title": "Tracing for quantisation skips exactly the given methods and keeps every module", "statement": "A tracer given methods to skip turns calls of these methods, also inherited ones, into single nodes and enters all other calls, whatever other tracers exist; the graph module built from the trace has all methods its nodes call; modules used several times are duplicated so that every node has a module of its own with the same contents, the first use keeping the original.", "quantifier": "all class hierarchies, lists of methods, models, histories of tracers, graphs and module names", "why_tests_cant": "Tests use one tracer per process, one or two methods of one class and one toy model without nested heads or unlucky names.", "anchors": ["mmrazor/models/task_modules/tracer/fx/custom_tracer.py: UntracedMethodRegistry, CustomTracer, _prepare_module_dict, duplicate_reused_nodes, build_graphmodule"]}
{"id": "C87", "title": "A compressor replaces exactly the wanted layers and calibrates each on exactly the inputs it saw", "statement": "Preparing a model for GPTQ or SparseGPT exchanges every convolution and linear layer that is wanted and not skipped, wherever it is used, for a compressible one with the same weights, and changes nothing else; layers that were shared stay shared. A layer that is initialised, hooked, shown inputs and unhooked holds the second moment of exactly these inputs; compressing puts each layer back where it was. Memory efficient forwarding has the tensors of a module on the device whenever it uses them, one block at a time, and leaves nothing behind; the default dtype is restored.", "quantifier": "all models with any sharing of modules, all arguments, all sequences of initialising, hooking, forwarding and compressing, all module trees and orders of calls", "why_tests_cant": "Tests use a small network without shared layers, one calibration round and successful layers only.", "anchors": ["mmrazor/implementations/quantization/gptq/compressor.py: GPTQCompressor, replace_with_dynamic_ops", "mmrazor/implementations/pruning/sparse_gpt/compressor.py: SparseGptCompressor", "mmrazor/implementations/pruning/sparse_gpt/utils.py: enable_efficient_forward, memory_efficient_forward, torch_setting", "mmrazor/implementations/quantization/gptq/ops.py: TritonGPTQLinear, GPTQLinear", "mmrazor/implementations/quantization/gptq/gptq.py: GPTQMixIn.register_hessian_hook, init_hessian"]}
{"id": "C88", "title": "A channel mutator makes the configured units and writes them down so that they can be made again", "statement": "The units that a channel mutator writes as a configuration with arguments and channels are built again from it: the same names, arguments, channels and choices, without tracing the model. A configuration with choices only, of some of the units, is enough together with a trace. Without a tracer exactly the listed units are made, each with exactly the configured channels. The same configuration means the same units in every way of parsing, choices in it are used, and preparing again gives the same result. The i-th subnet of a slimmable mutator gives every unit its i-th candidate.", "quantifier": "all configurations, default arguments, traces, classes of units and ways of parsing", "why_tests_cant": "Tests build a mutator from a few configurations of one network with one parse mode; agreement of the modes and round trips range over all configurations.", "anchors": ["mmrazor/models/mutators/channel_mutator/channel_mutator.py: ChannelMutator.prepare_from_supernet, config_template, _prepare_from_cfg, _prepare_from_tracer, _convert_channel_unit_to_mutable", "mmrazor/models/mutators/channel_mutator/slimmable_channel_mutator.py: SlimmableChannelMutator._prepare_subnets", "mmrazor/models/mutables/mutable_channel/units/channel_unit.py: ChannelUnit.init_from_cfg, init_from_channel_unit, Channel", "mmrazor/models/mutables/mutable_channel/units/mutable_channel_unit.py: MutableChannelUnit.init_from_cfg, config_template"]}
{"id": "C89", "title": "A quantiser configuration decides how each operation is quantised", "statement": "From a configuration with the six required dictionaries the observers get exactly the integer range, type and scheme of their qscheme, per channel exactly if the observer is, and the other options that were given; an incomplete configuration is refused. Options given to observers and fake quantisers are used. In an academic quantiser an operation gets the configuration of its name, else of its type, else the global one; in a native quantiser the listed modules get none, operations with a fixed range the fixed one and all others the global one, and activations are never quantised per channel. Preparing a model replaces every FloatFunctional and every synchronised normalisation below it and leaves everything else (names, order, weights) as it was.", "quantifier": "all configurations, registries, listed modules and types, and all module trees", "why_tests_cant": "Tests use a few configurations on one small model; precedence, dropped options and shared modules range over all configurations and module trees.", "anchors": ["mmrazor/structures/quantization/qconfig.py: QSchemeHandler, QConfigHandler", "mmrazor/models/quantizers/native_quantizer.py: TorchNativeQuantizer.__init__, gen_qconfig_mapping", "mmrazor/models/quantizers/academic_quantizer.py: AcademicQuantizer.gen_qconfig_mapping", "mmrazor/models/utils/quantization_util.py: str2class", "mmrazor/models/quantizers/base.py: BaseQuantizer.swap_ff_with_fxff, convert_batchnorm2d"]}
{"id": "C90", "title": "A metric predictor scores the subnets of the search, and its handlers are trained as documented", "statement": "With a predictor the subnets of the search are scored by predictions: after training on exactly the requested number of validated subnets every later score is the rounded prediction of the trained handler, and with a checkpoint of a handler no training is needed and every score is predicted. Candidates given to start the search are used, and files written by the search can serve as training samples. The network handler keeps the weights with the smallest validation loss and can be saved and loaded; every regression tree is trained on all samples with their own labels and the prediction is the mean over the trees; interpolation uses all samples, of which there must be more than groups; normalisation never divides by zero.", "quantifier": "all search spaces, samples, handlers, numbers of epochs, split ratios and random orders", "why_tests_cant": "Tests run the search with a predictor for one or two epochs on fake data and only look at the files; which scores were predicted ranges over all runs.", "anchors": ["mmrazor/engine/runner/evolution_search_loop.py: EvolutionSearchLoop.run, _init_predictor, _val_candidate, update_candidates_scores", "mmrazor/models/task_modules/predictor/metric_predictor.py: MetricPredictor", "mmrazor/models/task_modules/predictor/handler/mlp_handler.py: MLPHandler", "mmrazor/models/task_modules/predictor/handler/carts_handler.py: CartsHandler", "mmrazor/models/task_modules/predictor/handler/rbf_handler.py: RBFHandler", "mmrazor/models/task_modules/predictor/handler/gp_handler.py: DACE_with_smooth"]}
{"id": "C91", "title": "The channel analyser reports the units that can be pruned, using demo inputs of the requested shape", "statement": "A unit is tried only if both of its sides have a dynamic layer and all its channels can be masked. The analyser compares the output of the pruned model with that of the unpruned model in the first working mode, reports every unit that works alone and only units that were part of a working group, keeps their order, and the reported units work together. Trying a unit really removes channels. Registering the channels of a unit puts the unit at every dynamic layer with the right expansion, leaves other entries alone, can be repeated, and refuses places held by another unit. Demo inputs are chosen by scope and class of the model and have the requested shape, batch and training flag.", "quantifier": "all models (as functions from pruned units to outputs), unit lists, output structures, drawn choices, scopes, model classes and input shapes", "why_tests_cant": "Tests analyse a handful of models whose units do not interact; the halving search and the check of outputs range over all models and groups of units.", "anchors": ["mmrazor/models/task_modules/tracer/channel_analyzer.py: ChannelAnalyzer._find_mutable_units", "mmrazor/models/mutables/mutable_channel/units/utils.py: find_mutable, forward_units, get_shape, assert_model_is_changed", "mmrazor/models/mutables/mutable_channel/units/mutable_channel_unit.py: MutableChannelUnit.is_mutable, _register_mutable_channel", "mmrazor/models/mutables/mutable_channel/units/channel_unit.py: Channel.is_mutable", "mmrazor/models/task_modules/demo_inputs/default_demo_inputs.py: get_default_demo_input_class, DefaultDemoInput", "mmrazor/models/task_modules/demo_inputs/demo_inputs.py: BaseDemoInput"]}
{"id": "C92", "title": "Dynamic layer norms, patch embeddings and input resizers behave as their static versions, and preparing a model keeps it", "statement": "A dynamic layer norm, patch embedding or input resizer computes with exactly the active part of its parameters or the chosen size, independently of what it was used for before; without a mutable it behaves as the static layer; converted from and exported to static layers it gives equal outputs; mutables of the wrong size are refused. The searchable classifier resizes its inputs in every way of testing and connects its head to the named parts. Preparing the layers of a unit replaces exactly the layers with a dynamic counterpart, keeps their weights and hyperparameters, and can be repeated.", "quantifier": "all layers, weights, masks, sequences of choices and runs, inputs, interpolation types, models and units", "why_tests_cant": "Tests run one layer with one or two choices; equality of outputs ranges over all weights, masks, inputs and histories of use.", "anchors": ["mmrazor/models/architectures/dynamic_ops/bricks/dynamic_norm.py: DynamicLayerNorm", "mmrazor/models/architectures/dynamic_ops/mixins/dynamic_layernorm_mixins.py: DynamicLayerNormMixin", "mmrazor/models/architectures/dynamic_ops/bricks/dynamic_embed.py: DynamicPatchEmbed", "mmrazor/models/architectures/dynamic_ops/bricks/dynamic_function.py: DynamicInputResizer", "mmrazor/models/architectures/ops/function.py: InputResizer", "mmrazor/models/architectures/classifiers/image.py: SearchableImageClassifier", "mmrazor/models/mutables/mutable_channel/units/mutable_channel_unit.py: MutableChannelUnit._replace_with_dynamic_ops"]}
{"id": "C93", "title": "Self distillation and distillation from the features of a teacher report the configured losses and train only what they should", "statement": "A step of self distillation runs the student once; it reports the task losses exactly when asked to, and every configured distillation loss once; the self teacher is detached, so only inputs taken from the student carry gradients, and a student that is not trainable is not trained. A step with a teacher that only runs backbone and neck reports the task losses as configured and, until distillation is stopped, every distillation loss; the teacher gets gradients only if trainable. Deliveries pass what was recorded and are empty after every step.", "quantifier": "all options, loss configurations, passes of networks, states of the deliveries and histories of steps", "why_tests_cant": "Tests run one step of one configuration and look at the keys of the losses, not at gradients, deliveries or later steps.", "anchors": ["mmrazor/models/algorithms/distill/configurable/self_distill.py: SelfDistill.loss", "mmrazor/models/algorithms/distill/configurable/fpn_teacher_distill.py: FpnTeacherDistill.loss", "mmrazor/models/distillers/byot_distiller.py: BYOTDistiller.get_record", "mmrazor/models/distillers/configurable_distiller.py: ConfigurableDistiller.compute_distill_losses"]}
{"id": "C94", "title": "Feature maps are drawn as asked for, and the utilities of a process report and set what they say", "statement": "A drawing of a feature map has the size of the requested shape or of the overlaid image, uses as much of the map as the proportions of the image allow, and shows the pixelwise maximum, the mean, the strongest channel, or the strongest channels in descending order, as asked for; requests that cannot be met are refused, and only those. The number of the iteration within its epoch is reported; setting up a process never overrides thread variables that are set and works for every configuration; registering the modules makes the scope of the library the current one whatever was created before; messages are printed once, with their level, and changing the level changes what is written.", "quantifier": "all feature maps, images, options, runtime information, environments, histories of scopes, ranks and levels", "why_tests_cant": "Tests draw one random map and compare types; optimality of the choice and equality of sizes range over all maps, and scopes over all histories.", "anchors": ["mmrazor/visualization/local_visualizer.py: modify", "mmrazor/utils/runtime_info.py: RuntimeInfo", "mmrazor/utils/setup_env.py: setup_multi_processes, register_all_modules", "mmrazor/utils/log_tools.py: get_level, print_log, set_log_level"]}
{"id": "C95", "title": "Group Fisher sub-models have the pruned widths rounded up to the divisor, and the saved structure rebuilds them for deployment", "statement": "Converting a pruned algorithm to a static model gives every prunable unit the smallest multiple of the divisor that holds its channels in use and leaves the other layers alone; the structure saved during finetuning, given to the deployment of the unpruned architecture, yields a model the finetuned checkpoint fits, for every divisor; making a model divisible again changes nothing; the built model is never initialised again and its structure is saved once the working directory is known.", "quantifier": "all architectures (units, widths, prunability), pruning states, divisors and sequences of initialisation calls", "why_tests_cant": "Tests build one model with one divisor and never feed the file saved by finetuning into deployment; the correspondence ranges over all architectures and divisors.", "anchors": ["mmrazor/implementations/pruning/group_fisher/prune_sub_model.py: GroupFisherSubModel, hacky_init_weights_wrapper", "mmrazor/implementations/pruning/group_fisher/prune_deploy_sub_model.py: GroupFisherDeploySubModel", "mmrazor/models/utils/expandable_utils/tools.py: make_channel_divisible", "mmrazor/models/mutables/mutable_channel/units/channel_unit.py: ChannelUnit.name", "mmrazor/models/mutators/channel_mutator/channel_mutator.py: ChannelMutator.set_choices"]}
{"id": "C96", "title": "Models with predefined channel choices: one unit per choice, containing exactly the ranges that depend on it", "statement": "When a channel search is prepared from a model whose layers already carry channel choices, each choice gets exactly one unit, in the order of first use; a unit's channels are exactly the registered input and output ranges that depend on its choice, directly or derived; its candidates are those of the choice in ascending order; after any sequence of accepted settings every layer range has the number last set for its unit times its ratio; the search covers exactly the units that some layer produces and some layer uses, and starts with the largest candidates. A choice made without candidates offers all its channels.", "quantifier": "all lists of layers, registered ranges, derived choices, candidate lists, sequences of settings, and histories of constructed choices", "why_tests_cant": "Tests prepare two toy models; the correspondence ranges over all registrations, sharings and derivations, and the candidates of a choice made without a list depend on every choice made before in the process.", "anchors": ["mmrazor/models/mutables/mutable_channel/units/mutable_channel_unit.py: MutableChannelUnit.init_from_predefined_model, is_mutable", "mmrazor/models/mutables/mutable_channel/units/one_shot_mutable_channel_unit.py: OneShotMutableChannelUnit.init_from_mutable_channel, current_choice", "mmrazor/models/mutables/mutable_channel/oneshot_mutable_channel.py: OneShotMutableChannel.__init__", "mmrazor/models/mutators/nas_mutator.py: NasMutator.prepare_from_supernet, has_channel"]}
{"id": "C97", "title": "Products with packed weights: every element once, and the product with the weights that were packed", "statement": "Running a layer with packed weights stores every element of its output exactly once and nothing else, whatever the sizes of blocks and groups; each element is the product of the input with the weights the packed tensors stand for, and the gradient of the input the product with their transpose. The result does not depend on which configuration the tuning chose, on the running times measured, on the calls made before, on the strides of the input, or on what is stored behind the tensors.", "quantifier": "all numbers of rows, inputs and outputs, all memory contents and strides, all block and group sizes, all measured times and all histories of calls", "why_tests_cant": "The kernel needs a GPU and a test sees the one configuration that happened to be fastest there; reading behind a tensor often returns zeros or valid numbers, and which configuration is remembered depends on the history of sizes.", "anchors": ["mmrazor/implementations/quantization/gptq/ops.py: matmul_248_kernel, transpose_matmul_248_kernel, matmul248, transpose_matmul248, QuantLinearFunction", "mmrazor/implementations/quantization/gptq/custom_autotune.py: Autotuner, matmul248_kernel_config_pruner"]}
{"id": "C98", "title": "Synchronised normalisation of searchable layers: several processes behave like one with the whole batch", "statement": "When a layer with synchronised batch normalisation and a changing choice of channels is trained by several processes, every process ends each step with the running statistics that one process would have after the whole batch, and the outputs put together are the output for the whole batch, whichever channels are active and however the batch is divided, also when a process gets no data. So the copies stay equal for the whole training. In evaluation the result does not depend on the division either.", "quantifier": "all numbers of processes, all divisions of all batches, all masks of channels, all numbers of steps", "why_tests_cant": "Needs several GPUs; a test compares one division of one batch, while the copies must stay equal over a whole training with changing channels.", "anchors": ["mmrazor/models/architectures/dynamic_ops/bricks/dynamic_norm.py: DynamicSyncBatchNorm.forward", "mmrazor/models/architectures/dynamic_ops/mixins/dynamic_mixins.py: DynamicBatchNormMixin"]}
{"id": "C99", "title": "Training in several processes is training with the mean of their losses", "statement": "Training with the distributed wrappers gives the same as training in one process with the mean of the losses of the processes: after any number of iterations, with any number of processes, batches, sampled subnets and accumulation windows, all processes hold the same weights, architecture parameters and optimizer states, each process has run the forward passes that fall to it, and no process waits for an exchange the others do not take part in. A checkpoint written in one setting has the same parameter names as in the other.", "quantifier": "all numbers of processes, all batches and sampled subnets of each process, all accumulation windows and all numbers of iterations; all models for the names", "why_tests_cant": "Needs several processes and GPUs; a difference appears only when the processes see different batches, and whether the copies stay equal is a statement about a whole training.", "anchors": ["mmrazor/models/algorithms/nas/autoslim.py: AutoSlimDDP", "mmrazor/models/algorithms/nas/bignas.py: BigNASDDP", "mmrazor/models/algorithms/pruning/slimmable_network.py: SlimmableNetworkDDP", "mmrazor/models/algorithms/nas/darts.py: DartsDDP, BatchNormWrapper", "mmrazor/models/algorithms/pruning/dmcp.py: DMCPDDP", "mmrazor/models/algorithms/nas/dsnas.py: DSNASDDP", "mmrazor/implementations/pruning/group_fisher/algorithm.py: GroupFisherDDP"]}
{"id": "C100", "title": "Search units read off the channel graph are exactly what pruning needs", "statement": "After channel tensors have been passed through the graph of a network, two channels are in one set exactly when the operations force them to be treated alike: added tensors agree channel by channel, a flattened channel stands for all its entries, the groups of a grouped convolution or group norm are alike, the outputs of the network are one whole, a layer used several times sees the same channels every time. The masks which the layers can get from masks of the generated search units are exactly the choices of channels that respect all these demands. Reading the units never fails on a fresh graph.", "quantifier": "every graph of convolutions, linear layers, normalisations, activations, additions, concatenations, flattenings, grouped convolutions, shared layers and outputs, with any numbers of channels; every mask of every search unit; every way of keeping channels", "why_tests_cant": "Tests parse a few known networks and compare a handful of units; that no network of any size ties too little (broken shapes after pruning) or too much (lost freedom) is a statement about all graphs and all masks.", "anchors": ["mmrazor/structures/graph/channel_nodes.py: channel_forward of all nodes, group_union", "mmrazor/structures/graph/channel_graph.py: ChannelGraph.forward, _merge_same_module, generate_units_config, _reset_channel_elem_cache", "mmrazor/structures/graph/channel_flow.py: ChannelElem, ChannelTensor", "mmrazor/models/mutables/mutable_channel/units/mutable_channel_unit.py: _register_mutable_channel"]}
{"id": "C101", "title": "Calibration and evaluation in the examples for large models", "statement": "The perplexity printed for a compressed language model is the exponential of the mean cost of the predicted tokens of all whole windows of the test text, whatever the batch size and however many processes share the work; a calibration uses as many samples of the calibration data as asked for; options given on the command line have the value that was given; the accuracy of a compressed classifier is the share of images with the right class, also in half precision.", "quantifier": "all texts, window lengths, batch sizes, numbers of processes and samples, costs of tokens, labels and predictions", "why_tests_cant": "Needs the averaging over unequal batches, the padding of the distributed sampler and the rounding of labels for every size; a run on one text with one batch size shows one number that nobody can compare.", "anchors": ["projects/mmrazor_large/examples/language_models/OPT/utils.py: fold_tokens, opt_eval, opt_infer, opt_eval_fsdp", "projects/mmrazor_large/examples/language_models/OPT/datautils.py: get_wikitext2, get_c4, LanguageDataset, build_language_loader", "projects/mmrazor_large/examples/language_models/OPT/opt_sparse_gpt.py", "projects/mmrazor_large/examples/ResNet/resnet18_gptq.py: eval, infer"]}
{"id": "C102", "title": "Command line tools do with their inputs what they are asked to", "statement": "A training run is started with the settings of the command line where given and with those of the configuration otherwise: directory, mixed precision, scaling of the learning rate, resuming. A test uses the checkpoint it is given. A supernet checkpoint converted to a subnet yields the weights of that checkpoint, in a file of its own; static models of different checkpoints go to different files. The configuration made for pruning holds either the choices given or, if they do not fit, those of the model, and keeps the preprocessor. A published checkpoint holds everything but the state of the training, next to its log. The drawn curve of the learning rate has as many iterations per epoch as the training. Every difference of feature maps that is asked for can be found in the output.", "quantifier": "all command lines, configurations, checkpoints, lists of choices, file names, sizes of datasets and batches, and mappings of feature maps", "why_tests_cant": "The tools have no unit tests with real runs; losing a setting or a file gives no error, and each loss shows only for combinations of settings, names or times nobody thought of trying.", "anchors": ["tools/train.py: main", "tools/test.py: main", "tools/ptq.py: main", "tools/model_converters/convert_supernet2subnet.py: main", "tools/model_converters/publish_model.py: process_checkpoint", "tools/pruning/get_l1_prune_config.py: wrap_prune_config", "tools/pruning/get_static_model_from_algorithm.py: get_save_path", "tools/visualizations/vis_scheduler.py: main", "tools/visualizations/feature_diff_visualization.py: main", "mmrazor/models/mutators/channel_mutator/channel_mutator.py: ChannelMutator.set_choices"]}
{"id": "C103", "title": "Backend tables fuse, exchange and deploy layers without changing the network", "statement": "Preparing a network for quantisation-aware training with the table of any backend exchanges layers only for modules that compute the same layers in the same order: a convolution with or without batch norm and ReLU, and a linear layer with batch norm or ReLU, become the one module made for the combination, whatever comes before them. Every module put in has an entry of its own with the right root and reference layer, and deployment knows it, folds its batch norm and leaves everything else. The entry of a pattern is the last one set. Positions of weights among the arguments, number types and shared or fixed observers fit the operations. The way a layer is called (module, function, method) does not matter, every network can be prepared, and every supported version of torch has tables.", "quantifier": "all networks as sequences of operations, all tables made of sound entries and in particular the four of the repository, all dimensions and ways to call ReLU", "why_tests_cant": "The tables have hundreds of entries and later ones silently replace earlier ones; a wrong entry shows only for networks with that combination of layers at that place, and the tests prepare one network.", "anchors": ["mmrazor/structures/quantization/backend_config/common_operator_config_utils.py: _get_conv_configs, _get_linear_configs, _get_bn_configs, _get_share_qparams_op_configs", "mmrazor/structures/quantization/backend_config/native.py: get_native_backend_config", "mmrazor/structures/quantization/backend_config/openvino.py: get_openvino_backend_config", "mmrazor/structures/quantization/backend_config/tensorrt.py: get_tensorrt_backend_config", "mmrazor/structures/quantization/backend_config/academic.py: get_academic_backend_config", "mmrazor/structures/quantization/backend_config/mapping.py: BackendConfigs", "mmrazor/models/quantizers/native_quantizer.py: TorchNativeQuantizer.prepare, post_process_for_deploy", "mmrazor/models/quantizers/academic_quantizer.py: AcademicQuantizer.prepare"]}
{"id": "C104", "title": "Recorded inputs and parameters are those of the calls and the model", "statement": "The record of a call of a function or method is what the caller gave, in the order of the parameters, the same whether given by place or by keyword, and a parameter is found at its place in the signature. Recording changes neither results nor exceptions; the buffer holds one record for every call that returned, in order. A static method can be recorded as well and is static again afterwards. The inputs of a module are recorded completely. A parameter of the model is found under any of its names, and reading gives the parameter of the model the recorder was last initialised with.", "quantifier": "all signatures Python accepts (ordinary, rest, keyword-only and remaining keyword parameters, with or without defaults), all calls and sequences of calls, all models with shared parameters, all sequences of initialisations", "why_tests_cant": "The tests call functions of two parameters with both given; whether a place in the record means the same parameter for every way to call a function is a statement about all signatures and calls.", "anchors": ["mmrazor/models/task_modules/recorder/function_inputs_recorder.py: FunctionInputsRecorder.func_record_wrapper", "mmrazor/models/task_modules/recorder/method_inputs_recorder.py: MethodInputsRecorder.method_record_wrapper", "mmrazor/models/task_modules/recorder/module_inputs_recorder.py: ModuleInputsRecorder.forward_hook", "mmrazor/models/task_modules/recorder/method_outputs_recorder.py: MethodOutputsRecorder.__init__", "mmrazor/models/task_modules/recorder/param_recorder.py: ParameterRecorder.prepare_from_model, reset_data_buffer", "mmrazor/models/task_modules/recorder/base_recorder.py: BaseRecorder.initialize, get_record_data"]}
{"id": "C105", "title": "Pseudo losses, heads, connectors and single path training hand on exactly what they are given", "statement": "The pseudo loss that drives tracing sums every tensor of a nested output exactly once and reaches all of them, and refuses outputs with anything else inside. A head with an auxiliary classifier minimises the main loss on the last features plus the auxiliary loss on the first, against the same targets, and accuracies do not count; a distilled head returns the class token's score only. A convolution connector computes its layers in order and leaves the features it is given (and all others) unchanged. The factor transfer connectors keep the sizes so that teacher and student factors can be compared, with gradients only where they are trained. Single path training computes each loss under choices drawn in that step, and evaluation leaves the model unchanged.", "quantifier": "all nested outputs, batches of samples, features, layer orders and memories of tensors, channel numbers and sizes, sequences of train and evaluation calls, batches and random draws", "why_tests_cant": "Outputs can be nested in any way, effects in place are only visible to others holding the same tensor, and the influence of evaluation on running statistics depends on the history of batches.", "anchors": ["mmrazor/models/task_modules/tracer/loss_calculator/sum_loss_calculator.py: SumPseudoLoss", "mmrazor/models/architectures/heads/darts_subnet_head.py: DartsSubnetClsHead", "mmrazor/models/architectures/heads/deit_head.py: DeiTClsHead", "mmrazor/models/architectures/connectors/convmodule_connector.py: ConvModuleConnector", "mmrazor/models/architectures/connectors/factor_transfer_connectors.py: Paraphraser, Translator", "mmrazor/models/algorithms/nas/spos.py: SPOS.loss, SPOS.train"]}
{"id": "C106", "title": "A pruned network computes the active part of the whole network", "statement": "For every network of convolutions, grouped and depthwise convolutions, linear and norm layers, activations, additions, concatenations and flattenings that the channel graph can read, whatever masks its search units choose (with all inputs kept and at least one channel left in front of every layer), the supernet runs without an error, and the value of every node is exactly the active channels of the value the whole network has there with zeros in place of the dropped channels in front of every convolution. Exporting every layer succeeds and the exported network has the same values. If the dropped channels are zero in front of the convolutions anyway, the pruned network has the outputs of the original one; with all masks full it is the original network.", "quantifier": "all graphs of channel nodes of any size and shape, all weights, biases and inputs, all masks of the search units", "why_tests_cant": "Tests run a few fixed networks at a few widths and compare shapes or single outputs; that a mask chosen by a unit reaches every layer it must reach, in the right order, and that the layers then fit together for every graph and every choice of channels needs an induction over the graph.", "anchors": ["mmrazor/models/mutables/mutable_channel/units/mutable_channel_unit.py: MutableChannelUnit._register_channel_container", "mmrazor/structures/graph/channel_graph.py: ChannelGraph", "mmrazor/structures/graph/channel_nodes.py: ChannelNode.forward", "mmrazor/models/architectures/dynamic_ops/mixins/dynamic_conv_mixins.py: DynamicConvMixin.get_dynamic_params", "mmrazor/models/architectures/dynamic_ops/bricks/dynamic_norm.py: _DynamicBatchNorm", "mmrazor/structures/subnet/fix_subnet.py: load_fix_subnet"]}
{"id": "C107", "title": "The resources reported for a pruned network are those of the network that is exported", "statement": "For every traced network, every admissible choice of masks by its search units and every input shape, the FLOPs and parameters that the estimator reports for the searchable network with these masks are the FLOPs and parameters reported for the network exported at this choice, and these are the numbers actually held by the exported layers: each counts as one parameter, and as one operation per output position and sample.", "quantifier": "all channel graphs that trace, all modules that fit them, all admissible masks that keep the inputs and leave a channel in front of every module, all kernel sizes, batch sizes and shapes of the maps", "why_tests_cant": "A test compares the two reports at a few choices of one network; the agreement must hold at every choice a search visits, and fails only for some kinds of layers at partial widths.", "anchors": ["mmrazor/models/task_modules/estimators/counters/flops_params_counter.py:get_model_flops_params", "mmrazor/models/task_modules/estimators/counters/op_counters/conv_layer_counter.py:DynamicConv2dCounter", "mmrazor/models/architectures/dynamic_ops/mixins/dynamic_conv_mixins.py:DynamicConvMixin.to_static_op", "mmrazor/models/mutables/mutable_channel/units/mutable_channel_unit.py:MutableChannelUnit"]}
{"id": "C108", "title": "Calibrated statistics of candidates and of the saved subnet", "statement": "When batch norms are calibrated before a candidate is validated, the candidate is evaluated with the average means and variances of its own calibration batches, weighted by batch size and independent of what was evaluated before; channels it does not use keep theirs. The subnet saved at the end has the statistics its score was measured with, and layers through which no sample went are unchanged.", "quantifier": "all layers, masks, lists of calibration batches and sequences of candidates", "why_tests_cant": "tests mock the calibration or validate one candidate; which statistics remain depends on the whole order of candidates and on the shape of every mask", "anchors": ["mmrazor/engine/runner/utils/calibrate_bn_mixin.py:CalibrateBNMixin.calibrate_bn_statistics", "mmrazor/engine/runner/evolution_search_loop.py:EvolutionSearchLoop._val_candidate", "mmrazor/engine/runner/evolution_search_loop.py:EvolutionSearchLoop._save_best_fix_subnet", "mmrazor/engine/runner/subnet_val_loop.py:SubnetValLoop._evaluate_once", "mmrazor/models/architectures/dynamic_ops/bricks/dynamic_norm.py:SwitchableBatchNorm2d"]}
{"id": "C109", "title": "Slimmable networks use, train and deploy the normalisation layers of the chosen widths", "statement": "Preparing a network with slimmable channel units gives every batch normalisation one further layer for each candidate width of its unit and leaves every unit at its widest candidate. However the units are then set to their candidates, each batch normalisation runs with the layer of the current width (itself at full width), so that two subnets share a layer exactly if they agree on its width. A training step trains every subnet of the configuration once with those layers, and deploying a subnet by its index keeps exactly the layers which that subnet trained; an index out of range is refused.", "quantifier": "all sets of units with their widths, divisors, minimal values and candidate lists, all batch normalisations over them (also over concatenations of units), all sequences of settings of choices, all numbers of training steps and all deploy indices", "why_tests_cant": "Tests train one small network with one candidate configuration; which layer is looked up depends on the interplay of rounding, the order of preparing the units and every setting made before, and the failing combinations (concatenations, ratio mode, rounded requests) only show for particular widths.", "anchors": ["mmrazor/models/mutables/mutable_channel/units/slimmable_channel_unit.py: SlimmableChannelUnit.prepare_for_pruning, alter_candidates_of_switchbn", "mmrazor/models/architectures/dynamic_ops/bricks/dynamic_norm.py: SwitchableBatchNorm2d", "mmrazor/models/mutators/channel_mutator/slimmable_channel_mutator.py: SlimmableChannelMutator", "mmrazor/models/algorithms/pruning/slimmable_network.py: SlimmableNetwork"]}
{"id": "C110", "title": "The exported MobileNetV3 subnet is the network built with the chosen settings", "statement": "Exporting a subnet of the searchable MobileNetV3 for chosen widths, depths, kernel sizes and expand ratios gives a static network with exactly the layers (kinds, channels, kernels, paddings, strides, squeeze widths, shortcuts) of the network constructed directly with the chosen values as its only candidates. This holds exactly if no layer depends on what was not chosen: an expand ratio of one is chosen only where it is the largest, and without attentive shortcuts the residual connections decided by the largest widths are those of the chosen widths. Even kernels and strides other than one and two are refused.", "quantifier": "all search spaces with any numbers of stages and candidates, all choices from them, with and without squeeze and excitation and attentive shortcut, uniform and fine-grained choices", "why_tests_cant": "Tests export a few random subnets of one predefined space; whether the exported layers are those of the constructed network depends on relations between chosen and largest values in every stage.", "anchors": ["mmrazor/models/architectures/backbones/searchable_mobilenet_v3.py: AttentiveMobileNetV3", "mmrazor/models/architectures/ops/mobilenet_series.py: MBBlock", "mmrazor/models/architectures/utils/mutable_register.py: mutate_mobilenet_layer", "mmrazor/structures/subnet/fix_subnet.py: _dynamic_to_static"]}
{"id": "C111", "title": "L1 pruning keeps the channels with the largest mean absolute weights", "statement": "Setting an L1 channel unit to a number or share of channels keeps as many channels as the rounded choice says, and no kept channel has a smaller mean absolute weight, averaged over the convolutions and linear layers that produce it, than a dropped one; reading the unit gives that number back. The kept channels do not depend on the scale of the weights, on the order of the layers, on normalisation layers or on rows outside the slice of the unit, fewer channels are always among more, and channels without any weight are dropped first. If no two channels are equally important the kept ones are determined by this.", "quantifier": "all units with any widths, divisors and modes, all lists of producing layers with all weights and slices, all choices", "why_tests_cant": "Tests set random choices and look at the number of kept channels; the ranking has to hold for all weights, slices of concatenated layers and layers shared by a unit.", "anchors": ["mmrazor/models/mutables/mutable_channel/units/l1_mutable_channel_unit.py: L1MutableChannelUnit", "mmrazor/models/mutables/mutable_channel/simple_mutable_channel.py: SimpleMutableChannel"]}
{"id": "C112", "title": "Iterative L1 pruning reaches the target with the best channels", "statement": "Training with iterative pruning and L1 channel units prunes at the planned iterations only. After any number of iterations every unit of the plan keeps the channels of the largest mean absolute weights at the last pruning, as many as the schedule says, rounded to the divisor, and never fewer than its target; from the last pruning on it has exactly the target number of channels and nothing changes any more. Units outside the plan are left alone, a plan for an unknown unit is refused, and while the weights stay the same the kept channels only get fewer.", "quantifier": "all sets of units with their widths and divisors, all targets, schedules and numbers of iterations, all sequences of weights during training", "why_tests_cant": "Tests run a few iterations on one network and compare numbers of channels at the end; which channels are kept depends on the weights at every pruning of an arbitrary training.", "anchors": ["mmrazor/models/algorithms/pruning/ite_prune_algorithm.py: ItePruneAlgorithm, ItePruneConfigManager", "mmrazor/models/mutables/mutable_channel/units/l1_mutable_channel_unit.py: L1MutableChannelUnit", "mmrazor/models/mutators/channel_mutator/channel_mutator.py: ChannelMutator.set_choices"]}
{"id": "C113", "title": "Subnets of the searchable vision transformer have the chosen widths", "statement": "A vision transformer built from lists of widths, heads, ratios and depths accepts every listed choice for every layer, and after any number of choices its forward pass uses exactly the first channels of the current width in every layer, 64 features for each current head, width times ratio hidden features (rounded down) and the first layers up to the current depth; its output has the current width, and a subnet with the same choice in all layers has the sizes of the network built with these settings alone. Other choices are refused. The order in which the candidates are listed does not matter.", "quantifier": "all lists of candidates, all sequences of choices for all layers", "why_tests_cant": "Tests build one search space with sorted lists and sample a few subnets; that widths agree everywhere concerns all combinations of choices of all layers, all histories of choices and all orders of the lists.", "anchors": ["mmrazor/models/architectures/backbones/searchable_autoformer.py: AutoformerBackbone, TransformerEncoderLayer", "mmrazor/models/mutables/mutable_channel/mutable_channel_container.py: MutableChannelContainer", "mmrazor/models/mutables/mutable_channel/sequential_mutable_channel.py: SquentialMutableChannel.__mul__", "mmrazor/models/mutables/mutable_value/mutable_value.py: OneShotMutableValue"]}
{"id": "C114", "title": "Pruning with group Fisher information down to resource thresholds", "statement": "Training with group Fisher pruning and the resource hook writes at most one checkpoint for every threshold, from big to small; a checkpoint holds the network pruned by the batches so far and needs less than its share of the original resource, no unit in it has lost its last channel, and it is not written later than the first check that is below its threshold and not used up by a bigger threshold. If the information of the batches is bounded and the network with one channel in every unit is below all thresholds, every threshold gets its checkpoint within interval times the spare channels plus one check per threshold, and with early stopping training ends then.", "quantifier": "all units and masks, all sequences of batch contributions (also NaN for the first part), all thresholds, both intervals and all resource functions of the widths", "why_tests_cant": "The pruning schedule, the information of arbitrary batches and the thresholds interact over the whole training; tests run a few iterations of one network.", "anchors": ["mmrazor/implementations/pruning/group_fisher/algorithm.py:GroupFisherAlgorithm._train_step", "mmrazor/implementations/pruning/group_fisher/hook.py:ResourceInfoHook", "mmrazor/implementations/pruning/group_fisher/mutator.py:GroupFisherChannelMutator.try_prune"]}
{"id": "C115", "title": "A whole evolutionary search exports a legal subnet within the constraints that no scored candidate beats", "statement": "On a properly set up search (well-formed groups whose elements accept the same choices, probabilities between 0 and 1, an estimator reporting the constrained resources, room for one candidate and one of the best, no more descendants than candidates), an evolutionary search of at least one epoch never raises: mutated and crossed candidates can always be set on the model. Every candidate that is scored belongs to the search space, keeps to the resource constraints, carries the estimates of the model with its choices, and is scored by a validation of the model with its choices. n epochs score n times the configured number of candidates. The exported subnet is one of the scored candidates, it is what is set on the model, keeps to the constraints, and no scored candidate has a higher score or a better metric. A search that is interrupted after any epoch and resumed from its checkpoint scores the same further candidates and exports the same subnet as the uninterrupted one. The file written at the end loads into a fresh supernet and fixes every searched element to the choice of the exported subnet.", "quantifier": "All groups, choices, constraints, estimators, evaluators, sizes, probabilities, numbers of epochs and all random draws of sampling, mutation and crossover; all crash points between epochs.", "why_tests_cant": "Tests run one search of a few epochs with a fixed seed; illegal offspring, estimates taken with stale choices or a lost best candidate depend on the history of draws.", "anchors": ["mmrazor/engine/runner/evolution_search_loop.py: EvolutionSearchLoop.run, run_epoch, sample_candidates, update_candidates_scores, gen_mutation_candidates, gen_crossover_candidates, _mutation, _crossover, _save_best_fix_subnet, _check_constraints, _resume", "mmrazor/engine/runner/utils/check.py: check_subnet_resources", "mmrazor/engine/runner/utils/genetic.py: crossover", "mmrazor/models/mutators/nas_mutator.py: NasMutator.set_choices, sample_choices, current_choices"]}
{"id": "C116", "title": "Observers of a calibration and the values they have seen", "statement": "Over any sequence of batches the min-max observers (and the LSQ observers built on them) hold exactly the smallest and largest value seen; scale and zero point do not depend on how the values were grouped, ordered or repeated and equal those computed anew for the same values at export. With these parameters fake quantisation moves no value seen during calibration by more than half a scale, zero is represented exactly, the scale is not larger than needed, and one output of a layer with observed weights changes by at most half a scale times the magnitudes of the inputs. The LSQ scale is twice the mean magnitude of the last non-empty batch over the root of the largest level, equal on all processes of a distributed run (the mean of their scales); values within the outermost levels move by at most half a scale. Per-channel observers record for each channel what an observer of that channel alone would. An observer that saw nothing answers scale one and zero point zero, or fails (LSQ).", "quantifier": "all sequences of batches (with empty ones) of any sizes and values, all schemes (bits, signed or not, symmetric or affine), all numbers of channels and processes, all weights and inputs", "why_tests_cant": "the bound must hold for every value of every calibration history and for every rounding of the zero point; tests calibrate on a few tensors and compare with recorded parameters", "anchors": ["mmrazor/models/observers/lsq.py: LSQObserver, LSQPerChannelObserver, LSQObserverMixIn._calculate_scale, sync_tensor", "mmrazor/models/observers/torch_observers.py: register_torch_observers", "mmrazor/models/fake_quants/lsq.py: LearnableFakeQuantize"]}
{"id": "C117", "title": "Parents and roots read off traced paths", "statement": "`find_nodes_parents` lists exactly the layers of the target classes on the traced paths and inside their concatenations, each once, and for each exactly the first nodes behind it, over all places where it stands, that are of the `non_pass` classes (without `non_pass`: the next nodes), none twice and independently of the order or repetition of paths. For a traced graph of convolutions and normalisations the parents are exactly the layers the input of the layer comes from, directly or (with convolutions among the `non_pass` classes) as the nearest of these classes. The root names of a list of paths are given exactly when there is a path and all paths agree on the first node; those of a concatenation are the roots of its inputs in order.", "quantifier": "all lists of paths with concatenations nested to any depth, all target and non-pass classes, all graphs of convolutions and normalisations with any branching", "why_tests_cant": "tests look at a residual block and two small concatenation models; the claim is about every nesting of concatenations, every cut of a revisited branch and every set of classes", "anchors": ["mmrazor/models/task_modules/tracer/path.py: Path.find_nodes_parents, PathList.find_nodes_parents, PathConcatNode.find_nodes_parents, _merge_node_parents, get_root_names, get_module_names", "mmrazor/models/task_modules/tracer/backward_tracer.py: BackwardTracer.trace"]}
{"id": "C118", "title": "How unfixed differentiable modules mix their candidates", "statement": "In a differentiable search an unfixed operation or route returns the weighted sum of all its candidates, with weights that are positive and sum to one, do not change when a constant is added to all architecture parameters, and are ordered like the parameters; so the result stays in every convex set that holds the candidates' results, the candidate that will be reported has at least the weight 1/n, and the supernet differs from the network with that candidate alone by at most the weight of the others times the spread of the results. The gradient for an architecture parameter is the derivative of the loss: weight times difference of that candidate to the mixture. So under plain gradient descent the sum of the parameters is kept, the lead of a candidate that is best in every step never shrinks, and of two candidates the better one ends up as the reported one. A Gumbel route with hard samples runs exactly one edge, one with the largest parameter plus noise, and returns its result unscaled; with soft samples it is a mixture with exact gradients that approaches the hard sample exponentially as the temperature falls. Hard samples are differentiated as the soft sample (they are not: edges that are not sampled contribute nothing).", "quantifier": "all numbers of candidates, parameters, noises, temperatures, outputs in any real vector space and losses differentiable at the output", "why_tests_cant": "tests check that a forward pass with random parameters gives a tensor of the right shape; neither the weights nor gradients for arbitrary parameters are looked at", "anchors": ["mmrazor/models/mutables/mutable_module/diff_mutable_module.py: DiffMutableModule.compute_arch_probs, DiffMutableOP.forward_arch_param, DiffChoiceRoute.forward_arch_param, GumbelChoiceRoute.compute_arch_probs"]}
{"id": "C119", "title": "Parsed versions", "statement": "The parsed form of a release is the tuple of its numbers, that of a release candidate these numbers followed by `rc` and its number; different versions have different parsed forms, and comparing the tuples orders versions by the first number that differs. A candidate comes before its release and after earlier candidates (violated: tuples put every candidate behind its release, and candidate 10 before candidate 2), and other forms are refused (only `rc` behind something that is no number is; other parts are dropped).", "quantifier": "all releases with any number of parts, all candidates, all texts behind the last dot", "why_tests_cant": "no test parses anything but the current version; order and injectivity are statements about all pairs of versions", "anchors": ["mmrazor/version.py: parse_version_info, version_info"]}
{"id": "C120", "title": "The law by which subnets are drawn", "statement": "Drawing a subnet picks every choice of every group equally often and the groups independently, so every subnet of the search space comes from exactly one draw and a loss or gradient averaged over the draws is its average over the search space; the share of trainings that never use a choice is ((n-1)/n)^t. With given probabilities a choice is drawn for an interval of random numbers whose length is its share of the total, a choice of probability zero is never drawn, only proportions count, and probabilities that do not sum to one are refused (fails: sums below one are accepted, and repeated values count twice).", "quantifier": "all lists of groups of choices, all conditions on single groups, all functions of a subnet, all numbers of steps, all lists of weights and all random numbers", "why_tests_cant": "A test with random draws can only see frequencies for a few spaces; equal chances and independence are statements about all draws of all search spaces.", "anchors": ["mmrazor/models/mutables/mutable_module/one_shot_mutable_module.py: OneShotMutableOP.sample_choice, OneShotProbMutableOP", "mmrazor/models/mutables/mutable_value/mutable_value.py: OneShotMutableValue.sample_choice", "mmrazor/models/mutables/mutable_channel/units/one_shot_mutable_channel_unit.py: OneShotMutableChannelUnit.sample_choice", "mmrazor/models/mutators/nas_mutator.py: NasMutator.sample_choices"]}
