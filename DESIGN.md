# Formal model of open-mmlab/mmrazor in Lean 4

## What this is

`/verif/lean` is a Lake project with a hand-written executable model of the
logic of mmrazor (`/repo`, read as text, never run) and machine-checked
theorems about it.  `/verif/properties.jsonl` lists the properties in English,
`/verif/MANIFEST.json` maps each to exact theorem names, and
`/verif/seeded/LOG.jsonl` records the wrong programs the theorems were tested
against.

## Layout

* `Verif/Model/*.lean` – definitions mirroring the Python code, function by
  function.  Every definition cites file and lines in `/repo` and says where it
  simplifies.
* `Verif/Spec/*.lean` – small specifications the theorems are stated with.
* `Verif/Lemmas/*.lean` – helper lemmas.
* `Verif/Props/*.lean` – the property theorems, named `Cxx_...`, with
  `example`s showing concrete non-trivial cases that meet their hypotheses.
* `Verif/Py.lean` – Python exceptions, `int(...)`, `//`; `Verif/Sort.lean` – a
  stable insertion sort (Python's `sorted`) that the kernel can evaluate;
  `Verif/Float64.lean` – rounding of rationals to 53-bit doubles, used where a
  property depends on float rounding (C07, C34).
* `tools/` – `manifest.py` (imports and MANIFEST), `design.py` (the generated
  sections at the end of this file), `split.py` (moves helpers out of the
  property files), `seed.py` and `automut.py` (seeded bugs).

Naming: `Cxx_name` is proved at full strength of that part of the property,
`Cxx_name_partial` is proved under a guard that the English property does not
have, `Cxx_name_violated` (or `..._fails`) is a proved disagreement: the
unchanged code violates the English property, at a concrete witness or for a
whole class of inputs.  A property with a `_partial`, `_violated` or `_fails`
theorem has status "partial" in the manifest.

## Modelling conventions

* Python `int` → `Int`/`Nat`; Python/torch `float` → exact rationals `ℚ`, or
  reals `ℝ` where the code takes a cosine, a logarithm, an exponential or a
  square root (C19, C46, C50, C53).  Floating-point rounding is not modelled
  except where said: `Float64.lean` in C07, the doubled `int(k * ratio)` in
  C34, half-precision scales in C40.  Elsewhere a theorem about real arithmetic
  is about the intended arithmetic only.  Where integrality matters (`int(...)`,
  `//`, `round`) the integer operation is modelled exactly on the exact
  argument.  NaN and infinities are explicit values where they can arise.
* Tensors → lists (or functions on finite indices) of rationals, masks →
  `List Bool`.
* Exceptions and failed `assert`s → `Except Err α` values.  State after a
  failing call is modelled when the property is about it (`step` returns the
  state together with the error).
* Randomness, validation scores, resource estimates, neural-network forward
  passes, clocks → parameters (functions or streams) the theorems quantify over.
* `while` loops whose termination depends on randomness take the stream of
  random outcomes as a finite list; the loop stops when it runs out ("still
  running").
* Checkpoint files → values of the saved state; a crash is "throw the live state
  away and call resume on a saved value".
* Dictionaries keep insertion order (association lists), as in Python ≥ 3.7.

## Trusted base

* Lean 4.33.0 kernel; the Mathlib modules imported one at a time (checked by
  the kernel too).
* Axioms: at most `propext`, `Classical.choice`, `Quot.sound`; the list per
  theorem is generated below.  No axioms are added, no `sorry`, no
  `native_decide`/`bv_decide`.
* The faithfulness of the model to the code: by reading only.  Which parts are
  modelled, and which are not, is listed below.
* The behaviour of torch, mmengine, numpy and Python built-ins, as listed in
  "Assumed library behaviour".

## Plan per property

| id | model | proof |
|----|-------|-------|
| C01 | `make_divisible` on rationals (`int`, `//` exact) | arithmetic; monotonicity by cases on the correction step |
| C02 | `range(start,end+1,step)` unrolled | induction on the range |
| C03 | `IndexDict` as a sorted association list with the code's overlap test; container mask | invariant over registrations and reads; counterexamples |
| C04 | state machine of `MutableValue` with raising operations | invariant by induction over operations; counterexample: assignment after fixing |
| C05 | sequential channel mask state machine | induction over operations; counterexample: rejected fix changes the mask |
| C06 | derived mutables as functions of a source store | refinement: choice = popcount(mask) for every store; counterexamples for float division and snapshots |
| C07 | `_prepare_candidate_choices`, setters | list lemmas (sorted, nodup, bounds); counterexamples for widths not divisible and for IEEE rounding |
| C08, C09 | candidate dictionaries of one-shot/diff modules with fix/forward | invariants over call histories; counterexamples |
| C10, C11 | module tree as a list of (name, mutable); export/load | round trip by induction on the list; counterexamples |
| C12 | candidate pool operations and Python's stable sort | permutation/sortedness/stability |
| C13, C14, C16, C17 | the evolution loop as a step function over oracles | invariant over epochs; resume counterexample; file set after each epoch |
| C15 | `crossover` on dictionaries with random stream | induction on keys |
| C18 | AutoSlim loop as step function with score oracle, checkpoints | invariant and termination measure; resume counterexample |
| C19 | greedy sampler loop and probability schedule | closed forms; counterexamples |
| C20, C21 | graph with prev/next lists; Kahn traversal | invariants; exactly-once and order; cyclic case |
| C22 | parent-pointer union-find as in the code | refinement to equivalence closure |
| C23 | iteration over a list mutated while iterating | counterexample and single-mismatch theorem |
| C24, C25 | group builder on named/aliased elements; mutator set/get | partition by induction; counterexamples |
| C26 | autograd graph as a tree; parsers with the shared `cur_path` | equality with the set of root-leaf paths; counterexamples |
| C27, C28 | tensors as lists of rationals; masked select/scatter; running statistics | list algebra for all masks, induction over histories |
| C29 | kernel window and padding arithmetic | sums over windows, `omega` |
| C30, C31 | per-op counters, accumulation over trees, estimator options as state | structural induction; counterexamples |
| C32, C33 | heap of attributes with wrappers; FIFO queue | LIFO restoration; queue invariant; counterexamples |
| C34 | schedule functions, resume | arithmetic, induction over iterations; counterexamples |
| C35 | masks and importances per unit | argmin, count of active channels; counterexample at the 1e5 sentinel |
| C36 | threshold list, saved names | induction over the FLOPs history; counterexamples |
| C37 | flag machine of observers, fake-quantisers, BN | decision tables for all epochs and iterations; counterexamples |
| C38 | ranges, clamps, observers | arithmetic |
| C39 | GPTQ quantiser on rationals | error bounds |
| C40 | bit packing on naturals | `testBit` extensionality, round trip by induction on fields; counterexamples |
| C41 | running averages over batches | induction over batches; counterexamples |
| C42 | column selection in blocks | counting; counterexamples |
| C43 | loader lists | induction; counterexample: exhausted loader does not restart |
| C44 | index lists per class | list membership |
| C45 | encoding/decoding over groups | induction; counterexamples |
| C46 | gradient buffers as mutable cells | restoration for all gradients; counterexample: aliasing makes the term vanish |
| C47 | DSNAS stage machine | decision logic, induction over iterations; resume counterexample |
| C48 | channel expansion of conv/norm layers | placement lemmas for all masks; counterexamples |
| C49 | fx graph with fake-quant nodes | reachability of removals preserves the rest; counterexample: shared fake-quantiser |
| C50 | FLOPs loss over the reals with infinities and NaN | monotonicity of the logarithm; counterexamples |
| C51 | directory listing and names; timing loop | decimal round trip, max over list; sums over rounds; counterexamples |
| C52 | selection of channels by norm | sortedness and counting |
| C53 | softmax-weighted choice | real inequalities |

## Assumed library behaviour

* Python: `sorted` is stable; `int()` truncates towards zero, `//` rounds down;
  `round` rounds halves to even; `dict` keeps insertion order; `copy.copy` of an
  `OrderedDict` subclass re-inserts item by item; a list that grows while it is
  iterated is read by index; a recursion deeper than the limit raises.
* torch: boolean-mask indexing keeps the order of the selected entries;
  `masked_scatter_` fills the selected entries in order; `torch.ones` of a
  negative size raises; `torch.log` is NaN below zero and minus infinity at zero;
  gradients accumulate in place, and `param.grad.data` aliases the buffer;
  BN with momentum `None` averages cumulatively; `dict`-valued module
  attributes are not saved in a state dict; `torch.distributed.broadcast`
  raises without a process group; fx graphs iterate over their nodes in order,
  `replace_all_uses_with` and `erase_node` act as documented.
* mmengine: `update_params` = backward, step, zero_grad; hooks run in order;
  `Config`, `fileio` and `Runner` deliver what was stored.
* The floating point, CUDA kernels, autograd and the networks themselves are
  parameters.


## Modelled files

Cited files per model (line numbers are in the definitions).

* `Analyzer`: `channel_unit.py`, `default_demo_inputs.py`, `demo_inputs.py`, `mmpose_demo_input.py`, `mmrazor/models/mutables/mutable_channel/units/utils.py`, `mmrazor/models/task_modules/tracer/channel_analyzer.py`, `mmseg_demo_input.py`, `sequential_mutable_channel_unit.py`, `units/mutable_channel_unit.py`
* `Augment`: `mmrazor/datasets/transforms/auto_augment.py`, `mmrazor/datasets/transforms/auto_augmentv2.py`, `mmrazor/datasets/transforms/formatting.py`
* `AutoNet`: `dynamic_multi_head_attention.py`, `mmrazor/models/architectures/backbones/searchable_autoformer.py`, `mutable_channel_container.py`, `mutable_value.py`, `oneshot_mutable_channel.py`
* `AutoSlim`: `mmrazor/engine/runner/autoslim_greedy_search_loop.py`
* `Autoformer`: `backbones/searchable_autoformer.py`, `dynamic_container.py`, `dynamic_multi_head_attention.py`, `dynamic_ops/bricks/dynamic_relative_position.py`, `mmrazor/models/architectures/ops/transformer_series.py`
* `Backbones`: `searchable_mobilenet_v2.py`, `searchable_mobilenet_v3.py`, `searchable_shufflenet_v2.py`
* `BackendCfg`: `academic.py`, `academic_quantizer.py`, `common_operator_config_utils.py`, `mapping.py`, `mmrazor/models/quantizers/native_quantizer.py`, `native.py`, `openvino.py`, `tensorrt.py`
* `BnSearch`: `mmrazor/engine/runner/evolution_search_loop.py`, `mmrazor/engine/runner/subnet_val_loop.py`, `mmrazor/engine/runner/utils/calibrate_bn_mixin.py`
* `Build`: `mmrazor/engine/optimizers/optimizer_constructor.py`, `mmrazor/models/algorithms/base.py`, `mmrazor/models/architectures/utils/set_dropout.py`, `mmrazor/registry/registry.py`
* `Calibration`: `mmrazor/engine/runner/utils/calibrate_bn_mixin.py`, `mmrazor/implementations/pruning/sparse_gpt/ops.py`, `mmrazor/implementations/quantization/gptq/gptq.py`
* `Candidates`: `mmrazor/structures/subnet/candidate.py`
* `ChannelFlow`: `mmrazor/structures/graph/channel_flow.py`
* `ChannelGraph`: `channel_nodes.py`, `mmrazor/structures/graph/channel_graph.py`
* `ChannelNodes`: `channel_flow.py`, `mmrazor/structures/graph/channel_graph.py`, `mmrazor/structures/graph/channel_nodes.py`, `mutable_channel_container.py`, `mutable_channel_unit.py`, `simple_mutable_channel.py`
* `ChannelUnit`: `oneshot_mutable_channel.py`, `sequential_mutable_channel.py`, `units/l1_mutable_channel_unit.py`, `units/one_shot_mutable_channel_unit.py`, `units/sequential_mutable_channel_unit.py`
* `Ckpt`: `convert_attentivenas_nas_ckpt.py`, `convert_bignas_gml_ckpt.py`, `convert_kd_ckpt.py`, `convert_kd_ckpt_to_student.py`, `convert_ofa_ckpt.py`, `convert_quant_ckpt.py`
* `CmdTools`: `feature_diff_visualization.py`, `mmrazor/models/mutators/channel_mutator/channel_mutator.py`, `tools/model_converters/convert_supernet2subnet.py`, `tools/model_converters/publish_model.py`, `tools/pruning/get_l1_prune_config.py`, `tools/pruning/get_static_model_from_algorithm.py`, `tools/ptq.py`, `tools/test.py`, `tools/train.py`, `tools/visualizations/vis_scheduler.py`
* `Compressor`: `gptq.py`, `gptq/ops.py`, `mmrazor/implementations/pruning/sparse_gpt/compressor.py`, `mmrazor/implementations/pruning/sparse_gpt/utils.py`, `mmrazor/implementations/quantization/gptq/compressor.py`, `sparse_gpt/ops.py`
* `Connect`: `base_generator.py`, `byot_connector.py`, `crd_connector.py`, `dafl_generator.py`, `darts_series.py`, `fbkd_connector.py`, `mgd_connector.py`, `squeezemean_with_dropout.py`, `zskt_generator.py`
* `Container`: `mmrazor/models/mutables/mutable_channel/mutable_channel_container.py`, `mmrazor/utils/index_dict.py`, `simple_mutable_channel.py`
* `Contrast`: `mmrazor/models/losses/crd_loss.py`
* `CountedNet`: `conv_layer_counter.py`, `flops_params_counter.py`, `linear_layer_counter.py`
* `Crd`: `mmrazor/datasets/crd_dataset_wrapper.py`
* `CustomTracer`: `mmrazor/models/task_modules/tracer/fx/custom_tracer.py`
* `Darts`: `mmrazor/models/algorithms/nas/darts.py`
* `DartsNet`: `mmrazor/models/architectures/backbones/darts_backbone.py`
* `DataFree`: `mmrazor/models/algorithms/distill/configurable/datafree_distillation.py`
* `Dcff`: `ite_prune_algorithm.py`, `mmrazor/models/algorithms/pruning/dcff.py`, `mmrazor/models/architectures/dynamic_ops/mixins/dynamic_conv_mixins.py`, `mmrazor/models/mutators/channel_mutator/dcff_channel_mutator.py`
* `Ddp`: `implementations/pruning/group_fisher/algorithm.py`, `mmrazor/models/algorithms/nas/autoslim.py`, `nas/bignas.py`, `nas/darts.py`, `nas/dsnas.py`, `pruning/dmcp.py`, `pruning/slimmable_network.py`
* `Delivery`: `algorithms/distill/configurable/single_teacher_distill.py`, `delivery_manager.py`, `distill_delivery.py`, `function_outputs_delivery.py`, `method_outputs_delivery.py`
* `Deploy`: `mmrazor/models/algorithms/quantization/mm_architecture.py`, `mmrazor/models/quantizers/native_quantizer.py`, `mmrazor/structures/quantization/qconfig.py`
* `Derived`: `mmrazor/models/mutables/derived_mutable.py`, `mmrazor/models/mutables/mutable_channel/sequential_mutable_channel.py`
* `DiffMix`: `diff_mutable_module.py`
* `DistillAlgos`: `configurable_distiller.py`, `fpn_teacher_distill.py`, `function_outputs_delivery.py`, `mmrazor/models/algorithms/distill/configurable/self_distill.py`, `mmrazor/models/distillers/byot_distiller.py`, `mmrazor/models/utils/misc.py`, `single_teacher_distill.py`
* `Distiller`: `engine/hooks/stop_distillation_hook.py`, `mmrazor/models/distillers/configurable_distiller.py`, `models/utils/misc.py`, `single_teacher_distill.py`, `task_modules/recorder/base_recorder.py`
* `DmcpChannel`: `dmcp_channel_unit.py`, `mmrazor/models/mutators/channel_mutator/dmcp_channel_mutator.py`, `models/architectures/dynamic_ops/bricks/dynamic_norm.py`, `sequential_mutable_channel_unit.py`, `task_modules/estimators/counters/op_counters/conv_layer_counter.py`
* `DmcpLoss`: `mmrazor/models/algorithms/pruning/dmcp.py`
* `DmcpTrain`: `mmrazor/models/algorithms/pruning/dmcp.py`
* `Dsnas`: `mmrazor/models/algorithms/nas/dsnas.py`
* `DsnasArch`: `diff_mutable_module.py`, `mmrazor/models/algorithms/nas/dsnas.py`
* `DynamicNorm`: `mixins/dynamic_mixins.py`, `mmrazor/models/architectures/dynamic_ops/bricks/dynamic_norm.py`
* `DynamicOps`: `dynamic_conv_mixins.py`, `dynamic_linear.py`, `mmrazor/models/architectures/dynamic_ops/mixins/dynamic_mixins.py`
* `EstimateOptions`: `counters/flops_params_counter.py`, `mmrazor/models/task_modules/estimators/resource_estimator.py`
* `Estimator`: `activation_layer_counter.py`, `bricks/dynamic_conv.py`, `conv_layer_counter.py`, `deconv_layer_counter.py`, `dynamic_conv_mixins.py`, `dynamic_linear.py`, `dynamic_norm.py`, `flops_params_counter.py`, `group_fisher/counters.py`, `linear_layer_counter.py`, `norm_layer_counter.py`, `pooling_layer_counter.py`, `upsample_layer_counter.py`
* `Evolution`: `candidate.py`, `genetic.py`, `mmrazor/engine/runner/evolution_search_loop.py`, `mmrazor/engine/runner/utils/check.py`
* `Expand`: `ops.py`, `tools.py`, `unit.py`
* `FakeQuantDel`: `mmrazor/models/task_modules/tracer/fx/graph_utils.py`, `native_quantizer.py`
* `FeatureLoss`: `ab_loss.py`, `at_loss.py`, `dafl_loss.py`, `factor_transfer_loss.py`, `fbkd_loss.py`, `l1_loss.py`, `l2_loss.py`, `mgd_loss.py`, `ofd_loss.py`
* `FisherInfo`: `mmrazor/implementations/pruning/group_fisher/ops.py`, `unit.py`
* `FisherRun`: `hook.py`, `mmrazor/implementations/pruning/group_fisher/algorithm.py`
* `FixSubnet`: `mmrazor/structures/subnet/fix_subnet.py`, `mutable_value.py`, `one_shot_mutable_module.py`
* `FxTrace`: `mmrazor/models/task_modules/tracer/fx_tracer.py`
* `Gather`: `mmrazor/models/architectures/ops/gather_tensors.py`, `mmrazor/models/losses/dafl_loss.py`
* `GptqLayer`: `mmrazor/implementations/quantization/gptq/gptq.py`, `quantizer.py`
* `GptqPack`: `mmrazor/implementations/quantization/gptq/gptq.py`, `mmrazor/implementations/quantization/gptq/ops.py`
* `GptqQuantizer`: `mmrazor/implementations/quantization/gptq/quantizer.py`
* `Graph`: `mmrazor/structures/graph/base_graph.py`
* `GroupFisher`: `algorithm.py`, `mutator.py`, `unit.py`
* `Groups`: `mmrazor/models/mutators/group_mixin.py`
* `Heads`: `backward_tracer.py`, `channel_analyzer.py`, `convmodule_connector.py`, `deit_head.py`, `factor_transfer_connectors.py`, `mmrazor/models/algorithms/nas/spos.py`, `mmrazor/models/architectures/heads/darts_subnet_head.py`, `mmrazor/models/task_modules/tracer/loss_calculator/sum_loss_calculator.py`
* `Hooks`: `dmcp_subnet_hook.py`, `dump_subnet_hook.py`, `estimate_resources_hook.py`, `visualization_hook.py`
* `InputRec`: `base_recorder.py`, `function_inputs_recorder.py`, `method_inputs_recorder.py`, `method_outputs_recorder.py`, `module_inputs_recorder.py`, `param_recorder.py`
* `ItePrune`: `mmrazor/models/algorithms/pruning/ite_prune_algorithm.py`
* `Kernel`: `bricks/dynamic_conv.py`, `mmrazor/models/architectures/dynamic_ops/mixins/dynamic_conv_mixins.py`
* `L1Norm`: `mmrazor/models/mutables/mutable_channel/units/l1_mutable_channel_unit.py`, `simple_mutable_channel.py`
* `L1Train`: `algorithms/pruning/ite_prune_algorithm.py`, `channel_mutator.py`
* `LangEval`: `ResNet/resnet18_gptq.py`, `datautils.py`, `language_models/OPT/utils.py`, `opt_gptq.py`, `opt_sparse_gpt.py`
* `Latest`: `mmrazor/models/task_modules/estimators/counters/latency_counter.py`, `mmrazor/utils/misc.py`
* `Loaders`: `mmrazor/engine/runner/darts_loop.py`
* `LogitLoss`: `cross_entropy_loss.py`, `cwd.py`, `dafl_loss.py`, `decoupled_kd.py`, `kd_soft_ce_loss.py`, `kl_divergence.py`, `weighted_soft_label_distillation.py`
* `MakeDivisible`: `mmrazor/models/utils/make_divisible.py`, `mmrazor/models/utils/parse_values.py`
* `ModuleGraph`: `mmrazor/structures/graph/base_graph.py`, `mmrazor/structures/graph/module_graph.py`, `mmrazor/structures/graph/pseudo_fx_graph.py`, `parsers.py`
* `MutableModule`: `diff_mutable_module.py`, `mmrazor/models/mutables/mutable_module/one_shot_mutable_module.py`, `mutable_module.py`
* `MutableValue`: `mmrazor/models/mutables/base_mutable.py`, `mmrazor/models/mutables/mutable_value/mutable_value.py`
* `Mutator`: `mmrazor/models/mutators/channel_mutator/channel_mutator.py`, `mmrazor/models/mutators/nas_mutator.py`
* `MutatorCfg`: `mmrazor/models/mutables/mutable_channel/units/channel_unit.py`, `mmrazor/models/mutators/channel_mutator/channel_mutator.py`, `mutable_channel_unit.py`, `one_shot_mutable_channel_unit.py`, `sequential_mutable_channel_unit.py`, `slimmable_channel_mutator.py`
* `Observers`: `fake_quants/lsq.py`, `mmrazor/models/observers/lsq.py`, `mmrazor/models/observers/torch_observers.py`
* `Ofd`: `mmrazor/models/architectures/connectors/ofd_connector.py`, `mmrazor/models/distillers/ofd_distiller.py`
* `OnnxExport`: `base_quantize_exporter.py`, `openvino_quantize_exporter.py`, `tensorrt_quantize_exporter.py`
* `OnnxGraph`: `base_quantize_exporter.py`, `mmrazor/models/quantizers/exporters/optim_utils.py`
* `Paths`: `mmrazor/models/task_modules/tracer/path.py`
* `PredRun`: `carts_handler.py`, `gp_handler.py`, `mlp_handler.py`, `mmrazor/engine/runner/evolution_search_loop.py`, `mmrazor/models/task_modules/predictor/metric_predictor.py`, `rbf_handler.py`
* `Predefined`: `channel_unit.py`, `mmrazor/models/mutables/mutable_channel/oneshot_mutable_channel.py`, `mmrazor/models/mutables/mutable_channel/units/mutable_channel_unit.py`, `mmrazor/models/mutators/nas_mutator.py`, `one_shot_mutable_channel_unit.py`
* `Predictor`: `mmrazor/models/task_modules/predictor/metric_predictor.py`
* `PrunedNet`: `dynamic_conv_mixins.py`, `dynamic_norm.py`, `mmrazor/models/mutables/mutable_channel/units/mutable_channel_unit.py`, `mmrazor/structures/graph/channel_nodes.py`
* `QParams`: `mmrazor/models/fake_quants/lsq.py`, `mmrazor/structures/quantization/qconfig.py`, `observers/lsq.py`
* `QatLoop`: `mmrazor/engine/runner/quantization_loops.py`, `mmrazor/models/fake_quants/lsq.py`
* `QuantCfg`: `academic_quantizer.py`, `mmrazor/models/quantizers/base.py`, `mmrazor/models/quantizers/native_quantizer.py`, `mmrazor/models/utils/quantization_util.py`, `mmrazor/structures/quantization/qconfig.py`
* `QuantModes`: `mmrazor/models/algorithms/quantization/mm_architecture.py`, `quantization_loops.py`
* `Recorder`: `base_recorder.py`, `delivery/function_outputs_delivery.py`, `function_outputs_recorder.py`, `method_outputs_delivery.py`, `method_outputs_recorder.py`, `module_outputs_recorder.py`, `recorder_manager.py`
* `RelationLoss`: `dist_loss.py`, `pkd_loss.py`, `relational_kd.py`
* `SampleLaw`: `mmrazor/models/mutators/nas_mutator.py`, `mutable_module/one_shot_mutable_module.py`, `mutable_value.py`, `one_shot_mutable_channel_unit.py`, `spos.py`
* `Sampler`: `mmrazor/engine/runner/subnet_sampler_loop.py`
* `Sandwich`: `mmrazor/models/algorithms/nas/autoslim.py`, `models/architectures/utils/set_dropout.py`, `models/utils/misc.py`, `models/utils/optim_wrapper.py`, `nas/bignas.py`, `pruning/slimmable_network.py`
* `SearchOps`: `common.py`, `darts_series.py`, `efficientnet_series.py`, `mobilenet_series.py`, `shufflenet_series.py`
* `SearchRun`: `candidate.py`, `check.py`, `mmrazor/engine/runner/evolution_search_loop.py`
* `SeqChannel`: `base_mutable_channel.py`, `sequential_mutable_channel.py`, `simple_mutable_channel.py`
* `SlimUnits`: `algorithms/pruning/slimmable_network.py`, `architectures/dynamic_ops/bricks/dynamic_norm.py`, `channel_mutator.py`, `one_shot_mutable_channel_unit.py`, `slimmable_channel_mutator.py`, `units/slimmable_channel_unit.py`
* `SparseGpt`: `mmrazor/implementations/pruning/sparse_gpt/ops.py`, `sparse24_utils.py`
* `SubModel`: `channel_mutator.py`, `channel_unit.py`, `fix_subnet.py`, `mmrazor/implementations/pruning/group_fisher/prune_sub_model.py`, `mmrazor/models/utils/expandable_utils/tools.py`, `prune_deploy_sub_model.py`
* `SyncNorm`: `mmrazor/models/architectures/dynamic_ops/bricks/dynamic_norm.py`
* `Thresholds`: `mmrazor/implementations/pruning/group_fisher/hook.py`
* `Tracer`: `mmrazor/models/task_modules/tracer/backward_tracer.py`, `parsers.py`, `path.py`
* `TransOps`: `bricks/dynamic_embed.py`, `bricks/dynamic_function.py`, `classifiers/image.py`, `dynamic_conv.py`, `dynamic_linear.py`, `mixins/dynamic_layernorm_mixins.py`, `mixins/dynamic_mixins.py`, `mmrazor/models/architectures/dynamic_ops/bricks/dynamic_norm.py`, `mutables/mutable_channel/units/mutable_channel_unit.py`, `ops/function.py`
* `Triton`: `mmrazor/implementations/quantization/gptq/custom_autotune.py`, `mmrazor/implementations/quantization/gptq/ops.py`
* `Utils`: `log_tools.py`, `mmrazor/utils/runtime_info.py`, `mmrazor/visualization/local_visualizer.py`, `setup_env.py`
* `V3Export`: `architectures/backbones/searchable_mobilenet_v3.py`, `derived_mutable.py`, `dynamic_container.py`, `fix_subnet.py`, `mobilenet_series.py`, `mutable_register.py`, `sequential_mutable_channel.py`
* `ValLoops`: `calibrate_bn_mixin.py`, `distill_val_loop.py`, `dynamic_norm.py`, `iteprune_val_loop.py`, `slimmable_val_loop.py`, `subnet_val_loop.py`
* `Version`: `mmrazor/version.py`
* `WideNet`: `mmrazor/models/architectures/backbones/wideresnet.py`

## Not modelled

* `mmrazor/models/architectures` backbones, heads, necks, connectors and ops
  (numeric forward passes), `mmrazor/models/losses` except where listed,
  `mmrazor/datasets` transforms, `mmrazor/structures/quantization` backend
  configurations, TensorRT/OpenVINO exporters, `mmrazor/visualization`.
* `mmrazor/models/task_modules/tracer` beyond the backward tracer: the fx
  tracer's Python interception and torch fx itself.
* Registries, `Config` handling, logging, and multi-process communication except
  where a property is about it (C16, C41, C47).
* Command-line tools and configuration files.

## Disagreements

Where the code does not have the English property, proved in Lean.

### C03

* `C03_overlap_accepted_violated`: violated: the range `[0, 8)` is accepted although `[2, 4)` is registered, so two registered ranges overlap.
* `C03_mask_length_violated`: The missing check: a mutable with three entries can be registered for a range of two channels, and the layer mask then has the wrong length.
* `C03_leading_gap_fails`: violated: a layer whose first registered range does not start at 0 (or which has a hole in the middle) is never filled: reading its mask raises.
* `C03_middle_gap_fails`: violated: a gap between two registered ranges makes reading raise.
* `C03_read_blocks_registration_violated`: violated: reading the mask is not neutral. The same two registrations succeed or fail depending on whether the mask is read in between.

### C04

* `C04_fixed_value_changes_violated`: violated: after a successful fix to 3, assigning 5 succeeds and changes the value.

### C05

* `C05_fix_default_ratio_violated`: violated (ratio mode): with every channel switched off, fixing the current choice switches one channel back on.
* `C05_rejected_fix_changes_mask_violated`: violated (mask-valued channels): the second, rejected fix of a `SimpleMutableChannel` still replaces its mask.

### C06

* `C06_divide_float_violated`: violated: dividing by a `float` (or by a mutable ratio) rounds the choice with divisor 1 and the mask with divisor 8; the choice says 6, the mask has 8 active channels.
* `C06_snapshot_stale_violated`: violated: ... but deriving an expansion or a division from a mutable ratio takes a snapshot: after the ratio changes from 2 to 4 the derived choice is still computed with 2, and the ratio is not even recorded as a source.

### C07

* `C07_candidates_duplicate_violated`: violated: the candidates are not distinct, three requests collapse to one number, which stays in the list three times.
* `C07_candidate_exceeds_width_violated`: violated: for a width that the divisor does not divide a candidate can exceed the width (16 channels out of 10); selecting it activates 10 channels, a number that is not a candidate.
* `C07_reround_violated`: violated: with a `min_value` above the divisor that is not a multiple of it, a prepared candidate (17) is rounded again (to 16) when it is selected, and the selection is rejected.
* `C07_float_candidate_rejected_violated`: violated (floats): with IEEE doubles a unit of 52 channels prepares the candidate 15/52 and then rejects its own candidate, because `int(52 * (15 / 52))` is 14.
* `C07_float_wrong_count_violated`: violated (floats): when the neighbouring count is a candidate too, the wrong number of channels is activated silently: asking for 15/52 activates 14.
* `C07_float_divisor_violated`: DISAGREEMENT (floats): with divisor 8 a unit of 176 channels accepts its own candidate 120/176 and activates 119 channels, which is not a multiple of the divisor: the valid number is converted to a ratio and back once more.
* `C07_sample_exceeds_width_violated`: violated: with the divisor 8 on a width of 10, drawing 10 samples 16 channels; an L1 unit cannot even apply its own sample.

### C08

* `C08_oneshot_unknown_violated`: is violated: fixing to a name that is not a candidate is accepted, deletes every candidate, and every later forward pass raises.
* `C08_diff_unknown_violated`: is violated: a list with an unknown name is accepted, and then every forward pass raises (shown for a list that starts with the unknown name).
* `C08_route_rejected_fix_violated`: is violated: the second, rejected fix changes what the route computes. Of three edges the last is chosen; with inputs 1, 10, 100 the fixed route returns 100, and after a rejected second call it returns 1.
* `C08_route_rejected_fix_pairs_violated`: : general form of the previous effect: after any rejected fix the remaining edges are fed the first inputs, in order, instead of their own.

### C09

* `C09_fixes_second_violated`: which candidate: whenever it becomes fixed it is fixed to the *second declared* candidate, whatever the weights.
* `C09_fixes_largest_violated`: is violated: the first candidate has weight 9/10, the second 1/10, the threshold is 1/2, and the layer is fixed to the second.
* `C09_single_candidate_fails`: : a one-hot operation with a single candidate cannot run at all: asking for the two largest of one weight raises.

### C10

* `C10_two_sources_violated`: : the guard is necessary for two sources of one derived mutable: the entry of the first is overwritten by the second, and loading gives it the wrong choice.
* `C10_illegal_op_accepted_violated`: ... but accepted for operations, which lose all their candidates.
* `C10_reexport_violated`: for a loaded subnet is violated: exporting a subnet that was built by loading fails, because fixing an operation does not set its current choice.

### C11

* `C11_prefix_violated`: is violated: with prefix `backbone.`, the element `backbone.conv` is looked up as `v`, so a description that holds `conv` is rejected.
* `C11_unprefixed_name_violated`: is violated for a name outside the prefix too: `ab` with prefix `b_a` is looked up as the empty name.

### C12

* `C12_shared_entry_violated`: is violated for shared objects: after extending a pool with its own entry, setting the score at position 0 changes the candidate at position 1.

### C14

* `C14_initial_candidates_violated`: is violated for candidates loaded from a file: an initial pool is never checked, so a candidate outside the constraints is scored and can win.

### C16

* `C16_resume_violated`: is violated: whenever the checkpoint is of an epoch strictly between 0 and the configured number, the resumed search runs fewer than the remaining epochs.
* `C16_other_ranks_violated`: is violated on several processes: only rank 0 loads the checkpoint, so the ranks disagree about how many epochs are left.

### C18

* `C18_resume_violated`: is violated on resume: the checkpoint written when a target is reached does not contain the record for it yet, and the resumed run skips that target, so that fewer subnets than targets are recorded.
* `C18_resume_skips_violated`: is violated on resume in a second way: after a resume, a later target that is already met when it comes up is not recorded either.

### C19

* `C19_linear_violated`: is violated by the linear schedule whenever `init_prob` is not 0: on entering the schedule the probability drops to 0, and at its end it is `init_prob` short of `max_prob`.
* `C19_cosine_violated`: is violated by the cosine schedule, for every `init_prob < 1`: it starts at 1 and falls to `init_prob`, the reverse of the documented increase to `max_prob`.
* `C19_empty_schedule_violated`: : a schedule of length 0 raises at its only iteration.
* `C19_never_popped_violated`: is violated: once the top-k list is filled, its first entry is handed out in every later iteration; nothing is ever taken from the list.
* `C19_nothing_found_fails`: : when nothing sampled passes and the pool is empty, the iteration raises.
* `C19_empty_cosine_violated`: DISAGREEMENT: the cosine schedule too raises at the only iteration of a schedule of length 0.

### C21

* `C21_self_loop_violated`: is violated by deleting a node that is linked to itself and to another node: the other node keeps a predecessor that is no longer in the graph.

### C22

* `C22_recursion_limit_fails`: Without the bound on the number of ties the statement fails: a chain of ties as deep as the recursion limit makes the root lookup raise. Shown for limit 2; the code uses 2^20.

### C23

* `C23_expand_violated`: With two neighbouring predecessors that both ask for an expansion the second one is passed over: its edge keeps its mismatch.
* `C23_expand_sum_violated`: The same when the node adds its inputs: 8 channels, then two single-channel maps.

### C24

* `C24_alias_alone_violated`: The first documented example (grouping by alias, lines 43-47) raises a `KeyError`: the prefix of a custom group is looked up under the alias.
* `C24_mixed_violated`: So does the third one, mixing aliases and names (lines 56-61).
* `C24_derived_violated`: An element that is both a module and the source of a derived one is put in two groups.
* `C24_two_sources_violated`: Of a derived module with two sources only the last is found by name: here the source with the alias is in no group at all.

### C25

* `C25_partial_update_violated`: A refused dictionary may have been applied in part: here the second group has no entry, and the first has its new choice already.
* `C25_shared_violated`: If an element is in two groups (as `C24_derived_violated` shows can happen), what is read is not what was set.
* `C25_sampled_illegal_violated`: Without that, the sampled choice can be illegal for another element of the group: only the first one is asked.

### C26

* `C26_linear_violated`: Two linear layers side by side (or a linear layer beside a convolution): the layer of the first branch is listed on the route of the second.
* `C26_residual_violated`: A residual connection: the second route stops at the layer where the branches join, although two routes lead on to layer 1.
* `C26_parameter_violated`: A route that ends in a parameter rather than in a data input is not listed.

### C27

* `C27_depthwise_violated`: A depthwise convolution that keeps one channel at the input and another at the output runs, and mixes them up: the full layer on the zeroed input gives 0 at that output.
* `C27_export_violated`: A depthwise convolution with only an output mask runs on the active channels, but cannot be exported.

### C28

* `C28_cumulative_violated`: With cumulative averages (`momentum=None`), a channel that first becomes active in the second step gets half the mean of its only batch: the counter is not kept for each channel. An ordinary layer that saw only this batch would have its mean.
* `C28_export_violated`: With cumulative averages the exported layer starts counting again: its next step forgets the statistics it was given, while the dynamic layer averages.

### C29

* `C29_dilation_violated`: With dilation 2 the size depends on the chosen kernel: the padding does not take the dilation into account.
* `C29_own_padding_violated`: Registering a search space replaces the layer's own padding, even at the largest size: a layer of size 3 without padding gives another output size.
* `C29_adaptive_violated`: A layer built with a padding of its own pads twice; the exported layer (whose constructor ignores the padding) does not.
* `C29_dilated_values_violated`: Violated with dilation: the padding is half the size whatever the dilation, so a smaller size looks at a shifted part of the input: with dilation 2 a kernel of one entry (taken from a kernel of three) gives the input at the same place, the kernel of three with only its centre gives it one place further on.

### C30

* `C30_upsample_violated`: Upsampling counts only the first sample: with two samples half the FLOPs are reported.
* `C30_keyword_violated`: Inputs passed by name (an input constructor): the batch is taken to be one, and twice the FLOPs are reported for two samples.
* `C30_reuse_violated`: A layer called twice has its parameters counted twice.
* `C30_depthwise_violated`: A depthwise convolution of 8 channels with 4 active: the exported one has 36 parameters and 36·hw FLOPs, half of that is reported.
* `C30_bignas_violated`: A BigNAS convolution from 8 to 8 channels with 2 active on both sides is reported at full width.
* `C30_norm_violated`: A searchable batch norm is not counted, the exported one is.
* `C30_linear_violated`: The parameters of a searchable linear layer are reported at full width.
* `C30_deconv_violated`: A transposed convolution with bias on an output of 4 by 6 counts 4 · 4 positions for the bias.
* `C30_shared_violated`: A module shared by two parents: the second parent sees the value that was already divided and converted. Batch of 2, no units: 4 FLOPs per sample for the first, 2 for the second.
* `C30_upsampling_violated`: DISAGREEMENT: the two upsampling layers are in the list of supported layers, and are subclasses of `Upsample`, which has a counter; but the name of a counter that does not exist is chosen for them, and they are left out of the estimate.

### C31

* `C31_none_violated`: An estimator built for inputs of 64 by 64 estimates at 224 by 224 when it is given no options.
* `C31_history_violated`: A separate estimate without options marks the estimator: later estimates fail, or return the names of two modules as FLOPs and parameters. Even a separate estimate that was itself refused does this.
* `C31_hooks_violated`: After a run that failed in the forward pass, a counter that is then disabled still counts.
* `C31_unpacked_violated`: DISAGREEMENT: `estimate` with the results of single modules switched on unpacks a dict: with exactly two modules the *names* of the modules are returned as the numbers of FLOPs and of parameters, with any other number it is a `ValueError`.

### C32

* `C32_function_violated`: Two recorders on one function: afterwards the function is still wrapped, and the first recorder goes on recording.
* `C32_method_violated`: Two recorders on one method: the first records nothing.
* `C32_initialise_violated`: A module recorder initialised twice records every output twice.

### C33

* `C33_iterations_violated`: When the student calls less often than the teacher, what is left over is delivered in the next iteration (limit 2), or makes the teacher fail (limit 1).

### C34

* `C34_target_violated`: In double precision the last value need not be the target: from 1.0 to 0.1 it is the double next to 0.1 that is two ten-quadrillionths below, and of 20 channels only 1 is kept instead of 2.
* `C34_kinds_violated`: A ratio as target of a unit that counts channels truncates to no channel.
* `C34_resume_violated`: Resuming in the middle changes the plan: from 8 to 2 channels in three steps the plan is 6, 4, 2; resumed after the first step it goes 6, 3, 2.

### C35

* `C35_minimum_violated`: Otherwise the first unit is pruned although another has the smallest importance, or, if the first unit has one channel left, nothing is pruned any more.

### C36

* `C36_all_violated`: A check writes one checkpoint only: resources that pass two thresholds between two checks may leave one without a checkpoint.
* `C36_empty_violated`: With no threshold at all, early stopping ends the process in its first iteration, before anything was pruned or saved.
* `C36_name_violated`: Thresholds that agree in two decimals share a file: the later checkpoint replaces the earlier one.
* `C36_resume_violated`: A resumed run starts with all thresholds again and writes the checkpoint of a threshold a second time, in the wrong state.

### C37

* `C37_val_lsq_violated`: A scale that the optimizer drove below the smallest one is changed by validation: the forward pass of validation clamps the parameter in place.
* `C37_val_alone_violated`: Validation of a model that was never trained here runs with its observers on: it changes the parameters.
* `C37_lsq_resume_violated`: A resumed run estimates the scale again in its first batch: what was learned before is lost, whatever it was.

### C38

* `C38_unsigned_violated`: Asking for a symmetric range has no effect on unsigned types: no error and no smaller range.
* `C38_zero_violated`: A learned zero point is used in forward passes without being put back into the range (the code only prints it), and exporting truncates it instead of rounding.
* `C38_scale_violated`: While it is estimated it is twice the mean absolute value over the root of the largest integer: legal only for inputs that are not too small; an input of zeros gives scale zero, by which the same forward pass divides.
* `C38_observation_violated`: Contrary to its description, the observation mode does change the parameters.

### C39

* `C39_error_violated`: Symmetric mode on a row without negative entries: the range of codes is used up to the middle only, and large weights are cut to half their value.

### C40

* `C40_weights_violated`: Otherwise the last features are not stored at all.
* `C40_zeros_violated`: A zero point 0 is read back as `2 ^ bits`, and spoils the following zero points of its word too.
* `C40_codes_violated`: For scales below the normal range of half precision the codes change.
* `C40_forward_violated`: A layer whose packed words are all zero takes the branch of an unquantised layer and looks for the deleted weight. Weights that are all equal and negative are such a layer.

### C41

* `C41_rows_violated`: For plain matrices the divisor is the number of calls, not of rows: the same four rows give different matrices in one call and in two.
* `C41_empty_violated`: An empty first batch makes the matrix not a number, for ever.
* `C41_distributed_violated`: With unequal batches the divisor is not the number of samples.
* `C41_dilation_violated`: Convolutions: the patches are the inputs of the convolution only without dilation.
* `C41_groups_violated`: And the sizes fit exactly for ungrouped convolutions.
* `C41_var_violated`: The calibrated variance is not the variance of the samples: it ignores how the means of the batches differ, so it depends on how the samples are grouped.
* `C41_var_nan_violated`: A batch with one pixel makes it not a number.
* `C41_meter_violated`: Unequal batch sizes: the ranks disagree, and no rank has the average.
* `C41_dict_violated`: Otherwise the calibration fails: batches of 64 with the usual two keys, 66 wanted.

### C42

* `C42_pattern_violated`: A block size that is no multiple of `m`: the groups start anew in each block, and both columns of a pair are zeroed by the pattern 1:2.
* `C42_remainder_violated`: A number of columns that is no multiple of `m`: the pattern fails, and the weights of the groups before stay pruned.
* `C42_ratio_violated`: It is not the fraction: half of two weights is both, and sparsity 0 still prunes.
* `C42_negative_violated`: A negative sparsity is not rejected but counts from the largest score: −1/2 of four weights prunes three of them, −1 the smallest; −2 fails.
* `C42_full_violated`: Sparsity 1 fails.

### C43

* `C43_restart_violated`: It does not restart: with one iteration more than the shortest loader has batches, training stops with an error after the shortest loader, whatever the loaders.
* `C43_none_violated`: Without any loader the combined loader has no length, and an epoch does not end.

### C44

* `C44_percent_violated`: With a fraction the size of every class's table comes from the first class: nine items of class 0 and one of class 1, half of the negatives — the one negative of class 0 halves to none, so no item at all can be read.

### C45

* `C45_single_violated`: A search space with a single group cannot be decoded in the normal encoding.
* `C45_order_violated`: The order of the entries matters: the same architecture listed in another order decodes to a different one.
* `C45_injective_violated`: Without the order, two different architectures can have the same encoding.

### C46

* `C46_curvature_violated`: fails: for the training loss `w * a` and the validation loss `w` the curvature is `1` and the unrolled gradient should be `-lr`, the program gives a different one.
* `C46_update_violated`: fails: in both modes, in every iteration of every run that starts with cleared gradients, the weight update contains the gradient of the validation batch; and there is a run in which this changes the weights.
* `C46_arch_violated`: fails for the architecture as well in the first-order mode: the gradient that the weight update of one iteration leaves on the architecture parameters is added to the architecture gradient of the next.

### C47

* `C47_resume_violated`: fails when training is resumed inside the finetune stage: the resumed object is a supernet again and is never fixed, however long it trains.
* `C47_single_process_violated`: fails outside a distributed job: the first iteration of the finetune stage raises, so no run reaches it.

### C48

* `C48_norm_violated`: A batch norm without affine parameters is refused.
* `C48_twice_violated`: expanding a unit twice: the second target is counted from the original width, so the unit gets wider than asked.
* `C48_pruned_violated`: fails for a unit that was pruned before it is expanded: the weights are taken in order from the unpruned layer, so the remaining channel gets the weights of a pruned one.

### C49

* `C49_twice_violated`: fails: an operation that gets the same fake-quantised value twice makes the deletion before it raise.
* `C49_not_next_violated`: fails: the fake-quantiser before the convolution is removed although it is next to no selected operation. Both users of the fake-quantiser after the convolution are selected; the second search goes on past the convolution.
* `C49_shared_violated`: fails: removing one call of a shared fake-quantiser deletes the module the other call needs.
* `C49_module_violated`: fails: a selected module called with keyword arguments raises.
* `C49_backend_violated`: fails: the backends remove a fake-quantiser that is neither before an activation nor after a pooling nor before the output. The one after the pooling goes first, and from the output the search then arrives at the quantiser of the activation, node 5.

### C50

* `C50_band_violated`: fails: nowhere in the documented band is the loss zero, for every target of at least 100 FLOPs.
* `C50_target_violated`: fails at the target: the loss there is positive and grows with the target.
* `C50_direction_violated`: fails in direction: below the target, moving away from the target makes the loss smaller.
* `C50_jump_violated`: the loss jumps when the distance from the target passes 200 FLOPs: a point further above the target has the smaller loss.
* `C50_inverted_violated`: the inverted loss is not a number for every network below the target by more than `1e-5` FLOPs.

### C51

* `C51_foreign_violated`: fails: one file of that kind that is not named after a step, and the search raises, however many checkpoints there are.
* `C51_no_warmup_violated`: fails without warm-up: one round more is counted than is timed, so the speed reported is too high, for every machine.
* `C51_all_warmup_violated`: fails when every round is warm-up: the measurement divides by zero.
* `C51_one_iteration_violated`: fails for one iteration: nothing is measured, the speed is reported as zero and the latency divides by it.
* `C51_negative_violated`: fails for numbers below zero: a directory whose only checkpoint has one seems empty.

### C54

* `C54_block_size_violated`: Violated in general: a group that starts inside a block gets the parameters of weights whose corrections by the earlier columns of the block are still missing, so its weights are rounded with a range that does not fit, and the result depends on the block size.
* `C54_dead_violated`: Violated: without groups the weight of a dead input, which cannot influence any output, is in the range of the row: a large one makes all other weights zero.
* `C54_no_cuda_violated`: Violated: on a machine without a CUDA device `quant` fails at the synchronisation after all columns are treated; the error is swallowed by the compressor, and the layer keeps weights that are neither the old ones nor on the grid.

### C55

* `C55_default_violated`: With the default of the optimizer wrapper (no accumulation) the subnets of an iteration are not trained at the same weights: the optimizer has already taken a step for the largest subnet when the smallest is trained, against outputs of the old weights.
* `C55_resume_window_violated`: Interrupting in the middle of a window of accumulated iterations loses the gradients accumulated so far: the resumed run ends with other weights.
* `C55_drop_violated`: Blocks of other classes in a layer are counted as places but not in the total: the rate can exceed the given one.

### C56

* `C56_small_violated`: Layers whose channels are fewer than a group cannot be pruned at all; with the default rates these are all layers with less than 20 channels.
* `C56_smallest_violated`: The size of a group is rounded down, so the smallest width can be much larger than the smallest rate: 21 of 39 channels for a rate of 1/10.
* `C56_expected_mask_violated`: In the mode `expected` the mask is that of the whole network, whatever the parameters are: the expected number is taken for a ratio. The subnet exported as the expected one at the end of the training is therefore not pruned.
* `C56_expected_flops_violated`: The FLOPs computed in the mode `expected` are not the mean of the FLOPs of the sampled subnets: the input channels of each convolution are counted in full, so the result is too large as soon as the first parameter of the unit before the convolution is positive.
* `C56_too_wide_violated`: DISAGREEMENT: with a single group of channels the probability of that group is spread over all channels after the first, however many there are; with more groups an input with more channels than there are groups for is refused.

### C57

* `C57_kind_violated`: is violated for other entries: they are compared by substring, so `random` is treated as `arch_random` (and follows the architecture parameters later), the empty string as `max`, and an unknown name such as `direct` is skipped without an error.
* `C57_leak_violated`: is violated after an update of the architecture parameters: the gradient of the architecture loss is left in the weights, so the next weight step, that of the largest subnet in the next iteration, uses it as well, for every task, weights and optimizers.
* `C57_stale_violated`: is violated when the largest subnet does not come first: the smallest subnet is then trained without distillation, or with the outputs the largest subnet had on the batch of the previous iteration.
* `C57_late_failure_violated`: is violated without the largest subnet in the strategy: training goes on for `distillAfter` iterations and then fails.
* `C57_resume_violated`: is violated when training is resumed with `scheduled_random`: the probability of a random subnet starts again at one, so the same iteration with the same draws trains another subnet.
* `C57_freq_violated`: is violated for `arch_train_freq = 0`: training runs up to the first iteration in which the architecture parameters take part and then fails.

### C58

* `C58_reward_violated`: is violated: the rewards are applied to gradients that were used and cleared before, so the whole search does not depend on them, for any optimizer.
* `C58_cleared_violated`: is violated with PyTorch 2.0 or later, where `zero_grad` removes the gradients: every architecture update fails.
* `C58_less_likely_violated`: is violated in its aim: an update by gradient descent makes every sampled choice less probable, also when the loss falls with the weight of that choice (a negative reward), so the search does not learn which choices are good.
* `C58_params_violated`: is violated with aliases: groups are numbered with the aliases first, but the parameters are looked up by the place of the module. Here the loss of `op1` uses the parameters of `op2`.
* `C58_shared_violated`: is violated with shared aliases: there are fewer groups than modules, and the first architecture update fails.

### C59

* `C59_missing_violated`: is violated when an argument without a default value is not mapped: the configuration is accepted (arguments that are not mapped are not looked at), but the losses can never be computed.
* `C59_default_violated`: is violated for arguments with a default value: their record infos are not checked, and a recorder that does not exist is accepted; computing the losses then fails, whatever was recorded.
* `C59_unknown_key_violated`: is violated for unknown keys in a record info, such as a misspelt `data_idx`: they are accepted, and computing the losses fails with a `TypeError`.
* `C59_documentation_violated`: is violated for the example in the documentation of the class, which names the recorder by the key `from_recorder`: it is rejected.
* `C59_unmapped_violated`: is violated for losses that are configured but not mapped: the configuration is accepted and the losses are left out without a message.
* `C59_student_frozen_violated`: is violated for `student_trainable = False`: unless the student's loss is switched off as well, the student is trained.
* `C59_stop_late_violated`: is violated for algorithms that cannot stop distillation, such as `SelfDistill`: with the hook they are trained up to `stop_epoch` and fail then.
* `C59_teacher_mode_violated`: is violated for the other layers of a teacher that is not trained: during training they are in training mode, for all options, so a teacher with dropout gives random outputs.

### C60

* `C60_leak_violated`: is violated otherwise: the gradient of the generator loss stays in the student, and the first student step of the iteration uses it in addition to that of the distillation loss.
* `C60_leak_first_violated`: is violated in the same way when the student is trained first: the first iteration is the intended one, but in the second the first student step uses the gradient of the generator loss of the first.
* `C60_dafl_violated`: is violated for DAFL with an adversarial generator loss, the negative of the distillation loss: the two gradients cancel in the student, and with an optimizer that does not move for a zero gradient the student is never trained, whatever the number of iterations.
* `C60_iter_zero_violated`: is violated for `student_iter = 0`: the option is accepted and every iteration fails.

### C61

* `C61_kl_elements_violated`: DISAGREEMENT: with `reduction='none'` the elements returned by `KLDivergence` are not losses: whenever student and teacher disagree at a position, an element of that position is negative.
* `C61_cwd_shape_violated`: DISAGREEMENT: `ChannelWiseDivergence` checks the height and width only. Feature maps with the same product of samples and channels, such as those with both swapped, are compared row by row without an error, and a teacher with a single map is compared with every channel.
* `C61_dkd_reduction_violated`: DISAGREEMENT: the `reduction` of `DKDLoss` is passed on together with the deprecated `size_average=False`, which wins: `'none'` and `'mean'` return the sum over samples and classes.
* `C61_dkd_mask_violated`: DISAGREEMENT: the label is taken out of the second part of `DKDLoss` by lowering its score by a thousand after the division by the temperature, not exactly. With two classes there is nothing to compare among the other classes, and still that part is positive whenever the scores differ by more than a constant (noticeably once the scaled scores are a thousand apart, as with a small temperature).
* `C61_dkd_labels_violated`: DISAGREEMENT: the labels are documented to have the shape (N, C); with the N * C numbers of such a tensor the call fails. At most one label per sample is accepted.
* `C61_softce_none_violated`: DISAGREEMENT: `reduction=None` is accepted when `KDSoftCELoss` is built, and then every call without an override fails.

### C62

* `C62_l1_batchmean_violated`: DISAGREEMENT: `L1Loss` accepts `reduction='batchmean'` when it is built, and then every call without the deprecated arguments fails.
* `C62_l2_zero_violated`: DISAGREEMENT: the normalising `L2Loss` (the default) is not a number as soon as one sample of either feature is zero everywhere, as after a ReLU, also when student and teacher are equal.
* `C62_tiny_violated`: DISAGREEMENT: features of norm below `1e-12` are divided by `1e-12` instead of their norm, so that `FTLoss` of two features of the same direction can be positive.
* `C62_activation_batch_violated`: DISAGREEMENT: with `norm_type='norm'` the `ActivationLoss` is the norm over all samples, so it grows with the number of samples: repeating a batch four times doubles it, while `'abs'` is the mean.

### C63

* `C63_distance_collapse_violated`: DISAGREEMENT: a student that maps all samples to one point has no loss with respect to any teacher whose samples are equally far from each other: the vanishing distances are replaced by `1e-6` and then divided by their mean.
* `C63_distance_pair_violated`: DISAGREEMENT: with two samples `DistanceWiseRKD` is zero whatever the predictions are.
* `C63_distance_single_violated`: DISAGREEMENT: with fewer than two samples, and only then, `DistanceWiseRKD` is not a number.
* `C63_dist_identical_violated`: DISAGREEMENT: `DISTLoss` is not zero for a student equal to its teacher: each correlation of equal rows falls short of one by `1e-8 / (spread + 1e-8)`.
* `C63_dist_single_violated`: DISAGREEMENT: with one sample in the batch the part of `DISTLoss` over samples is `τ²` whatever the scores are.
* `C63_dist_uniform_violated`: DISAGREEMENT: if student and teacher both find all classes equally likely, so that they agree, `DISTLoss` is `τ²·(inter + intra)`, half of its upper bound.
* `C63_pkd_scale_violated`: DISAGREEMENT: the comment in the code calls `PKDLoss` equivalent to one minus the correlation, but a student that is a positive multiple of its teacher, thus perfectly correlated, has a positive loss: the added `1e-6` makes the loss depend on the scale.
* `C63_pkd_opposite_violated`: DISAGREEMENT: a student opposite to its teacher in every channel has correlation minus one, but its loss is less than the documented `1 - r = 2`: each channel gives at most `2·(M-1)/M`.
* `C63_pkd_levels_violated`: DISAGREEMENT: maps of one network beyond the number of maps of the other are ignored without a message.
* `C63_pkd_width_violated`: DISAGREEMENT: maps of different size are resized only if the heights differ; equal heights with different widths are refused.

### C64

* `C64_alias_deficit_violated`: DISAGREEMENT: weights that sum to less than one are not scaled, and the outcomes are then drawn neither with the given nor with the scaled chances.
* `C64_opposite_violated`: DISAGREEMENT: with the default momentum of one half, a student feature opposite to the stored row turns the row into values that are not numbers, and they stay in the memory for every further history.
* `C64_weight_violated`: DISAGREEMENT: the `loss_weight` of `CRDLoss` has no effect.

### C65

* `C65_zero_weight_violated`: DISAGREEMENT: a batch normalisation with a weight of zero, as zero-initialised residual branches have, makes the set-up raise `ZeroDivisionError`; and only such a layer does.

### C66

* `C66_missing_child_violated`: DISAGREEMENT: the check for missing children asks for the parent, so a graph with a `None` child cannot be synchronised: `AttributeError`.
* `C66_loss_missing_violated`: DISAGREEMENT: without the mode `loss` among the configured ones training runs on the float model, without any fake quantisation, and fails with `KeyError` at the end of the first epoch.
* `C66_histogram_violated`: DISAGREEMENT: the dummy input of the construction stays in the statistics of observers that do not keep minimum and maximum, such as histograms: calibration starts with the random dummy already seen.
* `C66_tensor_missing_violated`: DISAGREEMENT: a model without the mode `tensor` cannot be built: `KeyError`.
* `C66_ptq_violated`: DISAGREEMENT: post-training calibration only reaches the graph of the mode `predict`, and no synchronisation follows: however long a newly built model is calibrated, its `tensor` and `loss` graphs still quantise with scales of one.

### C67

* `C67_pairing_violated`: DISAGREEMENT: a layer that sees two batches without a reset in between has the inputs of the first batch paired with the gradients of the second.
* `C67_concat_violated`: DISAGREEMENT: a layer behind a concatenation reads more channels than the unit has. Then the values are assigned to wrong samples: the first channel of the second sample gets the value of another unit's channel in the first sample.
* `C67_depthwise_violated`: DISAGREEMENT: a depthwise convolution writes and reads its unit, and is counted twice: the normaliser is twice what a channel costs.
* `C67_residual_violated`: DISAGREEMENT: an ordinary layer that writes and reads the same unit (as in a residual stream) is counted as if both sides could be pruned independently: the normaliser is too large by the cost of one pair of channels.
* `C67_grouped_violated`: DISAGREEMENT: a grouped convolution that is not depthwise makes the update fail once it was called.

### C68

* `C68_annealing_violated`: DISAGREEMENT: the temperature is meant to fall over the whole training (it is computed from the current and from the last iteration), but the rate is one per iteration: in every run, however long, it is below 1/9000 from the fifth iteration on, where it started from 1 and ends at 1/10000.
* `C68_legal_violated`: DISAGREEMENT: the documentation gives `[1, max_iters]` as legal, but a step of exactly `max_iters` (fuse once, at the start), or `max_iters` prunings, is refused, so the run raises.
* `C68_score_violated`: DISAGREEMENT: filters are kept by a score that is not the divergence it is documented to be: the logarithms are averaged along the wrong dimension. At every temperature there is a layer of five filters of which one is to be kept and where the filter whose coefficients diverge most from the others (which would be kept) is dropped, in favour of one that has an identical twin.
* `C68_aligned_violated`: DISAGREEMENT: layers whose outputs are added share a unit, so that they lose the same channels. Here each layer ranks its own filters: two such layers keep different filters at the same place, whatever the temperature. (Both have three filters of which one is kept; the filters of the second are those of the first in another order.)
* `C68_head_violated`: DISAGREEMENT: a layer that keeps all its outputs (the last layer of a head, say) but reads pruned inputs does not keep its filters: whatever the temperature, no output channel is left with one of the two filters of the layer, each gets a proper mixture of both.
* `C68_reload_violated`: DISAGREEMENT: the coefficients are bound to the module and are no part of its state. A model built anew with the saved weights and the saved channel counts computes with a plain slice of the weights: the output channel that was a proper mixture of both filters is now the first filter.

### C69

* `C69_rectangle_violated`: DISAGREEMENT: the side of the grid is taken to be the square root of the number of patches. On a grid that is not square the displacement is wrong: on two rows of three patches, the first patches of both rows count as one column apart.
* `C69_static_relative_violated`: DISAGREEMENT: the exported module keeps the tables but not the largest displacement, which becomes 14 again. For every other value some tables give other embeddings, or an index outside the table.
* `C69_bias_violated`: DISAGREEMENT: attention without biases for queries, keys and values is allowed (`qkv_bias=False`) and can be trained and searched, but cannot be exported.
* `C69_scale_violated`: DISAGREEMENT: the exported attention has the default scale, whatever `qk_scale` was given: for every other scale there is an input on which the exported layer answers differently.
* `C69_depth_violated`: DISAGREEMENT: a depth larger than the number of layers is to be refused, but the dictionary of mutables counts as a layer: one more than there are is accepted. Two more are refused.
* `C69_depth_missing_violated`: DISAGREEMENT: a sequence whose depth is not searched is to run all its layers; it raises instead.
* `C69_build_violated`: DISAGREEMENT: the depths may be listed in any order, but when the last is not the largest the construction of the backbone raises.
* `C69_patch_violated`: DISAGREEMENT: `patch_size` changes the number of positions but not the patches, which stay 16 wide. Other sizes fail in the forward pass, and one larger than the image gives all tokens the same position without any error.

### C70

* `C70_names_violated`: DISAGREEMENT: names of nodes are optional in ONNX and need not differ, but a graph in which two nodes have the same name is never sorted: the error says that it has a cycle.
* `C70_omitted_violated`: DISAGREEMENT: inputs of nodes may be omitted in ONNX, the name is then empty. A graph in which a node reads such a name (or any that is not defined) cannot be sorted: the lookup fails.
* `C70_direct_violated`: DISAGREEMENT: a node between a graph input and a graph output is connected with no other node. It is taken for unused and removed, and the graph that remains does not define its output.
* `C70_array_violated`: DISAGREEMENT: an initializer that is itself an output of the graph and is not read by a node is removed, and the output is lost.
* `C70_output_violated`: DISAGREEMENT: a padding by nothing that is both read and an output of the graph is taken out, and nothing writes that output any more: the exported graph fails on every input.
* `C70_unread_violated`: DISAGREEMENT: a padding by nothing whose output no node reads (it is an output of the graph, say) stops the export with a KeyError.
* `C70_computed_violated`: DISAGREEMENT: a padding whose widths are computed by the graph stops the export with a KeyError, also when it pads by something.
* `C70_old_violated`: DISAGREEMENT: a padding in the style of old operator sets, with its widths as an attribute and one input, stops the export with an IndexError.

### C71

* `C71_tie_violated`: DISAGREEMENT: at every middle between two steps inside the range, the exported operator is a whole step off, if one of zero point and smallest integer is even and the other odd (symmetric weights from -127, say).
* `C71_narrow_violated`: DISAGREEMENT: a fake quantiser from -127 is accepted for TensorRT, but the byte operators reach -128.
* `C71_unsigned_violated`: DISAGREEMENT: a fake quantiser of unsigned bytes with zero point 0 is accepted for TensorRT, where signed bytes cut everything above 127 steps and keep what is below zero.
* `C71_constants_violated`: DISAGREEMENT: a constant that only the last fake quantiser reads is to be removed twice: ValueError.
* `C71_axis_violated`: DISAGREEMENT: ONNX's operators quantise along the second axis when no axis is given, and none is: a weight with scales for its rows is quantised by columns after the export to TensorRT.
* `C71_transposed_violated`: DISAGREEMENT: when the first reader of a weight with scales for its rows has no second input (a transposition), the bounds have one axis only and are aligned with the columns: the graph exported to OpenVINO quantises by columns, or does not run.
* `C71_shared_violated`: DISAGREEMENT: the names of the bounds are made of the name of the tensor only: of two fake quantisers of one tensor, the second gets the bounds of the first.

### C72

* `C72_learned_violated`: DISAGREEMENT: deployment may change weights whose scales were learned. With eight bits, when no weight of a group takes the integer 127 and `k < 127` is the largest one taken, every weight whose integer is not 0, `k` or `-k` has another value after deployment, because new scales are computed from the fake-quantised weights.
* `C72_full_range_violated`: DISAGREEMENT: with the full range of signed integers (`is_symmetric_range` not set), deployment changes every layer that was calibrated with a min-max observer: the largest weight of a group is multiplied by `hi / (hi + 1/2)`, or by `(hi + 1) / (hi + 1/2)` when the group has a negative weight of that size.
* `C72_affine_violated`: DISAGREEMENT: with an affine scheme, deployment can change weights that were calibrated with a min-max observer: the weights `-t/2`, `127 t` and `254.5 t` have scale `t` and become `0`, `127 t` and `254 t`, so that the new scale is smaller and the second one changes.
* `C72_zero_factor_violated`: DISAGREEMENT: a quantised layer cannot be evaluated where the batch normalisation multiplies a channel by zero (torch divides by that factor), but the deployed layer gives a number there.
* `C72_sigmoid_violated`: DISAGREEMENT: the fake quantiser of sigmoid outputs has a fixed scale of 1/256. When activations are configured to signed integers, it is exchanged for one that cuts every output off at 127/256.

### C73

* `C73_mask_violated`: DISAGREEMENT: when an inactive channel comes before an active one, as with masks chosen by the norm of the filters, calibration stores the new statistics in the first channels of the layer, which need not be the active ones. With the second of two channels active the subnet is validated with the old statistics of that channel.
* `C73_silent_violated`: DISAGREEMENT: the loop validates nothing and reports no metrics, without a warning, for an algorithm without `sample_kinds` (any but AutoSlim and BigNAS) unless `evaluate_fixed_subnet` is set.
* `C73_untouched_violated`: DISAGREEMENT: validation changes the model. Whatever subnet was chosen before, a validation of the supernet leaves the last one it validated, with the running statistics of its channels replaced by calibrated ones; a checkpoint saved afterwards contains them.
* `C73_pairs_violated`: DISAGREEMENT: the hooks of an epoch are not called in pairs. A validation of a slimmable network calls `before_val_epoch` once for every subnet (with no subnets not at all), and `after_val_epoch` once.
* `C73_returned_violated`: DISAGREEMENT: of the loops only the one of iterative pruning returns the metrics, as `Runner.val` expects; after the others `Runner.val` returns nothing.

### C74

* `C74_keep_violated`: DISAGREEMENT: `max_keep_subnets` has no effect. With interval 1 every epoch leaves a file, whatever the number of subnets to keep.
* `C74_folder_violated`: DISAGREEMENT: `out_dir` grows with every training of the same runner: the files of the second one are written to a folder inside that of the first.
* `C74_estimate_violated`: DISAGREEMENT: `interval` counts one epoch too many. Resources are estimated after the validations for which the number of finished epochs plus one is a multiple of it.
* `C74_never_violated`: DISAGREEMENT: if the interval divides the validation interval and the number of epochs, as when both intervals are the same, nothing is ever estimated (unless the interval is 1).
* `C74_batches_violated`: DISAGREEMENT: with `by_epoch=False` the hook is asked for every batch of a validation, but looks at the number of training iterations, which does not change meanwhile: resources are estimated at all batches of a validation or at none.
* `C74_endless_violated`: DISAGREEMENT: if all sampled subnets are smaller than 95 per cent of the target, as when the supernet itself is, the run never ends; the same if all are too large. No subnet is then exported, even if none was asked for.
* `C74_expected_violated`: DISAGREEMENT: the FLOPs of the exported expected subnet are not compared with the target: the test is made for a sampled subnet, which is then replaced. Whatever FLOPs the expected subnet has, it is exported last.
* `C74_visualise_violated`: DISAGREEMENT: the hook does not set evaluation mode, and is called when the model is in training mode. Features are normalised with the statistics of the single image, and every image drawn changes the running statistics that are trained, except where they agree.

### C75

* `C75_translate_violated`: DISAGREEMENT: `translate_const` has no effect; translations go up to 250 pixels whatever is configured.
* `C75_probability_violated`: DISAGREEMENT: an operation of probability zero is made when the number drawn is exactly zero, which `random.random()` can return.
* `C75_once_violated`: DISAGREEMENT: magnitudes and signs are drawn when the transform is constructed and not for every image: all images to which the operations of a sub-policy are applied are, say, rotated by the same angle in the same direction, whatever is drawn at the calls.
* `C75_settings_violated`: DISAGREEMENT: the operations of the second version ignore the configured colour and interpolation: they fill with black and take the nearest pixel, whatever is configured.
* `C75_pack_violated`: DISAGREEMENT: after the first sample with an index the list of meta keys is used up, and all later samples are packed without any meta information (path, shapes, scale, flips).

### C76

* `C76_twice_violated`: DISAGREEMENT: asking for the architecture removes this wish from the caller's config: building a second time from the same config gives the whole algorithm instead.
* `C76_false_violated`: DISAGREEMENT: `_return_architecture_=False`, which asks for what happens anyway, is passed on to the constructor and refused by it.
* `C76_inplace_violated`: DISAGREEMENT: in-place modules inside a module that also has the attribute are missed, such as the activation of every `ConvModule`: the model works in place afterwards exactly if it has such a module.
* `C76_unwrap_violated`: DISAGREEMENT: a model that is not wrapped but has a child called `module` is taken for a wrapper: its own children cannot be configured.
* `C76_dropout_violated`: DISAGREEMENT: other modules in a layer count as positions but not in the total: a block behind as many of them as there are blocks gets at least the full rate, which can exceed one.

### C77

* `C77_even_kernel_violated`: DISAGREEMENT: an even kernel is accepted, but makes the feature map one larger in each direction: with stride 1 such a candidate does not fit, and where input and output are added the block fails.
* `C77_attentive_violated`: DISAGREEMENT: with stride 2 the shortcut pads height and width by the parity of the width alone. If only one of them is odd, the block fails on every feature map of height at least four; a height of two or three gives a wrong shape or another broadcast result instead of ⌈h / 2⌉ rows.
* `C77_shuffle_violated`: DISAGREEMENT: an odd number of output channels is accepted with stride 2, but the unit then gives one channel less than configured.
* `C77_darts_channels_violated`: DISAGREEMENT: between nodes with different numbers of channels the operations of DARTS do not fit although they take both numbers: pooling and dilated convolutions fail, and a skip connection of stride 1 and the zero operation pass on the wrong number of channels.
* `C77_efficient_violated`: DISAGREEMENT: the squeeze-and-excitation layer of a separable convolution is built for the output channels but applied to the input ones, so the block fails whenever they differ; and a plain convolution of kernel 3 or more with the default padding of zero fails where it adds its input.

### C78

* `C78_shufflenet_v2_violated`: DISAGREEMENT: `round(channel * widen_factor)` may be odd. Then a stage of two or more blocks cannot be built (AssertionError), and one of a single block can, but the next convolution fails on every image.
* `C78_residual_violated`: DISAGREEMENT: without the shortcuts of AttentiveNAS, whether input and output of a block are added is decided by the largest candidates. Where these are equal for two layers in a row and the stride is 1, every choice of two different numbers of channels above one makes the network fail.
* `C78_depth_zero_violated`: DISAGREEMENT: zero is accepted as a candidate for the number of blocks of a layer. If it is chosen the layer passes its input on, but the next layer expects the channels chosen for the skipped one and fails unless they happen to agree.
* `C78_activations_violated`: DISAGREEMENT: the list given by the caller is emptied from both ends. A second backbone built from the same list (as when a config is used twice) raises IndexError.
* `C78_freeze_stem_violated`: DISAGREEMENT: the stem of a frozen network stays in training mode, so without `norm_eval` its batch norm statistics keep changing.
* `C78_freeze_bound_violated`: DISAGREEMENT: numbers of frozen stages up to 7 are accepted whatever the number of layers; asking for more than there are fails only when training starts.

### C79

* `C79_odd_image_violated`: DISAGREEMENT: with two or more cells, no image with an odd side gets through the backbone, whatever the choice of operations: the cell after the first reduction cell halves its first input by joining the maps of even and of odd positions, which have different sizes.
* `C79_auxiliary_violated`: DISAGREEMENT: with an auxiliary module, training fails on every image whose map at the auxiliary module is smaller than 7 x 7 (a side below 28), while evaluation of the same images works.

### C80

* `C80_shared_layer_fails`: DISAGREEMENT: when a layer feeds itself through the relation of the paths, as a layer applied twice in a chain does, no graph is built: sorting the nodes raises.
* `C80_applied_twice_fails`: A layer applied twice in a chain feeds itself.
* `C80_concat_order_violated`: DISAGREEMENT: a concatenation is known by the sorted ids of its inputs only (parsers.py 121-125). Of two concatenations with the same id, here of layers 1 and 2 in both orders, the graph has one node, with the inputs in the order of the first and both readers behind it: the channels of the second come in the wrong order.

### C81

* `C81_root_branch_fails`: DISAGREEMENT: only called functions are recorded as a whole; a network whose forward function itself branches on an input cannot be traced.
* `C81_no_proxy_fails`: DISAGREEMENT: a function that gets no proxy but fails on a parameter it reads is called a second time and fails again, so that the network cannot be traced.
* `C81_leftover_violated`: DISAGREEMENT: what was recorded before a call failed stays in the graph: the graph can contain nodes that nothing reads and that stand for work done again inside the recorded call.

### C82

* `C82_student_nested_violated`: DISAGREEMENT: the prefix is removed wherever it occurs. If the student itself keeps its network under `architecture.`, its keys lose that part too, and an entry of the student may be overwritten by another.
* `C82_distiller_violated`: DISAGREEMENT: the prefix is not a component of the key. A sibling whose name begins with `model` is renamed too, to a name outside `architecture.`; and a part `teacher` of the student is put over the teacher of the distiller.
* `C82_quant_violated`: DISAGREEMENT: the text `_val` is replaced inside of names too. The scale of the weights of a layer with `_val` in its name gets the key of no layer, and a key which already ends in `_vals` is changed.
* `C82_ofa_wrapped_fails`: DISAGREEMENT: the number of a block is taken from the second part of the key, wherever `blocks` occurs. A checkpoint whose keys have a part in front of `blocks` (as saved from a model wrapped for data parallel training) is not converted for any depths.
* `C82_bignas_violated`: DISAGREEMENT: a block is recognised by the first digit of its number, and `model.` is replaced inside of names too. Block `10` becomes layer `20`, and a part whose name ends in `model` is renamed.

### C84

* `C84_freeze_fails`: DISAGREEMENT: freezing stages is announced, but freezing accesses the last norm layer before it is made: with any number of frozen stages from zero on, no network can be built.
* `C84_norm_fails`: DISAGREEMENT: the kind of norm layer is configurable, but blocks look for layers with the names of batch norm: with any other kind the network is built and fails on every image.
* `C84_depths_violated`: DISAGREEMENT: depths 50, 101 and 152 are announced (and deeper networks only warned about), but exactly the depths 10, 16, 22, 28 and 40 are supported.

### C85

* `C85_crd_zero_fails`: DISAGREEMENT: the zero vector has no embedding: the division by its length is not guarded by a small constant and yields not-a-number.
* `C85_byot_default_stride_fails`: DISAGREEMENT: with the default stride one every connector that can be built fails on every feature map of more than one position: the attention is always upsampled by two, so its size is not that of the features.
* `C85_byot_odd_fails`: DISAGREEMENT: with stride two every feature map of odd side above one fails: the attention is larger than the features by one.
* `C85_byot_shrink_fails`: DISAGREEMENT: an output with fewer channels than the input passes the assertion when their ratio is a power of two, but the connector then fails on every input: the loop adds no layer and the classifier expects fewer features than it gets.
* `C85_neck_single_fails`: DISAGREEMENT: a single map (which the documentation allows) fails in evaluation, and in training without dropout: the result is only assigned when dropout is applied.
* `C85_image_size_violated`: DISAGREEMENT: if the square of the scale does not divide the image size, the images are smaller than asked for (or, for a size below the square, generation fails); nothing checks it.

### C86

* `C86_same_name_violated`: DISAGREEMENT: of two given methods of the same name, of different classes, only the last one is skipped; the calls of the first one are entered: the registry is keyed by the bare name.
* `C86_leak_violated`: DISAGREEMENT: a tracer made without methods to skip still skips those of every tracer made before it: the registry belongs to the class and is never emptied.
* `C86_older_tracer_fails`: DISAGREEMENT: once a second tracer is made, the first one fails on every model that calls a skipped method: the call asks the tracer made last, which has no graph.
* `C86_one_dot_fails`: DISAGREEMENT: the check asks for at least one dot in the name of a method, but two are needed: with one dot the class is looked up in `None`.
* `C86_fetched_twice_fails`: DISAGREEMENT: if a module is fetched twice, for two of its methods, the first method is lost and the built graph cannot run: the second fetch starts an empty module.
* `C86_nested_module_fails`: DISAGREEMENT: a skipped method of a nested module (whose path contains a dot) cannot be built into a graph.
* `C86_duplicate_clash_violated`: DISAGREEMENT: if the model has a module with the name of a copy, its node silently uses a copy of the other module.

### C87

* `C87_default_arguments_fails`: DISAGREEMENT: with its default arguments `GPTQCompressor.prepare(model)` raises a `TypeError` for every model with a linear layer, because the default linear layers need `bits` and `groupsize`; the layers met before are replaced already.
* `C87_narrow_violated`: DISAGREEMENT: SparseGPT silently leaves every linear layer with fewer outputs than inputs as it is; a model of such layers is not pruned at all.
* `C87_two_holders_violated`: DISAGREEMENT: a layer that is held by two attributes is exchanged at the first only; the second keeps the old layer, which is never compressed, and the two no longer share their weights.
* `C87_root_violated`: DISAGREEMENT: a model that is itself a layer stays as it is and gets a copy as an attribute with an empty name: only the copy, which is never called, is compressed.
* `C87_skip_path_violated`: DISAGREEMENT: skipping a layer by a path other than the first has no effect.
* `C87_init_again_violated`: DISAGREEMENT: initialising again does not reset the number of samples. After a second calibration the matrix is the second moment over the number of all samples ever seen, which is too small by the factor `B / (n + B)`.
* `C87_uncalibrated_violated`: DISAGREEMENT: compressing a layer that was never calibrated, or a second time with GPTQ, does nothing but move the layer to the computing device, and no error is reported.
* `C87_failed_layer_violated`: DISAGREEMENT: a layer whose compression fails stays on the computing device.
* `C87_hooks_left_fails`: DISAGREEMENT: if the hooks are not removed before GPTQ compresses a layer, every later forward pass through it raises an `AttributeError`.
* `C87_root_tensors_violated`: DISAGREEMENT: the parameters and buffers of the model itself never get to the device: whenever the root uses them, they are in main memory.
* `C87_context_violated`: Hooks are gone after the context; DISAGREEMENT: entering the same context object twice loses the handles of the first time, whose hooks then stay on the model for good.
* `C87_dtype_stale_violated`: DISAGREEMENT: the default is remembered when the object is made, not when it is entered: if it is changed in between, leaving restores the older value.

### C88

* `C88_traced_choice_violated`: DISAGREEMENT: the choices in the configuration of the units are not used when the units are traced (the usual way, without `from_cfg`): for a mutator made by tracing, whatever choices its units are given, a mutator made by tracing from the written configuration has the same arguments, but all its units have the choice of new units.
* `C88_choice_lost_violated`: DISAGREEMENT: units whose preparation sets the largest choice (one-shot and slimmable units) lose the choices of the configuration, in every way of preparing: all units have the largest choice afterwards.
* `C88_parse_paths_violated`: DISAGREEMENT: the same configuration gives different units depending on how it is used. For an argument with a default value of the mutator which the `init_args` of a unit do not mention: with `from_cfg` and the configuration given as a dictionary, the unit gets the default of the mutator; with the configuration in a file, or with tracing, it gets the default of the class.
* `C88_no_channels_fails`: DISAGREEMENT: a unit without `channels` in a configuration used without a tracer stops with a `NameError` (the traced units are unbound), not with the `ValueError` that explains what to add.
* `C88_unknown_unit_fails`: DISAGREEMENT: with `from_cfg`, a unit that the trace does not have stops with a `KeyError`, not with the explaining `ValueError`.
* `C88_from_cfg_once_violated`: DISAGREEMENT: `from_cfg` works once. Preparing removes it from the parse configuration, so preparing again (or preparing another mutator made from the same configuration) traces: it makes all the traced units instead of the listed ones.
* `C88_predefined_violated`: DISAGREEMENT: `unit_predefined` of the default arguments reaches the first unit of a predefined model only; all others behave as without it.

### C89

* `C89_given_range_violated`: DISAGREEMENT: what a scheme says about the range of integers itself (`quant_min`, `quant_max`, `reduce_range`, `dtype`, `qscheme`) is overwritten silently: any two accepted schemes that differ only in these entries give observers the same arguments.
* `C89_options_dropped_violated`: DISAGREEMENT: of the configurations of observers and fake quantisers only the `type` is used; any other option given there is dropped without a message.
* `C89_per_channel_fails`: DISAGREEMENT: `is_per_channel`, a documented argument of a scheme, cannot be given: it stops with a `TypeError` whatever its value.
* `C89_no_observer_violated`: DISAGREEMENT: `no_observer_modules` has no effect on types with a fixed range (sigmoid, tanh, softmax, …): they are quantised although they are listed.
* `C89_single_module_fails`: DISAGREEMENT: a single name as `no_observer_modules` never works, although `str2class` takes single names: it stops with an error (for a class that exists, a `TypeError`).
* `C89_function_types_fails`: DISAGREEMENT: functions and methods, documented as keys of `object_type`, are refused with a `TypeError`.
* `C89_swap_order_violated`: DISAGREEMENT: swapping moves the swapped modules behind all others, so that the children of a module (and the calls of a sequential module, and the order of its state) change their order.
* `C89_swap_shared_violated`: DISAGREEMENT: a `FloatFunctional` with two names in a module is swapped under the first name only.
* `C89_bn_weights_violated`: DISAGREEMENT: converting forgets the weights and statistics: whatever a synchronised (or general) normalisation layer has learned, it becomes a new layer.

### C90

* `C90_checkpoint_violated`: DISAGREEMENT: a checkpoint of the predictor has no effect. The search validates every subnet, exactly as without a predictor.
* `C90_initial_dropped_violated`: DISAGREEMENT: initial candidates given to the search are dropped when a predictor is trained: the search starts with an empty pool.
* `C90_samples_file_fails`: DISAGREEMENT: the files that the search writes cannot be given as training samples: the run stops with a `KeyError` before it starts.
* `C90_mlp_untrained_fails`: DISAGREEMENT: without epochs, or when one of the two parts is empty (one sample with the default ratio; ratio 1), training stops with an `UnboundLocalError`.
* `C90_mlp_checkpoint_violated`: DISAGREEMENT: a network handler trained on a search space of another width than configured (which `fit` allows) cannot be loaded again by the same configuration.
* `C90_gp_single_fails`: DISAGREEMENT: one sample is not enough for a Gaussian process, but it is not refused: the deviation is not a number.

### C91

* `C91_sizes_violated`: DISAGREEMENT: "the output has the same shape" is checked by the number of dimensions only: a model whose output loses channels under pruning passes, so the units that make up its output are kept as prunable.
* `C91_unsupported_fails`: DISAGREEMENT: if the output of the model in the first working mode holds anything besides tensors, lists and dictionaries (a number, a data sample, `None`), every unit is reported as not prunable, without an error.
* `C91_together_violated`: DISAGREEMENT: two units that work alone but not together are both reported as prunable: the reported units need not work together.
* `C91_single_violated`: DISAGREEMENT: a unit with a single channel is tried with all its channels: it is reported as prunable without having been tried.
* `C91_none_fails`: DISAGREEMENT: a model that returns `None` in its loss mode cannot be analysed, though the later modes would work.
* `C91_batch_fails`: DISAGREEMENT: a classifier cannot get a demo batch of more than four images: the code indexes the shape by the number of the image.
* `C91_detector_batch_violated`: DISAGREEMENT: a detector gets one image whatever batch is asked for.
* `C91_pose_violated`: DISAGREEMENT: the shape asked for a pose estimator is passed as the training flag: its inputs always have the size of the model's decoder, and are always prepared for training.
* `C91_segmentor_violated`: DISAGREEMENT: inputs of a segmentor are never prepared for training, and a segmentor with one class gets none at all.
* `C91_call_violated`: DISAGREEMENT: calling a configured demo input ignores the configured shape and training flag.

### C92

* `C92_norm_unregistered_fails`: DISAGREEMENT: a dynamic layer norm without a registered mutable cannot be run, although a new dynamic layer is said to behave as the static one (and can be exported).
* `C92_norm_shrunk_violated`: DISAGREEMENT: running the layer shrinks its own width: afterwards a mutable for all its features is refused, and one for as many features as were active is accepted, with which the layer cannot run.
* `C92_embed_norm_violated`: DISAGREEMENT: the norm of a patch embedding is left out of the exported one: it returns the features before the norm.
* `C92_embed_export_fails`: DISAGREEMENT: a patch embedding without a bias, or without a registered mutable, cannot be exported.
* `C92_embed_stride_violated`: DISAGREEMENT: a converted patch embedding uses stride 16 whatever the stride of the given one.
* `C92_resize_modes_fails`: DISAGREEMENT: three of the documented interpolation types (nearest, area and nearest-exact) always fail with the default `align_corners=False`, which PyTorch does not accept for them.
* `C92_resize_unregistered_fails`: DISAGREEMENT: a dynamic resizer without a registered size fails unless it is called with one: the default of its argument is a type, not `None`; so it does with a scale factor, which works in the static resizer.
* `C92_sizes_violated`: DISAGREEMENT: "a list of lists" is checked for the first entry only: later numbers are accepted.
* `C92_simple_test_violated`: DISAGREEMENT: `simple_test` leaves out the input resizer that prediction uses: the two agree only if resizing does not matter.
* `C92_weights_violated`: DISAGREEMENT: preparing a model for pruning discards the weights it has: every replaced layer has newly initialised parameters, so a trained model that is prepared behaves as an untrained one until a checkpoint is loaded.

### C93

* `C93_self_teacher_violated`: DISAGREEMENT: `SelfDistill` says that the recorders of the self teacher "require detach()", but only `BYOTDistiller` detaches. With the default distiller a loss whose inputs all come from the self teacher pulls the teacher side towards the student: its gradient is that of the records themselves.
* `C93_self_frozen_violated`: DISAGREEMENT: `student_trainable=False` ("whether the student is trainable") has no effect on `SelfDistill` as long as the task losses are calculated, the default: the step is the same, and the task losses train the student.
* `C93_self_delivery_fails`: DISAGREEMENT: `SelfDistill` accepts deliveries but never records for them: in every history of steps, every step whose pass calls a delivered function ends with an assertion error.
* `C93_byot_tuple_fails`: DISAGREEMENT: `BYOTDistiller` detaches records that may be tuples (a layer returning several features): such an input of the self teacher ends every step with an error.
* `C93_fpn_options_violated`: DISAGREEMENT: `FpnTeacherDistill` takes the options `student_trainable` and `calculate_student_loss` of `SingleTeacherDistill` and ignores both: whatever their values, a step that succeeds reports all task losses, and they train the student.
* `C93_fpn_head_fails`: DISAGREEMENT: the teacher of `FpnTeacherDistill` runs without its head, so a delivery of a function of the head (label assignment, for example) is never filled: the step of a student that calls it ends with an assertion error.
* `C93_fpn_record_fails`: Nor is there a record of the head of the teacher: a loss asking for it ends every step in which distillation is on with an error.

### C94

* `C94_crop_fails`: DISAGREEMENT: a feature map is cropped to nothing, and drawing it fails, when the overlaid image is too elongated for it: at least twice as wide as `w` rows of the proportions of the image would allow.
* `C94_arrangement_violated`: DISAGREEMENT: the grid is compared with `topk` before `topk` is limited to the number of channels, so a grid with room for every channel is refused.
* `C94_missing_fails`: Missing information is a key error, and no epochs or no iterations a division by zero.
* `C94_setup_fails`: DISAGREEMENT: configurations of mmengine have no section `data`: setting up a process with one fails unless both thread variables are already set.
* `C94_level_violated`: DISAGREEMENT: a level that does not exist is only noticed by the process that prints: the first one stops with an error while the others go on.
* `C94_file_level_violated`: DISAGREEMENT: `set_log_level` changes the logger and the first handler only: a log file keeps its level, so after asking for more output the file still misses the messages below its own level.

### C95

* `C95_names_violated`: DISAGREEMENT: with a divisor other than 1 `GroupFisherSubModel` saves the structure under the names of the units of the *pruned* model, and names contain the numbers of channels. As soon as some unit ends with another width than it had before pruning, the saved file cannot be used for `GroupFisherDeploySubModel`: it ends with a key error.
* `C95_zero_fails`: The divisor 0 ends with a division by zero.
* `C95_init_violated`: DISAGREEMENT: only a `BaseModel` is protected from being initialised again: another architecture loses its weights when the runner initialises it, and its structure is never saved.

### C96

* `C96_some_layers_fails`: DISAGREEMENT: a model in which only some of the dynamic layers carry choices of channels is recognised as one with channels to search, and then preparing the search ends with an `AttributeError`: the layers without choices are not left out.
* `C96_names_violated`: DISAGREEMENT: the dictionary of all units by name loses units: a unit that only feeds a layer and the one made by the same layer have the same name when the ranges and numbers agree.
* `C96_default_violated`: DISAGREEMENT: a choice made without candidates should offer all its channels. A second one offers the number of channels of the first one: with more channels it can only be narrowed, and a search starts it narrow; with fewer it offers more than there are. The missing list is one object for all calls.
* `C96_default_start_violated`: DISAGREEMENT: such a choice of more channels is then searched, and starts, with fewer channels than the layer has.

### C97

* `C97_product_violated`: DISAGREEMENT: the loads along the inputs have no mask, so for a block that does not divide the number of inputs the product also contains what is stored behind the tensors.
* `C97_strided_violated`: DISAGREEMENT: the input is read with steps of one element from block to block, whatever its strides are, so the product with a transposed input is wrong.
* `C97_gradient_violated`: DISAGREEMENT: the same lack of masks in the gradient.
* `C97_expanded_violated`: DISAGREEMENT: a gradient of strides 0, as of `output.sum()`, has one element in memory; the kernel reads others, as soon as there is more than one block.
* `C97_empty_fails`: DISAGREEMENT: an input without rows, for which there is nothing to compute, is a `ValueError`, after every history of calls.
* `C97_forward_violated`: DISAGREEMENT: for more than 64 inputs, not a multiple of 128, it depends on the times measured whether the product is right: there are times for which the block chosen does not divide the number of inputs and the product contains what is stored behind the tensors.
* `C97_remembered_violated`: DISAGREEMENT: the configuration is remembered for the sizes rounded to powers of two, and sizes that are rounded alike may need different ones: after a product with 128 inputs, one with 96 inputs takes the block of 128, whatever the times are then.
* `C97_backward_violated`: DISAGREEMENT: for every number of outputs that is not a multiple of 128, also for 32 and 64, there are times for which the gradient contains what is stored behind the tensors: the blocks of this kernel are not shrunk.
* `C97_estimates_fails`: DISAGREEMENT: a model of the running time cannot be used together with the pruner of the kernels, and leaving the pruner out of the options is an error too.

### C98

* `C98_eval_untracked_violated`: DISAGREEMENT: in evaluation without running statistics every process normalises with its own part of the batch, so the result depends on how the batch is divided.
* `C98_masks_violated`: DISAGREEMENT: nothing checks that the processes use the same channels: with masks of the same size but different channels their data are mixed, and their statistics differ afterwards.

### C99

* `C99_dmcp_violated`: DISAGREEMENT: in DMCP the architecture parameters are updated with the model itself and not with the wrapper, so that the processes do not exchange the gradients: after the first update each process has parameters of its own (here −1 and −3 instead of −2 on both), and nothing brings them together again, although the channels of all processes are sampled from them.
* `C99_fisher_violated`: DISAGREEMENT: `GroupFisherDDP` runs the wrapped model and not itself, so that nothing is exchanged: each process trains on its own batches only, whatever the others do.
* `C99_replicas_violated`: DISAGREEMENT: after one step from the same weights, two processes whose gradients differ have different weights; from then on they are different networks, while the channels to prune are chosen in common.
* `C99_dsnas_violated`: DISAGREEMENT: the architecture parameters of DSNAS are updated without an exchange too, and the broadcast before the finetune stage takes those of the first process: what the other processes have sampled and learned has no influence on the architecture that is kept.
* `C99_slower_violated`: DISAGREEMENT: since the loss is divided by the number of processes and never summed over them, the architecture parameters move `n` times less in `n` processes than in one, even if all of them sample the same choices.
* `C99_names_violated`: DISAGREEMENT: a checkpoint written by distributed DARTS has other names than the model itself whenever the model contains a `BatchNorm2d`, so that it does not fit a model outside the wrapper, and wrapping a model once more changes the names again.

### C100

* `C100_twice_fails`: DISAGREEMENT: the units of a graph cannot be read a second time when a channel of a layer shares its set with a channel of a tensor that no layer holds (the group tensors of grouped layers, the copies of the end channel): only the channels of the layers forget their hash, and the assertion that no member of the set remembers one fails.
* `C100_groups_violated`: DISAGREEMENT: when a layer feeds grouped convolutions with two and with three groups, all its channels fall into one set, but its search unit still has one entry per channel. Masks of that unit keep channels of one group that the other groups drop; no admissible choice of channels gives them.
* `C100_orders_fails`: DISAGREEMENT: when two layers of two and three channels are concatenated in both orders and the results are added, all channels fall into one set and the search unit has two channels. The mask of the layer with three channels would need the factor 3/2, which the expansion of masks refuses, whatever the unit chooses.

### C101

* `C101_short_fails`: DISAGREEMENT: a text shorter than a window has no perplexity, the result is not a number.
* `C101_fsdp_dropped_violated`: DISAGREEMENT: incomplete batches are dropped. If the rows of a process are not a multiple of the batch size, there is a row that can be replaced by any other without changing the perplexity.
* `C101_fsdp_twice_violated`: DISAGREEMENT: processes without enough rows get the first rows again. Three rows on two processes: the first one counts twice.
* `C101_fsdp_few_fails`: DISAGREEMENT: fewer rows than processes cannot be evaluated.
* `C101_length_violated`: DISAGREEMENT: the data set for several processes ignores the length asked for: its rows always have 2048 tokens.
* `C101_more_violated`: DISAGREEMENT: if the number asked for is not a multiple of the batch size, more rows are used, if there are more.
* `C101_images_violated`: DISAGREEMENT: for image classifiers more images than asked for are always used, if there are enough: also if the number is a multiple of the batch size, then a whole batch more.
* `C101_test_data_violated`: DISAGREEMENT: the scripts calibrate on the test data. The samples drawn for calibration do not matter, and every row that calibrates is a row that the compressed model is evaluated on.
* `C101_last_token_violated`: DISAGREEMENT: the last token of a text is never part of a sample.
* `C101_c4_fails`: DISAGREEMENT: a document of C4 with exactly as many tokens as asked for is accepted, and drawing a sample from it fails.
* `C101_cache_violated`: DISAGREEMENT: after calibrating an OPT model its configuration, which is saved with it, says that it has no cache, whatever it said before; for LLaMA it is as before.
* `C101_option_violated`: DISAGREEMENT: giving the options for memory efficient runs and for half precision a value switches them on, also the value `False`.
* `C101_half_violated`: DISAGREEMENT: in half precision a wrong class can count as right: from 2048 on (up to 4096) every fourth label and the next one are the same.

### C102

* `C102_amp_ignored_violated`: DISAGREEMENT: `--amp` is silently without effect when the wrapper has no `type`, although mmengine then builds an `OptimWrapper`, the type that `--amp` is for.
* `C102_amp_mutator_violated`: DISAGREEMENT: `--amp` never changes the wrapper of the mutator: a search trains the choices in full precision, and no message says so.
* `C102_resume_violated`: DISAGREEMENT: `resume = True` of the configuration (or of `--cfg-options`) is lost: without `--resume` every run starts from the beginning.
* `C102_subnet_violated`: DISAGREEMENT: the conversion of a supernet checkpoint never reads the checkpoint: the saved subnet is cut out of the initial weights, whatever the checkpoint holds.
* `C102_minute_violated`: DISAGREEMENT: two conversions within one minute write the same file.
* `C102_static_violated`: DISAGREEMENT: the name of a static model ends at the first dot of the name of its checkpoint: `net_0.5.pth` and `net_0.75.pth` overwrite each other.
* `C102_target_violated`: DISAGREEMENT: when one of the given choices cannot be set, the configuration should fall back to the choices of the model, but it gets those choices with all earlier given ones put in.
* `C102_wrap_violated`: DISAGREEMENT: a configuration that holds `data_preprocessor = None`, as the tool itself writes it, takes away the preprocessor of the model: applying the tool to its own output loses it.
* `C102_publish_violated`: DISAGREEMENT: if the log of the run is missing, the tool ends with an error although the checkpoint has already been published, and stays.
* `C102_curve_violated`: DISAGREEMENT: whenever the total batch does not divide the dataset, an epoch of the drawn curve is one iteration shorter than an epoch of the training.
* `C102_curve_loop_violated`: DISAGREEMENT: a training loop of another type, such as the loops of this repository that count epochs, is taken to count iterations, and the curve has one iteration per epoch whatever the dataset.
* `C102_out_file_violated`: DISAGREEMENT: all drawings are written to the one output file: only the last is left.

### C103

* `C103_linear_bn_relu_violated`: DISAGREEMENT: a linear layer with batch norm and ReLU becomes no single module: the batch norm and the ReLU are left over or fused without the linear layer, and the linear layer alone is prepared.
* `C103_relu_violated`: DISAGREEMENT: a ReLU called as `torch.relu` or as the method of a tensor is not fused with its convolution.
* `C103_transposed_fails`: DISAGREEMENT: with every backend a network with a transposed convolution followed by batch norm cannot be prepared: all backends list the pair for fusion, and its fusion raises in quantisation-aware training, which is what preparing asks for.
* `C103_academic_violated`: DISAGREEMENT: the academic quantizer fuses with the patterns of the native backend, not its own: batch norm with ReLU becomes a module for which its own configuration has no entry, while its own configuration would leave them alone.
* `C103_twice_violated`: DISAGREEMENT: the fused convolution with ReLU is entered twice, and the second entry, without root and reference module, replaces the first, which has them; the fused linear layer with ReLU keeps its own.
* `C103_embedding_violated`: DISAGREEMENT: for the native backend embeddings are exchanged as well, but deployment does not know them and leaves them in the deployed network as they are.
* `C103_forms_violated`: DISAGREEMENT: for these layers the function has an entry in the native table, the module none: whether a network is quantised there depends on how the layer is called.
* `C103_versions_violated`: The tables by name; DISAGREEMENT with the check of the quantizers, which accept every torch from 1.13.0 on: for later versions than 1.13.1 no backend has a table.

### C104

* `C104_shift_violated`: DISAGREEMENT: the place of a parameter in the record depends on the call: when a parameter with a default is left out, the next one that is given stands in its place.
* `C104_more_violated`: DISAGREEMENT: keywords taken by `**more` are inputs of the function but are not recorded.
* `C104_static_violated`: DISAGREEMENT: a static method is accepted, but turned into an ordinary one: within and after the recording a call on an object gets that object as first argument, and the record of a call through the class lacks the first input.
* `C104_module_violated`: DISAGREEMENT: the recorder of the inputs of a module does not see keywords: a module called with all its inputs by keyword has an empty record.
* `C104_tied_violated`: DISAGREEMENT: a parameter shared by two layers is not found under its second name.
* `C104_again_violated`: DISAGREEMENT: initialising again with another model does not change what is read: the parameter of the first model, also within the context, whose entry clears every other recorder.

### C105

* `C105_empty_violated`: DISAGREEMENT: an output without any tensor (an empty list, a dictionary of empty tuples) does not fail as an unsupported output: the pseudo loss is the number zero and the walk back from it stops with an AttributeError.
* `C105_mode_violated`: DISAGREEMENT: computing the pseudo loss does not restore the modes of the modules: a model in training mode is in evaluation mode afterwards, also if the loss fails.
* `C105_mixed_violated`: DISAGREEMENT: the first sample decides for the batch: if it has no scores, the scores of all other samples are ignored (their labels are the targets), and if it has, a sample with only a label stops the step with an AttributeError.
* `C105_conv_violated`: DISAGREEMENT: with the activation first (`order=('act', 'conv', 'norm')`, or with only a missing normalisation before it) and the default `inplace=True`, the connector overwrites the feature it was given with its activation, so everybody else who holds this feature — a recorder, another loss, the backbone's next stage — sees the changed one.
* `C105_evaluate_violated`: DISAGREEMENT: with `norm_training`, evaluating a subnet trains the statistics of the shared normalisations: after `n` batches of mean `x` a running mean `μ` has become `x + (1 - m)ⁿ (μ - x)`, so evaluating one subnet changes the network the next one (and the saved checkpoint) is made of.

### C107

* `C107_depthwise_violated`: DISAGREEMENT: the FLOPs reported for a pruned depthwise convolution should be those of the exported one. They are too small by the share of active channels: of `n` channels with `a` active, `a / n` of the FLOPs are reported.
* `C107_norms_violated`: DISAGREEMENT: norm layers of the supernet should be counted like those of the exported network. Nothing is reported for them: neither the two operations for every active number that comes in, nor the weight and bias of every active channel.

### C108

* `C108_mask_violated`: DISAGREEMENT: with a mask whose active channels are not the first ones (as units of `L1MutableChannelUnit` or one hot choices give), calibration writes the averages to the wrong entries. An active channel at a position not below the number of active channels keeps statistics that depend on what came before (for a momentum below 1): two layers that differ there only are scored differently after the same calibration; and the entry of an inactive leading channel is replaced by the averages of another channel.
* `C108_saved_violated`: DISAGREEMENT: the search saves the weights of the best candidate without calibrating it again. If any candidate with at least one channel is validated after it, the first channel of the saved model has the averages of the last such candidate, not those the best one was scored with.
* `C108_switch_violated`: DISAGREEMENT: calibrating a switchable layer at a slim width stores the averages not only in the layer of that width (all of its statistics become the averages) but also in the first channels of the layer of the full width, through which no sample went. The layers of the other widths keep their statistics.

### C109

* `C109_deploy_last_violated`: DISAGREEMENT: `deploy_index` counts from the end when negative, but `-1` is the default and means not to deploy, so the last subnet is not deployed by it although `-2` deploys the last but one.
* `C109_full_unused_violated`: DISAGREEMENT: a unit whose full width is a candidate makes its normalisation layers create a further layer of full width (with parameters of its own), but no setting of any network ever uses a further layer of full width.
* `C109_concat_violated`: DISAGREEMENT: a normalisation layer that follows the concatenation of two units gets only the candidates of the first of them. Whenever the two widths do not add up to one of those or to the full width, the network cannot be run (nor deployed), although both units have a candidate each.
* `C109_concat_shared_violated`: DISAGREEMENT: after a concatenation two subnets with different widths in both units can share one layer, because only the sum of the widths is looked up.
* `C109_ratio_violated`: DISAGREEMENT: the ratio mode that channel units offer does not work with normalisation layers: preparing a network with such a unit and a normalisation layer of its own is always refused.
* `C109_rounded_violated`: DISAGREEMENT: the subnets hold the requested candidates while the units hold the rounded ones. A request that rounding changes to something that is no request (12 of 32 channels with divisor 8) makes every training step fail.
* `C109_no_subnets_violated`: DISAGREEMENT: without units in the configuration there are no subnets; a training step then changes nothing and trains nothing, and any deployment is refused.

### C110

* `C110_ratio_violated`: DISAGREEMENT: the exported subnet should be the network of the chosen settings. If a ratio of one is chosen for a layer for which a larger one is offered, the exported blocks keep a 1x1 convolution in front of the depthwise one, which the network built with a ratio of one does not have.
* `C110_residual_violated`: DISAGREEMENT: a block should add its input exactly if input and output have the same shape. Without the attentive shortcut this is decided with the largest numbers of channels: of equal ones but different chosen ones an input is added that has another number of channels, and of different ones but equal chosen ones none is.
* `C110_fine_violated`: DISAGREEMENT: every subnet of a search space should be a network of the family. In fine-grained mode the blocks of a layer may have different kernels: such a subnet is not the network of any settings, whatever the candidates.

### C111

* `C111_no_weights_violated`: DISAGREEMENT: a unit can be set to any of its choices. A unit none of whose producing layers is a convolution or linear layer can never be set: the average of no norms is a division by zero.
* `C111_exceeds_violated`: DISAGREEMENT: rounding a legal number of channels should give a legal one. With a divisor that does not divide the width it may be larger than the width, and is then refused.

### C112

* `C112_regrow_violated`: DISAGREEMENT: a channel that has been pruned should stay pruned. When the weights are trained between the prunings, a dropped channel comes back as soon as its weights are among the largest again: here channel seven is dropped by the second pruning and kept by the third, although the unit has fewer channels then.

### C113

* `C113_widths_violated`: DISAGREEMENT: the widths may be listed in any order, but the network is as wide as the last of them. A larger width can still be chosen, without any error, and gives the network of the last width.
* `C113_heads_violated`: DISAGREEMENT: the numbers of heads may be listed in any order, but when the last is not the largest the network is built and no forward pass of at least one layer succeeds, whatever is chosen.
* `C113_ratios_violated`: DISAGREEMENT: so it is with the ratios, when the last gives fewer hidden features than the largest.

### C114

* `C114_skip_violated`: DISAGREEMENT: the checkpoint of a threshold does not hold the first network below it. One checkpoint at most is written in a check, so when a pruning passes two thresholds, the second checkpoint is written in a later check, after further channels are gone. Here the network of widths 2 and 2 is below both thresholds in iteration 0, and the checkpoint of the second holds widths 1 and 2.

### C115

* `C115_never_fails`: : a properly set up search of at least one epoch never fails. As long as random sampling goes on it is not finished (nothing bounds the number of refused samples); otherwise it ends with an exported subnet. In particular every mutated and crossed candidate can be set on the model.
* `C115_metric_violated`: DISAGREEMENT: scores are rounded to two digits before candidates are compared, so a candidate with a better metric can lose to an earlier one: here 0.701 is exported although 0.702 was measured (line 226). Accuracies reported as fractions are thus compared only up to a whole percent.
* `C115_mixed_group_violated`: DISAGREEMENT: when the elements of a group do not accept the same choices, a sampled choice is taken from the first element only and setting it on another one fails, so the search ends with an error although every element offers choices.
* `C115_resume_violated`: DISAGREEMENT: with the number of epochs left as configured, a search of two epochs that is resumed from the checkpoint of the first runs no further epoch and exports a subnet with a third of the score of what the uninterrupted search exports (`_max_epochs` is reduced while `_epoch` goes on from the checkpoint, line 305).

### C116

* `C116_lsq_first_violated`: DISAGREEMENT: the docstring of `_calculate_scale` says that the scale of activations is computed on the first batch. Whenever a later batch has another mean magnitude, the scale is that of the later batch and not that of the first.
* `C116_lsq_unbounded_violated`: DISAGREEMENT: with the LSQ observer no bound on the error holds for values seen during calibration: for every symmetric signed scheme and every bound there are two batches after which a value of the first batch is moved by more than the bound, because the scale only fits the second one.
* `C116_sync_zero_violated`: DISAGREEMENT: the zero points are not synchronised with the scales: with an affine scheme two processes that have seen different values quantise with different zero points, so the same number becomes different numbers.

### C117

* `C117_concat_violated`: DISAGREEMENT: the docstring says that the ancestors whose types are in `non_pass` are the parents. Ancestors that are reached through a concatenation are not found unless concatenations are in `non_pass`: whatever is concatenated, a layer separated from the concatenation by nothing that stops has no parent.
* `C117_cut_violated`: DISAGREEMENT: with `non_pass` an ancestor is missed when the way to it leads through a convolution that another branch has visited before: tracing stops there, and the parents are read off the path that was cut.
* `C117_sum_violated`: DISAGREEMENT: the names of what is concatenated cannot be given when an input is a sum of two different layers: the traced paths of that input start with different layers and an assertion fails, although the model is an ordinary one.

### C118

* `C118_gumbel_gradient_violated`: DISAGREEMENT: the docstring says that hard samples are differentiated as if they were the soft sample. The edges that are not sampled are not run, so their part of the gradient is missing: whenever all edges give the same result, which makes the soft sample independent of the parameters, the parameter of the sampled edge still gets a gradient that is not zero (if there are at least two edges and the loss depends on the result).

### C119

* `C119_candidate_violated`: DISAGREEMENT: a release candidate comes before its release. As tuples every release is smaller than each of its candidates, so a check for at least `2.0.0` accepts `2.0.0rc1`.
* `C119_text_violated`: DISAGREEMENT: candidate 10 of every release is smaller than its candidates 2 to 9.
* `C119_dropped_violated`: DISAGREEMENT: other parts are dropped without an error: with a part behind the last dot that is neither a number nor a candidate (a development or post release, say) a version has the parsed form of the release itself.
* `C119_second_violated`: DISAGREEMENT: a second `rc` and all that follows it up to the next dot is dropped without an error.

### C120

* `C120_repeated_violated`: DISAGREEMENT: a choice listed twice in a group (a list of values may repeat one) is drawn twice as often.
* `C120_sum_violated`: DISAGREEMENT: "make sure the sum is 1" is not enforced: every list with a smaller sum is accepted. If the sum is zero or less, then every draw fails with a ValueError; otherwise the probabilities are scaled up silently.

## Axioms of each theorem

* no axioms (44): C69_depth_missing_violated, C76_sub_model, C41_dict_violated, C102_amp_wrapper, C102_amp_constructor, C102_amp_mutator_violated, C102_amp_refused, C102_subnet_violated, C102_tested, C102_by_epoch, C87_dtype_stale_violated, C03_overlap_accepted_violated, C03_mask_length_violated, C03_middle_gap_fails, C03_read_blocks_registration_violated, C03_empty_mask, C79_out_indices, C33_iterations_violated, C59_teacher_norm, C59_teacher_mode_violated, C47_resume_violated_witness, C31_hooks_violated, C31_defaults, C16_resume_state, C29_dilation_violated, C29_own_padding_violated, C29_adaptive_violated, C101_cache_violated, C25_partial_update_violated, C25_shared_violated, C25_sampled_illegal_violated, C88_predefined_violated, C88_no_subnets, C90_mlp_checkpoint_partial, C90_mlp_checkpoint_violated, C89_bn_weights_violated, C05_rejected_fix_changes_mask_violated, C95_init_violated, C92_norm_unregistered_fails, C92_embed_norm_violated, C92_embed_convert_partial, C92_embed_stride_violated, C92_sizes_violated, C92_simple_test_violated
* Classical.choice, Quot.sound, propext (1033): C91_check, C91_sizes_violated, C91_unsupported_fails, C91_kept, C91_independent_partial, C91_together_violated, C91_trial_partial, C91_trial_number, C91_single_violated, C91_template, C91_registered, C91_default, C91_register_refused, C75_range, C75_monotone, C75_translate_violated, C75_posterize, C75_solarize, C75_weakest, C75_probability_partial, C75_probability_violated, C75_settings, C75_settings_violated, C75_policy_table, C75_policies, C113_subnet_partial, C113_alone_partial, C113_refused, C113_widths_violated, C113_heads_violated, C113_ratios_violated, C113_negative, C18_order, C18_step, C18_search, C18_targets_met, C18_resume_violated, C18_resume_skips_violated, C18_resume_partial, C69_relative, C69_rows, C69_rectangle_violated, C69_static_relative_partial, C69_static_relative_violated, C69_heads, C69_relative_active, C69_width, C69_unregistered, C69_static_partial, C69_static_succeeds, C69_bias_violated, C69_scale_violated, C69_tokens_partial, C69_patch_violated, C69_tokens_refused, C69_relative_refused, C69_relative_unregistered, C78_mobilenet_v2, C78_shufflenet_v2_partial, C78_mobilenet_v3_partial, C103_same, C103_names, C108_stored, C108_calibrated_partial, C108_mask_violated, C108_search_partial, C108_saved_partial, C108_saved_violated, C108_uncalibrated, C108_skipped, C108_untracked, C108_switch_violated, C76_inplace_violated, C76_dropout_partial, C76_dropout_bounds, C76_dropout_violated, C41_hessian, C41_grouping, C41_rows_violated, C41_refused, C41_empty_violated, C41_distributed_partial, C41_distributed_violated, C41_dilation_violated, C41_mean, C41_var_violated, C41_var_nan_violated, C41_meter_partial, C41_meter_violated, C41_samples, C41_dict_partial, C41_quadratic, C41_patches_partial, C12_subnets_kept, C12_addNew, C12_setResource, C12_setResource_others_partial, C12_fresh_pool_nodup, C12_updateResources, C12_updateResources_values, C12_sort, C22_groups, C22_members, C22_ranges, C23_expand_partial, C23_single, C22_units, C23_zero, C100_sets, C100_masks_partial, C100_once, C100_twice_fails, C100_groups_violated, C100_orders_fails, C100_ordinary, C100_plain, C07_candidates_sorted, C07_types, C07_candidates_legal_partial, C07_candidates_duplicate_violated, C07_candidate_exceeds_width_violated, C07_set_rejects, C07_set_number_partial, C07_reround_violated, C07_set_ratio_partial, C07_exact_roundtrip, C07_float_candidate_rejected_violated, C07_float_wrong_count_violated, C07_float_roundtrip, C07_float_set_partial, C07_float_divisor_violated, C07_sample_legal_partial, C07_sample_exceeds_width_violated, C52_l1Mask, C07_empty_refused, C52_best, C82_student, C82_student_nested_violated, C82_distiller, C82_distiller_violated, C82_quant_partial, C82_quant_violated, C82_ofa, C82_ofa_wrapped_fails, C82_attentive, C82_bignas_partial, C82_bignas_violated, C102_amp_partial, C102_settings, C102_auto_scale, C102_resume_violated, C102_resume, C102_test, C102_static_violated, C102_static_partial, C102_target_partial, C102_target_violated, C102_curve_partial, C102_curve_violated, C102_sim_zero, C87_prepare_partial, C87_default_arguments_fails, C87_narrow_violated, C87_calibration, C87_init_again_violated, C87_uncalibrated_violated, C87_failed_layer_violated, C87_hooks_left_fails, C87_context_violated, C87_triton_refused, C85_fbkd_masks, C85_mgd, C85_crd_partial, C85_crd_zero_fails, C85_byot_partial, C85_byot_default_stride_fails, C85_byot_odd_fails, C85_byot_shrink_fails, C85_neck_mean, C85_neck_partial, C85_neck_single_fails, C85_generator_partial, C85_image_size_violated, C85_generator_refused, C03_register_accepted_iff, C03_overlap_rejected_partial, C03_read_tiles, C03_read_mask_partial, C03_trailing_gap_filled, C64_alias, C64_uniform, C64_alias_deficit_violated, C64_update, C64_rows, C64_finite_partial, C64_opposite_violated, C64_first, C64_constant, C64_bounds, C64_loss_value, C64_loss_monotone, C64_forward, C64_given, C64_weight_violated, C107_convolutions_partial, C107_units_partial, C107_fewer_partial, C107_depthwise_violated, C107_norms_violated, C107_linear_partial, C44_item, C44_full, C44_percent_violated, C44_refused, C44_accepted, C44_empty, C86_skip_partial, C86_same_name_violated, C86_leak_violated, C86_older_tracer_fails, C86_methods_partial, C86_fetched_twice_fails, C86_nested_module_fails, C86_duplicate_partial, C86_duplicate_clash_violated, C86_register_refused, C86_methods_refused, C46_restored, C46_gradient, C46_curvature_zero, C46_no_virtual_step, C46_curvature_violated, C46_update_unrolled, C46_update_first_order, C46_update_violated, C46_arch_violated, C46_update_partial, C46_single, C46_refused, C46_arch_unrolled, C46_assertion, C79_shapes_partial, C79_last_feature, C79_odd_image_violated, C79_auxiliary_violated, C68_temperature, C68_temperature_empty, C68_annealing_violated, C68_step, C68_times, C68_one_only, C68_epochs, C68_legal_violated, C68_coefficients, C68_kept, C68_kept_succeeds, C68_score_partial, C68_score_violated, C68_aligned_violated, C68_fuse, C68_forward, C68_before, C68_unpruned, C68_groups, C68_head_violated, C68_reload_violated, C68_static, C68_pooled_refused, C99_subnets, C99_darts, C99_dmcp_partial, C99_dmcp_violated, C99_fisher_violated, C99_replicas_violated, C99_fisher_partial, C99_dsnas_violated, C99_slower_violated, C99_exchange_agree, C33_bound, C33_iterations_partial, C72_update, C72_deploy_partial, C72_calibrated, C72_learned, C72_learned_near, C72_learned_violated, C72_full_range_violated, C72_affine_partial, C72_affine_violated, C72_zero_factor_violated, C72_tree, C72_activation, C72_sigmoid_violated, C72_zero_point, C06_choice_is_popcount_partial, C06_divide_float_violated, C06_int_ratio_legal, C06_depends_on_sources, C06_mul_value_tracks, C06_snapshot_stale_violated, C06_divide_choice, C118_weights, C118_convex, C118_shift, C118_reported, C118_gradient, C118_gumbel_soft, C118_gumbel_hard, C118_gumbel_gradient_violated, C118_discretised, C118_gumbel_temperature, C118_gradient_sum, C118_lead, C118_better_wins, C93_self, C93_self_gradient, C93_self_teacher_violated, C93_self_detached, C93_self_frozen_partial, C93_fpn, C93_fpn_gradient, C59_default_violated, C59_unknown_key_violated, C59_documentation_violated, C59_unmapped_violated, C59_total, C59_reported, C59_student_frozen_violated, C59_record, C56_groups, C56_small_violated, C56_smallest_violated, C56_sampled, C56_expected, C56_forward, C56_expected_range, C56_expected_mask_violated, C56_expected_flops_violated, C56_too_wide_violated, C56_refused, C50_values, C50_band_violated, C50_target_violated, C50_direction_violated, C50_increases_partial, C50_jump_violated, C50_l1_l2, C50_inverted_violated, C50_unknown, C50_below, C50_inverted_partial, C50_log_kind, C57_effects, C57_schedule, C57_kinds, C57_kind_violated, C57_leak_violated, C57_stale_violated, C57_late_failure_violated, C57_resume_violated, C57_freq_violated, C57_reported, C47_updates, C47_fixed_once_partial, C58_gradient, C58_reward_violated, C58_cleared_violated, C58_less_likely_violated, C58_params_partial, C28_forward, C28_eval, C28_step, C28_history_partial, C28_cumulative_violated, C28_export_partial, C28_export_violated, C28_switch, C28_switch_full, C28_register, C28_switch_init, C28_refused, C27_conv, C27_depthwise_partial, C27_grouped_partial, C27_grouped_uneven, C27_static, C27_linear, C27_linear_static, C27_network, C31_explicit, C30_batch_partial, C30_flops, C30_upsample_violated, C30_keyword_violated, C30_calls, C30_once_partial, C30_reuse_violated, C30_export_partial, C30_export_flops_partial, C30_depthwise_violated, C30_bignas_violated, C30_norm_violated, C30_linear_violated, C30_deconv_violated, C30_modules_partial, C30_shared_violated, C30_units, C13_top_k, C13_scores, C13_best, C13_best_monotone, C14_check, C14_check_rejects, C14_all_pass, C14_initial_candidates_violated, C15_draws, C15_extremes, C16_uninterrupted, C16_resume_violated, C17_retention, C17_resumed, C13_unreported, C48_conv, C48_depthwise, C48_norm, C48_network, C48_outputs, C48_norm_violated, C48_pruned_violated, C48_short, C49_function, C49_after_succeeds, C49_after_exact, C49_module_exact, C49_module_succeeds_partial, C49_found, C49_before_succeeds_partial, C49_twice_violated, C49_not_next_violated, C49_module_violated, C49_redundant, C49_native, C49_backend_violated, C62_l1, C62_l1_deprecated, C62_l1_batchmean_violated, C62_l2_plain, C62_l2_normalised_partial, C62_l2_zero_violated, C62_at_range, C62_at_zero_partial, C62_ft_partial, C62_tiny_violated, C62_ab, C62_ofd, C62_mgd, C62_activation, C62_activation_batch_violated, C62_fbkd, C62_names, C67_expand_partial, C67_concat_violated, C67_narrow, C67_importance_partial, C67_unread, C67_normalise, C67_pairs_refused, C67_memory_refused, C114_saves, C114_kept, C114_first, C114_reached_partial, C114_zero, C114_skip_violated, C10_roundtrip_partial, C10_two_sources_violated, C10_missing_rejected, C10_illegal_value_rejected, C10_illegal_op_accepted_violated, C10_reexport_violated, C11_plain_and_extra, C11_prefix_iff, C11_extra_loads, C11_prefix_loads, C11_prefix_violated, C11_unprefixed_name_violated, C81_meaning, C81_order, C81_dependence, C83_backward, C83_data_parallel, C83_whole_batch, C83_entropy, C83_entropy_le, C54_total, C54_rounded, C54_grid, C54_group_params, C54_whole_params, C54_per_tensor, C54_loss, C54_optimal, C54_block_size_partial, C54_dead, C54_order, C54_block_size_violated, C54_dead_violated, C54_no_cuda_violated, C54_no_cuda, C54_no_gpu, C40_weights_partial, C40_zeros_partial, C40_zero_reached, C40_codes_partial, C40_codes_violated, C40_forward_violated, C40_end_to_end_partial, C40_widths, C39_range, C39_grid, C39_params, C39_error_partial, C39_error_violated, C39_round, C39_mse, C39_mse_params, C39_trits, C39_not_ready, C21_links, C21_disconnect, C21_delete, C20_order, C20_visited, C20_acyclic, C20_cyclic, C20_sort, C35_step, C35_minimum_partial, C35_minimum_violated, C35_nan, C35_exhausted, C35_run, C35_accumulates, C35_error, C35_progress_partial, C35_interval, C24_partition_partial, C24_custom, C24_alias_partial, C24_unknown, C24_alias_and_name, C24_duplicate, C24_succeeds_partial, C105_empty_violated, C105_darts, C105_conv, C105_paraphrase, C105_paraphrase_refused, C105_factors, C105_evaluate_partial, C105_evaluate_violated, C105_sampled, C74_keep_violated, C74_estimate_partial, C74_estimate_violated, C74_never_violated, C74_dmcp, C74_dmcp_ends, C74_endless_violated, C74_expected_violated, C74_visualise_partial, C74_visualise_violated, C74_drawn, C74_validations, C104_inputs, C104_alike, C104_place_partial, C104_shift_violated, C104_module_violated, C34_times, C34_target_partial, C34_monotone, C34_double_counts, C34_target_violated, C34_kinds_violated, C34_run, C34_resume_violated, C34_resume_partial, C34_refused, C34_freq_zero, C34_unknown, C29_centre, C29_values_partial, C29_register, C29_transformed, C29_adaptive_partial, C29_stride, C29_dilated_values_violated, C111_set_partial, C111_determined, C111_scaled, C111_layers, C111_nested, C111_dead_partial, C111_no_weights_violated, C111_exceeds_violated, C111_single_row, C112_run_partial, C112_target_partial, C112_shrink_partial, C112_regrow_violated, C112_unknown_refused, C101_fold, C101_perplexity, C101_short_fails, C101_fsdp_rows, C101_fsdp_partial, C101_fsdp_dropped_violated, C101_fsdp_twice_violated, C101_fsdp_few_fails, C101_length_violated, C101_calibration, C101_number_partial, C101_more_violated, C101_test_data_violated, C101_last_token_violated, C101_accuracy_partial, C101_half_accuracy, C101_half_violated, C101_no_examples, C101_perplexity_refused, C51_nothing, C51_latest_partial, C51_fps_partial, C51_no_warmup_violated, C51_all_warmup_violated, C51_latency_partial, C51_refused, C51_one_iteration_violated, C51_negative_violated, C51_repeated_partial, C43_epoch, C43_iter_partial, C43_restart_violated, C61_kl_value, C61_kl_nonneg, C61_kl_elements_violated, C61_kl_gradient, C61_cwd, C61_cwd_shape_violated, C61_dkd_value, C61_dkd_decomposition, C61_dkd_nonneg, C61_dkd_reduction_violated, C61_dkd_mask_violated, C61_dkd_labels_violated, C61_softce_value, C61_softce_minimum, C61_softce_none_violated, C61_wsld_value, C61_wsld_weight, C61_ce, C61_onehot, C61_entropy, C01_makeDivisible_spec, C01_makeDivisible_nearest, C01_makeDivisible_mono, C01_makeDivisible_zero, C01_explicit_min_not_divisible, C01_explicit_min_lower, C02_parseValues, C80_traced, C80_check, C80_repair, C80_paths, C80_shared_layer_fails, C80_applied_twice_fails, C08_oneshot_fix, C08_oneshot_unfixed_forward, C08_oneshot_unknown_violated, C08_diff_fix, C08_diff_fix_twice, C08_diff_unknown_violated, C53_diff_weighted, C53_diff_sample, C09_fixed_iff, C09_fixes_second_violated, C09_fixes_largest_violated, C09_init, C09_fixes_largest_partial, C09_below_threshold, C09_single_candidate_fails, C08_route_fix, C08_route_rejected_fix_pairs_violated, C53_route_sample, C09_fixed_empty, C25_round_trip, C25_sampled_legal_partial, C25_channel_round_trip, C88_round_trip_partial, C88_choices_with_trace_partial, C88_traced_choice_violated, C88_parse_paths_violated, C116_running, C116_nothing, C116_grouping, C116_exported, C116_half, C116_tight, C116_tight_symmetric, C116_zero, C116_layer, C116_lsq_last, C116_lsq_first_violated, C116_lsq_half_partial, C116_lsq_unbounded_violated, C116_sync, C116_sync_zero_violated, C116_channels, C116_channels_refused, C65_margin, C65_margin_negative, C65_zero_weight_violated, C65_layer, C65_init, C65_init_succeeds, C65_unset, C65_target, C65_init_refused, C71_scalar_partial, C71_scalar_near, C71_tie_violated, C71_bytes, C71_narrow_violated, C71_unsigned_violated, C71_constants_violated, C71_refused, C71_unknown, C71_openvino_partial, C71_tensorrt_partial, C71_axis_violated, C71_transposed_violated, C71_shared_violated, C71_range_refused, C70_sort, C70_cycle, C70_meaning, C70_names_violated, C70_optimize_partial, C70_direct_violated, C70_array_violated, C70_pads_partial, C70_output_violated, C70_unread_violated, C70_computed_violated, C70_old_violated, C117_names, C117_parents, C117_once, C117_order, C117_concat_violated, C117_traced_partial, C90_mlp_best_partial, C90_mlp_untrained_fails, C90_trees, C90_tree_mean, C90_gp_normal, C90_gp_single_fails, C90_encoding_refused, C96_possible, C96_refused, C96_some_layers_fails, C96_units, C96_related, C96_candidates, C96_set, C96_set_refused, C96_start, C96_names, C96_construct, C96_default_violated, C96_default_start_violated, C45_roundtrip_partial, C45_single_violated, C45_onehot, C45_injective, C106_values, C106_units, C106_plain, C106_ordinary, C106_dead, C106_identity, C38_range, C38_accepted, C38_calculate, C38_zero_partial, C38_zero_violated, C38_scale_partial, C38_scale_violated, C38_modes, C38_observation_violated, C38_built, C37_schedule, C37_complete, C37_val_lsq_partial, C37_val_lsq_violated, C37_resume, C37_lsq, C37_calibration, C37_lsq_val, C89_params, C89_given_range_violated, C89_converted, C89_options_dropped_violated, C89_modes, C89_no_observer_partial, C89_no_observer_violated, C89_single_module_fails, C89_academic, C89_function_types_fails, C66_sync_succeeds, C66_missing_child_violated, C66_train_succeeds, C66_create, C66_ptq_violated, C32_inside_partial, C32_restore_partial, C32_before, C63_distance_value, C63_distance, C63_distance_similar_partial, C63_distance_collapse_violated, C63_distance_pair_violated, C63_distance_single_violated, C63_angle_value, C63_angle_range, C63_angle_similar_partial, C63_dist_range, C63_dist_identical_violated, C63_dist_single_violated, C63_dist_uniform_violated, C63_dist_shift, C63_pkd_value, C63_pkd_zero, C63_pkd_shift, C63_pkd_scale_violated, C63_pkd_opposite_violated, C63_pkd_levels_violated, C63_pkd_width_violated, C63_pkd_resize, C63_pkd_nan, C120_independent, C120_uniform, C120_step, C120_never, C120_times, C120_weighted, C120_zero, C120_refused, C120_sum_violated, C120_scaled, C19_outside, C19_linear_partial, C19_linear_violated, C19_linear_range, C19_cosine_violated, C19_empty_schedule_violated, C19_refill, C19_sampled, C19_empty_cosine_violated, C55_run, C55_resume, C55_window, C55_total, C55_windows, C55_default_violated, C55_resume_window_violated, C55_reported, C55_drop, C55_drop_partial, C55_drop_violated, C55_entry, C77_mobile, C77_even_kernel_violated, C77_attentive_partial, C77_attentive_violated, C77_darts_partial, C77_interchange, C115_never_fails, C115_exported, C115_candidates, C115_count, C115_metric_partial, C115_metric_violated, C115_no_epochs, C115_mixed_group_violated, C115_resume_partial, C115_resume_violated, C115_loaded_partial, C05_set_number, C05_set_ratio, C05_history, C05_read_ratio, C05_fix, C05_fix_default_keeps, C05_fix_default_ratio_violated, C05_negative_choice_accepted, C05_fix_empty, C109_prepared_partial, C109_any_choices_partial, C109_train_partial, C109_exclusive, C109_deploy_partial, C109_deploy_last_violated, C109_full_unused_violated, C109_concat_violated, C109_concat_shared_violated, C109_ratio_violated, C109_unfit_refused, C109_rounded_violated, C109_no_subnets_violated, C109_unknown, C42_zeros, C42_pattern_partial, C42_choice, C42_pattern_violated, C42_remainder_violated, C42_ratio_partial, C42_ratio_layer_partial, C42_ratio_violated, C42_negative_violated, C42_blocksize_zero, C42_full_violated, C42_compensation, C42_optimal, C42_row_error, C42_group_choice_partial, C42_block_choice, C42_block_size, C42_group_zero, C95_widths, C98_step, C98_training, C98_eval_partial, C98_eval_untracked_violated, C98_masks_violated, C98_cpu, C36_saves, C36_all_partial, C36_all_violated, C36_stop, C36_name_violated, C36_resume_violated, C36_first, C26_sound_partial, C26_pairs_partial, C92_norm, C92_norm_static, C92_norm_shrunk_violated, C92_embed_static_partial, C92_embed_export_fails, C92_connect, C92_embed_register, C97_schedule, C97_stored, C97_product_partial, C97_product_violated, C97_strided_violated, C97_gradient_partial, C97_gradient_violated, C97_expanded_violated, C97_weights_partial, C97_tunes, C97_forward_partial, C97_forward_violated, C97_backward_partial, C97_backward_violated, C97_rounded, C97_fastest, C97_measured, C97_estimated, C97_powers, C94_size, C94_crop, C94_crop_whole, C94_crop_fails, C94_max, C94_mean, C94_select, C94_grid_partial, C94_arrangement_violated, C94_raw, C94_refused, C94_setup, C94_scope_partial, C94_scope_again, C94_levels, C94_file_level_violated, C94_levels_refused, C110_block, C110_even_kernel, C110_stride, C110_network_partial, C110_attentive_partial, C110_ratio_violated, C110_residual_violated, C110_fine_violated, C73_subnets, C73_calibration, C73_fixed, C73_silent_violated, C73_untouched_violated, C73_slimmable, C73_pairs_violated, C73_teacher, C73_self, C73_returned_violated, C119_parsed, C119_distinct, C119_order, C119_releases, C119_candidate_violated, C119_candidates_partial, C119_text_violated, C119_dropped_violated, C119_refused, C119_second_violated, C119_continued, C84_network_partial, C84_freeze_fails, C84_norm_fails, C84_depths_violated, C84_zero_init
* Quot.sound (1): C104_restored_partial
* Quot.sound, propext (255): C91_prunable, C91_none_fails, C91_expanded, C91_refused, C91_generator, C91_data_partial, C91_segmentor_violated, C91_data_refused, C75_augment, C75_second_version, C75_pack_partial, C75_pack_violated, C69_depth, C69_build_partial, C69_build_violated, C78_shufflenet_v2_violated, C78_residual_violated, C78_depth_zero_violated, C78_activations_violated, C78_freeze_partial, C78_freeze_stem_violated, C78_range, C103_last, C103_sound, C103_conv, C103_linear, C103_linear_bn_relu_violated, C103_relu_violated, C103_transposed_fails, C103_transposed_relu, C103_academic_violated, C103_chain, C103_twice_violated, C103_supported_partial, C103_embedding_violated, C103_forms_violated, C103_forms_partial, C103_positions, C103_numbers, C103_binary, C103_observers, C103_recurrent, C103_functional, C103_unobserved, C108_refused, C76_optimizers, C76_untrained, C76_unwrap_violated, C76_build_refused, C41_groups_violated, C12_entries_kept, C12_shared_entry_violated, C22_mismatch, C22_recursion_limit_fails, C22_num_channels, C100_range_refused, C100_refusals, C100_shapes, C52_refused, C82_last, C102_minute_violated, C102_minute_partial, C102_choice, C102_wrap, C102_curve_loop_violated, C102_curve_size, C102_drawings, C102_pick, C102_amp_architecture, C87_arguments, C87_two_holders_violated, C87_root_violated, C87_skip_path_violated, C87_forward_partial, C87_root_tensors_violated, C03_leading_gap_fails, C86_duplicate_refused, C79_refused, C60_generator, C60_run_partial, C60_leak_violated, C60_leak_first_violated, C99_wrapped, C99_names_violated, C33_call, C33_new, C06_fixed_iff, C06_choices_restores, C06_current_in_choices, C93_self_frozen_violated, C93_self_delivery_fails, C93_byot_tuple_fails, C93_fpn_options_violated, C93_fpn_record_fails, C59_accepts, C59_compute_partial, C59_missing_violated, C59_stop, C59_stop_late_violated, C59_refused, C59_index_refused, C47_stages, C47_resume_violated, C47_single_process_violated, C47_short, C58_params_refused, C27_unmasked, C27_export, C31_unknown, C31_none_partial, C31_hooks_partial, C31_unknown_kind, C30_supported_partial, C13_completes, C13_no_top, C14_sampled_pass, C14_generated, C15_genes, C16_resumed_epochs, C16_resume_partial, C16_continuation, C16_other_ranks_violated, C17_current_exists, C48_divisible, C48_errors, C48_twice_violated, C48_depthwise_refused, C48_forward, C48_sum, C49_nested_refused, C67_pairing, C67_pairing_violated, C67_out, C67_in, C67_flops_partial, C67_depthwise_violated, C67_residual_violated, C67_memory, C81_total, C81_complete, C81_root_branch_fails, C81_no_proxy_fails, C81_leftover_violated, C40_weights_violated, C40_lost, C40_zeros_violated, C40_forward_partial, C21_connect, C21_self_loop_violated, C105_sum, C105_backward, C105_mode_violated, C105_targets, C105_mixed_violated, C105_darts_ok, C105_deit, C105_conv_partial, C105_conv_violated, C105_modes, C105_deit_refused, C74_dump_epochs, C74_dump_iters, C74_dump_resumed, C74_batches_violated, C104_more_violated, C104_module_partial, C104_param, C104_param_refused, C104_tied_violated, C104_unknown_refused, C104_binding_refused, C29_size_partial, C29_refused, C29_transformed_refused, C101_images_violated, C101_sample, C101_c4_fails, C101_sample_refused, C51_foreign_violated, C43_epoch_counter, C43_first_epoch, C02_rangeToList_spec, C02_negative_step, C09_sample_refused, C04_current_is_candidate, C04_fresh, C04_reading, C04_fixed_stays_partial, C04_oneshot_bounds, C04_init_refused, C25_sample, C25_extremes, C25_channel_sample, C25_units_refused, C88_choice_lost_violated, C88_unknown_unit_fails, C88_listed, C88_channels, C88_subnets, C88_signature_refused, C70_omitted_violated, C117_cut_violated, C117_roots, C117_module_names, C90_checkpoint_violated, C90_trained, C90_trained_file, C90_initial_dropped_violated, C90_samples_file_fails, C90_rbf, C96_nothing, C45_refused, C106_sums, C106_operands, C89_swap_partial, C89_swap_order_violated, C89_swap_shared_violated, C89_type_refused, C66_sync, C66_train, C66_train_graph, C66_histogram_violated, C66_tensor_missing_violated, C66_missing_child_error, C66_build_refused, C120_unbiased, C120_mutator, C19_never_popped_violated, C19_nothing_found_fails, C55_factor, C77_shuffle_partial, C77_shuffle_violated, C77_darts_channels_violated, C77_efficient_partial, C77_efficient_violated, C95_roundtrip_partial, C95_deploy_divisible, C95_names_violated, C95_names_partial, C95_divisible_again, C95_deploy_missing, C95_zero_fails, C95_init_partial, C26_exact_partial, C26_head_partial, C92_resize_partial, C92_sizes, C92_replaced, C97_remembered_violated, C94_iteration, C94_log_partial, C94_level_violated, C119_incomparable, C84_depth, C84_missing_stage
* propext (140): C91_batch_fails, C91_detector_batch_violated, C91_pose_violated, C91_call_violated, C75_missing, C75_once_violated, C69_depth_violated, C78_activations, C78_freeze_bound_violated, C103_deploy, C103_deploy_other, C103_versions_violated, C76_build_partial, C76_build_unknown, C76_twice_violated, C76_false_violated, C76_inplace_partial, C22_ranges_refused, C23_expand_violated, C23_expand_sum_violated, C102_amp_ignored_violated, C102_wrap_violated, C102_strip, C102_publish, C102_publish_violated, C102_out_file_violated, C102_amp_attribute, C87_dtype_partial, C44_refetch, C86_one_dot_fails, C79_empty, C60_dafl_violated, C60_dafl_partial, C60_iter_zero_violated, C33_fifo, C33_prefix, C33_manager, C06_negative_size, C93_fpn_head_fails, C59_names, C59_record_part, C57_clean_partial, C57_frequency, C58_params_violated, C58_shared_violated, C27_depthwise_violated, C27_export_violated, C27_register, C27_linear_register, C27_width_refused, C27_mask_refused, C31_none_violated, C31_history_partial, C31_history_violated, C31_unpacked_violated, C30_counters, C30_upsampling_violated, C48_refused, C49_shared_violated, C67_unmatched, C67_grouped_violated, C10_fix_refused, C24_alias_alone_violated, C24_mixed_violated, C24_derived_violated, C24_two_sources_violated, C74_folder_violated, C74_interval, C104_method, C104_static_violated, C104_calls, C104_again_violated, C101_option_violated, C101_fold_refused, C51_explicit, C43_none_violated, C61_reductions, C61_softce_reductions, C02_zero_step, C02_rangeToList_rejects, C80_concat_order_violated, C08_oneshot_fix_twice, C08_route_fix_twice_raises, C08_route_rejected_fix_violated, C08_init, C04_error_keeps_state, C04_illegal_raises, C04_fix_effect, C04_fixed_value_changes_violated, C25_incomplete, C25_unknown_kind, C25_sample_refused, C25_current_refused, C88_no_channels_fails, C88_from_cfg_once_violated, C117_sum_violated, C117_no_root, C96_names_violated, C45_order_violated, C45_injective_violated, C45_decode_refused, C38_unsigned_violated, C38_mode_switches, C38_refused, C37_val, C37_val_alone_violated, C37_lsq_resume_violated, C89_per_channel_fails, C89_bn_partial, C89_untouched, C66_loss_missing_violated, C66_forward, C66_calibrate, C66_sync_refused, C32_function_violated, C32_method_violated, C32_initialise_violated, C120_repeated_violated, C77_make_refused, C77_run_errors, C36_empty_violated, C36_interval_zero, C26_linear_violated, C26_residual_violated, C26_parameter_violated, C92_norm_register, C92_resize_static, C92_resize_modes_fails, C92_resize_unregistered_fails, C92_weights_violated, C92_interpolate_refused, C97_empty_fails, C97_estimates_fails, C97_zero_refused, C94_missing_fails, C94_setup_fails, C73_mask_violated, C73_pruned, C84_refused, C84_channels_refused
