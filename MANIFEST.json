{
 "claims": [
  {
   "property": "C01",
   "status": "proved",
   "theorems": [
    "Verif.MakeDivisible.C01_makeDivisible_spec",
    "Verif.MakeDivisible.C01_makeDivisible_nearest",
    "Verif.MakeDivisible.C01_makeDivisible_mono",
    "Verif.MakeDivisible.C01_makeDivisible_zero",
    "Verif.MakeDivisible.C01_explicit_min_not_divisible",
    "Verif.MakeDivisible.C01_explicit_min_lower"
   ],
   "note": "Proved at full strength."
  },
  {
   "property": "C02",
   "status": "proved",
   "theorems": [
    "Verif.MakeDivisible.C02_rangeToList_spec",
    "Verif.MakeDivisible.C02_negative_step",
    "Verif.MakeDivisible.C02_zero_step",
    "Verif.MakeDivisible.C02_rangeToList_rejects",
    "Verif.MakeDivisible.C02_parseValues"
   ],
   "note": "Proved at full strength."
  },
  {
   "property": "C03",
   "status": "partial",
   "theorems": [
    "Verif.Container.C03_register_accepted_iff",
    "Verif.Container.C03_overlap_rejected_partial",
    "Verif.Container.C03_overlap_accepted_violated",
    "Verif.Container.C03_read_tiles",
    "Verif.Container.C03_read_mask_partial",
    "Verif.Container.C03_mask_length_violated",
    "Verif.Container.C03_trailing_gap_filled",
    "Verif.Container.C03_leading_gap_fails",
    "Verif.Container.C03_middle_gap_fails",
    "Verif.Container.C03_read_blocks_registration_violated",
    "Verif.Container.C03_empty_mask"
   ],
   "note": "Read tiles the layer and masks are placed correctly in every reachable state. Violated by the code (proved): a range that starts before an existing one and reaches its end is accepted; a leading or middle gap cannot be read; a mask of the wrong length is accepted; reading blocks later registrations."
  },
  {
   "property": "C04",
   "status": "partial",
   "theorems": [
    "Verif.MutableValue.C04_current_is_candidate",
    "Verif.MutableValue.C04_fresh",
    "Verif.MutableValue.C04_reading",
    "Verif.MutableValue.C04_error_keeps_state",
    "Verif.MutableValue.C04_illegal_raises",
    "Verif.MutableValue.C04_fix_effect",
    "Verif.MutableValue.C04_fixed_stays_partial",
    "Verif.MutableValue.C04_fixed_value_changes_violated",
    "Verif.MutableValue.C04_oneshot_bounds",
    "Verif.MutableValue.C04_init_refused"
   ],
   "note": "Candidate membership, error atomicity, single fixing proved for all histories. Violated by the code (proved): assignment after fixing succeeds."
  },
  {
   "property": "C05",
   "status": "partial",
   "theorems": [
    "Verif.SeqChannel.C05_set_number",
    "Verif.SeqChannel.C05_set_ratio",
    "Verif.SeqChannel.C05_history",
    "Verif.SeqChannel.C05_read_ratio",
    "Verif.SeqChannel.C05_fix",
    "Verif.SeqChannel.C05_fix_default_keeps",
    "Verif.SeqChannel.C05_fix_default_ratio_violated",
    "Verif.SeqChannel.C05_rejected_fix_changes_mask_violated",
    "Verif.SeqChannel.C05_negative_choice_accepted",
    "Verif.SeqChannel.C05_fix_empty"
   ],
   "note": "Proved for all histories of sequential channels. Violated (proved): rejected fix of a mask-valued channel changes the mask; ratio mode with no active channel."
  },
  {
   "property": "C06",
   "status": "partial",
   "theorems": [
    "Verif.Derived.C06_choice_is_popcount_partial",
    "Verif.Derived.C06_divide_float_violated",
    "Verif.Derived.C06_int_ratio_legal",
    "Verif.Derived.C06_depends_on_sources",
    "Verif.Derived.C06_fixed_iff",
    "Verif.Derived.C06_mul_value_tracks",
    "Verif.Derived.C06_snapshot_stale_violated",
    "Verif.Derived.C06_choices_restores",
    "Verif.Derived.C06_current_in_choices",
    "Verif.Derived.C06_divide_choice",
    "Verif.Derived.C06_negative_size"
   ],
   "note": "Proved for integer ratios and tracked values, all nestings. Violated (proved): float or mutable divide ratio, snapshots of mutable ratios."
  },
  {
   "property": "C07",
   "status": "partial",
   "theorems": [
    "Verif.ChannelUnit.C07_candidates_sorted",
    "Verif.ChannelUnit.C07_types",
    "Verif.ChannelUnit.C07_candidates_legal_partial",
    "Verif.ChannelUnit.C07_candidates_duplicate_violated",
    "Verif.ChannelUnit.C07_candidate_exceeds_width_violated",
    "Verif.ChannelUnit.C07_set_rejects",
    "Verif.ChannelUnit.C07_set_number_partial",
    "Verif.ChannelUnit.C07_reround_violated",
    "Verif.ChannelUnit.C07_set_ratio_partial",
    "Verif.ChannelUnit.C07_exact_roundtrip",
    "Verif.ChannelUnit.C07_float_candidate_rejected_violated",
    "Verif.ChannelUnit.C07_float_wrong_count_violated",
    "Verif.ChannelUnit.C07_float_roundtrip",
    "Verif.ChannelUnit.C07_float_set_partial",
    "Verif.ChannelUnit.C07_float_divisor_violated",
    "Verif.ChannelUnit.C07_sample_legal_partial",
    "Verif.ChannelUnit.C07_sample_exceeds_width_violated",
    "Verif.ChannelUnit.C07_empty_refused"
   ],
   "note": "Proved when the divisor divides width and minimum and for exact ratio conversion. Violated (proved): duplicates, candidates above the width, re-rounding, IEEE rounding of k/n."
  },
  {
   "property": "C08",
   "status": "partial",
   "theorems": [
    "Verif.MutableModule.C08_oneshot_fix",
    "Verif.MutableModule.C08_oneshot_unfixed_forward",
    "Verif.MutableModule.C08_oneshot_fix_twice",
    "Verif.MutableModule.C08_oneshot_unknown_violated",
    "Verif.MutableModule.C08_diff_fix",
    "Verif.MutableModule.C08_diff_fix_twice",
    "Verif.MutableModule.C08_diff_unknown_violated",
    "Verif.MutableModule.C08_route_fix",
    "Verif.MutableModule.C08_route_fix_twice_raises",
    "Verif.MutableModule.C08_route_rejected_fix_violated",
    "Verif.MutableModule.C08_route_rejected_fix_pairs_violated",
    "Verif.MutableModule.C08_init"
   ],
   "note": "Fixing keeps exactly the chosen operations for all three kinds of searchable op. Violated (proved): an unknown name is accepted and removes everything; a rejected fix of a route has already removed operations."
  },
  {
   "property": "C09",
   "status": "partial",
   "theorems": [
    "Verif.MutableModule.C09_fixed_iff",
    "Verif.MutableModule.C09_fixes_second_violated",
    "Verif.MutableModule.C09_fixes_largest_violated",
    "Verif.MutableModule.C09_init",
    "Verif.MutableModule.C09_fixes_largest_partial",
    "Verif.MutableModule.C09_below_threshold",
    "Verif.MutableModule.C09_single_candidate_fails",
    "Verif.MutableModule.C09_fixed_empty",
    "Verif.MutableModule.C09_sample_refused"
   ],
   "note": "Exact characterisation of the fixed choice. Violated (proved): the second-best weight can be fixed, and with a single candidate nothing is fixed."
  },
  {
   "property": "C10",
   "status": "partial",
   "theorems": [
    "Verif.FixSubnet.C10_roundtrip_partial",
    "Verif.FixSubnet.C10_two_sources_violated",
    "Verif.FixSubnet.C10_missing_rejected",
    "Verif.FixSubnet.C10_illegal_value_rejected",
    "Verif.FixSubnet.C10_illegal_op_accepted_violated",
    "Verif.FixSubnet.C10_reexport_violated",
    "Verif.FixSubnet.C10_fix_refused"
   ],
   "note": "Round trip proved when every module has one source mutable; illegal values rejected. Violated (proved): two sources under one name, illegal op names accepted, re-export after fixing."
  },
  {
   "property": "C11",
   "status": "partial",
   "theorems": [
    "Verif.FixSubnet.C11_plain_and_extra",
    "Verif.FixSubnet.C11_prefix_iff",
    "Verif.FixSubnet.C11_extra_loads",
    "Verif.FixSubnet.C11_prefix_loads",
    "Verif.FixSubnet.C11_prefix_violated",
    "Verif.FixSubnet.C11_unprefixed_name_violated"
   ],
   "note": "Lookup with and without prefix proved. Violated (proved): prefix matching is textual."
  },
  {
   "property": "C12",
   "status": "partial",
   "theorems": [
    "Verif.Candidates.C12_entries_kept",
    "Verif.Candidates.C12_subnets_kept",
    "Verif.Candidates.C12_addNew",
    "Verif.Candidates.C12_setResource",
    "Verif.Candidates.C12_setResource_others_partial",
    "Verif.Candidates.C12_fresh_pool_nodup",
    "Verif.Candidates.C12_shared_entry_violated",
    "Verif.Candidates.C12_updateResources",
    "Verif.Candidates.C12_updateResources_values",
    "Verif.Candidates.C12_sort"
   ],
   "note": "Pool operations proved for all histories. Violated (proved): two entries sharing one dict see each other's resources."
  },
  {
   "property": "C13",
   "status": "proved",
   "theorems": [
    "Verif.Evolution.C13_top_k",
    "Verif.Evolution.C13_scores",
    "Verif.Evolution.C13_best",
    "Verif.Evolution.C13_completes",
    "Verif.Evolution.C13_no_top",
    "Verif.Evolution.C13_best_monotone",
    "Verif.Evolution.C13_unreported"
   ],
   "note": "Proved at full strength."
  },
  {
   "property": "C14",
   "status": "partial",
   "theorems": [
    "Verif.Evolution.C14_check",
    "Verif.Evolution.C14_check_rejects",
    "Verif.Evolution.C14_sampled_pass",
    "Verif.Evolution.C14_generated",
    "Verif.Evolution.C14_all_pass",
    "Verif.Evolution.C14_initial_candidates_violated"
   ],
   "note": "Proved for every search starting from a passing pool. Violated (proved): initial candidates loaded from a file are not checked."
  },
  {
   "property": "C15",
   "status": "proved",
   "theorems": [
    "Verif.Evolution.C15_genes",
    "Verif.Evolution.C15_draws",
    "Verif.Evolution.C15_extremes"
   ],
   "note": "Proved at full strength."
  },
  {
   "property": "C16",
   "status": "partial",
   "theorems": [
    "Verif.Evolution.C16_uninterrupted",
    "Verif.Evolution.C16_resume_state",
    "Verif.Evolution.C16_resumed_epochs",
    "Verif.Evolution.C16_resume_violated",
    "Verif.Evolution.C16_resume_partial",
    "Verif.Evolution.C16_continuation",
    "Verif.Evolution.C16_other_ranks_violated"
   ],
   "note": "Continuation proved for the epochs it runs. Violated (proved): the saved epoch is subtracted twice, so a resumed search stops early; other ranks do not resume."
  },
  {
   "property": "C17",
   "status": "proved",
   "theorems": [
    "Verif.Evolution.C17_retention",
    "Verif.Evolution.C17_current_exists",
    "Verif.Evolution.C17_resumed"
   ],
   "note": "Proved at full strength."
  },
  {
   "property": "C18",
   "status": "partial",
   "theorems": [
    "Verif.AutoSlim.C18_order",
    "Verif.AutoSlim.C18_step",
    "Verif.AutoSlim.C18_search",
    "Verif.AutoSlim.C18_targets_met",
    "Verif.AutoSlim.C18_resume_violated",
    "Verif.AutoSlim.C18_resume_skips_violated",
    "Verif.AutoSlim.C18_resume_partial"
   ],
   "note": "Proved under a guard: C18_resume_partial: resuming where it works: if the checkpoint lies at or below the targets `done` already recorded and strictly above the next one, and no later step passes two targets at once, the resumed run does exactly what the uninterrupted run does from that point, so nothing is lost or recorded twice. Missing: other checkpoints, see `C18_resume_violated` and `C18_resume_skips_violated`. The code violates the property (proved): C18_resume_violated: is violated on resume: the checkpoint written when a target is reached does not contain the record for it yet, and the resumed run skips that target, so that fewer subnets than targets are recorded. C18_resume_skips_violated: is violated on resume in a second way: after a resume, a later target that is already met when it comes up is not recorded either."
  },
  {
   "property": "C19",
   "status": "partial",
   "theorems": [
    "Verif.Sampler.C19_outside",
    "Verif.Sampler.C19_linear_partial",
    "Verif.Sampler.C19_linear_violated",
    "Verif.Sampler.C19_linear_range",
    "Verif.Sampler.C19_cosine_violated",
    "Verif.Sampler.C19_empty_schedule_violated",
    "Verif.Sampler.C19_refill",
    "Verif.Sampler.C19_never_popped_violated",
    "Verif.Sampler.C19_nothing_found_fails",
    "Verif.Sampler.C19_sampled",
    "Verif.Sampler.C19_empty_cosine_violated"
   ],
   "note": "Proved under a guard: C19_linear_partial: inside the schedule, where it holds: with `init_prob = 0` the probability is the documented linear interpolation between the two. Missing: other initial probabilities, see `C19_linear_violated`. The code violates the property (proved): C19_linear_violated: is violated by the linear schedule whenever `init_prob` is not 0: on entering the schedule the probability drops to 0, and at its end it is `init_prob` short of `max_prob`. C19_cosine_violated: is violated by the cosine schedule, for every `init_prob < 1`: it starts at 1 and falls to `init_prob`, the reverse of the documented increase to `max_prob`. C19_empty_schedule_violated: a schedule of length 0 raises at its only iteration. C19_never_popped_violated: is violated: once the top-k list is filled, its first entry is handed out in every later iteration; nothing is ever taken from the list. C19_nothing_found_fails: when nothing sampled passes and the pool is empty, the iteration raises. C19_empty_cosine_violated: DISAGREEMENT: the cosine schedule too raises at the only iteration of a schedule of length 0."
  },
  {
   "property": "C20",
   "status": "proved",
   "theorems": [
    "Verif.Graph.C20_order",
    "Verif.Graph.C20_visited",
    "Verif.Graph.C20_acyclic",
    "Verif.Graph.C20_cyclic",
    "Verif.Graph.C20_sort"
   ],
   "note": "Proved at full strength."
  },
  {
   "property": "C21",
   "status": "partial",
   "theorems": [
    "Verif.Graph.C21_links",
    "Verif.Graph.C21_connect",
    "Verif.Graph.C21_disconnect",
    "Verif.Graph.C21_delete",
    "Verif.Graph.C21_self_loop_violated"
   ],
   "note": "The code violates the property (proved): C21_self_loop_violated: is violated by deleting a node that is linked to itself and to another node: the other node keeps a predecessor that is no longer in the graph."
  },
  {
   "property": "C22",
   "status": "partial",
   "theorems": [
    "Verif.ChannelFlow.C22_groups",
    "Verif.ChannelFlow.C22_members",
    "Verif.ChannelFlow.C22_mismatch",
    "Verif.ChannelFlow.C22_recursion_limit_fails",
    "Verif.ChannelFlow.C22_ranges",
    "Verif.ChannelFlow.C22_ranges_refused",
    "Verif.ChannelGraph.C22_units",
    "Verif.ChannelGraph.C22_num_channels"
   ],
   "note": "The code violates the property (proved): C22_recursion_limit_fails: Without the bound on the number of ties the statement fails: a chain of ties as deep as the recursion limit makes the root lookup raise. Shown for limit 2; the code uses 2^20."
  },
  {
   "property": "C23",
   "status": "partial",
   "theorems": [
    "Verif.ChannelGraph.C23_expand_partial",
    "Verif.ChannelGraph.C23_single",
    "Verif.ChannelGraph.C23_expand_violated",
    "Verif.ChannelGraph.C23_expand_sum_violated",
    "Verif.ChannelGraph.C23_zero"
   ],
   "note": "Proved under a guard: C23_expand_partial: If no two neighbouring predecessors both ask for it, every edge that is short by a whole factor gets one expansion node with that factor, in place of the direct edge, and the other edges stay. Missing: neighbouring predecessors that both ask for it, see `C23_expand_violated`. The code violates the property (proved): C23_expand_violated: With two neighbouring predecessors that both ask for an expansion the second one is passed over: its edge keeps its mismatch. C23_expand_sum_violated: The same when the node adds its inputs: 8 channels, then two single-channel maps."
  },
  {
   "property": "C24",
   "status": "partial",
   "theorems": [
    "Verif.Groups.C24_partition_partial",
    "Verif.Groups.C24_custom",
    "Verif.Groups.C24_alias_partial",
    "Verif.Groups.C24_unknown",
    "Verif.Groups.C24_alias_and_name",
    "Verif.Groups.C24_duplicate",
    "Verif.Groups.C24_succeeds_partial",
    "Verif.Groups.C24_alias_alone_violated",
    "Verif.Groups.C24_mixed_violated",
    "Verif.Groups.C24_derived_violated",
    "Verif.Groups.C24_two_sources_violated"
   ],
   "note": "Proved under a guard: C24_partition_partial: If every module stands for at most one element, the groups together contain every element exactly as often as the network does: each element is in exactly one group. Missing: modules that stand for several elements, see `C24_derived_violated` and `C24_two_sources_violated`. C24_alias_partial: Elements with the same alias, whose modules are not named in the custom groups, are in one group. Missing: modules named in custom groups. C24_succeeds_partial: Custom groups of known keys, none used twice, no alias together with one of its modules, each group ending with the name of a module that is not an alias: building succeeds. Missing: custom groups by alias, see `C24_alias_alone_violated` and `C24_mixed_violated`. The code violates the property (proved): C24_alias_alone_violated: The first documented example (grouping by alias, lines 43-47) raises a `KeyError`: the prefix of a custom group is looked up under the alias. C24_mixed_violated: So does the third one, mixing aliases and names (lines 56-61). C24_derived_violated: An element that is both a module and the source of a derived one is put in two groups. C24_two_sources_violated: Of a derived module with two sources only the last is found by name: here the source with the alias is in no group at all."
  },
  {
   "property": "C25",
   "status": "partial",
   "theorems": [
    "Verif.Mutator.C25_round_trip",
    "Verif.Mutator.C25_incomplete",
    "Verif.Mutator.C25_partial_update_violated",
    "Verif.Mutator.C25_shared_violated",
    "Verif.Mutator.C25_sample",
    "Verif.Mutator.C25_unknown_kind",
    "Verif.Mutator.C25_sampled_legal_partial",
    "Verif.Mutator.C25_sampled_illegal_violated",
    "Verif.Mutator.C25_extremes",
    "Verif.Mutator.C25_channel_round_trip",
    "Verif.Mutator.C25_channel_sample",
    "Verif.Mutator.C25_units_refused",
    "Verif.Mutator.C25_sample_refused",
    "Verif.Mutator.C25_current_refused"
   ],
   "note": "Proved under a guard: C25_sampled_legal_partial: When the elements of a group accept the same choices and each offers only choices it accepts, what is sampled can be set and is read back. Missing: groups of elements that accept different choices, see `C25_sampled_illegal_violated`. The code violates the property (proved): C25_partial_update_violated: A refused dictionary may have been applied in part: here the second group has no entry, and the first has its new choice already. C25_shared_violated: If an element is in two groups (as `C24_derived_violated` shows can happen), what is read is not what was set. C25_sampled_illegal_violated: Without that, the sampled choice can be illegal for another element of the group: only the first one is asked."
  },
  {
   "property": "C26",
   "status": "partial",
   "theorems": [
    "Verif.Tracer.C26_sound_partial",
    "Verif.Tracer.C26_exact_partial",
    "Verif.Tracer.C26_head_partial",
    "Verif.Tracer.C26_linear_violated",
    "Verif.Tracer.C26_residual_violated",
    "Verif.Tracer.C26_parameter_violated",
    "Verif.Tracer.C26_pairs_partial"
   ],
   "note": "Proved under a guard: C26_sound_partial: Without linear layers, whatever the graph, everything listed is a list of layers met in order on some way down from the output, and nothing else is mixed in. Missing: linear layers, see `C26_linear_violated`. C26_exact_partial: Without linear layers, if every convolution that runs once per pass is met once (and no normalisation has its name), exactly the routes are listed. Missing: linear layers, and graphs that branch and join again. C26_head_partial: With linear layers only in a chain at the output, as in a classification head, the routes are listed exactly. Missing: linear layers elsewhere, see `C26_linear_violated`. C26_pairs_partial: In a graph of convolutions and normalisations, with branches joining as they like: if a convolution run once per pass has the same input wherever it is met, and below every layer some route reaches a data input, then every two layers following each other on some route follow each other on a listed path. (Whole routes need not be listed, see `C26_residual_violated`; concatenations and linear layers are missing.) The code violates the property (proved): C26_linear_violated: Two linear layers side by side (or a linear layer beside a convolution): the layer of the first branch is listed on the route of the second. C26_residual_violated: A residual connection: the second route stops at the layer where the branches join, although two routes lead on to layer 1. C26_parameter_violated: A route that ends in a parameter rather than in a data input is not listed."
  },
  {
   "property": "C27",
   "status": "partial",
   "theorems": [
    "Verif.DynamicOps.C27_unmasked",
    "Verif.DynamicOps.C27_conv",
    "Verif.DynamicOps.C27_depthwise_partial",
    "Verif.DynamicOps.C27_grouped_partial",
    "Verif.DynamicOps.C27_grouped_uneven",
    "Verif.DynamicOps.C27_static",
    "Verif.DynamicOps.C27_export",
    "Verif.DynamicOps.C27_depthwise_violated",
    "Verif.DynamicOps.C27_export_violated",
    "Verif.DynamicOps.C27_register",
    "Verif.DynamicOps.C27_linear",
    "Verif.DynamicOps.C27_linear_register",
    "Verif.DynamicOps.C27_linear_static",
    "Verif.DynamicOps.C27_network",
    "Verif.DynamicOps.C27_width_refused",
    "Verif.DynamicOps.C27_mask_refused"
   ],
   "note": "Proved under a guard: C27_depthwise_partial: Depthwise convolutions, when the same channels are kept at input and output. Missing: other masks, see `C27_depthwise_violated`. C27_grouped_partial: Grouped convolutions, when each group keeps the same numbers of channels (the kept positions may differ between groups). Missing: groups that keep different numbers, which are refused (`C27_grouped_uneven`). The code violates the property (proved): C27_depthwise_violated: A depthwise convolution that keeps one channel at the input and another at the output runs, and mixes them up: the full layer on the zeroed input gives 0 at that output. C27_export_violated: A depthwise convolution with only an output mask runs on the active channels, but cannot be exported."
  },
  {
   "property": "C28",
   "status": "partial",
   "theorems": [
    "Verif.DynamicNorm.C28_forward",
    "Verif.DynamicNorm.C28_eval",
    "Verif.DynamicNorm.C28_step",
    "Verif.DynamicNorm.C28_history_partial",
    "Verif.DynamicNorm.C28_cumulative_violated",
    "Verif.DynamicNorm.C28_export_partial",
    "Verif.DynamicNorm.C28_export_violated",
    "Verif.DynamicNorm.C28_switch",
    "Verif.DynamicNorm.C28_switch_full",
    "Verif.DynamicNorm.C28_register",
    "Verif.DynamicNorm.C28_switch_init",
    "Verif.DynamicNorm.C28_refused"
   ],
   "note": "Proved under a guard: C28_history_partial: Over every history of masks and batches, with a fixed momentum, the statistics of a channel are those of the batches in which it was active, in order. Missing: cumulative averages, see `C28_cumulative_violated`. C28_export_partial: The exported layer (put in the same mode) behaves as the dynamic one, if the momentum is a number or in evaluation mode: same outputs, same statistics. Missing: cumulative averages in training, see `C28_export_violated`. The code violates the property (proved): C28_cumulative_violated: With cumulative averages (`momentum=None`), a channel that first becomes active in the second step gets half the mean of its only batch: the counter is not kept for each channel. An ordinary layer that saw only this batch would have its mean. C28_export_violated: With cumulative averages the exported layer starts counting again: its next step forgets the statistics it was given, while the dynamic layer averages."
  },
  {
   "property": "C29",
   "status": "partial",
   "theorems": [
    "Verif.Kernel.C29_centre",
    "Verif.Kernel.C29_values_partial",
    "Verif.Kernel.C29_size_partial",
    "Verif.Kernel.C29_dilation_violated",
    "Verif.Kernel.C29_own_padding_violated",
    "Verif.Kernel.C29_refused",
    "Verif.Kernel.C29_register",
    "Verif.Kernel.C29_transformed",
    "Verif.Kernel.C29_adaptive_partial",
    "Verif.Kernel.C29_adaptive_violated",
    "Verif.Kernel.C29_stride",
    "Verif.Kernel.C29_dilated_values_violated",
    "Verif.Kernel.C29_transformed_refused"
   ],
   "note": "Proved under a guard: C29_values_partial: With dilation 1, for every stride, input and position: the layer with the chosen size gives what the full kernel with its own same padding gives when everything outside the centre is zero. Missing: dilation, see `C29_dilated_values_violated`. C29_size_partial: With dilation 1 the output size is that of the full kernel with its own same padding, namely the input size divided by the stride and rounded up, for every odd size. Missing: dilation, see `C29_dilation_violated`, and layers with another padding of their own, see `C29_own_padding_violated`. C29_adaptive_partial: Adaptive padding, for a layer without own padding (which is how it is converted): for every input size, kernel, stride and dilation the output size is the input size divided by the stride, rounded up; the two sides differ by at most one. Missing: layers with a padding of their own, see `C29_adaptive_violated`. The code violates the property (proved): C29_dilation_violated: With dilation 2 the size depends on the chosen kernel: the padding does not take the dilation into account. C29_own_padding_violated: Registering a search space replaces the layer's own padding, even at the largest size: a layer of size 3 without padding gives another output size. C29_adaptive_violated: A layer built with a padding of its own pads twice; the exported layer (whose constructor ignores the padding) does not. C29_dilated_values_violated: Violated with dilation: the padding is half the size whatever the dilation, so a smaller size looks at a shifted part of the input: with dilation 2 a kernel of one entry (taken from a kernel of three) gives the input at the same place, the kernel of three with only its centre gives it one place further on."
  },
  {
   "property": "C30",
   "status": "partial",
   "theorems": [
    "Verif.Estimator.C30_batch_partial",
    "Verif.Estimator.C30_flops",
    "Verif.Estimator.C30_upsample_violated",
    "Verif.Estimator.C30_keyword_violated",
    "Verif.Estimator.C30_calls",
    "Verif.Estimator.C30_once_partial",
    "Verif.Estimator.C30_reuse_violated",
    "Verif.Estimator.C30_export_partial",
    "Verif.Estimator.C30_export_flops_partial",
    "Verif.Estimator.C30_depthwise_violated",
    "Verif.Estimator.C30_counters",
    "Verif.Estimator.C30_bignas_violated",
    "Verif.Estimator.C30_norm_violated",
    "Verif.Estimator.C30_linear_violated",
    "Verif.Estimator.C30_deconv_violated",
    "Verif.Estimator.C30_modules_partial",
    "Verif.Estimator.C30_shared_violated",
    "Verif.Estimator.C30_units",
    "Verif.Estimator.C30_supported_partial",
    "Verif.Estimator.C30_upsampling_violated"
   ],
   "note": "Proved under a guard: C30_batch_partial: The counts do not depend on the batch size: running the same network on a batch `B` times as large gives the same numbers (upsampling and keyword inputs excepted). Missing: upsampling and keyword inputs, see `C30_upsample_violated` and `C30_keyword_violated`. C30_once_partial: In a network of ordinary layers in which every layer is called once, the parameters reported are the elements the network holds. Missing: layers that are called twice, see `C30_reuse_violated`. C30_export_partial: For searchable convolutions whose groups are kept on export (every convolution that is not depthwise, and depthwise ones with all channels active): the FLOPs and parameters reported at the current choice are those of the exported network, for all choices, shapes and call sequences. Missing: depthwise convolutions with inactive channels, see `C30_depthwise_violated`. C30_export_flops_partial: Searchable linear layers: the FLOPs are those of the exported network. Missing: the parameters, see `C30_linear_violated`. C30_modules_partial: In a network without shared modules every module gets the sum over the counted modules below it, per sample and in the unit asked for. Missing: shared modules, see `C30_shared_violated`. C30_supported_partial: the layers that are said to be supported, all but the two upsampling layers, have a counter of their own; and a layer of another class without a counter of its own is counted like the first of its base classes that is one of these. Missing: the two upsampling layers, see `C30_upsampling_violated`. The code violates the property (proved): C30_upsample_violated: Upsampling counts only the first sample: with two samples half the FLOPs are reported. C30_keyword_violated: Inputs passed by name (an input constructor): the batch is taken to be one, and twice the FLOPs are reported for two samples. C30_reuse_violated: A layer called twice has its parameters counted twice. C30_depthwise_violated: A depthwise convolution of 8 channels with 4 active: the exported one has 36 parameters and 36\u00b7hw FLOPs, half of that is reported. C30_bignas_violated: A BigNAS convolution from 8 to 8 channels with 2 active on both sides is reported at full width. C30_norm_violated: A searchable batch norm is not counted, the exported one is. C30_linear_violated: The parameters of a searchable linear layer are reported at full width. C30_deconv_violated: A transposed convolution with bias on an output of 4 by 6 counts 4 \u00b7 4 positions for the bias. C30_shared_violated: A module shared by two parents: the second parent sees the value that was already divided and converted. Batch of 2, no units: 4 FLOPs per sample for the first, 2 for the second. C30_upsampling_violated: DISAGREEMENT: the two upsampling layers are in the list of supported layers, and are subclasses of `Upsample`, which has a counter; but the name of a counter that does not exist is chosen for them, and they are left out of the estimate."
  },
  {
   "property": "C31",
   "status": "partial",
   "theorems": [
    "Verif.EstimateOptions.C31_explicit",
    "Verif.EstimateOptions.C31_unknown",
    "Verif.EstimateOptions.C31_none_partial",
    "Verif.EstimateOptions.C31_none_violated",
    "Verif.EstimateOptions.C31_history_partial",
    "Verif.EstimateOptions.C31_history_violated",
    "Verif.EstimateOptions.C31_hooks_partial",
    "Verif.EstimateOptions.C31_hooks_violated",
    "Verif.EstimateOptions.C31_unknown_kind",
    "Verif.EstimateOptions.C31_defaults",
    "Verif.EstimateOptions.C31_unpacked_violated"
   ],
   "note": "Proved under a guard: C31_none_partial: Without options, the estimator's counting options are used; what the user expects, as long as the common settings are among them or are the defaults. Missing: common settings that are neither among them nor the defaults, see `C31_none_violated`. C31_history_partial: Whatever estimates were made before, and whatever separate estimates with options of their own, the estimator is unchanged: every later estimate gives what it gives on a fresh estimator. Missing: separate estimates without options, see `C31_history_violated`. C31_hooks_partial: On one model: the modules counted are those enabled now, whatever was estimated before, as long as earlier runs completed, or all used the same counters. Missing: earlier runs that failed, see `C31_hooks_violated`. The code violates the property (proved): C31_none_violated: An estimator built for inputs of 64 by 64 estimates at 224 by 224 when it is given no options. C31_history_violated: A separate estimate without options marks the estimator: later estimates fail, or return the names of two modules as FLOPs and parameters. Even a separate estimate that was itself refused does this. C31_hooks_violated: After a run that failed in the forward pass, a counter that is then disabled still counts. C31_unpacked_violated: DISAGREEMENT: `estimate` with the results of single modules switched on unpacks a dict: with exactly two modules the *names* of the modules are returned as the numbers of FLOPs and of parameters, with any other number it is a `ValueError`."
  },
  {
   "property": "C32",
   "status": "partial",
   "theorems": [
    "Verif.Recorder.C32_inside_partial",
    "Verif.Recorder.C32_restore_partial",
    "Verif.Recorder.C32_function_violated",
    "Verif.Recorder.C32_method_violated",
    "Verif.Recorder.C32_initialise_violated",
    "Verif.Recorder.C32_before"
   ],
   "note": "Proved under a guard: C32_inside_partial: Inside the context each recorder holds exactly the values its source produced, in order: for every list of recorders in which no method is shared (functions and modules may be), and every sequence of calls, including calls that raise. Missing: methods shared by recorders, see `C32_method_violated`. C32_restore_partial: With no function or method recorded twice: after the context every name is bound to its original, the recorders hold exactly what was produced inside, and nothing that happens later changes it. Missing: functions and methods recorded twice, see `C32_function_violated` and `C32_method_violated`. The code violates the property (proved): C32_function_violated: Two recorders on one function: afterwards the function is still wrapped, and the first recorder goes on recording. C32_method_violated: Two recorders on one method: the first records nothing. C32_initialise_violated: A module recorder initialised twice records every output twice."
  },
  {
   "property": "C33",
   "status": "partial",
   "theorems": [
    "Verif.Delivery.C33_fifo",
    "Verif.Delivery.C33_prefix",
    "Verif.Delivery.C33_bound",
    "Verif.Delivery.C33_call",
    "Verif.Delivery.C33_iterations_partial",
    "Verif.Delivery.C33_iterations_violated",
    "Verif.Delivery.C33_manager",
    "Verif.Delivery.C33_new"
   ],
   "note": "Proved under a guard: C33_iterations_partial: Over any number of iterations in each of which the student calls the function as often as the teacher does, and not more often than the limit: every iteration starts and ends with an empty queue, and each student call returns what the corresponding teacher call of the same iteration produced. Missing: other numbers of calls, see `C33_iterations_violated`. The code violates the property (proved): C33_iterations_violated: When the student calls less often than the teacher, what is left over is delivered in the next iteration (limit 2), or makes the teacher fail (limit 1)."
  },
  {
   "property": "C34",
   "status": "partial",
   "theorems": [
    "Verif.ItePrune.C34_times",
    "Verif.ItePrune.C34_target_partial",
    "Verif.ItePrune.C34_monotone",
    "Verif.ItePrune.C34_double_counts",
    "Verif.ItePrune.C34_target_violated",
    "Verif.ItePrune.C34_kinds_violated",
    "Verif.ItePrune.C34_run",
    "Verif.ItePrune.C34_resume_violated",
    "Verif.ItePrune.C34_resume_partial",
    "Verif.ItePrune.C34_refused",
    "Verif.ItePrune.C34_freq_zero",
    "Verif.ItePrune.C34_unknown"
   ],
   "note": "Proved under a guard: C34_target_partial: After the last pruning the value is the target (exact arithmetic, start and target of the same kind). Missing: floating point and targets of another kind, see `C34_target_violated` and `C34_kinds_violated`. C34_resume_partial: Without the linear schedule every pruning sets the target: resuming makes no difference. Missing: the linear schedule, see `C34_resume_violated`. The code violates the property (proved): C34_target_violated: In double precision the last value need not be the target: from 1.0 to 0.1 it is the double next to 0.1 that is two ten-quadrillionths below, and of 20 channels only 1 is kept instead of 2. C34_kinds_violated: A ratio as target of a unit that counts channels truncates to no channel. C34_resume_violated: Resuming in the middle changes the plan: from 8 to 2 channels in three steps the plan is 6, 4, 2; resumed after the first step it goes 6, 3, 2."
  },
  {
   "property": "C35",
   "status": "partial",
   "theorems": [
    "Verif.GroupFisher.C35_step",
    "Verif.GroupFisher.C35_minimum_partial",
    "Verif.GroupFisher.C35_minimum_violated",
    "Verif.GroupFisher.C35_nan",
    "Verif.GroupFisher.C35_exhausted",
    "Verif.GroupFisher.C35_run",
    "Verif.GroupFisher.C35_accumulates",
    "Verif.GroupFisher.C35_error",
    "Verif.GroupFisher.C35_progress_partial",
    "Verif.GroupFisher.C35_interval"
   ],
   "note": "Proved under a guard: C35_minimum_partial: The channel has the smallest importance over all units that may be pruned. The guard that is needed: some importance is below 100000. Missing: larger importances, see `C35_minimum_violated`. C35_progress_partial: Every attempt prunes exactly one channel, until every unit has one channel left, if the batches contribute no NaN and at most `B` to a channel and `B` times the interval is below 100000. Missing: larger contributions, see `C35_minimum_violated`. The code violates the property (proved): C35_minimum_violated: Otherwise the first unit is pruned although another has the smallest importance, or, if the first unit has one channel left, nothing is pruned any more."
  },
  {
   "property": "C36",
   "status": "partial",
   "theorems": [
    "Verif.Thresholds.C36_saves",
    "Verif.Thresholds.C36_all_partial",
    "Verif.Thresholds.C36_all_violated",
    "Verif.Thresholds.C36_stop",
    "Verif.Thresholds.C36_empty_violated",
    "Verif.Thresholds.C36_name_violated",
    "Verif.Thresholds.C36_resume_violated",
    "Verif.Thresholds.C36_interval_zero",
    "Verif.Thresholds.C36_first"
   ],
   "note": "Proved under a guard: C36_all_partial: Every threshold gets its checkpoint, given enough checks (one per threshold) below the smallest one. Missing: fewer checks, see `C36_all_violated`. The code violates the property (proved): C36_all_violated: A check writes one checkpoint only: resources that pass two thresholds between two checks may leave one without a checkpoint. C36_empty_violated: With no threshold at all, early stopping ends the process in its first iteration, before anything was pruned or saved. C36_name_violated: Thresholds that agree in two decimals share a file: the later checkpoint replaces the earlier one. C36_resume_violated: A resumed run starts with all thresholds again and writes the checkpoint of a threshold a second time, in the wrong state."
  },
  {
   "property": "C37",
   "status": "partial",
   "theorems": [
    "Verif.QatLoop.C37_schedule",
    "Verif.QatLoop.C37_complete",
    "Verif.QatLoop.C37_val",
    "Verif.QatLoop.C37_val_lsq_partial",
    "Verif.QatLoop.C37_val_lsq_violated",
    "Verif.QatLoop.C37_val_alone_violated",
    "Verif.QatLoop.C37_resume",
    "Verif.QatLoop.C37_lsq",
    "Verif.QatLoop.C37_lsq_resume_violated",
    "Verif.QatLoop.C37_calibration",
    "Verif.QatLoop.C37_lsq_val"
   ],
   "note": "Proved under a guard: C37_val_lsq_partial: With learned step sizes the same holds for scales that are not below the smallest allowed one. Missing: smaller scales, see `C37_val_lsq_violated`. The code violates the property (proved): C37_val_lsq_violated: A scale that the optimizer drove below the smallest one is changed by validation: the forward pass of validation clamps the parameter in place. C37_val_alone_violated: Validation of a model that was never trained here runs with its observers on: it changes the parameters. C37_lsq_resume_violated: A resumed run estimates the scale again in its first batch: what was learned before is lost, whatever it was."
  },
  {
   "property": "C38",
   "status": "partial",
   "theorems": [
    "Verif.QParams.C38_range",
    "Verif.QParams.C38_unsigned_violated",
    "Verif.QParams.C38_accepted",
    "Verif.QParams.C38_calculate",
    "Verif.QParams.C38_zero_partial",
    "Verif.QParams.C38_zero_violated",
    "Verif.QParams.C38_scale_partial",
    "Verif.QParams.C38_scale_violated",
    "Verif.QParams.C38_modes",
    "Verif.QParams.C38_observation_violated",
    "Verif.QParams.C38_built",
    "Verif.QParams.C38_mode_switches",
    "Verif.QParams.C38_refused"
   ],
   "note": "Proved under a guard: C38_zero_partial: A zero point that is not learned stays an integer of the range in the state itself. Missing: learned zero points, see `C38_zero_violated`. C38_scale_partial: After every forward pass with learned or fixed parameters the scale is not below the bound. Missing: the scale while it is estimated, see `C38_scale_violated`. The code violates the property (proved): C38_unsigned_violated: Asking for a symmetric range has no effect on unsigned types: no error and no smaller range. C38_zero_violated: A learned zero point is used in forward passes without being put back into the range (the code only prints it), and exporting truncates it instead of rounding. C38_scale_violated: While it is estimated it is twice the mean absolute value over the root of the largest integer: legal only for inputs that are not too small; an input of zeros gives scale zero, by which the same forward pass divides. C38_observation_violated: Contrary to its description, the observation mode does change the parameters."
  },
  {
   "property": "C39",
   "status": "partial",
   "theorems": [
    "Verif.GptqQuantizer.C39_range",
    "Verif.GptqQuantizer.C39_grid",
    "Verif.GptqQuantizer.C39_params",
    "Verif.GptqQuantizer.C39_error_partial",
    "Verif.GptqQuantizer.C39_error_violated",
    "Verif.GptqQuantizer.C39_round",
    "Verif.GptqQuantizer.C39_mse",
    "Verif.GptqQuantizer.C39_mse_params",
    "Verif.GptqQuantizer.C39_trits",
    "Verif.GptqQuantizer.C39_not_ready"
   ],
   "note": "Proved under a guard: C39_error_partial: The rounding error is at most half a step for every number of the row (in fact for every number of its range), when the mode is asymmetric or the row has a negative entry or is zero. Missing: rows without a negative entry in the symmetric mode, see `C39_error_violated`. The code violates the property (proved): C39_error_violated: Symmetric mode on a row without negative entries: the range of codes is used up to the middle only, and large weights are cut to half their value."
  },
  {
   "property": "C40",
   "status": "partial",
   "theorems": [
    "Verif.GptqPack.C40_weights_partial",
    "Verif.GptqPack.C40_weights_violated",
    "Verif.GptqPack.C40_lost",
    "Verif.GptqPack.C40_zeros_partial",
    "Verif.GptqPack.C40_zeros_violated",
    "Verif.GptqPack.C40_zero_reached",
    "Verif.GptqPack.C40_codes_partial",
    "Verif.GptqPack.C40_codes_violated",
    "Verif.GptqPack.C40_forward_violated",
    "Verif.GptqPack.C40_forward_partial",
    "Verif.GptqPack.C40_end_to_end_partial",
    "Verif.GptqPack.C40_widths"
   ],
   "note": "Proved under a guard: C40_weights_partial: The codes read by the kernel are the codes packed, when the number of input features is a multiple of 32. Missing: other numbers of features, see `C40_weights_violated`. C40_zeros_partial: Zero points from 1 to `2 ^ bits` are read back unchanged. Missing: the zero point 0, see `C40_zeros_violated`. C40_codes_partial: Rounding the scale to half precision (relative error at most 2\u207b\u00b9\u00b9) does not change the code of a quantised weight. Missing: scales below the normal range of half precision, see `C40_codes_violated`. C40_forward_partial: Partial: a quantised layer with at least one packed word other than zero uses its packed weights; a layer that is not quantised (all words zero) its own weights. Missing: all words zero after quantisation, see `C40_forward_violated`. C40_end_to_end_partial: The weights the kernel uses are the quantised weights, with the scale in half precision: packing, unpacking and dequantising gives the quantised weight, times the relative rounding of the scale. Missing: what the three violations above exclude. The code violates the property (proved): C40_weights_violated: Otherwise the last features are not stored at all. C40_zeros_violated: A zero point 0 is read back as `2 ^ bits`, and spoils the following zero points of its word too. C40_codes_violated: For scales below the normal range of half precision the codes change. C40_forward_violated: A layer whose packed words are all zero takes the branch of an unquantised layer and looks for the deleted weight. Weights that are all equal and negative are such a layer."
  },
  {
   "property": "C41",
   "status": "partial",
   "theorems": [
    "Verif.Calibration.C41_hessian",
    "Verif.Calibration.C41_grouping",
    "Verif.Calibration.C41_rows_violated",
    "Verif.Calibration.C41_refused",
    "Verif.Calibration.C41_empty_violated",
    "Verif.Calibration.C41_distributed_partial",
    "Verif.Calibration.C41_distributed_violated",
    "Verif.Calibration.C41_dilation_violated",
    "Verif.Calibration.C41_groups_violated",
    "Verif.Calibration.C41_mean",
    "Verif.Calibration.C41_var_violated",
    "Verif.Calibration.C41_var_nan_violated",
    "Verif.Calibration.C41_meter_partial",
    "Verif.Calibration.C41_meter_violated",
    "Verif.Calibration.C41_samples",
    "Verif.Calibration.C41_dict_partial",
    "Verif.Calibration.C41_dict_violated",
    "Verif.Calibration.C41_quadratic",
    "Verif.Calibration.C41_patches_partial"
   ],
   "note": "Proved under a guard: C41_distributed_partial: Several processes with batches of equal size: the same as one process with all of them. Missing: batches of different sizes, see `C41_distributed_violated`. C41_meter_partial: Several processes, equal batch sizes: every rank gets what one process would get. Missing: batches of different sizes, see `C41_meter_violated`. C41_dict_partial: Loaders of dictionaries use whole batches, until the number is reached, provided never so few samples remain that the number of keys covers them. Missing: the other case, see `C41_dict_violated`. C41_patches_partial: Convolutions without dilation: the quadratic form of the patches of a sample is twice the sum of the squared outputs of the convolution, and no other features are touched. Missing: dilation, see `C41_dilation_violated`, and groups, see `C41_groups_violated`. The code violates the property (proved): C41_rows_violated: For plain matrices the divisor is the number of calls, not of rows: the same four rows give different matrices in one call and in two. C41_empty_violated: An empty first batch makes the matrix not a number, for ever. C41_distributed_violated: With unequal batches the divisor is not the number of samples. C41_dilation_violated: Convolutions: the patches are the inputs of the convolution only without dilation. C41_groups_violated: And the sizes fit exactly for ungrouped convolutions. C41_var_violated: The calibrated variance is not the variance of the samples: it ignores how the means of the batches differ, so it depends on how the samples are grouped. C41_var_nan_violated: A batch with one pixel makes it not a number. C41_meter_violated: Unequal batch sizes: the ranks disagree, and no rank has the average. C41_dict_violated: Otherwise the calibration fails: batches of 64 with the usual two keys, 66 wanted."
  },
  {
   "property": "C42",
   "status": "partial",
   "theorems": [
    "Verif.SparseGpt.C42_zeros",
    "Verif.SparseGpt.C42_pattern_partial",
    "Verif.SparseGpt.C42_choice",
    "Verif.SparseGpt.C42_pattern_violated",
    "Verif.SparseGpt.C42_remainder_violated",
    "Verif.SparseGpt.C42_ratio_partial",
    "Verif.SparseGpt.C42_ratio_layer_partial",
    "Verif.SparseGpt.C42_ratio_violated",
    "Verif.SparseGpt.C42_negative_violated",
    "Verif.SparseGpt.C42_blocksize_zero",
    "Verif.SparseGpt.C42_full_violated",
    "Verif.SparseGpt.C42_compensation",
    "Verif.SparseGpt.C42_optimal",
    "Verif.SparseGpt.C42_row_error",
    "Verif.SparseGpt.C42_group_choice_partial",
    "Verif.SparseGpt.C42_block_choice",
    "Verif.SparseGpt.C42_block_size",
    "Verif.SparseGpt.C42_group_zero"
   ],
   "note": "Proved under a guard: C42_pattern_partial: Pattern n:m on a layer whose number of columns, and a block size which, are multiples of `m`: pruning succeeds, and in each row each group of `m` consecutive columns has exactly `n` selected entries, all zero. Missing: other numbers of columns and block sizes, see `C42_pattern_violated` and `C42_remainder_violated`. C42_ratio_partial: A sparsity ratio from 0 to below 1: the selection of a block succeeds; at least `int(size * sparsity) + 1` entries are selected, exactly so many when no two scores are equal. Missing: negative ratios and the ratio 1, see `C42_negative_violated` and `C42_full_violated`; one entry more than asked for goes, see `C42_ratio_violated`. C42_ratio_layer_partial: Over the whole layer: pruning with a ratio from 0 to below 1 succeeds, and in every block of columns at least `int(size * sparsity) + 1` entries are zero in the end. Missing: negative ratios and the ratio 1, see `C42_negative_violated` and `C42_full_violated`. C42_group_choice_partial: In each group of `m` columns the selected weights are those with the smallest saliency, taken of the weights as the removals in the columns before the group have left them. Missing: other numbers of columns and block sizes, see `C42_pattern_violated`. The code violates the property (proved): C42_pattern_violated: A block size that is no multiple of `m`: the groups start anew in each block, and both columns of a pair are zeroed by the pattern 1:2. C42_remainder_violated: A number of columns that is no multiple of `m`: the pattern fails, and the weights of the groups before stay pruned. C42_ratio_violated: It is not the fraction: half of two weights is both, and sparsity 0 still prunes. C42_negative_violated: A negative sparsity is not rejected but counts from the largest score: \u22121/2 of four weights prunes three of them, \u22121 the smallest; \u22122 fails. C42_full_violated: Sparsity 1 fails."
  },
  {
   "property": "C43",
   "status": "partial",
   "theorems": [
    "Verif.Loaders.C43_epoch",
    "Verif.Loaders.C43_iter_partial",
    "Verif.Loaders.C43_restart_violated",
    "Verif.Loaders.C43_none_violated",
    "Verif.Loaders.C43_epoch_counter",
    "Verif.Loaders.C43_first_epoch"
   ],
   "note": "Proved under a guard: C43_iter_partial: Iteration based training with at most as many iterations as the shortest loader has batches uses the `i`-th batches too. Missing: more iterations, see `C43_restart_violated`. The code violates the property (proved): C43_restart_violated: It does not restart: with one iteration more than the shortest loader has batches, training stops with an error after the shortest loader, whatever the loaders. C43_none_violated: Without any loader the combined loader has no length, and an epoch does not end."
  },
  {
   "property": "C44",
   "status": "partial",
   "theorems": [
    "Verif.Crd.C44_item",
    "Verif.Crd.C44_full",
    "Verif.Crd.C44_percent_violated",
    "Verif.Crd.C44_refetch",
    "Verif.Crd.C44_refused",
    "Verif.Crd.C44_accepted",
    "Verif.Crd.C44_empty"
   ],
   "note": "The code violates the property (proved): C44_percent_violated: With a fraction the size of every class's table comes from the first class: nine items of class 0 and one of class 1, half of the negatives \u2014 the one negative of class 0 halves to none, so no item at all can be read."
  },
  {
   "property": "C45",
   "status": "partial",
   "theorems": [
    "Verif.Predictor.C45_roundtrip_partial",
    "Verif.Predictor.C45_single_violated",
    "Verif.Predictor.C45_order_violated",
    "Verif.Predictor.C45_onehot",
    "Verif.Predictor.C45_injective",
    "Verif.Predictor.C45_injective_violated",
    "Verif.Predictor.C45_refused",
    "Verif.Predictor.C45_decode_refused"
   ],
   "note": "Proved under a guard: C45_roundtrip_partial: Encoding an architecture (given in the order of the search groups) and decoding it returns the architecture, in both encodings, unless the vector has a single entry. Missing: vectors of one entry, see `C45_single_violated`, and other orders, see `C45_order_violated`. The code violates the property (proved): C45_single_violated: A search space with a single group cannot be decoded in the normal encoding. C45_order_violated: The order of the entries matters: the same architecture listed in another order decodes to a different one. C45_injective_violated: Without the order, two different architectures can have the same encoding."
  },
  {
   "property": "C46",
   "status": "partial",
   "theorems": [
    "Verif.Darts.C46_restored",
    "Verif.Darts.C46_gradient",
    "Verif.Darts.C46_curvature_zero",
    "Verif.Darts.C46_no_virtual_step",
    "Verif.Darts.C46_curvature_violated",
    "Verif.Darts.C46_update_unrolled",
    "Verif.Darts.C46_update_first_order",
    "Verif.Darts.C46_update_violated",
    "Verif.Darts.C46_arch_violated",
    "Verif.Darts.C46_update_partial",
    "Verif.Darts.C46_single",
    "Verif.Darts.C46_refused",
    "Verif.Darts.C46_arch_unrolled",
    "Verif.Darts.C46_assertion"
   ],
   "note": "Proved under a guard: C46_update_partial: where it does hold: if validation batches do not move the weights (their weight gradient is zero) then in the first-order mode every update of the weights uses exactly the gradient of the training batch. Missing: validation batches that move the weights, see `C46_update_violated`. The code violates the property (proved): C46_curvature_violated: fails: for the training loss `w * a` and the validation loss `w` the curvature is `1` and the unrolled gradient should be `-lr`, the program gives a different one. C46_update_violated: fails: in both modes, in every iteration of every run that starts with cleared gradients, the weight update contains the gradient of the validation batch; and there is a run in which this changes the weights. C46_arch_violated: fails for the architecture as well in the first-order mode: the gradient that the weight update of one iteration leaves on the architecture parameters is added to the architecture gradient of the next."
  },
  {
   "property": "C47",
   "status": "partial",
   "theorems": [
    "Verif.Dsnas.C47_stages",
    "Verif.Dsnas.C47_updates",
    "Verif.Dsnas.C47_fixed_once_partial",
    "Verif.Dsnas.C47_resume_violated",
    "Verif.Dsnas.C47_resume_violated_witness",
    "Verif.Dsnas.C47_single_process_violated",
    "Verif.Dsnas.C47_short"
   ],
   "note": "Proved under a guard: C47_fixed_once_partial: fixing: in a distributed run that starts at or before the finetune stage and reaches it, the architecture is fixed exactly once, at the start of the finetune stage: everything before happens in earlier epochs, everything after in the epochs of the finetune stage, and the run never stops. Missing: a single process and resumed runs, see `C47_single_process_violated` and `C47_resume_violated`. The code violates the property (proved): C47_resume_violated: fails when training is resumed inside the finetune stage: the resumed object is a supernet again and is never fixed, however long it trains. C47_single_process_violated: fails outside a distributed job: the first iteration of the finetune stage raises, so no run reaches it."
  },
  {
   "property": "C48",
   "status": "partial",
   "theorems": [
    "Verif.Expand.C48_conv",
    "Verif.Expand.C48_depthwise",
    "Verif.Expand.C48_norm",
    "Verif.Expand.C48_network",
    "Verif.Expand.C48_outputs",
    "Verif.Expand.C48_refused",
    "Verif.Expand.C48_norm_violated",
    "Verif.Expand.C48_divisible",
    "Verif.Expand.C48_errors",
    "Verif.Expand.C48_twice_violated",
    "Verif.Expand.C48_pruned_violated",
    "Verif.Expand.C48_short",
    "Verif.Expand.C48_depthwise_refused",
    "Verif.Expand.C48_forward",
    "Verif.Expand.C48_sum"
   ],
   "note": "The code violates the property (proved): C48_norm_violated: A batch norm without affine parameters is refused. C48_twice_violated: expanding a unit twice: the second target is counted from the original width, so the unit gets wider than asked. C48_pruned_violated: fails for a unit that was pruned before it is expanded: the weights are taken in order from the unpruned layer, so the remaining channel gets the weights of a pruned one."
  },
  {
   "property": "C49",
   "status": "partial",
   "theorems": [
    "Verif.FakeQuantDel.C49_function",
    "Verif.FakeQuantDel.C49_after_succeeds",
    "Verif.FakeQuantDel.C49_after_exact",
    "Verif.FakeQuantDel.C49_module_exact",
    "Verif.FakeQuantDel.C49_module_succeeds_partial",
    "Verif.FakeQuantDel.C49_found",
    "Verif.FakeQuantDel.C49_before_succeeds_partial",
    "Verif.FakeQuantDel.C49_twice_violated",
    "Verif.FakeQuantDel.C49_not_next_violated",
    "Verif.FakeQuantDel.C49_shared_violated",
    "Verif.FakeQuantDel.C49_module_violated",
    "Verif.FakeQuantDel.C49_nested_refused",
    "Verif.FakeQuantDel.C49_redundant",
    "Verif.FakeQuantDel.C49_native",
    "Verif.FakeQuantDel.C49_backend_violated"
   ],
   "note": "Proved under a guard: C49_module_succeeds_partial: deletions before modules succeed when every selected module is called with a node as its first positional argument. Missing: modules that are called with keywords only, see `C49_module_violated`. C49_before_succeeds_partial: deletion before one operation (for instance the output) succeeds exactly when no fake-quantiser is found along two paths. Missing: several operations, and two paths, see `C49_twice_violated`. The code violates the property (proved): C49_twice_violated: fails: an operation that gets the same fake-quantised value twice makes the deletion before it raise. C49_not_next_violated: fails: the fake-quantiser before the convolution is removed although it is next to no selected operation. Both users of the fake-quantiser after the convolution are selected; the second search goes on past the convolution. C49_shared_violated: fails: removing one call of a shared fake-quantiser deletes the module the other call needs. C49_module_violated: fails: a selected module called with keyword arguments raises. C49_backend_violated: fails: the backends remove a fake-quantiser that is neither before an activation nor after a pooling nor before the output. The one after the pooling goes first, and from the output the search then arrives at the quantiser of the activation, node 5."
  },
  {
   "property": "C50",
   "status": "partial",
   "theorems": [
    "Verif.DmcpLoss.C50_values",
    "Verif.DmcpLoss.C50_band_violated",
    "Verif.DmcpLoss.C50_target_violated",
    "Verif.DmcpLoss.C50_direction_violated",
    "Verif.DmcpLoss.C50_increases_partial",
    "Verif.DmcpLoss.C50_jump_violated",
    "Verif.DmcpLoss.C50_l1_l2",
    "Verif.DmcpLoss.C50_inverted_violated",
    "Verif.DmcpLoss.C50_unknown",
    "Verif.DmcpLoss.C50_below",
    "Verif.DmcpLoss.C50_inverted_partial",
    "Verif.DmcpLoss.C50_log_kind"
   ],
   "note": "Proved under a guard: C50_increases_partial: where it holds: above the target (by more than 200 FLOPs) the loss increases with the distance. Missing: FLOPs within 200 of the target or below it, see `C50_band_violated` and `C50_direction_violated`. C50_inverted_partial: the inverted loss above the target: it grows with the logarithm of the distance. Missing: FLOPs below the target, see `C50_inverted_violated`. The code violates the property (proved): C50_band_violated: fails: nowhere in the documented band is the loss zero, for every target of at least 100 FLOPs. C50_target_violated: fails at the target: the loss there is positive and grows with the target. C50_direction_violated: fails in direction: below the target, moving away from the target makes the loss smaller. C50_jump_violated: the loss jumps when the distance from the target passes 200 FLOPs: a point further above the target has the smaller loss. C50_inverted_violated: the inverted loss is not a number for every network below the target by more than `1e-5` FLOPs."
  },
  {
   "property": "C51",
   "status": "partial",
   "theorems": [
    "Verif.Latest.C51_explicit",
    "Verif.Latest.C51_nothing",
    "Verif.Latest.C51_latest_partial",
    "Verif.Latest.C51_foreign_violated",
    "Verif.Latest.C51_fps_partial",
    "Verif.Latest.C51_no_warmup_violated",
    "Verif.Latest.C51_all_warmup_violated",
    "Verif.Latest.C51_latency_partial",
    "Verif.Latest.C51_refused",
    "Verif.Latest.C51_one_iteration_violated",
    "Verif.Latest.C51_negative_violated",
    "Verif.Latest.C51_repeated_partial"
   ],
   "note": "Proved under a guard: C51_latest_partial: where it holds: if every visible file of that kind is named after a step, the file with the largest step is found, in whatever order the directory is listed. Missing: other files of that kind, see `C51_foreign_violated` and `C51_negative_violated`. C51_fps_partial: with at least one round of warm-up, the frames per second are the number of timed rounds over their total time. Missing: no warm-up, see `C51_no_warmup_violated`, and only warm-up, see `C51_all_warmup_violated`. C51_latency_partial: the latency of one measurement is the rounded time per frame. Missing: a single iteration, see `C51_one_iteration_violated`. C51_repeated_partial: several repetitions: the mean of their rounded times per frame. Missing: a single iteration, see `C51_one_iteration_violated`. The code violates the property (proved): C51_foreign_violated: fails: one file of that kind that is not named after a step, and the search raises, however many checkpoints there are. C51_no_warmup_violated: fails without warm-up: one round more is counted than is timed, so the speed reported is too high, for every machine. C51_all_warmup_violated: fails when every round is warm-up: the measurement divides by zero. C51_one_iteration_violated: fails for one iteration: nothing is measured, the speed is reported as zero and the latency divides by it. C51_negative_violated: fails for numbers below zero: a directory whose only checkpoint has one seems empty."
  },
  {
   "property": "C52",
   "status": "proved",
   "theorems": [
    "Verif.ChannelUnit.C52_refused",
    "Verif.ChannelUnit.C52_l1Mask",
    "Verif.ChannelUnit.C52_best"
   ],
   "note": "Proved at full strength."
  },
  {
   "property": "C53",
   "status": "proved",
   "theorems": [
    "Verif.MutableModule.C53_diff_weighted",
    "Verif.MutableModule.C53_diff_sample",
    "Verif.MutableModule.C53_route_sample"
   ],
   "note": "Sampling and mixing proved for all weights."
  },
  {
   "property": "C54",
   "status": "partial",
   "theorems": [
    "Verif.GptqLayer.C54_total",
    "Verif.GptqLayer.C54_rounded",
    "Verif.GptqLayer.C54_grid",
    "Verif.GptqLayer.C54_group_params",
    "Verif.GptqLayer.C54_whole_params",
    "Verif.GptqLayer.C54_per_tensor",
    "Verif.GptqLayer.C54_loss",
    "Verif.GptqLayer.C54_optimal",
    "Verif.GptqLayer.C54_block_size_partial",
    "Verif.GptqLayer.C54_dead",
    "Verif.GptqLayer.C54_order",
    "Verif.GptqLayer.C54_block_size_violated",
    "Verif.GptqLayer.C54_dead_violated",
    "Verif.GptqLayer.C54_no_cuda_violated",
    "Verif.GptqLayer.C54_no_cuda",
    "Verif.GptqLayer.C54_no_gpu"
   ],
   "note": "Proved under a guard: C54_block_size_partial: Partial: without groups, or when both block sizes divide the group size, the block size makes no difference. Missing: other group sizes, see `C54_block_size_violated`. The code violates the property (proved): C54_block_size_violated: Violated in general: a group that starts inside a block gets the parameters of weights whose corrections by the earlier columns of the block are still missing, so its weights are rounded with a range that does not fit, and the result depends on the block size. C54_dead_violated: Violated: without groups the weight of a dead input, which cannot influence any output, is in the range of the row: a large one makes all other weights zero. C54_no_cuda_violated: Violated: on a machine without a CUDA device `quant` fails at the synchronisation after all columns are treated; the error is swallowed by the compressor, and the layer keeps weights that are neither the old ones nor on the grid."
  },
  {
   "property": "C55",
   "status": "partial",
   "theorems": [
    "Verif.Sandwich.C55_run",
    "Verif.Sandwich.C55_resume",
    "Verif.Sandwich.C55_window",
    "Verif.Sandwich.C55_total",
    "Verif.Sandwich.C55_windows",
    "Verif.Sandwich.C55_default_violated",
    "Verif.Sandwich.C55_resume_window_violated",
    "Verif.Sandwich.C55_reported",
    "Verif.Sandwich.C55_drop",
    "Verif.Sandwich.C55_drop_partial",
    "Verif.Sandwich.C55_drop_violated",
    "Verif.Sandwich.C55_entry",
    "Verif.Sandwich.C55_factor"
   ],
   "note": "Proved under a guard: C55_drop_partial: if the layers consist of such blocks only, every rate set is at least zero and below the given one; it is zero for all kinds but the largest subnet. Missing: blocks of other classes, see `C55_drop_violated`. The code violates the property (proved): C55_default_violated: With the default of the optimizer wrapper (no accumulation) the subnets of an iteration are not trained at the same weights: the optimizer has already taken a step for the largest subnet when the smallest is trained, against outputs of the old weights. C55_resume_window_violated: Interrupting in the middle of a window of accumulated iterations loses the gradients accumulated so far: the resumed run ends with other weights. C55_drop_violated: Blocks of other classes in a layer are counted as places but not in the total: the rate can exceed the given one."
  },
  {
   "property": "C56",
   "status": "partial",
   "theorems": [
    "Verif.DmcpChannel.C56_groups",
    "Verif.DmcpChannel.C56_small_violated",
    "Verif.DmcpChannel.C56_smallest_violated",
    "Verif.DmcpChannel.C56_sampled",
    "Verif.DmcpChannel.C56_expected",
    "Verif.DmcpChannel.C56_forward",
    "Verif.DmcpChannel.C56_expected_range",
    "Verif.DmcpChannel.C56_expected_mask_violated",
    "Verif.DmcpChannel.C56_expected_flops_violated",
    "Verif.DmcpChannel.C56_too_wide_violated",
    "Verif.DmcpChannel.C56_refused"
   ],
   "note": "The code violates the property (proved): C56_small_violated: Layers whose channels are fewer than a group cannot be pruned at all; with the default rates these are all layers with less than 20 channels. C56_smallest_violated: The size of a group is rounded down, so the smallest width can be much larger than the smallest rate: 21 of 39 channels for a rate of 1/10. C56_expected_mask_violated: In the mode `expected` the mask is that of the whole network, whatever the parameters are: the expected number is taken for a ratio. The subnet exported as the expected one at the end of the training is therefore not pruned. C56_expected_flops_violated: The FLOPs computed in the mode `expected` are not the mean of the FLOPs of the sampled subnets: the input channels of each convolution are counted in full, so the result is too large as soon as the first parameter of the unit before the convolution is positive. C56_too_wide_violated: DISAGREEMENT: with a single group of channels the probability of that group is spread over all channels after the first, however many there are; with more groups an input with more channels than there are groups for is refused."
  },
  {
   "property": "C57",
   "status": "partial",
   "theorems": [
    "Verif.DmcpTrain.C57_effects",
    "Verif.DmcpTrain.C57_schedule",
    "Verif.DmcpTrain.C57_kinds",
    "Verif.DmcpTrain.C57_kind_violated",
    "Verif.DmcpTrain.C57_clean_partial",
    "Verif.DmcpTrain.C57_leak_violated",
    "Verif.DmcpTrain.C57_stale_violated",
    "Verif.DmcpTrain.C57_late_failure_violated",
    "Verif.DmcpTrain.C57_resume_violated",
    "Verif.DmcpTrain.C57_freq_violated",
    "Verif.DmcpTrain.C57_reported",
    "Verif.DmcpTrain.C57_frequency"
   ],
   "note": "Proved under a guard: C57_clean_partial: under the guard that no architecture update came before: every weight step uses the gradient of its own loss only. Missing: the step after an architecture update, see `C57_leak_violated`. The code violates the property (proved): C57_kind_violated: is violated for other entries: they are compared by substring, so `random` is treated as `arch_random` (and follows the architecture parameters later), the empty string as `max`, and an unknown name such as `direct` is skipped without an error. C57_leak_violated: is violated after an update of the architecture parameters: the gradient of the architecture loss is left in the weights, so the next weight step, that of the largest subnet in the next iteration, uses it as well, for every task, weights and optimizers. C57_stale_violated: is violated when the largest subnet does not come first: the smallest subnet is then trained without distillation, or with the outputs the largest subnet had on the batch of the previous iteration. C57_late_failure_violated: is violated without the largest subnet in the strategy: training goes on for `distillAfter` iterations and then fails. C57_resume_violated: is violated when training is resumed with `scheduled_random`: the probability of a random subnet starts again at one, so the same iteration with the same draws trains another subnet. C57_freq_violated: is violated for `arch_train_freq = 0`: training runs up to the first iteration in which the architecture parameters take part and then fails."
  },
  {
   "property": "C58",
   "status": "partial",
   "theorems": [
    "Verif.DsnasArch.C58_gradient",
    "Verif.DsnasArch.C58_reward_violated",
    "Verif.DsnasArch.C58_cleared_violated",
    "Verif.DsnasArch.C58_less_likely_violated",
    "Verif.DsnasArch.C58_params_partial",
    "Verif.DsnasArch.C58_params_violated",
    "Verif.DsnasArch.C58_shared_violated",
    "Verif.DsnasArch.C58_params_refused"
   ],
   "note": "Proved under a guard: C58_params_partial: without aliases and custom groups every searchable module uses the architecture parameters of its own group. Missing: aliases and custom groups, see `C58_params_violated`. The code violates the property (proved): C58_reward_violated: is violated: the rewards are applied to gradients that were used and cleared before, so the whole search does not depend on them, for any optimizer. C58_cleared_violated: is violated with PyTorch 2.0 or later, where `zero_grad` removes the gradients: every architecture update fails. C58_less_likely_violated: is violated in its aim: an update by gradient descent makes every sampled choice less probable, also when the loss falls with the weight of that choice (a negative reward), so the search does not learn which choices are good. C58_params_violated: is violated with aliases: groups are numbered with the aliases first, but the parameters are looked up by the place of the module. Here the loss of `op1` uses the parameters of `op2`. C58_shared_violated: is violated with shared aliases: there are fewer groups than modules, and the first architecture update fails."
  },
  {
   "property": "C59",
   "status": "partial",
   "theorems": [
    "Verif.Distiller.C59_accepts",
    "Verif.Distiller.C59_compute_partial",
    "Verif.Distiller.C59_names",
    "Verif.Distiller.C59_missing_violated",
    "Verif.Distiller.C59_default_violated",
    "Verif.Distiller.C59_unknown_key_violated",
    "Verif.Distiller.C59_documentation_violated",
    "Verif.Distiller.C59_unmapped_violated",
    "Verif.Distiller.C59_total",
    "Verif.Distiller.C59_reported",
    "Verif.Distiller.C59_student_frozen_violated",
    "Verif.Distiller.C59_stop",
    "Verif.Distiller.C59_stop_late_violated",
    "Verif.Distiller.C59_teacher_norm",
    "Verif.Distiller.C59_teacher_mode_violated",
    "Verif.Distiller.C59_record",
    "Verif.Distiller.C59_record_part",
    "Verif.Distiller.C59_refused",
    "Verif.Distiller.C59_index_refused"
   ],
   "note": "Proved under a guard: C59_compute_partial: an accepted configuration in which every argument without a default value is given and every record info is well formed computes exactly the mapped losses, each from the recorded data its infos describe. Missing: arguments that are not given and infos that are not well formed, see `C59_missing_violated`, `C59_default_violated` and `C59_unknown_key_violated`. The code violates the property (proved): C59_missing_violated: is violated when an argument without a default value is not mapped: the configuration is accepted (arguments that are not mapped are not looked at), but the losses can never be computed. C59_default_violated: is violated for arguments with a default value: their record infos are not checked, and a recorder that does not exist is accepted; computing the losses then fails, whatever was recorded. C59_unknown_key_violated: is violated for unknown keys in a record info, such as a misspelt `data_idx`: they are accepted, and computing the losses fails with a `TypeError`. C59_documentation_violated: is violated for the example in the documentation of the class, which names the recorder by the key `from_recorder`: it is rejected. C59_unmapped_violated: is violated for losses that are configured but not mapped: the configuration is accepted and the losses are left out without a message. C59_student_frozen_violated: is violated for `student_trainable = False`: unless the student's loss is switched off as well, the student is trained. C59_stop_late_violated: is violated for algorithms that cannot stop distillation, such as `SelfDistill`: with the hook they are trained up to `stop_epoch` and fail then. C59_teacher_mode_violated: is violated for the other layers of a teacher that is not trained: during training they are in training mode, for all options, so a teacher with dropout gives random outputs."
  },
  {
   "property": "C60",
   "status": "partial",
   "theorems": [
    "Verif.DataFree.C60_generator",
    "Verif.DataFree.C60_run_partial",
    "Verif.DataFree.C60_leak_violated",
    "Verif.DataFree.C60_leak_first_violated",
    "Verif.DataFree.C60_dafl_violated",
    "Verif.DataFree.C60_dafl_partial",
    "Verif.DataFree.C60_iter_zero_violated"
   ],
   "note": "Proved under a guard: C60_run_partial: in full, under the guard that the generator loss does not depend on the student: every run is the intended one, also when it is continued from any intended state. Missing: generator losses that depend on the student, see `C60_leak_violated`. C60_dafl_partial: For DAFL under the guard that the generator loss does not depend on the student: each step trains both networks with the gradients of their own losses, taken before either step. Missing: generator losses that depend on the student, see `C60_dafl_violated`. The code violates the property (proved): C60_leak_violated: is violated otherwise: the gradient of the generator loss stays in the student, and the first student step of the iteration uses it in addition to that of the distillation loss. C60_leak_first_violated: is violated in the same way when the student is trained first: the first iteration is the intended one, but in the second the first student step uses the gradient of the generator loss of the first. C60_dafl_violated: is violated for DAFL with an adversarial generator loss, the negative of the distillation loss: the two gradients cancel in the student, and with an optimizer that does not move for a zero gradient the student is never trained, whatever the number of iterations. C60_iter_zero_violated: is violated for `student_iter = 0`: the option is accepted and every iteration fails."
  },
  {
   "property": "C61",
   "status": "partial",
   "theorems": [
    "Verif.LogitLoss.C61_kl_value",
    "Verif.LogitLoss.C61_kl_nonneg",
    "Verif.LogitLoss.C61_kl_elements_violated",
    "Verif.LogitLoss.C61_kl_gradient",
    "Verif.LogitLoss.C61_cwd",
    "Verif.LogitLoss.C61_cwd_shape_violated",
    "Verif.LogitLoss.C61_dkd_value",
    "Verif.LogitLoss.C61_dkd_decomposition",
    "Verif.LogitLoss.C61_dkd_nonneg",
    "Verif.LogitLoss.C61_dkd_reduction_violated",
    "Verif.LogitLoss.C61_dkd_mask_violated",
    "Verif.LogitLoss.C61_dkd_labels_violated",
    "Verif.LogitLoss.C61_softce_value",
    "Verif.LogitLoss.C61_softce_minimum",
    "Verif.LogitLoss.C61_softce_none_violated",
    "Verif.LogitLoss.C61_wsld_value",
    "Verif.LogitLoss.C61_wsld_weight",
    "Verif.LogitLoss.C61_ce",
    "Verif.LogitLoss.C61_onehot",
    "Verif.LogitLoss.C61_entropy",
    "Verif.LogitLoss.C61_reductions",
    "Verif.LogitLoss.C61_softce_reductions"
   ],
   "note": "The code violates the property (proved): C61_kl_elements_violated: DISAGREEMENT: with `reduction='none'` the elements returned by `KLDivergence` are not losses: whenever student and teacher disagree at a position, an element of that position is negative. C61_cwd_shape_violated: DISAGREEMENT: `ChannelWiseDivergence` checks the height and width only. Feature maps with the same product of samples and channels, such as those with both swapped, are compared row by row without an error, and a teacher with a single map is compared with every channel. C61_dkd_reduction_violated: DISAGREEMENT: the `reduction` of `DKDLoss` is passed on together with the deprecated `size_average=False`, which wins: `'none'` and `'mean'` return the sum over samples and classes. C61_dkd_mask_violated: DISAGREEMENT: the label is taken out of the second part of `DKDLoss` by lowering its score by a thousand after the division by the temperature, not exactly. With two classes there is nothing to compare among the other classes, and still that part is positive whenever the scores differ by more than a constant (noticeably once the scaled scores are a thousand apart, as with a small temperature). C61_dkd_labels_violated: DISAGREEMENT: the labels are documented to have the shape (N, C); with the N * C numbers of such a tensor the call fails. At most one label per sample is accepted. C61_softce_none_violated: DISAGREEMENT: `reduction=None` is accepted when `KDSoftCELoss` is built, and then every call without an override fails."
  },
  {
   "property": "C62",
   "status": "partial",
   "theorems": [
    "Verif.FeatureLoss.C62_l1",
    "Verif.FeatureLoss.C62_l1_deprecated",
    "Verif.FeatureLoss.C62_l1_batchmean_violated",
    "Verif.FeatureLoss.C62_l2_plain",
    "Verif.FeatureLoss.C62_l2_normalised_partial",
    "Verif.FeatureLoss.C62_l2_zero_violated",
    "Verif.FeatureLoss.C62_at_range",
    "Verif.FeatureLoss.C62_at_zero_partial",
    "Verif.FeatureLoss.C62_ft_partial",
    "Verif.FeatureLoss.C62_tiny_violated",
    "Verif.FeatureLoss.C62_ab",
    "Verif.FeatureLoss.C62_ofd",
    "Verif.FeatureLoss.C62_mgd",
    "Verif.FeatureLoss.C62_activation",
    "Verif.FeatureLoss.C62_activation_batch_violated",
    "Verif.FeatureLoss.C62_fbkd",
    "Verif.FeatureLoss.C62_names"
   ],
   "note": "Proved under a guard: C62_l2_normalised_partial: `L2Loss` with normalisation, for features without a zero row: never negative, zero exactly when every sample of the student points in the direction of the teacher's, and not changed by scaling the samples of the student. Missing: zero rows, see `C62_l2_zero_violated`. C62_at_zero_partial: `ATLoss` is zero exactly when in every sample the attention maps of student and teacher are proportional, provided no map is below `1e-12` in norm; missing: those maps, see `C62_tiny_violated`. C62_ft_partial: `FTLoss` is never negative, and, for samples of norm at least `1e-12`, zero exactly when every sample of the student points in the direction of the teacher's. Missing: smaller samples, see `C62_tiny_violated`. The code violates the property (proved): C62_l1_batchmean_violated: DISAGREEMENT: `L1Loss` accepts `reduction='batchmean'` when it is built, and then every call without the deprecated arguments fails. C62_l2_zero_violated: DISAGREEMENT: the normalising `L2Loss` (the default) is not a number as soon as one sample of either feature is zero everywhere, as after a ReLU, also when student and teacher are equal. C62_tiny_violated: DISAGREEMENT: features of norm below `1e-12` are divided by `1e-12` instead of their norm, so that `FTLoss` of two features of the same direction can be positive. C62_activation_batch_violated: DISAGREEMENT: with `norm_type='norm'` the `ActivationLoss` is the norm over all samples, so it grows with the number of samples: repeating a batch four times doubles it, while `'abs'` is the mean."
  },
  {
   "property": "C63",
   "status": "partial",
   "theorems": [
    "Verif.RelationLoss.C63_distance_value",
    "Verif.RelationLoss.C63_distance",
    "Verif.RelationLoss.C63_distance_similar_partial",
    "Verif.RelationLoss.C63_distance_collapse_violated",
    "Verif.RelationLoss.C63_distance_pair_violated",
    "Verif.RelationLoss.C63_distance_single_violated",
    "Verif.RelationLoss.C63_angle_value",
    "Verif.RelationLoss.C63_angle_range",
    "Verif.RelationLoss.C63_angle_similar_partial",
    "Verif.RelationLoss.C63_dist_range",
    "Verif.RelationLoss.C63_dist_identical_violated",
    "Verif.RelationLoss.C63_dist_single_violated",
    "Verif.RelationLoss.C63_dist_uniform_violated",
    "Verif.RelationLoss.C63_dist_shift",
    "Verif.RelationLoss.C63_pkd_value",
    "Verif.RelationLoss.C63_pkd_zero",
    "Verif.RelationLoss.C63_pkd_shift",
    "Verif.RelationLoss.C63_pkd_scale_violated",
    "Verif.RelationLoss.C63_pkd_opposite_violated",
    "Verif.RelationLoss.C63_pkd_levels_violated",
    "Verif.RelationLoss.C63_pkd_width_violated",
    "Verif.RelationLoss.C63_pkd_resize",
    "Verif.RelationLoss.C63_pkd_nan"
   ],
   "note": "Proved under a guard: C63_distance_similar_partial: With all distances at least `1e-6`, `DistanceWiseRKD` is zero exactly when the student's samples are similar, in the sense of geometry, to the teacher's. Missing: smaller distances, see `C63_distance_collapse_violated`. C63_angle_similar_partial: If the student's samples are similar to the teacher's, all inner products being multiplied by one positive number, then `AngleWiseRKD` is zero, as long as samples that differ are at least `1e-12` apart. Missing: closer samples. The code violates the property (proved): C63_distance_collapse_violated: DISAGREEMENT: a student that maps all samples to one point has no loss with respect to any teacher whose samples are equally far from each other: the vanishing distances are replaced by `1e-6` and then divided by their mean. C63_distance_pair_violated: DISAGREEMENT: with two samples `DistanceWiseRKD` is zero whatever the predictions are. C63_distance_single_violated: DISAGREEMENT: with fewer than two samples, and only then, `DistanceWiseRKD` is not a number. C63_dist_identical_violated: DISAGREEMENT: `DISTLoss` is not zero for a student equal to its teacher: each correlation of equal rows falls short of one by `1e-8 / (spread + 1e-8)`. C63_dist_single_violated: DISAGREEMENT: with one sample in the batch the part of `DISTLoss` over samples is `\u03c4\u00b2` whatever the scores are. C63_dist_uniform_violated: DISAGREEMENT: if student and teacher both find all classes equally likely, so that they agree, `DISTLoss` is `\u03c4\u00b2\u00b7(inter + intra)`, half of its upper bound. C63_pkd_scale_violated: DISAGREEMENT: the comment in the code calls `PKDLoss` equivalent to one minus the correlation, but a student that is a positive multiple of its teacher, thus perfectly correlated, has a positive loss: the added `1e-6` makes the loss depend on the scale. C63_pkd_opposite_violated: DISAGREEMENT: a student opposite to its teacher in every channel has correlation minus one, but its loss is less than the documented `1 - r = 2`: each channel gives at most `2\u00b7(M-1)/M`. C63_pkd_levels_violated: DISAGREEMENT: maps of one network beyond the number of maps of the other are ignored without a message. C63_pkd_width_violated: DISAGREEMENT: maps of different size are resized only if the heights differ; equal heights with different widths are refused."
  },
  {
   "property": "C64",
   "status": "partial",
   "theorems": [
    "Verif.Contrast.C64_alias",
    "Verif.Contrast.C64_uniform",
    "Verif.Contrast.C64_alias_deficit_violated",
    "Verif.Contrast.C64_update",
    "Verif.Contrast.C64_rows",
    "Verif.Contrast.C64_finite_partial",
    "Verif.Contrast.C64_opposite_violated",
    "Verif.Contrast.C64_first",
    "Verif.Contrast.C64_constant",
    "Verif.Contrast.C64_bounds",
    "Verif.Contrast.C64_loss_value",
    "Verif.Contrast.C64_loss_monotone",
    "Verif.Contrast.C64_forward",
    "Verif.Contrast.C64_given",
    "Verif.Contrast.C64_weight_violated"
   ],
   "note": "Proved under a guard: C64_finite_partial: With a momentum below `1 / (1 + \u221a3)`, features of length one and rows of length at most `\u221a3` at the start, as the constructor draws them, no row ever stops being a number. Missing: larger momenta, in particular the default one half, see `C64_opposite_violated`. The code violates the property (proved): C64_alias_deficit_violated: DISAGREEMENT: weights that sum to less than one are not scaled, and the outcomes are then drawn neither with the given nor with the scaled chances. C64_opposite_violated: DISAGREEMENT: with the default momentum of one half, a student feature opposite to the stored row turns the row into values that are not numbers, and they stay in the memory for every further history. C64_weight_violated: DISAGREEMENT: the `loss_weight` of `CRDLoss` has no effect."
  },
  {
   "property": "C65",
   "status": "partial",
   "theorems": [
    "Verif.Ofd.C65_margin",
    "Verif.Ofd.C65_margin_negative",
    "Verif.Ofd.C65_zero_weight_violated",
    "Verif.Ofd.C65_layer",
    "Verif.Ofd.C65_init",
    "Verif.Ofd.C65_init_succeeds",
    "Verif.Ofd.C65_unset",
    "Verif.Ofd.C65_target",
    "Verif.Ofd.C65_init_refused"
   ],
   "note": "The code violates the property (proved): C65_zero_weight_violated: DISAGREEMENT: a batch normalisation with a weight of zero, as zero-initialised residual branches have, makes the set-up raise `ZeroDivisionError`; and only such a layer does."
  },
  {
   "property": "C66",
   "status": "partial",
   "theorems": [
    "Verif.QuantModes.C66_sync",
    "Verif.QuantModes.C66_sync_succeeds",
    "Verif.QuantModes.C66_missing_child_violated",
    "Verif.QuantModes.C66_train",
    "Verif.QuantModes.C66_train_graph",
    "Verif.QuantModes.C66_train_succeeds",
    "Verif.QuantModes.C66_loss_missing_violated",
    "Verif.QuantModes.C66_create",
    "Verif.QuantModes.C66_histogram_violated",
    "Verif.QuantModes.C66_tensor_missing_violated",
    "Verif.QuantModes.C66_forward",
    "Verif.QuantModes.C66_ptq_violated",
    "Verif.QuantModes.C66_calibrate",
    "Verif.QuantModes.C66_missing_child_error",
    "Verif.QuantModes.C66_build_refused",
    "Verif.QuantModes.C66_sync_refused"
   ],
   "note": "The code violates the property (proved): C66_missing_child_violated: DISAGREEMENT: the check for missing children asks for the parent, so a graph with a `None` child cannot be synchronised: `AttributeError`. C66_loss_missing_violated: DISAGREEMENT: without the mode `loss` among the configured ones training runs on the float model, without any fake quantisation, and fails with `KeyError` at the end of the first epoch. C66_histogram_violated: DISAGREEMENT: the dummy input of the construction stays in the statistics of observers that do not keep minimum and maximum, such as histograms: calibration starts with the random dummy already seen. C66_tensor_missing_violated: DISAGREEMENT: a model without the mode `tensor` cannot be built: `KeyError`. C66_ptq_violated: DISAGREEMENT: post-training calibration only reaches the graph of the mode `predict`, and no synchronisation follows: however long a newly built model is calibrated, its `tensor` and `loss` graphs still quantise with scales of one."
  },
  {
   "property": "C67",
   "status": "partial",
   "theorems": [
    "Verif.FisherInfo.C67_pairing",
    "Verif.FisherInfo.C67_pairing_violated",
    "Verif.FisherInfo.C67_unmatched",
    "Verif.FisherInfo.C67_expand_partial",
    "Verif.FisherInfo.C67_concat_violated",
    "Verif.FisherInfo.C67_narrow",
    "Verif.FisherInfo.C67_importance_partial",
    "Verif.FisherInfo.C67_unread",
    "Verif.FisherInfo.C67_out",
    "Verif.FisherInfo.C67_in",
    "Verif.FisherInfo.C67_flops_partial",
    "Verif.FisherInfo.C67_depthwise_violated",
    "Verif.FisherInfo.C67_residual_violated",
    "Verif.FisherInfo.C67_grouped_violated",
    "Verif.FisherInfo.C67_memory",
    "Verif.FisherInfo.C67_normalise",
    "Verif.FisherInfo.C67_pairs_refused",
    "Verif.FisherInfo.C67_memory_refused"
   ],
   "note": "Proved under a guard: C67_expand_partial: The expansion to all channels is the inverse of selecting the unpruned ones, provided the layer reads exactly the channels of the unit: an unpruned channel has its own value in its own sample, a pruned one has zero. Missing: layers behind a concatenation, see `C67_concat_violated`. C67_importance_partial: The Fisher information of an unpruned channel in a batch is the sum over the samples of the square of the derivative of the sample's loss with respect to a gate on that channel, in all calls of all layers that read it. Missing: layers that read other channels, see `C67_concat_violated`, and batches without a reset in between, see `C67_pairing_violated`. C67_flops_partial: If no layer both writes and reads the unit, the normaliser is the number of multiplications a channel of the unit costs. Missing: layers that write and read the unit, see `C67_depthwise_violated` and `C67_residual_violated`. The code violates the property (proved): C67_pairing_violated: DISAGREEMENT: a layer that sees two batches without a reset in between has the inputs of the first batch paired with the gradients of the second. C67_concat_violated: DISAGREEMENT: a layer behind a concatenation reads more channels than the unit has. Then the values are assigned to wrong samples: the first channel of the second sample gets the value of another unit's channel in the first sample. C67_depthwise_violated: DISAGREEMENT: a depthwise convolution writes and reads its unit, and is counted twice: the normaliser is twice what a channel costs. C67_residual_violated: DISAGREEMENT: an ordinary layer that writes and reads the same unit (as in a residual stream) is counted as if both sides could be pruned independently: the normaliser is too large by the cost of one pair of channels. C67_grouped_violated: DISAGREEMENT: a grouped convolution that is not depthwise makes the update fail once it was called."
  },
  {
   "property": "C68",
   "status": "partial",
   "theorems": [
    "Verif.Dcff.C68_temperature",
    "Verif.Dcff.C68_temperature_empty",
    "Verif.Dcff.C68_annealing_violated",
    "Verif.Dcff.C68_step",
    "Verif.Dcff.C68_times",
    "Verif.Dcff.C68_one_only",
    "Verif.Dcff.C68_epochs",
    "Verif.Dcff.C68_legal_violated",
    "Verif.Dcff.C68_coefficients",
    "Verif.Dcff.C68_kept",
    "Verif.Dcff.C68_kept_succeeds",
    "Verif.Dcff.C68_score_partial",
    "Verif.Dcff.C68_score_violated",
    "Verif.Dcff.C68_aligned_violated",
    "Verif.Dcff.C68_fuse",
    "Verif.Dcff.C68_forward",
    "Verif.Dcff.C68_before",
    "Verif.Dcff.C68_unpruned",
    "Verif.Dcff.C68_groups",
    "Verif.Dcff.C68_head_violated",
    "Verif.Dcff.C68_reload_violated",
    "Verif.Dcff.C68_static",
    "Verif.Dcff.C68_pooled_refused"
   ],
   "note": "Proved under a guard: C68_score_partial: The score by which filters are kept is the mean divergence of their coefficients from those of all filters, as the comment in the code has it, when the coefficients are symmetric (for instance when all filters are equally far from each other). Missing: any other case, see `C68_score_violated`. The code violates the property (proved): C68_annealing_violated: DISAGREEMENT: the temperature is meant to fall over the whole training (it is computed from the current and from the last iteration), but the rate is one per iteration: in every run, however long, it is below 1/9000 from the fifth iteration on, where it started from 1 and ends at 1/10000. C68_legal_violated: DISAGREEMENT: the documentation gives `[1, max_iters]` as legal, but a step of exactly `max_iters` (fuse once, at the start), or `max_iters` prunings, is refused, so the run raises. C68_score_violated: DISAGREEMENT: filters are kept by a score that is not the divergence it is documented to be: the logarithms are averaged along the wrong dimension. At every temperature there is a layer of five filters of which one is to be kept and where the filter whose coefficients diverge most from the others (which would be kept) is dropped, in favour of one that has an identical twin. C68_aligned_violated: DISAGREEMENT: layers whose outputs are added share a unit, so that they lose the same channels. Here each layer ranks its own filters: two such layers keep different filters at the same place, whatever the temperature. (Both have three filters of which one is kept; the filters of the second are those of the first in another order.) C68_head_violated: DISAGREEMENT: a layer that keeps all its outputs (the last layer of a head, say) but reads pruned inputs does not keep its filters: whatever the temperature, no output channel is left with one of the two filters of the layer, each gets a proper mixture of both. C68_reload_violated: DISAGREEMENT: the coefficients are bound to the module and are no part of its state. A model built anew with the saved weights and the saved channel counts computes with a plain slice of the weights: the output channel that was a proper mixture of both filters is now the first filter."
  },
  {
   "property": "C69",
   "status": "partial",
   "theorems": [
    "Verif.Autoformer.C69_relative",
    "Verif.Autoformer.C69_rows",
    "Verif.Autoformer.C69_rectangle_violated",
    "Verif.Autoformer.C69_static_relative_partial",
    "Verif.Autoformer.C69_static_relative_violated",
    "Verif.Autoformer.C69_heads",
    "Verif.Autoformer.C69_relative_active",
    "Verif.Autoformer.C69_width",
    "Verif.Autoformer.C69_unregistered",
    "Verif.Autoformer.C69_static_partial",
    "Verif.Autoformer.C69_static_succeeds",
    "Verif.Autoformer.C69_bias_violated",
    "Verif.Autoformer.C69_scale_violated",
    "Verif.Autoformer.C69_depth",
    "Verif.Autoformer.C69_depth_violated",
    "Verif.Autoformer.C69_depth_missing_violated",
    "Verif.Autoformer.C69_build_partial",
    "Verif.Autoformer.C69_build_violated",
    "Verif.Autoformer.C69_tokens_partial",
    "Verif.Autoformer.C69_patch_violated",
    "Verif.Autoformer.C69_tokens_refused",
    "Verif.Autoformer.C69_relative_refused",
    "Verif.Autoformer.C69_relative_unregistered"
   ],
   "note": "Proved under a guard: C69_static_relative_partial: The exported relative positions are those of the searched module when the largest displacement is 14. Missing: any other value, see `C69_static_relative_violated`. C69_static_partial: The exported attention computes what the searched one does, when the query width is 64 for each chosen head, the scale is the default one and relative positions reach to 14. Missing: other scales and other largest displacements, see `C69_scale_violated` and `C69_static_relative_violated`. C69_build_partial: When the last depth listed is the largest, as many layers are built, each with the largest number of heads. Missing: other orders, see `C69_build_violated`. C69_tokens_partial: With patches of 16 every image of at least 16 gives one token for each patch and the class token. Missing: other patches, see `C69_patch_violated`. The code violates the property (proved): C69_rectangle_violated: DISAGREEMENT: the side of the grid is taken to be the square root of the number of patches. On a grid that is not square the displacement is wrong: on two rows of three patches, the first patches of both rows count as one column apart. C69_static_relative_violated: DISAGREEMENT: the exported module keeps the tables but not the largest displacement, which becomes 14 again. For every other value some tables give other embeddings, or an index outside the table. C69_bias_violated: DISAGREEMENT: attention without biases for queries, keys and values is allowed (`qkv_bias=False`) and can be trained and searched, but cannot be exported. C69_scale_violated: DISAGREEMENT: the exported attention has the default scale, whatever `qk_scale` was given: for every other scale there is an input on which the exported layer answers differently. C69_depth_violated: DISAGREEMENT: a depth larger than the number of layers is to be refused, but the dictionary of mutables counts as a layer: one more than there are is accepted. Two more are refused. C69_depth_missing_violated: DISAGREEMENT: a sequence whose depth is not searched is to run all its layers; it raises instead. C69_build_violated: DISAGREEMENT: the depths may be listed in any order, but when the last is not the largest the construction of the backbone raises. C69_patch_violated: DISAGREEMENT: `patch_size` changes the number of positions but not the patches, which stay 16 wide. Other sizes fail in the forward pass, and one larger than the image gives all tokens the same position without any error."
  },
  {
   "property": "C70",
   "status": "partial",
   "theorems": [
    "Verif.Onnx.C70_sort",
    "Verif.Onnx.C70_cycle",
    "Verif.Onnx.C70_meaning",
    "Verif.Onnx.C70_names_violated",
    "Verif.Onnx.C70_omitted_violated",
    "Verif.Onnx.C70_optimize_partial",
    "Verif.Onnx.C70_direct_violated",
    "Verif.Onnx.C70_array_violated",
    "Verif.Onnx.C70_pads_partial",
    "Verif.Onnx.C70_output_violated",
    "Verif.Onnx.C70_unread_violated",
    "Verif.Onnx.C70_computed_violated",
    "Verif.Onnx.C70_old_violated"
   ],
   "note": "Proved under a guard: C70_optimize_partial: Optimising a valid graph without cycles removes exactly the isolated nodes and the initializers that no node reads, sorts the rest, and keeps the outputs, when none of them comes from what is removed. Missing: outputs that come straight from an isolated node or an unread initializer, see `C70_direct_violated` and `C70_array_violated`. C70_pads_partial: Taking out the paddings by nothing: it succeeds, takes out exactly the nodes that pad by known widths of zero, leaves name, operator and outputs of the others, and the graph computes what it did. Missing: the guards on paddings; see `C70_output_violated`, `C70_unread_violated`, `C70_computed_violated` and `C70_old_violated`. The code violates the property (proved): C70_names_violated: DISAGREEMENT: names of nodes are optional in ONNX and need not differ, but a graph in which two nodes have the same name is never sorted: the error says that it has a cycle. C70_omitted_violated: DISAGREEMENT: inputs of nodes may be omitted in ONNX, the name is then empty. A graph in which a node reads such a name (or any that is not defined) cannot be sorted: the lookup fails. C70_direct_violated: DISAGREEMENT: a node between a graph input and a graph output is connected with no other node. It is taken for unused and removed, and the graph that remains does not define its output. C70_array_violated: DISAGREEMENT: an initializer that is itself an output of the graph and is not read by a node is removed, and the output is lost. C70_output_violated: DISAGREEMENT: a padding by nothing that is both read and an output of the graph is taken out, and nothing writes that output any more: the exported graph fails on every input. C70_unread_violated: DISAGREEMENT: a padding by nothing whose output no node reads (it is an output of the graph, say) stops the export with a KeyError. C70_computed_violated: DISAGREEMENT: a padding whose widths are computed by the graph stops the export with a KeyError, also when it pads by something. C70_old_violated: DISAGREEMENT: a padding in the style of old operator sets, with its widths as an attribute and one input, stops the export with an IndexError."
  },
  {
   "property": "C71",
   "status": "partial",
   "theorems": [
    "Verif.Onnx.C71_scalar_partial",
    "Verif.Onnx.C71_scalar_near",
    "Verif.Onnx.C71_tie_violated",
    "Verif.Onnx.C71_bytes",
    "Verif.Onnx.C71_narrow_violated",
    "Verif.Onnx.C71_unsigned_violated",
    "Verif.Onnx.C71_constants_violated",
    "Verif.Onnx.C71_refused",
    "Verif.Onnx.C71_unknown",
    "Verif.Onnx.C71_openvino_partial",
    "Verif.Onnx.C71_tensorrt_partial",
    "Verif.Onnx.C71_axis_violated",
    "Verif.Onnx.C71_transposed_violated",
    "Verif.Onnx.C71_shared_violated",
    "Verif.Onnx.C71_range_refused"
   ],
   "note": "Proved under a guard: C71_scalar_partial: OpenVINO's operator, given the range `[(qmin - z)\u00b7s, (qmax - z)\u00b7s]`, does what the fake quantiser does, away from the middles between two steps (and there, too, when zero point and smallest integer are both even or both odd). Missing: the other middles, see `C71_tie_violated`. C71_openvino_partial: Exporting to OpenVINO: the fake quantisers are gone, and the exported graph computes what the graph computed. Missing: paddings (`C70_pads_partial`), values in the middle between two steps (`C71_tie_violated`), channels other than the rows of a weight at the second input of its first reader (`C71_transposed_violated`), tensors that are quantised twice (`C71_shared_violated`), constants of the last fake quantiser only (`C71_constants_violated`), and outputs that come straight from isolated nodes (`C70_direct_violated`). C71_tensorrt_partial: Exporting to TensorRT: the same, for fake quantisers of tensors to all signed bytes. Missing: fake quantisers of channels (`C71_axis_violated`) and other ranges (`C71_narrow_violated`, `C71_unsigned_violated`). The code violates the property (proved): C71_tie_violated: DISAGREEMENT: at every middle between two steps inside the range, the exported operator is a whole step off, if one of zero point and smallest integer is even and the other odd (symmetric weights from -127, say). C71_narrow_violated: DISAGREEMENT: a fake quantiser from -127 is accepted for TensorRT, but the byte operators reach -128. C71_unsigned_violated: DISAGREEMENT: a fake quantiser of unsigned bytes with zero point 0 is accepted for TensorRT, where signed bytes cut everything above 127 steps and keep what is below zero. C71_constants_violated: DISAGREEMENT: a constant that only the last fake quantiser reads is to be removed twice: ValueError. C71_axis_violated: DISAGREEMENT: ONNX's operators quantise along the second axis when no axis is given, and none is: a weight with scales for its rows is quantised by columns after the export to TensorRT. C71_transposed_violated: DISAGREEMENT: when the first reader of a weight with scales for its rows has no second input (a transposition), the bounds have one axis only and are aligned with the columns: the graph exported to OpenVINO quantises by columns, or does not run. C71_shared_violated: DISAGREEMENT: the names of the bounds are made of the name of the tensor only: of two fake quantisers of one tensor, the second gets the bounds of the first."
  },
  {
   "property": "C72",
   "status": "partial",
   "theorems": [
    "Verif.Deploy.C72_update",
    "Verif.Deploy.C72_deploy_partial",
    "Verif.Deploy.C72_calibrated",
    "Verif.Deploy.C72_learned",
    "Verif.Deploy.C72_learned_near",
    "Verif.Deploy.C72_learned_violated",
    "Verif.Deploy.C72_full_range_violated",
    "Verif.Deploy.C72_affine_partial",
    "Verif.Deploy.C72_affine_violated",
    "Verif.Deploy.C72_zero_factor_violated",
    "Verif.Deploy.C72_tree",
    "Verif.Deploy.C72_activation",
    "Verif.Deploy.C72_sigmoid_violated",
    "Verif.Deploy.C72_zero_point"
   ],
   "note": "Proved under a guard: C72_deploy_partial: `get_deploy_model`: when the weights are fake-quantised and then get new fake quantisers, whose scales are computed from the fake-quantised weights, the layer still computes the same, if the old scales use their ranges. The rest of the property fails, see below. C72_affine_partial: Affine schemes: weights keep their values after deployment, when the smallest and the largest integer of the range are taken. Missing: ranges that are not used, see `C72_affine_violated`. The code violates the property (proved): C72_learned_violated: DISAGREEMENT: deployment may change weights whose scales were learned. With eight bits, when no weight of a group takes the integer 127 and `k < 127` is the largest one taken, every weight whose integer is not 0, `k` or `-k` has another value after deployment, because new scales are computed from the fake-quantised weights. C72_full_range_violated: DISAGREEMENT: with the full range of signed integers (`is_symmetric_range` not set), deployment changes every layer that was calibrated with a min-max observer: the largest weight of a group is multiplied by `hi / (hi + 1/2)`, or by `(hi + 1) / (hi + 1/2)` when the group has a negative weight of that size. C72_affine_violated: DISAGREEMENT: with an affine scheme, deployment can change weights that were calibrated with a min-max observer: the weights `-t/2`, `127 t` and `254.5 t` have scale `t` and become `0`, `127 t` and `254 t`, so that the new scale is smaller and the second one changes. C72_zero_factor_violated: DISAGREEMENT: a quantised layer cannot be evaluated where the batch normalisation multiplies a channel by zero (torch divides by that factor), but the deployed layer gives a number there. C72_sigmoid_violated: DISAGREEMENT: the fake quantiser of sigmoid outputs has a fixed scale of 1/256. When activations are configured to signed integers, it is exchanged for one that cuts every output off at 127/256."
  },
  {
   "property": "C73",
   "status": "partial",
   "theorems": [
    "Verif.ValLoops.C73_subnets",
    "Verif.ValLoops.C73_calibration",
    "Verif.ValLoops.C73_mask_violated",
    "Verif.ValLoops.C73_fixed",
    "Verif.ValLoops.C73_silent_violated",
    "Verif.ValLoops.C73_untouched_violated",
    "Verif.ValLoops.C73_slimmable",
    "Verif.ValLoops.C73_pairs_violated",
    "Verif.ValLoops.C73_teacher",
    "Verif.ValLoops.C73_self",
    "Verif.ValLoops.C73_pruned",
    "Verif.ValLoops.C73_returned_violated"
   ],
   "note": "The code violates the property (proved): C73_mask_violated: DISAGREEMENT: when an inactive channel comes before an active one, as with masks chosen by the norm of the filters, calibration stores the new statistics in the first channels of the layer, which need not be the active ones. With the second of two channels active the subnet is validated with the old statistics of that channel. C73_silent_violated: DISAGREEMENT: the loop validates nothing and reports no metrics, without a warning, for an algorithm without `sample_kinds` (any but AutoSlim and BigNAS) unless `evaluate_fixed_subnet` is set. C73_untouched_violated: DISAGREEMENT: validation changes the model. Whatever subnet was chosen before, a validation of the supernet leaves the last one it validated, with the running statistics of its channels replaced by calibrated ones; a checkpoint saved afterwards contains them. C73_pairs_violated: DISAGREEMENT: the hooks of an epoch are not called in pairs. A validation of a slimmable network calls `before_val_epoch` once for every subnet (with no subnets not at all), and `after_val_epoch` once. C73_returned_violated: DISAGREEMENT: of the loops only the one of iterative pruning returns the metrics, as `Runner.val` expects; after the others `Runner.val` returns nothing."
  },
  {
   "property": "C74",
   "status": "partial",
   "theorems": [
    "Verif.Hooks.C74_dump_epochs",
    "Verif.Hooks.C74_dump_iters",
    "Verif.Hooks.C74_dump_resumed",
    "Verif.Hooks.C74_keep_violated",
    "Verif.Hooks.C74_folder_violated",
    "Verif.Hooks.C74_estimate_partial",
    "Verif.Hooks.C74_estimate_violated",
    "Verif.Hooks.C74_never_violated",
    "Verif.Hooks.C74_batches_violated",
    "Verif.Hooks.C74_dmcp",
    "Verif.Hooks.C74_dmcp_ends",
    "Verif.Hooks.C74_endless_violated",
    "Verif.Hooks.C74_expected_violated",
    "Verif.Hooks.C74_visualise_partial",
    "Verif.Hooks.C74_visualise_violated",
    "Verif.Hooks.C74_drawn",
    "Verif.Hooks.C74_validations",
    "Verif.Hooks.C74_interval"
   ],
   "note": "Proved under a guard: C74_estimate_partial: with interval 1 resources are estimated once after every validation. Missing: other intervals, see `C74_estimate_violated` and `C74_never_violated`. C74_visualise_partial: in evaluation mode drawing features leaves the model as it is and uses its running statistics. Missing: training mode, in which the hook is called, see `C74_visualise_violated`. The code violates the property (proved): C74_keep_violated: DISAGREEMENT: `max_keep_subnets` has no effect. With interval 1 every epoch leaves a file, whatever the number of subnets to keep. C74_folder_violated: DISAGREEMENT: `out_dir` grows with every training of the same runner: the files of the second one are written to a folder inside that of the first. C74_estimate_violated: DISAGREEMENT: `interval` counts one epoch too many. Resources are estimated after the validations for which the number of finished epochs plus one is a multiple of it. C74_never_violated: DISAGREEMENT: if the interval divides the validation interval and the number of epochs, as when both intervals are the same, nothing is ever estimated (unless the interval is 1). C74_batches_violated: DISAGREEMENT: with `by_epoch=False` the hook is asked for every batch of a validation, but looks at the number of training iterations, which does not change meanwhile: resources are estimated at all batches of a validation or at none. C74_endless_violated: DISAGREEMENT: if all sampled subnets are smaller than 95 per cent of the target, as when the supernet itself is, the run never ends; the same if all are too large. No subnet is then exported, even if none was asked for. C74_expected_violated: DISAGREEMENT: the FLOPs of the exported expected subnet are not compared with the target: the test is made for a sampled subnet, which is then replaced. Whatever FLOPs the expected subnet has, it is exported last. C74_visualise_violated: DISAGREEMENT: the hook does not set evaluation mode, and is called when the model is in training mode. Features are normalised with the statistics of the single image, and every image drawn changes the running statistics that are trained, except where they agree."
  },
  {
   "property": "C75",
   "status": "partial",
   "theorems": [
    "Verif.Augment.C75_range",
    "Verif.Augment.C75_monotone",
    "Verif.Augment.C75_translate_violated",
    "Verif.Augment.C75_posterize",
    "Verif.Augment.C75_solarize",
    "Verif.Augment.C75_weakest",
    "Verif.Augment.C75_augment",
    "Verif.Augment.C75_probability_partial",
    "Verif.Augment.C75_probability_violated",
    "Verif.Augment.C75_missing",
    "Verif.Augment.C75_once_violated",
    "Verif.Augment.C75_settings",
    "Verif.Augment.C75_settings_violated",
    "Verif.Augment.C75_second_version",
    "Verif.Augment.C75_policy_table",
    "Verif.Augment.C75_policies",
    "Verif.Augment.C75_pack_partial",
    "Verif.Augment.C75_pack_violated"
   ],
   "note": "Proved under a guard: C75_probability_partial: an operation of probability one is always made, and one of probability zero is not unless the number drawn is exactly zero. Missing: a drawn number of exactly zero, see `C75_probability_violated`. C75_pack_partial: samples are packed with their label, indices and meta information as long as no sample before had an index; the first one with an index is complete. Missing: the samples after the first one with an index, see `C75_pack_violated`. The code violates the property (proved): C75_translate_violated: DISAGREEMENT: `translate_const` has no effect; translations go up to 250 pixels whatever is configured. C75_probability_violated: DISAGREEMENT: an operation of probability zero is made when the number drawn is exactly zero, which `random.random()` can return. C75_once_violated: DISAGREEMENT: magnitudes and signs are drawn when the transform is constructed and not for every image: all images to which the operations of a sub-policy are applied are, say, rotated by the same angle in the same direction, whatever is drawn at the calls. C75_settings_violated: DISAGREEMENT: the operations of the second version ignore the configured colour and interpolation: they fill with black and take the nearest pixel, whatever is configured. C75_pack_violated: DISAGREEMENT: after the first sample with an index the list of meta keys is used up, and all later samples are packed without any meta information (path, shapes, scale, flips)."
  },
  {
   "property": "C76",
   "status": "partial",
   "theorems": [
    "Verif.Build.C76_build_partial",
    "Verif.Build.C76_build_unknown",
    "Verif.Build.C76_twice_violated",
    "Verif.Build.C76_false_violated",
    "Verif.Build.C76_sub_model",
    "Verif.Build.C76_inplace_partial",
    "Verif.Build.C76_inplace_violated",
    "Verif.Build.C76_optimizers",
    "Verif.Build.C76_untrained",
    "Verif.Build.C76_unwrap_violated",
    "Verif.Build.C76_dropout_partial",
    "Verif.Build.C76_dropout_bounds",
    "Verif.Build.C76_dropout_violated",
    "Verif.Build.C76_build_refused"
   ],
   "note": "Proved under a guard: C76_build_partial: a config of a known type with an architecture yields the object or, if asked for, its architecture, and the config of the hub a model of the hub. Missing: a second use of the same config, see `C76_twice_violated`, and the wish given as `False`, see `C76_false_violated`. C76_inplace_partial: an algorithm uses its own preprocessor or else that of its architecture. If in-place modules are not allowed and none lies inside another module with the attribute, no module of the architecture works in place afterwards; nothing else changes. Missing: modules inside another module with the attribute, see `C76_inplace_violated`. C76_dropout_partial: in a network of blocks of the type, block number `n` of `total` (from zero) gets the rate times `n / total` if its layer is a chosen stage (from one) and keeps its rate otherwise. Missing: other modules among the blocks, see `C76_dropout_violated`. The code violates the property (proved): C76_twice_violated: DISAGREEMENT: asking for the architecture removes this wish from the caller's config: building a second time from the same config gives the whole algorithm instead. C76_false_violated: DISAGREEMENT: `_return_architecture_=False`, which asks for what happens anyway, is passed on to the constructor and refused by it. C76_inplace_violated: DISAGREEMENT: in-place modules inside a module that also has the attribute are missed, such as the activation of every `ConvModule`: the model works in place afterwards exactly if it has such a module. C76_unwrap_violated: DISAGREEMENT: a model that is not wrapped but has a child called `module` is taken for a wrapper: its own children cannot be configured. C76_dropout_violated: DISAGREEMENT: other modules in a layer count as positions but not in the total: a block behind as many of them as there are blocks gets at least the full rate, which can exceed one."
  },
  {
   "property": "C77",
   "status": "partial",
   "theorems": [
    "Verif.SearchOps.C77_mobile",
    "Verif.SearchOps.C77_even_kernel_violated",
    "Verif.SearchOps.C77_attentive_partial",
    "Verif.SearchOps.C77_attentive_violated",
    "Verif.SearchOps.C77_shuffle_partial",
    "Verif.SearchOps.C77_shuffle_violated",
    "Verif.SearchOps.C77_darts_partial",
    "Verif.SearchOps.C77_darts_channels_violated",
    "Verif.SearchOps.C77_efficient_partial",
    "Verif.SearchOps.C77_efficient_violated",
    "Verif.SearchOps.C77_interchange",
    "Verif.SearchOps.C77_make_refused",
    "Verif.SearchOps.C77_run_errors"
   ],
   "note": "Proved under a guard: C77_attentive_partial: (partial): blocks with the shortcut of AttentiveNAS fit on every feature map whose height and width are both even or both odd (or with stride 1). Missing: maps of an even and an odd side, see `C77_attentive_violated`. C77_shuffle_partial: (partial): units of ShuffleNet. Every candidate that the constructor accepts gives twice half of the configured channels, so the configured channels if their number is even, and divides the sizes by the stride; with stride 1 it is accepted exactly if it keeps the number of channels. Missing: odd numbers of channels, see `C77_shuffle_violated`. C77_darts_partial: (partial): operations of DARTS. On an edge between nodes of the same number of channels every operation fits; a skip connection of stride 2 exactly if channels, height and width are even. Missing: nodes of different numbers of channels, see `C77_darts_channels_violated`. C77_efficient_partial: (partial): operations of EfficientNet. Plain convolutions with \"same\" padding fit, with or without skip; separable convolutions fit, with squeeze-and-excitation only if the number of channels is kept. Missing: squeeze-and-excitation with a change of channels, see `C77_efficient_violated`. The code violates the property (proved): C77_even_kernel_violated: DISAGREEMENT: an even kernel is accepted, but makes the feature map one larger in each direction: with stride 1 such a candidate does not fit, and where input and output are added the block fails. C77_attentive_violated: DISAGREEMENT: with stride 2 the shortcut pads height and width by the parity of the width alone. If only one of them is odd, the block fails on every feature map of height at least four; a height of two or three gives a wrong shape or another broadcast result instead of \u2308h / 2\u2309 rows. C77_shuffle_violated: DISAGREEMENT: an odd number of output channels is accepted with stride 2, but the unit then gives one channel less than configured. C77_darts_channels_violated: DISAGREEMENT: between nodes with different numbers of channels the operations of DARTS do not fit although they take both numbers: pooling and dilated convolutions fail, and a skip connection of stride 1 and the zero operation pass on the wrong number of channels. C77_efficient_violated: DISAGREEMENT: the squeeze-and-excitation layer of a separable convolution is built for the output channels but applied to the input ones, so the block fails whenever they differ; and a plain convolution of kernel 3 or more with the default padding of zero fails where it adds its input."
  },
  {
   "property": "C78",
   "status": "partial",
   "theorems": [
    "Verif.Backbones.C78_mobilenet_v2",
    "Verif.Backbones.C78_shufflenet_v2_partial",
    "Verif.Backbones.C78_shufflenet_v2_violated",
    "Verif.Backbones.C78_mobilenet_v3_partial",
    "Verif.Backbones.C78_residual_violated",
    "Verif.Backbones.C78_depth_zero_violated",
    "Verif.Backbones.C78_activations",
    "Verif.Backbones.C78_activations_violated",
    "Verif.Backbones.C78_freeze_partial",
    "Verif.Backbones.C78_freeze_stem_violated",
    "Verif.Backbones.C78_freeze_bound_violated",
    "Verif.Backbones.C78_range"
   ],
   "note": "Proved under a guard: C78_shufflenet_v2_partial: (partial): SearchableShuffleNetV2, with or without last layer, if all numbers of channels are even. Missing: odd numbers of channels, see `C78_shufflenet_v2_violated`. C78_mobilenet_v3_partial: (partial): AttentiveMobileNetV3 with the shortcuts of AttentiveNAS, on square images. Whatever is chosen for channels, depths, kernel sizes and expand ratios, in normal and in fine-grained mode, all layers agree on the active channels; every stage returns the chosen channels and the size divided by the strides, the last layer the chosen channels at size 1x1. Missing: the other kind of shortcuts, see `C78_residual_violated`, a depth of zero, see `C78_depth_zero_violated`, and other images. C78_freeze_partial: (partial): freezing. After `train(mode)` the first `frozen_stages` layers are in evaluation mode and not trained, all others are in the mode asked for and trained as before; with `norm_eval` no batch norm is in training mode. The stem is in the mode asked for, and not trained if any stage (from 0 on) is frozen. Missing: the mode of a frozen stem, see `C78_freeze_stem_violated`, and more frozen stages than layers, see `C78_freeze_bound_violated`. The code violates the property (proved): C78_shufflenet_v2_violated: DISAGREEMENT: `round(channel * widen_factor)` may be odd. Then a stage of two or more blocks cannot be built (AssertionError), and one of a single block can, but the next convolution fails on every image. C78_residual_violated: DISAGREEMENT: without the shortcuts of AttentiveNAS, whether input and output of a block are added is decided by the largest candidates. Where these are equal for two layers in a row and the stride is 1, every choice of two different numbers of channels above one makes the network fail. C78_depth_zero_violated: DISAGREEMENT: zero is accepted as a candidate for the number of blocks of a layer. If it is chosen the layer passes its input on, but the next layer expects the channels chosen for the skipped one and fails unless they happen to agree. C78_activations_violated: DISAGREEMENT: the list given by the caller is emptied from both ends. A second backbone built from the same list (as when a config is used twice) raises IndexError. C78_freeze_stem_violated: DISAGREEMENT: the stem of a frozen network stays in training mode, so without `norm_eval` its batch norm statistics keep changing. C78_freeze_bound_violated: DISAGREEMENT: numbers of frozen stages up to 7 are accepted whatever the number of layers; asking for more than there are fails only when training starts."
  },
  {
   "property": "C79",
   "status": "partial",
   "theorems": [
    "Verif.DartsNet.C79_shapes_partial",
    "Verif.DartsNet.C79_last_feature",
    "Verif.DartsNet.C79_odd_image_violated",
    "Verif.DartsNet.C79_auxiliary_violated",
    "Verif.DartsNet.C79_out_indices",
    "Verif.DartsNet.C79_refused",
    "Verif.DartsNet.C79_empty"
   ],
   "note": "Proved under a guard: C79_shapes_partial: on an image whose sides are multiples of four, and for every choice of edges and operations in every cell, the backbone of DARTS runs through: it returns the features of the requested cells in increasing order, with `nodes * base * 2 ^ r` channels and the sides of the image divided by `2 ^ r`, `r` being the number of reduction cells so far; in training, the feature of the auxiliary module comes first, if there is one and the map it reads is at least 7 x 7. Partial: the sides must be multiples of four (see `C79_odd_image_violated`) and the map of the auxiliary module large enough (`C79_auxiliary_violated`). The code violates the property (proved): C79_odd_image_violated: DISAGREEMENT: with two or more cells, no image with an odd side gets through the backbone, whatever the choice of operations: the cell after the first reduction cell halves its first input by joining the maps of even and of odd positions, which have different sizes. C79_auxiliary_violated: DISAGREEMENT: with an auxiliary module, training fails on every image whose map at the auxiliary module is smaller than 7 x 7 (a side below 28), while evaluation of the same images works."
  },
  {
   "property": "C80",
   "status": "partial",
   "theorems": [
    "Verif.ModuleGraph.C80_traced",
    "Verif.ModuleGraph.C80_check",
    "Verif.ModuleGraph.C80_repair",
    "Verif.ModuleGraph.C80_paths",
    "Verif.ModuleGraph.C80_shared_layer_fails",
    "Verif.ModuleGraph.C80_applied_twice_fails",
    "Verif.ModuleGraph.C80_concat_order_violated"
   ],
   "note": "The code violates the property (proved): C80_shared_layer_fails: DISAGREEMENT: when a layer feeds itself through the relation of the paths, as a layer applied twice in a chain does, no graph is built: sorting the nodes raises. C80_applied_twice_fails: A layer applied twice in a chain feeds itself. C80_concat_order_violated: DISAGREEMENT: a concatenation is known by the sorted ids of its inputs only (parsers.py 121-125). Of two concatenations with the same id, here of layers 1 and 2 in both orders, the graph has one node, with the inputs in the order of the first and both readers behind it: the channels of the second come in the wrong order."
  },
  {
   "property": "C81",
   "status": "partial",
   "theorems": [
    "Verif.FxTrace.C81_meaning",
    "Verif.FxTrace.C81_order",
    "Verif.FxTrace.C81_dependence",
    "Verif.FxTrace.C81_total",
    "Verif.FxTrace.C81_complete",
    "Verif.FxTrace.C81_root_branch_fails",
    "Verif.FxTrace.C81_no_proxy_fails",
    "Verif.FxTrace.C81_leftover_violated"
   ],
   "note": "The code violates the property (proved): C81_root_branch_fails: DISAGREEMENT: only called functions are recorded as a whole; a network whose forward function itself branches on an input cannot be traced. C81_no_proxy_fails: DISAGREEMENT: a function that gets no proxy but fails on a parameter it reads is called a second time and fails again, so that the network cannot be traced. C81_leftover_violated: DISAGREEMENT: what was recorded before a call failed stays in the graph: the graph can contain nodes that nothing reads and that stand for work done again inside the recorded call."
  },
  {
   "property": "C82",
   "status": "partial",
   "theorems": [
    "Verif.Ckpt.C82_last",
    "Verif.Ckpt.C82_student",
    "Verif.Ckpt.C82_student_nested_violated",
    "Verif.Ckpt.C82_distiller",
    "Verif.Ckpt.C82_distiller_violated",
    "Verif.Ckpt.C82_quant_partial",
    "Verif.Ckpt.C82_quant_violated",
    "Verif.Ckpt.C82_ofa",
    "Verif.Ckpt.C82_ofa_wrapped_fails",
    "Verif.Ckpt.C82_attentive",
    "Verif.Ckpt.C82_bignas_partial",
    "Verif.Ckpt.C82_bignas_violated"
   ],
   "note": "Proved under a guard: C82_quant_partial: a deployed quantised model: only entries below `qmodels.predict.` are kept, without it; the observed range of a weight, whose key ends in `_val`, gets the name ending in `_vals`; other keys stay. Missing: names with `_val` inside, see `C82_quant_violated`. C82_bignas_partial: BigNAS: block `d` of the seven becomes layer `d + 1`; keys without blocks stay. Missing: numbers of two digits and names ending in `model`, see `C82_bignas_violated`. The code violates the property (proved): C82_student_nested_violated: DISAGREEMENT: the prefix is removed wherever it occurs. If the student itself keeps its network under `architecture.`, its keys lose that part too, and an entry of the student may be overwritten by another. C82_distiller_violated: DISAGREEMENT: the prefix is not a component of the key. A sibling whose name begins with `model` is renamed too, to a name outside `architecture.`; and a part `teacher` of the student is put over the teacher of the distiller. C82_quant_violated: DISAGREEMENT: the text `_val` is replaced inside of names too. The scale of the weights of a layer with `_val` in its name gets the key of no layer, and a key which already ends in `_vals` is changed. C82_ofa_wrapped_fails: DISAGREEMENT: the number of a block is taken from the second part of the key, wherever `blocks` occurs. A checkpoint whose keys have a part in front of `blocks` (as saved from a model wrapped for data parallel training) is not converted for any depths. C82_bignas_violated: DISAGREEMENT: a block is recognised by the first digit of its number, and `model.` is replaced inside of names too. Block `10` becomes layer `20`, and a part whose name ends in `model` is renamed."
  },
  {
   "property": "C83",
   "status": "proved",
   "theorems": [
    "Verif.Gather.C83_backward",
    "Verif.Gather.C83_data_parallel",
    "Verif.Gather.C83_whole_batch",
    "Verif.Gather.C83_entropy",
    "Verif.Gather.C83_entropy_le"
   ],
   "note": "Proved at full strength."
  },
  {
   "property": "C84",
   "status": "partial",
   "theorems": [
    "Verif.WideNet.C84_network_partial",
    "Verif.WideNet.C84_depth",
    "Verif.WideNet.C84_freeze_fails",
    "Verif.WideNet.C84_norm_fails",
    "Verif.WideNet.C84_depths_violated",
    "Verif.WideNet.C84_zero_init",
    "Verif.WideNet.C84_missing_stage",
    "Verif.WideNet.C84_refused",
    "Verif.WideNet.C84_channels_refused"
   ],
   "note": "Proved under a guard: C84_network_partial: the network: with usable arguments and no freezing the network is built, with the given number of stages of `n` blocks each; every image of any size passes, its side is divided by the strides, rounding up, and the returned channels are as announced and as the last norm layer expects: the base channels times the width, doubled at every further stage. Missing: freezing, other norm layers and other depths, see `C84_freeze_fails`, `C84_norm_fails` and `C84_depths_violated`. The code violates the property (proved): C84_freeze_fails: DISAGREEMENT: freezing stages is announced, but freezing accesses the last norm layer before it is made: with any number of frozen stages from zero on, no network can be built. C84_norm_fails: DISAGREEMENT: the kind of norm layer is configurable, but blocks look for layers with the names of batch norm: with any other kind the network is built and fails on every image. C84_depths_violated: DISAGREEMENT: depths 50, 101 and 152 are announced (and deeper networks only warned about), but exactly the depths 10, 16, 22, 28 and 40 are supported."
  },
  {
   "property": "C85",
   "status": "partial",
   "theorems": [
    "Verif.Connect.C85_fbkd_masks",
    "Verif.Connect.C85_mgd",
    "Verif.Connect.C85_crd_partial",
    "Verif.Connect.C85_crd_zero_fails",
    "Verif.Connect.C85_byot_partial",
    "Verif.Connect.C85_byot_default_stride_fails",
    "Verif.Connect.C85_byot_odd_fails",
    "Verif.Connect.C85_byot_shrink_fails",
    "Verif.Connect.C85_neck_mean",
    "Verif.Connect.C85_neck_partial",
    "Verif.Connect.C85_neck_single_fails",
    "Verif.Connect.C85_generator_partial",
    "Verif.Connect.C85_image_size_violated",
    "Verif.Connect.C85_generator_refused"
   ],
   "note": "Proved under a guard: C85_crd_partial: the embedding of CRD for a vector that is not zero has length one, is a positive multiple of the vector, and does not depend on its scale. Missing: the zero vector, see `C85_crd_zero_fails`. C85_byot_partial: a BYOT connector of stride two whose output has `2^n` times the channels of its input can be built, and maps features of even side `2^n * q` to a feature vector of the expanded output channels and the class scores if pooling leaves one position, and fails otherwise. Missing: other strides and sides, see `C85_byot_default_stride_fails`, `C85_byot_odd_fails` and `C85_byot_shrink_fails`. C85_neck_partial: of a tuple every map is reduced, and dropout with the given rate is applied while training only, if the rate is positive; a single map is treated alike while training with a positive rate; other inputs are rejected. Not proved, since it fails: a single map otherwise. Missing: that last case, see `C85_neck_single_fails`. C85_generator_partial: a generator accepts latent data of shape `(n, latent_dim)`, or draws the asked number of samples, and rejects everything else; if the square of the scale divides the image size, it returns images of that size. Missing: other image sizes, see `C85_image_size_violated`. The code violates the property (proved): C85_crd_zero_fails: DISAGREEMENT: the zero vector has no embedding: the division by its length is not guarded by a small constant and yields not-a-number. C85_byot_default_stride_fails: DISAGREEMENT: with the default stride one every connector that can be built fails on every feature map of more than one position: the attention is always upsampled by two, so its size is not that of the features. C85_byot_odd_fails: DISAGREEMENT: with stride two every feature map of odd side above one fails: the attention is larger than the features by one. C85_byot_shrink_fails: DISAGREEMENT: an output with fewer channels than the input passes the assertion when their ratio is a power of two, but the connector then fails on every input: the loop adds no layer and the classifier expects fewer features than it gets. C85_neck_single_fails: DISAGREEMENT: a single map (which the documentation allows) fails in evaluation, and in training without dropout: the result is only assigned when dropout is applied. C85_image_size_violated: DISAGREEMENT: if the square of the scale does not divide the image size, the images are smaller than asked for (or, for a size below the square, generation fails); nothing checks it."
  },
  {
   "property": "C86",
   "status": "partial",
   "theorems": [
    "Verif.CustomTracer.C86_skip_partial",
    "Verif.CustomTracer.C86_same_name_violated",
    "Verif.CustomTracer.C86_leak_violated",
    "Verif.CustomTracer.C86_older_tracer_fails",
    "Verif.CustomTracer.C86_one_dot_fails",
    "Verif.CustomTracer.C86_methods_partial",
    "Verif.CustomTracer.C86_fetched_twice_fails",
    "Verif.CustomTracer.C86_nested_module_fails",
    "Verif.CustomTracer.C86_duplicate_partial",
    "Verif.CustomTracer.C86_duplicate_clash_violated",
    "Verif.CustomTracer.C86_register_refused",
    "Verif.CustomTracer.C86_methods_refused",
    "Verif.CustomTracer.C86_duplicate_refused"
   ],
   "note": "Proved under a guard: C86_skip_partial: the first tracer, given methods by path, class and name, with different names, can be made, and traces every model: calls of the given methods (also inherited ones) become one node, all other calls are entered. Missing: methods of the same name, see `C86_same_name_violated`. C86_methods_partial: if every module whose methods are called by the graph is a direct attribute of the model and is fetched by one node, the modules of the built graph have all methods its nodes call. Missing: modules that are nested or fetched twice, see `C86_nested_module_fails` and `C86_fetched_twice_fails`. C86_duplicate_partial: if no module of the model has the name of a copy, duplicating shared modules gives every node a module of its own: names are different, the first use keeps the module, every further use gets a new copy with the same contents. Missing: modules with the name of a copy, see `C86_duplicate_clash_violated`. The code violates the property (proved): C86_same_name_violated: DISAGREEMENT: of two given methods of the same name, of different classes, only the last one is skipped; the calls of the first one are entered: the registry is keyed by the bare name. C86_leak_violated: DISAGREEMENT: a tracer made without methods to skip still skips those of every tracer made before it: the registry belongs to the class and is never emptied. C86_older_tracer_fails: DISAGREEMENT: once a second tracer is made, the first one fails on every model that calls a skipped method: the call asks the tracer made last, which has no graph. C86_one_dot_fails: DISAGREEMENT: the check asks for at least one dot in the name of a method, but two are needed: with one dot the class is looked up in `None`. C86_fetched_twice_fails: DISAGREEMENT: if a module is fetched twice, for two of its methods, the first method is lost and the built graph cannot run: the second fetch starts an empty module. C86_nested_module_fails: DISAGREEMENT: a skipped method of a nested module (whose path contains a dot) cannot be built into a graph. C86_duplicate_clash_violated: DISAGREEMENT: if the model has a module with the name of a copy, its node silently uses a copy of the other module."
  },
  {
   "property": "C87",
   "status": "partial",
   "theorems": [
    "Verif.Compressor.C87_prepare_partial",
    "Verif.Compressor.C87_arguments",
    "Verif.Compressor.C87_default_arguments_fails",
    "Verif.Compressor.C87_narrow_violated",
    "Verif.Compressor.C87_two_holders_violated",
    "Verif.Compressor.C87_root_violated",
    "Verif.Compressor.C87_skip_path_violated",
    "Verif.Compressor.C87_calibration",
    "Verif.Compressor.C87_init_again_violated",
    "Verif.Compressor.C87_uncalibrated_violated",
    "Verif.Compressor.C87_failed_layer_violated",
    "Verif.Compressor.C87_hooks_left_fails",
    "Verif.Compressor.C87_forward_partial",
    "Verif.Compressor.C87_root_tensors_violated",
    "Verif.Compressor.C87_context_violated",
    "Verif.Compressor.C87_dtype_partial",
    "Verif.Compressor.C87_dtype_stale_violated",
    "Verif.Compressor.C87_triton_refused"
   ],
   "note": "Proved under a guard: C87_prepare_partial: If `prepare` succeeds, every convolution and linear layer that is to be compressed and is not skipped is exchanged for one of the new class with the same weights, at all paths; nothing else changes and what was shared stays shared. Missing: layers held by two attributes, models that are a single layer (see below). C87_forward_partial: In a forward pass with memory efficient hooks, started with everything in main memory, whenever a module below the root uses its own tensors they are on the device, and then exactly the modules of one hooked block are; afterwards everything is in main memory again. Missing: the root's own tensors, modules reached over two paths. C87_dtype_partial: After `with torch_setting(dtype)` the default is what it was before, whatever happens inside. Missing: a default that is changed between making and entering the object, see `C87_dtype_stale_violated`. The code violates the property (proved): C87_default_arguments_fails: DISAGREEMENT: with its default arguments `GPTQCompressor.prepare(model)` raises a `TypeError` for every model with a linear layer, because the default linear layers need `bits` and `groupsize`; the layers met before are replaced already. C87_narrow_violated: DISAGREEMENT: SparseGPT silently leaves every linear layer with fewer outputs than inputs as it is; a model of such layers is not pruned at all. C87_two_holders_violated: DISAGREEMENT: a layer that is held by two attributes is exchanged at the first only; the second keeps the old layer, which is never compressed, and the two no longer share their weights. C87_root_violated: DISAGREEMENT: a model that is itself a layer stays as it is and gets a copy as an attribute with an empty name: only the copy, which is never called, is compressed. C87_skip_path_violated: DISAGREEMENT: skipping a layer by a path other than the first has no effect. C87_init_again_violated: DISAGREEMENT: initialising again does not reset the number of samples. After a second calibration the matrix is the second moment over the number of all samples ever seen, which is too small by the factor `B / (n + B)`. C87_uncalibrated_violated: DISAGREEMENT: compressing a layer that was never calibrated, or a second time with GPTQ, does nothing but move the layer to the computing device, and no error is reported. C87_failed_layer_violated: DISAGREEMENT: a layer whose compression fails stays on the computing device. C87_hooks_left_fails: DISAGREEMENT: if the hooks are not removed before GPTQ compresses a layer, every later forward pass through it raises an `AttributeError`. C87_root_tensors_violated: DISAGREEMENT: the parameters and buffers of the model itself never get to the device: whenever the root uses them, they are in main memory. C87_context_violated: Hooks are gone after the context; DISAGREEMENT: entering the same context object twice loses the handles of the first time, whose hooks then stay on the model for good. C87_dtype_stale_violated: DISAGREEMENT: the default is remembered when the object is made, not when it is entered: if it is changed in between, leaving restores the older value."
  },
  {
   "property": "C88",
   "status": "partial",
   "theorems": [
    "Verif.MutatorCfg.C88_round_trip_partial",
    "Verif.MutatorCfg.C88_choices_with_trace_partial",
    "Verif.MutatorCfg.C88_traced_choice_violated",
    "Verif.MutatorCfg.C88_choice_lost_violated",
    "Verif.MutatorCfg.C88_parse_paths_violated",
    "Verif.MutatorCfg.C88_no_channels_fails",
    "Verif.MutatorCfg.C88_unknown_unit_fails",
    "Verif.MutatorCfg.C88_listed",
    "Verif.MutatorCfg.C88_channels",
    "Verif.MutatorCfg.C88_from_cfg_once_violated",
    "Verif.MutatorCfg.C88_predefined_violated",
    "Verif.MutatorCfg.C88_subnets",
    "Verif.MutatorCfg.C88_no_subnets",
    "Verif.MutatorCfg.C88_signature_refused"
   ],
   "note": "Proved under a guard: C88_round_trip_partial: The units that a mutator writes down with their arguments and channels are built again from that configuration, without tracing (or with `from_cfg`): the same names, arguments, channels and choices, whether the configuration is a dictionary or a file, and whatever the model's trace is. Partial: the choices must be accepted, read back unchanged and kept by the preparation (`C88_choice_lost_violated`). C88_choices_with_trace_partial: A template with the choices only (the default of the method), possibly of some of the units, is enough together with the trace and `from_cfg`: exactly the listed units are built, with the default arguments, the traced channels and the written choices. Partial: the choices must be accepted and kept, and the units must have been made with the default arguments. The code violates the property (proved): C88_traced_choice_violated: DISAGREEMENT: the choices in the configuration of the units are not used when the units are traced (the usual way, without `from_cfg`): for a mutator made by tracing, whatever choices its units are given, a mutator made by tracing from the written configuration has the same arguments, but all its units have the choice of new units. C88_choice_lost_violated: DISAGREEMENT: units whose preparation sets the largest choice (one-shot and slimmable units) lose the choices of the configuration, in every way of preparing: all units have the largest choice afterwards. C88_parse_paths_violated: DISAGREEMENT: the same configuration gives different units depending on how it is used. For an argument with a default value of the mutator which the `init_args` of a unit do not mention: with `from_cfg` and the configuration given as a dictionary, the unit gets the default of the mutator; with the configuration in a file, or with tracing, it gets the default of the class. C88_no_channels_fails: DISAGREEMENT: a unit without `channels` in a configuration used without a tracer stops with a `NameError` (the traced units are unbound), not with the `ValueError` that explains what to add. C88_unknown_unit_fails: DISAGREEMENT: with `from_cfg`, a unit that the trace does not have stops with a `KeyError`, not with the explaining `ValueError`. C88_from_cfg_once_violated: DISAGREEMENT: `from_cfg` works once. Preparing removes it from the parse configuration, so preparing again (or preparing another mutator made from the same configuration) traces: it makes all the traced units instead of the listed ones. C88_predefined_violated: DISAGREEMENT: `unit_predefined` of the default arguments reaches the first unit of a predefined model only; all others behave as without it."
  },
  {
   "property": "C89",
   "status": "partial",
   "theorems": [
    "Verif.QuantCfg.C89_params",
    "Verif.QuantCfg.C89_given_range_violated",
    "Verif.QuantCfg.C89_converted",
    "Verif.QuantCfg.C89_options_dropped_violated",
    "Verif.QuantCfg.C89_per_channel_fails",
    "Verif.QuantCfg.C89_modes",
    "Verif.QuantCfg.C89_no_observer_partial",
    "Verif.QuantCfg.C89_no_observer_violated",
    "Verif.QuantCfg.C89_single_module_fails",
    "Verif.QuantCfg.C89_academic",
    "Verif.QuantCfg.C89_function_types_fails",
    "Verif.QuantCfg.C89_swap_partial",
    "Verif.QuantCfg.C89_swap_order_violated",
    "Verif.QuantCfg.C89_swap_shared_violated",
    "Verif.QuantCfg.C89_bn_partial",
    "Verif.QuantCfg.C89_bn_weights_violated",
    "Verif.QuantCfg.C89_untouched",
    "Verif.QuantCfg.C89_type_refused"
   ],
   "note": "Proved under a guard: C89_no_observer_partial: Modules of a listed type get no observers, operations with a fixed range get the fixed one, all others the given configuration. Partial: a listed type that has a fixed range is not left out (`C89_no_observer_violated`). C89_swap_partial: Swapping leaves no `FloatFunctional` below the model and keeps the names of the children of every module. Partial: for models in which no module has the same object twice among its children (`C89_swap_shared_violated`), and up to the order (`C89_swap_order_violated`). C89_bn_partial: Converting normalisation leaves no synchronised or general normalisation layer below the model. Partial: without objects twice among the children of a module. The code violates the property (proved): C89_given_range_violated: DISAGREEMENT: what a scheme says about the range of integers itself (`quant_min`, `quant_max`, `reduce_range`, `dtype`, `qscheme`) is overwritten silently: any two accepted schemes that differ only in these entries give observers the same arguments. C89_options_dropped_violated: DISAGREEMENT: of the configurations of observers and fake quantisers only the `type` is used; any other option given there is dropped without a message. C89_per_channel_fails: DISAGREEMENT: `is_per_channel`, a documented argument of a scheme, cannot be given: it stops with a `TypeError` whatever its value. C89_no_observer_violated: DISAGREEMENT: `no_observer_modules` has no effect on types with a fixed range (sigmoid, tanh, softmax, \u2026): they are quantised although they are listed. C89_single_module_fails: DISAGREEMENT: a single name as `no_observer_modules` never works, although `str2class` takes single names: it stops with an error (for a class that exists, a `TypeError`). C89_function_types_fails: DISAGREEMENT: functions and methods, documented as keys of `object_type`, are refused with a `TypeError`. C89_swap_order_violated: DISAGREEMENT: swapping moves the swapped modules behind all others, so that the children of a module (and the calls of a sequential module, and the order of its state) change their order. C89_swap_shared_violated: DISAGREEMENT: a `FloatFunctional` with two names in a module is swapped under the first name only. C89_bn_weights_violated: DISAGREEMENT: converting forgets the weights and statistics: whatever a synchronised (or general) normalisation layer has learned, it becomes a new layer."
  },
  {
   "property": "C90",
   "status": "partial",
   "theorems": [
    "Verif.PredRun.C90_checkpoint_violated",
    "Verif.PredRun.C90_trained",
    "Verif.PredRun.C90_trained_file",
    "Verif.PredRun.C90_initial_dropped_violated",
    "Verif.PredRun.C90_samples_file_fails",
    "Verif.PredRun.C90_mlp_best_partial",
    "Verif.PredRun.C90_mlp_untrained_fails",
    "Verif.PredRun.C90_mlp_checkpoint_partial",
    "Verif.PredRun.C90_mlp_checkpoint_violated",
    "Verif.PredRun.C90_trees",
    "Verif.PredRun.C90_tree_mean",
    "Verif.PredRun.C90_rbf",
    "Verif.PredRun.C90_gp_normal",
    "Verif.PredRun.C90_gp_single_fails",
    "Verif.PredRun.C90_encoding_refused"
   ],
   "note": "Proved under a guard: C90_mlp_best_partial: Training of the network handler gives the weights of the first of the epochs with the smallest loss on the validation part, where the first `\u230an \u00b7 ratio\u230b` of the samples in random order are for training and the others for validation. Partial: if both parts have samples and some loss is below the start value. C90_mlp_checkpoint_partial: A saved network handler can be loaded if the search space has the width of the configuration, and predicts the same. Partial: for other widths see `C90_mlp_checkpoint_violated`. The code violates the property (proved): C90_checkpoint_violated: DISAGREEMENT: a checkpoint of the predictor has no effect. The search validates every subnet, exactly as without a predictor. C90_initial_dropped_violated: DISAGREEMENT: initial candidates given to the search are dropped when a predictor is trained: the search starts with an empty pool. C90_samples_file_fails: DISAGREEMENT: the files that the search writes cannot be given as training samples: the run stops with a `KeyError` before it starts. C90_mlp_untrained_fails: DISAGREEMENT: without epochs, or when one of the two parts is empty (one sample with the default ratio; ratio 1), training stops with an `UnboundLocalError`. C90_mlp_checkpoint_violated: DISAGREEMENT: a network handler trained on a search space of another width than configured (which `fit` allows) cannot be loaded again by the same configuration. C90_gp_single_fails: DISAGREEMENT: one sample is not enough for a Gaussian process, but it is not refused: the deviation is not a number."
  },
  {
   "property": "C91",
   "status": "partial",
   "theorems": [
    "Verif.Analyzer.C91_prunable",
    "Verif.Analyzer.C91_check",
    "Verif.Analyzer.C91_sizes_violated",
    "Verif.Analyzer.C91_unsupported_fails",
    "Verif.Analyzer.C91_kept",
    "Verif.Analyzer.C91_independent_partial",
    "Verif.Analyzer.C91_together_violated",
    "Verif.Analyzer.C91_trial_partial",
    "Verif.Analyzer.C91_trial_number",
    "Verif.Analyzer.C91_single_violated",
    "Verif.Analyzer.C91_template",
    "Verif.Analyzer.C91_none_fails",
    "Verif.Analyzer.C91_registered",
    "Verif.Analyzer.C91_expanded",
    "Verif.Analyzer.C91_refused",
    "Verif.Analyzer.C91_generator",
    "Verif.Analyzer.C91_data_partial",
    "Verif.Analyzer.C91_batch_fails",
    "Verif.Analyzer.C91_detector_batch_violated",
    "Verif.Analyzer.C91_pose_violated",
    "Verif.Analyzer.C91_segmentor_violated",
    "Verif.Analyzer.C91_call_violated",
    "Verif.Analyzer.C91_default",
    "Verif.Analyzer.C91_register_refused",
    "Verif.Analyzer.C91_data_refused"
   ],
   "note": "Proved under a guard: C91_independent_partial: If units do not interact (a group works exactly if each of its units works alone), the kept units are exactly those that work, and they work together. Missing: units that interact, see `C91_together_violated`. C91_trial_partial: A tried unit of at least two channels really loses some, and keeps at least one, whatever was drawn. Missing: units of one channel, see `C91_single_violated`. C91_data_partial: Demo inputs have the requested shape and flag, for plain and OpenMMLab models, for classifiers with a batch of at most four and a shape of four numbers, and for detectors with a batch of one. Missing: other models, batches and shapes, see `C91_batch_fails`, `C91_detector_batch_violated`, `C91_pose_violated` and `C91_segmentor_violated`. The code violates the property (proved): C91_sizes_violated: DISAGREEMENT: \"the output has the same shape\" is checked by the number of dimensions only: a model whose output loses channels under pruning passes, so the units that make up its output are kept as prunable. C91_unsupported_fails: DISAGREEMENT: if the output of the model in the first working mode holds anything besides tensors, lists and dictionaries (a number, a data sample, `None`), every unit is reported as not prunable, without an error. C91_together_violated: DISAGREEMENT: two units that work alone but not together are both reported as prunable: the reported units need not work together. C91_single_violated: DISAGREEMENT: a unit with a single channel is tried with all its channels: it is reported as prunable without having been tried. C91_none_fails: DISAGREEMENT: a model that returns `None` in its loss mode cannot be analysed, though the later modes would work. C91_batch_fails: DISAGREEMENT: a classifier cannot get a demo batch of more than four images: the code indexes the shape by the number of the image. C91_detector_batch_violated: DISAGREEMENT: a detector gets one image whatever batch is asked for. C91_pose_violated: DISAGREEMENT: the shape asked for a pose estimator is passed as the training flag: its inputs always have the size of the model's decoder, and are always prepared for training. C91_segmentor_violated: DISAGREEMENT: inputs of a segmentor are never prepared for training, and a segmentor with one class gets none at all. C91_call_violated: DISAGREEMENT: calling a configured demo input ignores the configured shape and training flag."
  },
  {
   "property": "C92",
   "status": "partial",
   "theorems": [
    "Verif.TransOps.C92_norm",
    "Verif.TransOps.C92_norm_static",
    "Verif.TransOps.C92_norm_unregistered_fails",
    "Verif.TransOps.C92_norm_shrunk_violated",
    "Verif.TransOps.C92_norm_register",
    "Verif.TransOps.C92_embed_static_partial",
    "Verif.TransOps.C92_embed_norm_violated",
    "Verif.TransOps.C92_embed_export_fails",
    "Verif.TransOps.C92_embed_convert_partial",
    "Verif.TransOps.C92_embed_stride_violated",
    "Verif.TransOps.C92_resize_partial",
    "Verif.TransOps.C92_resize_static",
    "Verif.TransOps.C92_resize_modes_fails",
    "Verif.TransOps.C92_resize_unregistered_fails",
    "Verif.TransOps.C92_sizes",
    "Verif.TransOps.C92_sizes_violated",
    "Verif.TransOps.C92_connect",
    "Verif.TransOps.C92_simple_test_violated",
    "Verif.TransOps.C92_replaced",
    "Verif.TransOps.C92_weights_violated",
    "Verif.TransOps.C92_embed_register",
    "Verif.TransOps.C92_interpolate_refused"
   ],
   "note": "Proved under a guard: C92_embed_static_partial: The exported patch embedding gives the outputs of the dynamic one, if the projection has a bias and no padding and there is no norm. What is missing is any other embedding. C92_embed_convert_partial: A converted patch embedding gives the outputs of the given one, if its stride is 16. Missing: other strides, see `C92_embed_stride_violated`. C92_resize_partial: A resizer with a registered size resizes to the current choice, whatever size it is called with, and so does its exported version, which is called without a size. Missing: resizers without a registered size, see `C92_resize_unregistered_fails`, and other interpolations, see `C92_resize_modes_fails`. The code violates the property (proved): C92_norm_unregistered_fails: DISAGREEMENT: a dynamic layer norm without a registered mutable cannot be run, although a new dynamic layer is said to behave as the static one (and can be exported). C92_norm_shrunk_violated: DISAGREEMENT: running the layer shrinks its own width: afterwards a mutable for all its features is refused, and one for as many features as were active is accepted, with which the layer cannot run. C92_embed_norm_violated: DISAGREEMENT: the norm of a patch embedding is left out of the exported one: it returns the features before the norm. C92_embed_export_fails: DISAGREEMENT: a patch embedding without a bias, or without a registered mutable, cannot be exported. C92_embed_stride_violated: DISAGREEMENT: a converted patch embedding uses stride 16 whatever the stride of the given one. C92_resize_modes_fails: DISAGREEMENT: three of the documented interpolation types (nearest, area and nearest-exact) always fail with the default `align_corners=False`, which PyTorch does not accept for them. C92_resize_unregistered_fails: DISAGREEMENT: a dynamic resizer without a registered size fails unless it is called with one: the default of its argument is a type, not `None`; so it does with a scale factor, which works in the static resizer. C92_sizes_violated: DISAGREEMENT: \"a list of lists\" is checked for the first entry only: later numbers are accepted. C92_simple_test_violated: DISAGREEMENT: `simple_test` leaves out the input resizer that prediction uses: the two agree only if resizing does not matter. C92_weights_violated: DISAGREEMENT: preparing a model for pruning discards the weights it has: every replaced layer has newly initialised parameters, so a trained model that is prepared behaves as an untrained one until a checkpoint is loaded."
  },
  {
   "property": "C93",
   "status": "partial",
   "theorems": [
    "Verif.DistillAlgos.C93_self",
    "Verif.DistillAlgos.C93_self_gradient",
    "Verif.DistillAlgos.C93_self_teacher_violated",
    "Verif.DistillAlgos.C93_self_detached",
    "Verif.DistillAlgos.C93_self_frozen_violated",
    "Verif.DistillAlgos.C93_self_frozen_partial",
    "Verif.DistillAlgos.C93_self_delivery_fails",
    "Verif.DistillAlgos.C93_byot_tuple_fails",
    "Verif.DistillAlgos.C93_fpn",
    "Verif.DistillAlgos.C93_fpn_gradient",
    "Verif.DistillAlgos.C93_fpn_options_violated",
    "Verif.DistillAlgos.C93_fpn_head_fails",
    "Verif.DistillAlgos.C93_fpn_record_fails"
   ],
   "note": "Proved under a guard: C93_self_frozen_partial: Without the task losses a student that is not trainable is not trained by any loss. Missing: training with the task losses, see `C93_self_frozen_violated`. The code violates the property (proved): C93_self_teacher_violated: DISAGREEMENT: `SelfDistill` says that the recorders of the self teacher \"require detach()\", but only `BYOTDistiller` detaches. With the default distiller a loss whose inputs all come from the self teacher pulls the teacher side towards the student: its gradient is that of the records themselves. C93_self_frozen_violated: DISAGREEMENT: `student_trainable=False` (\"whether the student is trainable\") has no effect on `SelfDistill` as long as the task losses are calculated, the default: the step is the same, and the task losses train the student. C93_self_delivery_fails: DISAGREEMENT: `SelfDistill` accepts deliveries but never records for them: in every history of steps, every step whose pass calls a delivered function ends with an assertion error. C93_byot_tuple_fails: DISAGREEMENT: `BYOTDistiller` detaches records that may be tuples (a layer returning several features): such an input of the self teacher ends every step with an error. C93_fpn_options_violated: DISAGREEMENT: `FpnTeacherDistill` takes the options `student_trainable` and `calculate_student_loss` of `SingleTeacherDistill` and ignores both: whatever their values, a step that succeeds reports all task losses, and they train the student. C93_fpn_head_fails: DISAGREEMENT: the teacher of `FpnTeacherDistill` runs without its head, so a delivery of a function of the head (label assignment, for example) is never filled: the step of a student that calls it ends with an assertion error. C93_fpn_record_fails: Nor is there a record of the head of the teacher: a loss asking for it ends every step in which distillation is on with an error."
  },
  {
   "property": "C94",
   "status": "partial",
   "theorems": [
    "Verif.Utils.C94_size",
    "Verif.Utils.C94_crop",
    "Verif.Utils.C94_crop_whole",
    "Verif.Utils.C94_crop_fails",
    "Verif.Utils.C94_max",
    "Verif.Utils.C94_mean",
    "Verif.Utils.C94_select",
    "Verif.Utils.C94_grid_partial",
    "Verif.Utils.C94_arrangement_violated",
    "Verif.Utils.C94_raw",
    "Verif.Utils.C94_refused",
    "Verif.Utils.C94_iteration",
    "Verif.Utils.C94_missing_fails",
    "Verif.Utils.C94_setup",
    "Verif.Utils.C94_setup_fails",
    "Verif.Utils.C94_scope_partial",
    "Verif.Utils.C94_scope_again",
    "Verif.Utils.C94_levels",
    "Verif.Utils.C94_log_partial",
    "Verif.Utils.C94_level_violated",
    "Verif.Utils.C94_file_level_violated",
    "Verif.Utils.C94_levels_refused"
   ],
   "note": "Proved under a guard: C94_grid_partial: Without a reduction: the channels with the largest sums, `topk` of them or all if there are fewer, largest first, each with its number, in the grid that was asked for. Missing: grids that are compared with a larger `topk`, see `C94_arrangement_violated`. C94_scope_partial: Registering all modules makes the scope of the library the current one, whatever scopes were created before, as long as the time has not been used for a name. Missing: a time that has been used for a name. C94_log_partial: A message is printed with its level by every process, or only by the first. Missing: levels that do not exist, see `C94_level_violated`. The code violates the property (proved): C94_crop_fails: DISAGREEMENT: a feature map is cropped to nothing, and drawing it fails, when the overlaid image is too elongated for it: at least twice as wide as `w` rows of the proportions of the image would allow. C94_arrangement_violated: DISAGREEMENT: the grid is compared with `topk` before `topk` is limited to the number of channels, so a grid with room for every channel is refused. C94_missing_fails: Missing information is a key error, and no epochs or no iterations a division by zero. C94_setup_fails: DISAGREEMENT: configurations of mmengine have no section `data`: setting up a process with one fails unless both thread variables are already set. C94_level_violated: DISAGREEMENT: a level that does not exist is only noticed by the process that prints: the first one stops with an error while the others go on. C94_file_level_violated: DISAGREEMENT: `set_log_level` changes the logger and the first handler only: a log file keeps its level, so after asking for more output the file still misses the messages below its own level."
  },
  {
   "property": "C95",
   "status": "partial",
   "theorems": [
    "Verif.SubModel.C95_widths",
    "Verif.SubModel.C95_roundtrip_partial",
    "Verif.SubModel.C95_deploy_divisible",
    "Verif.SubModel.C95_names_violated",
    "Verif.SubModel.C95_names_partial",
    "Verif.SubModel.C95_divisible_again",
    "Verif.SubModel.C95_deploy_missing",
    "Verif.SubModel.C95_zero_fails",
    "Verif.SubModel.C95_init_partial",
    "Verif.SubModel.C95_init_violated"
   ],
   "note": "Proved under a guard: C95_roundtrip_partial: From finetuning to deployment with the divisor 1: the saved structure, applied to the unpruned architecture, gives a static model with the widths of the finetuned one, so the checkpoint fits. Missing: other divisors, see `C95_names_violated`. C95_names_partial: With a divisor other than 1 the saved structure can be deployed when rounding restores every unit to its width before pruning. Missing: units that rounding does not restore, see `C95_names_violated`. C95_init_partial: The built model is not initialised again, however often and wherever `init_weights` is called, and the structure is saved exactly if the main process did so with a known working directory. Missing: architectures that are no `BaseModel`, see `C95_init_violated`. The code violates the property (proved): C95_names_violated: DISAGREEMENT: with a divisor other than 1 `GroupFisherSubModel` saves the structure under the names of the units of the *pruned* model, and names contain the numbers of channels. As soon as some unit ends with another width than it had before pruning, the saved file cannot be used for `GroupFisherDeploySubModel`: it ends with a key error. C95_zero_fails: The divisor 0 ends with a division by zero. C95_init_violated: DISAGREEMENT: only a `BaseModel` is protected from being initialised again: another architecture loses its weights when the runner initialises it, and its structure is never saved."
  },
  {
   "property": "C96",
   "status": "partial",
   "theorems": [
    "Verif.Predefined.C96_possible",
    "Verif.Predefined.C96_refused",
    "Verif.Predefined.C96_some_layers_fails",
    "Verif.Predefined.C96_units",
    "Verif.Predefined.C96_related",
    "Verif.Predefined.C96_candidates",
    "Verif.Predefined.C96_set",
    "Verif.Predefined.C96_set_refused",
    "Verif.Predefined.C96_start",
    "Verif.Predefined.C96_nothing",
    "Verif.Predefined.C96_names",
    "Verif.Predefined.C96_names_violated",
    "Verif.Predefined.C96_construct",
    "Verif.Predefined.C96_default_violated",
    "Verif.Predefined.C96_default_start_violated"
   ],
   "note": "The code violates the property (proved): C96_some_layers_fails: DISAGREEMENT: a model in which only some of the dynamic layers carry choices of channels is recognised as one with channels to search, and then preparing the search ends with an `AttributeError`: the layers without choices are not left out. C96_names_violated: DISAGREEMENT: the dictionary of all units by name loses units: a unit that only feeds a layer and the one made by the same layer have the same name when the ranges and numbers agree. C96_default_violated: DISAGREEMENT: a choice made without candidates should offer all its channels. A second one offers the number of channels of the first one: with more channels it can only be narrowed, and a search starts it narrow; with fewer it offers more than there are. The missing list is one object for all calls. C96_default_start_violated: DISAGREEMENT: such a choice of more channels is then searched, and starts, with fewer channels than the layer has."
  },
  {
   "property": "C97",
   "status": "partial",
   "theorems": [
    "Verif.Triton.C97_schedule",
    "Verif.Triton.C97_stored",
    "Verif.Triton.C97_product_partial",
    "Verif.Triton.C97_product_violated",
    "Verif.Triton.C97_strided_violated",
    "Verif.Triton.C97_gradient_partial",
    "Verif.Triton.C97_gradient_violated",
    "Verif.Triton.C97_expanded_violated",
    "Verif.Triton.C97_weights_partial",
    "Verif.Triton.C97_tunes",
    "Verif.Triton.C97_empty_fails",
    "Verif.Triton.C97_forward_partial",
    "Verif.Triton.C97_forward_violated",
    "Verif.Triton.C97_remembered_violated",
    "Verif.Triton.C97_backward_partial",
    "Verif.Triton.C97_backward_violated",
    "Verif.Triton.C97_rounded",
    "Verif.Triton.C97_fastest",
    "Verif.Triton.C97_measured",
    "Verif.Triton.C97_estimated",
    "Verif.Triton.C97_estimates_fails",
    "Verif.Triton.C97_powers",
    "Verif.Triton.C97_zero_refused"
   ],
   "note": "Proved under a guard: C97_product_partial: The product is the product with the weights that the packed tensors stand for, if the block along the inputs divides their number and all tensors are contiguous. Missing: other blocks and tensors, see `C97_product_violated` and `C97_strided_violated`. C97_gradient_partial: The gradient of the input is the product with the transposed weights, if the block along the outputs divides their number and all tensors are contiguous. Missing: other blocks and tensors, see `C97_gradient_violated` and `C97_expanded_violated`. C97_weights_partial: The weights of the kernels are those that were packed: codes below `2 ^ bits` and zero points from 1 to `2 ^ bits`, with numbers of inputs and outputs that are multiples of 32. Missing: the zero point 0 and other numbers of inputs and outputs, see `C40_zeros_violated` and `C40_weights_violated`. C97_forward_partial: After all calls of all sizes, with whatever times, the product is right, if the number of inputs is a multiple of 128. Missing: other numbers of inputs, see `C97_forward_violated`. C97_backward_partial: After all calls of all sizes, with whatever times, the gradient is right, if the number of outputs is a multiple of 128. Missing: other numbers of outputs, see `C97_backward_violated`. The code violates the property (proved): C97_product_violated: DISAGREEMENT: the loads along the inputs have no mask, so for a block that does not divide the number of inputs the product also contains what is stored behind the tensors. C97_strided_violated: DISAGREEMENT: the input is read with steps of one element from block to block, whatever its strides are, so the product with a transposed input is wrong. C97_gradient_violated: DISAGREEMENT: the same lack of masks in the gradient. C97_expanded_violated: DISAGREEMENT: a gradient of strides 0, as of `output.sum()`, has one element in memory; the kernel reads others, as soon as there is more than one block. C97_empty_fails: DISAGREEMENT: an input without rows, for which there is nothing to compute, is a `ValueError`, after every history of calls. C97_forward_violated: DISAGREEMENT: for more than 64 inputs, not a multiple of 128, it depends on the times measured whether the product is right: there are times for which the block chosen does not divide the number of inputs and the product contains what is stored behind the tensors. C97_remembered_violated: DISAGREEMENT: the configuration is remembered for the sizes rounded to powers of two, and sizes that are rounded alike may need different ones: after a product with 128 inputs, one with 96 inputs takes the block of 128, whatever the times are then. C97_backward_violated: DISAGREEMENT: for every number of outputs that is not a multiple of 128, also for 32 and 64, there are times for which the gradient contains what is stored behind the tensors: the blocks of this kernel are not shrunk. C97_estimates_fails: DISAGREEMENT: a model of the running time cannot be used together with the pruner of the kernels, and leaving the pruner out of the options is an error too."
  },
  {
   "property": "C98",
   "status": "partial",
   "theorems": [
    "Verif.SyncNorm.C98_step",
    "Verif.SyncNorm.C98_training",
    "Verif.SyncNorm.C98_eval_partial",
    "Verif.SyncNorm.C98_eval_untracked_violated",
    "Verif.SyncNorm.C98_masks_violated",
    "Verif.SyncNorm.C98_cpu"
   ],
   "note": "Proved under a guard: C98_eval_partial: In evaluation with running statistics, nothing is changed and the outputs put together are the output for the whole batch. Missing: layers without running statistics, see `C98_eval_untracked_violated`. The code violates the property (proved): C98_eval_untracked_violated: DISAGREEMENT: in evaluation without running statistics every process normalises with its own part of the batch, so the result depends on how the batch is divided. C98_masks_violated: DISAGREEMENT: nothing checks that the processes use the same channels: with masks of the same size but different channels their data are mixed, and their statistics differ afterwards."
  },
  {
   "property": "C99",
   "status": "partial",
   "theorems": [
    "Verif.Ddp.C99_subnets",
    "Verif.Ddp.C99_darts",
    "Verif.Ddp.C99_dmcp_partial",
    "Verif.Ddp.C99_dmcp_violated",
    "Verif.Ddp.C99_fisher_violated",
    "Verif.Ddp.C99_replicas_violated",
    "Verif.Ddp.C99_fisher_partial",
    "Verif.Ddp.C99_dsnas_violated",
    "Verif.Ddp.C99_slower_violated",
    "Verif.Ddp.C99_wrapped",
    "Verif.Ddp.C99_names_violated",
    "Verif.Ddp.C99_exchange_agree"
   ],
   "note": "Proved under a guard: C99_dmcp_partial: DMCP in any number of processes that draw the same random numbers for the choice between random and direct sampling: as long as no update of the architecture parameters is due, all processes hold the same weights, architecture parameters and optimizers, those of one process trained with the mean of the losses. What is missing is the iterations with an update, see `C99_dmcp_violated`. C99_fisher_partial: If all processes get the same batches they stay the same; what is missing is different batches. The code violates the property (proved): C99_dmcp_violated: DISAGREEMENT: in DMCP the architecture parameters are updated with the model itself and not with the wrapper, so that the processes do not exchange the gradients: after the first update each process has parameters of its own (here \u22121 and \u22123 instead of \u22122 on both), and nothing brings them together again, although the channels of all processes are sampled from them. C99_fisher_violated: DISAGREEMENT: `GroupFisherDDP` runs the wrapped model and not itself, so that nothing is exchanged: each process trains on its own batches only, whatever the others do. C99_replicas_violated: DISAGREEMENT: after one step from the same weights, two processes whose gradients differ have different weights; from then on they are different networks, while the channels to prune are chosen in common. C99_dsnas_violated: DISAGREEMENT: the architecture parameters of DSNAS are updated without an exchange too, and the broadcast before the finetune stage takes those of the first process: what the other processes have sampled and learned has no influence on the architecture that is kept. C99_slower_violated: DISAGREEMENT: since the loss is divided by the number of processes and never summed over them, the architecture parameters move `n` times less in `n` processes than in one, even if all of them sample the same choices. C99_names_violated: DISAGREEMENT: a checkpoint written by distributed DARTS has other names than the model itself whenever the model contains a `BatchNorm2d`, so that it does not fit a model outside the wrapper, and wrapping a model once more changes the names again."
  },
  {
   "property": "C100",
   "status": "partial",
   "theorems": [
    "Verif.ChannelNodes.C100_sets",
    "Verif.ChannelNodes.C100_masks_partial",
    "Verif.ChannelNodes.C100_once",
    "Verif.ChannelNodes.C100_twice_fails",
    "Verif.ChannelNodes.C100_groups_violated",
    "Verif.ChannelNodes.C100_orders_fails",
    "Verif.ChannelNodes.C100_range_refused",
    "Verif.ChannelNodes.C100_ordinary",
    "Verif.ChannelNodes.C100_plain",
    "Verif.ChannelNodes.C100_refusals",
    "Verif.ChannelNodes.C100_shapes"
   ],
   "note": "Proved under a guard: C100_masks_partial: For graphs whose tensors are shared as wholes (`plan`) and whose units show their widths: the masks that the layers can get from the masks of the search units are exactly the admissible ones. So whatever the units choose, tensors that are added have equal masks, grouped layers keep the same channels in every group, a flattened channel is kept or dropped as a whole, and a shared layer is pruned the same way everywhere; and no admissible way to prune is left out. Missing: graphs whose tensors are not shared as wholes, and units that do not show their widths, see `C100_groups_violated` and `C100_orders_fails`. The code violates the property (proved): C100_twice_fails: DISAGREEMENT: the units of a graph cannot be read a second time when a channel of a layer shares its set with a channel of a tensor that no layer holds (the group tensors of grouped layers, the copies of the end channel): only the channels of the layers forget their hash, and the assertion that no member of the set remembers one fails. C100_groups_violated: DISAGREEMENT: when a layer feeds grouped convolutions with two and with three groups, all its channels fall into one set, but its search unit still has one entry per channel. Masks of that unit keep channels of one group that the other groups drop; no admissible choice of channels gives them. C100_orders_fails: DISAGREEMENT: when two layers of two and three channels are concatenated in both orders and the results are added, all channels fall into one set and the search unit has two channels. The mask of the layer with three channels would need the factor 3/2, which the expansion of masks refuses, whatever the unit chooses."
  },
  {
   "property": "C101",
   "status": "partial",
   "theorems": [
    "Verif.LangEval.C101_fold",
    "Verif.LangEval.C101_perplexity",
    "Verif.LangEval.C101_short_fails",
    "Verif.LangEval.C101_fsdp_rows",
    "Verif.LangEval.C101_fsdp_partial",
    "Verif.LangEval.C101_fsdp_dropped_violated",
    "Verif.LangEval.C101_fsdp_twice_violated",
    "Verif.LangEval.C101_fsdp_few_fails",
    "Verif.LangEval.C101_length_violated",
    "Verif.LangEval.C101_calibration",
    "Verif.LangEval.C101_number_partial",
    "Verif.LangEval.C101_more_violated",
    "Verif.LangEval.C101_images_violated",
    "Verif.LangEval.C101_test_data_violated",
    "Verif.LangEval.C101_sample",
    "Verif.LangEval.C101_last_token_violated",
    "Verif.LangEval.C101_c4_fails",
    "Verif.LangEval.C101_cache_violated",
    "Verif.LangEval.C101_option_violated",
    "Verif.LangEval.C101_accuracy_partial",
    "Verif.LangEval.C101_half_accuracy",
    "Verif.LangEval.C101_half_violated",
    "Verif.LangEval.C101_no_examples",
    "Verif.LangEval.C101_fold_refused",
    "Verif.LangEval.C101_sample_refused",
    "Verif.LangEval.C101_perplexity_refused"
   ],
   "note": "Proved under a guard: C101_fsdp_partial: With several processes: the perplexity is that of the rows that are evaluated, and if the number of rows is a multiple of the number of processes times the batch size it is that of all rows, as with one process. Partial: for other numbers see `C101_fsdp_dropped_violated` and `C101_fsdp_twice_violated`. C101_number_partial: The number of rows of a calibration is the number asked for if that is a multiple of the batch size and there are that many. Partial: for other numbers see `C101_more_violated`. C101_accuracy_partial: The accuracy of an image classifier is the share of the images with the right class, for every way to split them into batches; in half precision for labels up to 2048. Partial: for other labels see `C101_half_violated`. The code violates the property (proved): C101_short_fails: DISAGREEMENT: a text shorter than a window has no perplexity, the result is not a number. C101_fsdp_dropped_violated: DISAGREEMENT: incomplete batches are dropped. If the rows of a process are not a multiple of the batch size, there is a row that can be replaced by any other without changing the perplexity. C101_fsdp_twice_violated: DISAGREEMENT: processes without enough rows get the first rows again. Three rows on two processes: the first one counts twice. C101_fsdp_few_fails: DISAGREEMENT: fewer rows than processes cannot be evaluated. C101_length_violated: DISAGREEMENT: the data set for several processes ignores the length asked for: its rows always have 2048 tokens. C101_more_violated: DISAGREEMENT: if the number asked for is not a multiple of the batch size, more rows are used, if there are more. C101_images_violated: DISAGREEMENT: for image classifiers more images than asked for are always used, if there are enough: also if the number is a multiple of the batch size, then a whole batch more. C101_test_data_violated: DISAGREEMENT: the scripts calibrate on the test data. The samples drawn for calibration do not matter, and every row that calibrates is a row that the compressed model is evaluated on. C101_last_token_violated: DISAGREEMENT: the last token of a text is never part of a sample. C101_c4_fails: DISAGREEMENT: a document of C4 with exactly as many tokens as asked for is accepted, and drawing a sample from it fails. C101_cache_violated: DISAGREEMENT: after calibrating an OPT model its configuration, which is saved with it, says that it has no cache, whatever it said before; for LLaMA it is as before. C101_option_violated: DISAGREEMENT: giving the options for memory efficient runs and for half precision a value switches them on, also the value `False`. C101_half_violated: DISAGREEMENT: in half precision a wrong class can count as right: from 2048 on (up to 4096) every fourth label and the next one are the same."
  },
  {
   "property": "C102",
   "status": "partial",
   "theorems": [
    "Verif.CmdTools.C102_amp_partial",
    "Verif.CmdTools.C102_amp_wrapper",
    "Verif.CmdTools.C102_amp_constructor",
    "Verif.CmdTools.C102_amp_ignored_violated",
    "Verif.CmdTools.C102_amp_mutator_violated",
    "Verif.CmdTools.C102_amp_refused",
    "Verif.CmdTools.C102_settings",
    "Verif.CmdTools.C102_auto_scale",
    "Verif.CmdTools.C102_resume_violated",
    "Verif.CmdTools.C102_resume",
    "Verif.CmdTools.C102_test",
    "Verif.CmdTools.C102_subnet_violated",
    "Verif.CmdTools.C102_tested",
    "Verif.CmdTools.C102_minute_violated",
    "Verif.CmdTools.C102_minute_partial",
    "Verif.CmdTools.C102_static_violated",
    "Verif.CmdTools.C102_static_partial",
    "Verif.CmdTools.C102_target_partial",
    "Verif.CmdTools.C102_choice",
    "Verif.CmdTools.C102_target_violated",
    "Verif.CmdTools.C102_wrap",
    "Verif.CmdTools.C102_wrap_violated",
    "Verif.CmdTools.C102_strip",
    "Verif.CmdTools.C102_publish",
    "Verif.CmdTools.C102_publish_violated",
    "Verif.CmdTools.C102_curve_partial",
    "Verif.CmdTools.C102_curve_violated",
    "Verif.CmdTools.C102_curve_loop_violated",
    "Verif.CmdTools.C102_by_epoch",
    "Verif.CmdTools.C102_curve_size",
    "Verif.CmdTools.C102_drawings",
    "Verif.CmdTools.C102_out_file_violated",
    "Verif.CmdTools.C102_pick",
    "Verif.CmdTools.C102_amp_architecture",
    "Verif.CmdTools.C102_amp_attribute",
    "Verif.CmdTools.C102_sim_zero"
   ],
   "note": "Proved under a guard: C102_amp_partial: `--amp` ends with an error or with a configuration in which the weights are trained in mixed precision exactly if the deciding wrapper names one of the two types it knows. Missing: a wrapper without type and the wrapper of the mutator, see `C102_amp_ignored_violated` and `C102_amp_mutator_violated`. C102_minute_partial: Conversions a minute or more apart write different files. Missing: conversions within a minute, see `C102_minute_violated`. C102_static_partial: Checkpoints whose names differ before the first dot get different files, in the given directory. Missing: names that differ only after the first dot, see `C102_static_violated`. C102_target_partial: The choices written for pruning: the current ones without a subnet, the given ones if all of them can be set. Missing: choices some of which cannot be set, see `C102_target_violated`. C102_curve_partial: The drawn curve has the iterations of the training if the total batch divides the dataset. Missing: other batches, see `C102_curve_violated`. The code violates the property (proved): C102_amp_ignored_violated: DISAGREEMENT: `--amp` is silently without effect when the wrapper has no `type`, although mmengine then builds an `OptimWrapper`, the type that `--amp` is for. C102_amp_mutator_violated: DISAGREEMENT: `--amp` never changes the wrapper of the mutator: a search trains the choices in full precision, and no message says so. C102_resume_violated: DISAGREEMENT: `resume = True` of the configuration (or of `--cfg-options`) is lost: without `--resume` every run starts from the beginning. C102_subnet_violated: DISAGREEMENT: the conversion of a supernet checkpoint never reads the checkpoint: the saved subnet is cut out of the initial weights, whatever the checkpoint holds. C102_minute_violated: DISAGREEMENT: two conversions within one minute write the same file. C102_static_violated: DISAGREEMENT: the name of a static model ends at the first dot of the name of its checkpoint: `net_0.5.pth` and `net_0.75.pth` overwrite each other. C102_target_violated: DISAGREEMENT: when one of the given choices cannot be set, the configuration should fall back to the choices of the model, but it gets those choices with all earlier given ones put in. C102_wrap_violated: DISAGREEMENT: a configuration that holds `data_preprocessor = None`, as the tool itself writes it, takes away the preprocessor of the model: applying the tool to its own output loses it. C102_publish_violated: DISAGREEMENT: if the log of the run is missing, the tool ends with an error although the checkpoint has already been published, and stays. C102_curve_violated: DISAGREEMENT: whenever the total batch does not divide the dataset, an epoch of the drawn curve is one iteration shorter than an epoch of the training. C102_curve_loop_violated: DISAGREEMENT: a training loop of another type, such as the loops of this repository that count epochs, is taken to count iterations, and the curve has one iteration per epoch whatever the dataset. C102_out_file_violated: DISAGREEMENT: all drawings are written to the one output file: only the last is left."
  },
  {
   "property": "C103",
   "status": "partial",
   "theorems": [
    "Verif.BackendCfg.C103_last",
    "Verif.BackendCfg.C103_same",
    "Verif.BackendCfg.C103_sound",
    "Verif.BackendCfg.C103_conv",
    "Verif.BackendCfg.C103_linear",
    "Verif.BackendCfg.C103_linear_bn_relu_violated",
    "Verif.BackendCfg.C103_relu_violated",
    "Verif.BackendCfg.C103_transposed_fails",
    "Verif.BackendCfg.C103_transposed_relu",
    "Verif.BackendCfg.C103_academic_violated",
    "Verif.BackendCfg.C103_chain",
    "Verif.BackendCfg.C103_twice_violated",
    "Verif.BackendCfg.C103_supported_partial",
    "Verif.BackendCfg.C103_embedding_violated",
    "Verif.BackendCfg.C103_deploy",
    "Verif.BackendCfg.C103_deploy_other",
    "Verif.BackendCfg.C103_forms_violated",
    "Verif.BackendCfg.C103_forms_partial",
    "Verif.BackendCfg.C103_positions",
    "Verif.BackendCfg.C103_numbers",
    "Verif.BackendCfg.C103_binary",
    "Verif.BackendCfg.C103_observers",
    "Verif.BackendCfg.C103_recurrent",
    "Verif.BackendCfg.C103_functional",
    "Verif.BackendCfg.C103_versions_violated",
    "Verif.BackendCfg.C103_unobserved",
    "Verif.BackendCfg.C103_names"
   ],
   "note": "Proved under a guard: C103_supported_partial: Deployment knows every module that the tables of the academic, OpenVINO and TensorRT backends put in. Missing: the native backend, see `C103_embedding_violated`. C103_forms_partial: For these layers both forms have entries, with the same numbers and observation. Missing: the other layers, see `C103_forms_violated`. The code violates the property (proved): C103_linear_bn_relu_violated: DISAGREEMENT: a linear layer with batch norm and ReLU becomes no single module: the batch norm and the ReLU are left over or fused without the linear layer, and the linear layer alone is prepared. C103_relu_violated: DISAGREEMENT: a ReLU called as `torch.relu` or as the method of a tensor is not fused with its convolution. C103_transposed_fails: DISAGREEMENT: with every backend a network with a transposed convolution followed by batch norm cannot be prepared: all backends list the pair for fusion, and its fusion raises in quantisation-aware training, which is what preparing asks for. C103_academic_violated: DISAGREEMENT: the academic quantizer fuses with the patterns of the native backend, not its own: batch norm with ReLU becomes a module for which its own configuration has no entry, while its own configuration would leave them alone. C103_twice_violated: DISAGREEMENT: the fused convolution with ReLU is entered twice, and the second entry, without root and reference module, replaces the first, which has them; the fused linear layer with ReLU keeps its own. C103_embedding_violated: DISAGREEMENT: for the native backend embeddings are exchanged as well, but deployment does not know them and leaves them in the deployed network as they are. C103_forms_violated: DISAGREEMENT: for these layers the function has an entry in the native table, the module none: whether a network is quantised there depends on how the layer is called. C103_versions_violated: The tables by name; DISAGREEMENT with the check of the quantizers, which accept every torch from 1.13.0 on: for later versions than 1.13.1 no backend has a table."
  },
  {
   "property": "C104",
   "status": "partial",
   "theorems": [
    "Verif.InputRec.C104_inputs",
    "Verif.InputRec.C104_alike",
    "Verif.InputRec.C104_place_partial",
    "Verif.InputRec.C104_shift_violated",
    "Verif.InputRec.C104_more_violated",
    "Verif.InputRec.C104_method",
    "Verif.InputRec.C104_restored_partial",
    "Verif.InputRec.C104_static_violated",
    "Verif.InputRec.C104_calls",
    "Verif.InputRec.C104_module_violated",
    "Verif.InputRec.C104_module_partial",
    "Verif.InputRec.C104_param",
    "Verif.InputRec.C104_param_refused",
    "Verif.InputRec.C104_tied_violated",
    "Verif.InputRec.C104_again_violated",
    "Verif.InputRec.C104_unknown_refused",
    "Verif.InputRec.C104_binding_refused"
   ],
   "note": "Proved under a guard: C104_place_partial: Where a parameter is found in the record: at the number of parameters before it that were given. Missing: a place that does not depend on the call, see `C104_shift_violated`. C104_restored_partial: After the recording a method is what it was, and no other name of the class has changed at any time. Missing: static methods, see `C104_static_violated`. C104_module_partial: With positional inputs only, it records the inputs. Missing: inputs given by keyword, see `C104_module_violated`. The code violates the property (proved): C104_shift_violated: DISAGREEMENT: the place of a parameter in the record depends on the call: when a parameter with a default is left out, the next one that is given stands in its place. C104_more_violated: DISAGREEMENT: keywords taken by `**more` are inputs of the function but are not recorded. C104_static_violated: DISAGREEMENT: a static method is accepted, but turned into an ordinary one: within and after the recording a call on an object gets that object as first argument, and the record of a call through the class lacks the first input. C104_module_violated: DISAGREEMENT: the recorder of the inputs of a module does not see keywords: a module called with all its inputs by keyword has an empty record. C104_tied_violated: DISAGREEMENT: a parameter shared by two layers is not found under its second name. C104_again_violated: DISAGREEMENT: initialising again with another model does not change what is read: the parameter of the first model, also within the context, whose entry clears every other recorder."
  },
  {
   "property": "C105",
   "status": "partial",
   "theorems": [
    "Verif.Heads.C105_sum",
    "Verif.Heads.C105_backward",
    "Verif.Heads.C105_empty_violated",
    "Verif.Heads.C105_mode_violated",
    "Verif.Heads.C105_targets",
    "Verif.Heads.C105_mixed_violated",
    "Verif.Heads.C105_darts",
    "Verif.Heads.C105_darts_ok",
    "Verif.Heads.C105_deit",
    "Verif.Heads.C105_conv",
    "Verif.Heads.C105_conv_partial",
    "Verif.Heads.C105_conv_violated",
    "Verif.Heads.C105_paraphrase",
    "Verif.Heads.C105_paraphrase_refused",
    "Verif.Heads.C105_factors",
    "Verif.Heads.C105_modes",
    "Verif.Heads.C105_evaluate_partial",
    "Verif.Heads.C105_evaluate_violated",
    "Verif.Heads.C105_sampled",
    "Verif.Heads.C105_deit_refused"
   ],
   "note": "Proved under a guard: C105_conv_partial: PARTIAL (see `C105_conv_violated`): the input of the connector is left unchanged too, if the activation does not work in place, there is none, or a convolution or normalisation comes before it. C105_evaluate_partial: PARTIAL (see `C105_evaluate_violated`): without `norm_training`, evaluating any batches leaves every running mean as it was. The code violates the property (proved): C105_empty_violated: DISAGREEMENT: an output without any tensor (an empty list, a dictionary of empty tuples) does not fail as an unsupported output: the pseudo loss is the number zero and the walk back from it stops with an AttributeError. C105_mode_violated: DISAGREEMENT: computing the pseudo loss does not restore the modes of the modules: a model in training mode is in evaluation mode afterwards, also if the loss fails. C105_mixed_violated: DISAGREEMENT: the first sample decides for the batch: if it has no scores, the scores of all other samples are ignored (their labels are the targets), and if it has, a sample with only a label stops the step with an AttributeError. C105_conv_violated: DISAGREEMENT: with the activation first (`order=('act', 'conv', 'norm')`, or with only a missing normalisation before it) and the default `inplace=True`, the connector overwrites the feature it was given with its activation, so everybody else who holds this feature \u2014 a recorder, another loss, the backbone's next stage \u2014 sees the changed one. C105_evaluate_violated: DISAGREEMENT: with `norm_training`, evaluating a subnet trains the statistics of the shared normalisations: after `n` batches of mean `x` a running mean `\u03bc` has become `x + (1 - m)\u207f (\u03bc - x)`, so evaluating one subnet changes the network the next one (and the saved checkpoint) is made of."
  },
  {
   "property": "C106",
   "status": "proved",
   "theorems": [
    "Verif.PrunedNet.C106_values",
    "Verif.PrunedNet.C106_units",
    "Verif.PrunedNet.C106_plain",
    "Verif.PrunedNet.C106_ordinary",
    "Verif.PrunedNet.C106_dead",
    "Verif.PrunedNet.C106_identity",
    "Verif.PrunedNet.C106_sums",
    "Verif.PrunedNet.C106_operands"
   ],
   "note": "Proved at full strength."
  },
  {
   "property": "C107",
   "status": "partial",
   "theorems": [
    "Verif.CountedNet.C107_convolutions_partial",
    "Verif.CountedNet.C107_units_partial",
    "Verif.CountedNet.C107_fewer_partial",
    "Verif.CountedNet.C107_depthwise_violated",
    "Verif.CountedNet.C107_norms_violated",
    "Verif.CountedNet.C107_linear_partial"
   ],
   "note": "Proved under a guard: C107_convolutions_partial: For the convolutions of a pruned network that are not depthwise, whatever the graph, the masks and the shapes: the FLOPs and parameters reported for the supernet are those reported for the exported network. Both are, call by call, the numbers the exported layers really hold: every one of them is one parameter, and one operation at every position of the output, per sample. Missing: depthwise convolutions, see `C107_depthwise_violated`, and normalisation layers, see `C107_norms_violated`. C107_units_partial: The same from the graph to the resources: the units are read off any graph of ordinary layers, flattened maps and concatenations; whatever masks of the right lengths the units are given, as long as the inputs and some channel in front of every module are kept, the pruned and the exported network run, with the same values, and the same FLOPs and parameters are reported for their convolutions that are not depthwise: the numbers the exported layers hold. Missing: depthwise convolutions, see `C107_depthwise_violated`. C107_fewer_partial: Dropping channels never makes a network more expensive: when one choice keeps only channels another one keeps as well, and the maps have the same sizes, the FLOPs and parameters reported for its convolutions that are not depthwise are not larger. Missing: depthwise convolutions, see `C107_depthwise_violated`. C107_linear_partial: Linear layers on vectors: the FLOPs reported for the supernet are those of the exported network, one for every entry of the exported weight (the bias is not counted). Missing: linear layers on longer tensors. The code violates the property (proved): C107_depthwise_violated: DISAGREEMENT: the FLOPs reported for a pruned depthwise convolution should be those of the exported one. They are too small by the share of active channels: of `n` channels with `a` active, `a / n` of the FLOPs are reported. C107_norms_violated: DISAGREEMENT: norm layers of the supernet should be counted like those of the exported network. Nothing is reported for them: neither the two operations for every active number that comes in, nor the weight and bias of every active channel."
  },
  {
   "property": "C108",
   "status": "partial",
   "theorems": [
    "Verif.BnSearch.C108_stored",
    "Verif.BnSearch.C108_calibrated_partial",
    "Verif.BnSearch.C108_mask_violated",
    "Verif.BnSearch.C108_search_partial",
    "Verif.BnSearch.C108_saved_partial",
    "Verif.BnSearch.C108_saved_violated",
    "Verif.BnSearch.C108_uncalibrated",
    "Verif.BnSearch.C108_skipped",
    "Verif.BnSearch.C108_untracked",
    "Verif.BnSearch.C108_switch_violated",
    "Verif.BnSearch.C108_refused"
   ],
   "note": "Proved under a guard: C108_calibrated_partial: With the first `k` channels active (as slimmable units choose), a calibrated candidate is scored with exactly the averages over its own batches, whatever was evaluated or trained before; the other channels keep their statistics. (Partial: not for other masks, see `C108_mask_violated`.) C108_search_partial: Candidates of widths validated one after the other: each is scored with the averages over its own batches, and at the end every channel holds the averages of the last candidate it took part in (or what it had before, if in none). Missing: masks that do not keep the first channels, see `C108_mask_violated`. C108_saved_partial: If the best candidate was the last one validated, the saved model has the statistics it was scored with. Missing: a best candidate that was not the last one, see `C108_saved_violated`. The code violates the property (proved): C108_mask_violated: DISAGREEMENT: with a mask whose active channels are not the first ones (as units of `L1MutableChannelUnit` or one hot choices give), calibration writes the averages to the wrong entries. An active channel at a position not below the number of active channels keeps statistics that depend on what came before (for a momentum below 1): two layers that differ there only are scored differently after the same calibration; and the entry of an inactive leading channel is replaced by the averages of another channel. C108_saved_violated: DISAGREEMENT: the search saves the weights of the best candidate without calibrating it again. If any candidate with at least one channel is validated after it, the first channel of the saved model has the averages of the last such candidate, not those the best one was scored with. C108_switch_violated: DISAGREEMENT: calibrating a switchable layer at a slim width stores the averages not only in the layer of that width (all of its statistics become the averages) but also in the first channels of the layer of the full width, through which no sample went. The layers of the other widths keep their statistics."
  },
  {
   "property": "C109",
   "status": "partial",
   "theorems": [
    "Verif.SlimUnits.C109_prepared_partial",
    "Verif.SlimUnits.C109_any_choices_partial",
    "Verif.SlimUnits.C109_train_partial",
    "Verif.SlimUnits.C109_exclusive",
    "Verif.SlimUnits.C109_deploy_partial",
    "Verif.SlimUnits.C109_deploy_last_violated",
    "Verif.SlimUnits.C109_full_unused_violated",
    "Verif.SlimUnits.C109_concat_violated",
    "Verif.SlimUnits.C109_concat_shared_violated",
    "Verif.SlimUnits.C109_ratio_violated",
    "Verif.SlimUnits.C109_unfit_refused",
    "Verif.SlimUnits.C109_rounded_violated",
    "Verif.SlimUnits.C109_no_subnets_violated",
    "Verif.SlimUnits.C109_unknown"
   ],
   "note": "Proved under a guard: C109_prepared_partial: Units in number mode with legal candidates, each normalisation layer belonging to one unit: preparing succeeds, every unit is at its widest candidate, and every layer has further layers for exactly the candidates of its unit. (Ratio mode and layers of several units are excluded: they fail, see below.) C109_any_choices_partial: However the choices are set, as long as every unit gets one of its candidates, the forward pass and the conversion to static operations find a layer for every normalisation layer; it is the one of the width set last. Missing: concatenations, see `C109_concat_violated`, and requests changed by rounding, see `C109_rounded_violated`. C109_train_partial: A training step trains every subnet: the `j`-th of them uses, in every normalisation layer, the layer of the `j`-th candidate of its unit (the layer itself for the full width). Missing: concatenations and the ratio mode, see `C109_concat_violated` and `C109_ratio_violated`. C109_deploy_partial: Deploying subnet `j` keeps, for every normalisation layer, the layer that this subnet trained, after any training steps; a negative index counts from the end and an index out of range is refused. Missing: the index `-1`, see `C109_deploy_last_violated`, concatenations and the ratio mode. The code violates the property (proved): C109_deploy_last_violated: DISAGREEMENT: `deploy_index` counts from the end when negative, but `-1` is the default and means not to deploy, so the last subnet is not deployed by it although `-2` deploys the last but one. C109_full_unused_violated: DISAGREEMENT: a unit whose full width is a candidate makes its normalisation layers create a further layer of full width (with parameters of its own), but no setting of any network ever uses a further layer of full width. C109_concat_violated: DISAGREEMENT: a normalisation layer that follows the concatenation of two units gets only the candidates of the first of them. Whenever the two widths do not add up to one of those or to the full width, the network cannot be run (nor deployed), although both units have a candidate each. C109_concat_shared_violated: DISAGREEMENT: after a concatenation two subnets with different widths in both units can share one layer, because only the sum of the widths is looked up. C109_ratio_violated: DISAGREEMENT: the ratio mode that channel units offer does not work with normalisation layers: preparing a network with such a unit and a normalisation layer of its own is always refused. C109_rounded_violated: DISAGREEMENT: the subnets hold the requested candidates while the units hold the rounded ones. A request that rounding changes to something that is no request (12 of 32 channels with divisor 8) makes every training step fail. C109_no_subnets_violated: DISAGREEMENT: without units in the configuration there are no subnets; a training step then changes nothing and trains nothing, and any deployment is refused."
  },
  {
   "property": "C110",
   "status": "partial",
   "theorems": [
    "Verif.V3Export.C110_block",
    "Verif.V3Export.C110_even_kernel",
    "Verif.V3Export.C110_stride",
    "Verif.V3Export.C110_network_partial",
    "Verif.V3Export.C110_attentive_partial",
    "Verif.V3Export.C110_ratio_violated",
    "Verif.V3Export.C110_residual_violated",
    "Verif.V3Export.C110_fine_violated"
   ],
   "note": "Proved under a guard: C110_network_partial: The subnet exported from a network is the network built with what was chosen as its only candidates, exactly if no layer depends on what was not chosen: the same stem, the same layers in the same number, the same last layer. Missing: layers that depend on what was not chosen, see the violations. C110_attentive_partial: With the attentive shortcut and without a ratio of one among larger ones, all exported subnets are the networks built with what was chosen. Missing: other shortcuts and ratios, see the violations. The code violates the property (proved): C110_ratio_violated: DISAGREEMENT: the exported subnet should be the network of the chosen settings. If a ratio of one is chosen for a layer for which a larger one is offered, the exported blocks keep a 1x1 convolution in front of the depthwise one, which the network built with a ratio of one does not have. C110_residual_violated: DISAGREEMENT: a block should add its input exactly if input and output have the same shape. Without the attentive shortcut this is decided with the largest numbers of channels: of equal ones but different chosen ones an input is added that has another number of channels, and of different ones but equal chosen ones none is. C110_fine_violated: DISAGREEMENT: every subnet of a search space should be a network of the family. In fine-grained mode the blocks of a layer may have different kernels: such a subnet is not the network of any settings, whatever the candidates."
  },
  {
   "property": "C111",
   "status": "partial",
   "theorems": [
    "Verif.L1Norm.C111_set_partial",
    "Verif.L1Norm.C111_determined",
    "Verif.L1Norm.C111_scaled",
    "Verif.L1Norm.C111_layers",
    "Verif.L1Norm.C111_nested",
    "Verif.L1Norm.C111_dead_partial",
    "Verif.L1Norm.C111_no_weights_violated",
    "Verif.L1Norm.C111_exceeds_violated",
    "Verif.L1Norm.C111_single_row"
   ],
   "note": "Proved under a guard: C111_set_partial: Setting a unit keeps as many channels as the rounded choice says, none of them less important than a dropped one, and reading it gives that number (or its share). The importance of a channel is its mean absolute weight in the layers that produce it, on average over these layers; only the rows of the slice of the unit count. Missing: units without convolutions and linear layers, see `C111_no_weights_violated`, and rounding above the width, see `C111_exceeds_violated`. C111_dead_partial: Channels without any weight are dropped first: none of them is kept as long as there are enough others (if one is kept, all dropped ones have no weight either). Missing: units that cannot be set, see `C111_no_weights_violated`. The code violates the property (proved): C111_no_weights_violated: DISAGREEMENT: a unit can be set to any of its choices. A unit none of whose producing layers is a convolution or linear layer can never be set: the average of no norms is a division by zero. C111_exceeds_violated: DISAGREEMENT: rounding a legal number of channels should give a legal one. With a divisor that does not divide the width it may be larger than the width, and is then refused."
  },
  {
   "property": "C112",
   "status": "partial",
   "theorems": [
    "Verif.L1Train.C112_run_partial",
    "Verif.L1Train.C112_target_partial",
    "Verif.L1Train.C112_shrink_partial",
    "Verif.L1Train.C112_regrow_violated",
    "Verif.L1Train.C112_unknown_refused"
   ],
   "note": "Proved under a guard: C112_run_partial: Iterative pruning with L1 units, whatever the training does to the weights: after any number of iterations every unit of the plan keeps the best channels by its weights at the last pruning, as many as planned for it, and the target from the last pruning on; the other units are left alone. Missing: units that cannot be set, see `C111_no_weights_violated` and `C111_exceeds_violated`. C112_target_partial: After the last pruning every unit of the plan has exactly the channels it should have, the best ones by the weights at that pruning, and nothing changes any more. Missing: units that cannot be set, see `C111_no_weights_violated` and `C111_exceeds_violated`. C112_shrink_partial: As long as the weights of a unit stay the same, its channels only get fewer. Missing: weights that are trained between the prunings, see `C112_regrow_violated`. The code violates the property (proved): C112_regrow_violated: DISAGREEMENT: a channel that has been pruned should stay pruned. When the weights are trained between the prunings, a dropped channel comes back as soon as its weights are among the largest again: here channel seven is dropped by the second pruning and kept by the third, although the unit has fewer channels then."
  },
  {
   "property": "C113",
   "status": "partial",
   "theorems": [
    "Verif.AutoNet.C113_subnet_partial",
    "Verif.AutoNet.C113_alone_partial",
    "Verif.AutoNet.C113_refused",
    "Verif.AutoNet.C113_widths_violated",
    "Verif.AutoNet.C113_heads_violated",
    "Verif.AutoNet.C113_ratios_violated",
    "Verif.AutoNet.C113_negative"
   ],
   "note": "Proved under a guard: C113_subnet_partial: When the largest entries of all lists are listed last, the network can be built, every choice of the lists is accepted, and after any number of them the forward pass uses, in every layer, exactly the first channels of the current width, 64 features for each of the current heads of the layer and width times current ratio hidden features; exactly the first layers run, as many as the current depth, and the output has the current width. Missing: other orders, see the violations. C113_alone_partial: The parameters of a subnet whose layers have the same settings have exactly the sizes of the network that is built with these settings alone. Missing: other orders of the lists, see the violations. The code violates the property (proved): C113_widths_violated: DISAGREEMENT: the widths may be listed in any order, but the network is as wide as the last of them. A larger width can still be chosen, without any error, and gives the network of the last width. C113_heads_violated: DISAGREEMENT: the numbers of heads may be listed in any order, but when the last is not the largest the network is built and no forward pass of at least one layer succeeds, whatever is chosen. C113_ratios_violated: DISAGREEMENT: so it is with the ratios, when the last gives fewer hidden features than the largest."
  },
  {
   "property": "C114",
   "status": "partial",
   "theorems": [
    "Verif.FisherRun.C114_saves",
    "Verif.FisherRun.C114_kept",
    "Verif.FisherRun.C114_first",
    "Verif.FisherRun.C114_reached_partial",
    "Verif.FisherRun.C114_zero",
    "Verif.FisherRun.C114_skip_violated"
   ],
   "note": "Proved under a guard: C114_reached_partial: Every threshold is reached: if the batches contribute no NaN and at most `B` to a channel, with `B` times the interval below 100000, the network with one channel in every unit needs less than the share of every threshold, and there are enough iterations, then every threshold gets its checkpoint, and with early stopping training ends. Missing: larger contributions, see `C35_minimum_violated`. The code violates the property (proved): C114_skip_violated: DISAGREEMENT: the checkpoint of a threshold does not hold the first network below it. One checkpoint at most is written in a check, so when a pruning passes two thresholds, the second checkpoint is written in a later check, after further channels are gone. Here the network of widths 2 and 2 is below both thresholds in iteration 0, and the checkpoint of the second holds widths 1 and 2."
  },
  {
   "property": "C115",
   "status": "partial",
   "theorems": [
    "Verif.SearchRun.C115_never_fails",
    "Verif.SearchRun.C115_exported",
    "Verif.SearchRun.C115_candidates",
    "Verif.SearchRun.C115_count",
    "Verif.SearchRun.C115_metric_partial",
    "Verif.SearchRun.C115_metric_violated",
    "Verif.SearchRun.C115_no_epochs",
    "Verif.SearchRun.C115_mixed_group_violated",
    "Verif.SearchRun.C115_resume_partial",
    "Verif.SearchRun.C115_resume_violated",
    "Verif.SearchRun.C115_loaded_partial"
   ],
   "note": "Proved under a guard: C115_metric_partial: the metric of the exported subnet, weaker than being the largest: when the evaluator always reports something, no scored candidate was measured more than a hundredth above what the exported subnet was measured at. Missing: being the largest, which fails by `C115_metric_violated` because scores are rounded to two digits. C115_resume_partial: crash recovery, weaker than intended: a search that is resumed from the checkpoint of any epoch, on a model that was searched in any way, exports the same subnet, leaves the same model and scores the same further candidates as the uninterrupted search, provided the configured number of epochs is raised by the epoch of the checkpoint. Missing: the same with the number of epochs left as it is, which fails by `C115_resume_violated`. C115_loaded_partial: from the search to the use of its result: the file written at the end can be made, it loads into every fresh copy of the supernet without an error, and there every searched element is fixed to the choice of the best subnet, every other one to what it was when the search started. Missing: elements that share a name or alias but not the choice, see `C10_two_sources_violated`. The code violates the property (proved): C115_never_fails: a properly set up search of at least one epoch never fails. As long as random sampling goes on it is not finished (nothing bounds the number of refused samples); otherwise it ends with an exported subnet. In particular every mutated and crossed candidate can be set on the model. C115_metric_violated: DISAGREEMENT: scores are rounded to two digits before candidates are compared, so a candidate with a better metric can lose to an earlier one: here 0.701 is exported although 0.702 was measured (line 226). Accuracies reported as fractions are thus compared only up to a whole percent. C115_mixed_group_violated: DISAGREEMENT: when the elements of a group do not accept the same choices, a sampled choice is taken from the first element only and setting it on another one fails, so the search ends with an error although every element offers choices. C115_resume_violated: DISAGREEMENT: with the number of epochs left as configured, a search of two epochs that is resumed from the checkpoint of the first runs no further epoch and exports a subnet with a third of the score of what the uninterrupted search exports (`_max_epochs` is reduced while `_epoch` goes on from the checkpoint, line 305)."
  },
  {
   "property": "C116",
   "status": "partial",
   "theorems": [
    "Verif.Observers.C116_running",
    "Verif.Observers.C116_nothing",
    "Verif.Observers.C116_grouping",
    "Verif.Observers.C116_exported",
    "Verif.Observers.C116_half",
    "Verif.Observers.C116_tight",
    "Verif.Observers.C116_tight_symmetric",
    "Verif.Observers.C116_zero",
    "Verif.Observers.C116_layer",
    "Verif.Observers.C116_lsq_last",
    "Verif.Observers.C116_lsq_first_violated",
    "Verif.Observers.C116_lsq_half_partial",
    "Verif.Observers.C116_lsq_unbounded_violated",
    "Verif.Observers.C116_sync",
    "Verif.Observers.C116_sync_zero_violated",
    "Verif.Observers.C116_channels",
    "Verif.Observers.C116_channels_refused"
   ],
   "note": "Proved under a guard: C116_lsq_half_partial: With the scale of LSQ a value is within half a scale of its fake quantisation as long as it lies between the outermost levels, half a step included. Missing: values further out are clipped, also when they were seen during calibration (`C116_lsq_unbounded_violated`). The code violates the property (proved): C116_lsq_first_violated: DISAGREEMENT: the docstring of `_calculate_scale` says that the scale of activations is computed on the first batch. Whenever a later batch has another mean magnitude, the scale is that of the later batch and not that of the first. C116_lsq_unbounded_violated: DISAGREEMENT: with the LSQ observer no bound on the error holds for values seen during calibration: for every symmetric signed scheme and every bound there are two batches after which a value of the first batch is moved by more than the bound, because the scale only fits the second one. C116_sync_zero_violated: DISAGREEMENT: the zero points are not synchronised with the scales: with an affine scheme two processes that have seen different values quantise with different zero points, so the same number becomes different numbers."
  },
  {
   "property": "C117",
   "status": "partial",
   "theorems": [
    "Verif.Paths.C117_names",
    "Verif.Paths.C117_parents",
    "Verif.Paths.C117_once",
    "Verif.Paths.C117_order",
    "Verif.Paths.C117_concat_violated",
    "Verif.Paths.C117_traced_partial",
    "Verif.Paths.C117_cut_violated",
    "Verif.Paths.C117_roots",
    "Verif.Paths.C117_module_names",
    "Verif.Paths.C117_sum_violated",
    "Verif.Paths.C117_no_root"
   ],
   "note": "Proved under a guard: C117_traced_partial: From the graph to the parents, for graphs of convolutions and normalisations with branches joining as they like: if there is no `non_pass` or it has convolutions (depthwise ones, too) among its classes, the parents listed are exactly the nearest layers of those classes that the input of the layer comes from (without `non_pass`: the layers it comes from directly). Missing: linear layers and concatenations, where tracing itself is not exact (C26), and `non_pass` that lets convolutions pass (`C117_cut_violated`). The code violates the property (proved): C117_concat_violated: DISAGREEMENT: the docstring says that the ancestors whose types are in `non_pass` are the parents. Ancestors that are reached through a concatenation are not found unless concatenations are in `non_pass`: whatever is concatenated, a layer separated from the concatenation by nothing that stops has no parent. C117_cut_violated: DISAGREEMENT: with `non_pass` an ancestor is missed when the way to it leads through a convolution that another branch has visited before: tracing stops there, and the parents are read off the path that was cut. C117_sum_violated: DISAGREEMENT: the names of what is concatenated cannot be given when an input is a sum of two different layers: the traced paths of that input start with different layers and an assertion fails, although the model is an ordinary one."
  },
  {
   "property": "C118",
   "status": "partial",
   "theorems": [
    "Verif.DiffMix.C118_weights",
    "Verif.DiffMix.C118_convex",
    "Verif.DiffMix.C118_shift",
    "Verif.DiffMix.C118_reported",
    "Verif.DiffMix.C118_gradient",
    "Verif.DiffMix.C118_gumbel_soft",
    "Verif.DiffMix.C118_gumbel_hard",
    "Verif.DiffMix.C118_gumbel_gradient_violated",
    "Verif.DiffMix.C118_discretised",
    "Verif.DiffMix.C118_gumbel_temperature",
    "Verif.DiffMix.C118_gradient_sum",
    "Verif.DiffMix.C118_lead",
    "Verif.DiffMix.C118_better_wins"
   ],
   "note": "The code violates the property (proved): C118_gumbel_gradient_violated: DISAGREEMENT: the docstring says that hard samples are differentiated as if they were the soft sample. The edges that are not sampled are not run, so their part of the gradient is missing: whenever all edges give the same result, which makes the soft sample independent of the parameters, the parameter of the sampled edge still gets a gradient that is not zero (if there are at least two edges and the loss depends on the result)."
  },
  {
   "property": "C119",
   "status": "partial",
   "theorems": [
    "Verif.Version.C119_parsed",
    "Verif.Version.C119_distinct",
    "Verif.Version.C119_order",
    "Verif.Version.C119_releases",
    "Verif.Version.C119_candidate_violated",
    "Verif.Version.C119_candidates_partial",
    "Verif.Version.C119_text_violated",
    "Verif.Version.C119_dropped_violated",
    "Verif.Version.C119_refused",
    "Verif.Version.C119_second_violated",
    "Verif.Version.C119_continued",
    "Verif.Version.C119_incomparable"
   ],
   "note": "Proved under a guard: C119_candidates_partial: Candidates of a release whose numbers have as many digits compare by their numbers. Missing: numbers with different numbers of digits, which compare as text, see `C119_text_violated`. The code violates the property (proved): C119_candidate_violated: DISAGREEMENT: a release candidate comes before its release. As tuples every release is smaller than each of its candidates, so a check for at least `2.0.0` accepts `2.0.0rc1`. C119_text_violated: DISAGREEMENT: candidate 10 of every release is smaller than its candidates 2 to 9. C119_dropped_violated: DISAGREEMENT: other parts are dropped without an error: with a part behind the last dot that is neither a number nor a candidate (a development or post release, say) a version has the parsed form of the release itself. C119_second_violated: DISAGREEMENT: a second `rc` and all that follows it up to the next dot is dropped without an error."
  },
  {
   "property": "C120",
   "status": "partial",
   "theorems": [
    "Verif.SampleLaw.C120_independent",
    "Verif.SampleLaw.C120_uniform",
    "Verif.SampleLaw.C120_repeated_violated",
    "Verif.SampleLaw.C120_unbiased",
    "Verif.SampleLaw.C120_step",
    "Verif.SampleLaw.C120_never",
    "Verif.SampleLaw.C120_times",
    "Verif.SampleLaw.C120_mutator",
    "Verif.SampleLaw.C120_weighted",
    "Verif.SampleLaw.C120_zero",
    "Verif.SampleLaw.C120_refused",
    "Verif.SampleLaw.C120_sum_violated",
    "Verif.SampleLaw.C120_scaled"
   ],
   "note": "The code violates the property (proved): C120_repeated_violated: DISAGREEMENT: a choice listed twice in a group (a list of values may repeat one) is drawn twice as often. C120_sum_violated: DISAGREEMENT: \"make sure the sum is 1\" is not enforced: every list with a smaller sum is accepted. If the sum is zero or less, then every draw fails with a ValueError; otherwise the probabilities are scaled up silently."
  }
 ]
}
