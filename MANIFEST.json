{
 "claims": [
  {
   "property": "C01",
   "status": "proved",
   "theorems": [
    "Thinc.C01_walk_each_reachable_once"
   ],
   "note": "All three orders, every finite heap including cycles and sharing."
  },
  {
   "property": "C02",
   "status": "proved",
   "theorems": [
    "Thinc.C02_bfs_by_distance",
    "Thinc.C02_dfs_orders",
    "Thinc.C02_post_descendants_first"
   ],
   "note": "bfs by distance; dfs orders equal a textbook big-step DFS; post order puts descendants first on acyclic graphs."
  },
  {
   "property": "C03",
   "status": "proved",
   "theorems": [
    "Thinc.C03_constructor_dims",
    "Thinc.C03_dim_never_silently_changed",
    "Thinc.C03_has_dim_trichotomy",
    "Thinc.C03_maybe_get_dim",
    "Thinc.C03_set_dim_outcome"
   ],
   "note": "Every history of operations on a node."
  },
  {
   "property": "C04",
   "status": "partial",
   "theorems": [
    "Thinc.C04_get_param_after_none",
    "Thinc.C04_get_param_partial",
    "Thinc.C04_has_param_and_maybe_get",
    "Thinc.C04_set_param_other"
   ],
   "note": "Partial: after set_param(name, None) the old array is still returned by get_param while has_param says None (C04_get_param_after_none)."
  },
  {
   "property": "C05",
   "status": "proved",
   "theorems": [
    "Thinc.C05_has_ref_trichotomy",
    "Thinc.C05_maybe_get_ref",
    "Thinc.C05_refs_stay_in_tree",
    "Thinc.C05_set_ref"
   ],
   "note": "Every graph, with cycles and sharing; membership in the tree is reachability."
  },
  {
   "property": "C06",
   "status": "partial",
   "theorems": [
    "Thinc.C06_remove_node_partial",
    "Thinc.C06_unset_ref_raises"
   ],
   "note": "Proved for models in which every registered reference is set; a registered but unset reference makes remove_node raise ValueError part way (C06_unset_ref_raises)."
  },
  {
   "property": "C07",
   "status": "partial",
   "theorems": [
    "Thinc.C07_cyclic_counterexample",
    "Thinc.C07_replace_node_partial",
    "Thinc.C07_unset_ref_raises"
   ],
   "note": "Proved for acyclic models whose registered references are set and whose root is not the replaced node; an unset reference raises (C07_unset_ref_raises) and on a cyclic graph the result is wrong (C07_cyclic_counterexample)."
  },
  {
   "property": "C08",
   "status": "proved",
   "theorems": [
    "Thinc.C08_copy",
    "Thinc.C08_cyclic_raises"
   ],
   "note": "Contents are values: arrays are not aliased in this model. References are not copied by the code and are not claimed."
  },
  {
   "property": "C09",
   "status": "partial",
   "theorems": [
    "Thinc.C09_round_trip_partial",
    "Thinc.C09_sibling_ref_counterexample"
   ],
   "note": "Proved for references inside the holder's own subtree; C09_sibling_ref_counterexample shows the code fails outside it."
  },
  {
   "property": "C10",
   "status": "proved",
   "theorems": [
    "Thinc.C10_other_errors_propagate",
    "Thinc.C10_to_dict_iff"
   ],
   "note": "Exact characterisation (iff) of the ValueError; errors of user serializers propagate."
  },
  {
   "property": "C11",
   "status": "partial",
   "theorems": [
    "Thinc.C11_failed_load_partial",
    "Thinc.C11_not_atomic",
    "Thinc.C11_ref_out_of_range"
   ],
   "note": "Not atomic: C11_not_atomic is a witness. Proved: structural mismatch changes nothing, and a frame that holds for every outcome."
  },
  {
   "property": "C12",
   "status": "partial",
   "theorems": [
    "Thinc.C12_can_from_dict_partial",
    "Thinc.C12_fits",
    "Thinc.C12_refs_not_checked",
    "Thinc.C12_strict"
   ],
   "note": "can_from_dict does not look at references: C12_refs_not_checked is a witness. Proved under the extra conditions it does not check. C12_fits says exactly when can_from_dict returns True."
  },
  {
   "property": "C13",
   "status": "partial",
   "theorems": [
    "Thinc.C13_exception_not_restored",
    "Thinc.C13_predict_restores_partial",
    "Thinc.C13_use_params_partial"
   ],
   "note": "Normal exit proved, with shared layers and any body; C13_exception_not_restored proves that an exception never restores."
  },
  {
   "property": "C14",
   "status": "partial",
   "theorems": [
    "Thinc.C14_callers_arrays_untouched",
    "Thinc.C14_grad_is_sum",
    "Thinc.C14_set_grad_aliases",
    "Thinc.C14_set_grad_couples_keys"
   ],
   "note": "Gradients accumulate exactly over every history; set_grad aliasing is a witnessed exception."
  },
  {
   "property": "C15",
   "status": "proved",
   "theorems": [
    "Thinc.C15_finish_update",
    "Thinc.C15_shims_in_walk_order",
    "Thinc.C15_unallocated_raises"
   ],
   "note": "Any stateful optimizer that does not raise; shims' own updates run first, in walk order."
  },
  {
   "property": "C16",
   "status": "proved",
   "theorems": [
    "Thinc.C16_ids_unique"
   ],
   "note": "Any number of threads and any interleaving of atomic steps."
  },
  {
   "property": "C17",
   "status": "partial",
   "theorems": [
    "Thinc.C17_per_parameter_partial",
    "Thinc.C17_radam_shared_buffer"
   ],
   "note": "Proved for SGD and Adam with any schedules and for RAdam with constant betas, over every interleaved history. False for RAdam with changing betas: the step-size buffer is shared between keys (C17_radam_shared_buffer)."
  },
  {
   "property": "C18",
   "status": "proved",
   "theorems": [
    "Thinc.C18_consumes_gradient",
    "Thinc.C18_when_it_raises"
   ],
   "note": "From any optimizer state. The gradient is not zeroed when the call raises; C18_when_it_raises says exactly when that can happen."
  },
  {
   "property": "C19",
   "status": "proved",
   "theorems": [
    "Thinc.C19_clip_gradient",
    "Thinc.C19_optimizer_clips"
   ],
   "note": "Over real vectors of any length; rounding, NaN and infinities are not modelled."
  },
  {
   "property": "C20",
   "status": "proved",
   "theorems": [
    "Thinc.C20_adam",
    "Thinc.C20_bias_correction",
    "Thinc.C20_constant_gradient",
    "Thinc.C20_fused_kernel"
   ],
   "note": "Closed form over whole interleaved histories, plus the fused CPU kernel (blocks of 64) refined to the elementwise definition. Real arithmetic; constant betas per key."
  },
  {
   "property": "C21",
   "status": "partial",
   "theorems": [
    "Thinc.C21_average_partial",
    "Thinc.C21_constant_not_reproduced",
    "Thinc.C21_zero_fades"
   ],
   "note": "The average is a convex combination of the seen weights and of the initial zero, whose coefficient fades like 0.9999^n. The full claim is false: averages start from zeros (C21_constant_not_reproduced)."
  },
  {
   "property": "C22",
   "status": "proved",
   "theorems": [
    "Thinc.C22_generator",
    "Thinc.C22_list",
    "Thinc.C22_other_kinds"
   ],
   "note": "Lists, generators and plain numbers, with any sequence of step increments."
  },
  {
   "property": "C23",
   "status": "proved",
   "theorems": [
    "Thinc.C23_generator_closed",
    "Thinc.C23_negative_step",
    "Thinc.C23_nonneg_step",
    "Thinc.C23_to_generator"
   ],
   "note": "Every schedule function."
  },
  {
   "property": "C24",
   "status": "proved",
   "theorems": [
    "Thinc.C24_compounding_down",
    "Thinc.C24_compounding_up",
    "Thinc.C24_never_passes_stop"
   ],
   "note": "Over an ordered field; increasing and decreasing rates."
  },
  {
   "property": "C25",
   "status": "partial",
   "theorems": [
    "Thinc.C25_cyclic_bounds",
    "Thinc.C25_cyclic_period_is_half",
    "Thinc.C25_cyclic_periodic",
    "Thinc.C25_cyclic_shape",
    "Thinc.C25_slanted_after_end",
    "Thinc.C25_slanted_few_steps",
    "Thinc.C25_slanted_leaves_bounds",
    "Thinc.C25_slanted_partial",
    "Thinc.C25_warmup_bounds",
    "Thinc.C25_warmup_shape"
   ],
   "note": "warmup_linear and cyclic_triangular fully; slanted_triangular only up to step cut/cut_frac - 1, after which it leaves its bounds and becomes negative, even before num_steps (C25_slanted_leaves_bounds). The cyclic period is 2 * period."
  },
  {
   "property": "C26",
   "status": "proved",
   "theorems": [
    "Thinc.C26_constant",
    "Thinc.C26_constant_then",
    "Thinc.C26_decaying",
    "Thinc.C26_inner_not_restarted"
   ],
   "note": "The inner schedule of constant_then is called with the same step, not restarted (C26_inner_not_restarted)."
  },
  {
   "property": "C27",
   "status": "proved",
   "theorems": [
    "Thinc.C27_no_patience",
    "Thinc.C27_out_of_order",
    "Thinc.C27_plateau",
    "Thinc.C27_repeated_query"
   ],
   "note": "For histories whose score steps do not go back; C27_out_of_order gives the exact rejection condition (an improving score with an earlier step is accepted)."
  },
  {
   "property": "C28",
   "status": "partial",
   "theorems": [
    "Thinc.C28_flatten_of_unflatten",
    "Thinc.C28_no_padding",
    "Thinc.C28_round_trip_partial",
    "Thinc.C28_shapes_must_agree",
    "Thinc.C28_zero_width_lost"
   ],
   "note": "Round trip and layout for every list of arrays whose trailing shape has no zero in it; for a trailing shape with a zero the code loses rows (C28_zero_width_lost). dtype conversion is not modelled."
  },
  {
   "property": "C29",
   "status": "proved",
   "theorems": [
    "Thinc.C29_consistent",
    "Thinc.C29_padded2list_any",
    "Thinc.C29_round_trip"
   ],
   "note": "Every list of 2-d sequences of one width."
  },
  {
   "property": "C30",
   "status": "proved",
   "theorems": [
    "Thinc.C30_pad_unpad",
    "Thinc.C30_rejects"
   ],
   "note": "Arrays of any trailing shape and any rounding of the padded length."
  },
  {
   "property": "C31",
   "status": "proved",
   "theorems": [
    "Thinc.C31_one_row_repeated",
    "Thinc.C31_pack",
    "Thinc.C31_round_trip",
    "Thinc.C31_unpack_pack"
   ],
   "note": "Every padded batch with the documented invariants and positive width; a batch without any row packs to a (0, 0) array, so the round trip is stated for batches with at least one row."
  },
  {
   "property": "C32",
   "status": "partial",
   "theorems": [
    "Thinc.C32_int_loses_shape",
    "Thinc.C32_int_out_of_range",
    "Thinc.C32_int_partial",
    "Thinc.C32_list_partial",
    "Thinc.C32_list_with_empty_sequence",
    "Thinc.C32_negative_index",
    "Thinc.C32_negative_start",
    "Thinc.C32_open_slice_raises",
    "Thinc.C32_slice_partial",
    "Thinc.C32_step_ignored",
    "Thinc.C32_tuple"
   ],
   "note": "Proved for in-range non-negative ints, step-1 slices with non-negative bounds, and index lists whose selected sequences are all non-empty (list form) plus tuples. The other documented index forms fail in the unchanged code, each with a machine-checked witness: negative ints, open slices, negative starts, steps, lists with an empty sequence, and loss of the trailing data shape."
  },
  {
   "property": "C33",
   "status": "partial",
   "theorems": [
    "Thinc.C33_int_partial",
    "Thinc.C33_list_selects",
    "Thinc.C33_list_selects_time",
    "Thinc.C33_negative_index",
    "Thinc.C33_size_at_t_wrong",
    "Thinc.C33_slice_partial",
    "Thinc.C33_unpad_selection_raises"
   ],
   "note": "Data, lengths and indices of the selection are right for every slice and every in-range int. The result is not a consistent Padded: size_at_t is filled with the lengths, original indices are not renumbered (padded2list raises), negative ints select nothing and index lists select time steps; each has a witness theorem."
  },
  {
   "property": "C34",
   "status": "proved",
   "theorems": [
    "Thinc.C34_with_array",
    "Thinc.C34_with_array_rowwise",
    "Thinc.C34_with_list",
    "Thinc.C34_with_padded",
    "Thinc.C34_with_padded_array",
    "Thinc.C34_with_ragged"
   ],
   "note": "All containers, all length-preserving layers given by the sequence function they compute; with_array additionally for row-wise layers on padded batches and with padding. The tuple-of-arrays inputs are not modelled. A padded gradient must have the column order of the output (with_array, with_padded on Padded)."
  },
  {
   "property": "C35",
   "status": "partial",
   "theorems": [
    "Thinc.C35_buffer",
    "Thinc.C35_fractional_loses_items",
    "Thinc.C35_fractional_prefix_partial",
    "Thinc.C35_len",
    "Thinc.C35_minibatch_partial",
    "Thinc.C35_sizes_run_out",
    "Thinc.C35_zero_size_diverges"
   ],
   "note": "Whole sizes >= 1 (constant or generated), all sequences, buffers, shuffles and repeated iterations; len() and buffer independence proved. Fractional sizes (a compounding schedule) lose items in the unchanged code (witness); a prefix theorem holds for them. Sizes <= 0 make the call loop for ever (proved)."
  },
  {
   "property": "C36",
   "status": "partial",
   "theorems": [
    "Thinc.C36_aligned_partial",
    "Thinc.C36_longer_is_cut",
    "Thinc.C36_shorter_raises_index_error"
   ],
   "note": "Alignment and exact coverage for sequences of equal length. Unequal lengths do not raise ValueError in the unchanged code: witnesses for IndexError and for silently dropped items."
  },
  {
   "property": "C37",
   "status": "partial",
   "theorems": [
    "Thinc.C37_adjoint_mean",
    "Thinc.C37_adjoint_sum",
    "Thinc.C37_all_empty_raises",
    "Thinc.C37_backprop_reduce_mean",
    "Thinc.C37_backprop_reduce_sum",
    "Thinc.C37_bad_lengths_raise",
    "Thinc.C37_generic_backward",
    "Thinc.C37_generic_forward",
    "Thinc.C37_reduce_mean_partial",
    "Thinc.C37_reduce_sum_partial",
    "Thinc.C37_short_gradient_out_of_bounds",
    "Thinc.C37_short_lengths_accepted"
   ],
   "note": "Both backends, all shapes; statements are about the C kernels over flat buffers with faulting accesses, so they include memory safety. Partial: a batch without any rows raises IndexError instead of giving zeros (C37_all_empty_raises), lengths that do not use up the rows are accepted (C37_short_lengths_accepted), and too few gradient rows make the kernel read outside the array (C37_short_gradient_out_of_bounds)."
  },
  {
   "property": "C38",
   "status": "partial",
   "theorems": [
    "Thinc.C38_adjoint",
    "Thinc.C38_backprop_bad_length",
    "Thinc.C38_backprop_reduce_max_partial",
    "Thinc.C38_bad_lengths_raise",
    "Thinc.C38_generic_backward",
    "Thinc.C38_generic_forward",
    "Thinc.C38_negative_index_not_rejected",
    "Thinc.C38_reduce_max"
   ],
   "note": "Both backends. Partial: negative indices passed to backprop_reduce_max are not rejected (C38_negative_index_not_rejected)."
  },
  {
   "property": "C39",
   "status": "partial",
   "theorems": [
    "Thinc.C39_adjoint",
    "Thinc.C39_backprop_first",
    "Thinc.C39_backprop_last",
    "Thinc.C39_bad_lengths_raise",
    "Thinc.C39_no_lengths_partial",
    "Thinc.C39_reduce_first",
    "Thinc.C39_reduce_last"
   ],
   "note": "Partial: an empty list of lengths is accepted although the array has rows, and the gradient then has no rows (C39_no_lengths_partial). A single gradient row for several sequences is repeated by NumPy; the model rejects it."
  },
  {
   "property": "C40",
   "status": "proved",
   "theorems": [
    "Thinc.C40_adjoint",
    "Thinc.C40_backprop_seq2col",
    "Thinc.C40_bad_lengths_raise",
    "Thinc.C40_generic",
    "Thinc.C40_seq2col"
   ],
   "note": "NumPy backend for every window size, width, matrix and lengths (given or not); the generic backend (only nW = 1 without lengths) computes the same."
  },
  {
   "property": "C41",
   "status": "partial",
   "theorems": [
    "Thinc.C41_backprop_empty_raises",
    "Thinc.C41_backprop_maxout_partial",
    "Thinc.C41_empty_units_raise",
    "Thinc.C41_forward_backward",
    "Thinc.C41_generic",
    "Thinc.C41_maxout",
    "Thinc.C41_negative_which"
   ],
   "note": "Forward pass for every input and piece count; backward pass for non-empty gradients and non-negative piece numbers. Failing cases proved: an empty batch raises IndexError in backprop_maxout, negative piece numbers are not rejected. NaN is excluded (linear order)."
  },
  {
   "property": "C42",
   "status": "partial",
   "theorems": [
    "Thinc.C42_adjoint_partial",
    "Thinc.C42_gather_add_partial",
    "Thinc.C42_gather_empty_raises",
    "Thinc.C42_gather_out_of_bounds",
    "Thinc.C42_generic_gather",
    "Thinc.C42_negative_ids",
    "Thinc.C42_scatter_add",
    "Thinc.C42_scatter_columns",
    "Thinc.C42_too_large_id"
   ],
   "note": "Non-empty arrays and indices in range. Failing cases proved: gather_add on empty arrays raises, index T and negative indices read outside the table, negative ids mean different things in the two scatter_add paths, too large ids write outside the table in the float32 path."
  },
  {
   "property": "C43",
   "status": "partial",
   "theorems": [
    "Thinc.C43_dish",
    "Thinc.C43_gelu_approx_large_wrong",
    "Thinc.C43_gelu_approx_partial",
    "Thinc.C43_gelu_kink",
    "Thinc.C43_gelu_partial",
    "Thinc.C43_hard_swish",
    "Thinc.C43_hard_swish_inside",
    "Thinc.C43_hard_swish_mobilenet",
    "Thinc.C43_hard_swish_value",
    "Thinc.C43_mish",
    "Thinc.C43_relu",
    "Thinc.C43_sigmoid_clipped_wrong",
    "Thinc.C43_sigmoid_partial",
    "Thinc.C43_swish_clipped_wrong",
    "Thinc.C43_swish_partial",
    "Thinc.C43_tanh"
   ],
   "note": "Real arithmetic, arrays of any finite shape; gradient means transposed Frechet derivative. relu, hard_swish, hard_swish_mobilenet, mish (any threshold) at every array where the function is differentiable; dish and dtanh everywhere. Partial: sigmoid and swish only for |x|<20 (beyond, the code's clip makes the backward wrong: proved), gelu only for the exact erf (the code's rational erf has a kink at 0: proved), gelu_approx up to 0.001 for |x|<=7 (for large inputs its gradient grows without bound: proved)."
  },
  {
   "property": "C44",
   "status": "partial",
   "theorems": [
    "Thinc.C44_gradient_partial",
    "Thinc.C44_instance_gradients",
    "Thinc.C44_instances",
    "Thinc.C44_negative_slope_wrong",
    "Thinc.C44_values",
    "Thinc.C44_zero_slope_raises"
   ],
   "note": "Real arithmetic. Positive slope: gradient wherever differentiable. Partial: a negative slope gets gradient zero and slope zero raises ZeroDivisionError (both proved)."
  },
  {
   "property": "C45",
   "status": "partial",
   "theorems": [
    "Thinc.C45_backprop_softmax",
    "Thinc.C45_backprop_softmax_sequences",
    "Thinc.C45_no_entries_raises",
    "Thinc.C45_sequences_clipped",
    "Thinc.C45_short_lengths_broadcast",
    "Thinc.C45_short_lengths_raise",
    "Thinc.C45_softmax",
    "Thinc.C45_softmax_sequences_partial"
   ],
   "note": "Real arithmetic, any number of rows, any axis length >= 1, any positive temperature. Partial: softmax_sequences clips its input at +-20 (order lost beyond: proved), needs at least one row; lengths adding up to 1 are silently broadcast over a longer matrix (proved)."
  },
  {
   "property": "C46",
   "status": "partial",
   "theorems": [
    "Thinc.C46_bad_matrix",
    "Thinc.C46_gradient_labels",
    "Thinc.C46_gradient_matrix",
    "Thinc.C46_int_labels_partial",
    "Thinc.C46_loss",
    "Thinc.C46_matrix_targets",
    "Thinc.C46_missing_out_of_range_raises",
    "Thinc.C46_negated_with_smoothing_raises",
    "Thinc.C46_str_labels",
    "Thinc.C46_strings_without_names",
    "Thinc.C46_unknown_name"
   ],
   "note": "Lists and arrays of ints, lists of strings (names, missing value, negative prefix), matrices of targets; the gradient is that of the cross entropy of the softmax with respect to the logits. Partial: a missing value outside the classes raises IndexError (C46_missing_out_of_range_raises) and a negated label with label smoothing always raises ValueError (C46_negated_with_smoothing_raises). The loss is the sum of squared gradient entries, not the cross entropy (C46_loss)."
  },
  {
   "property": "C47",
   "status": "proved",
   "theorems": [
    "Thinc.C47_first_error",
    "Thinc.C47_gradients",
    "Thinc.C47_length_mismatch"
   ],
   "note": "Gradients, loss, length mismatch and the first exception, for every list of sequences."
  },
  {
   "property": "C48",
   "status": "partial",
   "theorems": [
    "Thinc.C48_gradient_partial",
    "Thinc.C48_loss",
    "Thinc.C48_normalized_not_half",
    "Thinc.C48_normalized_scale",
    "Thinc.C48_shape_mismatch"
   ],
   "note": "Loss and error for all inputs; without normalize the returned array is half the gradient. Partial: with normalize it is rows/2 times the gradient (C48_normalized_scale, C48_normalized_not_half)."
  },
  {
   "property": "C49",
   "status": "proved",
   "theorems": [
    "Thinc.C49_gradient",
    "Thinc.C49_loss",
    "Thinc.C49_shape_mismatch"
   ],
   "note": "The cosine is that of the rows after 1e-8 has been added to every entry; rows that are zero after that are excluded (NaN in the code)."
  },
  {
   "property": "C50",
   "status": "proved",
   "theorems": [
    "Thinc.C50_default_classes",
    "Thinc.C50_invalid_raise",
    "Thinc.C50_label_out_of_range",
    "Thinc.C50_negative_label",
    "Thinc.C50_to_categorical"
   ],
   "note": "Real arithmetic, one-dimensional label arrays. Negative labels count from the end (C50_negative_label)."
  },
  {
   "property": "C51",
   "status": "proved",
   "theorems": [
    "Thinc.C51_chain",
    "Thinc.C51_composes",
    "Thinc.C51_one",
    "Thinc.C51_shared_arrays",
    "Thinc.C51_shared_arrays_apart"
   ],
   "note": "Layers with exact gradients (Spec/Layer.lean Exact), real arithmetic; any number of layers, shared parameters allowed."
  },
  {
   "property": "C52",
   "status": "partial",
   "theorems": [
    "Thinc.C52_add",
    "Thinc.C52_add_ints",
    "Thinc.C52_noop_first_wrong",
    "Thinc.C52_relu_first_wrong",
    "Thinc.C52_shared_arrays_partial"
   ],
   "note": "Arrays and integer inputs in the value model. Partial: in the heap model (LayerHeap.lean) `Y += layer_Y` overwrites the first layer's output, so add(noop, ...) and add(Relu, ...) give wrong gradients (proved); exact when the first layer's output is not kept by anyone else."
  },
  {
   "property": "C53",
   "status": "partial",
   "theorems": [
    "Thinc.C53_arrays",
    "Thinc.C53_arrays_of_ints",
    "Thinc.C53_arrays_of_lists_gradient_wrong",
    "Thinc.C53_arrays_of_padded",
    "Thinc.C53_arrays_of_ragged",
    "Thinc.C53_ids_like_arrays",
    "Thinc.C53_lists_partial",
    "Thinc.C53_no_documents",
    "Thinc.C53_ragged_of_arrays",
    "Thinc.C53_ragged_partial"
   ],
   "note": "Array outputs for any input kind, Ragged outputs of array inputs. Partial: for Ragged inputs the callback raises TypeError, and for list outputs it concatenates the layers' lists instead of adding them (C53_ragged_partial, C53_lists_partial, C53_arrays_of_lists_gradient_wrong)."
  },
  {
   "property": "C54",
   "status": "partial",
   "theorems": [
    "Thinc.C54_clone",
    "Thinc.C54_clone_zero",
    "Thinc.C54_map_list",
    "Thinc.C54_noop",
    "Thinc.C54_residual_arrays",
    "Thinc.C54_residual_lists",
    "Thinc.C54_residual_mixed",
    "Thinc.C54_residual_padded",
    "Thinc.C54_residual_padded_noop_wrong",
    "Thinc.C54_residual_padded_shared_arrays_partial",
    "Thinc.C54_residual_ragged",
    "Thinc.C54_residual_shared_arrays",
    "Thinc.C54_siamese",
    "Thinc.C54_tuplify",
    "Thinc.C54_tuplify_ints",
    "Thinc.C54_tuplify_ragged_partial"
   ],
   "note": "residual on arrays, Ragged, Padded and lists; tuplify on arrays and integers; siamese; map_list; clone as a chain. Partial: tuplify of two layers on a Ragged raises TypeError in the callback. In the heap model residual on a Padded adds in place: wrong for a wrapped noop (proved)."
  },
  {
   "property": "C55",
   "status": "partial",
   "theorems": [
    "Thinc.C55_gradient_wrong",
    "Thinc.C55_not_reversed",
    "Thinc.C55_partial"
   ],
   "note": "For an unmodified Padded batch the layer returns the concatenation of both sublayers' outputs; C55_not_reversed shows the second sublayer never sees reversed sequences as documented, C55_gradient_wrong that the backward pass ignores the second half of the gradient. The property as stated is false of the code; the partial theorem states what does hold."
  },
  {
   "property": "C56",
   "status": "proved",
   "theorems": [
    "Thinc.C56_linear"
   ],
   "note": "Real arithmetic; arrays of any shape."
  },
  {
   "property": "C57",
   "status": "proved",
   "theorems": [
    "Thinc.C57_layer_norm",
    "Thinc.C57_mean_zero",
    "Thinc.C57_variance"
   ],
   "note": "Width at least 1. Exact real arithmetic; the epsilon 1e-8 is part of the statement."
  },
  {
   "property": "C58",
   "status": "partial",
   "theorems": [
    "Thinc.C58_embed_column_partial",
    "Thinc.C58_embed_partial",
    "Thinc.C58_hash_embed_empty",
    "Thinc.C58_hash_embed_partial",
    "Thinc.C58_negative_id"
   ],
   "note": "Proved for every table and every list of ids that are rows of the table (Embed) and every nonempty list of ids (HashEmbed). Negative ids are read from the end but their gradient is dropped for float32 arrays (C58_negative_id); HashEmbed's callback fails for an empty list (C58_hash_embed_empty)."
  },
  {
   "property": "C59",
   "status": "proved",
   "theorems": [
    "Thinc.C59_arrays",
    "Thinc.C59_identity",
    "Thinc.C59_lists",
    "Thinc.C59_mask",
    "Thinc.C59_padded",
    "Thinc.C59_ragged",
    "Thinc.C59_unbiased"
   ],
   "note": "Arrays, Ragged, Padded and lists; random draws are arbitrary, the mean of the factor over uniform draws is 1 (C59_unbiased)."
  },
  {
   "property": "C60",
   "status": "proved",
   "theorems": [
    "Thinc.C60_embed",
    "Thinc.C60_small",
    "Thinc.C60_uniqued"
   ],
   "note": "For every integer array with at least one row and every layer that is exact on the arrays made of its rows; also instantiated with Embed. Arrays with fewer than two entries go straight to the layer."
  },
  {
   "property": "C61",
   "status": "partial",
   "theorems": [
    "Thinc.C61_attention_partial",
    "Thinc.C61_attention_v2_partial",
    "Thinc.C61_large_scores_wrong",
    "Thinc.C61_local",
    "Thinc.C61_no_rows_fails",
    "Thinc.C61_weights"
   ],
   "note": "Both versions, with any exact key layer; batches with at least one row and scores within [-20, 20], where softmax_sequences clips. Outside the gradient is wrong (C61_large_scores_wrong), and a batch without rows raises IndexError (C61_no_rows_fails)."
  },
  {
   "property": "C62",
   "status": "partial",
   "theorems": [
    "Thinc.C62_multisoftmax_partial",
    "Thinc.C62_not_distributions"
   ],
   "note": "The claimed softmax is discarded by the code (ops.softmax ignores inplace), so the outputs are the raw logits; the layer is exact as an affine layer (C62_multisoftmax_partial), and its groups are not distributions (C62_not_distributions)."
  },
  {
   "property": "C63",
   "status": "partial",
   "theorems": [
    "Thinc.C63_container_dims",
    "Thinc.C63_grow_partial",
    "Thinc.C63_linear_partial",
    "Thinc.C63_same_size",
    "Thinc.C63_shrink_fails",
    "Thinc.C63_unset"
   ],
   "note": "Growing is proved for every layer whose init allocates arrays of the right shape, and for Linear and Softmax down to the outputs. Shrinking always raises ValueError (C63_shrink_fails), and a resizable container keeps reporting the old nO (C63_container_dims)."
  },
  {
   "property": "C64",
   "status": "partial",
   "theorems": [
    "Thinc.C64_exact_partial",
    "Thinc.C64_last_index_wrong",
    "Thinc.C64_out_of_range",
    "Thinc.C64_with_getitem_partial"
   ],
   "note": "Every index that names a member except -1, which returns the output followed by the whole tuple again (C64_last_index_wrong). Out of range: IndexError."
  },
  {
   "property": "C65",
   "status": "proved",
   "theorems": [
    "Thinc.C65_argument_numbers_match",
    "Thinc.C65_convert",
    "Thinc.C65_keys_collide",
    "Thinc.C65_no_match"
   ],
   "note": "For objects whose keys are hashable, distinct and do not match, and if the argument numbers, pairs and the list made up by ArgsKwargs.items do not match either; C65_argument_numbers_match and C65_keys_collide show what happens otherwise. Effects and exceptions of convert_item are covered (any monad)."
  },
  {
   "property": "C66",
   "status": "partial",
   "theorems": [
    "Thinc.C66_nested_partial",
    "Thinc.C66_not_restored",
    "Thinc.C66_restored_partial",
    "Thinc.C66_use_ops",
    "Thinc.C66_use_ops_unknown"
   ],
   "note": "use_ops restores by every route (C66_use_ops, full). data_validation and define_operators restore only if no exception leaves the block (C66_not_restored is the counterexample); any nesting with exceptions handled inside is covered by C66_nested_partial."
  },
  {
   "property": "C67",
   "status": "proved",
   "theorems": [
    "Thinc.C67_distinct_ids",
    "Thinc.C67_hash_rows",
    "Thinc.C67_injective",
    "Thinc.C67_keys_in_range"
   ],
   "note": "The murmur hash on 64-bit vectors, exactly as in the code; injectivity for every seed."
  },
  {
   "property": "C68",
   "status": "partial",
   "theorems": [
    "Thinc.C68_interleaved_partial",
    "Thinc.C68_shuffled_interfere"
   ],
   "note": "All interleavings without shuffling. With shuffle=True the iterators share and reshuffle one index array, so an interleaved iteration repeats and loses items (witness)."
  },
  {
   "property": "C69",
   "status": "proved",
   "theorems": [
    "Thinc.C69_conversions",
    "Thinc.C69_no_rows_loses_width"
   ],
   "note": "Batches without any row lose their width in a Ragged (C69_no_rows_loses_width)."
  },
  {
   "property": "C70",
   "status": "partial",
   "theorems": [
    "Thinc.C70_error",
    "Thinc.C70_v1_backward_wrong",
    "Thinc.C70_v1_empty",
    "Thinc.C70_v1_forward_partial",
    "Thinc.C70_with_flatten_v2"
   ],
   "note": "Version 2 fully. Version 1 forward; its backward cuts the gradient along the last axis (witness C70_v1_backward_wrong)."
  },
  {
   "property": "C71",
   "status": "proved",
   "theorems": [
    "Thinc.C71_network"
   ],
   "note": "By mutual induction over all networks built from Linear, Relu, noop, chain, add, concatenate, residual and any other exact layer."
  },
  {
   "property": "C72",
   "status": "partial",
   "theorems": [
    "Thinc.C72_clipped_linear_partial",
    "Thinc.C72_dish_partial",
    "Thinc.C72_dish_raises",
    "Thinc.C72_gelu_partial",
    "Thinc.C72_hard_swish",
    "Thinc.C72_hard_swish_mobilenet",
    "Thinc.C72_logistic_partial",
    "Thinc.C72_mish",
    "Thinc.C72_relu",
    "Thinc.C72_sigmoid_partial",
    "Thinc.C72_swish_partial"
   ],
   "note": "Real arithmetic. Partial: sigmoid-based layers clip at +-20; clipped linear needs a positive slope; Dish's callback uses the derivative at the layer's input instead of the pre-activation and raises when widths differ (proved)."
  },
  {
   "property": "C73",
   "status": "proved",
   "theorems": [
    "Thinc.C73_chain",
    "Thinc.C73_exact",
    "Thinc.C73_forward",
    "Thinc.C73_l2",
    "Thinc.C73_labels",
    "Thinc.C73_shape_checked",
    "Thinc.C73_softmax_alone_wrong",
    "Thinc.C73_targets",
    "Thinc.C73_temperature",
    "Thinc.C73_unnormalized"
   ],
   "note": "Softmax with CategoricalCrossentropy, any exact network with L2Distance, behind any chain of exact layers. The Softmax callback alone is not the gradient of its function (C73_softmax_alone_wrong)."
  },
  {
   "property": "C74",
   "status": "partial",
   "theorems": [
    "Thinc.C74_forward",
    "Thinc.C74_maxout_partial",
    "Thinc.C74_no_rows"
   ],
   "note": "Real arithmetic. Partial: with a batch of no rows the callback raises IndexError (C74_no_rows), so exactness is stated for at least one row; the forward pass holds for every batch (C74_forward)."
  },
  {
   "property": "C75",
   "status": "partial",
   "theorems": [
    "Thinc.C75_first",
    "Thinc.C75_last",
    "Thinc.C75_max",
    "Thinc.C75_mean_partial",
    "Thinc.C75_shape_checked",
    "Thinc.C75_sum_partial"
   ],
   "note": "Real arithmetic; reduce_max where the maximum of each column is unique. Partial: reduce_sum and reduce_mean raise on a batch with no rows at all (C37), so exactness is stated for at least one row."
  },
  {
   "property": "C76",
   "status": "proved",
   "theorems": [
    "Thinc.C76_floats",
    "Thinc.C76_ragged"
   ],
   "note": "Real arithmetic."
  },
  {
   "property": "C77",
   "status": "proved",
   "theorems": [
    "Thinc.C77_progress",
    "Thinc.C77_sgd",
    "Thinc.C77_trains"
   ],
   "note": "Proved for SGD with L2 = 0 and beta1 = beta2 = 0, models without shims, exact real arithmetic. L2 is left out because a parameter that received no gradient is not regularised by the code. C77_trains instantiates the loop with any model that satisfies the training-step theorem C73."
  },
  {
   "property": "C78",
   "status": "proved",
   "theorems": [
    "Thinc.C78_cauchy_needs_pair",
    "Thinc.C78_cauchy_similarity",
    "Thinc.C78_cauchy_similarity_nonneg"
   ],
   "note": "Real arithmetic; rows where the weighted sum is exactly -1 (only possible with a negative weight) are excluded, because the similarity is infinite there."
  },
  {
   "property": "C79",
   "status": "partial",
   "theorems": [
    "Thinc.C79_accepts_partial",
    "Thinc.C79_add_unchecked",
    "Thinc.C79_again",
    "Thinc.C79_chain",
    "Thinc.C79_chain_stale",
    "Thinc.C79_concatenate",
    "Thinc.C79_frame",
    "Thinc.C79_get_width",
    "Thinc.C79_inference",
    "Thinc.C79_layers_input",
    "Thinc.C79_layers_output",
    "Thinc.C79_no_input_width",
    "Thinc.C79_no_width",
    "Thinc.C79_ready",
    "Thinc.C79_reinitialize",
    "Thinc.C79_residual_unchecked",
    "Thinc.C79_softmax_unchecked",
    "Thinc.C79_uniform"
   ],
   "note": "C79_ready, C79_frame, C79_uniform, C79_reinitialize, C79_chain, C79_inference (iff) and C79_again are proved for all networks of the model. C79_accepts_partial (an initialized network accepts the batch it was initialized with) covers dense layers, chains and concatenations; for add, residual and Softmax with preset dimensions the code does not check, and C79_add_unchecked, C79_residual_unchecked, C79_softmax_unchecked and C79_chain_stale prove that initialize succeeds although the network accepts nothing."
  },
  {
   "property": "C80",
   "status": "proved",
   "theorems": [
    "Thinc.C80_list2array",
    "Thinc.C80_list2padded",
    "Thinc.C80_list2ragged",
    "Thinc.C80_no_rows_lose_width",
    "Thinc.C80_padded2list",
    "Thinc.C80_places",
    "Thinc.C80_ragged2list",
    "Thinc.C80_rows_changed",
    "Thinc.C80_with_array2d_padded",
    "Thinc.C80_with_array_array",
    "Thinc.C80_with_array_list",
    "Thinc.C80_with_array_list_pad",
    "Thinc.C80_with_array_ragged",
    "Thinc.C80_with_list_list",
    "Thinc.C80_with_list_padded",
    "Thinc.C80_with_list_ragged",
    "Thinc.C80_with_padded_list",
    "Thinc.C80_with_padded_padded",
    "Thinc.C80_with_padded_ragged",
    "Thinc.C80_with_ragged_list",
    "Thinc.C80_with_ragged_padded",
    "Thinc.C80_with_ragged_ragged"
   ],
   "note": "Two-dimensional float sequences. with_array on a Padded hands the layer a three-dimensional array and is not covered here (see C34). Padded inputs have the layout list2padded gives. C80_no_rows_lose_width shows why a row is needed for a Ragged."
  },
  {
   "property": "C81",
   "status": "proved",
   "theorems": [
    "Thinc.C81_bucket_pow_two",
    "Thinc.C81_empty_batch",
    "Thinc.C81_hash_high",
    "Thinc.C81_hash_low",
    "Thinc.C81_lengths_fit",
    "Thinc.C81_needs_three",
    "Thinc.C81_reads_outside",
    "Thinc.C81_sparse_linear",
    "Thinc.C81_two_hashes",
    "Thinc.C81_v1_shared",
    "Thinc.C81_v1_unused",
    "Thinc.C81_v2_separate",
    "Thinc.C81_v2_used"
   ],
   "note": "Weights and values are real numbers. GPU arrays, C int overflow and wrong dtypes are not modelled. The callback returns its input instead of a gradient for it."
  },
  {
   "property": "C82",
   "status": "proved",
   "theorems": [
    "Thinc.C82_batch_independent",
    "Thinc.C82_lstm_forward",
    "Thinc.C82_lstm_layer",
    "Thinc.C82_lstm_lists",
    "Thinc.C82_output_lengths",
    "Thinc.C82_parameter_count",
    "Thinc.C82_weights"
   ],
   "note": "Proved for the numpy backend over the reals. The layer passes HC0[0], which it calls H0, as the initial cell state and HC0[1], which it calls C0, as the initial hidden state; the theorem says so (both are zero after initialization)."
  },
  {
   "property": "C83",
   "status": "partial",
   "theorems": [
    "Thinc.C83_backward_runs",
    "Thinc.C83_first_position_zero",
    "Thinc.C83_gradient_of_nothing",
    "Thinc.C83_input_gradient_partial",
    "Thinc.C83_wrong_gradient"
   ],
   "note": "Memory safety and shapes hold for every depth and direction (C83_backward_runs). The input gradient is exact for one layer with at least two units at every position that is not read first (C83_input_gradient_partial). The rest is false for the code and disproved: the first position always gets 0 (C83_first_position_zero, C83_wrong_gradient), sequences of length 1 or a zero gradient return the parameters themselves as gradient (C83_gradient_of_nothing)."
  },
  {
   "property": "C84",
   "status": "partial",
   "theorems": [
    "Thinc.C84_backends_disagree",
    "Thinc.C84_first_sequence_partial",
    "Thinc.C84_gradients_zero",
    "Thinc.C84_other_sequences_zero",
    "Thinc.C84_same_network",
    "Thinc.C84_wrong_gradient"
   ],
   "note": "Partial: the first sequence of every batch gets the textbook outputs with the logistic function clipped at 20 (C84_first_sequence_partial). The rest is false of the code: outputs of all other sequences are zero for every input (C84_other_sequences_zero), all gradients are zero for every input (C84_gradients_zero), with concrete disagreements (C84_backends_disagree, C84_wrong_gradient)."
  },
  {
   "property": "C85",
   "status": "partial",
   "theorems": [
    "Thinc.C85_basic_indices",
    "Thinc.C85_empty_input_not_indexed",
    "Thinc.C85_exact_gradient_partial",
    "Thinc.C85_raises_iff",
    "Thinc.C85_repeated_index_wrong",
    "Thinc.C85_selected_entries"
   ],
   "note": "Proved for indices without repeated entries on non-empty 2-d arrays, which covers all integers and slices; a list of integers naming an entry twice loses a gradient (C85_repeated_index_wrong), and an input without rows is returned unindexed (C85_empty_input_not_indexed). Boolean masks, None and Ellipsis are not modelled."
  },
  {
   "property": "C86",
   "status": "partial",
   "theorems": [
    "Thinc.C86_premap",
    "Thinc.C86_premap_raises_iff",
    "Thinc.C86_remap_gradient_uninitialised",
    "Thinc.C86_remap_raises_iff",
    "Thinc.C86_remap_v1",
    "Thinc.C86_remap_v2_partial",
    "Thinc.C86_strings2arrays"
   ],
   "note": "The look-up is proved for all three layers, the zero gradient for remap_ids.v1 and premap_ids; remap_ids.v2 returns uninitialised memory (C86_remap_gradient_uninitialised). PreshMap is treated as a finite map and the hash as an arbitrary function."
  },
  {
   "property": "C87",
   "status": "partial",
   "theorems": [
    "Thinc.C87_change_attr_values",
    "Thinc.C87_get_gradients",
    "Thinc.C87_set_dropout_rate",
    "Thinc.C87_wrap_model_recursive_partial",
    "Thinc.C87_wrap_unset_ref"
   ],
   "note": "set_dropout_rate, change_attr_values and get_gradients are proved in full (get_gradients for trees with distinct ids and set parameters). wrap_model_recursive is proved for acyclic models whose references are set; self-references stay (part of the statement) and an unset reference raises halfway (C87_wrap_unset_ref)."
  },
  {
   "property": "C88",
   "status": "proved",
   "theorems": [
    "Thinc.C88_proxy",
    "Thinc.C88_shared_parameter"
   ],
   "note": "The proxy is an arbitrary state machine; refinement to a specification that keeps only the proxy's state and which names are known and were given a value."
  },
  {
   "property": "C89",
   "status": "proved",
   "theorems": [
    "Thinc.C89_add",
    "Thinc.C89_classifier",
    "Thinc.C89_column",
    "Thinc.C89_concatenate",
    "Thinc.C89_embed_column",
    "Thinc.C89_hash_embed_column",
    "Thinc.C89_tagger",
    "Thinc.C89_with_array",
    "Thinc.C89_with_array_floats_trains",
    "Thinc.C89_with_array_trains"
   ],
   "note": "At least one row inside with_array (arrays without rows are not indexed by ints_getitem, and the HashEmbed callback raises without ids, see C58, C85). Embed needs ids that are rows of its table (C58)."
  },
  {
   "property": "C90",
   "status": "proved",
   "theorems": [
    "Thinc.C90_adam",
    "Thinc.C90_chain_fills",
    "Thinc.C90_dense_fills",
    "Thinc.C90_fresh",
    "Thinc.C90_linear_fills",
    "Thinc.C90_softmax_fills",
    "Thinc.C90_takes"
   ],
   "note": "Batches must leave a gradient for every parameter (Fills): finish_update skips a parameter that has no gradient, so neither its moments nor its step count move. Proved for Linear, the dense layers, Softmax and chains. RAdam is not covered here (its single steps are in C20-C22)."
  },
  {
   "property": "C91",
   "status": "partial",
   "theorems": [
    "Thinc.C91_backends",
    "Thinc.C91_bounded",
    "Thinc.C91_distinct",
    "Thinc.C91_encode",
    "Thinc.C91_given",
    "Thinc.C91_ngrams_empty",
    "Thinc.C91_ngrams_partial",
    "Thinc.C91_odd_repeats",
    "Thinc.C91_relative"
   ],
   "note": "Exact reals. Partial: ngrams of no keys raises IndexError (C91_ngrams_empty). C91_backends: the version outside numpy truncates the hashes; C91_odd_repeats: with an odd width the last column repeats the column two before."
  },
  {
   "property": "C92",
   "status": "partial",
   "theorems": [
    "Thinc.C92_accumulation_scaled",
    "Thinc.C92_accumulation_wrong",
    "Thinc.C92_caller_scaled",
    "Thinc.C92_caller_unscaled",
    "Thinc.C92_defaults",
    "Thinc.C92_detects",
    "Thinc.C92_detects_added",
    "Thinc.C92_disabled",
    "Thinc.C92_growth",
    "Thinc.C92_inputs",
    "Thinc.C92_overflow_anywhere",
    "Thinc.C92_overflow_skips",
    "Thinc.C92_scale_args",
    "Thinc.C92_scale_history",
    "Thinc.C92_scale_positive",
    "Thinc.C92_unscale_scale",
    "Thinc.C92_update_partial"
   ],
   "note": "Exact reals plus a value for everything not finite; torch.autograd is an arbitrary function. Partial: with scaling on, two batches leave g1/scale + g2 (C92_accumulation_scaled, C92_accumulation_wrong), and the in-place scaling reaches the caller's array (C92_caller_scaled). C92_update_partial covers scaling off with any number of batches, and scaling on with one."
  },
  {
   "property": "C93",
   "status": "partial",
   "theorems": [
    "Thinc.C93_copy",
    "Thinc.C93_disk",
    "Thinc.C93_errors",
    "Thinc.C93_tf_copy_wrong",
    "Thinc.C93_tf_h5",
    "Thinc.C93_tf_subclass_partial",
    "Thinc.C93_torch_callbacks_partial",
    "Thinc.C93_torch_default_lost",
    "Thinc.C93_torch_default_wrong",
    "Thinc.C93_torchscript"
   ],
   "note": "Partial: C93_torch_default_lost proves that with the default callbacks the loading shim keeps its own parameters; C93_tf_copy_wrong and C93_tf_subclass_partial the TensorFlow cases. TorchScript, h5 and user callbacks are proved. MXNet is not modelled."
  },
  {
   "property": "C94",
   "status": "partial",
   "theorems": [
    "Thinc.C94_exception_leaks",
    "Thinc.C94_keys_collide",
    "Thinc.C94_optimizer_keys_ignored",
    "Thinc.C94_optimizer_keys_wrong",
    "Thinc.C94_other_names_refused",
    "Thinc.C94_string_keys_partial"
   ],
   "note": "Partial: C94_optimizer_keys_ignored, C94_exception_leaks and C94_keys_collide are the parts that fail; C94_string_keys_partial the part that holds (string keys 'pytorch_{id}_{name}' for all parameters, normal exit)."
  },
  {
   "property": "C95",
   "status": "partial",
   "theorems": [
    "Thinc.C95_backprop_maxout",
    "Thinc.C95_backprop_reduce_max_partial",
    "Thinc.C95_backprop_reduce_mean_partial",
    "Thinc.C95_backprop_reduce_sum_partial",
    "Thinc.C95_backprop_reduce_sum_unchecked",
    "Thinc.C95_backprop_seq2col",
    "Thinc.C95_gather_add_partial",
    "Thinc.C95_gather_add_raises",
    "Thinc.C95_gather_add_wraps",
    "Thinc.C95_maxout",
    "Thinc.C95_pad",
    "Thinc.C95_pad_rejects",
    "Thinc.C95_pooling_raises",
    "Thinc.C95_reduce_max",
    "Thinc.C95_reduce_mean_offset",
    "Thinc.C95_reduce_sum",
    "Thinc.C95_seq2col",
    "Thinc.C95_seq2col_bad_lengths"
   ],
   "note": "Partial because the code violates the claim in places, each with a witness: gather_add converts indices to 32 bits before checking them (C95_gather_add_wraps), the gradients of the pooling functions do not check the number of gradients and read out of bounds (C95_backprop_reduce_sum_unchecked), reduce_mean divides by the length plus 1e-10 (C95_reduce_mean_offset, with a bound of the error). Numbers are exact, indices unbounded, interleavings of single accesses (justified by the proved race freedom)."
  },
  {
   "property": "C96",
   "status": "proved",
   "theorems": [
    "Thinc.C96_adam",
    "Thinc.C96_backprop_clipped_linear",
    "Thinc.C96_backprop_dish",
    "Thinc.C96_backprop_gelu",
    "Thinc.C96_backprop_hard_swish",
    "Thinc.C96_backprop_hard_swish_mobilenet",
    "Thinc.C96_backprop_mish",
    "Thinc.C96_backprop_swish",
    "Thinc.C96_clipped_linear",
    "Thinc.C96_dish",
    "Thinc.C96_gelu",
    "Thinc.C96_gelu_gradient",
    "Thinc.C96_hash",
    "Thinc.C96_mish",
    "Thinc.C96_shapes",
    "Thinc.C96_swish",
    "Thinc.C96_swish_error",
    "Thinc.C96_swish_gradient"
   ],
   "note": "Exact real arithmetic; erf and the decimal constants are taken as exact; the argument mod_rate of adam, which the GPU (and NumPy) version ignores and no caller sets, is left at its default. A slope of zero gives zeros on the GPU and ZeroDivisionError on the CPU (part of C96_backprop_clipped_linear)."
  },
  {
   "property": "C97",
   "status": "partial",
   "theorems": [
    "Thinc.C97_forward_partial",
    "Thinc.C97_gradient_count",
    "Thinc.C97_integers",
    "Thinc.C97_list",
    "Thinc.C97_list_gradient",
    "Thinc.C97_no_gradient_argument",
    "Thinc.C97_rnn",
    "Thinc.C97_rnn_needs_pair",
    "Thinc.C97_tuple_outputs"
   ],
   "note": "C97_forward_partial for single inputs, tuples, dicts and ArgsKwargs with one output tensor. Missing because the code violates it: lists (C97_list_gradient: always a tuple), tuples of outputs (C97_tuple_outputs: the callback always raises), integer arrays in training (C97_integers)."
  },
  {
   "property": "C98",
   "status": "partial",
   "theorems": [
    "Thinc.C98_copy_partial",
    "Thinc.C98_copy_state",
    "Thinc.C98_debug_copy",
    "Thinc.C98_debug_copy_violated",
    "Thinc.C98_forward",
    "Thinc.C98_init_copy",
    "Thinc.C98_initialize",
    "Thinc.C98_open_range",
    "Thinc.C98_trace"
   ],
   "note": "C98_copy_partial: copies only without with_debug, forward only. C98_debug_copy, C98_debug_copy_violated, C98_init_copy and C98_open_range show what the code does instead."
  },
  {
   "property": "C99",
   "status": "partial",
   "theorems": [
    "Thinc.C99_backprop_dims",
    "Thinc.C99_backprop_violated",
    "Thinc.C99_backprop_width",
    "Thinc.C99_empty_backprop",
    "Thinc.C99_forward_partial",
    "Thinc.C99_too_few_axes",
    "Thinc.C99_zero_width"
   ],
   "note": "C99_forward_partial is the forward pass. C99_backprop_width and C99_backprop_dims say what the callback does for every layer; it is never what the property asks."
  },
  {
   "property": "C100",
   "status": "partial",
   "theorems": [
    "Thinc.C100_always_training",
    "Thinc.C100_forward_partial",
    "Thinc.C100_gradient_device_violated",
    "Thinc.C100_predict_violated"
   ],
   "note": "C100_forward_partial is the case is_train=True, up to the device of the gradients. C100_always_training and the two _violated theorems show the rest fails."
  },
  {
   "property": "C101",
   "status": "partial",
   "theorems": [
    "Thinc.C101_entrywise",
    "Thinc.C101_input",
    "Thinc.C101_mxnet",
    "Thinc.C101_mxnet_no_params",
    "Thinc.C101_several_inputs",
    "Thinc.C101_several_inputs_one_row",
    "Thinc.C101_training_partial",
    "Thinc.C101_unused_variable"
   ],
   "note": "Partial: with several inputs the callback looks at the rows of the first input instead of the inputs, so it raises, or returns None and gradients of variables (C101_several_inputs, C101_several_inputs_one_row); a variable without gradient makes the callback raise (C101_unused_variable). What the gradient tape computes is an arbitrary function."
  },
  {
   "property": "C102",
   "status": "partial",
   "theorems": [
    "Thinc.C102_copy_violated",
    "Thinc.C102_entries",
    "Thinc.C102_exception_violated",
    "Thinc.C102_missing_violated",
    "Thinc.C102_other_keys",
    "Thinc.C102_use_params_partial",
    "Thinc.C102_weights_lost_violated"
   ],
   "note": "Partial: a block that raises leaves the temporary weights (C102_exception_violated), a dict without one of the names raises after some layers have changed (C102_missing_violated), copy takes the model away from the original and both copy and to_device lose the weights (C102_copy_violated, C102_weights_lost_violated)."
  },
  {
   "property": "C103",
   "status": "partial",
   "theorems": [
    "Thinc.C103_limit",
    "Thinc.C103_negative_mean_violated",
    "Thinc.C103_normal_partial",
    "Thinc.C103_normal_violated",
    "Thinc.C103_one_axis_violated",
    "Thinc.C103_scheme",
    "Thinc.C103_uniform",
    "Thinc.C103_zero"
   ],
   "note": "Partial: normal_init passes its mean as the scale, so that the default gives zeros and a negative mean raises (C103_normal_violated, C103_negative_mean_violated); with one axis the six scaled initializers raise IndexError (C103_one_axis_violated). Exact reals, rounding to float32 not modelled."
  },
  {
   "property": "C104",
   "status": "partial",
   "theorems": [
    "Thinc.C104_backward",
    "Thinc.C104_forward_partial",
    "Thinc.C104_he_relu",
    "Thinc.C104_lecun",
    "Thinc.C104_maxout_violated"
   ],
   "note": "Partial by violation for Maxout: the scale is taken from the number of pieces instead of the number of inputs (C104_maxout_violated). Proved for linear and ReLU layers, forward and (linear) backward."
  },
  {
   "property": "C105",
   "status": "partial",
   "theorems": [
    "Thinc.C105_alone",
    "Thinc.C105_blocks_partial",
    "Thinc.C105_main",
    "Thinc.C105_new_task",
    "Thinc.C105_new_thread",
    "Thinc.C105_thread_state_partial",
    "Thinc.C105_thread_state_violated"
   ],
   "note": "Partial: contextvars_eq_thread_ops is false while another asynchronous task of the same thread is inside use_ops, although every task has the right backend (C105_thread_state_violated); without asynchronous tasks it is always true. Blocks restore data validation and operators only if no exception leaves them (C66). The isolation itself (C105_alone) is proved without restriction."
  },
  {
   "property": "C106",
   "status": "partial",
   "theorems": [
    "Thinc.C106_by_name",
    "Thinc.C106_cpu",
    "Thinc.C106_history",
    "Thinc.C106_no_gpu_partial",
    "Thinc.C106_prefer_gpu",
    "Thinc.C106_require_cpu",
    "Thinc.C106_require_gpu",
    "Thinc.C106_wrong_gpu_violated"
   ],
   "note": "Partial: if there is no GPU with the given number, require_gpu and prefer_gpu raise after they have changed the backend to CuPy (C106_wrong_gpu_violated). The rest is proved."
  },
  {
   "property": "C107",
   "status": "partial",
   "theorems": [
    "Thinc.C107_enough",
    "Thinc.C107_names",
    "Thinc.C107_one_pool_partial",
    "Thinc.C107_race_violated",
    "Thinc.C107_short_iff",
    "Thinc.C107_short_violated",
    "Thinc.C107_threads"
   ],
   "note": "Partial: two threads that both find no pool make two (C107_race_violated), and the allocators by themselves allocate up to three bytes less than they are asked for (C107_short_violated), which the rounding in CuPy's pools hides (C107_enough). Calls one after the other make one pool per library, and under every schedule no call fails and CuPy uses a pool of a library that was asked for."
  },
  {
   "property": "C108",
   "status": "proved",
   "theorems": [
    "Thinc.C108_exact",
    "Thinc.C108_initialize",
    "Thinc.C108_predict"
   ],
   "note": "A preset nO is not compared with the width of Y as soon as one option is used; the statement says so."
  },
  {
   "property": "C109",
   "status": "partial",
   "theorems": [
    "Thinc.C109_first_step_violated",
    "Thinc.C109_lr_scale_violated",
    "Thinc.C109_phases",
    "Thinc.C109_radam_partial",
    "Thinc.C109_rectification",
    "Thinc.C109_warmup",
    "Thinc.C109_well_defined"
   ],
   "note": "The code counts an update twice (nr_update is incremented in __call__, and step again in _radam), so the n-th update uses the corrections of step n+1: the first step is 10/19 of the published one with the default betas. lr_scale is ignored. Both are machine-checked witnesses; the partial theorem gives the exact update."
  },
  {
   "property": "C110",
   "status": "proved",
   "theorems": [
    "Thinc.C110_add_width",
    "Thinc.C110_chain_initialized",
    "Thinc.C110_concatenate_width",
    "Thinc.C110_init_keeps",
    "Thinc.C110_one_sample_settles_all",
    "Thinc.C110_sample_must_vary",
    "Thinc.C110_with_array_initialized",
    "Thinc.C110_wrapper_width"
   ],
   "note": "Batches with positive lengths and widths; positive dimensions. add only of layers whose outputs are no Python lists."
  },
  {
   "property": "C111",
   "status": "partial",
   "theorems": [
    "Thinc.C111_all_ready_partial",
    "Thinc.C111_bidirectional_examples",
    "Thinc.C111_cauchy_init",
    "Thinc.C111_dense_init",
    "Thinc.C111_embed_init",
    "Thinc.C111_getitem_examples",
    "Thinc.C111_keeps",
    "Thinc.C111_key_transform_unset",
    "Thinc.C111_layernorm_init",
    "Thinc.C111_map_list_examples",
    "Thinc.C111_multisoftmax_init",
    "Thinc.C111_siamese_examples",
    "Thinc.C111_siamese_given",
    "Thinc.C111_siamese_skips_encoder",
    "Thinc.C111_siamese_violated",
    "Thinc.C111_softmax_init",
    "Thinc.C111_sparse_init",
    "Thinc.C111_tuplify_examples"
   ],
   "note": "Partial: the unchanged code violates the claim for siamese, whose encoder is not initialized when no example is given (C111_siamese_violated); C111_all_ready_partial is about models without siamese, C111_siamese_given about siamese with an example. C111_key_transform_unset: ParametricAttention.v2 never infers the width of a key transform."
  },
  {
   "property": "C112",
   "status": "partial",
   "theorems": [
    "Thinc.C112_accepts_iff",
    "Thinc.C112_array",
    "Thinc.C112_conforming_accepted",
    "Thinc.C112_conforming_same",
    "Thinc.C112_only_refuses",
    "Thinc.C112_refused",
    "Thinc.C112_sixth_item_violated",
    "Thinc.C112_validate_partial"
   ],
   "note": "accepts_iff, validate and only_refuses hold for every annotation and model; partial because only the first five items of a list are looked at: a list with a bad sixth item is accepted (C112_sixth_item_violated). pydantic itself is modelled for the annotations that occur in thinc, without its conversions."
  },
  {
   "property": "C113",
   "status": "partial",
   "theorems": [
    "Thinc.C113_chain",
    "Thinc.C113_chain_accepted",
    "Thinc.C113_never_fails_partial",
    "Thinc.C113_no_arguments_violated",
    "Thinc.C113_no_type_errors",
    "Thinc.C113_others",
    "Thinc.C113_same"
   ],
   "note": "Partial because the plugin fails with an IndexError on a call without arguments such as concatenate(), which is valid (C113_no_arguments_violated); C113_never_fails_partial covers the others. mypy's is_subtype is a parameter; Any, which is compatible in both directions, does not meet the hypothesis of the soundness theorem."
  },
  {
   "property": "C114",
   "status": "partial",
   "theorems": [
    "Thinc.C114_double_violated",
    "Thinc.C114_half_moved_violated",
    "Thinc.C114_there_and_back",
    "Thinc.C114_to_gpu_partial",
    "Thinc.C114_wrapped_violated"
   ],
   "note": "Partial: to_gpu(1) puts wrapped PyTorch models on GPU 0 (C114_wrapped_violated); if a shim has no to_device the model is left half moved (C114_half_moved_violated); parameters in double precision are rounded (C114_double_violated). Arrays are contents, a device and a precision; that cupy puts arrays on the current device is assumed."
  },
  {
   "property": "C115",
   "status": "proved",
   "theorems": [
    "Thinc.C115_adam_first_step",
    "Thinc.C115_large_rate",
    "Thinc.C115_linear_regression",
    "Thinc.C115_linear_regression_converges",
    "Thinc.C115_sgd_step",
    "Thinc.C115_softmax_labels"
   ],
   "note": "Exact reals. The general claim is about one step from given parameters, as the bound depends on them; that a large rate can make the loss larger is C115_large_rate. Later steps of Adam use old gradients and may raise the loss."
  },
  {
   "property": "C116",
   "status": "proved",
   "theorems": [
    "Thinc.C116_adam",
    "Thinc.C116_chain",
    "Thinc.C116_chain_exact",
    "Thinc.C116_dense",
    "Thinc.C116_exact_rows",
    "Thinc.C116_l2",
    "Thinc.C116_labels",
    "Thinc.C116_layer_norm",
    "Thinc.C116_linear",
    "Thinc.C116_maxout",
    "Thinc.C116_maxout_exact",
    "Thinc.C116_normalized_violated",
    "Thinc.C116_predictions",
    "Thinc.C116_relu",
    "Thinc.C116_relu_exact",
    "Thinc.C116_residual",
    "Thinc.C116_residual_exact",
    "Thinc.C116_sgd",
    "Thinc.C116_softmax"
   ],
   "note": "Exact real arithmetic: float rounding depends on the order of the sums. Relu and Maxout predict row by row for all inputs; in training their rows must not be on a kink. That normalized losses depend on the batches is C116_normalized_violated."
  },
  {
   "property": "C117",
   "status": "proved",
   "theorems": [
    "Thinc.C117_adam",
    "Thinc.C117_copy",
    "Thinc.C117_copy_adam",
    "Thinc.C117_copy_holds",
    "Thinc.C117_isolated",
    "Thinc.C117_load",
    "Thinc.C117_sgd"
   ],
   "note": "C117_isolated: any layer, batches and optimizer. C117_copy_holds, C117_copy, C117_copy_adam: copies. C117_load: saving and loading (under the hypotheses of C09_round_trip_partial). C117_sgd, C117_adam: any two models with equal parameters. Exact real arithmetic; models without shims. The loaded model must have no gradients: from_dict keeps those of the target (see C09_round_trip_partial)."
  },
  {
   "property": "C118",
   "status": "partial",
   "theorems": [
    "Thinc.C118_flatten_lengths_wrong",
    "Thinc.C118_flatten_targets_partial",
    "Thinc.C118_flatten_targets_wrong",
    "Thinc.C118_padded_tuple",
    "Thinc.C118_padding_violated",
    "Thinc.C118_ragged_tuple",
    "Thinc.C118_reshape_twice",
    "Thinc.C118_tuple_violated",
    "Thinc.C118_two_documents_violated",
    "Thinc.C118_with_array_flat_ids",
    "Thinc.C118_with_array_ids_initialized",
    "Thinc.C118_with_array_initialized",
    "Thinc.C118_with_array_partial",
    "Thinc.C118_with_array_shape",
    "Thinc.C118_with_flatten",
    "Thinc.C118_with_flatten_v2",
    "Thinc.C118_with_list",
    "Thinc.C118_with_list_initialized",
    "Thinc.C118_with_padded_initialized",
    "Thinc.C118_with_padded_partial",
    "Thinc.C118_with_ragged",
    "Thinc.C118_with_ragged_initialized",
    "Thinc.C118_with_reshape",
    "Thinc.C118_with_reshape_targets"
   ],
   "note": "Partial because the code breaks it in three ways, each with a machine-checked witness: C118_padding_violated, C118_tuple_violated, C118_two_documents_violated. Everything else is proved for every layer and input."
  },
  {
   "property": "C119",
   "status": "partial",
   "theorems": [
    "Thinc.C119_attention",
    "Thinc.C119_attention_v2",
    "Thinc.C119_chain",
    "Thinc.C119_chain_one",
    "Thinc.C119_concatenate",
    "Thinc.C119_expand_window_ragged",
    "Thinc.C119_list2ragged",
    "Thinc.C119_maps_rows",
    "Thinc.C119_ragged2list",
    "Thinc.C119_reduce_first",
    "Thinc.C119_reduce_last",
    "Thinc.C119_reduce_max",
    "Thinc.C119_reduce_mean",
    "Thinc.C119_reduce_sum",
    "Thinc.C119_residual_list",
    "Thinc.C119_residual_ragged",
    "Thinc.C119_rows",
    "Thinc.C119_same_output",
    "Thinc.C119_sees_chain",
    "Thinc.C119_sees_chain_one",
    "Thinc.C119_sees_expand_window",
    "Thinc.C119_sees_more",
    "Thinc.C119_sees_noop",
    "Thinc.C119_sees_residual",
    "Thinc.C119_with_array_list_partial",
    "Thinc.C119_with_array_list_violated",
    "Thinc.C119_with_array_ragged_partial",
    "Thinc.C119_with_array_ragged_violated",
    "Thinc.C119_with_list",
    "Thinc.C119_with_ragged"
   ],
   "note": "Partial because the code violates it: with_array does not use its padding for a Ragged (with_array.py:87-96), so a layer that looks at neighbouring rows sees other documents there (C119_with_array_ragged_violated, for every padding), and a list needs a padding at least as large as the window (C119_with_array_list_violated with padding 0). Proved for all layers that see no further than the padding. The LSTM and with_padded are in C82 (C82_batch_independent)."
  },
  {
   "property": "C120",
   "status": "proved",
   "theorems": [
    "Thinc.C120_expand_window_fills",
    "Thinc.C120_labels",
    "Thinc.C120_labels_adam",
    "Thinc.C120_list2ragged_fills",
    "Thinc.C120_reduce_mean_fills",
    "Thinc.C120_tags",
    "Thinc.C120_tags_adam",
    "Thinc.C120_vectors",
    "Thinc.C120_vectors_adam",
    "Thinc.C120_with_array2d_fills"
   ],
   "note": "Exact real arithmetic. The body must be differentiable everywhere, so models with Relu or attention (exact on a domain only) are not covered. Normalized losses do depend on the batches: C116_normalized_violated. Batches without a single token are excluded."
  },
  {
   "property": "C121",
   "status": "proved",
   "theorems": [
    "Thinc.C121_adam",
    "Thinc.C121_any_order",
    "Thinc.C121_pending",
    "Thinc.C121_predictions",
    "Thinc.C121_same_batches",
    "Thinc.C121_same_batches_adam",
    "Thinc.C121_sgd"
   ],
   "note": "C121_any_order, C121_pending and C121_predictions hold for every layer of the model; C121_sgd, C121_same_batches, C121_adam and C121_same_batches_adam for layers with exact gradients over the reals. Callbacks kept past finish_update are excluded: the optimizer changes the weights in place and such a callback would see the new weights. A layer whose callback depends on a later forward pass of the same layer (shared scratch buffers) cannot be expressed in this model."
  },
  {
   "property": "C122",
   "status": "partial",
   "theorems": [
    "Thinc.C122_add_embed_wrong",
    "Thinc.C122_add_noop_wrong",
    "Thinc.C122_add_partial",
    "Thinc.C122_add_relu_wrong",
    "Thinc.C122_attention",
    "Thinc.C122_chain",
    "Thinc.C122_concatenate_noop_wrong",
    "Thinc.C122_concatenate_partial",
    "Thinc.C122_conversions",
    "Thinc.C122_dense",
    "Thinc.C122_dense_output",
    "Thinc.C122_dropout",
    "Thinc.C122_embed_partial",
    "Thinc.C122_embed_wrong",
    "Thinc.C122_layernorm",
    "Thinc.C122_linear",
    "Thinc.C122_logistic",
    "Thinc.C122_maxout",
    "Thinc.C122_multisoftmax",
    "Thinc.C122_noop",
    "Thinc.C122_padded_conversions",
    "Thinc.C122_pooling",
    "Thinc.C122_residual_arrays",
    "Thinc.C122_residual_partial",
    "Thinc.C122_softmax",
    "Thinc.C122_tuplify_partial",
    "Thinc.C122_with_array",
    "Thinc.C122_with_sequences"
   ],
   "note": "Model of memory with arrays, views and references (Model/ArrMem, Model/ArrMemLayers); Faithful (Spec/ArrMem) relates a layer on memory to the layer on values. partial: add, concatenate, tuplify and residual need a first layer with arrays of its own, Embed is proved outside of training; the *_wrong theorems show that the rest is false of the code. List objects have no identity in the model, integer arrays and parameter gradients are values. with_array, with_array2d, with_list, with_ragged, with_padded and the conversion layers are included (Model/ArrMemSeq), with_array except on a Padded; they are not shown to return arrays of their own."
  },
  {
   "property": "C123",
   "status": "proved",
   "theorems": [
    "Thinc.C123_any_order",
    "Thinc.C123_input_wrong",
    "Thinc.C123_loop",
    "Thinc.C123_loop_adam",
    "Thinc.C123_loop_sgd",
    "Thinc.C123_old_callback_wrong",
    "Thinc.C123_output_wrong",
    "Thinc.C123_session",
    "Thinc.C123_sgd",
    "Thinc.C123_unharmed"
   ],
   "note": "Memory session (Model/MemSession) refines the session on values of C121; the rule for the user is Allowed/Careful in Spec/MemSession. C123_input_wrong, C123_output_wrong and C123_old_callback_wrong show that the rule is needed. C123_loop, C123_loop_sgd and C123_loop_adam: the training loop on arrays leaves the parameters that the loop on values leaves."
  },
  {
   "property": "C124",
   "status": "partial",
   "theorems": [
    "Thinc.C124_crash",
    "Thinc.C124_crash_wrong",
    "Thinc.C124_failed_save_wrong",
    "Thinc.C124_history_partial",
    "Thinc.C124_no_file",
    "Thinc.C124_order_wrong",
    "Thinc.C124_returned",
    "Thinc.C124_same_bytes_partial",
    "Thinc.C124_same_path_wrong",
    "Thinc.C124_saved",
    "Thinc.C124_threads"
   ],
   "note": "C124_saved: a completed save, for all models and disks. C124_crash: at every point of a save. C124_history_partial: any history of complete, failed and interrupted saves; a load gives the last save that touched the path, or raises ValueError and changes nothing. C124_threads: any interleaving of threads with different paths. C124_same_bytes_partial: the same bytes after loading, if the nodes list their names in the same order. The rest of the claim is false of the code, with witnesses: to_disk empties the file before it serializes the model, so a crash (C124_crash_wrong) or a model that cannot be serialized (C124_failed_save_wrong) loses the model saved before; two threads that save to the same path can leave a file that is neither model (C124_same_path_wrong); a target with its attributes in another order gives other bytes (C124_order_wrong)."
  },
  {
   "property": "C125",
   "status": "partial",
   "theorems": [
    "Thinc.C125_adam_wrong",
    "Thinc.C125_averages",
    "Thinc.C125_failed_save_wrong",
    "Thinc.C125_resume_partial",
    "Thinc.C125_schedule_wrong"
   ],
   "note": "C125_resume_partial: plain SGD, with learning rates that continue where they were; C125_averages: saving the averages, for Adam and SGD. The full claim is false of the code: C125_adam_wrong (the moments are not saved), C125_schedule_wrong (schedules start again), C125_failed_save_wrong (a save that raises inside of the block leaves the averages in the model). Exact real arithmetic, hence messages and not bytes."
  },
  {
   "property": "C126",
   "status": "partial",
   "theorems": [
    "Thinc.C126_backprop_clipped_linear",
    "Thinc.C126_backprop_dish_wrong",
    "Thinc.C126_backprop_mish_wrong",
    "Thinc.C126_backprop_sigmoid",
    "Thinc.C126_clip_gradient",
    "Thinc.C126_clip_gradient_wrong",
    "Thinc.C126_clipped_linear",
    "Thinc.C126_dish_wrong",
    "Thinc.C126_gelu_approx",
    "Thinc.C126_mish",
    "Thinc.C126_sigmoid",
    "Thinc.C126_softmax_partial",
    "Thinc.C126_softmax_temperature_wrong",
    "Thinc.C126_swish"
   ],
   "note": "Partial: the code violates the property. C126_backprop_dish_wrong (NaN for a large input), C126_dish_wrong (dish is half its value where the square overflows), C126_backprop_mish_wrong (infinite gradient), C126_softmax_temperature_wrong (NaN for temperatures below one) and C126_clip_gradient_wrong (a finite gradient becomes zero when its squares overflow) are witnesses in an arithmetic that satisfies all the laws. softmax is proved for temperatures of at least one. gelu with erf, and the derivatives of swish, gelu and hard_swish, are not modelled in floating point. There is a single zero."
  },
  {
   "property": "C127",
   "status": "proved",
   "theorems": [
    "Thinc.C127_sigmoid_accurate",
    "Thinc.C127_softmax_accurate",
    "Thinc.C127_softmax_sum"
   ],
   "note": "The laws of the arithmetic hold for float32 with rounding towards zero (float32_accurate), with u = 2^-23; there ten classes are accurate to five digits (example in Props/Instances/Float32.lean). The exact sum of the returned numbers is meant, not their rounded sum."
  },
  {
   "property": "C128",
   "status": "partial",
   "theorems": [
    "Thinc.C128_add",
    "Thinc.C128_chain",
    "Thinc.C128_concatenate",
    "Thinc.C128_evaluate_partial",
    "Thinc.C128_forward_only",
    "Thinc.C128_fresh",
    "Thinc.C128_map_list",
    "Thinc.C128_no_dropout",
    "Thinc.C128_predict_partial",
    "Thinc.C128_residual",
    "Thinc.C128_siamese",
    "Thinc.C128_training",
    "Thinc.C128_training_list",
    "Thinc.C128_tuplify",
    "Thinc.C128_with_array",
    "Thinc.C128_with_cpu_forward_only",
    "Thinc.C128_with_cpu_wrong",
    "Thinc.C128_with_list",
    "Thinc.C128_with_padded",
    "Thinc.C128_with_ragged"
   ],
   "note": "Partial because the code violates it in with_cpu (C128_with_cpu_wrong). The dropout inside LSTM and PyTorch layers is not modelled here. Combinators are given by the tree of calls they make; that the combinators of the model make these calls is proved for each (C128_chain, C128_add, ...)."
  },
  {
   "property": "C129",
   "status": "proved",
   "theorems": [
    "Thinc.C129_adam",
    "Thinc.C129_eps_wrong",
    "Thinc.C129_frozen_wrong",
    "Thinc.C129_radam"
   ],
   "note": "The invariant is proved for all histories from one-step conditions; the two failures of the unconditional claim are proved as C129_frozen_wrong and C129_eps_wrong. mod_rate is 1 and the hyperparameters are constant."
  },
  {
   "property": "C130",
   "status": "partial",
   "theorems": [
    "Thinc.C130_attention",
    "Thinc.C130_calls_partial",
    "Thinc.C130_cauchy",
    "Thinc.C130_dense",
    "Thinc.C130_embed",
    "Thinc.C130_gradients_partial",
    "Thinc.C130_gradients_wrong",
    "Thinc.C130_hash_embed",
    "Thinc.C130_layer_norm",
    "Thinc.C130_linear",
    "Thinc.C130_maxout",
    "Thinc.C130_module_wrong",
    "Thinc.C130_softmax",
    "Thinc.C130_sparse_linear",
    "Thinc.C130_update_wrong",
    "Thinc.C130_without_parameters"
   ],
   "note": "Partial because the code violates the claim for first gradients, shared wrapped modules and concurrent updates, each with a machine-checked schedule. Accesses to the dicts, `+=` on an array and the call of a wrapped module are atomic steps in the model."
  },
  {
   "property": "C131",
   "status": "partial",
   "theorems": [
    "Thinc.C131_backprop_maxout_partial",
    "Thinc.C131_backprop_reduce_max_partial",
    "Thinc.C131_backprop_reduce_mean_partial",
    "Thinc.C131_backprop_reduce_sum_partial",
    "Thinc.C131_backprop_seq2col",
    "Thinc.C131_gather_add_partial",
    "Thinc.C131_kernels_wrong",
    "Thinc.C131_layers",
    "Thinc.C131_maxout",
    "Thinc.C131_maxout_layer_partial",
    "Thinc.C131_maxout_layer_wrong",
    "Thinc.C131_reduce_max",
    "Thinc.C131_reduce_mean",
    "Thinc.C131_reduce_sum",
    "Thinc.C131_scatter_add_partial",
    "Thinc.C131_seq2col",
    "Thinc.C131_sparse_linear_wrong"
   ],
   "note": "Proved for every network of the layers listed in Spec.Memory.Built with arbitrary (also ill-shaped) arguments. Partial: the operations backprop_reduce_*, backprop_maxout, gather_add and scatter_add called directly, and the Maxout callback, trust shapes or ids; for each there is a theorem with the needed condition and a witness that leaves the array without it (C131_kernels_wrong, C131_maxout_layer_wrong, C131_sparse_linear_wrong). Overflow of C ints is not modelled; LSTM kernels are not included."
  },
  {
   "property": "C132",
   "status": "partial",
   "theorems": [
    "Thinc.C132_apple_empty_wrong",
    "Thinc.C132_apple_layout",
    "Thinc.C132_apple_partial",
    "Thinc.C132_layers",
    "Thinc.C132_mismatch",
    "Thinc.C132_new",
    "Thinc.C132_ops",
    "Thinc.C132_out_copied_wrong",
    "Thinc.C132_out_partial",
    "Thinc.C132_out_shape",
    "Thinc.C132_out_shape_wrong"
   ],
   "note": "Partial because the code does less: with BLIS an out array that is not contiguous is copied and stays unchanged (C132_out_copied_wrong), the shape of out is not checked and the product is written past its end (C132_out_shape_wrong), and AppleOps returns uninitialised memory for an inner dimension of zero (C132_apple_empty_wrong). Everything else is proved; C132_layers links it to the multiplication the layer theory uses."
  },
  {
   "property": "C133",
   "status": "proved",
   "theorems": [
    "Thinc.C133_backends",
    "Thinc.C133_gemm",
    "Thinc.C133_linear",
    "Thinc.C133_linear_backprop",
    "Thinc.C133_overflow_order",
    "Thinc.C133_whole"
   ],
   "note": "The sum of the absolute values must not exceed the largest number; C133_overflow_order shows that the order decides otherwise. Algorithms for matrix products that are not sums of the products (Strassen) are not covered, and neither are reduced-precision modes of GPUs (TF32)."
  },
  {
   "property": "C134",
   "status": "proved",
   "theorems": [
    "Thinc.C134_backends",
    "Thinc.C134_class",
    "Thinc.C134_model",
    "Thinc.C134_probabilities",
    "Thinc.C134_real",
    "Thinc.C134_relu",
    "Thinc.C134_scores"
   ],
   "note": "Forward pass only: the derivative of relu jumps, so small errors can change a gradient a lot. Softmax at temperature one. Connected to the real-number model of chain, Relu and Linear by C134_model."
  },
  {
   "property": "C135",
   "status": "partial",
   "theorems": [
    "Thinc.C135_evaluation_wrong",
    "Thinc.C135_forward_partial",
    "Thinc.C135_keywords_wrong",
    "Thinc.C135_kwargs_wrong",
    "Thinc.C135_mxnet_evaluation_wrong",
    "Thinc.C135_mxnet_partial",
    "Thinc.C135_several_inputs_wrong"
   ],
   "note": "Partial because the code violates the property for TensorFlow (evaluation, keyword arguments, several inputs; each proved as a _wrong theorem for every model) and the backward pass is proved for one array or a tuple of one array; for MXNet lists are excluded. Devices, shared memory between arrays and tensors, and learning phases are not modelled."
  },
  {
   "property": "C136",
   "status": "proved",
   "theorems": [
    "Thinc.C136_backends",
    "Thinc.C136_class",
    "Thinc.C136_model",
    "Thinc.C136_nan",
    "Thinc.C136_pieces",
    "Thinc.C136_probabilities",
    "Thinc.C136_real",
    "Thinc.C136_relu",
    "Thinc.C136_scores"
   ],
   "note": "Forward pass, temperature one, without the options normalize and dropout of Maxout. C136_nan records how the backends differ for NaN."
  },
  {
   "property": "C137",
   "status": "proved",
   "theorems": [
    "Thinc.C137_backends",
    "Thinc.C137_clear",
    "Thinc.C137_derivative",
    "Thinc.C137_gradients",
    "Thinc.C137_relu"
   ],
   "note": "Forward and backward pass of chain(Relu, ..., Relu, Linear) as a relation that allows every order of the additions. Gradients are those that one call of the callback adds; adding them to earlier gradients is C14's subject. Strassen-like products and TF32 are excluded, as in C133."
  },
  {
   "property": "C138",
   "status": "proved",
   "theorems": [
    "Thinc.C138_derivative",
    "Thinc.C138_runs",
    "Thinc.C138_step"
   ],
   "note": "Softmax temperature one; classes as integers, without label smoothing and negative labels. Both passes use the same hidden activations. The optimizer is not part of the step (Adam in floating point is C129). Strassen-like products and TF32 are excluded, as in C133."
  },
  {
   "property": "C139",
   "status": "proved",
   "theorems": [
    "Thinc.C139_decay",
    "Thinc.C139_drift",
    "Thinc.C139_drift_bound",
    "Thinc.C139_not_consumed",
    "Thinc.C139_step",
    "Thinc.C139_train"
   ],
   "note": "Without gradient clipping. Learning rates are Python numbers, rounded to the format of the weights; a schedule that returns wider numbers of NumPy is not modelled. The products of the learning rate with lr_scale and L2, computed by Python in double precision, are inputs of the model. Gradients of other networks than those of C138 enter as numbers that are off by a bounded error."
  },
  {
   "property": "C140",
   "status": "partial",
   "theorems": [
    "Thinc.C140_base_partial",
    "Thinc.C140_base_wrong",
    "Thinc.C140_bytes",
    "Thinc.C140_contig_partial",
    "Thinc.C140_contig_wrong",
    "Thinc.C140_cupy",
    "Thinc.C140_cupy_memory",
    "Thinc.C140_disk",
    "Thinc.C140_machines",
    "Thinc.C140_mapping_wrong",
    "Thinc.C140_numpy",
    "Thinc.C140_numpy_memory",
    "Thinc.C140_other_copied",
    "Thinc.C140_refused",
    "Thinc.C140_same_arrays_partial",
    "Thinc.C140_same_arrays_wrong",
    "Thinc.C140_to_numpy"
   ],
   "note": "False of the code in four places, each with a witness: Ops.asarray (base class) ignores the type asked for if the data is a tensor (C140_base_wrong); a dict is taken for an array of cupy by NumpyOps.asarray and raises TypeError (C140_mapping_wrong); as_contig of an array without dimensions and another type has one dimension (C140_contig_wrong); on a big-endian machine from_bytes leaves the parameters little-endian, of another type than those written, though with the same numbers (C140_same_arrays_wrong). Strides, arrays of objects, TensorFlow and MXNet arrays are not modelled; the conversion of a single number between formats is a parameter."
  },
  {
   "property": "C141",
   "status": "proved",
   "theorems": [
    "Thinc.C141_alloc",
    "Thinc.C141_alloc_types",
    "Thinc.C141_back",
    "Thinc.C141_element",
    "Thinc.C141_number",
    "Thinc.C141_reshape",
    "Thinc.C141_two_unknown",
    "Thinc.C141_view"
   ],
   "note": "reshape of numpy and cupy is modelled (the inference of a dimension, and that contiguous arrays give views); whether a non-contiguous array gives a view depends on strides and is a parameter."
  },
  {
   "property": "C142",
   "status": "partial",
   "theorems": [
    "Thinc.C142_insert_into",
    "Thinc.C142_insert_lost_wrong",
    "Thinc.C142_insert_nothing",
    "Thinc.C142_insert_too_long_partial",
    "Thinc.C142_insert_too_many",
    "Thinc.C142_logloss_bounds_partial",
    "Thinc.C142_logloss_mono",
    "Thinc.C142_logloss_negative_wrong",
    "Thinc.C142_logloss_symmetric"
   ],
   "note": "False of the code in two places, each with a witness: a sequence of one row is lost without an error if the shape has no place for it, because NumPy broadcasts it (C142_insert_lost_wrong); the loss of a perfect prediction is negative, by at most 1e-8 (C142_logloss_negative_wrong, C142_logloss_bounds_partial). logloss over the real numbers, entry by entry; insert_into for arrays with the dimensions of the shape."
  },
  {
   "property": "C143",
   "status": "partial",
   "theorems": [
    "Thinc.C143_generic",
    "Thinc.C143_gradient_wrong",
    "Thinc.C143_mod_rate_wrong",
    "Thinc.C143_numpy_partial",
    "Thinc.C143_refused",
    "Thinc.C143_strided_example_wrong",
    "Thinc.C143_strided_wrong"
   ],
   "note": "Partial because the code falls short: NumpyOps.adam hands data pointers without strides to its kernel, so weights that are a strided view (a column of a matrix) are not updated and their neighbours are; it ignores mod_rate; and it clears the gradient, which Ops.adam does not. The four arrays are assumed not to overlap; CupyOps.adam is in C96 (mod_rate is ignored there too)."
  },
  {
   "property": "C144",
   "status": "partial",
   "theorems": [
    "Thinc.C144_backward_partial",
    "Thinc.C144_backward_wrong",
    "Thinc.C144_forward",
    "Thinc.C144_inplace_partial",
    "Thinc.C144_inplace_wrong",
    "Thinc.C144_refused",
    "Thinc.C144_relu",
    "Thinc.C144_relu_backward_partial"
   ],
   "note": "Partial because the code falls short: in place, a column of a matrix is not what is changed; and the gradient of a transposed dY is paired with the wrong elements of Y, because the kernels get data pointers without strides. That numpy.array keeps the order of the axes is an assumption about NumPy."
  }
 ]
}