# Formal model of explosion/thinc in Lean 4

## Layout

* `lean/Verif/Model/*.lean` - shallow, total models of the Python / Cython / C++ functions, branch by branch. Every definition cites the file and lines in `/repo` it models, and says where it simplifies.
* `lean/Verif/Spec/*.lean` - small, independent specifications (reachability, sums, vector-Jacobian products, permutations ...). They do not use the model's helpers.
* `lean/Verif/Lemmas/*.lean` - helper lemmas (proof engineering only).
* `lean/Verif/Props/*.lean` - the property theorems, named after the property (`C01_...`), with non-vacuity `example`s beside them.
* `lean/Verif/Props/Instances/*.lean` - further instances of theorems, kept apart from the theorems so that they can be added without rebuilding everything.
* `properties.jsonl`, `MANIFEST.json` - the English properties and which theorems settle them.
* `seeded/LOG.jsonl` - mutation log: wrong programs tried against the theorems.

## Conventions

* Exceptions are values: a Python function that can raise returns `Except PyErr a`. Error branches are modelled explicitly, not totalised away.
* Python objects with identity (`Model` nodes, arrays that are mutated in place) are addresses (`Nat`) into an explicit heap; `is` / `id()` is equality of addresses.
* Array data is a list of rows, a flat buffer (compiled kernels; an access outside it is the outcome `outOfBounds`), or a function on finite index types. Floating point numbers are exact numbers: a type parameter where only structure matters, `Real` where order, division or derivatives matter. Rounding, overflow, NaN and dtype casts are not modelled.
* Random draws (shuffles, dropout masks) and uninitialised memory are universally quantified inputs.
* A layer call `forward(model, X, is_train) -> (Y, backprop)` is a function that returns the output and a callback; parameter gradients added by `inc_grad` are an explicit accumulator passed through the callback. `Spec.Exact` (Spec/Layer.lean) says that a layer computes a given mathematical function of parameters and input, that its callback returns the transposed Frechet derivative with respect to the input and adds the one with respect to the parameters to the accumulator, and that neither raises.
* A theorem whose name ends in `_partial` proves part of a property; the status entry below says what is missing. Where the unchanged code violates the property, the negation is proved for a concrete witness (theorem names in MANIFEST.json) and the property stays `partial`.

## Trusted base

* Lean 4.33.0's kernel; Mathlib's statements of standard mathematics (`HasDerivAt`, `HasFDerivAt`, `Real.exp`, sums, permutations).
* Axioms: only `propext`, `Classical.choice` and `Quot.sound`, listed per theorem below. No axiom is added, no `sorry`, no `native_decide`, no `bv_decide`.
* The hand translation from Python / Cython / C++ to the Lean definitions (each one cites its source lines), and the modelling conventions above.
* NumPy primitives used by the code (slicing, concatenation, `cumsum`, fancy indexing, broadcasting arithmetic, `sort`, `unique`), as described in the comments of the definitions that use them.


## Plan and result per property

* **C01** (walk visits every reachable node exactly once)
  * Plan: Model/Graph: heap of nodes, `_walk_bfs`/`_walk_dfs` as the same loops (queue; stack of iterators). Proof: loop invariants (yielded = seen, seen closed under children except the frontier), termination measure = unseen nodes.
  * Result: proved. All three orders, every finite heap including cycles and sharing.
  * Axioms propext, Classical.choice, Quot.sound: `C01_walk_each_reachable_once`
* **C02** (walk orders mean what they say)
  * Plan: Same model. bfs: invariant that the queue is sorted by level; dfs: refinement to a recursive spec of depth-first search; post order on acyclic graphs by induction on a topological rank.
  * Result: proved. bfs by distance; dfs orders equal a textbook big-step DFS; post order puts descendants first on acyclic graphs.
  * Axioms propext, Classical.choice, Quot.sound: `C02_bfs_by_distance`, `C02_dfs_orders`, `C02_post_descendants_first`
* **C03** (a set dimension is never silently changed)
  * Plan: Model/Node: dims/params as finite maps, operations as a step function; invariant over arbitrary operation sequences.
  * Result: proved. Every history of operations on a node.
  * Axioms propext: `C03_constructor_dims`, `C03_maybe_get_dim`
  * Axioms propext, Quot.sound: `C03_dim_never_silently_changed`, `C03_has_dim_trichotomy`, `C03_set_dim_outcome`
* **C04** (parameter presence is consistent with parameter access)
  * Plan: Same state machine. `set_param(None)` keeps the stored array: prove the exact behaviour, the negation witness, and the positive part as `_partial`.
  * Result: partial. Partial: after set_param(name, None) the old array is still returned by get_param while has_param says None (C04_get_param_after_none).
  * Axioms propext, Quot.sound: `C04_get_param_after_none`, `C04_get_param_partial`, `C04_has_param_and_maybe_get`, `C04_set_param_other`
* **C05** (references always point into the tree when set)
  * Plan: Model/Graph: `set_ref` uses `walk`; by C01 membership in walk = reachability.
  * Result: proved. Every graph, with cycles and sharing; membership in the tree is reachability.
  * Axioms propext, Quot.sound: `C05_has_ref_trichotomy`, `C05_maybe_get_ref`
  * Axioms propext, Classical.choice, Quot.sound: `C05_refs_stay_in_tree`, `C05_set_ref`
* **C06** (remove_node removes every occurrence and leaves no dangling reference)
  * Plan: Model/GraphEdit: `remove_node` over the heap. Raises on registered-but-unset refs: negation witness plus `_partial` for models without unset refs.
  * Result: partial. Proved for models in which every registered reference is set; a registered but unset reference makes remove_node raise ValueError part way (C06_unset_ref_raises).
  * Axioms propext, Classical.choice, Quot.sound: `C06_remove_node_partial`, `C06_unset_ref_raises`
* **C07** (replace_node replaces every occurrence)
  * Plan: Model/GraphEdit: `replace_node` in post order, same treatment of unset refs; root identity case stated explicitly.
  * Result: partial. Proved for acyclic models whose registered references are set and whose root is not the replaced node; an unset reference raises (C07_unset_ref_raises) and on a cyclic graph the result is wrong (C07_cyclic_counterexample).
  * Axioms propext, Classical.choice, Quot.sound: `C07_cyclic_counterexample`, `C07_replace_node_partial`, `C07_unset_ref_raises`
* **C08** (copy preserves structure, sharing and contents, with fresh ids)
  * Plan: Model/Copy: `_copy` with its `seen` map; theorem: the copy map is an isomorphism onto fresh addresses. References are dropped: negation witness, `_partial`.
  * Result: proved. Contents are values: arrays are not aliased in this model. References are not copied by the code and are not claimed.
  * Axioms propext, Quot.sound: `C08_copy`, `C08_cyclic_raises`
* **C09** (serialization round trip)
  * Plan: Model/Serialize: message = list of node records; round trip by induction over the walk list.
  * Result: partial. Proved for references inside the holder's own subtree; C09_sibling_ref_counterexample shows the code fails outside it.
  * Axioms propext, Classical.choice, Quot.sound: `C09_round_trip_partial`
  * Axioms propext, Quot.sound: `C09_sibling_ref_counterexample`
* **C10** (to_dict rejects out-of-tree references and otherwise never fails)
  * Plan: Same model: iff characterisation.
  * Result: proved. Exact characterisation (iff) of the ValueError; errors of user serializers propagate.
  * Axioms propext, Classical.choice, Quot.sound: `C10_other_errors_propagate`, `C10_to_dict_iff`
* **C11** (a failed load leaves the model unchanged)
  * Plan: Same model: count mismatch leaves the state unchanged (`_partial`); witness for a mid-way failure.
  * Result: partial. Not atomic: C11_not_atomic is a witness. Proved: structural mismatch changes nothing, and a frame that holds for every outcome.
  * Axioms propext, Classical.choice, Quot.sound: `C11_failed_load_partial`, `C11_not_atomic`
  * Axioms propext, Quot.sound: `C11_ref_out_of_range`
* **C12** (can_from_dict predicts from_dict)
  * Plan: Same model: implication under the stated conditions, witness where references break it.
  * Result: partial. can_from_dict does not look at references: C12_refs_not_checked is a witness. Proved under the extra conditions it does not check. C12_fits says exactly when can_from_dict returns True.
  * Axioms propext, Classical.choice, Quot.sound: `C12_can_from_dict_partial`, `C12_fits`, `C12_strict`
  * Axioms propext, Quot.sound: `C12_refs_not_checked`
* **C13** (use_params restores the original parameters)
  * Plan: Model/UseParams: enter/exit as state transformers over the tree unfolding of the DAG (LIFO); exception exit = no restore (negation), normal exit theorem `_partial`.
  * Result: partial. Normal exit proved, with shared layers and any body; C13_exception_not_restored proves that an exception never restores.
  * Axioms propext, Classical.choice, Quot.sound: `C13_exception_not_restored`, `C13_predict_restores_partial`, `C13_use_params_partial`
* **C14** (gradients accumulate)
  * Plan: Model/ParamServer with an array heap: sums over histories, aliasing included.
  * Result: partial. Gradients accumulate exactly over every history; set_grad aliasing is a witnessed exception.
  * Axioms propext, Classical.choice, Quot.sound: `C14_callers_arrays_untouched`
  * Axioms propext, Quot.sound: `C14_grad_is_sum`, `C14_set_grad_couples_keys`
  * Axioms propext: `C14_set_grad_aliases`
* **C15** (finish_update applies the optimizer exactly once per parameter with a gradient)
  * Plan: Model/FinishUpdate: fold over the walk; exactly-once from C01.
  * Result: proved. Any stateful optimizer that does not raise; shims' own updates run first, in walk order.
  * Axioms propext, Classical.choice, Quot.sound: `C15_finish_update`
  * Axioms propext: `C15_shims_in_walk_order`, `C15_unallocated_raises`
* **C16** (model ids are unique under concurrency)
  * Plan: Model/Ids: small-step threads (acquire; read; write; assign; release) with arbitrary scheduler; invariant proof.
  * Result: proved. Any number of threads and any interleaving of atomic steps.
  * Axioms propext, Quot.sound: `C16_ids_unique`
* **C17** (optimizer state is per parameter)
  * Plan: Model/Optimizer: state maps per key; non-interference by induction over histories. RAdam's shared step buffer: negation witness, `_partial` for the rest.
  * Result: partial. Proved for SGD and Adam with any schedules and for RAdam with constant betas, over every interleaved history. False for RAdam with changing betas: the step-size buffer is shared between keys (C17_radam_shared_buffer).
  * Axioms propext, Classical.choice, Quot.sound: `C17_per_parameter_partial`, `C17_radam_shared_buffer`
* **C18** (optimizer consumes the gradient)
  * Plan: Same model.
  * Result: proved. From any optimizer state. The gradient is not zeroed when the call raises; C18_when_it_raises says exactly when that can happen.
  * Axioms propext, Classical.choice, Quot.sound: `C18_consumes_gradient`, `C18_when_it_raises`
* **C19** (gradient clipping bounds the norm and keeps the direction)
  * Plan: Model/OptimOps over Real vectors; norm facts by Mathlib.
  * Result: proved. Over real vectors of any length; rounding, NaN and infinities are not modelled.
  * Axioms propext, Classical.choice, Quot.sound: `C19_clip_gradient`, `C19_optimizer_clips`
* **C20** (Adam computes bias-corrected exponential averages)
  * Plan: Same model; closed form by induction on the history.
  * Result: proved. Closed form over whole interleaved histories, plus the fused CPU kernel (blocks of 64) refined to the elementwise definition. Real arithmetic; constant betas per key.
  * Axioms propext, Classical.choice, Quot.sound: `C20_adam`, `C20_bias_correction`, `C20_constant_gradient`, `C20_fused_kernel`
* **C21** (parameter averages are a convex combination of seen weights)
  * Plan: Same model; convexity invariant by induction on the history.
  * Result: partial. The average is a convex combination of the seen weights and of the initial zero, whose coefficient fades like 0.9999^n. The full claim is false: averages start from zeros (C21_constant_not_reproduced).
  * Axioms propext, Classical.choice, Quot.sound: `C21_average_partial`, `C21_constant_not_reproduced`, `C21_zero_fades`
* **C22** (list and generator schedules are read by step)
  * Plan: Model/GenSchedule: generator with cursor; refinement to "value at step".
  * Result: proved. Lists, generators and plain numbers, with any sequence of step increments.
  * Axioms propext, Classical.choice, Quot.sound: `C22_generator`, `C22_list`
  * Axioms propext: `C22_other_kinds`
* **C23** (schedules reject negative steps and agree with their generator form)
  * Plan: Model/Schedules.
  * Result: proved. Every schedule function.
  * Axioms propext: `C23_generator_closed`, `C23_negative_step`, `C23_nonneg_step`
  * Axioms propext, Quot.sound: `C23_to_generator`
* **C24** (compounding stays within its bounds and reaches them monotonically)
  * Plan: Model/Schedules over Real.
  * Result: proved. Over an ordered field; increasing and decreasing rates.
  * Axioms propext, Classical.choice, Quot.sound: `C24_compounding_down`, `C24_compounding_up`, `C24_never_passes_stop`
* **C25** (warmup and triangular schedules have the documented shape)
  * Plan: Model/Schedules over Real; range and periodicity by case analysis.
  * Result: partial. warmup_linear and cyclic_triangular fully; slanted_triangular only up to step cut/cut_frac - 1, after which it leaves its bounds and becomes negative, even before num_steps (C25_slanted_leaves_bounds). The cyclic period is 2 * period.
  * Axioms propext, Classical.choice, Quot.sound: `C25_cyclic_bounds`, `C25_cyclic_period_is_half`, `C25_cyclic_periodic`, `C25_cyclic_shape`, `C25_slanted_after_end`, `C25_slanted_few_steps`, `C25_slanted_leaves_bounds`, `C25_slanted_partial`, `C25_warmup_bounds`, `C25_warmup_shape`
* **C26** (decaying and constant_then schedules)
  * Plan: Model/Schedules over Real.
  * Result: proved. The inner schedule of constant_then is called with the same step, not restarted (C26_inner_not_restarted).
  * Axioms propext: `C26_constant`, `C26_constant_then`
  * Axioms propext, Classical.choice, Quot.sound: `C26_decaying`, `C26_inner_not_restarted`
* **C27** (plateau decays only after the given number of evaluations without improvement)
  * Plan: Model/Plateau: state machine; refinement to a count over histories.
  * Result: proved. For histories whose score steps do not go back; C27_out_of_order gives the exact rejection condition (an improving score with an earlier step is accepted).
  * Axioms propext, Classical.choice, Quot.sound: `C27_no_patience`, `C27_plateau`, `C27_repeated_query`
  * Axioms propext, Quot.sound: `C27_out_of_order`
* **C28** (flatten then unflatten is the identity)
  * Plan: Model/Seqs: lists of rows; induction on the list.
  * Result: partial. Round trip and layout for every list of arrays whose trailing shape has no zero in it; for a trailing shape with a zero the code loses rows (C28_zero_width_lost). dtype conversion is not modelled.
  * Axioms propext, Classical.choice, Quot.sound: `C28_flatten_of_unflatten`, `C28_no_padding`, `C28_round_trip_partial`
  * Axioms propext, Quot.sound: `C28_shapes_must_agree`
  * Axioms propext: `C28_zero_width_lost`
* **C29** (list2padded then padded2list is the identity)
  * Plan: Model/Seqs: stable sort by (length, index) reversed; permutation inversion.
  * Result: proved. Every list of 2-d sequences of one width.
  * Axioms propext, Classical.choice, Quot.sound: `C29_consistent`, `C29_padded2list_any`, `C29_round_trip`
* **C30** (pad then unpad is the identity)
  * Plan: Model/Seqs.
  * Result: proved. Arrays of any trailing shape and any rounding of the padded length.
  * Axioms propext, Classical.choice, Quot.sound: `C30_pad_unpad`, `C30_rejects`
* **C31** (packing for the LSTM is lossless)
  * Plan: Model/Packed.
  * Result: proved. Every padded batch with the documented invariants and positive width; a batch without any row packs to a (0, 0) array, so the round trip is stated for batches with at least one row.
  * Axioms propext, Quot.sound: `C31_one_row_repeated`
  * Axioms propext, Classical.choice, Quot.sound: `C31_pack`, `C31_round_trip`, `C31_unpack_pack`
* **C32** (indexing a Ragged is indexing the list of sequences)
  * Plan: Model/Ragged: exact behaviour; witnesses for the failing index forms; `_partial` for the good ones.
  * Result: partial. Proved for in-range non-negative ints, step-1 slices with non-negative bounds, and index lists whose selected sequences are all non-empty (list form) plus tuples. The other documented index forms fail in the unchanged code, each with a machine-checked witness: negative ints, open slices, negative starts, steps, lists with an empty sequence, and loss of the trailing data shape.
  * Axioms propext: `C32_int_loses_shape`, `C32_list_with_empty_sequence`, `C32_negative_index`, `C32_negative_start`, `C32_open_slice_raises`, `C32_step_ignored`, `C32_tuple`
  * Axioms propext, Quot.sound: `C32_int_out_of_range`
  * Axioms propext, Classical.choice, Quot.sound: `C32_int_partial`, `C32_list_partial`, `C32_slice_partial`
* **C33** (indexing a Padded is selecting sequences)
  * Plan: Model/Padded: witnesses; exact behaviour.
  * Result: partial. Data, lengths and indices of the selection are right for every slice and every in-range int. The result is not a consistent Padded: size_at_t is filled with the lengths, original indices are not renumbered (padded2list raises), negative ints select nothing and index lists select time steps; each has a witness theorem.
  * Axioms propext, Classical.choice, Quot.sound: `C33_int_partial`
  * Axioms propext, Quot.sound: `C33_list_selects`, `C33_slice_partial`
  * Axioms propext: `C33_list_selects_time`, `C33_negative_index`, `C33_size_at_t_wrong`, `C33_unpad_selection_raises`
* **C34** (with_* wrappers compute the wrapped layer on the same sequences)
  * Plan: Model/WithLayers on top of C28-C31.
  * Result: proved. All containers, all length-preserving layers given by the sequence function they compute; with_array additionally for row-wise layers on padded batches and with padding. The tuple-of-arrays inputs are not modelled. A padded gradient must have the column order of the output (with_array, with_padded on Padded).
  * Axioms propext, Classical.choice, Quot.sound: `C34_with_array`, `C34_with_array_rowwise`, `C34_with_list`, `C34_with_padded`, `C34_with_padded_array`, `C34_with_ragged`
* **C35** (minibatch partitions the data)
  * Plan: Model/Minibatch: the loop with a size iterator; induction.
  * Result: partial. Whole sizes >= 1 (constant or generated), all sequences, buffers, shuffles and repeated iterations; len() and buffer independence proved. Fractional sizes (a compounding schedule) lose items in the unchanged code (witness); a prefix theorem holds for them. Sizes <= 0 make the call loop for ever (proved).
  * Axioms propext, Classical.choice, Quot.sound: `C35_buffer`, `C35_fractional_loses_items`, `C35_fractional_prefix_partial`, `C35_len`, `C35_minibatch_partial`, `C35_sizes_run_out`, `C35_zero_size_diverges`
* **C36** (multibatch keeps sequences aligned)
  * Plan: Same model with index vector.
  * Result: partial. Alignment and exact coverage for sequences of equal length. Unequal lengths do not raise ValueError in the unchanged code: witnesses for IndexError and for silently dropped items.
  * Axioms propext, Classical.choice, Quot.sound: `C36_aligned_partial`, `C36_longer_is_cut`, `C36_shorter_raises_index_error`
* **C37** (sum and mean pooling with exact gradients)
  * Plan: Model/Reduce: the loops over lengths, over a commutative ring / field; adjointness by induction on lengths.
  * Result: partial. Both backends, all shapes; statements are about the C kernels over flat buffers with faulting accesses, so they include memory safety. Partial: a batch without any rows raises IndexError instead of giving zeros (C37_all_empty_raises), lengths that do not use up the rows are accepted (C37_short_lengths_accepted), and too few gradient rows make the kernel read outside the array (C37_short_gradient_out_of_bounds).
  * Axioms propext, Classical.choice, Quot.sound: `C37_adjoint_mean`, `C37_adjoint_sum`, `C37_backprop_reduce_mean`, `C37_backprop_reduce_sum`, `C37_bad_lengths_raise`, `C37_generic_backward`, `C37_generic_forward`, `C37_reduce_mean_partial`, `C37_reduce_sum_partial`, `C37_short_gradient_out_of_bounds`, `C37_short_lengths_accepted`
  * Axioms propext, Quot.sound: `C37_all_empty_raises`
* **C38** (max pooling selects the maximum and routes the gradient to it)
  * Plan: Model/Reduce.
  * Result: partial. Both backends. Partial: negative indices passed to backprop_reduce_max are not rejected (C38_negative_index_not_rejected).
  * Axioms propext, Classical.choice, Quot.sound: `C38_adjoint`, `C38_backprop_reduce_max_partial`, `C38_bad_lengths_raise`, `C38_generic_backward`, `C38_generic_forward`, `C38_negative_index_not_rejected`, `C38_reduce_max`
  * Axioms propext, Quot.sound: `C38_backprop_bad_length`
* **C39** (first/last pooling select the right rows with exact gradients)
  * Plan: Model/Reduce.
  * Result: partial. Partial: an empty list of lengths is accepted although the array has rows, and the gradient then has no rows (C39_no_lengths_partial). A single gradient row for several sequences is repeated by NumPy; the model rejects it.
  * Axioms propext, Classical.choice, Quot.sound: `C39_adjoint`, `C39_backprop_first`, `C39_backprop_last`, `C39_bad_lengths_raise`, `C39_reduce_first`, `C39_reduce_last`
  * Axioms propext: `C39_no_lengths_partial`
* **C40** (windowing does not leak across sequence boundaries and has an exact adjoint)
  * Plan: Model/Seq2col: the C++ index arithmetic; pointwise characterisation; adjointness by sum exchange.
  * Result: proved. NumPy backend for every window size, width, matrix and lengths (given or not); the generic backend (only nW = 1 without lengths) computes the same.
  * Axioms propext, Classical.choice, Quot.sound: `C40_adjoint`, `C40_backprop_seq2col`, `C40_bad_lengths_raise`, `C40_generic`, `C40_seq2col`
* **C41** (maxout picks the maximum piece, identically in every kernel path)
  * Plan: Model/Maxout: loop and unrolled variants over a linear order.
  * Result: partial. Forward pass for every input and piece count; backward pass for non-empty gradients and non-negative piece numbers. Failing cases proved: an empty batch raises IndexError in backprop_maxout, negative piece numbers are not rejected. NaN is excluded (linear order).
  * Axioms propext, Quot.sound: `C41_backprop_empty_raises`, `C41_empty_units_raise`
  * Axioms propext, Classical.choice, Quot.sound: `C41_backprop_maxout_partial`, `C41_forward_backward`, `C41_generic`, `C41_maxout`, `C41_negative_which`
* **C42** (gather_add and scatter_add are adjoint)
  * Plan: Model/GatherScatter.
  * Result: partial. Non-empty arrays and indices in range. Failing cases proved: gather_add on empty arrays raises, index T and negative indices read outside the table, negative ids mean different things in the two scatter_add paths, too large ids write outside the table in the float32 path.
  * Axioms propext, Classical.choice, Quot.sound: `C42_adjoint_partial`, `C42_gather_add_partial`, `C42_gather_out_of_bounds`, `C42_generic_gather`, `C42_negative_ids`, `C42_scatter_add`, `C42_scatter_columns`, `C42_too_large_id`
  * Axioms propext, Quot.sound: `C42_gather_empty_raises`
* **C43** (activation backprops are the derivatives)
  * Plan: Model/Activations over Real; `HasDerivAt` proofs.
  * Result: partial. Real arithmetic, arrays of any finite shape; gradient means transposed Frechet derivative. relu, hard_swish, hard_swish_mobilenet, mish (any threshold) at every array where the function is differentiable; dish and dtanh everywhere. Partial: sigmoid and swish only for |x|<20 (beyond, the code's clip makes the backward wrong: proved), gelu only for the exact erf (the code's rational erf has a kink at 0: proved), gelu_approx up to 0.001 for |x|<=7 (for large inputs its gradient grows without bound: proved).
  * Axioms propext, Classical.choice, Quot.sound: `C43_dish`, `C43_gelu_approx_large_wrong`, `C43_gelu_approx_partial`, `C43_gelu_kink`, `C43_gelu_partial`, `C43_hard_swish`, `C43_hard_swish_inside`, `C43_hard_swish_mobilenet`, `C43_hard_swish_value`, `C43_mish`, `C43_relu`, `C43_sigmoid_clipped_wrong`, `C43_sigmoid_partial`, `C43_swish_clipped_wrong`, `C43_swish_partial`, `C43_tanh`
* **C44** (clipped-linear family: values stay in range and gradients match)
  * Plan: Model/Activations; negative slope witness.
  * Result: partial. Real arithmetic. Positive slope: gradient wherever differentiable. Partial: a negative slope gets gradient zero and slope zero raises ZeroDivisionError (both proved).
  * Axioms propext, Classical.choice, Quot.sound: `C44_gradient_partial`, `C44_instance_gradients`, `C44_instances`, `C44_negative_slope_wrong`, `C44_values`, `C44_zero_slope_raises`
* **C45** (softmax is a distribution and its backprop is the Jacobian product)
  * Plan: Model/Softmax over Real; `HasFDerivAt`/partial derivatives.
  * Result: partial. Real arithmetic, any number of rows, any axis length >= 1, any positive temperature. Partial: softmax_sequences clips its input at +-20 (order lost beyond: proved), needs at least one row; lengths adding up to 1 are silently broadcast over a longer matrix (proved).
  * Axioms propext, Classical.choice, Quot.sound: `C45_backprop_softmax`, `C45_backprop_softmax_sequences`, `C45_no_entries_raises`, `C45_sequences_clipped`, `C45_short_lengths_broadcast`, `C45_short_lengths_raise`, `C45_softmax`, `C45_softmax_sequences_partial`
* **C46** (categorical cross-entropy gradient)
  * Plan: Model/Loss.
  * Result: partial. Lists and arrays of ints, lists of strings (names, missing value, negative prefix), matrices of targets; the gradient is that of the cross entropy of the softmax with respect to the logits. Partial: a missing value outside the classes raises IndexError (C46_missing_out_of_range_raises) and a negated label with label smoothing always raises ValueError (C46_negated_with_smoothing_raises). The loss is the sum of squared gradient entries, not the cross entropy (C46_loss).
  * Axioms propext, Classical.choice, Quot.sound: `C46_bad_matrix`, `C46_gradient_labels`, `C46_gradient_matrix`, `C46_int_labels_partial`, `C46_loss`, `C46_matrix_targets`, `C46_missing_out_of_range_raises`, `C46_negated_with_smoothing_raises`, `C46_str_labels`, `C46_strings_without_names`, `C46_unknown_name`
* **C47** (sequence cross-entropy treats each sequence on its own)
  * Plan: Model/Loss.
  * Result: proved. Gradients, loss, length mismatch and the first exception, for every list of sequences.
  * Axioms propext, Classical.choice, Quot.sound: `C47_first_error`, `C47_gradients`, `C47_length_mismatch`
* **C48** (L2 distance loss and gradient agree)
  * Plan: Model/Loss.
  * Result: partial. Loss and error for all inputs; without normalize the returned array is half the gradient. Partial: with normalize it is rows/2 times the gradient (C48_normalized_scale, C48_normalized_not_half).
  * Axioms propext, Classical.choice, Quot.sound: `C48_gradient_partial`, `C48_loss`, `C48_normalized_not_half`, `C48_normalized_scale`, `C48_shape_mismatch`
* **C49** (cosine distance loss and gradient agree)
  * Plan: Model/Loss.
  * Result: proved. The cosine is that of the rows after 1e-8 has been added to every entry; rows that are zero after that are excluded (NaN in the code).
  * Axioms propext, Classical.choice, Quot.sound: `C49_gradient`, `C49_loss`, `C49_shape_mismatch`
* **C50** (one-hot encoding)
  * Plan: Model/Categorical.
  * Result: proved. Real arithmetic, one-dimensional label arrays. Negative labels count from the end (C50_negative_label).
  * Axioms propext, Classical.choice, Quot.sound: `C50_default_classes`, `C50_invalid_raise`, `C50_label_out_of_range`, `C50_negative_label`, `C50_to_categorical`
* **C51** (chain composes and backpropagates in reverse)
  * Plan: Model/Layer: layers as (theta, x) -> (y, callback with gradient accumulator); Spec/VJP; composition by the chain rule.
  * Result: proved. Layers with exact gradients (Spec/Layer.lean Exact), real arithmetic; any number of layers, shared parameters allowed.
  * Axioms propext, Classical.choice, Quot.sound: `C51_chain`, `C51_composes`, `C51_one`
  * Axioms propext, Quot.sound: `C51_shared_arrays`, `C51_shared_arrays_apart`
* **C52** (add sums layers)
  * Plan: Model/Layer for values; Model/Alias for the in-place behaviour (array heap), negation witness for aliasing layers.
  * Result: partial. Arrays and integer inputs in the value model. Partial: in the heap model (LayerHeap.lean) `Y += layer_Y` overwrites the first layer's output, so add(noop, ...) and add(Relu, ...) give wrong gradients (proved); exact when the first layer's output is not kept by anyone else.
  * Axioms propext, Classical.choice, Quot.sound: `C52_add`, `C52_add_ints`, `C52_relu_first_wrong`
  * Axioms propext, Quot.sound: `C52_noop_first_wrong`, `C52_shared_arrays_partial`
* **C53** (concatenate stacks columns and splits gradients)
  * Plan: Model/Layer (array case); Model/ConcatList for the list case (negation witness).
  * Result: partial. Array outputs for any input kind, Ragged outputs of array inputs. Partial: for Ragged inputs the callback raises TypeError, and for list outputs it concatenates the layers' lists instead of adding them (C53_ragged_partial, C53_lists_partial, C53_arrays_of_lists_gradient_wrong).
  * Axioms propext, Classical.choice, Quot.sound: `C53_arrays`, `C53_arrays_of_ints`, `C53_arrays_of_lists_gradient_wrong`, `C53_arrays_of_padded`, `C53_arrays_of_ragged`, `C53_ids_like_arrays`, `C53_lists_partial`, `C53_no_documents`, `C53_ragged_of_arrays`, `C53_ragged_partial`
* **C54** (residual, tuplify, siamese, map_list, clone)
  * Plan: Model/Layer; clone on Model/Copy.
  * Result: partial. residual on arrays, Ragged, Padded and lists; tuplify on arrays and integers; siamese; map_list; clone as a chain. Partial: tuplify of two layers on a Ragged raises TypeError in the callback. In the heap model residual on a Padded adds in place: wrong for a wrapped noop (proved).
  * Axioms propext, Classical.choice, Quot.sound: `C54_clone`, `C54_clone_zero`, `C54_map_list`, `C54_noop`, `C54_residual_arrays`, `C54_residual_lists`, `C54_residual_mixed`, `C54_residual_padded`, `C54_residual_ragged`, `C54_siamese`, `C54_tuplify`, `C54_tuplify_ints`, `C54_tuplify_ragged_partial`
  * Axioms propext, Quot.sound: `C54_residual_padded_noop_wrong`, `C54_residual_padded_shared_arrays_partial`, `C54_residual_shared_arrays`
* **C55** (bidirectional runs the second layer on reversed sequences)
  * Plan: Model/Bidirectional: exact behaviour and negation witnesses.
  * Result: partial. For an unmodified Padded batch the layer returns the concatenation of both sublayers' outputs; C55_not_reversed shows the second sublayer never sees reversed sequences as documented, C55_gradient_wrong that the backward pass ignores the second half of the gradient. The property as stated is false of the code; the partial theorem states what does hold.
  * Axioms propext, Classical.choice, Quot.sound: `C55_gradient_wrong`, `C55_not_reversed`, `C55_partial`
* **C56** (Linear has exact gradients)
  * Plan: Model/Dense over Real matrices as functions on finite types.
  * Result: proved. Real arithmetic; arrays of any shape.
  * Axioms propext, Classical.choice, Quot.sound: `C56_linear`
* **C57** (LayerNorm normalises and has exact gradients)
  * Plan: Model/LayerNorm over Real.
  * Result: proved. Width at least 1. Exact real arithmetic; the epsilon 1e-8 is part of the statement.
  * Axioms propext, Classical.choice, Quot.sound: `C57_layer_norm`, `C57_mean_zero`, `C57_variance`
* **C58** (Embed and HashEmbed gradients)
  * Plan: Model/Embed.
  * Result: partial. Proved for every table and every list of ids that are rows of the table (Embed) and every nonempty list of ids (HashEmbed). Negative ids are read from the end but their gradient is dropped for float32 arrays (C58_negative_id); HashEmbed's callback fails for an empty list (C58_hash_embed_empty).
  * Axioms propext, Classical.choice, Quot.sound: `C58_embed_column_partial`, `C58_embed_partial`, `C58_hash_embed_empty`, `C58_hash_embed_partial`, `C58_negative_id`
* **C59** (Dropout is unbiased in structure and off at prediction)
  * Plan: Model/Dropout.
  * Result: proved. Arrays, Ragged, Padded and lists; random draws are arbitrary, the mean of the factor over uniform draws is 1 (C59_unbiased).
  * Axioms propext, Classical.choice, Quot.sound: `C59_arrays`, `C59_identity`, `C59_lists`, `C59_mask`, `C59_padded`, `C59_ragged`, `C59_unbiased`
* **C60** (uniqued is transparent)
  * Plan: Model/Uniqued.
  * Result: proved. For every integer array with at least one row and every layer that is exact on the arrays made of its rows; also instantiated with Embed. Arrays with fewer than two entries go straight to the layer.
  * Axioms propext, Classical.choice, Quot.sound: `C60_embed`, `C60_small`, `C60_uniqued`
* **C61** (parametric attention)
  * Plan: Model/Attention.
  * Result: partial. Both versions, with any exact key layer; batches with at least one row and scores within [-20, 20], where softmax_sequences clips. Outside the gradient is wrong (C61_large_scores_wrong), and a batch without rows raises IndexError (C61_no_rows_fails).
  * Axioms propext, Classical.choice, Quot.sound: `C61_attention_partial`, `C61_attention_v2_partial`, `C61_large_scores_wrong`, `C61_local`, `C61_no_rows_fails`, `C61_weights`
* **C62** (MultiSoftmax outputs distributions)
  * Plan: Model/MultiSoftmax: `softmax(inplace=True)` result is discarded; exact behaviour, negation witness.
  * Result: partial. The claimed softmax is discarded by the code (ops.softmax ignores inplace), so the outputs are the raw logits; the layer is exact as an affine layer (C62_multisoftmax_partial), and its groups are not distributions (C62_not_distributions).
  * Axioms propext, Classical.choice, Quot.sound: `C62_multisoftmax_partial`, `C62_not_distributions`
* **C63** (resizing keeps the learned rows)
  * Plan: Model/Resize.
  * Result: partial. Growing is proved for every layer whose init allocates arrays of the right shape, and for Linear and Softmax down to the outputs. Shrinking always raises ValueError (C63_shrink_fails), and a resizable container keeps reporting the old nO (C63_container_dims).
  * Axioms propext, Classical.choice, Quot.sound: `C63_container_dims`, `C63_grow_partial`, `C63_linear_partial`, `C63_same_size`, `C63_shrink_fails`, `C63_unset`
* **C64** (with_getitem touches only its item)
  * Plan: Model/GetItem: Python slicing with negative indices; witness for idx = -1.
  * Result: partial. Every index that names a member except -1, which returns the output followed by the whole tuple again (C64_last_index_wrong). Out of range: IndexError.
  * Axioms propext, Classical.choice, Quot.sound: `C64_exact_partial`, `C64_last_index_wrong`, `C64_out_of_range`, `C64_with_getitem_partial`
* **C65** (convert_recursive maps exactly the matching leaves)
  * Plan: Model/Recursive: nested inductive of Python values.
  * Result: proved. For objects whose keys are hashable, distinct and do not match, and if the argument numbers, pairs and the list made up by ArgsKwargs.items do not match either; C65_argument_numbers_match and C65_keys_collide show what happens otherwise. Effects and exceptions of convert_item are covered (any monad).
  * Axioms propext, Classical.choice, Quot.sound: `C65_argument_numbers_match`, `C65_convert`, `C65_keys_collide`, `C65_no_match`
* **C66** (context managers restore global state)
  * Plan: Model/Context: context managers as state transformers with exits.
  * Result: partial. use_ops restores by every route (C66_use_ops, full). data_validation and define_operators restore only if no exception leaves the block (C66_not_restored is the counterexample); any nesting with exceptions handled inside is covered by C66_nested_partial.
  * Axioms propext, Quot.sound: `C66_nested_partial`
  * Axioms no axioms: `C66_not_restored`
  * Axioms propext: `C66_restored_partial`, `C66_use_ops`, `C66_use_ops_unknown`
* **C67** (hash keys stay in the table)
  * Plan: Model/Murmur: BitVec / UInt arithmetic; invertibility of every mixing step.
  * Result: proved. The murmur hash on 64-bit vectors, exactly as in the code; injectivity for every seed.
  * Axioms propext, Classical.choice, Quot.sound: `C67_distinct_ids`, `C67_injective`
  * Axioms propext, Quot.sound: `C67_hash_rows`, `C67_keys_in_range`
* **C68** (iterations over one minibatch result are independent)
  * Plan: Model/Batching: `_iter_items` as a step machine over the shared index array; an arbitrary scheduler interleaves any number of iterations; invariant per iterator. Shuffling: negation witness.
  * Result: partial. All interleavings without shuffling. With shuffle=True the iterators share and reshuffle one index array, so an interleaved iteration repeats and loses items (witness).
  * Axioms propext, Classical.choice, Quot.sound: `C68_interleaved_partial`, `C68_shuffled_interfere`
* **C69** (conversion layers keep the sequences)
  * Plan: Model/WithLayers: the conversion layers over arrays of rows on top of C28-C30; round trip and transposed callback.
  * Result: proved. Batches without any row lose their width in a Ragged (C69_no_rows_loses_width).
  * Axioms propext, Classical.choice, Quot.sound: `C69_conversions`
  * Axioms propext: `C69_no_rows_loses_width`
* **C70** (with_flatten nests the output like the input)
  * Plan: Model/WithLayers: with_flatten v1 and v2; on top of C28. v1 backward: negation witness.
  * Result: partial. Version 2 fully. Version 1 forward; its backward cuts the gradient along the last axis (witness C70_v1_backward_wrong).
  * Axioms propext: `C70_error`, `C70_v1_backward_wrong`, `C70_v1_empty`
  * Axioms propext, Quot.sound: `C70_v1_forward_partial`, `C70_with_flatten_v2`
* **C71** (networks have exact gradients)
  * Plan: Spec/Network: inductive type of networks with their mathematical function; Exact by mutual induction with the combinator theorems C51-C54 and the leaf theorems.
  * Result: proved. By mutual induction over all networks built from Linear, Relu, noop, chain, add, concatenate, residual and any other exact layer.
  * Axioms propext, Classical.choice, Quot.sound: `C71_network`
* **C72** (dense activation layers have exact gradients)
  * Plan: Model/Dense: each activation layer is linear map followed by the activation of C43/C44; chain rule. Dish: negation witness.
  * Result: partial. Real arithmetic. Partial: sigmoid-based layers clip at +-20; clipped linear needs a positive slope; Dish's callback uses the derivative at the layer's input instead of the pre-activation and raises when widths differ (proved).
  * Axioms propext, Classical.choice, Quot.sound: `C72_clipped_linear_partial`, `C72_dish_partial`, `C72_dish_raises`, `C72_gelu_partial`, `C72_hard_swish`, `C72_hard_swish_mobilenet`, `C72_logistic_partial`, `C72_mish`, `C72_relu`, `C72_sigmoid_partial`, `C72_swish_partial`
* **C73** (a training step adds the gradient of the loss)
  * Plan: Spec/Training: loss of the composed function; the gradient returned by the loss fed to the network callback is the gradient of the loss (chain rule with C45/C46/C48, C51, C71).
  * Result: proved. Softmax with CategoricalCrossentropy, any exact network with L2Distance, behind any chain of exact layers. The Softmax callback alone is not the gradient of its function (C73_softmax_alone_wrong).
  * Axioms propext, Classical.choice, Quot.sound: `C73_chain`, `C73_exact`, `C73_forward`, `C73_l2`, `C73_labels`, `C73_shape_checked`, `C73_softmax_alone_wrong`, `C73_targets`, `C73_temperature`, `C73_unnormalized`
* **C74** (Maxout has exact gradients)
  * Plan: Model/MaxoutLayer on Model/Maxout: chain of affine map and piecewise maximum, where the maximum is unique.
  * Result: partial. Real arithmetic. Partial: with a batch of no rows the callback raises IndexError (C74_no_rows), so exactness is stated for at least one row; the forward pass holds for every batch (C74_forward).
  * Axioms propext, Classical.choice, Quot.sound: `C74_forward`, `C74_maxout_partial`, `C74_no_rows`
* **C75** (pooling layers have exact gradients)
  * Plan: Model/PoolLayers on Model/Pooling: layers on Ragged values; linear maps with proved adjoints.
  * Result: partial. Real arithmetic; reduce_max where the maximum of each column is unique. Partial: reduce_sum and reduce_mean raise on a batch with no rows at all (C37), so exactness is stated for at least one row.
  * Axioms propext, Classical.choice, Quot.sound: `C75_first`, `C75_last`, `C75_max`, `C75_mean_partial`, `C75_shape_checked`, `C75_sum_partial`
* **C76** (expand_window has exact gradients)
  * Plan: Model/WindowLayer on Model/Seq2col: linear map with proved adjoint, on arrays and Ragged.
  * Result: proved. Real arithmetic.
  * Axioms propext, Classical.choice, Quot.sound: `C76_floats`, `C76_ragged`
* **C77** (training with SGD is gradient descent)
  * Plan: Model/Train: the training loop over node states, optimizer model and layer model; induction on the number of steps; each step is parameter minus rate times the mathematical gradient.
  * Result: proved. Proved for SGD with L2 = 0 and beta1 = beta2 = 0, models without shims, exact real arithmetic. L2 is left out because a parameter that received no gradient is not regularised by the code. C77_trains instantiates the loop with any model that satisfies the training-step theorem C73.
  * Axioms propext, Classical.choice, Quot.sound: `C77_progress`, `C77_sgd`, `C77_trains`
* **C78** (CauchySimilarity has exact gradients)
  * Plan: Model/Cauchy: forward and callback on pairs; derivative of 1/(1+sum) by the quotient rule.
  * Result: proved. Real arithmetic; rows where the weighted sum is exactly -1 (only possible with a negative weight) are excluded, because the similarity is infinite there.
  * Axioms propext, Classical.choice, Quot.sound: `C78_cauchy_needs_pair`, `C78_cauchy_similarity`, `C78_cauchy_similarity_nonneg`
* **C79** (Initialization infers shapes consistently)
  * Plan: Model/Initialize: the init functions as state transformers over a tree of nodes; frame and monotonicity by mutual induction; consistency iff inference succeeds; witnesses for the unchecked cases.
  * Result: partial. C79_ready, C79_frame, C79_uniform, C79_reinitialize, C79_chain, C79_inference (iff) and C79_again are proved for all networks of the model. C79_accepts_partial (an initialized network accepts the batch it was initialized with) covers dense layers, chains and concatenations; for add, residual and Softmax with preset dimensions the code does not check, and C79_add_unchecked, C79_residual_unchecked, C79_softmax_unchecked and C79_chain_stale prove that initialize succeeds although the network accepts nothing.
  * Axioms propext, Classical.choice, Quot.sound: `C79_accepts_partial`, `C79_add_unchecked`, `C79_again`, `C79_chain`, `C79_chain_stale`, `C79_concatenate`, `C79_frame`, `C79_get_width`, `C79_inference`, `C79_layers_input`, `C79_layers_output`, `C79_no_input_width`, `C79_no_width`, `C79_ready`, `C79_reinitialize`, `C79_residual_unchecked`, `C79_softmax_unchecked`, `C79_uniform`
* **C80** (Sequence wrappers and conversion layers have exact gradients)
  * Plan: Model/SeqLayers: the wrappers as layers over the list-of-rows models of flatten/unflatten/list2padded/padded2list; Spec/Rows says where each row goes (spread/collect are adjoint); exact_wrap composes the VJPs.
  * Result: proved. Two-dimensional float sequences. with_array on a Padded hands the layer a three-dimensional array and is not covered here (see C34). Padded inputs have the layout list2padded gives. C80_no_rows_lose_width shows why a row is needed for a Ragged.
  * Axioms propext, Classical.choice, Quot.sound: `C80_list2array`, `C80_list2padded`, `C80_list2ragged`, `C80_no_rows_lose_width`, `C80_padded2list`, `C80_places`, `C80_ragged2list`, `C80_rows_changed`, `C80_with_array2d_padded`, `C80_with_array_array`, `C80_with_array_list`, `C80_with_array_list_pad`, `C80_with_array_ragged`, `C80_with_list_list`, `C80_with_list_padded`, `C80_with_list_ragged`, `C80_with_padded_list`, `C80_with_padded_padded`, `C80_with_padded_ragged`, `C80_with_ragged_list`, `C80_with_ragged_padded`, `C80_with_ragged_ragged`
* **C81** (SparseLinear scores and gradients)
  * Plan: Model/SparseLinear: the kernels with pointers as offsets and reads outside as an outcome, the hash on 32-bit vectors. Exactness (C56 style) by a rule for loops that add to a buffer; hash injectivity from invertible steps; the sharing of weights from the formula for their places; lengths that do not fit by inverting the loop.
  * Result: proved. Weights and values are real numbers. GPU arrays, C int overflow and wrong dtypes are not modelled. The callback returns its input instead of a gradient for it.
  * Axioms propext, Classical.choice, Quot.sound: `C81_bucket_pow_two`, `C81_empty_batch`, `C81_hash_high`, `C81_hash_low`, `C81_lengths_fit`, `C81_needs_three`, `C81_reads_outside`, `C81_sparse_linear`, `C81_two_hashes`, `C81_v1_unused`, `C81_v2_used`
  * Axioms propext, Quot.sound: `C81_v1_shared`, `C81_v2_separate`
* **C82** (The LSTM computes the textbook recurrence on every sequence of the batch)
  * Plan: Model the packed forward pass with flat buffers and pointers (Model/Lstm), the layer in Model/LstmLayer; the textbook LSTM is Spec/Lstm. Loop invariant over time: the rows of Yt2/Ct2 are the states of the part of each sequence read so far; induction over directions and depth; packing by C31.
  * Result: proved. Proved for the numpy backend over the reals. The layer passes HC0[0], which it calls H0, as the initial cell state and HC0[1], which it calls C0, as the initial hidden state; the theorem says so (both are zero after initialization).
  * Axioms propext, Classical.choice, Quot.sound: `C82_batch_independent`, `C82_lstm_forward`, `C82_lstm_layer`, `C82_lstm_lists`, `C82_output_lengths`, `C82_weights`
  * Axioms propext, Quot.sound: `C82_parameter_count`
* **C83** (The LSTM's backward pass returns exact gradients)
  * Plan: Model/LstmBack: the backward loop on flat buffers, the gradients collected from `params`, the memory shared when nO is 1. Lemmas/LstmAdjoint: the textbook network read backwards, its derivative along curves by induction over the rest of the sequence. Loop invariant over the pairs of time steps relates the buffers to it; the first step read is never handled, so the full property is disproved and the exact part kept as _partial.
  * Result: partial. Memory safety and shapes hold for every depth and direction (C83_backward_runs). The input gradient is exact for one layer with at least two units at every position that is not read first (C83_input_gradient_partial). The rest is false for the code and disproved: the first position always gets 0 (C83_first_position_zero, C83_wrong_gradient), sequences of length 1 or a zero gradient return the parameters themselves as gradient (C83_gradient_of_nothing).
  * Axioms propext, Classical.choice, Quot.sound: `C83_backward_runs`, `C83_first_position_zero`, `C83_gradient_of_nothing`, `C83_input_gradient_partial`, `C83_wrong_gradient`
* **C84** (The LSTM gives the same results on every backend)
  * Plan: Model the base-class forward and backward passes with matrices and slices (Model/LstmBase); induction over the time steps for the first row, over directions and layers; the backward pass by an invariant that the arrays of gradients stay zero. Negative results with concrete witnesses.
  * Result: partial. Partial: the first sequence of every batch gets the textbook outputs with the logistic function clipped at 20 (C84_first_sequence_partial). The rest is false of the code: outputs of all other sequences are zero for every input (C84_other_sequences_zero), all gradients are zero for every input (C84_gradients_zero), with concrete disagreements (C84_backends_disagree, C84_wrong_gradient).
  * Axioms propext, Classical.choice, Quot.sound: `C84_backends_disagree`, `C84_first_sequence_partial`, `C84_gradients_zero`, `C84_other_sequences_zero`, `C84_same_network`, `C84_wrong_gradient`
* **C85** (Indexing layers return the selected entries and route the gradient back exactly)
  * Plan: Model numpy's index arithmetic on 2-d arrays (Model/Getitem) with an independent inductive specification of the selected positions (Spec/Getitem); equivalence of both, then the gradient as the adjoint of the selection when no position repeats; counterexample for repetitions.
  * Result: partial. Proved for indices without repeated entries on non-empty 2-d arrays, which covers all integers and slices; a list of integers naming an entry twice loses a gradient (C85_repeated_index_wrong), and an input without rows is returned unindexed (C85_empty_input_not_indexed). Boolean masks, None and Ellipsis are not modelled.
  * Axioms (not collected): `C85_basic_indices`, `C85_empty_input_not_indexed`, `C85_exact_gradient_partial`, `C85_raises_iff`, `C85_repeated_index_wrong`, `C85_selected_entries`
* **C86** (Id-mapping layers look up every key and give zero gradients)
  * Plan: Model the three layers over an abstract key type with the table as a finite map (Model/RemapIds); direct case analysis over the kinds of input; uninitialised memory is an arbitrary parameter.
  * Result: partial. The look-up is proved for all three layers, the zero gradient for remap_ids.v1 and premap_ids; remap_ids.v2 returns uninitialised memory (C86_remap_gradient_uninitialised). PreshMap is treated as a finite map and the hash as an arbitrary function.
  * Axioms (not collected): `C86_premap`, `C86_premap_raises_iff`, `C86_remap_gradient_uninitialised`, `C86_remap_raises_iff`, `C86_remap_v1`, `C86_remap_v2_partial`, `C86_strings2arrays`
* **C87** (Tree-wide functions act on exactly the nodes of the model)
  * Plan: Model/TreeWide on the heap of models. set_dropout_rate, change_attr_values: fold over the walk, node by node. get_gradients: loop invariant on the dictionary. wrap_model_recursive: invariant over the nodes replaced so far (Lemmas/WrapTree), every step by C07 with acyclicity and reachability carried through.
  * Result: partial. set_dropout_rate, change_attr_values and get_gradients are proved in full (get_gradients for trees with distinct ids and set parameters). wrap_model_recursive is proved for acyclic models whose references are set; self-references stay (part of the statement) and an unset reference raises halfway (C87_wrap_unset_ref).
  * Axioms (not collected): `C87_change_attr_values`, `C87_get_gradients`, `C87_set_dropout_rate`, `C87_wrap_model_recursive_partial`, `C87_wrap_unset_ref`
* **C88** (A model behind a parameter proxy reads from and writes to the proxy only)
  * Plan: Model/ParamProxy: the calls of a node with the proxy as an arbitrary state machine. Refinement to a small specification (Remote) over every sequence of calls; a dictionary as proxy gives shared parameters.
  * Result: proved. The proxy is an arbitrary state machine; refinement to a specification that keeps only the proxy's state and which names are known and were given a value.
  * Axioms (not collected): `C88_proxy`, `C88_shared_parameter`
* **C89** (Models for text: integer features, with_array and losses on sequences)
  * Plan: Model `with_array` on lists of integer arrays and the column selection of Embed and HashEmbed (Model/TextLayers.lean). Spec: integer kinds without dimensions whose gradient is zero, labels of sequences, the loss of a tagger as a sum over tokens. Prove each layer exact, transfer training steps through `with_array` (training the wrapper is training the layer on all rows), and compose with Softmax and SequenceCategoricalCrossentropy.
  * Result: proved. At least one row inside with_array (arrays without rows are not indexed by ints_getitem, and the HashEmbed callback raises without ids, see C58, C85). Embed needs ids that are rows of its table (C58).
  * Axioms propext, Classical.choice, Quot.sound: `C89_add`, `C89_classifier`, `C89_column`, `C89_concatenate`, `C89_embed_column`, `C89_hash_embed_column`, `C89_tagger`, `C89_with_array`, `C89_with_array_floats_trains`, `C89_with_array_trains`
* **C90** (Training with Adam)
  * Plan: `Spec/Adam` states Adam, L2, clipping and averages per parameter. One call of the optimizer on arrays is such a step (`Lemmas/Adam`); calls with different keys do not interfere; induction over batches and iterations.
  * Result: proved. Batches must leave a gradient for every parameter (Fills): finish_update skips a parameter that has no gradient, so neither its moments nor its step count move. Proved for Linear, the dense layers, Softmax and chains. RAdam is not covered here (its single steps are in C20-C22).
  * Axioms propext, Classical.choice, Quot.sound: `C90_adam`, `C90_chain_fills`, `C90_dense_fills`, `C90_fresh`, `C90_linear_fills`, `C90_softmax_fills`, `C90_takes`
* **C91** (Position encodings and n-gram hashes)
  * Plan: Model/PositionEncode: the C loops over a flat buffer with reads and writes checked against its bounds; hash64 an arbitrary function. Loop invariants give every entry; distinctness from the irrationality of pi, linearity of shifts from the addition theorems. n-grams by a loop invariant against the list of windows.
  * Result: partial. Exact reals. Partial: ngrams of no keys raises IndexError (C91_ngrams_empty). C91_backends: the version outside numpy truncates the hashes; C91_odd_repeats: with an odd width the last column repeats the column two before.
  * Axioms propext, Classical.choice, Quot.sound: `C91_backends`, `C91_bounded`, `C91_distinct`, `C91_encode`, `C91_given`, `C91_ngrams_partial`, `C91_odd_repeats`, `C91_relative`
  * Axioms propext, Quot.sound: `C91_ngrams_empty`
* **C92** (A wrapped PyTorch model trains on the true gradients, also with gradient scaling)
  * Plan: Model/TorchShim: tensors with entries that are finite or not, the scaler as a record, autograd an arbitrary function. Accumulation by induction over the batches; history of the scale by induction over unscale and update events.
  * Result: partial. Exact reals plus a value for everything not finite; torch.autograd is an arbitrary function. Partial: with scaling on, two batches leave g1/scale + g2 (C92_accumulation_scaled, C92_accumulation_wrong), and the in-place scaling reaches the caller's array (C92_caller_scaled). C92_update_partial covers scaling off with any number of batches, and scaling on with one.
  * Axioms (not collected): `C92_accumulation_scaled`, `C92_accumulation_wrong`, `C92_caller_scaled`, `C92_caller_unscaled`, `C92_defaults`, `C92_detects`, `C92_detects_added`, `C92_disabled`, `C92_growth`, `C92_inputs`, `C92_overflow_anywhere`, `C92_overflow_skips`, `C92_scale_args`, `C92_scale_history`, `C92_scale_positive`, `C92_unscale_scale`, `C92_update_partial`
* **C93** (Wrapped models: bytes and copies keep the parameters)
  * Plan: Model/Wrapped: the libraries' writers and readers are arbitrary codecs that round trip; to_bytes, from_bytes and copy follow the code, including what it drops.
  * Result: partial. Partial: C93_torch_default_lost proves that with the default callbacks the loading shim keeps its own parameters; C93_tf_copy_wrong and C93_tf_subclass_partial the TensorFlow cases. TorchScript, h5 and user callbacks are proved. MXNet is not modelled.
  * Axioms (not collected): `C93_copy`, `C93_disk`, `C93_errors`, `C93_tf_copy_wrong`, `C93_tf_h5`, `C93_tf_subclass_partial`, `C93_torch_callbacks_partial`, `C93_torch_default_lost`, `C93_torch_default_wrong`, `C93_torchscript`
* **C94** (Temporary parameters of wrapped PyTorch models)
  * Plan: Model/Wrapped: use_params in continuation style over the module's state dict, keys either pairs or strings.
  * Result: partial. Partial: C94_optimizer_keys_ignored, C94_exception_leaks and C94_keys_collide are the parts that fail; C94_string_keys_partial the part that holds (string keys 'pytorch_{id}_{name}' for all parameters, normal exit).
  * Axioms (not collected): `C94_exception_leaks`, `C94_keys_collide`, `C94_optimizer_keys_ignored`, `C94_optimizer_keys_wrong`, `C94_other_names_refused`, `C94_string_keys_partial`
* **C95** (GPU kernels give the CPU result for every launch size and every schedule)
  * Plan: Model/Gpu: threads as programs of single reads and writes, any schedule; Model/GpuKernels: kernel bodies and launchers. A weakest-precondition calculus with owned elements (Lemmas/Gpu) gives race freedom, bounds and results for grid-stride loops of any size.
  * Result: partial. Partial because the code violates the claim in places, each with a witness: gather_add converts indices to 32 bits before checking them (C95_gather_add_wraps), the gradients of the pooling functions do not check the number of gradients and read out of bounds (C95_backprop_reduce_sum_unchecked), reduce_mean divides by the length plus 1e-10 (C95_reduce_mean_offset, with a bound of the error). Numbers are exact, indices unbounded, interleavings of single accesses (justified by the proved race freedom).
  * Axioms (not collected): `C95_backprop_maxout`, `C95_backprop_reduce_max_partial`, `C95_backprop_reduce_mean_partial`, `C95_backprop_reduce_sum_partial`, `C95_backprop_reduce_sum_unchecked`, `C95_backprop_seq2col`, `C95_gather_add_partial`, `C95_gather_add_raises`, `C95_gather_add_wraps`, `C95_maxout`, `C95_pad`, `C95_pad_rejects`, `C95_pooling_raises`, `C95_reduce_max`, `C95_reduce_mean_offset`, `C95_reduce_sum`, `C95_seq2col`, `C95_seq2col_bad_lengths`
* **C96** (Elementwise GPU functions, Adam and hashing agree with the CPU for every launch size and schedule)
  * Plan: Model/GpuElementwise: bodies of the elementwise kernels, the Adam kernel and hash_data (bytes as BitVec 8) in the thread model of C95; the results are those of Model/Activations, Model/Optimizer and Model/Hash; derivatives by HasDerivAt.
  * Result: proved. Exact real arithmetic; erf and the decimal constants are taken as exact; the argument mod_rate of adam, which the GPU (and NumPy) version ignores and no caller sets, is left at its default. A slope of zero gives zeros on the GPU and ZeroDivisionError on the CPU (part of C96_backprop_clipped_linear).
  * Axioms (not collected): `C96_adam`, `C96_backprop_clipped_linear`, `C96_backprop_dish`, `C96_backprop_gelu`, `C96_backprop_hard_swish`, `C96_backprop_hard_swish_mobilenet`, `C96_backprop_mish`, `C96_backprop_swish`, `C96_clipped_linear`, `C96_dish`, `C96_gelu`, `C96_gelu_gradient`, `C96_hash`, `C96_mish`, `C96_shapes`, `C96_swish`, `C96_swish_error`, `C96_swish_gradient`
* **C97** (A wrapped PyTorch model sees the input's arrays as tensors and gives back their gradients)
  * Plan: Model/TorchWrapper: arrays and tensors as objects in a store, the module and autograd arbitrary; conversions as convertRecursive of C65 in a state monad. C65 gives the correspondence of places; composing the three conversions gives the gradient.
  * Result: partial. C97_forward_partial for single inputs, tuples, dicts and ArgsKwargs with one output tensor. Missing because the code violates it: lists (C97_list_gradient: always a tuple), tuples of outputs (C97_tuple_outputs: the callback always raises), integer arrays in training (C97_integers).
  * Axioms propext, Classical.choice, Quot.sound: `C97_forward_partial`, `C97_gradient_count`, `C97_integers`, `C97_list`, `C97_list_gradient`, `C97_rnn`, `C97_rnn_needs_pair`, `C97_tuple_outputs`
  * Axioms propext: `C97_no_gradient_argument`
* **C98** (Wrappers for debugging and profiling change nothing else)
  * Plan: Model/DebugWrappers: forward and init functions as data (closures with the layer they hold on to), a log of hook calls and ranges; induction over the wrappers with a relation that ignores the log.
  * Result: partial. C98_copy_partial: copies only without with_debug, forward only. C98_debug_copy, C98_debug_copy_violated, C98_init_copy and C98_open_range show what the code does instead.
  * Axioms propext, Quot.sound: `C98_copy_partial`, `C98_debug_copy`, `C98_forward`, `C98_initialize`, `C98_trace`
  * Axioms propext: `C98_copy_state`, `C98_debug_copy_violated`, `C98_init_copy`, `C98_open_range`
* **C99** (with_reshape applies the layer to the rows and hands their gradients back)
  * Plan: Model/Containers: arrays with shape and entries, reshape with -1; the inner layer is arbitrary.
  * Result: partial. C99_forward_partial is the forward pass. C99_backprop_width and C99_backprop_dims say what the callback does for every layer; it is never what the property asks.
  * Axioms propext, Quot.sound: `C99_backprop_dims`, `C99_backprop_width`
  * Axioms propext: `C99_backprop_violated`, `C99_too_few_axes`
  * Axioms propext, Classical.choice, Quot.sound: `C99_empty_backprop`, `C99_forward_partial`, `C99_zero_width`
* **C100** (with_cpu runs a layer on the CPU and is invisible otherwise)
  * Plan: Model/Containers: nested values with device tags; induction over the nesting; the inner layer is arbitrary.
  * Result: partial. C100_forward_partial is the case is_train=True, up to the device of the gradients. C100_always_training and the two _violated theorems show the rest fails.
  * Axioms no axioms: `C100_always_training`, `C100_gradient_device_violated`, `C100_predict_violated`
  * Axioms propext, Classical.choice, Quot.sound: `C100_forward_partial`
* **C101** (Wrapped TensorFlow and MXNet models are trained with the sum of their gradients)
  * Plan: Model/TensorFlow: variables as arrays with shape, a pass as an arbitrary choice of gradients, the optimizer as an arbitrary function of flat arrays; induction over the passes and over the shapes that are cut out of the flat array.
  * Result: partial. Partial: with several inputs the callback looks at the rows of the first input instead of the inputs, so it raises, or returns None and gradients of variables (C101_several_inputs, C101_several_inputs_one_row); a variable without gradient makes the callback raise (C101_unused_variable). What the gradient tape computes is an arbitrary function.
  * Axioms propext, Classical.choice, Quot.sound: `C101_entrywise`, `C101_input`, `C101_mxnet`, `C101_mxnet_no_params`, `C101_several_inputs`, `C101_several_inputs_one_row`, `C101_training_partial`, `C101_unused_variable`
* **C102** (Temporary and copied weights of wrapped TensorFlow models)
  * Plan: Model/TensorFlow: a model as layers of named weights, the block as an arbitrary function; induction over layers and weights.
  * Result: partial. Partial: a block that raises leaves the temporary weights (C102_exception_violated), a dict without one of the names raises after some layers have changed (C102_missing_violated), copy takes the model away from the original and both copy and to_device lose the weights (C102_copy_violated, C102_weights_lost_violated).
  * Axioms propext, Classical.choice, Quot.sound: `C102_copy_violated`, `C102_entries`, `C102_exception_violated`, `C102_missing_violated`, `C102_other_keys`, `C102_use_params_partial`, `C102_weights_lost_violated`
* **C103** (Initializers return arrays of the shape they are asked for, with their documented ranges, from draws of their own)
  * Plan: Model/Initializers: the generator is an arbitrary state machine; induction over the draws.
  * Result: partial. Partial: normal_init passes its mean as the scale, so that the default gives zeros and a negative mean raises (C103_normal_violated, C103_negative_mean_violated); with one axis the six scaled initializers raise IndexError (C103_one_axis_violated). Exact reals, rounding to float32 not modelled.
  * Axioms propext, Classical.choice, Quot.sound: `C103_limit`, `C103_negative_mean_violated`, `C103_normal_partial`, `C103_normal_violated`, `C103_one_axis_violated`, `C103_scheme`, `C103_uniform`, `C103_zero`
* **C104** (Random initial weights keep the scale of the data)
  * Plan: Model/Initializers with the layers of Model/Layer and Model/Dense; the state of the generator is a random variable; independence gives the variance of sums, symmetry the mean of squares after ReLU (Mathlib probability).
  * Result: partial. Partial by violation for Maxout: the scale is taken from the number of pieces instead of the number of inputs (C104_maxout_violated). Proved for linear and ReLU layers, forward and (linear) backward.
  * Axioms propext, Classical.choice, Quot.sound: `C104_backward`, `C104_forward_partial`, `C104_he_relu`, `C104_lecun`, `C104_maxout_violated`
* **C105** (Threads and asynchronous tasks do not see each other's backend, data validation or operators)
  * Plan: Small-step model of threads and asynchronous tasks with contexts, thread-local state and frames for open blocks; a task's part of the state evolves by its own steps only (every task has a context of its own: invariant), and its remaining frames have a meaning that is constant along its steps and agrees with running alone.
  * Result: partial. Partial: contextvars_eq_thread_ops is false while another asynchronous task of the same thread is inside use_ops, although every task has the right backend (C105_thread_state_violated); without asynchronous tasks it is always true. Blocks restore data validation and operators only if no exception leaves them (C66). The isolation itself (C105_alone) is proved without restriction.
  * Axioms propext, Quot.sound: `C105_alone`, `C105_blocks_partial`, `C105_new_task`, `C105_new_thread`, `C105_thread_state_partial`
  * Axioms propext: `C105_main`, `C105_thread_state_violated`
* **C106** (Choosing a backend and a GPU)
  * Plan: Decision logic over all registries and platforms.
  * Result: partial. Partial: if there is no GPU with the given number, require_gpu and prefer_gpu raise after they have changed the backend to CuPy (C106_wrong_gpu_violated). The rest is proved.
  * Axioms propext, Quot.sound: `C106_by_name`, `C106_cpu`
  * Axioms propext, Classical.choice, Quot.sound: `C106_history`, `C106_prefer_gpu`, `C106_require_gpu`
  * Axioms no axioms: `C106_no_gpu_partial`, `C106_wrong_gpu_violated`
  * Axioms propext: `C106_require_cpu`
* **C107** (GPU memory through PyTorch or TensorFlow)
  * Plan: Transition system of calls in threads sharing one dict of pools, with invariants over all schedules; arithmetic of the request sizes.
  * Result: partial. Partial: two threads that both find no pool make two (C107_race_violated), and the allocators by themselves allocate up to three bytes less than they are asked for (C107_short_violated), which the rounding in CuPy's pools hides (C107_enough). Calls one after the other make one pool per library, and under every schedule no call fails and CuPy uses a pool of a library that was asked for.
  * Axioms propext, Classical.choice, Quot.sound: `C107_enough`, `C107_short_iff`
  * Axioms propext: `C107_names`, `C107_race_violated`
  * Axioms propext, Quot.sound: `C107_one_pool_partial`, `C107_threads`
  * Axioms no axioms: `C107_short_violated`
* **C108** (Dense layers with normalize and dropout)
  * Plan: The builders return node trees of the initialization model (C79); induction-free characterisation of initialize for each of the four option sets, and exactness by the chain theorem (C51) from the exactness of the parts.
  * Result: proved. A preset nO is not compared with the width of Y as soon as one option is used; the statement says so.
  * Axioms propext, Classical.choice, Quot.sound: `C108_exact`, `C108_initialize`, `C108_predict`
* **C109** (RAdam is the published algorithm)
  * Plan: Induction over histories with the invariant of C20 (the moments are the weighted sums of the gradients) and of C17 (the buffer holds what would be computed); real analysis for the rectification. The step count and lr_scale disagree with the property: witnesses.
  * Result: partial. The code counts an update twice (nr_update is incremented in __call__, and step again in _radam), so the n-th update uses the corrections of step n+1: the first step is 10/19 of the published one with the default betas. lr_scale is ignored. Both are machine-checked witnesses; the partial theorem gives the exact update.
  * Axioms propext, Classical.choice, Quot.sound: `C109_first_step_violated`, `C109_lr_scale_violated`, `C109_phases`, `C109_radam_partial`, `C109_rectification`, `C109_warmup`, `C109_well_defined`
* **C110** (One example batch settles which batches of sequences a model accepts)
  * Plan: Models as records of dimensions, init and forward (Model/TextInit). Induction over the models: a layer that accepts one varied sample accepts the shape in all later states; each container conversion is an equation of shapes. Loop invariant of chain.init.
  * Result: proved. Batches with positive lengths and widths; positive dimensions. add only of layers whose outputs are no Python lists.
  * Axioms propext, Classical.choice, Quot.sound: `C110_add_width`, `C110_chain_initialized`, `C110_concatenate_width`, `C110_init_keeps`, `C110_one_sample_settles_all`, `C110_sample_must_vary`, `C110_with_array_initialized`, `C110_wrapper_width`
* **C111** (initialize reaches every layer of a model, whatever it is built from)
  * Plan: Model/WideInit has the init functions of the remaining layers on the state of Model/Initialize; Lemmas/WideModels proves by induction over the models (Spec/WideModels.WideModel) that initialize consists of set_dim and set_param steps on nodes of the model, for every relation closed under such steps; C111_keeps and C111_all_ready_partial follow. The init functions of the layers are characterized by iff theorems; siamese without data is a counterexample.
  * Result: partial. Partial: the unchanged code violates the claim for siamese, whose encoder is not initialized when no example is given (C111_siamese_violated); C111_all_ready_partial is about models without siamese, C111_siamese_given about siamese with an example. C111_key_transform_unset: ParametricAttention.v2 never infers the width of a key transform.
  * Axioms propext, Classical.choice, Quot.sound: `C111_all_ready_partial`, `C111_bidirectional_examples`, `C111_cauchy_init`, `C111_dense_init`, `C111_embed_init`, `C111_getitem_examples`, `C111_keeps`, `C111_key_transform_unset`, `C111_layernorm_init`, `C111_map_list_examples`, `C111_multisoftmax_init`, `C111_siamese_examples`, `C111_siamese_given`, `C111_siamese_skips_encoder`, `C111_siamese_violated`, `C111_softmax_init`, `C111_sparse_init`, `C111_tuplify_examples`
* **C112** (Data validation in initialize refuses bad examples and changes nothing else)
  * Plan: pydantic's acceptance as a recursive function on annotations, equal to an inductive relation of conformity; a model and the same model with validation at every node as an inductive relation, and a refinement of init proved combinator by combinator; the cut after five items as a witness
  * Result: partial. accepts_iff, validate and only_refuses hold for every annotation and model; partial because only the first five items of a list are looked at: a list with a bad sixth item is accepted (C112_sixth_item_violated). pydantic itself is modelled for the annotations that occur in thinc, without its conversions.
  * Axioms propext, Classical.choice, Quot.sound: `C112_accepts_iff`, `C112_array`, `C112_conforming_accepted`, `C112_conforming_same`, `C112_only_refuses`, `C112_refused`, `C112_sixth_item_violated`, `C112_validate_partial`
* **C113** (The mypy plugin accepts exactly the combinations that fit, and accepted models do not meet wrong types)
  * Plan: function_hook and get_reducers_type with every assertion as an error value and the reported errors as a list; membership in that list characterised by positions; nested model expressions with an evaluation and an inductive relation of models the plugin accepts, soundness by induction on it
  * Result: partial. Partial because the plugin fails with an IndexError on a call without arguments such as concatenate(), which is valid (C113_no_arguments_violated); C113_never_fails_partial covers the others. mypy's is_subtype is a parameter; Any, which is compatible in both directions, does not meet the hypothesis of the soundness theorem.
  * Axioms (not collected): `C113_chain`, `C113_chain_accepted`, `C113_never_fails_partial`, `C113_no_arguments_violated`, `C113_no_type_errors`, `C113_others`, `C113_same`
* **C114** (Moving a model to a GPU and back)
  * Plan: arrays as contents, device and precision in the heap model of C01-C15, the loop over walk as a function on the heap, the ops of nodes and the shims; equality of the loop with a map over the nodes of the tree; there and back as an equality of heaps; witnesses for wrapped models and failing shims
  * Result: partial. Partial: to_gpu(1) puts wrapped PyTorch models on GPU 0 (C114_wrapped_violated); if a shim has no to_device the model is left half moved (C114_half_moved_violated); parameters in double precision are rounded (C114_double_violated). Arrays are contents, a device and a precision; that cupy puts arrays on the current device is assumed.
  * Axioms (not collected): `C114_double_violated`, `C114_half_moved_violated`, `C114_there_and_back`, `C114_to_gpu_partial`, `C114_wrapped_violated`
* **C115** (Training reduces the loss; linear and softmax regression are trained to the best parameters)
  * Plan: Props/Descent on top of C77 (SGD is gradient descent) and C90 (Adam): the change of a differentiable loss along a step whose entries are positive multiples of those of the gradient is negative when the step is small, uniformly in the per-parameter rates; for Linear with L2Distance the loss is an explicit quadratic, and the usual potential argument gives the 1/K rate.
  * Result: proved. Exact reals. The general claim is about one step from given parameters, as the bound depends on them; that a large rate can make the loss larger is C115_large_rate. Later steps of Adam use old gradients and may raise the loss.
  * Axioms propext, Classical.choice, Quot.sound: `C115_adam_first_step`, `C115_large_rate`, `C115_linear_regression`, `C115_linear_regression_converges`, `C115_sgd_step`, `C115_softmax_labels`
* **C116** (Predictions and training steps do not depend on how rows are cut into batches)
  * Plan: MapsRows and ExactRows (Spec in Props/Splitting): a layer applies one function to each row. Each layer by its exactness theorem or by its forward run; chains by induction over the list. Batches: gradients of equal total losses are equal, then induction over the iterations with C77 and C90.
  * Result: proved. Exact real arithmetic: float rounding depends on the order of the sums. Relu and Maxout predict row by row for all inputs; in training their rows must not be on a kink. That normalized losses depend on the batches is C116_normalized_violated.
  * Axioms propext, Classical.choice, Quot.sound: `C116_adam`, `C116_chain`, `C116_chain_exact`, `C116_dense`, `C116_exact_rows`, `C116_l2`, `C116_labels`, `C116_layer_norm`, `C116_linear`, `C116_maxout`, `C116_maxout_exact`, `C116_normalized_violated`, `C116_predictions`, `C116_relu`, `C116_relu_exact`, `C116_residual`, `C116_residual_exact`, `C116_sgd`, `C116_softmax`
* **C117** (Copies and loaded models train like the original, and on their own)
  * Plan: Graph isomorphism between a model and its copy (C08) or the loaded model (C09) carries the wiring of parameters over; training is a function of the parameters alone (C77_sgd, C90_adam), and an invariant over finish_update and the callbacks shows that nodes outside the trained model are not touched.
  * Result: proved. C117_isolated: any layer, batches and optimizer. C117_copy_holds, C117_copy, C117_copy_adam: copies. C117_load: saving and loading (under the hypotheses of C09_round_trip_partial). C117_sgd, C117_adam: any two models with equal parameters. Exact real arithmetic; models without shims. The loaded model must have no gradients: from_dict keeps those of the target (see C09_round_trip_partial).
  * Axioms propext, Classical.choice, Quot.sound: `C117_adam`, `C117_copy`, `C117_copy_adam`, `C117_copy_holds`, `C117_isolated`, `C117_load`, `C117_sgd`
* **C118** (A wrapped layer is initialized with what it will be called with)
  * Plan: Model/WithInit: the functions that convert the sample in init, and forward for tuples and arrays. Proved by cases on the container: the layer's exception for the argument of init is the exception of forward (so forward calls it with that argument), and conversion errors agree; tuples are compared with the containers.
  * Result: partial. Partial because the code breaks it in three ways, each with a machine-checked witness: C118_padding_violated, C118_tuple_violated, C118_two_documents_violated. Everything else is proved for every layer and input.
  * Axioms propext: `C118_flatten_lengths_wrong`, `C118_padded_tuple`, `C118_padding_violated`, `C118_ragged_tuple`, `C118_reshape_twice`, `C118_tuple_violated`, `C118_two_documents_violated`, `C118_with_array_partial`, `C118_with_flatten`, `C118_with_flatten_v2`, `C118_with_list`, `C118_with_padded_partial`, `C118_with_ragged`
  * Axioms propext, Classical.choice, Quot.sound: `C118_flatten_targets_partial`, `C118_with_array_flat_ids`, `C118_with_array_ids_initialized`, `C118_with_array_initialized`, `C118_with_list_initialized`, `C118_with_padded_initialized`, `C118_with_ragged_initialized`, `C118_with_reshape`
  * Axioms propext, Quot.sound: `C118_flatten_targets_wrong`, `C118_with_array_shape`, `C118_with_reshape_targets`
* **C119** (A document's output does not depend on the other documents in its batch)
  * Plan: Spec/Documents.lean: `PerDocument` (one function of a document gives the layer's output for every batch) and `Sees w` (an output row depends on the w rows around it). Proved layer by layer (Props/Documents.lean) and closed under chain, residual, concatenate and the wrappers; with_array on a list by following the padded layout (rows of other documents are at least pad away); the two violations are concrete two-document batches.
  * Result: partial. Partial because the code violates it: with_array does not use its padding for a Ragged (with_array.py:87-96), so a layer that looks at neighbouring rows sees other documents there (C119_with_array_ragged_violated, for every padding), and a list needs a padding at least as large as the window (C119_with_array_list_violated with padding 0). Proved for all layers that see no further than the padding. The LSTM and with_padded are in C82 (C82_batch_independent).
  * Axioms propext, Classical.choice, Quot.sound: `C119_attention`, `C119_attention_v2`, `C119_chain`, `C119_chain_one`, `C119_concatenate`, `C119_expand_window_ragged`, `C119_list2ragged`, `C119_maps_rows`, `C119_ragged2list`, `C119_reduce_first`, `C119_reduce_last`, `C119_reduce_max`, `C119_reduce_mean`, `C119_reduce_sum`, `C119_residual_list`, `C119_residual_ragged`, `C119_rows`, `C119_same_output`, `C119_sees_chain`, `C119_sees_chain_one`, `C119_sees_expand_window`, `C119_sees_more`, `C119_sees_noop`, `C119_sees_residual`, `C119_with_array_list_partial`, `C119_with_array_list_violated`, `C119_with_array_ragged_partial`, `C119_with_array_ragged_violated`, `C119_with_list`, `C119_with_ragged`
* **C120** (Training on documents does not depend on how they are cut into batches)
  * Plan: Documents with targets as `DocBatch`; the loss of a batch is shown to be the sum over its documents of a loss that depends on the document and its target only (from C119 and the exactness of the losses), then C116 for SGD and Adam.
  * Result: proved. Exact real arithmetic. The body must be differentiable everywhere, so models with Relu or attention (exact on a domain only) are not covered. Normalized losses do depend on the batches: C116_normalized_violated. Batches without a single token are excluded.
  * Axioms propext, Classical.choice, Quot.sound: `C120_expand_window_fills`, `C120_labels`, `C120_labels_adam`, `C120_list2ragged_fills`, `C120_reduce_mean_fills`, `C120_tags`, `C120_tags_adam`, `C120_vectors`, `C120_vectors_adam`, `C120_with_array2d_fills`
* **C121** (Between two updates, forward passes, backward passes and predictions may come in any order)
  * Plan: Model/Session.lean: a user session as a list of calls (predict, begin_update, callback number k, finish_update). Spec/Session.lean: `work` reads off which batches are trained on. Proved by induction over the calls: forward passes read parameters, which only an update changes, and a callback adds to the gradients only (Props/Session.lean); then C77 and C90.
  * Result: proved. C121_any_order, C121_pending and C121_predictions hold for every layer of the model; C121_sgd, C121_same_batches, C121_adam and C121_same_batches_adam for layers with exact gradients over the reals. Callbacks kept past finish_update are excluded: the optimizer changes the weights in place and such a callback would see the new weights. A layer whose callback depends on a later forward pass of the same layer (shared scratch buffers) cannot be expressed in this model.
  * Axioms propext, Classical.choice, Quot.sound: `C121_adam`, `C121_any_order`, `C121_pending`, `C121_predictions`, `C121_same_batches`, `C121_same_batches_adam`, `C121_sgd`
* **C122** (Layers that share arrays do what layers with arrays of their own do)
  * Plan: A memory of arrays with references and views; layers and callbacks as functions that read, allocate and write. A relation to the layers on values (same results, nothing that exists changes, which arrays the callback depends on), closed under chain, add, concatenate, tuplify, residual and the sequence wrappers. Concrete networks where writing into a shared array is wrong.
  * Result: partial. Model of memory with arrays, views and references (Model/ArrMem, Model/ArrMemLayers); Faithful (Spec/ArrMem) relates a layer on memory to the layer on values. partial: add, concatenate, tuplify and residual need a first layer with arrays of its own, Embed is proved outside of training; the *_wrong theorems show that the rest is false of the code. List objects have no identity in the model, integer arrays and parameter gradients are values. with_array, with_array2d, with_list, with_ragged, with_padded and the conversion layers are included (Model/ArrMemSeq), with_array except on a Padded; they are not shown to return arrays of their own.
  * Axioms propext, Classical.choice, Quot.sound: `C122_add_embed_wrong`, `C122_add_noop_wrong`, `C122_add_partial`, `C122_add_relu_wrong`, `C122_attention`, `C122_chain`, `C122_concatenate_noop_wrong`, `C122_concatenate_partial`, `C122_conversions`, `C122_dense`, `C122_dense_output`, `C122_dropout`, `C122_embed_partial`, `C122_embed_wrong`, `C122_layernorm`, `C122_linear`, `C122_logistic`, `C122_maxout`, `C122_multisoftmax`, `C122_noop`, `C122_padded_conversions`, `C122_pooling`, `C122_residual_arrays`, `C122_residual_partial`, `C122_softmax`, `C122_tuplify_partial`, `C122_with_array`, `C122_with_sequences`
* **C123** (A user who shares arrays with a model sees what they would see if all arrays were copied)
  * Plan: Sessions of a user with arrays in memory (create, overwrite, predict, begin_update, callbacks, finish_update); simulation by the session on values of C121, with the invariant that arrays a pending callback depends on are reachable for the user only as its inputs and outputs.
  * Result: proved. Memory session (Model/MemSession) refines the session on values of C121; the rule for the user is Allowed/Careful in Spec/MemSession. C123_input_wrong, C123_output_wrong and C123_old_callback_wrong show that the rule is needed. C123_loop, C123_loop_sgd and C123_loop_adam: the training loop on arrays leaves the parameters that the loop on values leaves.
  * Axioms propext, Classical.choice, Quot.sound: `C123_any_order`, `C123_input_wrong`, `C123_loop`, `C123_loop_adam`, `C123_loop_sgd`, `C123_old_callback_wrong`, `C123_output_wrong`, `C123_session`, `C123_sgd`, `C123_unharmed`
* **C124** (A model saved to a file is loaded back whole or not at all, and the save of one model does not lose another)
  * Plan: Model/Disk.lean: a disk of files, written byte by byte; to_disk as the list of its steps (the file is opened and emptied, then to_bytes is called, then the bytes are written); msgpack and the array conversions are parameters with laws (Spec/Disk.lean). What a path holds depends on the steps on that path only; crash points are prefixes of the steps, threads are interleavings. Witnesses for what fails use a reader and writer that numbers the messages.
  * Result: partial. C124_saved: a completed save, for all models and disks. C124_crash: at every point of a save. C124_history_partial: any history of complete, failed and interrupted saves; a load gives the last save that touched the path, or raises ValueError and changes nothing. C124_threads: any interleaving of threads with different paths. C124_same_bytes_partial: the same bytes after loading, if the nodes list their names in the same order. The rest of the claim is false of the code, with witnesses: to_disk empties the file before it serializes the model, so a crash (C124_crash_wrong) or a model that cannot be serialized (C124_failed_save_wrong) loses the model saved before; two threads that save to the same path can leave a file that is neither model (C124_same_path_wrong); a target with its attributes in another order gives other bytes (C124_order_wrong).
  * Axioms propext, Classical.choice, Quot.sound: `C124_crash`, `C124_crash_wrong`, `C124_failed_save_wrong`, `C124_history_partial`, `C124_order_wrong`, `C124_returned`, `C124_same_bytes_partial`, `C124_same_path_wrong`, `C124_saved`, `C124_threads`
  * Axioms propext, Quot.sound: `C124_no_file`
* **C125** (Checkpoints: stopping, saving and resuming training)
  * Plan: Model `with use_params(averages): to_dict()`; show that training changes only parameter values and gradients (a frame theorem for the training loop), so that a checkpoint can be loaded at any time; compose with the round trip C09 and with C77/C90; prove the negations for Adam, for schedules and for a failing save.
  * Result: partial. C125_resume_partial: plain SGD, with learning rates that continue where they were; C125_averages: saving the averages, for Adam and SGD. The full claim is false of the code: C125_adam_wrong (the moments are not saved), C125_schedule_wrong (schedules start again), C125_failed_save_wrong (a save that raises inside of the block leaves the averages in the model). Exact real arithmetic, hence messages and not bytes.
  * Axioms propext, Classical.choice, Quot.sound: `C125_adam_wrong`, `C125_averages`, `C125_failed_save_wrong`, `C125_resume_partial`, `C125_schedule_wrong`
* **C126** (No infinities or NaN out of finite numbers)
  * Plan: Numbers are finite reals, two infinities or NaN; the operations are the exact ones, rounded, with the IEEE rules for infinities and NaN. The rounding, the largest number, the library functions and the order of sums are parameters with laws (Spec/Float.lean). The ops are transcribed from ops.py; theorems in Props/Float.lean, two arithmetics that meet the laws (one with the float32 numbers, rounding towards zero) and the violations in Props/FloatWrong.lean.
  * Result: partial. Partial: the code violates the property. C126_backprop_dish_wrong (NaN for a large input), C126_dish_wrong (dish is half its value where the square overflows), C126_backprop_mish_wrong (infinite gradient), C126_softmax_temperature_wrong (NaN for temperatures below one) and C126_clip_gradient_wrong (a finite gradient becomes zero when its squares overflow) are witnesses in an arithmetic that satisfies all the laws. softmax is proved for temperatures of at least one. gelu with erf, and the derivatives of swish, gelu and hard_swish, are not modelled in floating point. There is a single zero.
  * Axioms propext, Classical.choice, Quot.sound: `C126_backprop_clipped_linear`, `C126_backprop_dish_wrong`, `C126_backprop_mish_wrong`, `C126_backprop_sigmoid`, `C126_clip_gradient`, `C126_clip_gradient_wrong`, `C126_clipped_linear`, `C126_dish_wrong`, `C126_gelu_approx`, `C126_mish`, `C126_sigmoid`, `C126_softmax_partial`, `C126_softmax_temperature_wrong`, `C126_swish`
* **C127** (Rounding does not take softmax and sigmoid far from their mathematical values)
  * Plan: On top of C126: Spec/FloatAcc.lean states the precision of the format, of sums and of exp, and the mathematical softmax and logistic function; Lemmas/FloatAcc.lean bounds the error of a sum in any order by induction over the order, Lemmas/SoftmaxAcc.lean that of the exponentials; Props/FloatAcc.lean has the theorems and Props/Instances/Float32.lean the proof that float32 meets the laws.
  * Result: proved. The laws of the arithmetic hold for float32 with rounding towards zero (float32_accurate), with u = 2^-23; there ten classes are accurate to five digits (example in Props/Instances/Float32.lean). The exact sum of the returned numbers is meant, not their rounded sum.
  * Axioms propext, Classical.choice, Quot.sound: `C127_sigmoid_accurate`, `C127_softmax_accurate`, `C127_softmax_sum`
* **C128** (Predicting draws no random numbers)
  * Plan: layers that take their random draws from a generator with a state (Model/Random); a combinator is the tree of calls it makes; induction over networks and trees shows that a pass with is_train=False leaves the state and does not depend on the numbers, then induction over the history
  * Result: partial. Partial because the code violates it in with_cpu (C128_with_cpu_wrong). The dropout inside LSTM and PyTorch layers is not modelled here. Combinators are given by the tree of calls they make; that the combinators of the model make these calls is proved for each (C128_chain, C128_add, ...).
  * Axioms propext, Classical.choice, Quot.sound: `C128_add`, `C128_chain`, `C128_concatenate`, `C128_evaluate_partial`, `C128_forward_only`, `C128_fresh`, `C128_map_list`, `C128_no_dropout`, `C128_predict_partial`, `C128_residual`, `C128_siamese`, `C128_training`, `C128_training_list`, `C128_tuplify`, `C128_with_array`, `C128_with_cpu_forward_only`, `C128_with_cpu_wrong`, `C128_with_list`, `C128_with_padded`, `C128_with_ragged`
* **C129** (Adam keeps its numbers finite in floating point)
  * Plan: Model/FloatAdam: one entry of Ops.adam in the floating-point model of C126, operation by operation; adamRun folds a list of gradients. Proof: |x| ≤ y gives |rnd x| ≤ rnd y, so one step at the bounds dominates every step within them; induction over the history. Failures at overflow and eps = 0 with witnesses.
  * Result: proved. The invariant is proved for all histories from one-step conditions; the two failures of the unconditional claim are proved as C129_frozen_wrong and C129_eps_wrong. mod_rate is 1 and the hyperparameters are constant.
  * Axioms propext, Classical.choice, Quot.sound: `C129_adam`, `C129_eps_wrong`, `C129_frozen_wrong`, `C129_radam`
* **C130** (Threads that share a model)
  * Plan: Model/Concurrent: a thread is a program of accesses to parameters, gradients and module flags; Conf.run interleaves threads by a schedule. Forward functions are the call trees of C128 in continuation-passing style. Proof: invariant over schedules that every thread, run alone from the current state, would return the layer's output; for gradients, the increments that remain plus the gradient are constant. Violations by explicit schedules.
  * Result: partial. Partial because the code violates the claim for first gradients, shared wrapped modules and concurrent updates, each with a machine-checked schedule. Accesses to the dicts, `+=` on an array and the call of a wrapped module are atomic steps in the model.
  * Axioms propext, Classical.choice, Quot.sound: `C130_attention`, `C130_calls_partial`, `C130_cauchy`, `C130_dense`, `C130_embed`, `C130_gradients_partial`, `C130_gradients_wrong`, `C130_hash_embed`, `C130_layer_norm`, `C130_linear`, `C130_maxout`, `C130_module_wrong`, `C130_softmax`, `C130_sparse_linear`, `C130_update_wrong`, `C130_without_parameters`
* **C131** (Compiled code stays inside the arrays it is given)
  * Plan: Spec.Memory: `Inside` (no outcome `outOfBounds`), `Safe` (forward and every callback, for all arguments) and the inductive list `Built` of layers and combinators. A small program logic (`Safely`) over the buffer model proves each kernel by loop invariants on offsets and each layer by going through its program; `C131_layers` is an induction over `Built`. Kernels that trust their arguments: `_partial` with the condition, and a witness without it.
  * Result: partial. Proved for every network of the layers listed in Spec.Memory.Built with arbitrary (also ill-shaped) arguments. Partial: the operations backprop_reduce_*, backprop_maxout, gather_add and scatter_add called directly, and the Maxout callback, trust shapes or ids; for each there is a theorem with the needed condition and a witness that leaves the array without it (C131_kernels_wrong, C131_maxout_layer_wrong, C131_sparse_linear_wrong). Overflow of C ints is not modelled; LSTM kernels are not included.
  * Axioms propext, Quot.sound: `C131_backprop_maxout_partial`, `C131_gather_add_partial`, `C131_maxout`, `C131_reduce_mean`, `C131_reduce_sum`, `C131_scatter_add_partial`
  * Axioms propext, Classical.choice, Quot.sound: `C131_backprop_reduce_max_partial`, `C131_backprop_reduce_mean_partial`, `C131_backprop_reduce_sum_partial`, `C131_backprop_seq2col`, `C131_kernels_wrong`, `C131_layers`, `C131_maxout_layer_partial`, `C131_maxout_layer_wrong`, `C131_reduce_max`, `C131_seq2col`, `C131_sparse_linear_wrong`
* **C132** (Matrix multiplication is the same on every backend)
  * Plan: Arrays as strided views over buffers; BLAS as loops over buffers with bounds; refinement to sums of products, frame conditions; concrete counterexamples for out arrays
  * Result: partial. Partial because the code does less: with BLIS an out array that is not contiguous is copied and stays unchanged (C132_out_copied_wrong), the shape of out is not checked and the product is written past its end (C132_out_shape_wrong), and AppleOps returns uninitialised memory for an inner dimension of zero (C132_apple_empty_wrong). Everything else is proved; C132_layers links it to the multiplication the layer theory uses.
  * Axioms propext, Classical.choice, Quot.sound: `C132_apple_empty_wrong`, `C132_apple_partial`, `C132_layers`, `C132_mismatch`, `C132_new`, `C132_ops`, `C132_out_copied_wrong`, `C132_out_partial`, `C132_out_shape`, `C132_out_shape_wrong`
  * Axioms no axioms: `C132_apple_layout`
* **C133** (Matrix products and Linear in floating point)
  * Plan: Floating-point format with rounding as in C126/C127; sums of products in any order as an inductive relation; error bound by induction over the order
  * Result: proved. The sum of the absolute values must not exceed the largest number; C133_overflow_order shows that the order decides otherwise. Algorithms for matrix products that are not sums of the products (Strassen) are not covered, and neither are reduced-precision modes of GPUs (TF32).
  * Axioms propext, Classical.choice, Quot.sound: `C133_backends`, `C133_gemm`, `C133_linear`, `C133_linear_backprop`, `C133_overflow_order`, `C133_whole`
* **C134** (Predictions of feed-forward networks in floating point are near those of real numbers)
  * Plan: Run the floating-point layers as relations (any order of the additions). Carry through the layers, by induction, a bound on the size of the exact numbers and on the error: one step is C133_linear plus the Lipschitz bound of the affine map; relu is exact and does not increase differences. Softmax by C127 and its Lipschitz bound. Show that the real-number model of chain(Relu, ..., Linear) computes the exact scores.
  * Result: proved. Forward pass only: the derivative of relu jumps, so small errors can change a gradient a lot. Softmax at temperature one. Connected to the real-number model of chain, Relu and Linear by C134_model.
  * Axioms propext, Classical.choice, Quot.sound: `C134_backends`, `C134_class`, `C134_model`, `C134_probabilities`, `C134_real`, `C134_relu`, `C134_scores`
* **C135** (Wrapped TensorFlow and MXNet models see the input's arrays as tensors and give back their gradients)
  * Plan: Model the wrappers function by function over the objects and store of C97, with the framework as arbitrary functions; prove what the model is called with and what the callback returns for one input and for MXNet in general; prove for every model that the callback raises or returns misplaced gradients in the other cases.
  * Result: partial. Partial because the code violates the property for TensorFlow (evaluation, keyword arguments, several inputs; each proved as a _wrong theorem for every model) and the backward pass is proved for one array or a tuple of one array; for MXNet lists are excluded. Devices, shared memory between arrays and tensors, and learning phases are not modelled.
  * Axioms propext, Classical.choice, Quot.sound: `C135_evaluation_wrong`, `C135_forward_partial`, `C135_keywords_wrong`, `C135_kwargs_wrong`, `C135_mxnet_evaluation_wrong`, `C135_mxnet_partial`, `C135_several_inputs_wrong`
* **C136** (Predictions of networks with Maxout layers in floating point are near those of real numbers)
  * Plan: As C134, with maxout as a further activation: show for each of the three implementations (unrolled for two and three pieces, loop, NumPy's max), by induction on the pieces, that finite candidates give their largest; the largest of numbers that are each off by at most e is off by at most e. Then the induction over the layers of C134. Compute the result for NaN in each implementation.
  * Result: proved. Forward pass, temperature one, without the options normalize and dropout of Maxout. C136_nan records how the backends differ for NaN.
  * Axioms propext, Classical.choice, Quot.sound: `C136_backends`, `C136_class`, `C136_model`, `C136_nan`, `C136_pieces`, `C136_probabilities`, `C136_real`, `C136_relu`, `C136_scores`
* **C137** (Gradients of feed-forward networks in floating point are near the derivatives)
  * Plan: Backward pass as a relation by recursion over the layers (forward, the rest, callback). A unit whose exact value is farther from zero than its error has the same mask in floating point, so masking adds no error; the matrix products are C133, with the errors of both factors; induction over the layers. The exact gradients are shown to be the derivatives with Mathlib's HasDerivAt, along any curve of inputs and straight movement of all parameters, by induction over the layers.
  * Result: proved. Forward and backward pass of chain(Relu, ..., Relu, Linear) as a relation that allows every order of the additions. Gradients are those that one call of the callback adds; adding them to earlier gradients is C14's subject. Strassen-like products and TF32 are excluded, as in C133.
  * Axioms propext, Classical.choice, Quot.sound: `C137_backends`, `C137_clear`, `C137_derivative`, `C137_gradients`, `C137_relu`
* **C138** (The gradients of a training step in floating point are near the derivatives of the cross-entropy)
  * Plan: The passes of C137 joined with softmax (C126, C127, C134) and get_grad, as a relation. The probabilities are near the exact ones and within [0, 1] (C126), so get_grad does not raise; subtraction, mask and division add a bounded error; C137 carries it back. The exact gradients are the derivatives of the cross-entropy: every score has a derivative (C137_derivative), log-sum-exp is differentiated with Mathlib, and the sums agree by uniqueness of derivatives.
  * Result: proved. Softmax temperature one; classes as integers, without label smoothing and negative labels. Both passes use the same hidden activations. The optimizer is not part of the step (Adam in floating point is C129). Strassen-like products and TF32 are excluded, as in C133.
  * Axioms propext, Classical.choice, Quot.sound: `C138_derivative`, `C138_runs`, `C138_step`
* **C139** (Gradient descent in floating point)
  * Plan: Intervals: each floating-point number comes with a real number, a bound of its size and a bound of the error; one lemma each for constants, sums and products, composed along the code. Drift by induction on the number of steps, with a Lipschitz gradient; the closed form by solving the recursion. Weight decay: an invariant of the run.
  * Result: proved. Without gradient clipping. Learning rates are Python numbers, rounded to the format of the weights; a schedule that returns wider numbers of NumPy is not modelled. The products of the learning rate with lr_scale and L2, computed by Python in double precision, are inputs of the model. Gradients of other networks than those of C138 enter as numbers that are off by a bounded error.
  * Axioms propext, Classical.choice, Quot.sound: `C139_decay`, `C139_drift`, `C139_drift_bound`, `C139_not_consumed`, `C139_step`, `C139_train`
* **C140** (Conversions of arrays keep the numbers)
  * Plan: Model/ArrConv: arrays as bytes with a type, an order of bytes and the identity of their memory; data of every kind as an inductive type; the conversions branch by branch. Reading and writing the bytes of a number are inverse by induction on the number of bytes; everything else by cases. Witnesses for the base class, arrays without dimensions and big-endian machines.
  * Result: partial. False of the code in four places, each with a witness: Ops.asarray (base class) ignores the type asked for if the data is a tensor (C140_base_wrong); a dict is taken for an array of cupy by NumpyOps.asarray and raises TypeError (C140_mapping_wrong); as_contig of an array without dimensions and another type has one dimension (C140_contig_wrong); on a big-endian machine from_bytes leaves the parameters little-endian, of another type than those written, though with the same numbers (C140_same_arrays_wrong). Strides, arrays of objects, TensorFlow and MXNet arrays are not modelled; the conversion of a single number between formats is a parameter.
  * Axioms (not collected): `C140_base_partial`, `C140_base_wrong`, `C140_bytes`, `C140_contig_partial`, `C140_contig_wrong`, `C140_cupy`, `C140_cupy_memory`, `C140_disk`, `C140_machines`, `C140_mapping_wrong`, `C140_numpy`, `C140_numpy_memory`, `C140_other_copied`, `C140_refused`, `C140_same_arrays_partial`, `C140_same_arrays_wrong`, `C140_to_numpy`
* **C141** (New arrays and changes of shape)
  * Plan: Model/ArrShape on top of ArrConv. The shapes that fit are those with one number in place of the negative dimension (induction on the dimensions); the product of such a shape is the known product times a power of that number; uniqueness by cancelling.
  * Result: proved. reshape of numpy and cupy is modelled (the inference of a dimension, and that contiguous arrays give views); whether a non-contiguous array gives a view depends on strides and is a parameter.
  * Axioms (not collected): `C141_alloc`, `C141_alloc_types`, `C141_back`, `C141_element`, `C141_number`, `C141_reshape`, `C141_two_unknown`, `C141_view`
* **C142** (insert_into and logloss)
  * Plan: Model/SmallOps, with the assignment of rows of Model/Arrays. insert_into: induction on the sequences, with the rows already written as accumulator; the failing cases by cutting the loop at the first sequence that does not fit. logloss: bounds and monotonicity of the logarithm.
  * Result: partial. False of the code in two places, each with a witness: a sequence of one row is lost without an error if the shape has no place for it, because NumPy broadcasts it (C142_insert_lost_wrong); the loss of a perfect prediction is negative, by at most 1e-8 (C142_logloss_negative_wrong, C142_logloss_bounds_partial). logloss over the real numbers, entry by entry; insert_into for arrays with the dimensions of the shape.
  * Axioms propext, Classical.choice, Quot.sound: `C142_insert_into`, `C142_insert_lost_wrong`, `C142_insert_too_long_partial`, `C142_insert_too_many`, `C142_logloss_bounds_partial`, `C142_logloss_mono`, `C142_logloss_negative_wrong`, `C142_logloss_symmetric`
  * Axioms propext: `C142_insert_nothing`
* **C143** (Calling ops.adam directly)
  * Plan: Model/AdamViews, with the fused kernel of Model/Optimizer: arrays as views (start and stride) in larger memories. Ops.adam by positions of elements of a view; NumpyOps.adam from C20_fused_kernel on the memory behind the data pointers. The strided case and mod_rate are refuted for all inputs of the kind, with concrete cases.
  * Result: partial. Partial because the code falls short: NumpyOps.adam hands data pointers without strides to its kernel, so weights that are a strided view (a column of a matrix) are not updated and their neighbours are; it ignores mod_rate; and it clears the gradient, which Ops.adam does not. The four arrays are assumed not to overlap; CupyOps.adam is in C96 (mod_rate is ignored there too).
  * Axioms propext, Classical.choice, Quot.sound: `C143_generic`, `C143_gradient_wrong`, `C143_mod_rate_wrong`, `C143_numpy_partial`, `C143_refused`, `C143_strided_example_wrong`, `C143_strided_wrong`
* **C144** (relu and mish do not depend on memory layout)
  * Plan: Model/ActLayout: matrices as views with strides in larger memories; kernels go through the numbers behind the data pointer. Positions of matrices without gaps by division with remainder; copies keep the order of the axes. The in-place case with gaps and the backward pass with different layouts are refuted by concrete cases.
  * Result: partial. Partial because the code falls short: in place, a column of a matrix is not what is changed; and the gradient of a transposed dY is paired with the wrong elements of Y, because the kernels get data pointers without strides. That numpy.array keeps the order of the axes is an assumption about NumPy.
  * Axioms propext, Classical.choice, Quot.sound: `C144_backward_partial`, `C144_backward_wrong`, `C144_forward`, `C144_inplace_partial`, `C144_inplace_wrong`, `C144_refused`, `C144_relu`, `C144_relu_backward_partial`

## Modelled code

Per source file: the definitions that model parts of it (line ranges are in the comments of the definitions).

* `thinc/backends/__init__.py` - Model/Backends; Model/Context; Model/Threads
* `thinc/backends/_accelerate.pyx` - Model/FloatGemm: `Gemm`; Model/Gemm: `appleGemm`
* `thinc/backends/_cupy_allocators.py` - Model/Backends
* `thinc/backends/_custom_kernels.cu` - Model/FloatMaxout: `loopMaxFl`; Model/Gpu: `gridLoop`, `launch`; Model/GpuElementwise: `clippedLinearBody`, `dishBody`, `geluBody`, `mishBody`, `swishBody`, `backpropClippedLinearBody`, `backpropHardSwishBody`, `backpropHardSwishMobilenetBody`, `backpropDishBody`, `backpropGeluBody`, `backpropMishBody`, `backpropSwishBody`; Model/GpuKernels: `gatherAddBody`, `findSeq`, `seq2colBody`, `backpropSeq2colBody`, `padBody`, `maxoutBody`, `backpropMaxoutBody`, `startOf`, `reduceSumBody`, `reduceMaxBody`, `advance`, `backpropReduceSumBody`, `backpropReduceMeanBody`, `backpropReduceMaxBody`
* `thinc/backends/_custom_kernels.py` - Model/GpuElementwise: `elemMem`, `checkShape`, `gpuClippedLinear`, `gpuDish`, `gpuGelu`, `gpuMish`, `gpuSwish`, `gpuBackpropClippedLinear`, `gpuBackpropHardSwish`, `gpuBackpropHardSwishMobilenet`, `gpuBackpropDish`, `gpuBackpropGelu`, `gpuBackpropMish`, `gpuBackpropSwish`, `gpuHash`; Model/GpuKernels: `gpuCheckLengths`, `gpuSeq2colLengths`, `gpuGatherAdd`, `gpuSeq2col`, `gpuBackpropSeq2col`, `gpuMaxout`, `gpuBackpropMaxout`, `gpuReduceSum`, `gpuReduceMeanDivide`, `gpuReduceMax`, `gpuBackpropReduceSum`, `gpuBackpropReduceMean`, `gpuBackpropReduceMax`, `gpuPad`
* `thinc/backends/_murmur3.cu` - Model/GpuElementwise: `readTail`, `rotl64`, `fmix64`, `murmurEnd`, `hashDataBody`
* `thinc/backends/_param_server.py` - Model/Concurrent: `incC`; Model/GradBuf; Model/Layer: `GradStore`, `incGrad`; Model/NodeState; Model/ParamProxy; Model/Train: `readGrads`, `Node.putGrad`
* `thinc/backends/apple_ops.pyx` - Model/Gemm: `appleGemm`
* `thinc/backends/cpu_kernels.hh` - Model/ActLayout: `reluEntry`; Model/Activations: `cpuRelu`, `cpuMish`, `cpuBackpropMish`; Model/CMem: `vecAdd`; Model/FloatMaxout: `loopMaxFl`, `argsMaxFl`, `cpuMaxoutFl`; Model/FloatNet: `cpuReluFl`; Model/Gather: `cpuGatherAdd`; Model/Maxout: `argmaxLoop`, `argmaxArgs`, `cpuMaxout`, `cpuBackpropMaxout`; Model/Pooling: `cpuReduceSum`, `cpuReduceMean`, `cpuBackpropReduceSum`, `cpuBackpropReduceMean`, `cpuReduceMax`, `cpuBackpropReduceMax`; Model/Seq2col: `cpuSeq2col`, `cpuBackpropSeq2col`
* `thinc/backends/cupy_ops.py` - Model/ArrConv: `cupyAsarray`, `cupyToNumpy`; Model/Containers: `toDevice`; Model/Devices: `cupyOps`, `asarrayF`; Model/FloatGemm: `Gemm`; Model/FloatGrad: `opsBackpropReluFl`; Model/FloatMaxout: `FlBackend.isCpu`, `maxoutFl`; Model/FloatNet: `opsReluFl`; Model/Gemm: `opsGemm`; Model/GpuElementwise: `adamBody`, `gpuGelu`, `gpuSwish`, `gpuBackpropGelu`, `gpuBackpropSwish`, `gpuAdam`; Model/GpuKernels: `gpuPad`; Model/PositionEncode: `positionEncode`
* `thinc/backends/numpy_ops.pyx` - Model/ActLayout: `inplaceOrCopy`, `numpyAct`, `numpyActBack`, `reluBackEntry`; Model/Activations: `cpuBackpropRelu`; Model/AdamViews: `adamChecks`, `numpyAdamView`; Model/ArrConv: `numpyAsarray`; Model/ArrShape: `alloc`; Model/Containers: `toDevice`; Model/Dense: `Mat.lift₂`; Model/Devices: `numpyOps`, `asarrayF`; Model/FloatGemm: `Gemm`; Model/FloatGrad: `cpuBackpropReluFl`; Model/FloatMaxout: `FlBackend.isCpu`, `maxoutFl`; Model/FloatNet: `cpuReluFl`; Model/Gather: `gatherAdd`, `cpuScatterAdd`, `scatterAdd`; Model/Gemm: `numpyGemm`; Model/Hash: `murmurFinal`, `murmurHash`, `hashIds`; Model/Layer: `gemm`; Model/Lstm: `addBiasRows`, `cSigmoid`, `lstmActivate`, `lstmGatesFwd`, `lstmStep`, `lstmDirection`, `lstmDir`, `lstmLayerStep`, `lstmForward`; Model/LstmBack: `dsigmoidY`, `dtanhY`, `cellGrad`, `gatesBwdUnit`, `lstmBackStep`, `lstmIndices`, `lstmBackOrder`, `addRowSums`, `lstmBackLoop`, `lstmBackDirection`, `collectDir`, `collectLayer`, `collectWeights`, `dirGrad`, `lstmBackDir`, `lstmBackLayer`, `lstmBackward`; Model/Maxout: `maxout`, `backpropMaxout`; Model/Optimizer: `adamBlock`, `adamBlocks`, `adamMomentum`, `numpyAdam`; Model/Pooling: `reduceSum`, `reduceMean`, `backpropReduceSum`, `backpropReduceMean`, `reduceMax`, `backpropReduceMax`; Model/PositionEncode: `encodeAngle`, `encodePair`, `encodeWhile`, `encodeLast`, `encodeRow`, `cpuPositionEncode`, `positionEncode`, `ngramAt`, `ngrams`; Model/Seq2col: `checkSeq2colLengths`, `seq2col`, `backpropSeq2col`
* `thinc/backends/ops.py` - Model/Activations: `opsSigmoid`, `opsDsigmoid`, `opsBackpropSigmoid`, `opsDtanh`, `opsRelu`, `opsBackpropRelu`, `clippedLinear`, `backpropClippedLinear`, `reluK`, `backpropReluK`, `hardSigmoid`, `backpropHardSigmoid`, `hardTanh`, `backpropHardTanh`, `swish`, `backpropSwish`, `hardSwish`, `backpropHardSwish`, `hardSwishMobilenet`, `backpropHardSwishMobilenet`, `dish`, `backpropDish`, `opsErf`, `gaussianCdf`, `gaussianPdf`, `gelu`, `backpropGelu`, `sechsq`, `geluApprox`, `backpropGeluApprox`, `opsMish`, `opsBackpropMish`; Model/AdamViews: `adamChecks`, `opsAdamView`; Model/ArrConv: `baseAsarray`, `asContig`, `toNumpy`; Model/ArrMem: `ArrSlice.get`, `asContig`; Model/ArrMemLayers: `mUnflatten`; Model/ArrMemSeq: `mFlatten`, `mSplit`, `mUnflattenOut`, `unpadPlanStep`, `unpadPlan`, `contigTranspose`, `mPaddedToList`, `mPaddedData`, `mListToPadded`; Model/ArrShape: `alloc`, `reshape`; Model/Arrays: `opsFlatten`, `opsUnflatten`, `padAssign`, `opsPad`, `opsUnpad`, `shrinkSize`, `sizesAtT`, `list2padded`, `padded2list`; Model/Batching: `getBatchSizes`, `getBatch`, `fillQueue`, `BatchIter.next`, `minibatch`, `multibatch`; Model/Containers: `NdArray.reshape`, `NdArray.reshape3`; Model/Dense: `opsAffine`; Model/Devices: `OpsInfo`, `asarrayF`; Model/Dropout: `getDropoutMask`; Model/Float: `tempered`, `softmaxRow`, `sigmoid`, `dsigmoid`, `backpropSigmoid`, `clippedLinear`, `backpropClippedLinear`, `reluK`, `hardSigmoid`, `hardTanh`, `swish`, `hardSwish`, `backpropHardSwish`, `hardSwishMobilenet`, `dish`, `backpropDish`, `geluApprox`, `mish`, `backpropMish`, `clipGradient`; Model/FloatAdam: `adamMom1`, `adamMom2`, `adamChange`, `adamEntry`; Model/FloatGemm: `Gemm`, `Affine`; Model/FloatGrad: `opsBackpropReluFl`; Model/FloatMaxout: `opsMaxoutFl`, `maxoutFl`; Model/FloatNet: `opsReluFl`; Model/Gather: `opsGatherAdd`, `scatterAdd`; Model/Gemm: `asContig`, `opsGemm`; Model/Layer: `gemm`, `matUnflatten`; Model/Lstm: `splitWeights`, `GateWeights`, `transposeWeights`; Model/LstmBack: `untranspose`; Model/LstmBase: `baseSigmoid`, `baseGate`, `baseCell`, `baseHidden`, `baseStep`, `baseDirection`, `baseDir`, `baseLayerStep`, `baseForward`, `baseCellGrad`, `baseGateGrad`, `baseBackStep`, `baseBackDirection`, `baseBackLayer`, `baseBackward`; Model/Maxout: `opsMaxout`, `opsBackpropMaxout`; Model/MaxoutLayer: `Mat.reshape`, `Mat.reshape3`; Model/Optimizer: `clipGradient`, `avgDecay`, `updateAverages`, `adam`; Model/Pooling: `reduceFirst`, `reduceLast`, `backpropReduceFirst`, `backpropReduceLast`, `opsReduceSum`, `opsReduceMean`, `opsReduceMaxLoop`, `opsReduceMax`, `opsBackpropReduceMax`, `opsBackpropReduceSum`, `opsBackpropReduceMean`; Model/PositionEncode: `positionEncode`, `opsNgrams`; Model/Random: `drawMask`; Model/Seq2col: `opsSeq2col`, `opsBackpropSeq2col`; Model/SmallOps: `insertInto`, `logloss`; Model/Softmax: `softmax`, `backpropSoftmax`, `softmaxSequences`, `backpropSoftmaxSequences`; Model/TextInit: `flattenVals`; Model/TextLayers: `Val.unflatten`
* `thinc/compat.py` - Model/Backends
* `thinc/initializers.py` - Model/Initialize: `NetEnv`; Model/Initializers: `lecunNormalInit`, `heNormalInit`, `glorotNormalInit`, `heUniformInit`, `lecunUniformInit`, `glorotUniformInit`, `zeroInit`, `uniformInit`, `normalInit`
* `thinc/layers/add.py` - Model/ArrMem: `mAddForward`, `mAddBackward`, `mAdd`; Model/Initialize: `combInferI`, `addInferO`, `addFinish`, `NetNode.initialize`; Model/Layer: `addForwardStep`, `addBackwardStep`, `addLayers`; Model/LayerHeap: `hAddForward`, `hAddBackward`, `hAdd`; Model/Random: `addCalls`, `addTree`; Model/TextInit: `combInferIC`, `addInferOC`, `addFinishC`, `addInitC`, `addC`
* `thinc/layers/array_getitem.py` - Model/Getitem: `AxisIndex`, `NpIndex`, `getitemForward`; Model/Uniqued: `intsGetitemColumn`
* `thinc/layers/bidirectional.py` - Model/Bidirectional: `bidiReverse`, `bidiConcatenate`, `bidiSplit`, `bidiSum`, `bidirectional`; Model/WideInit: `splitOpt`, `bidirectionalInit`, `bidirectionalC`
* `thinc/layers/cauchysimilarity.py` - Model/Cauchy: `cauchyInverse`, `cauchySimilarity`; Model/WideInit: `cauchyInit`
* `thinc/layers/chain.py` - Model/ArrMem: `mChain`; Model/Factories: `chainDimO`, `makeChain`; Model/FloatGrad: `Backward`; Model/FloatMaxout: `HiddenChain`, `MixedScores`, `MixedProbabilities`; Model/FloatNet: `ReluChain`, `Scores`, `Probabilities`; Model/FloatTrain: `TrainPass`; Model/Initialize: `chainStart`, `chainSetO`, `chainFinish`, `NetNode.initialize`, `NetNode.initChain`; Model/Layer: `chain`; Model/LayerHeap: `hChain`; Model/Random: `chainCalls`, `chainTree`; Model/TextInit: `initChainC`, `chainStartC`, `chainSetOC`, `chainFinishC`, `chainInitC`, `chainC`
* `thinc/layers/clipped_linear.py` - Model/ArrMemLayers: `mClippedLinear`; Model/Dense: `clippedLinearLayer`; Model/Factories: `makeLayer`
* `thinc/layers/clone.py` - Model/Layer: `clone`
* `thinc/layers/concatenate.py` - Model/ArrMemLayers: `RVal.addGradient`, `mConcatArrays`, `mConcatRagged`, `mConcatLists`, `mConcatOutputs`, `mConcatenate`; Model/Initialize: `combInferI`, `concatFinish`, `NetNode.initialize`; Model/Layer: `addGradient`, `concatArrays`, `concatRagged`, `concatLists`, `concatOutputs`, `concatenateForward`, `concatenate`; Model/Random: `concatenateTree`; Model/TextInit: `combInferIC`, `concatFinishC`, `concatInitC`, `concatenateC`
* `thinc/layers/dish.py` - Model/ArrMemLayers: `mDish`; Model/Dense: `dishLayer`; Model/Factories: `makeLayer`
* `thinc/layers/dropout.py` - Model/ArrMem: `mNoop`; Model/ArrMemLayers: `mDropout`; Model/Dropout: `dropoutArray`, `dropoutPadded`, `dropoutRagged`, `dropoutLists`, `dropout`; Model/Factories: `withDropout`; Model/Random: `drawMasks`, `maskShapes`, `dropoutR`
* `thinc/layers/embed.py` - Model/ArrMemLayers: `mApplyMask`, `mEmbed`; Model/Embed: `embed`; Model/Random: `embedR`; Model/Uniqued: `embedColumn`; Model/WideInit: `embedInit`
* `thinc/layers/expand_window.py` - Model/ArrMemLayers: `mExpandWindow`; Model/WindowLayer: `windowFloats`, `expandWindowFloats`, `expandWindowRagged`, `expandWindow`
* `thinc/layers/gelu.py` - Model/ArrMemLayers: `denseBody`, `mGelu`; Model/Dense: `geluLayer`; Model/Factories: `makeLayer`
* `thinc/layers/hard_swish.py` - Model/ArrMemLayers: `mHardSwish`; Model/Dense: `hardSwishLayer`; Model/Factories: `makeLayer`
* `thinc/layers/hard_swish_mobilenet.py` - Model/ArrMemLayers: `mHardSwishMobilenet`; Model/Dense: `hardSwishMobilenetLayer`; Model/Factories: `makeLayer`
* `thinc/layers/hashembed.py` - Model/Embed: `hashEmbed`; Model/Gather: `scatterColumns`; Model/Hash: `hashIds`, `Mat.modInt`; Model/Random: `hashEmbedR`; Model/TextInit: `hashEmbedInit`; Model/TextLayers: `hashEmbedColumn`
* `thinc/layers/layernorm.py` - Model/ArrMemLayers: `layerNormBody`; Model/Factories: `withNorm`; Model/Initialize: `layerNormInfer`, `layerNormInit`; Model/LayerNorm: `lnMoments`, `lnDMoments`, `lnScaleShift`, `layerNorm`
* `thinc/layers/linear.py` - Model/ArrMem: `linearBody`; Model/Concurrent: `leafC`; Model/FloatGemm: `Affine`, `LinearBack`; Model/FloatGrad: `Backward`; Model/FloatMaxout: `MixedScores`; Model/FloatNet: `Scores`; Model/Initialize: `denseInit`; Model/Initializers: `denseParams`; Model/Layer: `linear`
* `thinc/layers/list2array.py` - Model/ArrMemSeq: `mList2array`; Model/SeqLayers: `list2arrayL`; Model/WithLayers: `list2arrayLayer`
* `thinc/layers/list2padded.py` - Model/ArrMemSeq: `mList2padded`; Model/SeqLayers: `list2paddedL`; Model/WithLayers: `list2paddedLayer`
* `thinc/layers/list2ragged.py` - Model/ArrMemSeq: `mList2ragged`; Model/SeqLayers: `list2raggedL`; Model/WithLayers: `list2raggedLayer`
* `thinc/layers/logistic.py` - Model/ArrMemLayers: `logisticBody`, `mLogistic`; Model/Dense: `logisticLayer`
* `thinc/layers/lstm.py` - Model/LstmLayer: `lstmDirSize`, `lstmInitSize`, `lstmExpectedSize`, `LstmParams.H0`, `LstmParams.C0`, `LstmParams.weights`, `assertRows`, `lstmPadded`; Model/Ragged: `packStep`, `paddedToPacked`, `unpackStep`, `packedToPadded`
* `thinc/layers/map_list.py` - Model/Layer: `runCallbacks`, `mapList`; Model/Random: `mapListTree`; Model/WideInit: `mapListInit`, `mapListC`
* `thinc/layers/maxout.py` - Model/ArrMemLayers: `maxoutBody`; Model/Factories: `makeLayer`; Model/FloatMaxout: `MaxoutForward`, `HiddenForward`; Model/Initialize: `maxoutInit`; Model/Initializers: `asMatrix`, `maxoutParams`; Model/MaxoutLayer: `maxoutLayer`
* `thinc/layers/mish.py` - Model/ArrMemLayers: `mMish`; Model/Dense: `mishLayer`; Model/Factories: `makeLayer`
* `thinc/layers/multisoftmax.py` - Model/ArrMemLayers: `multiSoftmaxBody`; Model/SoftmaxLayer: `multiSoftmaxLoop`, `multiSoftmax`; Model/WideInit: `multiSoftmaxInit`
* `thinc/layers/mxnetwrapper.py` - Model/Frameworks: `reverseMx`, `mxForward`
* `thinc/layers/noop.py` - Model/ArrMem: `mNoop`; Model/Layer: `noop`; Model/LayerHeap: `hNoop`
* `thinc/layers/padded2list.py` - Model/ArrMemSeq: `mPadded2list`; Model/SeqLayers: `padded2listL`; Model/WithLayers: `padded2listLayer`
* `thinc/layers/parametricattention.py` - Model/ArrMemLayers: `attentionBody`; Model/Attention: `attentionWeights`, `attentionBackward`, `applyBackward`, `parametricAttention`; Model/TextInit: `attentionInit`
* `thinc/layers/parametricattention_v2.py` - Model/Attention: `attentionWeights`, `attentionBackward`, `parametricAttentionV2`; Model/WideInit: `attentionV2Dims`, `attentionV2Infer`, `attentionV2Init`, `attentionV2C`
* `thinc/layers/premap_ids.pyx` - Model/RemapIds: `premapLookup`, `premapTable`, `premapKeys`, `premapBack`, `premap`
* `thinc/layers/pytorchwrapper.py` - Model/TorchWrapper: `wrapArgs`, `unwrapArgs`, `reverseInputs`, `reverseOutputs`, `Module.forward`, `unpackPair`, `Module.forwardRnn`
* `thinc/layers/ragged2list.py` - Model/ArrMemSeq: `mRagged2list`; Model/SeqLayers: `ragged2listL`; Model/WithLayers: `ragged2listLayer`
* `thinc/layers/reduce_first.py` - Model/ArrMemLayers: `mReduceFirst`; Model/PoolLayers: `reduceFirstLayer`
* `thinc/layers/reduce_last.py` - Model/ArrMemLayers: `mReduceLast`; Model/PoolLayers: `reduceLastLayer`
* `thinc/layers/reduce_max.py` - Model/ArrMemLayers: `mReduceMax`; Model/PoolLayers: `reduceMaxLayer`
* `thinc/layers/reduce_mean.py` - Model/ArrMemLayers: `mReduceMean`; Model/PoolLayers: `reduceMeanLayer`
* `thinc/layers/reduce_sum.py` - Model/ArrMemLayers: `mReduceSum`; Model/PoolLayers: `reduceSumLayer`
* `thinc/layers/relu.py` - Model/ArrMemLayers: `denseOutBody`, `mRelu`; Model/Dense: `reluLayer`; Model/Factories: `makeLayer`; Model/FloatGrad: `ReluBack`, `Backward`; Model/FloatMaxout: `HiddenForward`; Model/FloatNet: `ReluForward`; Model/FloatTrain: `TrainPass`; Model/LayerHeap: `hKeepsOutput`
* `thinc/layers/remap_ids.py` - Model/RemapIds: `remapV1`, `remapKeys`, `remapBack`, `remapV2`
* `thinc/layers/residual.py` - Model/ArrMemLayers: `mResidualBack`, `mResidualOut`, `mResidual`; Model/Initialize: `NetNode.initialize`; Model/Layer: `residual`; Model/LayerHeap: `hResidualPadded`, `hResidual`; Model/TextInit: `residualInitC`, `residualC`
* `thinc/layers/resizable.py` - Model/Resize; Model/WideInit: `resizableC`
* `thinc/layers/siamese.py` - Model/Layer: `siamese`; Model/Random: `siameseTree`; Model/WideInit: `siameseEncode`, `siameseInit`, `siameseC`
* `thinc/layers/sigmoid.py` - Model/ArrMemLayers: `mSigmoid`; Model/Dense: `sigmoidLayer`; Model/LayerHeap: `hKeepsOutput`
* `thinc/layers/sigmoid_activation.py` - Model/ArrMemLayers: `logisticBody`, `mLogistic`; Model/Dense: `logisticLayer`
* `thinc/layers/softmax.py` - Model/ArrMemLayers: `softmaxBody`; Model/FloatMaxout: `MixedScores`, `MixedProbabilities`; Model/FloatNet: `Scores`, `Probabilities`; Model/FloatTrain: `TrainPass`; Model/Initialize: `softmaxInit`; Model/SoftmaxLayer: `softmaxBackprop`, `softmaxLayer`
* `thinc/layers/softmax_activation.py` - Model/LayerHeap: `hKeepsOutput`
* `thinc/layers/sparselinear.pyx` - Model/SparseLinear: `murmur32Round`, `murmur32Final`, `murmur32`, `sparseIndex`, `scoreClass`, `gradClass`, `sparseFeature`, `sparseExample`, `setScoresC`, `setGradientC`, `sparseBias`, `sparseLinear`; Model/WideInit: `sparseInit`, `sparseForward`
* `thinc/layers/strings2arrays.py` - Model/RemapIds: `strings2arrays`
* `thinc/layers/swish.py` - Model/ArrMemLayers: `mSwish`; Model/Dense: `swishLayer`; Model/Factories: `makeLayer`
* `thinc/layers/tensorflowwrapper.py` - Model/Frameworks: `reverseTf`, `Keras.forward`
* `thinc/layers/tuplify.py` - Model/ArrMemLayers: `mRunCallbacks`, `mSum`, `mSumAll`, `mTuplify`; Model/Layer: `runCallbacks`, `tuplify`; Model/Random: `tuplifyTree`; Model/WideInit: `tuplifyStart`, `initTuplify`, `tuplifyInit`, `tuplifyC`
* `thinc/layers/uniqued.py` - Model/Uniqued: `uniqued`; Model/WideInit: `uniquedInit`, `uniquedC`
* `thinc/layers/with_array.py` - Model/ArrMemSeq: `mWithArrayList`, `mWithArrayRagged`, `mWithArray2d`; Model/SeqLayers: `withArrayListL`, `withArrayRaggedL`, `withArray2dL`; Model/TextInit: `Val.getArray`, `withArrayInit`, `withArrayAny`, `withArrayC`; Model/TextLayers: `withArrayIdsL`; Model/WithInit: `getArray`; Model/WithLayers: `withArrayList`, `withArrayRagged`, `withArrayPadded`, `withArray`
* `thinc/layers/with_array2d.py` - Model/ArrMemSeq: `mPaddedIn`, `mPaddedOut`, `mWithArrayList`, `mWithArrayRagged`, `mWithArray2dPadded`, `mWithArray2d`; Model/SeqLayers: `withArrayListL`, `withArrayRaggedL`, `withArray2dPaddedL`, `withArray2dL`; Model/TextInit: `Val.getArray`, `withArrayInit`, `withArrayAny`, `withArrayC`
* `thinc/layers/with_cpu.py` - Model/Containers: `toCpu`, `toCpuAll`, `toDevice`, `toDeviceAll`, `cpuBackprop`, `withCpu`; Model/Random: `withCpuR`; Model/WideInit: `withCpuC`
* `thinc/layers/with_debug.py` - Model/DebugWrappers: `Func`, `InitFn`, `Func.call`, `InitFn.call`, `World.wrap`
* `thinc/layers/with_flatten.py` - Model/FlattenInit: `withFlattenInit`; Model/WithLayers: `withFlattenV1`
* `thinc/layers/with_flatten_v2.py` - Model/FlattenInit: `withFlattenInit`; Model/WithLayers: `flattenNested`, `unflattenNested`, `withFlattenV2`
* `thinc/layers/with_getitem.py` - Model/Layer: `withGetitem`; Model/WideInit: `withGetitemInit`, `withGetitemC`
* `thinc/layers/with_list.py` - Model/ArrMemSeq: `mWithListRagged`, `mWithListPadded`, `mWithList`; Model/SeqLayers: `withListRaggedL`, `withListPaddedL`, `withListL`; Model/TextInit: `Val.getList`, `convertInit`, `withListC`; Model/WithInit: `getList`; Model/WithLayers: `withListPadded`, `withListRagged`, `withList`
* `thinc/layers/with_nvtx_range.py` - Model/DebugWrappers: `Func`, `InitFn`, `Func.call`, `InitFn.call`, `World.wrap`
* `thinc/layers/with_padded.py` - Model/ArrMemSeq: `mWithPaddedRagged`, `mWithPaddedList`, `mWithPadded`; Model/SeqLayers: `withPaddedRaggedL`, `withPaddedListL`, `withPaddedL`; Model/TextInit: `Val.getPadded`, `convertInit`, `withPaddedC`; Model/WithInit: `withPaddedTuple`, `withPaddedAny`, `getPadded`; Model/WithLayers: `withPaddedRagged`, `withPaddedList`, `withPadded`, `paddedOfArray`, `withPaddedArray`
* `thinc/layers/with_ragged.py` - Model/ArrMemSeq: `mWithRaggedList`, `mWithRaggedPadded`, `mWithRagged`; Model/SeqLayers: `withRaggedListL`, `withRaggedPaddedL`, `withRaggedL`; Model/TextInit: `Val.getRagged`, `convertInit`, `withRaggedC`; Model/WithInit: `withRaggedTuple`, `withRaggedAny`, `getRagged`; Model/WithLayers: `withRaggedPadded`, `withRaggedList`, `withRagged`
* `thinc/layers/with_reshape.py` - Model/Containers: `reshapeBackprop`, `withReshape`; Model/FlattenInit: `reshapeRows`, `initWithoutData`, `withReshapeInit`
* `thinc/layers/with_signpost_interval.py` - Model/DebugWrappers: `Func`, `InitFn`, `useInterval`, `Func.call`, `InitFn.call`, `World.wrap`
* `thinc/loss.py` - Model/FloatTrain: `entropyGradFl`, `entropyFl`; Model/Loss: `CCE`, `nameToI`, `convertStr`, `makeMask`, `makeMaskByValue`, `readTruths`, `negativesMask`, `targetMatrix`, `applyNegatives`, `CCE.convertTruths`, `CCE.getGrad`, `lossFromGrad`, `CCE.getLoss`, `CCE.call`, `SeqCCE`, `SeqCCE.init`, `SeqCCE.getGrad`, `seqLossFromGrad`, `SeqCCE.getLoss`, `SeqCCE.call`, `l2Grad`, `l2Loss`, `cosineSimilarity`, `cosineGrad`, `cosineLoss`
* `thinc/model.py` - Model/ArrMem: `MLayer`; Model/Checkpoint: `saveBody`, `saveWith`; Model/Concurrent: `readAll`; Model/Containers: `withCpu`; Model/Context; Model/Copy; Model/DebugWrappers: `World.call`, `World.initialize`, `World.replaceCallbacks`, `World.copy`; Model/Devices: `moveParam`, `moveGrad`, `moveName`, `moveNode`, `shimStep`, `toOpsStep`, `toOps`, `toGpu`, `toCpu`; Model/Disk; Model/Factories: `NetState.newNode`; Model/FinishUpdate; Model/GraphEdit; Model/Heap: `Node`; Model/Ids; Model/Initialize: `newDim`, `dimValue`, `NetNode.predict`, `NetNode.initialize`; Model/Layer: `Layer`, `incGrad`; Model/MemLoop: `MSession.batch`, `MSession.iteration`; Model/MemSession: `MSession.afterPredict`, `MSession.afterBegin`, `MSession.finish`; Model/NodeState; Model/ParamProxy: `Node.getParamProxy`, `Node.setParamProxy`, `Node.setGradProxy`, `Node.incGradProxy`, `ParamCall`; Model/Random: `RCall.isPredict`; Model/Serialize; Model/Session: `Session.callback`, `Session.finish`, `Session.call`; Model/TextInit: `Comp`, `Comp.predict`; Model/Threads; Model/Train: `readParams`, `backpropBatch`; Model/TreeWide: `setAttrsTo`, `setDropoutRate`, `setAttrItems`, `changeNodeAttrs`, `changeAttrValues`, `collectGradient`, `collectGradients`, `getGradients`, `wrapStep`, `wrapModelRecursive`; Model/UseParams; Model/Validate: `Comp.checked`; Model/Walk; Model/Wrapped: `Counters`
* `thinc/mypy.py` - Model/Plugin: `Callee`, `Ctx`, `Code`, `modelName`, `chainedName`, `sameName`, `argModel`, `argModels`, `neighbours`, `checkChained`, `checkSameIn`, `checkSameOut`, `checkSame`, `checkPairs`, `chainedType`, `sameType`, `combine`, `getReducersType`, `onAssertion`, `functionHook`
* `thinc/optimizers.py` - Model/FloatAdam: `radamEntry`; Model/FloatSgd: `sgdGradient`, `sgdWeight`, `sgdLeft`; Model/MemLoop: `MSession.iteration`; Model/MemSession: `MSession.finish`; Model/Optimizer: `OptCfg`, `OptState`, `OptState.init`, `radamNsma`, `radamStepSize`, `radamBuffered`, `radam`, `adamUpdate`, `regularised`, `finishCall`, `callBody`, `OptState.call`, `CallRec`; Model/Schedules: `WrapState`, `wrapGenerator`, `advance`, `wrapCall`, `HyperArg`, `setAttrOrSchedule`; Model/Session: `Session.finish`; Model/Train: `optimizerFn`, `trainIteration`
* `thinc/schedules.py` - Model/Schedules: `Schedule`, `call`, `Gen`, `toGenerator`, `Gen.step`, `constant`, `constantThen`, `decaying`, `clipTo`, `slantedTriangular`, `warmupLinear`, `cyclicTriangular`, `compounding`, `PlateauState`, `PlateauState.init`, `plateauUpdate`, `plateauCall`, `wrapCall`
* `thinc/shims/mxnet.py` - Model/Devices: `shimToDevice`; Model/Frameworks: `mxBackprop`, `mxForward`; Model/TensorFlow: `writeBack`, `setData`, `mxFinishUpdate`
* `thinc/shims/pytorch.py` - Model/Concurrent: `finishPredict`, `torchC`; Model/Devices: `shimToDevice`; Model/TorchShim: `Shim`, `inputGrads`, `Shim.backprop`, `Shim.backpropCaller`, `finishParam`, `finishParams`, `Shim.finishUpdate`; Model/TorchWrapper: `isTorch`, `getGrad`, `Module.backprop`, `Module.shimCall`; Model/Wrapped: `defaultSerialize`, `defaultDeserialize`, `torchToBytes`, `torchFromBytes`, `selectState`, `torchUseParams`
* `thinc/shims/pytorch_grad_scaler.py` - Model/TorchShim: `mulScalar`, `Scaler`, `Scaler.init`, `Scaler.scaleTensor`, `Scaler.scaleItems`, `Scaler.scaleUp`, `Scaler.unscale`, `Scaler.unscaleResult`, `Scaler.update`
* `thinc/shims/shim.py` - Model/Devices: `shimToDevice`; Model/Wrapped: `shimCopy`, `shimFromDisk`, `Counters`, `newShimId`
* `thinc/shims/tensorflow.py` - Model/Devices: `shimToDevice`; Model/Frameworks: `Keras`, `Keras.inputTensors`, `Keras.backprop`, `Keras.forward`; Model/TensorFlow: `Shim`, `Pass.wrt`, `assignAddAll`, `accumulate`, `Shim.backprop`, `writeBack`, `Shim.finishUpdate`, `stateDict`, `layerWeights`, `setWeights`, `loadWeights`, `ownParams`, `useParams`, `cloneModel`, `copyShim`; Model/Wrapped: `tfToBytes`, `tfFromBytes`, `tfCopy`
* `thinc/shims/torchscript.py` - Model/Wrapped: `scriptToBytes`, `scriptFromBytes`
* `thinc/types.py` - Model/ArrMem: `ArrSlice.get`; Model/ArrShape: `Shape`; Model/Arrays: `Padded`; Model/Batching: `Batches.len`, `Batches.iter`; Model/PaddedIndex: `Padded.getInt`, `Padded.getSlice`, `Padded.getList`, `Padded.getItem`; Model/Ragged: `Ragged`, `Ragged.make`, `Ragged.dataXd`, `Ragged.startsEnds`, `Ragged.starts`, `Ragged.ends`, `Ragged.getInt`, `Ragged.getSlice`, `Ragged.getList`, `Ragged.getItem`; Model/Recursive: `hashable`, `argItems`, `items`, `fromItem`, `fromItems`; Model/TorchWrapper: `PaddedObj`; Model/Validate: `dtypeNames`, `ndimOk`, `dtypeOk`, `validateArray`; Model/WithInit: `raggedOf`, `paddedOf`
* `thinc/util.py` - Model/ArrConv: `cupyAsarray`; Model/Backends; Model/Context; Model/DebugWrappers: `useNvtxRange`; Model/FloatTrain: `oneHotFl`; Model/Frameworks: `xp2tf`, `tf2xp`, `xp2mx`, `mx2xp`; Model/Initialize: `getWidth`; Model/Loss: `classCount`, `nongoldProb`, `toCategorical`; Model/Recursive: `convertRecursive`, `convertList`, `convertDict`, `convertArgs`, `convertKwargs`, `iterateRecursive`, `iterateList`, `iterateDict`, `iterateArgs`, `iterateKwargs`; Model/SoftmaxLayer: `checkConsistency`; Model/Threads; Model/TorchShim: `Shim.backpropCaller`; Model/TorchWrapper: `isXp`, `isTorch`, `xp2torch`, `torch2xp`; Model/Validate: `Datum.cut`, `validX`, `validY`, `validateFwd`

## Not modelled

* GPU code beyond the kernels of C95 and C96: the dispatch on dtypes in `backends/cupy_ops.py`, `mps_ops.py`, `apple_ops`; device transfers (`to_gpu`, `to_cpu`); overflow of the kernels' `int` indices.
* Framework shims and wrappers beyond C92-C94, C97, C101 and C102: the learning phase and gradient tape of TensorFlow, saving of Keras models, `keras_subclass`, prediction and serialization in `shims/mxnet.py`, the conversions in `tensorflowwrapper.py` and `mxnetwrapper.py`; elsewhere shims are abstract objects (walk, copy, serialize, use_params and finish_update).
* `config.py` and the registry (delegated to `confection` / `catalogue`), `mypy.py`, pydantic validation of signatures, `compat.py`.
* The byte level of serialization (`srsly.msgpack`), disk files, `shims` bytes.
* BLAS internals (`gemm` is the matrix product), floating point rounding, NaN and infinities, integer overflow of C `int`, dtypes and strides.
* The bit streams of random generators: generators are arbitrary state machines (C103), or assumed to give independent draws with the right distributions (C104).
