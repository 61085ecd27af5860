{"id": "C01", "title": "walk visits every reachable node exactly once", "statement": "For each of the three orders ('bfs', 'dfs_pre', 'dfs_post'), list(model.walk(order=...)) contains exactly the nodes reachable from model through .layers, each exactly once, even when layers are shared (DAG) or cyclic; any other order string raises ValueError.", "quantifier": "every finite node graph (including shared sublayers, repeated children and cycles), every root, every order string", "why_tests_cant": "The set of graphs is infinite; sharing and cycles interact with the seen-set in ways that depend on the whole graph shape.", "anchors": ["thinc/model.py: Model.walk, Model._walk_bfs, Model._walk_dfs"]}
{"id": "C02", "title": "walk orders mean what they say", "statement": "bfs yields nodes in non-decreasing distance from the root; dfs_pre and dfs_post yield the preorder and postorder of the depth-first spanning tree (visit children left to right, skipping already discovered nodes); in an acyclic graph dfs_post yields every node after all of its descendants.", "quantifier": "every finite node graph and root", "why_tests_cant": "Order is a global property of an unbounded graph; replace_node relies on it.", "anchors": ["thinc/model.py: Model._walk_bfs, Model._walk_dfs, Model.replace_node"]}
{"id": "C03", "title": "a set dimension is never silently changed", "statement": "After set_dim(name, v) succeeds, get_dim(name) is v until a later set_dim(..., force=True) on a model none of whose parameters is set; set_dim of a different value without force, or with force when some parameter is set, raises ValueError and changes nothing; unknown names raise KeyError; has_dim is False/None/True exactly for unregistered/unset/set names.", "quantifier": "every sequence of set_dim/set_param/get_dim/has_dim calls with any names and values", "why_tests_cant": "The claim is about all histories of calls.", "anchors": ["thinc/model.py: Model.has_dim, Model.get_dim, Model.set_dim, Model.maybe_get_dim, Model.set_param"]}
{"id": "C04", "title": "parameter presence is consistent with parameter access", "statement": "has_param(name) is True iff get_param(name) succeeds and returns the last value set; after set_param(name, None) the parameter reads as unset.", "quantifier": "every sequence of set_param/get_param/has_param/maybe_get_param calls", "why_tests_cant": "The claim is about all histories; the code keeps two separate dictionaries that must agree.", "anchors": ["thinc/model.py: Model.has_param, Model.get_param, Model.set_param, Model.maybe_get_param"]}
{"id": "C05", "title": "references always point into the tree when set", "statement": "set_ref(name, node) succeeds iff node is None or reachable from the model, otherwise raises ValueError and changes nothing; get_ref returns the last value set, raising ValueError when unset and KeyError when unregistered.", "quantifier": "every node graph, every sequence of set_ref/get_ref calls", "why_tests_cant": "Reachability of an arbitrary graph and arbitrary histories.", "anchors": ["thinc/model.py: Model.set_ref, Model.get_ref, Model.has_ref, Model.maybe_get_ref"]}
{"id": "C06", "title": "remove_node removes every occurrence and leaves no dangling reference", "statement": "After model.remove_node(n) returns, n occurs in no .layers list of a node reachable from model, every other child keeps its relative order and multiplicity, and every reference of a reachable node points to a node reachable from model or is None; references to nodes that stayed in the tree are unchanged. remove_node succeeds on any model.", "quantifier": "every node graph, every root and removed node", "why_tests_cant": "Depends on the whole graph before and after the edit.", "anchors": ["thinc/model.py: Model.remove_node"]}
{"id": "C07", "title": "replace_node replaces every occurrence", "statement": "model.replace_node(old, new) makes every reachable occurrence of old in .layers and in references point to new, changes nothing else, and returns whether old occurred in the walk.", "quantifier": "every node graph, every old and new node", "why_tests_cant": "Correctness depends on processing order over an arbitrary DAG; references may only be set to nodes already in the subtree.", "anchors": ["thinc/model.py: Model.replace_node"]}
{"id": "C08", "title": "copy preserves structure, sharing and contents, with fresh ids", "statement": "model.copy() has the same layer graph (two layers are the same object in the copy iff they are in the original), the same names, dims, attrs, parameters and gradients, all nodes new with ids never used before, and mutating the copy's parameters does not change the original.", "quantifier": "every acyclic node graph", "why_tests_cant": "Sharing structure of arbitrary DAGs.", "anchors": ["thinc/model.py: Model.copy, Model._copy"]}
{"id": "C09", "title": "serialization round trip", "statement": "Loading model.to_dict() into a model of the same structure (same layer graph, same registered dims, parameters, references and attributes, dims unset or equal) succeeds and makes names, dims, references, attrs and parameters equal to the source's; serializing the result again gives the same dict.", "quantifier": "every node graph with in-tree references, every assignment of names, dims, attrs, params", "why_tests_cant": "All graphs and all contents; reference indices depend on traversal order.", "anchors": ["thinc/model.py: Model.to_dict, Model.from_dict, Model.to_bytes, Model.from_bytes"]}
{"id": "C10", "title": "to_dict rejects out-of-tree references and otherwise never fails", "statement": "to_dict raises ValueError iff some reachable node has a set reference to a node that is not reachable from the model.", "quantifier": "every node graph with arbitrary references", "why_tests_cant": "Arbitrary graphs.", "anchors": ["thinc/model.py: Model.to_dict"]}
{"id": "C11", "title": "a failed load leaves the model unchanged", "statement": "If from_dict raises, the model is as it was before the call.", "quantifier": "every model and every message, including malformed ones", "why_tests_cant": "Every failing position in the message is a different crash point.", "anchors": ["thinc/model.py: Model.from_dict"]}
{"id": "C12", "title": "can_from_dict predicts from_dict", "statement": "If can_from_dict(msg) returns True then from_dict(msg) succeeds, and on success every parameter keeps its shape.", "quantifier": "every model and message", "why_tests_cant": "Two separately written traversals must agree on all inputs.", "anchors": ["thinc/model.py: Model.can_from_dict, Model.from_dict"]}
{"id": "C13", "title": "use_params restores the original parameters", "statement": "Inside 'with model.use_params(p)' every parameter whose (id, name) is in p reads as p's value and every other parameter is unchanged; after the block exits, by any route including an exception, every parameter has the value it had before.", "quantifier": "every acyclic node graph including shared layers, every params dict, every body (normal exit or exception)", "why_tests_cant": "Sharing makes the same parameter be backed up several times; exits are schedules/crash points.", "anchors": ["thinc/model.py: Model.use_params"]}
{"id": "C14", "title": "gradients accumulate", "statement": "After any sequence of inc_grad calls on a fresh model, get_grad(name) is the sum of the increments given for that name, has_grad(name) is True iff at least one was given, and the caller's arrays and other parameters' gradients are not modified.", "quantifier": "every sequence of inc_grad/set_grad/get_grad calls on any keys, with any aliasing between the arrays passed in", "why_tests_cant": "All histories and all aliasing patterns.", "anchors": ["thinc/backends/_param_server.py: ParamServer.inc_grad, set_grad, get_grad, has_grad", "thinc/model.py: Model.inc_grad"]}
{"id": "C15", "title": "finish_update applies the optimizer exactly once per parameter with a gradient", "statement": "model.finish_update(opt) calls opt exactly once for each (node, parameter) reachable from model that has a gradient, with that node's key, current value and gradient, stores the returned value, and touches no other parameter, however often a layer is shared.", "quantifier": "every node graph, every optimizer function, every parameter/gradient state", "why_tests_cant": "Arbitrary graphs and stateful optimizers.", "anchors": ["thinc/model.py: Model.finish_update"]}
{"id": "C16", "title": "model ids are unique under concurrency", "statement": "Models constructed concurrently in any number of threads all receive distinct ids.", "quantifier": "every number of threads, every number of constructions per thread, every interleaving of the individual reads and writes", "why_tests_cant": "Thread schedules cannot be enumerated by tests.", "anchors": ["thinc/model.py: Model.__init__ (global_id_lock)", "thinc/shims/shim.py: Shim.__init__"]}
{"id": "C17", "title": "optimizer state is per parameter", "statement": "The parameter value Optimizer returns for a key depends only on the sequence of calls made for that key (and on the schedules at the given steps), not on calls made for other keys.", "quantifier": "every interleaving of calls for any number of keys, for SGD, Adam and RAdam configurations", "why_tests_cant": "All interleavings of histories.", "anchors": ["thinc/optimizers.py: Optimizer.__call__, _adam, _radam"]}
{"id": "C18", "title": "optimizer consumes the gradient", "statement": "After Optimizer(key, weights, gradient) the gradient array is zero, an empty gradient leaves weights unchanged, and the update count of that key increases by exactly one.", "quantifier": "every configuration, every call history", "why_tests_cant": "All histories/configurations.", "anchors": ["thinc/optimizers.py: Optimizer.__call__"]}
{"id": "C19", "title": "gradient clipping bounds the norm and keeps the direction", "statement": "clip_gradient(g, t) returns a non-negative multiple of g, equal to g when its L2 norm is below t, and of norm at most t otherwise.", "quantifier": "every gradient vector of any length and every threshold t > 0", "why_tests_cant": "Universally quantified over real vectors.", "anchors": ["thinc/backends/ops.py: Ops.clip_gradient", "thinc/optimizers.py: Optimizer.__call__"]}
{"id": "C20", "title": "Adam computes bias-corrected exponential averages", "statement": "After any sequence of gradients for one key the Adam moments equal the exponentially weighted sums of the gradients and squared gradients, and the returned weights are w - lr * fix * m1/(sqrt(m2)+eps) with the standard bias correction.", "quantifier": "every gradient history, every b1, b2, learn rate, eps", "why_tests_cant": "All histories of unbounded length.", "anchors": ["thinc/backends/ops.py: Ops.adam", "thinc/optimizers.py: Optimizer._adam"]}
{"id": "C21", "title": "parameter averages are a convex combination of seen weights", "statement": "The moving average kept by use_averages is always a convex combination of the weights seen so far for that key: constant weights are reproduced exactly and the average lies between the minimum and maximum seen.", "quantifier": "every weight history", "why_tests_cant": "All histories of unbounded length.", "anchors": ["thinc/backends/ops.py: Ops.update_averages", "thinc/optimizers.py: Optimizer.__call__"]}
{"id": "C22", "title": "list and generator schedules are read by step", "statement": "An optimizer hyperparameter given as a list or generator of values takes value number s at step s, keeps its last value once exhausted, gives the same value when asked again at the same step, and raises ValueError when the step decreases.", "quantifier": "every value sequence (finite or infinite), every sequence of requested steps", "why_tests_cant": "All access histories.", "anchors": ["thinc/optimizers.py: _wrap_generator, _wrap_generator_schedule, Optimizer._set_attr_or_schedule"]}
{"id": "C23", "title": "schedules reject negative steps and agree with their generator form", "statement": "Schedule(step) raises ValueError iff step < 0, and the k-th item of to_generator(start, step_size) is the schedule's value at start + k * step_size.", "quantifier": "every schedule, step, start, step size", "why_tests_cant": "All steps.", "anchors": ["thinc/schedules.py: Schedule.__call__, Schedule.to_generator"]}
{"id": "C24", "title": "compounding stays within its bounds and reaches them monotonically", "statement": "compounding(start, stop, rate) starts at start, is monotone toward stop when the rate moves it that way and never passes stop.", "quantifier": "every start, stop, compound rate and step", "why_tests_cant": "All steps and rates.", "anchors": ["thinc/schedules.py: compounding, _compounding_schedule, _clip"]}
{"id": "C25", "title": "warmup and triangular schedules have the documented shape", "statement": "warmup_linear rises linearly from 0 to the initial rate over the warmup steps and falls linearly to 0 at the final step, never leaving [0, initial_rate]; slanted_triangular stays within [max_rate/ratio, max_rate]; cyclic_triangular stays within [min_lr, max_lr], rising for period steps and falling for period steps, so that it repeats every 2 * period steps.", "quantifier": "every step and every valid configuration", "why_tests_cant": "All steps and configurations.", "anchors": ["thinc/schedules.py: warmup_linear, slanted_triangular, cyclic_triangular"]}
{"id": "C26", "title": "decaying and constant_then schedules", "statement": "decaying(base, decay, t) at step s is base/(1+decay*(s+t)), positive, at most base and non-increasing for non-negative decay and t; constant_then gives the rate for the first steps steps and from then on exactly the inner schedule's value at the same step.", "quantifier": "every step and configuration", "why_tests_cant": "All steps.", "anchors": ["thinc/schedules.py: decaying, constant_then"]}
{"id": "C27", "title": "plateau decays only after the given number of evaluations without improvement", "statement": "The plateau schedule's value is the wrapped schedule times scale^(number of plateaus), where a plateau is max_patience consecutive new evaluations without improving on the best score; repeated queries with the same last score step do not change it.", "quantifier": "every sequence of (step, last_score) queries", "why_tests_cant": "All evaluation histories.", "anchors": ["thinc/schedules.py: plateau, _PlateauSchedule"]}
{"id": "C28", "title": "flatten then unflatten is the identity", "statement": "For any list of arrays with equal trailing shape and any pad >= 0, unflatten(flatten(Xs, pad), lengths(Xs), pad) gives back Xs; the flattened array is the rows in order separated by pad zero rows.", "quantifier": "every list of sequences (including empty ones), every pad", "why_tests_cant": "Unbounded lists and lengths.", "anchors": ["thinc/backends/ops.py: Ops.flatten, Ops.unflatten"]}
{"id": "C29", "title": "list2padded then padded2list is the identity", "statement": "For every list of sequences, padded2list(list2padded(Xs)) gives back Xs in the original order; the padded batch has lengths sorted in decreasing order, indices a permutation, size_at_t[t] the number of sequences longer than t, and sum(lengths) = sum(size_at_t).", "quantifier": "every list of sequences, including empty sequences and the empty list", "why_tests_cant": "Unbounded lists; depends on sorting stability and permutation inversion.", "anchors": ["thinc/backends/ops.py: Ops.list2padded, Ops.padded2list"]}
{"id": "C30", "title": "pad then unpad is the identity", "statement": "unpad(pad(seqs, round_to), lengths) gives back seqs; the padded length is the least multiple of round_to not below the longest sequence, and padding cells are zero.", "quantifier": "every list of sequences, every round_to >= 1", "why_tests_cant": "Unbounded lists.", "anchors": ["thinc/backends/ops.py: Ops.pad, Ops.unpad"]}
{"id": "C31", "title": "packing for the LSTM is lossless", "statement": "Converting a padded batch to packed rows and back returns the same batch with zeros in padding cells; packed rows list, for each time step, exactly the rows of the sequences still active.", "quantifier": "every padded batch satisfying the Padded invariants", "why_tests_cant": "Unbounded batches.", "anchors": ["thinc/layers/lstm.py: _padded_to_packed, _packed_to_padded"]}
{"id": "C32", "title": "indexing a Ragged is indexing the list of sequences", "statement": "ragged[i], ragged[a:b] and ragged[[i, j, ...]] denote the corresponding selection from the list of sequences the Ragged represents.", "quantifier": "every ragged value, every int, slice and index-list", "why_tests_cant": "All indices including negative and open slices.", "anchors": ["thinc/types.py: Ragged.__getitem__, Ragged._get_starts, Ragged._get_ends"]}
{"id": "C33", "title": "indexing a Padded is selecting sequences", "statement": "padded[i], padded[a:b] and padded[[i, ...]] give a consistent Padded holding exactly the selected sequences.", "quantifier": "every padded value and index", "why_tests_cant": "All batches and indices.", "anchors": ["thinc/types.py: Padded.__getitem__"]}
{"id": "C34", "title": "with_* wrappers compute the wrapped layer on the same sequences", "statement": "with_array, with_list, with_ragged and with_padded, given list, ragged or padded inputs, return the same container type whose sequences are those the wrapped layer produces on the converted input, in the original order and with the original lengths; likewise for the backward callback.", "quantifier": "every input container with at least one row (of positive width) and every length-preserving wrapped layer", "why_tests_cant": "All inputs and all wrapped layers.", "anchors": ["thinc/layers/with_array.py", "thinc/layers/with_list.py", "thinc/layers/with_ragged.py", "thinc/layers/with_padded.py", "thinc/layers/list2ragged.py", "thinc/layers/ragged2list.py"]}
{"id": "C35", "title": "minibatch partitions the data", "statement": "Concatenating the batches of minibatch(size, seq) gives seq (or, with shuffle, a permutation of it), every batch but the last has the requested size, no batch is empty, and len() equals the number of batches for a constant size; the buffer size does not change the batches.", "quantifier": "every sequence, every constant or scheduled size sequence, every buffer", "why_tests_cant": "Unbounded sequences and schedules.", "anchors": ["thinc/backends/ops.py: Ops.minibatch, Ops._get_batch, Ops._get_batch_sizes", "thinc/types.py: SizedGenerator"]}
{"id": "C36", "title": "multibatch keeps sequences aligned", "statement": "multibatch(size, a, b, ...) yields tuples of batches in which items at the same position come from the same index of every sequence, together covering every index exactly once; unequal lengths raise ValueError.", "quantifier": "every tuple of sequences, batch sizes, and every shuffle permutation", "why_tests_cant": "Unbounded data and permutations.", "anchors": ["thinc/backends/ops.py: Ops.multibatch"]}
{"id": "C37", "title": "sum and mean pooling with exact gradients", "statement": "reduce_sum / reduce_mean give, for each sequence, the sum / mean of its rows (zero for an empty sequence), and their backprops are the exact adjoints: <reduce(X), dY> = <X, backprop(dY)>; inconsistent lengths raise an error.", "quantifier": "every array and lengths, every output gradient", "why_tests_cant": "Universally quantified over real arrays and lengths.", "anchors": ["thinc/backends/ops.py: reduce_sum, reduce_mean, backprop_reduce_sum, backprop_reduce_mean", "thinc/backends/cpu_kernels.hh: cpu_reduce_sum, cpu_reduce_mean"]}
{"id": "C38", "title": "max pooling selects the maximum and routes the gradient to it", "statement": "reduce_max gives each sequence's column maximum with an index attaining it (the first), backprop_reduce_max puts the gradient on exactly that row and zero elsewhere; zero-length sequences and out-of-range indices raise an error.", "quantifier": "every array, lengths and gradient", "why_tests_cant": "Universally quantified.", "anchors": ["thinc/backends/ops.py: reduce_max, backprop_reduce_max", "thinc/backends/cpu_kernels.hh: cpu_reduce_max, cpu_backprop_reduce_max"]}
{"id": "C39", "title": "first/last pooling select the right rows with exact gradients", "statement": "reduce_first / reduce_last return the first / last row of each sequence, and their backprops are the exact adjoints with the input's shape; empty sequences are rejected.", "quantifier": "every array, lengths and gradient", "why_tests_cant": "Universally quantified.", "anchors": ["thinc/backends/ops.py: reduce_first, reduce_last, backprop_reduce_first, backprop_reduce_last"]}
{"id": "C40", "title": "windowing does not leak across sequence boundaries and has an exact adjoint", "statement": "seq2col(X, nW, lengths) row t contains, at window offset k, row t+k-nW of the same sequence or zeros when that is outside the sequence; backprop_seq2col is its exact adjoint.", "quantifier": "every array, lengths, window size and gradient", "why_tests_cant": "Boundary handling for all lengths and windows.", "anchors": ["thinc/backends/cpu_kernels.hh: seq2col, backprop_seq2col", "thinc/backends/ops.py: Ops.seq2col, backprop_seq2col"]}
{"id": "C41", "title": "maxout picks the maximum piece, identically in every kernel path", "statement": "maxout returns, per unit, the maximum over the pieces and the first index attaining it, whichever of the unrolled (2 and 3 pieces) or looped code is used, and backprop_maxout routes the gradient to that piece only.", "quantifier": "every input and number of pieces", "why_tests_cant": "All real inputs and all piece counts.", "anchors": ["thinc/backends/cpu_kernels.hh: argmax, cpu_maxout, cpu_backprop_maxout", "thinc/backends/ops.py: maxout, backprop_maxout"]}
{"id": "C42", "title": "gather_add and scatter_add are adjoint", "statement": "gather_add(table, idx) sums the selected rows and scatter_add accumulates so that <gather_add(T, idx), dY> = <T, scatter of dY>, with repeated indices accumulating.", "quantifier": "every table, index matrix (with repeats) and gradient", "why_tests_cant": "All repeated-index patterns.", "anchors": ["thinc/backends/ops.py: gather_add, scatter_add", "thinc/backends/cpu_kernels.hh: cpu_gather_add, cpu_scatter_add"]}
{"id": "C43", "title": "activation backprops are the derivatives", "statement": "For swish, mish, gelu, dish, sigmoid, hard_swish and their relatives, backprop_f(dY, X, Y) = dY * f'(X) at every input where f is differentiable.", "quantifier": "every real input and gradient", "why_tests_cant": "Continuum of inputs.", "anchors": ["thinc/backends/ops.py: swish, backprop_swish, mish, backprop_mish, gelu, backprop_gelu, dish, backprop_dish, sigmoid, dsigmoid, dtanh"]}
{"id": "C44", "title": "clipped-linear family: values stay in range and gradients match", "statement": "clipped_linear(x) = clip(slope*x+offset, min, max), and backprop_clipped_linear is its derivative wherever it is differentiable, for any slope; hard_sigmoid, hard_tanh, relu_k are the documented instances.", "quantifier": "every real input, slope, offset, min, max", "why_tests_cant": "Continuum of inputs and parameters.", "anchors": ["thinc/backends/ops.py: clipped_linear, backprop_clipped_linear, relu_k, hard_sigmoid, hard_tanh"]}
{"id": "C45", "title": "softmax is a distribution and its backprop is the Jacobian product", "statement": "softmax rows are positive and sum to one, are unchanged by adding a constant to a row, preserve order, and backprop_softmax(Y, dY) is the transposed-Jacobian product; softmax_sequences does the same within each sequence.", "quantifier": "every real row of any length >= 1, every temperature > 0, every gradient", "why_tests_cant": "Continuum of inputs.", "anchors": ["thinc/backends/ops.py: softmax, softmax_sequences, backprop_softmax, backprop_softmax_sequences"]}
{"id": "C46", "title": "categorical cross-entropy gradient", "statement": "CategoricalCrossentropy.get_grad(guesses, truths) is guesses - onehot(truths) (divided by the batch size when normalized), which is the gradient of the cross entropy with respect to softmax logits; rows whose truth is the missing value get zero gradient; a row that negates a class has the guess as gradient in that class and zero elsewhere; invalid truths raise.", "quantifier": "every guess matrix, every truth list (ints or strings), every configuration", "why_tests_cant": "All inputs; masks depend on data.", "anchors": ["thinc/loss.py: CategoricalCrossentropy.convert_truths, get_grad, get_loss, __call__"]}
{"id": "C47", "title": "sequence cross-entropy treats each sequence on its own", "statement": "SequenceCategoricalCrossentropy returns, for every sequence, the gradient CategoricalCrossentropy gives for that sequence (divided by the number of sequences when normalized) and the sum of their losses; mismatched list lengths raise ValueError.", "quantifier": "every list of guesses and truths", "why_tests_cant": "All inputs.", "anchors": ["thinc/loss.py: SequenceCategoricalCrossentropy"]}
{"id": "C48", "title": "L2 distance loss and gradient agree", "statement": "L2Distance's gradient is (half) the gradient of its loss, the loss is non-negative and zero iff guesses equal truths; shape mismatch raises ValueError.", "quantifier": "every pair of matrices", "why_tests_cant": "Continuum of inputs.", "anchors": ["thinc/loss.py: L2Distance"]}
{"id": "C49", "title": "cosine distance loss and gradient agree", "statement": "CosineDistance's loss is the sum of 1 - cos over the rows (between 0 and 2 per row; the code adds 1e-8 to every entry first), and the gradient is the derivative of the loss with respect to the guesses; with ignore_zeros, all-zero target rows contribute neither loss nor gradient; shape mismatch raises ValueError.", "quantifier": "every pair of matrices whose rows are non-zero after the offset", "why_tests_cant": "Continuum of inputs.", "anchors": ["thinc/loss.py: CosineDistance"]}
{"id": "C50", "title": "one-hot encoding", "statement": "to_categorical(Y, n_classes, label_smoothing) has one row per label, each row sums to one, the label's column has the largest value, and out-of-range class counts and invalid smoothing raise ValueError.", "quantifier": "every label vector, class count and smoothing", "why_tests_cant": "All inputs.", "anchors": ["thinc/util.py: to_categorical"]}
{"id": "C51", "title": "chain composes and backpropagates in reverse", "statement": "chain(f, g, ...)(x) is ...g(f(x)) and its callback returns the chain-rule product of the layers' callbacks; if each layer's callback is the exact vector-Jacobian product for input and parameters, so is the chain's, at any depth and with shared layers.", "quantifier": "every list of layers and every input", "why_tests_cant": "Arbitrary depth and sharing.", "anchors": ["thinc/layers/chain.py: forward"]}
{"id": "C52", "title": "add sums layers", "statement": "add(f, g, ...)(x) is f(x)+g(x)+... with gradient the sum of the layers' gradients, the caller's input and gradient arrays are not modified.", "quantifier": "every list of layers and every input, every aliasing between layer outputs and inputs", "why_tests_cant": "All aliasing patterns.", "anchors": ["thinc/layers/add.py: forward"]}
{"id": "C53", "title": "concatenate stacks columns and splits gradients", "statement": "concatenate(f, g, ...)(x) is the column-wise concatenation of the layers' outputs and its callback sums the layers' input gradients of the corresponding column blocks, for array, ragged and list outputs.", "quantifier": "every list of layers, output widths and inputs", "why_tests_cant": "All widths and counts.", "anchors": ["thinc/layers/concatenate.py: _array_forward, _ragged_forward, _list_forward"]}
{"id": "C54", "title": "residual, tuplify, siamese, map_list, clone", "statement": "residual(f)(x)=x+f(x); tuplify(f,g)(x)=(f(x),g(x)); siamese(l,s)(x1,x2)=s(l(x1),l(x2)); map_list applies the layer to each item; each with the exact gradient; clone(m, n) is n independent copies chained.", "quantifier": "every wrapped layer and input", "why_tests_cant": "All layers and inputs.", "anchors": ["thinc/layers/residual.py", "thinc/layers/tuplify.py", "thinc/layers/siamese.py", "thinc/layers/map_list.py", "thinc/layers/clone.py"]}
{"id": "C55", "title": "bidirectional runs the second layer on reversed sequences", "statement": "bidirectional(l2r, r2l) runs l2r on the sequences and r2l on the time-reversed sequences, concatenating features, and the backward pass splits the gradient into the two feature halves.", "quantifier": "every padded batch and pair of layers", "why_tests_cant": "All inputs.", "anchors": ["thinc/layers/bidirectional.py: _reverse, _split, forward"]}
{"id": "C56", "title": "Linear has exact gradients", "statement": "Linear computes X W^T + b and its callback returns dX and accumulates dW, db equal to the exact vector-Jacobian products.", "quantifier": "every shape, weights, input and gradient", "why_tests_cant": "Continuum of inputs and all shapes.", "anchors": ["thinc/layers/linear.py: forward", "thinc/backends/ops.py: gemm, affine"]}
{"id": "C57", "title": "LayerNorm normalises and has exact gradients", "statement": "LayerNorm's normalised rows have mean zero and variance at most one, and the callback returns the exact vector-Jacobian product for the input, scale and shift.", "quantifier": "every row width >= 1, every input and gradient", "why_tests_cant": "Continuum of inputs.", "anchors": ["thinc/layers/layernorm.py"]}
{"id": "C58", "title": "Embed and HashEmbed gradients", "statement": "Embed returns the rows of the table for the ids and accumulates each output row's gradient into exactly that row; HashEmbed does so for its four hashed rows; ids' gradient is zero.", "quantifier": "every table, id list and gradient", "why_tests_cant": "All ids with repeats.", "anchors": ["thinc/layers/embed.py: forward", "thinc/layers/hashembed.py: forward"]}
{"id": "C59", "title": "Dropout is unbiased in structure and off at prediction", "statement": "Dropout with rate 0, disabled, or is_train=False is the identity with identity gradient; otherwise forward and backward multiply by the same mask whose entries are 0 or 1/(1-rate).", "quantifier": "every input container, rate and random draw", "why_tests_cant": "All random outcomes.", "anchors": ["thinc/layers/dropout.py", "thinc/backends/ops.py: get_dropout_mask"]}
{"id": "C60", "title": "uniqued is transparent", "statement": "uniqued(layer)(X) equals layer(X) whenever the layer's output row depends only on the key column, and the layer's parameters receive the same gradient.", "quantifier": "every key matrix (any multiplicities), every row-wise layer", "why_tests_cant": "All multiplicity patterns.", "anchors": ["thinc/layers/uniqued.py: forward"]}
{"id": "C61", "title": "parametric attention", "statement": "ParametricAttention weights sum to one within each sequence, no sequence influences another's output, and the callback is the exact vector-Jacobian product.", "quantifier": "every ragged input and gradient", "why_tests_cant": "Continuum of inputs.", "anchors": ["thinc/layers/parametricattention.py"]}
{"id": "C62", "title": "MultiSoftmax outputs distributions", "statement": "Each of the nOs column blocks of MultiSoftmax's output is a probability distribution.", "quantifier": "every input and block layout", "why_tests_cant": "Continuum of inputs.", "anchors": ["thinc/layers/multisoftmax.py: forward", "thinc/backends/ops.py: softmax"]}
{"id": "C63", "title": "resizing keeps the learned rows", "statement": "resize_linear_weighted keeps the first min(old,new) output rows of every parameter, fills added rows with the filler, and the resized model reports the new nO.", "quantifier": "every old/new size and parameter content", "why_tests_cant": "All sizes.", "anchors": ["thinc/layers/resizable.py: resize_linear_weighted, _resize_parameter, resize_model"]}
{"id": "C64", "title": "with_getitem touches only its item", "statement": "with_getitem(idx, layer) replaces exactly item idx of the tuple by the layer's output, in the forward and backward pass, for every valid index.", "quantifier": "every tuple, every valid Python index including negative ones", "why_tests_cant": "All tuples and indices.", "anchors": ["thinc/layers/with_getitem.py: forward"]}
{"id": "C65", "title": "convert_recursive maps exactly the matching leaves", "statement": "convert_recursive(is_match, f, obj) replaces exactly the matching objects and rebuilds all containers unchanged, and iterate_recursive yields exactly the matching objects in the same order.", "quantifier": "every nested structure of lists, tuples and dicts, every predicate and function", "why_tests_cant": "Unbounded nesting.", "anchors": ["thinc/util.py: convert_recursive, iterate_recursive"]}
{"id": "C66", "title": "context managers restore global state", "statement": "use_ops, data_validation and Model.define_operators set their value inside the block and restore the previous one on exit, by any route and at any nesting.", "quantifier": "every nesting and every exit (normal or exception)", "why_tests_cant": "All nestings and crash points.", "anchors": ["thinc/backends/__init__.py: use_ops, set_current_ops", "thinc/util.py: data_validation", "thinc/model.py: Model.define_operators"]}
{"id": "C67", "title": "hash keys stay in the table", "statement": "HashEmbed maps every 64-bit id to four row numbers in range for any table size, determined by id and seed only, and distinct ids (same seed) never have all four 32-bit hashes equal.", "quantifier": "every 64-bit id, every 32-bit seed, every table size >= 1", "why_tests_cant": "2^64 ids times 2^32 seeds.", "anchors": ["thinc/backends/numpy_ops.pyx: MurmurHash3_x86_128_uint64, NumpyOps.hash", "thinc/layers/hashembed.py: forward"]}
{"id": "C68", "title": "iterations over one minibatch result are independent", "statement": "Several iterators over the object returned by minibatch may be advanced in any order, and each yields the batches that it would yield alone.", "quantifier": "every sequence, size, number of iterators and interleaving of next() calls", "why_tests_cant": "All interleavings and shuffle outcomes.", "anchors": ["thinc/backends/ops.py: Ops.minibatch", "thinc/types.py: SizedGenerator"]}
{"id": "C69", "title": "conversion layers keep the sequences", "statement": "list2ragged, ragged2list, list2padded, padded2list and list2array return a container holding the same sequences in the same order, and their callbacks convert a gradient back the same way.", "quantifier": "every batch of sequences with at least one row, every gradient with the same lengths", "why_tests_cant": "All batches and lengths, including empty sequences.", "anchors": ["thinc/layers/list2ragged.py", "thinc/layers/ragged2list.py", "thinc/layers/list2padded.py", "thinc/layers/padded2list.py", "thinc/layers/list2array.py"]}
{"id": "C70", "title": "with_flatten nests the output like the input", "statement": "with_flatten gives the wrapped layer the concatenation of the inner lists and returns its output, and backwards its gradient, cut into pieces with the lengths of the inner lists.", "quantifier": "every nested input and every length-preserving layer, both versions of with_flatten", "why_tests_cant": "All nestings and layers.", "anchors": ["thinc/layers/with_flatten.py", "thinc/layers/with_flatten_v2.py"]}
{"id": "C71", "title": "networks have exact gradients", "statement": "Any network built from layers with exact gradients by chain, add, concatenate, residual, siamese, tuplify and clone, nested to any depth, computes the corresponding composite function, and one call of its callback returns the exact gradient for the input and adds the exact gradient of every parameter to what is already stored, also when layers share parameters.", "quantifier": "every finite nesting of the combinators, every input, parameter value and incoming gradient", "why_tests_cant": "Unbounded nesting and a continuum of inputs; gradient checks only sample.", "anchors": ["thinc/layers/chain.py", "thinc/layers/add.py", "thinc/layers/concatenate.py", "thinc/layers/residual.py", "thinc/layers/tuplify.py", "thinc/layers/siamese.py", "thinc/layers/clone.py"]}
{"id": "C72", "title": "dense activation layers have exact gradients", "statement": "Relu, Sigmoid, Swish, Gelu, Mish, HardSwish, HardSwishMobilenet, ClippedLinear, Dish and Logistic layers compute activation(X W^T + b), and the callback returns the exact gradient of the input and adds the exact gradients of W and b.", "quantifier": "every weight matrix, bias, batch and gradient, wherever the activation is differentiable", "why_tests_cant": "A continuum of weights and inputs.", "anchors": ["thinc/layers/relu.py", "thinc/layers/sigmoid.py", "thinc/layers/swish.py", "thinc/layers/gelu.py", "thinc/layers/mish.py", "thinc/layers/dish.py", "thinc/layers/hard_swish.py", "thinc/layers/hard_swish_mobilenet.py", "thinc/layers/clipped_linear.py", "thinc/layers/logistic.py"]}
{"id": "C73", "title": "a training step adds the gradient of the loss", "statement": "One training step (begin_update, get_grad of the loss on the prediction, callback) adds to every parameter gradient exactly the gradient of the loss of the whole network: for a Softmax output layer with CategoricalCrossentropy (integer labels, label smoothing, missing values, target distributions, any temperature) and for any network with exact gradients with L2Distance, behind any chain of layers with exact gradients. Softmax outputs are probability distributions, and with a temperature that is not positive, or a gradient of another shape, an error is raised.", "quantifier": "every parameter value, batch, labels, temperature, smoothing, missing value and chain of layers in front", "why_tests_cant": "The Softmax callback is only correct together with its loss; agreement must hold for every input and depth.", "anchors": ["thinc/layers/softmax.py: Softmax_v2, forward", "thinc/loss.py: CategoricalCrossentropy, L2Distance", "thinc/layers/chain.py", "thinc/model.py: Model.begin_update"]}
{"id": "C74", "title": "Maxout has exact gradients", "statement": "The Maxout layer returns, for every row and output, the largest of its nP linear pieces, and its callback returns the exact gradient of the input and adds the exact gradients of the weights and biases of the winning pieces, wherever one piece is strictly the largest.", "quantifier": "every weight array, bias, batch, number of outputs and pieces, and gradient", "why_tests_cant": "A continuum of weights and inputs and every layout of pieces; gradient checks only sample.", "anchors": ["thinc/layers/maxout.py: Maxout, forward"]}
{"id": "C75", "title": "pooling layers have exact gradients", "statement": "The reduce_sum, reduce_mean, reduce_max, reduce_first and reduce_last layers return one row per sequence with its sum, mean, columnwise maximum, first and last row, and their callbacks return the exact gradient of the batch. A gradient of another shape raises ValueError.", "quantifier": "every batch of sequences, with empty sequences where the layer allows them, and every gradient", "why_tests_cant": "Every partition of the rows into sequences and a continuum of values.", "anchors": ["thinc/layers/reduce_sum.py", "thinc/layers/reduce_mean.py", "thinc/layers/reduce_max.py", "thinc/layers/reduce_first.py", "thinc/layers/reduce_last.py"]}
{"id": "C76", "title": "expand_window has exact gradients", "statement": "The expand_window layer puts beside every row the rows of the window around it, within its own sequence for a Ragged and within the whole array otherwise, with zeros beyond the ends, and its callback returns the exact gradient of the input.", "quantifier": "every window size, batch (also with empty sequences or no rows) and gradient", "why_tests_cant": "Every partition of the rows into sequences and every window size.", "anchors": ["thinc/layers/expand_window.py: expand_window, _expand_window_floats, _expand_window_ragged"]}
{"id": "C77", "title": "training with SGD is gradient descent", "statement": "If a model's backprop callbacks return the exact gradient of a loss for every batch, then a training loop that for every batch calls begin_update, feeds the loss gradient to the callback, and after one or more batches calls finish_update with an SGD optimizer and step_schedules, moves every parameter exactly as gradient descent does: each parameter p becomes p - learn_rate(step) * clip(sum of the batch gradients since the last update), where clip rescales the gradient to grad_clip(step) when its norm is larger. After each update every gradient is zero, so nothing leaks from one update into the next. Unless the gradient of the summed losses is zero, one such update with a small enough learning rate makes the summed losses strictly smaller.", "quantifier": "every model whose layers have exact gradients, every sequence of groups of batches, every learning rate and clipping schedule, every starting point, any number of updates", "why_tests_cant": "tests train a few toy models for a few steps and check that the loss falls; the claim is about the exact trajectory of every model under every schedule and any number of batches", "anchors": ["thinc/model.py:Model.begin_update", "thinc/model.py:Model.finish_update", "thinc/optimizers.py:SGD", "thinc/optimizers.py:Optimizer.__call__", "thinc/optimizers.py:Optimizer.step_schedules"]}
{"id": "C78", "title": "CauchySimilarity has exact gradients", "statement": "CauchySimilarity maps a pair of batches to the vector of row similarities 1/(1 + sum_j W_j (x1_j - x2_j)^2), and its callback returns the exact gradients of both inputs and adds the exact gradient of the weights, wherever the similarity is defined; with non-negative weights it is defined everywhere.", "quantifier": "every pair of batches of equal shape, all weights, every gradient", "why_tests_cant": "Exactness of a derivative at every point and for every shape.", "anchors": ["thinc/layers/cauchysimilarity.py: forward, inverse"]}
{"id": "C79", "title": "Initialization infers shapes consistently", "statement": "Model.initialize(X, Y) on a network of dense layers, Softmax, Maxout, LayerNorm, layers without dimensions, chain, add, concatenate and residual: when it returns, every layer with parameters in the network has nO and nI, its parameters have the shapes that these dimensions give, every dimension that was set before has kept its value, and no node outside the network has changed. From then on whether predict accepts a batch (with at least one row) depends on the width of the batch only, the width of the output is always the same and the number of rows is kept, and initializing again never changes this. A chain initialized with a batch accepts every batch of that width, and its unset nO becomes the width of its outputs. In a chain of dense layers initialize(X, Y) succeeds exactly if the dimensions that are set agree with each other and with X and each unset nO can be taken from Y; then nI of a layer is nO of the layer before it and an unset nO is the width of Y; initializing again with data of the same widths succeeds.", "quantifier": "every network built from these layers (any depth, shared nodes allowed), every assignment of set and unset dimensions, all example data or none, every later batch", "why_tests_cant": "Tests initialize a few fixed architectures; the claim ranges over all networks, all combinations of set and unset dimensions and all batches fed later.", "anchors": ["thinc/model.py:Model.initialize", "thinc/layers/chain.py:init", "thinc/layers/add.py:init", "thinc/layers/concatenate.py:init", "thinc/layers/residual.py:init", "thinc/layers/linear.py:init", "thinc/layers/softmax.py:init", "thinc/layers/maxout.py:init", "thinc/layers/layernorm.py:init", "thinc/util.py:get_width"]}
{"id": "C80", "title": "Sequence wrappers and conversion layers have exact gradients", "statement": "list2ragged, ragged2list and list2array keep the rows of the sequences, list2padded puts each row at the cell of its time step and column (columns by decreasing length, then decreasing position) with zeros in the padding, and padded2list takes them back. with_array (list, Ragged, array), with_array2d, with_list, with_ragged and with_padded around a layer with parameters compute what the layer computes on the converted rows; with_array with pad > 0 gives the layer blank rows before each sequence that has rows and after the last one and drops the output there. In all these cases, if the callback of the inner layer returns the exact derivative for its input and adds the exact derivative to the gradients of its parameters, so does the callback of the wrapper, and the gradient it returns is a batch of the same type and layout as the input.", "quantifier": "every inner layer with exact gradients, all its parameters, every batch of sequences of any lengths (also empty ones) and positive width with at least one sequence (at least one row where a Ragged is made), every padding, every output gradient", "why_tests_cant": "The wrappers are tested with a few small batches and layers; the claim ranges over all lengths, paddings and inner layers, and gradient tests are numerical and local.", "anchors": ["thinc/layers/list2ragged.py:forward", "thinc/layers/ragged2list.py:forward", "thinc/layers/list2array.py:forward", "thinc/layers/list2padded.py:forward", "thinc/layers/padded2list.py:forward", "thinc/layers/with_array.py:forward", "thinc/layers/with_array2d.py:forward", "thinc/layers/with_list.py:forward", "thinc/layers/with_ragged.py:forward", "thinc/layers/with_padded.py:forward", "thinc/backends/ops.py:Ops.flatten", "thinc/backends/ops.py:Ops.unflatten", "thinc/backends/ops.py:Ops.list2padded", "thinc/backends/ops.py:Ops.padded2list"]}
{"id": "C81", "title": "SparseLinear scores and gradients", "statement": "SparseLinear gives for every example and class the bias plus, for each feature of the example, its value times the sum of the two weights found by hashing the key with the seeds 0 and 1, and its callback adds the exact gradients of the weights and the bias, without a pointer leaving its array. In version 2 every class has its own weights; in version 1 the classes share weights and only the first length + nO - 1 of nO * length are ever used. Keys that share one half never collide before the reduction, and the two hashes of a key always differ. A forward pass whose lengths exceed the number of features does not stay inside the arrays, and the callback of an empty batch raises IndexError.", "quantifier": "all keys, values, lengths (zero included), numbers of classes from 1, weights per class from 1 to 2^31, all weights and incoming gradients, both versions of the indexing", "why_tests_cant": "The kernel walks four raw pointers with no bounds checks, and the weights are addressed by a hash; a test sees a few keys and cannot tell a read outside the array from a correct one, nor that no class reads the weights of another.", "anchors": ["thinc/layers/sparselinear.pyx:forward", "thinc/layers/sparselinear.pyx:set_scoresC", "thinc/layers/sparselinear.pyx:set_gradientC", "thinc/layers/sparselinear.pyx:MurmurHash3_x86_32_uint64", "thinc/layers/sparselinear.pyx:_finish_linear_update"]}
{"id": "C82", "title": "The LSTM computes the textbook recurrence on every sequence of the batch", "statement": "The LSTM layer (numpy backend), for any depth, one or two directions, any parameters and initial states, gives every sequence of a padded batch the outputs of the standard LSTM network run on that sequence alone: at each position the hidden states of the left-to-right and right-to-left cells, layer after layer. Other sequences, their lengths and the padding have no influence, no memory outside the arrays is read or written, and initialization creates exactly the parameters the forward pass reads.", "quantifier": "all depths, directions, widths, parameters, initial states, dropout masks and batches of sequences with at least one row", "why_tests_cant": "Tests compare a few shapes, mostly with one sequence or equal lengths; the packing of sequences of different lengths, the stale rows of finished sequences and the parameter offsets of deep and bidirectional stacks must be right for every combination.", "anchors": ["thinc/backends/numpy_ops.pyx: lstm_forward_training, _lstm_forward_training, cpu_lstm_activate_fwd, cpu_lstm_gates_fwd", "thinc/backends/ops.py: _split_weights, _transpose_weights", "thinc/layers/lstm.py: init, forward"]}
{"id": "C83", "title": "The LSTM's backward pass returns exact gradients", "statement": "After a forward pass of the LSTM with NumpyOps, backpropagating a gradient of the output never reads or writes out of bounds and returns, for the input and for the parameters, the derivative of the outputs weighted with that gradient. In particular a gradient of zero gives gradients of zero.", "quantifier": "every depth, one or two directions, every width, all parameters and initial states, every packed batch of sequences of any lengths and every gradient of the output", "why_tests_cant": "The derivative has to be right at every position of every sequence for all weights; the loop over pairs of time steps goes wrong only at the first position read, and a test of shapes or of one training run does not see it.", "anchors": ["thinc/backends/numpy_ops.pyx:backprop_lstm", "thinc/backends/numpy_ops.pyx:_lstm_backward_training", "thinc/backends/numpy_ops.pyx:cpu_lstm_gates_bwd", "thinc/backends/ops.py:_untranspose_unsplit_weights"]}
{"id": "C84", "title": "The LSTM gives the same results on every backend", "statement": "The LSTM operations that backends inherit from the base class give every sequence of a packed batch the outputs of the textbook LSTM, like the CPU backend does, and their backward pass returns the gradients of the input and of the parameters. (The code violates this: only the first sequence of a batch is read, every other sequence gets the output zero, and all gradients are zero.)", "quantifier": "all parameters, initial states, depths, one or more directions, batches, inputs and gradients of the output", "why_tests_cant": "A test with a batch of one sequence passes; whether the outputs of all sequences in all batches, and the gradients, are those of the definition is a statement about every batch and parameter vector.", "anchors": ["thinc/backends/ops.py: Ops.lstm_forward_training, Ops.lstm_forward_inference, Ops.backprop_lstm, lstm_forward_training, backprop_lstm, backprop_lstm_gates, sigmoid"]}
{"id": "C85", "title": "Indexing layers return the selected entries and route the gradient back exactly", "statement": "The array_getitem layer (and ints_getitem, floats_getitem) returns exactly the entries of the 2-d input that the index selects (integers and slices with numpy's rules for negative numbers, bounds and steps; lists of integers; pairs of these), raises exactly when numpy would, and its callback returns the gradient of the input: each entry gets the sum of the gradients of the places where it was selected. (The code violates the last part when a list of integers names an entry twice: only one of the gradients is kept. It also returns an input without rows unchanged.)", "quantifier": "all inputs, indices and gradients of the output", "why_tests_cant": "The behaviour depends on every combination of signs, bounds and steps of the index and on repetitions in it; the gradient claim is about all inputs.", "anchors": ["thinc/layers/array_getitem.py: array_getitem, ints_getitem, floats_getitem, forward"]}
{"id": "C86", "title": "Id-mapping layers look up every key and give zero gradients", "statement": "remap_ids.v1, remap_ids.v2 and premap_ids give, in order, one id per key of the input (a sequence, a 1-d array, or the chosen column of a 2-d array): the id of the table, or the default if the key is not in the table; their callbacks return a zero gradient of the shape of the input. strings2arrays gives for each sequence the hashes of its strings in order. (The code violates the gradient part: the callback of remap_ids.v2 for arrays returns uninitialised memory.)", "quantifier": "all tables, defaults, inputs, columns and gradients", "why_tests_cant": "Every key, including keys absent from the table and every column number, has to be looked up correctly, for all tables and inputs.", "anchors": ["thinc/layers/remap_ids.py: remap_ids, forward, remap_ids_v2, forward_v2", "thinc/layers/premap_ids.pyx: premap_ids, forward", "thinc/layers/strings2arrays.py: strings2arrays, forward"]}
{"id": "C87", "title": "Tree-wide functions act on exactly the nodes of the model", "statement": "set_dropout_rate and change_attr_values change exactly the named attributes that a node of the model's tree already has, and nothing else; get_gradients returns exactly one entry (parameter and gradient) for every parameter with a gradient in the tree; wrap_model_recursive replaces every layer of every node in the tree by a wrapper of it, one wrapper per node so that shared layers stay shared, redirects the references likewise and returns a wrapper of the model. (The code violates the last part for references of a node to itself, which still lead to the unwrapped node, and for models with unset references, where it raises halfway.)", "quantifier": "all models, including those in which layers are shared, all attribute mappings and all wrappers that make a new node around the given one", "why_tests_cant": "The result depends on the shape of the whole graph (sharing, depth, references) and wrap_model_recursive changes the graph while it works through it; a test sees a few shapes.", "anchors": ["thinc/model.py: set_dropout_rate, change_attr_values, Model.get_gradients, wrap_model_recursive, Model.replace_node"]}
{"id": "C88", "title": "A model behind a parameter proxy reads from and writes to the proxy only", "statement": "Once a model has a parameter proxy, whatever the proxy does with the values: get_param of a parameter that was given a value through the model returns what the proxy returns at that moment; set_param with a value, set_grad and inc_grad each make exactly one call to the proxy, with the model's id, the name and the value, in order; set_param(None) makes none; has_grad is False and get_grad raises KeyError for ever, and the model keeps no gradient of its own. A parameter never set through this model raises KeyError even if the proxy has it.", "quantifier": "every proxy (an arbitrary state machine), every model without gradients at the time the proxy is attached, every sequence of parameter and gradient calls", "why_tests_cant": "The proxy is user code with arbitrary state (e.g. a remote server updated by other workers between calls), and the claim is about every history of calls.", "anchors": ["thinc/backends/_param_server.py: ParamServer", "thinc/model.py: Model.get_param, Model.set_param, Model.has_grad, Model.get_grad, Model.set_grad, Model.inc_grad"]}
{"id": "C89", "title": "Models for text: integer features, with_array and losses on sequences", "statement": "Embed and HashEmbed with a column look up that column of an array of integer features (negative columns count from the end), layers for several features can be concatenated or added, and the gradient returned for the features is an array of zeros of the same shape. with_array on a list of integer arrays is the wrapped layer on all rows at once (with the padding rows in between, whose output is dropped). A tagger, with_array of such layers followed by any exact layers and Softmax, trained with SequenceCategoricalCrossentropy, gets in every parameter exactly the gradient of the cross entropies of all tokens, summed and divided by the number of sequences if normalize is set. A text classifier with mean pooling and CategoricalCrossentropy gets the gradient of its cross entropy.", "quantifier": "all numbers of sequences and their lengths (also empty ones), all features, columns, tables, seeds, dropout draws, parameter values, amounts of padding, labels with or without missing values, label smoothing, temperatures and chains of exact layers", "why_tests_cant": "a test checks one model on one batch against finite differences; the claim is about every batch, every parameter value and every chain of layers, including the rows of padding whose gradients must not leak", "anchors": ["thinc/layers/with_array.py: _list_forward", "thinc/layers/hashembed.py: HashEmbed", "thinc/layers/embed.py: Embed", "thinc/layers/array_getitem.py: ints_getitem", "thinc/loss.py: SequenceCategoricalCrossentropy", "thinc/layers/softmax.py: forward"]}
{"id": "C90", "title": "Training with Adam", "statement": "Train a model with an Optimizer for any number of iterations, each on one or more batches (backprop for every batch, then finish_update, then step_schedules). If both betas are positive, the parameters afterwards are exactly those of Adam with bias correction, started from zero moments, applied to the sum of the loss gradients of each iteration; if both are zero they are those of gradient descent. The hyperparameters of an iteration are the values of their schedules at that step. The L2 penalty is added to the gradient before clipping, or shrinks the weights after the step if L2_is_weight_decay is set. The optimizer holds for every parameter its own moments, step count and running average, whatever other parameters are trained, and all gradients are zero after every iteration.", "quantifier": "every model whose layers are exact on the batches and give every parameter a gradient, every heap of nodes with different ids, all parameter values, all schedules, both L2 modes, with and without averages, every list of iterations", "why_tests_cant": "the claim is about the whole trajectory for all models, data and schedules; a test follows one trajectory with a tolerance", "anchors": ["thinc/optimizers.py: Optimizer.__call__, Optimizer._adam, Optimizer.step_schedules", "thinc/model.py: Model.finish_update, Model.inc_grad", "thinc/backends/ops.py: Ops.adam, Ops.clip_gradient, Ops.update_averages"]}
{"id": "C91", "title": "Position encodings and n-gram hashes", "statement": "position_encode(N, D, period) fills an N by D array completely and touches nothing else: position i has in column j the sine (j even) or the cosine (j odd) of i / period^(2c/D), where c is the first column of the pair j belongs to; a last column without a partner takes the frequency of the pair before it. A given `out` of that shape is filled the same way, any other shape is an AssertionError. All entries lie in [-1, 1], no two positions have the same encoding, and the encoding of position i + k is a linear function of the encoding of i that depends on k only. ngrams(n, keys) returns the hash of every stretch of n consecutive keys from left to right, reads nothing outside the keys, and returns nothing when n < 1 or n exceeds the number of keys. (Two exceptions in the code: without any keys it raises IndexError; the base-class version, used on GPU, keeps only the low 32 bits of each hash as a signed number.)", "quantifier": "All N, D and positive periods, any previous contents of the memory, all given arrays, all positions and offsets; all n (also negative), all key sequences, all hash functions.", "why_tests_cant": "Tests check the length of the n-grams and a few positions; that no memory is left uninitialised, that positions never collide and that every shift is linear concern all widths and positions.", "anchors": ["thinc/backends/numpy_ops.pyx: NumpyOps.ngrams, NumpyOps.position_encode, cpu_position_encode", "thinc/backends/ops.py: Ops.ngrams, Ops.position_encode", "thinc/backends/cupy_ops.py: CupyOps.position_encode"]}
{"id": "C92", "title": "A wrapped PyTorch model trains on the true gradients, also with gradient scaling", "statement": "Between two calls of finish_update, backward passes through a wrapped PyTorch model add up the gradients of their batches, and finish_update applies the optimizer once to each parameter, in order, with that sum; this does not depend on whether gradient scaling (mixed precision) is on, or on the current scale. The gradients handed back for the inputs are the true ones. If any gradient in between was not finite, the inputs get zero gradients, and the update changes no parameter, calls no optimizer, zeroes the gradients and multiplies the scale by the backoff factor; otherwise the scale grows by the growth factor after exactly growth_interval good updates in a row. Over any history the scale is the initial scale times one backoff factor per update that saw an overflow times some growth factors, and stays positive. A scaler that is off changes nothing. The caller's gradient array is not modified. (The code breaks this twice with scaling on: earlier batches are divided by the scale again with each further batch, and the caller's array is multiplied by the scale when memory is shared.)", "quantifier": "All modules (any number and sizes of parameters), all backward passes, all sequences of batches, all optimizers and their states, all scales and factors, all histories of backward passes and updates.", "why_tests_cant": "Scaling needs a GPU and is tested with one batch per update; the claims concern every number of batches, every scale and every history of overflows.", "anchors": ["thinc/shims/pytorch.py: PyTorchShim.begin_update, finish_update", "thinc/shims/pytorch_grad_scaler.py: PyTorchGradScaler"]}
{"id": "C93", "title": "Wrapped models: bytes and copies keep the parameters", "statement": "For a model wrapped from another library, from_bytes(to_bytes()) and from_disk after to_disk restore the configuration and all parameters into any other shim, and copy() gives a shim with the same parameters and leaves the original as it was. (The code breaks this three times: the default deserializer for PyTorch reads the saved parameters and drops them; copying a TensorFlow shim takes the model away from the original and gives the copy fresh weights; registered Keras subclasses cannot be loaded into a shim without a model.)", "quantifier": "All wrapped models, configurations and parameter values, all states of the loading shim, all serialisers that round trip.", "why_tests_cant": "Tests load into a shim that was built with the same parameters, or compare only predictions' shapes; that loading restores what was saved must hold for all pairs of saved and loading models.", "anchors": ["thinc/shims/pytorch.py: PyTorchShim.to_bytes, from_bytes, default_serialize_torch_model, default_deserialize_torch_model", "thinc/shims/torchscript.py: TorchScriptShim", "thinc/shims/tensorflow.py: TensorFlowShim.to_bytes, from_bytes, copy", "thinc/shims/shim.py: Shim.copy, to_disk, from_disk"]}
{"id": "C94", "title": "Temporary parameters of wrapped PyTorch models", "statement": "Inside `with model.use_params(p)` a wrapped PyTorch model uses the values p has for its parameters, in particular when p are the averages kept by the optimizer; afterwards, also after an exception, it has its old values. Optimizer keys of different parameters differ. (The code breaks this: keys of the form (id, name), which are the optimizer's, are ignored; after an exception the values stay; and models and shims draw ids from different counters, so keys can coincide.)", "quantifier": "All modules and parameter names, all dictionaries, all bodies, all numbers of models and shims constructed.", "why_tests_cant": "The wrapped model silently runs with its current parameters; a test that does not compare with the averages sees no difference.", "anchors": ["thinc/shims/pytorch.py: PyTorchShim.use_params, finish_update", "thinc/shims/shim.py: Shim.__init__", "thinc/model.py: Model.use_params"]}
{"id": "C95", "title": "GPU kernels give the CPU result for every launch size and every schedule", "statement": "The CUDA versions of gather_add, seq2col, backprop_seq2col, reduce_sum, reduce_mean, reduce_max, their gradients, maxout, backprop_maxout and pad, called with valid arguments, never access an element outside of their arrays, have no data race, always finish, leave their inputs as they are and give the same result as the mathematical definition that the CPU versions compute, however many blocks and threads they are launched with and in whatever order the threads run. Lengths, indices and choices that do not fit the arrays are rejected with an exception before the launch.", "quantifier": "all array shapes including empty ones, all contents, all lengths and indices, all numbers of blocks and threads per block, all interleavings of the single memory accesses of all threads", "why_tests_cant": "A test runs one launch configuration on one device and sees one of very many interleavings; races, missed rows at other grid sizes and stray reads usually leave no trace.", "anchors": ["thinc/backends/_custom_kernels.cu", "thinc/backends/_custom_kernels.py", "thinc/backends/cupy_ops.py:CupyOps"]}
{"id": "C96", "title": "Elementwise GPU functions, Adam and hashing agree with the CPU for every launch size and schedule", "statement": "On the GPU, clipped_linear, dish, mish, gelu and swish, the gradients of clipped_linear, hard_swish, hard_swish_mobilenet, dish, mish, gelu and swish, one step of adam and hash give for every element what the CPU versions give, in place or into a new array, however many blocks and threads are launched and in whatever order they run, without data races or accesses outside of the arrays; gelu and swish are replaced by 0 and x outside of ±6 and ±17, swish with an error below 1e-6, and their gradients are the derivatives of these functions except at the two points. Gradients of a different shape than the input raise ValueError.", "quantifier": "all shapes and contents, all slopes, offsets, bounds and thresholds, in place or not, all contents of the newly allocated array, all ids and seeds, all numbers of blocks and threads, all interleavings", "why_tests_cant": "In-place kernels are correct only if no thread reads what another one writes; a test sees a few launch sizes and one of very many schedules, and samples of inputs miss the points where branches switch.", "anchors": ["thinc/backends/_custom_kernels.cu", "thinc/backends/_custom_kernels.py", "thinc/backends/_murmur3.cu:hash_data", "thinc/backends/cupy_ops.py:CupyOps.adam"]}
{"id": "C97", "title": "A wrapped PyTorch model sees the input's arrays as tensors and gives back their gradients", "statement": "Calling a wrapped PyTorch model with an input of arrays nested in tuples, lists, dicts or ArgsKwargs calls the module once, with every array replaced by a tensor of its own with the same contents, which asks for gradients exactly in training; a dict becomes keyword arguments, a tuple or list positional ones. The output is returned with every tensor turned into an array, and everything else in place. The callback hands autograd the output and the gradient and returns an object of the form of the input, with every array replaced by its gradient (None where there is none). A wrapped recurrent network takes a padded batch and returns one with the same sizes, lengths and order, for outputs and gradients. (Violated by the code: the gradient of a list is a tuple; a model returning a tuple, allowed by the documentation, cannot be backpropagated; integer arrays raise in training.)", "quantifier": "all nested inputs, all modules and autograd results, all contents, training or not, all gradients", "why_tests_cant": "Inputs nest without bound and mix containers; a conversion that mixes up two places or drops one shows only for particular shapes.", "anchors": ["thinc/layers/pytorchwrapper.py:forward", "thinc/layers/pytorchwrapper.py:convert_pytorch_default_inputs", "thinc/layers/pytorchwrapper.py:convert_pytorch_default_outputs", "thinc/layers/pytorchwrapper.py:convert_rnn_inputs", "thinc/layers/pytorchwrapper.py:convert_rnn_outputs", "thinc/shims/pytorch.py:PyTorchShim.begin_update"]}
{"id": "C98", "title": "Wrappers for debugging and profiling change nothing else", "statement": "with_debug, with_nvtx_range and with_signpost_interval, in any number and order, change neither the outputs and gradients of a layer nor its exceptions, parameters or initialization, as long as the hooks do not raise; hooks and ranges are called in nested order, the last wrapper outermost, and every range is closed. A copy of a wrapped model works with its own parameters. (Violated by the code: a copy of a model with with_debug uses and changes the original's parameters; initializing a copy initializes the original, with all three wrappers; the NVTX range of a layer that raises is never closed.)", "quantifier": "all layers, all sequences of wrappers, all hooks that do not raise, all inputs and gradients, training or not, with and without cupy", "why_tests_cant": "Wrappers compose without bound, and closures that hold on to the wrong model only matter for copies whose parameters differ.", "anchors": ["thinc/layers/with_debug.py:with_debug", "thinc/layers/with_nvtx_range.py:with_nvtx_range", "thinc/layers/with_signpost_interval.py:with_signpost_interval", "thinc/util.py:use_nvtx_range", "thinc/model.py:Model.replace_callbacks"]}
{"id": "C99", "title": "with_reshape applies the layer to the rows and hands their gradients back", "statement": "with_reshape(layer) applies the layer to the two-dimensional array of all rows of a three-dimensional input and gives the output the leading axes of the input; its callback hands the layer's callback the gradient as an array of rows and returns the result in the shape of the input. (The second half is violated: the callback always raises ValueError if the layer changes the width; otherwise the layer's callback gets a three-dimensional array.)", "quantifier": "all layers, all shapes with at least one column, all contents", "why_tests_cant": "Shapes are unbounded, and layers that keep the width and accept any number of dimensions hide the error.", "anchors": ["thinc/layers/with_reshape.py:forward", "thinc/backends/ops.py:Ops.reshape"]}
{"id": "C100", "title": "with_cpu runs a layer on the CPU and is invisible otherwise", "statement": "with_cpu(layer) gives the layer its input with all arrays, in tuples and lists of any depth, on the CPU, and returns the output with all arrays on the model's device; gradients likewise; training or prediction is passed on to the layer. (Violated by the code: the layer is run as in training also for predictions, and gradients stay on the CPU.)", "quantifier": "all layers, all nested inputs, outputs and gradients of arrays on either device", "why_tests_cant": "Nesting is unbounded; without a GPU and without a layer that behaves differently in training both violations are invisible.", "anchors": ["thinc/layers/with_cpu.py:forward", "thinc/layers/with_cpu.py:_to_cpu", "thinc/layers/with_cpu.py:_to_device"]}
{"id": "C101", "title": "Wrapped TensorFlow and MXNet models are trained with the sum of their gradients", "statement": "Between two calls of finish_update, the callbacks of a wrapped TensorFlow model may be called any number of times. finish_update then calls the optimizer once, with all variables and the sums of their gradients, writes every variable back in its own shape, and clears the gradients; every callback returns the gradient of its inputs. For MXNet, finish_update passes all parameters and gradients to the optimizer, gives every parameter its own part of the result and sets its gradient to zero.", "quantifier": "all lists of variables with their shapes, all sequences of passes with arbitrary gradients, all optimizers; one input, and several inputs", "why_tests_cant": "a test trains one model with one input and one pass per update; the parameters are cut out of one flat array, so a mistake shows only for particular shapes, and a second input or a variable that is not used breaks it", "anchors": ["thinc/shims/tensorflow.py:TensorFlowShim.begin_update", "thinc/shims/tensorflow.py:TensorFlowShim.finish_update", "thinc/shims/mxnet.py:MXNetShim.finish_update"]}
{"id": "C102", "title": "Temporary and copied weights of wrapped TensorFlow models", "statement": "In a use_params block a wrapped TensorFlow model has the given weights, and afterwards the weights it had before, whatever the block did to them, also if it raised; entries for other objects have no effect. copy and to_device keep the weights, and copy leaves the original as it was.", "quantifier": "all models (layers, names, shapes, values), all dicts, all blocks, all functions that rebuild a model from its configuration", "why_tests_cant": "the effect of a block is arbitrary code, which may train the model or raise at any point", "anchors": ["thinc/shims/tensorflow.py:TensorFlowShim.use_params", "thinc/shims/tensorflow.py:TensorFlowShim._load_weights_from_state_dict", "thinc/shims/tensorflow.py:TensorFlowShim._create_state_dict", "thinc/shims/tensorflow.py:TensorFlowShim.copy", "thinc/shims/tensorflow.py:TensorFlowShim._clone_model"]}
{"id": "C103", "title": "Initializers return arrays of the shape they are asked for, with their documented ranges, from draws of their own", "statement": "Every initializer returns an array of the given shape. zero_init gives zeros; uniform_init stays between lo and hi; the LeCun, He and Glorot initializers give entries with the published scale, and their uniform versions stay within the published limits; normal_init gives normal draws around its mean. Every entry is made from a draw of its own, and the generator continues after them, so that different parameters are made from different draws.", "quantifier": "all shapes, all states of an arbitrary random generator, all lo, hi and mean", "why_tests_cant": "tests draw samples for a few shapes and cannot see limits that are only rarely exceeded", "anchors": ["thinc/initializers.py:glorot_uniform_init", "thinc/initializers.py:he_normal_init", "thinc/initializers.py:lecun_uniform_init", "thinc/initializers.py:uniform_init", "thinc/initializers.py:normal_init", "thinc/initializers.py:zero_init"]}
{"id": "C104", "title": "Random initial weights keep the scale of the data", "statement": "In a new dense layer with zero bias and independent draws, every output has mean zero; with LeCun initialization its variance is the mean of the squares of the inputs, with He initialization the mean of the squares of the outputs after ReLU is the mean of the squares of the inputs, and in general outputs and backpropagated gradients have the variance of the scheme times the sum of the squares of what they are computed from. The same holds for Maxout.", "quantifier": "all widths, all inputs and gradients, all six schemes, every probability space on which the draws are independent with their distributions", "why_tests_cant": "it is a statement about distributions; a test sees samples", "anchors": ["thinc/initializers.py:lecun_normal_init", "thinc/initializers.py:he_normal_init", "thinc/initializers.py:glorot_uniform_init", "thinc/layers/linear.py:init", "thinc/layers/relu.py:forward", "thinc/layers/maxout.py:init"]}
{"id": "C105", "title": "Threads and asynchronous tasks do not see each other's backend, data validation or operators", "statement": "Whatever other threads and tasks do and however they are scheduled, code in a thread or task gets from get_current_ops, data validation and model operators exactly what it would get if it ran alone from the values it started with: a new thread starts with the defaults, a new asynchronous task with the values of its creator at that moment. use_ops, data_validation and define_operators blocks therefore affect the code inside them only. contextvars_eq_thread_ops is true unless context variables were lost.", "quantifier": "all programs (any nesting of blocks, statements, exceptions and handlers, starting any number of threads and tasks), all schedules, all moments", "why_tests_cant": "the number of schedules of concurrent threads and tasks is unbounded, and a test runs one of them", "anchors": ["thinc/backends/__init__.py: use_ops, get_current_ops, set_current_ops, contextvars_eq_thread_ops, _get_thread_state", "thinc/util.py: data_validation, require_cpu", "thinc/model.py: Model.define_operators"]}
{"id": "C106", "title": "Choosing a backend and a GPU", "statement": "get_ops(name) returns the registered backend with that name, or raises ValueError if there is none; get_ops('cpu') returns the best CPU backend and never a GPU backend. require_gpu succeeds exactly if there is a GPU with the given number, and then the backend, CuPy and PyTorch all use it; prefer_gpu returns whether there is a GPU. If they raise, nothing has changed.", "quantifier": "all sets of registered backends, all names, all combinations of installed libraries and devices, all GPU numbers, all previous states", "why_tests_cant": "a test machine has one combination of libraries and devices", "anchors": ["thinc/backends/__init__.py: get_ops", "thinc/util.py: require_gpu, prefer_gpu, set_active_gpu, get_torch_default_device"]}
{"id": "C107", "title": "GPU memory through PyTorch or TensorFlow", "statement": "set_gpu_allocator routes CuPy's memory through a pool of the library that was asked for. CuPy gets at least the memory it asks for, and there is never more than one pool per library, also if several threads ask for one.", "quantifier": "all request sizes, all sequences of calls, all numbers of threads and all schedules", "why_tests_cant": "a race between two threads shows under few schedules, and too small a buffer only for some sizes", "anchors": ["thinc/backends/__init__.py: set_gpu_allocator, use_pytorch_for_gpu_memory, use_tensorflow_for_gpu_memory, context_pools", "thinc/backends/_cupy_allocators.py: cupy_pytorch_allocator, cupy_tensorflow_allocator"]}
{"id": "C108", "title": "Dense layers with normalize and dropout", "statement": "A dense layer made with the options normalize and dropout is initialized exactly when the layer without options could take the examples: nI is missing or the width of X, and nO or an example Y is given (without options, nO and the width of Y must agree; with options nO wins). All widths, also that of the normalization, are then those of the examples. It computes the layer, then the normalization, then the dropout, with exact gradients for the input and all parameters, and outside training dropout makes no difference.", "quantifier": "all dense layers with parameters W and b, both options in all combinations, all rates and random draws, all missing or preset dimensions, all examples, batches, parameter values", "why_tests_cant": "tests use a few sizes and one combination of options; the widths are inferred through two nested chains for every combination of preset dimensions and examples", "anchors": ["thinc/layers/relu.py: Relu", "thinc/layers/maxout.py: Maxout", "thinc/layers/mish.py: Mish", "thinc/layers/dish.py: Dish", "thinc/layers/swish.py: Swish", "thinc/layers/gelu.py: Gelu", "thinc/layers/chain.py: chain, init"]}
{"id": "C109", "title": "RAdam is the published algorithm", "statement": "With RAdam, every update of a parameter is the published rectified step from the exponentially weighted sums of all its gradients and their squares, corrected for the number of its updates and scaled by the learning rate and lr_scale. The update never divides by zero or takes the root of a negative number, the rectification never lengthens a step, and once it is in use it stays in use.", "quantifier": "all histories of calls for any number of parameters, all constant betas in [0, 1), all learning rates, gradients, weights and steps", "why_tests_cant": "a test sees a few steps; the corrections depend on the count of updates of each parameter in an arbitrary interleaving, and the closed form of the moments is a statement about all histories", "anchors": ["thinc/optimizers.py: RAdam, Optimizer._radam, Optimizer.__call__"]}
{"id": "C110", "title": "One example batch settles which batches of sequences a model accepts", "statement": "Take any model built with chain, add, concatenate, residual, with_array/with_array2d, with_list, with_ragged and with_padded from layers with parameters (Linear, Relu, Softmax, Maxout, LayerNorm, HashEmbed, ParametricAttention) and layers without parameters (conversions between lists, Ragged, Padded and arrays, reductions, expand_window, dropout, activations). If predict accepts one batch whose sequences have different lengths, then it accepts every batch in the same kind of container and of the same width, with any number of sequences of any positive lengths, and all outputs have the same kind of container and the same width; this remains so after initialize is called again. A successful chain(...).initialize(X) or with_array(chain(...)).initialize(X) guarantees this for the kind and width of X, and the chain infers its nO as the width of the outputs. initialize never changes a dimension that is set, nor the shape of a parameter. The example must have sequences of different lengths: a model may accept a batch of one sequence with one row and reject longer ones.", "quantifier": "every model of these layers with any nesting; every example batch with sequences of different lengths; every later batch; every number of repeated initializations", "why_tests_cant": "Tests initialize a model and run it on a few batches. The property ranges over all nestings of the combinators and all batches.", "anchors": ["thinc/layers/chain.py:init", "thinc/layers/with_array.py:init", "thinc/layers/with_array2d.py:init", "thinc/layers/with_list.py:init", "thinc/layers/with_ragged.py:init", "thinc/layers/with_padded.py:init", "thinc/layers/add.py:init", "thinc/layers/concatenate.py:init", "thinc/layers/residual.py:init", "thinc/layers/hashembed.py:init", "thinc/layers/parametricattention.py:init", "thinc/model.py:initialize"]}
{"id": "C111", "title": "initialize reaches every layer of a model, whatever it is built from", "statement": "When model.initialize(X, Y) returns, every layer with parameters anywhere in the model has its parameters, and their shapes are those that belong to the layer's dimensions. It never changes a dimension that is set, never takes parameters away, and touches no layer outside the model. Embed and SparseLinear take nO from Y only, MultiSoftmax takes nI from X, CauchySimilarity from the first item of X; an example whose width differs from a dimension that is set is refused.", "quantifier": "all models built from the layers with parameters and chain, add, concatenate, residual, tuplify, siamese, map_list, with_getitem, uniqued, resizable, with_cpu, bidirectional, ParametricAttention with any layer for the keys, and the wrappers for sequences, nested in any way; all example data or none; all states of the dimensions", "why_tests_cant": "The nesting of combinators is unbounded and each init function passes examples on in its own way; a test initializes a few models. For siamese without example data the property is false.", "anchors": ["thinc/layers/siamese.py:init", "thinc/layers/tuplify.py:init", "thinc/layers/map_list.py:init", "thinc/layers/with_getitem.py:init", "thinc/layers/uniqued.py:init", "thinc/layers/resizable.py:init", "thinc/layers/with_cpu.py:init", "thinc/layers/bidirectional.py:init", "thinc/layers/cauchysimilarity.py:init", "thinc/layers/embed.py:init", "thinc/layers/multisoftmax.py:init", "thinc/layers/sparselinear.pyx:init", "thinc/layers/parametricattention_v2.py:init", "thinc/model.py:Model.initialize"]}
{"id": "C112", "title": "Data validation in initialize refuses bad examples and changes nothing else", "statement": "With data validation on, initialize of any model built from the layers and combinators refuses, with a ValueError, examples whose type does not conform to the annotation of the forward function of a layer they reach (number of dimensions and kind of dtype for arrays, items for lists and tuples, one member for unions), and accepts the others. An initialize that succeeds with validation succeeds without it, with the same dimensions and parameters, and predict is the same.", "quantifier": "all annotations made of array types, lists, tuples, unions, classes and callables, all examples, all models composed of the layers and combinators with any annotation at each node, all states before", "why_tests_cant": "the annotations are nested, models are nested without bound, and the samples pass through every layer; tests show some refusals", "anchors": ["thinc/util.py:validate_fwd_input_output", "thinc/types.py:validate_array", "thinc/model.py:Model.initialize"]}
{"id": "C113", "title": "The mypy plugin accepts exactly the combinations that fit, and accepted models do not meet wrong types", "statement": "For a call of chain by name with models of declared types, however many, the plugin reports an error at an argument exactly when its output type is not a subtype of the next input type (and at that next argument), and gives the call the type Model[first input, last output]; for add and concatenate it reports none exactly when all input types and all output types are the same. Other calls keep mypy's type without an error, and the plugin never fails. If every layer maps values of its declared input type to values of its declared output type, so does every model that is accepted, however nested.", "quantifier": "all call contexts, all types and subtype relations, all numbers of arguments and groupings of them, all nested models and all values", "why_tests_cant": "the tests run mypy on a few modules with two or three layers; soundness is about all types, all nestings and all values", "anchors": ["thinc/mypy.py:function_hook", "thinc/mypy.py:get_reducers_type", "thinc/mypy.py:check_chained", "thinc/mypy.py:check_intoin_outtoout"]}
{"id": "C114", "title": "Moving a model to a GPU and back", "statement": "model.to_gpu(id) moves every parameter that is set and every gradient of a parameter, in every node of the tree and nowhere else, to GPU id, keeps their contents, makes every node of the tree use the GPU's operations, and moves wrapped models to the same GPU; model.to_cpu does the same for the CPU. Names, dimensions, layers, references and attributes do not change. Moving a model to any GPU and back restores every node exactly.", "quantifier": "all models (trees with shared layers, references and shims of every kind), all GPU ids, all contents of parameters and gradients", "why_tests_cant": "the functions are excluded from coverage and need GPUs; tests can only move a few models, and only to GPU 0", "anchors": ["thinc/model.py:Model.to_gpu", "thinc/model.py:Model.to_cpu", "thinc/model.py:Model._to_ops", "thinc/shims/pytorch.py:PyTorchShim.to_device", "thinc/backends/cupy_ops.py:CupyOps.asarray"]}
{"id": "C115", "title": "Training reduces the loss; linear and softmax regression are trained to the best parameters", "statement": "Take any model and any batches of a training step whose loss is not stationary. If the learning rate is small enough, then begin_update, the callback and finish_update with SGD (with or without gradient clipping, with the same or different learning rates for the parameters) leave parameters with a smaller total loss; so does the first step of Adam. A Linear layer that is trained on the same rows with L2Distance and SGD at a constant learning rate below a bound that can be read off the data never gets a larger loss, and after K iterations its loss is at most |start - other|^2 / (2 * rate * K) above the loss of any other parameters, so it comes as close as one likes to the least squares solution. The same holds for a Softmax layer that is trained on labels with CategoricalCrossentropy: its cross entropy never grows and comes at the same rate as close as one likes to that of any other parameters.", "quantifier": "every model whose layers have exact gradients, every list of batches, every positive learning rate below the bound, every clipping threshold; for Linear and Softmax every data set, every start, every number of iterations", "why_tests_cant": "a test trains on a few data sets with a few learning rates; that each small enough step goes down and that the limit is the minimum is a statement about all of them", "anchors": ["thinc/model.py:Model.begin_update", "thinc/model.py:Model.finish_update", "thinc/optimizers.py:Optimizer.__call__", "thinc/optimizers.py:Optimizer._adam", "thinc/layers/linear.py:forward", "thinc/loss.py:L2Distance.get_grad", "thinc/layers/softmax.py:forward", "thinc/loss.py:CategoricalCrossentropy.get_grad"]}
{"id": "C116", "title": "Predictions and training steps do not depend on how rows are cut into batches", "statement": "A model built from Linear, Relu and the other dense layers, Maxout, LayerNorm, Softmax, chains and residual connections predicts for a row what it predicts for that row in any other batch: the other rows, their number and the position do not matter. If the loss of a batch is the sum of the losses of its rows (L2Distance and CategoricalCrossentropy with normalize=False), then any number of calls of begin_update and the callback before finish_update can be replaced by others with the same rows in another order and cut into other batches: training with SGD or Adam, over any number of iterations, ends with the same parameters (and, for Adam, moments and averages). With normalize=True this is not so: two batches with one row change the parameters twice as much as one batch with both.", "quantifier": "every model made of these layers, every data set, every way to cut and reorder the rows in every iteration, every learning rate schedule and clipping threshold", "why_tests_cant": "a test compares a few ways to cut a few data sets; the claim is about all of them and about the exact numbers, not numbers up to a tolerance", "anchors": ["thinc/model.py:Model.begin_update", "thinc/model.py:Model.finish_update", "thinc/model.py:Model.inc_grad", "thinc/optimizers.py:Optimizer.__call__", "thinc/loss.py:L2Distance.get_grad", "thinc/loss.py:CategoricalCrossentropy.get_grad", "thinc/layers/linear.py:forward", "thinc/layers/relu.py:forward", "thinc/layers/maxout.py:forward", "thinc/layers/layernorm.py:forward", "thinc/layers/softmax.py:forward"]}
{"id": "C117", "title": "Copies and loaded models train like the original, and on their own", "statement": "model.copy() gives a model that predicts the same and holds the same parameters and gradients; training the copy changes nothing in the original and vice versa; and if both are trained with the same batches and equal optimizers (plain, or Adam, each with a new optimizer), they end with the same parameters. The same holds of a model that is saved and loaded into a model built alike without gradients: it predicts the same, and training continued after loading gives the parameters of uninterrupted training with a plain optimizer. In general, training a model never changes a node that does not belong to it.", "quantifier": "every model graph (shared layers included) with any parameters, every layer function, every sequence of batches, schedules that do not depend on the key, any number of iterations", "why_tests_cant": "equality after any number of iterations on any data, and the absence of any effect on other models, are statements about all graphs and all training histories", "anchors": ["thinc/model.py:Model.copy", "thinc/model.py:Model.to_dict", "thinc/model.py:Model.from_dict", "thinc/model.py:Model.finish_update", "thinc/optimizers.py:Optimizer.__call__", "thinc/backends/_param_server.py:ParamServer"]}
{"id": "C118", "title": "A wrapped layer is initialized with what it will be called with", "statement": "with_list, with_ragged, with_padded, with_array, with_flatten and with_reshape initialize the wrapped layer with exactly the array or container with which predict and begin_update call it for the same input, and initialize raises for an input that cannot be converted exactly where predict raises. With a tuple of data and lengths (with_ragged) or of the four arrays of a Padded (with_padded) the result is that of the container, packed as a tuple, and so are the gradients. (Not kept by the code: with_array with padding initializes without the padding, although with the same widths; with_padded predicts from a tuple of sequences but initialize raises AssertionError; with_ragged takes the second of two documents in a tuple for the lengths; with_flatten puts the targets of the sequences side by side instead of stacking them, so the output dimension is inferred wrongly, and refuses sequences of different lengths; with_reshape initializes its layer twice without data.)", "quantifier": "all wrapped layers, all lists, Ragged and Padded batches, tuples and three-dimensional arrays, all contents, lengths (also empty) and widths", "why_tests_cant": "initialization and forward convert the input in separate functions with a branch per container; a test shows agreement for one container and one batch, not for every container, empty sequences and odd tuples", "anchors": ["thinc/layers/with_list.py: init, _get_list, forward", "thinc/layers/with_ragged.py: init, _get_ragged, _is_ragged_data, _tuple_forward, forward", "thinc/layers/with_padded.py: init, _get_padded, _is_padded_data, _tuple_forward, forward", "thinc/layers/with_array.py: init, _get_array, forward", "thinc/layers/with_flatten.py: init", "thinc/layers/with_flatten_v2.py: init", "thinc/layers/with_reshape.py: init"]}
{"id": "C119", "title": "A document's output does not depend on the other documents in its batch", "statement": "For a model built from the sequence layers (list2ragged, ragged2list, with_array, with_list, with_ragged, expand_window, residual, the parametric attention layers, the pooling layers and layers on their rows) with fixed parameters there is one function of a document such that, for every batch of documents, the model returns the batch of the function's results. So the prediction for a document is the same alone, in any batch and at any place in it.", "quantifier": "all batches of documents (any number, any lengths, at least one token; for max, first and last pooling no empty document), all parameter values, all widths, all nestings and chains of the layers", "why_tests_cant": "A leak between documents appears only for particular neighbouring documents, paddings and window sizes; tests run a few batches.", "anchors": ["thinc/layers/with_array.py:forward", "thinc/layers/list2ragged.py", "thinc/layers/ragged2list.py", "thinc/layers/with_ragged.py", "thinc/layers/with_list.py", "thinc/layers/expand_window.py", "thinc/layers/residual.py", "thinc/layers/parametricattention.py", "thinc/layers/parametricattention_v2.py", "thinc/layers/reduce_sum.py", "thinc/layers/reduce_mean.py", "thinc/layers/reduce_max.py", "thinc/layers/reduce_first.py", "thinc/layers/reduce_last.py", "thinc/layers/chain.py", "thinc/layers/concatenate.py"]}
{"id": "C120", "title": "Training on documents does not depend on how they are cut into batches", "statement": "Take a model that handles each document by itself, and train it with an unnormalized loss: L2Distance on a vector per document, CategoricalCrossentropy on a label per document (after Softmax), or SequenceCategoricalCrossentropy on a tag per token (after Softmax inside with_array), with missing labels allowed. In every iteration the gradients of all batches are accumulated before finish_update. Then cutting the same documents into other batches, in another order, gives exactly the same parameters after any number of iterations, with SGD and with Adam, and the optimizer remembers the same.", "quantifier": "all models whose body handles documents by itself and has exact callbacks at all parameters, all documents of all lengths, all targets, all ways of cutting them into batches with at least one token, all numbers of iterations, all schedules of the hyperparameters", "why_tests_cant": "A test compares a few batch sizes on a few documents and only up to rounding; the claim is about every partition and every history of iterations.", "anchors": ["thinc/loss.py: CategoricalCrossentropy.get_grad, SequenceCategoricalCrossentropy.get_grad, L2Distance.get_grad", "thinc/layers/with_array.py: _list_forward", "thinc/layers/softmax.py: forward", "thinc/layers/chain.py: forward", "thinc/model.py: finish_update, inc_grad", "thinc/optimizers.py: Optimizer.__call__"]}
{"id": "C121", "title": "Between two updates, forward passes, backward passes and predictions may come in any order", "statement": "A user may call predict at any time, run several begin_update calls before the first callback, call the callbacks in any order, more than once or not at all. As long as every callback is called before the next finish_update, the gradients that have accumulated are those of the batches whose callbacks have been called, in the order of these calls; the model and the optimizer after an update are the same as after the plain loop over these batches; predict and forward passes whose callback is never called leave the parameters, the gradients and the optimizer as they are; and every predict answers with the parameters of the last finished update. In exact arithmetic, two sequences of calls with the same batches in each iteration, in whatever order, give the same parameters (and with Adam the same moments).", "quantifier": "all layers, all models and optimizer settings, all sequences of calls of predict, begin_update, callbacks and finish_update, of any length, in which no callback outlives an update; for the comparison of two sequences, all models with exact gradients, SGD and Adam", "why_tests_cant": "The number of interleavings grows without bound; a test follows the loop forward, backward, update.", "anchors": ["thinc/model.py: Model.predict, Model.begin_update, Model.finish_update, Model.inc_grad", "thinc/optimizers.py: Optimizer.step_schedules, Optimizer.__call__"]}
{"id": "C122", "title": "Layers that share arrays do what layers with arrays of their own do", "statement": "Layers pass arrays to each other by reference, return views, keep references for the backward pass, and some of them write into arrays they were given. For every network in which the layers that are written into (the first layer under add, concatenate, tuplify and residual) return arrays of their own, a forward pass returns what the layer functions say about the values and changes no array that existed before; and its callback, called at any later time, any number of times, with any gradient, returns the gradient and adds the parameter gradients that the layer functions on values give, and changes no array that existed, as long as the parameters, the input and the arrays made by the forward pass (the output may be excluded) have not been overwritten in the meantime. For the other networks it is false: add(noop, ...) changes the caller's input, concatenate(noop, ...) the caller's gradient, Embed with dropout the caller's gradient, two Embed layers with dropout under add give a wrong parameter gradient, and Relu first under add gives a wrong input gradient.", "quantifier": "all networks built from the modelled layers by chain, add, concatenate, tuplify and residual and the sequence wrappers with_array2d, with_list, with_ragged and with_padded, to any depth; all inputs (arrays, views, lists, Ragged, Padded), all memories, all parameters; all later memories in which the callback is called, and all gradients.", "why_tests_cant": "Whether two layers see each other's writes depends on which arrays are shared, in which order the callbacks run and what has happened between the passes. A test that compares one output compares values, not the identity of arrays; a wrong gradient through an overwritten output shows only for some signs of the input.", "anchors": ["thinc/layers/add.py: forward", "thinc/layers/concatenate.py: _array_forward, _ragged_forward, _list_forward", "thinc/layers/residual.py: forward", "thinc/layers/tuplify.py: tuplify_forward", "thinc/layers/chain.py: forward", "thinc/layers/noop.py: forward", "thinc/layers/dropout.py: forward", "thinc/layers/embed.py: forward", "thinc/layers/relu.py: forward", "thinc/backends/ops.py: Ops.as_contig, Ops.unflatten"]}
{"id": "C123", "title": "A user who shares arrays with a model sees what they would see if all arrays were copied", "statement": "A user creates arrays, passes them to predict, begin_update and callbacks, gets outputs and gradients back, and overwrites arrays they hold, in any order. If they leave alone the inputs of forward passes whose callbacks they may still call (and the outputs, for layers that keep their output), then every call raises, returns and stores exactly what it would if every array passed in or out were a copy: the outputs and predictions are the same, and the model and the optimizer end in the same state, in particular the parameters are those of gradient descent on the losses of the callbacks that were called. No call changes an array that the user holds. If the input, the output of Relu, or the parameters are overwritten before the callback is called, the gradients are wrong.", "quantifier": "all models whose layer on arrays does what the layer on values does (C122), all finite sequences of calls and writes by the user that observe the rule, all contents, all optimizers modelled, any interleaving of forward and backward passes.", "why_tests_cant": "The user's writes can come at any point between the calls, and whether they are harmful depends on what the pending callbacks refer to. Tests hold their arrays still.", "anchors": ["thinc/model.py: Model.predict, Model.begin_update, Model.finish_update", "thinc/layers/linear.py: forward", "thinc/layers/relu.py: forward", "thinc/layers/chain.py: forward"]}
{"id": "C124", "title": "A model saved to a file is loaded back whole or not at all, and the save of one model does not lose another", "statement": "After to_disk has returned, from_disk on the path does exactly what from_dict does with the dict of the saved model, the file holds exactly the bytes of to_bytes, can_from_disk gives the answer of can_from_dict, and no other path has changed. If the process is killed in the middle of to_disk, or to_disk raises, then a later load gives the model that was saved there before; a load never gives parts of two models. Threads that save models at the same time do not disturb each other. Loading bytes into another model of the same structure and serializing that gives the same bytes again.", "quantifier": "all models, all target models, all disks and paths, every point at which the process can be killed (after any byte), all sequences of complete, failed and interrupted saves to any paths, all numbers of threads and all interleavings of their writes; all readers and writers of messages that read back what was written and raise ValueError on a message that was cut short.", "why_tests_cant": "Crash points, histories of saves and interleavings of threads are unbounded and cannot be produced on purpose in unit tests, which save one small model to a fresh path and load it.", "anchors": ["thinc/model.py: Model.to_bytes, Model.to_disk, Model.from_bytes, Model.from_disk, Model.can_from_disk, Model.can_from_bytes"]}
{"id": "C125", "title": "Checkpoints: stopping, saving and resuming training", "statement": "A model can be trained for a while, saved with to_dict, loaded into a model that was built alike and trained on with a new optimizer built like the first one: the parameters at the end are those of training without the interruption. Saving the averaged parameters during training, with model.use_params(optimizer.averages): msg = model.to_dict(), saves the averages, leaves the model as it was, and does not change what further training does.", "quantifier": "all models built from layers that can be trained, all batches and losses before and after the checkpoint, all points to stop at, all learning rates and clipping thresholds, all optimizer states", "why_tests_cant": "a test stops one model at one point on one data set; the claim is about every point, all data and all schedules, and the differences that are there (moments and step counts are not saved) can be too small to see", "anchors": ["thinc/model.py:Model.to_dict", "thinc/model.py:Model.from_dict", "thinc/model.py:Model.use_params", "thinc/optimizers.py:Optimizer.__call__", "thinc/optimizers.py:Optimizer.step_schedules"]}
{"id": "C126", "title": "No infinities or NaN out of finite numbers", "statement": "In floating-point arithmetic, where results are rounded, sums depend on the order and large results overflow to infinity, softmax, the activation functions, their derivatives and gradient clipping turn finite numbers into finite numbers. softmax gives probabilities between 0 and 1, never gives a larger score a smaller probability and gives at least one class a positive probability; sigmoid is between 0 and 1 and monotone; clipped_linear, relu_k, hard_sigmoid and hard_tanh stay between their limits; swish, hard_swish, hard_swish_mobilenet, gelu_approx and mish are finite; clip_gradient makes no entry larger and changes no sign.", "quantifier": "every floating-point format and rounding that is monotone, odd and exact for small integers, one half and the largest number; every order of summation; every library exp, tanh and log with monotone and bounded results; all rows, gradients and thresholds of finite numbers", "why_tests_cant": "overflow, underflow and rounding happen for extreme inputs only; tests use a handful of ordinary numbers on one machine with one order of summation, while float32 rows of any length and any magnitude occur in training", "anchors": ["thinc/backends/ops.py:Ops.softmax", "thinc/backends/ops.py:Ops.sigmoid", "thinc/backends/ops.py:Ops.backprop_sigmoid", "thinc/backends/ops.py:Ops.clipped_linear", "thinc/backends/ops.py:Ops.backprop_clipped_linear", "thinc/backends/ops.py:Ops.swish", "thinc/backends/ops.py:Ops.hard_swish", "thinc/backends/ops.py:Ops.gelu_approx", "thinc/backends/ops.py:Ops.mish", "thinc/backends/ops.py:Ops.dish", "thinc/backends/ops.py:Ops.clip_gradient"]}
{"id": "C127", "title": "Rounding does not take softmax and sigmoid far from their mathematical values", "statement": "In floating-point arithmetic the probabilities that softmax returns sum to one up to about n times the precision of the format for n classes (temperatures of at least one), and each of them differs from the mathematical softmax of the scores by at most about four n times the precision (temperature one), however large or different the scores are and in whichever order numpy sums. sigmoid differs from the logistic function by at most exp(-20) plus about four times the precision, for all finite numbers.", "quantifier": "every floating-point format and rounding with a relative error u and an underflow error eta, every library exp with a relative error v, every order of summation, all rows of finite numbers", "why_tests_cant": "tests compare a few rows with a tolerance; the error depends on the scores, their number and the order of the sum, and the worst case is not among the examples", "anchors": ["thinc/backends/ops.py:Ops.softmax", "thinc/backends/ops.py:Ops.sigmoid"]}
{"id": "C128", "title": "Predicting draws no random numbers", "statement": "model.predict leaves numpy's random number generator as it is, also if it raises, and its result does not depend on the generator. So predictions made in the middle of training, for instance to evaluate the model, do not change the training: all the other calls return the same and the parameters, gradients, the optimizer and the generator end up the same. A dropout layer that is switched off, or whose rate is 0 or 1, draws nothing in training either. (Violated by the code: with_cpu runs its layer as in training.)", "quantifier": "all networks of layers with and without random draws (dropout, Embed, HashEmbed) and of combinators that pass the training flag on, of any depth; all parameters, inputs, sources of random numbers and states of the generator; all histories of predict, begin_update, callbacks and finish_update with any optimizer", "why_tests_cant": "A test compares a few runs with a few seeds; the property is about every network and every history of calls, and a draw that is made only for some kinds of input would be missed.", "anchors": ["thinc/model.py: Model.predict, Model.begin_update", "thinc/layers/dropout.py: forward", "thinc/layers/embed.py: forward", "thinc/layers/hashembed.py: forward", "thinc/layers/with_cpu.py: forward", "thinc/backends/ops.py: Ops.get_dropout_mask", "thinc/layers/chain.py, add.py, concatenate.py, tuplify.py, map_list.py, siamese.py, residual.py, with_list.py, with_ragged.py, with_padded.py, with_array2d.py: forward"]}
{"id": "C129", "title": "Adam keeps its numbers finite in floating point", "statement": "In floating-point arithmetic with any monotone rounding, an update by Adam (Ops.adam) with positive eps never produces NaN and keeps both moments finite, for every number of updates and every sequence of gradients of bounded size; the weight stays finite as long as the sum of the largest possible changes does. The same holds for RAdam, in rectified steps and in those before, for all rates of bounded size. Whether the bounds hold for ever can be decided from a single step at the bounds. Known exceptions in the code: a gradient whose square overflows makes the second moment infinite, after which the weight silently never changes again; with eps = 0 a weight whose first gradient is zero becomes NaN.", "quantifier": "every rounding function (monotone, odd, idempotent), largest finite number, hyperparameters, start, and every finite sequence of gradients within the bound", "why_tests_cant": "tests run a few steps with gradients of ordinary size in one format; the statement is about every history and the behaviour at the overflow limit", "anchors": ["thinc/backends/ops.py: Ops.adam", "thinc/optimizers.py: Optimizer._adam", "thinc/optimizers.py:Optimizer._radam"]}
{"id": "C130", "title": "Threads that share a model", "statement": "Threads that call models at the same time, for predictions or for training, get what they would get alone, whatever layers the models share and however the scheduler interleaves the threads; a thread never waits for another, and calls change neither parameters nor gradients. Threads that run backward passes at the same time end with the gradients they would have produced one after the other. Known exceptions in the code: two threads that increment a gradient that does not exist yet can lose one increment; threads that predict with one wrapped PyTorch module can get an output computed in training mode; a prediction during finish_update or use_params of another thread can see some old and some new parameters.", "quantifier": "every number of threads, every network built from layers and combinators, every input, and every schedule of the threads' accesses to parameters, gradients and module flags", "why_tests_cant": "a test runs a handful of schedules and races are rare; the statement ranges over all interleavings", "anchors": ["thinc/backends/_param_server.py: ParamServer.get_param, inc_grad, has_grad", "thinc/model.py: Model.__call__, Model.predict, Model.get_param, Model.inc_grad", "thinc/shims/pytorch.py: PyTorchShim.predict, begin_update", "thinc/layers/chain.py: forward"]}
{"id": "C131", "title": "Compiled code stays inside the arrays it is given", "statement": "Whatever arrays, lengths, parameters, inputs and gradients are passed, wrong shapes included, a forward pass, a backward pass or an operation of the CPU backend returns a result or raises an exception; it never reads or writes outside an array.", "quantifier": "every network put together from the modelled layers (all but Maxout, SparseLinear and LSTM), all parameter values, inputs, gradients and lengths; every argument of reduce_sum, reduce_mean, reduce_max, maxout, seq2col and their backward passes, gather_add and scatter_add", "why_tests_cant": "An access outside an array usually goes unnoticed: it reads or overwrites whatever lies there. Tests use arrays that fit; the bad cases are the combinations of shapes, lengths and ids nobody thought of.", "anchors": ["thinc/backends/numpy_ops.pyx: NumpyOps.reduce_sum, NumpyOps.reduce_mean, NumpyOps.reduce_max, NumpyOps.backprop_reduce_sum, NumpyOps.backprop_reduce_mean, NumpyOps.backprop_reduce_max, NumpyOps.maxout, NumpyOps.backprop_maxout, NumpyOps.seq2col, NumpyOps.backprop_seq2col, NumpyOps.gather_add, NumpyOps.scatter_add", "thinc/backends/cpu_kernels.hh", "thinc/layers", "thinc/util.py: ArrayInfo.check_consistency"]}
{"id": "C132", "title": "Matrix multiplication is the same on every backend", "statement": "ops.gemm(x, y, trans1=…, trans2=…) returns a new array with the matrix product of x and y (or their transposes), for arrays of every shape and memory layout, and changes no other array; with out=… the product is stored in that array and nothing else changes; matrices that do not fit together raise ValueError. The CPU backend with and without BLIS, the base class, CuPy and AppleOps agree.", "quantifier": "all arrays (any shape, also empty; any strides, offsets and sharing of memory; contents), both transposition flags, all arrays for out, all contents of uninitialised memory", "why_tests_cant": "Tests multiply a few fresh contiguous arrays; whether every entry is read at the right place, and whether out is written and only out, depends on shapes, strides and overlap of views.", "anchors": ["thinc/backends/numpy_ops.pyx: NumpyOps.gemm", "thinc/backends/ops.py: Ops.gemm, Ops.as_contig", "thinc/backends/cupy_ops.py: CupyOps.gemm", "thinc/backends/apple_ops.pyx: AppleOps.gemm", "thinc/backends/_accelerate.pyx: gemm"]}
{"id": "C133", "title": "Matrix products and Linear in floating point", "statement": "Every entry of ops.gemm, of the output of Linear and of its gradients is near the exact value: the error is at most ((1+u)^n - 1) times the sum of the absolute values of the products, plus n (1+u)^n times the underflow unit, whatever order the additions are done in and with or without fused operations; no entry is infinite or NaN unless that sum exceeds the largest number. Hence results on different backends differ by at most twice this. Products of whole numbers (one-hot rows, counts) are exact and the same everywhere.", "quantifier": "all finite matrices of any size, all orders of summation and uses of fused multiply-add, all floating-point formats with correct rounding", "why_tests_cant": "Tests compare a few results with a tolerance; the order of the additions depends on library, processor, threads, sizes and layout, and the error on all entries.", "anchors": ["thinc/backends/ops.py: Ops.gemm, Ops.affine", "thinc/backends/numpy_ops.pyx: NumpyOps.gemm", "thinc/backends/cupy_ops.py: CupyOps.gemm", "thinc/backends/_accelerate.pyx: gemm", "thinc/layers/linear.py: forward"]}
{"id": "C134", "title": "Predictions of feed-forward networks in floating point are near those of real numbers", "statement": "For a chain of Relu layers that ends with Linear or Softmax, predict in floating point returns finite scores (probabilities) that differ from those of exact arithmetic by at most a bound computed layer by layer from the sizes of the parameters and inputs and the precision of the format. Two backends, batch sizes or thread counts differ by at most twice the bound, and all of them predict the same class if its exact score is ahead by more than twice the bound. This holds unless a layer may overflow; on overflow the backends differ (relu of minus infinity is 0 on the CPU kernel and NaN elsewhere).", "quantifier": "all depths and widths, all finite parameters and inputs, all batches, all orders of the additions in the matrix products with or without fused operations, both implementations of relu, all floating-point formats that round accurately", "why_tests_cant": "Tests compare a few outputs with a tolerance that was chosen by hand, on one machine. They cannot show that the tolerance holds for every network and input or for the order of additions of another BLAS.", "anchors": ["thinc/layers/relu.py: forward", "thinc/layers/linear.py: forward", "thinc/layers/softmax.py: forward", "thinc/layers/chain.py: forward", "thinc/backends/ops.py: Ops.relu, Ops.affine, Ops.softmax", "thinc/backends/cpu_kernels.hh: cpu_relu"]}
{"id": "C135", "title": "Wrapped TensorFlow and MXNet models see the input's arrays as tensors and give back their gradients", "statement": "Calling a wrapped TensorFlow or MXNet model with an input of arrays nested in tuples, lists, dicts or ArgsKwargs calls the model once, with every array replaced by a tensor of its own with the same contents; a dict becomes keyword arguments, a tuple or list positional ones. The output is returned with every tensor turned into an array, and everything else in place. The callback computes gradients once, for the output and the given gradient, and returns an object of the form of the input, with every array replaced by its gradient (None where there is none). (Violated by the code for TensorFlow: after a call in evaluation mode the callback raises NameError; for a dict it raises; ArgsKwargs lose the gradients of keyword arguments; for two inputs the result holds gradients of rows of the first input and of variables of the model. For MXNet, as for PyTorch, the gradient of a list is a tuple.)", "quantifier": "all nested inputs, all models and gradient computations, all contents, training or not, all gradients", "why_tests_cant": "Inputs nest without bound and mix containers, and the model is arbitrary; the tests of these wrappers pass one array. A callback that takes gradients from the wrong place in a list shows only for particular numbers of inputs, rows and variables.", "anchors": ["thinc/layers/tensorflowwrapper.py:forward", "thinc/layers/tensorflowwrapper.py:_convert_inputs", "thinc/layers/tensorflowwrapper.py:_convert_outputs", "thinc/layers/mxnetwrapper.py:forward", "thinc/layers/mxnetwrapper.py:convert_mxnet_default_inputs", "thinc/shims/tensorflow.py:TensorFlowShim.begin_update", "thinc/shims/mxnet.py:MXNetShim.begin_update"]}
{"id": "C136", "title": "Predictions of networks with Maxout layers in floating point are near those of real numbers", "statement": "For a chain of Relu and Maxout layers, in any order and with any number of pieces, that ends with Linear or Softmax, predict in floating point returns finite scores (probabilities) that differ from those of exact arithmetic by at most a bound computed layer by layer from the sizes of the parameters and inputs and the precision of the format. Two backends, batch sizes or thread counts differ by at most twice the bound, and all of them predict the same class if its exact score is ahead by more than twice the bound. Taking the largest piece adds no error of its own, and all backends take the same one of finite numbers. This holds unless a layer may overflow. (With NaN among the pieces the backends disagree: of the pieces a, NaN, c with a < c, NumpyOps returns a, Ops returns NaN and CupyOps returns c.)", "quantifier": "all numbers, widths and orders of layers, all numbers of pieces, all finite parameters and inputs, all batches, all orders of the additions and uses of fused operations, all binary formats with correct rounding, all three implementations of maxout", "why_tests_cant": "The order of the additions depends on the BLAS library, the batch size and the number of threads, and the kernels choose another algorithm for two, three and more pieces; a test compares a few outputs on one machine.", "anchors": ["thinc/layers/maxout.py:forward", "thinc/layers/relu.py:forward", "thinc/layers/chain.py:forward", "thinc/layers/softmax.py:forward", "thinc/backends/cpu_kernels.hh:cpu_maxout", "thinc/backends/cpu_kernels.hh:argmax", "thinc/backends/ops.py:Ops.maxout", "thinc/backends/_custom_kernels.cu:maxout", "thinc/backends/cupy_ops.py:CupyOps.maxout"]}
{"id": "C137", "title": "Gradients of feed-forward networks in floating point are near the derivatives", "statement": "For a chain of Relu layers that ends with Linear, begin_update followed by the callback, in floating point, returns finite gradients of the input, and adds finite gradients of all weights and biases, that differ from those of exact arithmetic by at most a bound computed layer by layer from the sizes of the parameters, inputs and output gradients, the number of rows and the precision of the format; the exact ones are the derivatives of the scores along every direction of the input and the parameters. Two backends, batch orders or thread counts differ by at most twice the bound. This holds unless a number may overflow, or an exact hidden unit is so near to zero that rounding could turn it on or off. (For infinite or NaN numbers the backends disagree: where a unit is off, an infinite or NaN gradient becomes zero with the NumpyOps kernel and NaN with the others; where a unit is NaN, the gradient passes with the kernel and becomes zero with the others.)", "quantifier": "all numbers and widths of layers, all finite parameters, inputs and output gradients (also ones that are themselves off), all batches, all orders of the additions and uses of fused operations, all binary formats with correct rounding, both implementations of relu and backprop_relu", "why_tests_cant": "The order of the additions depends on the BLAS library, the batch size and the number of threads; a gradient check compares finite differences at a few points with a tolerance chosen by hand.", "anchors": ["thinc/layers/relu.py:forward", "thinc/layers/linear.py:forward", "thinc/layers/chain.py:forward", "thinc/backends/ops.py:Ops.backprop_relu", "thinc/backends/cupy_ops.py:CupyOps.backprop_relu", "thinc/backends/numpy_ops.pyx:NumpyOps.backprop_relu"]}
{"id": "C138", "title": "The gradients of a training step in floating point are near the derivatives of the cross-entropy", "statement": "For a chain of Relu layers that ends with Softmax, and CategoricalCrossentropy (normalized or not, with or without missing values): begin_update, get_grad and the callback, in floating point, raise no exception, the probabilities differ from the exact ones by at most a bound, and the gradients that the step adds to all weights and biases, and returns for the input, differ from the derivatives of the exact cross-entropy (the sum of minus the logarithm of the probability of the right class, over the rows that are not missing, divided by the number of rows if normalized) by at most bounds computed layer by layer. In particular rounding never moves a probability out of the interval from 0 to 1, which get_grad would refuse. This holds unless a number may overflow, or an exact hidden unit is so near to zero that rounding could turn it on or off.", "quantifier": "all numbers and widths of layers, all finite parameters and inputs, all classes, all batches, all orders of the additions and uses of fused operations, all binary formats with correct rounding and an exp with a bounded relative error, both implementations of relu", "why_tests_cant": "Tests compare the loss or the accuracy after training with a threshold, or a gradient with finite differences at a few points; the order of the additions depends on the library, the batch size and the machine.", "anchors": ["thinc/loss.py:CategoricalCrossentropy.get_grad", "thinc/loss.py:CategoricalCrossentropy.convert_truths", "thinc/layers/softmax.py:forward", "thinc/layers/relu.py:forward", "thinc/layers/chain.py:forward", "thinc/util.py:to_categorical", "thinc/backends/ops.py:Ops.softmax"]}
{"id": "C139", "title": "Gradient descent in floating point", "statement": "A step of the optimizer without momentum (SGD; with L2 regularization, with weight decay, or without) in floating point leaves finite weights that differ from those of the step with real numbers by at most a bound, and a gradient of zero. After a whole training step of a classifier (C138) all weights and biases are near those of a step with real numbers along the derivatives of the cross-entropy. Over any number of steps a run stays within a bound of the run with real numbers, which grows with the number of steps like a geometric series whose factor is little more than 1 plus the learning rate times the Lipschitz constant of the gradient. With weight decay and bounded gradients the weights stay within a fixed bound however long the run is. A gradient that is infinite or NaN, however, is not consumed: NaN is left in it, and all later weights are NaN, whatever the later gradients.", "quantifier": "all weights, gradients, learning rates and L2 rates for which nothing overflows, all numbers of steps, all gradients that are off by a bounded error, all binary formats with correct rounding", "why_tests_cant": "Tests run a few steps with a few numbers; errors add up over runs of any length, and depend on the numbers.", "anchors": ["thinc/optimizers.py:Optimizer.__call__", "thinc/optimizers.py:SGD", "thinc/model.py:Model.finish_update"]}
{"id": "C140", "title": "Conversions of arrays keep the numbers", "statement": "ops.asarray(data, dtype=d) gives an array of the backend of the type d (without d: of the format of the data) with the shape and the numbers of the data, whether the data is an array of numpy or cupy in either byte order, a tensor or a nested sequence. It is the very array, without a copy, exactly if the data is already an array (or tensor) of the device and the type; otherwise it shares no memory with the data. as_contig gives a C-contiguous array with the same shape and numbers. to_numpy(data, byte_order='<') gives an array of numpy whose bytes are the numbers with the lowest byte first on every machine, so that parameters written on one machine are read as the same numbers on another, and written as the same bytes again.", "quantifier": "all arrays of all shapes, types and byte orders, all kinds of data, all pairs of machines and backends, all requested types", "why_tests_cant": "Tests run on one machine with one byte order and convert a few small arrays; whether memory is shared is seen only after a later write.", "anchors": ["thinc/backends/ops.py:Ops.asarray", "thinc/backends/ops.py:Ops.as_contig", "thinc/backends/ops.py:Ops.to_numpy", "thinc/backends/numpy_ops.pyx:NumpyOps.asarray", "thinc/backends/cupy_ops.py:CupyOps.asarray", "thinc/backends/cupy_ops.py:CupyOps.to_numpy", "thinc/model.py:Model.to_bytes", "thinc/model.py:Model.from_bytes"]}
{"id": "C141", "title": "New arrays and changes of shape", "statement": "ops.alloc and its variants give a new contiguous array of exactly the shape and type asked for, of zeros unless zeros=False, and raise ValueError for a negative dimension. ops.reshape and its variants, with at most one dimension left to be inferred, succeed exactly if one and only one shape fits the dimensions and the number of elements; the result has that shape, and the same numbers in the same order, so that the number at an index is the one at the index with the same place in C order. Otherwise, and if two dimensions are left open, ValueError is raised. A reshaped array can be reshaped back. A contiguous array is never copied: later writes to it are seen in the result.", "quantifier": "all arrays of all shapes and types, all requested shapes (numbers or tuples, with and without negative dimensions)", "why_tests_cant": "Tests reshape a few small arrays; that a shape is found whenever one fits, also with empty dimensions, is a statement about all shapes.", "anchors": ["thinc/backends/ops.py:Ops.alloc", "thinc/backends/ops.py:Ops.alloc_f", "thinc/backends/ops.py:Ops.alloc_i", "thinc/backends/ops.py:Ops.reshape", "thinc/backends/ops.py:Ops.reshape_f", "thinc/backends/ops.py:Ops.reshape_i", "thinc/backends/numpy_ops.pyx:NumpyOps.alloc"]}
{"id": "C142", "title": "insert_into and logloss", "statement": "ops.insert_into(shape, Xs) gives an array of the shape whose i-th block is the i-th sequence followed by zeros, and zeros in the blocks for which there is no sequence; no sequences or too many raise IndexError, and a sequence that is too long raises ValueError: nothing is lost. ops.logloss is finite for all labels and predictions between 0 and 1, never negative, smaller the nearer the prediction is to a label of 0 or 1, and symmetric in the two classes.", "quantifier": "all numbers and lengths of sequences, all shapes, all labels and predictions between 0 and 1", "why_tests_cant": "The repository has no test of either; bounds and monotonicity are statements about all real numbers, and the failing shapes about all lengths.", "anchors": ["thinc/backends/ops.py:Ops.insert_into", "thinc/backends/ops.py:Ops.logloss"]}
{"id": "C143", "title": "Calling ops.adam directly", "statement": "ops.adam(weights, gradient, mom1, mom2, beta1, beta2, eps, learn_rate, mod_rate) makes the Adam step in place for every element of the arrays given, also if they are views of larger arrays, and changes nothing else in those; mod_rate multiplies the root of the second moment; arrays of different lengths raise ValueError; and it leaves the same gradient behind on every backend.", "quantifier": "all lengths, offsets and strides of the four arrays, all contents of the memories around them, all rates", "why_tests_cant": "The tests call adam with contiguous arrays of one and two elements and the default mod_rate; which memory is touched depends on the stride.", "anchors": ["thinc/backends/ops.py:Ops.adam", "thinc/backends/numpy_ops.pyx:NumpyOps.adam", "thinc/backends/numpy_ops.pyx:_adam_momentum", "thinc/backends/ops.py:_check_compatible_shape"]}
{"id": "C144", "title": "relu and mish do not depend on memory layout", "statement": "ops.relu and ops.mish of NumpyOps give the activation of every element, whether the argument is contiguous, transposed or a part of another matrix; in place they change exactly the elements of the argument. ops.backprop_relu and ops.backprop_mish pair the elements of the gradient and of the other array by their row and column, whatever the layouts of the two are; different shapes raise ValueError.", "quantifier": "all shapes, offsets and strides of both arrays, all contents of the memories around them, in place or not, all elementwise kernels", "why_tests_cant": "The tests use freshly made contiguous arrays; the pairs of layouts are many, and a wrong pairing raises nothing.", "anchors": ["thinc/backends/numpy_ops.pyx:NumpyOps.relu", "thinc/backends/numpy_ops.pyx:NumpyOps.backprop_relu", "thinc/backends/numpy_ops.pyx:NumpyOps.mish", "thinc/backends/numpy_ops.pyx:NumpyOps.backprop_mish", "thinc/backends/numpy_ops.pyx:_inplace_or_copy"]}
