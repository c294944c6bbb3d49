{"id": "C01", "title": "Generated names are fresh", "statement": "After any sequence of make_name calls, no two results are equal; and if the counter was first initialised from a graph, no generated name equals a node name or tensor name that was already in that graph (or in any of its subgraphs) and ends in a generated-style suffix.", "quantifier": "all base-name sequences, all pre-existing sets of node/tensor names, all graph nestings", "why_tests_cant": "Freshness is a statement about every pair of calls in every history; tests only sample some base names.", "anchors": ["tf2onnx/utils.py:make_name", "tf2onnx/utils.py:set_name", "tf2onnx/tfonnx.py:process_tf_graph", "tf2onnx/utils.py:initialize_name_counter"]}
{"id": "C02", "title": "Tensor name / node name conversion round-trips", "statement": "node_name(port_name(n, i)) == n for every node name n that holds no ':' (and more generally for every n, whatever it holds, when i>0 is rendered), and port_name is injective in (n, i) over such names; port_name(n,0) and port_name(n) give the same tensor.", "quantifier": "all node names and all output numbers", "why_tests_cant": "Infinite domain of strings and ports.", "anchors": ["tf2onnx/utils.py:port_name", "tf2onnx/utils.py:node_name"]}
{"id": "C03", "title": "Shape merging is sound and loses nothing", "statement": "merge_shapes(a,b) succeeds exactly when the two shapes are compatible; every concrete shape that matches both a and b matches the result, and every concrete shape that matches the result matches both; the operation is commutative, associative and idempotent up to the unknown-dimension marker.", "quantifier": "all pairs/triples of shapes (any rank, any mixture of known/unknown dims), all concrete shapes", "why_tests_cant": "Algebraic laws over unbounded ranks.", "anchors": ["tf2onnx/utils.py:merge_shapes", "tf2onnx/utils.py:are_shapes_compatible", "tf2onnx/utils.py:are_shapes_equal"]}
{"id": "C04", "title": "Dependency sort is a topological order", "statement": "topological_sort(dependencies) returns each key exactly once, every key after all of its dependencies, and raises exactly when the dependencies hold a cycle reachable through the keys or name a missing key.", "quantifier": "all finite dependency dictionaries", "why_tests_cant": "All graphs, including adversarial shapes; termination on cycles.", "anchors": ["tf2onnx/utils.py:topological_sort"]}
{"id": "C05", "title": "Seed combination is deterministic and collision free", "statement": "combine_seeds of two non-negative seed pairs are equal only if the pairs are equal; None is returned exactly when both seeds are zero (no seed requested).", "quantifier": "all pairs of seeds", "why_tests_cant": "Injectivity on an infinite domain.", "anchors": ["tf2onnx/utils.py:combine_seeds"]}
{"id": "C06", "title": "The graph's lookup tables agree with its node list after any edit history", "statement": "After any sequence of successful graph edits (make_node, remove_node, replace_input(s), remove_input, replace_all_inputs, insert_node_on_output, reset_nodes, ...) get_node_by_name(n) returns a node exactly when the node list holds a node with that name, and get_node_by_output(o) returns exactly the node of the list that lists o among its outputs; node names and output names stay unique.", "quantifier": "all histories of edit calls with all arguments", "why_tests_cant": "The invariant must survive every interleaving of edits; tests exercise fixed scripts.", "anchors": ["tf2onnx/graph.py:Graph.make_node", "tf2onnx/graph.py:Graph.remove_node", "tf2onnx/graph.py:Graph.reset_nodes", "tf2onnx/graph.py:Graph.get_node_by_output", "tf2onnx/graph.py:Graph.get_node_by_name"]}
{"id": "C07", "title": "find_output_consumers is exact", "statement": "After any sequence of edits on a graph, find_output_consumers(o) returns precisely the nodes that read o, each once.", "quantifier": "all histories of edits, all tensor names", "why_tests_cant": "Stale index entries only show up after particular edit sequences.", "anchors": ["tf2onnx/graph.py:Graph.find_output_consumers", "tf2onnx/graph.py:Graph._register_input_name", "tf2onnx/graph.py:Graph._unregister_input_name"]}
{"id": "C08", "title": "Consumers inside nested subgraphs are found", "statement": "After any sequence of edits, find_output_consumers(o) on a graph also returns every node of a nested body graph that reads o from the outer scope.", "quantifier": "all histories of edits on a graph with body graphs", "why_tests_cant": "Depends on history: the index from tensor to nested graph is deleted when one of several consumers disappears.", "anchors": ["tf2onnx/graph.py:Graph._unregister_input_name", "tf2onnx/graph.py:Graph.find_output_consumers"]}
{"id": "C09", "title": "replace_all_inputs redirects exactly the requested uses", "statement": "replace_all_inputs(old,new) makes every node input (and graph-body input) equal to old become new and changes nothing else; if old and new carry the same value the graph computes the same outputs.", "quantifier": "all graphs, all old/new tensor names, all op interpretations", "why_tests_cant": "Quantifies over all graphs and all meanings of operators.", "anchors": ["tf2onnx/graph.py:Graph.replace_all_inputs", "tf2onnx/graph.py:Graph._replace_all_inputs"]}
{"id": "C10", "title": "Unused-node deletion keeps the computed function", "statement": "delete_unused_nodes(outputs) keeps exactly the nodes the outputs depend on (transitively, plus graph inputs) and the pruned graph computes the same outputs for the same inputs.", "quantifier": "all graphs, all output lists, all op interpretations", "why_tests_cant": "Reachability on arbitrary graphs.", "anchors": ["tf2onnx/graph.py:Graph.delete_unused_nodes", "tf2onnx/graph.py:Graph.extract_sub_graph_nodes"]}
{"id": "C11", "title": "Exported node order is executable", "statement": "Graph.topological_sort yields a permutation of the nodes in which every node follows the producers of all its inputs (including those used by nested bodies), or raises when there is a cycle; executing the nodes in that order computes the graph's unique valuation.", "quantifier": "all graphs", "why_tests_cant": "All DAGs; a runtime rejects or miscomputes a model with one misplaced node.", "anchors": ["tf2onnx/graph.py:Graph.topological_sort"]}
{"id": "C12", "title": "User-visible output names survive conversion", "statement": "When a Graph is built for a list of output names, each of those names is still produced (by exactly one node), the graph lists them in order and the value under each of those names is the value originally computed under that name.", "quantifier": "all node lists and output lists (including an output produced by a multi-output node, used internally, or repeated)", "why_tests_cant": "All graph shapes.", "anchors": ["tf2onnx/graph.py:Graph.__init__"]}
{"id": "C13", "title": "Identity elimination preserves the model", "statement": "Running the identity optimizer never changes the values of the graph's outputs, nor its input and output names.", "quantifier": "all graphs, inputs and op interpretations", "why_tests_cant": "All graph shapes and all meanings of the other operators.", "anchors": ["tf2onnx/optimizer/identity_optimizer.py:IdentityOptimizer"]}
{"id": "C14", "title": "Duplicate merging preserves the model", "statement": "Running the duplicate-node optimizer never changes the values of the graph's outputs.", "quantifier": "all graphs, inputs and interpretations of deterministic operators", "why_tests_cant": "All graph shapes.", "anchors": ["tf2onnx/optimizer/merge_duplicated_nodes_optimizer.py:MergeDuplicatedNodesOptimizer"]}
{"id": "C15", "title": "Constant folding computes what the runtime would", "statement": "Each constant-folding rule (Cast, Transpose, Reshape, Unsqueeze, Split, Concat, ...) produces for constant operands the tensor the ONNX operator denotes, for every shape and attribute value, including 0/-1 in Reshape and negative axes.", "quantifier": "all constant tensors and attributes", "why_tests_cant": "Unbounded shapes and axes.", "anchors": ["tf2onnx/optimizer/const_fold_optimizer.py:ConstFoldOptimizer"]}
{"id": "C16", "title": "Back-to-back transposes are fused correctly", "statement": "Two transposes in a row are replaced by one with the composed permutation (or removed when that is the identity); the result is the same tensor.", "quantifier": "all ranks, all permutations, all tensors", "why_tests_cant": "All permutations of all ranks.", "anchors": ["tf2onnx/optimizer/back_to_back_optimizer.py:BackToBackOptimizer._optimize_transpose"]}
{"id": "C17", "title": "Removing a cast in a chain of casts never changes the result", "statement": "When two casts in a row are reduced to one, converting directly gives for every value the same result as the original chain.", "quantifier": "all element types and all values", "why_tests_cant": "All values of all numeric types.", "anchors": ["tf2onnx/optimizer/back_to_back_optimizer.py:BackToBackOptimizer._optimize_cast"]}
{"id": "C18", "title": "Removing the first of two reshapes / squeezes never changes the result", "statement": "Reshape(Reshape(x,s1),s2) is replaced by Reshape(x,s2) and Squeeze/Unsqueeze pairs are fused or cancelled; the produced shape and data are the same.", "quantifier": "all shapes and all axis lists", "why_tests_cant": "All ranks, including 0 and -1 markers in the target shape.", "anchors": ["tf2onnx/optimizer/back_to_back_optimizer.py:BackToBackOptimizer"]}
{"id": "C19", "title": "Moving a transpose across an operator keeps values and attributes right", "statement": "When a transpose is pushed through an operator (Pad, Reduce*, Squeeze, Slice, Concat, Split, Softmax, Shape, ...), the rewritten attributes make op(transpose(x)) equal transpose(op'(x)).", "quantifier": "all tensors, ranks, permutations, axes", "why_tests_cant": "All ranks/permutations.", "anchors": ["tf2onnx/optimizer/transpose_optimizer.py:TransposeOptimizer"]}
{"id": "C20", "title": "The optimizer driver never makes conversion fail and never returns a half-optimised graph", "statement": "optimize_graph with catch_errors returns, for every behaviour of every pass (including failing half-way), a graph reached only by passes that completed; it stops when no pass changes the graph.", "quantifier": "all sequences of pass behaviours, including a failure at any point", "why_tests_cant": "All failure points.", "anchors": ["tf2onnx/optimizer/__init__.py:optimize_graph", "tf2onnx/optimizer/optimizer_base.py:GraphOptimizerBase.optimize"]}
{"id": "C21", "title": "Pattern matcher is sound and complete", "statement": "match_op returns a match exactly when the graph region rooted at the op is an instance of the pattern (op types, wildcards, alternatives, optional reordering of operands), and the recorded op for each pattern name is the one at that position.", "quantifier": "all patterns and all graphs", "why_tests_cant": "All patterns and all permutations.", "anchors": ["tf2onnx/graph_matcher.py:GraphMatcher", "tf2onnx/graph_matcher.py:OpTypePattern"]}
{"id": "C22", "title": "Symbolic shape evaluation agrees with execution", "statement": "The symbolic executor's value of a shape expression equals, for every assignment of the unknown input dimensions, what executing the nodes would give.", "quantifier": "all supported expression graphs and all dimension assignments", "why_tests_cant": "All assignments.", "anchors": ["tf2onnx/symbolic_executor.py:SymbolicExecutor"]}
{"id": "C23", "title": "The right converter version is selected", "statement": "For every set of registered converters and every requested opset, the converter used for an op is the one with the largest version not above the requested opset in its domain, and ops with no such version are left unconverted; likewise get_schema picks the newest schema not above the opset.", "quantifier": "all registrations and all opset requests", "why_tests_cant": "All registration orders and opsets.", "anchors": ["tf2onnx/handler.py:tf_op.create_mapping", "tf2onnx/schemas.py:get_schema"]}
{"id": "C24", "title": "External tensors get distinct storage names", "statement": "In a large-model zip, every tensor stored externally has its own file name, small tensors stay inline, and reading the archive back yields every tensor unchanged.", "quantifier": "all sequences of constant nodes with arbitrary (unsanitised) names and sizes", "why_tests_cant": "All names, including those that collide after sanitising.", "anchors": ["tf2onnx/graph.py:ExternalTensorStorage", "tf2onnx/graph.py:Node.get_attr_onnx", "tf2onnx/utils.py:save_onnx_zip", "tf2onnx/utils.py:model_proto_from_zip"]}
{"id": "C25", "title": "tfjs string weights decode to what was encoded", "statement": "Reading a tfjs string weight buffer returns exactly the byte strings that were written with 4-byte length prefixes.", "quantifier": "all lists of byte strings", "why_tests_cant": "All byte strings and lengths.", "anchors": ["tf2onnx/tfjs_utils.py:read_string_weight"]}
{"id": "C26", "title": "tfjs weights partition the shard data", "statement": "Reading the tfjs weight manifest assigns to each weight its own consecutive byte range, in order and without overlap, and raises when the data is too short or too long.", "quantifier": "all manifests and buffers", "why_tests_cant": "All manifests.", "anchors": ["tf2onnx/tfjs_utils.py:read_model_json", "tf2onnx/tfjs_utils.py:read_tfjs_weights"]}
{"id": "C27", "title": "tfjs string attributes survive base64 repair", "statement": "fix_string_attr restores precisely the original bytes of every string attribute.", "quantifier": "all byte strings", "why_tests_cant": "All byte strings, all lengths modulo 3.", "anchors": ["tf2onnx/tfjs_utils.py:fix_string_attr", "tf2onnx/tfjs_utils.py:base64_decode"]}
{"id": "C28", "title": "tflite string tensors decode to what was encoded", "statement": "parse_tflite_string_tensor returns precisely the byte strings stored in the buffer, reshaped row-major.", "quantifier": "all lists of byte strings", "why_tests_cant": "All buffers.", "anchors": ["tf2onnx/tflite_utils.py:parse_tflite_string_tensor"]}
{"id": "C29", "title": "Flexbuffers decode to what was encoded", "statement": "read_flexbuffer returns the value a conforming flexbuffer encodes: ints, floats, strings, vectors, typed vectors, maps nested to any depth; invalid type codes raise.", "quantifier": "all encoded values and layouts (any widths, any offsets)", "why_tests_cant": "Nested to any depth.", "anchors": ["tf2onnx/flexbuffers.py:read_buffer", "tf2onnx/flexbuffers.py:read_flexbuffer"]}
{"id": "C30", "title": "SAME convolution padding reproduces TensorFlow's output size", "statement": "For SAME padding and known sizes the pads computed make the ONNX convolution output size equal ceil(in/stride), split as TensorFlow does (extra element at the end), and never negative.", "quantifier": "all input sizes, kernels, strides, dilations, numbers of spatial dimensions", "why_tests_cant": "All integers.", "anchors": ["tf2onnx/onnx_opset/nn.py:add_padding"]}
{"id": "C31", "title": "Strided slices select TensorFlow's elements", "statement": "The Slice(+Squeeze) emitted for a constant unit-stride StridedSlice selects the same elements as TensorFlow for all begin/end/mask values.", "quantifier": "all ranks, begins, ends, masks, sizes", "why_tests_cant": "All mask combinations and indices.", "anchors": ["tf2onnx/onnx_opset/tensor.py:StridedSlice.version_1"]}
{"id": "C32", "title": "Slice with size -1 takes the rest of the axis", "statement": "The Slice emitted for tf.slice(begin,size) selects elements begin..begin+size (or to the end of the axis for size -1).", "quantifier": "all begins, sizes and dims that TensorFlow accepts", "why_tests_cant": "All integers including 32-bit extremes.", "anchors": ["tf2onnx/onnx_opset/tensor.py:Slice.version_1"]}
{"id": "C33", "title": "Roll rotates", "statement": "The two slices and concat emitted for tf.roll give output[i] = input[(i - shift) mod n] for every axis length and shift (positive, negative, larger than n).", "quantifier": "all lengths, shifts and axes", "why_tests_cant": "All integers.", "anchors": ["tf2onnx/onnx_opset/tensor.py:Roll"]}
{"id": "C34", "title": "Channel-order permutations are mutually inverse", "statement": "channels-first and channels-last permutations are inverse permutations for each number of spatial dims and the shape helpers agree with them.", "quantifier": "all numbers of spatial dims and all shapes", "why_tests_cant": "All ranks.", "anchors": ["tf2onnx/onnx_opset/nn.py:get_channels_first_permutation", "tf2onnx/onnx_opset/nn.py:make_shape_channels_first", "tf2onnx/onnx_opset/nn.py:make_shape_channels_last"]}
{"id": "C35", "title": "SplitV with one -1 covers the axis", "statement": "The split sizes emitted for SplitV sum to the axis length and keep explicit sizes.", "quantifier": "all split vectors and axis lengths", "why_tests_cant": "All vectors.", "anchors": ["tf2onnx/onnx_opset/tensor.py:SplitV.version_1"]}
{"id": "C36", "title": "Inferred shapes are true", "statement": "Every shape written by the converter's own shape inference (broadcast, reduce, expand_dims, concat, pack, unpack, gather, split, ...) matches the shape of the tensor at run time.", "quantifier": "all input shapes and run-time sizes consistent with them", "why_tests_cant": "All shapes.", "anchors": ["tf2onnx/shape_inference.py"]}
{"id": "C37", "title": "Duplicate keras output names are made distinct", "statement": "Before tracing, a keras model whose output names repeat gets pairwise distinct output names: the renaming always ends, keeps the number and order of outputs, leaves an already distinct list alone, and only renames an output whose name is already taken by an output before it, by appending a number.", "quantifier": "all lists of output names, including names that look like generated ones", "why_tests_cant": "Any names; the search for a free name has no bound in the code.", "anchors": ["tf2onnx/convert.py:_rename_duplicate_keras_model_names"]}
{"id": "C38", "title": "Tensor renaming is a consistent renaming", "statement": "rename_tensors with distinct targets that are not otherwise used changes only names: the renamed graph computes the same values under the renamed names.", "quantifier": "all graphs, all rename maps", "why_tests_cant": "All graphs.", "anchors": ["tf2onnx/graph.py:Graph.rename_tensors"]}
{"id": "C39", "title": "Failed rewrites are reported", "statement": "Without continue-on-error, an exception raised by any rewriter, at any nesting depth, reaches the caller.", "quantifier": "all rewriters, graphs and nesting depths", "why_tests_cant": "All failure points.", "anchors": ["tf2onnx/tfonnx.py:run_rewriters"]}
{"id": "C40", "title": "Environment switch for error catching works", "statement": "Setting the catch-errors environment variable to TRUE makes conversion catch optimizer errors, and to anything else makes it raise.", "quantifier": "all values of the environment variable", "why_tests_cant": "All strings.", "anchors": ["tf2onnx/convert.py:_convert_common", "tf2onnx/constants.py"]}
{"id": "C41", "title": "Constant-shape reshape rewrite keeps the result", "statement": "When the reshape optimizer replaces a computed target shape by a constant one (using -1, 0 and leading squeeze/unsqueeze), the rewritten reshape gives the original result for every run, whatever positive sizes the unknown dimensions have.", "quantifier": "all shape-computing graphs, all runtime dimension sizes", "why_tests_cant": "All dimension sizes and all shape expressions.", "anchors": ["tf2onnx/optimizer/reshape_optimizer.py:ReshapeOptimizer._optimize_reshape"]}
{"id": "C42", "title": "Conv and batch normalization fuse without changing the result", "statement": "When the optimizer folds a BatchNormalization into the preceding Conv, the new Conv with the new weights and bias computes, in exact arithmetic, what the two nodes computed, for every input, kernel, padding, stride, group and statistics; it does so only when no other reader of the intermediate result exists.", "quantifier": "all kernels, biases, statistics, inputs, convolution attributes", "why_tests_cant": "All real operand values and shapes.", "anchors": ["tf2onnx/optimizer/back_to_back_optimizer.py:BackToBackOptimizer._optimize_conv_batchnorm_fusion"]}
{"id": "C43", "title": "Moving and cancelling quantization nodes preserves the model", "statement": "The optimizer that moves QuantizeLinear up and DequantizeLinear down across data-movement operators and cancels DequantizeLinear followed by QuantizeLinear with the same parameters returns a model with the same inputs and outputs that computes the same results, for all graphs and all fed values.", "quantifier": "all graphs, all iterations of the rewriting, all meanings of the operators under which quantization is element-wise and requantization exact, all fed values", "why_tests_cant": "Quantifies over all graphs and all runs of a fixpoint rewriting.", "anchors": ["tf2onnx/optimizer/q_dq_optimizer.py:QDQOptimizer", "tf2onnx/optimizer/q_dq_optimizer.py:is_tensor_op"]}
{"id": "C44", "title": "Recognizing a leaky rectifier preserves the model", "statement": "The rewriter that replaces max(alpha * x, x) with a scalar constant alpha < 1 by one LeakyRelu operator returns a model with the same inputs and outputs that computes the same results, for all graphs, all orders in which the matcher finds occurrences and all fed values; every tensor the new operator reads is still produced.", "quantifier": "all graphs, all numbers of occurrences, shared constants and shared operands, all iteration orders of node sets, all fed values", "why_tests_cant": "Quantifies over all graphs and over the interaction between matches computed in advance and earlier replacements.", "anchors": ["tf2onnx/rewriter/leakyrelu_rewriter.py:rewrite_leakyrelu", "tf2onnx/graph.py:safe_remove_nodes", "tf2onnx/graph_matcher.py:GraphMatcher"]}
{"id": "C45", "title": "Recognizing a thresholded rectifier preserves the model", "statement": "The rewriter that replaces x * cast(x > theta) with a scalar constant theta by one ThresholdedRelu operator returns a model with the same inputs and outputs that computes the same results, for all graphs and all fed values, and leaves other uses of comparisons alone.", "quantifier": "all graphs, all numbers of occurrences, all iteration orders of node sets, all fed values", "why_tests_cant": "Quantifies over all graphs; tests use one occurrence with the operands in one order.", "anchors": ["tf2onnx/rewriter/thresholded_relu_rewriter.py:rewrite_thresholded_relu", "tf2onnx/graph_matcher.py:GraphMatcher"]}
{"id": "C46", "title": "Floor division and floor remainder are converted faithfully", "statement": "Converting a FloorDiv or FloorMod node replaces it by ONNX operators so that, for all operands of all supported types, everything that reads its result sees the same values, and nothing else in the graph changes.", "quantifier": "all graphs containing the node, all operand values and shapes (with broadcasting), all runs", "why_tests_cant": "Quantifies over all operand values and types, including mixed signs, and over all surrounding graphs.", "anchors": ["tf2onnx/onnx_opset/math.py:FloorDiv", "tf2onnx/onnx_opset/math.py:FloorMod", "tf2onnx/graph.py:insert_new_node_on_output"]}
{"id": "C47", "title": "Comparisons are converted faithfully", "statement": "Converting Greater, Less, GreaterEqual, LessEqual, Equal and NotEqual nodes, at every supported operator set, replaces them by ONNX operators (with casts where ONNX lacks the type) so that, for all operands of all supported types, everything that reads the result sees the same truth values, and nothing else in the graph changes.", "quantifier": "all graphs containing the node, all operand values (including NaN and infinities), types and shapes, all conforming implementations of Cast, all runs", "why_tests_cant": "Quantifies over all operand values; casts lose information only on large or fractional values tests do not use.", "anchors": ["tf2onnx/onnx_opset/logical.py:GreaterLess", "tf2onnx/onnx_opset/logical.py:GreaterLessEqual", "tf2onnx/onnx_opset/logical.py:Equal", "tf2onnx/onnx_opset/logical.py:_add_cast_to_inputs"]}
{"id": "C48", "title": "Converting a whole graph node by node preserves the model", "statement": "If every operator handler is correct for the nodes it is called on, then running all of them over a graph, each node once and in any order the node list has, gives a model with the same inputs and outputs that computes the same results; a node's conversion never depends on or spoils the conversion of another. Nodes without a handler or marked as converted are kept as they are, and the two counters list exactly the converted and the unsupported nodes.", "quantifier": "all graphs of any size, all tables of handlers, all sets of skipped nodes, all fed values", "why_tests_cant": "Quantifies over all graphs and all interleavings of handlers that edit a shared graph.", "anchors": ["tf2onnx/tfonnx.py:tensorflow_onnx_mapping", "tf2onnx/handler.py:tf_op", "tf2onnx/graph.py:Graph"]}
{"id": "C49", "title": "Element-wise operators are converted faithfully", "statement": "Converting a TensorFlow element-wise operator (unary functions, arithmetic, minimum and maximum, logic, clipping) at any supported operator set replaces the node by ONNX operators of that operator set, on element types these operators accept, so that for all operands of all supported types and shapes (with broadcasting) everything that reads the result sees the same values, and nothing else in the graph changes.", "quantifier": "all graphs containing the node, all operand values, types and shapes, all operator sets, all meanings of the operators that conform to the ONNX type constraints, all runs", "why_tests_cant": "Quantifies over all operand values, element types and operator sets, and over all surrounding graphs; tests try a few pairs on one operator set.", "anchors": ["tf2onnx/onnx_opset/math.py:DirectOp", "tf2onnx/onnx_opset/common.py:BroadcastOp", "tf2onnx/onnx_opset/math.py:MinMaxOp", "tf2onnx/onnx_opset/math.py:Sign", "tf2onnx/onnx_opset/math.py:DivNoNan", "tf2onnx/onnx_opset/math.py:Relu6", "tf2onnx/onnx_opset/math.py:ClipByValueOp", "tf2onnx/onnx_opset/math.py:IsFinite"]}
{"id": "C50", "title": "Conditionals are converted faithfully", "statement": "Converting an If or StatelessIf node replaces it by the ONNX operator If with the same name and outputs, reading only the condition, whose two branches are the bodies of the two functions with their parameters replaced by the node's other inputs; for all values everything that reads the results sees the values of the function the condition selects, and nothing else in the graph changes.", "quantifier": "all graphs containing the node, all function graphs of any size, all names, all values of conditions and arguments, all meanings of the operators", "why_tests_cant": "Quantifies over all function graphs and all choices of names in the functions and in the surrounding graph; name capture shows only for particular names and node orders.", "anchors": ["tf2onnx/onnx_opset/controlflow.py:StatelessIfOp", "tf2onnx/onnx_opset/controlflow.py:IfOp", "tf2onnx/onnx_opset/controlflow.py:wire_if_branch", "tf2onnx/onnx_opset/controlflow.py:parameter_binding", "tf2onnx/onnx_opset/controlflow.py:prefix_graph"]}
{"id": "C51", "title": "While loops are converted faithfully", "statement": "Converting a While or StatelessWhile node (loop counter, bound, loop variables) replaces it by an ONNX Loop whose trip count is the bound, whose initial condition is the condition function applied to the initial loop variables, and whose body runs the body function and then the condition function; for all values the loop ends exactly when the TensorFlow loop ends, after the same number of iterations and with the same final loop variables, and nothing else in the graph changes.", "quantifier": "all graphs containing the node, all condition and body functions of any size, all bounds (constant, shared, computed, none), all numbers of iterations including loops that never end, all values", "why_tests_cant": "Quantifies over unbounded iteration counts and over all functions; a test runs one loop for a few iterations.", "anchors": ["tf2onnx/onnx_opset/controlflow.py:While", "tf2onnx/onnx_opset/controlflow.py:wire_while_body", "tf2onnx/onnx_opset/controlflow.py:inline_subgraph", "tf2onnx/onnx_opset/controlflow.py:prefix_graph"]}
{"id": "C52", "title": "Conversion and optimization end to end", "statement": "For a TensorFlow graph of element-wise operators, the conversion raises nothing, optimizing the result ends, raises nothing and gives a model without any TensorFlow node, with the nodes in executable order, the same inputs and outputs, and running it gives the results of the TensorFlow graph for all fed values under which the operands are in the domains of their operators.", "quantifier": "all graphs of any size and shape built from the element-wise operators, all operator sets from 12 on, all orders and repetitions of the identity and duplicate-merging optimizers, all fed values", "why_tests_cant": "Composes every stage (pruning, sorting, conversion of every node, optimization to a fixed point, sorting); tests check single operators or single models on a few values.", "anchors": ["tf2onnx/tfonnx.py:process_parsed_graph", "tf2onnx/tfonnx.py:tensorflow_onnx_mapping", "tf2onnx/tfonnx.py:topological_sort", "tf2onnx/optimizer/__init__.py:optimize_graph", "tf2onnx/optimizer/identity_optimizer.py:IdentityOptimizer", "tf2onnx/optimizer/merge_duplicated_nodes_optimizer.py:MergeDuplicatedNodesOptimizer"]}
{"id": "C53", "title": "Axes, permutations and target shapes", "statement": "Converting a TensorFlow operator that names dimensions (reductions, All/Any, ArgMax/ArgMin, Squeeze, ExpandDims, Transpose, Concat, ConcatV2, Gather, GatherV2, Reshape, Tile, BroadcastTo, EnsureShape, Size) gives a graph of ONNX operators, legal in the operator set, with the same results: negative axes, axes as attribute or as input, INT32 or INT64 axes, target shapes with -1, and the requested index type all mean the same in both.", "quantifier": "all graphs with such a node, all operator sets from 8 on, all ranks, shapes, axes, permutations, element types and values (subject to TensorFlow's own requirements on the operands), all recorded or missing shapes", "why_tests_cant": "The encoding of axes depends on the operator set, on what is recorded about shapes and on whether the axes are constants; tests try a few ranks and axes with fully known shapes.", "anchors": ["tf2onnx/onnx_opset/reduction.py:ReduceOpBase", "tf2onnx/onnx_opset/reduction.py:ArgMax", "tf2onnx/onnx_opset/reduction.py:AllAny", "tf2onnx/onnx_opset/tensor.py:Squeeze", "tf2onnx/onnx_opset/tensor.py:ExpandDims", "tf2onnx/onnx_opset/tensor.py:Transpose", "tf2onnx/onnx_opset/tensor.py:Concat", "tf2onnx/onnx_opset/tensor.py:ConcatV2", "tf2onnx/onnx_opset/tensor.py:Gather", "tf2onnx/onnx_opset/tensor.py:GatherV2", "tf2onnx/onnx_opset/tensor.py:Reshape", "tf2onnx/onnx_opset/tensor.py:Tile", "tf2onnx/onnx_opset/tensor.py:BroadcastTo", "tf2onnx/onnx_opset/tensor.py:EnsureShape", "tf2onnx/onnx_opset/tensor.py:Size"]}
{"id": "C54", "title": "Reversing axes and sequences", "statement": "Converting tf.reverse with any set of axes, and tf.reverse_sequence with any sequence and batch axes, gives ONNX operators that are legal in the operator set and produce TensorFlow's tensor element by element.", "quantifier": "all ranks, shapes, axes (negative ones too), lengths and values, all operator sets from 10 on", "why_tests_cant": "The emitted chain of transposes and ReverseSequence nodes depends on the order and number of the axes; tests try a few ranks and axes.", "anchors": ["tf2onnx/onnx_opset/tensor.py:ReverseV2", "tf2onnx/onnx_opset/tensor.py:ReverseSequence"]}
{"id": "C55", "title": "Space to batch and back", "statement": "Converting SpaceToBatchND or BatchToSpaceND gives ONNX operators that are legal in the operator set and produce TensorFlow's tensor element by element, for constant and for computed crops or paddings; where the operator set cannot express it the conversion raises.", "quantifier": "all ranks, numbers of block dimensions, block sizes, crops or paddings TensorFlow accepts, shapes without empty axes (behind the first), values, all operator sets", "why_tests_cant": "Two different encodings (DepthToSpace for square blocks of images, reshape/transpose/reshape otherwise), each with constant and computed crops and per-operator-set forms of Slice, Squeeze and Pad; the index arithmetic has to agree for every rank and block.", "anchors": ["tf2onnx/onnx_opset/tensor.py:BatchToSpace", "tf2onnx/onnx_opset/tensor.py:SpaceToBatch", "tf2onnx/graph_builder.py:GraphBuilder.make_slice"]}
{"id": "C56", "title": "Recurrent layers become ONNX LSTM and GRU", "statement": "When a TensorFlow or keras LSTM or GRU (one layer, stacked layers, or a forward and a backward network over the same input) is replaced by ONNX LSTM or GRU operators, the operators give the same outputs at every step and the same final states, for every input sequence, sequence length and initial state.", "quantifier": "all weights, sizes, numbers of layers, batch sizes, sequence lengths, inputs, initial states, gate and cell activations", "why_tests_cant": "The gates are split, reordered and transposed into another layout, a bias is folded in, and two recurrences (one padded, frozen after the end of each sequence) have to agree after any number of steps; a few test models fix the sizes, the names of the layers and the activations, which is exactly what the rewriters rely on without checking.", "anchors": ["tf2onnx/rewriter/lstm_rewriter.py:LSTMRewriter", "tf2onnx/rewriter/lstm_rewriter_base.py:LSTMRewriterBase", "tf2onnx/rewriter/lstm_tf2_rewriter.py:rewriter_lstm_tf2", "tf2onnx/rewriter/gru_rewriter.py:GRUUnitRewriter", "tf2onnx/rewriter/gru_tf2_rewriter.py:rewrite_gru_tf2", "tf2onnx/rewriter/bilstm_rewriter.py:process_bilstm", "tf2onnx/rewriter/bigru_rewriter.py:process_bigru", "tf2onnx/rewriter/rnn_utils.py:slice_birnn_for_original_rnn_consumers"]}
{"id": "C57", "title": "Convolutions", "statement": "Converting Conv2D, Conv3D or DepthwiseConv2dNative gives an ONNX Conv, with transposes around it, that is a valid model and computes TensorFlow's convolution: same shape and, for every output element, the same image elements paired with the same weights.", "quantifier": "all numbers of spatial axes, both layouts, SAME, VALID and explicit padding, all strides, dilations, kernel sizes, channels, groups and channel multipliers, all known or unknown recorded dimensions, all images and kernels", "why_tests_cant": "Padding, layout, groups and dilations interact and are computed from recorded shapes, which may be unknown; tests fix all shapes and compare a few numbers.", "anchors": ["tf2onnx/onnx_opset/nn.py:ConvOp", "tf2onnx/onnx_opset/nn.py:DepthwiseConv2d", "tf2onnx/onnx_opset/nn.py:add_padding", "tf2onnx/onnx_opset/nn.py:conv_convert_inputs", "tf2onnx/onnx_opset/nn.py:conv_kernel_shape", "tf2onnx/onnx_opset/nn.py:parse_dims_attr"]}
{"id": "C58", "title": "Pooling", "statement": "Converting MaxPool, MaxPoolV2, AvgPool, MaxPool3D or AvgPool3D gives an ONNX pool, with transposes around it, whose every element summarises exactly the image elements TensorFlow's pool summarises (padding does not count).", "quantifier": "all numbers of spatial axes, both layouts, all paddings, kernel sizes and strides, known or unknown recorded dimensions, all images and all ways of summarising", "why_tests_cant": "Which elements a window covers depends on layout, padding and strides through recorded shapes; tests fix a few shapes.", "anchors": ["tf2onnx/onnx_opset/nn.py:PoolOp", "tf2onnx/onnx_opset/nn.py:add_padding", "tf2onnx/onnx_opset/nn.py:conv_convert_inputs"]}
{"id": "C59", "title": "Dilated convolutions", "statement": "When the converter replaces space-to-batch, convolution, batch-to-space (in one dimension with expand-dims and squeeze) by one dilated convolution, the ONNX model computes the same tensor: same shape and, for every element, the same image elements (or zeros of padding) paired with the same weights.", "quantifier": "all numbers of spatial axes, both layouts, plain, grouped and depthwise convolutions, all block sizes, paddings, crops, kernels and images for which the rewriter applies", "why_tests_cant": "The equality is about index arithmetic modulo the block in every axis, with padding that is partly cropped; tests run a handful of rates and sizes, and paddings that TensorFlow itself generates.", "anchors": ["tf2onnx/rewriter/conv_dilations_rewriter.py:rewrite_conv_dilations", "tf2onnx/rewriter/conv_dilations_rewriter.py:determine_pad_mode", "tf2onnx/onnx_opset/nn.py:ConvOp"]}
{"id": "C60", "title": "Transposed convolutions", "statement": "Converting Conv2DBackpropInput or Conv3DBackpropInputV2 (tf.nn.conv2d_transpose, conv3d_transpose) gives an ONNX model that computes the same tensor: same shape and, for every element, the same elements of the operand paired with the same weights, whether the size of the result is a constant or computed when the model runs.", "quantifier": "all numbers of spatial axes, both layouts, SAME and VALID, all kernels, strides, dilations, sizes and operands, known or unknown recorded dimensions, all opsets", "why_tests_cant": "Which half of an odd padding comes first, and what happens to elements no window reaches, depends on sizes modulo strides; tests use a few sizes.", "anchors": ["tf2onnx/onnx_opset/nn.py:ConvTranspose", "tf2onnx/onnx_opset/nn.py:conv_convert_inputs", "tf2onnx/onnx_opset/nn.py:get_shape_from_const_or_concat"]}
{"id": "C61", "title": "Pooling, upsampling, dequantization and loop optimizers", "statement": "The optimizers that turn reductions into global pooling, drop upsampling by one, apply transposes, reshapes and unsqueezes to constants before they are dequantized, and move transposes out of loop bodies do not change the outputs of the model: the rewritten operators compute the same tensors, with per-channel scales still applied along the right axis.", "quantifier": "all graphs, ranks, axes, permutations, target shapes (with copied and inferred dimensions), scales and operand values, all opsets, any number of passes", "why_tests_cant": "Whether an axis list means all spatial axes, or which axis carries the scales after a reshape, depends on every rank and on products of dimensions; tests show one shape each.", "anchors": ["tf2onnx/optimizer/global_pool_optimizer.py:GlobalPoolOptimizer", "tf2onnx/optimizer/upsample_optimizer.py:UpsampleOptimizer", "tf2onnx/optimizer/const_dequantize_optimizer.py:ConstDequantizeOptimizer", "tf2onnx/optimizer/loop_optimizer.py:LoopOptimizer"]}
{"id": "C62", "title": "Einsum conversion and decomposition", "statement": "A converted Einsum operator, whether it stays Einsum with its letters renamed, becomes a MatMul, or is decomposed into transposes, reshapes, sums and products, computes what the equation says: for every index of the output the sum, over all values of the letters that are not in the output, of the product of the selected elements of the operands.", "quantifier": "all equations with an explicit output (any number of operands, any letters, any order), all permutations of the letters the optimizer may choose, all operand shapes and values over any commutative semiring, all opsets from 12 on", "why_tests_cant": "The decomposition depends on which letters each pair of operands share and which are used later; the number of cases grows with the number of operands and letters, and tests cover a few dozen equations on fixed shapes.", "anchors": ["tf2onnx/optimizer/einsum_optimizer.py:decompose_einsum_equation", "tf2onnx/optimizer/einsum_optimizer.py:analyse_einsum_equation", "tf2onnx/optimizer/einsum_optimizer.py:_apply_einsum_matmul", "tf2onnx/optimizer/einsum_optimizer.py:CachedEinsum._build_optimize_ml", "tf2onnx/onnx_opset/math.py:Einsum"]}
{"id": "C63", "title": "Segment reductions", "statement": "A converted segment reduction (sum, product, maximum, minimum, mean, sum divided by the square root of the count; sorted, unsorted or sparse; with or without a given number of segments) gives, for every segment, the reduction of exactly the rows whose id is that segment, each once.", "quantifier": "all numbers of rows and segments, all ids in any order (with repetitions and empty segments), all row shapes and values, all recorded ranks; sums and products over any commutative monoid, means over any field", "why_tests_cant": "The conversion sorts the ids, numbers the members of each segment by their position modulo the size of the segment and scatters them into a grid; that no two members meet and none is lost depends on where each segment starts and how long it is, so it cannot be settled by examples.", "anchors": ["tf2onnx/onnx_opset/reduction.py:SegmentSum", "tf2onnx/graph_builder.py:_make_reduce_op"]}
{"id": "C64", "title": "Ragged and sparse tensors", "statement": "A converted RaggedTensorToSparse gives one index for every leaf of the ragged tensor, its position in the nested lists, and the smallest box as shape; RaggedTensorToTensor (row splits or row ids, with or without a shape, with or without dense inner dimensions) gives the dense tensor with the default where the ragged one has nothing; RaggedRange, RaggedGather, SparseReshape and SparseFillEmptyRows give TensorFlow's rows and elements.", "quantifier": "all nesting depths, numbers and lengths of rows (empty rows included), all values, all requested shapes, all index lists (with repetitions), all starts, limits and steps, all shapes with one unknown dimension", "why_tests_cant": "The conversion finds rows and columns by a mask over a box, by running sums of steps scattered to the starts of rows, and by products of suffixes of shapes; an error of one at an empty row or the last row needs a particular combination of lengths to be seen.", "anchors": ["tf2onnx/onnx_opset/tensor.py:ragged_lengths_to_sparse_indices", "tf2onnx/onnx_opset/tensor.py:ragged_row_ids_to_sparse_indices", "tf2onnx/onnx_opset/tensor.py:RaggedTensorToSparse", "tf2onnx/onnx_opset/tensor.py:RaggedTensorToTensor", "tf2onnx/onnx_opset/tensor.py:RaggedRange", "tf2onnx/onnx_opset/tensor.py:RaggedGather", "tf2onnx/onnx_opset/tensor.py:SparseReshape", "tf2onnx/onnx_opset/tensor.py:SparseFillEmptyRows"]}
{"id": "C65", "title": "Operators that choose or place elements by computed indices", "statement": "Converted Bincount (vectors, and matrices row by row, counts or flags), Unique with counts, DynamicPartition, DynamicStitch, OneHot, MatrixDiagPart, the set operations on dense tensors (union, intersection, both differences), ScatterNd, SparseToDense and TensorScatterAdd/Max/Min/Sub/Update give TensorFlow's values at TensorFlow's places.", "quantifier": "all lengths, shapes and ranks, all values (negative and too large ones where TensorFlow ignores them), all numbers of partitions, all leading dimensions of sets, all axes, all index lists", "why_tests_cant": "Counts are scattered to sorted distinct values after a filter, sets are found by the multiplicity of rows in a concatenation, the last index of a set is a running sum of scattered steps: whether a boundary is off by one shows only for particular multiplicities and empty sets.", "anchors": ["tf2onnx/onnx_opset/tensor.py:Bincount", "tf2onnx/onnx_opset/tensor.py:Unique", "tf2onnx/onnx_opset/tensor.py:DynamicPartition", "tf2onnx/onnx_opset/tensor.py:DynamicStitch", "tf2onnx/onnx_opset/tensor.py:OneHot", "tf2onnx/onnx_opset/tensor.py:MatrixDiagPart", "tf2onnx/onnx_opset/tensor.py:DenseToDenseSetOperation", "tf2onnx/onnx_opset/tensor.py:ScatterND", "tf2onnx/onnx_opset/tensor.py:TensorScatterSub", "tf2onnx/onnx_opset/tensor.py:SparseToDense"]}
{"id": "C66", "title": "Replaced subgraphs compute what they did", "statement": "Where a rewriter replaces a recognized subgraph - matrix product with scaled sum (Gemm), Reshape to two axes (Flatten), Transpose by a computed reversal, identity matrix (EyeLike), Conv2D behind a Pad, Conv2D before a BiasAdd, layer normalization, dropout, random numbers in a range, shape of a batched ragged tensor - the operators it puts in give the value of the replaced subgraph for every input: the same one for every draw of random numbers, and the average one for dropout.", "quantifier": "all operands, shapes and ranks, orders of operands the matcher accepts, constants, recorded shapes with or without unknown dimensions, all draws of random numbers", "why_tests_cant": "A rewriter tests a few recorded facts about a match and then drops nodes; a test that is missing shows only for the operands that it should have excluded.", "anchors": ["tf2onnx/rewriter/gemm_rewriter.py:rewrite_gemm", "tf2onnx/rewriter/flatten_rewriter.py:rewrite_flatten", "tf2onnx/rewriter/transpose_rewriter.py:rewrite_transpose", "tf2onnx/rewriter/eye_rewriter.py:rewrite_eye", "tf2onnx/rewriter/conv2d_with_pad_rewriter.py:rewrite_conv2d_with_pad", "tf2onnx/rewriter/conv2d_with_add_rewriter.py:rewrite_biasadd_with_conv2d", "tf2onnx/rewriter/layer_normalization_rewriter.py:rewrite_layer_normalization", "tf2onnx/rewriter/dropout_rewriter.py:rewrite_dropout", "tf2onnx/rewriter/random_uniform.py:rewrite_random_uniform", "tf2onnx/rewriter/random_normal_rewriter.py:rewrite_random_normal", "tf2onnx/rewriter/ragged_variant_shape_rewriter.py:rewrite_ragged_variant_shape"]}
{"id": "C67", "title": "Quantize-and-dequantize operators", "statement": "QuantizeAndDequantizeV2/V3/V4 and FakeQuantWithMinMaxArgs/Vars, converted to QuantizeLinear followed by DequantizeLinear, give the value TensorFlow defines: the scale from the side of the range that needs the larger one, values outside a given range moved to its ends, one range for the tensor or one for each position on an axis, ranges given or computed from the data.", "quantifier": "all tensors, ranks and axes, all values inside and outside the range, all ranges, signed or not, narrow or not", "why_tests_cant": "Scale, clamping and rounding interact at the ends of the range and at ties; samples rarely hit them.", "anchors": ["tf2onnx/rewriter/quantization_ops_rewriter.py:create_qdq_nodes", "tf2onnx/onnx_opset/quantize.py:FakeQuantWithMinMaxArgs"]}
{"id": "C68", "title": "Scans, masks, generators and choices", "statement": "Cumprod, MatrixBandPart, Range, Select, SelectV2, Fill, ZerosLike, OnesLike, RandomUniformInt, RandomShuffle, InvertPermutation and Atan2, converted to loops, masks, products and sums of ONNX operators, give the tensor TensorFlow defines; drawn integers stay within their bounds and are equally likely, a shuffle keeps every row exactly once and can give every order.", "quantifier": "all tensors, ranks, axes, shapes that broadcast, bounds, steps, opsets and draws of the random generator", "why_tests_cant": "A loop over an axis, a mask from running sums and a choice by products must hold for every length and value; what a random generator can draw is not covered by seeds.", "anchors": ["tf2onnx/onnx_opset/math.py:CumProd", "tf2onnx/onnx_opset/math.py:Atan2Op", "tf2onnx/onnx_opset/math.py:InvertPermutationOp", "tf2onnx/onnx_opset/nn.py:MatrixBandPart", "tf2onnx/onnx_opset/generator.py", "tf2onnx/onnx_opset/controlflow.py:Select", "tf2onnx/onnx_opset/controlflow.py:Range"]}
{"id": "C69", "title": "Conditionals of TensorFlow 1", "statement": "A graph in which If nodes have taken the place of the Switch and Merge nodes of tf.cond gives every tensor outside the conditionals the value it has in a run of TensorFlow, whichever branches are taken; each tensor enters a branch, a branch that is not chosen has no effect, and nesting is kept.", "quantifier": "all graphs tf.cond builds (any number of conditionals, outputs and nodes, nested to any depth), all operators, all inputs and predicates", "why_tests_cant": "The rewriter follows inputs backwards to Switch nodes and cuts the graph; which nodes belong to which branch must be right for every graph, and the result for every combination of predicates.", "anchors": ["tf2onnx/rewriter/cond_rewriter.py:CondRewriter", "tf2onnx/graph.py:extract_sub_graph_nodes", "tf2onnx/graph.py:get_implicit_inputs", "tf2onnx/utils.py:construct_graph_from_nodes"]}
{"id": "C70", "title": "Loops of TensorFlow 1", "statement": "A graph in which Loop nodes have taken the place of the Enter, Merge, Switch, NextIteration and Exit nodes of tf.while_loop gives every tensor outside the loops the value it has in a run of TensorFlow, however often each loop goes round, zero times included.", "quantifier": "all graphs of any number of loops of tf.while_loop that are not nested, with any number of variables, nodes and tensors brought in from outside; all operators, all inputs and all numbers of iterations up to sys.maxsize", "why_tests_cant": "The condition is evaluated on the first values outside and on the returned values inside the body, the rewriter finds both parts by following inputs backwards; that all iterations agree is an induction over their number.", "anchors": ["tf2onnx/rewriter/loop_rewriter_base.py:LoopRewriterBase", "tf2onnx/rewriter/loop_rewriter.py:LoopRewriter", "tf2onnx/graph.py:extract_sub_graph_nodes"]}
{"id": "C71", "title": "Fourier transforms", "statement": "The ONNX operators that RFFT or RFFT2D followed by ComplexAbs are converted to compute the absolute values of the discrete Fourier transform of the operand, cut to the lengths of the transform, for the first half of the coefficients; a node the handler accepts but whose result would differ does not exist.", "quantifier": "all real operands of all ranks and shapes, all lengths of the transform, all that can be recorded about the shape of the operand", "why_tests_cant": "The result is a sum of as many terms as the transform is long, with a matrix product, two transposes and two reshapes around it; that its value is the transform is an identity of sums and complex exponentials for every length and every batch shape.", "anchors": ["tf2onnx/onnx_opset/signal.py:make_dft_constant", "tf2onnx/onnx_opset/signal.py:CommonFFTOp", "tf2onnx/onnx_opset/signal.py:CommonFFT2DOp", "tf2onnx/onnx_opset/signal.py:ComplexAbsOp"]}
{"id": "C72", "title": "Softmax and cross-entropy", "statement": "The converted Softmax and LogSoftmax normalise along the last axis at every operator set, although the default axis and the meaning of the axis changed; the converted SoftmaxCrossEntropyWithLogits and SparseSoftmaxCrossEntropyWithLogits have the loss of TensorFlow, whichever of the three ways the handler takes.", "quantifier": "all real operands of all ranks (softmax) or batch and class sizes (cross-entropy), all operator sets, all labels in range, all that can be recorded about the shapes", "why_tests_cant": "The loss of class numbers is computed by a different formula (shifted by the greatest logit, multiplied by a mask, divided, logarithm) than the one of TensorFlow; that they agree is an identity of exponentials and logarithms for every number of classes. Operator sets change the meaning of the axis.", "anchors": ["tf2onnx/onnx_opset/math.py:Softmax", "tf2onnx/onnx_opset/nn.py:_make_softmax_cross_entropy_with_logits", "tf2onnx/onnx_opset/nn.py:SparseSoftmaxCrossEntropyWithLogits", "tf2onnx/onnx_opset/nn.py:sparse_softmax_cross_entropy_with_logits_op_by_gathernd", "tf2onnx/onnx_opset/nn.py:_make_sparse_softmax_cross_entropy_with_logits"]}
{"id": "C73", "title": "Bit shifts", "statement": "The converted LeftShift and RightShift give TensorFlow's result for every value and every amount from 0 to the width: signed values are shifted through an unsigned type (BitShift has no signed ones) and the sign comes out right.", "quantifier": "all values of all integer types, all amounts below the width", "why_tests_cant": "The sign of a right shift depends on the width of the type the value is taken through; a test has a few values. For int8 it is wrong for every negative value.", "anchors": ["tf2onnx/onnx_opset/math.py:BitShift", "tf2onnx/graph.py:Node.maybe_cast_input"]}
{"id": "C74", "title": "Saturation and hue of images", "statement": "The converted AdjustSaturation and AdjustHue give every pixel the colour that TensorFlow gives it.", "quantifier": "all pixels (three rational channels), all factors, all angles", "why_tests_cant": "The result depends on the order of the three channels (six orders, and ties) and on the sector of the hue; the tests of the repository use pixels with orders that are their own inverse.", "anchors": ["tf2onnx/onnx_opset/nn.py:AdjustSaturation", "tf2onnx/onnx_opset/nn.py:AdjustHue"]}
{"id": "C75", "title": "Layers on the channels of images", "statement": "The converted SpaceToDepth, DepthToSpace, LRN, AdjustContrastv2 and FusedBatchNorm (training and not) compute what TensorFlow computes, in both layouts.", "quantifier": "all images of all sizes, all block sizes, radii, factors and parameters, channels last and channels first", "why_tests_cant": "The order of the channels of a block, the window of the local normalisation (ONNX divides alpha by its size) and the axes of the statistics after the transposition hold for every size or not at all; a test has a few small images.", "anchors": ["tf2onnx/onnx_opset/nn.py:BatchNorm", "tf2onnx/onnx_opset/nn.py:SpaceToDepth", "tf2onnx/onnx_opset/nn.py:DepthToSpace", "tf2onnx/onnx_opset/nn.py:AdjustContrastv2", "tf2onnx/onnx_opset/nn.py:conv_convert_inputs", "tf2onnx/onnx_opset/math.py:LRN"]}
{"id": "C76", "title": "Resized images", "statement": "The converted ResizeBilinear, ResizeNearestNeighbor and ResizeBicubic give the image that TensorFlow gives, of the requested size, for every combination of align_corners and half_pixel_centers that the operator set can express; what it cannot express is refused.", "quantifier": "all images, all sizes before and after, the three coordinate systems, sizes that are constants and sizes computed at run time, recorded shapes with unknown dimensions", "why_tests_cant": "Which pixels are read at the borders and between them depends on the two sizes together; a test has a few pairs of sizes, mostly whole factors.", "anchors": ["tf2onnx/onnx_opset/nn.py:Resize", "tf2onnx/onnx_opset/nn.py:conv_convert_inputs"]}
{"id": "C77", "title": "Boxes cut out of images", "statement": "The converted CropAndResize gives, for every box, the crop TensorFlow gives: the right image, the right positions, the extrapolation value outside, and an empty result without boxes.", "quantifier": "all images, all lists of boxes (empty, mirrored, reaching out of the image), all sizes of the crops, all assignments of boxes to images, all extrapolation values", "why_tests_cant": "The operator becomes a loop with one iteration for each box; that each iteration takes the right box and the right image, and that the stacked results have the right shape for any number of boxes, is a statement about all trip counts.", "anchors": ["tf2onnx/onnx_opset/nn.py:CropAndResize", "tf2onnx/onnx_opset/nn.py:build_dynamic_target_size"]}
{"id": "C78", "title": "Stacking, unstacking, largest elements", "statement": "The converted Pack and Unpack compute tf.stack and tf.unstack along every axis, and the converted TopKV2 gives the values and positions of the largest elements, of equal elements the ones in front.", "quantifier": "all numbers of tensors, all shapes, all axes (negative ones too); all lines and all numbers of largest elements, with and without equal elements", "why_tests_cant": "The axis has to be inserted and removed at the right place for every rank, and the order of equal elements has to be right for every line; tests have a few small tensors without ties.", "anchors": ["tf2onnx/onnx_opset/tensor.py:Pack", "tf2onnx/onnx_opset/tensor.py:Unpack", "tf2onnx/onnx_opset/tensor.py:TopKV2"]}
{"id": "C79", "title": "Patches of images", "statement": "The converted ExtractImagePatches gives, at every place of the window, exactly the elements that the window covers, in TensorFlow's order, and zero outside of the image.", "quantifier": "all images with any number of channels, all sizes of the window, all strides and rates, SAME and VALID, elements of any semiring", "why_tests_cant": "The converter computes a data movement as a convolution with a unit kernel between reshapes and transposes; the order of rows, columns and channels has to come out right for every size, stride, rate and padding, and tests have a few small images.", "anchors": ["tf2onnx/onnx_opset/nn.py:ExtractImagePatches", "tf2onnx/onnx_opset/nn.py:add_padding", "tf2onnx/onnx_opset/nn.py:conv_convert_inputs"]}
{"id": "C80", "title": "Largest elements of windows, with their positions", "statement": "The converted MaxPoolWithArgmax gives the elements that TensorFlow takes, and their positions in TensorFlow's order (row, column, channel, with or without the image in front), for every shape.", "quantifier": "all numbers of images and channels, all sizes, all windows, strides and SAME or VALID padding, whichever of equal elements is taken, operator sets from 8 on", "why_tests_cant": "ONNX counts the positions channels first and over all images; the converter recomputes them with a remainder, the number of channels and an offset for every image. Whether this is right for every shape and with known and unknown dimensions is not settled by a few small tensors.", "anchors": ["tf2onnx/onnx_opset/nn.py:MaxPoolWithArgmaxOp", "tf2onnx/onnx_opset/nn.py:add_padding", "tf2onnx/onnx_opset/nn.py:conv_convert_inputs"]}
{"id": "C81", "title": "Greedy decoding of sequences", "statement": "The converted CTCGreedyDecoder gives TensorFlow's sparse matrix (places, classes, shape) and negated sums of the largest logits, with and without merging of repetitions, whenever anything is decoded.", "quantifier": "all numbers of steps, sequences and classes, all lengths of the sequences, all logits, both settings of merge_repeated", "why_tests_cant": "The loop over the steps becomes a mask, a shifted copy, an exclusive running sum for the new places and a compression of flattened tensors; that these agree for every history of a sequence (repetitions around blanks, steps behind the end) is not settled by two random inputs.", "anchors": ["tf2onnx/onnx_opset/nn.py:CTCGreedyDecoder"]}
{"id": "C82", "title": "Selection of boxes", "statement": "The converted NonMaxSuppression (versions 2 to 5) gives TensorFlow's selected boxes in TensorFlow's order, with their scores, their number and the padding, for every set of boxes; the converted CombinedNonMaxSuppression gives for every image the best of what is selected class by class, with classes, scores, cut boxes, number and padding.", "quantifier": "all numbers of boxes, all boxes (corners in any order, empty ones too), all scores with ties, all thresholds that are not negative, all numbers of boxes to select, versions 2 to 5, padding or not; all numbers of images and classes", "why_tests_cant": "Which boxes survive depends on every earlier choice; ties, empty boxes, boxes that only touch, the padding through a float and the four signatures give cases that examples with random boxes never reach.", "anchors": ["tf2onnx/onnx_opset/tensor.py:NonMaxSuppression", "tf2onnx/onnx_opset/tensor.py:CombinedNonMaxSuppression"]}
{"id": "C83", "title": "Post-processing of detections", "statement": "The converted TFLite_Detection_PostProcess with regular suppression gives TensorFlow Lite's detections: decoded boxes, classes, scores, padding and count.", "quantifier": "all numbers of boxes, classes and further columns, all encodings, anchors and scales, all scores none of which is exactly the threshold, all limits, operator sets from 11 on", "why_tests_cant": "Boxes are decoded, selected class by class, merged over all classes, cut off and padded; where the two systems differ (a score equal to the threshold) is found by no random input.", "anchors": ["tf2onnx/tflite_handlers/tfl_postprocess.py:TflDetectionPostProcess"]}
{"id": "C84", "title": "Random boxes of images", "statement": "Every box the converted SampleDistortedBoundingBox gives lies within the image and, unless it is the whole image, has an allowed aspect ratio and area, covers enough of an object, and is the first allowed one of those drawn.", "quantifier": "all heights and widths, all objects, all limits of ratio, area and coverage, every sequence of draws of numbers between 0 and 1", "why_tests_cant": "The draws are random: a test sees some boxes; that every box is within the image and within the limits is a statement about all draws.", "anchors": ["tf2onnx/onnx_opset/nn.py:SampleDistortedBoundingBox"]}
