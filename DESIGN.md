# Formal model of onnx/tensorflow-onnx in Lean 4

## Approach

The pinned Python sources under `/repo/tf2onnx` are modelled function by function as total,
computable Lean 4 functions (`lean/Verif/Model/**`).  Python exceptions are values (`Except String _` or an
error constructor); dictionaries are association lists with Python's "insert or overwrite" semantics;
mutable `Graph` and `Node` objects are state records and heap cells threaded through the functions.  Every definition
carries the file and line range it models, and every simplification is stated there.  The *specification* side of a
property (what a permutation, a topological order, a tensor, TensorFlow's slice, an encoded buffer... is)
is written separately from the model, in `lean/Verif/Spec/**` or at the top of the file with the theorem
(`lean/Verif/Props/**`, one file per property, named after it; helper lemmas are in files without a `Cnn_` prefix).

Where the code violates a property, the full statement is kept (in `properties.jsonl`), its *negation* is proved by a
concrete witness run through the model (name suffix `_violated`), and the strongest true version with an explicit
side condition is proved beside it (suffix `_partial`).  Beside each theorem an `example` (or a named lemma) shows a
concrete, non-trivial case that meets the hypotheses.

Unbounded loops of the program get a fuel argument; theorems hold for every fuel, and where termination is part of the
property it is a theorem of its own (`*_terminates`, `*_fuel`).

## Trusted base

* Lean 4.33.0's kernel; only the standard axioms `propext`, `Classical.choice`, `Quot.sound`
  (per theorem: table at the end of this file).
* The transcription Python -> Lean: there is no machine-checked link between `/repo` and the model
  (no dependencies are installed, the code cannot be run here); it is checked by line citations and re-reading.
* Python built-ins (dict order, list slicing, integer floor division, `str.rfind`, `re`) and numpy/ONNX
  primitives have their documented meaning, transcribed in `Spec` or beside the theorem.
* Not modelled: TensorFlow itself, protobuf encoding, file system, logging, float arithmetic except where
  a property speaks about it, and every function not listed in the sections below.

## Plan per property

| id | model | proof |
|----|-------|-------|
| C01 | `make_name` counter, `initialize_name_counter` suffix regex | injectivity of decimal rendering + counter monotonicity, induction over history |
| C02 | `port_name`, `node_name` on character lists | list lemmas on last ':' |
| C03 | `merge_shapes`, `are_shapes_compatible`, `are_shapes_equal` | list induction; lattice laws against "concrete shape matches" |
| C04 | `utils.topological_sort` work-stack machine | invariant over the machine's steps; termination measure |
| C05 | `combine_seeds` | Cantor pairing argument over Nat; counterexample for negatives |
| C06, C07 | `Graph` state record with all index maps, one function per edit API | inductive invariant over an arbitrary list of edit commands |
| C08 | world of graphs (parent + bodies, any depth) with `_input_to_graph` | inductive invariant over histories; negation by concrete histories |
| C09, C10, C13, C14 | abstract operator semantics: a valuation satisfies a graph | simulation: same inputs/outputs relation before/after |
| C11 | `Graph.topological_sort` DFS with labels | DFS invariant; bridge theorem to sequential execution |
| C12 | `Graph.__init__` identity insertion | valuation transport |
| C15, C16, C18, C19 | tensors as shape + function on indices / row-major lists, perms as lists | index arithmetic, permutation lemmas |
| C17 | cast semantics: any conforming runtime over exact numbers | witness, partial |
| C20 | driver loop over arbitrary pass behaviours | induction over pass list and iterations |
| C21 | `OpTypePattern`, `GraphMatcher._match_pattern` | inductive "is an instance" relation, soundness+completeness |
| C22, C41 | symbolic elements, handlers, planning; the reshape decision | denotation under assignment, simulation along the plan |
| C23 | registry dict + `create_mapping` | characterisation of fold with max |
| C24 | external storage naming + zip as entry list | injectivity of suffix; roundtrip |
| C25-C29 | byte-list decoders | roundtrip with a specified encoder, unbounded |
| C30-C35 | arithmetic/attribute computation of converters | integer arithmetic, list induction |
| C36 | both shape inference loops | soundness w.r.t. run-time shapes; negation where wrong |
| C37 | renaming loop | invariant + termination |
| C38 | `rename_tensors` | valuation transport |
| C39, C40 | control skeleton of `run_rewriters`, `_convert_common` | negation by witness + partial |
| C42 | `_optimize_conv_batchnorm_fusion` over a field | algebra over a general convolution |
| C43 | whole Q/DQ optimizer on the graph model | invariant of the fixpoint loop, valuation transport |
| C44, C45 | whole pattern rewriters on the graph model, on top of the matcher model | validity of one replacement, intactness of later matches, simulation for node lists with repetitions |
| C46, C47, C49 | the handlers as sequences of graph calls (`Model/HandlerActs`, `Model/HandlersElem`); TensorFlow and ONNX operators have separate element functions, and an ONNX operator has a meaning only on the types of its operator set (`Spec/ElemOps`) | one generic theorem about sequences of calls (`HandlerActs`, `HandlerSite`); one element law per handler |
| C48 | the loop of `tensorflow_onnx_mapping` over an arbitrary table of handlers | invariant: unconverted nodes keep operator, attributes, outputs and what is recorded for their inputs; a valuation of the graph is transported across each step |
| C50, C51 | functions are graphs of their own; the handlers `If`/`While` as graph transformations (`Model/ControlFlow`); TensorFlow and ONNX control flow as big-step relations over loop variables (`Spec/ControlFlow`) | renaming a graph apart is an isomorphism (`CFPrefix`), binding placeholders is substitution (`CFBind`, `CFSem`), appending one graph to another (`CFInline`); induction over both loop derivations (`C51_Loop`); transport of a valuation of the whole graph (`C51_While`) |
| C52 | `process_parsed_graph` after the rewriters and `optimize_graph` with two optimizers, on the models of the stages (`Model/Pipeline`) | one invariant carried through all stages (`Done`), `SameModel`/`SameOn` composed, the number of nodes as measure for the optimizer loop; success of every graph call from an invariant on names and on the consumer index (`Props/EditTotal`, `HandlerTotal`, `MappingTotal`, `ElemTotal`, `C52_Total`) |
| C53 | handlers with axes, permutations and target shapes (`Model/HandlersAxis`); array functions arbitrary and shared, the encodings of dimensions separate for TensorFlow and each ONNX operator set (`Spec/AxisOps`) | one theorem per handler from the generic one (`self_step`, `slotCast_step`), `AxisWitness` gives a meaning that meets all hypotheses together |
| C54, C55 | the handlers as the ONNX operators they emit (`Model/Rearrange`), run by an evaluator of ONNX operators written from their specification (`Spec/OnnxEval`) | evaluation of the emitted shape arithmetic to vectors, row-major positions through reshapes and permutations, element by element against TensorFlow's documentation (`Spec/TfRearrange`) |
| C56 | TensorFlow's and keras' cells and `dynamic_rnn`, ONNX `LSTM` and `GRU` (`Spec/Rnn`); the weights, activations and states the rewriters compute (`Model/Rnn`) | position-wise evaluation of split/concat/transpose of the weights, then equality of one step, then induction over steps (frozen after the end of a sequence) and over layers; counterexamples for what is not checked |
| C57 | windows moving over an image, `tf.nn.convolution`, `depthwise_conv2d` and ONNX `Conv` for any rank (`Spec/Conv`); the attributes, groups, pads and transposes the handlers write (`Model/Conv`) | a layout theorem for all windowed operators, equality of the windows for the three paddings (C30), then of the weights read through the transposed (and reshaped) kernel |
| C58 | `tf.nn.max_pool`, `avg_pool` and the ONNX pools (`Spec/Conv`), `PoolOp` (`Model/Conv`) | the same layout and padding theorems |
| C59 | `SpaceToBatchND`, `BatchToSpaceND` (`Spec/TfRearrange`) around the convolutions of `Spec/Conv`; the rewriter's checks and the attributes it writes (`Model/ConvDilations`) | per-axis arithmetic of blocks, then equality of the windows read, for any operator that does not tell padding from zeros; composed with C57 |
| C60 | gradient of the convolution of `Spec/Conv` and ONNX `ConvTranspose` as functions that gather, for every element of the image, the windows that cover it (`Spec/ConvTranspose`); the three branches of the handler (`Model/ConvTranspose`) | `source_iff` says what is gathered; the padding of `SAME`/`VALID` in terms of the total padding; layout as in C57; slice and pad of the computed-size branch by index arithmetic |
| C61 | the passes of the pooling and upsampling optimizers on graphs (`Model/SmallOpts`), the operators of `Spec/PoolOps`; `compute_new_axis`, the permutation of the loop optimizer; per-axis dequantization and stacking (`Spec/QuantOps`) | each replacement is a sequence of calls (`acts_step`), composed over passes (`Props/OptPass`); tensor identities by index arithmetic |
| C62 | the equation, its rows and the loop over the operands of `einsum_optimizer.py` (`Model/Einsum`), the operators it emits (`Spec/Einsum`), the handler in `math.py` | the specification is the sum of products over letter assignments; invariant of the loop: the result so far is the partial sum over exactly the letters not used later, aligned on all letters (`Props/C62_Loop`); product step by row-major index arithmetic (`C62_Dot`, `C62_Batch`); transposes merged (`C62_Merge`); letters renamed injectively (`C62_Rename`, `C62_Text`) |
| C63 | the handler of segment reductions as the function its emitted ONNX operators compute (`Model/Segment`, operators in `Spec/SegmentOps`) | specification `Spec/TfSegment`: reduction of the multiset of rows with the id; key lemma: in sorted ids the positions of one value differ modulo their number (`mod_count_inj`), so the scatter is defined and row `s` of the grid is the positions of `s` and fillers (`grid_ok`), fillers select a row of neutral elements |
| C64 | the handlers of ragged and sparse tensors as the function their emitted ONNX operators compute (`Model/Ragged`, `Model/SparseOps`; operators on vectors in `Spec/VecOps`) | specification `Spec/Ragged`: nested lists, leaves, their positions. Mask over the box = rows and columns (`lengthsToIndices_ok`), induction over levels (`places_fold`); steps scattered to the starts of blocks and summed give the numbers of all blocks (`running_index`), used for row ids and for gathering; suffix products = row-major positions (`delin_emitted`) |
| C65 | the handlers as the function their emitted ONNX operators compute (`Model/IndexOps`; ONNX operators in `Spec/IndexOps`, TensorFlow's meaning in `Spec/TfIndex`) | scattering a function of distinct values (`scatter_fun`, `scatterND_fun`); rows in lexicographic order are determined by their members (`sorted_ext`), so the rows of a set operation are those of the specification; blocks of equal rows and the running index of C64 (`lastIndex_blocks`) |
| C66 | every rewriter as a function of the values of a match, of what is recorded and of its tests (`Model/PatternRewriters`; operators in `Spec/PatternOps`) | tensors seen from the last axis: a broadcast operator is a pointwise operation there (`zipT_view`), so both sides are compared coordinate by coordinate; padding moves into the window of a convolution (`pad_conv`); the share of a grid above a bound (`share`) |
| C67 | ranges, scales per channel, the two ONNX operators and their rounding over rational numbers (`Model/QuantRewriter`, `Spec/Quantize`) | rounding to even is monotone and keeps integers, so it commutes with clamping to integer bounds (`round_clamp`); TensorFlow's choice of the smaller scale is the code's choice of the larger inverse (`scale_facts`) |
| C68 | emitted loops, masks, products and generators over tensors of any rank (`Model/ScanOps`, `Model/Atan2`, `Spec/ScanOps`, `Spec/Atan2`) | the loop of Cumprod by an invariant on its iterations; the running sums of MatrixBandPart give column minus row by induction; Range by the number of iterations (ceiling); broadcasting seen from the last axis (`View`, `Chosen`); Atan2 by cases on the two signs from Mathlib's `Complex.arg` |
| C69 | graphs of operators, Switch, Merge and If over any value type; a run of TensorFlow gives tensors values or none (dead); the rewriter on such graphs (`Spec/CondFlow`, `Model/CondRewriter`) | the worklist of `extract_sub_graph_nodes` computes the closure (induction on fuel, which suffices); an invariant of the loop over the conditionals: every node is as TensorFlow made it or an If whose branches are right, what lives outside the rewritten conditionals is produced; evaluation of such a graph by induction on the order of computation |
| C70 | graphs of operators and the nodes of tf.while_loop over any value type; a run of TensorFlow gives each tensor a value or none in each iteration; ONNX Loop with bodies that see the tensors around them (`Spec/WhileFlow`, `Model/LoopRewriter`) | an invariant of the loop over the LoopCond nodes: every node is as TensorFlow made it or a new one that gives the right values in every good environment; the body computes the variables and the condition of the next iteration (induction on the order of computation), the Loop node what Exit passes on (induction on the iterations left) |
| C71 | the handlers of RFFT, FFT, RFFT2D and ComplexAbs as functions of what is recorded about the operand and of the operand, on real tensors of any rank; the transform as a sum of complex exponentials (`Spec/Fourier`, `Model/Fourier`) | one lemma per emitted operator for tensors of rank 2, 3 and 4 given by a function; real and imaginary parts of sums; rows of a tensor by its row-major position |
| C72 | the handlers as functions of the operands and of what is recorded about the shapes; TensorFlow's softmax and losses as sums (`Spec/Softmax`, `Model/Softmax`) | the multiset that a reduction over one axis takes is a line; one lemma per emitted operator on matrices; exponentials and logarithms |
| C73 | values as integers, types as intervals of `2 ^ bits` numbers, casts keep the lowest bits (`Spec/Bits`, `Model/Bits`) | division with remainder by powers of two; a width twice as large keeps the sign |
| C74 | TensorFlow's kernels with hue, saturation and value; the emitted operators on three channels (`Spec/Colour`, `Model/Colour`) | the six orders of three channels; the hue up to whole turns; the six sectors |
| C75 | the emitted operators with the transposes of `conv_convert_inputs`; TensorFlow's layers by index (`Spec/Channels`, `Model/Channels`) | positions in row-major order as polynomials; the multiset of a reduction is the list of values of a channel, in both layouts; broadcasting against a kept axis |
| C76 | an axis of a resized image as a list of weights and positions, for TensorFlow's kernels and for ONNX's modes and coordinate systems (`Spec/Resize`, `Model/Resize`) | the coordinates are equal and lie between -1 and the size; so the clamped positions agree or their weight is zero; axes of scale 1 are the identity; numbers of 24 binary digits are not rounded |
| C77 | the body of the emitted loop as a function of the iteration, the loop as `mapM` over the trip count, stacked and reshaped (`Spec/Crop`, `Model/Crop`) | one axis: equal coordinates, weights between two pixels, roundings equal away from the middle; the axes of image and channels are the identity; the loop by induction on the number of boxes |
| C78 | the emitted `Unsqueeze`, `Concat`, `Split`, `Squeeze` as operators on tensors; TensorFlow's by inserting and removing a component of the index; the largest elements as a predicate on positions (`Spec/Stack`, `Model/Stack`) | shapes as a part in front of the axis and a part behind it; concatenation by induction on the operands; sorting is strict on positions, so the list is unique; strictly monotone casts keep the order |
| C79 | the emitted `Transpose`, `Reshape`, `EyeLike`, `Conv` between its transposes; TensorFlow's patches by the windows of `Spec/Conv` (`Spec/Patches`, `Model/Patches`) | the theorem on convolutions (C57) for one-channel images; a sum of products with a unit kernel has one term; row-major positions of merged axes |
| C80 | the emitted `MaxPool` with both results between its transposes, and the arithmetic on the positions with broadcasting; both operators as pools of an image whose elements carry their number, channels last or channels first (`Spec/Argmax`, `Model/Argmax`) | the theorem on pools (C58) for the image with numbers; windows are never empty; the choice does not see the numbers; row-major positions |
| C81 | the emitted mask, `TopK`, shifted comparison, `CumSum`, `Compress` and `ReduceMax` against a decoder that goes through the steps one by one (`Spec/Greedy`, `Model/Greedy`) | decoding as a filter by induction over the steps with any class before; exclusive running sums of the kept steps count from 0; the largest place plus one is the largest length |
| C82 | `NonMaxSuppression` of ONNX as a loop over the sorted candidates, the column cut out of its result, gathered scores and padding; TensorFlow's selection by what it contains: sorted, apart, and everything else suppressed or too late (`Spec/Nms`, `Model/Nms`) | invariant of the loop; uniqueness by induction over a common prefix; areas: what is common is not larger than a box, so the total is positive |
| C82 | the combined operator: rows of all images and classes, numbers within an image by running sums, a grid filled by `ScatterND`, `TopK` of its lines, gathered boxes and classes (`Spec/Nms`, `Model/Nms`) | running sums count the rows of an image from 0, so the grid holds the entries of an image class by class; the largest elements of positive entries with zeros behind them are the best entries, then zeros |
| C83 | the emitted arithmetic of boxes, `NonMaxSuppression` of one image, gathered scores, `TopK`, padding (`Spec/Detection`, `Model/Detection`) | the selections of C82 class by class; the rows are the entries; field arithmetic for the boxes |
| C84 | the emitted arithmetic of drawn boxes, their tests, the first accepted one (`Spec/Distort`, `Model/Distort`) | bounds by ordered-field arithmetic; the first accepted of a list |

## Modules: what is modelled, what is not

* `Model/Names`, `Model/Shapes`, `Model/Seeds`, `Model/DepSort` — `tf2onnx/utils.py`: `make_name`, `initialize_name_counter`,
  `port_name`, `node_name`, `merge_shapes`, `are_shapes_compatible/equal`, `topological_sort`; `combine_seeds`. Not: the rest
  of `utils.py` (dtype maps, protobuf helpers, HTTP).
* `Model/Graph` — `tf2onnx/graph.py`, class `Graph`/`Node`: all tables (`_nodes`, `_nodes_by_name`, `_output_to_node_name`,
  `_output_to_consumers`, shapes, dtypes, inputs, outputs) and the edit API (`make_node`, `remove_node`, `reset_nodes`,
  `replace_input(s)`, `remove_input`, `replace_all_inputs`, `insert_*`, `set_attr`, `change_node_name`, `add_graph_input/output`).
  Not: protobuf export (`make_model`), ONNX shape inference for new nodes, `optimize` bookkeeping, comments and logging.
* `Model/NestedGraph` — parent graphs and `_input_to_graph`, for any nesting. `insert_*` and `change_node_name` inside a
  world are sequences of modelled edits and are not single edits there.
* `Model/TopoSort`, `Model/Prune`, `Model/Construct`, `Model/Rename` — `Graph.topological_sort`, `extract_sub_graph_nodes`,
  `delete_unused_nodes`, `__init__`, `rename_tensors`. Bodies enter through the parameter `implicit`.
* `Model/IdentityOpt`, `Model/MergeDup`, `Model/QDQ` — the three optimizers in full, on one graph level (their recursion
  into body graphs runs the same code on each body).
* `Model/TransposeOpt`, `Model/ConstFold`, `Model/CastOpt`, `Model/ConvBatchNorm`, `Model/ReshapeOpt` — the attribute and
  constant arithmetic of `transpose_optimizer.py`, `const_fold_optimizer.py`, `back_to_back_optimizer.py`,
  `reshape_optimizer.py`; the surrounding graph surgery (which node is rewired to which) is not replayed, except that its
  guards are modelled where they decide correctness (`CastOpt.removes`, `ConvBN.fuse`).
* `Model/Symbolic` — `symbolic_executor.py` in full, unbounded integers.
* `Model/Matcher` — `graph_matcher.py` in full.
* `Model/Registry` — `handler.py` (`tf_op.create_mapping`, `find_effective_op`), `schemas.get_schema`.
* `Model/Driver` — `optimizer/__init__.py:optimize_graph`, `tfonnx.run_rewriters`, the error switch of `convert.py`.
* `Model/Decode`, `Model/Flexbuffers`, `Model/External` — tfjs weight and attribute readers, tflite string tensors,
  flexbuffers, external tensor storage and the large-model zip (as an entry list). Not: UTF-8, float bit patterns, zlib.
* `Model/Padding`, `Model/SliceOps` — `onnx_opset/nn.py` layouts and padding; `onnx_opset/tensor.py` `StridedSlice` (constant,
  unit stride), `Slice`, `Roll`, `SplitV`.
* `Model/ShapeInf` — `shape_inference.py` in full (TensorFlow's own inference between rounds is an arbitrary function that
  keeps true shapes true).
* `Model/Rewriters` — `rewriter/leakyrelu_rewriter.py`, `rewriter/thresholded_relu_rewriter.py`, `Graph.safe_remove_nodes`, in full, on
  one graph level; the iteration order of Python sets is a parameter.
* `Model/Handlers`, `Model/HandlerActs`, `Model/HandlersElem` — the operator handlers named in C46, C47 and C49, on one graph level,
  without the shapes and dtypes recorded for tensors inside the new group. A node of domain "tf" is a TensorFlow node; converting it
  sets the domain to "" (a ghost: in the code both have domain "", told apart only by the operator name and the `skip_conversion` mark).
* `Model/Mapping` — the loop of `tensorflow_onnx_mapping` for graphs without bodies.
* `Model/ControlFlow` — `onnx_opset/controlflow.py`: `parameter_binding`, `prefix_graph`, `wire_if_branch`, `inline_subgraph`, `IfOp`,
  `StatelessIfOp`, `While`, `wire_while_body`, without nested bodies, tensor lists and ragged tensors; fresh names are parameters.
* `Model/Pipeline` — `process_parsed_graph` of `tfonnx.py` from the point where the rewriters have run (no bodies, no late rewriters), and
  `optimize_graph` with the optimizers for identities and duplicates.
* `Model/HandlersAxis` — `onnx_opset/reduction.py` (`ReduceOpBase`, `ArgMax`, `AllAny.version_6`) and the handlers of `onnx_opset/tensor.py` named in C53, on one graph
  level; constants hold integers.
* `Model/Rearrange` — `ReverseV2`, `ReverseSequence`, `BatchToSpace`, `SpaceToBatch` (`onnx_opset/tensor.py`), in full as far as the emitted operators go; names, recorded shapes and types, and the order of the graph calls are not modelled. `Spec/OnnxEval` — the meaning of the emitted operators, with the forms each operator set accepts.
* `Model/Rnn` — weights, biases, activations, initial and final states and stacking of `lstm_rewriter.py`, `lstm_tf2_rewriter.py`, `gru_rewriter.py`, `gru_tf2_rewriter.py`, merging of two directions (`bilstm_rewriter.py`, `bigru_rewriter.py`, `rnn_utils.py`). What a pattern matched is given as a cell; the pattern matching itself, loop parsing, block cells, `CudnnRNN`, attention wrappers are not modelled.
* `Model/Conv` — `ConvOp`, `DepthwiseConv2d`, `PoolOp` of `onnx_opset/nn.py` with `add_padding`, `conv_convert_inputs`, `conv_kernel_shape`, `parse_dims_attr`: the attributes written and the tensors that flow through the emitted operators. Not modelled: kernels behind `DequantizeLinear`, images without batch axis, casts around integer pools, recorded shapes of new tensors.
* `Model/ConvDilations` — `rewriter/conv_dilations_rewriter.py`: what is checked for a match, `determine_pad_mode`, and the attributes of the rewritten convolution. Not modelled: matching (C39-style pattern search), graph calls.
* `Model/ConvTranspose` — `onnx_opset/nn.py` `ConvTranspose`: attributes for constant sizes (pads or `output_shape`), slice and pad for computed sizes. ONNX's rule for `output_shape` is that of the text of the operator specification. Not modelled: the recorded shape of the result, graph calls.
* `Model/SmallOpts` — `optimizer/global_pool_optimizer.py`, `optimizer/upsample_optimizer.py` (one graph level), `compute_new_axis` of `optimizer/const_dequantize_optimizer.py`, the new permutation of `optimizer/loop_optimizer.py`. Not modelled: shapes recorded inside the replaced group, the graph surgery of the last two.
* `Model/Einsum` — `optimizer/einsum_optimizer.py`: `analyse_einsum_equation`, `_decompose_einsum_equation`, `_apply_transpose_reshape`, `_apply_squeeze_transpose`, `_apply_einsum_matmul` (`batch_dot`), `remove_duplicate_transpose`, `_to_onnx_*`, the renaming of `_build_optimize_ml`; the handler `Einsum` of `onnx_opset/math.py`. Not modelled: diagonals (raise), numpy execution, cost model, `clean_unused_nodes` (nodes are a tree), the replacement in the graph.
* `Model/Segment` — `onnx_opset/reduction.py`: `SegmentSum.any_version` for all its operators. Strings of operator names are taken apart beforehand. Not modelled: names, recorded shapes of what is emitted, the replacement in the graph.
* `Model/Ragged`, `Model/SparseOps` — `onnx_opset/tensor.py:2500-2985`: ragged tensors to sparse and dense ones, ranges, gather, sparse reshape, filling of empty rows. Integers are unbounded, casts between integer types the identity. Not modelled: `RaggedTensorFromVariant/ToVariant`, names, the replacement in the graph.
* `Model/IndexOps` — `onnx_opset/tensor.py`: Bincount, Unique, DynamicPartition/Stitch, OneHot (both versions), MatrixDiagPart, DenseToDenseSetOperation, ScatterNd, TensorScatter*, SparseToDense. Not modelled: the rs6 target, types that are refused, names, the replacement in the graph.
* `Model/PatternRewriters` — `rewriter/{gemm,flatten,transpose,eye,conv2d_with_pad,conv2d_with_add,layer_normalization,dropout,random_uniform,random_normal,ragged_variant_shape}*.py` on one match. Not modelled: removal of nodes, the attribute's rounding, seeds.
* `Model/QuantRewriter` — `rewriter/quantization_ops_rewriter.py`, `onnx_opset/quantize.py`. Not modelled: float rounding, raw bytes of the range constants, node removal.
* `Model/ScanOps` — `CumProd`, `MatrixBandPart`, `Fill`, `ZerosLike`, `OnesLike`, `RandomUniformInt`, `RandomShuffle`, `InvertPermutation`, `Range` (version 7), `Select`. `Model/Atan2` — `Atan2Op`. Not modelled: float rounding, names, recorded shapes of the intermediate nodes.
* `Spec/CondFlow` — what a run of TensorFlow obeys, the value of a tensor in ONNX with outer scopes, what `tf.cond` builds. `Model/CondRewriter` — `cond_rewriter.py`, `extract_sub_graph_nodes`, `get_implicit_inputs`. A node object is identified by its first output; an order given by the sort is an argument. Not modelled: constant predicates, `value_index`, Identity nodes behind outputs of branches, recorded shapes of the results.
* `Spec/WhileFlow` — what a run of TensorFlow obeys, what `tf.while_loop` builds, the value of a tensor in ONNX. `Model/LoopRewriter` — `loop_rewriter_base.py`, `loop_rewriter.py` without tensor arrays. New names are a function nothing is assumed of but that they are new (`fresh_exists`). Nodes of converted loops that are left over stay in the model.
* `Spec/Fourier` — `tf.signal.rfft`, `rfft2d`, `tf.abs` on the real and complex numbers, ONNX `MatMul` with batches. `Model/Fourier` — `signal.py`: `RFFT`, `FFT`, `RFFT2D`, `ComplexAbs`. The branch with an axis (`axis` is passed by no caller) is left out.
* `Spec/Softmax` — softmax, log-softmax and the two cross-entropy losses of TensorFlow; ONNX `Softmax`, `LogSoftmax` before and from operator set 13 on, reductions over one axis. `Model/Softmax` — `math.py`: `Softmax`; `nn.py`: the cross-entropy handlers.
* `Spec/Bits` — integer types, casts, shifts of TensorFlow, ONNX `BitShift`. `Model/Bits` — `math.py`: `BitShift`; `graph.py`: `maybe_cast_input`.
* `Spec/Colour` — hue, saturation and value as the kernels of TensorFlow compute them; ONNX `TopK`, `GatherElements`, `Mod`, `Clip` on three channels. `Model/Colour` — `nn.py`: `AdjustSaturation`, `AdjustHue`.
* `Spec/Channels` — space to depth, local and batch normalisation, contrast in TensorFlow and ONNX. `Model/Channels` — `nn.py`: `SpaceToDepth`, `DepthToSpace`, `BatchNorm`, `AdjustContrastv2`; `math.py`: `LRN`.
* `Spec/Resize` — resizing of images in TensorFlow and ONNX, rounding to single precision. `Model/Resize` — `nn.py`: `Resize` at operator sets 7, 9, 10, 11.
* `Spec/Crop` — boxes cut out of images in TensorFlow and ONNX. `Model/Crop` — `nn.py`: `CropAndResize` from operator set 11 on, `build_dynamic_target_size`.
* `Spec/Stack` — stacking, unstacking, largest elements in TensorFlow and ONNX. `Model/Stack` — `tensor.py`: `Pack`, `Unpack`, `TopKV2` from operator set 10 on.
* `Spec/Patches` — patches of images; sums of products; unit matrices. `Model/Patches` — `nn.py`: `ExtractImagePatches`.
* `Spec/Argmax` — the largest elements of windows with their positions, in TensorFlow and ONNX. `Model/Argmax` — `nn.py`: `MaxPoolWithArgmax`.
* `Spec/Greedy` — greedy decoding, step by step. `Model/Greedy` — `nn.py`: `CTCGreedyDecoder`.
* `Spec/Nms` — selection of boxes in TensorFlow and ONNX. `Model/Nms` — `tensor.py`: `NonMaxSuppression`, `CombinedNonMaxSuppression`.
* `Spec/Detection` — detections in TensorFlow Lite. `Model/Detection` — `tfl_postprocess.py`: `TflDetectionPostProcess`.
* `Spec/Distort` — allowed boxes of an image. `Model/Distort` — `nn.py`: `SampleDistortedBoundingBox`.

## Defects found (each `_violated` theorem is a machine-checked witness)

| property | defect |
|---|---|
| C01 | `initialize_name_counter` does not look at graph inputs and initializers: generated names can collide |
| C05 | negative seeds collide (outside the stated property) |
| C07 | `replace_input(..., idx)` / `remove_input(..., idx)` drop a consumer that still reads the tensor through another slot |
| C08 | `_unregister_input_name` of a body deletes the parent's entry although other nested readers remain; a body that gets its parent late is never registered; `replace_all_inputs` then misses nested readers |
| C14 | duplicate merging ignores the domain; an unnamed output `""` of one twin redirects absent inputs elsewhere |
| C15 | `Reshape` folding ignores `allowzero` |
| C17 | cast chains int→bool and through narrower floats are shortened wrongly |
| C18 | back-to-back `Reshape` with 0 in the second shape |
| C19 | `_softmax_handler` before opset 13 moves across negative axes |
| C22 | symbolic executor: negative `Squeeze` axes, value-changing `Cast`, `ReduceProd` with empty axes |
| C23 | `create_mapping` fills the per-domain table before the newest version of an op is known |
| C24 | external storage of tensors with typed data loses the values |
| C25 | tfjs string weights lose trailing NUL bytes |
| C28 | padding after the last string of a tflite string tensor is appended to it |
| C31 | `x[-1:0]`-like slices select everything to the end |
| C32 | run-time `size = -1` with `begin >= 2` overflows |
| C34 | `make_shape_channels_last` puts the channel dimension in the wrong place |
| C35 | `SplitV` with -1 and an unknown axis length emits a negative size |
| C36 | broadcasting aligned at the left, `Pow`, `Pack` with negative axis, `SelectV2`, unknown placeholders, `Merge`, `Concat` raises, `Minimum`/`Maximum` loop forever |
| C37 | a keras output name that is unique can still be renamed |
| C38 | a signature input and output with the same name break the graph silently |
| C39 | exceptions of rewriters on body graphs are always swallowed |
| C40 | the error switch compares the variable's name instead of its value |
| C41 | reshape optimizer: constant 0 with a shift, `TypeError` for unknown output shape |
| C43 | Q/DQ optimizer: scatter with reduction, per-channel scale along the default axis, missing zero point |
| C44 | a leaky rectifier applied to another one: the second new node reads a removed tensor (names are taken from matches made before); the new node is listed twice in the node list |
| C45 | `theta > x` is taken for `x > theta`; a non-scalar theta gives a list-valued attribute; chains as in C44 |
| C46 | integer `FloorDiv`/`FloorMod` of operands of different signs (the integer path has no `Floor`) |
| C49 | `BroadcastOp` swapping the operands of `Mul`/`Add` drops the node from the readers of its second operand (a later `replace_all_inputs` misses it); `Sign` of doubles before operator set 9 compares a double with a float; `DivNoNan` at 9 and 10 uses `Equal` on floats; `ClipByValue` from 12 on becomes `Clip` even for bounds that are not scalars |
| C47 | integers above 2^24 compared as `float`; `GreaterEqual`/`LessEqual` with NaN before operator set 12; fractional floats compared as `int32` by `Equal` before operator set 11 |
| C50 | a branch's own tensor called like the tensor passed for a parameter captures it when placed before the placeholder; `If` with no inputs besides the condition is left unconverted; a branch that returns a tensor twice raises; domains of operators inside branches are dropped |
| C51 | a condition that reads the loop counter without a bound is evaluated on the counter from before the iteration (one iteration too many); initial counters other than 0 are ignored; readers of the counter and bound results are left without producer; a result of `While` that is itself a graph output makes the conversion raise |
| C53 | reductions with no axes before 13/18, and `All`/`Any` before 13, reduce everything; `Reshape` to a target with 0 copies a dimension; `ConcatV2` drops constants that are empty in another dimension; negative `ArgMax` axis of unknown rank before 11 is written as it is; the `Cast` of the second input of `Tile`, `Reshape`, `BroadcastTo`, `ReduceSum` is put on the first one if both are the same tensor (`insert_new_node_on_input` looks for the first slot that reads the tensor) |
| C54 | `ReverseSequence` writes any sequence and batch axis into the node; ONNX accepts only the first two axes, so other models are rejected by the runtime (`reverseSequence_rejected`) |
| C56 | TensorFlow 1 LSTM: the activation of the cell is never written into the node (`tf1_activation_lost`) |
| C56 | TensorFlow 2 LSTM: the activations of input and output gate are taken to be that of the forget gate (`tf2_gate_activation_lost`); which part of the split a gate reads is not checked (`gate_order_ignored`); nor are the constants of the hard sigmoid (`hard_sigmoid_constants_ignored`) |
| C56 | TensorFlow 1 LSTM with `state_is_tuple=False`: initial `h` and `c` are exchanged (`tf1_state_swapped`) |
| C56 | stacked layers are ordered by the name of their kernel as a string, `cell_10` before `cell_2` (`layers_sorted_by_string`); dropout and residual wrappers between layers are ignored (`wrappers_ignored`) |
| C56 | the activation of `CudnnCompatibleGRUCell` is taken to be `Tanh` (`cudnn_activation_lost`) |
| C56 | merging two directions does not check how the input is reversed: `ReverseV2` with sequence lengths gives other results (`reversal_ignored`) |
| C57 | `SAME` with a kernel of unknown size and an image of known size: -1 is taken for the size, no padding is written (`same_unknown_kernel_violated`) |
| C57 | groups are found only for `NHWC`/`NCHW` with known channels; otherwise the node gets one group, an invalid model (`group_unknown_violated`) |
| C59 | strides and dilations of the convolution between the two operators are not looked at (`dilations_strides_violated`, `dilations_overwritten_violated`) |
| C59 | crops larger than the padding give negative pads (`dilations_negative_violated`) |
| C59 | computed paddings are guessed to be those of `VALID` from the presence of a `FloorMod` (`dilations_guess_violated`) |
| C60 | more than one element between windows (stride - kernel or remainder at least 2): the result is shifted, through negative pads (`left_over_violated`) |
| C60 | `output_shape` with an odd padding from opset 11: the wrong end is cut off (`output_shape_odd_violated`) |
| C60 | explicit paddings are ignored (`explicit_violated`) |
| C60 | computed size with channels first slices channels and height (`dynamic_channels_first_violated`) |
| C60 | computed size below opset 12: result too short (`dynamic_old_opset_violated`; the converter logs this) |
| C61 | ReduceMean/ReduceMax with an empty list of axes and an operand of rank 2 or less becomes global pooling (`noAxes_view`, `noAxes_violation`) |
| C61 | per-channel DequantizeLinear without the attribute `axis` (default 1): TypeError (`defaultAxis_violation`) |
| C61 | by reading: the dequantized tensor, or its constant, may itself be an output of the graph; its value is changed. A scan output of a loop that is an output of the graph is left without the transpose |
| C62 | the Einsum handler lower-cases the equation: `aA,Ab->ab` becomes `aa,ab->ab` (`lowercase_merges_letters`) |
| C62 | decomposing `,a->a`: the leading comma is stripped, the result is the first operand (`scalar_first_operand_lost`) |
| C62 | at opset 12 the decomposition emits `ReduceSum` with the axes as an operand: invalid model (`opset_12_invalid`) |
| C62 | operands with an axis of length 0: `Reshape` with -1 cannot infer the length, the decomposed model fails where `Einsum` gives an empty or zero result (`empty_axis_fails`) |
| C63 | `SegmentMax`, `SegmentMin` and the unsorted ones on integers: `np.iinfo(..).min` has no `tolist`, the conversion raises `AttributeError` (`int_max_raises`) |
| C63 | `SegmentMax/Min` with an id that does not occur give an infinity for it, TensorFlow 0 (sorted) or the extreme finite number (unsorted); `SegmentMean` gives 0/0, TensorFlow 0 (the hypothesis `NoGap`) |
| C63 | `SparseSegmentMeanWithNumSegments` and `..SqrtN..` of float64 (or float16): `Max` with a float32 constant, invalid model (`double_mean_rejected`) |
| C63 | unsorted reductions drop negative ids in TensorFlow; converted they are counted from the last segment (`negative_id_wraps`) |
| C64 | `RaggedTensorToSparse/ToTensor` with a level that has no rows (every outer row is empty) or, with row ids, no elements: `ReduceMax` of nothing (`splits_no_rows`, `rowIds_no_elements`) |
| C64 | `RaggedRange` of integers rounds a quotient between -1 and 0 up to 1: `tf.ragged.range([0], [-1], 2)` becomes `[[0]]` instead of `[[]]` (`raggedRange_wrong`); three scalar inputs give an invalid model (`raggedRange_scalars`) |
| C64 | `SparseReshape` with a dimension 0 divides by zero (`sparseReshape_zero`) |
| C64 | `SparseFillEmptyRows` puts the new elements behind the others; TensorFlow promises sorted indices |
| C65 | `OneHot` from opset 9: an index of -1 means no value in TensorFlow but the last class in ONNX (`oneHot_negative_wrong`) |
| C65 | `OneHot` of a type other than float with on = 0 and off = 1: the table becomes all zeros, since the second replacement also hits the new ones (`oneHot_swapped_wrong`) |
| C65 | `DynamicStitch` sizes its result by the number of indices: a gap is an index out of range, an index in two parts is written twice, which ONNX leaves undefined (`stitch_gap_wrong`, `stitch_twice_wrong`) |
| C65 | `MatrixDiagPart` slices axes 2 and 1 instead of the last two: a single matrix gives an invalid model, two leading dimensions are cut (`diagPart_matrix_wrong`, `diagPart_rank4_wrong`) |
| C65 | `ScatterNd` with an index twice: TensorFlow adds up, the emitted operator has no reduction (`scatterNd_twice_wrong`) |
| C65 | Set operations whose result has no element: `ReduceMax` of nothing (`setOperation_empty_wrong`) |
| C65 | `Unique` of doubles goes through 32-bit floats and merges values (`unique_lossy_wrong`) |
| C65 | `SparseToDense` with a vector of indices: `ScatterND` reads it as one index tuple; 32-bit indices are not cast although ONNX demands 64 bits |
| C65 | `Bincount` (not `DenseBincount`) of a matrix counts each row, TensorFlow counts over the whole tensor |
| C66 | `Gemm`: a constant `[[2.0]]` stays a list and becomes an attribute that is no number (`gemm_nested_violated`); a summand of rank 3 raises IndexError (`gemm_rank_violated`) |
| C66 | `Flatten` by the number of rows of some other tensor (`flatten_other_rows_violated`) |
| C66 | `Transpose` by a computed permutation: what is subtracted is not looked at (`transpose_negative_step_violated`) |
| C66 | identity matrices: a matrix that is not square, leading axes and a background that is not 0 (`eye_not_square_violated`, `eye_batch_violated`, `eye_background_violated`) |
| C66 | `Pad` before a convolution with explicit padding: that padding is lost (`pad_explicit_violated`); `BiasAdd` in another layout (`bias_layout_violated`) |
| C66 | layer normalization: `mean - x` is matched like `x - mean` (`layer_norm_sign_violated`), `keepdims` is not looked at (`layer_norm_keep_violated`), doubles get 32-bit ones and zeros (`layer_norm_type_violated`) |
| C66 | dropout: the form of TensorFlow 1 is never recognized with its own constants (`dropout_floor_missed`) and wrong with others (`dropout_floor_violated`); the order of the comparison is not looked at (`dropout_order_violated`) |
| C66 | `random_uniform`: what is added is not compared with the lower bound (`random_uniform_violated`); an incomplete recorded shape gives an invalid attribute (`random_shape_violated`) |
| C67 | `QuantizeAndDequantize`: `num_bits` and `round_mode` are ignored (`qdq_bits_violated`, `qdq_mode_violated`); a narrow given range is not clamped at -127 (`qdq_narrow_violated`); a tensor of zeros gives scale 0 |
| C67 | `FakeQuant`: ties are rounded to even, TensorFlow rounds them up (`fakeQuant_tie_violated`) |
| C68 | `Cumprod` with a negative axis raises (`cumprod_negative_axis_violated`); exclusive over an empty axis gives one element (`cumprod_empty_violated`) |
| C68 | `MatrixBandPart`: a computed bound of -1 gives a narrower band (`band_computed_violated`), a matrix without columns fails (`band_empty_violated`), infinities outside the band become NaN (`band_infinity_violated`), below opset 11 other bands raise (`band_old_violated`) |
| C68 | `Range` before opset 11 goes through 32-bit floats for 64-bit integers (`range_cast_violated`) |
| C68 | `Select`: an infinity that is not chosen makes NaN where products are used (`select_infinity_violated`); one truth value for each row with unrecorded shape chooses columns (`select_unknown_violated`) |
| C68 | `OnesLike` below opset 9 copies the operand (`ones_like_old_violated`); `Fill` before opset 9 without dimensions and with a computed value at opset 9 and 10 raises (`fill_violated`) |
| C68 | `InvertPermutation` of 32-bit integers declares the wrong element type (`invert_permutation_type_violated`); `Atan2` of scalars has one axis (`atan2_scalar_violated`) |
| C69 | conditionals are taken in the order of their first `Merge` in the sorted graph; an outer one whose first output does not depend on the inner one can come first and is then not converted (`cond_order_violated`; needs a scope name before `Merge` in the alphabet) |
| C69 | a conditional whose branches are constants is not converted (`cond_constant_branches_violated`) |
| C70 | a body that returns one tensor for two variables the condition depends on: the first value of the condition is computed with the first value of one of them for both; a loop that goes round once does not (`loop_returned_twice_violated`) |
| C70 | a condition that is a loop variable itself: the condition of the Loop node is a tensor nothing produces (`loop_variable_condition_violated`) |
| C70 | a body that returns a tensor of the outside directly: the body returns the output of an Enter node that stays behind (`loop_outer_value_violated`) |
| C71 | `RFFT2D` with 1 as second length: line 763 cuts axis 1, that of real and imaginary parts, to `size`, which is 1 then; the `Gather` of the imaginary parts fails when the model runs (`rfft2d_one_violated`) |
| C71 | `RFFT2D` with a length larger than the dimension: TensorFlow pads with zeros, the emitted `MatMul` fails when the model runs (`rfft2d_long_violated`); `RFFT` refuses this |
| C71 | `RFFT` of a vector: `Transpose` with two axes of a tensor of rank 1, an invalid model (`rfft_vector_violated`) |
| C71 | `RFFT` of an operand with unknown last dimension: `max(None, int)`, a `TypeError` in place of a message (`rfft_unknown_violated`) |
| C71 | `FFT` always raises: line 308 divides `None` (`fft_refused`) |
| C72 | `SoftmaxCrossEntropyWithLogits` with logits of one class and labels of several: the logits are broadcast after the logarithms instead of before, so the loss is 0 (`crossEntropy_broadcast_violated`) |
| C72 | `SoftmaxCrossEntropyWithLogits` and `SparseSoftmaxCrossEntropyWithLogits` emit axis -1 at operator sets 7 to 10, which know no negative axes (`crossEntropy_old_violated`) |
| C72 | `Softmax`, `LogSoftmax` without a recorded shape before operator set 13: `len(None)`, a `TypeError` (`softmax_unranked_violated`) |
| C73 | `RightShift` of int8: the cast goes to uint8 of the same width, so zeros come in from the left; wrong for every negative value and positive amount (`rightShift_int8_violated`) |
| C73 | `LeftShift`, `RightShift` of int64: the handler raises (`shift_int64_refused`) |
| C74 | `AdjustSaturation`: the sorted channels are put back with the positions of `TopK` instead of the inverse; wrong for every pixel whose channels are in a cyclic order, e.g. green > blue > red (`saturation_violated`). The test in the repository has pixels of the other four orders only |
| C74 | `AdjustSaturation` with a negative factor is not kept at 0 (`saturation_negative_violated`) |
| C74 | `AdjustHue` with an angle below -1 turn: `Mod` with `fmod = 1` of a negative number (`hue_below_violated`); TensorFlow's documentation restricts the angle to -1 to 1 |
| C75 | `FusedBatchNorm` that trains with a moving average (`exponential_avg_factor` other than 1) is normalised with the given mean and variance instead of those of the batch; only a warning is logged (`batchNorm_average_violated`) |
| C75 | `AdjustContrastv2` of half images: the `Cast` of the factor gets the element type as the name of its operand (nn.py:1528), so the handler raises (`contrast_half_violated`) |
| C76 | `ResizeArea` is converted to the nearest pixel (nn.py:1387, 1456), at every operator set (`area_defect`) |
| C76 | `ResizeBicubic` without `half_pixel_centers` uses another kernel (-3/4) and repeated border pixels in TensorFlow; the handler always writes -1/2 and `exclude_outside` (`bicubic_defect`) |
| C76 | for TensorRT, `ResizeNearestNeighbor` with `half_pixel_centers` becomes `half_pixel` with `floor`: other pixels (`tensorrt_defect`) |
| C76 | `version_7` ignores `align_corners` and `half_pixel_centers`; `version_9` raises for them (`grid7_defect`, `resize9_refuses`) |
| C76 | up to operator set 9 images cannot be made smaller, the emitted `Upsample` is not valid then (`shrink_defect`) |
| C76 | stored scales are single precision; by the ONNX definition a scale rounded down gives one row too few, as from 10 to 7 (`rounded_defect`). A runtime that multiplies in single precision happens to round it up again |
| C77 | `CropAndResize` with `method = nearest`: `nearest_mode` is not written, its default `round_prefer_floor` rounds the middle between two pixels down, TensorFlow up (`crop_nearest_violated`) |
| C78 | `TopKV2` of integers or doubles is computed in single precision (tensor.py:1245): elements that it does not distinguish are exchanged and their values rounded (`topK_cast_violated`, `topK_int_violated`) |
| C78 | `TopKV2` at operator sets below 10 re-routes all other consumers of its operand through the inserted `Cast` (tensor.py:1228, `insert_new_node_on_output` on the operand; by reading, not modelled) |
| C79 | `ExtractImagePatches` of an unknown number of images with several channels is converted into a reshape to a negative dimension (nn.py:2129; `batch_unknown`) |
| C79 | `ExtractImagePatches`: a NaN or an infinity makes all elements of the windows that cover it NaN (`nan_spreads`); images of doubles or integers give a `Conv` with a kernel of single precision (nn.py:2141, `EyeLike` without `dtype`; by reading) |
| C80 | `MaxPoolWithArgmax` whose positions are an output of the graph: only consumers are re-routed (nn.py:752, 781), the output stays ONNX's position, channels first (by reading) |
| C81 | `CTCGreedyDecoder` whose sequences are all blank: `ReduceMax` over no elements (nn.py:2085) (`blanks_violated`) |
| C81 | `CTCGreedyDecoder` of logits of type `double`: the mask is cast to `FLOAT` (nn.py:2035), the product is not accepted (`ctc_type_violated`) |
| C81 | `CTCGreedyDecoder` with `blank_index`: the attribute is not read, the last class counts as blank; with infinite logits behind the end of a sequence the product with the mask is NaN (by reading) |
| C82 | `NonMaxSuppressionV5` with `soft_nms_sigma` between 0 and 1: `int` makes it 0 in the check (tensor.py:1885), the scores are not decayed (`sigma_violated`) |
| C82 | `NonMaxSuppressionV5` with padding and operator set 10: `make_tensor` is given a list as type (tensor.py:1882, 1929), the handler raises (`padded_scores_refused`) |
| C82 | `CombinedNonMaxSuppression` with scores that are not positive: the grid is filled with zeros (tensor.py:2045), which are larger; selected boxes are lost (`negative_violated`) |
| C83 | `TFLite_Detection_PostProcess` of a score that is exactly `nms_score_threshold`: TensorFlow Lite takes scores from the threshold on, ONNX only larger ones (tfl_postprocess.py:70-84) (`threshold_violated`) |
| C84 | `SampleDistortedBoundingBox` of objects known to be none with `use_image_if_no_bounding_boxes`: the handler reads the undefined name `min_area_const` and fails (nn.py:1110-1112) (`no_objects_violated`) |

Seen while reading but not proved (outside the modelled part or only a remark): `_add_handler`/`_mul_handler` of the
transpose optimizer mutate constants that other nodes may share; several transpose handlers change attributes before
`_switch_transpose_and_node` may refuse; `Pad` with an axes operand (opset 18) is ignored by them; the Q/DQ loop does not end
on a dead `QuantizeLinear` over a shape operator; `only weightsManifest[0]` of a tfjs model is read; flexbuffers with
self-referential offsets recurse until Python's limit; `run_rewriters`' continue flag; `Roll` on an empty axis divides by zero.

## Testing the theorems against wrong programs

`seeded/LOG.jsonl` holds one line per seeded bug: the edited definition, the edit, the claim it breaks, what failed, what was
tightened. An entry with `result: SURVIVED` and a claim marked "equivalent" or "still true" is an edit that does not falsify
the claim.

## Axioms per theorem (output of `#print axioms`)

* **none**: `Verif.Seeds.combine_seeds_negative_collision_violated` (C05), `Verif.Driver.nested_exception_violated` (C39), `Verif.Decode.string_weight_trailing_nul_violated` (C25), `Verif.ReshapeOpt.reshape_optimizer_unknown_output_violated` (C41), `Verif.Scan.ones_like_old_violated` (C68), `Verif.Scan.fill_constant_partial` (C68)
* **propext**: `Verif.Names.node_name_port_name` (C02), `Verif.Shapes.merge_shapes_self` (C03), `Verif.TransposeOpt.push_shape` (C19), `Verif.Registry.find_effective_op_domain_violated` (C23), `Verif.Driver.optimize_graph_raises` (C20), `Verif.Driver.rewriter_errors_reported_partial` (C39), `Verif.Driver.nested_exceptions_swallowed` (C39), `Verif.Decode.parse_tflite_strings_padding_violated` (C28), `Verif.Nn.make_shape_channels_last_violated` (C34), `Verif.Rename.rename_tensors_collision_violated` (C38), `Verif.Matcher.match_op_missing_input_violated` (C21), `Verif.Graph.if_without_inputs_violated` (C50), `Verif.Conv.Ex.dilations_strides_violated` (C59), `Verif.Conv.Ex.dilations_overwritten_violated` (C59), `Verif.Conv.Ex.dilations_guess_violated` (C59), `Verif.Einsum.lowercase_merges_letters` (C62), `Verif.Ragged.splits_no_rows` (C64), `Verif.Sparse.sparseReshape_zero` (C64), `Verif.Index.unique_lossy_wrong` (C65), `Verif.Index.oneHot_negative_wrong` (C65), `Verif.Index.stitch_gap_wrong` (C65), `Verif.Index.stitch_twice_wrong` (C65), `Verif.Index.diagPart_rank4_wrong` (C65), `Verif.Patt.eye_not_square_violated` (C66), `Verif.Patt.eye_batch_violated` (C66), `Verif.Patt.eye_background_violated` (C66), `Verif.Patt.layer_norm_sign_violated` (C66), `Verif.Patt.layer_norm_keep_violated` (C66), `Verif.Patt.layer_norm_type_violated` (C66), `Verif.Patt.random_uniform_violated` (C66), `Verif.Patt.random_shape_violated` (C66), `Verif.Patt.variant_shape` (C66), `Verif.Scan.cumprod_empty_violated` (C68), `Verif.Scan.cumprod_example` (C68), `Verif.Scan.band_old_violated` (C68), `Verif.Cond.cond_order_violated` (C69), `Verif.Cond.cond_constant_branches_violated` (C69), `Verif.While.loop_returned_twice_violated` (C70), `Verif.While.loop_variable_condition_violated` (C70), `Verif.While.loop_outer_value_violated` (C70), `Verif.Bits.ex_shift` (C73), `Verif.Stack.pack_needs_rank` (C78), `Verif.Stack.ex_pack` (C78), `Verif.Greedy.count_before` (C81)
* **propext, Classical.choice, Quot.sound**: `Verif.Names.make_name_collides_with_initializer_violated` (C01), `Verif.Shapes.merge_shapes_exact` (C03), `Verif.Shapes.merge_shapes_succeeds_iff` (C03), `Verif.Shapes.are_shapes_compatible_iff` (C03), `Verif.Shapes.merge_shapes_comm` (C03), `Verif.Shapes.merge_shapes_assoc` (C03), `Verif.Shapes.are_shapes_equal_iff` (C03), `Verif.Seeds.combine_seeds_none_iff` (C05), `Verif.Seeds.combine_seeds_injective` (C05), `Verif.Graph.get_node_by_name_exact` (C06), `Verif.Graph.get_node_by_output_exact` (C06), `Verif.Graph.node_names_unique` (C06), `Verif.Graph.output_names_unique` (C06), `Verif.Graph.find_output_consumers_sound` (C07), `Verif.Graph.find_output_consumers_exact_partial` (C07), `Verif.Graph.find_output_consumers_violated` (C07), `Verif.Graph.replace_all_inputs_exact` (C09), `Verif.Graph.replace_all_inputs_ops_exact` (C09), `Verif.Graph.replace_all_inputs_no_self_loop` (C09), `Verif.Graph.replace_all_inputs_preserves_values` (C09), `Verif.Nested.nested_replace_all_exact_partial` (C09), `Verif.Graph.delete_unused_keeps_exactly` (C10), `Verif.Graph.delete_unused_preserves_values` (C10), `Verif.Graph.topological_sort_executable` (C11), `Verif.Graph.topological_sort_cycle_real` (C11), `Verif.Graph.topological_sort_succeeds` (C11), `Verif.Graph.exported_order_computes` (C11), `Verif.Graph.identity_optimizer_preserves_model` (C13), `Verif.Graph.identityLoop_fuel` (C13), `Verif.Graph.constructor_preserves_outputs` (C12), `Verif.Graph.wrapOutputs_spec` (C12), `Verif.Graph.merge_duplicated_preserves_model_partial` (C14), `Verif.Graph.mergeLoop_fuel` (C14), `Verif.Graph.merge_ignores_domain_violated` (C14), `Verif.Graph.merge_unnamed_output_violated` (C14), `Verif.ConstFold.npReshape_spec` (C15), `Verif.ConstFold.fold_reshape_shape` (C15), `Verif.ConstFold.fold_reshape` (C15), `Verif.ConstFold.fold_reshape_allowzero_violated` (C15), `Verif.ConstFold.fold_transpose_default` (C15), `Verif.ConstFold.fold_unsqueeze` (C15), `Verif.ConstFold.fold_split_equal` (C15), `Verif.TransposeOpt.transpose_fusion` (C16), `Verif.TransposeOpt.useless_transpose` (C16), `Verif.TransposeOpt.invertPerm_spec` (C16), `Verif.TransposeOpt.invertPerm_cancels` (C16), `Verif.ConstFold.reshape_reshape_fused_partial` (C18), `Verif.ConstFold.squeeze_unsqueeze_cancel` (C18), `Verif.ConstFold.squeeze_unsqueeze_rank` (C18), `Verif.TransposeOpt.push_axisOp` (C19), `Verif.TransposeOpt.push_pad` (C19), `Verif.TransposeOpt.push_tile` (C19), `Verif.TransposeOpt.push_slice` (C19), `Verif.TransposeOpt.push_alongAxis` (C19), `Verif.TransposeOpt.push_reduce_latest` (C19), `Verif.TransposeOpt.push_reduce_base` (C19), `Verif.TransposeOpt.push_reduce_base_drop` (C19), `Verif.TransposeOpt.push_squeeze` (C19), `Verif.TransposeOpt.push_unsqueeze` (C19), `Verif.TransposeOpt.push_softmax_old` (C19), `Verif.TransposeOpt.push_arg_drop` (C19), `Verif.TransposeOpt.push_concat` (C19), `Verif.TransposeOpt.push_elementwise` (C19), `Verif.TransposeOpt.mul_const_shape` (C19), `Verif.ConstFold.mul_const_operand` (C19), `Verif.TransposeOpt.switchShape_spec` (C19), `Verif.TransposeOpt.transpose_as_reshape` (C19), `Verif.TransposeOpt.push_softmax_old_negative_axis_violated` (C19), `Verif.Cast.cast_chain_partial` (C17), `Verif.Cast.embeds_float` (C17), `Verif.Cast.embeds_int` (C17), `Verif.Cast.conforming_exists` (C17), `Verif.Cast.cast_chain_int_bool_violated` (C17), `Verif.Cast.cast_chain_float16_violated` (C17), `Verif.Registry.create_mapping_selects` (C23), `Verif.Registry.create_mapping_one_domain` (C23), `Verif.Driver.catch_errors_switch_violated` (C40), `Verif.Driver.catch_errors_partial` (C40), `Verif.Decode.read_weights_partition` (C26), `Verif.Decode.fix_string_attr_exact` (C27), `Verif.External.external_storage_partial` (C24), `Verif.External.typed_data_lost_violated` (C24), `Verif.Flex.read_buffer_exact` (C29), `Verif.Flex.read_flexbuffer_exact` (C29), `Verif.Flex.flexbuffer_functional` (C29), `Verif.Flex.read_buffer_invalid` (C29), `Verif.Nn.same_padding` (C30), `Verif.SliceOps.strided_slice_partial` (C31), `Verif.SliceOps.strided_slice_negative_zero_violated` (C31), `Verif.SliceOps.slice_static` (C32), `Verif.SliceOps.slice_dynamic_partial` (C32), `Verif.SliceOps.slice_dynamic_violated` (C32), `Verif.Rename.rename_duplicates_distinct` (C37), `Verif.Rename.freshName_terminates` (C37), `Verif.Rename.rename_unique_name_violated` (C37), `Verif.Rename.rename_tensors_consistent` (C38), `Verif.Matcher.match_op_iff` (C21), `Verif.Matcher.match_op_recorded` (C21), `Verif.Matcher.matchPattern_sound` (C21), `Verif.Matcher.matchPattern_complete` (C21), `Verif.Symbolic.symbolic_outputs_partial` (C22), `Verif.Symbolic.plan_terminates` (C22), `Verif.ReshapeOpt.reshape_optimizer_partial` (C41), `Verif.ReshapeOpt.plan_reshape` (C41), `Verif.ReshapeOpt.reshape_optimizer_zero_violated` (C41), `Verif.Nested.nested_consumers_exact_partial` (C08), `Verif.ShapeInf.infer_shape_true_partial` (C36), `Verif.ShapeInf.infer_shape_no_exception` (C36), `Verif.ShapeInf.infer_shape_terminates_partial` (C36), `Verif.ShapeInf.infer_broadcast_violated` (C36), `Verif.ShapeInf.infer_pow_violated` (C36), `Verif.ShapeInf.infer_pack_violated` (C36), `Verif.ShapeInf.infer_select_v2_violated` (C36), `Verif.ShapeInf.infer_placeholder_violated` (C36), `Verif.ConvBN.conv_batchnorm_fusion` (C42), `Verif.ConvBN.conv_batchnorm_guard` (C42), `Verif.Graph.qdq_optimizer_preserves_model_partial` (C43), `Verif.Graph.listInterp_law` (C43), `Verif.Graph.requantize_exact` (C43), `Verif.Graph.qdq_scatter_reduction_violated` (C43), `Verif.Graph.qdq_default_axis_violated` (C43), `Verif.Graph.qdq_default_zero_point_violated` (C43), `Verif.Graph.leakyrelu_preserves_model_partial` (C44), `Verif.Graph.leakyInterp_law` (C44), `Verif.Graph.thresholded_preserves_model_partial` (C45), `Verif.Graph.thresholdedInterp_law` (C45), `Verif.Graph.thresholded_flipped_violated` (C45), `Verif.Graph.floorDiv_float_converts` (C46), `Verif.Graph.floorDiv_int_converts_partial` (C46), `Verif.Graph.floorMod_float_converts_partial` (C46), `Verif.Graph.floorMod_int_converts_partial` (C46), `Verif.Graph.floorDiv_int_violated` (C46), `Verif.Graph.floorMod_int_violated` (C46), `Verif.Graph.elem_exists` (C46), `Verif.Graph.greaterLess7_converts_partial` (C47), `Verif.Graph.greaterLess7_small_converts` (C47), `Verif.Graph.greaterLessEqual7_converts_partial` (C47), `Verif.Graph.greaterLessEqual12_converts` (C47), `Verif.Graph.notEqual_self_converts` (C47), `Verif.Graph.equal7_converts_partial` (C47), `Verif.Graph.equal11_converts_partial` (C47), `Verif.Graph.greater_int_violated` (C47), `Verif.Graph.greaterEqual_nan_violated` (C47), `Verif.Graph.equal_float_violated` (C47), `Verif.Graph.elem_exists` (C47), `Verif.Graph.mapping_preserves_model` (C48), `Verif.Graph.mapping_counts` (C48), `Verif.Graph.elem_mapping_preserves_model` (C48), `Verif.Graph.elemTable_un` (C48), `Verif.Graph.elemTable_bin` (C48), `Verif.Graph.direct_un_converts` (C49), `Verif.Graph.square_converts` (C49), `Verif.Graph.rsqrt_converts` (C49), `Verif.Graph.relu6_converts` (C49), `Verif.Graph.relu6_11_converts` (C49), `Verif.Graph.isFinite_converts` (C49), `Verif.Graph.isInf_converts` (C49), `Verif.Graph.sign9_converts` (C49), `Verif.Graph.sign1_float_converts` (C49), `Verif.Graph.sign1_int_converts_partial` (C49), `Verif.Graph.log6_float_converts_partial` (C49), `Verif.Graph.direct_bin_converts` (C49), `Verif.Graph.broadcast6_converts` (C49), `Verif.Graph.sqDiff_converts` (C49), `Verif.Graph.divNoNan_converts_partial` (C49), `Verif.Graph.minMax_float_converts` (C49), `Verif.Graph.minMax_int_converts_partial` (C49), `Verif.Graph.clip12_converts_partial` (C49), `Verif.Graph.sign1_double_violated` (C49), `Verif.Graph.divNoNan9_violated` (C49), `Verif.Graph.elem_exists` (C49), `Verif.Graph.if_converts` (C50), `Verif.Graph.branch_returns` (C50), `Verif.Graph.if_capture_violated` (C50), `Verif.Graph.if_twice_violated` (C50), `Verif.Graph.while_converts` (C51), `Verif.Graph.body_returns` (C51), `Verif.Graph.convertWhile_parts` (C51), `Verif.Graph.loopBound_cases` (C51), `Verif.Graph.whileResult_sound` (C51), `Verif.Graph.while_counter_violated` (C51), `Verif.Graph.while_graph_output_violated` (C51), `Verif.Graph.elem_conversion_succeeds` (C52), `Verif.Graph.elem_conversion_end_to_end` (C52), `Verif.Graph.processParsed_total` (C52), `Verif.Graph.elem_mapping_total` (C52), `Verif.Graph.mapping_total` (C52), `Verif.Graph.pipe_succeeds` (C52), `Verif.Graph.processParsed_spec` (C52), `Verif.Graph.optimizeWith_ends` (C52), `Verif.Graph.pipe_example` (C52), `Verif.Graph.pipe_domain` (C52), `Verif.Graph.reduce_converts` (C53), `Verif.Graph.reduce_attr_converts` (C53), `Verif.Graph.reduce_in_converts` (C53), `Verif.Graph.allAny6_converts_partial` (C53), `Verif.Graph.arg_converts` (C53), `Verif.Graph.arg32_converts` (C53), `Verif.Graph.squeeze_all_converts` (C53), `Verif.Graph.squeeze_attr_converts` (C53), `Verif.Graph.squeeze_in_converts` (C53), `Verif.Graph.expandDims_attr_converts` (C53), `Verif.Graph.expandDims_in_converts` (C53), `Verif.Graph.transpose_converts` (C53), `Verif.Graph.concat_converts` (C53), `Verif.Graph.concatV2_converts_partial` (C53), `Verif.Graph.gather_converts` (C53), `Verif.Graph.gatherV2_converts` (C53), `Verif.Graph.reshape_converts` (C53), `Verif.Graph.tile_converts` (C53), `Verif.Graph.broadcastTo_converts` (C53), `Verif.Graph.ensureShape_converts` (C53), `Verif.Graph.size_converts` (C53), `Verif.Graph.axis_exists` (C53), `Verif.Graph.reduce_no_axes_violated` (C53), `Verif.Graph.all_no_axes_violated` (C53), `Verif.Graph.reshape_zero_violated` (C53), `Verif.Graph.concatV2_empty_violated` (C53), `Verif.Graph.tile_own_counts_violated` (C53), `Verif.Graph.reshape_own_shape_violated` (C53), `Verif.Graph.broadcastTo_own_shape_violated` (C53), `Verif.Graph.reduceSum_own_axes_violated` (C53), `Verif.Emit.reverseV2_converts` (C54), `Verif.Emit.reverseSequence_converts_partial` (C54), `Verif.Emit.reverseSequence_rejected` (C54), `Verif.Emit.batchToSpace_converts` (C55), `Verif.Emit.spaceToBatch_converts` (C55), `Verif.Rnn.lstmTf2_converts` (C56), `Verif.Rnn.lstmKeras_converts` (C56), `Verif.Rnn.lstmTf1_converts` (C56), `Verif.Rnn.lstmTf2_some` (C56), `Verif.Rnn.lstmTf1_some` (C56), `Verif.Rnn.lstmKeras_some` (C56), `Verif.Rnn.gruTf_converts` (C56), `Verif.Rnn.gruKeras_converts` (C56), `Verif.Rnn.lstmStack1_converts` (C56), `Verif.Rnn.finalBoth_ok` (C56), `Verif.Rnn.biLstm_converts` (C56), `Verif.Rnn.biGru_converts` (C56), `Verif.Rnn.bi_tail` (C56), `Verif.Rnn.Ex.tf1_activation_lost` (C56), `Verif.Rnn.Ex.tf2_gate_activation_lost` (C56), `Verif.Rnn.Ex.gate_order_ignored` (C56), `Verif.Rnn.Ex.hard_sigmoid_constants_ignored` (C56), `Verif.Rnn.Ex.tf1_state_swapped` (C56), `Verif.Rnn.Ex.layers_sorted_by_string` (C56), `Verif.Rnn.Ex.wrappers_ignored` (C56), `Verif.Rnn.Ex.cudnn_activation_lost` (C56), `Verif.Rnn.Ex.reversal_ignored` (C56), `Verif.Conv.conv_converts` (C57), `Verif.Conv.depthwise_converts` (C57), `Verif.Conv.padding_ok` (C57), `Verif.Conv.windowed_layout` (C57), `Verif.Conv.Ex.same_unknown_kernel_violated` (C57), `Verif.Conv.Ex.group_unknown_violated` (C57), `Verif.Conv.pool_converts` (C58), `Verif.Conv.dilations_conv` (C59), `Verif.Conv.dilations_depthwise` (C59), `Verif.Conv.dilations_conv1d` (C59), `Verif.Conv.dilated_windows` (C59), `Verif.Conv.conv_viaBatch` (C59), `Verif.Conv.depthwise_viaBatch` (C59), `Verif.Conv.conv1d_viaBatch` (C59), `Verif.Conv.Ex.dilations_negative_violated` (C59), `Verif.Conv.transpose_converts` (C60), `Verif.Conv.same_converts` (C60), `Verif.Conv.valid_converts` (C60), `Verif.Conv.transpose_output_shape` (C60), `Verif.Conv.dynamic_converts` (C60), `Verif.Conv.same_total` (C60), `Verif.Conv.valid_total` (C60), `Verif.Conv.Ex.left_over_violated` (C60), `Verif.Conv.Ex.output_shape_odd_violated` (C60), `Verif.Conv.Ex.explicit_violated` (C60), `Verif.Conv.Ex.dynamic_channels_first_violated` (C60), `Verif.Conv.Ex.dynamic_old_opset_violated` (C60), `Verif.Graph.poolOptimize_sameOn` (C61), `Verif.Graph.upsampleOptimize_sameOn` (C61), `Verif.Tensor.globalPool_eq` (C61), `Verif.Tensor.upsample_one` (C61), `Verif.Tensor.newAxis_transpose` (C61), `Verif.Tensor.newAxis_reshape` (C61), `Verif.Tensor.newAxis_unsqueeze` (C61), `Verif.Tensor.stacked_transpose` (C61), `Verif.Graph.pool_example` (C61), `Verif.Graph.up_example` (C61), `Verif.Einsum.decompose_correct` (C62), `Verif.Einsum.candidate_correct` (C62), `Verif.Einsum.analyse_text` (C62), `Verif.Einsum.einsum_rename` (C62), `Verif.Einsum.convert_matmul` (C62), `Verif.Einsum.convert_einsum` (C62), `Verif.Einsum.mergeAll_run` (C62), `Verif.Einsum.scalar_first_operand_lost` (C62), `Verif.Einsum.opset_12_invalid` (C62), `Verif.Einsum.empty_axis_fails` (C62), `Verif.Seg.segment_sum` (C63), `Verif.Seg.segment_prod` (C63), `Verif.Seg.segment_max_partial` (C63), `Verif.Seg.segment_min_partial` (C63), `Verif.Seg.segment_mean_partial` (C63), `Verif.Seg.segment_mean_num` (C63), `Verif.Seg.segment_sqrtN_partial` (C63), `Verif.Seg.segment_sqrtN_num` (C63), `Verif.Seg.mod_count_inj` (C63), `Verif.Seg.grid_ok` (C63), `Verif.Seg.negative_id_wraps` (C63), `Verif.Ragged.raggedToSparse_ok` (C64), `Verif.Ragged.raggedToTensor_natural` (C64), `Verif.Ragged.raggedToTensor_shape` (C64), `Verif.Ragged.raggedRange_ok` (C64), `Verif.Ragged.raggedRange_wrong` (C64), `Verif.Ragged.raggedGather_ok` (C64), `Verif.Sparse.sparseReshape_ok` (C64), `Verif.Sparse.fillEmptyRows_ok` (C64), `Verif.Index.bincount1_ok` (C65), `Verif.Index.bincount2_ok` (C65), `Verif.Index.unique_partial` (C65), `Verif.Index.dynamicPartition_ok` (C65), `Verif.Index.dynamicStitch_ok` (C65), `Verif.Index.oneHotNew_ok` (C65), `Verif.Index.oneHotOld_partial` (C65), `Verif.Index.matrixDiagPart_partial` (C65), `Verif.Index.setOperation_ok` (C65), `Verif.Index.tensorScatterUpdate_partial` (C65), `Verif.Index.scatterNd_partial` (C65), `Verif.Index.sparseToDense_partial` (C65), `Verif.Index.oneHot_swapped_wrong` (C65), `Verif.Index.diagPart_matrix_wrong` (C65), `Verif.Index.setOperation_empty_wrong` (C65), `Verif.Patt.gemm_rewritten_partial` (C66), `Verif.Patt.flatten_constant_shape` (C66), `Verif.Patt.flatten_run_time_shape_partial` (C66), `Verif.Patt.transpose_reverses_partial` (C66), `Verif.Patt.transpose_usual` (C66), `Verif.Patt.transpose_negative_step_violated` (C66), `Verif.Patt.pad_merged_partial` (C66), `Verif.Patt.pad_explicit_violated` (C66), `Verif.Patt.bias_merged_partial` (C66), `Verif.Patt.bias_layout_violated` (C66), `Verif.Patt.layer_norm_partial` (C66), `Verif.Patt.dropout_on_average` (C66), `Verif.Patt.dropout_floor_missed` (C66), `Verif.Patt.dropout_floor_violated` (C66), `Verif.Patt.dropout_order_violated` (C66), `Verif.Quant.qdq_partial` (C67), `Verif.Quant.qdq_example` (C67), `Verif.Quant.fakeQuant_partial` (C67), `Verif.Quant.fakeQuant_converts` (C67), `Verif.Quant.fakeQuant_example` (C67), `Verif.Quant.fakeQuant_tie_violated` (C67), `Verif.Quant.qdq_bits_violated` (C67), `Verif.Quant.qdq_mode_violated` (C67), `Verif.Quant.qdq_narrow_violated` (C67), `Verif.Scan.cumprod_ok_partial` (C68), `Verif.Scan.fill_violated` (C68), `Verif.Scan.random_int_range` (C68), `Verif.Scan.random_int_share` (C68), `Verif.Scan.shuffle_permutes` (C68), `Verif.Scan.shuffle_reaches` (C68), `Verif.Scan.invert_permutation` (C68), `Verif.Scan.band_part_partial` (C68), `Verif.Scan.band_triangle_partial` (C68), `Verif.Scan.range_partial` (C68), `Verif.Scan.range_cast_violated` (C68), `Verif.Scan.range_example` (C68), `Verif.Scan.select_v2_partial` (C68), `Verif.Scan.select_v1_partial` (C68), `Verif.Scan.atan2_partial` (C68), `Verif.Scan.atan2_scalar_violated` (C68), `Verif.Scan.atan2_example` (C68), `Verif.Cond.cond_rewrite_partial` (C69), `Verif.Cond.cond_example` (C69), `Verif.While.loop_rewrite_partial` (C70), `Verif.While.ex_value` (C70), `Verif.While.fresh_exists` (C70), `Verif.Fourier.rfft_sound` (C71), `Verif.Fourier.rfft_accepts` (C71), `Verif.Fourier.rfft_abs_partial` (C71), `Verif.Fourier.complexAbs_accepts` (C71), `Verif.Fourier.complexAbs_needs` (C71), `Verif.Fourier.rfft2d_sound` (C71), `Verif.Fourier.rfft2d_accepts` (C71), `Verif.Fourier.rfft2d_abs_partial` (C71), `Verif.Fourier.rfft2d_one_violated` (C71), `Verif.Fourier.rfft2d_long_violated` (C71), `Verif.Fourier.rfft_vector_violated` (C71), `Verif.Fourier.rfft_unknown_violated` (C71), `Verif.Fourier.fft_refused` (C71), `Verif.Fourier.ex_rfft` (C71), `Verif.Fourier.ex_rfft2d` (C71), `Verif.Softmax.softmax_sound` (C72), `Verif.Softmax.logSoftmax_sound` (C72), `Verif.Softmax.softmax_total` (C72), `Verif.Softmax.softmax_unranked_violated` (C72), `Verif.Softmax.crossEntropy_sound` (C72), `Verif.Softmax.crossEntropy_broadcast_violated` (C72), `Verif.Softmax.crossEntropy_old_violated` (C72), `Verif.Softmax.sparse_is_crossEntropy` (C72), `Verif.Softmax.sparse7_sound` (C72), `Verif.Softmax.sparse7_needs` (C72), `Verif.Softmax.sparse9_sound` (C72), `Verif.Softmax.sparse_versions_agree` (C72), `Verif.Softmax.ex_sparse` (C72), `Verif.Softmax.ex_softmax` (C72), `Verif.Softmax.ex_gathers` (C72), `Verif.Bits.leftShift_sound` (C73), `Verif.Bits.rightShift_sound` (C73), `Verif.Bits.rightShift_int8_sound` (C73), `Verif.Bits.rightShift_int8_violated` (C73), `Verif.Colour.topK_sorts` (C74), `Verif.Colour.rgb_hsv` (C74), `Verif.Colour.tf_closed` (C74), `Verif.Colour.saturation_sound` (C74), `Verif.Colour.saturation_violated` (C74), `Verif.Colour.saturation_negative_violated` (C74), `Verif.Colour.ex_saturation` (C74), `Verif.Colour.hue_sound` (C74), `Verif.Colour.hue_below_violated` (C74), `Verif.Colour.ex_hue` (C74), `Verif.Channels.depthToSpace_sound` (C75), `Verif.Channels.spaceToDepth_sound` (C75), `Verif.Channels.depth_space_inverse` (C75), `Verif.Channels.lrn_sound` (C75), `Verif.Channels.lrn_needs_alpha` (C75), `Verif.Channels.contrast_sound` (C75), `Verif.Channels.contrast_half_violated` (C75), `Verif.Channels.batchNorm_training_sound` (C75), `Verif.Channels.batchNorm_sound` (C75), `Verif.Channels.batchNorm_accepts` (C75), `Verif.Channels.batchNorm_average_violated` (C75), `Verif.Channels.ex_depthToSpace` (C75), `Verif.Channels.ex_lrn` (C75), `Verif.Channels.ex_batchNorm` (C75), `Verif.Resize.resize11_sound_partial` (C76), `Verif.Resize.resize9_sound_partial` (C76), `Verif.Resize.resize7_sound_partial` (C76), `Verif.Resize.resize9_refuses` (C76), `Verif.Resize.f32_dyadic` (C76), `Verif.Resize.exact_whole` (C76), `Verif.Resize.exact_halves` (C76), `Verif.Resize.axis_bilinear` (C76), `Verif.Resize.axis_nearest` (C76), `Verif.Resize.axis_bicubic` (C76), `Verif.Resize.axis_same` (C76), `Verif.Resize.ex_resize11` (C76), `Verif.Resize.ex_nearest11` (C76), `Verif.Resize.ex_resize9` (C76), `Verif.Resize.area_defect` (C76), `Verif.Resize.bicubic_defect` (C76), `Verif.Resize.tensorrt_defect` (C76), `Verif.Resize.grid7_defect` (C76), `Verif.Resize.shrink_defect` (C76), `Verif.Resize.rounded_defect` (C76), `Verif.Crop.crop_sound_partial` (C77), `Verif.Crop.body_eq` (C77), `Verif.Crop.resizeRoi_eq` (C77), `Verif.Crop.slice_image` (C77), `Verif.Crop.roi_eq` (C77), `Verif.Crop.roi_whole` (C77), `Verif.Crop.taps_linear` (C77), `Verif.Crop.taps_nearest` (C77), `Verif.Crop.round_eq` (C77), `Verif.Crop.ex_crop` (C77), `Verif.Crop.ex_crop_one` (C77), `Verif.Crop.ex_crop_nearest` (C77), `Verif.Crop.crop_nearest_violated` (C77), `Verif.Stack.pack_sound` (C78), `Verif.Stack.unpack_sound` (C78), `Verif.Stack.topK_sound` (C78), `Verif.Stack.topk_is` (C78), `Verif.Stack.topK_cast_violated` (C78), `Verif.Stack.topK_int_violated` (C78), `Verif.Patches.patches_convert` (C79), `Verif.Patches.tfConv_single` (C79), `Verif.Patches.sum_unit` (C79), `Verif.Patches.single_ok` (C79), `Verif.Patches.arrange_ok` (C79), `Verif.Patches.kernel_ok` (C79), `Verif.Patches.Ex.empty_refused` (C79), `Verif.Patches.Ex.batch_unknown` (C79), `Verif.Patches.Ex.nan_spreads` (C79), `Verif.Argmax.argmax_converts` (C80), `Verif.Argmax.pool_reads` (C80), `Verif.Argmax.convertIndices_ok` (C80), `Verif.Argmax.window_nonempty` (C80), `Verif.Argmax.onnxPool_same` (C80), `Verif.Argmax.firstMax_chooses` (C80), `Verif.Greedy.ctc_decodes` (C81), `Verif.Greedy.keep_decode` (C81), `Verif.Greedy.sum_masked` (C81), `Verif.Greedy.topk_best` (C81), `Verif.Greedy.best_exists` (C81), `Verif.Greedy.best_unique` (C81), `Verif.Greedy.reduceMax_rows` (C81), `Verif.Greedy.Ex.ex_merge` (C81), `Verif.Greedy.Ex.ex_keep` (C81), `Verif.Greedy.Ex.blanks_violated` (C81), `Verif.Nms.nms_converts` (C82), `Verif.Nms.nms_selects` (C82), `Verif.Nms.greedy_selects` (C82), `Verif.Nms.onnxSupp_iff` (C82), `Verif.Nms.inter_le_left` (C82), `Verif.Nms.sigma_refused` (C82), `Verif.Nms.sigma_violated` (C82), `Verif.Nms.combined_converts` (C82), `Verif.Nms.combined_image` (C82), `Verif.Nms.image_entries` (C82), `Verif.Nms.topk_padded` (C82), `Verif.Nms.Ex.ex_selected` (C82), `Verif.Nms.Ex.ex_padded` (C82), `Verif.Nms.Ex.padded_scores_refused` (C82), `Verif.Nms.Ex.ex_combined` (C82), `Verif.Nms.Ex.negative_tf` (C82), `Verif.Nms.Ex.negative_violated` (C82), `Verif.Detection.detect_converts` (C83), `Verif.Detection.adjusted_decode` (C83), `Verif.Detection.topk_best` (C83), `Verif.Detection.Ex.ex_detect` (C83), `Verif.Detection.Ex.one_detected` (C83), `Verif.Detection.Ex.threshold_violated` (C83), `Verif.Distort.distort_allowed` (C84), `Verif.Distort.accepted_iff` (C84), `Verif.Distort.sample_fits` (C84), `Verif.Distort.sample_area_le` (C84), `Verif.Distort.sides_ok` (C84), `Verif.Distort.between` (C84), `Verif.Distort.Ex.ex_corner` (C84), `Verif.Distort.Ex.sample_corner` (C84), `Verif.Distort.Ex.sqrt_quarter` (C84)
* **propext, Quot.sound**: `Verif.Names.make_name_results_distinct` (C01), `Verif.Names.make_name_fresh_after_initialize` (C01), `Verif.Names.node_name_port_name_iff` (C02), `Verif.Names.port_name_injective` (C02), `Verif.DepSort.topological_sort_sound` (C04), `Verif.DepSort.topological_sort_complete` (C04), `Verif.DepSort.topological_sort_cyclic` (C04), `Verif.DepSort.topological_sort_keyError` (C04), `Verif.Graph.cut_to_fed` (C12), `Verif.Graph.satFed_unique` (C12), `Verif.ConstFold.fold_split` (C15), `Verif.ConstFold.reshape_reshape_zero_violated` (C18), `Verif.Registry.get_schema_selects` (C23), `Verif.Driver.optimize_graph_catches` (C20), `Verif.Driver.optimize_graph_preserves` (C20), `Verif.Driver.optimize_graph_stops` (C20), `Verif.Driver.optimize_graph_terminates` (C20), `Verif.Decode.read_string_weight_exact` (C25), `Verif.Decode.read_tfjs_string_weight_partial` (C25), `Verif.Decode.parse_tflite_strings_exact` (C28), `Verif.Nn.same_padding_unknown` (C30), `Verif.Nn.explicit_padding` (C30), `Verif.Nn.channel_permutations_inverse` (C34), `Verif.Nn.channels_first_shape` (C34), `Verif.SliceOps.roll_rotates` (C33), `Verif.SliceOps.splitv_sizes` (C35), `Verif.SliceOps.splitv_unknown_violated` (C35), `Verif.Rename.freshName_more` (C37), `Verif.Symbolic.plan_inputs_available` (C22), `Verif.Symbolic.symbolic_squeeze_negative_violated` (C22), `Verif.Symbolic.symbolic_cast_violated` (C22), `Verif.Symbolic.symbolic_reduceprod_empty_violated` (C22), `Verif.Nested.nested_consumers_violated_remove` (C08), `Verif.Nested.nested_consumers_violated_late` (C08), `Verif.Nested.nested_replace_all_violated_remove` (C08), `Verif.ShapeInf.infer_merge_rank_only_violated` (C36), `Verif.ShapeInf.infer_concat_violated` (C36), `Verif.ShapeInf.infer_shape_terminates_violated` (C36), `Verif.Graph.leakyrelu_chain_violated` (C44), `Verif.Graph.thresholded_list_violated` (C45), `Verif.Graph.thresholded_chain_violated` (C45), `Verif.Graph.mapGraph_nodes` (C48), `Verif.Graph.log6_other_raises` (C49), `Verif.Graph.swap_loses_reader_violated` (C49), `Verif.Graph.clip12_shape_violated` (C49), `Verif.Graph.while_loop` (C51), `Verif.Graph.while_counter_output_violated` (C51), `Verif.Graph.arg_unknown_rank_violated` (C53), `Verif.Emit.batchToSpace_raises` (C55), `Verif.Rnn.initBoth2_ok` (C56), `Verif.Conv.source_iff` (C60), `Verif.Tensor.newAxis_transpose_ok` (C61), `Verif.Graph.noAxes_violation` (C61), `Verif.Graph.noAxes_view` (C61), `Verif.Graph.defaultAxis_violation` (C61), `Verif.Seg.int_max_raises` (C63), `Verif.Seg.double_mean_rejected` (C63), `Verif.Ragged.lookup_paths_top` (C64), `Verif.Ragged.mem_paths_of_lookup` (C64), `Verif.Ragged.paths_nodup` (C64), `Verif.Ragged.raggedRange_scalars` (C64), `Verif.Ragged.rowIds_no_elements` (C64), `Verif.Index.tensorScatter_ok` (C65), `Verif.Index.tensorScatterSub_ok` (C65), `Verif.Index.scatterNd_twice_wrong` (C65), `Verif.Patt.gemm_example` (C66), `Verif.Patt.gemm_nested_violated` (C66), `Verif.Patt.gemm_rank_violated` (C66), `Verif.Patt.flatten_other_rows_violated` (C66), `Verif.Patt.eye_square_partial` (C66), `Verif.Patt.eye_any_partial` (C66), `Verif.Patt.random_uniform_partial` (C66), `Verif.Patt.random_uniform_folded` (C66), `Verif.Patt.random_normal_ok` (C66), `Verif.Scan.cumprod_negative_axis_violated` (C68), `Verif.Scan.const_like` (C68), `Verif.Scan.zeros_like_old` (C68), `Verif.Scan.fill_ok` (C68), `Verif.Scan.fill_tiled_partial` (C68), `Verif.Scan.invert_permutation_type_violated` (C68), `Verif.Scan.band_computed_violated` (C68), `Verif.Scan.band_empty_violated` (C68), `Verif.Scan.band_infinity_violated` (C68), `Verif.Scan.band_example` (C68), `Verif.Scan.select_bool` (C68), `Verif.Scan.select_infinity_violated` (C68), `Verif.Scan.select_unknown_violated` (C68), `Verif.Scan.select_example` (C68), `Verif.Cond.cond_same_side_refused` (C69), `Verif.Bits.shift_int64_refused` (C73), `Verif.Stack.unstack_stack` (C78), `Verif.Stack.topk_unique` (C78), `Verif.Stack.ex_topK` (C78), `Verif.Argmax.label_eq` (C80), `Verif.Argmax.Ex.old_refused` (C80), `Verif.Greedy.ctc_type_violated` (C81), `Verif.Nms.selected_unique` (C82), `Verif.Nms.combined_refused` (C82), `Verif.Nms.within_rowsOf` (C82), `Verif.Detection.single_rows` (C83), `Verif.Distort.objectOk_iff` (C84), `Verif.Distort.no_objects_violated` (C84)

