{
 "claims": [
  {
   "property": "C01",
   "status": "partial",
   "theorems": [
    "Verif.Names.make_name_results_distinct",
    "Verif.Names.make_name_fresh_after_initialize",
    "Verif.Names.make_name_collides_with_initializer_violated"
   ],
   "note": "Distinctness and freshness against node names are proved for all histories; freshness against initializer/graph-input names is false of the code (initialize_name_counter does not scan them) and refuted by a witness."
  },
  {
   "property": "C02",
   "status": "proved",
   "theorems": [
    "Verif.Names.node_name_port_name",
    "Verif.Names.node_name_port_name_iff",
    "Verif.Names.port_name_injective"
   ],
   "note": ""
  },
  {
   "property": "C03",
   "status": "proved",
   "theorems": [
    "Verif.Shapes.merge_shapes_exact",
    "Verif.Shapes.merge_shapes_succeeds_iff",
    "Verif.Shapes.are_shapes_compatible_iff",
    "Verif.Shapes.merge_shapes_comm",
    "Verif.Shapes.merge_shapes_assoc",
    "Verif.Shapes.merge_shapes_self",
    "Verif.Shapes.are_shapes_equal_iff"
   ],
   "note": ""
  },
  {
   "property": "C04",
   "status": "proved",
   "theorems": [
    "Verif.DepSort.topological_sort_sound",
    "Verif.DepSort.topological_sort_complete",
    "Verif.DepSort.topological_sort_cyclic",
    "Verif.DepSort.topological_sort_keyError"
   ],
   "note": ""
  },
  {
   "property": "C05",
   "status": "proved",
   "theorems": [
    "Verif.Seeds.combine_seeds_none_iff",
    "Verif.Seeds.combine_seeds_injective",
    "Verif.Seeds.combine_seeds_negative_collision_violated"
   ],
   "note": "Injectivity holds for non-negative seeds as stated; negative seeds collide (witness)."
  },
  {
   "property": "C06",
   "status": "proved",
   "theorems": [
    "Verif.Graph.get_node_by_name_exact",
    "Verif.Graph.get_node_by_output_exact",
    "Verif.Graph.node_names_unique",
    "Verif.Graph.output_names_unique"
   ],
   "note": ""
  },
  {
   "property": "C07",
   "status": "partial",
   "theorems": [
    "Verif.Graph.find_output_consumers_sound",
    "Verif.Graph.find_output_consumers_exact_partial",
    "Verif.Graph.find_output_consumers_violated"
   ],
   "note": "Full property is false: replace_input/remove_input with an index drop a consumer that still reads the tensor through another slot (witness). Exact for all histories without such an edit."
  },
  {
   "property": "C09",
   "status": "proved",
   "theorems": [
    "Verif.Graph.replace_all_inputs_exact",
    "Verif.Graph.replace_all_inputs_ops_exact",
    "Verif.Graph.replace_all_inputs_no_self_loop",
    "Verif.Graph.replace_all_inputs_preserves_values",
    "Verif.Nested.nested_replace_all_exact_partial"
   ],
   "note": "Single-level graphs in full; for nested bodies the exactness theorem is nested_replace_all_exact_partial (see C08)."
  },
  {
   "property": "C10",
   "status": "proved",
   "theorems": [
    "Verif.Graph.delete_unused_keeps_exactly",
    "Verif.Graph.delete_unused_preserves_values"
   ],
   "note": ""
  },
  {
   "property": "C11",
   "status": "proved",
   "theorems": [
    "Verif.Graph.topological_sort_executable",
    "Verif.Graph.topological_sort_cycle_real",
    "Verif.Graph.topological_sort_succeeds",
    "Verif.Graph.exported_order_computes"
   ],
   "note": ""
  },
  {
   "property": "C13",
   "status": "proved",
   "theorems": [
    "Verif.Graph.identity_optimizer_preserves_model",
    "Verif.Graph.identityLoop_fuel"
   ],
   "note": "Single-level graphs; for every terminating (non-raising) run."
  },
  {
   "property": "C12",
   "status": "proved",
   "theorems": [
    "Verif.Graph.constructor_preserves_outputs",
    "Verif.Graph.wrapOutputs_spec",
    "Verif.Graph.cut_to_fed",
    "Verif.Graph.satFed_unique"
   ],
   "note": "Graph.__init__ incl. input_names cutting and identity insertion; generated names are parameters assumed new (C01/C02); graphs without bodies; IdentityLaw assumed of the interpretation; node list acyclic and well-named."
  },
  {
   "property": "C14",
   "status": "partial",
   "theorems": [
    "Verif.Graph.merge_duplicated_preserves_model_partial",
    "Verif.Graph.mergeLoop_fuel",
    "Verif.Graph.merge_ignores_domain_violated",
    "Verif.Graph.merge_unnamed_output_violated"
   ],
   "note": "Values preserved when all nodes have the default domain and no unnamed outputs; violated otherwise (both proved)."
  },
  {
   "property": "C15",
   "status": "partial",
   "theorems": [
    "Verif.ConstFold.npReshape_spec",
    "Verif.ConstFold.fold_reshape_shape",
    "Verif.ConstFold.fold_reshape",
    "Verif.ConstFold.fold_reshape_allowzero_violated",
    "Verif.ConstFold.fold_transpose_default",
    "Verif.ConstFold.fold_unsqueeze",
    "Verif.ConstFold.fold_split",
    "Verif.ConstFold.fold_split_equal"
   ],
   "note": "Reshape (0 and -1), Transpose, Unsqueeze, Split proved for all shapes and axes. Reshape with allowzero=1 is folded wrongly (witness). Cast, Concat, Mul/Add/Sub defer to numpy, trusted to be the ONNX operator."
  },
  {
   "property": "C16",
   "status": "proved",
   "theorems": [
    "Verif.TransposeOpt.transpose_fusion",
    "Verif.TransposeOpt.useless_transpose",
    "Verif.TransposeOpt.invertPerm_spec",
    "Verif.TransposeOpt.invertPerm_cancels"
   ],
   "note": "Tensors of any rank, shape and element type."
  },
  {
   "property": "C18",
   "status": "partial",
   "theorems": [
    "Verif.ConstFold.reshape_reshape_fused_partial",
    "Verif.ConstFold.reshape_reshape_zero_violated",
    "Verif.ConstFold.squeeze_unsqueeze_cancel",
    "Verif.ConstFold.squeeze_unsqueeze_rank"
   ],
   "note": "Reshape fusion is false when the second shape operand has a 0 (witness)."
  },
  {
   "property": "C19",
   "status": "partial",
   "theorems": [
    "Verif.TransposeOpt.push_axisOp",
    "Verif.TransposeOpt.push_pad",
    "Verif.TransposeOpt.push_tile",
    "Verif.TransposeOpt.push_slice",
    "Verif.TransposeOpt.push_alongAxis",
    "Verif.TransposeOpt.push_reduce_latest",
    "Verif.TransposeOpt.push_reduce_base",
    "Verif.TransposeOpt.push_reduce_base_drop",
    "Verif.TransposeOpt.push_squeeze",
    "Verif.TransposeOpt.push_unsqueeze",
    "Verif.TransposeOpt.push_softmax_old",
    "Verif.TransposeOpt.push_arg_drop",
    "Verif.TransposeOpt.push_concat",
    "Verif.TransposeOpt.push_elementwise",
    "Verif.TransposeOpt.mul_const_shape",
    "Verif.ConstFold.mul_const_operand",
    "Verif.TransposeOpt.push_shape",
    "Verif.TransposeOpt.switchShape_spec",
    "Verif.TransposeOpt.transpose_as_reshape",
    "Verif.TransposeOpt.push_softmax_old_negative_axis_violated"
   ],
   "note": "Softmax before opset 13 with a negative axis is moved wrongly (witness). Conv+Add / Conv+Mul merging and the quantize default axis are not covered."
  },
  {
   "property": "C17",
   "status": "partial",
   "theorems": [
    "Verif.Cast.cast_chain_partial",
    "Verif.Cast.embeds_float",
    "Verif.Cast.embeds_int",
    "Verif.Cast.conforming_exists",
    "Verif.Cast.cast_chain_int_bool_violated",
    "Verif.Cast.cast_chain_float16_violated"
   ],
   "note": "False in general: the handler removes casts to narrower float types and int casts before bool whatever the operand type (witnesses hold for every conforming runtime). Proved when the operand's type embeds in the removed one, or the types repeat."
  },
  {
   "property": "C23",
   "status": "partial",
   "theorems": [
    "Verif.Registry.create_mapping_selects",
    "Verif.Registry.create_mapping_one_domain",
    "Verif.Registry.get_schema_selects",
    "Verif.Registry.find_effective_op_domain_violated"
   ],
   "note": "Selection is proved for all registration histories and requests; the per-domain lookup (find_effective_op with a domain) misses the newest version (witness)."
  },
  {
   "property": "C20",
   "status": "proved",
   "theorems": [
    "Verif.Driver.optimize_graph_catches",
    "Verif.Driver.optimize_graph_preserves",
    "Verif.Driver.optimize_graph_stops",
    "Verif.Driver.optimize_graph_terminates",
    "Verif.Driver.optimize_graph_raises"
   ],
   "note": "For arbitrary passes (any behaviour, including raising after mutating their copy)."
  },
  {
   "property": "C39",
   "status": "partial",
   "theorems": [
    "Verif.Driver.rewriter_errors_reported_partial",
    "Verif.Driver.nested_exceptions_swallowed",
    "Verif.Driver.nested_exception_violated"
   ],
   "note": "Holds on the main graph; false on body graphs, where exceptions are always swallowed (the attribute name is passed as the continue flag)."
  },
  {
   "property": "C40",
   "status": "partial",
   "theorems": [
    "Verif.Driver.catch_errors_switch_violated",
    "Verif.Driver.catch_errors_partial"
   ],
   "note": "False: setting the variable to TRUE disables catching (its name is compared instead of its value)."
  },
  {
   "property": "C25",
   "status": "partial",
   "theorems": [
    "Verif.Decode.read_string_weight_exact",
    "Verif.Decode.read_tfjs_string_weight_partial",
    "Verif.Decode.string_weight_trailing_nul_violated"
   ],
   "note": "read_string_weight itself is exact for all byte strings; the whole read_tfjs_weight only for strings without trailing NUL (numpy S dtype), where the claim is false of the code (proved)."
  },
  {
   "property": "C26",
   "status": "proved",
   "theorems": [
    "Verif.Decode.read_weights_partition"
   ],
   "note": "Success iff the shard bytes are exactly the concatenation of the stored values."
  },
  {
   "property": "C27",
   "status": "proved",
   "theorems": [
    "Verif.Decode.fix_string_attr_exact"
   ],
   "note": "encodebytes/decodebytes of CPython are modelled."
  },
  {
   "property": "C28",
   "status": "proved",
   "theorems": [
    "Verif.Decode.parse_tflite_strings_exact",
    "Verif.Decode.parse_tflite_strings_padding_violated"
   ],
   "note": "UTF-8 decoding and reshape not modelled; padding after the last string is a proved defect outside the claim."
  },
  {
   "property": "C24",
   "status": "partial",
   "theorems": [
    "Verif.External.external_storage_partial",
    "Verif.External.typed_data_lost_violated"
   ],
   "note": "Distinct locations, small tensors inline and lossless archive round trip for all serialization orders, for tensors with raw_data and names without NUL; large tensors with typed data (strings) lose their values (proved)."
  },
  {
   "property": "C29",
   "status": "proved",
   "theorems": [
    "Verif.Flex.read_buffer_exact",
    "Verif.Flex.read_flexbuffer_exact",
    "Verif.Flex.flexbuffer_functional",
    "Verif.Flex.read_buffer_invalid"
   ],
   "note": "Against a relational specification of the flexbuffer format; UTF-8 decoding and float interpretation not modelled; recursion limit is explicit fuel."
  },
  {
   "property": "C30",
   "status": "proved",
   "theorems": [
    "Verif.Nn.same_padding",
    "Verif.Nn.same_padding_unknown",
    "Verif.Nn.explicit_padding"
   ],
   "note": "For all ranks, layouts, strides, dilations, kernels; the recorded output shape is assumed true (C36)."
  },
  {
   "property": "C34",
   "status": "partial",
   "theorems": [
    "Verif.Nn.channel_permutations_inverse",
    "Verif.Nn.channels_first_shape",
    "Verif.Nn.make_shape_channels_last_violated"
   ],
   "note": "Permutations and make_shape_channels_first proved; make_shape_channels_last is wrong (proved)."
  },
  {
   "property": "C31",
   "status": "partial",
   "theorems": [
    "Verif.SliceOps.strided_slice_partial",
    "Verif.SliceOps.strided_slice_negative_zero_violated"
   ],
   "note": "Static unit-stride StridedSlice, all ranks/masks/ellipsis. Missing: begin<0 with end=0 and no end mask, where the code is wrong (proved); new_axis_mask is rejected by the code; dynamic begin/end (opset 10) not modelled."
  },
  {
   "property": "C32",
   "status": "partial",
   "theorems": [
    "Verif.SliceOps.slice_static",
    "Verif.SliceOps.slice_dynamic_partial",
    "Verif.SliceOps.slice_dynamic_violated"
   ],
   "note": "Constant begin/size: full. Run-time begin/size: proved when every size -1 comes with begin <= 1; for begin >= 2 the code overflows (proved violated)."
  },
  {
   "property": "C33",
   "status": "proved",
   "theorems": [
    "Verif.SliceOps.roll_rotates"
   ],
   "note": "Rolled axes must be non-empty (ONNX Mod by 0 otherwise)."
  },
  {
   "property": "C35",
   "status": "proved",
   "theorems": [
    "Verif.SliceOps.splitv_sizes",
    "Verif.SliceOps.splitv_unknown_violated"
   ],
   "note": "Axis length known at conversion time; with an unknown length a negative size is emitted (proved violated)."
  },
  {
   "property": "C37",
   "status": "proved",
   "theorems": [
    "Verif.Rename.rename_duplicates_distinct",
    "Verif.Rename.freshName_terminates",
    "Verif.Rename.freshName_more",
    "Verif.Rename.rename_unique_name_violated"
   ],
   "note": "Termination by pigeonhole; rename_unique_name_violated shows a name unique in the list can still be renamed."
  },
  {
   "property": "C38",
   "status": "proved",
   "theorems": [
    "Verif.Rename.rename_tensors_consistent",
    "Verif.Rename.rename_tensors_collision_violated"
   ],
   "note": "For rename maps that keep the graph's names apart; without it (input and output of a signature with the same name) the graph silently breaks (proved)."
  },
  {
   "property": "C21",
   "status": "proved",
   "theorems": [
    "Verif.Matcher.match_op_iff",
    "Verif.Matcher.match_op_recorded",
    "Verif.Matcher.matchPattern_sound",
    "Verif.Matcher.matchPattern_complete",
    "Verif.Matcher.match_op_missing_input_violated"
   ],
   "note": "For all patterns and graphs; the iff needs graphs without missing optional inputs, where the code raises AttributeError instead (proved)."
  },
  {
   "property": "C22",
   "status": "partial",
   "theorems": [
    "Verif.Symbolic.symbolic_outputs_partial",
    "Verif.Symbolic.plan_inputs_available",
    "Verif.Symbolic.plan_terminates",
    "Verif.Symbolic.symbolic_squeeze_negative_violated",
    "Verif.Symbolic.symbolic_cast_violated",
    "Verif.Symbolic.symbolic_reduceprod_empty_violated"
   ],
   "note": "Soundness for all graphs, opsets, assignments over integers without overflow; excluded (each proved violated): negative Squeeze axes, value-changing Cast of symbolic tensors, ReduceProd with an empty axes input; also Slice stepping backwards from before the first element."
  },
  {
   "property": "C41",
   "status": "partial",
   "theorems": [
    "Verif.ReshapeOpt.reshape_optimizer_partial",
    "Verif.ReshapeOpt.plan_reshape",
    "Verif.ReshapeOpt.reshape_optimizer_zero_violated",
    "Verif.ReshapeOpt.reshape_optimizer_unknown_output_violated"
   ],
   "note": "Composes with C22. Excluded: constant 0 entries with a non-zero shift (proved violated), allowzero=1, what C22 excludes. The rewritten node structure is described by pre/post, the graph surgery itself is not replayed."
  },
  {
   "property": "C08",
   "status": "partial",
   "theorems": [
    "Verif.Nested.nested_consumers_exact_partial",
    "Verif.Nested.nested_consumers_violated_remove",
    "Verif.Nested.nested_consumers_violated_late",
    "Verif.Nested.nested_replace_all_violated_remove"
   ],
   "note": "Exact (sound and complete, any depth) for every history in which an edit of a body graph never unregisters a tensor another nested node still reads, and body graphs get their parent when they are made. Both side conditions are needed: the other theorems exhibit short legal histories where consumers become invisible."
  },
  {
   "property": "C36",
   "status": "partial",
   "theorems": [
    "Verif.ShapeInf.infer_shape_true_partial",
    "Verif.ShapeInf.infer_shape_no_exception",
    "Verif.ShapeInf.infer_shape_terminates_partial",
    "Verif.ShapeInf.infer_broadcast_violated",
    "Verif.ShapeInf.infer_pow_violated",
    "Verif.ShapeInf.infer_pack_violated",
    "Verif.ShapeInf.infer_select_v2_violated",
    "Verif.ShapeInf.infer_placeholder_violated",
    "Verif.ShapeInf.infer_merge_rank_only_violated",
    "Verif.ShapeInf.infer_concat_violated",
    "Verif.ShapeInf.infer_shape_terminates_violated"
   ],
   "note": "Both inference loops of shape_inference.py. Truth is proved for all graphs, shapes and runs whose ops are Safe; the full property is false for the others (right alignment of broadcasting, Pow, Pack with a negative axis, SelectV2, placeholders of unknown shape), Concat always raises, and Minimum/Maximum can loop forever."
  },
  {
   "property": "C42",
   "status": "proved",
   "theorems": [
    "Verif.ConvBN.conv_batchnorm_fusion",
    "Verif.ConvBN.conv_batchnorm_guard"
   ],
   "note": "Exact arithmetic over any field with any sqrt. Inference mode: the handler does not look at training_mode; a BatchNormalization without epsilon attribute raises and is caught by the driver."
  },
  {
   "property": "C43",
   "status": "partial",
   "theorems": [
    "Verif.Graph.qdq_optimizer_preserves_model_partial",
    "Verif.Graph.listInterp_law",
    "Verif.Graph.requantize_exact",
    "Verif.Graph.qdq_scatter_reduction_violated",
    "Verif.Graph.qdq_default_axis_violated",
    "Verif.Graph.qdq_default_zero_point_violated"
   ],
   "note": "Whole optimizer on one graph level, all graphs and runs, for per-tensor quantization with scalar constants, typed graphs, scatter without reduction. The rest of the property is false: three witnesses. Not covered: termination (a dead QuantizeLinear makes the loop run forever), consumers inside nested bodies."
  },
  {
   "property": "C44",
   "status": "partial",
   "theorems": [
    "Verif.Graph.leakyrelu_preserves_model_partial",
    "Verif.Graph.leakyInterp_law",
    "Verif.Graph.leakyrelu_chain_violated"
   ],
   "note": "Whole rewriter, all graphs of one level, any number of occurrences, any set iteration order; leakyInterp_law: element-wise arithmetic with broadcasting satisfies the law. Missing: a leaky rectifier applied directly to another one, where the property is false (leakyrelu_chain_violated: the second LeakyRelu reads a tensor nobody produces)."
  },
  {
   "property": "C45",
   "status": "partial",
   "theorems": [
    "Verif.Graph.thresholded_preserves_model_partial",
    "Verif.Graph.thresholdedInterp_law",
    "Verif.Graph.thresholded_flipped_violated",
    "Verif.Graph.thresholded_list_violated",
    "Verif.Graph.thresholded_chain_violated"
   ],
   "note": "Whole rewriter for comparisons with the constant as second operand, scalar constants, no chains. The rest is false: witnesses for theta > x, for a non-scalar theta and for chains."
  },
  {
   "property": "C46",
   "status": "partial",
   "theorems": [
    "Verif.Graph.floorDiv_float_converts",
    "Verif.Graph.floorDiv_int_converts_partial",
    "Verif.Graph.floorMod_float_converts_partial",
    "Verif.Graph.floorMod_int_converts_partial",
    "Verif.Graph.floorDiv_int_violated",
    "Verif.Graph.floorMod_int_violated",
    "Verif.Graph.elem_exists"
   ],
   "note": "The handlers as graph transformations, on all graphs, with broadcasting; arithmetic is exact only where the exact result is a value of the type. Floating FloorDiv in full; FloorMod where no step rounds; integers when floor and truncation agree. For integers of different signs the property is false (two witnesses: the integer path has no Floor)."
  },
  {
   "property": "C47",
   "status": "partial",
   "theorems": [
    "Verif.Graph.greaterLess7_converts_partial",
    "Verif.Graph.greaterLess7_small_converts",
    "Verif.Graph.greaterLessEqual7_converts_partial",
    "Verif.Graph.greaterLessEqual12_converts",
    "Verif.Graph.notEqual_self_converts",
    "Verif.Graph.equal7_converts_partial",
    "Verif.Graph.equal11_converts_partial",
    "Verif.Graph.greater_int_violated",
    "Verif.Graph.greaterEqual_nan_violated",
    "Verif.Graph.equal_float_violated",
    "Verif.Graph.elem_exists"
   ],
   "note": "All versions but 1. Exact for the types and values stated; the rest is false (witnesses: integers above 2^24 compared as floats, NaN under the negated comparison, floats compared as int32). String equality at operator set 11 (cast to int32) is outside."
  },
  {
   "property": "C48",
   "status": "proved",
   "theorems": [
    "Verif.Graph.mapping_preserves_model",
    "Verif.Graph.mapping_counts",
    "Verif.Graph.elem_mapping_preserves_model",
    "Verif.Graph.elemTable_un",
    "Verif.Graph.elemTable_bin",
    "Verif.Graph.mapGraph_nodes"
   ],
   "note": "The loop for graphs without body graphs (the recursion into bodies is left out), any table; runs in which no handler raises. elem_mapping_preserves_model instantiates it with a table of 59 element-wise operators (C46, C47, C49) from operator set 12 on, on graphs of any size."
  },
  {
   "property": "C49",
   "status": "partial",
   "theorems": [
    "Verif.Graph.direct_un_converts",
    "Verif.Graph.square_converts",
    "Verif.Graph.rsqrt_converts",
    "Verif.Graph.relu6_converts",
    "Verif.Graph.relu6_11_converts",
    "Verif.Graph.isFinite_converts",
    "Verif.Graph.isInf_converts",
    "Verif.Graph.sign9_converts",
    "Verif.Graph.sign1_float_converts",
    "Verif.Graph.sign1_int_converts_partial",
    "Verif.Graph.log6_float_converts_partial",
    "Verif.Graph.log6_other_raises",
    "Verif.Graph.direct_bin_converts",
    "Verif.Graph.broadcast6_converts",
    "Verif.Graph.sqDiff_converts",
    "Verif.Graph.divNoNan_converts_partial",
    "Verif.Graph.minMax_float_converts",
    "Verif.Graph.minMax_int_converts_partial",
    "Verif.Graph.clip12_converts_partial",
    "Verif.Graph.swap_loses_reader_violated",
    "Verif.Graph.sign1_double_violated",
    "Verif.Graph.divNoNan9_violated",
    "Verif.Graph.clip12_shape_violated",
    "Verif.Graph.elem_exists"
   ],
   "note": "Handlers as sequences of graph calls, on all graphs, with broadcasting and the element types each ONNX operator set allows. Not covered: Round and Erf before they are ONNX operators, Pow version 1, ClipByValue before 12, Log of doubles. False (witnesses): swapping the operands of Mul/Add loses a reader, Sign of doubles before 9, DivNoNan at 9 and 10, Clip with bounds that are not scalars."
  },
  {
   "property": "C50",
   "status": "partial",
   "theorems": [
    "Verif.Graph.if_converts",
    "Verif.Graph.branch_returns",
    "Verif.Graph.if_capture_violated",
    "Verif.Graph.if_without_inputs_violated",
    "Verif.Graph.if_twice_violated"
   ],
   "note": "The handler as a graph transformation on all graphs and all function graphs without nested bodies: if_converts gives the node lists and the equality of results for every meaning of the operators in which Identity copies. Where its hypotheses fail the property is false: witnesses for name capture, for an If without further inputs (left unconverted) and for a branch that returns a tensor twice (raises). Missing: function graphs with nested bodies or operators of other domains (the domain is dropped), and that the conversion does not raise."
  },
  {
   "property": "C51",
   "status": "partial",
   "theorems": [
    "Verif.Graph.while_converts",
    "Verif.Graph.while_loop",
    "Verif.Graph.body_returns",
    "Verif.Graph.convertWhile_parts",
    "Verif.Graph.loopBound_cases",
    "Verif.Graph.whileResult_sound",
    "Verif.Graph.while_counter_violated",
    "Verif.Graph.while_counter_output_violated",
    "Verif.Graph.while_graph_output_violated"
   ],
   "note": "The handler as a graph transformation, all four kinds of bound, all graphs and function graphs without nested bodies, tensor lists or ragged tensors; while_converts: same results (both directions, so also the same loops that never end) for loops following TensorFlow's conventions (counter starts at 0 and is incremented; with a bound the condition tests counter < bound, without one it ignores the counter). Outside the conventions the property is false: while_counter_violated (condition on the counter without a bound: one iteration too many); also a used counter result is left without producer, and a result that is a graph output makes the conversion raise."
  },
  {
   "property": "C52",
   "status": "partial",
   "theorems": [
    "Verif.Graph.elem_conversion_succeeds",
    "Verif.Graph.elem_conversion_end_to_end",
    "Verif.Graph.processParsed_total",
    "Verif.Graph.elem_mapping_total",
    "Verif.Graph.mapping_total",
    "Verif.Graph.pipe_succeeds",
    "Verif.Graph.processParsed_spec",
    "Verif.Graph.optimizeWith_ends",
    "Verif.Graph.pipe_example",
    "Verif.Graph.pipe_domain"
   ],
   "note": "process_parsed_graph from the point where the rewriters have run, then optimize_graph with any list of the two optimizers; the element-wise operators of C48. The stages before (reading the TensorFlow graph, rewriters), graphs with bodies, other operators and the other optimizers are missing. That the conversion raises nothing needs a complete graph (Whole: every tensor read is made, no node name is one the conversion may choose), a recorded output type for Sign, and no half floats for IsInf (the handlers raise otherwise)."
  },
  {
   "property": "C53",
   "status": "partial",
   "theorems": [
    "Verif.Graph.reduce_converts",
    "Verif.Graph.reduce_attr_converts",
    "Verif.Graph.reduce_in_converts",
    "Verif.Graph.allAny6_converts_partial",
    "Verif.Graph.arg_converts",
    "Verif.Graph.arg32_converts",
    "Verif.Graph.squeeze_all_converts",
    "Verif.Graph.squeeze_attr_converts",
    "Verif.Graph.squeeze_in_converts",
    "Verif.Graph.expandDims_attr_converts",
    "Verif.Graph.expandDims_in_converts",
    "Verif.Graph.transpose_converts",
    "Verif.Graph.concat_converts",
    "Verif.Graph.concatV2_converts_partial",
    "Verif.Graph.gather_converts",
    "Verif.Graph.gatherV2_converts",
    "Verif.Graph.reshape_converts",
    "Verif.Graph.tile_converts",
    "Verif.Graph.broadcastTo_converts",
    "Verif.Graph.ensureShape_converts",
    "Verif.Graph.size_converts",
    "Verif.Graph.axis_exists",
    "Verif.Graph.reduce_no_axes_violated",
    "Verif.Graph.all_no_axes_violated",
    "Verif.Graph.reshape_zero_violated",
    "Verif.Graph.concatV2_empty_violated",
    "Verif.Graph.arg_unknown_rank_violated",
    "Verif.Graph.tile_own_counts_violated",
    "Verif.Graph.reshape_own_shape_violated",
    "Verif.Graph.broadcastTo_own_shape_violated",
    "Verif.Graph.reduceSum_own_axes_violated"
   ],
   "note": "Every handler as a graph transformation on all graphs; what an operator does once the dimensions are known is an arbitrary function shared by TensorFlow and ONNX (Spec/AxisOps), so the theorems are about how dimensions are encoded. Where a theorem has a hypothesis about the operands beyond TensorFlow's own, the property is false outside it, by the violation theorems: no axes before 13/18, target dimension 0, a dropped constant that is empty in another dimension, negative axes of unknown rank before 11, both inputs the same tensor. Missing: All/Any from 13 on, batch dimensions of GatherV2, operator sets below 8."
  },
  {
   "property": "C54",
   "status": "partial",
   "theorems": [
    "Verif.Emit.reverseV2_converts",
    "Verif.Emit.reverseSequence_converts_partial",
    "Verif.Emit.reverseSequence_rejected"
   ],
   "note": "tf.reverse is proved for every rank and set of axes. tf.reverse_sequence is proved when the two axes are the first two; for other axes the code writes them into the node, which no operator set accepts (proved). Names, recorded shapes and the graph calls of the handlers are not modelled here (the emitted operators are)."
  },
  {
   "property": "C55",
   "status": "proved",
   "theorems": [
    "Verif.Emit.batchToSpace_converts",
    "Verif.Emit.spaceToBatch_converts",
    "Verif.Emit.batchToSpace_raises"
   ],
   "note": "Both encodings, constant and computed crops/paddings, every rank. Model level: the emitted ONNX operators and their meaning; integers are unbounded, dimensions are assumed to fit the sentinel ends the code uses (2^31-1, 2^63-1)."
  },
  {
   "property": "C56",
   "status": "partial",
   "theorems": [
    "Verif.Rnn.lstmTf2_converts",
    "Verif.Rnn.lstmKeras_converts",
    "Verif.Rnn.lstmTf1_converts",
    "Verif.Rnn.lstmTf2_some",
    "Verif.Rnn.lstmTf1_some",
    "Verif.Rnn.lstmKeras_some",
    "Verif.Rnn.gruTf_converts",
    "Verif.Rnn.gruKeras_converts",
    "Verif.Rnn.lstmStack1_converts",
    "Verif.Rnn.initBoth2_ok",
    "Verif.Rnn.finalBoth_ok",
    "Verif.Rnn.biLstm_converts",
    "Verif.Rnn.biGru_converts",
    "Verif.Rnn.bi_tail",
    "Verif.Rnn.Ex.tf1_activation_lost",
    "Verif.Rnn.Ex.tf2_gate_activation_lost",
    "Verif.Rnn.Ex.gate_order_ignored",
    "Verif.Rnn.Ex.hard_sigmoid_constants_ignored",
    "Verif.Rnn.Ex.tf1_state_swapped",
    "Verif.Rnn.Ex.layers_sorted_by_string",
    "Verif.Rnn.Ex.wrappers_ignored",
    "Verif.Rnn.Ex.cudnn_activation_lost",
    "Verif.Rnn.Ex.reversal_ignored"
   ],
   "note": "Proved for every weight, size, input, length and initial state, under hypotheses the rewriters do not check; for each one a counterexample is proved (lost activations, gate order, hard sigmoid constants, order of more than ten layers, wrappers between layers, exchanged h and c in TensorFlow 1 with one state tensor, kind of reversal). Finding the cell in the loop body by pattern matching, block cells, Cudnn layers and attention are not modelled; arithmetic is exact."
  },
  {
   "property": "C57",
   "status": "partial",
   "theorems": [
    "Verif.Conv.conv_converts",
    "Verif.Conv.depthwise_converts",
    "Verif.Conv.padding_ok",
    "Verif.Conv.windowed_layout",
    "Verif.Conv.Ex.same_unknown_kernel_violated",
    "Verif.Conv.Ex.group_unknown_violated"
   ],
   "note": "conv_converts and depthwise_converts: every rank, layout, padding, stride, dilation and group count; how products are accumulated is an arbitrary function shared by both sides. False (witnesses) where the hypotheses kernelKnown and groupsKnown fail: a kernel of unknown size with SAME padding and known image gets no padding, groups with unknown channels give an invalid model. Not modelled: a kernel behind DequantizeLinear, images without a batch axis, TFLite's depth_multiplier, and the graph calls (the operators emitted and their attributes are)."
  },
  {
   "property": "C58",
   "status": "partial",
   "theorems": [
    "Verif.Conv.pool_converts"
   ],
   "note": "Every rank, layout, padding, kernel and stride; the summary (maximum, average, ...) is an arbitrary function of the elements of the image a window covers. Not modelled: the casts around pools of integers, computed ksize/strides, MaxPoolWithArgmax."
  },
  {
   "property": "C59",
   "status": "partial",
   "theorems": [
    "Verif.Conv.dilations_conv",
    "Verif.Conv.dilations_depthwise",
    "Verif.Conv.dilations_conv1d",
    "Verif.Conv.dilated_windows",
    "Verif.Conv.conv_viaBatch",
    "Verif.Conv.depthwise_viaBatch",
    "Verif.Conv.conv1d_viaBatch",
    "Verif.Conv.Ex.dilations_strides_violated",
    "Verif.Conv.Ex.dilations_overwritten_violated",
    "Verif.Conv.Ex.dilations_negative_violated",
    "Verif.Conv.Ex.dilations_guess_violated"
   ],
   "note": "Proved from the operators TensorFlow runs through the rewriter to the value of the converted ONNX Conv, for every rank, layout, block, padding, crop and kernel, if the convolution has no strides or dilations of its own, no more is cropped than padded and, where paddings are computed, they are what VALID needs; none of this is checked by the rewriter and for each a counterexample is proved. The matching of the pattern and the graph calls are not modelled."
  },
  {
   "property": "C60",
   "status": "partial",
   "theorems": [
    "Verif.Conv.transpose_converts",
    "Verif.Conv.same_converts",
    "Verif.Conv.valid_converts",
    "Verif.Conv.transpose_output_shape",
    "Verif.Conv.dynamic_converts",
    "Verif.Conv.source_iff",
    "Verif.Conv.same_total",
    "Verif.Conv.valid_total",
    "Verif.Conv.Ex.left_over_violated",
    "Verif.Conv.Ex.output_shape_odd_violated",
    "Verif.Conv.Ex.explicit_violated",
    "Verif.Conv.Ex.dynamic_channels_first_violated",
    "Verif.Conv.Ex.dynamic_old_opset_violated"
   ],
   "note": "Every rank, layout, kernel, stride and dilation, for all three ways the handler fixes the size. False as stated where more than one element is left over between windows (left_over_violated), for an odd padding with an image of unknown size from opset 11 (output_shape_odd_violated), explicit padding, and a computed size with channels first or opset 10/11; each is proved. Not modelled: the shape recorded for the result, graph calls."
  },
  {
   "property": "C61",
   "status": "partial",
   "theorems": [
    "Verif.Graph.poolOptimize_sameOn",
    "Verif.Graph.upsampleOptimize_sameOn",
    "Verif.Tensor.globalPool_eq",
    "Verif.Tensor.upsample_one",
    "Verif.Tensor.newAxis_transpose",
    "Verif.Tensor.newAxis_reshape",
    "Verif.Tensor.newAxis_unsqueeze",
    "Verif.Tensor.newAxis_transpose_ok",
    "Verif.Tensor.stacked_transpose",
    "Verif.Graph.pool_example",
    "Verif.Graph.up_example",
    "Verif.Graph.noAxes_violation",
    "Verif.Graph.noAxes_view",
    "Verif.Graph.defaultAxis_violation"
   ],
   "note": "Pooling and upsampling: the whole pass on one graph level, for every graph whose recorded ranks are right. Dequantization and loops: the values of the rewritten operators and the axis the code computes; the graph surgery around them is not modelled. False as stated for a reduction over no axes of a matrix (noAxes_violation) and where the attribute axis is missing (the code raises)."
  },
  {
   "property": "C62",
   "status": "partial",
   "theorems": [
    "Verif.Einsum.decompose_correct",
    "Verif.Einsum.candidate_correct",
    "Verif.Einsum.analyse_text",
    "Verif.Einsum.einsum_rename",
    "Verif.Einsum.convert_matmul",
    "Verif.Einsum.convert_einsum",
    "Verif.Einsum.mergeAll_run",
    "Verif.Einsum.lowercase_merges_letters",
    "Verif.Einsum.scalar_first_operand_lost",
    "Verif.Einsum.opset_12_invalid",
    "Verif.Einsum.empty_axis_fails"
   ],
   "note": "From opset 13 on, for every equation without repeated letters in a term, with non-empty axes, a first operand that is not a scalar, an output that is not a scalar, every number of operands and every permutation of the letters: the decomposition succeeds and computes the equation. False as stated for letters in both cases (lowercase_merges_letters), a scalar first operand (scalar_first_operand_lost), opset 12 (opset_12_invalid); with axes of length 0 the decomposed nodes fail (empty_axis_fails). Not modelled: repeated letters and ellipsis (the code raises, the node stays), the cost model that chooses the permutation (the theorem is about every choice), rounding, the replacement in the graph."
  },
  {
   "property": "C63",
   "status": "partial",
   "theorems": [
    "Verif.Seg.segment_sum",
    "Verif.Seg.segment_prod",
    "Verif.Seg.segment_max_partial",
    "Verif.Seg.segment_min_partial",
    "Verif.Seg.segment_mean_partial",
    "Verif.Seg.segment_mean_num",
    "Verif.Seg.segment_sqrtN_partial",
    "Verif.Seg.segment_sqrtN_num",
    "Verif.Seg.mod_count_inj",
    "Verif.Seg.grid_ok",
    "Verif.Seg.int_max_raises",
    "Verif.Seg.double_mean_rejected",
    "Verif.Seg.negative_id_wraps"
   ],
   "note": "For every operator of the family, all ids in range and at least one row: the handler raises nothing, the emitted operators are defined and give TensorFlow's result; sums and products for all ids, means with a given number of segments for all ids (float32), the others if no segment is empty. False as stated for empty segments of SegmentMax/Min (infinity instead of 0 or the extreme finite number) and SegmentMean (0/0), integer maxima (int_max_raises), float64 means with a given number (double_mean_rejected), negative ids (negative_id_wraps). Not modelled: rounding and order of summation, names, the graph edit, zero rows (ReduceMax of nothing)."
  },
  {
   "property": "C64",
   "status": "partial",
   "theorems": [
    "Verif.Ragged.raggedToSparse_ok",
    "Verif.Ragged.lookup_paths_top",
    "Verif.Ragged.mem_paths_of_lookup",
    "Verif.Ragged.paths_nodup",
    "Verif.Ragged.raggedToTensor_natural",
    "Verif.Ragged.raggedToTensor_shape",
    "Verif.Ragged.raggedRange_ok",
    "Verif.Ragged.raggedRange_wrong",
    "Verif.Ragged.raggedRange_scalars",
    "Verif.Ragged.raggedGather_ok",
    "Verif.Ragged.splits_no_rows",
    "Verif.Ragged.rowIds_no_elements",
    "Verif.Sparse.sparseReshape_ok",
    "Verif.Sparse.sparseReshape_zero",
    "Verif.Sparse.fillEmptyRows_ok"
   ],
   "note": "For every nesting depth and all lengths: indices, shapes and dense tensors are right if every level has a row (row splits) or an element (row ids); ranges of integers unless the limit lies on the wrong side of the start by less than a step; gathered rows for all indices in range; sparse reshapes with at most one unknown dimension; filled rows with the new elements behind the old ones (TensorFlow sorts them). False as stated for levels without rows (splits_no_rows, rowIds_no_elements), the short opposite range (raggedRange_wrong), three numbers as range (raggedRange_scalars), a dimension 0 (sparseReshape_zero). Not modelled: ranges of floats, overflow, variants in loops, the graph edit."
  },
  {
   "property": "C65",
   "status": "partial",
   "theorems": [
    "Verif.Index.bincount1_ok",
    "Verif.Index.bincount2_ok",
    "Verif.Index.unique_partial",
    "Verif.Index.dynamicPartition_ok",
    "Verif.Index.dynamicStitch_ok",
    "Verif.Index.oneHotNew_ok",
    "Verif.Index.oneHotOld_partial",
    "Verif.Index.matrixDiagPart_partial",
    "Verif.Index.setOperation_ok",
    "Verif.Index.tensorScatter_ok",
    "Verif.Index.tensorScatterSub_ok",
    "Verif.Index.tensorScatterUpdate_partial",
    "Verif.Index.scatterNd_partial",
    "Verif.Index.sparseToDense_partial",
    "Verif.Index.unique_lossy_wrong",
    "Verif.Index.oneHot_negative_wrong",
    "Verif.Index.oneHot_swapped_wrong",
    "Verif.Index.stitch_gap_wrong",
    "Verif.Index.stitch_twice_wrong",
    "Verif.Index.diagPart_matrix_wrong",
    "Verif.Index.diagPart_rank4_wrong",
    "Verif.Index.scatterNd_twice_wrong",
    "Verif.Index.setOperation_empty_wrong"
   ],
   "note": "Full for Bincount without weights, DynamicPartition with a vector of partitions and TensorScatterAdd/Max/Min/Sub. Where the claim is false of the code the theorem carries the exact restriction and a counterexample stands beside it: Unique where the casts merge no values, DynamicStitch with every index once, OneHot with indices not below 0 (and, before opset 9, a vector in range and not 0 for on with 1 for off), MatrixDiagPart of a batch with restrictions on leading dimensions, set operations with some element in the result, scatters to different places. Missing: strings, weights (refused by the code), partitions of higher rank (refused)."
  },
  {
   "property": "C66",
   "status": "partial",
   "theorems": [
    "Verif.Patt.gemm_rewritten_partial",
    "Verif.Patt.gemm_example",
    "Verif.Patt.gemm_nested_violated",
    "Verif.Patt.gemm_rank_violated",
    "Verif.Patt.flatten_constant_shape",
    "Verif.Patt.flatten_run_time_shape_partial",
    "Verif.Patt.flatten_other_rows_violated",
    "Verif.Patt.transpose_reverses_partial",
    "Verif.Patt.transpose_usual",
    "Verif.Patt.transpose_negative_step_violated",
    "Verif.Patt.eye_square_partial",
    "Verif.Patt.eye_any_partial",
    "Verif.Patt.eye_not_square_violated",
    "Verif.Patt.eye_batch_violated",
    "Verif.Patt.eye_background_violated",
    "Verif.Patt.pad_merged_partial",
    "Verif.Patt.pad_explicit_violated",
    "Verif.Patt.bias_merged_partial",
    "Verif.Patt.bias_layout_violated",
    "Verif.Patt.layer_norm_partial",
    "Verif.Patt.layer_norm_sign_violated",
    "Verif.Patt.layer_norm_keep_violated",
    "Verif.Patt.layer_norm_type_violated",
    "Verif.Patt.dropout_on_average",
    "Verif.Patt.dropout_floor_missed",
    "Verif.Patt.dropout_floor_violated",
    "Verif.Patt.dropout_order_violated",
    "Verif.Patt.random_uniform_partial",
    "Verif.Patt.random_uniform_folded",
    "Verif.Patt.random_uniform_violated",
    "Verif.Patt.random_shape_violated",
    "Verif.Patt.random_normal_ok",
    "Verif.Patt.variant_shape"
   ],
   "note": "Where the claim is false of the code the theorem carries the restriction and a counterexample stands beside it: Gemm with constants that are no lists of lists and recorded shapes that are right; Flatten by the rows of its own operand; Transpose by the usual computed permutation; EyeLike for square matrices without leading axes; Pad before a convolution without explicit padding; BiasAdd in the layout of the convolution; layer normalization of 32-bit floats with means that keep their axis and the difference in the written order; random numbers where what is added is the lower bound. Full for flattening by a constant shape, folded random ranges and normal distributions. Missing: how the nodes are removed, rounding of constants to attributes, other rewriters (C44, C45, C67, recurrent ones C12-C14)."
  },
  {
   "property": "C67",
   "status": "partial",
   "theorems": [
    "Verif.Quant.qdq_partial",
    "Verif.Quant.qdq_example",
    "Verif.Quant.fakeQuant_partial",
    "Verif.Quant.fakeQuant_converts",
    "Verif.Quant.fakeQuant_example",
    "Verif.Quant.fakeQuant_tie_violated",
    "Verif.Quant.qdq_bits_violated",
    "Verif.Quant.qdq_mode_violated",
    "Verif.Quant.qdq_narrow_violated"
   ],
   "note": "For exact rational numbers. Restrictions where the claim is false of the code, each with a counterexample: 8 bits, rounding mode HALF_TO_EVEN, no value below a narrow given range; FakeQuant away from ties. Further: unsigned quantization with computed range of data that is not negative; a channel of zeros only has no scale here (the code divides 0 by 0). Missing: rounding of scales to 32-bit floats; `range_given` that is not stored (the default is always true)."
  },
  {
   "property": "C68",
   "status": "partial",
   "theorems": [
    "Verif.Scan.cumprod_ok_partial",
    "Verif.Scan.cumprod_negative_axis_violated",
    "Verif.Scan.cumprod_empty_violated",
    "Verif.Scan.cumprod_example",
    "Verif.Scan.const_like",
    "Verif.Scan.zeros_like_old",
    "Verif.Scan.ones_like_old_violated",
    "Verif.Scan.fill_ok",
    "Verif.Scan.fill_constant_partial",
    "Verif.Scan.fill_tiled_partial",
    "Verif.Scan.fill_violated",
    "Verif.Scan.random_int_range",
    "Verif.Scan.random_int_share",
    "Verif.Scan.shuffle_permutes",
    "Verif.Scan.shuffle_reaches",
    "Verif.Scan.invert_permutation",
    "Verif.Scan.invert_permutation_type_violated",
    "Verif.Scan.band_part_partial",
    "Verif.Scan.band_computed_violated",
    "Verif.Scan.band_empty_violated",
    "Verif.Scan.band_infinity_violated",
    "Verif.Scan.band_example",
    "Verif.Scan.band_triangle_partial",
    "Verif.Scan.band_old_violated",
    "Verif.Scan.range_partial",
    "Verif.Scan.range_cast_violated",
    "Verif.Scan.range_example",
    "Verif.Scan.select_v2_partial",
    "Verif.Scan.select_v1_partial",
    "Verif.Scan.select_bool",
    "Verif.Scan.select_infinity_violated",
    "Verif.Scan.select_unknown_violated",
    "Verif.Scan.select_example",
    "Verif.Scan.atan2_partial",
    "Verif.Scan.atan2_scalar_violated",
    "Verif.Scan.atan2_example"
   ],
   "note": "Restrictions where the claim is false of the code, each with a counterexample: Cumprod with an axis given from the front and, if exclusive, an axis that is not empty; MatrixBandPart with computed bounds not negative, matrices not empty, elements whose product with 0 is 0, below opset 11 only whole triangles; Range before opset 11 for numbers a float holds; Select of finite numbers where it is done by products, with recorded shapes where the condition has one value for each row; Fill with a computed value from opset 11 on only; Atan2 of two scalars. Missing: rounding and infinities in Atan2; the nodes of the loop body themselves (the loop is modelled as iteration of the body)."
  },
  {
   "property": "C69",
   "status": "partial",
   "theorems": [
    "Verif.Cond.cond_rewrite_partial",
    "Verif.Cond.cond_example",
    "Verif.Cond.cond_order_violated",
    "Verif.Cond.cond_constant_branches_violated",
    "Verif.Cond.cond_same_side_refused"
   ],
   "note": "Proved for all graphs of nested conditionals in which the rewriter converts all of them. Restrictions where the claim is false of the code, each with a counterexample: the first Merge of an inner conditional comes before that of the outer one in the sorted graph; not both branches only constants (such conditionals are left, with a warning). Missing: constant predicates (cond_rewriter.py:143-151); the second output of Merge; the Identity nodes behind the outputs of a branch; that the rewriter raises for recorded ranks and types that differ is modelled, not stated."
  },
  {
   "property": "C70",
   "status": "partial",
   "theorems": [
    "Verif.While.loop_rewrite_partial",
    "Verif.While.ex_value",
    "Verif.While.fresh_exists",
    "Verif.While.loop_returned_twice_violated",
    "Verif.While.loop_variable_condition_violated",
    "Verif.While.loop_outer_value_violated"
   ],
   "note": "Proved for all graphs of loops that are not nested, all operators and all numbers of iterations, whenever the conversion succeeds. Restrictions where the claim is false of the code, each with a counterexample: a body returns no tensor for two variables and no tensor of the outside directly, a condition is not a variable itself. Missing: tensor arrays (scan outputs), nested loops, conditionals in loops, the Identity nodes behind the outputs of the body, delete_unused_nodes at the end."
  },
  {
   "property": "C71",
   "status": "partial",
   "theorems": [
    "Verif.Fourier.rfft_sound",
    "Verif.Fourier.rfft_accepts",
    "Verif.Fourier.rfft_abs_partial",
    "Verif.Fourier.complexAbs_accepts",
    "Verif.Fourier.complexAbs_needs",
    "Verif.Fourier.rfft2d_sound",
    "Verif.Fourier.rfft2d_accepts",
    "Verif.Fourier.rfft2d_abs_partial",
    "Verif.Fourier.rfft2d_one_violated",
    "Verif.Fourier.rfft2d_long_violated",
    "Verif.Fourier.rfft_vector_violated",
    "Verif.Fourier.rfft_unknown_violated",
    "Verif.Fourier.fft_refused",
    "Verif.Fourier.ex_rfft",
    "Verif.Fourier.ex_rfft2d"
   ],
   "note": "Over the real numbers, for all operands with positive dimensions, all lengths and all recorded shapes: whenever the handlers accept the nodes and the emitted operators run, the result is the absolute value of the transform; and they do accept and run when the last dimension is recorded, the rank is at least 2 and the lengths are at most the dimensions (RFFT2D: the second one at least 2). Outside of that TensorFlow has a result and the conversion has none: counterexamples. Missing: rounding, element types, dimensions of length 0, operands cast to complex numbers."
  },
  {
   "property": "C72",
   "status": "partial",
   "theorems": [
    "Verif.Softmax.softmax_sound",
    "Verif.Softmax.logSoftmax_sound",
    "Verif.Softmax.softmax_total",
    "Verif.Softmax.softmax_unranked_violated",
    "Verif.Softmax.crossEntropy_sound",
    "Verif.Softmax.crossEntropy_broadcast_violated",
    "Verif.Softmax.crossEntropy_old_violated",
    "Verif.Softmax.sparse_is_crossEntropy",
    "Verif.Softmax.sparse7_sound",
    "Verif.Softmax.sparse7_needs",
    "Verif.Softmax.sparse9_sound",
    "Verif.Softmax.sparse_versions_agree",
    "Verif.Softmax.ex_sparse",
    "Verif.Softmax.ex_softmax",
    "Verif.Softmax.ex_gathers"
   ],
   "note": "Over the real numbers. Softmax and LogSoftmax: all operator sets and ranks. Cross-entropy: labels that broadcast to the logits along the classes; where the logits broadcast to the labels the result is wrong (counterexample). Class numbers: all three ways (identity matrix, GatherNd, mask), with GatherNd as a hypothesis. Before operator set 11 the emitted reductions have negative axes; this is right for runtimes that take them. Missing: rounding, element types, the second output (gradient) of the TensorFlow operators, the loops of GatherNd."
  },
  {
   "property": "C73",
   "status": "partial",
   "theorems": [
    "Verif.Bits.leftShift_sound",
    "Verif.Bits.rightShift_sound",
    "Verif.Bits.rightShift_int8_sound",
    "Verif.Bits.rightShift_int8_violated",
    "Verif.Bits.shift_int64_refused",
    "Verif.Bits.ex_shift"
   ],
   "note": "One pair of elements of the same type; the result depends on the elements at the same index only. int8 to the right is proved where the value is not negative and refuted where it is; int64 is refused by the handler. Missing: amounts below 0 or not below the width, which TensorFlow leaves to the implementation."
  },
  {
   "property": "C74",
   "status": "partial",
   "theorems": [
    "Verif.Colour.topK_sorts",
    "Verif.Colour.rgb_hsv",
    "Verif.Colour.tf_closed",
    "Verif.Colour.saturation_sound",
    "Verif.Colour.saturation_violated",
    "Verif.Colour.saturation_negative_violated",
    "Verif.Colour.ex_saturation",
    "Verif.Colour.hue_sound",
    "Verif.Colour.hue_below_violated",
    "Verif.Colour.ex_hue"
   ],
   "note": "One pixel, exact numbers. Saturation: proved for pixels whose order of channels is its own inverse, refuted for all others (with a positive factor): the handler reorders with the positions of the sort instead of their inverse. Hue: proved for all pixels and all angles from -1 turn on (TensorFlow takes -1 to 1). Missing: rounding, half and quantized images, the layout of the image around the pixels."
  },
  {
   "property": "C75",
   "status": "partial",
   "theorems": [
    "Verif.Channels.depthToSpace_sound",
    "Verif.Channels.spaceToDepth_sound",
    "Verif.Channels.depth_space_inverse",
    "Verif.Channels.lrn_sound",
    "Verif.Channels.lrn_needs_alpha",
    "Verif.Channels.contrast_sound",
    "Verif.Channels.contrast_half_violated",
    "Verif.Channels.batchNorm_training_sound",
    "Verif.Channels.batchNorm_sound",
    "Verif.Channels.batchNorm_accepts",
    "Verif.Channels.batchNorm_average_violated",
    "Verif.Channels.ex_depthToSpace",
    "Verif.Channels.ex_lrn",
    "Verif.Channels.ex_batchNorm"
   ],
   "note": "Exact real numbers. SpaceToDepth, DepthToSpace: all sizes, both layouts, ONNX's operators as reshapes and transposes. LRN: all radii. Contrast: all ranks from 3 on; half precision is refused by accident. Batch normalisation: two and three spatial axes, statistics given or taken from the batch; with a moving average in training the result is wrong (counterexample; the handler logs it). Missing: rounding, the casts of half images around BatchNormalization, the other outputs of FusedBatchNorm."
  },
  {
   "property": "C76",
   "status": "partial",
   "theorems": [
    "Verif.Resize.resize11_sound_partial",
    "Verif.Resize.resize9_sound_partial",
    "Verif.Resize.resize7_sound_partial",
    "Verif.Resize.resize9_refuses",
    "Verif.Resize.f32_dyadic",
    "Verif.Resize.exact_whole",
    "Verif.Resize.exact_halves",
    "Verif.Resize.axis_bilinear",
    "Verif.Resize.axis_nearest",
    "Verif.Resize.axis_bicubic",
    "Verif.Resize.axis_same",
    "Verif.Resize.ex_resize11",
    "Verif.Resize.ex_nearest11",
    "Verif.Resize.ex_resize9",
    "Verif.Resize.area_defect",
    "Verif.Resize.bicubic_defect",
    "Verif.Resize.tensorrt_defect",
    "Verif.Resize.grid7_defect",
    "Verif.Resize.shrink_defect",
    "Verif.Resize.rounded_defect"
   ],
   "note": "Exact numbers; scales are rounded to single precision. Operator sets 7, 9, 10 and 11; the taps of an axis are shown equal for all sizes before and after, the axes of batch and channels unchanged. Proved for sizes at run time (11), and for stored or computed scales that single precision holds (whole factors and their quotients by powers of two: f32_dyadic). Counterexamples for what is converted wrongly: ResizeArea, ResizeBicubic without half_pixel_centers, nearest with half_pixel_centers for TensorRT, the grids at operator set 7, smaller images before operator set 10, scales that are rounded down. Missing: rounding of the interpolated values, TensorFlow's table of bicubic weights."
  },
  {
   "property": "C77",
   "status": "partial",
   "theorems": [
    "Verif.Crop.crop_sound_partial",
    "Verif.Crop.body_eq",
    "Verif.Crop.resizeRoi_eq",
    "Verif.Crop.slice_image",
    "Verif.Crop.roi_eq",
    "Verif.Crop.roi_whole",
    "Verif.Crop.taps_linear",
    "Verif.Crop.taps_nearest",
    "Verif.Crop.round_eq",
    "Verif.Crop.ex_crop",
    "Verif.Crop.ex_crop_one",
    "Verif.Crop.ex_crop_nearest",
    "Verif.Crop.crop_nearest_violated"
   ],
   "note": "Exact numbers; operator sets from 11 on (the Loop). Every number of boxes, zero included. Bilinear without restriction; with method=nearest where no coordinate is in the middle between two pixels: there the emitted Resize rounds down and TensorFlow up (counterexample). Operands of rank 1 and 2 are lists. Missing: the RoiAlign of operator set 10, rounding, images without channels."
  },
  {
   "property": "C78",
   "status": "partial",
   "theorems": [
    "Verif.Stack.pack_sound",
    "Verif.Stack.pack_needs_rank",
    "Verif.Stack.unpack_sound",
    "Verif.Stack.unstack_stack",
    "Verif.Stack.topK_sound",
    "Verif.Stack.topk_is",
    "Verif.Stack.topk_unique",
    "Verif.Stack.topK_cast_violated",
    "Verif.Stack.topK_int_violated",
    "Verif.Stack.ex_pack",
    "Verif.Stack.ex_topK"
   ],
   "note": "Pack and Unpack: every number of tensors, every rank and axis, recorded rank needed for negative axes; unstacking a stack gives the operands. TopKV2 from operator set 10 on: TensorFlow's positions as a predicate that determines them, every line and k. Types other than float are cast to single precision: proved where this loses nothing of the line; the counterexample has two integers above 2^24. Missing: TopKV2 before operator set 10, sorted=false, several lines at once, Unpack into no outputs."
  },
  {
   "property": "C79",
   "status": "proved",
   "theorems": [
    "Verif.Patches.patches_convert",
    "Verif.Patches.tfConv_single",
    "Verif.Patches.sum_unit",
    "Verif.Patches.single_ok",
    "Verif.Patches.arrange_ok",
    "Verif.Patches.kernel_ok",
    "Verif.Patches.Ex.empty_refused",
    "Verif.Patches.Ex.batch_unknown",
    "Verif.Patches.Ex.nan_spreads"
   ],
   "note": "Every window, stride, rate, SAME and VALID, every number of images and channels; elements of any semiring (a NaN or an infinity spreads within its window, because it is multiplied with the zeros of the kernel: counterexample). Recorded shapes are known, of one-channel images the number may be unknown (counterexample for more channels); an empty result is refused. Element types are not modelled: EyeLike gives single precision."
  },
  {
   "property": "C80",
   "status": "proved",
   "theorems": [
    "Verif.Argmax.argmax_converts",
    "Verif.Argmax.pool_reads",
    "Verif.Argmax.convertIndices_ok",
    "Verif.Argmax.label_eq",
    "Verif.Argmax.window_nonempty",
    "Verif.Argmax.onnxPool_same",
    "Verif.Argmax.firstMax_chooses",
    "Verif.Argmax.Ex.old_refused"
   ],
   "note": "Every shape, window, stride, SAME and VALID, every rule for equal elements that takes an element of the window (the first largest is one); known and unknown dimensions; both batch settings; operator sets from 8 on, and what is refused below 11. The absent attribute include_batch_in_index counts as set, as in the code. Not modelled: the width of the integers, casts of positions to 32 bits, and positions that are outputs of the graph (by reading, these are not recomputed)."
  },
  {
   "property": "C81",
   "status": "proved",
   "theorems": [
    "Verif.Greedy.ctc_decodes",
    "Verif.Greedy.keep_decode",
    "Verif.Greedy.sum_masked",
    "Verif.Greedy.topk_best",
    "Verif.Greedy.best_exists",
    "Verif.Greedy.best_unique",
    "Verif.Greedy.count_before",
    "Verif.Greedy.reduceMax_rows",
    "Verif.Greedy.ctc_type_violated",
    "Verif.Greedy.Ex.ex_merge",
    "Verif.Greedy.Ex.ex_keep",
    "Verif.Greedy.Ex.blanks_violated"
   ],
   "note": "Every number of steps, sequences and classes, all lengths up to the number of steps, all logits of an ordered ring, whether repetitions are merged or not. If nothing is decoded the emitted ReduceMax reduces over nothing (blanks_violated), and logits that are not of type float are not accepted (ctc_type_violated): defects. Not modelled: infinities and NaN, rounding, the attribute blank_index, which the handler does not read."
  },
  {
   "property": "C82",
   "status": "partial",
   "theorems": [
    "Verif.Nms.nms_converts",
    "Verif.Nms.nms_selects",
    "Verif.Nms.greedy_selects",
    "Verif.Nms.selected_unique",
    "Verif.Nms.onnxSupp_iff",
    "Verif.Nms.inter_le_left",
    "Verif.Nms.sigma_refused",
    "Verif.Nms.sigma_violated",
    "Verif.Nms.combined_converts",
    "Verif.Nms.combined_refused",
    "Verif.Nms.combined_image",
    "Verif.Nms.image_entries",
    "Verif.Nms.topk_padded",
    "Verif.Nms.within_rowsOf",
    "Verif.Nms.Ex.ex_selected",
    "Verif.Nms.Ex.ex_padded",
    "Verif.Nms.Ex.padded_scores_refused",
    "Verif.Nms.Ex.ex_combined",
    "Verif.Nms.Ex.negative_tf",
    "Verif.Nms.Ex.negative_violated"
   ],
   "note": "Every number of boxes, all boxes and scores of an ordered field, thresholds for overlaps from 0 on, with and without a threshold for the scores; TensorFlow's result as the unique selection that IsSelected describes (selected_unique), ONNX's as onnxruntime computes it. Missing: soft_nms_sigma between 0 and 1, which the handler takes for 0 (sigma_violated), padded scores below operator set 11, which it refuses (padded_scores_refused); rounding. CombinedNonMaxSuppression: all numbers of images and classes, clipping, both paddings, if every score that counts is positive; with negative scores the zeros of the grid win (negative_violated)."
  },
  {
   "property": "C83",
   "status": "partial",
   "theorems": [
    "Verif.Detection.detect_converts",
    "Verif.Detection.adjusted_decode",
    "Verif.Detection.topk_best",
    "Verif.Detection.single_rows",
    "Verif.Detection.Ex.ex_detect",
    "Verif.Detection.Ex.one_detected",
    "Verif.Detection.Ex.threshold_violated"
   ],
   "note": "Regular suppression, one image: every number of boxes and classes, every encoding, anchor and scale (exp any function), scores of an ordered field. Missing: a score that is exactly the threshold, which TensorFlow Lite takes and the emitted operator does not (threshold_violated); fast suppression, which the handler announces to approximate; several images; rounding."
  },
  {
   "property": "C84",
   "status": "partial",
   "theorems": [
    "Verif.Distort.distort_allowed",
    "Verif.Distort.accepted_iff",
    "Verif.Distort.sample_fits",
    "Verif.Distort.sample_area_le",
    "Verif.Distort.sides_ok",
    "Verif.Distort.objectOk_iff",
    "Verif.Distort.between",
    "Verif.Distort.no_objects_violated",
    "Verif.Distort.Ex.ex_corner",
    "Verif.Distort.Ex.sample_corner",
    "Verif.Distort.Ex.sqrt_quarter"
   ],
   "note": "Every size, every objects, every draw in [0,1], every limit with 0 < minRatio <= maxRatio, over any ordered field with any nonnegative square root and any monotone rounding that keeps integers. Missing: known-empty objects with use_image_if_no_bounding_boxes, where the handler itself fails (no_objects_violated); the distribution of the draws, seeds, and float rounding."
  }
 ]
}