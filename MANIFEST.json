{
 "claims": [
  {
   "property": "C01",
   "status": "proved",
   "theorems": [
    "Verif.C01_as_strided_sound",
    "Verif.C01_as_strided_values",
    "Verif.C01_base_same_storage",
    "Verif.C01_base_total"
   ],
   "note": "Soundness of the index tensors for all shapes/strides/offsets, choice of storage offset, and of base tracing through views. int64 modelled as unbounded Int."
  },
  {
   "property": "C02",
   "status": "partial",
   "theorems": [
    "Verif.C02_violated",
    "Verif.C02_dense_accepted_partial",
    "Verif.C02_contiguous_accepted",
    "Verif.C02_permuted_accepted"
   ],
   "note": "False as stated (C02_violated: dense layout with equal strides next to an extent of one is rejected). Proved for contiguous bases of any extents, permuted bases with extents >= 2, and in general when equal strides appear in position order."
  },
  {
   "property": "C03",
   "status": "proved",
   "theorems": [
    "Verif.C03_attributes_preserved",
    "Verif.C03_name_fresh"
   ],
   "note": "All as_strided nodes of a graph; every previous attribute keeps its value and every generated get_attr reads its own index tensor."
  },
  {
   "property": "C04",
   "status": "proved",
   "theorems": [
    "Verif.C04_program_ssa",
    "Verif.C04_stateless_ssa",
    "Verif.C04_values_defined",
    "Verif.C04_never_rebound",
    "Verif.C04_one_value"
   ],
   "note": "For import_program and import_stateless_graph, over all graphs, hooks, schemas and signatures of the model; node results never rebound."
  },
  {
   "property": "C05",
   "status": "proved",
   "theorems": [
    "Verif.C05_at_most_once",
    "Verif.C05_unused"
   ],
   "note": "At most one literal/load per lifted input, all uses denote it; unused inputs are not materialised."
  },
  {
   "property": "C06",
   "status": "proved",
   "theorems": [
    "Verif.C06_program_operands",
    "Verif.C06_stateless_operands"
   ],
   "note": "Operands of every aten op: positional, else keyword, else default; results and result types from node metadata."
  },
  {
   "property": "C07",
   "status": "partial",
   "theorems": [
    "Verif.C07_inputs_partial",
    "Verif.C07_buffers_partial",
    "Verif.C07_other_inputs",
    "Verif.C07_other_buffers",
    "Verif.C07_violated"
   ],
   "note": "Proved when every mutation has its own single-result call as producer; unmutated inputs/buffers are never written. The code violates the property when a producer is shared or is itself an input (C07_violated)."
  },
  {
   "property": "C08",
   "status": "partial",
   "theorems": [
    "Verif.C08_second_use_violated",
    "Verif.C08_violated",
    "Verif.C08_lists_partial"
   ],
   "note": "Second use of a get_attr node in argument position always raises (C08_second_use_violated, C08_violated); uses inside lists are proved to work any number of times."
  },
  {
   "property": "C09",
   "status": "partial",
   "theorems": [
    "Verif.C09_symbols_distinct",
    "Verif.C09_same_reference",
    "Verif.C09_partial",
    "Verif.C09_violated",
    "Verif.C09_sharing_violated",
    "Verif.C09_program_violated"
   ],
   "note": "Distinct children get distinct symbols for any sequence of module imports (C09_symbols_distinct) and repeated references give the same symbol; false for names such as f_0,f,f, for a shared child renamed by MLIR's symbol table, and for a child named like the program (three *_violated witnesses). MLIR's SymbolTable.insert renaming is part of the model."
  },
  {
   "property": "C10",
   "status": "partial",
   "theorems": [
    "Verif.C10_partial",
    "Verif.C10_violated",
    "Verif.C10_bool_violated",
    "Verif.C10_shape_violated"
   ],
   "note": "Proved for histories in which tracked objects stay alive (C10_partial). False when an address is reused (C10_violated); in particular the temporary uint8 copies of two Boolean tensors may share an address while both program tensors live (C10_bool_violated)."
  },
  {
   "property": "C11",
   "status": "partial",
   "theorems": [
    "Verif.C11_own_registration",
    "Verif.C11_first_lookup_partial",
    "Verif.C11_partial",
    "Verif.C11_violated",
    "Verif.C11_order_violated",
    "Verif.C11_literal_map"
   ],
   "note": "Own registration is always found; result of look-ups characterised for all histories. False when a look-up precedes a registration (failure memoised, C11_violated) or a subclass is registered after its superclass (C11_order_violated). The literal converter map as built in the code satisfies the property (C11_literal_map)."
  },
  {
   "property": "C12",
   "status": "proved",
   "theorems": [
    "Verif.C12_program_getitem",
    "Verif.C12_stateless_getitem",
    "Verif.C12_out_of_range"
   ],
   "note": "getitem on aten calls, both multi-result and list results; out-of-range index never imports."
  },
  {
   "property": "C13",
   "status": "proved",
   "theorems": [
    "Verif.C13_value",
    "Verif.C13_defined",
    "Verif.C13_supported"
   ],
   "note": "Value preserved for every supported sympy expression under every assignment; translation fails exactly on unsupported expressions. sympy expressions abstracted to their args trees, affine floor division by the MLIR semantics."
  },
  {
   "property": "C14",
   "status": "partial",
   "theorems": [
    "Verif.C14_partial",
    "Verif.C14_stateless_partial",
    "Verif.C14_comparison_violated",
    "Verif.C14_mod_violated",
    "Verif.C14_mod_partial"
   ],
   "note": "For every run obeying the emitted operations the node's value is what Python computes, except for mod (aten.fmod: C remainder, float result; C14_mod_violated, C14_mod_partial for non-negative operands) and int<float, int>=float, int>float, whose operands are swapped without mirroring the comparison (C14_comparison_violated: always the opposite answer). Floats idealised as rationals."
  },
  {
   "property": "C15",
   "status": "proved",
   "theorems": [
    "Verif.C15_program",
    "Verif.C15_stateless",
    "Verif.C15_result_unique"
   ],
   "note": "Any condition/body functions, any number of iterations up to 2^63-1, for import_program and import_stateless_graph; the loop region is modelled and executed by a small interpreter in Spec/While. Needs as many carried values as results (see C56 for additional inputs)."
  },
  {
   "property": "C16",
   "status": "partial",
   "theorems": [
    "Verif.C16_partial",
    "Verif.C16_complete",
    "Verif.C16_violated"
   ],
   "note": "Proved for an importer used for one program (bounds are exactly the integers of the rational range, all constrained symbols present). False when the same importer imports a second program without integer ranges: guards of the first are kept (C16_violated)."
  },
  {
   "property": "C17",
   "status": "partial",
   "theorems": [
    "Verif.C17_partial",
    "Verif.C17_created",
    "Verif.C17_violated"
   ],
   "note": "Proved for tensors of any rank when distinct sympy symbols have distinct names; false for homonymous symbols (C17_violated). Also: the symbols referenced are bound before use."
  },
  {
   "property": "C18",
   "status": "partial",
   "theorems": [
    "Verif.C18_codes_distinct",
    "Verif.C18_asm",
    "Verif.C18_buffer",
    "Verif.C18_element_partial",
    "Verif.C18_element_violated",
    "Verif.C18_code_partial",
    "Verif.C18_code_violated",
    "Verif.C18_dynamo",
    "Verif.C18_importers_agree_partial",
    "Verif.C18_scalar_type",
    "Verif.C18_element_type",
    "Verif.C18_end_to_end_partial"
   ],
   "note": "Tables agree except qint8 (si8 used for several) and complex dtypes codes (complex32->9, complex64->10, complex128 missing): C18_element_violated, C18_code_violated."
  },
  {
   "property": "C19",
   "status": "proved",
   "theorems": [
    "Verif.C19_importer",
    "Verif.C19_literal",
    "Verif.C19_unambiguous",
    "Verif.C19_dtypes"
   ],
   "note": "Character-level round trip of the texts the importer writes, through the parser of the dialect; distinct types give distinct texts."
  },
  {
   "property": "C20",
   "status": "proved",
   "theorems": [
    "Verif.C20_well_formed",
    "Verif.C20_total"
   ],
   "note": "All layouts, batch/dense dimension counts and block sizes: dimension and level lists are well-formed permutations/blocks and the encoding is total on supported layouts. MLIR's own verification of the attribute is summarised in the spec."
  },
  {
   "property": "C21",
   "status": "partial",
   "theorems": [
    "Verif.C21_inputs",
    "Verif.C21_outputs",
    "Verif.C21_constant_output_violated"
   ],
   "note": "Every successful import has the right argument and return order (C21_inputs, C21_outputs); a constant output after a mutation is rejected by the code with KeyError (C21_constant_output_violated)."
  },
  {
   "property": "C22",
   "status": "partial",
   "theorems": [
    "Verif.C22_partial",
    "Verif.C22_violated",
    "Verif.C22_prerelease_violated"
   ],
   "note": "Proved for releases with major version below 10, any minor/patch/local part. False for 10.0.0 and for pre-releases (C22_violated, C22_prerelease_violated). The two gates in fx.py use PEP 440 comparison objects, not modelled."
  },
  {
   "property": "C23",
   "status": "proved",
   "theorems": [
    "Verif.C23_defined_before_use",
    "Verif.C23_rejected",
    "Verif.C23_output_rejected",
    "Verif.C23_missing_opset"
   ],
   "note": "For every graph, opset list, configuration and onnx package (schemas, bodies, shape inference and repr are parameters): all functions of a successful import are well scoped at every depth, values are defined once, undefined names give OnnxImportError. A node of a domain without opset import also fails, but with UnboundLocalError (C23_missing_opset)."
  },
  {
   "property": "C24",
   "status": "partial",
   "theorems": [
    "Verif.C24_elided_partial",
    "Verif.C24_all_partial",
    "Verif.C24_rejected",
    "Verif.C24_single_meaning",
    "Verif.C24_function_partial",
    "Verif.C24_duplicate_violated"
   ],
   "note": "Exact for inputs with distinct names; duplicate names collapse into one argument (C24_duplicate_violated). Names have a single meaning without that hypothesis."
  },
  {
   "property": "C25",
   "status": "partial",
   "theorems": [
    "Verif.C25_lexical_partial",
    "Verif.C25_shadow_violated",
    "Verif.C25_constant_violated"
   ],
   "note": "False as stated: bindings of the enclosing graph override a subgraph's own inputs (C25_shadow_violated), and a Constant without output name rebinds its tensor's name (C25_constant_violated). Proved at every depth when subgraph inputs do not reuse visible names, graph attributes and initializers have distinct names and Constants have named outputs."
  },
  {
   "property": "C26",
   "status": "proved",
   "theorems": [
    "Verif.C26_newest",
    "Verif.C26_none",
    "Verif.C26_opset"
   ],
   "note": "Newest body not newer than the opset among all schemas of the operator, given a registry whose schemas own disjoint version ranges (WellVersioned); onnx.defs.get_schema is read as documented."
  },
  {
   "property": "C27",
   "status": "partial",
   "theorems": [
    "Verif.C27_only_allowed",
    "Verif.C27_denied",
    "Verif.C27_expanded",
    "Verif.C27_main_graph",
    "Verif.C27_functions_partial",
    "Verif.C27_function_body_violated",
    "Verif.C27_not_expanded_violated"
   ],
   "note": "Exact for the model's own graph at any depth. Inside expanded bodies the default configuration is used instead of the model's (C27_function_body_violated, C27_not_expanded_violated)."
  },
  {
   "property": "C28",
   "status": "partial",
   "theorems": [
    "Verif.C28_tensor_partial",
    "Verif.C28_element",
    "Verif.C28_containers",
    "Verif.C28_initializer",
    "Verif.C28_constant",
    "Verif.C28_wrong_count",
    "Verif.C28_violated",
    "Verif.C28_others"
   ],
   "note": "All element types, ranks, dimensions and containers. An absent shape becomes rank 0 instead of unranked (C28_violated)."
  },
  {
   "property": "C29",
   "status": "partial",
   "theorems": [
    "Verif.C29_valid_partial",
    "Verif.C29_nonempty",
    "Verif.C29_unchanged_partial",
    "Verif.C29_idempotent_partial",
    "Verif.C29_violated",
    "Verif.C29_unicode_violated"
   ],
   "note": "Validity, idempotence and identity on valid names for ASCII; dots are kept (so the result may be changed again or contain non-identifier characters) and non-ASCII word characters are kept (C29_violated, C29_unicode_violated)."
  },
  {
   "property": "C30",
   "status": "partial",
   "theorems": [
    "Verif.C30_attribute_partial",
    "Verif.C30_total_partial",
    "Verif.C30_node_partial",
    "Verif.C30_nested_violated",
    "Verif.C30_graphs_violated",
    "Verif.C30_no_inputs_violated"
   ],
   "note": "Exact at the node's own level for every attribute list. References inside subgraph attributes stay (C30_nested_violated), attributes with lists of graphs raise NameError (C30_graphs_violated), calls without inputs raise UnboundLocalError (C30_no_inputs_violated)."
  },
  {
   "property": "C31",
   "status": "proved",
   "theorems": [
    "Verif.C31_rule",
    "Verif.C31_exists",
    "Verif.C31_order",
    "Verif.C31_grouping",
    "Verif.C31_least",
    "Verif.C31_tensors",
    "Verif.C31_tensors_order",
    "Verif.C31_ternary"
   ],
   "note": "Rule, existence, order, grouping, the three-operand functions and broadcast_tensors."
  },
  {
   "property": "C32",
   "status": "partial",
   "theorems": [
    "Verif.C32_slice",
    "Verif.C32_slice_down",
    "Verif.C32_violated",
    "Verif.C32_missing_violated",
    "Verif.C32_narrow_partial",
    "Verif.C32_narrow_violated"
   ],
   "note": "Exact sizes for every slice with a positive step and explicit bounds, and for every negative step with explicit bounds. The code disagrees for start = INT64_MAX, for missing bounds with a negative step, and narrow accepts out-of-range starts: each is a _violated theorem with a witness."
  },
  {
   "property": "C33",
   "status": "partial",
   "theorems": [
    "Verif.C33_view",
    "Verif.C33_view_numel",
    "Verif.C33_view_back",
    "Verif.C33_flatten",
    "Verif.C33_collapse",
    "Verif.C33_unflatten_partial",
    "Verif.C33_unflatten_violated",
    "Verif.C33_flatten_unflatten",
    "Verif.C33_split_dim",
    "Verif.C33_pixel_shuffle",
    "Verif.C33_unsafe_view_violated",
    "Verif.C33_unsafe_view_partial"
   ],
   "note": "view, flatten, collapse, split_dim and pixel_(un)shuffle characterised completely; unflatten for dims in range (a dim below -rank is accepted: C33_unflatten_violated); _unsafe_view returns the requested sizes unchecked (C33_unsafe_view_violated)."
  },
  {
   "property": "C34",
   "status": "partial",
   "theorems": [
    "Verif.C34_conv",
    "Verif.C34_convolution_partial",
    "Verif.C34_conv_unchecked_violated",
    "Verif.C34_conv_tbc_violated",
    "Verif.C34_transposed",
    "Verif.C34_conv_transpose2d",
    "Verif.C34_pool",
    "Verif.C34_padding_violated",
    "Verif.C34_max_pool2d",
    "Verif.C34_avg_pool2d",
    "Verif.C34_max_pool3d_partial",
    "Verif.C34_avg_pool3d_partial",
    "Verif.C34_stride_violated",
    "Verif.C34_pool1d_partial",
    "Verif.C34_unchecked_violated",
    "Verif.C34_dilation_violated"
   ],
   "note": "Exact for max_pool2d, avg_pool2d, conv2d, conv3d and transposed convolutions; 3-d pooling when the stride is given; pool1d and convolution when the window fits. The code disagrees elsewhere (default 3-d stride, ignored 1-d dilation, unchecked 1-d and convolution sizes, conv_tbc): _violated theorems."
  },
  {
   "property": "C35",
   "status": "partial",
   "theorems": [
    "Verif.C35_same_partial",
    "Verif.C35_conv1d_partial",
    "Verif.C35_even_kernel_violated",
    "Verif.C35_dilation_violated",
    "Verif.C35_valid"
   ],
   "note": "Sizes kept for palindromic dilations and even extents; odd extents shrink by one and unequal dilations are paired in the wrong order: _violated theorems."
  },
  {
   "property": "C36",
   "status": "proved",
   "theorems": [
    "Verif.C36_tril",
    "Verif.C36_triu"
   ],
   "note": "Counted over all rows, columns and offsets."
  },
  {
   "property": "C37",
   "status": "partial",
   "theorems": [
    "Verif.C37_index",
    "Verif.C37_violated",
    "Verif.C37_gaps_violated"
   ],
   "note": "Exact for every pattern with at least one index tensor; with gaps only the code repeats the last dimension: C37_violated, C37_gaps_violated."
  },
  {
   "property": "C38",
   "status": "partial",
   "theorems": [
    "Verif.C38_permute",
    "Verif.C38_transpose",
    "Verif.C38_transpose_twice",
    "Verif.C38_numpy_T",
    "Verif.C38_permutation",
    "Verif.C38_movedim",
    "Verif.C38_movedim_only",
    "Verif.C38_movedim_violated",
    "Verif.C38_t_violated",
    "Verif.C38_t_partial"
   ],
   "note": "permute and transpose characterised completely; movedim characterised for valid lists and always a permutation; movedim accepts repeated destinations (C38_movedim_violated) and aten.t is defined for the wrong ranks (C38_t_violated)."
  },
  {
   "property": "C39",
   "status": "partial",
   "theorems": [
    "Verif.C39_sum_mean",
    "Verif.C39_argmax_all",
    "Verif.C39_one_dim",
    "Verif.C39_ops",
    "Verif.C39_rank_zero_partial",
    "Verif.C39_rank_zero_violated",
    "Verif.C39_count_nonzero_violated",
    "Verif.C39_count_nonzero_partial"
   ],
   "note": "The reduced shape for every op of the table of 37, all dims arguments; rank-0 tensors accept any dim (C39_rank_zero_violated), count_nonzero of a rank-0 tensor raises (C39_count_nonzero_violated). Not modelled: count_nonzero.dim_IntList, norm.Scalar, duplicate dims."
  },
  {
   "property": "C40",
   "status": "proved",
   "theorems": [
    "Verif.C40_cat",
    "Verif.C40_stack",
    "Verif.C40_cat_order",
    "Verif.C40_hstack",
    "Verif.C40_column_stack"
   ],
   "note": "cat (any order of inputs, legacy empty tensors), stack, hstack, column_stack."
  },
  {
   "property": "C41",
   "status": "partial",
   "theorems": [
    "Verif.C41_mm",
    "Verif.C41_bmm",
    "Verif.C41_mv",
    "Verif.C41_matmul_small",
    "Verif.C41_matmul_partial",
    "Verif.C41_matmul_complete",
    "Verif.C41_matmul_violated",
    "Verif.C41_linear_small",
    "Verif.C41_linear_partial",
    "Verif.C41_linear_violated",
    "Verif.C41_addmm_partial",
    "Verif.C41_addmm_violated",
    "Verif.C41_addbmm",
    "Verif.C41_baddbmm_partial",
    "Verif.C41_baddbmm_violated",
    "Verif.C41_dot_violated",
    "Verif.C41_dot_partial",
    "Verif.C41_outer",
    "Verif.C41_bilinear"
   ],
   "note": "mm, bmm, mv, outer, bilinear, matmul and linear up to rank two characterised completely; batched matmul and linear do not compare the inner sizes (C41_matmul_violated, C41_linear_violated); addmm broadcasts instead of expanding, baddbmm ignores self, dot is unchecked (violations proved)."
  },
  {
   "property": "C42",
   "status": "partial",
   "theorems": [
    "Verif.C42_wrap_partial",
    "Verif.C42_except_last_partial",
    "Verif.C42_cosine_violated",
    "Verif.C42_repeat_interleave_violated",
    "Verif.C42_diag_embed_violated",
    "Verif.C42_diag_embed_partial",
    "Verif.C42_lists",
    "Verif.C42_cat",
    "Verif.C42_stack"
   ],
   "note": "Wrapping proved for 23 dimension-taking shape functions, lists of dims, cat and stack. cosine_similarity, repeat_interleave and diag_embed treat some negative dims wrongly: _violated theorems."
  },
  {
   "property": "C43",
   "status": "partial",
   "theorems": [
    "Verif.C43_partial",
    "Verif.C43_first_partial",
    "Verif.C43_violated"
   ],
   "note": "Proved for 38 of the 45 binary operations in the table; the other seven return the first operand's shape (C43_violated), right only when the second operand expands to the first."
  },
  {
   "property": "C44",
   "status": "partial",
   "theorems": [
    "Verif.C44_violated",
    "Verif.C44_order_independent_partial",
    "Verif.C44_permutation_partial"
   ],
   "note": "False with complex32 and 8-/4-bit floats (C44_violated). Proved for all operand lists over bool/integer/IEEE/bfloat16/complex64/complex128 dtypes: result depends only on the set of operands."
  },
  {
   "property": "C45",
   "status": "partial",
   "theorems": [
    "Verif.C45_violated",
    "Verif.C45_least_upper_bound_partial",
    "Verif.C45_single_dtype_partial",
    "Verif.C45_category_partial",
    "Verif.C45_weak_scalar_partial"
   ],
   "note": "False for 8-/4-bit floats (C45_violated). Proved for standard dtypes: the least dtype each operand category fits, priority of categories, scalars weak."
  },
  {
   "property": "C46",
   "status": "partial",
   "theorems": [
    "Verif.C46_reflexive",
    "Verif.C46_transitive",
    "Verif.C46_violated",
    "Verif.C46_sound_partial",
    "Verif.C46_tensor_exact_partial",
    "Verif.C46_widening"
   ],
   "note": "Reflexivity, transitivity and acceptance of the expected widenings proved for all types; soundness proved leaving storage layout aside (false for sparse encodings, C46_violated); on tensors the check is exact."
  },
  {
   "property": "C47",
   "status": "partial",
   "theorems": [
    "Verif.C47_violated",
    "Verif.C47_meet_is_intersection_partial",
    "Verif.C47_greatest_lower_bound_partial",
    "Verif.C47_fails_iff_disjoint_partial",
    "Verif.C47_commutative_partial",
    "Verif.C47_associative_partial",
    "Verif.C47_idempotent_partial",
    "Verif.C47_keeps_valueness_partial"
   ],
   "note": "False for two mutable tensors without sizes and for sparse encodings (C47_violated). Otherwise: intersection, greatest lower bound w.r.t. the subtype check, failure iff disjoint, commutative, associative, idempotent, value-ness kept."
  },
  {
   "property": "C48",
   "status": "partial",
   "theorems": [
    "Verif.C48_value_partial",
    "Verif.C48_common_calls_partial",
    "Verif.C48_pass_partial",
    "Verif.C48_error_fails",
    "Verif.C48_violated_negative",
    "Verif.C48_violated_nan",
    "Verif.C48_violated_infinite",
    "Verif.C48_violated_truncated",
    "Verif.C48_violated_zero"
   ],
   "note": "ValueReport and the trace reports are modelled. Proved: a value comparison passes exactly if the specification accepts it, for goldens that are finite non-zero non-negative floats without NaN values; tensor comparison is a parameter. Disagreements proved: a negative golden float never fails, NaN and infinite goldens always pass, a zero golden raises, traces of different length are truncated by zip."
  },
  {
   "property": "C49",
   "status": "proved",
   "theorems": [
    "Verif.C49_flag",
    "Verif.C49_verdicts",
    "Verif.C49_entries",
    "Verif.C49_totals",
    "Verif.C49_exit",
    "Verif.C49_exit_nothing"
   ],
   "note": "Verdict of each test, the entry of the summary it lands in, the totals and the exit code, for all results and expected-failure sets, given that making the reports does not raise."
  },
  {
   "property": "C50",
   "status": "partial",
   "theorems": [
    "Verif.C50_names",
    "Verif.C50_names_injective",
    "Verif.C50_last_partial",
    "Verif.C50_one_signature_partial",
    "Verif.C50_violated_two_signatures",
    "Verif.C50_violated_large_int",
    "Verif.C50_violated_bf16",
    "Verif.C50_violated_no_results"
   ],
   "note": "Names of return callbacks are injective in the signature and the callback for the last function's signature converts as the spec says. Disagreements proved: all callbacks share the last function's types, i64 results above 2^31, bf16, functions without results."
  },
  {
   "property": "C51",
   "status": "partial",
   "theorems": [
    "Verif.C51_op_name_partial",
    "Verif.C51_qualified_partial",
    "Verif.C51_op_name_atoms",
    "Verif.C51_violated",
    "Verif.C51_class_name",
    "Verif.C51_class_name_collision",
    "Verif.C51_unique_key_partial"
   ],
   "note": "Op names are injective for operators whose namespace and name have no dots; class names are identifiers without leading underscore ending in Op; unique keys are injective. Disagreement proved: with dots two operators share an op name. Class names can collide."
  },
  {
   "property": "C52",
   "status": "partial",
   "theorems": [
    "Verif.C52_arguments_partial",
    "Verif.C52_when_wrong",
    "Verif.C52_accepted",
    "Verif.C52_violated"
   ],
   "note": "The choice of the argument for each schema parameter: right for valid calls that use keywords only for keyword-only parameters; an exact characterisation of when it is wrong; accepted graphs always have a value for each parameter. Disagreement proved: an ordinary parameter passed by keyword silently gets its default."
  },
  {
   "property": "C53",
   "status": "partial",
   "theorems": [
    "Verif.C53_like_partial",
    "Verif.C53_annotation",
    "Verif.C53_methods",
    "Verif.C53_tracing_partial",
    "Verif.C53_refused",
    "Verif.C53_violated_negative",
    "Verif.C53_violated_rank0"
   ],
   "note": "TensorPlaceholder.like, annotation and tracing arguments. Proved for axes that do not count from the end, and tracing of rank at least 1. Disagreements proved: negative axes are ignored; a rank-0 placeholder is traced with an int64 tensor whatever its dtype."
  },
  {
   "property": "C54",
   "status": "partial",
   "theorems": [
    "Verif.C54_restored",
    "Verif.C54_import_restored",
    "Verif.C54_compile_restored",
    "Verif.C54_success",
    "Verif.C54_reported_partial",
    "Verif.C54_import_reported",
    "Verif.C54_violated_unbound",
    "Verif.C54_violated_stream"
   ],
   "note": "Steps are arbitrary functions on a world containing sys.stderr. Restoration is proved on every path of run_pipeline_with_repro_report, the import, and compile; reporting exactly when a step fails, if printing the module and writing the file work and steps leave stderr alone. Disagreements proved: a failing get_asm gives UnboundLocalError; a replaced stream gives AttributeError."
  },
  {
   "property": "C55",
   "status": "partial",
   "theorems": [
    "Verif.C55_violated",
    "Verif.C55_two_operands_partial",
    "Verif.C55_same_category_partial"
   ],
   "note": "False for three operands (C55_violated). Proved for any pair, and for any number of tensors of one rank category followed by any number of scalars."
  },
  {
   "property": "C56",
   "status": "partial",
   "theorems": [
    "Verif.C56_violated",
    "Verif.C56_partial"
   ],
   "note": "False with additional inputs: the emitted loop has more initial values than results and can never be executed (C56_violated). Without additional inputs C15 applies (C56_partial)."
  },
  {
   "property": "C57",
   "status": "partial",
   "theorems": [
    "Verif.C57_partial",
    "Verif.C57_violated"
   ],
   "note": "False when neither sizes nor dtype are known but an encoding is present (C57_violated). Proved otherwise, parametric in the printer/parser of encodings and unusual element types."
  },
  {
   "property": "C58",
   "status": "partial",
   "theorems": [
    "Verif.C58_partial",
    "Verif.C58_violated"
   ],
   "note": "Proved for BSR; false for BSC with non-square blocks (C58_violated)."
  },
  {
   "property": "C59",
   "status": "partial",
   "theorems": [
    "Verif.C59_expand",
    "Verif.C59_repeat",
    "Verif.C59_tile",
    "Verif.C59_expand_as_partial",
    "Verif.C59_expand_as_violated",
    "Verif.C59_negative_violated"
   ],
   "note": "expand, repeat and tile characterised completely; expand_as checks nothing (C59_expand_as_violated); expand accepts negative sizes for a dimension of size one (C59_negative_violated)."
  },
  {
   "property": "C60",
   "status": "partial",
   "theorems": [
    "Verif.C60_diagonal",
    "Verif.C60_diag_embed_partial",
    "Verif.C60_violated",
    "Verif.C60_back"
   ],
   "note": "diagonal proved in full; diag_embed compares its dims before wrapping them, so equal dims written with different signs are accepted: C60_violated."
  },
  {
   "property": "C61",
   "status": "proved",
   "theorems": [
    "Verif.C61_unsqueeze",
    "Verif.C61_squeeze",
    "Verif.C61_back",
    "Verif.C61_squeeze_all",
    "Verif.C61_select",
    "Verif.C61_embedding"
   ],
   "note": "unsqueeze, squeeze (both forms), select and embedding."
  },
  {
   "property": "C62",
   "status": "partial",
   "theorems": [
    "Verif.C62_unfold_partial",
    "Verif.C62_unfold_violated",
    "Verif.C62_stft",
    "Verif.C62_stft_center_partial",
    "Verif.C62_stft_center_violated"
   ],
   "note": "stft proved; unfold only for positive steps (the code accepts others, C62_unfold_violated) and stft.center for even n_fft (C62_stft_center_violated otherwise)."
  },
  {
   "property": "C63",
   "status": "proved",
   "theorems": [
    "Verif.C63_calls_resolve"
   ],
   "note": "Follows from the whole-model induction; uniqueness of symbol names is not claimed."
  },
  {
   "property": "C64",
   "status": "partial",
   "theorems": [
    "Verif.C64_carried",
    "Verif.C64_scalar",
    "Verif.C64_rejected",
    "Verif.C64_opset_violated",
    "Verif.C64_opset_partial"
   ],
   "note": "Attributes exact for distinct names. With two imports of the default domain the recorded opset is the last, the one used is the first (C64_opset_violated)."
  },
  {
   "property": "C65",
   "status": "partial",
   "theorems": [
    "Verif.C65_round_trip_partial",
    "Verif.C65_names_differ_partial",
    "Verif.C65_unknown_rejected",
    "Verif.C65_violated"
   ],
   "note": "Round trip of library function names through the check of library_generator.py, for names without the three separator characters; unknown names rejected; violated for names with dots."
  },
  {
   "property": "C66",
   "status": "proved",
   "theorems": [
    "Verif.C66_value_semantics",
    "Verif.C66_read_only",
    "Verif.C66_implies_read_only"
   ],
   "note": "Traits derived from the alias information, exactly, for all signatures."
  },
  {
   "property": "C67",
   "status": "partial",
   "theorems": [
    "Verif.C67_meaning_partial",
    "Verif.C67_violated_integer",
    "Verif.C67_violated_item",
    "Verif.C67_violated_device"
   ],
   "note": "Meaning preservation over arbitrary interpretations, for all graphs whose calls are valid, whose keywords are for keyword-only parameters, whose literals need no conversion and whose getitem nodes take items of multi-result nodes. Disagreements proved: integer literals for float parameters, items of tensors, device indices."
  },
  {
   "property": "C68",
   "status": "proved",
   "theorems": [
    "Verif.C68_names",
    "Verif.C68_rejected",
    "Verif.C68_values"
   ],
   "note": "For all ASCII-cased strings (upper of non-ASCII letters is not modelled)."
  },
  {
   "property": "C69",
   "status": "proved",
   "theorems": [
    "Verif.C69_meaning",
    "Verif.C69_owned",
    "Verif.C69_well_formed",
    "Verif.C69_applies"
   ],
   "note": "One application of the pattern within a block. Of types only value/non-value is kept; regions say which memory unknown operations can reach, and C69_owned shows that the copy can be given its own region whenever the pattern applies."
  },
  {
   "property": "C70",
   "status": "partial",
   "theorems": [
    "Verif.C70_meaning_partial",
    "Verif.C70_violated",
    "Verif.C70_violated_types"
   ],
   "note": "Violated: a view of another tensor that only takes the shape of the copy (expand_as) is converted too, and an overwrite of that tensor is missed; returning the copy itself, or a read next to the view it reads, changes the kind of what is returned. The positive theorem covers one block in which every view of a derived tensor views it as its first operand; blocks with several regions are not modelled."
  },
  {
   "property": "C71",
   "status": "partial",
   "theorems": [
    "Verif.C71_add",
    "Verif.C71_sub",
    "Verif.C71_mul",
    "Verif.C71_neg",
    "Verif.C71_min_max",
    "Verif.C71_derive_index",
    "Verif.C71_remainder_partial",
    "Verif.C71_remainder_violated",
    "Verif.C71_floordiv_partial",
    "Verif.C71_double_rounding",
    "Verif.C71_floordiv_violated",
    "Verif.C71_range_length_partial",
    "Verif.C71_range_length_violated",
    "Verif.C71_div_float_partial",
    "Verif.C71_div_float_violated"
   ],
   "note": "Proved in full for add, sub, mul, neg, min, max and derive_index (executions in which the operator does not overflow). Violated by remainder (signs), floordiv (beyond 2^53, divisor 0), range_length (empty ranges) and div.float (0.0 divided by 0 or NaN); positive theorems with the excluding hypothesis for these."
  },
  {
   "property": "C72",
   "status": "partial",
   "theorems": [
    "Verif.C72_compare",
    "Verif.C72_compare_zero",
    "Verif.C72_compare_float_partial",
    "Verif.C72_compare_float_violated",
    "Verif.C72_bool",
    "Verif.C72_bool_int",
    "Verif.C72_is_partial",
    "Verif.C72_is_violated"
   ],
   "note": "Proved in full for integer comparisons and boolean operators. Float comparisons of a value with itself are violated by NaN; identity tests by types that may or may not be None."
  },
  {
   "property": "C73",
   "status": "partial",
   "theorems": [
    "Verif.C73_mul",
    "Verif.C73_floordiv_partial",
    "Verif.C73_floordiv_violated"
   ],
   "note": "mul.int proved in full; floordiv.int is proved when the constant does not divide by the product it is a factor of, and violated otherwise."
  },
  {
   "property": "C74",
   "status": "partial",
   "theorems": [
    "Verif.C74_len",
    "Verif.C74_get",
    "Verif.C74_get_applies",
    "Verif.C74_contains",
    "Verif.C74_any",
    "Verif.C74_all",
    "Verif.C74_all_applies",
    "Verif.C74_concat",
    "Verif.C74_repeat",
    "Verif.C74_slice_partial",
    "Verif.C74_slice_violated",
    "Verif.C74_eq_partial",
    "Verif.C74_eq_violated",
    "Verif.C74_min_partial",
    "Verif.C74_min_violated"
   ],
   "note": "Contents of literals nothing mutates are an assumption about executions (aliases through other containers are outside the model). Slices: positive step and a list that is not empty, violated otherwise. eq and min: only for lists that are not mutated, violated otherwise. Sorting is not modelled."
  },
  {
   "property": "C76",
   "status": "partial",
   "theorems": [
    "Verif.C76_preserves_partial",
    "Verif.C76_well_formed_partial",
    "Verif.C76_defined_partial",
    "Verif.C76_applies",
    "Verif.C76_used_kept",
    "Verif.C76_unknown_violated",
    "Verif.C76_nested_violated"
   ],
   "note": "Holds for lists that are not put into other lists and, for definedness, if no mutation the pattern does not understand comes before an append/insert/item assignment in the block. Otherwise C76_nested_violated (the list's name is replaced by a literal made later: the block is not well formed) and C76_unknown_violated (the vector of literals is read past its end). Aliases of the list through tuples or function calls, and users in nested regions beyond their enclosing operation, are not modelled."
  },
  {
   "property": "C77",
   "status": "partial",
   "theorems": [
    "Verif.C77_preserves_partial",
    "Verif.C77_well_formed",
    "Verif.C77_undef_iff",
    "Verif.C77_applies",
    "Verif.C77_condition_violated",
    "Verif.C77_undef_violated"
   ],
   "note": "Holds for loops whose condition stays true and, for progress, which yield only values of their own and have no negative trip count (C77_undef_iff is an exact characterisation). Otherwise C77_condition_violated (isForLike looks only at the initial condition, so a loop that stops early is unrolled to its full trip count) and C77_undef_violated (bvm.lookup of a value defined outside the loop; negative trip count). Operations with regions are represented by the names they use from outside."
  },
  {
   "property": "C75",
   "status": "partial",
   "theorems": [
    "Verif.C75_slice_partial",
    "Verif.C75_defined_iff_partial",
    "Verif.C75_folds_partial",
    "Verif.C75_select_partial",
    "Verif.C75_select_defined_partial",
    "Verif.C75_violated_endless",
    "Verif.C75_violated_last_element",
    "Verif.C75_violated_select_negative"
   ],
   "note": "What is folded is right for every rank, bound and step (C75_slice_partial, C75_select_partial). The code does not always end or read inside of the constant: upwards it is defined just if the step divides twice the distance (C75_defined_iff_partial), so 0:10:3, the example of its comment, never ends; downwards by a step that does not divide, the last element is lost and an error reported; select with a negative index reads in front of the constant (C75_violated_*)."
  },
  {
   "property": "C78",
   "status": "partial",
   "theorems": [
    "Verif.C78_sort",
    "Verif.C78_permutation",
    "Verif.C78_frame",
    "Verif.C78_aten_partial",
    "Verif.C78_aten_defined",
    "Verif.C78_violated_unsigned",
    "Verif.C78_violated_bool",
    "Verif.C78_violated_nan"
   ],
   "note": "The sort of buffers is proved for every comparison that is an order, permutation and frame for every region; aten.sort for floats without NaN and signed integers. Unsigned dtypes, bool and NaN violate it (C78_violated_*)."
  },
  {
   "property": "C79",
   "status": "partial",
   "theorems": [
    "Verif.C79_scan",
    "Verif.C79_accumulator_partial",
    "Verif.C79_violated_accumulator",
    "Verif.C79_frame",
    "Verif.C79_aten_defined",
    "Verif.C79_aten",
    "Verif.C79_cumsum",
    "Verif.C79_cumprod"
   ],
   "note": "Proved; the accumulator only for two or more elements, an inclusive scan over one does not write it (C79_violated_accumulator)."
  },
  {
   "property": "C80",
   "status": "partial",
   "theorems": [
    "Verif.C80_scatter",
    "Verif.C80_out_of_range",
    "Verif.C80_verified_partial",
    "Verif.C80_verified_map",
    "Verif.C80_violated_dim_map",
    "Verif.C80_src_partial",
    "Verif.C80_add_partial",
    "Verif.C80_violated_negative_dim"
   ],
   "note": "tm_tensor.scatter proved in general; the verifier's guarantee for indices of the first dimensions, other maps violate it (C80_violated_dim_map); aten.scatter.src and scatter_add for dimensions that are not negative (C80_violated_negative_dim)."
  },
  {
   "property": "C81",
   "status": "partial",
   "theorems": [
    "Verif.C81_topk",
    "Verif.C81_kth_partial",
    "Verif.C81_defined",
    "Verif.C81_violated_unsigned",
    "Verif.C81_violated_bool",
    "Verif.C81_violated_nan",
    "Verif.C81_violated_tie"
   ],
   "note": "tm_tensor.topk for regions in which different elements compare (C81_violated_tie otherwise); kthvalue for signed integers and floats without NaN and with one zero; unsigned dtypes, bool and NaN violate it (C81_violated_*)."
  },
  {
   "property": "C82",
   "status": "partial",
   "theorems": [
    "Verif.C82_inline_partial",
    "Verif.C82_applies",
    "Verif.C82_walk_partial",
    "Verif.C82_violated_order",
    "Verif.C82_violated_branch",
    "Verif.C82_violated_return"
   ],
   "note": "Equality of everything seen is proved for modules whose functions neither return objects of slots nor let them leave branches; without this the code violates it (prim.If.yield and func.return count as reading only): two witnesses. Where a slot is defined after its uses the first walk forgets them: witness. C82_applies says which slots are inlined. Calls between functions and loops are not in the model."
  },
  {
   "property": "C83",
   "status": "partial",
   "theorems": [
    "Verif.C83_convert_partial",
    "Verif.C83_environment_partial",
    "Verif.C83_violated_condition",
    "Verif.C83_violated_trip",
    "Verif.C83_violated_induction"
   ],
   "note": "Proved for programs without early exit from for-like loops, with while-like loops of constant, unreachable trip count and unused induction variable, at any nesting. Without these the code violates the property (three theorems with witnesses)."
  },
  {
   "property": "C84",
   "status": "partial",
   "theorems": [
    "Verif.C84_slice_partial",
    "Verif.C84_slice_down_partial",
    "Verif.C84_scatter_partial",
    "Verif.C84_rejects",
    "Verif.C84_violated_start",
    "Verif.C84_violated_empty",
    "Verif.C84_violated_default",
    "Verif.C84_violated_step"
   ],
   "note": "Positive steps: all bounds, no overflow of step plus size. Negative steps: given bounds and a start before the end of the dimension; the code violates the property otherwise (C84_violated_start, _empty, _default, _step)."
  },
  {
   "property": "C85",
   "status": "partial",
   "theorems": [
    "Verif.C85_pad1d_partial",
    "Verif.C85_pad2d_partial",
    "Verif.C85_rejects",
    "Verif.C85_violated_assertion",
    "Verif.C85_violated_1d"
   ],
   "note": "Proved for all paddings PyTorch accepts. Paddings it rejects are not all rejected: C85_violated_assertion (padding equal to the size), C85_violated_1d (nothing checked)."
  },
  {
   "property": "C86",
   "status": "partial",
   "theorems": [
    "Verif.C86_diagonal",
    "Verif.C86_diag_embed_partial",
    "Verif.C86_unfold",
    "Verif.C86_rejects",
    "Verif.C86_violated_embed",
    "Verif.C86_violated_scalar"
   ],
   "note": "Proved but for diag_embed with an offset of a tensor with an empty last dimension, which reads from outside (C86_violated_embed), and the size of windows of scalars, which is not checked (C86_violated_scalar)."
  },
  {
   "property": "C87",
   "status": "partial",
   "theorems": [
    "Verif.C87_flip_partial",
    "Verif.C87_permute",
    "Verif.C87_permute_rejects",
    "Verif.C87_transpose",
    "Verif.C87_cat_partial",
    "Verif.C87_violated_flip",
    "Verif.C87_violated_empty",
    "Verif.C87_violated_dynamic"
   ],
   "note": "permute and transpose proved for all inputs. flip: dimensions named once (C87_violated_flip). cat: at least one operand not known to be empty, operands of size [0] known to be (C87_violated_empty, C87_violated_dynamic: the op made does not verify)."
  },
  {
   "property": "C88",
   "status": "partial",
   "theorems": [
    "Verif.C88_broadcast_to_partial",
    "Verif.C88_copy_partial",
    "Verif.C88_rejects",
    "Verif.C88_elementwise",
    "Verif.C88_elementwise_defined_partial",
    "Verif.C88_violated_copy",
    "Verif.C88_violated_keep",
    "Verif.C88_violated_elementwise"
   ],
   "note": "Soundness of elementwise operations for all operands. Missing because the code does it differently: dynamic dimensions of size one in aten.copy (C88_violated_copy) and elementwise operations (C88_violated_elementwise, an assertion fails), -1 as a size known at run time only (C88_violated_keep, an assertion fails)."
  },
  {
   "property": "C89",
   "status": "partial",
   "theorems": [
    "Verif.C89_view_sound",
    "Verif.C89_view_partial",
    "Verif.C89_view_dynamic_partial",
    "Verif.C89_reshape_sound",
    "Verif.C89_reshape_partial",
    "Verif.C89_flatten",
    "Verif.C89_violated_empty",
    "Verif.C89_violated_empty_dynamic",
    "Verif.C89_violated_overflow",
    "Verif.C89_violated_wrong",
    "Verif.C89_violated_invalid",
    "Verif.C89_violated_aborts",
    "Verif.C89_violated_scalar",
    "Verif.C89_violated_reshape_zero"
   ],
   "note": "Soundness holds for all inputs; flatten is complete. Missing because the code does otherwise: empty tensors (C89_violated_empty, C89_violated_empty_dynamic: the compiler divides by zero), 2^31 elements or more (C89_violated_overflow), two unknown sizes of the input (C89_violated_wrong, C89_violated_invalid, C89_violated_aborts), unknown sizes viewed as a scalar (C89_violated_scalar), sizes of zero in the fallback (C89_violated_reshape_zero). Completeness is not proved for sizes read from the input (ViewSize.sizeOf)."
  },
  {
   "property": "C90",
   "status": "partial",
   "theorems": [
    "Verif.C90_unsqueeze",
    "Verif.C90_squeeze_dim_partial",
    "Verif.C90_squeeze_dim_other_partial",
    "Verif.C90_squeeze_dim_sound",
    "Verif.C90_squeeze_known",
    "Verif.C90_squeeze_partial",
    "Verif.C90_squeeze_sound",
    "Verif.C90_unflatten_partial",
    "Verif.C90_unflatten_sound",
    "Verif.C90_violated_squeeze_dim_known",
    "Verif.C90_violated_squeeze_dim_scalar",
    "Verif.C90_violated_squeeze_dim_aborts",
    "Verif.C90_violated_squeeze",
    "Verif.C90_violated_squeeze_wrong",
    "Verif.C90_violated_squeeze_scalar",
    "Verif.C90_violated_unflatten",
    "Verif.C90_violated_unflatten_other",
    "Verif.C90_violated_unflatten_infer",
    "Verif.C90_violated_unflatten_zero"
   ],
   "note": "unsqueeze for all inputs; squeeze.dim, squeeze and unflatten sound for all types and complete under conditions on what is known of the sizes, with a violation for each condition"
  },
  {
   "property": "C91",
   "status": "partial",
   "theorems": [
    "Verif.C91_fliplr",
    "Verif.C91_flipud",
    "Verif.C91_select",
    "Verif.C91_split",
    "Verif.C91_narrow_partial",
    "Verif.C91_violated_narrow",
    "Verif.C91_roll_partial",
    "Verif.C91_roll_far",
    "Verif.C91_stack",
    "Verif.C91_hstack_partial",
    "Verif.C91_violated_hstack",
    "Verif.C91_t",
    "Verif.C91_numpy_T",
    "Verif.C91_movedim",
    "Verif.C91_rot90",
    "Verif.C91_select_scatter_partial",
    "Verif.C91_violated_select_scatter",
    "Verif.C91_prims_squeeze",
    "Verif.C91_atleast_1d",
    "Verif.C91_atleast_2d",
    "Verif.C91_violated_roll_far",
    "Verif.C91_violated_roll_flat"
   ],
   "note": "all operators listed for all inputs, except narrow, roll, hstack and select_scatter, which the code gets wrong for some arguments: proved outside of these, with a violation for each"
  },
  {
   "property": "C92",
   "status": "partial",
   "theorems": [
    "Verif.C92_pixel_shuffle",
    "Verif.C92_pixel_unshuffle",
    "Verif.C92_pixel_roundtrip",
    "Verif.C92_channel_shuffle_other",
    "Verif.C92_channel_shuffle_partial",
    "Verif.C92_channel_shuffle_lowered",
    "Verif.C92_violated_channel_shuffle",
    "Verif.C92_repeat",
    "Verif.C92_tile",
    "Verif.C92_repeat_interleave",
    "Verif.C92_repeat_interleave_all"
   ],
   "note": "all operators listed for all inputs, except channel_shuffle, which the code gets wrong: proved to be the shuffle with the other number of groups, and right if the lowering ignores the argument"
  },
  {
   "property": "C93",
   "status": "partial",
   "theorems": [
    "Verif.C93_sizes",
    "Verif.C93_pool",
    "Verif.C93_max",
    "Verif.C93_index_partial",
    "Verif.C93_violated_index_nan",
    "Verif.C93_violated_index_low",
    "Verif.C93_average_partial",
    "Verif.C93_average_given",
    "Verif.C93_violated_average",
    "Verif.C93_adaptive_average",
    "Verif.C93_adaptive_max",
    "Verif.C93_adaptive_index_partial",
    "Verif.C93_violated_adaptive_index",
    "Verif.C93_violated_adaptive_nan"
   ],
   "note": "sizes, elements and maxima for all inputs; indices unless the maximum is NaN or as low as the padding, average divisors unless paddings before and after differ while positions in the padding are counted with a dilation or ceil mode, adaptive indices unless the maximum is as low as the padding: the exceptions are violations, proved by witnesses"
  },
  {
   "property": "C94",
   "status": "partial",
   "theorems": [
    "Verif.C94_gather",
    "Verif.C94_embedding",
    "Verif.C94_bag_partial",
    "Verif.C94_bag_refuses",
    "Verif.C94_violated_bag_padding",
    "Verif.C94_violated_bag_weights",
    "Verif.C94_index_select",
    "Verif.C94_index_partial",
    "Verif.C94_index_asserts",
    "Verif.C94_index_static",
    "Verif.C94_violated_index",
    "Verif.C94_upsample_partial",
    "Verif.C94_upsample_exact",
    "Verif.C94_violated_upsample",
    "Verif.C94_violated_downsample",
    "Verif.C94_upsample_backward_partial",
    "Verif.C94_violated_upsample_backward"
   ],
   "note": "gather, embedding, index_select for all valid indices; indexing with tensors whenever the pattern matches, unless a dimension of unknown size is broadcast; bags without padding index and sample weights; resizing by whole numbers, and without given scales exactly where rounding the scale up makes no difference: the exceptions are violations, proved by witnesses"
  },
  {
   "property": "C95",
   "status": "partial",
   "theorems": [
    "Verif.C95_reduce",
    "Verif.C95_lane",
    "Verif.C95_sum_partial",
    "Verif.C95_prod_partial",
    "Verif.C95_violated_sum",
    "Verif.C95_crashes",
    "Verif.C95_truth_partial",
    "Verif.C95_violated_truth",
    "Verif.C95_max_partial",
    "Verif.C95_violated_max",
    "Verif.C95_max_dim",
    "Verif.C95_max_dim_float_partial",
    "Verif.C95_violated_max_dim",
    "Verif.C95_norm",
    "Verif.C95_violated_norm",
    "Verif.C95_prims_prod_sound",
    "Verif.C95_prims_prod_partial",
    "Verif.C95_violated_prims_prod"
   ],
   "note": "All reductions: sizes, lanes, order. Sums and products for signed integers or results that are no wider; extremes for signed integers; max.dim and min.dim for all integers and for floats without NaN; prims.prod for static sizes. The rest is violated by the code, with witnesses. Floats are parameters of the norms."
  },
  {
   "property": "C96",
   "status": "partial",
   "theorems": [
    "Verif.C96_matmul_partial",
    "Verif.C96_matmul_vectors",
    "Verif.C96_bmm",
    "Verif.C96_mm",
    "Verif.C96_aborts",
    "Verif.C96_mm_int_partial",
    "Verif.C96_matmul_int_partial",
    "Verif.C96_bmm_int_partial",
    "Verif.C96_mm_quantized",
    "Verif.C96_matmul_quantized_partial",
    "Verif.C96_violated_broadcast",
    "Verif.C96_violated_empty",
    "Verif.C96_violated_int_batches",
    "Verif.C96_violated_result",
    "Verif.C96_violated_vector_batch",
    "Verif.C96_violated_byte"
   ],
   "note": "The products of matrices and vectors, mm, bmm, quantized and wider integer products are proved. Violated, with witnesses: unknown batch sizes equal to one, empty batches, integer batches with two unknown sizes, result types that know less than the operands, results of eight bits, vectors with batches."
  },
  {
   "property": "C97",
   "status": "partial",
   "theorems": [
    "Verif.C97_constant_pad_partial",
    "Verif.C97_constant_pad_rejects",
    "Verif.C97_replication_pad_partial",
    "Verif.C97_alloc",
    "Verif.C97_alloc_rejects",
    "Verif.C97_arange_partial",
    "Verif.C97_violated_negative",
    "Verif.C97_violated_pads",
    "Verif.C97_violated_direction",
    "Verif.C97_violated_distance",
    "Verif.C97_violated_byte"
   ],
   "note": "Fails for negative replication paddings, wrong numbers of paddings of replication_pad2d, and ranges of bytes, with steps away from the end or distances outside of the result type (violations proved). Negative constant paddings, aten.empty and ranges of floats are not modelled."
  },
  {
   "property": "C98",
   "status": "partial",
   "theorems": [
    "Verif.C98_conv_partial",
    "Verif.C98_transposed_partial",
    "Verif.C98_rejects",
    "Verif.C98_aborts",
    "Verif.C98_canonicalize_partial",
    "Verif.C98_canonicalize_sound",
    "Verif.C98_violated_integers",
    "Verif.C98_violated_transposed_alone",
    "Verif.C98_violated_crop_unknown",
    "Verif.C98_violated_crop_output",
    "Verif.C98_violated_canonicalize"
   ],
   "note": "proved for all sizes, parameters and groups that are lowered; the code fails for groups of integers in three dimensions, transposed convolutions of known single channels, cropping by kernels of unknown size or with large output padding, and single parameters beside a complete output padding (violated theorems)"
  },
  {
   "property": "C99",
   "status": "partial",
   "theorems": [
    "Verif.C99_backward_partial",
    "Verif.C99_adjoint_partial",
    "Verif.C99_rejects",
    "Verif.C99_violated_padding",
    "Verif.C99_violated_type"
   ],
   "note": "proved for all sizes, parameters, groups and masks that are lowered, with the adjoint relation to the lowered convolution; the code fails where an input is padded by more than a kernel of unknown size reaches, and for types of grouped results that are not those of the operands (violated theorems)"
  },
  {
   "property": "C100",
   "status": "partial",
   "theorems": [
    "Verif.C100_unpool3d_partial",
    "Verif.C100_unpool2d_partial",
    "Verif.C100_pooled_partial",
    "Verif.C100_rejects",
    "Verif.C100_violated_ceil",
    "Verif.C100_violated_window",
    "Verif.C100_violated_size"
   ],
   "note": "proved for all sizes, strides, paddings and indices that lie within their windows, with what is refused; the code fails where windows of a pooling with ceil_mode overlap, for windows in two dimensions that do not have size and stride two, and for inputs larger than half of the output (violated theorems)"
  },
  {
   "property": "C101",
   "status": "partial",
   "theorems": [
    "Verif.C101_tril_partial",
    "Verif.C101_triu_partial",
    "Verif.C101_rejects",
    "Verif.C101_violated_type"
   ],
   "note": "proved for all numbers of rows and columns and all offsets, for any rounding of the square root that compares correctly with half-integers, with what is refused; the code fails for results of type int32 (violated theorem)"
  },
  {
   "property": "C102",
   "status": "partial",
   "theorems": [
    "Verif.C102_bucketize_partial",
    "Verif.C102_bucket_unique",
    "Verif.C102_rejects",
    "Verif.C102_violated_empty",
    "Verif.C102_oneHot_partial",
    "Verif.C102_violated_class",
    "Verif.C102_linspace_partial",
    "Verif.C102_violated_dynamic",
    "Verif.C102_violated_limits"
   ],
   "note": "Missing because the code violates them: no boundaries (C102_violated_empty), classes out of range (C102_violated_class), one number with a dynamic count (C102_violated_dynamic), integers between limits that are not integers (C102_violated_limits). Also missing: a number of classes found from the largest class, which shape inference refuses."
  },
  {
   "property": "C103",
   "status": "partial",
   "theorems": [
    "Verif.C103_softshrink_partial",
    "Verif.C103_violated_softshrink",
    "Verif.C103_hardshrink",
    "Verif.C103_relu6",
    "Verif.C103_hardswish",
    "Verif.C103_leakyRelu_partial",
    "Verif.C103_violated_slope",
    "Verif.C103_nanToNum_partial",
    "Verif.C103_violated_replaced",
    "Verif.C103_hardsigmoid",
    "Verif.C103_hardtanh",
    "Verif.C103_trunc",
    "Verif.C103_frac",
    "Verif.C103_fmod_partial",
    "Verif.C103_violated_fmod",
    "Verif.C103_heaviside",
    "Verif.C103_fmax",
    "Verif.C103_fmin"
   ],
   "note": "Missing because the code violates them: softshrink below the lower limit (C103_violated_softshrink), infinite slopes (C103_violated_slope), replacements that are infinite (C103_violated_replaced), remainders by infinite numbers (C103_violated_fmod). Signs of zeros, rounding and elements that are integers are not modelled."
  },
  {
   "property": "C104",
   "status": "partial",
   "theorems": [
    "Verif.C104_pool2d_partial",
    "Verif.C104_applies",
    "Verif.C104_complete",
    "Verif.C104_rejects",
    "Verif.C104_violated_enlarged",
    "Verif.C104_pool1d_partial",
    "Verif.C104_stops",
    "Verif.C104_violated_strict"
   ],
   "note": "Missing because the code violates them: an input of size one that is enlarged (C104_violated_enlarged), strict shapes in one dimension (C104_violated_strict). The windows are modelled, not the pooled values."
  },
  {
   "property": "C105",
   "status": "partial",
   "theorems": [
    "Verif.C105_pad_partial",
    "Verif.C105_dynamic",
    "Verif.C105_constant",
    "Verif.C105_rejects",
    "Verif.C105_violated_zero",
    "Verif.C105_violated_self"
   ],
   "note": "Needs a pad that is not zero: if all constant pads are zero the list is read beyond its end (C105_violated_zero, C105_violated_self). What the operators made do to a tensor is not modelled."
  },
  {
   "property": "C106",
   "status": "partial",
   "theorems": [
    "Verif.C106_eyeM_partial",
    "Verif.C106_eye_partial",
    "Verif.C106_violated_sizes",
    "Verif.C106_diagonal",
    "Verif.C106_embed",
    "Verif.C106_ranks",
    "Verif.C106_trace",
    "Verif.C106_glu",
    "Verif.C106_glu_odd"
   ],
   "note": "Identity matrices need a result type with sizes: otherwise the compiler stops (C106_violated_sizes)."
  },
  {
   "property": "C107",
   "status": "partial",
   "theorems": [
    "Verif.C107_celu",
    "Verif.C107_elu",
    "Verif.C107_selu",
    "Verif.C107_lerp",
    "Verif.C107_prelu",
    "Verif.C107_tanh",
    "Verif.C107_logSigmoid",
    "Verif.C107_logAddExp",
    "Verif.C107_softplus",
    "Verif.C107_deg2rad",
    "Verif.C107_rad2deg_partial",
    "Verif.C107_violated_rad2deg",
    "Verif.C107_leakyReluBackward_partial",
    "Verif.C107_leakyReluBackward_result",
    "Verif.C107_violated_leakyReluBackward",
    "Verif.C107_violated_derivative"
   ],
   "note": "rad2deg uses 3.14159 for pi (C107_violated_rad2deg); the gradient of leaky_relu is wrong for gradients or elements below zero (C107_violated_leakyReluBackward, C107_violated_derivative). Rounding, infinities and NaN are not modelled."
  }
 ]
}