{"id": "C01", "title": "as_strided rewrite reads the same storage elements", "statement": "If importing a program replaces an as_strided(size, stride, storage_offset) access over a base tensor by a gather, then every gathered element is an in-bounds element of the base tensor whose storage address is exactly the address the as_strided access denotes, in the same row-major order of the requested size.", "quantifier": "every base size/stride/offset, every requested size/stride/storage_offset, of any rank", "why_tests_cant": "The address arithmetic is a mixed-radix decode over arbitrary ranks, sizes and strides (including zero, overlapping and negative offsets); examples cover only a few layouts.", "anchors": ["python/torch_mlir/extras/fx_as_strided.py::_indices", "python/torch_mlir/extras/fx_as_strided.py::_rewrite"]}
{"id": "C02", "title": "as_strided rewrite accepts every in-storage access of a dense base", "statement": "For a base tensor whose layout is contiguous (or any permutation of a contiguous layout) every as_strided access that stays inside the base's elements is accepted and turned into a gather; it is never rejected as unsupported.", "quantifier": "every rank, sizes and permutation of a dense base; every in-range access", "why_tests_cant": "Completeness of a greedy decoder for all layouts is a universally quantified number-theoretic fact; tests can only probe chosen layouts.", "anchors": ["python/torch_mlir/extras/fx_as_strided.py::_indices"]}
{"id": "C03", "title": "Index constants never overwrite module attributes", "statement": "Each index-table attribute created while rewriting as_strided gets a name that the graph module does not already have, so no existing parameter, buffer, submodule or earlier constant is replaced, whatever names exist already.", "quantifier": "every set of pre-existing attribute names and every number of rewrites", "why_tests_cant": "Collision needs adversarial attribute names in arbitrary numbers; a test fixes the names.", "anchors": ["python/torch_mlir/extras/fx_as_strided.py::_constant"]}
{"id": "C04", "title": "Imported FX graph is in SSA form", "statement": "For every FX graph whose import succeeds, each emitted op only uses values that were produced earlier in the same function (block arguments, lazily imported globals or earlier ops), and no FX node result is ever bound to two different values.", "quantifier": "all graphs (any number of nodes, any argument nesting), all orders of lazy imports", "why_tests_cant": "Graphs are unbounded and the lazily-imported bindings make the emission order depend on the use order.", "anchors": ["python/torch_mlir/extras/fx_importer.py::GraphNodeImporter.bind_node_value", "python/torch_mlir/extras/fx_importer.py::GraphNodeImporter.resolve_node_value", "python/torch_mlir/extras/fx_importer.py::GraphNodeImporter.import_nodes"]}
{"id": "C05", "title": "Parameters and buffers are materialised at most once per function", "statement": "However many nodes use a lifted parameter or buffer, at most one literal/global load is emitted for it in the function, all uses refer to that same value, and unused ones are not materialised.", "quantifier": "every use pattern of every lifted input, any number of uses in any order", "why_tests_cant": "The claim is about every possible sequence of resolutions against a mutable memo table.", "anchors": ["python/torch_mlir/extras/fx_importer.py::GraphNodeImporter.lazy_import_parameter", "python/torch_mlir/extras/fx_importer.py::GraphNodeImporter.lazy_import_buffer", "python/torch_mlir/extras/fx_importer.py::GraphNodeImporter.resolve_node_value"]}
{"id": "C06", "title": "Op operands follow the schema", "statement": "When an aten op call is imported, the i-th operand of the emitted op is the value Python's calling convention gives the i-th schema parameter: the positional argument if present, else the keyword argument of that name, else the schema default, and exactly one operand is emitted per schema parameter.", "quantifier": "every schema, every split of arguments into positional and keyword", "why_tests_cant": "Schemas and call styles form an unbounded family; one missing case silently shifts operands.", "anchors": ["python/torch_mlir/extras/fx_importer.py::GraphNodeImporter._import_torch_op_overload"]}
{"id": "C07", "title": "Mutated inputs and buffers receive the producer's value", "statement": "For every exported program, at the end of the imported function each mutated user input and each mutated buffer has been overwritten with the value of the node named by the program signature, once per mutation target.", "quantifier": "all programs with any number of mutated inputs/buffers, including several mutations produced by the same node and mutations whose producer is itself an input", "why_tests_cant": "Needs all alias patterns between producers and mutation targets and all binding orders.", "anchors": ["python/torch_mlir/extras/fx_importer.py::FxImporter.import_program", "python/torch_mlir/extras/fx_importer.py::GraphNodeImporter.bind_node_value", "python/torch_mlir/extras/fx_importer.py::GraphNodeImporter.import_mutable_to_vtensor", "python/torch_mlir/extras/fx_importer.py::GraphNodeImporter.lazy_import_buffer"]}
{"id": "C08", "title": "A module attribute may be used any number of times", "statement": "Importing a graph succeeds no matter how many operands refer to the same get_attr (module attribute) node, in argument position or inside list arguments, and all uses denote the same value.", "quantifier": "all graphs and all numbers/positions of uses of an attribute node", "why_tests_cant": "Requires quantifying over every use history against the importer's memo table.", "anchors": ["python/torch_mlir/extras/fx_importer.py::GraphNodeImporter._import_argument", "python/torch_mlir/extras/fx_importer.py::GraphNodeImporter._import_list_argument"]}
{"id": "C09", "title": "Function symbols in one module are distinct", "statement": "Importing any sequence of graph modules (with any names, any sharing) into one MLIR module gives different graph modules different function symbols, and the same graph module always the same symbol.", "quantifier": "all sequences of imports and all names, including names that look like generated ones", "why_tests_cant": "A collision requires a particular interleaving of user-chosen and generated names.", "anchors": ["python/torch_mlir/extras/fx_importer.py::FxImporter.import_graph_module", "python/torch_mlir/extras/fx_importer.py::FxImporter._import_stateless_graph"]}
{"id": "C10", "title": "Tensor literals are never confused", "statement": "When a tensor object is imported as a literal, the literal that is used was built from that same tensor's contents, for every history of imports and object lifetimes.", "quantifier": "all histories of object creation, destruction and identity reuse", "why_tests_cant": "Identity reuse depends on the allocator's schedule; a test can neither force nor exclude it.", "anchors": ["python/torch_mlir/extras/fx_importer.py::RefTracker", "python/torch_mlir/extras/fx_importer.py::RefMapping", "python/torch_mlir/extras/fx_importer.py::_make_vtensor_literal_op"]}
{"id": "C11", "title": "Converter lookup by type is history-independent", "statement": "Looking up the converter for a type gives the first registered entry the type is a subclass of, irrespective of which lookups happened before.", "quantifier": "all interleavings of registrations and lookups over any class hierarchy", "why_tests_cant": "Depends on the order of memoised lookups relative to registrations.", "anchors": ["python/torch_mlir/extras/fx_importer.py::TypeSubclassMap"]}
{"id": "C12", "title": "getitem selects the matching result", "statement": "For a multi-result op, importing getitem(node, i) denotes exactly the i-th result of that op, for each i in range, no matter in which order or how often the items are requested; an out-of-range index is an error rather than a wrong value.", "quantifier": "all result counts, all indices, all request orders", "why_tests_cant": "The result cache is filled on first request, so correctness is a statement about every request history.", "anchors": ["python/torch_mlir/extras/fx_importer.py::GraphNodeImporter._import_getitem", "python/torch_mlir/extras/fx_importer.py::GraphNodeImporter._multi_result_nodes"]}
{"id": "C13", "title": "Shape expressions keep their value", "statement": "The affine expression built for a symbolic dimension evaluates, under every assignment of positive sizes to symbols, to the value of the original symbolic expression; an expression outside the supported fragment is an error, never a wrong expression.", "quantifier": "every expression tree and every assignment of the symbols", "why_tests_cant": "Both the expression trees and the assignments are infinite families.", "anchors": ["python/torch_mlir/extras/fx_importer.py::sympy_expr_to_semi_affine_expr"]}
{"id": "C14", "title": "Symbolic arithmetic on Python scalars keeps its meaning", "statement": "Importing a Python builtin scalar operation (add, sub, mul, floordiv, lt, ge, ...) on int/float operands yields a torch op computing the same result on the same operands in the same order.", "quantifier": "every supported builtin, every int/float operand type combination and every operand value", "why_tests_cant": "Only a quantification over operand values reveals an operand swap that is harmless for commutative ops.", "anchors": ["python/torch_mlir/extras/fx_importer.py::GraphNodeImporter._import_symbolic_torch_op", "python/torch_mlir/extras/fx_importer.py::PY_BUILTIN_TO_TORCH_OP"]}
{"id": "C15", "title": "while_loop lowering preserves the loop", "statement": "For every condition and body, running the emitted prim.Loop (with its initial condition call, trip bound and per-iteration condition call) yields the result of `while cond(*carried): carried = body(*carried)` on the same initial values, including zero iterations, whenever the loop terminates within the trip bound.", "quantifier": "all cond/body functions and initial states, any number of iterations", "why_tests_cant": "Needs induction on an unbounded number of iterations for arbitrary functions.", "anchors": ["python/torch_mlir/extras/fx_importer.py::GraphNodeImporter._import_hop_while_loop"]}
{"id": "C16", "title": "Symbolic range guards are conservative", "statement": "The integer range emitted for a symbol contains every integer the tracer's range constraint allows (infinite bounds becoming the int64 extremes).", "quantifier": "every lower/upper bound, finite (integer or fractional) or infinite", "why_tests_cant": "Bounds are arbitrary rationals or infinities.", "anchors": ["python/torch_mlir/extras/fx_importer.py::ContextCache.set_symbolic_guards"]}
{"id": "C17", "title": "Symbolic shape binding refers to the right symbols", "statement": "In each emitted symbolic-shape binding, substituting the listed symbol operands into the affine map's positional symbols gives, for each dimension, the value of that dimension's expression.", "quantifier": "all shapes, all sets of free symbols, all symbol names", "why_tests_cant": "Position/name mix-ups show only for particular symbol orders; sets of names are unbounded.", "anchors": ["python/torch_mlir/extras/fx_importer.py::GraphNodeImporter._create_bind_symbolic_shape_ops"]}
{"id": "C18", "title": "dtype encodings agree", "statement": "The integer code, element type and buffer type assigned to a dtype by the importers describe the same dtype, and two dtypes never share an integer code.", "quantifier": "every supported dtype in every table", "why_tests_cant": "The claim is over all tables jointly (a finite but cross-file fact no existing test relates).", "anchors": ["python/torch_mlir/extras/fx_importer.py::TORCH_DTYPE_TO_INT", "python/torch_mlir/extras/fx_importer.py::TORCH_DTYPE_TO_MLIR_TYPE", "python/torch_mlir/extras/fx_importer.py::TORCH_DTYPE_TO_NPY_TYPE", "projects/pt1/python/torch_mlir/_dynamo_fx_importer.py::DTYPE_TO_INT", "include/torch-mlir/Dialect/Torch/Utils/TorchUpstream.h::ScalarType", "lib/Dialect/Torch/Utils/Utils.cpp::getTypeForScalarType"]}
{"id": "C19", "title": "Tensor type text is unambiguous", "statement": "The textual !torch.vtensor<[...],dtype> type printed by the importer parses back to the same list of sizes (dynamic ones as '?') for every shape.", "quantifier": "all shapes of any rank with any mix of static and dynamic sizes", "why_tests_cant": "Round-trip over all shapes and printed numbers.", "anchors": ["python/torch_mlir/extras/fx_importer.py::ContextCache.format_asm_shape", "python/torch_mlir/extras/fx_importer.py::ContextCache.get_vtensor_type", "lib/Dialect/Torch/IR/TorchTypes.cpp::parseTensorType", "lib/Dialect/Torch/IR/TorchTypes.cpp::printTensorType"]}
{"id": "C20", "title": "Sparse encodings are well formed", "statement": "For every sparse tensor layout with any numbers of batch, sparse, dense and block dimensions, the emitted encoding has one dimension variable per tensor dimension, defines each level from declared dimensions, and uses every dimension.", "quantifier": "all layouts and all batch/sparse/dense dimension counts", "why_tests_cant": "Dimension counts are unbounded.", "anchors": ["python/torch_mlir/extras/fx_importer.py::sparsity_encoding"]}
{"id": "C21", "title": "Program inputs and outputs keep their signature order", "statement": "The imported main function takes exactly the program's non-lifted user inputs in signature order and returns exactly the program's user outputs in signature order, for every mixture of parameters, buffers, constants, mutations and user values.", "quantifier": "all export signatures", "why_tests_cant": "Signatures are arbitrary interleavings of many kinds of entries.", "anchors": ["python/torch_mlir/extras/fx_importer.py::FxImporter.import_program", "python/torch_mlir/extras/fx_importer.py::FxImporter.import_frozen_program"]}
{"id": "C22", "title": "Version gates compare versions", "statement": "Feature decisions that depend on 'PyTorch at least version X' hold exactly for versions numerically at least X.", "quantifier": "all version numbers", "why_tests_cant": "Only future version numbers (e.g. 2.10) expose a textual comparison.", "anchors": ["python/torch_mlir/extras/fx_importer.py::_IS_TORCH_2_1_OR_EARLIER", "python/torch_mlir/fx.py::stateless_fx_import"]}
{"id": "C23", "title": "ONNX nodes are imported in dependency order or rejected", "statement": "For every ONNX graph, import either fails with an explicit error or every operand of every emitted op is a value already defined (input, initializer, earlier node output, or the 'none' constant for an empty name).", "quantifier": "all graphs with any names, duplicates and orders", "why_tests_cant": "Graphs are unbounded and may be malformed in arbitrarily many ways.", "anchors": ["python/torch_mlir/extras/onnx_importer.py::NodeImporter.import_all", "python/torch_mlir/extras/onnx_importer.py::NodeImporter.import_node"]}
{"id": "C24", "title": "ONNX graph inputs exclude initializers exactly when asked", "statement": "With initialized-input elision on, the function's arguments are exactly the graph inputs that have no initializer, in order; without it, they are all graph inputs; and each name has a single meaning.", "quantifier": "all lists of inputs and initializers", "why_tests_cant": "All overlaps of two name lists.", "anchors": ["python/torch_mlir/extras/onnx_importer.py::GraphInfo"]}
{"id": "C25", "title": "ONNX names resolve lexically in nested regions", "statement": "Inside a subgraph (If/Loop/Scan body) a name refers to the innermost definition: the subgraph's own input or earlier value if it has one, otherwise the enclosing graph's.", "quantifier": "all nestings and all name overlaps", "why_tests_cant": "Shadowing patterns across arbitrary nesting depths.", "anchors": ["python/torch_mlir/extras/onnx_importer.py::NodeImporter.import_regions", "python/torch_mlir/extras/onnx_importer.py::NodeImporter.import_all"]}
{"id": "C26", "title": "ONNX function bodies are chosen by opset version", "statement": "An operator expanded as an ONNX function uses the newest function definition whose since-version does not exceed the model's opset for that domain; no newer definition is ever used.", "quantifier": "all sets of available versions and all opset versions", "why_tests_cant": "Version sets are arbitrary; only boundary combinations expose an off-by-one.", "anchors": ["python/torch_mlir/extras/onnx_importer.py::ModuleCache.get_operator_function"]}
{"id": "C27", "title": "ONNX expansion policy is respected", "statement": "Whether an operator is expanded as a function follows the configured allow and deny lists exactly: deny-listed operators and, when an allow list is given, operators outside it are never expanded.", "quantifier": "all configurations and all (domain, op) names", "why_tests_cant": "Configuration space is unbounded.", "anchors": ["python/torch_mlir/extras/onnx_importer.py::Config", "python/torch_mlir/extras/onnx_importer.py::ModuleCache.get_operator_function"]}
{"id": "C28", "title": "ONNX tensor types keep rank and sizes", "statement": "The tensor type built for an ONNX type has the rank and known sizes of the ONNX type and leaves symbolic or missing sizes dynamic; a value of unknown rank is not given a rank.", "quantifier": "all shapes with any mix of known, symbolic and missing dimensions, including absent shapes", "why_tests_cant": "Absent versus empty shapes differ only in a presence bit.", "anchors": ["python/torch_mlir/extras/onnx_importer.py::ContextCache.type_proto_to_type", "python/torch_mlir/extras/onnx_importer.py::ContextCache.get_none_type"]}
{"id": "C29", "title": "Sanitized ONNX names are valid and stable", "statement": "Sanitizing any name gives a valid identifier, leaves valid identifiers unchanged, and is idempotent.", "quantifier": "all strings", "why_tests_cant": "All strings.", "anchors": ["python/torch_mlir/extras/onnx_importer.py::ContextCache._sanitize_name"]}
{"id": "C30", "title": "ONNX function attribute references are substituted", "statement": "When a function body is specialised for a call, each attribute reference is replaced by the caller's attribute value if given, else by the function's default, else removed; other attributes are unchanged.", "quantifier": "all attribute lists, references and defaults, at any nesting of subgraphs", "why_tests_cant": "All combinations of references/defaults/nesting.", "anchors": ["python/torch_mlir/extras/onnx_importer.py::_bind_attributes_on_node"]}
{"id": "C31", "title": "Broadcast shapes follow the NumPy rule", "statement": "The shape computed for broadcasting element-wise ops exists exactly when the operand shapes are compatible and equals, in each trailing position, the common size; it does not depend on operand order or grouping.", "quantifier": "all pairs/triples of shapes of any rank", "why_tests_cant": "All ranks and sizes.", "anchors": ["lib/Dialect/Torch/Transforms/AbstractInterpLibrary.cpp::broadcast", "projects/pt1/python/torch_mlir/jit_ir_importer/build_tools/abstract_interp_lib_gen.py::aten.add.Tensor shape", "projects/pt1/python/torch_mlir/jit_ir_importer/build_tools/abstract_interp_lib_gen.py::aten.where.self shape", "projects/pt1/python/torch_mlir/jit_ir_importer/build_tools/abstract_interp_lib_gen.py::aten.broadcast_tensors shape"]}
{"id": "C32", "title": "Slice result size counts the selected elements", "statement": "The size computed for slicing a dimension equals the number of indices selected by start/end/step (negative, missing and out-of-range bounds included), for positive steps and, with explicit bounds, for negative steps.", "quantifier": "all sizes, starts, ends, steps", "why_tests_cant": "All integers, with clamping corner cases.", "anchors": ["projects/pt1/python/torch_mlir/jit_ir_importer/build_tools/abstract_interp_lib_gen.py::aten.slice.Tensor shape", "lib/Dialect/Torch/Transforms/AbstractInterpLibrary.cpp::slice"]}
{"id": "C33", "title": "Reshape preserves the number of elements", "statement": "A shape computed for view/reshape/flatten/unflatten has the same number of elements as the input and agrees with the requested sizes except for a single inferred one; requests that cannot be met are errors.", "quantifier": "all input shapes and requested sizes", "why_tests_cant": "All shapes and the -1 inference rule, including zeros.", "anchors": ["lib/Dialect/Torch/Transforms/AbstractInterpLibrary.cpp::view", "lib/Dialect/Torch/Transforms/AbstractInterpLibrary.cpp::infer_size_impl", "lib/Dialect/Torch/Transforms/AbstractInterpLibrary.cpp::flatten", "projects/pt1/python/torch_mlir/jit_ir_importer/build_tools/abstract_interp_lib_gen.py::aten.unflatten.int shape"]}
{"id": "C34", "title": "Pooling and convolution sizes count window placements", "statement": "The output size computed for a convolution or pooling dimension equals the number of window positions (with the given stride, dilation and padding; rounding up only with ceil_mode and never starting a window beyond the padded input).", "quantifier": "all input sizes, kernel sizes, strides, dilations, paddings", "why_tests_cant": "All integers; off-by-one errors appear only at particular residues.", "anchors": ["lib/Dialect/Torch/Transforms/AbstractInterpLibrary.cpp::pooling_output_shape", "lib/Dialect/Torch/Transforms/AbstractInterpLibrary.cpp::conv_output_size", "projects/pt1/python/torch_mlir/jit_ir_importer/build_tools/abstract_interp_lib_gen.py::aten.max_pool1d shape", "projects/pt1/python/torch_mlir/jit_ir_importer/build_tools/abstract_interp_lib_gen.py::_max_pool3d", "projects/pt1/python/torch_mlir/jit_ir_importer/build_tools/abstract_interp_lib_gen.py::aten.conv_tbc shape"]}
{"id": "C35", "title": "'same' convolution keeps the spatial size", "statement": "With padding='same' and unit stride the computed output has the input's spatial sizes.", "quantifier": "all kernel sizes and dilations, all spatial ranks", "why_tests_cant": "Parity of dilation*(kernel-1) and unequal dilations matter.", "anchors": ["projects/pt1/python/torch_mlir/jit_ir_importer/build_tools/abstract_interp_lib_gen.py::_conv_padding", "projects/pt1/python/torch_mlir/jit_ir_importer/build_tools/abstract_interp_lib_gen.py::aten.conv2d.padding shape"]}
{"id": "C36", "title": "Triangular index counts are exact", "statement": "The number of columns computed for tril_indices/triu_indices is the number of matrix positions on or below (on or above) the given diagonal.", "quantifier": "all matrix sizes and offsets", "why_tests_cant": "All integers; closed-form trapezoid arithmetic.", "anchors": ["projects/pt1/python/torch_mlir/jit_ir_importer/build_tools/abstract_interp_lib_gen.py::aten.tril_indices shape", "projects/pt1/python/torch_mlir/jit_ir_importer/build_tools/abstract_interp_lib_gen.py::aten.triu_indices shape"]}
{"id": "C37", "title": "Advanced indexing shapes follow NumPy", "statement": "The shape computed for indexing with index tensors places the broadcast index shape where the (adjacent) index tensors stand, or first if they are not adjacent, and keeps un-indexed dimensions in order.", "quantifier": "all shapes and all patterns of index tensors and gaps", "why_tests_cant": "All patterns of any length.", "anchors": ["projects/pt1/python/torch_mlir/jit_ir_importer/build_tools/abstract_interp_lib_gen.py::index_tensor_like"]}
{"id": "C38", "title": "Dimension permutations permute", "statement": "permute, transpose, movedim and numpy_T produce a permutation of the input sizes; transposing or reversing twice is the identity; invalid dimension lists are errors.", "quantifier": "all shapes and dimension arguments incl. negative ones", "why_tests_cant": "All ranks.", "anchors": ["lib/Dialect/Torch/Transforms/AbstractInterpLibrary.cpp::permute", "lib/Dialect/Torch/Transforms/AbstractInterpLibrary.cpp::transpose", "lib/Dialect/Torch/Transforms/AbstractInterpLibrary.cpp::movedim", "projects/pt1/python/torch_mlir/jit_ir_importer/build_tools/abstract_interp_lib_gen.py::aten.numpy_T shape"]}
{"id": "C39", "title": "Reductions remove or flatten exactly the named dimensions", "statement": "The shape computed for a dimension reduction drops (or sets to one with keepdim) exactly the dimensions named, counting negative ones from the end; no dimension list means all.", "quantifier": "all shapes and dimension lists", "why_tests_cant": "All ranks and all lists with negative/duplicate entries.", "anchors": ["lib/Dialect/Torch/Transforms/AbstractInterpLibrary.cpp::sum_mean_dim", "lib/Dialect/Torch/Transforms/AbstractInterpLibrary.cpp::argmax", "projects/pt1/python/torch_mlir/jit_ir_importer/build_tools/abstract_interp_lib_gen.py::patched_argmax_shape_func"]}
{"id": "C40", "title": "Concatenation adds sizes along one dimension only", "statement": "The shape computed for cat is the common shape with the concatenated dimension equal to the sum over the (non-legacy-empty) inputs; stack inserts one new dimension equal to the number of inputs.", "quantifier": "all lists of shapes and dims", "why_tests_cant": "Lists are of any length.", "anchors": ["lib/Dialect/Torch/Transforms/AbstractInterpLibrary.cpp::cat", "lib/Dialect/Torch/Transforms/AbstractInterpLibrary.cpp::stack", "projects/pt1/python/torch_mlir/jit_ir_importer/build_tools/abstract_interp_lib_gen.py::aten.hstack shape"]}
{"id": "C41", "title": "Matrix product shapes", "statement": "The shape computed for matmul/mm/bmm/mv/dot/linear exists exactly when inner sizes match and batch sizes broadcast, and equals batch ++ rows ++ cols with vectors' unit dimensions removed.", "quantifier": "all shapes of both operands", "why_tests_cant": "All rank combinations.", "anchors": ["lib/Dialect/Torch/Transforms/AbstractInterpLibrary.cpp::matmul", "lib/Dialect/Torch/Transforms/AbstractInterpLibrary.cpp::mm", "lib/Dialect/Torch/Transforms/AbstractInterpLibrary.cpp::linear"]}
{"id": "C42", "title": "Negative dimensions mean the same as wrapped ones", "statement": "Giving dim=-k to an op yields the shape obtained with dim=rank-k.", "quantifier": "all shapes, all valid negative dims, all ops taking a dim", "why_tests_cant": "All ranks and dims.", "anchors": ["lib/Dialect/Torch/Transforms/AbstractInterpLibrary.cpp::maybe_wrap_dim", "lib/Dialect/Torch/Transforms/AbstractInterpLibrary.cpp::unsqueeze", "lib/Dialect/Torch/Transforms/AbstractInterpLibrary.cpp::select", "projects/pt1/python/torch_mlir/jit_ir_importer/build_tools/abstract_interp_lib_gen.py::aten.cosine_similarity shape", "projects/pt1/python/torch_mlir/jit_ir_importer/build_tools/abstract_interp_lib_gen.py::aten.repeat_interleave.self_int shape", "projects/pt1/python/torch_mlir/jit_ir_importer/build_tools/abstract_interp_lib_gen.py::aten.glu shape"]}
{"id": "C43", "title": "Element-wise binary ops broadcast", "statement": "The shape computed for every element-wise binary op is the broadcast of the operand shapes.", "quantifier": "all element-wise binary ops in the library and all operand shapes", "why_tests_cant": "All operand shapes; tests use equal shapes.", "anchors": ["projects/pt1/python/torch_mlir/jit_ir_importer/build_tools/abstract_interp_lib_gen.py::aten.remainder.Tensor shape", "projects/pt1/python/torch_mlir/jit_ir_importer/build_tools/abstract_interp_lib_gen.py::aten.fmod.Tensor shape", "projects/pt1/python/torch_mlir/jit_ir_importer/build_tools/abstract_interp_lib_gen.py::aten.logaddexp shape", "projects/pt1/python/torch_mlir/jit_ir_importer/build_tools/abstract_interp_lib_gen.py::aten.add.Tensor shape"]}
{"id": "C44", "title": "dtype promotion is independent of operand order", "statement": "The promoted dtype computed for a list of operands depends only on which operands occur, not on their order or repetition.", "quantifier": "all lists of (rank-or-scalar, dtype) operands of any length", "why_tests_cant": "Unbounded lists; table-driven folds can be order-sensitive.", "anchors": ["lib/Dialect/Torch/Utils/TorchUpstream.cpp::promoteTypes", "lib/Dialect/Torch/Utils/TorchUpstream.cpp::result_type", "lib/Dialect/Torch/Transforms/SimplifyDtypeCalculations.cpp::DecomposePromoteDtypesOp", "projects/pt1/python/torch_mlir/jit_ir_importer/build_tools/library_generator.py::promote_dtypes"]}
{"id": "C45", "title": "dtype promotion is an upper bound", "statement": "Promoting operands all of one dtype gives that dtype, and the promoted dtype of dimensioned tensors can represent each of them (is above each in the promotion order).", "quantifier": "all dtypes and operand lists", "why_tests_cant": "All lists of all dtypes, including the 8-bit floating ones.", "anchors": ["lib/Dialect/Torch/Utils/TorchUpstream.cpp::promoteTypes", "lib/Dialect/Torch/Utils/TorchUpstream.cpp::result_type"]}
{"id": "C46", "title": "Subtyping is a sound preorder", "statement": "The compiler's subtype check is reflexive and transitive, and whenever it accepts, every value of the first type is a value of the second.", "quantifier": "all types built from scalars, tensors, tuples, unions, optionals", "why_tests_cant": "Infinite, recursive family of types.", "anchors": ["lib/Dialect/Torch/IR/TorchTypes.cpp::isValidSubtype"]}
{"id": "C47", "title": "Combining tensor type information is a greatest lower bound", "statement": "Combining two tensor types gives a type that refines both and is refined by every common refinement; it is commutative, associative, idempotent, fails exactly if there is no common refinement, and keeps value/non-value semantics.", "quantifier": "all pairs/triples of tensor types of any rank", "why_tests_cant": "Infinite family of types.", "anchors": ["lib/Dialect/Torch/IR/TorchTypes.cpp::meetTensorTypes"]}
{"id": "C48", "title": "A passing report means matching results", "statement": "The end-to-end test report marks a test as passed only if the compiled trace has the same calls as the golden trace and every output equals the golden output within tolerance.", "quantifier": "all traces and all (nested) values", "why_tests_cant": "All nested values including negative, zero, empty and truncated traces.", "anchors": ["projects/pt1/python/torch_mlir_e2e_test/reporting.py::ValueReport", "projects/pt1/python/torch_mlir_e2e_test/reporting.py::SingleTestReport", "projects/pt1/python/torch_mlir_e2e_test/reporting.py::TraceItemReport"]}
{"id": "C49", "title": "Suite exit status is failure exactly on unexpected outcomes", "statement": "The summary reports failure if and only if some test failed that is not in the expected-failure set or some expected failure passed (unless told to ignore failures), and each test is listed under exactly one outcome.", "quantifier": "all lists of results and all expected-failure sets", "why_tests_cant": "All result multisets.", "anchors": ["projects/pt1/python/torch_mlir_e2e_test/reporting.py::report_results", "projects/pt1/e2e_testing/main.py::main"]}
{"id": "C50", "title": "Reference backend returns what the program returned", "statement": "A value returned by a compiled function through the reference backend is decoded with the element types of that function's results, for modules with any number of functions and result signatures.", "quantifier": "all modules (sets of functions with any result types) and all values", "why_tests_cant": "Closures over loop variables fail only with several return signatures; truncation only for large integers.", "anchors": ["projects/pt1/python/torch_mlir_e2e_test/linalg_on_tensors_backends/refbackend.py::RefBackendInvoker", "projects/pt1/python/torch_mlir_e2e_test/linalg_on_tensors_backends/refbackend.py::get_ctype_func", "lib/RefBackend/RefBackend.cpp::getConsumeReturnFunctionNameForReturnTypes"]}
{"id": "C51", "title": "Registry-generated names", "statement": "Every registered operator gets an MLIR op name and C++ class name from its qualified name deterministically, and operators with different qualified names get different op names.", "quantifier": "all operator names and overload names", "why_tests_cant": "All names.", "anchors": ["projects/pt1/python/torch_mlir/jit_ir_importer/build_tools/registry.py::JitOperator.get_mlir_names", "projects/pt1/python/torch_mlir/jit_ir_importer/build_tools/registry.py::JitOperator.create_unique_key"]}
{"id": "C52", "title": "Keyword arguments are honoured", "statement": "Importing a TorchDynamo graph gives each schema parameter the value the call passes for it, positionally or by keyword, and the default only if it is not passed.", "quantifier": "all schemas and calls", "why_tests_cant": "Calls by keyword of non-keyword-only parameters are rare in tests.", "anchors": ["projects/pt1/python/torch_mlir/_dynamo_fx_importer.py::_FXGraphImporter", "projects/pt1/python/torch_mlir/_dynamo_fx_importer.py::_verify_fx_graph_conforms_to_subset"]}
{"id": "C53", "title": "Example arguments keep their static/dynamic shape annotation", "statement": "A placeholder made from a tensor with a list of dynamic axes has -1 in exactly those axes and the tensor's sizes elsewhere, with its dtype, and tracing uses a concrete tensor of the same rank and dtype.", "quantifier": "all shapes, dtypes and dynamic axes", "why_tests_cant": "All shapes and axes incl. negative and rank 0.", "anchors": ["python/torch_mlir/compiler_utils.py::TensorPlaceholder.like", "projects/pt1/python/torch_mlir/torchscript.py::ExampleArgs"]}
{"id": "C54", "title": "Standard error is restored", "statement": "After running a pass pipeline with error reporting, sys.stderr is the original stream on every path, whether the pipeline succeeds or raises, and a pipeline error is reported exactly when the pipeline fails.", "quantifier": "all outcomes of each step", "why_tests_cant": "Fault can occur at every step; schedules of failures must all be covered.", "anchors": ["python/torch_mlir/compiler_utils.py::run_pipeline_with_repro_report", "projects/pt1/python/torch_mlir/torchscript.py::compile"]}
{"id":"C55","title":"Reference promotion agrees with the compiler's","statement":"The dtype promotion computed at the Python level (used to test dtype functions against PyTorch) is the promotion the compiler computes for the same ranks and dtypes, for any number of operands.","quantifier":"all non-empty lists of operands (scalars, rank-0 and ranked tensors of any dtypes), in any order","why_tests_cant":"The operand lists are unbounded and the pairwise fold agrees with the three-category computation on every pair, so disagreement only shows on particular triples and orders.","anchors":["projects/pt1/python/torch_mlir/jit_ir_importer/build_tools/library_generator.py: __torch_mlir_internal_promote_dtypes","lib/Dialect/Torch/Transforms/SimplifyDtypeCalculations.cpp: DecomposePromoteDtypesOp"]}
{"id": "C56", "title": "while_loop with additional inputs", "statement": "A while_loop with additional (read-only) inputs is imported as a loop that passes them to condition and body in every iteration, or is rejected; it is never imported as a loop that cannot be executed.", "quantifier": "all numbers of carried and additional values, all condition and body functions", "why_tests_cant": "the existing tests only use loops without additional inputs, and a malformed loop is only noticed when it is verified or run", "anchors": ["python/torch_mlir/extras/fx_importer.py::GraphNodeImporter._import_hop_while_loop"]}
{"id": "C57", "title": "Dialect tensor types round-trip through text", "statement": "Printing a valid torch-dialect tensor type (value or non-value tensor, with any known or unknown sizes, element type and sparsity encoding) and parsing the text gives back the same type.", "quantifier": "all valid tensor types: any rank, any sizes, any element type, any encoding", "why_tests_cant": "The set of types is unbounded, and the lit tests only cover the usual combinations of known and unknown parts.", "anchors": ["lib/Dialect/Torch/IR/TorchTypes.cpp::parseTensorType", "lib/Dialect/Torch/IR/TorchTypes.cpp::printTensorType"]}
{"id": "C58", "title": "Blocked sparsity encodings use each dimension's own block size", "statement": "In the encoding generated for a blocked sparse layout (BSR, BSC), each blocked dimension is divided by, and taken modulo, the block size of that same dimension, so that every element has its own position in the level space.", "quantifier": "all numbers of batch and dense dimensions, all block sizes", "why_tests_cant": "Tests use square blocks, for which the two block sizes cannot be confused.", "anchors": ["python/torch_mlir/extras/fx_importer.py::sparsity_encoding"]}
{"id": "C59", "title": "Expanding and tiling", "statement": "The shape computed for expand/broadcast_to/expand_as is the requested one, with -1 standing for the existing size, and exists exactly when the tensor can be expanded to it; repeat and tile multiply the sizes by the counts, aligned at the last dimension.", "quantifier": "all shapes, all requested sizes and counts", "why_tests_cant": "All ranks and sizes; tests only use valid expansions.", "anchors": ["lib/Dialect/Torch/Transforms/AbstractInterpLibrary.cpp::expand", "projects/pt1/python/torch_mlir/jit_ir_importer/build_tools/abstract_interp_lib_gen.py::aten.repeat shape", "projects/pt1/python/torch_mlir/jit_ir_importer/build_tools/abstract_interp_lib_gen.py::aten.tile shape", "projects/pt1/python/torch_mlir/jit_ir_importer/build_tools/abstract_interp_lib_gen.py::aten.expand_as shape"]}
{"id": "C60", "title": "Diagonals", "statement": "The shape computed for diagonal is the other dimensions in order followed by the number of positions (i, i+offset) inside the two chosen dimensions; diag_embed lays the last dimension out on the diagonal of two new dimensions, and taking that diagonal again gives the original shape back.", "quantifier": "for all ranks, sizes, offsets and pairs of distinct dimensions (negative ones included)", "why_tests_cant": "Offsets, ranks and dimension pairs are unbounded and the off-by-one cases are at the edge of the matrix.", "anchors": ["projects/pt1/python/torch_mlir/jit_ir_importer/build_tools/abstract_interp_lib_gen.py::aten.diagonal shape", "projects/pt1/python/torch_mlir/jit_ir_importer/build_tools/abstract_interp_lib_gen.py::_diag_embed_shape_helper"]}
{"id": "C61", "title": "Adding and removing dimensions", "statement": "unsqueeze inserts exactly one dimension of size one at the chosen place, squeeze with a dimension removes that dimension exactly when it has size one and undoes unsqueeze, squeeze without a dimension removes exactly the size-one dimensions, select removes the chosen dimension exactly for indices inside it, and embedding appends the row length.", "quantifier": "for all shapes, dimensions and indices", "why_tests_cant": "Every rank and every position of the dimension, counted from either end, is a separate case.", "anchors": ["lib/Dialect/Torch/Transforms/AbstractInterpLibrary.cpp::unsqueeze", "lib/Dialect/Torch/Transforms/AbstractInterpLibrary.cpp::squeeze", "lib/Dialect/Torch/Transforms/AbstractInterpLibrary.cpp::squeeze_nodim", "lib/Dialect/Torch/Transforms/AbstractInterpLibrary.cpp::select", "lib/Dialect/Torch/Transforms/AbstractInterpLibrary.cpp::embedding"]}
{"id": "C62", "title": "Sliding windows", "statement": "The number of windows computed for unfold and the number of frames computed for stft equal the number of start positions, at multiples of the step, from which a whole window fits in the (padded) dimension.", "quantifier": "for all dimension sizes, window sizes and steps", "why_tests_cant": "Sizes and steps are unbounded and errors appear only when the step does not divide the remainder.", "anchors": ["projects/pt1/python/torch_mlir/jit_ir_importer/build_tools/abstract_interp_lib_gen.py::aten.unfold shape", "projects/pt1/python/torch_mlir/jit_ir_importer/build_tools/abstract_interp_lib_gen.py::aten.stft shape", "projects/pt1/python/torch_mlir/jit_ir_importer/build_tools/abstract_interp_lib_gen.py::aten.stft.center shape"]}
{"id": "C63", "title": "Calls of expanded ONNX operators resolve", "statement": "In an imported ONNX model every func.call, in every function and at every depth of regions, names a private function of the same module and has that function's result types; the model's own graph is the last function and is public.", "quantifier": "all graphs, opset imports, configurations, operator schemas and function bodies", "why_tests_cant": "Nested expansion and memoisation interact over unboundedly many models.", "anchors": ["python/torch_mlir/extras/onnx_importer.py::ModuleCache.get_operator_function", "python/torch_mlir/extras/onnx_importer.py::NodeImporter.import_node"]}
{"id": "C64", "title": "ONNX attributes are carried over", "statement": "Every attribute of an ONNX node that is not a subgraph appears exactly once on the imported op under its name with its value; attributes of kinds that cannot be represented are rejected, never dropped; the recorded opset is the one used to choose function definitions.", "quantifier": "all attribute lists", "why_tests_cant": "Attribute lists are unbounded and mix all kinds.", "anchors": ["python/torch_mlir/extras/onnx_importer.py::NodeImporter.import_attributes", "python/torch_mlir/extras/onnx_importer.py::NodeImporter._populate_graph_attrs"]}
{"id": "C65", "title": "Library function names lead back to their operator", "statement": "The name generated for an operator's shape, dtype or decomposition function is accepted by the check that reads it, which finds exactly that operator and that kind; different operators or kinds give different names; names of no registered operator are rejected.", "quantifier": "all registries and operator names", "why_tests_cant": "All names, including empty overloads and names with separators.", "anchors": ["projects/pt1/python/torch_mlir/jit_ir_importer/build_tools/registry.py::JitOperator._get_function_signature", "projects/pt1/python/torch_mlir/jit_ir_importer/build_tools/library_generator.py::_verify_signature_matches_registry", "projects/pt1/python/torch_mlir/jit_ir_importer/build_tools/registry.py::Registry"]}
{"id": "C66", "title": "Derived value-semantics and read-only traits", "statement": "An operator is given HasValueSemantics exactly if nothing in its signature carries alias information and it is not variadic nor one of the listed exceptions; ReadOnly exactly if nothing in its signature is written; value semantics implies read-only.", "quantifier": "all operator signatures", "why_tests_cant": "Every signature of the registry, present and future.", "anchors": ["projects/pt1/python/torch_mlir/jit_ir_importer/build_tools/registry.py::JitOperator.has_value_semantics", "projects/pt1/python/torch_mlir/jit_ir_importer/build_tools/registry.py::JitOperator.is_readonly", "projects/pt1/python/torch_mlir/jit_ir_importer/build_tools/torch_ods_gen.py::emit_op"]}
{"id": "C67", "title": "TorchDynamo import preserves what the graph computes", "statement": "For every meaning of the operators, the function imported from a TorchDynamo graph returns on every input the values the graph computes.", "quantifier": "all graphs, interpretations of operators, and inputs", "why_tests_cant": "All graphs and all literal arguments.", "anchors": ["projects/pt1/python/torch_mlir/_dynamo_fx_importer.py::_FXGraphImporter", "projects/pt1/python/torch_mlir/_dynamo_fx_importer.py::import_fx_graph_as_func"]}
{"id": "C68", "title": "Output types by name", "statement": "OutputType.get accepts a string exactly if it is an output type's name in any case with hyphens or underscores, and gives that type; every documented value is accepted; anything else raises ValueError.", "quantifier": "all strings", "why_tests_cant": "All strings.", "anchors": ["python/torch_mlir/compiler_utils.py::OutputType.get"]}
{"id": "C69", "title": "Introducing value semantics preserves meaning", "statement": "Where MaximizeValueSemantics rewrites a copy to a mutable tensor and its uses within a block, the new block returns tensors with the same contents, leaves the same memory behind and has the same other effects; it is well formed, and the returned tensors keep their kind.", "quantifier": "all well-formed blocks, views, overwrites, unknown operations and initial memories", "why_tests_cant": "All blocks with any number of views, casts and overwrites.", "anchors": ["lib/Dialect/Torch/Transforms/MaximizeValueSemantics.cpp::AbstractlyInterpretCopyToNonValueTensorOpUsersWithinABlock", "lib/Dialect/Torch/IR/TorchOps.cpp::copyTensorToType"]}
{"id": "C70", "title": "Converting views without mutation preserves meaning", "statement": "Where MaximizeValueSemantics converts a copy that is only viewed, read and returned, the new block computes the same, and the returned tensors keep their kind.", "quantifier": "all well-formed blocks and initial memories", "why_tests_cant": "All blocks, including views of other tensors that only take the shape of the copy.", "anchors": ["lib/Dialect/Torch/Transforms/MaximizeValueSemantics.cpp::RewriteViewLikeSubgraph"]}
{"id": "C71", "title": "Integer and float arithmetic folds to what it computes", "statement": "Where the folder of an arithmetic operator on integers (add, sub, mul, neg, min, max, remainder, floordiv, range_length, derive_index) or of div.float gives an answer, every execution of the operator computes that answer, and folding itself is defined.", "quantifier": "all 64-bit operands, all definitions of the operands, all executions", "why_tests_cant": "All pairs of 64-bit integers, including signs, zero divisors, overflow and numbers doubles cannot hold.", "anchors": ["lib/Dialect/Torch/IR/TorchOps.cpp::AtenAddIntOp::fold", "lib/Dialect/Torch/IR/TorchOps.cpp::AtenFloordivIntOp::fold", "lib/Dialect/Torch/IR/TorchOps.cpp::AtenRemainderIntOp::fold", "lib/Dialect/Torch/IR/TorchOps.cpp::Aten__RangeLengthOp::fold"]}
{"id": "C72", "title": "Comparisons and truth values fold to what they compute", "statement": "Where the folder of a comparison of integers or floats, of a boolean operator or of an identity test gives an answer, every execution computes that answer; in particular comparisons of a tensor size with a constant only rely on sizes not being negative.", "quantifier": "all operands, definitions and executions; all values of the static types", "why_tests_cant": "All operands, including NaN and values whose static type says little.", "anchors": ["lib/Dialect/Torch/IR/TorchOps.cpp::intComparatorFoldHelper", "lib/Dialect/Torch/IR/TorchOps.cpp::floatComparatorFoldHelper", "lib/Dialect/Torch/IR/TorchOps.cpp::atenIsOrIsNotFoldHelper"]}
{"id": "C73", "title": "Rewriting products preserves their value", "statement": "The canonicalization patterns of mul.int and floordiv.int replace an operator by one that computes the same integer in every execution.", "quantifier": "all operands, nestings of products and executions", "why_tests_cant": "All constants and all run-time values, including zero and overflow.", "anchors": ["lib/Dialect/Torch/IR/TorchOps.cpp::AtenMulIntOp::getCanonicalizationPatterns", "lib/Dialect/Torch/IR/TorchOps.cpp::AtenFloordivIntOp::getCanonicalizationPatterns"]}
{"id": "C74", "title": "Operators on list literals fold to what they compute", "statement": "Where an operator on a list literal (len, getitem, contains, any, all, concatenation, repetition, slice, equality, min) is folded or rewritten, the result is what the operator computes from the contents the list has when the operator runs.", "quantifier": "all lists, indices, bounds, steps and executions", "why_tests_cant": "All lists of any length, all bounds and steps, and lists that are mutated elsewhere.", "anchors": ["lib/Dialect/Torch/IR/TorchOps.cpp::AtenLenTOp::fold", "lib/Dialect/Torch/IR/TorchOps.cpp::AtenSliceTOp::getCanonicalizationPatterns", "lib/Dialect/Torch/IR/TorchOps.cpp::AtenEqIntListOp::fold", "lib/Dialect/Torch/IR/TorchOps.cpp::PrimMinSelfIntOp::fold"]}
{"id": "C76", "title": "Interpreting list operations within a block preserves what the block does", "statement": "Where the compiler replaces appends, insertions and item assignments to a list literal by new literals, the new block does what the old one did: same exceptions, same effects, same contents of every other list, and the last literal has the list's contents. The new block is well formed, no operation whose result is used is erased, and when every change of the list is understood none is left.", "quantifier": "all blocks, lists, indices, other operations (reading or mutating lists, in nested regions or not) and executions", "why_tests_cant": "All interleavings of changes, reads and unknown mutations of any length; arbitrary effects of other operations.", "anchors": ["lib/Dialect/Torch/Transforms/SimplifyAbstractInterpCalculationsUtils.cpp::AbstractlyInterpretListOpsWithinABlock::matchAndRewrite"]}
{"id": "C77", "title": "Unrolling a loop preserves what it does", "statement": "Where the compiler unrolls a prim.Loop in a shape or dtype calculation, the copies of the body do exactly what the loop did: same exceptions, same effects in the same order, same values for the loop's results and all other names. The new block is well formed, and unrolling is possible for every loop with a constant trip count that is not negative.", "quantifier": "all loops, bodies, trip counts, iteration arguments, operations after the loop, meanings of operations and executions", "why_tests_cant": "Any trip count, body and effects; loops that stop early or yield values from outside.", "anchors": ["lib/Dialect/Torch/Transforms/SimplifyAbstractInterpCalculationsUtils.cpp::FullyUnrollPrimLoopOp::matchAndRewrite", "lib/Dialect/Torch/IR/TorchOps.cpp::PrimLoopOp::isForLike"]}
{"id": "C75", "title": "Folding slices and selections of constants gives the slice", "statement": "Where the compiler folds aten.slice.Tensor or aten.select.int, the operand or constant it puts in its place is what the operator computes: for a slice the elements start:end:step of the dimension in order, for any rank, dimension, bounds and step, positive or negative; for a selection the element at the index, counted from the end if negative. Folding comes to an end and reads only elements of the constant.", "quantifier": "all tensors, ranks, sizes, element values, dimensions, bounds, steps, indices and types of operand and result", "why_tests_cant": "Steps that do not divide the distance, negative steps and indices, bounds outside of the dimension and any rank in combination.", "anchors": ["lib/Dialect/Torch/IR/TorchOps.cpp::AtenSliceTensorOp::fold", "lib/Dialect/Torch/IR/TorchOps.cpp::AtenSelectIntOp::fold"]}
{"id": "C78", "title": "Sorting a tensor sorts it", "statement": "The loops tm_tensor.sort becomes sort every lane along the dimension, all operands together, by the comparison of the region; tuples that compare both ways keep their order, every lane holds the same tuples as before, and nothing outside the tensors is written. aten.sort built on it returns the values of each lane in Torch's order of the dtype (NaN greatest, unsigned and bool as such), ascending or descending, and the place each came from.", "quantifier": "all ranks, sizes, dimensions (also negative), operands, comparisons, element values and dtypes", "why_tests_cant": "Any number of lanes, ties, dtypes and values; the nest runs the inner loop more often than a bubble sort would.", "anchors": ["lib/Dialect/TMTensor/IR/TMTensorOps.cpp::SortOp::generateScalarImplementation", "lib/Dialect/TMTensor/Transforms/ConvertToLoops.cpp::lowerToLoopsImpl", "lib/Conversion/TorchToTMTensor/TorchToTMTensor.cpp::ConvertAtenSortOp", "lib/Conversion/TorchToTMTensor/TorchToTMTensor.cpp::createIntOrFloatCompareOp"]}
{"id": "C79", "title": "Scans combine the elements before each place", "statement": "After the loops of tm_tensor.scan, the output at each place combines, from the left, the input's elements up to it (inclusive) or the accumulator and the elements before it (exclusive); the accumulator then has the last element of the output, and nothing else is written. aten.cumsum and aten.cumprod of integers give the sums and products modulo the width of the type.", "quantifier": "all ranks, sizes, dimensions (also negative), regions, inputs, previous contents of output and accumulator", "why_tests_cant": "Any rank and order of the lanes; one-element dimensions; contents of the buffers before.", "anchors": ["lib/Dialect/TMTensor/IR/TMTensorOps.cpp::ScanOp::generateScalarImplementation", "lib/Conversion/TorchToTMTensor/TorchToTMTensor.cpp::ConvertAtenCumsumOp", "lib/Conversion/TorchToTMTensor/TorchToTMTensor.cpp::ConvertAtenCumprodOp"]}
{"id": "C80", "title": "Scatter puts every update at its place, in order", "statement": "After the loops of tm_tensor.scatter every place has what it had, combined by the region with the updates that go there in the order of the updates; an update that goes nowhere is an error. What the verifier accepts has a place in every dimension. aten.scatter.src leaves at each place the last source element that goes there, and aten.scatter_add the sum in order, for positive and negative dimensions.", "quantifier": "all ranks, shapes of updates and indices, dimension maps, index values, regions and elements", "why_tests_cant": "Any shapes, repeated indices and dimension maps.", "anchors": ["lib/Dialect/TMTensor/IR/TMTensorOps.cpp::ScatterOp::generateScalarImplementation", "lib/Dialect/TMTensor/IR/TMTensorOps.cpp::ScatterOp::verify", "lib/Conversion/TorchToTMTensor/TorchToTMTensor.cpp::convertTorchScatterIndexAndSrcToTMScatterIndexAndSrc", "lib/Conversion/TorchToTMTensor/TorchToTMTensor.cpp::ConvertAtenScatterOp"]}
{"id": "C81", "title": "Top k gives the best k, kthvalue the k-th smallest", "statement": "After the loops of tm_tensor.topk every lane of the outputs has the best k of what was in it and of the input's lane, in order, equal values by index. aten.kthvalue built on it returns for every lane the k-th smallest value in Torch's order of the dtype and a place where it is; it applies to integers and floats and every dimension of the tensor.", "quantifier": "all ranks, sizes, dimensions (also negative), k, element values and dtypes", "why_tests_cant": "Any lane, ties, values equal to the fill, dtypes.", "anchors": ["lib/Dialect/TMTensor/IR/TMTensorOps.cpp::TopkOp::generateScalarImplementation", "lib/Conversion/TorchToTMTensor/TorchToTMTensor.cpp::ConvertAtenKthvalueOp", "lib/Conversion/TorchToTMTensor/TorchToTMTensor.cpp::createTMTensorTopkOp"]}
{"id": "C82", "title": "Inlining of global slots cannot be seen", "statement": "Whatever a user does with a module after InlineGlobalSlots - make objects, read and set public slots, call functions with any values they have, in any order - they see exactly what they see of the module before. A private slot that is never set and only read with value semantics, and whose initial value is used for nothing else, is inlined.", "quantifier": "all modules (initializers, functions with branches, aliases, lists, mutation), all sequences of actions of the user", "why_tests_cant": "Aliasing and mutation through any path, any order of calls; the safety analysis is a fixed point over the whole module.", "anchors": ["lib/Dialect/Torch/Transforms/InlineGlobalSlots.cpp::InlineGlobalSlotsAnalysis", "lib/Dialect/Torch/Transforms/InlineGlobalSlots.cpp::InlineGlobalSlotsPass", "lib/Dialect/Torch/Transforms/InlineGlobalSlots.cpp::isInitialValueTransitivelySafeToInline"]}
{"id": "C83", "title": "Lowering of branches and loops to SCF keeps what the program computes", "statement": "For every program with prim.If and prim.Loop at any nesting, the program after ConvertTorchToSCF ends with the same values as before, or fails in the same cases, provided for-like loops (constant true initial condition) never stop before the trip count, and while-like loops have an unreachable trip count and do not use the induction variable.", "quantifier": "all programs (operations are arbitrary functions), all environments, all numbers of iterations", "why_tests_cant": "Loops of any length and nesting over any operations; early exits depend on run-time values.", "anchors": ["lib/Conversion/TorchToSCF/TorchToSCF.cpp::ConvertTorchPrimLoopWhileLikeOp", "lib/Conversion/TorchToSCF/TorchToSCF.cpp::ConvertTorchPrimLoopForLikeOp", "lib/Conversion/TorchToSCF/TorchToSCF.cpp::ConvertTorchPrimIfOp", "lib/Dialect/Torch/IR/TorchOps.cpp::PrimLoopOp::isForLike"]}
{"id": "C84", "title": "Slices lowered to linalg select exactly the positions of the slice", "statement": "For every tensor, dimension, start, end (negative, out of range, absent) and positive step, the linalg lowering of aten.slice.Tensor yields a tensor whose positions along the dimension are those of start:end:step in order, all other indices unchanged, and reads nothing outside of the input; aten.slice_scatter replaces exactly these positions by those of the source in order. The same holds of negative steps when the bounds are given and the start lies before the end of the dimension. A dimension out of range is rejected.", "quantifier": "all ranks, sizes, elements, bounds and steps", "why_tests_cant": "Bounds interact with clamping, the sign of the step and 64-bit arithmetic; reads outside show up only for certain combinations.", "anchors": ["lib/Conversion/TorchToLinalg/DataMovement.cpp::prepareArgumentsForSlicingOp", "lib/Conversion/TorchToLinalg/DataMovement.cpp::ConvertAtenSliceTensorOp", "lib/Conversion/TorchToLinalg/DataMovement.cpp::ConvertAtenSliceScatterOp", "lib/Conversion/Utils/Utils.cpp::toPositiveValidDim", "lib/Conversion/TorchToLinalg/Utils.cpp::flipTensor"]}
{"id": "C85", "title": "Reflection padding lowered to tiles is reflection padding", "statement": "For every tensor and every paddings that are not negative and smaller than the dimension, the tiled linalg lowering of reflection_pad1d (reflection_pad2d) yields the tensor whose last (two) dimensions are mirrored at both ends without repeating the edge: every element of the result is defined and comes from the mirrored position, in the center, on the sides and in the corners. Paddings larger than the dimension fail the assertion of the 2d lowering.", "quantifier": "all ranks, sizes, elements and paddings", "why_tests_cant": "Nine tiles with offsets for extraction and insertion, any of them possibly empty; an error of one in an offset shows up only for some paddings.", "anchors": ["lib/Conversion/TorchToLinalg/DataMovement.cpp::ConvertAtenReflectionPad1dOp", "lib/Conversion/TorchToLinalg/DataMovement.cpp::ConvertAtenReflectionPad2dOp"]}
{"id": "C86", "title": "Diagonals and windows lowered to linalg", "statement": "The linalg lowering of aten.diagonal yields, for every tensor, pair of different dimensions (counted from either end) and offset, exactly the elements whose indices differ by the offset, in order along a new last dimension, and has as many positions as there are such elements; aten.diag_embed puts a tensor on such a diagonal of zeros; aten.unfold yields all windows of the size at multiples of the step. None reads outside of its input. Equal dimensions, dimensions out of range, windows larger than the dimension and steps that are not positive are rejected.", "quantifier": "all ranks, sizes, elements, dimensions, offsets, window sizes and steps", "why_tests_cant": "Signs of the offset, order of the two dimensions and empty diagonals combine; an index read but not selected does not change the result of a test.", "anchors": ["lib/Conversion/TorchToLinalg/DataMovement.cpp::ConvertAtenDiagonalOp", "lib/Conversion/TorchToLinalg/DataMovement.cpp::ConvertAtenDiagEmbedOp", "lib/Conversion/TorchToLinalg/DataMovement.cpp::ConvertAtenUnfoldOp"]}
{"id": "C87", "title": "Flips, permutations and concatenations lowered to linalg", "statement": "For every tensor the linalg lowerings of aten.flip, aten.permute and aten.transpose.int move the element at each index to the index mirrored in the named dimensions, permuted, or with two entries exchanged, where dimensions may be counted from the end; permute accepts nothing but permutations. aten.cat of tensors with equal sizes but for one dimension yields a tensor in which each operand's elements appear in place after those of the operands before, and nothing else; operands known to be of size [0] contribute nothing whatever the rank.", "quantifier": "all ranks, sizes, elements, dimensions, permutations and numbers of operands", "why_tests_cant": "A permutation and its inverse agree on every transposition of two dimensions and on most small cases; operands that are empty, known or unknown, are rare.", "anchors": ["lib/Conversion/TorchToLinalg/Linear.cpp::ConvertAtenFlipOp", "lib/Conversion/TorchToLinalg/Utils.cpp::permuteTensor", "lib/Conversion/TorchToLinalg/DataMovement.cpp::ConvertAtenTransposeIntOp", "lib/Conversion/TorchToLinalg/DataMovement.cpp::ConvertAtenPermuteOp", "lib/Conversion/TorchToLinalg/DataMovement.cpp::ConvertAtenCatOp"]}
{"id": "C88", "title": "Broadcasting lowered to linalg", "statement": "For every tensor, target sizes it can be broadcast to and knowledge of the sizes in its type and that of the result (each size known or not), the linalg lowering of aten.broadcast_to yields the tensor of the target sizes whose element at an index is the element of the input at the index aligned at the end, zero in dimensions of size one; -1 keeps a size. The same holds of the source of aten.copy. The generic op built for elementwise operations runs over the common sizes of its operands and reads each at the broadcast index, or an assertion fails; none fails if only dimensions known to be of size one are broadcast. Nothing is read outside of an operand. Sizes known not to match and too few dimensions are rejected.", "quantifier": "all ranks, sizes, elements, numbers of operands, static and dynamic sizes in any combination", "why_tests_cant": "Every dimension may be static or dynamic in input and result, kept or broadcast, adjacent to others that are collapsed with it; tests mostly have static sizes or none.", "anchors": ["lib/Conversion/TorchToLinalg/Utils.cpp::broadcastToGivenShape", "lib/Conversion/TorchToLinalg/Utils.cpp::createElementwiseLinalgGeneric", "lib/Conversion/TorchToLinalg/DataMovement.cpp::ConvertAtenBroadcastToOp", "lib/Conversion/TorchToLinalg/DataMovement.cpp::ConvertAtenCopyOp"]}
{"id": "C89", "title": "Views lowered to linalg", "statement": "Whatever the linalg lowerings of aten.view, its fallback to tensor.reshape and aten.flatten.using_ints make of a tensor has the elements of the tensor in row-major order and sizes that agree with the type of the result. For every tensor without empty dimensions and with less than 2^31 elements the lowering of aten.view succeeds and yields the sizes asked for, with -1 replaced, if at most one size of the input or asked for is not known, or one of each and the products of the known ones differ; with one unknown size of the input and any asked for it yields these sizes or leaves the operation to the fallback. The fallback yields the sizes asked for if none is zero. Flattening merges the dimensions named, counted from either end, and makes a vector of a scalar.", "quantifier": "all ranks, sizes, elements, combinations of known and unknown sizes in the types, lists of constant, unknown and inferred sizes", "why_tests_cant": "The lowering groups dimensions by a search over products of sizes with several special cases for unknown sizes; which of them is taken depends on the factors of the sizes, and tests see few shapes.", "anchors": ["lib/Conversion/TorchToLinalg/DataMovement.cpp::ConvertAtenViewOp", "lib/Conversion/TorchToLinalg/DataMovement.cpp::ConvertAtenViewOpToReshape", "lib/Conversion/TorchToLinalg/DataMovement.cpp::ConvertAtenFlattenUsingIntsOp"]}
{"id": "C90", "title": "Dimensions added, removed and split in linalg", "statement": "The linalg lowering of aten.unsqueeze adds a dimension of size one at the position asked for, counted from either end. Whatever the lowering of aten.squeeze.dim makes without failing has the elements of the input in row-major order, without the dimension if it is of size one and with unchanged sizes otherwise; it succeeds whenever the size is known. The lowering of aten.squeeze removes all dimensions known to be of size one, and whatever it makes is a reshape of the type of the result. The lowering of aten.unflatten.int replaces a dimension by the sizes given, with -1 replaced by what the others leave, and keeps the order of the elements, if all sizes of the result are known, or none more than in the input, or several of the new ones are not.", "quantifier": "all ranks, sizes, elements, dimensions, combinations of known and unknown sizes in the types of input and result", "why_tests_cant": "The reassociation groups are built by loops with special cases for the first and the last dimension, and the verifier accepts or rejects them depending on which sizes are static; tests see few combinations of static and dynamic sizes.", "anchors": ["lib/Conversion/TorchToLinalg/DataMovement.cpp::ConvertAtenSqueezeOp", "lib/Conversion/TorchToLinalg/DataMovement.cpp::ConvertAtenSqueezeDimOp", "lib/Conversion/TorchToLinalg/DataMovement.cpp::ConvertAtenUnsqueezeOp", "lib/Conversion/TorchToLinalg/DataMovement.cpp::ConvertAtenUnflattenIntOp", "lib/Conversion/Utils/Utils.cpp::squeezeTensor", "lib/Conversion/Utils/Utils.cpp::unsqueezeTensor"]}
{"id": "C91", "title": "Decomposition of data movement", "statement": "The operators that aten.select, split_with_sizes, narrow, roll, stack, hstack, fliplr, flipud, rot90, t, numpy_T, movedim, select_scatter, atleast_1d, atleast_2d and prims.squeeze are decomposed into give the tensor PyTorch defines: the same sizes, and at every index the element of the input that the operator moves there. Exceptions: narrow counted from the end and going up to the end is empty; roll by more than the size of a dimension and not a multiple of it leaves the tensor alone, and roll without dimensions is an error; hstack of scalars and select_scatter at index -1 fail.", "quantifier": "all ranks, sizes, elements, dimensions and indices counted from either end, numbers of tensors, shifts, turns and orders of dimensions", "why_tests_cant": "The decompositions are chains of slices and concatenations with bounds computed from negative and positive arguments; tests try single shapes, mostly with non-negative arguments.", "anchors": ["lib/Dialect/Torch/Transforms/DecomposeComplexOps.cpp::DecomposeAtenRollOp", "lib/Dialect/Torch/Transforms/DecomposeComplexOps.cpp::DecomposeAtenSelectIntOp", "lib/Dialect/Torch/Transforms/DecomposeComplexOps.cpp::DecomposeAtenNarrowOp", "lib/Dialect/Torch/Transforms/DecomposeComplexOps.cpp::DecomposeAtenHstackOp", "lib/Dialect/Torch/Transforms/DecomposeComplexOps.cpp::DecomposeAtenRot90Op", "lib/Dialect/Torch/Transforms/DecomposeComplexOps.cpp::DecomposeAtenSelectScatterOp", "lib/Dialect/Torch/Transforms/DecomposeComplexOps.cpp::DecomposeAtenMovedimIntOp"]}
{"id": "C92", "title": "Decomposition of shuffles and repetitions", "statement": "The operators that aten.pixel_shuffle, pixel_unshuffle, repeat, tile and repeat_interleave.self_int are decomposed into give the sizes and elements PyTorch defines, whatever is known of the sizes and of the numbers of repetitions, and unshuffling undoes shuffling. aten.channel_shuffle with g groups of c channels becomes the shuffle with c groups of g channels, which is a different one unless g and c are equal; it is right if the lowering of prims.split_dim ignores its argument and uses the type of the result.", "quantifier": "all ranks, sizes, elements, factors, numbers of groups and repetitions, combinations of known and unknown sizes and constants", "why_tests_cant": "Which dimensions are split depends on which sizes and repetitions are constants, with positions shifted by those inserted before; tests see few combinations. The backend used by the tests ignores the wrong argument.", "anchors": ["lib/Dialect/Torch/Transforms/DecomposeComplexOps.cpp::DecomposeAtenPixelShuffleOp", "lib/Dialect/Torch/Transforms/DecomposeComplexOps.cpp::DecomposeAtenPixelUnshuffleOp", "lib/Dialect/Torch/Transforms/DecomposeComplexOps.cpp::DecomposeAtenChannelShuffleOp", "lib/Dialect/Torch/Transforms/DecomposeComplexOps.cpp::DecomposeAtenRepeatOp", "lib/Dialect/Torch/Transforms/DecomposeComplexOps.cpp::DecomposeAtenTileOp", "lib/Dialect/Torch/Transforms/DecomposeComplexOps.cpp::DecomposeAtenRepeatInterleaveSelfIntOp"]}
{"id": "C93", "title": "Lowering of poolings to linalg", "statement": "A max or average pooling lowered to linalg has a result for exactly the places where the window lies in the padded input (with ceil_mode: also where it sticks out less than a stride and starts before the padding at the end). Each element is made of the input elements the window sees, in row-major order, never of padding and never read out of bounds: the greatest of them, or their sum divided by divisor_override, by their number, or with count_include_pad by the number of window positions before the end of the padding. The index returned with a maximum is the row-major position of the first greatest element. Adaptive poolings do the same for the positions that overlap each of the equal parts of a dimension. It fails for indices of NaN or of windows of minus infinities, for adaptive maxima of NaN, and for the divisor with unequal paddings.", "quantifier": "all ranks, sizes, elements, kernels, strides, paddings before and after, dilations, both rounding modes, all places of the result", "why_tests_cant": "Whether a window sticks out, and what is counted, depends on the remainders of sizes by strides and dilations in every dimension at once; the end-to-end tests use a few fixed sizes, random finite numbers and equal paddings.", "anchors": ["lib/Conversion/TorchToLinalg/Pooling.cpp::createPoolingOp", "lib/Conversion/TorchToLinalg/Pooling.cpp::ConvertAtenMaxPoolOp", "lib/Conversion/TorchToLinalg/Pooling.cpp::PoolSizeCalculator::getPoolSize", "lib/Conversion/TorchToLinalg/Pooling.cpp::ConvertAtenAvgPoolOp", "lib/Conversion/TorchToLinalg/Pooling.cpp::ConvertAtenAdaptivePoolOp", "lib/Conversion/TorchToLinalg/Utils.cpp::getOutputDimForPoolOps"]}
{"id": "C94", "title": "Lowering of gathers, embeddings, indexing with tensors and nearest resizing to linalg", "statement": "aten.gather, aten.embedding, aten.index_select and aten.index.Tensor_hacked_twin lowered to linalg have the sizes PyTorch gives them and, for valid indices, exactly the elements of the input that the indices name: x[..., index[idx], ...], the rows of the weight, the selected entries (a scalar counts as one index), and for indexing with several tensors the input at the indices broadcast against each other (negative ones counted from the end), the dimensions of the indices in place of the indexed ones if these are next to each other and in front otherwise. The assertions of gather and embedding fail exactly for invalid indices. aten.embedding_bag sums the rows of each bag; aten.upsample_nearest2d takes each element from the place at its index over the scale, and its backward sums what was taken from each place. It fails where a size of an index that is not known is broadcast, for padding_idx and per_sample_weights of bags, and for scales that are not close enough to a whole number: given only sizes, with k the scale rounded up, exactly if (large / k) * (k * small - large) is at least small.", "quantifier": "all ranks, sizes, elements, indices, dimensions counted from either end, positions of the indices, static and dynamic types, scales", "why_tests_cant": "Where the dimensions of the indices go and how they are aligned depends on which of the dimensions are indexed and on all ranks at once; the end-to-end tests use a few combinations, and sizes and scales at which rounding the scale up makes no difference.", "anchors": ["lib/Conversion/TorchToLinalg/IndirectDataMovement.cpp::createLinalgPayloadCalculationForGatherOps", "lib/Conversion/TorchToLinalg/IndirectDataMovement.cpp::ConvertAtenGatherOp", "lib/Conversion/TorchToLinalg/IndirectDataMovement.cpp::ConvertAtenEmbeddingOp", "lib/Conversion/TorchToLinalg/IndirectDataMovement.cpp::ConvertAtenEmbeddingBagPaddingIdxOp", "lib/Conversion/TorchToLinalg/IndirectDataMovement.cpp::ConvertAtenIndexSelectOp", "lib/Conversion/TorchToLinalg/IndirectDataMovement.cpp::ConvertAtenIndexTensorHackedTwinOp", "lib/Conversion/TorchToLinalg/IndirectDataMovement.cpp::ConvertAtenUpsampleNearest2dOp", "lib/Conversion/TorchToLinalg/IndirectDataMovement.cpp::ConvertAtenUpsampleNearest2dBackwardOp"]}
{"id": "C95", "title": "Lowering of reductions to linalg", "statement": "Every reduction lowered to linalg has the sizes PyTorch gives it, with or without keepdim, for dimensions counted from either end, and each element is computed from exactly the elements reduced to it, each once, in row-major order. Sums and products of integers are those of the numbers, wrapped to the type of the result; aten.all and aten.any say whether all or any elements are not zero; aten.max and aten.min give the greatest and least number; aten.max.dim and aten.min.dim also its first index; norms are the root of the sum of the powers of the absolute values. It fails for sums of uint8 (extended with the sign), for results of eight bits, for the extremes of unsigned integers, all and any of uint8, norms of infinite order (always one), prims.prod with a kept dimension of unknown size (never lowered) and indices of NaN.", "quantifier": "all ranks, sizes, elements, sets of dimensions, keepdim, widths and signedness of integers, orders of norms, static and dynamic types", "why_tests_cant": "The end-to-end tests reduce a few small tensors of float32 and int64 over one or two dimensions; unsigned and narrow integers, infinite norms, empty or repeated dimension lists and dynamic sizes of prims.prod do not occur.", "anchors": ["lib/Conversion/TorchToLinalg/Reduction.cpp::ConvertReductionOp", "lib/Conversion/TorchToLinalg/Reduction.cpp::ConvertAtenMinMaxDimOp", "lib/Conversion/TorchToLinalg/Reduction.cpp::createInitElementForReduceOp", "lib/Conversion/TorchToLinalg/Reduction.cpp::createLinalgPayloadForReduceOp", "lib/Conversion/TorchToLinalg/Utils.cpp::createReductionLinalgGeneric"]}
{"id": "C96", "title": "Lowering of matrix products to linalg", "statement": "aten.matmul, aten.mm and aten.bmm lowered to linalg give, for every entry of the broadcast batch, every row and every column, the sum of the products of the row of the left operand with the column of the right one, in order; vectors are taken as rows or columns and their dimension is dropped. On integers this is the sum of the products of the numbers modulo the width of the result, also of unsigned ones which are extended with their sign; on quantized integers it is the sum of the products of the numbers without their zero points. Sizes to sum over that differ stop the program. It fails for a batch size only known at run time to be one, for an empty batch against a batch of one, for integers with two unknown sizes in a batch (multiplied as floats), for results of eight bits (the compiler stops) and for a vector with a batch of matrices (never lowered).", "quantifier": "all ranks, sizes, batches, elements, arithmetic, widths and signedness of integers, zero points, static and dynamic types", "why_tests_cant": "The end-to-end tests multiply small float32 matrices with mostly equal batches; broadcast batches of several dimensions, unknown sizes equal to one, unsigned and narrow integers and empty batches do not occur together.", "anchors": ["lib/Conversion/TorchToLinalg/Linear.cpp::ConvertAtenMmOp", "lib/Conversion/TorchToLinalg/Linear.cpp::ConvertAtenMatmulOp", "lib/Conversion/TorchToLinalg/Linear.cpp::ConvertAtenBmmOp", "lib/Conversion/TorchToLinalg/Linear.cpp::signShift", "lib/Dialect/Torch/Utils/Utils.cpp::getDefaultAccType"]}
{"id": "C97", "title": "Lowering of padding, zeros, ones and arange to linalg", "statement": "aten.constant_pad_nd lowered to linalg has in each dimension the size before plus the two paddings, given in pairs from the last dimension on, the elements of the input shifted by the first padding and the value everywhere else; paddings that are no pairs or more pairs than dimensions are refused. aten.replication_pad1d, 2d and 3d have at each index the element of the input nearest to it. aten.zeros and aten.ones have the given sizes and the value in every element; pinned memory, sizes that are not a list and types that are not constant are refused. aten.arange.start_step on integers has exactly the numbers start + i * step that are before the end. It fails for negative replication paddings (nothing is cropped), for other than four paddings of replication_pad2d, for ranges of bytes, for steps away from the end (a negative size) and for distances that do not fit into the type of the result.", "quantifier": "all ranks, sizes, elements, paddings, static and dynamic result types, integer widths, starts, ends and steps", "why_tests_cant": "Each padded dimension concatenates slices of the result of the one before, so corners depend on all paddings at once; the end-to-end tests pad a few small shapes, and their ranges are far from the limits of their types.", "anchors": ["lib/Conversion/TorchToLinalg/TensorConstructors.cpp::ConvertAtenConstantPadNdOp", "lib/Conversion/TorchToLinalg/TensorConstructors.cpp::replicationPad", "lib/Conversion/TorchToLinalg/TensorConstructors.cpp::ConvertConstantTensorAllocOp", "lib/Conversion/TorchToLinalg/TensorConstructors.cpp::ConvertAtenArangeStartStepOp"]}
{"id": "C98", "title": "Lowering of convolutions and transposed convolutions to linalg", "statement": "aten.convolution in one to three dimensions lowered to linalg has a result for each place at which the dilated kernel lies in the padded input, and there the bias plus the sum, over the input channels of the group and the kernel, of the products of weight and input, where padding counts as zero. A transposed convolution has at each place the bias plus the sum of the products of all inputs and elements of the kernel that reach this place, also with output padding, and with padding that crops. Single channels as groups, any number of groups, and one dimension with groups are computed alike. Channels that the groups do not divide stop the program; unsupported ranks, biases and quantized cases are refused. Parameters given as a single number are written for each dimension. It fails for groups of integers in three dimensions, for transposed convolutions whose channels are known to be groups, for cropping by kernels of unknown size, for cropping with more output padding than is cropped, and for single parameters beside a complete output padding.", "quantifier": "all sizes, elements of any commutative semiring, strides, paddings, dilations, output paddings, numbers of groups, static and dynamic types", "why_tests_cant": "The lowering pads, dilates, crops and flips, and splits channels into groups by reshaping, with different operations for one, few and as many groups as channels; the tests run a few small shapes, all with static kernels.", "anchors": ["lib/Conversion/TorchToLinalg/Linear.cpp::ConvertAtenConvolutionOp", "lib/Conversion/TorchToLinalg/Linear.cpp::createTransposedInputPadding", "lib/Conversion/TorchToLinalg/Linear.cpp::isValueNegative", "lib/Conversion/TorchToLinalg/Utils.cpp::getOutputDimForConvOps", "lib/Conversion/TorchToLinalg/Utils.cpp::getOutputDimForConvTransposeOps", "lib/Dialect/Torch/IR/TorchOps.cpp::CanonicalizeConvolutionWithSingleIntTuple"]}
{"id": "C99", "title": "Lowering of the gradients of convolutions to linalg", "statement": "aten.convolution_backward lowered to linalg computes each gradient that is wanted: at each input the sum of the gradients of the results it has a part in, times the weight by which it has it; for each weight the sum of the gradients of all results times the inputs it meets, where padding counts as zero; for each bias the sum of the gradients of its channel. These are the adjoints of the lowered aten.convolution: the result paired with its gradient equals the input paired with its gradient, and the weight paired with its, plus the bias paired with its. Transposed convolutions, output padding, other ranks, results that are used but not wanted, and inputs known to be padded by more than the kernel reaches are refused. It fails for gradients of inputs padded by more than a kernel of unknown size reaches, and, with groups, for types of results that are not those of the operands.", "quantifier": "all sizes, elements of any commutative semiring, strides, paddings, dilations, numbers of groups, masks of wanted results, static and dynamic types", "why_tests_cant": "The gradient of the input flips the kernel and scatters or pads the gradient by sizes computed from kernel, dilation and padding; tests run a few shapes and compare with recorded numbers, they do not check the adjoint relation for all parameters.", "anchors": ["lib/Conversion/TorchToLinalg/Linear.cpp::ConvertAtenConvolutionBackwardOp", "lib/Conversion/TorchToLinalg/Linear.cpp::createConvInputGradient", "lib/Conversion/TorchToLinalg/Linear.cpp::createConvWeightGradient", "lib/Conversion/TorchToLinalg/Linear.cpp::createConvAsGenericOp", "lib/Conversion/TorchToLinalg/Utils.cpp::flipTensor"]}
{"id": "C100", "title": "Lowering of unpoolings to linalg", "statement": "aten.max_unpool2d and aten.max_unpool3d lowered to linalg give a tensor of the asked for size that holds each element of the input at the place its index names, counted in row-major order in the spatial dimensions, and zero at all other places, if each index names a place within the strides that begin with its window; so they put the elements of a pooling whose windows are no longer than its strides back where they came from. Sizes that are unknown or differ, output sizes that are not those of the result, and in three dimensions parameters that are not three constants and windows that cannot be told not to overlap, are refused. It fails for poolings in three dimensions with ceil_mode whose windows overlap unnoticed, for poolings in two dimensions whose windows do not have size and stride two, and where the input is larger than half of the output.", "quantifier": "all sizes, strides, paddings, leading dimensions, elements and indices", "why_tests_cant": "Instead of writing to the places that the indices name, each place reads one window found by division and compares the index with its own number; whether this is the same depends on all of strides, paddings and sizes, and fails silently with zeros.", "anchors": ["lib/Conversion/TorchToLinalg/Pooling.cpp::createMaxUnpoolOp", "lib/Conversion/TorchToLinalg/Pooling.cpp::ConvertAtenMaxUnpool3dOp", "lib/Conversion/TorchToLinalg/Pooling.cpp::ConvertAtenMaxUnpool2dOp", "lib/Conversion/TorchToLinalg/Utils.cpp::getPaddedTensor"]}
{"id": "C101", "title": "Decomposition of triangular indices", "statement": "aten.tril_indices and aten.triu_indices with constant parameters are decomposed into arithmetic on ranges, with square roots, whose result is the list of rows and the list of columns of exactly the places of a matrix on and below, or on and above, the diagonal moved by the offset, each once and in row-major order, for all numbers of rows and columns and all offsets, as long as the square root of floating point compares with half-integers like the true one. Parameters that are not constant are refused. It fails for results of type int32, which are allowed, but declared to be int64.", "quantifier": "all numbers of rows and columns, all offsets, all roundings of the square root that compare correctly with half-integers for radicands below the bound given by the sizes", "why_tests_cant": "Row numbers come from rounding down the solution of a quadratic equation, and sizes of trapezoid and rectangle from case distinctions over signs; an error shows only at the ends of rows for particular sizes and offsets.", "anchors": ["lib/Dialect/Torch/Transforms/DecomposeComplexOps.cpp::getTrilSizes", "lib/Dialect/Torch/Transforms/DecomposeComplexOps.cpp::getTriuSizes", "lib/Dialect/Torch/Transforms/DecomposeComplexOps.cpp::DecomposeAtenTrilIndicesOp", "lib/Dialect/Torch/Transforms/DecomposeComplexOps.cpp::DecomposeAtenTriuIndicesOp"]}
{"id": "C102", "title": "Decomposition of buckets, classes and evenly spaced numbers", "statement": "aten.bucketize is decomposed into comparisons and a search for the first that holds, whose result at each place is the bucket of the element there: boundaries before it are below the element, those from it on above, with the comparison that `right` asks for; elements that are not a number come after all boundaries; and the type of the result is the one asked for. aten.one_hot gives a tensor with one more dimension that is one at the place of the class and zero elsewhere. aten.linspace gives evenly spaced numbers from the first to the last limit, converted to the type asked for. It fails without boundaries (a largest element of nothing is asked for), for classes out of range (zeros instead of an error), for one number if the count is not a constant (the program stops), and for integers between limits that are not integers (which are not made integers first).", "quantifier": "all tensors of all sizes, all sorted boundaries with at least one element, all numbers of classes, all rational limits and all counts", "why_tests_cant": "Ties between elements and boundaries, repeated boundaries, elements beyond the last boundary and rounding of single steps are each decided by one comparison, and seldom occur in random tests.", "anchors": ["lib/Dialect/Torch/Transforms/DecomposeComplexOps.cpp::DecomposeAtenBucketizeTensorOp", "lib/Dialect/Torch/Transforms/DecomposeComplexOps.cpp::DecomposeAtenOneHotOp", "lib/Dialect/Torch/Transforms/DecomposeComplexOps.cpp::DecomposeAtenLinspaceOp"]}
{"id": "C103", "title": "Decomposition of operators on single elements", "statement": "aten.softshrink, hardshrink, relu6, hardswish, leaky_relu, nan_to_num, hardsigmoid, hardtanh, trunc, frac, fmod, heaviside, fmax and fmin are replaced by comparisons, selections and arithmetic that give, for each finite element, what the operator is defined to give, and do the right thing for infinite elements and for elements that are not a number: fmax and fmin ignore the latter, limits keep them, infinite elements stay or are limited. It fails for softshrink of elements below the lower limit (which are moved away from zero instead of towards it), for leaky_relu with an infinite slope, for nan_to_num with a replacement that is infinite itself (and is replaced again) and for fmod by an infinite number.", "quantifier": "all finite, infinite and missing numbers as elements, all limits and slopes", "why_tests_cant": "Which branch is taken depends on the element and on parameters; infinite and missing numbers reach other branches than random ones do, and an error in one branch shows only for elements that reach it.", "anchors": ["lib/Dialect/Torch/Transforms/DecomposeComplexOps.cpp::DecomposeAtenSoftshrinkOp", "lib/Dialect/Torch/Transforms/DecomposeComplexOps.cpp::DecomposeAtenNanToNumOp", "lib/Dialect/Torch/Transforms/DecomposeComplexOps.cpp::DecomposeAtenTruncOp", "lib/Dialect/Torch/Transforms/DecomposeComplexOps.cpp::DecomposeAtenFmodTensorOp", "lib/Dialect/Torch/Transforms/DecomposeComplexOps.cpp::DecomposeAtenHeaviside", "lib/Dialect/Torch/Transforms/DecomposeComplexOps.cpp::DecomposeAtenFMaxMinOp", "lib/Dialect/Torch/Transforms/DecomposeComplexOps.cpp::DecomposeAtenHardswishOp"]}
{"id": "C104", "title": "Decomposition of adaptive pooling", "statement": "Adaptive pooling of one and of two dimensions is decomposed into pooling with windows of one size at equal distances. Whenever the assertions that are put into the program hold, and no size asked for is larger than that of the input, the windows are exactly those of adaptive pooling: as many as asked for, each the smallest that contains its part of the input cut into equal parts. In two dimensions the assertions hold if and only if at most one is left by dividing each size by the one asked for, and there are no other sizes for which windows at equal distances would do; in one dimension, if the size asked for is one or that of the input. It fails for an input of size one that is enlarged (all assertions hold, but the distance of windows is zero) and, if shapes are assumed to be strict, for other sizes in one dimension, as the assertion is left out.", "quantifier": "all sizes of the input and all sizes asked for", "why_tests_cant": "That the windows are right rests on divisibility of sizes, so that each pair of sizes is a case of its own.", "anchors": ["lib/Dialect/Torch/Transforms/DecomposeComplexOps.cpp::DecomposeAtenAdaptivePool2dOp", "lib/Dialect/Torch/Transforms/DecomposeComplexOps.cpp::DecomposeAtenAdaptivePool1dOp"]}
{"id": "C105", "title": "Decomposition of padding", "statement": "Padding with reflected or repeated elements whose pads are constants is replaced by the operator of its kind for the smallest number of dimensions that holds all pads that are not zero, with pads that pad the same, if that number is at most three; otherwise it is kept. Pads that are not constants are handed on unchanged for one to three dimensions. Padding with a constant is handed on for any pads, with zero if no constant is given. Other modes, unknown modes, lists not made in the program and odd numbers of constant pads are never replaced. If all pads are the constant zero the operand should be given back; instead the list of pads is read far beyond its end, as the index of the loop is unsigned, and the branch that gives back the operand is never reached.", "quantifier": "all modes, lists of pads and constants", "why_tests_cant": "Which pads are left out depends on the values and the length of the list, and tests pad by something.", "anchors": ["lib/Dialect/Torch/Transforms/DecomposeComplexOps.cpp::DecomposeAtenPadOp"]}
{"id": "C106", "title": "Decomposition of identity matrices, diagonals and gated linear units", "statement": "Identity matrices, square or not, are decomposed into a comparison of two ranges: the result is one on the diagonal and zero elsewhere, and the sizes made up for the types of the ranges are those at run time or unknown. The diagonal of a matrix at any offset has exactly the elements at that offset; a vector becomes a matrix that is zero outside the diagonal and has the vector as its diagonal again; other ranks are kept. The trace is the sum of the diagonal, and the size made up for the type of the diagonal is right even if only one size is known. Gated linear units along any dimension, counted from either end, are the first half times the sigmoid of the second half, and odd sizes fail an assertion. If the number of sizes of the result of an identity matrix is not known, the compiler stops.", "quantifier": "all sizes, offsets, dimensions and elements", "why_tests_cant": "Types made up from partly unknown sizes and offsets beyond a corner of the matrix are cases that depend on all sizes at once.", "anchors": ["lib/Dialect/Torch/Transforms/DecomposeComplexOps.cpp::DecomposeAtenEyeMOp", "lib/Dialect/Torch/Transforms/DecomposeComplexOps.cpp::DecomposeAtenEyeOp", "lib/Dialect/Torch/Transforms/DecomposeComplexOps.cpp::DecomposeAtenDiagOp", "lib/Dialect/Torch/Transforms/DecomposeComplexOps.cpp::DecomposeAtenTraceOp", "lib/Dialect/Torch/Transforms/DecomposeComplexOps.cpp::DecomposeAtenGluOp"]}
{"id": "C107", "title": "Decomposition of operators on single elements into real functions", "statement": "Over the real numbers, the patterns for celu, elu, selu, lerp, prelu, softplus, log_sigmoid, logaddexp, deg2rad and the gradient of tanh give the function that PyTorch documents, for all parameters (celu and softplus for any parameter but zero, also below zero); the gradient of tanh is that of the derivative. Conversion to degrees is right up to one in a million, but off by more than six in ten millions for every angle but zero, as 3.14159 is used for pi, so that conversion back does not give the angle. The gradient of leaky_relu is only right for elements above zero with gradients not below zero: gradients below zero are lost, and below zero the element takes the place of the gradient.", "quantifier": "all real elements, gradients and parameters", "why_tests_cant": "Equality of functions on all reals and of a gradient with a derivative cannot be seen at points; tests with a tolerance of one in a hundred thousand accept the wrong constant.", "anchors": ["lib/Dialect/Torch/Transforms/DecomposeComplexOps.cpp::DecomposeAtenLeakyReluBackwardOp", "lib/Dialect/Torch/Transforms/DecomposeComplexOps.cpp::DecomposeAtenRad2degOp", "lib/Dialect/Torch/Transforms/DecomposeComplexOps.cpp::DecomposeAtenCeluOp", "lib/Dialect/Torch/Transforms/DecomposeComplexOps.cpp::DecomposeAtenEluOp", "lib/Dialect/Torch/Transforms/DecomposeComplexOps.cpp::DecomposeAtenSeluOp", "lib/Dialect/Torch/Transforms/DecomposeComplexOps.cpp::DecomposeAtenTanhBackwardOp", "lib/Dialect/Torch/Transforms/DecomposeComplexOps.cpp::DecomposeAtenSoftplusOp", "lib/Dialect/Torch/Transforms/DecomposeComplexOps.cpp::DecomposeAtenLerpScalarOp"]}
