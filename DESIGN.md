# Formal model of torch-mlir (pinned commit) in Lean 4

## Layout

```
lean/Verif/Py/          Python primitives shared by the models (lists, dicts, errors, ints)
lean/Verif/Model/       the code, function by function; each definition cites file:lines in /repo
lean/Verif/Spec/        small specifications, written without reference to the model's helpers
lean/Verif/Lemmas/      helper lemmas (nothing here is claimed)
lean/Verif/Props/       the property theorems C01.. , each with satisfiable examples beside it
```

`properties.jsonl` has the English statements, `MANIFEST.json` maps them to theorem names,
`seeded/LOG.jsonl` records the mutation experiments.

## Trusted base

* Lean 4.33 kernel. Every claimed theorem depends on at most `propext`, `Classical.choice` and `Quot.sound`
  (checked with `#print axioms` on every theorem named in MANIFEST.json). No `sorry`, no added axioms, no
  `native_decide`, no `bv_decide`.
* The transcription of Python/C++ into Lean (by hand, cited line by line). Nothing was executed.
* Out of the model everywhere: the MLIR C++ core (parsing, verification, pass manager), PyTorch itself
  (what an aten op computes; what `torch.export` produces beyond the invariants it documents),
  protobuf, floating point rounding (floats are modelled as rationals or left abstract where said so; only the
  doubles inside the folder of `aten.floordiv.int` are rounded, to 53 bits, ties to even, without overflow).
* C++ signed overflow is undefined behaviour in the model of the folders (`Res.undef`); `APInt` arithmetic wraps. The theorems of
  C71 speak about executions in which the operator itself does not overflow.

## Conventions

* Python exceptions are values: `Except PyErr α`. Assertion failures, `KeyError`, `IndexError`,
  `NotImplementedError` ... are distinct constructors, so "raises" is visible in theorems.
* Python ints are `Int` (unbounded); `//` is `Int.fdiv`, `%` is `Int.fmod`.
* Python dicts are association lists with "last assignment wins" look-up and insertion order.
* Where the code violates the property a theorem `…_violated` exhibits a concrete witness and a
  `…_partial` theorem proves the claim on the largest natural sub-domain.

## Plan per property

| id | modelled | how proved |
|----|----------|------------|
| C01 | `fx_as_strided._indices`, `_rewrite` index list | induction on the dim list: greedy decode invariant `remaining + Σ = offset`; out-of-bounds test gives bounds; row-major enumeration spec |
| C02 | same | mixed-radix lemma for dense layouts, permutation of strictly nested strides |
| C03 | `_constant` name loop | loop terminates (finite set of names) with a fresh name; induction over rewrites |
| C04 | GraphNodeImporter state machine (values map, lazy table, emitted ops) | invariant by induction over nodes and nested arguments |
| C05 | lazy import callbacks | same invariant: ≤1 literal per key |
| C06 | `_import_torch_op_overload` operand loop | equality with a Python call-binding spec |
| C07 | mutation tables of import_program, `_on_node_produced` | partial: distinct producers bound after registration; violation witness |
| C08 | `_import_argument` get_attr branch | violation witness (second use raises); partial for ≤ 1 argument-position use |
| C09 | import_graph_module naming | violation witness; partial when no user name has the generated form |
| C10 | RefTracker with an allocator history | violation witness (id reuse); partial for histories where tracked objects stay alive |
| C11 | TypeSubclassMap | cache-transparency invariant for register-then-lookup histories; violation for late registration |
| C12 | `_import_getitem`, multi-result cache | invariant over request histories |
| C13 | sympy → affine | structural induction on expressions; evaluation semantics both sides |
| C14 | `_import_symbolic_torch_op` | decision table; violation for lt/ge/gt mixed; partial for the rest |
| C15 | `_import_hop_while_loop` emitted loop | operational semantics of prim.Loop; induction on iterations |
| C16 | set_symbolic_guards bound conversion | rational floor/ceil |
| C17 | `_create_bind_symbolic_shape_ops` | substitution lemma through sorted symbol list |
| C18 | dtype tables | finite tables, exhaustive; violation (complex64) |
| C19 | format_asm_shape + parser | printer/parser round trip by induction |
| C20 | sparsity_encoding | counting lemmas on generated lists |
| C21 | import_program signature walk | list filter/map equalities |
| C22 | string comparison of versions | violation witness; partial for single-digit components |
| C23–C30 | onnx_importer: GraphInfo, NodeImporter, Config, ModuleCache, type conversion, `_sanitize_name`, `_bind_attributes_on_node` | state-machine invariants / decision logic; violations where found |
| C31–C43 | shape library: upstream functions (from AbstractInterpLibrary.cpp) and torch-mlir ones | functional correctness against counting/semantic specs |
| C44–C45 | promoteTypes table, ResultTypeState, DecomposePromoteDtypesOp | finite semilattice facts lifted to unbounded folds; violations for ComplexHalf and 8-bit floats |
| C46–C47 | isValidSubtype, meetTensorTypes | well-founded induction on types; denotational semantics |
| C48–C49 | reporting.py | induction on nested values; violations |
| C50 | refbackend return decoding | closure-cell semantics; violation |
| C51 | registry names | violation witness / partial injectivity |
| C52 | _dynamo_fx_importer operand loop | violation; partial |
| C53 | TensorPlaceholder, ExampleArgs | list lemmas; violation for rank 0 dtype |
| C54 | run_pipeline_with_repro_report, import and compile as sequences of arbitrary steps on a world with `sys.stderr` | every outcome of every step |
| C55 | `promote_dtypes` of library_generator.py against the compiler's promotion | finite semilattice per category, induction over operand lists; violation for three operands |
| C56 | `_import_hop_while_loop` with additional inputs | violation witness; the rest is C15 |
| C57 | parser and printer of `!torch.vtensor` / `!torch.tensor` (TorchTypes.cpp) | character-level round trip, encodings and unusual element types are parameters |
| C58 | block sizes of sparsity_encoding | list lemmas; violation for BSC |
| C59–C62 | shape functions expand/repeat/tile, diagonals, squeeze/unsqueeze/select/embedding, unfold/stft | functional correctness; violations |
| C63–C64 | whole ONNX model import: function table, attributes, opset | induction over the expansion work-list; violation |
| C65–C66 | registry function names, read-only and value-semantics traits | split/join lemmas; case analysis |
| C67 | whole `import_fx_graph_as_func` of `_dynamo_fx_importer.py` | simulation: FX interpreter against an interpreter of the emitted ops, induction over nodes |
| C68 | `OutputType.get` | case folding lemmas over the finite name table |
| C69–C70 | the two patterns of MaximizeValueSemantics on a block; semantics of blocks with mutable memory divided into regions | simulation, induction over the block; violations for the second pattern |
| C71–C73 | folders and patterns of scalar operators (TorchOps.cpp): integer arithmetic, comparisons, truth values, identity | operand definitions as a context, executions as valuations consistent with it; rounding lemmas for doubles; violations |
| C74 | folders and patterns on list literals | executions give lists their contents; slices by splitting the range of indices; violations for mutated lists and negative steps |
| C75 | `AtenSliceTensorOp::fold` on constant tensors | row-major enumeration; the loop with fuel; violations (strides that do not divide) |
| C76 | `AbstractlyInterpretListOpsWithinABlock` | simulation of a block with one list; violations |
| C77 | `FullyUnrollPrimLoopOp` | simulation through the value mapping, induction over iterations; violations (loops that stop early, negative trip counts, outer yields) |
| C78 | `tm_tensor.sort` as loops, `aten.sort` onto it | buffers as functions of multi-indices; the loop nest visits a lane's positions in order, lanes do not interfere; bubble sort with tagged elements (permutation, order, stability) |
| C79 | `tm_tensor.scan` as loops, cumsum/cumprod onto it | lane decomposition, induction along the lane |
| C80 | `tm_tensor.scatter` as loops, `aten.scatter.src`/`scatter_add` onto it | value at a position = fold over the updates that hit it, in order |
| C81 | `tm_tensor.topk` as loops, `aten.kthvalue` onto it | insertion into the k best: invariant after each element |
| C82 | `InlineGlobalSlots`: the analysis and the pass, run against every use of a module | heaps with objects, a map from the objects after to the objects before (many to one only on objects that cannot change); replay of the initializer; least fixed point |
| C83 | `TorchToSCF`: if, while-like and for-like loops | nested blocks, structural recursion with a bound on iterations per loop; environments that agree on the names used; violations (trip count of while, condition of for) |
| C84 | `aten.slice.Tensor`, `aten.slice_scatter` onto `tensor.extract_slice`/`insert_slice` (64-bit index arithmetic) | tensors as partial functions of multi-indices; the positions of C75's slices; violations (start past the end with a negative step, huge steps) |
| C85 | `aten.reflection_pad1d/2d` as tiles | element of the tiled result = element of the reflected index, by cases on the tile; violation of the assertion |
| C86 | `aten.diagonal`, `aten.diag_embed`, `aten.unfold` onto linalg | index lists with positions removed and inserted; sizes as counts; violations |
| C87 | `aten.flip`, `aten.transpose.int`, `aten.permute`, `aten.cat` onto linalg | permutations of index lists; partial sums of sizes; violations (operands not known to be empty) |
| C88 | `broadcastToGivenShape`, `aten.broadcast_to`, `aten.copy`, `createElementwiseLinalgGeneric` | static and dynamic sizes, collapse of unit dimensions; violation (dynamic size 1) |
| C89 | `aten.view` (general lowering and fallback), `aten.flatten.using_ints` | soundness for all types; completeness by invariants of the matching loops; violations |
| C90 | `aten.unsqueeze`, `aten.squeeze.dim`, `aten.squeeze`, `aten.unflatten.int` | closed forms of the loops over reassociation groups; soundness for all types; violations |
| C91 | decompositions of select, split, narrow, roll, stack, hstack, flips, rot90, t, movedim, select_scatter, atleast, prims.squeeze | meaning of the primitive operators; each decomposition against a specification by index; violations |
| C92 | decompositions of pixel_shuffle, pixel_unshuffle, channel_shuffle, repeat, tile, repeat_interleave | splits and merges through row-major positions; loops of `repeat` by induction over what is known; violation |
| C93 | max, average and adaptive poolings to linalg: sizes, elements, indices, divisors | windows as filtered products of dimensions; rounding of divisions by Galois connections; counting of positions; folds over loops; violations |
| C94 | gather, embedding, bags, index_select, indexing with tensors, nearest resizing to linalg | alignment of indices from the end by induction over ranks; adjacency of positions; folds over rows; rounding of the scale characterised by an inequality; violations |
| C95 | reductions to linalg: sum, prod, max, min, all, any, norms, prims.prod, max.dim, min.dim | invariant of the fold over all positions: every element has seen its lane; wrapping sums as numbers modulo a power of two; order keys for extremes and first indices; violations |
| C96 | matrix products to linalg: matmul, mm, bmm, integer and quantized ones | elements of contractions as folds; batches by the broadcast lemmas of C88 and the reshapes of C90; sums modulo a power of two; violations |
| C97 | padding, zeros, ones and ranges to linalg | invariant of the loop of `replicationPad` (dimensions padded so far); bounds of the division rounding up; violations |
| C98 | convolutions to linalg | sums over index lists (congruence, reflection, a single non-zero term); per-dimension invariants of padding, dilating and cropping; 1-d groups by reduction to 2-d; violations |
| C99 | gradients of convolutions to linalg | the scattered or padded gradient read at an index is what the forward kernel reached from there; sums exchanged (induction over index lists) give the adjoint relation with C98; violations |
| C100 | unpoolings to linalg | each place reads the window found by division; an index within its window is found there (positions of indices in range are injective), padding holds no index; windows of poolings no longer than their strides are such; violations |
| C101 | decomposition of triangular indices | rows put one after the other (induction on the number of rows); the rounded down root is the row by completing the square; sizes of the upper triangle by counting both triangles (induction on rows); violation |
| C102 | decomposition of buckets, classes and evenly spaced numbers | the first largest of truth values by induction on their number; from the first comparison that holds on all hold, as boundaries are sorted; spacing by algebra, rounding by the properties of floor and ceiling; violations |
| C103 | decomposition of operators on single elements | cases on the kind of number (finite, infinite, missing) and on the comparisons; rounding by the properties of floor and ceiling; violations |
| C104 | decomposition of adaptive pooling | the size is a multiple of the one asked for plus a remainder; the assertions leave remainders 0 and 1, for which ends of windows follow by inequalities of products; completeness from the second and the last window; violations |
| C105 | decomposition of padding | induction on the pairs of pads that the loop has still to look at: it stops with the smallest number of dimensions that holds all pads that are not zero, or leaves the list; violations |
| C106 | decomposition of identity matrices, diagonals and gated linear units | sizes by linear arithmetic; sum over the diagonal by induction on its length; making a matrix of a diagonal and taking the diagonal again; violation |
| C107 | decomposition of operators into real functions | case distinction on signs, identities of real functions and their derivatives from Mathlib, bounds of pi; violations |

## What is modelled, file by file

Every definition cites its lines; this is the summary of what is in and what is out.

| source | modelled | not modelled |
|--------|----------|--------------|
| `python/torch_mlir/extras/fx_as_strided.py` | `_indices`, the names and attributes of `_constant`, choice of offset in `_rewrite`, `_base`, `_storage_operand`, `_same_storage_arg` | int64 overflow; `rewrite_as_strided` and the FX graph surgery of `_rewrite` (new nodes, erasure), reading of arguments (`_arg`, `_ints`, `_int`) |
| `python/torch_mlir/extras/fx_importer.py` | dtype tables 154–267, built-ins 285–299, sympy→affine 342–398, sparsity 401–457, import_program and its signature walk 614–879 except hooks' own bodies, graph/stateless import 1007–1139, shape text and vtensor types 1187–1219 and 1307–1312, guards 1337–1388, GraphNodeImporter 1394–2514 (placeholders, lazy tables, call_function, getitem, the while_loop, auto_functionalized and flex_attention HOPs, symbolic ops, arguments, lists, literals), tensor literals 2539–2589, TypeSubclassMap 2597–2629, RefTracker 2687–2728, literal converter table 2736–2806 | import_frozen_program, the choice of type in value_info_to_type and tensor_metadata_to_type (1231–1294), the bodies of the canonicalizers 2863–2936 (`node_canonicalize` is a parameter), hooks (parameters), locations, contents of tensors, torch.export itself |
| `python/torch_mlir/extras/onnx_importer.py` | Config, GraphInfo, NodeImporter, type conversion, names, attributes and their binding, function expansion, ModuleCache (78–1236) | `ModelInfo`, the unused `_get_immediate_tensor` and `_shallow_copy_and_clear_protobuf_list`, locations, bytes of tensors (uninterpreted), the caches of types, protobuf defaults beyond the fields read; onnx.shape_inference and onnx.defs are parameters |
| `python/torch_mlir/compiler_utils.py`, `projects/pt1/.../torchscript.py` | TensorPlaceholder, OutputType.get, run_pipeline_with_repro_report, ExampleArgs, compile's import/lowering skeleton | message texts, torch.jit itself |
| `projects/pt1/.../_dynamo_fx_importer.py` | checks, operand loop, literals, getitem, outputs | texts of tensor types 129–175, locations, messages |
| `lib/Dialect/Torch/IR/TorchTypes.cpp`, `TorchTypes.h` | isValidSubtype, meetTensorTypes, parser/printer of tensor types | other types' parsers |
| `lib/Dialect/Torch/Utils/TorchUpstream.cpp`, `SimplifyDtypeCalculations.cpp` | promoteTypes, ResultTypeState, DecomposePromoteDtypesOp | rewriting infrastructure |
| `lib/Dialect/Torch/Transforms/AbstractInterpLibrary.cpp` and `abstract_interp_lib_gen.py` | the shape functions named in C31–C43, C59–C62, written from the Python source where it exists and from the library text otherwise | dtype functions; shape functions not named |
| `projects/pt1/.../build_tools/registry.py`, `library_generator.py`, `torch_ods_gen.py` | names, keys, traits, promote_dtypes, function-name check | schema text parsing, emission of TableGen text |
| `projects/pt1/.../torch_mlir_e2e_test/{reporting,framework}.py`, `main.py`, `refbackend.py`, `RefBackend.cpp` | value comparison, reports, exit status, callback names and conversion | multiprocessing, ctypes and memory, torch.allclose on real bit patterns (values are rationals, NaN, ±∞) |
| `lib/Dialect/Torch/Transforms/MaximizeValueSemantics.cpp`, `copyTensorToType` of `TorchOps.cpp` | both patterns within one block | sizes and dtypes of types, operations in other blocks, the greedy driver |
| `lib/Dialect/Torch/IR/TorchOps.cpp` | the folders and patterns named in C71–C74: add/sub/mul/neg/min/max/remainder/floordiv.int, __range_length, __derive_index, comparisons of ints and floats, div.float, Bool.int, Int.bool, not/or/eq/ne.bool, is/is_not, len.t, getitem.t (literal), contains.int_list, any/all.bool, add.t, mul.left_t, slice.t, eq.int_list, prim.min.self_int; C75: slice.Tensor, select.int | folders of other tensor operators, other canonicalizations, sort.int, the greedy driver |
| `lib/Dialect/Torch/Transforms/SimplifyAbstractInterpCalculationsUtils.cpp` | loop unrolling 34–101 (operations with regions by the names they use); list interpretation 105–257 (a block with one list under consideration; users in regions are represented by the enclosing operation) | unchecked casts, aliases of lists through containers |
| `lib/Dialect/TMTensor/IR/TMTensorOps.cpp`, `lib/Dialect/TMTensor/Transforms/ConvertToLoops.cpp` | loop nest; sort, scan, scatter (with the shape checks of its verifier) and topk as loops, on buffers | attention 142–400, other verifiers, bufferization, parsing and printing |
| `lib/Conversion/TorchToTMTensor/TorchToTMTensor.cpp` (with `BackendTypeConversion.cpp` 177–194, `Torch/Utils/Utils.cpp` 25–31) | sort 1469–1552, cumsum and cumprod 1555–1714 after the conversion of the dtype, scatter.src and scatter_add 431–490 with 87–233, kthvalue 2041–2500 for static dimensions | bincount, scatter_reduce, index_put, max_pool backward, attention; the `keepdim` reshape; where `src` is read; tensor-to-buffer conversion |
| `lib/Dialect/Torch/Transforms/InlineGlobalSlots.cpp` | all: trivially safe types, uses, transfer function, the fixed point (all points again and again), slices, replacement, initializer; `initialize` in walk order on its own | MLIR's solver; `adjustStaticInformation`; operations with several results; calls and loops (their operands are unsafe); assertions |
| `lib/Conversion/TorchToSCF/TorchToSCF.cpp` | all patterns: `prim.If`, while-like and for-like `prim.Loop`, terminators; `isForLike` (TorchOps.cpp) | conversions between Torch and builtin types (identity); types that cannot be converted; order of the driver |
| `lib/Conversion/TorchToLinalg/DataMovement.cpp`, `TorchToLinalg/Utils.cpp`, `Conversion/Utils/Utils.cpp` | `prepareArgumentsForSlicingOp`, `aten.slice.Tensor`, `aten.slice_scatter`, `flipTensor`, `toPositiveValidDim` (C84); `aten.reflection_pad1d/2d` (C85); `aten.diagonal`, `aten.diag_embed`, `aten.unfold` (C86); `aten.transpose.int`, `aten.permute`, `permuteTensor`, `aten.cat`, and `aten.flip` of `Linear.cpp` (C87); `broadcastToGivenShape`, `aten.broadcast_to`, `aten.copy`, `createElementwiseLinalgGeneric` (C88); `aten.view` (`ConvertAtenViewOp` with its helpers, `ConvertAtenViewOpToReshape`), `aten.flatten.using_ints` (C89); `aten.unsqueeze`, `aten.squeeze.dim`, `aten.squeeze`, `aten.unflatten.int`, `squeezeTensor`, `unsqueezeTensor` (C90; `expand_shape`/`collapse_shape` fail unless the types verify, a scalar only comes from sizes known to be one) | casts between static and dynamic sizes; types of elements; the ops of the `tensor` and `linalg` dialects themselves, which are given by their documentation |
| `lib/Dialect/Torch/Transforms/DecomposeComplexOps.cpp` (data movement) | the patterns for fliplr, flipud, select.int, split_with_sizes, narrow, roll, stack, hstack, t, numpy_T, movedim, rot90, select_scatter, prims.squeeze, atleast_1d, atleast_2d (`Model/DecMove.lean`), pixel_shuffle, pixel_unshuffle, channel_shuffle, repeat, tile, repeat_interleave.self_int (`Model/DecShape.lean`): what the created operators compute | the types given to the created operators, except for channel_shuffle; the primitive operators (`Model/AtenOps.lean`, `splitDim`, `collapse`, `expand`) are read as PyTorch defines them |
| `lib/Conversion/TorchToLinalg/Pooling.cpp`, `Utils.cpp` (`getOutputDimForPoolOps`) | `computeOutputTensor`, `padInputTensor`, `createPoolingOp`, `createPoolingMax3D`, `computeMaxPoolingIndices`, `getPoolSize`, `doesAvgPoolDivisorNeedsClamping`, the divisors, `ConvertAtenAdaptivePoolOp` with both helpers (`Model/LinPool.lean`) | the named linalg operators are taken to reduce in row-major order; permutations of the three-dimensional sum, conversions of element types, the wrapping of 64-bit arithmetic (except in the unsigned comparison of sizes), negative zero; max_unpool |
| `lib/Conversion/TorchToLinalg/IndirectDataMovement.cpp` | all patterns: gather, embedding, embedding_bag, index_select, index.Tensor_hacked_twin, upsample_nearest2d and its backward (`Model/LinIndirect.lean`) | the second to fourth results of embedding_bag, the rounding of scales and quotients as floating-point numbers, the wrapping of 64-bit arithmetic, the checks that arguments are constants or listed, conversions of element types |
| `lib/Conversion/TorchToLinalg/Reduction.cpp`, `Utils.cpp` (createReductionLinalgGeneric) | all patterns: the choice of dimensions, the loops, payloads and initial values on integers, norms over any floats, max.dim and min.dim with their expansion of shapes (`Model/LinReduce.lean`) | complex numbers, the rounding of floats, initial values without infinities, the cast to the type of the result of `ConvertReductionOp`, the checks that arguments are constants |
| `lib/Conversion/TorchToLinalg/Linear.cpp` 31-246, 282-804 | mm, matmul, bmm: ranks, broadcast of batches, collapse and expansion of batches, widths of integer sums, shifts of quantized integers (`Model/LinMatmul.lean`) | the arithmetic of floats (a parameter), the checks of element types, sparse operands of mm, flip, convolutions; named linalg operations take the size they sum over from the left operand |
| `lib/Conversion/TorchToLinalg/TensorConstructors.cpp` 31-374, 489-570 | constant_pad_nd, replication_pad1d/2d/3d, zeros, ones, arange.start_step on integers (`Model/LinCtor.lean`) | the conversion of the value to pad with, negative constant paddings, aten.empty, ranges of floats, the wrapping of sizes |
| `lib/Conversion/TorchToLinalg/Linear.cpp` 813-1754, `lib/Conversion/TorchToLinalg/Utils.cpp` 66-135, 184-208, `lib/Dialect/Torch/IR/TorchOps.cpp` 5876-5882, 6053-6196 | aten.convolution, plain, grouped, depthwise and transposed, and the expansion of single parameters (`Model/LinConv.lean`) | the arithmetic of elements is any commutative semiring (floating point is idealised as exact), the shift of unsigned quantized elements, the conversion of the bias, permutations around quantized operations, strides and dilations that are not constant, static sizes that contradict each other |
| `lib/Conversion/TorchToLinalg/Linear.cpp` 1756-2375, `lib/Conversion/TorchToLinalg/Utils.cpp` 734-771 | aten.convolution_backward: gradients of input, weight and bias (`Model/LinConvBack.lean`) | the arithmetic of elements is any commutative semiring (floating point is idealised as exact), types of elements that differ or are not floating point, parameters that are not constant, channels that the groups do not divide |
| `lib/Conversion/TorchToLinalg/Pooling.cpp` 216-382, 761-923, `lib/Conversion/TorchToLinalg/Utils.cpp` 31-46 | aten.max_unpool2d, aten.max_unpool3d (`Model/LinUnpool.lean`) | numbers of `index` are not bounded, leading dimensions of the result type that contradict the operand |
| `lib/Dialect/Torch/Transforms/DecomposeComplexOps.cpp` 772-1275 | aten.tril_indices, aten.triu_indices (`Model/DecTri.lean`) | `int64_t` is not bounded; numbers of type f64 are rational and computed with exactly but for the square root, of which only comparisons with half-integers below a bound are assumed; layout, device and pinned memory |
| `lib/Dialect/Torch/Transforms/DecomposeComplexOps.cpp` 2990-3093, 10981-11062, 11790-11841 | aten.bucketize, aten.linspace, aten.one_hot (`Model/DecBucket.lean`) | integers are not bounded; numbers of floating point are rational and computed with exactly, or not a number; boundaries are numbers; the operators of ATen that are made are given by what PyTorch says of them; broadcasting only of a last size 1 with a tensor of one dimension; static types of intermediate results, sparsity, layout, device and pinned memory |
| `lib/Dialect/Torch/Transforms/DecomposeComplexOps.cpp` 1797-1807, 3295-3400, 4193-4288, 5660-5714, 7608-7671, 9883-9978, 10038-10072, 12246-12295, 12305-12365, 13020-13050 | aten.isnan, softshrink, hardshrink, relu6, hardswish, leaky_relu, nan_to_num, hardsigmoid, hardtanh, trunc, frac, fmod, sgn, heaviside, fmax, fmin (`Model/DecPoint.lean`) | numbers of floating point are rational, infinite or missing and computed with exactly, with one zero; only what happens to one element: broadcasting, types and the refusals for missing types are left out; elements that are integers; aten.fix, signbit, copysign and ldexp between these lines |
| `lib/Dialect/Torch/Transforms/DecomposeComplexOps.cpp` 9517-9602, 9619-9756 | aten.adaptive_avg_pool1d/2d, aten.adaptive_max_pool1d/2d (`Model/DecAdapt.lean`) | integers are not bounded; windows instead of pooled values; indices of the largest elements |
| `lib/Dialect/Torch/Transforms/DecomposeComplexOps.cpp` 9304-9409 | aten.pad (`Model/DecPad.lean`) | integers are not bounded; the operator made is given by its name and its pads; types |
| `lib/Dialect/Torch/Transforms/DecomposeComplexOps.cpp` 1640-1681, 1699-1794, 2209-2296 | aten.glu, aten.eye, aten.eye.m, aten.diag, aten.trace (`Model/DecEye.lean`) | integers are not bounded; aten.diagonal, aten.diag_embed, aten.narrow and aten.sum as PyTorch says; most types |
| `lib/Dialect/Torch/Transforms/DecomposeComplexOps.cpp` 1279-1314, 2723-2750, 3230-3263, 4293-4333, 4390-4413, 4590-4790, 7382-7410, 9803-9813 | aten.deg2rad, rad2deg, tanh_backward, log_sigmoid, logaddexp, leaky_relu_backward, prelu, celu, lerp, elu, selu, softplus (`Model/DecReal.lean`) | real numbers, so no rounding, infinities or NaN; types |

## Disagreements between code and property

Each has a Lean witness where a theorem name is given (`…_violated…`); the rest are observations made while modelling
which no claimed theorem depends on.

*FX importer.*
C02: a dense layout with equal strides next to an extent of one is rejected (`C02_violated`).
C07: mutation hooks are keyed by producer name, so two mutations by one producer, or a producer which is an input, are lost (`C07_violated`).
C08: the second use of a `get_attr` node as an argument raises, because `(arg.target, 0) not in self._v` compares with the wrong key (`C08_violated`).
C09: generated symbols may equal a user's (`f_0`), a child named like the program is renamed (`C09_*violated`).
C10: `RefTracker` is keyed by `id`, reused after garbage collection; also for the temporary uint8 copies of Boolean tensors (`C10_violated`, `C10_bool_violated`).
C11: a failed look-up is memoised, order of registration matters (`C11_violated`, `C11_order_violated`).
C14: `mod` becomes `aten.fmod`; `int < float`, `int >= float`, `int > float` swap operands without mirroring (`C14_*violated`).
C16: guards of a previous program are kept (`C16_violated`). C17: homonymous symbols (`C17_violated`).
C18: quantised and complex entries of the tables disagree (`C18_*violated`).
C21: constant outputs are looked up by output-spec index but stored by user position (`C21_constant_output_violated`).
C22: versions compared as strings (`C22_violated`). C56: while_loop with additional inputs. C58: BSC block sizes swapped.
Observations: a list argument with expected type None → UnboundLocalError; surplus positional arguments and unknown keywords are ignored;
`lift_fresh_copy_out` reads `node.args[1]` after truncating; `value_info_to_type`'s last raise names an undefined variable; `dtype_to_type` catches IndexError but the dict raises KeyError.

*ONNX importer.*
C24: duplicate inputs collapse. C25: outer names override a subgraph's inputs; an unnamed Constant rebinds its tensor's name.
C27: bodies of functions are expanded with the default Config. C28: an absent shape becomes rank 0. C29: dots and non-ASCII letters survive sanitising.
C30: references in subgraphs are not substituted, lists of graphs → NameError, calls without inputs → UnboundLocalError. C64: the recorded opset is the last default import, the one used is the first.
C23: a domain without opset import → UnboundLocalError instead of OnnxImportError.
Observations: "Constant" is special whatever its domain; `find_type` in a subgraph ignores the outer graph; duplicate graph attributes leave a region absent; `--clear-domain` only clears top-level nodes; dim_value −1 means dynamic.

*Shape library.*
C32: start = INT64_MAX and missing bounds with a negative step; narrow accepts bad starts. C33: unflatten with dim < −rank, `_unsafe_view` unchecked.
C34: 3-d pooling's omitted stride uses the kernel depth everywhere, max_pool1d ignores dilation, 1-d pooling/convolution unchecked, conv_tbc uses untransposed sizes.
C35: `same` rounds down and pairs dilations in reverse. C37: index lists of gaps only. C38: movedim accepts repeated destinations, `t` of wrong ranks.
C39: rank 0 accepts any dim; count_nonzero of rank 0 raises. C41: inner sizes of batched products unchecked, addmm broadcasts, baddbmm ignores self, dot unchecked.
C42/C60: cosine_similarity, repeat_interleave, diag_embed with negative dims. C43: seven binary operations return the first operand's shape.
C59: expand_as unchecked, expand accepts negative sizes on extents of one. C62: unfold with step ≤ 0, stft.center with odd n_fft.
Observations: fft_rfft/fft_fft ignore n; topk accepts negative k; rot90 accepts equal dims; column_stack mutates its argument.

*Types and promotion.* C44/C45: complex32 and 8-/4-bit floats. C46/C47: sparse encodings ignored; two unranked mutable tensors. C55: three operands. C57: an encoding without sizes and dtype.

*Value semantics.* C70: `other.expand_as(copy)` is turned into a value although `other` may be overwritten before it is read; returned copies lose their kind.
Observations: the first pattern also copies returned non-value tensors that have nothing to do with the copy (a returned argument is no longer the argument); an operation reached through two operands is visited, and erased, twice by the second pattern.

*Folders.* C71: `remainder.int` truncates (−7 % 3 folds to −1), `floordiv.int` goes through doubles (wrong beyond 2^53, undefined for 0), `__range_length` is negative for empty ranges and undefined for step 0, `div.float` folds 0.0/x to 0.0 for every x.
C72: `x == x` and `x >= x` fold to true although x may be NaN; `is None` folds to false for `!torch.any` and unions. C73: `c // (c*x)` becomes `x`.
C74: `slice.t` with a negative step gives an empty list or reads outside the list, slicing the empty literal reads its first element; `eq.int_list` and `prim.min.self_int` do not ask whether the literal is mutated.
C75: `slice.Tensor` by a step that does not divide twice the distance never ends (0:10:3, the example of the comment); by a negative step that does not divide the distance the last element is lost and an error reported; `select.int` at a negative index reads in front of the constant.
Observations: `sort.int` replaces all uses of the list, also those before the sort, and does not ask whether the list was mutated before; `isListPotentiallyMutated` does not look through containers.

*Shape calculation.* C76: after a mutation of the list that the pattern does not understand its second loop goes on and reads `listLiterals` past the end (`C76_unknown_violated`); a list put into another list before it is appended to is replaced there by a literal defined later (`C76_nested_violated`).
C77: `isForLike` only asks for the initial condition, so a loop whose condition becomes false is unrolled to its trip count (`C77_condition_violated`); yielding a value from outside the loop, or a negative trip count, trips an assertion (`C77_undef_violated`).

*TMTensor.* The backend types are signless, so every comparison made from them is signed. C78: uint8 200 sorts before 100, `true` before `false`; a NaN compares as out of order with everything and stays where it stops (`C78_violated_*`).
C79: an inclusive scan over one element does not write the accumulator (`C79_violated_accumulator`). C80: the verifier of scatter accepts a dimension map that leaves a dimension without an index, and the loop then uses a null value; `aten.scatter.src` with a negative dimension indexes a vector with it (`C80_violated_*`).
C81: `aten.kthvalue` fills its outputs with 255 for uint8 and compares it as −1: `[3, 5]` gives 255 at place 2147483647; NaN gives an infinity; among elements that differ and compare as equal `tm_tensor.topk` exchanges the indices and not the values (`C81_violated_*`).

*Global slots.* C82: `prim.If.yield` and `func.return` are free of memory effects and have no results, so a slot's tensor that leaves a branch or a function counts as safe although it can be mutated there; the slot is inlined and the mutation lost (`C82_violated_branch`, `C82_violated_return`). `initialize` sets the state of a slot when it comes to its definition: a `global_slot.set` earlier in the module is forgotten, or trips the assertion (`C82_violated_order`).

*Control flow.* C83: a loop counts as for-like when its initial condition is the constant `true`, whatever the condition its body ends with; the latter is dropped (`C83_violated_condition`: an early exit is lost). While-like loops lose their trip count (`C83_violated_trip`) and the induction variable, whose uses are left behind (`C83_violated_induction`). Loops made by TorchScript from `for` without `break` and `while` without counter satisfy `Plain`.

*Slices in linalg.* C84: with a negative step (ONNX has them) a start is clamped to the size and not to the size minus one, so that a start at or past the end yields one element too many, read from outside (`C84_violated_start`; also of an empty dimension, `C84_violated_empty`); absent bounds are those of a positive step (`C84_violated_default`); the size overflows for steps close to the largest integer (`C84_violated_step`).

*Reflection padding.* C85: the assertions of `reflection_pad2d` say `pad <= size` where `pad < size` is needed; a padding as large as the dimension passes and reads one element outside (`C85_violated_assertion`). `reflection_pad1d` asserts nothing (`C85_violated_1d`). Negative paddings, which PyTorch also rejects, are outside of the theorems.

*Diagonals, windows.* C86: `aten.diag_embed` with an offset of a tensor whose last dimension is empty reads from outside: the index is clamped with an unsigned minimum by size minus one, which is then the largest unsigned number (`C86_violated_embed`). `aten.unfold` does not check the size of the window for scalars (`C86_violated_scalar`).

*Flips, concatenation.* C87: a dimension named twice by `aten.flip` is not flipped (PyTorch rejects it, `C87_violated_flip`). `aten.cat` of operands all known to be empty makes a `tensor.concat` without operands, which does not verify (`C87_violated_empty`; `tensor.concat` wants at least one). An operand of size `[0]` whose size is not known statically is not dropped, and concatenated with operands of another rank (`C87_violated_dynamic`).

*Broadcasting.* C88: `aten.copy` does not broadcast a dimension of size one of which this is not known, if the size of the destination is not known either, and reads from outside (`C88_violated_copy`; `aten.broadcast_to` does, because it passes `useBroadcastToShape`). A size of -1 that is no constant fails an assertion (`C88_violated_keep`), as do elementwise operations on dimensions of size one not known to be (`C88_violated_elementwise`); both are documented in the code. Under `isAssumingStrictSymbolicShapes` the theorems assume that no dimension of unknown size is broadcast. A size asked for that is not that of a static dimension of the input is not noticed if the type of the result does not say so; the theorems assume that the sizes can be broadcast.

*Views.* C89: whatever `ConvertAtenViewOp` makes is a view, but it need not be the one asked for: if two sizes of the input are not known, dimensions are taken to be unchanged one after the other, without a check if the size asked for is not a constant (`C89_violated_wrong`: 2 times 6 elements viewed as 3 times 4 stay 2 times 6; `C89_violated_invalid`: the cast to the type of the result fails); with a check, a valid program aborts (`C89_violated_aborts`). Views of empty tensors divide by zero in the compiler (`C89_violated_empty`, in `getMultiplier`; `C89_violated_empty_dynamic`, in `calculateSingleDynamicSize`), and sizes in between are computed in an `int` (`C89_violated_overflow`). The collapse of dimensions of unknown sizes to a scalar does not verify (`C89_violated_scalar`). The fallback divides by the product of the sizes given even if none is to be inferred (`C89_violated_reshape_zero`). A group without dimensions stands for a product of one in the model, as in the verifiers (`reshapeLikeShapesAreCompatible`).

*Squeezing.* C90: a dimension of unknown size is merged with its neighbour by a `collapse_shape` to the type of the neighbour, which does not verify if that size is known (`C90_violated_squeeze_dim_known`) or if there is no neighbour (`C90_violated_squeeze_dim_scalar`); if it turns out not to be one, the program aborts, where PyTorch leaves the tensor alone (`C90_violated_squeeze_dim_aborts`). `aten.squeeze` matches the sizes of the input with those of the result as numbers, unknown sizes included: of a dimension of unknown size one nothing or an invalid operation is made (`C90_violated_squeeze`, `C90_violated_squeeze_scalar`), and with a less precise type of the result the wrong dimensions are merged (`C90_violated_squeeze_wrong`: 1 times 3 times 4 elements become 1 times 12 instead of 3 times 4). `aten.unflatten.int` refines the input only if all sizes of the result are known (`C90_violated_unflatten`, `C90_violated_unflatten_other`), passes -1 on to `tensor.reshape` (`C90_violated_unflatten_infer`) and divides by zero next to an empty dimension (`C90_violated_unflatten_zero`).

*Decomposition of data movement.* C91: `narrow` adds the length to a negative start, so that a part counted from the end and going up to the end has the bounds `-n` and `0` and is empty (`C91_violated_narrow`). `roll` slices at the negated shift; a shift larger than the size is clamped and nothing moves (`C91_violated_roll_far`). `roll` without dimensions is an error (`C91_violated_roll_flat`). `hstack` makes scalars into vectors but looks at the type of rank zero and concatenates along dimension 1 (`C91_violated_hstack`). `select_scatter` at index -1 has the bounds -1 and 0 (`C91_violated_select_scatter`).

*Channel shuffle.* C92: the type of the split is (N, groups, C/groups, ...), but the number of parts given to `prims.split_dim` is C/groups, so that the result is the shuffle with C/groups groups, the inverse of what is wanted (`C92_channel_shuffle_other`, `C92_violated_channel_shuffle`). The lowering to linalg uses only the type and is right (`C92_channel_shuffle_lowered`); the lowering to StableHLO uses the argument.

*Poolings.* C93: the index of a greatest element that is NaN is -1, as it is looked for with an ordered comparison (`C93_violated_index_nan`). If all elements of a window are as low as the padding, the index found first is that of a position in the padding, negative in two dimensions (`C93_violated_index_low`). With different paddings before and after (which the importer of ONNX makes) and a dilation or ceil mode, `getPoolSize` ends the padded dimension after the padding that comes before it, and divides by too few positions with `count_include_pad` (`C93_violated_average`). Adaptive max pooling starts with an uninitialised index, which stays if all elements are minus infinity (`C93_violated_adaptive_index`), and passes over NaN (`C93_violated_adaptive_nan`).

*Indirect data movement.* C94: `aten.embedding_bag.padding_idx` ignores `padding_idx` and `per_sample_weights` (`C94_violated_bag_padding`, `C94_violated_bag_weights`). A dimension of an index that is not known and is one at run time is not broadcast: the assertion on equal sizes fails, or, under strict symbolic shapes, where there is none, the sizes are wrong (`C94_violated_index`). `aten.upsample_nearest2d` and its backward round the scale up, so only scales close to a whole number are right (`C94_upsample_exact` says how close), and resizing to fewer elements crops (`C94_violated_upsample`, `C94_violated_downsample`, `C94_violated_upsample_backward`).

*Reductions.* C95: `uint8` is extended with its sign when summed or multiplied as `int64`, since the original type is not passed on (`C95_violated_sum`); sums of eight bits of other elements, and `aten.max` and `aten.min` of eight bits, use a null value (`C95_crashes`). The initial value of `aten.max` and `aten.min` is chosen from the converted type, which has no sign, so the greatest `uint16` is never less than 32768 (`C95_violated_max`). `aten.any`, `aten.all` and `aten.any.dim` of `uint8` make IR of mixed types (`C95_violated_truth`). The refusal of norms of order zero and infinity looks for a torch constant in a converted operand and never applies; the norm of infinite order is always one (`C95_violated_norm`). `prims.prod` compares the unknown sizes of builtin and torch types, which are different numbers (`C95_violated_prims_prod`). The index of a greatest element that is NaN is not found (`C95_violated_max_dim`). Invalid dimensions in a list are dropped, repeated ones accepted; torch raises for both.

*Matrix products.* C96: batches are broadcast only by sizes known to be one; a size that is one at run time makes `linalg.batch_matmul` read outside of the operand (`C96_violated_broadcast`). The broadcast size is the greater one, so an empty batch against a batch of one is refused (`C96_violated_empty`). With two or more unknown sizes in a batch of rank two or more the generic operation multiplies with `arith.mulf`, also integers (`C96_violated_int_batches`). A result type that knows less than the operands fails verification of `tensor.expand_shape` (`C96_violated_result`). Sums of bytes are of 32 bits, and converting them to bytes uses a null value (`C96_violated_byte`). A vector with a batch of matrices is not lowered (`C96_violated_vector_batch`). Unsigned integers in `aten.matmul` and `aten.bmm` are extended with their sign, which is harmless modulo the width of the result (`C96_matmul_int_partial`).

*Padding and constructors.* C97: negative replication paddings, which crop in PyTorch, are ignored (`C97_violated_negative`). `aten.replication_pad2d` accepts any even number of paddings: with two it reads outside of their list, and from six on it ignores the rest (`C97_violated_pads`). `aten.arange.start_step` with a step away from the end makes a tensor of negative size where PyTorch raises an error (`C97_violated_direction`), computes the distance in the type of the result, so it wraps around (`C97_violated_distance`), and converts to bytes with a null type (`C97_violated_byte`).

*Convolutions.* C98: groups in three dimensions are lowered to a `linalg.generic` that multiplies with `arith.mulf` whatever the elements are, so integers do not verify (`C98_violated_integers`). The weight of a transposed convolution in groups has a dimension more than the depthwise case collapses, so it does not verify if each channel is known to be a group (`C98_violated_transposed_alone`). A transposed convolution crops only if the offset folds to a negative constant; with a kernel of unknown size it inserts at a negative offset (`C98_violated_crop_unknown`), and the buffer for cropping has no room for output padding beyond what is cropped (`C98_violated_crop_output`). Single parameters of a transposed convolution are not expanded beside a complete output padding, nor is a single output padding beside complete others (`C98_violated_canonicalize`).

*Gradients of convolutions.* C99: the padding of the gradient is checked to be non-negative only if it folds to a constant; with a kernel of unknown size and a larger padding the gradient is inserted at a negative offset (`C99_violated_padding`). With groups the result is collapsed directly to the type of the result, which does not verify if that type says less than the type of the operand (`C99_violated_type`).

*Unpoolings.* C100: the comment in the code calls its formula for the kernel size the biggest possible one; with `ceil_mode` the kernel can be larger. Windows of size three with stride two over four places pass the check, and an element from the place the windows share is lost (`C100_violated_ceil`). In two dimensions stride two is taken for granted without any check: elements of larger windows are lost (`C100_violated_window`), and for smaller windows `tensor.pad` is built with a negative number (`C100_violated_size`).

*Triangular indices.* C101: the types of the converted rows and columns and of the result are fixed to si64 (lines 1004-1061, 1202-1268), whatever the type of elements asked for; the verifiers of both operators allow int32 too, and then the type of the result differs from that of the operator that is replaced (`C101_violated_type`).

*Buckets, classes and evenly spaced numbers.* C102: `aten.bucketize` asks for the largest of as many elements as there are boundaries, and for the last of them (lines 3062-3072), so that it fails without boundaries, where everything is in bucket 0 (`C102_violated_empty`). `aten.one_hot` gives zeros for a class out of range (lines 11832-11833), where torch gives an error (`C102_violated_class`). `aten.linspace` of one number asserts that there is not one if the count is not a constant (lines 11019-11022, `C102_violated_dynamic`), and converts to integers only at the end (lines 11045-11058), where torch makes the limits integers first: three integers from 1/2 to 7/2 are 0, 2, 3 and not 0, 1, 3 (`C102_violated_limits`).

*Operators on single elements.* C103: `aten.softshrink` adds the negated limit to elements below it (lines 3336-3337), where the limit itself is to be added, as the comment above says (line 3292): -1 with the limit 1/2 becomes -3/2 and not -1/2 (`C103_violated_softshrink`, for all elements below the limit). `aten.leaky_relu` multiplies the slope with zero for elements above zero (lines 4274-4283), which spoils them if the slope is infinite (`C103_violated_slope`). `aten.nan_to_num` tests for infinite elements after it has replaced those that are not a number (lines 5700-5711), so that an infinite replacement is replaced again (`C103_violated_replaced`). `aten.fmod` multiplies zero with an infinite divisor (lines 10060-10063), where the remainder is the dividend (`C103_violated_fmod`). Not modelled, but seen: `aten.signbit` of integers is replaced, and the pattern then reports failure (lines 9950-9956).

*Adaptive pooling.* C104: in two dimensions, with an input of size 1 and a larger size asked for, the remainder is 1 and both assertions hold (lines 9665-9700), but the distance between windows is 1 // n = 0 (lines 9702-9704), which pooling does not allow; adaptive pooling repeats the element (`C104_violated_enlarged`). In one dimension, the assertion that the size stays is left out if shapes are assumed to be strict (line 9555), and the result then has the size of the input whatever was asked for (`C104_violated_strict`). A list of sizes that is not made in the program is not refused, but its elements are accessed (lines 9535-9536, 9644 and 9662-9663).

*Padding.* C105: if the mode is not `constant` and all pads are the constant zero, or there are none, the loop over the pads does not end at the beginning of the list: its index is unsigned and goes down by two, from 1 to 2^64 - 1 (lines 9338-9342), which is greater than zero, and the list is read there. So the branch that gives back the operand (lines 9343-9346) is never reached. `C105_violated_zero` and `C105_violated_self` prove this; `C105_pad_partial` needs a pad that is not zero. Subtracting would have to stop if `i` is 1.

*Identity matrices.* C106: the pattern for `aten.eye.m` has a case for results whose sizes are not known (lines 1738-1746), but reads the sizes of the result type at line 1773 without asking if there are any, which stops the compiler (`getSizes`, TorchTypes.h 63-66). `C106_violated_sizes` states this; `C106_eyeM_partial` needs the number of sizes. The test for truth values at line 1779 asks for the type of the argument `dtype`, which is an integer or none, so that branch is never taken.

*Real functions.* C107: the gradient of leaky_relu is computed as max(0, grad) + slope * min(0, self) (lines 4320-4328), where PyTorch has grad if self > 0 and slope * grad otherwise; it looks like a copy of the forward operator. Gradients below zero are lost, and below zero the element takes the place of the gradient (`C107_violated_leakyReluBackward`, `C107_violated_derivative`). rad2deg multiplies by 180 / 3.14159 (line 9808), which is off by more than six in ten millions for every angle but zero (`C107_violated_rad2deg`), while deg2rad uses pi. Seen, not modelled: both patterns for lerp give the difference of the ends the type of the start (lines 4648 and 4677), which is wrong if the start is broadcast.

*Test framework.* C48: negative, zero, infinite or NaN goldens; traces truncated by zip. C50: shared late-bound types, i64 as C int, bf16, functions without results.
Observations: sequential mode runs tests twice; an assertion outside the try escapes.

*Names, drivers.* C51/C65: dots in names; class names collide. C52: ordinary parameters passed by keyword get the default. C67: integer literals for float parameters, items of tensors, device indices.
C53: negative dynamic axes ignored; rank-0 placeholder traced as int64. C54: failing get_asm → UnboundLocalError; replaced stream → AttributeError.
