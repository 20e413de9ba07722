# Design of the formal model of stdnn-ops

The model lives in `lean/Verif`. `properties.jsonl` lists the properties, `MANIFEST.json` maps each to
the theorems that settle it, `seeded/LOG.jsonl` records mutation tests of the theorems, and
`AXIOMS.md` lists for every theorem of the manifest the axioms it depends on.

## Trusted base

1. **Lean 4.33.0's kernel** and the three standard axioms `propext`, `Classical.choice` and `Quot.sound`.
   There are no axioms of our own, no `sorry`, no `native_decide`, no `bv_decide`, no `implemented_by`.
   Mathlib is used as a library of proved theorems; its proofs are checked by the same kernel.
2. **The hand translation** from C++ in /repo to the definitions in `Verif/Model` and `Verif/Basic`.
   Every definition cites the lines it models and lists its simplifications.
3. **The semantics assumed for what is outside /repo:**
   * C++ integer arithmetic (`Verif/Basic/IntTy.lean`): unsigned wraps, signed overflow is undefined behaviour,
     division by zero is undefined behaviour, usual arithmetic conversions between types of equal rank.
     Types not narrower than `int` (so no integer promotion happens).
   * `stdtensor` v0.7.0 (an external dependency, absent from /repo): row-major shapes of `uint32_t` dims, unchecked
     `at`, `operator[]` sub-tensors, `flatten`, `slice`, `fill`, `argmax` (`std::max_element`), `hamming_distance`,
     `sum`, `cast`, `copy`. An access outside the owned buffer is modelled as undefined behaviour (`Outcome.ub`).
   * the C++ standard library (`std::sort` as any function that returns a sorted permutation, `std::transform`,
     `std::inner_product`, `std::accumulate`, streams, `stoll`), netlib BLAS (`gemm`, `gemv` in row-major
     order), and `ASSERT_FLOAT_EQ` of Google Test as documented (four units in the last place).
4. **Not covered at all:** memory exhaustion, and integer overflow of *flat offsets* inside stdtensor, except where a
   theorem states it (the 32-bit index map of C27).

## Shape of the model

* `Outcome α` = `ok a | throw e | ub`. C++ exceptions are `throw` with the exception class, undefined behaviour is `ub`,
  a property "returns normally" is always `= .ok _`; nothing is silently totalised.
* Dimension arithmetic: `Int` values paired with an `IntTy`; every operator of the traits is modelled through
  checked `IntTy` operations, so overflow is visible. Property theorems state the range hypothesis explicitly
  (`Fits`, `AxisOK`) and each such theorem has an example beside it that meets the hypothesis.
* Tensors: list of dims plus flat list of data. Kernels are the loops of the code with `get`/`set` returning `ub` out of range.
* Output tensors are state: a kernel gets the dims of its output and the flat buffer with its previous contents.
  Fresh allocations have arbitrary contents (`junk`), so a theorem about a fresh tensor also says that nothing uninitialised is read.
* Operators that may run in place (C21, C22, C81, C85) work on one flat memory in which operands are ranges (`Src`).
  `Model/Shared.lean` has the products, transposes, gradients, convolutions and pooling in this form as well (C165, C166).
* Threads (C168) take turns after every single read or write of an element; every access is atomic and seen by all later ones.
  C++ grants this to programs without data races, and that there is none is proved. Locks, atomics and weak memory are not
  modelled (the code has none), and neither are threads inside a BLAS library.
* Ownership (C84): an allocation counter stands for the raw pointers that the layers pass around.
* Element types: kernels are polymorphic with only notation classes (`Add`, `Mul`, `Zero`), so "bit for bit" claims hold
  for floating point; algebraic claims assume a (commutative) semiring or ring; analytic claims use `Real`.
  Claims about floating point itself (C93-C96) use the two rounding models of `Spec/Float.lean`: reals with a relative error
  per operation (`Fl`), and extended reals with NaN, infinities and any monotone rounding (`Ieee`).
* Files: a disk is a map from names to byte lists; streams are a byte list with a position and a fail bit; hosts have a byte order.
  The loop over the members of a tar file is a step function iterated with fuel; termination is a theorem, not an assumption.
* Specifications (`Verif/Spec`) are written over plain functions and `Finset` sums, without the model's helpers.
* Property theorems are in `Verif/Props`, one file per group, each followed by `example`s instantiating its hypotheses.

## What is modelled

Paths are relative to `include/ttl/nn/bits` unless they start with `include` or `examples`.

| module | code in /repo it cites |
|---|---|
| `Model/Activation` | `kernels/cpu/activation.hpp`, `kernels/cpu/loss.hpp`, `kernels/cpu/normalization.hpp`, `ops/activation.hpp`, `ops/bn.hpp`, `ops/gradients/matmul.hpp`, `ops/gradients/softmax.hpp`, `ops/gradients/xentropy.hpp`, `ops/loss.hpp`, `ops/reshape.hpp` |
| `Model/Compare` | `tests/testing.hpp` |
| `Model/Conv` | `kernels/cpu/conv2d.hpp`, `ops/conv1d.hpp`, `ops/conv2d.hpp`, `ops/conv2d_trait.hpp`, `ops/gradients/conv2d.hpp`, `ops/impl/conv1d.hpp`, `ops/reshape.hpp` |
| `Model/Convert` | `kernels/cpu/utility.hpp`, `ops/activation.hpp` |
| `Model/Elementwise` | `kernels/cpu/activation.hpp`, `kernels/cpu/bias.hpp`, `kernels/cpu/blas.hpp`, `kernels/cpu/concat.hpp`, `kernels/cpu/elementary.hpp`, `kernels/cpu/reduce.hpp`, `layers/dense.hpp`, `ops/activation.hpp`, `ops/bias.hpp`, `ops/blas.hpp`, `ops/bn.hpp`, `ops/elementary.hpp`, `ops/gradients/activation.hpp`, `ops/gradients/add.hpp`, `ops/gradients/bias.hpp`, `ops/gradients/mul.hpp`, `ops/gradients/reshape.hpp`, `ops/reshape.hpp`, `ops/transpose.hpp` |
| `Model/Engine` | `engines/cblas_impl.hpp`, `engines/linag.hpp`, `engines/plain_impl.hpp`, `kernels/cpu/blas.hpp`, `ops/blas.hpp` |
| `Model/EngineOrder` | `engines/cblas_impl.hpp` |
| `Model/Examples` | `examples/example_1.cpp`, `examples/example_layer_mlp.cpp`, `examples/example_mlp.cpp` |
| `Model/Factories` | `ops/conv2d_trait.hpp`, `ops/pool2d_trait.hpp`, `traits/linear_sample.hpp`, `traits/multi_linear_sample.hpp`, `traits/padding.hpp` |
| `Model/Files` | `examples/example_model_vgg16.cpp`, `kernels/cpu/io.hpp`, `layers/call.hpp`, `ops/io.hpp` |
| `Model/Functional` | `kernels/cpu/bias.hpp`, `kernels/cpu/concat.hpp`, `layers/concat.hpp`, `ops/concat.hpp` |
| `Model/Hash` | `kernels/cpu/hash.hpp`, `ops/hash.hpp` |
| `Model/IO` | `kernels/cpu/io.hpp`, `ops/io.hpp`, `ops/io_tar.hpp` |
| `Model/Im2col` | `kernels/cpu/col2im.hpp`, `kernels/cpu/im2col.hpp`, `ops/col2im.hpp`, `ops/col2im1d.hpp`, `ops/combinators.hpp`, `ops/im2col.hpp`, `ops/im2col1d.hpp`, `ops/impl/col2im1d.hpp`, `ops/impl/im2col1d.hpp`, `traits/conv_traits.hpp`, `traits/multi_linear_sample.hpp` |
| `Model/Layers` | `layers/activation.hpp`, `layers/bn.hpp`, `layers/call.hpp`, `layers/conv.hpp`, `layers/dense.hpp`, `layers/elementary.hpp`, `layers/layer.hpp`, `layers/pool.hpp`, `ops/activation.hpp`, `ops/conv2d.hpp`, `ops/elementary.hpp`, `ops/pool.hpp` |
| `Model/Layout` | `traits/basic_traits.hpp`, `traits/trait_algo.hpp` |
| `Model/Models` | `layers/dense.hpp`, `models/namescope.hpp`, `models/sequential.hpp` |
| `Model/Pool` | `kernels/cpu/pool.hpp`, `ops/pool.hpp`, `ops/pool2d_trait.hpp` |
| `Model/PoolInt` | `kernels/cpu/pool.hpp`, `ops/summary.hpp` |
| `Model/Shape` | `ops/bias.hpp`, `ops/blas.hpp`, `ops/concat.hpp`, `ops/reshape.hpp`, `ops/shape_algo.hpp`, `ops/std_function.hpp`, `ops/transpose.hpp` |
| `Model/Shared` | `engines/cblas_impl.hpp`, `engines/plain_impl.hpp`, `kernels/cpu/bias.hpp`, `kernels/cpu/conv2d.hpp`, `kernels/cpu/pool.hpp`, `kernels/cpu/reduce.hpp`, `ops/gradients/add.hpp`, `ops/gradients/bias.hpp`, `ops/gradients/conv2d.hpp`, `ops/gradients/matmul.hpp`, `ops/gradients/mul.hpp`, `ops/gradients/reshape.hpp`, `ops/gradients/softmax.hpp`, `ops/gradients/xentropy.hpp`, `ops/pool.hpp`, `ops/reshape.hpp`, `ops/transpose.hpp` |
| `Model/Show` | `benchmarks/common.hpp`, `tests/include/ttl/experimental/bits/show.hpp`, `tests/testing.hpp` |
| `Model/Testing` | `tests/testing.hpp` |
| `Model/Threads` | `engines/plain_impl.hpp`, `kernels/cpu/activation.hpp`, `kernels/cpu/bias.hpp`, `kernels/cpu/blas.hpp`, `kernels/cpu/conv2d.hpp`, `kernels/cpu/elementary.hpp`, `kernels/cpu/im2col.hpp`, `kernels/cpu/loss.hpp`, `kernels/cpu/pool.hpp`, `kernels/cpu/reduce.hpp`, `ops/elementary.hpp`, `ops/gradients/reshape.hpp`, `ops/gradients/softmax.hpp`, `ops/gradients/xentropy.hpp`, `ops/pool.hpp`, `ops/reshape.hpp`, `ops/transpose.hpp` |
| `Model/Train` | `examples/example_train_mnist_slp.cpp`, `ops/elementary.hpp`, `include/ttl/nn/experimental/bits/datasets/mnist.hpp` |
| `Model/Traits` | `traits/filter.hpp`, `traits/linear_sample.hpp`, `traits/multi_linear_sample.hpp`, `traits/padding.hpp` |
| `Model/Utility` | `kernels/cpu/init.hpp`, `kernels/cpu/utility.hpp`, `ops/init.hpp`, `ops/reduce.hpp`, `ops/summary.hpp`, `ops/utility.hpp` |
| `Model/UtilityOps` | `ops/reduce.hpp`, `ops/utility.hpp` |
| `Model/Vgg16` | `examples/example_layer_vgg16.cpp`, `examples/example_model_vgg16.cpp`, `examples/vgg16_common.hpp` |

Simplifications worth knowing (each is repeated at the definition):

* template instantiations are separate functions; overload resolution is not modelled;
* tar headers: the `int64` loads of mode, uid and gid are left out (their values are never used);
* a rank-0 idx file has a zero-length dims array; the product of dims read from a file is unbounded;
* layers: batch norm without bias is left out (it cannot be instantiated); the order in which the policies of a layer
  allocate is the order written in the source.

## What is not modelled

Printing by the examples (`printf`, `utils.hpp`), tracing (`trace.hpp`), the timing of the benchmark harness, performance,
template overload resolution, iostream locale, the texts of exceptions, the random generators behind `truncated_normal` (an
arbitrary stream of draws), the png output of `example_mnist.cpp`, and object lifetimes other than those of the tensors that
layers allocate (`basic_gradient_function` keeps a reference to the operator it is made from, so the operator must outlive it).
The code has no device kernels: everything it runs is on the host.

## Properties that are false of the code

The full statement stays in `properties.jsonl`; the negation is proved with a witness, and a `_partial` theorem (or a theorem that
says what the code does instead) is kept.

| property | what happens | witness | what holds |
|---|---|---|---|
| C05 | the usual convention `ceil(n/s)` | `C05_not_ceil` | `floor(n/s)` (the property is stated so) |
| C06 | unsigned dimension arithmetic wraps and is accepted | `C06_wraps_padding`, `C06_wraps_patch` | signed types; unsigned without wrap |
| C14 | channel sums above 2^32 wrap | `C14_wraps` | sums that fit |
| C27 | the index map is signed 32-bit | `C27_limit` | images up to 2^31 elements |
| C38 | a negative int sum is divided as unsigned; an empty window divides by zero | `C38_negative_mean`, `C38_empty_window` | non-negative sums, exact effect in general |
| C39 | 4-d pooling drops the padding | `C39_padding_dropped` | no padding in front; exact effect in general |
| C56 | labels are compared after narrowing | `C56_narrowing` | k representable in the label type |
| C67 | on a big-endian host dims come out reversed in bytes | `C67_big_endian_host` | little-endian hosts |
| C70 | a file cut inside the data is accepted | `C70_mixed` | cut inside the header is not accepted |
| C73 | negative member sizes seek backwards or loop for ever, large ones overflow | `C73_diverges_witness`, `C73_overflow_witness` | sizes in [0, 2^31 - 512] |
| C77 | a unit count above 2^32 - 1 is reduced | `C77_narrowed` | unit counts that fit |
| C79 | the default pooling layer rejects sides that are not multiples of the kernel | `C79_rejects` | multiples |
| C80 | integer mean pooling of an empty window is undefined | `C80_int_mean_pool_undefined` | every other operator |
| C82 | integer mean of a negative sum | `C82_int_negative` | fields |
| C83 | a failed write is not reported | `C83_effect` | writes that fit |
| C84 | an exception after the first allocation leaks | `C84_*_leaks` | calls that return |
| C85 | softmax as a layer activation runs in place and is wrong | `C85_softmax` | pointwise activations |
| C110 | a pooling layer counts padding in front as padding behind | `C110_padding_misplaced` | no padding in front |
| C121 | crc32_ieee misses some errors in an odd number of bits | `C121_odd_missed` | the other two polynomials (the property is stated so) |

## Plan per property

| id | modelled | proof |
|----|----------|-------|
| C01-C06 | `padding.hpp`, `filter.hpp`, `linear_sample.hpp` over `IntTy` | arithmetic (`omega`, `Nat.div` lemmas); C05 ceil claim and C06 refuted by witness, kept as `_partial` |
| C07-C14 | shape functions on dims lists | case analysis plus C01 |
| C15 | flatten/as_matrix as change of dims | row-major offset lemma by induction on rank |
| C16-C18 | built-in engine loops | loop invariant, law-free |
| C19 | `_gemm` argument computation, netlib gemm as specification function | equality of sums |
| C20 | corollary of C16 | semiring algebra |
| C21-C23 | elementwise loops with aliasing | loop invariant |
| C24-C25 | transpose and concat loops | loop invariant, store-only |
| C26-C30 | im2col, index map, col2im loops | store-only / accumulate loop lemmas, double counting |
| C31-C35 | conv kernels as composition of the above | C16 + C26/C27 |
| C36-C41 | accumulators and pool loops; 4-D wrappers | fold invariants; C38, C39 refuted by witness, kept as `_partial` |
| C42-C46 | gradient kernels | adjointness from C16, C29, C31 |
| C47-C50 | gradient kernels over `Real` | Mathlib `HasDerivAt`/`HasFDerivAt` |
| C51-C55 | activation, loss, batch norm | real analysis, loops |
| C56-C62 | utility, summary, init | list induction; C56 narrowing refuted for k out of label range |
| C63-C66 | crc on `BitVec w` | induction over bits and bytes; polynomial semantics over GF(2) |
| C67-C71 | serializer on byte lists, file system as map | list lemmas; C70 refuted (truncation is silent) |
| C72-C74 | tar index as a step relation on file position | induction over members; C73 termination refuted for negative sizes; an invariant for every file gives the ways in which indexing can end |
| C75-C76 | name scope stack, `sequential` as composition of layers | induction over the nesting and the list of layers |
| C77-C79 | dense, conv and pool layers, including parameter allocation and default arguments | composition of C16, C22, C31, C32, C36, C37; C79 refuted, partial for divisible sizes |
| C80 | every operator together with its shape function | one theorem per operator: on an output of the inferred shape the operator returns normally |
| C81 | softmax on one flat memory | loop invariant over the cells written so far; over the reals, entry by entry equality of sums of exponentials |
| C82 | `ops::mean` over fields and over `int` | sum loop; witness for negative sums |
| C83 | `ofstream` with a limited capacity | effect of a failed write; refuted, partial for writes that fit |
| C84 | allocation counter in the layers | counting; refuted by exceptions, partial for calls that return |
| C85 | layers with the activation run in place | C21 on flat memory; refuted for softmax, whose exact effect is C81_effect |
| C86 | batch norm layer | C55 plus the parameter policies |
| C87-C90 | pairs of convolution calls | both sides reduced to the sum of C31, C32, C35; sums reindexed |
| C91-C92 | nhwc convolution through im2col and the plain engine, without laws | the order of the loops; index arithmetic |
| C93 | the same kernels over reals with rounded operations (`Spec/Float.lean`) | induction over the summation order of C17, C91 |
| C94-C96 | kernels over IEEE-like numbers with NaN and infinities (`Spec/Float.lean`) | case analysis over special values, monotone rounding |
| C97 | `Model/Train.lean`: the training example | the kernels of C17, C48-C54, C82 composed; derivative of log-sum-exp along every line |
| C98-C99 | the same; batches, accuracy | loop invariant over the batches against `Spec.sgd`; C56, C57, C59 |
| C100 | `Mnist.load` over the disk model | C68-C70 |
| C101, C103 | `Model/Vgg16.lean`: the two image classification examples | C51, C58, C76-C79 composed layer by layer against `Spec/Vgg16.lean`; C103 by induction over the list of layers |
| C102 | `Vgg16.lines`, `Vgg16.readImage` | induction over the file; C22 |
| C104 | `Layers.concatChannel` | C25, C14 and `newResult` |
| C105 | `invoke`: shape, local tensor, operator | case analysis; `Safe` (C80) |
| C106 | `Kernels.applyBiases` | one loop lemma for any number of vectors; C22 |
| C107, C108 | `Models.composed` of layers | C77, C78, C86 and linearity of the sums |
| C109 | `Kernels.onehot`, `Ops.matmul` | C56, C16 |
| C110 | `Layers.pool` with any policy | C36, C37, C39 through one layer lemma; a witness for the misplaced padding |
| C111 | all layers, `Models.composed`, `Models.sequential`, `Vgg16.run` | one formula per example (C77, C86, C91, C51), closure under composition |
| C112 | `Kernels.cast` | loop lemma for stores |
| C113 | `Kernels.innerContraction`, `Kernels.outerContraction` | loop invariant; C17 for the product with ones |
| C114, C115 | `Layers.pool`, `Models.composed` | C79 and uniqueness of the tile maximum; sums over tiles |
| C116 | convolution kernels | reindexing the sum over channels; C91 for filters |
| C117 | convolution kernels, `Layers.conv`, `Models.composed` | reindexing of sums (C31, C32, C35, C78) |
| C118 | `Ops.tarInit`, `Ops.fileInit`, `Vgg16.run`, `Vgg16.readImage` | C68, C72 on the bytes of elements, C101, C102; inversion of a normal end for incomplete archives |
| C119 | `Kernels.innerContraction`, `outerContraction`, `Ops.mean`, `Layers.pool` with elements `Fl rnd` | summation order (C113, C82, C110), one rounding per step |
| C120 | `Layers.dense`, `Layers.conv`, `Layers.pool`, `Models.composed`, `Kernels.argmax` with elements `Fl rnd` | summation order (C77, C91), forward error analysis; `Accurate` composes |
| C121 | `Ops.crc` | C66; the order of X modulo each generator by verified repeated squaring (kernel computation) and the factorisation of the order; evaluation at 1 for odd errors |
| C122 | the operators of C80 | `Safe` asks for one result for all buffers; each operator's theorem gives its value in closed form, with no law assumed of the arithmetic |
| C123 | `convNhwc`, `convNchw`, `Conv1d.run`, `poolHw`, `Layers.pool` | exact cover puts the mirrored tap of the mirrored window at the mirrored position; sums over taps reflected and exchanged; for pooling the pixels under the window as a multiset |
| C124 | `Net`: any chain of operator calls and gradient operator calls over the operators modelled | `Spec/Backprop.lean` (transposed Fréchet derivative); chain rule by induction over the chain; each operator affine with its adjoint (C42-C46) or by C47-C49 row by row |
| C125 | `Examples.mlp`, `Examples.convs`, `Examples.layerMlp` for any sizes | `Spec/Examples.lean` (correlation with padding and stride, tile maximum); composition of C09, C10, C31, C51, C77-C79; two poolings by 2 are one by 4 |
| C126 | `Conv1d.shape`, `Conv1d.run`, `Ops.im2col1d`, `sampleCall` | `Spec/LinearSample.lean` transcribes doc/linear-sample.tex over lists; from C01, C26, C35 and a lemma on sums over an extended kernel |
| C127 | `Ops.softmax`, `Ops.xentropy`, `Layers.activation`, `Layers.batchNorm`, `Kernels.argmax` with elements `Fl rnd` | summation order (C51, C54, C86); numbers known up to a factor (`Spec.Factor`): products, quotients and sums of one sign keep it |
| C128 | `Kernels.concatNhwc/Nchw`, `Kernels.convNhwc/Nchw`, `Layers.concatChannel`, `Layers.pool` | sums over channels split (C31, C32); summation order (C91) for the bitwise part; pooling acts channel by channel |
| C129 | `Slp.step`, `Slp.train` | cross-entropy of softmax is convex and 1-smooth in the logits (tangent bound from exp x >= 1 + x, upper bound from Hoeffding's lemma in Mathlib); adjoint identity for the gradient; telescoping of squared distances over the steps given by C97 and C99 |
| C130 | `Plain.mm/mmt/mtm`, `Kernels.convNhwc/Nchw`, `Kernels.innerContraction/outerContraction`, `Layers.dense/conv/pool` with elements `Fl rnd` | summation order (C91, C113); every partial sum is an integer within the bound, so the embedding of the integers commutes with each step |
| C131 | the same with elements `BitVec w` | reduction modulo `2^w` commutes with sums and products |
| C132 | all operators the unit tests call | instances of C02, C16, C26, C28, C36, C51, C54; rearrangement by counting each value; the literal tests of /repo/tests are evaluated on the model by the kernel as examples |
| C133 | `Plain.mm/mmt/mtm`, `Kernels.convNhwc/Nchw`, `Kernels.innerContraction/outerContraction`, `Layers.dense` with elements `Signed w`, whose arithmetic marks overflow | summation order (C91, C113); by induction a marked sum is unmarked iff all terms and partial sums are in range |
| C134 | `Acc.meanInt`, `Ops.Summaries.meanInt` (integral promotion, addition in the promoted type, division in the common type with `uint32_t`) | pooling a window and averaging its pixels are the same fold; induction on the pixels; modular arithmetic |
| C135 | `Plain.mm/mmt/mtm`, `Kernels.convNhwc/Nchw`, `Kernels.innerContraction/outerContraction`, `Layers.dense` with elements `Ieee (F.arith bz)` | summation order (C91, C113); rounding to nearest has error at most `u·abs x + η`; induction on the terms with the bound kept below the overflow limit |
| C136 | `Layers.dense/conv/pool`, `Models.composed`, `Acc.max/mean`, `Kernels.argmax` with elements `Ieee (F.arith bz)` | affine forms from C135 with inputs that are off; exact maximum; means from the sum and one division; composition as in C120 with the no-overflow condition carried along |
| C137 | `Ops.argmax/onehot/meanOp/similarity` on tensors (`rowsOf` is `as_matrix<r, 1>`) | the matrix theorems C56, C57, C59, C82, and the row-major index of the leading axes |
| C138 | `Cblas.mmBy/mmtBy/mtmBy/mvBy/vmBy`: the wrapper on a BLAS whose order of summation is a tree `SumOrder` per entry | induction over the tree: exact sum by permutation of the leaves; error bound with the depth and the number of operations; integers stay representable; witness `1 + u + u` |
| C139 | `Kernels.convGradX/convGradY`, `Kernels.convNhwc` | the closed forms of C31, C45, C46; exact cover is symmetric in windows and taps; a one-axis lemma on the spread gradient under the mirrored tap |
| C140 | `Tar.parseHeader`, `Tar.stoll8`, `Tar.makeIndex`, `Ops.readtar` | `SizeField` in `Spec/IO.lean` (`Nat.ofDigits`); the conversion is characterised for every field; induction over the members in front |
| C141 | `Kernels.convNhwc/convNchw`, `Ops.poolNhwc/poolNchw` | the bit-exact closed form of C91 reads the pixels through `window` only; `PartOf` and shifts give equal windows; pooling from the list of pixels under a window |
| C142 | `Layers.conv`, `Layers.pool`, `Layers.batchNorm`, `Layers.activation`, `Models.sequential` | `Patchwise` says it of one layer without mentioning how; bit-exact forms of C91 and pixels under a window give it for layers; composition by uniqueness of results; induction over the layers with the closed formula of the receptive field |
| C143 | `Grad.matmul1`, `Grad.biasHw/biasNhwc`, `Kernels.convGradY`, `Slp.step` | closed forms of C42, C44, C46, C97 as sums over the examples; splitting and reordering of finite sums |
| C144 | `Layers.dense`, `Layers.conv`, `Layers.pool`, `Layers.batchNorm`, `Layers.activation`, `Models.sequential`, `Kernels.argmax` | `Stretch` says it of one layer; closed forms per example (C111) and bounds on sums, maxima and means; softmax as a logistic function of the log of the other terms, whose slope is at most 1/4; induction over layers; margin argument for the class |
| C145 | `Slp.step` with elements `Fl rnd` | the step in the order of its operations (C145_order, any arithmetic); relative errors of the gradient of softmax and cross entropy with respect to a score, where the prediction cancels; bounds on rounded sums (C93, C127); descent from smoothness of the loss (C129) and the three-point identity of distances |
| C146 | `dense`, `conv` layers in a row | one sum over the units of one hidden layer, regrouped by the unit they copy; reordering and pruning are special cases |
| C147 | `Slp.step`, `Slp.train`, `Slp.test` | a wrongly classified row has probability at most 1/2 at its label, so its loss is at least log 2; with the convergence and regret bounds of C129 |
| C148 | `dense`, `conv`, `batchNorm` layers | one sum over the taps, split into the scaled image and the offset; without padding every tap is inside; the counterexample compares border and middle pixels |
| C149 | `dense`, `conv`, `pool`, activations, `composed`, `sequential` over any element type | the sums of C77 and C91 and the folds of pooling, in the order of the code, related term by term |
| C150 | `dense`, `conv`, `pool`, activations, `composed`, `sequential` over reals and dual numbers | the law-free sums and folds of C77, C91 and pooling, term by term; at a tie the greater of two curves is (a+b+abs(a-b))/2, whose one-sided derivative exists |
| C151 | the two-operand operators and their gradient operators, programs on a memory of tensors, accumulation by `ops::add` in place | a call is a stage on the whole memory; the partial gradients of C124 and joint differentiability give its derivative, and C124 chains the stages |
| C152 | dense, convolution, pooling, batch-normalisation and activation layers, reshaping, composition and `sequential` | A layer is given as a function of each example (C118) that agrees at every example with one of N affine maps; affine maps compose by multiplying the weight matrices; the pieces of a composition are pairs of pieces; a layer with one piece is run against the dense layer with its weights; XOR by the affine identity on the four corners, squares by the pigeonhole principle. |
| C153 | the same layers and networks as C152 | the affine maps of C152 keep mixtures and, with weights that are not negative, order; max pooling by induction over the pixels of a window; a layer that is convex and rises keeps the inequality of the layer before it; the minimum by mixing a little of the other example in. |
| C154 | dense, convolution, pooling and activation layers, composition, `sequential`, `argmax`, on the binary formats of IEEE 754 | Rounding to p bits without limits on the exponent commutes with powers of two and is the rounding of the format in the normal range; the layers are run a second time on numbers with that rounding and a flag (C149 relates both runs, and the runs for the two inputs); the counterexample by computation with the least subnormal number. |
| C155 | `gen_test_tensor`, `test_all_permutations` with `std::next_permutation`, `fast_is_permutation` | `nextPermutation` gives the least greater rearrangement, by induction over the ends of the list; so the loop lists all rearrangements in order, each once (induction on the number of greater ones); loop invariants for the generator and for the bit vector, then a list without repetitions inside a list of the same length is a rearrangement of it. |
| C156 | convolution, pooling, batch normalisation, activation and dense layers in both layouts, composition, `sequential`, the transposition operator | The layer formulas of C78, C86 and C110 give the same numbers at transposed positions; composition keeps this; the sum of the dense layer is split into sums over rows, columns and channels; the orders of C91 coincide with one channel or a 1 by 1 kernel; the counterexample with the numbers 1, u, -1, 0 in both orders. |
| C157 | `dense`, `conv`, activation layers, `sequential` against chains of operator calls and their gradient operators | The layer formulas of C77 and C91 are those of the calls; along a line the one-sided derivative (C150) and the derivative of the chain (C124) are unique, hence equal; at the kink both are computed. |
| C158 | the functions that build paddings from numbers (conversion to the dimension type), with the kernels of C25-C36 and the one-dimensional operators | kernels are run for an abstract way of locating taps (`Grid`); modular arithmetic of `uint32_t` shows where a tap is located for paddings of either sign; `C158_no_crop` is a concrete image that is blanked instead of cropped |
| C159 | conversions of C++ between integer types and binary formats, `ops::cast` with conversions that may be undefined, `relu_scalar` through `double` (`Model/Convert.lean`) | the numbers that round up to a power of two are those from the middle below it (`nearest_top`); everything else from nearest-number lemmas of C135; argmax by C57 twice |
| C160 | signed integers with overflow as a mark (C133), order and division on them; the layer models of C77 and C110 at integers and at real numbers | a relation between integers and reals (`Stands`: scale, bound, error) is carried by every layer (`Carries` of C149); the sum lemma `stands_sum` splits the error of a product; pooling by `pool_carries` on nonempty windows |
| C161 | `assert_eq`, `assert_tensor_eq`, `view_bytes`, `bytes_eq` on bit patterns (`Model/Compare.lean`); the encoding of IEEE 754 (`Spec/Bits.lean`) | magnitudes are the numbers of the format in their order (`ofMagnitude_strictMono`, `exists_magnitude`), so that the distance of biased patterns counts values (`steps_pos`); one step is one unit in the last place (`ofMagnitude_succ`), which gives the error bounds; loops by invariants |
| C162 | `show`, `show_tensor`, `scalar_type_name`, `data_size` as texts (`Model/Show.lean`) | the loops print joined words (`print_loop`); a word ends at the first separator (`word_end`), so lines determine their words (`line_inj`); decimal digits by `Nat.ofDigits_digits` |
| C163 | `col2im`, `col2im1d`, `grad::conv` (as in C28, C45, C46), any element type with + and * | the loops as left folds over the list of taps on a pixel (`Lemmas/Scatter.lean`); at most one window per tap hits a pixel; induction over the list with terms that carry errors (`listSum_error`, `listSum_err`) |
| C164 | `col2im`, `col2im1d`, `origin_size`, `grad::conv` with wrapped paddings | the loops of C163 for any way of locating taps (`Lemmas/GridGrad.lean`), with the taps located as in C158 (`zgrid`); the transpose by exchanging sums (`Grid.scattered_adjoint`) |
| C165 | products of `plain_impl` and `transpose` with inputs at any address of the output memory (`Model/Shared.lean`) | loops that read what they wrote as a recursion (`run_seen1`, `run_seen2`); with separate inputs a simulation of the kernels of the other claims on a slice (`Lift`) |
| C166 | gradients, `conv2d`, `grad::conv`, `pool` with inputs at any address of the output memory (`Model/Shared.lean`) | invariants of loops that leave the memory from the current entry or block on alone (`run_store`, `run_blocks`); convolution by simulation on a slice (`convNhwc_lift`, `convNchw_lift`); witnesses for the wrong cases |
| C167 | gradients of losses, biases and dense layers in rounded arithmetic (`Fl rnd`) | inner products of numbers known up to some roundings (`dot_rel`), induction over the layers |
| C168 | operators as programs of element reads and writes, threads that take turns (`Model/Threads.lean`) | every program stays in its inputs and output and has the effect of the one-thread model; then induction over the turns: each thread is where it would be alone |
| C169 | the list of accesses of a thread (`Prog.trace`) | by recursion on the program: whatever it reads, the accesses are the given list and it returns; composes over loops; in any interleaving a thread works through its list |
| C170 | as C145, steps repeated (`forRange`) | the bounds of C145 made uniform over parameters up to M, summed over the steps; convexity and the Cauchy-Schwarz inequality for the loss |
| C171 | a network as calls of the thread model on its own examples (`Net.calls`), specified by its value at one example (`Net.row`) | every operator acts on the rows of its share as on those of the whole batch; then C168 and C169 |
| C172 | softmax regression as calls of the thread model on a share of the examples, with own buffers for the gradients (`Regr.calls`) | the effect of one thread call by call, C168 and C169 for all; then the sum over the shares is the sum over the batch, whose derivative is C97 |
| C173 | as C145; `Slp.train` for whole runs | the sum in a computed softmax is not much less than its own term, about 1; induction over the steps |
| C174 | as C172, in rounded arithmetic; the caller adds the buffers by calls of `add` (`addAll`) | C172 for every buffer, C93's bound for its sum, induction over the calls of `add` with the error and the size of what is summed |
| C175 | `Regr.step`: the threads of C172, then calls of `sub` (`subAll`); `Slp.step` of the example as the sequential step | C172 for the sum of the gradients, induction over the calls of `sub`; then induction over the steps with the same weights and bias on both sides, C97 for the sequential step; in rounded arithmetic the bound of C174, since subtracting is adding the negative; determinism from C168, cell by cell |
| C176 | `Races`: a reachable state in which two threads are about to access one element and one to write it; threads and accesses as in C168 and C169 | C169 gives the next access after any turns, so a clash is reached by running one thread to its access and then the other to its; without clashes the locality invariant of C168 holds with the listed accesses as the cells read and written |

## Mutation testing

`seeded/LOG.jsonl` has one line per attempt. Each mutant is one realistic edit of one definition in `Verif/Model`, applied to a
copy of the project outside /verif. The copy is rebuilt; every theorem whose proof fails is recorded and replaced by `sorry`, the
build continues, and at the end each theorem of the manifest is asked whether it depends on `sorryAx`. A claim that is
false for the mutant although all of its theorems survive is a gap; the theorem is then tightened and the tightened theorem named in the line.
Mutants that change nothing observable are kept as controls ("claim": "none").
A failing proof alone does not show that the statement became false; the log therefore also names the claim that the edit breaks.
